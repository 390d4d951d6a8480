import Verif.Proofs.SimpleSet
/-!
# Equality with a `PartialEq` that may panic
-/
namespace BST
open Spec (Compared AgreeBelow entryAnswer)
variable {α K V T : Type}

/-- The outcome of one comparison. -/
def Out.ofAnswer : Option Bool → Out Bool
  | some b => .ok b
  | none => .panic

theorem entryEq_eq (keq : Nat → K → K → Option Bool) (veq : Nat → V → V → Option Bool) :
    BSTMap.entryEq keq veq = fun n x y => .ofAnswer (entryAnswer keq veq n x y) := by
  funext n x y
  unfold BSTMap.entryEq entryAnswer
  rcases keq n x.1 y.1 with _ | _ | _
  · rfl
  · rfl
  · rw [if_pos rfl]
    show (match veq n x.2 y.2 with | none => Out.panic | some b => .ok b) = _
    cases veq n x.2 y.2 <;> rfl

theorem simplePairs_eq (same : Nat → α → α → Out Bool) (n : Nat) (a b : List α) :
    Simple.Map.allPairs same n a b = allPairs same n a b := by
  induction a generalizing n b with
  | nil => rfl
  | cons x a ih =>
    cases b with
    | nil => rfl
    | cons y b => unfold Simple.Map.allPairs allPairs; simp only [ih]

theorem allPairs_compared {ans : Nat → α → α → Option Bool} (n : Nat) {a b : List α}
    (hl : a.length = b.length) :
    Compared (fun i => ans (n + i)) a b (allPairs (fun i x y => .ofAnswer (ans i x y)) n a b) := by
  induction a generalizing n b with
  | nil =>
    cases b with
    | nil => exact ⟨rfl, fun i hi => absurd hi (Nat.not_lt_zero i)⟩
    | cons => cases hl
  | cons x a ih =>
    cases b with
    | nil => cases hl
    | cons y b =>
      have hl' : a.length = b.length := by simpa using hl
      have none_below : AgreeBelow (fun i => ans (n + i)) (x :: a) (y :: b) 0 :=
        fun i hi => absurd hi (Nat.not_lt_zero i)
      unfold allPairs
      rcases hc : ans n x y with _ | _ | _
      · exact ⟨hl, 0, x, y, rfl, rfl, none_below, hc⟩
      · exact .inr ⟨0, x, y, rfl, rfl, none_below, hc⟩
      · rw [show Out.ofAnswer (some true) = .ok true from rfl, Out.ok_bind, if_pos rfl]
        have key := ih (n + 1) hl'
        have below : ∀ {i}, AgreeBelow (fun i => ans (n + 1 + i)) a b i →
            AgreeBelow (fun i => ans (n + i)) (x :: a) (y :: b) (i + 1) := by
          intro i h j hj u v hu hv
          cases j with
          | zero => cases hu; cases hv; exact hc
          | succ j =>
            have : ans (n + 1 + j) u v = some true := h j (by omega) u v hu hv
            rwa [Nat.add_right_comm] at this
        have shift : ∀ i {u v}, ans (n + (i + 1)) u v = ans (n + 1 + i) u v := by
          intro i u v; rw [Nat.add_right_comm]; rfl
        generalize allPairs (fun i x y => Out.ofAnswer (ans i x y)) (n + 1) a b = o at key ⊢
        match o, key with
        | .ok true, key => exact ⟨hl, below key.2⟩
        | .ok false, key =>
          rcases key with key | ⟨i, u, v, h1, h2, h3, h4⟩
          · exact absurd hl' key
          · exact .inr ⟨i + 1, u, v, h1, h2, below h3, (shift i).trans h4⟩
        | .panic, key =>
          obtain ⟨_, i, u, v, h1, h2, h3, h4⟩ := key
          exact ⟨hl, i + 1, u, v, h1, h2, below h3, (shift i).trans h4⟩

theorem compared_if {ans : Nat → α → α → Option Bool} {a b : List α} {o : Out Bool}
    (h : o = if a.length = b.length then allPairs (fun i x y => .ofAnswer (ans i x y)) 0 a b
      else .ok false) : Compared ans a b o := by
  subst h
  split
  · rename_i h
    have := allPairs_compared (ans := ans) 0 h
    simpa only [Nat.zero_add] using this
  · rename_i h
    exact .inl h

/-- The same for what a function makes of the elements. -/
theorem Compared.map {β : Type} {ans : Nat → α → α → Option Bool} {ans' : Nat → β → β → Option Bool}
    {g : α → β} (hg : ∀ i x y, ans i x y = ans' i (g x) (g y)) {a b : List α} {o : Out Bool}
    (h : Compared ans a b o) : Compared ans' (a.map g) (b.map g) o := by
  have below : ∀ {n}, AgreeBelow ans a b n → AgreeBelow ans' (a.map g) (b.map g) n := by
    intro n h i hi x y hx hy
    rw [List.getElem?_map, Option.map_eq_some_iff] at hx hy
    obtain ⟨u, hu, rfl⟩ := hx
    obtain ⟨v, hv, rfl⟩ := hy
    rw [← hg]; exact h i hi u v hu hv
  have at_ : ∀ {l : List α} {i : Nat} {u : α}, l[i]? = some u → (l.map g)[i]? = some (g u) := by
    intro l i u h; rw [List.getElem?_map, h]; rfl
  match o, h with
  | .ok true, h => exact ⟨by simpa using h.1, by rw [List.length_map]; exact below h.2⟩
  | .ok false, h =>
    rcases h with h | ⟨i, u, v, h1, h2, h3, h4⟩
    · exact .inl (by simpa using h)
    · exact .inr ⟨i, _, _, at_ h1, at_ h2, below h3, (hg ..).symm.trans h4⟩
  | .panic, h =>
    obtain ⟨hl, i, u, v, h1, h2, h3, h4⟩ := h
    exact ⟨by simpa using hl, i, _, _, at_ h1, at_ h2, below h3, (hg ..).symm.trans h4⟩

theorem entryAnswer_unit (teq : Nat → T → T → Option Bool) (i : Nat) (x y : T × Unit) :
    entryAnswer teq (fun _ _ _ => some true) i x y = teq i x.1 y.1 := by
  unfold entryAnswer
  split
  · rename_i h; exact h.symm
  · rfl

/-- `Compared` allows one outcome only. -/
theorem compared_unique {α : Type} {ans : Nat → α → α → Option Bool} {la lb : List α} {o o' : Out Bool}
    (h : Compared ans la lb o) (h' : Compared ans la lb o') : o = o' := by
  have first : ∀ {i j : Nat} {x y u v : α} {r s : Option Bool}, la[i]? = some x → lb[i]? = some y →
      AgreeBelow ans la lb i → ans i x y = r → la[j]? = some u → lb[j]? = some v →
      AgreeBelow ans la lb j → ans j u v = s → r ≠ some true → s ≠ some true → r = s := by
    intro i j x y u v r s h1 h2 h3 h4 g1 g2 g3 g4 hr hs
    rcases Nat.lt_trichotomy i j with hij | rfl | hij
    · exact absurd (h4.symm.trans (g3 i hij x y h1 h2)) hr
    · cases h1.symm.trans g1; cases h2.symm.trans g2; exact h4.symm.trans g4
    · exact absurd (g4.symm.trans (h3 j hij u v g1 g2)) hs
  have whole : ∀ {i : Nat} {x y : α} {r : Option Bool}, AgreeBelow ans la lb la.length →
      la[i]? = some x → lb[i]? = some y → ans i x y = r → r = some true := by
    intro i x y r h h1 h2 h3
    exact h3.symm.trans (h i (List.getElem?_eq_some_iff.1 h1).1 x y h1 h2)
  match o, o', h, h' with
  | .ok true, .ok true, _, _ => rfl
  | .ok false, .ok false, _, _ => rfl
  | .panic, .panic, _, _ => rfl
  | .ok true, .ok false, h, h' =>
    rcases h' with h' | ⟨i, x, y, h1, h2, _, h3⟩
    · exact absurd h.1 h'
    · cases whole h.2 h1 h2 h3
  | .ok false, .ok true, h', h =>
    rcases h' with h' | ⟨i, x, y, h1, h2, _, h3⟩
    · exact absurd h.1 h'
    · cases whole h.2 h1 h2 h3
  | .ok true, .panic, h, ⟨_, i, x, y, h1, h2, _, h3⟩ => cases whole h.2 h1 h2 h3
  | .panic, .ok true, ⟨_, i, x, y, h1, h2, _, h3⟩, h => cases whole h.2 h1 h2 h3
  | .ok false, .panic, h, ⟨hl, j, u, v, g1, g2, g3, g4⟩ =>
    rcases h with h | ⟨i, x, y, h1, h2, h3, h4⟩
    · exact absurd hl h
    · cases first h1 h2 h3 h4 g1 g2 g3 g4 (by simp) (by simp)
  | .panic, .ok false, ⟨hl, j, u, v, g1, g2, g3, g4⟩, h =>
    rcases h with h | ⟨i, x, y, h1, h2, h3, h4⟩
    · exact absurd hl h
    · cases first h1 h2 h3 h4 g1 g2 g3 g4 (by simp) (by simp)

/-! ### Nodes of `simple_bst` -/

theorem Link.eq_iff {keq : K → K → Bool} {veq : V → V → Bool} (t u : Simple.Link K V) :
    t.eq keq veq u = true ↔ t.view.map (fun _ => ()) = u.view.map (fun _ => ()) ∧
      Spec.sameBy keq veq t.view.pre u.view.pre = true := by
  have app : ∀ {a b c d : List (K × V)}, a.length = c.length →
      (Spec.sameBy keq veq (a ++ b) (c ++ d) = (Spec.sameBy keq veq a c && Spec.sameBy keq veq b d)) := by
    intro a
    induction a with
    | nil => intro b c d h; cases c with
      | nil => simp [Spec.sameBy]
      | cons => cases h
    | cons x a ih => intro b c d h; cases c with
      | nil => cases h
      | cons y c =>
        simp only [List.cons_append, Spec.sameBy, ih (by simpa using h), Bool.and_assoc]
  have len : ∀ {a b : Spec.BT (K × V)}, a.map (fun _ => ()) = b.map (fun _ => ()) →
      a.pre.length = b.pre.length := by
    intro a
    induction a with
    | nil => intro b h; cases b with
      | nil => rfl
      | node => cases h
    | node l x r ihl ihr => intro b h; cases b with
      | nil => cases h
      | node l' y r' =>
        injection h with h1 _ h2
        simp [Spec.BT.pre, ihl h1, ihr h2]
  induction t generalizing u with
  | nil => cases u <;> simp [Simple.Link.eq, Simple.Link.view, Spec.BT.map, Spec.BT.pre, Spec.sameBy]
  | node k v l r ihl ihr =>
    cases u with
    | nil => simp [Simple.Link.eq, Simple.Link.view, Spec.BT.map]
    | node k' v' l' r' =>
      simp only [Simple.Link.eq, Bool.and_eq_true, ihl, ihr, Simple.Link.view, Spec.BT.map,
        Spec.BT.pre, Spec.sameBy]
      constructor
      · rintro ⟨⟨⟨h1, h2⟩, h3, h4⟩, h5, h6⟩
        exact ⟨by rw [h3, h5], ⟨h1, h2⟩, by rw [app (len h3), h4, h6]; rfl⟩
      · rintro ⟨h1, ⟨h2, h3⟩, h4⟩
        injection h1 with h5 _ h6
        rw [app (len h5), Bool.and_eq_true] at h4
        exact ⟨⟨⟨h2, h3⟩, h5, h4.1⟩, h6, h4.2⟩

theorem ref_of {t : Simple.Link K V} {q : Simple.Place} {p : List Bool} {a : Simple.Ref K V}
    (h : Simple.goRef p (Simple.Ref.of q t) = some a) :
    t.at' p = .node a.key a.value a.left a.right := by
  rw [Simple.goRef_eq] at h
  cases ht : t.at' p with
  | nil => rw [ht] at h; cases h
  | node k v l r => rw [ht] at h; cases h; rfl

theorem nodeEq_link {t u : Simple.Link K V} {p p' q q' : List Bool} {a b : Simple.Ref K V}
    {keq : K → K → Bool} {veq : V → V → Bool}
    (ha : Simple.goRef p (Simple.Ref.of q t) = some a)
    (hb : Simple.goRef p' (Simple.Ref.of q' u) = some b) :
    (t.at' p).eq keq veq (u.at' p') = a.eq keq veq b := by
  rw [ref_of ha, ref_of hb]; rfl

theorem link_at (p : List Bool) (t : Tree K V) : t.link.at' p = (t.sub p).link := by
  induction p generalizing t with
  | nil => cases t <;> rfl
  | cons b p ih =>
    cases t with
    | leaf => rfl
    | node q l k v r => cases b <;> exact ih _

/-- The node of a `BSTMap` that corresponds to a node of a `SimpleBSTMap`. -/
theorem node_twin {cfg : Cfg} {m : BSTMap K V} {t : Tree K V} {n : Simple.Map K V}
    (h : Shape cfg m t) (hn : n.root = t.link) {p : List Bool} {a : Simple.Ref K V}
    (ha : Simple.nodeAt p n = some a) :
    ∃ na, nodeAt p m = .ok (some na) ∧ na.key = a.key ∧ na.value = a.value := by
  have h1 := ref_of (q := []) (t := n.root) ha
  have h2 : (t.sub p).link = .node a.key a.value a.left a.right := by
    rw [← h1, hn, link_at]
  rw [nodeAt_ok h]
  cases hs : t.sub p with
  | leaf => rw [hs] at h2; cases h2
  | node q l k v r => rw [hs] at h2; injection h2 with h3 h4; exact ⟨_, rfl, h3, h4⟩

end BST
