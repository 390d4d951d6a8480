import Verif.Proofs.Compare
import Verif.Proofs.Storage
import Verif.Proofs.Nodes
import Verif.Proofs.SetHistory
import Verif.Model.NodeEq
import Verif.Equality
/-!
# `==` of nodes and arenas with a `PartialEq` that may panic
-/
namespace BST
open Spec (Compared AgreeBelow entryAnswer Scanned markAnswer)
variable {α K V T : Type}

/-! ### `bst` -/

theorem entryAsk_eq (keq : K → K → Option Bool) (veq : V → V → Option Bool) (x y : K × V) :
    BSTMap.entryEq (fun _ => keq) (fun _ => veq) 0 x y =
      .ofAnswer (entryAnswer (fun _ => keq) (fun _ => veq) 0 x y) := by rw [entryEq_eq]

/-- Handles of one map have the same address iff the same path leads to them. -/
theorem nodeAt_ptr {cfg : Cfg} {m : BSTMap K V} {t : Tree K V} (h : Shape cfg m t)
    {pa pb : List Bool} {a b : Node K V} (ha : nodeAt pa m = .ok (some a))
    (hb : nodeAt pb m = .ok (some b)) : a.ptr = b.ptr ↔ pa = pb := by
  rw [nodeAt_ok h] at ha hb
  constructor
  · intro hp
    cases hs : t.sub pa with
    | leaf => rw [hs] at ha; cases ha
    | node p l k v r =>
      cases hs' : t.sub pb with
      | leaf => rw [hs'] at hb; cases hb
      | node p' l' k' v' r' =>
        rw [hs] at ha
        rw [hs'] at hb
        cases ha; cases hb
        cases (show p = p' from hp)
        exact Tree.sub_unique h.nodup hs hs'
  · rintro rfl
    rw [ha] at hb
    cases hb
    rfl

theorem nodeMutAt_ptr {cfg : Cfg} {m m1 m2 : BSTMap K V} {t : Tree K V} (h : Shape cfg m t)
    {pa pb : List Bool} {a b : NodeMut} (ha : nodeMutAt pa m = (.ok (some a), m1))
    (hb : nodeMutAt pb m = (.ok (some b), m2)) : a.ptr = b.ptr ↔ pa = pb := by
  rw [nodeMutAt_ok h] at ha hb
  constructor
  · intro hp
    cases hs : t.sub pa with
    | leaf => rw [hs] at ha; cases ha
    | node p l k v r =>
      cases hs' : t.sub pb with
      | leaf => rw [hs'] at hb; cases hb
      | node p' l' k' v' r' =>
        rw [hs] at ha
        rw [hs'] at hb
        cases ha; cases hb
        cases (show p = p' from hp)
        exact Tree.sub_unique h.nodup hs hs'
  · rintro rfl
    rw [ha] at hb
    cases hb
    rfl

/-- `==` of two handles. -/
theorem nodeAsk_eq {cfg : Cfg} {m m' : BSTMap K V} {t : Tree K V} (h : Shape cfg m t)
    {pa pb : List Bool} {a b : Node K V} (ha : nodeAt pa m = .ok (some a))
    (hb : nodeAt pb m' = .ok (some b)) (same : Bool) (hsame : same = true → m = m')
    (keq : K → K → Option Bool) (veq : V → V → Option Bool) :
    a.eqAsk keq veq same b =
      if same = true ∧ pa = pb then .ok true
      else match keq a.key b.key with
        | none => .panic
        | some false => .ok false
        | some true =>
          match veq a.value b.value with
          | none => .panic
          | some r => .ok r := by
  unfold Node.eqAsk
  cases same with
  | false => simp; rfl
  | true =>
    cases hsame rfl
    have := nodeAt_ptr h ha hb
    by_cases hp : a.ptr = b.ptr
    · simp [hp, this.1 hp]
    · simp [hp, mt this.2 hp]; rfl

theorem setNodeAt_eq (path : List Bool) (s : BSTSet T) : setNodeAt path s = nodeAt path s.items := by
  unfold setNodeAt nodeAt BSTSet.rootNode
  congr 1; funext n; exact goSetNode_eq s path n

/-! ### The arena -/

namespace Arena
variable {cfg : Cfg} {a : Arena T} {l : List (Ptr × T)}

theorem Holds.eqAsk_loop {b : Arena T} (veq : Nat → T → T → Option Bool) (hi : a.Inv cfg) (hj : b.Inv cfg) :
    ∀ {m x n y : List (Ptr × T)} (fuel : Nat), a.Holds (x ++ m) → b.Holds (y ++ n) →
      m.length = n.length → m.length < fuel →
    loop fuel (fun (st : Nat × Iter × Iter) => (do
      let (x, i) ← st.2.1.next cfg a
      match x with
      | none => pure (.inr true)
      | some v1 =>
        let (y, j) ← st.2.2.next cfg b
        match y with
        | none => pure (.inr true)
        | some v2 =>
          match veq st.1 v1 v2 with
          | none => .panic
          | some true => pure (.inl (st.1 + 1, i, j))
          | some false => pure (.inr false) :
        Out ((Nat × Iter × Iter) ⊕ Bool)))
      (x.length, ⟨x.length, x.length + m.length⟩, ⟨y.length, y.length + n.length⟩) =
    allPairs (fun i v w => .ofAnswer (veq i v w)) x.length (m.map (·.2)) (n.map (·.2)) := by
  intro m
  induction m with
  | nil =>
    intro x n y fuel h h' hl hf
    obtain ⟨k, rfl⟩ : ∃ k, fuel = k + 1 := ⟨fuel - 1, by omega⟩
    have h1 := (Holds.next (x := x) (m := []) (y := []) (by simpa using h) hi).1
    rw [loopO_inr (a := true)]
    · rfl
    · simp only [Iter.next, List.length_nil, Nat.add_zero] at h1 ⊢
      rw [h1]
      rfl
  | cons e m ih =>
    intro x n y fuel h h' hl hf
    obtain ⟨k, rfl⟩ : ∃ k, fuel = k + 1 := ⟨fuel - 1, by omega⟩
    cases n with
    | nil => cases hl
    | cons f n =>
      have h1 := (Holds.next (x := x) (m := e :: m) (y := []) (by simpa using h) hi).1
      have h2 := (Holds.next (x := y) (m := f :: n) (y := []) (by simpa using h') hj).1
      simp only [List.map_cons, allPairs]
      rcases hv : veq x.length e.2 f.2 with _ | _ | _
      · rw [loopO_panic]
        · rfl
        · simp only [Iter.next, List.length_cons] at h1 h2 ⊢
          rw [h1]
          simp only [Out.ok_bind, Out.pure_eq, List.head?_cons, Option.map_some]
          rw [h2]
          simp [hv]
      · rw [loopO_inr (a := false)]
        · rfl
        · simp only [Iter.next, List.length_cons] at h1 h2 ⊢
          rw [h1]
          simp only [Out.ok_bind, Out.pure_eq, List.head?_cons, Option.map_some]
          rw [h2]
          simp [hv]
      · have := ih (x := x ++ [e]) (n := n) (y := y ++ [f]) k (by simpa using h) (by simpa using h')
          (by simpa using hl) (by simpa using hf)
        rw [loopO_inl (b' := ((x ++ [e]).length, ⟨(x ++ [e]).length, (x ++ [e]).length + m.length⟩,
          ⟨(y ++ [f]).length, (y ++ [f]).length + n.length⟩)), this]
        · simp only [List.length_append, List.length_cons, List.length_nil]; rfl
        · simp only [Iter.next, List.length_cons] at h1 h2 ⊢
          rw [h1]
          simp only [Out.ok_bind, Out.pure_eq, List.head?_cons, Option.map_some]
          rw [h2]
          simp [hv]
          omega

theorem Holds.eqAsk {b : Arena T} {l' : List (Ptr × T)} (h : a.Holds l) (h' : b.Holds l')
    (hi : a.Inv cfg) (hj : b.Inv cfg) (veq : Nat → T → T → Option Bool) :
    Compared veq (l.map (·.2)) (l'.map (·.2)) (Arena.eqAsk cfg veq a b) := by
  refine compared_if ?_
  unfold Arena.eqAsk
  simp only [List.length_map]
  by_cases hl : a.len = b.len
  · rw [if_neg (by simpa using hl), if_pos (by rw [h.length, h'.length, hl])]
    have := Holds.eqAsk_loop (a := a) (b := b) (cfg := cfg) veq hi hj (x := []) (m := l) (y := [])
      (n := l') (a.len + 1) (by simpa using h) (by simpa using h') (by rw [h.length, h'.length, hl])
      (by rw [h.length]; omega)
    simp only [List.length_nil, Nat.zero_add] at this
    rw [h.length, h'.length] at this
    exact this
  · rw [if_pos hl, if_neg (by rw [h.length, h'.length]; exact hl)]

end Arena

/-! ### `simple_bst` -/

/-- As `Scanned`, beginning at time `n` and with the time at the end. -/
def ScanFrom (ans : Nat → α → α → Option Bool) (n : Nat) (la lb : List α) : Out Bool × Nat → Prop
  | (.ok true, n') => n' = n + la.length ∧ la.length = lb.length ∧
      AgreeBelow (fun i => ans (n + i)) la lb la.length
  | (.ok false, _) => ∃ (i : Nat) (x y : α), la[i]? = some x ∧ lb[i]? = some y ∧
      AgreeBelow (fun i => ans (n + i)) la lb i ∧ ans (n + i) x y = some false
  | (.panic, _) => ∃ (i : Nat) (x y : α), la[i]? = some x ∧ lb[i]? = some y ∧
      AgreeBelow (fun i => ans (n + i)) la lb i ∧ ans (n + i) x y = none
  | _ => False

theorem ScanFrom.scanned {ans : Nat → α → α → Option Bool} {la lb : List α} {r : Out Bool × Nat}
    (h : ScanFrom ans 0 la lb r) : Scanned ans la lb r.1 := by
  obtain ⟨o, n'⟩ := r
  rcases o with (_ | _) | _ | _ | _ | _ <;> simp only [ScanFrom, Nat.zero_add] at h
  · exact h
  · exact h.2
  · exact h
  all_goals exact h.elim

theorem agree_append {ans : Nat → α → α → Option Bool} {la lb la' lb' : List α} {n : Nat}
    (hn : n ≤ la.length) (hl : n ≤ lb.length) (h : AgreeBelow ans la lb n) :
    AgreeBelow ans (la ++ la') (lb ++ lb') n := by
  intro i hi x y hx hy
  rw [List.getElem?_append_left (by omega)] at hx hy
  exact h i hi x y hx hy

/-- A scan that does not get to the end. -/
theorem ScanFrom.left {ans : Nat → α → α → Option Bool} {n n' : Nat} {la lb la' lb' : List α}
    {o : Out Bool} (h : ScanFrom ans n la lb (o, n')) (ho : o ≠ .ok true) :
    ScanFrom ans n (la ++ la') (lb ++ lb') (o, n') := by
  have key : ∀ b, (∃ (i : Nat) (x y : α), la[i]? = some x ∧ lb[i]? = some y ∧
      AgreeBelow (fun i => ans (n + i)) la lb i ∧ ans (n + i) x y = b) →
      ∃ (i : Nat) (x y : α), (la ++ la')[i]? = some x ∧ (lb ++ lb')[i]? = some y ∧
      AgreeBelow (fun i => ans (n + i)) (la ++ la') (lb ++ lb') i ∧ ans (n + i) x y = b := by
    rintro b ⟨i, x, y, h1, h2, h3, h4⟩
    have l1 := (List.getElem?_eq_some_iff.1 h1).1
    have l2 := (List.getElem?_eq_some_iff.1 h2).1
    exact ⟨i, x, y, by rw [List.getElem?_append_left l1, h1], by rw [List.getElem?_append_left l2, h2],
      agree_append (Nat.le_of_lt l1) (Nat.le_of_lt l2) h3, h4⟩
  rcases o with (_ | _) | _ | _ | _ | _
  · exact key _ h
  · exact absurd rfl ho
  · exact key _ h
  all_goals exact h.elim

/-- Two scans one after the other. -/
theorem ScanFrom.append {ans : Nat → α → α → Option Bool} {n n' : Nat} {la lb la' lb' : List α}
    {r : Out Bool × Nat} (h : ScanFrom ans n la lb (.ok true, n')) (h' : ScanFrom ans n' la' lb' r) :
    ScanFrom ans n (la ++ la') (lb ++ lb') r := by
  obtain ⟨rfl, hl, ha⟩ := h
  have agree : ∀ j, AgreeBelow (fun i => ans (n + la.length + i)) la' lb' j →
      AgreeBelow (fun i => ans (n + i)) (la ++ la') (lb ++ lb') (la.length + j) := by
    intro j hj i hi x y hx hy
    by_cases hlt : i < la.length
    · rw [List.getElem?_append_left (by omega)] at hx hy
      exact ha i hlt x y hx hy
    · rw [List.getElem?_append_right (by omega)] at hx hy
      rw [← hl] at hy
      have := hj (i - la.length) (by omega) x y hx hy
      dsimp only at this ⊢
      rwa [show n + la.length + (i - la.length) = n + i by omega] at this
  have key : ∀ b, (∃ (i : Nat) (x y : α), la'[i]? = some x ∧ lb'[i]? = some y ∧
      AgreeBelow (fun i => ans (n + la.length + i)) la' lb' i ∧ ans (n + la.length + i) x y = b) →
      ∃ (i : Nat) (x y : α), (la ++ la')[i]? = some x ∧ (lb ++ lb')[i]? = some y ∧
      AgreeBelow (fun i => ans (n + i)) (la ++ la') (lb ++ lb') i ∧ ans (n + i) x y = b := by
    rintro b ⟨i, x, y, h1, h2, h3, h4⟩
    refine ⟨la.length + i, x, y, ?_, ?_, agree i h3, by rw [← Nat.add_assoc]; exact h4⟩
    · rw [List.getElem?_append_right (by omega), Nat.add_sub_cancel_left, h1]
    · rw [List.getElem?_append_right (by omega), ← hl, Nat.add_sub_cancel_left, h2]
  obtain ⟨o, k⟩ := r
  rcases o with (_ | _) | _ | _ | _ | _
  · exact key _ h'
  · refine ⟨by rw [h'.1, List.length_append, Nat.add_assoc], ?_, ?_⟩
    · simp only [List.length_append, hl, h'.2.1]
    · rw [List.length_append]; exact agree _ h'.2.2
  · exact key _ h'
  all_goals exact h'.elim

/-- One pair. -/
theorem ScanFrom.one {ans : Nat → α → α → Option Bool} {n : Nat} {x y : α} :
    ScanFrom ans n [x] [y] (.ofAnswer (ans n x y), n + 1) := by
  have none : ∀ {f : Nat → α → α → Option Bool}, AgreeBelow f [x] [y] 0 := fun i hi => by omega
  rcases h : ans n x y with _ | _ | _
  · exact ⟨0, x, y, rfl, rfl, none, h⟩
  · exact ⟨0, x, y, rfl, rfl, none, h⟩
  · refine ⟨rfl, rfl, ?_⟩
    intro i hi u v hu hv
    cases i with
    | zero => cases hu; cases hv; exact h
    | succ i => simp at hi

theorem Link.eqAsk_scan (keq : Nat → K → K → Option Bool) (veq : Nat → V → V → Option Bool)
    (t u : Simple.Link K V) (n : Nat) :
    ScanFrom (markAnswer (entryAnswer keq veq)) n t.view.marked u.view.marked
      (t.eqAsk keq veq u n) := by
  induction t generalizing u n with
  | nil =>
    cases u with
    | nil => exact ScanFrom.one
    | node k v l r =>
      have : ScanFrom (markAnswer (entryAnswer keq veq)) n [none] [some (k, v)] (.ok false, n + 1) :=
        ScanFrom.one
      exact this.left (la' := []) (by simp)
  | node k v l r ihl ihr =>
    cases u with
    | nil =>
      have : ScanFrom (markAnswer (entryAnswer keq veq)) n [some (k, v)] [none] (.ok false, n + 1) :=
        ScanFrom.one
      exact this.left (lb' := []) (by simp)
    | node k' v' l' r' =>
      have h1 : ScanFrom (markAnswer (entryAnswer keq veq)) n [some (k, v)] [some (k', v')]
        (.ofAnswer (entryAnswer keq veq n (k, v) (k', v')), n + 1) := ScanFrom.one
      have e : (Simple.Link.node k v l r).eqAsk keq veq (.node k' v' l' r') n =
          (match entryAnswer keq veq n (k, v) (k', v') with
          | none => (Out.panic, n + 1)
          | some false => (.ok false, n + 1)
          | some true =>
            match l.eqAsk keq veq l' (n + 1) with
            | (.ok true, n') => r.eqAsk keq veq r' n'
            | q => q) := by
        rw [Simple.Link.eqAsk]
        simp only [entryEq_eq, M.bind_apply, M.lift_apply, Simple.tick]
        generalize entryAnswer keq veq n (k, v) (k', v') = x
        rcases x with _ | _ | _
        · rfl
        · rfl
        · simp only [Out.ofAnswer, if_true, M.bind_apply]
          generalize l.eqAsk keq veq l' (n + 1) = q
          rcases q with ⟨(_ | _) | _ | _ | _ | _, n'⟩ <;> rfl
      rw [e]
      show ScanFrom _ n ([some (k, v)] ++ (l.view.marked ++ r.view.marked))
        ([some (k', v')] ++ (l'.view.marked ++ r'.view.marked)) _
      clear e
      revert h1
      generalize entryAnswer keq veq n (k, v) (k', v') = x
      intro h1
      rcases x with _ | _ | _
      · exact h1.left (by simp [Out.ofAnswer])
      · exact h1.left (by simp [Out.ofAnswer])
      · refine ScanFrom.append h1 ?_
        have h2 := ihl l' (n + 1)
        revert h2
        generalize l.eqAsk keq veq l' (n + 1) = q
        intro h2
        obtain ⟨(_ | _) | _ | _ | _ | _, n'⟩ := q
        · exact h2.left (by simp)
        · exact h2.append (ihr r' _)
        · exact h2.left (by simp)
        all_goals exact h2.elim

theorem nodeAsk_link {t u : Simple.Link K V} {p p' q q' : List Bool} {a b : Simple.Ref K V}
    {keq : Nat → K → K → Option Bool} {veq : Nat → V → V → Option Bool}
    (ha : Simple.goRef p (Simple.Ref.of q t) = some a)
    (hb : Simple.goRef p' (Simple.Ref.of q' u) = some b) :
    ((t.at' p).eqAsk keq veq (u.at' p') 0).1 = a.eqAsk keq veq b := by
  rw [ref_of ha, ref_of hb]; rfl

theorem Link.eqAsk_pure (keq : K → K → Bool) (veq : V → V → Bool) (t u : Simple.Link K V) (n : Nat) :
    (t.eqAsk (fun _ a b => some (keq a b)) (fun _ a b => some (veq a b)) u n).1 =
      .ok (t.eq keq veq u) := by
  induction t generalizing u n with
  | nil => cases u <;> rfl
  | node k v l r ihl ihr =>
    cases u with
    | nil => rfl
    | node k' v' l' r' =>
      rw [Simple.Link.eqAsk, Simple.Link.eq]
      simp only [entryEq_eq, entryAnswer, M.bind_apply, M.lift_apply, Simple.tick]
      cases keq k k'
      · rfl
      · cases veq v v'
        · rfl
        · simp only [if_true, Out.ofAnswer, M.bind_apply, Bool.and_self, Bool.true_and]
          have h1 := ihl l' (n + 1)
          revert h1
          generalize l.eqAsk (fun _ a b => some (keq a b)) (fun _ a b => some (veq a b)) l' (n + 1) = q
          obtain ⟨o, n'⟩ := q
          rintro ⟨⟩
          cases l.eq keq veq l' with
          | false => rfl
          | true => simpa using ihr r' n'

theorem Ref.eqAsk_pure (keq : K → K → Bool) (veq : V → V → Bool) (a b : Simple.Ref K V) :
    a.eqAsk (fun _ a b => some (keq a b)) (fun _ a b => some (veq a b)) b = .ok (a.eq keq veq b) :=
  Link.eqAsk_pure keq veq (.node a.key a.value a.left a.right) (.node b.key b.value b.left b.right) 0

theorem Node.eqAsk_pure (keq : K → K → Bool) (veq : V → V → Bool) (same : Bool) (a b : Node K V) :
    a.eqAsk (fun a b => some (keq a b)) (fun a b => some (veq a b)) same b =
      .ok (a.eq keq veq same b) := by
  unfold Node.eqAsk Node.eq
  cases same && decide (a.ptr = b.ptr)
  · rw [entryAsk_eq, entryAnswer]
    simp only [Bool.false_eq_true, if_false, Bool.false_or]
    cases keq a.key b.key
    · rfl
    · cases veq a.value b.value <;> rfl
  · rfl

theorem Scanned.map {β : Type} {ans : Nat → α → α → Option Bool} {ans' : Nat → β → β → Option Bool}
    {g : α → β} (hg : ∀ i x y, ans i x y = ans' i (g x) (g y)) {a b : List α} {o : Out Bool}
    (h : Scanned ans a b o) : Scanned ans' (a.map g) (b.map g) o := by
  have agree : ∀ n, AgreeBelow ans a b n → AgreeBelow ans' (a.map g) (b.map g) n := by
    intro n h i hi x y hx hy
    rw [List.getElem?_map, Option.map_eq_some_iff] at hx hy
    obtain ⟨x, hx, rfl⟩ := hx
    obtain ⟨y, hy, rfl⟩ := hy
    rw [← hg]; exact h i hi x y hx hy
  have key : ∀ r, (∃ (i : Nat) (x y : α), a[i]? = some x ∧ b[i]? = some y ∧ AgreeBelow ans a b i ∧
      ans i x y = r) → ∃ (i : Nat) (x y : β), (a.map g)[i]? = some x ∧ (b.map g)[i]? = some y ∧
      AgreeBelow ans' (a.map g) (b.map g) i ∧ ans' i x y = r := by
    rintro r ⟨i, x, y, h1, h2, h3, h4⟩
    exact ⟨i, g x, g y, by rw [List.getElem?_map, h1]; rfl, by rw [List.getElem?_map, h2]; rfl,
      agree i h3, by rw [← hg]; exact h4⟩
  rcases o with (_ | _) | _ | _ | _ | _
  · exact key _ h
  · exact ⟨by simpa using h.1, by rw [List.length_map]; exact agree _ h.2⟩
  · exact key _ h
  all_goals exact h.elim

theorem marked_map {β : Type} (g : α → β) (t : Spec.BT α) :
    (t.map g).marked = t.marked.map (Option.map g) := by
  induction t with
  | nil => rfl
  | node l a r ihl ihr => simp [Spec.BT.map, Spec.BT.marked, ihl, ihr]

end BST
