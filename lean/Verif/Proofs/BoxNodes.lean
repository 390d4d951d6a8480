import Verif.Proofs.BoxRules
import Verif.Proofs.Simple
/-!
# Boxes and nodes in memory
-/
set_option linter.unusedSimpArgs false
set_option linter.unusedSectionVars false
namespace BST.Boxes
variable {H K V : Type} [Aliasing H] [ChainLaws H]
variable {cfg : Cfg} {n u : Nat} {α β : Type} {R : Mem H K V → Prop}
open ChainLaws (Wf Chain layout)
open Simple (Link)

/-! ### Memory -/

/-- Another node in a block. -/
def Mem.put (s : Mem H K V) (b : Nat) (x : Option (Node K V)) : Mem H K V :=
  { s with nodes := fun b' => if b' = b then x else s.nodes b' }

@[simp] theorem Mem.put_self (s : Mem H K V) (b : Nat) (x : Option (Node K V)) :
    (s.put b x).nodes b = x := by simp [Mem.put]

theorem Mem.put_ne {s : Mem H K V} {b b' : Nat} {x : Option (Node K V)} (h : b' ≠ b) :
    (s.put b x).nodes b' = s.nodes b' := by simp [Mem.put, h]

@[simp] theorem Mem.put_heap (s : Mem H K V) (b : Nat) (x : Option (Node K V)) :
    (s.put b x).heap = s.heap := rfl

@[simp] theorem Mem.put_next (s : Mem H K V) (b : Nat) (x : Option (Node K V)) :
    (s.put b x).next = s.next := rfl

theorem Mem.put_eff {s : Mem H K V} {b : Nat} {x : Option (Node K V)} (hi : Inv s) :
    Eff u [b] [] 0 0 s (s.put b x) where
  inv := ⟨hi.wf, hi.bound, hi.base⟩
  next := Nat.le_refl _
  owner := rfl
  sub := fun _ h => by cases h
  nodes := fun b' hb _ => Mem.put_ne (by simpa using hb)
  lay := fun _ _ _ hm => hm
  chain := fun b' i c _ hb _ hch => hch
  self := fun _ h => h
  count := by simp
  len := by simp [Mem.put]

theorem store_bind {s : Mem H K V} {b : Nat} {x : Option (Node K V)} {g : Unit → M (Mem H K V) β}
    {Q : β → Mem H K V → Prop} (h : Run cfg n (g ()) (s.put b x) Q R) :
    Run cfg n (store b x >>= g) s Q R := h

theorem store_run {s : Mem H K V} {b : Nat} {x : Option (Node K V)}
    {Q : Unit → Mem H K V → Prop} (h : Q () (s.put b x)) :
    Run cfg n (store b x) s Q R := h

theorem load_bind {s : Mem H K V} {b : Nat} {x : Node K V} {g : Node K V → M (Mem H K V) β}
    {Q : β → Mem H K V → Prop} (hx : s.nodes b = some x) (h : Run cfg n (g x) s Q R) :
    Run cfg n (load b >>= g) s Q R := by
  refine Run.bind (P := fun a s' => a = x ∧ s' = s) (Run.ok (a := x) (s' := s) ?_ ⟨rfl, rfl⟩) ?_
  · unfold load; rw [M.read_apply, hx]
  · rintro _ _ ⟨rfl, rfl⟩; exact h

theorem touchNode_run {s : Mem H K V} {p : Pointer} {x w : Bool} {c : List (Nat × Bool)}
    (hi : Inv s) (hx : x = true → w = true) (hc : Cell s p.block (c ++ [(p.tag, w)])) :
    Run cfg n (touchNode x p) s (fun _ s' =>
      Cell s' p.block (c ++ [(p.tag, w)]) ∧ Quiet u [p.block] s s') R := by
  unfold touchNode
  refine Run.bind (touch_run (u := u) hi (by omega) hx (hc 0 (by omega)) hc (.refl _)) ?_
  rintro _ s1 ⟨_, hc1, q1⟩
  refine Run.bind (touch_run (u := u) q1.eff.inv (by omega) hx (hc1 1 (by omega)) hc1 (.refl _)) ?_
  rintro _ s2 ⟨_, hc2, q2⟩
  refine Run.mono (touch_run (u := u) q2.eff.inv (by omega) hx (hc2 2 (by omega)) hc2 (.refl _)) ?_ (fun _ h => h)
  rintro _ s3 ⟨_, hc3, q3⟩
  exact ⟨hc3, (q1.one q2 hi).one q3 hi⟩

theorem newBlock_run {s : Mem H K V} {x : Node K V} (hi : Inv s) :
    Run cfg n (newBlock x) s (fun p s' => p.block = s.next ∧ Cell s' p.block [(p.tag, true)] ∧
      (p.block, 3) ∈ layout s'.heap ∧ s'.nodes p.block = some x ∧ Eff u [] [] 1 0 s s') R := by
  unfold newBlock
  refine Run.get ?_
  obtain ⟨t, h', e, hw, hl, hin, hout⟩ := ChainLaws.allocate_ok (id := s.next) (n := 3) hi.wf
    (fun hm => by
      obtain ⟨e, he, h⟩ := List.mem_map.1 hm
      have := hi.bound _ he
      omega)
  refine Run.bind (P := fun a s' => a = t ∧ s' = { s with heap := h' }) (Run.ok (onHeap_ok e) ⟨rfl, rfl⟩) ?_
  rintro a _ ⟨ha, rfl⟩
  subst ha
  refine Run.modify ?_
  have h0 := hi.lt hi.base
  have he : Eff u [] [] 1 0 s { s with heap := h', next := s.next + 1 } := {
    inv := ⟨hw, fun e he => by
        rw [hl] at he
        rcases List.mem_append.1 he with he | he
        · have := hi.bound _ he
          show e.1 < s.next + 1
          omega
        · rw [List.mem_singleton.1 he]
          exact Nat.lt_succ_self _, by rw [hl]; exact List.mem_append_left _ hi.base⟩
    next := Nat.le_succ _
    owner := rfl
    sub := fun _ h => h
    nodes := fun _ _ _ => rfl
    lay := fun _ _ _ h => by rw [hl]; exact List.mem_append_left _ h
    chain := fun b i c _ _ hb hc => hout _ _ (by simp; omega) hc
    self := fun c hc => hout _ _ (by simp; omega) hc
    count := by rw [hl]; simp
    len := by simp }
  refine Run.bind (touchNode_run (u := u) (p := ⟨s.next, a⟩) (c := []) (x := true) (w := true)
    he.inv (fun _ => rfl) fun i hi => hin i hi) ?_
  rintro _ s2 ⟨hc2, q2⟩
  refine store_bind (Run.pure ⟨rfl, hc2, ?_, Mem.put_self .., ?_⟩)
  · exact q2.eff.lay _ _ (by simp) (by rw [hl]; simp)
  · have h1 : Eff u [] [] 1 0 s s2 := he.trans q2.eff [] [] hi (by simp) (by simp) (by simp) (by simp)
      (by simp) (by omega) (by omega)
    exact h1.trans (Mem.put_eff q2.eff.inv) [] [] hi (by simp) (by simp) (by simp) (by simp)
      (by simp) (by omega) (by omega)

theorem filter_length {l : List (Nat × Nat)} (hn : (l.map (·.1)).Nodup) {b m : Nat}
    (h : (b, m) ∈ l) : (l.filter (fun e => e.1 ≠ b)).length + 1 = l.length := by
  induction l with
  | nil => cases h
  | cons e l ih =>
    rw [List.map_cons, List.nodup_cons] at hn
    rcases List.mem_cons.1 h with h | h
    · subst h
      have : l.filter (fun e => decide (e.1 ≠ b)) = l := by
        refine List.filter_eq_self.2 fun e he => ?_
        have : e.1 ≠ b := fun hb => hn.1 (List.mem_map.2 ⟨e, he, hb⟩)
        simpa using this
      rw [List.filter_cons]
      simp only [ne_eq, not_true_eq_false, decide_false, Bool.false_eq_true, if_false]
      rw [this]
      simp
    · have he : e.1 ≠ b := fun hb => hn.1 (List.mem_map.2 ⟨_, h, hb.symm⟩)
      rw [List.filter_cons]
      simp only [ne_eq, he, not_false_eq_true, decide_true, if_true, List.length_cons]
      have := ih hn.2 h
      simp only [ne_eq] at this
      omega

/-- Freeing a block. -/
theorem free_run {s : Mem H K V} {p : Pointer} (hi : Inv s)
    (hl : (p.block, 3) ∈ layout s.heap) (hc : Cell s p.block [(p.tag, true)]) :
    Run cfg n (onHeap (Aliasing.deallocate p.tag p.block 3)) s (fun _ s' =>
      s'.nodes = s.nodes ∧ s'.next = s.next ∧ Eff u [p.block] [p.block] (-1) 0 s s') R := by
  obtain ⟨h', e, hw, hl', hout⟩ := ChainLaws.deallocate_ok (t := p.tag) hi.wf hl (by omega) hc
  have hne := hi.ne_zero hl
  refine Run.ok (onHeap_ok e) ⟨rfl, rfl, ?_⟩
  exact {
    inv := ⟨hw, fun e he => by
      rw [hl'] at he
      exact hi.bound _ (List.mem_filter.1 he).1, by
      rw [hl']
      exact List.mem_filter.2 ⟨hi.base, by simpa using fun h => hne h.symm⟩⟩
    next := Nat.le_refl _
    owner := rfl
    sub := fun _ h => h
    nodes := fun _ _ _ => rfl
    lay := fun b m hb hm => by
      rw [hl']
      exact List.mem_filter.2 ⟨hm, by simpa using hb⟩
    chain := fun b i c _ hb _ h => hout _ _ (by simpa using hb) h
    self := fun c h => hout _ _ (fun h => hne h.symm) h
    count := by
      have := filter_length (ChainLaws.nodup hi.wf) hl
      rw [hl']
      omega
    len := by simp }

theorem takeBlock_run {s : Mem H K V} {p : Pointer} {x : Node K V} (hi : Inv s)
    (hx : s.nodes p.block = some x) (hl : (p.block, 3) ∈ layout s.heap)
    (hc : Cell s p.block [(p.tag, true)]) :
    Run cfg n (takeBlock p) s (fun a s' => a = x ∧ s'.next = s.next ∧
      Eff u [p.block] [p.block] (-1) 0 s s') R := by
  unfold takeBlock
  refine load_bind hx ?_
  refine Run.bind (touchNode_run (u := u) (c := []) (x := false) hi (fun h => by cases h) hc) ?_
  rintro _ s1 ⟨hc1, q1⟩
  refine Run.bind (free_run (u := u) q1.eff.inv (q1.eff.lay _ _ (by simp) hl) hc1) ?_
  rintro _ s2 ⟨hn2, hx2, e2⟩
  refine store_bind (Run.pure ⟨rfl, by rw [Mem.put_next, hx2, q1.next], ?_⟩)
  have h1 := q1.eff.trans e2 [p.block] [p.block] hi (by simp) (by simp) (by simp) (by simp)
      (by simp) rfl rfl
  exact h1.trans (Mem.put_eff e2.inv) [p.block] [p.block] hi (by simp) (by simp) (by simp) (by simp)
      (by simp) (by omega) (by omega)

/-! ### Trees -/

/-- A box with a tree in it, in the blocks `F`. -/
def Boxed (s : Mem H K V) : Link K V → Option Pointer → List Nat → Prop
  | .nil, o, F => o = none ∧ F = []
  | .node k v l r, o, F => ∃ p a b Fl Fr, o = some p ∧ F = p.block :: (Fl ++ Fr) ∧
      s.nodes p.block = some ⟨k, v, a, b⟩ ∧ (p.block, 3) ∈ layout s.heap ∧
      Cell s p.block [(p.tag, true)] ∧ Boxed s l a Fl ∧ Boxed s r b Fr

/-- A node by value that is the root of a tree, with the other nodes in the blocks `F`. -/
def Valued (s : Mem H K V) : Link K V → Option (Node K V) → List Nat → Prop
  | .nil, o, F => o = none ∧ F = []
  | .node k v l r, o, F => ∃ a b Fl Fr, o = some ⟨k, v, a, b⟩ ∧ F = Fl ++ Fr ∧
      Boxed s l a Fl ∧ Boxed s r b Fr

theorem Boxed.frame {s s' : Mem H K V} {t : Link K V} {o : Option Pointer} {F G D : List Nat}
    {δ ν : Int} (h : Boxed s t o F) (he : Eff u G D δ ν s s') (hi : Inv s)
    (hd : ∀ b ∈ F, b ∉ G) : Boxed s' t o F := by
  induction t generalizing o F with
  | nil => exact h
  | node k v l r ihl ihr =>
    obtain ⟨p, a, b, Fl, Fr, ho, hF, hn, hl, hc, h1, h2⟩ := h
    subst hF
    have hp : p.block ∉ G := hd _ (by simp)
    have hlt := hi.lt hl
    exact ⟨p, a, b, Fl, Fr, ho, rfl, by rw [he.nodes _ hp hlt]; exact hn,
      he.lay _ _ (fun h => hp (he.sub _ h)) hl, hc.frame he hp hlt,
      ihl h1 (fun b hb => hd b (by simp [hb])), ihr h2 (fun b hb => hd b (by simp [hb]))⟩

theorem Valued.frame {s s' : Mem H K V} {t : Link K V} {o : Option (Node K V)} {F G D : List Nat}
    {δ ν : Int} (h : Valued s t o F) (he : Eff u G D δ ν s s') (hi : Inv s)
    (hd : ∀ b ∈ F, b ∉ G) : Valued s' t o F := by
  cases t with
  | nil => exact h
  | node k v l r =>
    obtain ⟨a, b, Fl, Fr, ho, hF, h1, h2⟩ := h
    subst hF
    exact ⟨a, b, Fl, Fr, ho, rfl, h1.frame he hi (fun b hb => hd b (by simp [hb])),
      h2.frame he hi (fun b hb => hd b (by simp [hb]))⟩

theorem Boxed.lt {s : Mem H K V} {t : Link K V} {o : Option Pointer} {F : List Nat}
    (h : Boxed s t o F) (hi : Inv s) : ∀ b ∈ F, b < s.next := by
  induction t generalizing o F with
  | nil => rw [h.2]; intro b hb; cases hb
  | node k v l r ihl ihr =>
    obtain ⟨p, a, b, Fl, Fr, ho, hF, hn, hl, hc, h1, h2⟩ := h
    subst hF
    have := hi.lt hl
    have := ihl h1
    have := ihr h2
    foot

theorem Boxed.ne_zero {s : Mem H K V} {t : Link K V} {o : Option Pointer} {F : List Nat}
    (h : Boxed s t o F) (hi : Inv s) : 0 ∉ F := by
  induction t generalizing o F with
  | nil => rw [h.2]; intro hb; cases hb
  | node k v l r ihl ihr =>
    obtain ⟨p, a, b, Fl, Fr, ho, hF, hn, hl, hc, h1, h2⟩ := h
    subst hF
    have := hi.ne_zero hl
    have := ihl h1
    have := ihr h2
    foot

theorem Boxed.size {s : Mem H K V} {t : Link K V} {o : Option Pointer} {F : List Nat}
    (h : Boxed s t o F) : F.length = t.size := by
  induction t generalizing o F with
  | nil => rw [h.2]; rfl
  | node k v l r ihl ihr =>
    obtain ⟨p, a, b, Fl, Fr, ho, hF, hn, hl, hc, h1, h2⟩ := h
    subst hF
    have := ihl h1
    have := ihr h2
    simp only [List.length_cons, List.length_append, Link.size]
    omega

theorem Valued.lt {s : Mem H K V} {t : Link K V} {o : Option (Node K V)} {F : List Nat}
    (h : Valued s t o F) (hi : Inv s) : ∀ b ∈ F, b < s.next := by
  cases t with
  | nil => rw [h.2]; intro b hb; cases hb
  | node k v l r =>
    obtain ⟨a, b, Fl, Fr, ho, hF, h1, h2⟩ := h
    subst hF
    have := h1.lt hi
    have := h2.lt hi
    foot

theorem Valued.ne_zero {s : Mem H K V} {t : Link K V} {o : Option (Node K V)} {F : List Nat}
    (h : Valued s t o F) (hi : Inv s) : 0 ∉ F := by
  cases t with
  | nil => rw [h.2]; intro hb; cases hb
  | node k v l r =>
    obtain ⟨a, b, Fl, Fr, ho, hF, h1, h2⟩ := h
    subst hF
    have := h1.ne_zero hi
    have := h2.ne_zero hi
    foot

theorem Valued.size {s : Mem H K V} {t : Link K V} {o : Option (Node K V)} {F : List Nat}
    (h : Valued s t o F) : F.length = t.size - 1 := by
  cases t with
  | nil => rw [h.2]; rfl
  | node k v l r =>
    obtain ⟨a, b, Fl, Fr, ho, hF, h1, h2⟩ := h
    subst hF
    have := h1.size
    have := h2.size
    simp only [List.length_append, Link.size]
    omega

theorem nodup_bound {n : Nat} {F : List Nat} (hn : F.Nodup) (hlt : ∀ b ∈ F, b < n) : F.length ≤ n := by
  have := hn.length_le_of_subset (l₂ := List.range n) (fun b hb => List.mem_range.2 (hlt b hb))
  simpa using this

end BST.Boxes
