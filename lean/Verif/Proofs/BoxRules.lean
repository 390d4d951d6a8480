import Verif.BoxHistory
import Verif.Proofs.Chains
import Verif.Proofs.Basic
/-!
# Rules for reasoning about `Model/Boxes.lean`

What a piece of code does is described by its result, by the blocks that it may change (`Eff`),
and by the chains of pointers that can be used afterwards. `Run` says that there is no undefined
behaviour.
-/
set_option linter.unusedSimpArgs false
set_option linter.unusedSectionVars false
namespace BST.Boxes
variable {H K V : Type} [Aliasing H] [ChainLaws H]
variable {cfg : Cfg} {n u : Nat} {α β : Type}
open ChainLaws (Wf Chain layout)

/-- Goals about which blocks are in which lists. -/
macro "foot" : tactic => `(tactic| grind only [= List.mem_cons, = List.mem_append, = List.nodup_cons,
  = List.nodup_append, List.not_mem_nil, List.nodup_nil])

/-! ### Programs -/

/-- Memory for `n` nodes, and no refusals. -/
def Roomy (cfg : Cfg) (n : Nat) : Prop := n * cfg.esize < usizeBound ∧ ∀ i, cfg.allocOk i cfg.esize = true

theorem Roomy.mono {a b : Nat} (h : Roomy cfg b) (hab : a ≤ b) : Roomy cfg a :=
  ⟨Nat.lt_of_le_of_lt (Nat.mul_le_mul_right _ hab) h.1, h.2⟩

/-- The program returns with `Q`, or panics with `R`, or aborts since there is not enough memory. -/
def Run (cfg : Cfg) (n : Nat) (f : M (Mem H K V) α) (s : Mem H K V) (Q : α → Mem H K V → Prop)
    (R : Mem H K V → Prop) : Prop :=
  match f s with
  | (.ok a, s') => Q a s'
  | (.panic, s') => R s'
  | (.abort, _) => ¬ Roomy cfg n
  | _ => False

theorem Run.ok {f : M (Mem H K V) α} {s s' : Mem H K V} {a : α} {Q : α → Mem H K V → Prop}
    {R : Mem H K V → Prop} (h : f s = (.ok a, s')) (hQ : Q a s') : Run cfg n f s Q R := by
  unfold Run; rw [h]; exact hQ

theorem Run.panic {f : M (Mem H K V) α} {s s' : Mem H K V} {Q : α → Mem H K V → Prop}
    {R : Mem H K V → Prop} (h : f s = (.panic, s')) (hR : R s') : Run cfg n f s Q R := by
  unfold Run; rw [h]; exact hR

theorem Run.bind {f : M (Mem H K V) α} {g : α → M (Mem H K V) β} {s : Mem H K V}
    {P : α → Mem H K V → Prop} {Q : β → Mem H K V → Prop} {R : Mem H K V → Prop}
    (h : Run cfg n f s P R) (hg : ∀ a s', P a s' → Run cfg n (g a) s' Q R) :
    Run cfg n (f >>= g) s Q R := by
  unfold Run at h ⊢
  rw [M.bind_apply]
  rcases he : f s with ⟨o, s'⟩
  rw [he] at h
  cases o with
  | ok a => exact hg a s' h
  | panic => exact h
  | abort => exact h
  | ub => exact h
  | diverge => exact h

theorem Run.mono {f : M (Mem H K V) α} {s : Mem H K V}
    {P Q : α → Mem H K V → Prop} {R R' : Mem H K V → Prop}
    (h : Run cfg n f s P R) (hq : ∀ a s', P a s' → Q a s') (hr : ∀ s', R s' → R' s') :
    Run cfg n f s Q R' := by
  unfold Run at h ⊢
  rcases he : f s with ⟨o, s'⟩
  rw [he] at h
  cases o with
  | ok a => exact hq _ _ h
  | panic => exact hr _ h
  | abort => exact h
  | ub => exact h
  | diverge => exact h

theorem Run.pure {s : Mem H K V} {a : α} {Q : α → Mem H K V → Prop} {R : Mem H K V → Prop}
    (h : Q a s) : Run cfg n (Pure.pure a) s Q R := h

theorem Run.get {g : Mem H K V → M (Mem H K V) β} {s : Mem H K V} {Q : β → Mem H K V → Prop}
    {R : Mem H K V → Prop} (h : Run cfg n (g s) s Q R) : Run cfg n (M.get >>= g) s Q R := h

theorem Run.modify {g : Unit → M (Mem H K V) β} {f : Mem H K V → Mem H K V} {s : Mem H K V}
    {Q : β → Mem H K V → Prop} {R : Mem H K V → Prop} (h : Run cfg n (g ()) (f s) Q R) :
    Run cfg n (M.modify f >>= g) s Q R := h

theorem Run.lift {g : α → M (Mem H K V) β} {a : α} {o : Out α} {s : Mem H K V}
    {Q : β → Mem H K V → Prop} {R : Mem H K V → Prop} (ho : o = .ok a) (h : Run cfg n (g a) s Q R) :
    Run cfg n (M.lift o >>= g) s Q R := by subst ho; exact h

/-! ### What may change -/

/-- Nothing is wrong in memory, and the map is there. -/
structure Inv (s : Mem H K V) : Prop where
  wf : Wf s.heap
  bound : ∀ e ∈ layout s.heap, e.1 < s.next
  base : (0, 4) ∈ layout s.heap

/-- All blocks but those in `F` are as before, and only those in `D` were freed. The number of
blocks grew by `δ`, and `len` by `ν`. Pointers up to the tag `u` can be used for `len` as before. -/
structure Eff (u : Nat) (F D : List Nat) (δ ν : Int) (s s' : Mem H K V) : Prop where
  inv : Inv s'
  next : s.next ≤ s'.next
  owner : s'.owner = s.owner
  sub : ∀ b ∈ D, b ∈ F
  nodes : ∀ b, b ∉ F → b < s.next → s'.nodes b = s.nodes b
  lay : ∀ b m, b ∉ D → (b, m) ∈ layout s.heap → (b, m) ∈ layout s'.heap
  chain : ∀ b i c, i < 3 → b ∉ F → b < s.next → Chain s.heap ⟨b, i⟩ c → Chain s'.heap ⟨b, i⟩ c
  self : ∀ c, Chain s.heap ⟨0, 3⟩ (c ++ [(u, true)]) → Chain s'.heap ⟨0, 3⟩ (c ++ [(u, true)])
  count : ((layout s'.heap).length : Int) = (layout s.heap).length + δ
  len : (s'.len : Int) = s.len + ν

theorem Eff.refl {s : Mem H K V} (hi : Inv s) : Eff u [] [] 0 0 s s where
  inv := hi
  next := Nat.le_refl _
  owner := rfl
  sub := fun _ h => h
  nodes := fun _ _ _ => rfl
  lay := fun _ _ _ h => h
  chain := fun _ _ _ _ _ _ h => h
  self := fun _ h => h
  count := by omega
  len := by omega

theorem Eff.trans {F1 D1 F2 D2 : List Nat} {δ1 ν1 δ2 ν2 : Int} {s s1 s2 : Mem H K V}
    (h1 : Eff u F1 D1 δ1 ν1 s s1) (h2 : Eff u F2 D2 δ2 ν2 s1 s2) (F D : List Nat) {δ ν : Int}
    (hi : Inv s)
    (hF1 : ∀ b ∈ F1, b ∈ F) (hF2 : ∀ b ∈ F2, b ∈ F ∨ s.next ≤ b)
    (hD1 : ∀ b ∈ D1, b ∈ D) (hD2 : ∀ b ∈ D2, b ∈ D ∨ s.next ≤ b) (hD : ∀ b ∈ D, b ∈ F)
    (hδ : δ = δ1 + δ2) (hν : ν = ν1 + ν2) : Eff u F D δ ν s s2 where
  inv := h2.inv
  next := Nat.le_trans h1.next h2.next
  owner := h2.owner.trans h1.owner
  sub := hD
  nodes b hb hlt := by
    have := h1.next
    rw [h2.nodes b (fun h => by rcases hF2 b h with h | h; exact hb h; omega) (by omega)]
    exact h1.nodes b (fun h => hb (hF1 b h)) hlt
  lay b m hb hm := by
    have := hi.bound _ hm
    exact h2.lay b m (fun h => by rcases hD2 b h with h | h; exact hb h; exact absurd h (by simp at this; omega))
      (h1.lay b m (fun h => hb (hD1 b h)) hm)
  chain b i c hi3 hb hlt hc := by
    have := h1.next
    exact h2.chain b i c hi3 (fun h => by rcases hF2 b h with h | h; exact hb h; omega) (by omega)
      (h1.chain b i c hi3 (fun h => hb (hF1 b h)) hlt hc)
  self c hc := h2.self c (h1.self c hc)
  count := by rw [h2.count, h1.count, hδ]; omega
  len := by rw [h2.len, h1.len, hν]; omega

/-- As `Eff`, if only pointers were used. -/
structure Quiet (u : Nat) (F : List Nat) (s s' : Mem H K V) : Prop where
  nodes : s'.nodes = s.nodes
  next : s'.next = s.next
  eff : Eff u F [] 0 0 s s'

theorem Quiet.trans {F1 F2 F : List Nat} {s s1 s2 : Mem H K V} (h1 : Quiet u F1 s s1)
    (h2 : Quiet u F2 s1 s2) (hi : Inv s) (hF1 : ∀ b ∈ F1, b ∈ F) (hF2 : ∀ b ∈ F2, b ∈ F) :
    Quiet u F s s2 :=
  ⟨h2.nodes.trans h1.nodes, h2.next.trans h1.next, h1.eff.trans h2.eff F [] hi hF1
    (fun b hb => .inl (hF2 b hb)) (fun _ h => h) (fun _ h => by cases h) (fun _ h => by cases h)
    (by omega) (by omega)⟩

theorem Quiet.refl {s : Mem H K V} (hi : Inv s) : Quiet u [] s s := ⟨rfl, rfl, .refl hi⟩

theorem Quiet.one {b : Nat} {s s1 s2 : Mem H K V} (h1 : Quiet u [b] s s1)
    (h2 : Quiet u [b] s1 s2) (hi : Inv s) : Quiet u [b] s s2 :=
  h1.trans h2 hi (fun _ h => h) (fun _ h => h)

/-- The three locations of a node can be used through this chain of pointers. -/
def Cell (s : Mem H K V) (b : Nat) (c : List (Nat × Bool)) : Prop :=
  ∀ i, i < 3 → Chain s.heap ⟨b, i⟩ c

theorem Cell.sub {s : Mem H K V} {b : Nat} {c c' : List (Nat × Bool)} (h : Cell s b c)
    (hs : c'.Sublist c) : Cell s b c' := fun i hi => ChainLaws.sub (h i hi) hs

theorem Cell.frame {s s' : Mem H K V} {b : Nat} {c : List (Nat × Bool)} {F D : List Nat} {δ ν : Int}
    (h : Cell s b c) (he : Eff u F D δ ν s s') (hb : b ∉ F) (hlt : b < s.next) : Cell s' b c :=
  fun i hi => he.chain b i c hi hb hlt (h i hi)

theorem Inv.ne_zero {s : Mem H K V} (hi : Inv s) {b : Nat} (h : (b, 3) ∈ layout s.heap) : b ≠ 0 := by
  intro h0
  subst h0
  have hn := ChainLaws.nodup hi.wf
  have : ∀ (l : List (Nat × Nat)), (l.map (·.1)).Nodup → (0, 3) ∈ l → (0, 4) ∈ l → False := by
    intro l
    induction l with
    | nil => intro _ h; cases h
    | cons e l ih =>
      intro hn h3 h4
      rw [List.map_cons, List.nodup_cons] at hn
      rcases List.mem_cons.1 h3 with h3 | h3
      · rcases List.mem_cons.1 h4 with h4 | h4
        · rw [← h3] at h4; cases h4
        · rw [← h3] at hn; exact hn.1 (List.mem_map.2 ⟨_, h4, rfl⟩)
      · rcases List.mem_cons.1 h4 with h4 | h4
        · rw [← h4] at hn; exact hn.1 (List.mem_map.2 ⟨_, h3, rfl⟩)
        · exact ih hn.2 h3 h4
  exact this _ hn h hi.base

theorem Inv.lt {s : Mem H K V} (hi : Inv s) {b m : Nat} (h : (b, m) ∈ layout s.heap) : b < s.next :=
  hi.bound _ h

/-! ### Memory -/

theorem onHeap_ok {f : M H α} {s : Mem H K V} {a : α} {h : H} (hf : f s.heap = (.ok a, h)) :
    onHeap f s = (.ok a, { s with heap := h }) := by
  unfold onHeap; rw [hf]

/-- What an operation on the heap does that does not allocate. -/
theorem Eff.ofHeap {s : Mem H K V} {h : H} {b : Nat} (hi : Inv s) (hw : Wf h)
    (hl : layout h = layout s.heap)
    (hc : ∀ q c, q.block ≠ b → Chain s.heap q c → Chain h q c)
    (hs : ∀ c, Chain s.heap ⟨0, 3⟩ (c ++ [(u, true)]) → Chain h ⟨0, 3⟩ (c ++ [(u, true)])) :
    Eff u [b] [] 0 0 s { s with heap := h } where
  inv := ⟨hw, by rw [hl]; exact hi.bound, by rw [hl]; exact hi.base⟩
  next := Nat.le_refl _
  owner := rfl
  sub := fun _ h => by cases h
  nodes := fun _ _ _ => rfl
  lay := fun _ _ _ hm => by rw [hl]; exact hm
  chain := fun b' i c _ hb _ hch => hc _ _ (by simpa using hb) hch
  self := hs
  count := by rw [hl]; omega
  len := by simp

theorem within_iff {b i j m : Nat} : Within ⟨b, j⟩ ⟨b, i⟩ m ↔ i ≤ j ∧ j < i + m := by
  unfold Within; simp

theorem reborrow_run {s : Mem H K V} {p : Pointer} {c : List (Nat × Bool)} {k : RefKind}
    {R : Mem H K V → Prop} (hi : Inv s) (hk : k ≠ .shared)
    (hc : Cell s p.block (c ++ [(p.tag, true)])) :
    Run cfg n (reborrow k p) s (fun q s' => ∃ t, q = ⟨p.block, t⟩ ∧
      Cell s' p.block (c ++ [(p.tag, true), (t, true)]) ∧ Quiet u [p.block] s s') R := by
  have hone : Cell s p.block [(p.tag, true)] := hc.sub (List.sublist_append_right ..)
  obtain ⟨r, h', e, hw, hl, hin, hout⟩ := ChainLaws.derive_ok (p := ⟨p.block, 0⟩) (n := 3)
    hi.wf hk (by omega) (fun q hq => by
      obtain ⟨qb, qo⟩ := q
      obtain ⟨rfl, hq⟩ := hq
      exact hone qo (by simp at hq; omega))
  refine Run.bind (P := fun t s' => t = r ∧ s' = { s with heap := h' }) (Run.ok (onHeap_ok e) ⟨rfl, rfl⟩) ?_
  rintro _ _ ⟨rfl, rfl⟩
  refine Run.pure ⟨_, rfl, fun i hi => hin _ _ (within_iff.2 (by omega)) (hc i hi), rfl, rfl, ?_⟩
  refine Eff.ofHeap hi hw hl (fun q c hq h => hout _ _ (fun hw => hq hw.1) h) fun c h => hout _ _ ?_ h
  intro hw
  have := hw.2
  simp at this

theorem reborrow_shared {s : Mem H K V} {p : Pointer} {c : List (Nat × Bool)} {w : Bool}
    {R : Mem H K V → Prop} (hi : Inv s)
    (hc : Cell s p.block (c ++ [(p.tag, w)])) :
    Run cfg n (reborrow .shared p) s (fun q s' => ∃ t, q = ⟨p.block, t⟩ ∧
      Cell s' p.block (c ++ [(p.tag, w), (t, false)]) ∧ Quiet u [p.block] s s') R := by
  have hone : Cell s p.block [(p.tag, w)] := hc.sub (List.sublist_append_right ..)
  obtain ⟨r, h', e, hw, hl, hin, hout⟩ := ChainLaws.derive_shared (p := ⟨p.block, 0⟩) (n := 3)
    hi.wf (by omega) (fun q hq => by
      obtain ⟨qb, qo⟩ := q
      obtain ⟨rfl, hq⟩ := hq
      exact hone qo (by simp at hq; omega))
  refine Run.bind (P := fun t s' => t = r ∧ s' = { s with heap := h' }) (Run.ok (onHeap_ok e) ⟨rfl, rfl⟩) ?_
  rintro _ _ ⟨rfl, rfl⟩
  refine Run.pure ⟨_, rfl, fun i hi => hin _ _ (within_iff.2 (by omega)) (hc i hi), rfl, rfl, ?_⟩
  refine Eff.ofHeap hi hw hl (fun q c hq h => hout _ _ (fun hw => hq hw.1) h) fun c h => hout _ _ ?_ h
  intro hw
  have := hw.2
  simp at this

/-- A reference to one location; the other pointers to the node stay usable. -/
theorem field_run {s : Mem H K V} {p : Pointer} {c : List (Nat × Bool)} {k : RefKind} {w : Bool}
    {i : Nat} {R : Mem H K V → Prop} (hi : Inv s) (hlt : i < 3) (hk : k ≠ .shared → w = true)
    (hc : Cell s p.block (c ++ [(p.tag, w)])) :
    Run cfg n (field k p i) s (fun t s' =>
      Chain s'.heap ⟨p.block, i⟩ (c ++ [(p.tag, w)] ++ [(t, decide (k ≠ .shared))]) ∧
      Cell s' p.block (c ++ [(p.tag, w)]) ∧ Quiet u [p.block] s s') R := by
  have hone : Cell s p.block [(p.tag, w)] := hc.sub (List.sublist_append_right ..)
  have key : ∃ r h', Aliasing.derive k p.tag ⟨p.block, i⟩ 1 s.heap = (.ok r, h') ∧ Wf h' ∧
      layout h' = layout s.heap ∧
      (∀ q c, Within q ⟨p.block, i⟩ 1 → Chain s.heap q (c ++ [(p.tag, w)]) →
        Chain h' q (c ++ [(p.tag, w), (r, decide (k ≠ .shared))])) ∧
      ∀ q c, ¬ Within q ⟨p.block, i⟩ 1 → Chain s.heap q c → Chain h' q c := by
    have hw1 : ∀ q, Within q ⟨p.block, i⟩ 1 → Chain s.heap q [(p.tag, w)] := fun q hq => by
      obtain ⟨qb, qo⟩ := q
      obtain ⟨rfl, hq⟩ := hq
      exact hone qo (by simp at hq; omega)
    by_cases h : k = .shared
    · subst h
      exact ChainLaws.derive_shared hi.wf (by omega) hw1
    · have := hk h
      subst this
      simpa [h] using ChainLaws.derive_ok hi.wf h (by omega) hw1
  obtain ⟨r, h', e, hw, hl, hin, hout⟩ := key
  refine Run.ok (onHeap_ok e) ?_
  have h1 : Chain h' ⟨p.block, i⟩ (c ++ [(p.tag, w)] ++ [(r, decide (k ≠ .shared))]) := by
    simpa using hin _ _ (within_iff.2 (by omega)) (hc i hlt)
  refine ⟨h1, fun j hj => ?_, rfl, rfl, ?_⟩
  · by_cases hij : j = i
    · subst hij
      exact ChainLaws.sub h1 (List.sublist_append_left ..)
    · exact hout _ _ (fun hw => hij (by have := within_iff.1 hw; omega)) (hc j hj)
  · refine Eff.ofHeap hi hw hl (fun q c hq h => hout _ _ (fun hw => hq hw.1) h) fun c h => hout _ _ ?_ h
    intro hw
    have := hw.2
    simp at this
    omega

theorem touch_run {s : Mem H K V} {b t i : Nat} {x w : Bool} {c d : List (Nat × Bool)}
    {R : Mem H K V → Prop} (hi : Inv s) (hlt : i < 3) (hx : x = true → w = true)
    (hd : Chain s.heap ⟨b, i⟩ (d ++ [(t, w)])) (hc : Cell s b c) (hs : c.Sublist (d ++ [(t, w)])) :
    Run cfg n (touch x t b i) s (fun _ s' =>
      Chain s'.heap ⟨b, i⟩ (d ++ [(t, w)]) ∧ Cell s' b c ∧ Quiet u [b] s s') R := by
  obtain ⟨h', e, hw, hl, hin, hout⟩ := ChainLaws.access_ok (p := ⟨b, i⟩) (x := x) hi.wf
    (ChainLaws.sub hd (List.sublist_append_right ..)) hx
  refine Run.ok (onHeap_ok e) ⟨hin _ hd, fun j hj => ?_, rfl, rfl, ?_⟩
  · by_cases hij : j = i
    · subst hij
      exact ChainLaws.sub (hin _ hd) hs
    · exact hout _ _ (fun he => hij (by injection he)) (hc j hj)
  · refine Eff.ofHeap hi hw hl (fun q c hq h => hout _ _ (fun he => hq (by rw [he])) h) fun c h => hout _ _ ?_ h
    intro he
    injection he
    omega

end BST.Boxes
