import Verif.Proofs.Tagged
import Verif.Proofs.Lookup
import Verif.Model.MapBorrows
set_option linter.unusedSimpArgs false
set_option linter.unusedSectionVars false
/-!
# The map with references, step by step next to the map without

`Sim f s r R`: where the plain code (whose result is `r`) returns or panics, the code with
references does so too, with the same map and with answers related by `R`.
-/
namespace BST
namespace TMap
open AliasLaws
variable {H K V : Type} [Aliasing H] [AliasLaws H] {cfg : Cfg} {α β γ δ : Type} {s s' : TMap H K V} {p q : Ptr}

/-- The reference may be used: to write (`ex`) or to read. -/
def Held (ex : Bool) (s : TMap H K V) (n : NodeRef) : Prop :=
  if ex then (view H).Top s.heap n.ptr n.tag else (view H).Seen s.heap n.ptr n.tag

theorem Held.keep {ex : Bool} {n : NodeRef} (h : Held ex s n)
    (hk : (view H).Keep s.heap s'.heap n.ptr) : Held ex s' n := by
  cases ex with
  | true => exact hk.1 _ h
  | false => exact hk.2 _ h

/-- Good tags. -/
abbrev OK (cfg : Cfg) (s : TMap H K V) : Prop := Tagged.Good cfg s.items

theorem OK.new : OK cfg (new : TMap H K V) :=
  ⟨Arena.inv_new cfg, rfl, empty_layout, ⟨empty_wf, fun _ _ h => (by cases h)⟩⟩

/-! ### The relation -/

def Sim (cfg : Cfg) (f : M (TMap H K V) α) (s : TMap H K V) (r : Out β × BSTMap K V)
    (R : α → β → TMap H K V → Prop) : Prop :=
  match r with
  | (.ok b, m) => ∃ a s', f s = (.ok a, s') ∧ s'.map = m ∧ OK cfg s' ∧ R a b s'
  | (.panic, m) => ∃ s', f s = (.panic, s') ∧ s'.map = m ∧ OK cfg s'
  | (.abort, m) => ∃ s', f s = (.abort, s') ∧ s'.map = m ∧ OK cfg s'
  | _ => True

theorem Sim.mono {f : M (TMap H K V) α} {r : Out β × BSTMap K V} {R R' : α → β → TMap H K V → Prop}
    (h : Sim cfg f s r R) (hR : ∀ a b s', s'.map = r.2 → r.1 = .ok b → R a b s' → R' a b s') :
    Sim cfg f s r R' := by
  obtain ⟨o, m⟩ := r
  cases o with
  | ok b =>
    obtain ⟨a, s', e, hm, hk, hr⟩ := h
    exact ⟨a, s', e, hm, hk, hR a b s' hm rfl hr⟩
  | _ => exact h

theorem Sim.pure {m : BSTMap K V} {a : α} {b : β} {R : α → β → TMap H K V → Prop} (hk : OK cfg s)
    (hm : s.map = m) (hR : R a b s) : Sim cfg (Pure.pure a) s (.ok b, m) R :=
  ⟨a, s, rfl, hm, hk, hR⟩

theorem Sim.panic {m : BSTMap K V} {R : α → β → TMap H K V → Prop} (hk : OK cfg s)
    (hm : s.map = m) : Sim cfg M.panic s (.panic, m) R := ⟨s, rfl, hm, hk⟩

/-- A step of the code with references only. -/
theorem Sim.step {f : M (TMap H K V) α} {f' : α → M (TMap H K V) γ} {r : Out β × BSTMap K V}
    {R : γ → β → TMap H K V → Prop} {a : α} (e : f s = (.ok a, s'))
    (h : Sim cfg (f' a) s' r R) : Sim cfg (f >>= f') s r R := by
  unfold Sim at h ⊢
  rw [M.bind_ok e]
  exact h

theorem Sim.bindM {f : M (TMap H K V) α} {f' : α → M (TMap H K V) γ} {g : M (BSTMap K V) β}
    {g' : β → M (BSTMap K V) δ} {m : BSTMap K V} {R : α → β → TMap H K V → Prop}
    {R' : γ → δ → TMap H K V → Prop} (h : Sim cfg f s (g m) R)
    (h' : ∀ a b s', g m = (.ok b, s'.map) → OK cfg s' → R a b s' →
      Sim cfg (f' a) s' (g' b s'.map) R') :
    Sim cfg (f >>= f') s ((g >>= g') m) R' := by
  rcases hg : g m with ⟨o, m'⟩
  rw [hg] at h
  cases o with
  | ok b =>
    obtain ⟨a, s', e, rfl, hk, hr⟩ := h
    rw [M.bind_ok hg]
    exact .step e (h' a b s' hg hk hr)
  | panic =>
    obtain ⟨s', e, hm, hk⟩ := h
    rw [M.bind_panic hg]
    exact ⟨s', M.bind_panic e, hm, hk⟩
  | abort =>
    obtain ⟨s', e, hm, hk⟩ := h
    rw [M.bind_abort hg]
    exact ⟨s', M.bind_abort e, hm, hk⟩
  | ub => rw [M.bind_apply, hg]; exact trivial
  | diverge => rw [M.bind_apply, hg]; exact trivial

theorem Sim.bindO {f : M (TMap H K V) α} {f' : α → M (TMap H K V) γ} {o : Out β}
    {k : β → Out δ} {m : BSTMap K V} {R : α → β → TMap H K V → Prop}
    {R' : γ → δ → TMap H K V → Prop} (h : Sim cfg f s (o, m) R)
    (h' : ∀ a b s', o = .ok b → s'.map = m → OK cfg s' → R a b s' →
      Sim cfg (f' a) s' (k b, m) R') :
    Sim cfg (f >>= f') s (o >>= k, m) R' := by
  cases o with
  | ok b =>
    obtain ⟨a, s', e, hm, hk, hr⟩ := h
    exact .step e (h' a b s' rfl hm hk hr)
  | panic =>
    obtain ⟨s', e, hm, hk⟩ := h
    exact ⟨s', M.bind_panic e, hm, hk⟩
  | abort =>
    obtain ⟨s', e, hm, hk⟩ := h
    exact ⟨s', M.bind_abort e, hm, hk⟩
  | ub => exact trivial
  | diverge => exact trivial

/-- What one iteration of two loops may do. -/
def Iterates {A B : Type} (I : A → B → TMap H K V → Prop) (R : α → β → TMap H K V → Prop) :
    A ⊕ α → B ⊕ β → TMap H K V → Prop
  | .inl a, .inl b, s => I a b s
  | .inr a, .inr b, s => R a b s
  | _, _, _ => False

theorem Sim.loopO {A B : Type} {body : A → M (TMap H K V) (A ⊕ α)} {body' : B → Out (B ⊕ β)}
    {m : BSTMap K V} {I : A → B → TMap H K V → Prop} {R : α → β → TMap H K V → Prop}
    (h : ∀ a b s, s.map = m → OK cfg s → I a b s →
      Sim cfg (body a) s (body' b, m) (Iterates I R))
    (n : Nat) {a : A} {b : B} (hm : s.map = m) (hk : OK cfg s) (hi : I a b s) :
    Sim cfg (loop n body a) s (loop n body' b, m) R := by
  induction n generalizing a b s with
  | zero => exact trivial
  | succ n ih =>
    rw [loop_succ, loop_succ]
    refine .bindO (h a b s hm hk hi) fun x y s' _ hm' hk' hr => ?_
    cases x with
    | inl a' =>
      cases y with
      | inl b' => exact ih hm' hk' hr
      | inr _ => exact hr.elim
    | inr a' =>
      cases y with
      | inl _ => exact hr.elim
      | inr b' => exact .pure hk' hm' hr

theorem Sim.loopM {A B : Type} {body : A → M (TMap H K V) (A ⊕ α)}
    {body' : B → M (BSTMap K V) (B ⊕ β)} {I : A → B → TMap H K V → Prop}
    {R : α → β → TMap H K V → Prop}
    (h : ∀ a b s, OK cfg s → I a b s → Sim cfg (body a) s (body' b s.map) (Iterates I R))
    (n : Nat) {a : A} {b : B} (hk : OK cfg s) (hi : I a b s) :
    Sim cfg (loop n body a) s (loop n body' b s.map) R := by
  induction n generalizing a b s with
  | zero => exact trivial
  | succ n ih =>
    rw [loop_succ, loop_succ]
    refine .bindM (h a b s hk hi) fun x y s' _ hk' hr => ?_
    cases x with
    | inl a' =>
      cases y with
      | inl b' => exact ih hk' hr
      | inr _ => exact hr.elim
    | inr a' =>
      cases y with
      | inl _ => exact hr.elim
      | inr b' => exact .pure hk' rfl hr

/-! ### Primitive steps -/

theorem cell_of_view {v : InnerNode K V} (h : s.map.nodes.view p = some v) :
    (s.items.arena.cell p).isSome := by
  have := Slab.view_some.1 h
  show (s.map.nodes.items.cell p).isSome
  rw [this]; rfl

theorem read_ok {v : InnerNode K V} (h : s.map.nodes.view p = some v) :
    (M.read fun s : TMap H K V => s.map.nodes.getUnchecked p) s = (.ok v, s) := by
  rw [M.read_apply, Slab.getUnchecked_ok h]

theorem onItems_heap {f : M (Tagged H (Entry (InnerNode K V))) α} {o : Out α} {h : H}
    (e : f s.items = (o, { s.items with heap := h })) : onItems f s = (o, { s with heap := h }) := by
  unfold onItems; rw [e]; rfl

/-- References other than those to `p` stay usable. -/
def Others (p : Ptr) (s s' : TMap H K V) : Prop :=
  ∀ ex n, n.ptr ≠ p → Held ex s n → Held ex s' n

/-- References for reading stay usable. -/
def Shared (s s' : TMap H K V) : Prop := ∀ n, Held false s n → Held false s' n

theorem getRaw_ok (hk : OK cfg s) (hp : (s.items.arena.cell p).isSome) :
    ∃ t s', onItems (Tagged.getUnchecked p) s = (.ok t, s') ∧ s'.map = s.map ∧ OK cfg s' ∧
      Held false s' ⟨p, t⟩ ∧ Others p s s' ∧ Shared s s' := by
  obtain ⟨t, h', e, hs, hi, ho, hkeep⟩ := Tagged.getUnchecked_ok hk hp
  exact ⟨_, { s with heap := h' }, onItems_heap e, rfl, hk.setHeap hs, hi,
    fun ex n hn hh => hh.keep (ho _ hn), fun n hh => hkeep _ _ hh⟩

theorem getRawMut_ok (hk : OK cfg s) (hp : (s.items.arena.cell p).isSome) :
    ∃ t s', onItems (Tagged.getUncheckedMut p) s = (.ok t, s') ∧ s'.map = s.map ∧ OK cfg s' ∧
      Held true s' ⟨p, t⟩ ∧ Others p s s' := by
  obtain ⟨t, h', e, hs, hi, ho⟩ := Tagged.getUncheckedMut_ok hk hp
  exact ⟨_, { s with heap := h' }, onItems_heap e, rfl, hk.setHeap hs, hi,
    fun ex n hn hh => hh.keep (ho _ hn)⟩

theorem node_ok (ex : Bool) (hk : OK cfg s) {v : InnerNode K V}
    (hp : s.map.nodes.view p = some v) :
    ∃ n s', node ex p s = (.ok n, s') ∧ n.ptr = p ∧ s'.map = s.map ∧ OK cfg s' ∧ Held ex s' n ∧
      Others p s s' ∧ (ex = false → Shared s s') := by
  unfold node
  cases ex with
  | false =>
    obtain ⟨t, s', e, hm, hk', hh, ho, hs⟩ := getRaw_ok hk (cell_of_view hp)
    refine ⟨⟨p, t⟩, s', ?_, rfl, hm, hk', hh, ho, fun _ => hs⟩
    simp only [Bool.false_eq_true, if_false]
    unfold getRef
    rw [M.bind_ok (a := t) (s' := s') (by rw [M.bind_ok (read_ok hp)]; exact e)]
    rfl
  | true =>
    obtain ⟨t, s', e, hm, hk', hh, ho⟩ := getRawMut_ok hk (cell_of_view hp)
    refine ⟨⟨p, t⟩, s', ?_, rfl, hm, hk', hh, ho, by simp⟩
    simp only [if_true]
    unfold getRefMut
    rw [M.bind_ok (a := t) (s' := s') (by rw [M.bind_ok (read_ok hp)]; exact e)]
    rfl

theorem accessRead_ok (hk : OK cfg s) {n : NodeRef} {ex : Bool} (hn : Held ex s n) :
    ∃ s', access false n.tag n.ptr s = (.ok (), s') ∧ s'.map = s.map ∧ OK cfg s' ∧ Held ex s' n ∧
      Others n.ptr s s' ∧ Shared s s' := by
  have hsh : ∀ h', Aliasing.access false n.tag n.ptr s.heap = (.ok (), h') →
      Shared s { s with heap := h' } := fun h' e n' hh => by
    have := access_keeps s.heap n.tag n.ptr n'.ptr n'.tag hh
    rw [e] at this
    exact this
  unfold access
  cases ex with
  | true =>
    obtain ⟨h', e, hs, ht, ho⟩ := access_top (w := false) hk.sane.wf hn
    exact ⟨{ s with heap := h' }, onItems_heap (Tagged.onHeap_ok e), rfl, hk.setHeap hs, ht,
      fun ex n' hne h => h.keep (ho _ hne), hsh h' e⟩
  | false =>
    obtain ⟨h', e, hs, ho⟩ := access_seen hk.sane.wf hn
    exact ⟨{ s with heap := h' }, onItems_heap (Tagged.onHeap_ok e), rfl, hk.setHeap hs,
      hsh h' e n hn, fun ex n' hne h => h.keep (ho _ hne), hsh h' e⟩

theorem accessWrite_ok (hk : OK cfg s) {n : NodeRef} (hn : Held true s n) :
    ∃ h', access true n.tag n.ptr s = (.ok (), { s with heap := h' }) ∧
      OK cfg { s with heap := h' } ∧ (view H).Top h' n.ptr n.tag ∧
      ∀ q, q ≠ n.ptr → (view H).Keep s.heap h' q := by
  obtain ⟨h', e, hs, ht, ho⟩ := access_top (w := true) hk.sane.wf hn
  exact ⟨h', onItems_heap (Tagged.onHeap_ok e), hk.setHeap hs, ht, ho⟩

theorem deref_ok (hk : OK cfg s) {n : NodeRef} {ex : Bool} (hn : Held ex s n)
    {v : InnerNode K V} (hp : s.map.nodes.view n.ptr = some v) :
    ∃ s', deref n s = (.ok v, s') ∧ s'.map = s.map ∧ OK cfg s' ∧ Held ex s' n ∧
      Others n.ptr s s' ∧ Shared s s' := by
  obtain ⟨s', e, hm, hk', hh, ho, hs⟩ := accessRead_ok hk hn
  refine ⟨s', ?_, hm, hk', hh, ho, hs⟩
  unfold deref
  rw [M.bind_ok e]
  exact read_ok (by rw [hm]; exact hp)

/-- Change of the contents of a slot. -/
theorem OK.poke (hk : OK cfg s) (hp : (s.items.arena.cell p).isSome) (e : Entry (InnerNode K V))
    {m : BSTMap K V} (hm : m.nodes.items = s.map.nodes.items.poke p (some e)) :
    OK cfg { s with map := m } := by
  have hi : (s.map.nodes.items.poke p (some e)).Inv cfg := hk.inv.poke hp e
  have h1 := hk.same hi (Arena.poke_chunks_map _ _ _)
  unfold OK items
  simp only [hm]
  exact h1

theorem assign_ok (hk : OK cfg s) {n : NodeRef} (hn : Held true s n)
    {v : InnerNode K V} (hp : s.map.nodes.view n.ptr = some v) (f : InnerNode K V → InnerNode K V) :
    ∃ s', assign n f s = (.ok (), s') ∧
      BSTMap.onNodes (Slab.updateUnchecked n.ptr f) s.map = (.ok (), s'.map) ∧ OK cfg s' ∧
      Held true s' n ∧ Others n.ptr s s' := by
  obtain ⟨h', e, hk', ht, ho⟩ := accessWrite_ok hk hn
  have hc := cell_of_view hp
  have hu : Slab.updateUnchecked n.ptr f s.map.nodes =
      (.ok (), { s.map.nodes with items := s.map.nodes.items.poke n.ptr (some (.value (f v))) }) := by
    unfold Slab.updateUnchecked
    rw [M.read_bind, Slab.getUnchecked_ok hp, M.lift_ok_bind]
    exact Slab.onItems_ok (Arena.setUnchecked_ok hc _)
  have hu' := BSTMap.onNodes_ok (m := s.map) hu
  refine ⟨{ s with heap := h', map := { s.map with nodes :=
    { s.map.nodes with items := s.map.nodes.items.poke n.ptr (some (.value (f v))) } } }, ?_, hu',
    OK.poke (s := { s with heap := h' }) hk' hc (.value (f v)) rfl, ht,
    fun ex n' hne h => h.keep (ho _ hne)⟩
  unfold assign
  rw [M.bind_ok e]
  unfold onNodes onMap
  simp only [hu']

end TMap
end BST
