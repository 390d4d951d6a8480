import Verif.Proofs.Arena
import Verif.Model.Slab
/-!
# Slab: invariant, view as a finite map, specification of each method
-/
namespace BST

/-- Point update of a partial function. -/
def upd {T : Type} (h : Ptr → Option T) (p : Ptr) (v : Option T) : Ptr → Option T :=
  fun q => if q = p then v else h q

@[simp] theorem upd_same {T : Type} (h : Ptr → Option T) (p : Ptr) (v : Option T) :
    upd h p v p = v := by simp [upd]
theorem upd_ne {T : Type} (h : Ptr → Option T) {p q : Ptr} (v : Option T) (hq : q ≠ p) :
    upd h p v q = h q := by simp [upd, hq]

namespace Arena
variable {T : Type}

/-- All item addresses, in index order. -/
def addrs (a : Arena T) : List Ptr := (List.range a.len).map a.addr

theorem Inv.addrs_nodup {cfg : Cfg} {a : Arena T} (h : a.Inv cfg) : a.addrs.Nodup := by
  unfold addrs
  rw [List.Nodup, List.pairwise_map]
  have hl := h.lenle
  refine List.Pairwise.imp_of_mem (R := fun x y => x ≠ y) ?_ List.nodup_range
  intro i j hi hj hne e
  rw [List.mem_range] at hi hj
  exact hne (h.addr_inj (by omega) (by omega) e)

theorem Inv.mem_addrs {cfg : Cfg} {a : Arena T} (h : a.Inv cfg) {p : Ptr} :
    p ∈ a.addrs ↔ (a.cell p).isSome := by
  have hl := h.lenle
  constructor
  · intro hp
    obtain ⟨j, hj, rfl⟩ := List.mem_map.1 hp
    rw [List.mem_range] at hj
    exact (h.cell_addr (by omega)).2 hj
  · intro hp
    obtain ⟨v, hv⟩ := Option.isSome_iff_exists.1 hp
    obtain ⟨j, hj, rfl⟩ := h.cell_some hv
    exact List.mem_map_of_mem (List.mem_range.2 hj)

theorem Inv.cell_poke' {cfg : Cfg} {a : Arena T} (h : a.Inv cfg) {p : Ptr} (hp : (a.cell p).isSome)
    (v : Option T) (q : Ptr) : (a.poke p v).cell q = if q = p then v else a.cell q := by
  obtain ⟨w, hw⟩ := Option.isSome_iff_exists.1 hp
  obtain ⟨j, hj, rfl⟩ := h.cell_some hw
  exact h.cell_poke (Nat.lt_of_lt_of_le hj h.lenle) v q

theorem setUnchecked_ok {a : Arena T} {p : Ptr} (hp : (a.cell p).isSome) (v : T) :
    setUnchecked p v a = (.ok (), a.poke p (some v)) := by
  obtain ⟨w, hw⟩ := Option.isSome_iff_exists.1 hp
  unfold setUnchecked
  rw [M.read_bind]
  simp [getUnchecked, hw]

end Arena

namespace Slab
variable {T : Type}

/-- The live values of a slab, by address. -/
def view (s : Slab T) (p : Ptr) : Option T :=
  match s.items.cell p with
  | some (.value v) => some v
  | _ => none

/-- `l` is the linked free list starting at `head`. -/
def FreeChain (cell : Ptr → Option (Entry T)) : Option Ptr → List Ptr → Prop
  | none, l => l = []
  | some _, [] => False
  | some p, q :: l => p = q ∧ ∃ next, cell p = some (.free next) ∧ FreeChain cell next l

theorem FreeChain.congr {c c' : Ptr → Option (Entry T)} {l : List Ptr} {head : Option Ptr}
    (h : FreeChain c head l) (hc : ∀ p ∈ l, c' p = c p) : FreeChain c' head l := by
  induction l generalizing head with
  | nil =>
    cases head with
    | none => rfl
    | some p => exact h
  | cons q l ih =>
    cases head with
    | none => simp [FreeChain] at h
    | some p =>
      obtain ⟨rfl, next, h1, h2⟩ := h
      exact ⟨rfl, next, by rw [hc _ (by simp)]; exact h1,
        ih h2 fun r hr => hc r (List.mem_cons_of_mem _ hr)⟩

theorem FreeChain.mem_free {c : Ptr → Option (Entry T)} {l : List Ptr} {head : Option Ptr}
    (h : FreeChain c head l) {p : Ptr} (hp : p ∈ l) : ∃ next, c p = some (.free next) := by
  induction l generalizing head with
  | nil => simp at hp
  | cons q l ih =>
    cases head with
    | none => simp [FreeChain] at h
    | some p' =>
      obtain ⟨rfl, next, h1, h2⟩ := h
      rcases List.mem_cons.1 hp with rfl | hp
      · exact ⟨next, h1⟩
      · exact ih h2 hp

/-- Slab invariant, with the free list `frees` made explicit. -/
structure InvF (cfg : Cfg) (s : Slab T) (frees : List Ptr) : Prop where
  items : s.items.Inv cfg
  chain : FreeChain s.items.cell s.freeHead frees
  nodup : frees.Nodup
  flen : s.freeLen = frees.length
  tag : ∀ p e, s.items.cell p = some e → p ∉ frees → ∃ v, e = .value v

/-- Slab invariant. -/
def Inv (cfg : Cfg) (s : Slab T) : Prop := ∃ frees, InvF cfg s frees

theorem InvF.view_isSome {cfg : Cfg} {s : Slab T} {frees : List Ptr} (h : InvF cfg s frees)
    {p : Ptr} : (s.view p).isSome ↔ (s.items.cell p).isSome ∧ p ∉ frees := by
  unfold view
  constructor
  · intro hv
    split at hv
    · rename_i v hc
      refine ⟨by simp [hc], fun hp => ?_⟩
      obtain ⟨n, hn⟩ := h.chain.mem_free hp
      rw [hc] at hn; cases hn
    · simp at hv
  · rintro ⟨hc, hp⟩
    obtain ⟨e, he⟩ := Option.isSome_iff_exists.1 hc
    obtain ⟨v, rfl⟩ := h.tag p e he hp
    simp [he]

theorem view_some {s : Slab T} {p : Ptr} {v : T} : s.view p = some v ↔
    s.items.cell p = some (.value v) := by
  unfold view
  split
  · rename_i w hw; simp [hw]
  · rename_i hn
    constructor
    · intro h; cases h
    · intro h; exact absurd h (hn v)

theorem getUnchecked_ok {s : Slab T} {p : Ptr} {v : T} (h : s.view p = some v) :
    s.getUnchecked p = .ok v := by
  rw [view_some] at h
  simp [getUnchecked, Arena.getUnchecked, h, Entry.asValue]

theorem getUnchecked_eq {s : Slab T} {p : Ptr} :
    s.getUnchecked p = match s.view p with | some v => .ok v | none => .ub := by
  unfold getUnchecked view Arena.getUnchecked
  cases s.items.cell p with
  | none => rfl
  | some e => cases e <;> rfl

/-- The number of used slots is the number of live values plus the length of the
free list. -/
theorem Inv.len_eq {cfg : Cfg} {s : Slab T} (h : s.Inv cfg) {l : List Ptr} (hn : l.Nodup)
    (hl : ∀ p, (s.view p).isSome ↔ p ∈ l) : s.items.len = l.length + s.freeLen := by
  obtain ⟨frees, hf⟩ := h
  have hperm : s.items.addrs.Perm (l ++ frees) := by
    rw [List.perm_ext_iff_of_nodup hf.items.addrs_nodup]
    · intro p
      rw [hf.items.mem_addrs, List.mem_append, ← hl, hf.view_isSome]
      constructor
      · intro hc
        by_cases hp : p ∈ frees
        · exact Or.inr hp
        · exact Or.inl ⟨hc, hp⟩
      · rintro (hc | hp)
        · exact hc.1
        · obtain ⟨n, hn⟩ := hf.chain.mem_free hp
          simp [hn]
    · rw [List.nodup_append]
      refine ⟨hn, hf.nodup, ?_⟩
      rintro p hp q hq rfl
      exact (hf.view_isSome.1 ((hl p).2 hp)).2 hq
  have := hperm.length_eq
  simp only [Arena.addrs, List.length_map, List.length_range, List.length_append] at this
  rw [this, hf.flen]

theorem InvF.frees_length {cfg : Cfg} {s : Slab T} {frees : List Ptr} (h : InvF cfg s frees) :
    frees.length ≤ s.items.len := by
  have : frees ⊆ s.items.addrs := by
    intro p hp
    obtain ⟨n, hn⟩ := h.chain.mem_free hp
    exact h.items.mem_addrs.2 (by simp [hn])
  have := h.nodup.length_le_of_subset this
  simpa [Arena.addrs] using this

theorem Inv.len_ok {cfg : Cfg} {s : Slab T} (h : s.Inv cfg) {l : List Ptr} (hn : l.Nodup)
    (hl : ∀ p, (s.view p).isSome ↔ p ∈ l) : s.len cfg = .ok l.length := by
  have := h.len_eq hn hl
  unfold len
  rw [subU_ok cfg (by omega)]
  congr 1; omega

theorem inv_new (cfg : Cfg) : (new : Slab T).Inv cfg :=
  ⟨[], Arena.inv_new cfg, rfl, List.nodup_nil, rfl, by simp [new, Arena.new, Arena.cell]⟩

theorem view_new (p : Ptr) : (new : Slab T).view p = none := by
  simp [view, new, Arena.new, Arena.cell]

/-! ### `push` -/

theorem onItems_ok {α : Type} {m : M (Arena (Entry T)) α} {s : Slab T} {o : Out α}
    {b : Arena (Entry T)} (h : m s.items = (o, b)) : onItems m s = (o, { s with items := b }) := by
  simp [onItems, h]

/-- A `push` that succeeded. -/
structure Pushed (cfg : Cfg) (v : T) (s : Slab T) (p : Ptr) (s' : Slab T) : Prop where
  inv : s'.Inv cfg
  fresh : s.view p = none
  view : s'.view = upd s.view p (some v)
  dropped : s'.dropped = s.dropped
  capacity : s.capacity ≤ s'.capacity
  /-- memory is taken from the allocator only if nothing is free -/
  reuse : s.freeLen ≠ 0 → s'.items.log = s.items.log ∧ s'.items.len = s.items.len ∧
    s'.capacity = s.capacity
  room : s.items.len < s.capacity → s'.items.log = s.items.log ∧ s'.capacity = s.capacity
  len : s.freeLen = 0 → s'.items.len = s.items.len + 1 ∧ s'.freeLen = 0
  grew : s'.capacity = s.capacity ∨
    (s.items.len = s.capacity ∧ s.freeLen = 0 ∧ s'.capacity = 2 * s.capacity + 8)
  log : s'.items.log = s.items.log ∨ ∃ id n, s'.items.log = s.items.log ++ [.alloc id n]
  /-- the slot that was freed last is used first -/
  last : ∀ q, s.freeHead = some q → p = q

theorem push_spec {cfg : Cfg} {s : Slab T} (h : s.Inv cfg) (v : T) :
    (∃ p s', push cfg v s = (.ok p, s') ∧ Pushed cfg v s p s') ∨
    (s.freeLen = 0 ∧ s.items.len = s.capacity ∧
      (push cfg v s = (.panic, s) ∧ Arena.pushChunk cfg s.items = (.panic, s.items) ∨
       push cfg v s = (.abort, s) ∧ Arena.pushChunk cfg s.items = (.abort, s.items))) := by
  obtain ⟨frees, hf⟩ := h
  unfold push
  simp only [M.get_bind]
  cases hh : s.freeHead with
  | some head =>
    left
    obtain ⟨rest, rfl, next, hc, hch⟩ : ∃ rest, frees = head :: rest ∧ ∃ next,
        s.items.cell head = some (.free next) ∧ FreeChain s.items.cell next rest := by
      have := hf.chain
      rw [hh] at this
      cases frees with
      | nil => exact this.elim
      | cons q l =>
        obtain ⟨rfl, next, h1, h2⟩ := this
        exact ⟨l, rfl, next, h1, h2⟩
    have hsome : (s.items.cell head).isSome := by simp [hc]
    have hfl := hf.flen
    simp only [List.length_cons] at hfl
    have hnd := hf.nodup
    rw [List.nodup_cons] at hnd
    refine ⟨head, { items := s.items.poke head (some (.value v)), freeHead := next, freeLen := s.freeLen - 1, dropped := s.dropped }, ?_, ?_⟩
    · dsimp only
      rw [M.read_bind]
      simp only [Arena.getUnchecked, hc, M.lift_ok_bind, Entry.asFree, M.modify_bind]
      rw [subU_ok cfg (by omega)]
      simp only [M.lift_ok_bind, M.modify_bind]
      exact M.bind_ok (onItems_ok (s := ⟨s.items, next, s.freeLen - 1, s.dropped⟩)
        (Arena.setUnchecked_ok hsome _))
    · have hcell := hf.items.cell_poke' hsome (some (Entry.value v))
      refine ⟨⟨rest, hf.items.poke hsome _, ?_, hnd.2, by simp; omega, ?_⟩, ?_, ?_, rfl,
        Nat.le_refl _, fun _ => ⟨rfl, rfl, rfl⟩, fun _ => ⟨rfl, rfl⟩, fun h0 => ?_, Or.inl rfl, Or.inl rfl,
        fun q hq => Option.some.inj (hh.symm.trans hq)⟩
      · refine hch.congr fun p hp => ?_
        rw [hcell, if_neg]; rintro rfl; exact hnd.1 hp
      · intro p e he hp
        rw [hcell] at he
        split at he
        · exact ⟨v, by injection he with he; exact he.symm⟩
        · rename_i hne
          exact hf.tag p e he (by simp [hne, hp])
      · simp [Slab.view, hc]
      · funext q
        simp only [Slab.view, upd, hcell]
        by_cases hq : q = head <;> simp [hq]
      · omega
  | none =>
    have hfr : frees = [] := by
      have := hf.chain
      rw [hh] at this
      simpa [FreeChain] using this
    subst hfr
    have hfl : s.freeLen = 0 := hf.flen
    rcases Arena.alloc_spec hf.items (Entry.value v) with ⟨b, hb, hbi, hbl, hbc, hcase⟩ | ⟨hlc, ⟨hp, hq⟩ | ⟨hp, hq⟩⟩
    · left
      have hbcell : ∀ p, b.cell p = s.items.cell p := by
        rcases hcase with ⟨rfl, _⟩ | ⟨rfl, _⟩
        · intro p; rfl
        · intro p; exact Arena.cell_grown p
      have hcap : s.items.capacity ≤ b.capacity := by
        rcases hcase with ⟨rfl, _⟩ | ⟨rfl, _⟩
        · exact Nat.le_refl _
        · simp [Arena.grown]
      rw [← hbl] at hbc
      have hcell : ∀ q, (b.wrote (.value v)).cell q =
          if q = b.addr b.len then some (.value v) else b.cell q :=
        hbi.cell_poke hbc _
      have hnone : b.cell (b.addr b.len) = none := by
        have := hbi.cell_addr hbc
        cases hx : b.cell (b.addr b.len) with
        | none => rfl
        | some w =>
          rw [hx] at this
          have := this.1 rfl
          omega
      refine ⟨_, _, onItems_ok hb, ?_⟩
      rw [← hbl]
      refine ⟨⟨[], hbi.wrote hbc _, ?_, List.nodup_nil, hfl, ?_⟩, ?_, ?_, rfl, hcap,
        fun h0 => absurd hfl h0, fun h0 => ?_, fun _ => ⟨by simp [Arena.wrote, hbl], hfl⟩, ?_, ?_,
        fun q hq => nomatch hh.symm.trans hq⟩
      · rw [hh]; rfl
      · intro p e he _
        rw [hcell] at he
        split at he
        · exact ⟨v, by injection he with he; exact he.symm⟩
        · rw [hbcell] at he
          exact hf.tag p e he (by simp)
      · rw [hbcell] at hnone
        simp [Slab.view, hnone]
      · funext q
        simp only [Slab.view, upd, hcell]
        by_cases hq : q = b.addr b.len <;> simp [hq, hbcell]
      · rcases hcase with ⟨rfl, _⟩ | ⟨rfl, hx⟩
        · exact ⟨rfl, rfl⟩
        · simp only [capacity] at h0; omega
      · rcases hcase with ⟨rfl, _⟩ | ⟨rfl, hx⟩
        · exact Or.inl rfl
        · refine Or.inr ⟨hx, hfl, ?_⟩
          have := hf.items.cap
          show s.items.capacity + 8 * 2 ^ s.items.chunks.length = 2 * s.items.capacity + 8
          omega
      · rcases hcase with ⟨rfl, _⟩ | ⟨rfl, _⟩
        · exact Or.inl rfl
        · exact Or.inr ⟨_, _, rfl⟩
    · right
      exact ⟨hfl, hlc, Or.inl ⟨onItems_ok hp, hq⟩⟩
    · right
      exact ⟨hfl, hlc, Or.inr ⟨onItems_ok hp, hq⟩⟩

/-! ### `remove`, writes -/

/-- A `remove` that succeeded. -/
structure Removed (cfg : Cfg) (p : Ptr) (s s' : Slab T) : Prop where
  inv : s'.Inv cfg
  view : s'.view = upd s.view p none
  dropped : s'.dropped = s.dropped
  capacity : s'.capacity = s.capacity
  log : s'.items.log = s.items.log
  len : s'.items.len = s.items.len
  freeLen : s'.freeLen = s.freeLen + 1
  head : s'.freeHead = some p

theorem remove_spec {cfg : Cfg} {s : Slab T} (h : s.Inv cfg) {p : Ptr} {v : T}
    (hp : s.view p = some v) : ∃ s', remove cfg p s = (.ok v, s') ∧ Removed cfg p s s' := by
  obtain ⟨frees, hf⟩ := h
  have hc := view_some.1 hp
  have hsome : (s.items.cell p).isSome := by simp [hc]
  have hnf : p ∉ frees := (hf.view_isSome.1 (by simp [hp])).2
  have hfl := hf.frees_length
  have hcl := hf.items.cap_lt
  have hle := hf.items.lenle
  have hcell := hf.items.cell_poke' hsome (some (Entry.free (T := T) s.freeHead))
  refine ⟨{ items := s.items.poke p (some (.free s.freeHead)), freeHead := some p,
            freeLen := s.freeLen + 1, dropped := s.dropped }, ?_, ?_⟩
  · unfold remove
    simp only [M.get_bind]
    rw [M.read_bind]
    simp only [Arena.getUnchecked, hc, M.lift_ok_bind]
    rw [M.bind_ok (onItems_ok (Arena.setUnchecked_ok hsome _))]
    simp only [M.modify_bind]
    rw [addU_ok cfg (by rw [hf.flen]; simp only [usizeBound]; omega)]
    rfl
  · refine ⟨⟨p :: frees, hf.items.poke hsome _, ⟨rfl, s.freeHead, by simp [hcell], ?_⟩,
      List.nodup_cons.2 ⟨hnf, hf.nodup⟩, by simp [hf.flen], ?_⟩, ?_, rfl, rfl, rfl, rfl, rfl, rfl⟩
    · refine hf.chain.congr fun q hq => ?_
      rw [hcell, if_neg]; rintro rfl; exact hnf hq
    · intro q e he hq
      rw [hcell] at he
      simp only [List.mem_cons, not_or] at hq
      rw [if_neg hq.1] at he
      exact hf.tag q e he hq.2
    · funext q
      simp only [Slab.view, upd, hcell]
      by_cases hq : q = p <;> simp [hq]

/-- A write through a valid reference. -/
structure Updated (cfg : Cfg) (p : Ptr) (v : T) (s s' : Slab T) : Prop where
  inv : s'.Inv cfg
  view : s'.view = upd s.view p (some v)
  dropped : s'.dropped = s.dropped
  capacity : s'.capacity = s.capacity
  log : s'.items.log = s.items.log
  len : s'.items.len = s.items.len
  freeLen : s'.freeLen = s.freeLen

theorem update_spec {cfg : Cfg} {s : Slab T} (h : s.Inv cfg) {p : Ptr} {v : T}
    (hp : s.view p = some v) (f : T → T) :
    ∃ s', updateUnchecked p f s = (.ok (), s') ∧ Updated cfg p (f v) s s' := by
  obtain ⟨frees, hf⟩ := h
  have hc := view_some.1 hp
  have hsome : (s.items.cell p).isSome := by simp [hc]
  have hnf : p ∉ frees := (hf.view_isSome.1 (by simp [hp])).2
  have hcell := hf.items.cell_poke' hsome (some (Entry.value (f v)))
  refine ⟨{ s with items := s.items.poke p (some (.value (f v))) }, ?_, ?_⟩
  · unfold updateUnchecked
    rw [M.read_bind, getUnchecked_ok hp]
    simp only [M.lift_ok_bind]
    exact onItems_ok (Arena.setUnchecked_ok hsome _)
  · refine ⟨⟨frees, hf.items.poke hsome _, ?_, hf.nodup, hf.flen, ?_⟩, ?_, rfl, rfl, rfl, rfl, rfl⟩
    · refine hf.chain.congr fun q hq => ?_
      rw [hcell, if_neg]; rintro rfl; exact hnf hq
    · intro q e he hq
      rw [hcell] at he
      split at he
      · exact ⟨f v, by injection he with he; exact he.symm⟩
      · exact hf.tag q e he hq
    · funext q
      simp only [Slab.view, upd, hcell]
      by_cases hq : q = p <;> simp [hq]

/-! ### `reserve`, `shrink_to_fit`, `with_capacity` -/

theorem InvF.of_cells {cfg : Cfg} {s : Slab T} {frees : List Ptr} (h : InvF cfg s frees)
    {b : Arena (Entry T)} (hb : b.Inv cfg) (hc : ∀ p, b.cell p = s.items.cell p) :
    InvF cfg { s with items := b } frees :=
  ⟨hb, h.chain.congr fun p _ => hc p, h.nodup, h.flen,
    fun p e he hp => h.tag p e (by rw [← hc]; exact he) hp⟩

theorem view_of_cells {s : Slab T} {b : Arena (Entry T)} (hc : ∀ p, b.cell p = s.items.cell p) :
    ({ s with items := b } : Slab T).view = s.view := by
  funext p; simp [view, hc]

/-! ### `clear` -/

theorem freePointers_chain {s : Slab T} {frees : List Ptr}
    (h : FreeChain s.items.cell s.freeHead frees) (hle : frees.length ≤ s.items.len) :
    s.freePointers = .ok frees.reverse := by
  have key : ∀ (l : List Ptr) (head : Option Ptr) (acc : List Ptr) (fuel : Nat),
      FreeChain s.items.cell head l → l.length < fuel →
      loop fuel (fun (st : Option Ptr × List Ptr) =>
        match st.1 with
        | none => pure (.inr st.2)
        | some p => do
          let entry ← s.items.getUnchecked p
          let next ← Entry.asFree entry
          pure (.inl (next, p :: st.2)) : _ → Out (_ ⊕ List Ptr)) (head, acc) =
        .ok (l.reverse ++ acc) := by
    intro l
    induction l with
    | nil =>
      intro head acc fuel hc hl
      obtain ⟨fuel, rfl⟩ : ∃ k, fuel = k + 1 := ⟨fuel - 1, by omega⟩
      cases head with
      | none => exact loopO_inr rfl
      | some p => exact hc.elim
    | cons q l ih =>
      intro head acc fuel hc hl
      obtain ⟨fuel, rfl⟩ : ∃ k, fuel = k + 1 := ⟨fuel - 1, by omega⟩
      cases head with
      | none => simp [FreeChain] at hc
      | some p =>
        obtain ⟨rfl, next, h1, h2⟩ := hc
        rw [loopO_inl (b' := (next, p :: acc)) (by
          simp [Arena.getUnchecked, h1, Entry.asFree])]
        rw [ih next (p :: acc) fuel h2 (by simp at hl; omega)]
        simp
  have := key frees s.freeHead [] (s.items.len + 1) h (by omega)
  rw [List.append_nil] at this
  exact this

theorem freePointers_spec {cfg : Cfg} {s : Slab T} {frees : List Ptr} (h : InvF cfg s frees) :
    s.freePointers = .ok frees.reverse :=
  freePointers_chain h.chain (by have := h.frees_length; omega)

/-- The live values, in slot order. -/
def liveVals (s : Slab T) : List T := s.items.addrs.filterMap s.view

/-- Effect of the destructor loop of `clear` on the remaining values: everything up
to and including the first value whose destructor panics is dropped. -/
def dropRun (d : DropInfo T) : List T → List T × Bool
  | [] => ([], false)
  | v :: vs => if d.panics v then ([v], true) else
      let r := dropRun d vs
      (v :: r.1, r.2)

theorem dropRun_noPanic {d : DropInfo T} {l : List T} (h : ∀ v ∈ l, d.panics v = false) :
    dropRun d l = (l, false) := by
  induction l with
  | nil => rfl
  | cons v l ih =>
    simp [dropRun, h v (by simp), ih fun w hw => h w (List.mem_cons_of_mem _ hw)]

theorem dropRun_prefix (d : DropInfo T) (l : List T) : (dropRun d l).1 <+: l := by
  induction l with
  | nil => simp [dropRun]
  | cons v l ih =>
    unfold dropRun
    split
    · exact ⟨l, rfl⟩
    · exact List.cons_prefix_cons.2 ⟨rfl, ih⟩

theorem dropRun_panic {d : DropInfo T} {l : List T} (h : ∃ v ∈ l, d.panics v = true) :
    (dropRun d l).2 = true := by
  induction l with
  | nil => simp at h
  | cons v l ih =>
    unfold dropRun
    split
    · rfl
    · rename_i hv
      apply ih
      obtain ⟨w, hw, hp⟩ := h
      rcases List.mem_cons.1 hw with rfl | hw
      · exact absurd hp hv
      · exact ⟨w, hw, hp⟩

/-- Loop body of the destructor loop of `clear`. -/
def clearBody (cfg : Cfg) (d : DropInfo T) (frees : List Ptr) (it : Arena.Iter) :
    M (Slab T) (Arena.Iter ⊕ Unit) := do
  let s ← M.get
  let (o, it) ← M.lift (it.nextPtr cfg s.items)
  match o with
  | none => pure (.inr ())
  | some (p, entry) =>
    if p ∈ frees then pure (.inl it)
    else
      dropEntry d p entry
      pure (.inl it)

/-- State in the middle of the destructor loop: slots before `j` are dead. -/
structure Mid (cfg : Cfg) (s0 : Slab T) (j : Nat) (s : Slab T) : Prop where
  items : s.items.Inv cfg
  len : s.items.len = s0.items.len
  cap : s.items.capacity = s0.items.capacity
  addr : ∀ k, s.items.addr k = s0.items.addr k
  nid : s.items.nextId = s0.items.nextId
  rest : ∀ k, j ≤ k → k < s0.items.len → s.items.cell (s0.items.addr k) = s0.items.cell (s0.items.addr k)
  head : s.freeHead = s0.freeHead
  flen : s.freeLen = s0.freeLen
  logeq : s.items.log = s0.items.log
  gone : ∀ k, k < j → k < s0.items.len → (s0.view (s0.items.addr k)).isSome →
    s.items.cell (s0.items.addr k) = some .dead
  free : ∀ k, k < j → k < s0.items.len → s0.view (s0.items.addr k) = none →
    s.items.cell (s0.items.addr k) = s0.items.cell (s0.items.addr k)

theorem clear_loop {cfg : Cfg} {d : DropInfo T} {s0 : Slab T} {frees fl : List Ptr}
    (h0 : InvF cfg s0 frees) (hfl : ∀ p, p ∈ fl ↔ p ∈ frees) (j fuel : Nat) (s : Slab T)
    (hm : Mid cfg s0 j s) (hj : j ≤ s0.items.len) (hfuel : s0.items.len < fuel + j) :
    ∃ j' s', Mid cfg s0 j' s' ∧
      s'.dropped = s.dropped ++ (dropRun d (((List.range s0.items.len).drop j).filterMap fun k =>
        s0.view (s0.items.addr k))).1 ∧
      loop fuel (clearBody cfg d fl) ⟨j, s0.items.len⟩ s =
        (if (dropRun d (((List.range s0.items.len).drop j).filterMap fun k =>
          s0.view (s0.items.addr k))).2 then .panic else .ok (), s') ∧
      ((dropRun d (((List.range s0.items.len).drop j).filterMap fun k =>
          s0.view (s0.items.addr k))).2 = true →
        ∃ k, k < j' ∧ k < s0.items.len ∧ (s0.view (s0.items.addr k)).isSome) := by
  induction fuel generalizing j s with
  | zero => omega
  | succ fuel ih =>
    by_cases hlt : j < s0.items.len
    · have hdrop : (List.range s0.items.len).drop j = j :: (List.range s0.items.len).drop (j + 1) := by
        rw [List.drop_eq_getElem_cons (by simpa using hlt)]; simp
      obtain ⟨e, he, hn⟩ := hm.items.nextPtr_some (it := ⟨j, s0.items.len⟩) hlt (by rw [hm.len]; exact Nat.le_refl _)
      simp only at he hn
      rw [hm.addr] at he hn
      have hcell := hm.rest j (Nat.le_refl _) hlt
      rw [hcell] at he
      rw [hdrop]
      by_cases hp : s0.items.addr j ∈ frees
      · -- on the free list: skipped
        obtain ⟨n, hfn⟩ := h0.chain.mem_free hp
        have hview : s0.view (s0.items.addr j) = none := by simp [view, hfn]
        have hm' : Mid cfg s0 (j + 1) s := { hm with
          rest := fun k hk => hm.rest k (by omega)
          gone := fun k hk hk2 hv => by
            by_cases hkj : k = j
            · subst hkj; rw [hview] at hv; cases hv
            · exact hm.gone k (by omega) hk2 hv
          free := fun k hk hk2 hv => by
            by_cases hkj : k = j
            · subst hkj; exact hcell
            · exact hm.free k (by omega) hk2 hv }
        obtain ⟨j', s', a1, a2, a3, a4⟩ := ih (j + 1) s hm' (by omega) (by omega)
        refine ⟨j', s', a1, ?_, ?_, by simpa [List.filterMap_cons, hview] using a4⟩
        · simpa [List.filterMap_cons, hview] using a2
        · rw [loopM_inl (b' := ⟨j + 1, s0.items.len⟩) (s' := s)]
          · simpa [List.filterMap_cons, hview] using a3
          · unfold clearBody
            simp only [M.get_bind, hn, M.lift_ok_bind]
            rw [if_pos ((hfl _).2 hp)]; rfl
      · -- a live value: dropped
        obtain ⟨v, rfl⟩ := h0.tag _ _ he hp
        have hview : s0.view (s0.items.addr j) = some v := view_some.2 he
        have hsome : (s.items.cell (s0.items.addr j)).isSome := by rw [hcell, he]; rfl
        have hcellp := hm.items.cell_poke' hsome (some Entry.dead)
        let s1 : Slab T := { s with items := s.items.poke (s0.items.addr j) (some .dead), dropped := s.dropped ++ [v] }
        have hm' : Mid cfg s0 (j + 1) s1 := by
          have hother : ∀ k, k < s0.items.len → k ≠ j → s1.items.cell (s0.items.addr k) =
              s.items.cell (s0.items.addr k) := by
            intro k hk hkj
            show (s.items.poke _ _).cell _ = _
            rw [hcellp, if_neg]
            intro e
            have hle := h0.items.lenle
            exact hkj (h0.items.addr_inj (by omega) (by omega) e)
          refine ⟨hm.items.poke hsome _, hm.len, hm.cap, fun k => ?_, hm.nid, fun k hk1 hk2 => ?_,
            hm.head, hm.flen, hm.logeq, fun k hk1 hk2 hv => ?_, fun k hk1 hk2 hv => ?_⟩
          · rw [← hm.addr k]; exact Arena.addr_poke _ _ _ _
          · show (s.items.poke _ _).cell _ = _
            rw [hcellp, if_neg, hm.rest k (by omega) hk2]
            intro e
            have hle := h0.items.lenle
            have := h0.items.addr_inj (by omega) (by omega) e
            omega
          · by_cases hkj : k = j
            · subst hkj
              show (s.items.poke _ _).cell _ = _
              rw [hcellp, if_pos rfl]
            · rw [hother k hk2 hkj]; exact hm.gone k (by omega) hk2 hv
          · by_cases hkj : k = j
            · subst hkj; rw [hview] at hv; cases hv
            · rw [hother k hk2 hkj]; exact hm.free k (by omega) hk2 hv
        by_cases hdp : d.panics v = true
        · refine ⟨j + 1, s1, hm', ?_, ?_, fun _ => ⟨j, by omega, hlt, by rw [hview]; rfl⟩⟩
          · simp [hview, dropRun, hdp, s1]
          · simp only [List.filterMap_cons, hview, dropRun, hdp, if_true]
            apply loopM_panic
            unfold clearBody
            simp only [M.get_bind, hn, M.lift_ok_bind]
            rw [if_neg (by rw [hfl]; exact hp)]
            apply M.bind_panic
            simp [dropEntry, Entry.asValue, hdp, s1]
        · obtain ⟨j', s', a1, a2, a3, a4⟩ := ih (j + 1) s1 hm' (by omega) (by omega)
          refine ⟨j', s', a1, ?_, ?_, by simpa [List.filterMap_cons, hview, dropRun, hdp] using a4⟩
          · simpa [List.filterMap_cons, hview, dropRun, hdp, s1] using a2
          · simp only [List.filterMap_cons, hview, dropRun, hdp]
            rw [loopM_inl (b' := ⟨j + 1, s0.items.len⟩) (s' := s1)]
            · simpa using a3
            · unfold clearBody
              simp only [M.get_bind, hn, M.lift_ok_bind]
              rw [if_neg (by rw [hfl]; exact hp)]
              rw [M.bind_ok (a := ()) (s' := s1)]
              · rfl
              · simp [dropEntry, Entry.asValue, hdp, s1]
    · have : (List.range s0.items.len).drop j = [] := List.drop_eq_nil_of_le (by simp; omega)
      refine ⟨j, s, hm, by simp [this, dropRun], ?_, by simp [this, dropRun]⟩
      rw [this]
      simp only [List.filterMap_nil, dropRun]
      apply loopM_inr
      unfold clearBody
      simp [Arena.Iter.nextPtr, hlt]

/-- The slab after a completed `clear`. -/
structure Cleared (cfg : Cfg) (s s' : Slab T) : Prop where
  inv : s'.Inv cfg
  view : ∀ p, s'.view p = none
  capacity : s'.capacity = s.capacity
  log : s'.items.log = s.items.log
  len : s'.items.len = 0
  freeLen : s'.freeLen = 0

theorem reset_spec {cfg : Cfg} {s : Slab T} (h : s.items.Inv cfg) :
    resetInternalState cfg s = (.ok (), { s with items := s.items.cleared, freeHead := none, freeLen := 0 }) ∧
    Cleared cfg s { s with items := s.items.cleared, freeHead := none, freeLen := 0 } := by
  constructor
  · unfold resetInternalState
    rw [M.bind_ok (onItems_ok (Arena.clear_nodrop cfg _ _))]
    rfl
  · refine ⟨⟨[], h.cleared, rfl, List.nodup_nil, rfl, ?_⟩, ?_, rfl, rfl, rfl, rfl⟩
    · intro p e he; rw [Arena.cell_cleared] at he; simp at he
    · intro p; simp [view, Arena.cell_cleared]

/-- `clear`: if no destructor panics, everything live is dropped, in slot order, and
the slab is empty. If one panics, the values up to that one have been dropped and
the state is *not* reset. -/
theorem clear_spec {cfg : Cfg} {d : DropInfo T} {s : Slab T} (h : s.Inv cfg) :
    (∃ s', clear cfg d s = (.ok (), s') ∧ Cleared cfg s s' ∧
      (d.needsDrop = true → ∀ v ∈ s.liveVals, d.panics v = false) ∧
      s'.dropped = s.dropped ++ if d.needsDrop then s.liveVals else []) ∨
    (d.needsDrop = true ∧ (∃ v ∈ s.liveVals, d.panics v = true) ∧
      ∃ j s', clear cfg d s = (.panic, s') ∧ Mid cfg s j s' ∧
        (∃ k, k < j ∧ k < s.items.len ∧ (s.view (s.items.addr k)).isSome) ∧
        s'.dropped = s.dropped ++ (dropRun d s.liveVals).1) := by
  obtain ⟨frees, hf⟩ := h
  have hlv : s.liveVals = ((List.range s.items.len).drop 0).filterMap fun k => s.view (s.items.addr k) := by
    simp [liveVals, Arena.addrs, List.filterMap_map, Function.comp_def]
  by_cases hnd : d.needsDrop = true
  · by_cases hl : s.items.len = s.freeLen
    · left
      obtain ⟨h1, h2⟩ := reset_spec (s := s) hf.items
      have hnil : s.liveVals = [] := by
        have hn : ∀ p, s.view p = none := by
          -- every used slot is on the free list
          have hsub : frees ⊆ s.items.addrs := by
            intro p hp
            obtain ⟨n, hn⟩ := hf.chain.mem_free hp
            exact hf.items.mem_addrs.2 (by simp [hn])
          have hlen : s.items.addrs.length ≤ frees.length := by
            simp [Arena.addrs, ← hf.flen, hl]
          have hsub2 : ∀ p ∈ s.items.addrs, p ∈ frees := by
            intro p hp
            exact Classical.byContradiction fun hnp => by
              have : (p :: frees).Nodup := List.nodup_cons.2 ⟨hnp, hf.nodup⟩
              have := this.length_le_of_subset (l₂ := s.items.addrs) (by
                intro q hq
                rcases List.mem_cons.1 hq with rfl | hq
                · exact hp
                · exact hsub hq)
              simp only [List.length_cons] at this
              omega
          intro p
          cases hv : s.view p with
          | none => rfl
          | some v =>
            have := hf.view_isSome.1 (by rw [hv]; rfl : (s.view p).isSome)
            exact absurd (hsub2 p (hf.items.mem_addrs.2 this.1)) this.2
        simp [liveVals, hn]
      refine ⟨_, ?_, h2, fun _ v hv => by rw [hnil] at hv; simp at hv, by simp [hnil]⟩
      unfold clear
      simp only [M.get_bind]
      rw [if_pos (by simp [hl])]
      exact h1
    · have hloop := clear_loop (d := d) hf (fl := frees.reverse) (by simp) 0 (s.items.len + 1) s
        ⟨hf.items, rfl, rfl, fun _ => rfl, rfl, fun _ _ _ => rfl, rfl, rfl, rfl,
          fun k hk => by omega, fun k hk => by omega⟩ (by omega) (by omega)
      obtain ⟨j, s1, hm, hd1, hr, hk⟩ := hloop
      rw [← hlv] at hd1 hr hk
      have hunf : clear cfg d s = (do
          loop (s.items.len + 1) (clearBody cfg d frees.reverse) s.items.iter
          resetInternalState cfg : M (Slab T) Unit) s := by
        unfold clear
        simp only [M.get_bind]
        rw [if_neg (by simp [hnd, hl])]
        rw [M.read_bind, freePointers_spec hf]
        rfl
      have hiter : s.items.iter = ⟨0, s.items.len⟩ := rfl
      rw [hunf, hiter]
      by_cases hp : ∃ v ∈ s.liveVals, d.panics v = true
      · right
        refine ⟨hnd, hp, j, s1, ?_, hm, hk (dropRun_panic hp), hd1⟩
        rw [dropRun_panic hp] at hr
        exact M.bind_panic hr
      · left
        have hnp : ∀ v ∈ s.liveVals, d.panics v = false := by
          intro v hv
          cases hb : d.panics v with
          | false => rfl
          | true => exact absurd ⟨v, hv, hb⟩ hp
        rw [dropRun_noPanic hnp] at hr hd1
        obtain ⟨h1, h2⟩ := reset_spec (s := s1) hm.items
        refine ⟨_, ?_, ⟨h2.inv, h2.view, h2.capacity.trans hm.cap, h2.log.trans hm.logeq, h2.len, h2.freeLen⟩,
          fun _ => hnp, by simp [hd1, hnd]⟩
        rw [M.bind_ok hr]
        exact h1
  · left
    obtain ⟨h1, h2⟩ := reset_spec (s := s) hf.items
    refine ⟨_, ?_, h2, fun h => absurd h hnd, by simp [hnd]⟩
    unfold clear
    simp only [M.get_bind]
    rw [if_pos (by simp [hnd])]
    exact h1

/-- The live values, listed along any duplicate-free enumeration of the live
addresses. -/
theorem Inv.liveVals_perm {cfg : Cfg} {s : Slab T} (h : s.Inv cfg) {l : List Ptr} (hn : l.Nodup)
    (hl : ∀ p, (s.view p).isSome ↔ p ∈ l) : s.liveVals.Perm (l.filterMap s.view) := by
  obtain ⟨frees, hf⟩ := h
  have : s.liveVals = (s.items.addrs.filter fun p => (s.view p).isSome).filterMap s.view := by
    unfold liveVals
    generalize s.items.addrs = a
    induction a with
    | nil => rfl
    | cons p a ih =>
      cases hv : s.view p with
      | none => simp [hv, ih]
      | some v => simp [hv, ih]
  rw [this]
  apply List.Perm.filterMap
  rw [List.perm_ext_iff_of_nodup (hf.items.addrs_nodup.filter _) hn]
  intro p
  rw [List.mem_filter, hl, hf.items.mem_addrs]
  constructor
  · exact fun h => h.2
  · intro hp
    exact ⟨(hf.view_isSome.1 ((hl p).2 hp)).1, hp⟩

/-! ### `Drop` -/

theorem drop_spec {cfg : Cfg} {d : DropInfo T} {s : Slab T} (h : s.Inv cfg) :
    ∃ s', s'.items.chunks = [] ∧ Spec.replay s'.items.log = some [] ∧
      ((drop cfg d s = (.ok (), s') ∧
        (d.needsDrop = true → ∀ v ∈ s.liveVals, d.panics v = false) ∧
        s'.dropped = s.dropped ++ if d.needsDrop then s.liveVals else []) ∨
       (drop cfg d s = (.panic, s') ∧ d.needsDrop = true ∧ (∃ v ∈ s.liveVals, d.panics v = true) ∧
        s'.dropped = s.dropped ++ (dropRun d s.liveVals).1)) := by
  have hitems : s.items.Inv cfg := by obtain ⟨_, hf⟩ := h; exact hf.items
  by_cases hnd : d.needsDrop = true
  · rcases clear_spec (d := d) h with ⟨s1, hc, hcl, hnp, hdr⟩ | ⟨_, hp, j, s1, hc, hm, _, hdr⟩
    · obtain ⟨_, hf1⟩ := hcl.inv
      obtain ⟨b, hb, b1, b2, b3⟩ := Arena.drop_nodrop hf1.items (fun _ => false)
      refine ⟨{ s1 with items := b }, b1, b3, Or.inl ⟨?_, hnp, hdr⟩⟩
      unfold drop
      simp only [hnd, Bool.not_true, Bool.false_eq_true, if_false, hc]
      exact onItems_ok hb
    · obtain ⟨b, hb, b1, b2, b3⟩ := Arena.drop_nodrop hm.items (fun _ => false)
      refine ⟨{ s1 with items := b }, b1, b3, Or.inr ⟨?_, hnd, hp, hdr⟩⟩
      unfold drop
      simp only [hnd, Bool.not_true, Bool.false_eq_true, if_false, hc, onItems_ok hb]
  · obtain ⟨b, hb, b1, b2, b3⟩ := Arena.drop_nodrop hitems (fun _ => false)
    refine ⟨{ s with items := b }, b1, b3, Or.inl ⟨?_, fun h => absurd h hnd, by simp [hnd]⟩⟩
    unfold drop
    simp only [hnd, Bool.not_false, if_true]
    exact onItems_ok hb

end Slab
end BST
