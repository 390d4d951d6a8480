import Verif.Proofs.SlabHistory
import Verif.Proofs.ArenaAgain
/-!
# Properties of `StableArena` and `UnsafeSlab`
-/
set_option linter.unusedSimpArgs false
namespace BST.Props
open Spec
section
variable {T : Type} {cfg : Cfg} {d : DropInfo T}

/-! ### C22 -/

/-- C22. Start with a new slab and make any sequence of calls. As long as the client
respects the safety contract (pointers passed to `unsafe` methods are live), every outcome
is the one of a finite map from pointers to values (`SlabAnswer`): `push` returns a pointer
that is not live, `get_unchecked` what was stored there last, `remove` the same and the
pointer is dead then, `len` the number of live pointers, and no call affects another live
pointer. In particular there is no undefined behaviour. -/
theorem C22_history {s : Slab T} (hs : s.Fresh cfg) (hd : ∀ v, d.panics v = false)
    (ops : List (SlabOp T)) :
    Follows SlabValid SlabAnswer ops (execute (SlabOp.run cfg d) ops s).1 [] :=
  Slab.history_follows hd hs.holds.1 hs.holds.2.1 ops

/-- C22. After such a history the slab holds exactly the values pushed and not removed
since, each at the pointer that `push` returned; every other access is undefined. -/
theorem C22_contents {s s' : Slab T} (hs : s.Fresh cfg) (hd : ∀ v, d.panics v = false)
    {ops : List (SlabOp T)} {os : List (Out (StoreRet T))}
    (he : execute (SlabOp.run cfg d) ops s = (os, s'))
    (hob : Obeys SlabValid Spec.SlabOp.after ops os []) (p : Ptr) :
    (∀ v, s'.getUnchecked p = .ok v ↔ (p, v) ∈ contents Spec.SlabOp.after ops os []) ∧
    (s'.getUnchecked p = .ub ↔ p ∉ (contents Spec.SlabOp.after ops os []).map (·.1)) ∧
    ((contents Spec.SlabOp.after ops os []).map (·.1)).Nodup ∧
    s'.len cfg = .ok (contents Spec.SlabOp.after ops os []).length := by
  obtain ⟨hi, h⟩ := Slab.history_holds hd hs.holds.1 hs.holds.2.1 ops he
    (Slab.history_safe hd hs.holds.1 hs.holds.2.1 ops he hob)
  refine ⟨fun v => ?_, ?_, h.nodup, ?_⟩
  · rw [Slab.getUnchecked_eq, h.mem]
    cases s'.view p <;> simp
  · rw [Slab.getUnchecked_eq, ← h.live]
    cases s'.view p <;> simp
  · have := hi.len_ok h.nodup (fun p => h.live p)
    simpa using this

/-! ### C21 -/

/-- C21. A value stays at its address: after any history, further calls other than removing
it, overwriting it or `clear` leave it where it is, whatever else is pushed or removed,
reserved or shrunk. -/
theorem C21_slab {s s1 s2 : Slab T} (hs : s.Fresh cfg) (hd : ∀ v, d.panics v = false)
    {ops more : List (SlabOp T)} {os os' : List (Out (StoreRet T))}
    (he : execute (SlabOp.run cfg d) ops s = (os, s1))
    (hob : Obeys SlabValid Spec.SlabOp.after ops os [])
    (he' : execute (SlabOp.run cfg d) more s1 = (os', s2))
    (hob' : Obeys SlabValid Spec.SlabOp.after more os' (contents Spec.SlabOp.after ops os []))
    {p : Ptr} {v : T} (hp : s1.getUnchecked p = .ok v)
    (hno : ∀ op ∈ more, op ≠ .clear ∧ op ≠ .remove p ∧ ∀ w, op ≠ .set p w) :
    s2.getUnchecked p = .ok v := by
  obtain ⟨hi, h⟩ := Slab.history_holds hd hs.holds.1 hs.holds.2.1 ops he
    (Slab.history_safe hd hs.holds.1 hs.holds.2.1 ops he hob)
  obtain ⟨hi2, h2⟩ := Slab.history_holds hd hi h more he' (Slab.history_safe hd hi h more he' hob')
  have hmem : (p, v) ∈ contents Spec.SlabOp.after ops os [] := by
    rw [h.mem]
    rw [Slab.getUnchecked_eq] at hp
    cases hv : s1.view p with
    | none => rw [hv] at hp; cases hp
    | some w => rw [hv] at hp; cases hp; rfl
  apply Slab.getUnchecked_ok
  rw [← h2.mem]
  clear h2 hi2 hob' he' hi h hob he
  generalize contents Spec.SlabOp.after ops os [] = l at hmem
  induction more generalizing l os' with
  | nil => simpa [contents] using hmem
  | cons op more ih =>
    cases os' with
    | nil => simpa [contents] using hmem
    | cons o os' =>
      simp only [contents, List.zip_cons_cons, List.foldl_cons]
      refine ih (fun op hop => hno op (by simp [hop])) _ ?_
      obtain ⟨n1, n2, n3⟩ := hno op (by simp)
      cases op with
      | clear => exact absurd rfl n1
      | remove q =>
        have hq : p ≠ q := by rintro rfl; exact n2 rfl
        cases o <;> simp [Spec.SlabOp.after, hmem, hq]
      | set q w =>
        have hq : p ≠ q := by rintro rfl; exact n3 w rfl
        cases o <;> simp only [Spec.SlabOp.after, hmem]
        exact List.mem_map.2 ⟨_, hmem, by simp [hq]⟩
      | push w =>
        cases o with
        | ok r => cases r <;> simp [Spec.SlabOp.after, hmem]
        | _ => exact hmem
      | _ => exact hmem

/-! ### C23 -/

/-- The number of elements in the first `n` chunks. -/
def before (n : Nat) : Nat := ((List.range n).map fun i => 8 * 2 ^ i).sum

theorem before_eq (n : Nat) : before n = chunkBase n := by
  induction n with
  | zero => rfl
  | succ n ih =>
    rw [chunkBase_succ, ← ih]
    simp [before, List.range_succ]

/-- C23. For every index that an arena can hold, `position_for` returns (no overflow, with or
without overflow checks) a chunk and an offset with: the chunk has `chunk_len = 8 * 2^chunk`
elements, the offset lies in it, and the index is the number of elements in the chunks before
plus the offset. -/
theorem C23_position {j : Nat} (hj : j < 2 ^ 64 - 8) :
    ∃ c o, positionFor cfg j = .ok ⟨c, o⟩ ∧ chunkLen cfg c = .ok (8 * 2 ^ c) ∧ o < 8 * 2 ^ c ∧
      j = before c + o := by
  refine ⟨chunkOf j, offOf j, positionFor_ok cfg hj, chunkLen_ok cfg ?_, offOf_lt j, ?_⟩
  · exact chunkOf_lt (by omega)
  · rw [before_eq]; exact (base_add_off j).symm

/-- C23. Every pair of a chunk number and an offset in that chunk is the position of exactly
one index. -/
theorem C23_bijective {c o : Nat} (hc : c < 61) (ho : o < 8 * 2 ^ c) :
    before c + o < 2 ^ 64 - 8 ∧ ∀ j, j < 2 ^ 64 - 8 →
      (positionFor cfg j = .ok ⟨c, o⟩ ↔ j = before c + o) := by
  have hb : before c + o < 2 ^ 64 - 8 := by
    rw [before_eq]
    have h1 : 2 ^ c ≤ 2 ^ 60 := Nat.pow_le_pow_right (by omega) (by omega)
    have h2 : 0 < 2 ^ c := Nat.two_pow_pos c
    simp only [chunkBase]
    omega
  refine ⟨hb, fun j hj => ?_⟩
  rw [positionFor_ok cfg hj]
  constructor
  · intro h
    cases h
    rw [before_eq]; exact (base_add_off j).symm
  · rintro rfl
    rw [before_eq, (chunkOf_unique ho).1, (chunkOf_unique ho).2]

/-- C23. Positions are in order: by chunk, then by offset. -/
theorem C23_order {j j' c o c' o' : Nat} (hjj : j < j') (hj : j' < 2 ^ 64 - 8)
    (h : positionFor cfg j = .ok ⟨c, o⟩) (h' : positionFor cfg j' = .ok ⟨c', o'⟩) :
    c < c' ∨ (c = c' ∧ o < o') := by
  rw [positionFor_ok cfg (by omega)] at h
  rw [positionFor_ok cfg hj] at h'
  cases h
  cases h'
  have h1 := base_add_off j
  have h2 := base_add_off j'
  have h3 := offOf_lt j'
  by_cases hlt : chunkOf j < chunkOf j'
  · exact Or.inl hlt
  · right
    have : chunkOf j = chunkOf j' := by
      refine Nat.le_antisymm ?_ (Nat.le_of_not_lt hlt)
      refine Nat.le_of_not_lt fun hgt => ?_
      have hs := chunkBase_succ (chunkOf j')
      have hm : chunkBase (chunkOf j' + 1) ≤ chunkBase (chunkOf j) := by
        have : 2 ^ (chunkOf j' + 1) ≤ 2 ^ chunkOf j := Nat.pow_le_pow_right (by omega) hgt
        simp only [chunkBase]
        omega
      omega
    refine ⟨this, ?_⟩
    rw [this] at h1
    omega

/-- C23. The bound is sharp: for the last eight `usize` values the computation overflows
(which panics with overflow checks); no arena can be that long. -/
theorem C23_sharp (hc : cfg.checks = true) {j : Nat} (h : 2 ^ 64 - 8 ≤ j) (h' : j < 2 ^ 64) :
    positionFor cfg j = .panic := by
  rw [positionFor_top cfg h h', if_pos hc]

/-! ### C24 -/

/-- C24 (slab). Over a whole history that ends with dropping the slab, the values moved in
are, as a multiset, the values handed back by calls together with the values whose
destructor was run: everything is handed back once or dropped once. -/
theorem C24_slab {s s1 : Slab T} (hs : s.Fresh cfg) (hd : ∀ v, d.panics v = false)
    (hn : d.needsDrop = true) {ops : List (SlabOp T)} {os : List (Out (StoreRet T))}
    (he : execute (SlabOp.run cfg d) ops s = (os, s1))
    (hob : Obeys SlabValid Spec.SlabOp.after ops os []) :
    ∃ s2, Slab.drop cfg d s1 = (.ok (), s2) ∧
      (total Spec.SlabOp.valuesIn ops os).Perm
        (total Spec.SlabOp.valuesOut ops os ++ s2.dropped) := by
  obtain ⟨hi, h, hp⟩ := Slab.history_total hd hn hs.holds.1 hs.holds.2.1 ops he
    (Slab.history_safe hd hs.holds.1 hs.holds.2.1 ops he hob)
  obtain ⟨s2, _, _, ⟨h1, _, h2⟩ | ⟨_, _, ⟨v, _, hv⟩, _⟩⟩ := Slab.drop_spec (d := d) hi
  · refine ⟨s2, h1, ?_⟩
    rw [hs.holds.2.2] at hp
    simp only [List.map_nil, List.append_nil] at hp
    refine hp.trans (List.Perm.append_left _ ?_)
    rw [h2, if_pos hn]
    refine List.perm_append_comm.trans (List.Perm.append_left _ ?_)
    have := hi.liveVals_perm h.nodup (fun p => h.live p)
    rw [h.vals] at this
    exact this.symm
  · rw [hd v] at hv; cases hv

/-- C24 (arena). The same for the arena (values overwritten through `get_unchecked_mut` and
`iter_mut` count as handed back). -/
theorem C24_arena {a a1 : Arena T} (ha : a.Fresh cfg) (hd : ∀ v, d.panics v = false)
    (hn : d.needsDrop = true) {ops : List (ArenaOp T)} {os : List (Out (StoreRet T))}
    (he : execute (ArenaOp.run cfg d) ops a = (os, a1))
    (hob : Obeys ArenaValid Spec.ArenaOp.after ops os []) :
    ∃ a2, Arena.drop cfg d.needsDrop d.panics a1 = (.ok (), a2) ∧
      (total Spec.ArenaOp.valuesIn ops os).Perm
        (total Spec.ArenaOp.valuesOut ops os ++ a2.dropped) := by
  obtain ⟨hi, h, hp⟩ := Arena.history_total hd hn ha.holds.1 ha.holds.2.1 ops he
    (Arena.history_safe hd ha.holds.1 ha.holds.2.1 ops he hob)
  rcases Arena.drop_spec hi h d with ⟨_, a2, h1, _, h2, _⟩ | ⟨hr, _⟩
  · refine ⟨a2, h1, ?_⟩
    rw [ha.holds.2.2] at hp
    simp only [List.map_nil, List.append_nil] at hp
    refine hp.trans (List.Perm.append_left _ ?_)
    rw [h2, Arena.toDrop, if_pos hn]
    exact List.perm_append_comm
  · rw [Slab.dropRun_noPanic (fun v _ => hd v)] at hr
    cases hr

/-! ### C25 -/

/-- The chunks of an arena are the blocks that the allocator regards as live, and initialised
cells lie in them. -/
theorem blocks_of_inv {α : Type} {a : Arena α} (hi : a.Inv cfg) :
    ∃ blocks, replay a.log = some blocks ∧ (blocks.map (·.1)).Nodup ∧
      ∀ p v, a.getUnchecked p = .ok v → ∃ n, (p.block, n) ∈ blocks ∧ p.off < n := by
  refine ⟨_, hi.log, by simpa [Function.comp_def] using hi.ids, fun p v hp => ?_⟩
  unfold Arena.getUnchecked Arena.cell at hp
  cases hf : a.chunks.find? (fun c => c.id == p.block) with
  | none => simp [hf] at hp
  | some c =>
    have hmem := List.mem_of_find?_eq_some hf
    have hid := List.find?_some hf
    simp only [beq_iff_eq] at hid
    refine ⟨c.slots.length, List.mem_map.2 ⟨c, hmem, by rw [hid]⟩, ?_⟩
    refine Nat.lt_of_not_le fun hle => ?_
    simp [hf, List.getElem?_eq_none hle] at hp

/-- C25 (slab). After any history the allocator log is well-formed (every release names a
live block and its size: `replay`), every live entry lies inside a live block, and dropping
the slab releases all remaining blocks, even if a destructor panics meanwhile. -/
theorem C25_slab {s s1 : Slab T} (hs : s.Fresh cfg) (hd : ∀ v, d.panics v = false)
    {ops : List (SlabOp T)} {os : List (Out (StoreRet T))}
    (he : execute (SlabOp.run cfg d) ops s = (os, s1))
    (hob : Obeys SlabValid Spec.SlabOp.after ops os []) :
    (∃ blocks, replay s1.items.log = some blocks ∧ (blocks.map (·.1)).Nodup ∧
      ∀ p v, (p, v) ∈ contents Spec.SlabOp.after ops os [] →
        ∃ n, (p.block, n) ∈ blocks ∧ p.off < n) ∧
    ∀ d', (Slab.drop cfg d' s1).1 ≠ .ub ∧
      replay (Slab.drop cfg d' s1).2.items.log = some [] := by
  obtain ⟨hi, h⟩ := Slab.history_holds hd hs.holds.1 hs.holds.2.1 ops he
    (Slab.history_safe hd hs.holds.1 hs.holds.2.1 ops he hob)
  refine ⟨?_, fun d' => ?_⟩
  · obtain ⟨_, hf⟩ := hi
    obtain ⟨b, h1, h2, h3⟩ := blocks_of_inv hf.items
    refine ⟨b, h1, h2, fun p v hp => h3 p (.value v) ?_⟩
    have := Slab.view_some.1 ((h.mem p v).1 hp)
    simp [Arena.getUnchecked, this]
  · obtain ⟨s2, _, h2, ⟨h3, _⟩ | ⟨h3, _⟩⟩ := Slab.drop_spec (d := d') hi <;> rw [h3] <;>
      exact ⟨by simp, h2⟩

/-- C25 (arena). The same for arenas. If the destructor of an element panics while the arena
is being dropped, the blocks are not released (they are leaked); this cannot happen to the
arena inside a slab, whose elements have no destructor. -/
theorem C25_arena {a a1 : Arena T} (ha : a.Fresh cfg) (hd : ∀ v, d.panics v = false)
    {ops : List (ArenaOp T)} {os : List (Out (StoreRet T))}
    (he : execute (ArenaOp.run cfg d) ops a = (os, a1))
    (hob : Obeys ArenaValid Spec.ArenaOp.after ops os []) :
    (∃ blocks, replay a1.log = some blocks ∧ (blocks.map (·.1)).Nodup ∧
      ∀ p v, (p, v) ∈ contents Spec.ArenaOp.after ops os [] →
        ∃ n, (p.block, n) ∈ blocks ∧ p.off < n) ∧
    ((Arena.drop cfg d.needsDrop d.panics a1).1 = .ok () ∧
      replay (Arena.drop cfg d.needsDrop d.panics a1).2.log = some []) ∧
    ∀ d' : DropInfo T, (Arena.drop cfg d'.needsDrop d'.panics a1).1 = .panic →
      (Arena.drop cfg d'.needsDrop d'.panics a1).2.log = a1.log := by
  obtain ⟨hi, h⟩ := Arena.history_holds hd ha.holds.1 ha.holds.2.1 ops he
    (Arena.history_safe hd ha.holds.1 ha.holds.2.1 ops he hob)
  refine ⟨?_, ?_, fun d' hp => ?_⟩
  · obtain ⟨b, h1, h2, h3⟩ := blocks_of_inv hi
    refine ⟨b, h1, h2, fun p v hp => h3 p v ?_⟩
    simp [Arena.getUnchecked, h.cell _ hp]
  · rcases Arena.drop_spec hi h d with ⟨_, a2, h1, _, _, h2⟩ | ⟨hr, _⟩
    · rw [h1]; exact ⟨rfl, h2⟩
    · rw [Slab.dropRun_noPanic (fun v _ => hd v)] at hr
      cases hr
  · rcases Arena.drop_spec hi h d' with ⟨_, a2, h1, _⟩ | ⟨_, a2, h1, _, h2⟩
    · rw [h1] at hp; cases hp
    · rw [h1]; exact h2

/-! ### C27 -/

/-- C27 is false for arenas too: whenever the destructor of an element panics during `clear`
and the panic is caught, clearing the arena again or dropping it is undefined behaviour, since
`len` is reset only at the end (src/arena.rs:328). -/
theorem C27_false_arena {a a1 a2 : Arena T} (ha : a.Fresh cfg) (hd : ∀ v, d.panics v = false)
    {ops : List (ArenaOp T)} {os : List (Out (StoreRet T))}
    (he : execute (ArenaOp.run cfg d) ops a = (os, a1))
    (hob : Obeys ArenaValid Spec.ArenaOp.after ops os []) {d1 d2 : DropInfo T}
    (hc : Arena.clear cfg d1.needsDrop d1.panics a1 = (.panic, a2)) (hn : d2.needsDrop = true) :
    (Arena.clear cfg d2.needsDrop d2.panics a2).1 = .ub ∧
    (Arena.drop cfg d2.needsDrop d2.panics a2).1 = .ub := by
  obtain ⟨hi, h⟩ := Arena.history_holds hd ha.holds.1 ha.holds.2.1 ops he
    (Arena.history_safe hd ha.holds.1 ha.holds.2.1 ops he hob)
  have h1 := (Arena.clear_again (d' := d2) hi h hc hn).1
  refine ⟨h1, ?_⟩
  unfold Arena.drop
  rw [M.bind_apply]
  cases hx : Arena.clear cfg d2.needsDrop d2.panics a2 with
  | mk o s => rw [hx] at h1; cases h1; rfl

/-! ### C34 -/

/-- C34. Start with a new arena and make any sequence of calls that respects the safety
contract. Every outcome is that of a list of values in allocation order (`ArenaAnswer`):
iterators, shared or mutable, driven from both ends in any mix, yield the pointers returned
by `alloc` with the current values, each once, `None` for ever after, with the exact
`size_hint` at each step; a mutable iterator changes exactly the values it handed out. -/
theorem C34_history {a : Arena T} (ha : a.Fresh cfg) (hd : ∀ v, d.panics v = false)
    (ops : List (ArenaOp T)) :
    Follows ArenaValid ArenaAnswer ops (execute (ArenaOp.run cfg d) ops a).1 [] :=
  Arena.history_follows hd ha.holds.1 ha.holds.2.1 ops

/-- C34, except that an arena of a zero-sized type cannot hold anything: after any history,
every allocation panics and changes nothing (the `Vec` of a chunk has capacity `usize::MAX`
then, and src/arena.rs:405 asserts another one). -/
theorem C34_zst {a a1 : Arena T} (ha : a.Fresh cfg) (hd : ∀ v, d.panics v = false)
    {ops : List (ArenaOp T)} {os : List (Out (StoreRet T))}
    (he : execute (ArenaOp.run cfg d) ops a = (os, a1))
    (hob : Obeys ArenaValid Spec.ArenaOp.after ops os []) (hz : cfg.esize = 0) (v : T) :
    Arena.alloc cfg v a1 = (.panic, a1) :=
  Arena.alloc_zst (Arena.history_holds hd ha.holds.1 ha.holds.2.1 ops he
    (Arena.history_safe hd ha.holds.1 ha.holds.2.1 ops he hob)).1 hz v

/-- C34. "Each element once" made explicit: after any history, whatever mix of steps from both
ends is made, the elements obtained are a first part of the contents and a last part, each of
them once (the pointers are distinct); and either nothing remains between the two, or every
step obtained an element. Each step reports as `size_hint` the exact number that remains. -/
theorem C34_each_once {a a1 : Arena T} (ha : a.Fresh cfg) (hd : ∀ v, d.panics v = false)
    {ops : List (ArenaOp T)} {os : List (Out (StoreRet T))}
    (he : execute (ArenaOp.run cfg d) ops a = (os, a1))
    (hob : Obeys ArenaValid Spec.ArenaOp.after ops os []) (ends : List Bool) :
    ∃ steps front mid back, (ArenaOp.run cfg d (.iter ends) a1).1 = .ok (.items steps) ∧
      contents Spec.ArenaOp.after ops os [] = front ++ mid ++ back ∧
      (steps.filterMap (·.2)).Perm (front ++ back) ∧
      ((front ++ mid ++ back).map (·.1)).Nodup ∧
      (mid = [] ∨ (front ++ back).length = ends.length) ∧
      steps.map (·.1) = (List.range ends.length).map fun i =>
        ((front ++ mid ++ back).length - i, some ((front ++ mid ++ back).length - i)) := by
  obtain ⟨hi, h⟩ := Arena.history_holds hd ha.holds.1 ha.holds.2.1 ops he
    (Arena.history_safe hd ha.holds.1 ha.holds.2.1 ops he hob)
  obtain ⟨o, a', l', h1, h2, h3, h4, h5⟩ := Arena.step hi h hd (.iter ends) trivial
  obtain ⟨f, m, b, h6, h7, h8⟩ := takeEnds_parts ends (contents Spec.ArenaOp.after ops os [])
  refine ⟨_, f, m, b, ?_, h6, h7, ?_, h8, ?_⟩
  · rw [h1]; exact h4.1
  · rw [← h6]; exact h.nodup hi
  · rw [← h6]; exact takeEnds_hints ends _

/-- C34. Iterators that are not asked for pointers (`next`, `next_back`) yield the same elements:
a first part of the contents from one end and a last part from the other. -/
theorem C34_plain {a a1 : Arena T} (ha : a.Fresh cfg) (hd : ∀ v, d.panics v = false)
    {ops : List (ArenaOp T)} {os : List (Out (StoreRet T))}
    (he : execute (ArenaOp.run cfg d) ops a = (os, a1))
    (hob : Obeys ArenaValid Spec.ArenaOp.after ops os []) (ends : List Bool) :
    ∃ steps, (ArenaOp.run cfg d (.iter ends) a1).1 = .ok (.items steps) ∧
      a1.takesPlain cfg ends a1.iter = .ok (steps.map fun x => (x.1, x.2.map (·.2))) := by
  obtain ⟨steps, _, _, _, h1, _⟩ := C34_each_once ha hd he hob ends
  refine ⟨steps, h1, ?_⟩
  have h2 : a1.takes cfg ends a1.iter = .ok steps := by
    simp only [ArenaOp.run, M.bind_apply, M.read_apply] at h1
    cases h : a1.takes cfg ends a1.iter <;> rw [h] at h1 <;> simp_all
  exact Arena.takesPlain_eq ends a1.iter h2

/-! ### C45 -/

/-- C45. Two arenas are `==` iff they hold equally many values, pairwise equal in allocation
order; what their capacities are, and how they were filled, does not matter. -/
theorem C45_eq {a a1 b b1 : Arena T} (ha : a.Fresh cfg) (hb : b.Fresh cfg)
    (hd : ∀ v, d.panics v = false) {ops ops' : List (ArenaOp T)}
    {os os' : List (Out (StoreRet T))} (he : execute (ArenaOp.run cfg d) ops a = (os, a1))
    (he' : execute (ArenaOp.run cfg d) ops' b = (os', b1))
    (hob : Obeys ArenaValid Spec.ArenaOp.after ops os [])
    (hob' : Obeys ArenaValid Spec.ArenaOp.after ops' os' []) (veq : T → T → Bool) :
    Arena.eq cfg veq a1 b1 = .ok
      (((contents Spec.ArenaOp.after ops os []).map (·.2)).isEqv
        ((contents Spec.ArenaOp.after ops' os' []).map (·.2)) veq) := by
  obtain ⟨hi, h⟩ := Arena.history_holds hd ha.holds.1 ha.holds.2.1 ops he
    (Arena.history_safe hd ha.holds.1 ha.holds.2.1 ops he hob)
  obtain ⟨hi', h'⟩ := Arena.history_holds hd hb.holds.1 hb.holds.2.1 ops' he'
    (Arena.history_safe hd hb.holds.1 hb.holds.2.1 ops' he' hob')
  rw [h.eq h' hi hi' veq]
  congr 1
  generalize contents Spec.ArenaOp.after ops os [] = l
  generalize contents Spec.ArenaOp.after ops' os' [] = l'
  clear h h'
  induction l generalizing l' with
  | nil => cases l' <;> simp [List.isEqv]
  | cons x l ih =>
    cases l' with
    | nil => simp [List.isEqv]
    | cons y l' =>
      simp only [List.map_cons, List.isEqv, ← ih]
      simp [Bool.and_left_comm]

end

/-! ### Examples -/

namespace StorageExample

/-- A debug build; the allocator never refuses. -/
def cfg : Cfg := { checks := true, debug := true, esize := 8, allocOk := fun _ _ => true }
/-- Elements with a destructor. -/
def d : DropInfo String := ⟨true, fun _ => false⟩
def P (b o : Nat) : Ptr := ⟨b, o⟩

/-- Nine pushes (two chunks), removals, reuse of the freed cells, shrinking. -/
def slabOps : List (SlabOp String) :=
  [.push "a", .push "b", .push "c", .push "d", .push "e", .push "f", .push "g", .push "h",
   .push "i", .remove (P 0 1), .remove (P 1 0), .len, .push "j", .get (P 1 0), .set (P 0 0) "A",
   .reserve 100, .shrinkToFit, .capacity, .push "k", .push "l", .isEmpty]

def slabRun := execute (SlabOp.run cfg d) slabOps Slab.new

def slabOuts : List (Out (StoreRet String)) :=
    [.ok (.ptr (P 0 0)), .ok (.ptr (P 0 1)), .ok (.ptr (P 0 2)), .ok (.ptr (P 0 3)),
     .ok (.ptr (P 0 4)), .ok (.ptr (P 0 5)), .ok (.ptr (P 0 6)), .ok (.ptr (P 0 7)),
     .ok (.ptr (P 1 0)), .ok (.value "b"), .ok (.value "i"), .ok (.nat 7), .ok (.ptr (P 1 0)),
     .ok (.value "j"), .ok (.value "a"), .ok .unit, .ok .unit, .ok (.nat 24),
     .ok (.ptr (P 0 1)), .ok (.ptr (P 1 1)), .ok (.bool false)]

theorem slabRun_outs : slabRun.1 = slabOuts := by decide +kernel

/-- The hypotheses of `C22_contents`, `C24_slab` and `C25_slab` are met. -/
example : (Slab.new : Slab String).Fresh cfg ∧ (∀ v, d.panics v = false) ∧
    Obeys SlabValid Spec.SlabOp.after slabOps slabRun.1 [] := by
  refine ⟨Or.inl rfl, fun _ => rfl, ?_⟩
  rw [slabRun_outs]
  simp [slabOps, slabOuts, Obeys, SlabValid, Spec.SlabOp.after, P]

/-- `C22_contents` for this history: what is stored where in the end; a removed pointer that was
not used again would be undefined. -/
example : [P 0 0, P 0 1, P 0 2, P 1 0, P 1 1].map slabRun.2.getUnchecked =
      [.ok "A", .ok "k", .ok "c", .ok "j", .ok "l"] ∧
    slabRun.2.getUnchecked (P 1 2) = .ub ∧ slabRun.2.len cfg = .ok 10 := by decide +kernel

/-- `C21_slab`: the value "c" stays at its address through the calls after the first three. -/
example : (execute (SlabOp.run cfg d) (slabOps.take 3) Slab.new).2.getUnchecked (P 0 2) = .ok "c" ∧
    (∀ op ∈ slabOps.drop 3, op ≠ .clear ∧ op ≠ .remove (P 0 2) ∧ ∀ w, op ≠ .set (P 0 2) w) ∧
    slabRun.2.getUnchecked (P 0 2) = .ok "c" := by
  refine ⟨by decide +kernel, ?_, by decide +kernel⟩
  simp [slabOps, P]

/-- Every value is in one place only: handed back, or dropped in the end. -/
example : total Spec.SlabOp.valuesOut slabOps slabRun.1 = ["b", "i", "a"] ∧
    (Slab.drop cfg d slabRun.2).2.dropped =
      ["A", "k", "c", "d", "e", "f", "g", "h", "j", "l"] := by decide +kernel

/-- All blocks are released: the third and fourth by `shrink_to_fit`, the rest by the drop. -/
example : (Slab.drop cfg d slabRun.2).2.items.log =
    [.alloc 0 8, .alloc 1 16, .alloc 2 32, .alloc 3 64, .free 3 64, .free 2 32, .free 0 8,
     .free 1 16] := by decide +kernel

/-- The client breaks the contract: a removed pointer is read. -/
example : (execute (SlabOp.run cfg d) [.push "a", .remove (P 0 0), .get (P 0 0)] Slab.new).1 =
    [.ok (.ptr (P 0 0)), .ok (.value "a"), .ub] := by decide +kernel

/-- An arena; iteration from both ends. -/
def arenaOps : List (ArenaOp String) :=
  [.alloc "a", .alloc "b", .alloc "c", .iter [false, true, false, true, false],
   .iterMut [true, false] (fun v => v ++ v), .set (P 0 1) "B", .debug (fun v => v), .len]

def arenaOuts : List (Out (StoreRet String)) :=
    [.ok (.ptr (P 0 0)), .ok (.ptr (P 0 1)), .ok (.ptr (P 0 2)),
     .ok (.items [((3, some 3), some (P 0 0, "a")), ((2, some 2), some (P 0 2, "c")),
       ((1, some 1), some (P 0 1, "b")), ((0, some 0), none), ((0, some 0), none)]),
     .ok (.items [((3, some 3), some (P 0 2, "c")), ((2, some 2), some (P 0 0, "a"))]),
     .ok (.value "b"), .ok (.text "[aa, B, cc]"), .ok (.nat 3)]

theorem arenaRun_outs : (execute (ArenaOp.run cfg d) arenaOps Arena.new).1 = arenaOuts := by decide +kernel

/-- The hypotheses of the theorems about arenas are met. -/
example : Obeys ArenaValid Spec.ArenaOp.after arenaOps
    (execute (ArenaOp.run cfg d) arenaOps Arena.new).1 [] := by
  rw [arenaRun_outs]
  simp [arenaOps, arenaOuts, Obeys, ArenaValid, Spec.ArenaOp.after, P, mapEnds]

/-- `C24_arena`, `C25_arena`: the values overwritten (by `set` and the mutable iterator) and
those dropped in the end; one block, released. -/
example : total Spec.ArenaOp.valuesOut arenaOps arenaOuts = ["c", "a", "b"] ∧
    (Arena.drop cfg true (fun _ => false)
      (execute (ArenaOp.run cfg d) arenaOps Arena.new).2).2.dropped = ["aa", "B", "cc"] ∧
    (Arena.drop cfg true (fun _ => false)
      (execute (ArenaOp.run cfg d) arenaOps Arena.new).2).2.log = [.alloc 0 8, .free 0 8] := by
  decide +kernel

/-- `C25_arena`, last part: a panic of the second destructor; the block is leaked. -/
example : (Arena.drop cfg true (fun v => v == "B")
      (execute (ArenaOp.run cfg d) arenaOps Arena.new).2).1 = .panic ∧
    (Arena.drop cfg true (fun v => v == "B")
      (execute (ArenaOp.run cfg d) arenaOps Arena.new).2).2.log = [.alloc 0 8] := by
  decide +kernel

/-- `C27_false_arena`: the second destructor panics in `clear`; then clearing again, or
dropping, is undefined behaviour. -/
example :
    let a := (execute (ArenaOp.run cfg d) arenaOps Arena.new).2
    let a' := (Arena.clear cfg true (fun v => v == "B") a).2
    (Arena.clear cfg true (fun v => v == "B") a).1 = .panic ∧ a'.len = 3 ∧
    (Arena.clear cfg true (fun _ => false) a').1 = .ub ∧
    (Arena.drop cfg true (fun _ => false) a').1 = .ub := by
  decide +kernel

/-- `C34_zst`: a history with an allocation that panics, and one more. -/
example :
    execute (ArenaOp.run { cfg with esize := 0 } d) [.alloc "x", .len, .capacity, .clear] Arena.new =
      ([.panic, .ok (.nat 0), .ok (.nat 0), .ok .unit], Arena.new) ∧
    Arena.alloc { cfg with esize := 0 } "y" Arena.new = (.panic, Arena.new) := by
  decide +kernel

/-- `C34_each_once`: four steps on three elements, and two steps. -/
example :
    let a := (execute (ArenaOp.run cfg d) arenaOps Arena.new).2
    (ArenaOp.run cfg d (.iter [false, true, true, false]) a).1 = .ok (.items
      [((3, some 3), some (P 0 0, "aa")), ((2, some 2), some (P 0 2, "cc")),
       ((1, some 1), some (P 0 1, "B")), ((0, some 0), none)]) ∧
    (ArenaOp.run cfg d (.iter [true, false]) a).1 = .ok (.items
      [((3, some 3), some (P 0 2, "cc")), ((2, some 2), some (P 0 0, "aa"))]) := by
  decide +kernel

/-- `C34_plain`: the same four steps. -/
example :
    let a := (execute (ArenaOp.run cfg d) arenaOps Arena.new).2
    a.takesPlain cfg [false, true, true, false] a.iter = .ok [((3, some 3), some "aa"),
      ((2, some 2), some "cc"), ((1, some 1), some "B"), ((0, some 0), none)] := by
  decide +kernel
example : takeEnds [false, true, true, false, true] ["a", "b", "c", "d"] =
    [((4, some 4), some "a"), ((3, some 3), some "d"), ((2, some 2), some "c"),
     ((1, some 1), some "b"), ((0, some 0), none)] := by decide +kernel

/-- Different capacities and histories, equal contents; and then unequal ones. -/
example :
    let a := (execute (ArenaOp.run cfg d) arenaOps Arena.new).2
    let b := (execute (ArenaOp.run cfg d) [.alloc "x", .clear, .alloc "aa", .alloc "B",
      .alloc "cc", .reserve 50] Arena.new).2
    let c := (execute (ArenaOp.run cfg d) [.alloc "aa", .alloc "cc", .alloc "B"] Arena.new).2
    a.capacity = 8 ∧ b.capacity = 56 ∧ Arena.eq cfg (· == ·) a b = .ok true ∧
      Arena.eq cfg (· == ·) a c = .ok false := by decide +kernel

/-- Positions around the border of the first two chunks. -/
example : positionFor cfg 7 = .ok ⟨0, 7⟩ ∧ positionFor cfg 8 = .ok ⟨1, 0⟩ ∧
    positionFor cfg 23 = .ok ⟨1, 15⟩ ∧ positionFor cfg 24 = .ok ⟨2, 0⟩ ∧
    before 2 = 24 := by decide +kernel

/-- `C23_bijective`, `C23_order`, `C23_sharp` at the far end: the last position of the last
possible chunk (number 60); one more overflows. -/
example : positionFor cfg (2 ^ 64 - 9) = .ok ⟨60, 8 * 2 ^ 60 - 1⟩ ∧
    before 60 + (8 * 2 ^ 60 - 1) = 2 ^ 64 - 9 ∧
    positionFor cfg (before 60) = .ok ⟨60, 0⟩ ∧
    positionFor cfg (before 60 - 1) = .ok ⟨59, 8 * 2 ^ 59 - 1⟩ ∧
    positionFor cfg (2 ^ 64 - 8) = .panic := by decide +kernel

end StorageExample

end BST.Props
