import Verif.Proofs.Placement
import Verif.Proofs.SimpleAllocs
import Verif.Proofs.Sample
import Verif.Props.Capacity
import Verif.Props.Aging
/-!
# C76: the allocator is called rarely

"Rather than performing an allocation per node, the map uses an arena that only allocates
occasionally" (README.md): how often that is.
-/
namespace BST.Props
open BSTMap
open Spec (allocs frees)
variable {K V : Type} {cfg : Cfg} {ok : K → Probe K → Prop} {m m' : BSTMap K V}

/-- C76. A map owns a number of blocks that is logarithmic in what was needed (`Track`: the largest
`len()` and the explicit reservations since it was created or last shrunk): the blocks taken so far
are those given back and `n` more, with `2 ^ n < need / 4 + 2`. -/
theorem C76_blocks {peak need : Nat} (hm : Track cfg ok m peak need) :
    ∃ n, allocs m.nodes.items.log = frees m.nodes.items.log + n ∧ m.capacity + 8 = 8 * 2 ^ n ∧
      4 * 2 ^ n < need + 8 := by
  obtain ⟨t, h, _⟩ := track_spec hm
  obtain ⟨n, h1, h2⟩ := h.allocs_eq
  have := C36_overhead hm
  exact ⟨n, h1, h2, by omega⟩

/-- Nine entries: two blocks (8 and 16 slots). -/
example : ∃ need n, 4 * 2 ^ n < need + 8 ∧ n = 2 ∧ allocs Sample.nine.nodes.items.log = 2 ∧
    frees Sample.nine.nodes.items.log = 0 := by
  obtain ⟨_, need, h⟩ := C36_all Sample.nine_reach
  obtain ⟨n, h1, h2, h3⟩ := C76_blocks h
  have h4 : allocs Sample.nine.nodes.items.log = 2 := by decide +kernel
  have h5 : frees Sample.nine.nodes.items.log = 0 := by decide +kernel
  exact ⟨need, n, h3, by omega, h4, h5⟩

/-- C76. The only call that works in place (`Op.InPlace`: not `with_capacity`, `collect`, `clone`,
`reserve`, `shrink_to_fit` or `extend`) and calls the allocator is an `insert` of a new key into a map
whose capacity is used up by its entries; it takes one block, and the capacity doubles. In
particular no removal and no `clear` calls the allocator. -/
theorem C76_call (hm : Reach cfg ok m) {op : Op K V} (hp : op.InPlace) (hc : op.Calm)
    {o : Out (Ret K V)} (he : op.run cfg m = (o, m')) :
    (m'.nodes.items.log = m.nodes.items.log ∧ m'.capacity = m.capacity) ∨
    ((∃ c k v, op = .insert c k v) ∧ o = .ok (.value none) ∧ m.len cfg = .ok m.capacity ∧
      m'.capacity = 2 * m.capacity + 8 ∧
      ∃ id n, m'.nodes.items.log = m.nodes.items.log ++ [.alloc id n]) := by
  obtain ⟨t, h⟩ := hm.shape
  obtain ⟨t', _, h1 | ⟨h1, h2, h3, _, h4, h5⟩⟩ := run_place h hp hc he
  · exact .inl h1
  · exact .inr ⟨h1, h2, h3 ▸ h.len_ok, h4, h5⟩

/-- The eight entries up to the ninth insertion are in a block of eight; the ninth insertion takes a
second block, and removing an entry and inserting another one takes none. -/
example :
    let m := Sample.build [(5, "e"), (2, "b"), (8, "h"), (1, "a"), (4, "d"), (7, "g"), (9, "i"), (3, "c")]
    let m1 := (Op.insert (query (compare 6)) 6 "f").run Sample.cfg m
    let m2 := (Op.removeEntry (query (compare 5))).run Sample.cfg m1.2
    let m3 := (Op.insert (query (compare 10)) 10 "j").run Sample.cfg m2.2
    m.len Sample.cfg = .ok m.capacity ∧ m.nodes.items.log = [.alloc 0 8] ∧
    m1.2.nodes.items.log = [.alloc 0 8, .alloc 1 16] ∧
    m2.2.nodes.items.log = [.alloc 0 8, .alloc 1 16] ∧
    m3.2.nodes.items.log = [.alloc 0 8, .alloc 1 16] ∧ m3.1 = .ok (.value none) := by decide +kernel

/-- C76. A program that starts with an empty map and only makes calls that work in place, among them
any number of insertions and removals, calls the allocator `a` times with `2 ^ a < N / 4 + 2`, if the
map never has more than `N` entries; and it gives no block back. -/
theorem C76_history {N : Nat} {ops : List (Op K V)} (hp : ∀ op ∈ ops, op.InPlace)
    (hc : ∀ op ∈ ops, op.Calm)
    (hN : ∀ i l, (history cfg (ops.take i) BSTMap.new).2.len cfg = .ok l → l ≤ N) :
    frees (history cfg ops BSTMap.new).2.nodes.items.log = 0 ∧
    4 * 2 ^ allocs (history cfg ops BSTMap.new).2.nodes.items.log < N + 8 := by
  obtain ⟨t, h, h1, h2⟩ := history_allocs hp hc (shape_new cfg)
    (by show 0 < 2 * N + 8; omega) hN
  have h3 : frees (history cfg ops BSTMap.new).2.nodes.items.log = 0 := h2
  obtain ⟨n, h4, h5⟩ := h.allocs_eq
  rw [h3, Nat.zero_add] at h4
  exact ⟨h3, by rw [h4]; omega⟩

/-- Twelve calls, nine of which add a key, never more than eight entries at a time: one block, and the
bound is `4 * 2 ^ 1 < 8 + 8`. With a ninth entry at the same time there are two blocks: the bound
`4 * 2 ^ 2 < 9 + 8` cannot be improved. -/
def recycled : List (Op Nat String) :=
  ([5, 2, 8, 1, 4, 7, 9, 3].map fun k => .insert (query (compare k)) k "") ++
  [.removeEntry (query (compare 5)), .insert (query (compare 6)) 6 "", .clear ⟨true, fun _ => false⟩, .len]

example : (∀ i l, (history Sample.cfg (recycled.take i) BSTMap.new).2.len Sample.cfg = .ok l → l ≤ 8) ∧
    (∀ op ∈ recycled, op.InPlace) ∧ (∀ op ∈ recycled, op.Calm) ∧
    allocs (history Sample.cfg recycled BSTMap.new).2.nodes.items.log = 1 ∧ 4 * 2 ^ 1 < 8 + 8 ∧
    allocs Sample.nine.nodes.items.log = 2 ∧ 4 * 2 ^ 2 + 1 = 9 + 8 := by
  refine ⟨?_, by simp [recycled, Op.InPlace], by simp [recycled, Op.Calm], by decide +kernel⟩
  have h : ∀ i < 13, ∀ l, (history Sample.cfg (recycled.take i) BSTMap.new).2.len Sample.cfg = .ok l →
      l ≤ 8 := by
    have : ∀ i < 13, (match (history Sample.cfg (recycled.take i) BSTMap.new).2.len Sample.cfg with
      | .ok l => decide (l ≤ 8)
      | _ => true) = true := by decide +kernel
    intro i hi l hl
    have := this i hi
    rw [hl] at this
    simpa using this
  intro i l hl
  by_cases hi : i < 13
  · exact h i hi l hl
  · rw [List.take_of_length_le (by simp [recycled]; omega)] at hl
    exact h 12 (by omega) l (by rw [List.take_of_length_le (by simp [recycled])]; exact hl)

/-- C76. In simple_bst every insertion of a new key into a map with entries calls the allocator, and
exactly once. (The first entry is in the map itself.) -/
theorem C76_insert_simple {m m' : Simple.Map K V} (he : 2 ≤ cfg.esize) (ops : List (SimpleOp K V))
    (hm : (simpleHistory cfg ops Simple.Map.new).2 = m)
    (ha : Out.abort ∉ (simpleHistory cfg ops Simple.Map.new).1) (hn : m.len ≠ 0) {c : Probe K} {k : K}
    {v : V} {r : Option V} (h : Simple.Map.insert cfg c k v m = (.ok r, m')) :
    m'.allocs = m.allocs + if r.isNone then 1 else 0 := by
  have hw : Simple.Wf m := hm ▸ simpleHistory_wf he ops (m := Simple.Map.new) rfl rfl ha
  exact Simple.insert_cost (fun hr => hn (by rw [hw, hr]; rfl)) h

/-- Nine entries took eight boxes, a tenth takes one more. Even a removal may call the allocator:
taking out the root moves other nodes to new boxes. -/
example :
    let m := (simpleHistory Sample.cfg nineOps Simple.Map.new).2
    m.len = 9 ∧ m.allocs = 8 ∧
    (Simple.Map.insert Sample.cfg (query (compare 10)) 10 "" m).2.allocs = 9 ∧
    (Simple.Map.insert Sample.cfg (query (compare 5)) 5 "" m).2.allocs = 8 ∧
    8 < (Simple.Map.removeEntry Sample.cfg (query (compare 5)) m).2.allocs := by
  intro m
  have h1 : (Simple.Map.insert Sample.cfg (query (compare 10)) 10 "" m).1 = .ok none := by decide +kernel
  have pair : ∀ {α β : Type} {x : α × β} {a : α}, x.1 = a → x = (a, x.2) := fun h => h ▸ (Prod.eta _).symm
  have h2 : m.allocs = 8 := by decide +kernel
  have h3 := C76_insert_simple (cfg := Sample.cfg) (by decide) nineOps (m := m) rfl (by decide +kernel)
    (by decide +kernel) (pair h1)
  rw [h2] at h3
  exact ⟨by decide +kernel, h2, h3, by decide +kernel, by decide +kernel⟩

end BST.Props
