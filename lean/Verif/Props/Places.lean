import Verif.Proofs.ClonePlaces
import Verif.Proofs.Sample
import Verif.Proofs.Steps
import Verif.Props.Capacity
/-!
# C77: where the entries are in memory

"There is a good probability that the nodes you are operating on are laid out contiguously in memory"
(README.md): what the crate really does. The blocks that a map owns are those that its allocator
events leave (`Spec.replay`), oldest first; `Spec.slot blocks j` is the `j`-th place in them.
-/
namespace BST.Props
open BSTMap Tree Std
open Spec (BT Order slot replay)
variable {K V : Type} {cfg : Cfg} {ok : K → Probe K → Prop} {m m' : BSTMap K V}

/-- C77. The blocks of a map have 8, 16, 32, ... slots. Consecutive slots are next to each other in
the same block, except where a block ends: after 8, 24, 56, ... slots. -/
theorem C77_blocks (hm : Reach cfg ok m) :
    ∃ blocks, replay m.nodes.items.log = some blocks ∧
      (∃ n, blocks.map (·.2) = (List.range n).map fun i => 8 * 2 ^ i) ∧
      ∀ i p q, slot blocks i = some p → slot blocks (i + 1) = some q →
        q = ⟨p.block, p.off + 1⟩ ∨ ∃ j, i + 1 = 8 * (2 ^ j - 1) := by
  obtain ⟨t, h⟩ := hm.shape
  refine ⟨_, h.log, ⟨_, h.items.blocks_sizes⟩, fun i p q hp hq => ?_⟩
  rcases slot_next hp hq with h1 | ⟨j, h1, h2⟩
  · exact .inl h1
  · refine .inr ⟨j, h2.trans (h.items.blocks_sum ?_)⟩
    simp only [Arena.blocks, List.length_map] at h1
    omega

/-- The map with nine entries has blocks of 8 and 16 slots; only between the slots 7 and 8 is a
border. -/
example : replay Sample.nine.nodes.items.log = some [(0, 8), (1, 16)] ∧
    slot [(0, 8), (1, 16)] 6 = some ⟨0, 6⟩ ∧ slot [(0, 8), (1, 16)] 7 = some ⟨0, 7⟩ ∧
    slot [(0, 8), (1, 16)] 8 = some ⟨1, 0⟩ ∧ 7 + 1 = 8 * (2 ^ 1 - 1) ∧
    slot [(0, 8), (1, 16)] 23 = some ⟨1, 15⟩ ∧ slot [(0, 8), (1, 16)] 24 = none := by decide +kernel

/-- C77. If no entry is taken out, the entries are in memory in the order in which they came in. The
map is empty at first (`Blank`: new, with a capacity, or cleared), and then calls are made that take
no entry out and do not replace the map (`Op.Fills`); comparisons may panic and lie. The keys that
move in (`Op.keysIn`) fill the slots from the first one on. -/
theorem C77_order (hm : Blank cfg ok m) {ops : List (Op K V)} (hf : ∀ op ∈ ops, op.Fills)
    {keys : List K} (hk : account cfg (Op.keysIn cfg) ops m = keys) :
    ∃ b blocks, exploreAt (history cfg ops m).2 = .ok b ∧
      replay (history cfg ops m).2.nodes.items.log = some blocks ∧
      (b.order .ino).length = keys.length ∧
      ∀ i k, keys[i]? = some k → ∃ p v, slot blocks i = some p ∧ (p, k, v) ∈ b.order .ino := by
  obtain ⟨t, h⟩ := Laid.history (cfg := cfg) hf hm.laid
  rw [List.nil_append, hk] at h
  have hl := h.shape.len_eq
  refine ⟨_, _, exploreAt_ok h.shape, h.shape.log, ?_, fun i k hi => ?_⟩
  · rw [bt_order, order_length, ← h.len, hl, h.free]; rfl
  · obtain ⟨p, v, h1, h2⟩ := h.at_ i k hi
    exact ⟨p, v, h1, by rw [bt_order]; exact h2⟩

/-- Nine insertions into a cleared map, an overwrite and a reservation among them. -/
def filling : List (Op Nat String) :=
  ([5, 2, 8].map fun k => .insert (query (compare k)) k "") ++ [.reserve 1, .insert (query (compare 2)) 2 "two"] ++
  ([1, 4, 7, 9, 3, 6].map fun k => .insert (query (compare k)) k "")

example :
    let m := (clear Sample.cfg ⟨true, fun _ => false⟩ Sample.eight).2
    (∀ op ∈ filling, op.Fills) ∧
    account Sample.cfg (Op.keysIn Sample.cfg) filling m = [5, 2, 8, 1, 4, 7, 9, 3, 6] ∧
    (∃ b, exploreAt (history Sample.cfg filling m).2 = .ok b ∧ (b.order .ino).length = 9) ∧
    (exploreAt (history Sample.cfg filling m).2).map (fun b => (b.order .pre).map fun e => (e.1, e.2.1)) =
      .ok [(⟨0, 0⟩, 5), (⟨0, 1⟩, 2), (⟨0, 3⟩, 1), (⟨0, 4⟩, 4), (⟨0, 7⟩, 3), (⟨0, 2⟩, 8), (⟨0, 5⟩, 7),
        (⟨1, 0⟩, 6), (⟨0, 6⟩, 9)] := by
  intro m
  have h1 : ∀ op ∈ filling, op.Fills := by simp [filling, Op.Fills]
  have h2 : account Sample.cfg (Op.keysIn Sample.cfg) filling m = [5, 2, 8, 1, 4, 7, 9, 3, 6] := by
    decide +kernel
  have h3 : (clear Sample.cfg ⟨true, fun _ => false⟩ Sample.eight).1 = .ok () := by decide +kernel
  have pair : ∀ {α β : Type} {x : α × β} {a : α}, x.1 = a → x = (a, x.2) := fun h => h ▸ (Prod.eta _).symm
  have hb : Blank Sample.cfg (Lawful Sample.cmp) m := .clear Sample.eight_reach (pair h3)
  obtain ⟨b, _, h4, _, h5, _⟩ := C77_order hb h1 h2
  exact ⟨h1, h2, ⟨b, h4, h5⟩, by decide +kernel⟩

/-- C77. `collect` lays the entries out in the order of the items whose key was new
(`collectTrace`: the calls of `insert` that `collect` makes, with their results). -/
theorem C77_collect {cmps : Nat → K → Probe K} {src : Source K V} {o : Out Unit}
    (he : fromIter cfg cmps src = (o, m)) {keys : List K}
    (hk : ((collectTrace cfg cmps src).filter fun x => x.2.isNone).map (·.1.1) = keys) :
    ∃ b blocks, exploreAt m = .ok b ∧ replay m.nodes.items.log = some blocks ∧
      (b.order .ino).length = keys.length ∧
      ∀ i k, keys[i]? = some k → ∃ p v, slot blocks i = some p ∧ (p, k, v) ∈ b.order .ino := by
  obtain ⟨t, h⟩ := Laid.fromIter he
  rw [hk] at h
  have hl := h.shape.len_eq
  refine ⟨_, _, exploreAt_ok h.shape, h.shape.log, ?_, fun i k hi => ?_⟩
  · rw [bt_order, order_length, ← h.len, hl, h.free]; rfl
  · obtain ⟨p, v, h1, h2⟩ := h.at_ i k hi
    exact ⟨p, v, h1, by rw [bt_order]; exact h2⟩

/-- Five items, one key twice. -/
example :
    let src : Source Nat String := ⟨(0, none), [(3, "c"), (1, "a"), (3, "C"), (2, "b"), (4, "d")], false⟩
    let cmps : Nat → Nat → Probe Nat := fun _ k => query (compare k)
    ((collectTrace Sample.cfg cmps src).filter fun x => x.2.isNone).map (·.1.1) = [3, 1, 2, 4] ∧
    (fromIter Sample.cfg cmps src).1 = .ok () ∧
    (exploreAt (fromIter Sample.cfg cmps src).2).map (fun b => b.order .ino) =
      .ok [(⟨0, 1⟩, 1, "a"), (⟨0, 2⟩, 2, "b"), (⟨0, 0⟩, 3, "C"), (⟨0, 3⟩, 4, "d")] := by decide +kernel

/-- C77. `clone` lays the entries out in pre-order, one after the other, however they are laid out in
the original: a node is followed by its left subtree and this by its right subtree. (The comparisons
and the clones of keys respect the order.) -/
theorem C77_clone {cmp : K → K → Ordering} [TransCmp cmp] (hm : Reach cfg (Lawful cmp) m)
    {cmps : Nat → K → Probe K} (hok : ∀ n k, Lawful cmp k (cmps n k)) {cloneK : K → Option K}
    {cloneV : V → Option V}
    (hcl : ∀ a b a' b', cloneK a = some a' → cloneK b = some b' → cmp a b = .lt → cmp a' b' = .lt)
    (he : clone cfg cmps cloneK cloneV m = (.ok (), m')) :
    ∃ b blocks, exploreAt m' = .ok b ∧ replay m'.nodes.items.log = some blocks ∧
      ∀ i e, (b.order .pre)[i]? = some e → slot blocks i = some e.1 := by
  obtain ⟨t, h, hs⟩ := hm.sorted
  obtain ⟨w, h1, h2⟩ := clone_places hok hcl h hs he
  exact ⟨_, _, exploreAt_ok h1, h1.log, fun i e hi => h2 i e (by rw [bt_order] at hi; exact hi)⟩

/-- The clone of the map with eight entries, one of which is in the slot of a removed one. -/
example :
    let r := clone Sample.cfg (fun _ k => query (compare k)) some some Sample.eight
    (∃ b blocks, exploreAt r.2 = .ok b ∧ replay r.2.nodes.items.log = some blocks ∧
      ∀ i e, (b.order .pre)[i]? = some e → slot blocks i = some e.1) ∧
    (exploreAt Sample.eight).map (fun b => (b.order .pre).map fun e => e.1) ≠
      (exploreAt r.2).map (fun b => (b.order .pre).map fun e => e.1) ∧
    (exploreAt r.2).map (fun b => (b.order .pre).map fun e => e.1.off) = .ok [0, 1, 2, 3, 4, 5, 6, 7] := by
  intro r
  have h1 : r.1 = .ok () := by decide +kernel
  have pair : ∀ {α β : Type} {x : α × β} {a : α}, x.1 = a → x = (a, x.2) := fun h => h ▸ (Prod.eta _).symm
  refine ⟨C77_clone Sample.eight_reach (fun n k i x => .inr rfl) ?_ (pair h1), by decide +kernel,
    by decide +kernel⟩
  intro a b a' b' ha hb
  cases ha; cases hb; exact id

/-- C77. With removals the entries are no longer in the order of the insertions, but they stay close
together: as `peak` is the largest `len()` since the map was created or last cleared (`Track`), every
entry is in one of the first `peak` slots; and when the map has `peak` entries, these slots are all in
use. -/
theorem C77_dense {peak need : Nat} (hm : Track cfg ok m peak need) :
    ∃ b blocks, exploreAt m = .ok b ∧ replay m.nodes.items.log = some blocks ∧
      (∀ e ∈ b.order .ino, ∃ j < peak, slot blocks j = some e.1) ∧
      (m.len cfg = .ok peak → ∀ j < peak, ∃ e ∈ b.order .ino, slot blocks j = some e.1) := by
  obtain ⟨t, h, h1, _⟩ := track_spec hm
  refine ⟨_, _, exploreAt_ok h, h.log, fun e he => ?_, fun hl j hj => ?_⟩
  · rw [bt_order] at he
    exact h1 ▸ h.place he
  · have h2 := h.len_ok
    rw [hl] at h2
    cases h2
    have h3 := h.len_eq
    obtain ⟨e, h4, h5⟩ := h.full (by omega) (h1.symm ▸ hj)
    exact ⟨e, by rw [bt_order]; exact h4, h5⟩

/-- The map with eight entries had nine: the second block still has an entry, and one of the first
nine slots is free. After an insertion all are in use again. -/
example : ∃ peak need, Track Sample.cfg (Lawful Sample.cmp) Sample.eight peak need ∧ peak = 9 ∧
    (∃ b, exploreAt Sample.eight = .ok b ∧
      ∀ e ∈ b.order .ino, ∃ j < 9, slot [(0, 8), (1, 16)] j = some e.1) ∧
    (exploreAt Sample.eight).map (fun b => (b.order .ino).map (·.1)) ≠
      (exploreAt (Op.run Sample.cfg (.insert (query (compare 10)) 10 "") Sample.eight).2).map
        (fun b => (b.order .ino).map (·.1)) := by
  obtain ⟨peak, need, h⟩ := C36_all Sample.eight_reach
  obtain ⟨len, h1, h2⟩ := C36_slots h
  have h3 : Sample.eight.len Sample.cfg = .ok 8 := by decide +kernel
  have h4 : Sample.eight.nodes.freeLen = 1 := by decide +kernel
  cases h1.symm.trans h3
  obtain rfl : peak = 9 := by omega
  obtain ⟨b, blocks, h5, h6, h7, _⟩ := C77_dense h
  have h8 : replay Sample.eight.nodes.items.log = some [(0, 8), (1, 16)] := by decide +kernel
  cases h6.symm.trans h8
  exact ⟨9, need, h, rfl, ⟨b, h5, h7⟩, by decide +kernel⟩

end BST.Props
