import Verif.Proofs.SetsAsMaps
import Verif.Proofs.Reaching
import Verif.Proofs.SetsRelated
import Verif.Props.Allocs
import Verif.Props.Places
import Verif.Props.Related
/-!
# C82: a set is a map with values `()`

and what this means for C76, C77 and C79: they hold of sets.
-/
namespace BST.Props
open Spec
variable {T T' : Type} {cfg : Cfg} {ok : T → Probe T → Prop}

/-- C82. A client who makes calls on a new `BSTSet`, and one who makes the corresponding calls on a new
`BSTMap<T, ()>`: their calls end in the same way, also if comparisons are inconsistent or panic,
allocations fail or destructors panic, and the set answers what the answers of the map show. The map
inside of the set is the map of the second client: the same tree, the same addresses, the same memory. -/
theorem C82_history (ops : List (SetOp T)) :
    ∃ os m os' s, history cfg (ops.map SetOp.onMap) BSTMap.new = (os, m) ∧
      setHistory cfg ops BSTSet.new = (os', s) ∧ s.items = m ∧ TellsAll ops os os' :=
  ⟨_, _, _, _, rfl, rfl, SetsAsMaps.history ops BSTSet.new⟩

/-- C82. The same for `SimpleBSTSet` and `SimpleBSTMap`. (`twin` is the name of the call in the other
crate.) -/
theorem C82_history_simple (cmp : T → T → Ordering) (ops : List (SimpleSetOp T)) :
    ∃ os m os' s, simpleHistory cfg (ops.map SimpleSetOp.onMap) Simple.Map.new = (os, m) ∧
      simpleSetHistory cfg ops Simple.SSet.new = (os', s) ∧ s.items = m ∧
      TellsAll (ops.map (·.twin cmp)) os os' :=
  ⟨_, _, _, _, rfl, rfl, SetsAsMaps.simple_history cmp ops Simple.SSet.new⟩

/-- C82. So what is proved of maps that can be reached (`Reach`) holds of the map inside of a set, whatever
calls were made on the set. -/
theorem C82_reach {ops : List (SetOp T)} (hops : ∀ op ∈ ops, op.Calm ∧ op.Allowed ok) :
    Reach cfg ok (setHistory cfg ops BSTSet.new).2.items := by
  rw [(SetsAsMaps.history ops BSTSet.new).1]
  refine history_reach .new fun op ho => ?_
  obtain ⟨op, h, rfl⟩ := List.mem_map.1 ho
  have := hops op h
  cases op <;> exact this

/-- C82. Likewise for maps: whatever calls were made, the map is one that can be reached. -/
theorem C82_reach_map {K V : Type} {ok : K → Probe K → Prop} {ops : List (Op K V)}
    (hops : ∀ op ∈ ops, op.Calm ∧ op.Allowed ok) : Reach cfg ok (history cfg ops BSTMap.new).2 :=
  history_reach .new hops

/-- C76 for sets. As long as the set is not built anew and no memory is reserved or given back by the
client: if the set never held more than `N` elements, then no block of memory was given back, and the
number `n` of blocks that were requested satisfies `4 * 2 ^ n < N + 8`. -/
theorem C76_set_history {N : Nat} {ops : List (SetOp T)} (hp : ∀ op ∈ ops, op.InPlace)
    (hc : ∀ op ∈ ops, op.Calm)
    (hN : ∀ i l, (setHistory cfg (ops.take i) BSTSet.new).2.len cfg = .ok l → l ≤ N) :
    frees (setHistory cfg ops BSTSet.new).2.items.nodes.items.log = 0 ∧
    4 * 2 ^ allocs (setHistory cfg ops BSTSet.new).2.items.nodes.items.log < N + 8 := by
  rw [(SetsAsMaps.history ops BSTSet.new).1]
  refine C76_history ?_ ?_ ?_
  · intro op ho
    obtain ⟨op, h, rfl⟩ := List.mem_map.1 ho
    have := hp op h
    cases op <;> exact this
  · intro op ho
    obtain ⟨op, h, rfl⟩ := List.mem_map.1 ho
    have := hc op h
    cases op <;> exact this
  · intro i l hl
    refine hN i l ?_
    rw [← List.map_take] at hl
    have := (SetsAsMaps.history (cfg := cfg) (ops.take i) BSTSet.new).1
    show BSTMap.len cfg (setHistory cfg (ops.take i) BSTSet.new).2.items = _
    rw [this]
    exact hl

/-- C77 for sets. A new set to which elements are only added, by `insert`: its elements are in the slots
of its memory in the order in which they were added. -/
theorem C77_set_order {ops : List (SetOp T)} (hf : ∀ op ∈ ops, op.Fills) {os : List (Out (SetRet T))}
    {s : BSTSet T} (h : setHistory cfg ops BSTSet.new = (os, s)) :
    ∃ b blocks, exploreAt s.items = .ok b ∧ replay s.items.nodes.items.log = some blocks ∧
      (b.order .ino).length = (added ops os).length ∧
      ∀ i t, (added ops os)[i]? = some t → ∃ p, slot blocks i = some p ∧ (p, t, ()) ∈ b.order .ino := by
  have h1 := (SetsAsMaps.history (cfg := cfg) ops BSTSet.new).1
  have h2 := SetsAsMaps.account_added (cfg := cfg) hf BSTSet.new
  rw [h] at h1 h2
  have h1 : s.items = _ := h1
  rw [h1]
  obtain ⟨b, blocks, h3, h4, h5, h6⟩ := C77_order (cfg := cfg) (ok := fun _ _ => True) .new
    (ops := ops.map SetOp.onMap) (fun op ho => by
      obtain ⟨op, h, rfl⟩ := List.mem_map.1 ho
      have := hf op h
      cases op <;> first | exact this | exact trivial) h2
  refine ⟨b, blocks, h3, h4, h5, fun i t ht => ?_⟩
  obtain ⟨p, _, h7, h8⟩ := h6 i t ht
  exact ⟨p, h7, h8⟩

/-- C79 for sets. Two histories of related calls on sets: every call has the same outcome and returns
related elements and the same numbers, truth values and texts. Afterwards the sets show trees of the same
shape with related elements, and the allocator was called in the same way. -/
theorem C79_set_history {R : T → T' → Prop} {ops : List (SetOp T)} {ops' : List (SetOp T')}
    (h : ListRel (SetOpRel R) ops ops') :
    ∃ os s os' s', setHistory cfg ops BSTSet.new = (os, s) ∧ setHistory cfg ops' BSTSet.new = (os', s') ∧
      ListRel (OutRel (SetRetRel R)) os os' ∧ OutRel (BTRel R) (exploreSet s) (exploreSet s') ∧
      s.items.nodes.items.log = s'.items.nodes.items.log := by
  obtain ⟨h1, h2⟩ := SetsAsMaps.setHistory_rel (cfg := cfg) h (s := BSTSet.new) (s' := BSTSet.new) BSTMap.new_rel
  exact ⟨_, _, _, _, rfl, rfl, h1, SetsAsMaps.exploreSet_rel h2, h2.nodes.items.log⟩

/-! ### Cases -/

/-- Fourteen calls on a set of numbers. -/
def setCalls : List (SetOp Nat) :=
  let q (n : Nat) : Probe Nat := query (compare n)
  [.insert (q 5) 5, .insert (q 2) 2, .insert (q 8) 8, .insert (q 2) 2, .remove (q 7), .remove (q 5),
   .contains (q 8), .get (q 3), .take (q 2), .insert (fun _ _ => none) 9,
   .extend (fun _ k => q k) ⟨(2, none), [4, 1, 4], false⟩, .iter .ino 4, .node [false], .len]

/-- The answers of the set and of the map. -/
example :
    (setHistory Sample.cfg setCalls BSTSet.new).1 =
      [.ok (.bool true), .ok (.bool true), .ok (.bool true), .ok (.bool false), .ok (.bool false),
       .ok (.bool true), .ok (.bool true), .ok (.elem none), .ok (.elem (some 2)), .panic, .ok .unit,
       .ok (.items [some 1, some 4, some 8, none]), .ok (.node (some (4, true, false))), .ok (.nat 3)] ∧
    (history Sample.cfg (setCalls.map SetOp.onMap) BSTMap.new).1 =
      [.ok (.value none), .ok (.value none), .ok (.value none), .ok (.value (some ())), .ok (.value none),
       .ok (.value (some ())), .ok (.bool true), .ok (.entry none), .ok (.entry (some (2, ()))), .panic, .ok .unit,
       .ok (.items [some (1, ()), some (4, ()), some (8, ()), none]),
       .ok (.node (some (4, (), true, false))), .ok (.nat 3)] := by decide +kernel

/-- `C82_reach` applies to them, with any comparisons allowed. -/
example : (∀ op ∈ setCalls, op.Calm ∧ op.Allowed fun _ _ => True) ∧
    (setHistory Sample.cfg setCalls BSTSet.new).2.items.len Sample.cfg = .ok 3 := by
  refine ⟨?_, by decide +kernel⟩
  simp [setCalls, SetOp.Calm, SetOp.Allowed]

/-- Calls that need no memory but what new elements need. -/
def setRecycled : List (SetOp Nat) :=
  ([5, 2, 8, 1, 4, 7, 9, 3].map fun t => .insert (query (compare t)) t) ++
  [.take (query (compare 5)), .insert (query (compare 6)) 6, .clear ⟨true, fun _ => false⟩, .len]

/-- `C76_set_history` applies to them with `N = 8`: one block. -/
example : (∀ op ∈ setRecycled, op.InPlace ∧ op.Calm) ∧
    (∀ i l, (setHistory Sample.cfg (setRecycled.take i) BSTSet.new).2.len Sample.cfg = .ok l → l ≤ 8) ∧
    allocs (setHistory Sample.cfg setRecycled BSTSet.new).2.items.nodes.items.log = 1 := by
  have all : ∀ i < 13, ∀ l, (setHistory Sample.cfg (setRecycled.take i) BSTSet.new).2.len Sample.cfg = .ok l →
      l ≤ 8 := by
    have : ∀ i < 13, (match (setHistory Sample.cfg (setRecycled.take i) BSTSet.new).2.len Sample.cfg with
        | .ok l => decide (l ≤ 8) | _ => true) = true := by decide +kernel
    intro i hi l hl
    have := this i hi
    rw [hl] at this
    exact of_decide_eq_true this
  refine ⟨by simp [setRecycled, SetOp.InPlace, SetOp.Calm], fun i l h => ?_, by decide +kernel⟩
  by_cases hi : i < 13
  · exact all i hi l h
  · rw [List.take_of_length_le (show setRecycled.length ≤ i by
      have : setRecycled.length = 12 := rfl
      omega)] at h
    exact all 12 (by decide) l h

/-- Elements are added, one of them twice. -/
def setFilling : List (SetOp Nat) :=
  ([5, 2, 8].map fun t => .insert (query (compare t)) t) ++ [.reserve 1, .insert (query (compare 2)) 2] ++
  ([1, 4, 7, 9, 3, 6].map fun t => .insert (query (compare t)) t)

/-- `C77_set_order` applies to them: nine elements. -/
example : (∀ op ∈ setFilling, op.Fills) ∧
    added setFilling (setHistory Sample.cfg setFilling BSTSet.new).1 = [5, 2, 8, 1, 4, 7, 9, 3, 6] := by
  refine ⟨by simp [setFilling, SetOp.Fills], by decide +kernel⟩

/-- Related calls, for `C79_set_history`: elements are encoded as integers. -/
example : ListRel (SetOpRel fun k k' => k' = code k)
    [.insert (query (compare 5)) 5, .insert (query (compare 2)) 2, .take (query (compare 5)),
      .get fun _ _ => none, .iter .ino 2]
    [.insert (query (compare (code 5))) (code 5), .insert (query (compare (code 2))) (code 2),
      .take (query (compare (code 5))), .get fun _ _ => none, .iter .ino 2] :=
  .cons (.insert (code_probe 5) rfl) (.cons (.insert (code_probe 2) rfl) (.cons (.take (code_probe 5))
    (.cons (.get fun _ _ _ _ => rfl) (.cons .iter .nil))))

end BST.Props
