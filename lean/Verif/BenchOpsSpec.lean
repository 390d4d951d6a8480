import Verif.Model.BenchOps
import Verif.BenchSpec
/-!
# What the other programs of `benches/map_comparison.rs` and `benches/set_comparison.rs` are to compute

Said without maps and sets: in terms of the number of the step and the position of a key. Nothing
here is part of the crate.
-/
namespace BST.Bench
variable {T R : Type}

/-- Run with sets of either crate, the program ends with `o` and with sets that have the elements
`ls`, in ascending order. -/
def SYields (cfg : Cfg) (cmp : T → T → Ordering) (p : SetProg T R) (o : Out R) (ls : List (List T)) :
    Prop :=
  ∀ teq,
    (∃ ss, p.run (BSTSet.sets cfg cmp teq) [] = (o, ss) ∧ ss.map (·.iterInorder) = ls.map .ok) ∧
    ∃ ss, p.run (Simple.sets cfg cmp teq) [] = (o, ss) ∧ ss.map (fun s => s.explore.ino) = ls

/-- How many keys are inserted before step `i`: step `i` inserts `i % 5 + 1` new keys. -/
def startOf : Nat → Nat
  | 0 => 0
  | i + 1 => startOf i + (i % 5 + 1)

/-! ### Maps -/

/-- With which value key number `j` of step `i` is in the map in the end, if it is. -/
def opsEntry (i j : Nat) : Option Nat :=
  if j < i % 5 then some (if j + 1 = i % 5 ∧ i % 3 = 0 then 2 * (i + j) else i + j)
  else if i % 2 = 1 then some 0 else none

/-- What the third lookup of step `i` finds: the key before the last one of this step. If there is
none, it is the last key of the step before, and in step `0` the last key once more. -/
def opsThird (i : Nat) : Option Nat :=
  if i % 5 ≠ 0 then some (i + i % 5 - 1) else if i % 2 = 1 then none else some 0

/-- What the calls in step `i` return. -/
def opsLog (i : Nat) : StepLog (Option Nat) Nat where
  inserted := List.replicate (i % 5 + 1) none
  overwritten := some (i + i % 5)
  got := [none, some 0, opsThird i].take (3 - i % 3)
  removed := [none, some 0].take (2 - i % 2)

/-! ### Sets -/

/-- What the calls in step `i` return. -/
def setOpsLog (values : List Int) (i : Nat) : StepLog Bool Int where
  inserted := List.replicate (i % 5 + 1) true
  overwritten := false
  got := [none, values[startOf i + i % 5]?,
    if i % 5 = 0 ∧ i % 2 = 1 then none else values[startOf i + i % 5 - 1]?].take (3 - i % 3)
  removed := [false, true].take (2 - i % 2)

end BST.Bench
