import Verif.Model.Map
import Verif.Model.Simple
/-!
# The program in README.md

`find_score` (README.md:33-43), the "custom traversal through the values in the map" that README.md
shows. It is written for any types of keys and values: `is i v` is the outcome of the `i`-th comparison
of the run, `node.value().score == target_score`, if it is made with the value `v`; `none` is a panic,
which the comparison of two `u32` never does. The state is the number of comparisons made so far.

The function calls itself. The first argument is the number of nested calls for which there is room on
the machine's stack (as in `Model/Recursion.lean`); without room for another call the process aborts.
-/
namespace BST.Readme
variable {K V : Type}

/-- README.md:37 `node.value().score == target_score`. -/
def ask (is : Nat → V → Option Bool) (v : V) : M Nat Bool := do
  let i ← M.get
  M.modify (· + 1)
  match is i v with
  | none => M.panic
  | some b => pure b

/-- README.md:33-43 `find_score`. -/
def findScore (nodes : Nodes K V) (is : Nat → V → Option Bool) :
    Nat → Option (Node K V) → M Nat (Option (Node K V))
  | 0, _ => M.lift .abort
  | _ + 1, none => pure none
  | lim + 1, some node => do
    if ← ask is node.value then pure (some node)
    else
      let l ← M.lift (node.left nodes)
      match ← findScore nodes is lim l with
      | some x => pure (some x)
      | none =>
        let r ← M.lift (node.right nodes)
        findScore nodes is lim r

/-- README.md:54 `find_score(map.root(), 500)`. -/
def search (lim : Nat) (is : Nat → V → Option Bool) (m : BSTMap K V) : M Nat (Option (Node K V)) := do
  let root ← M.lift m.rootNode
  findScore m.nodes is lim root

/-- `find_score` with the nodes of a `SimpleBSTMap`, which have the same methods. -/
def findScoreSimple (is : Nat → V → Option Bool) :
    Nat → Option (Simple.Ref K V) → M Nat (Option (Simple.Ref K V))
  | 0, _ => M.lift .abort
  | _ + 1, none => pure none
  | lim + 1, some node => do
    if ← ask is node.value then pure (some node)
    else
      match ← findScoreSimple is lim node.leftRef with
      | some x => pure (some x)
      | none => findScoreSimple is lim node.rightRef

/-- `find_score(map.root(), 500)` for a `SimpleBSTMap`. -/
def searchSimple (lim : Nat) (is : Nat → V → Option Bool) (m : Simple.Map K V) :
    M Nat (Option (Simple.Ref K V)) :=
  findScoreSimple is lim m.rootRef

end BST.Readme
