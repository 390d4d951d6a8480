import Verif.Model.SimpleSet
import Verif.SimpleHistory
import Verif.SetHistory
/-!
# Histories of calls on one `SimpleBSTSet`

As `Verif/SimpleHistory.lean`. Nothing here is part of the crate.
-/
namespace BST
variable {T : Type}
open Spec (BT Order)

/-- One call (or small client program) on a `SimpleBSTSet`. -/
inductive SimpleSetOp (T : Type) where
  /-- `set = src.collect()` -/
  | collect (cmps : Nat → T → Probe T) (src : BSTSet.Source T)
  /-- `set = set.clone()` -/
  | cloned (cloneT : T → Option T)
  | insert (c : Probe T) (t : T)
  | remove (c : Probe T)
  | take (c : Probe T)
  | get (c : Probe T)
  | contains (c : Probe T)
  /-- Walk with `root()` and `left()`/`right()` along the path; read the node. -/
  | node (path : List Bool)
  /-- `n` calls of `next` on a new iterator -/
  | iter (o : Order) (n : Nat)
  | len
  | isEmpty
  | clear
  | extend (cmps : Nat → T → Probe T) (src : BSTSet.Source T)
  /-- `format!("{:?}", set)` -/
  | debug (dt : T → String)

namespace Simple.SSet

/-- Replace the set by a newly built one; if that fails nothing happens. -/
def assign (f : SSet T → Out Unit × SSet T) : M (SSet T) Unit := fun s =>
  match f s with
  | (.ok (), s') => (.ok (), s')
  | (o, s') => (o, { s with items := { s.items with allocs := s'.items.allocs } })

/-- Follow a path (`false` = `left()`, `true` = `right()`) from a node of a set. -/
def goNode : List Bool → Option (Ref T Unit) → Option (Ref T Unit)
  | [], n => n
  | _ :: _, none => none
  | b :: path, some n => goNode path (if b then nodeRight n else nodeLeft n)

/-- Read the subtree of a node recursively; the first argument bounds the depth. -/
def exploreRef : Nat → Option (Ref T Unit) → BT T
  | _, none => .nil
  | 0, some _ => .nil
  | n + 1, some x => .node (exploreRef n (nodeLeft x)) (nodeValue x) (exploreRef n (nodeRight x))

/-- The whole tree of a set as the node API shows it. -/
def explore (s : SSet T) : BT T := exploreRef s.items.fuel s.rootRef

end Simple.SSet

open Simple in
/-- Execute a call. -/
def SimpleSetOp.run (cfg : Cfg) : SimpleSetOp T → M (SSet T) (SetRet T)
  | collect cmps src => do
    SSet.assign (fun s => SSet.fromIter cfg cmps src s.items.allocs)
    pure .unit
  | cloned cloneT => do
    SSet.assign (SSet.clone cfg cloneT)
    pure .unit
  | insert c t => do
    let r ← SSet.insert cfg c t
    pure (.bool r)
  | remove c => do
    let r ← SSet.remove cfg c
    pure (.bool r)
  | take c => do
    let r ← SSet.take cfg c
    pure (.elem r)
  | get c => do
    let r ← M.read (SSet.get c)
    pure (.elem r)
  | contains c => do
    let r ← M.read (SSet.contains c)
    pure (.bool r)
  | node path => do
    let s ← M.get
    pure (.node ((SSet.goNode path s.rootRef).map fun n =>
      (SSet.nodeValue n, SSet.nodeHasLeft n, SSet.nodeHasRight n)))
  | iter o n => do
    let s ← M.get
    let r ← M.lift (nexts (SSet.nextOf o) n (SSet.iter o s))
    pure (.items r.1)
  | len => do
    let s ← M.get
    pure (.nat s.len)
  | isEmpty => do
    let b ← M.read (SSet.isEmpty cfg)
    pure (.bool b)
  | clear => do
    SSet.clear
    pure .unit
  | extend cmps src => do
    SSet.extend cfg cmps src
    pure .unit
  | debug dt => do
    let s ← M.get
    pure (.text (s.debug dt))

/-- Execute a sequence of calls, catching panics. -/
def simpleSetHistory (cfg : Cfg) (ops : List (SimpleSetOp T)) (s : Simple.SSet T) :
    List (Out (SetRet T)) × Simple.SSet T := execute (SimpleSetOp.run cfg) ops s

/-- The same call on a `BSTSet`. -/
def SimpleSetOp.twin (cmp : T → T → Ordering) : SimpleSetOp T → SetOp T
  | collect cmps src => .collect cmps src
  | cloned cloneT => .cloned (fun _ k => query (cmp k)) cloneT
  | insert c t => .insert c t
  | remove c => .remove c
  | take c => .take c
  | get c => .get c
  | contains c => .contains c
  | node path => .node path
  | iter o n => .iter o n
  | len => .len
  | isEmpty => .isEmpty
  | clear => .clear ⟨true, fun _ => false⟩
  | extend cmps src => .extend cmps src
  | debug dt => .debug dt

/-- The call is meant to do the same on a `BSTSet`: not `Debug` (which prints the name of the
type). -/
def SimpleSetOp.Shared : SimpleSetOp T → Prop
  | debug _ => False
  | _ => True

/-- The user code called by the operation respects the order `cmp` (it may panic). -/
def SimpleSetOp.Lawful (cmp : T → T → Ordering) (op : SimpleSetOp T) : Prop :=
  (op.twin cmp).Lawful cmp

/-- No code of the user that the call may run panics. -/
def SimpleSetOp.Quiet : SimpleSetOp T → Prop
  | collect cmps src => (∀ n k, ¬ Panics (cmps n k)) ∧ src.panics = false
  | cloned cloneT => ∀ t, cloneT t ≠ none
  | insert c _ => ¬ Panics c
  | remove c => ¬ Panics c
  | take c => ¬ Panics c
  | get c => ¬ Panics c
  | contains c => ¬ Panics c
  | extend cmps src => (∀ n k, ¬ Panics (cmps n k)) ∧ src.panics = false
  | _ => True

/-- The call may allocate. -/
def SimpleSetOp.Allocates : SimpleSetOp T → Prop
  | collect _ _ => True
  | cloned _ => True
  | insert _ _ => True
  | remove _ => True
  | take _ => True
  | extend _ _ => True
  | _ => False

/-- How many more elements the call makes room for. -/
def SetOp.demand : SetOp T → Nat
  | withCapacity n => n
  | collect _ src => src.hint.2.getD src.hint.1 + src.items.length
  | insert _ _ => 1
  | reserve n => n
  | extend _ src => src.hint.2.getD src.hint.1 + src.items.length
  | _ => 0

/-- The same for a sequence of calls. -/
def setDemand (ops : List (SetOp T)) : Nat := (ops.map SetOp.demand).sum

/-- No code of the user that the call may run panics. -/
def SetOp.Quiet : SetOp T → Prop
  | collect cmps src => (∀ n k, ¬ Panics (cmps n k)) ∧ src.panics = false
  | cloned cmps cloneT => (∀ n k, ¬ Panics (cmps n k)) ∧ ∀ t, cloneT t ≠ none
  | insert c _ => ¬ Panics c
  | remove c => ¬ Panics c
  | take c => ¬ Panics c
  | get c => ¬ Panics c
  | contains c => ¬ Panics c
  | clear d => ∀ x, d.panics x = false
  | extend cmps src => (∀ n k, ¬ Panics (cmps n k)) ∧ src.panics = false
  | _ => True

/-- A textbook search tree `b` of elements may answer the call with the outcome `o`, and is
`b'` afterwards. If the process aborts for lack of memory, nothing is said about `b'`. -/
def Spec.SimpleSetAnswer (cmp : T → T → Ordering) (b : BT T) (o : Out (SetRet T)) (b' : BT T) :
    SimpleSetOp T → Prop
  | .debug dt => o = .ok (.text ("SimpleBSTSet { root: " ++ b.debugSet dt ++ " }")) ∧ b' = b
  | op => (o = .abort ∧ op.Allocates) ∨ SetTreeAnswer cmp b o b' (op.twin cmp)

end BST
