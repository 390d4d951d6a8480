import Verif.Model.Simple
import Verif.Demand
import Verif.Storage
/-!
# Histories of calls on one `SimpleBSTMap`

As `Verif/History.lean`, for the crate `simple_bst`. Nothing here is part of the crate.
-/
namespace BST
variable {K V : Type}
open Spec (BT Order)

namespace Simple

/-- Follow a path (`false` = `left()`, `true` = `right()`) from a node. -/
def goRef : List Bool → Option (Ref K V) → Option (Ref K V)
  | [], n => n
  | _ :: _, none => none
  | b :: path, some n => goRef path (if b then n.rightRef else n.leftRef)

/-- `root()` followed by a path. -/
def nodeAt (path : List Bool) (m : Map K V) : Option (Ref K V) := goRef path m.rootRef

/-- Follow a path with `left_mut()`/`right_mut()` from a node. -/
def goMut : List Bool → Option Place → M (Own K V) (Option Place)
  | [], n => pure n
  | _ :: _, none => pure none
  | b :: path, some p => do
    let c ← if b then Own.rightMut p else Own.leftMut p
    goMut path c

/-- `root_mut()` followed by a path. -/
def nodeMutAt (path : List Bool) : M (Map K V) (Option Place) := do
  let m ← M.get
  Map.onRoot (goMut path m.rootMut)

/-- Read the subtree of a node recursively with `left()` and `right()`; the first argument
bounds the depth. -/
def exploreRef : Nat → Option (Ref K V) → BT (K × V)
  | _, none => .nil
  | 0, some _ => .nil
  | n + 1, some x => .node (exploreRef n x.leftRef) (x.key, x.value) (exploreRef n x.rightRef)

/-- The whole tree as the node API shows it. -/
def explore (m : Map K V) : BT (K × V) := exploreRef m.fuel m.rootRef

/-- Replace the map by a newly built one; if that fails nothing happens. -/
def assign (f : Map K V → Out Unit × Map K V) : M (Map K V) Unit := fun m =>
  match f m with
  | (.ok (), m') => (.ok (), m')
  | (o, m') => (o, { m with allocs := m'.allocs })
end Simple

/-- One call (or small client program) on a `SimpleBSTMap`. -/
inductive SimpleOp (K V : Type) where
  /-- `map = src.collect()` -/
  | collect (cmps : Nat → K → Probe K) (src : BSTMap.Source K V)
  /-- `map = map.clone()` -/
  | cloned (cloneK : K → Option K) (cloneV : V → Option V)
  | insert (c : Probe K) (k : K) (v : V)
  | remove (c : Probe K)
  | removeEntry (c : Probe K)
  | get (c : Probe K)
  | getEntry (c : Probe K)
  | containsKey (c : Probe K)
  /-- `map.get_mut(q).map(|r| mem::replace(r, w))` -/
  | getMut (c : Probe K) (w : V)
  /-- Walk with `root()` and `left()`/`right()` along the path; read the node. -/
  | node (path : List Bool)
  /-- Walk with `root_mut()` and `left_mut()`/`right_mut()` along the path; replace the
  value. -/
  | nodeMut (path : List Bool) (w : V)
  /-- `n` calls of `next` on a new shared iterator -/
  | iter (o : Order) (n : Nat)
  /-- `n` calls of `next` on a new mutable iterator (the first one panics) -/
  | iterMut (o : Order) (n : Nat)
  | len
  | isEmpty
  | clear
  | extend (cmps : Nat → K → Probe K) (src : BSTMap.Source K V)
  /-- `format!("{:?}", map)` -/
  | debug (dk : K → String) (dv : V → String)

open Simple in
/-- Execute a call. -/
def SimpleOp.run (cfg : Cfg) : SimpleOp K V → M (Simple.Map K V) (Ret K V)
  | collect cmps src => do
    assign (fun m => Map.fromIter cfg cmps src m.allocs)
    pure .unit
  | cloned cloneK cloneV => do
    assign (Map.clone cfg cloneK cloneV)
    pure .unit
  | insert c k v => do
    let r ← Map.insert cfg c k v
    pure (.value r)
  | remove c => do
    let r ← Map.remove cfg c
    pure (.value r)
  | removeEntry c => do
    let r ← Map.removeEntry cfg c
    pure (.entry r)
  | get c => do
    let r ← M.read (Map.get c)
    pure (.value r)
  | getEntry c => do
    let r ← M.read (Map.getEntry c)
    pure (.entry r)
  | containsKey c => do
    let r ← M.read (Map.containsKey c)
    pure (.bool r)
  | getMut c w => do
    let r ← Map.getMut c
    match r with
    | none => pure (.value none)
    | some p =>
      let v ← Map.onRoot (Own.swapValue p w)
      pure (.value (some v))
  | node path => do
    let m ← M.get
    pure (.node ((Simple.nodeAt path m).map fun n => (n.key, n.value, n.hasLeft, n.hasRight)))
  | nodeMut path w => do
    let r ← Simple.nodeMutAt path
    match r with
    | none => pure (.entry none)
    | some p =>
      let n ← Map.onRoot (Own.deref p)
      let v ← Map.onRoot (Own.swapValue p w)
      pure (.entry (some (n.key, v)))
  | iter o n => do
    let m ← M.get
    let r ← M.lift (nexts (Map.next o) n (Map.iter o m))
    pure (.items r.1)
  | iterMut o n =>
    match n with
    | 0 => pure .unit
    | _ + 1 => do
      let _ ← Map.iterMutNext o
      pure .unit
  | len => do
    let m ← M.get
    pure (.nat m.len)
  | isEmpty => do
    let b ← M.read (Map.isEmpty cfg)
    pure (.bool b)
  | clear => do
    Map.clear
    pure .unit
  | extend cmps src => do
    Map.extend cfg cmps src
    pure .unit
  | debug dk dv => do
    let m ← M.get
    pure (.text (m.debug dk dv))

/-- Execute a sequence of calls, catching panics. -/
def simpleHistory (cfg : Cfg) (ops : List (SimpleOp K V)) (m : Simple.Map K V) :
    List (Out (Ret K V)) × Simple.Map K V := execute (SimpleOp.run cfg) ops m

/-- The same call on a `BSTMap`. (`BSTMap::clone` compares keys, `BSTMap::clear` may run
destructors in a loop.) -/
def SimpleOp.twin (cmp : K → K → Ordering) : SimpleOp K V → Op K V
  | collect cmps src => .collect cmps src
  | cloned cloneK cloneV => .cloned (fun _ k => query (cmp k)) cloneK cloneV
  | insert c k v => .insert c k v
  | remove c => .remove c
  | removeEntry c => .removeEntry c
  | get c => .get c
  | getEntry c => .getEntry c
  | containsKey c => .containsKey c
  | getMut c w => .getMut c w
  | node path => .node path
  | nodeMut path w => .nodeMut path w
  | iter o n => .iter o n
  | iterMut o n => .iterMut o (List.replicate n .next)
  | len => .len
  | isEmpty => .isEmpty
  | clear => .clear ⟨true, fun _ => false⟩
  | extend cmps src => .extend cmps src
  | debug dk dv => .debug dk dv

/-- The call is meant to do the same on a `BSTMap`: not a mutable iterator (which is missing
in `simple_bst`) and not `Debug` (which prints more). -/
def SimpleOp.Shared : SimpleOp K V → Prop
  | iterMut _ _ => False
  | debug _ _ => False
  | _ => True

/-- The user code called by the operation respects the order `cmp` (it may panic). -/
def SimpleOp.Lawful (cmp : K → K → Ordering) (op : SimpleOp K V) : Prop :=
  (op.twin cmp).Lawful cmp

/-- No code of the user that the call may run panics, and it is not a missing feature. -/
def SimpleOp.Quiet : SimpleOp K V → Prop
  | iterMut _ n => n = 0
  | op => (op.twin fun _ _ => .eq).Quiet

/-- The call may allocate. -/
def SimpleOp.Allocates : SimpleOp K V → Prop
  | collect _ _ => True
  | cloned _ _ => True
  | insert _ _ _ => True
  | remove _ => True
  | removeEntry _ => True
  | extend _ _ => True
  | _ => False

/-- A textbook search tree `b` may answer the call with the outcome `o`, and is `b'`
afterwards. If the process aborts for lack of memory, nothing is said about `b'`. -/
def Spec.SimpleAnswer (cmp : K → K → Ordering) (b : BT (K × V)) (o : Out (Ret K V))
    (b' : BT (K × V)) : SimpleOp K V → Prop
  | .debug dk dv => o = .ok (.text ("SimpleBSTMap { root: " ++ b.debugMap dk dv ++ ", len: " ++
      toString b.size ++ " }")) ∧ b' = b
  | .iterMut _ n => o = (if n = 0 then .ok .unit else .panic) ∧ b' = b
  | op => (o = .abort ∧ op.Allocates) ∨ TreeAnswer cmp b o b' (op.twin cmp)

end BST
