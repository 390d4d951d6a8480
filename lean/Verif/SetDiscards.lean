import Verif.Discards
import Verif.SetHistory
/-!
# Histories of a set with destructors that panic

As `Verif/Discards.lean`, for `BSTSet`. Nothing here is part of the crate.
-/
namespace BST
variable {T : Type}
open Spec (BT hitOf LawfulQuery)

/-- Execute a call with destructors. `clear` has its own (see C27). -/
def SetOp.runDrop (cfg : Cfg) (d : Dtors T Unit) : SetOp T → M (BSTSet T) (SetRet T)
  | withCapacity n => do
    BSTSet.assignDrop cfg d (fun _ => BSTSet.withCapacity cfg n)
    pure .unit
  | collect cmps src => do
    BSTSet.assignDrop cfg d (fun _ => BSTSet.fromIterDrop cfg d cmps src)
    pure .unit
  | cloned cmps cloneT => do
    BSTSet.assignDrop cfg d (BSTSet.cloneDrop cfg d cmps cloneT)
    pure .unit
  | insert c t => do
    let r ← BSTSet.insertDrop cfg d c t
    pure (.bool r)
  | remove c => do
    let r ← BSTSet.removeDrop cfg d c
    pure (.bool r)
  | extend cmps src => do
    BSTSet.extendDrop cfg d cmps src
    pure .unit
  | op => op.run cfg

/-- Execute a sequence of calls, each with its own destructors, catching panics. -/
def setHistoryDrop (cfg : Cfg) (ops : List (Dtors T Unit × SetOp T)) (s : BSTSet T) :
    List (Out (SetRet T)) × BSTSet T :=
  execute (fun x => x.2.runDrop cfg x.1) ops s

namespace Spec

/-- The elements that are dropped when the elements `ts` are added one after the other to the
elements `l`: those that find an equal one. -/
def rejected (cmp : T → T → Ordering) : List T → List T → List T
  | [], _ => []
  | t :: ts, l => (if l.any (hitOf (cmp t)) then [t] else []) ++ rejected cmp ts (add cmp t l)

/-- What a data structure that answers as `ans` says does when destructors are run.
`els` are its elements. -/
def SetDropAnswer {C : Type} (cmp : T → T → Ordering)
    (ans : C → Out (SetRet T) → C → SetOp T → Prop) (els : C → List T)
    (l : C) (o : Out (SetRet T)) (l' : C) (x : Dtors T Unit × SetOp T) : Prop :=
  match x.2 with
  | .withCapacity n =>
    -- the old set is dropped
    (o = (if (els l).any (hurtsKey x.1) then .panic else .ok .unit) ∧
      ans l (.ok .unit) l' (.withCapacity n)) ∨ (Failed o ∧ l' = l)
  | .cloned c ct =>
    (o = (if (els l).any (hurtsKey x.1) then .panic else .ok .unit) ∧
      ans l (.ok .unit) l' (.cloned c ct)) ∨ (Failed o ∧ l' = l)
  | .collect c src =>
    (o = (if (els l).any (hurtsKey x.1) then .panic else .ok .unit) ∧
      ans l (.ok .unit) l' (.collect c src) ∧
      (rejected cmp src.items []).any (hurtsKey x.1) = false) ∨ (Failed o ∧ l' = l)
  | .insert c t =>
    -- the call has taken effect although it panics
    (∃ b, ans l (.ok (.bool b)) l' (.insert c t) ∧
      o = if !b && hurtsKey x.1 t then .panic else .ok (.bool b)) ∨
    (ans l .panic l' (.insert c t) ∧ o = if hurtsKey x.1 t then .abort else .panic) ∨
    (ans l .abort l' (.insert c t) ∧ o = .abort)
  | .remove c =>
    ∀ f, LawfulQuery cmp f → Asks f c →
      (∃ r, ans l (.ok r) l' (.remove c) ∧
        o = if ((els l).find? (hitOf f)).any (hurtsKey x.1) then .panic else .ok r) ∨
      (ans l .panic l' (.remove c) ∧ o = .panic)
  | .extend c src =>
    -- only the first elements were added, and nothing bad was dropped before the last of them
    ∃ used rest, src.items = used ++ rest ∧
      ((o = .ok .unit ∧ rest = [] ∧ ans l (.ok .unit) l' (.extend c src) ∧
        (rejected cmp used (els l)).any (hurtsKey x.1) = false) ∨
       (Failed o ∧ ans l (.ok .unit) l' (.extend c { src with items := used, panics := false }) ∧
        (rejected cmp used.dropLast (els l)).any (hurtsKey x.1) = false))
  | op => ans l o l' op

end Spec
end BST
