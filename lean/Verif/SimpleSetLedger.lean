import Verif.Model.SimpleSetDtors
import Verif.SimpleSetHistory
import Verif.SimpleDiscards
/-!
# Histories of a `SimpleBSTSet` with destructors

The calls of `Verif/SimpleSetHistory.lean`, executed with the destructors of
`Verif/Model/SimpleSetDtors.lean`; what a textbook tree would do with the same destructors; and
which elements a call takes from its caller and gives back. Every call comes with its own
destructors: they may behave differently at every call. Nothing here is part of the crate.
-/
namespace BST
variable {T : Type}
open Spec (BT hitOf LawfulQuery)
open Simple.SSet (World)

/-- Execute a call with destructors. -/
def SimpleSetOp.runWorld (cfg : Cfg) (bad : T → Bool) : SimpleSetOp T → M (World T) (SetRet T)
  | collect cmps src => do
    World.assign bad (World.fromIter cfg bad cmps src)
    pure .unit
  | cloned cloneT => do
    World.assign bad (World.clone cfg bad cloneT)
    pure .unit
  | insert c t => do
    let r ← World.insert cfg bad c t
    pure (.bool r)
  | remove c => do
    let r ← World.remove cfg bad c
    pure (.bool r)
  | take c => do
    let r ← World.take cfg c
    pure (.elem r)
  | clear => do
    World.clear bad
    pure .unit
  | extend cmps src => do
    World.extend cfg bad cmps src
    pure .unit
  | op => World.onSet (op.run cfg)

/-- Execute a sequence of calls, each with its own destructors, catching panics. -/
def simpleSetWorldHistory (cfg : Cfg) (ops : List ((T → Bool) × SimpleSetOp T)) (s : World T) :
    List (Out (SetRet T)) × World T :=
  execute (fun x => x.2.runWorld cfg x.1) ops s

/-- The elements that a call takes from its caller: arguments that are moved and items of the
iterator. -/
def SimpleSetOp.takes : SimpleSetOp T → List T
  | collect _ src => src.items
  | extend _ src => src.items
  | insert _ t => [t]
  | _ => []

/-- The elements that a call gives (not just shows) to its caller. -/
def SimpleSetOp.gives : SimpleSetOp T → Out (SetRet T) → List T
  | take _, .ok (.elem (some t)) => [t]
  | _, _ => []

/-- The elements that the calls with outcomes `os` took. -/
def simpleSetTaken (ops : List ((T → Bool) × SimpleSetOp T)) (os : List (Out (SetRet T))) : List T :=
  (ops.zip os).flatMap fun x => x.1.2.takes

/-- The elements that the calls with outcomes `os` gave. -/
def simpleSetGiven (ops : List ((T → Bool) × SimpleSetOp T)) (os : List (Out (SetRet T))) : List T :=
  (ops.zip os).flatMap fun x => x.1.2.gives x.2

namespace Spec

/-- The elements that are dropped when the elements `ts` are added one after the other to a
textbook tree: those that find an equal one. -/
def BT.rejected (cmp : T → T → Ordering) : List T → BT T → List T
  | [], _ => []
  | t :: ts, b => (if b.ino.any (hitOf (cmp t)) then [t] else []) ++ BT.rejected cmp ts (b.add cmp t)

/-- A textbook tree `b` of elements may answer the call with the outcome `o`, and is `b'` afterwards,
if destructors are run: `bad` are the elements that panic when dropped. (If the process aborts,
nothing is said about `b'`.) -/
def SimpleSetDropAnswer (cmp : T → T → Ordering) (b : BT T) (o : Out (SetRet T)) (b' : BT T)
    (x : (T → Bool) × SimpleSetOp T) : Prop :=
  match x.2 with
  | .clear => o = fate .unit (b.ino.countP x.1) ∧ b' = .nil
  | .collect c src =>
    -- the old set is dropped; or something panicked before
    (o = fate .unit (b.ino.countP x.1) ∧ b' = BT.addList cmp src.items .nil ∧
      src.panics = false ∧ (BT.rejected cmp src.items .nil).countP x.1 = 0) ∨
    (o = .panic ∧ b' = b ∧ (src.panics = true ∨ (∃ n k, Panics (c n k)) ∨
      (BT.rejected cmp src.items .nil).countP x.1 ≠ 0)) ∨
    o = .abort
  | .cloned ct =>
    (o = fate .unit (b.ino.countP x.1) ∧ b' = b) ∨
    (o = .panic ∧ b' = b ∧ ∃ t, ct t = none) ∨
    o = .abort
  | .insert c t =>
    -- an equal element is there and stays, and `t` is dropped; or a comparison panics
    (o = (if b.ino.any (hitOf (cmp t)) then if x.1 t then .panic else .ok (.bool false)
        else .ok (.bool true)) ∧ b' = b.add cmp t) ∨
    (Panics c ∧ b' = b ∧ o = if x.1 t then .abort else .panic) ∨
    (o = .abort ∧ b.ino.any (hitOf (cmp t)) = false)
  | .remove c =>
    -- the call has taken effect although it panics
    ∀ f, LawfulQuery cmp f → Asks f c →
      (o = (match b.ino.find? (hitOf f) with
        | none => .ok (.bool false)
        | some t => if x.1 t then .panic else .ok (.bool true)) ∧ b' = b.discard f) ∨
      (Panics c ∧ b' = b ∧ o = .panic) ∨ o = .abort
  | .extend c src =>
    -- only the first items were added, and nothing that panics was dropped before the last
    ∃ used rest, src.items = used ++ rest ∧
      ((o = .ok .unit ∧ rest = [] ∧ b' = BT.addList cmp used b ∧ src.panics = false ∧
        (BT.rejected cmp used b).countP x.1 = 0) ∨
       (o = .panic ∧ b' = BT.addList cmp used b ∧
        (BT.rejected cmp used.dropLast b).countP x.1 = 0 ∧
        ((src.panics = true ∧ rest = []) ∨ (∃ n k, Panics (c n k)) ∨
          (BT.rejected cmp used b).countP x.1 ≠ 0)) ∨
       o = .abort)
  | op => SimpleSetAnswer cmp b o b' op

end Spec
end BST
