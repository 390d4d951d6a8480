import Verif.Model.SetDtors
import Verif.SetDiscards
import Verif.MapDiscards
/-!
# Histories of a `BSTSet` in which every destructor is written down

The calls of `Verif/SetHistory.lean`, executed with the destructors of `Verif/Model/SetDtors.lean`,
and which elements a call takes from its caller and gives back. Every call comes with its own
destructors: they may behave differently at every call. Nothing here is part of the crate.
-/
namespace BST
variable {T : Type}
open BSTSet (World)

/-- Execute a call. `clear` has its own destructors (see C27). -/
def SetOp.runWorld (cfg : Cfg) (bad : T → Bool) : SetOp T → M (World T) (SetRet T)
  | withCapacity n => do
    World.assign cfg bad (World.withCapacity cfg bad n)
    pure .unit
  | collect cmps src => do
    World.assign cfg bad (World.fromIter cfg bad cmps src)
    pure .unit
  | cloned cmps cloneT => do
    World.assign cfg bad (World.clone cfg bad cmps cloneT)
    pure .unit
  | insert c t => do
    let r ← World.insert cfg bad c t
    pure (.bool r)
  | remove c => do
    let r ← World.remove cfg bad c
    pure (.bool r)
  | take c => do
    let r ← World.take cfg c
    pure (.elem r)
  | extend cmps src => do
    World.extend cfg bad cmps src
    pure .unit
  | op => World.onSet (op.run cfg)

/-- Execute a sequence of calls, each with its own destructors, catching panics. -/
def setWorldHistory (cfg : Cfg) (ops : List ((T → Bool) × SetOp T)) (s : World T) :
    List (Out (SetRet T)) × World T :=
  execute (fun x => x.2.runWorld cfg x.1) ops s

/-- The elements that a call takes from its caller: arguments that are moved and items of the iterator. -/
def SetOp.takes : SetOp T → List T
  | collect _ src => src.items
  | extend _ src => src.items
  | insert _ t => [t]
  | _ => []

/-- The elements that a call gives (not just shows) to its caller. -/
def SetOp.gives : SetOp T → Out (SetRet T) → List T
  | take _, .ok (.elem (some t)) => [t]
  | _, _ => []

/-- The elements that the calls with outcomes `os` took. -/
def setTaken (ops : List ((T → Bool) × SetOp T)) (os : List (Out (SetRet T))) : List T :=
  (ops.zip os).flatMap fun x => x.1.2.takes

/-- The elements that the calls with outcomes `os` gave. -/
def setGiven (ops : List ((T → Bool) × SetOp T)) (os : List (Out (SetRet T))) : List T :=
  (ops.zip os).flatMap fun x => x.1.2.gives x.2

/-- The destructors that `clear` runs do not panic, and exist (`needs_drop`). -/
def SetOp.Drops : SetOp T → Prop
  | .clear d => d.needsDrop = true ∧ ∀ x, d.panics x = false
  | _ => True

/-- The elements of a set, as the node API shows it, in order. -/
def BSTSet.contents (s : BSTSet T) : List T :=
  match exploreSet s with
  | .ok b => b.ino
  | _ => []

/-- The same destructors in the words of `Verif/Model/Dtors.lean`. -/
def elemDtors (bad : T → Bool) : Dtors T Unit := ⟨true, bad, fun _ => false⟩

end BST
