import Verif.Model.MapDtors
import Verif.SimpleDiscards
import Verif.Account
/-!
# Histories of a `BSTMap` in which every destructor is written down

The calls of `Verif/History.lean`, executed with the destructors of `Verif/Model/MapDtors.lean`,
and which keys and values a call takes from its caller and gives back. Every call comes with its
own destructors: they may behave differently at every call. Nothing here is part of the crate.
-/
namespace BST
variable {K V : Type}
open BSTMap (World)

/-- Execute a call. `clear` has its own destructors (see C27). -/
def Op.runWorld (cfg : Cfg) (d : Simple.Drops K V) : Op K V → M (World K V) (Ret K V)
  | withCapacity n => do
    World.assign cfg d (World.withCapacity cfg d n)
    pure .unit
  | collect cmps src => do
    World.assign cfg d (World.fromIter cfg d cmps src)
    pure .unit
  | cloned cmps cloneK cloneV => do
    World.assign cfg d (World.clone cfg d cmps cloneK cloneV)
    pure .unit
  | insert c k v => do
    let r ← World.insert cfg d c k v
    pure (.value r)
  | remove c => do
    let r ← World.remove cfg d c
    pure (.value r)
  | extend cmps src => do
    World.extend cfg d cmps src
    pure .unit
  | op => World.onMap (op.run cfg)

/-- Execute a sequence of calls, each with its own destructors, catching panics. -/
def worldHistory (cfg : Cfg) (ops : List (Simple.Drops K V × Op K V)) (s : World K V) :
    List (Out (Ret K V)) × World K V :=
  execute (fun x => x.2.runWorld cfg x.1) ops s

/-- The keys and values that a call on the map `m` takes from its caller: arguments that are moved,
items of the iterator, values written through references. -/
def Op.takes (m : BSTMap K V) : Op K V → Out (Ret K V) → List (K ⊕ V)
  | collect _ src, _ => itemsOf src.items
  | extend _ src, _ => itemsOf src.items
  | insert _ k v, _ => [.inl k, .inr v]
  | getMut _ w, .ok (.value (some _)) => [.inr w]
  | getEntryMut _ w, .ok (.entry (some _)) => [.inr w]
  | nodeMut _ w, .ok (.entry (some _)) => [.inr w]
  | iterMut o steps, .ok _ => (writes (entriesIn o m).length 0 steps).map (.inr ·.2)
  | _, _ => []

/-- The keys and values that a call on the map `m` gives (not just shows) to its caller. A value that
the client overwrites through a reference goes to the client. -/
def Op.gives (m : BSTMap K V) : Op K V → Out (Ret K V) → List (K ⊕ V)
  | insert _ _ _, .ok (.value (some v)) => [.inr v]
  | remove _, .ok (.value (some v)) => [.inr v]
  | removeEntry _, .ok (.entry (some e)) => [.inl e.1, .inr e.2]
  | getMut _ _, .ok (.value (some v)) => [.inr v]
  | getEntryMut _ _, .ok (.entry (some e)) => [.inr e.2]
  | nodeMut _ _, .ok (.entry (some e)) => [.inr e.2]
  | iterMut o steps, .ok _ =>
    (Spec.overwritten (writes (entriesIn o m).length 0 steps) (entriesIn o m)).map .inr
  | _, _ => []

/-- Sum over the calls that are executed. -/
def worldLedger (cfg : Cfg) (f : BSTMap K V → Op K V → Out (Ret K V) → List (K ⊕ V)) :
    List (Simple.Drops K V × Op K V) → World K V → List (K ⊕ V)
  | [], _ => []
  | x :: ops, s =>
    match x.2.runWorld cfg x.1 s with
    | (.ok r, s') => f s.map x.2 (.ok r) ++ worldLedger cfg f ops s'
    | (.panic, s') => f s.map x.2 .panic ++ worldLedger cfg f ops s'
    | (o, _) => f s.map x.2 o

/-- The same destructors in the words of `Verif/Model/Dtors.lean`. -/
def Simple.Drops.dtors (d : Simple.Drops K V) : Dtors K V := ⟨true, d.key, d.value⟩

/-- The keys and values in a map. -/
def BSTMap.contents (m : BSTMap K V) : List (K ⊕ V) := itemsOf (entriesIn .ino m)

end BST
