import Verif.Model.MapBorrows
import Verif.Storage
import Verif.History
/-!
# Clients of a map whose references are tracked

The calls of `Verif/History.lean`, made on a map with borrow stacks. Nothing here is part of the
crate.
-/
namespace BST
variable {H K V : Type} [Aliasing H]
open Spec (Order)

namespace Spec.Order
/-- A new iterator. -/
def iterRef : Order → M (TMap H K V) Stack
  | .pre => do
    let s ← M.get
    pure s.map.root.toList
  | .ino => do
    let s ← M.get
    TMap.pushLeftSpine s.map.root []
  | .post => do
    let s ← M.get
    TMap.newPostorder s.map.root

/-- `next()` of a shared iterator. -/
def nextRef : Order → Stack → M (TMap H K V) (Option NodeRef × Stack)
  | .pre => TMap.nextPreorder false
  | .ino => TMap.nextInorder
  | .post => TMap.nextPostorder false

/-- `next()` of a mutable iterator. -/
def nextMutRef : Order → Stack → M (TMap H K V) (Option NodeRef × Stack)
  | .pre => TMap.nextPreorder true
  | .ino => TMap.nextMutInorder
  | .post => TMap.nextPostorder true
end Spec.Order

/-- `n` calls of `next`; all the references are kept. -/
def nextsRef (o : Order) : Nat → Stack → M (TMap H K V) (List (Option NodeRef))
  | 0, _ => pure []
  | n + 1, st => do
    let (x, st) ← o.nextRef st
    let xs ← nextsRef o n st
    pure (x :: xs)

/-- Read through all of these references. -/
def readRefs : List (Option NodeRef) → M (TMap H K V) (List (Option (K × V)))
  | [] => pure []
  | none :: l => do
    let r ← readRefs l
    pure (none :: r)
  | some n :: l => do
    let x ← TMap.deref n
    let r ← readRefs l
    pure (some (x.key, x.value) :: r)

/-- A client of a mutable iterator (compare `clientRun`): it calls `next` and writes through the
references it has obtained so far, all of them being kept, in any order. -/
def clientRef (o : Order) : List (Step V) → List (K × NodeRef) → Stack →
    M (TMap H K V) (List (K × NodeRef))
  | [], refs, _ => pure refs
  | .next :: steps, refs, st => do
    let (x, st) ← o.nextMutRef st
    match x with
    | none => clientRef o steps refs st
    | some n =>
      let y ← TMap.deref n
      clientRef o steps (refs ++ [(y.key, n)]) st
  | .write i v :: steps, refs, st => do
    match refs[i]? with
    | some r => TMap.assign r.2 fun x => { x with value := v }
    | none => pure ()
    clientRef o steps refs st

/-- Follow a path from a node. -/
def goRef (ex : Bool) : List Bool → Option NodeRef → M (TMap H K V) (Option NodeRef)
  | [], n => pure n
  | _ :: _, none => pure none
  | b :: path, some n => do
    let c ← if b then TMap.right ex n else TMap.left ex n
    goRef ex path c

/-- `root()` or `root_mut()` followed by a path. -/
def nodeRefAt (ex : Bool) (path : List Bool) : M (TMap H K V) (Option NodeRef) := do
  let s ← M.get
  let root ← TMap.nodeOpt ex s.map.root
  goRef ex path root

/-- Replace the map by a newly built one; if that fails nothing happens. The old map is leaked
(`mem::forget`); for its destructor see C49. -/
def TMap.assignNew (f : M (TMap H K V) Unit) : M (TMap H K V) Unit := fun s =>
  match f TMap.new with
  | (.ok (), s') => (.ok (), s')
  | (o, _) => (o, s)

/-- `map = map.clone()`; see `assignNew`. -/
def TMap.assignClone (f : M (TMap H K V × TMap H K V) Unit) : M (TMap H K V) Unit := fun s =>
  match f (s, TMap.new) with
  | (.ok (), (_, b)) => (.ok (), b)
  | (o, (a, _)) => (o, a)

/-- Execute a call, with the references it creates. -/
def Op.runRef (cfg : Cfg) (how : ChunkPtr) : Op K V → M (TMap H K V) (Ret K V)
  | withCapacity n => do
    TMap.assignNew (TMap.growTo cfg n)
    pure .unit
  | collect cmps src => do
    TMap.assignNew (TMap.fromIter cfg cmps src)
    pure .unit
  | cloned cmps cloneK cloneV => do
    TMap.assignClone (TMap.clone cfg cmps cloneK cloneV)
    pure .unit
  | insert c k v => do
    let r ← TMap.insert cfg c k v
    pure (.value r)
  | remove c => do
    let r ← TMap.removeEntry cfg c
    pure (.value (r.map (·.2)))
  | removeEntry c => do
    let r ← TMap.removeEntry cfg c
    pure (.entry r)
  | get c => do
    let r ← TMap.getValue c
    pure (.value r)
  | getEntry c => do
    let r ← TMap.getEntry c
    pure (.entry r)
  | containsKey c => do
    let r ← TMap.containsKey c
    pure (.bool r)
  | getMut c w => do
    let r ← TMap.getMut c
    match r with
    | none => pure (.value none)
    | some n =>
      let v ← TMap.replaceValue n w
      pure (.value (some v))
  | getEntryMut c w => do
    let r ← TMap.getMut c
    match r with
    | none => pure (.entry none)
    | some n =>
      let x ← TMap.deref n
      let v ← TMap.replaceValue n w
      pure (.entry (some (x.key, v)))
  | node path => do
    match ← nodeRefAt false path with
    | none => pure (.node none)
    | some n =>
      let x ← TMap.deref n
      pure (.node (some (x.key, x.value, x.left.isSome, x.right.isSome)))
  | nodeMut path w => do
    match ← nodeRefAt true path with
    | none => pure (.entry none)
    | some n =>
      let x ← TMap.deref n
      let v ← TMap.replaceValue n w
      pure (.entry (some (x.key, v)))
  | iter o n => do
    let st ← o.iterRef
    let refs ← nextsRef o n st
    let r ← readRefs refs
    pure (.items r)
  | iterMut o steps => do
    let st ← o.iterRef
    let refs ← clientRef o steps [] st
    pure (.keys (refs.map (·.1)))
  | len => do
    let n ← M.read fun s => s.map.len cfg
    pure (.nat n)
  | isEmpty => do
    let b ← M.read fun s => s.map.isEmpty cfg
    pure (.bool b)
  | capacity => do
    let s ← M.get
    pure (.nat s.map.capacity)
  | clear d => do
    TMap.clear cfg how d
    pure .unit
  | reserve n => do
    TMap.reserve cfg n
    pure .unit
  | shrinkToFit => do
    TMap.shrinkToFit cfg how
    pure .unit
  | extend cmps src => do
    TMap.extend cfg cmps src
    pure .unit
  | debug dk dv => do
    let s ← TMap.debug dk dv
    pure (.text s)

end BST
