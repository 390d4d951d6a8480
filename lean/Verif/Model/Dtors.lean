import Verif.Model.Set
/-!
# Destructors of the keys and values that calls discard

`Verif/Model/Map.lean` models the calls of src/map.rs without the destructors that run when
a call discards a key or a value: `insert` drops the new key if it finds an equal one,
`remove` drops the stored key, `extend`, `from_iter` and `clone` drop the values returned by
`insert`, and a call that panics drops the arguments it owns and the map it was building.
Here those destructors are run, and they may panic. A panic in a destructor that runs while
another panic unwinds aborts the process.

Not modelled: what becomes of a return value that is complete when the destructor of a local
variable panics (the old value in `insert`). Compilers have differed there: it is leaked, or
it is dropped.
-/
namespace BST
variable {K V : Type}

/-- The destructors of keys and values: whether the type has drop glue at all, and which
keys and values have a destructor that panics. -/
structure Dtors (K V : Type) where
  needsDrop : Bool
  key : K → Bool
  value : V → Bool

namespace Dtors

/-- The destructor of a node. If one of the two destructors panics the other still runs; if
both panic the process aborts, which is here counted as a panic. -/
def node (d : Dtors K V) : DropInfo (InnerNode K V) where
  needsDrop := d.needsDrop
  panics x := d.key x.key || d.value x.value

/-- Dropping the entry panics. -/
def bad (d : Dtors K V) (e : K × V) : Bool := d.needsDrop && (d.key e.1 || d.value e.2)

/-- Dropping the key panics. -/
def badKey (d : Dtors K V) (k : K) : Bool := d.needsDrop && d.key k

/-- Dropping the value panics. -/
def badValue (d : Dtors K V) (v : V) : Bool := d.needsDrop && d.value v

end Dtors

namespace BSTMap

/-- src/map.rs:407-446 `insert` with its destructors: `key` is dropped at the end if it was
not moved into a node (432-435); both arguments are dropped if the call panics. -/
def insertDrop (cfg : Cfg) (d : Dtors K V) (c : Probe K) (key : K) (value : V) :
    M (BSTMap K V) (Option V) := fun m =>
  match insert cfg c key value m with
  | (.ok (some old), m') => (if d.badKey key then .panic else .ok (some old), m')
  | (.panic, m') => (if d.badKey key || d.badValue value then .abort else .panic, m')
  | r => r

/-- src/map.rs:464-469 `remove` with its destructors: the closure `|(_, value)| value` drops
the key. -/
def removeDrop (cfg : Cfg) (d : Dtors K V) (c : Probe K) : M (BSTMap K V) (Option V) := fun m =>
  match removeEntry cfg c m with
  | (.ok (some e), m') => (if d.badKey e.1 then .panic else .ok (some e.2), m')
  | (.ok none, m') => (.ok none, m')
  | (.panic, m') => (.panic, m')
  | (.abort, m') => (.abort, m')
  | (.ub, m') => (.ub, m')
  | (.diverge, m') => (.diverge, m')

/-- The statement `map.insert(key, value);`: drop the result. -/
def insertStmt (cfg : Cfg) (d : Dtors K V) (c : Probe K) (key : K) (value : V) :
    M (BSTMap K V) Unit := do
  let old ← insertDrop cfg d c key value
  if old.any d.badValue then M.panic else pure ()

/-- The `for` loop of src/map.rs:779-781 and 794-796, with destructors. -/
def insertAllDrop (cfg : Cfg) (d : Dtors K V) (cmps : Nat → K → Probe K) :
    Nat → List (K × V) → M (BSTMap K V) Unit
  | _, [] => pure ()
  | n, (k, v) :: rest => do
    insertStmt cfg d (cmps n k) k v
    insertAllDrop cfg d cmps (n + 1) rest

/-- src/map.rs:771-782 `extend`, with destructors (except that of the iterator). -/
def extendDrop (cfg : Cfg) (d : Dtors K V) (cmps : Nat → K → Probe K) (src : Source K V) :
    M (BSTMap K V) Unit := do
  let len := src.hint.2.getD src.hint.1
  reserve cfg len
  insertAllDrop cfg d cmps 0 src.items
  if src.panics then M.panic else pure ()

/-- src/map.rs:786-799 `from_iter`, with the destructors of discarded values. -/
def fromIterDrop (cfg : Cfg) (d : Dtors K V) (cmps : Nat → K → Probe K) (src : Source K V) :
    Out Unit × BSTMap K V :=
  (do
    let len := src.hint.2.getD src.hint.1
    onNodes (Slab.onItems (Arena.growTo cfg len))
    insertAllDrop cfg d cmps 0 src.items
    if src.panics then M.panic else pure () : M (BSTMap K V) Unit) new

/-- src/map.rs:79-97 `clone`, with the destructors of discarded keys and values. If the clone
of a value panics the clone of its key is dropped. -/
def cloneDrop (cfg : Cfg) (d : Dtors K V) (cmps : Nat → K → Probe K) (cloneK : K → Option K)
    (cloneV : V → Option V) (m : BSTMap K V) : Out Unit × BSTMap K V :=
  (do
    let n ← M.lift (m.len cfg)
    onNodes (Slab.onItems (Arena.growTo cfg n))
    let root ← M.lift m.rootNode
    loop (walkFuel m.nodes) (fun (st : Nat × List (Node K V)) =>
      match st.2 with
      | [] => pure (.inr ())
      | node :: stack =>
        match cloneK node.key, cloneV node.value with
        | some k, some v => do
          insertStmt cfg d (cmps st.1 k) k v
          let r ← M.lift (node.right m.nodes)
          let l ← M.lift (node.left m.nodes)
          pure (.inl (st.1 + 1, l.toList ++ r.toList ++ stack))
        | some k, none => M.lift (if d.badKey k then .abort else .panic)
        | none, _ => M.panic) (0, root.toList) : M (BSTMap K V) Unit) new

/-- The assignment `*map = f(map)`: the old map is dropped before the new one takes its
place, which it does even if that panics. If `f` panics, the map it was building is
dropped. -/
def assignDrop (cfg : Cfg) (d : Dtors K V) (f : BSTMap K V → Out Unit × BSTMap K V) :
    M (BSTMap K V) Unit := fun m =>
  match f m with
  | (.ok (), m') => ((drop cfg d.node m).1, m')
  | (.panic, part) =>
    match (drop cfg d.node part).1 with
    | .ok () => (.panic, m)
    | .panic => (.abort, m)
    | o => (o, m)
  | (o, _) => (o, m)

end BSTMap

namespace BSTSet
variable {T : Type}

/-- src/set.rs:221-223 `insert` with its destructors. The unit values have none. -/
def insertDrop (cfg : Cfg) (d : Dtors T Unit) (c : Probe T) (value : T) : M (BSTSet T) Bool := do
  let prev ← onItems (BSTMap.insertDrop cfg d c value ())
  pure prev.isNone

/-- src/set.rs:240-245 `remove` with its destructors: the element taken out is dropped. -/
def removeDrop (cfg : Cfg) (d : Dtors T Unit) (c : Probe T) : M (BSTSet T) Bool := do
  let e ← take cfg c
  if e.any d.badKey then M.panic else pure e.isSome

/-- src/set.rs:373-375 `extend` with its destructors. -/
def extendDrop (cfg : Cfg) (d : Dtors T Unit) (cmps : Nat → T → Probe T) (src : Source T) :
    M (BSTSet T) Unit := onItems (BSTMap.extendDrop cfg d cmps src.toMap)

/-- src/set.rs:379-383 `from_iter` with its destructors. -/
def fromIterDrop (cfg : Cfg) (d : Dtors T Unit) (cmps : Nat → T → Probe T) (src : Source T) :
    Out Unit × BSTSet T :=
  match BSTMap.fromIterDrop cfg d cmps src.toMap with
  | (o, items) => (o, { items })

/-- src/set.rs:48-54 `clone` with its destructors. -/
def cloneDrop (cfg : Cfg) (d : Dtors T Unit) (cmps : Nat → T → Probe T) (cloneT : T → Option T)
    (s : BSTSet T) : Out Unit × BSTSet T :=
  match BSTMap.cloneDrop cfg d cmps cloneT some s.items with
  | (o, items) => (o, { items })

/-- The assignment `*set = f(set)`, see `BSTMap.assignDrop`. -/
def assignDrop (cfg : Cfg) (d : Dtors T Unit) (f : BSTSet T → Out Unit × BSTSet T) :
    M (BSTSet T) Unit := fun s =>
  match f s with
  | (.ok (), s') => ((drop cfg d.node s).1, s')
  | (.panic, part) =>
    match (drop cfg d.node part).1 with
    | .ok () => (.panic, s)
    | .panic => (.abort, s)
    | o => (o, s)
  | (o, _) => (o, s)

end BSTSet
end BST
