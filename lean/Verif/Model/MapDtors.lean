import Verif.Model.Dtors
import Verif.Model.SimpleDtors
/-!
# Destructors in `bst`, one by one

`Verif/Model/Dtors.lean` says which calls of src/map.rs panic because of destructors. Here the
calls also write down every destructor they run, so that one can ask what became of each key and
value. As there, a panic in a destructor that runs while another panic unwinds aborts the process;
and here also the destructors of the items that an iterator has not yielded are run, and those of
return values (`Simple.Drops.ret` says whether the compiler runs them).

Nodes are taken to need dropping (`mem::needs_drop::<InnerNode<K, V>>()`): otherwise there are
no destructors to speak of.
-/
namespace BST.BSTMap
open Simple (Drops unwind onPanic both)
variable {K V α : Type}

/-- A map and (ghost) what became of keys and values: the destructors that were run, in order,
the return values that were leaked, the clones that were made, and the maps whose drop was cut
short by a destructor that panicked (as they were before). -/
structure World (K V : Type) where
  map : BSTMap K V
  dropped : List (K ⊕ V)
  leaked : List V
  made : List (K ⊕ V)
  cut : List (BSTMap K V)
deriving DecidableEq

namespace World

/-- An empty map, and nothing has happened. -/
def new : World K V := { map := BSTMap.new, dropped := [], leaked := [], made := [], cut := [] }

/-- The keys and values of the nodes that the slab dropped while `m` became `m'`: the fields of a
node in order of declaration (src/map.rs:21-26). -/
def gone (m m' : BSTMap K V) : List (K ⊕ V) :=
  (m'.nodes.dropped.drop m.nodes.dropped.length).flatMap fun x => [.inl x.key, .inr x.value]

/-- Use the map. -/
def onMap (f : M (BSTMap K V) α) : M (World K V) α := fun s =>
  match f s.map with
  | (o, m) => (o, { s with map := m, dropped := s.dropped ++ gone s.map m })

/-- Run the destructor of a key or value. -/
def dropItem (d : Drops K V) (x : K ⊕ V) : M (World K V) Unit := fun s =>
  (if x.elim d.key d.value then .panic else .ok (), { s with dropped := s.dropped ++ [x] })

/-- Drop the items that an iterator has not yielded, with the iterator. -/
def dropItems (d : Drops K V) : List (K × V) → M (World K V) Unit
  | [] => pure ()
  | (k, v) :: rest =>
    both (dropItem d (.inl k)) (both (dropItem d (.inr v)) (dropItems d rest))

/-- The destructor of a node panics if that of its key or of its value does. -/
def nodeInfo (d : Drops K V) : DropInfo (InnerNode K V) where
  needsDrop := true
  panics x := d.key x.key || d.value x.value

/-- Drop the map `m` (src/slab.rs:289-298). If a destructor panics, the rest of the nodes is
forgotten. If it is that of a key, the value next to it is still dropped, and if that panics
too the process aborts. -/
def dropMap (cfg : Cfg) (d : Drops K V) (m : BSTMap K V) : M (World K V) Unit := fun s =>
  match BSTMap.drop cfg (nodeInfo d) m with
  | (.panic, m') =>
    (if m'.nodes.dropped.getLast?.any fun x => d.key x.key && d.value x.value then .abort else .panic,
      { s with dropped := s.dropped ++ gone m m', cut := s.cut ++ [m] })
  | (o, m') => (o, { s with dropped := s.dropped ++ gone m m' })

/-- Run the destructors `a` of local variables at the end of a function whose return value
`r` is complete. -/
def returning (d : Drops K V) (r : V) (a : M (World K V) Unit) : M (World K V) Unit := fun s =>
  match a s with
  | (.panic, s') =>
    if d.ret then unwind (dropItem d (.inr r)) s'
    else (.panic, { s' with leaked := s'.leaked ++ [r] })
  | r => r

/-- src/map.rs:407-446 `insert`: the new key is dropped if an equal one is there (432-435); both
arguments are dropped if a comparison panics, or if there is no room (then with the new node). -/
def insert (cfg : Cfg) (d : Drops K V) (c : Probe K) (key : K) (value : V) :
    M (World K V) (Option V) := do
  let old ← onPanic (onMap (BSTMap.insert cfg c key value))
    (both (dropItem d (.inr value)) (dropItem d (.inl key)))
  match old with
  | none => pure none
  | some prev =>
    returning d prev (dropItem d (.inl key))
    pure (some prev)

/-- src/map.rs:464-469 `remove`: the closure `|(_, value)| value` drops the key. -/
def remove (cfg : Cfg) (d : Drops K V) (c : Probe K) : M (World K V) (Option V) := do
  let e ← onMap (BSTMap.removeEntry cfg c)
  match e with
  | none => pure none
  | some (k, v) =>
    returning d v (dropItem d (.inl k))
    pure (some v)

/-- The statement `map.insert(key, value);`: the result is dropped. -/
def insertStmt (cfg : Cfg) (d : Drops K V) (c : Probe K) (key : K) (value : V) :
    M (World K V) Unit := do
  let old ← insert cfg d c key value
  match old with
  | none => pure ()
  | some v => dropItem d (.inr v)

/-- The `for` loop of src/map.rs:779-781 and 794-796. If it is left by a panic, the iterator is
dropped, with the items it has not yielded. -/
def insertAll (cfg : Cfg) (d : Drops K V) (cmps : Nat → K → Probe K) :
    Nat → List (K × V) → M (World K V) Unit
  | _, [] => pure ()
  | n, (k, v) :: rest => do
    onPanic (insertStmt cfg d (cmps n k) k v) (dropItems d rest)
    insertAll cfg d cmps (n + 1) rest

/-- src/map.rs:771-782 `extend`. If `reserve` panics the iterator is dropped. -/
def extend (cfg : Cfg) (d : Drops K V) (cmps : Nat → K → Probe K) (src : Source K V) :
    M (World K V) Unit := do
  onPanic (onMap (BSTMap.reserve cfg (src.hint.2.getD src.hint.1))) (dropItems d src.items)
  insertAll cfg d cmps 0 src.items
  if src.panics then M.panic else pure ()

/-- Work with a new empty map in a local variable: the result is its final value. The map that
was there is not touched. If `f` panics the local variable is dropped. -/
def building (cfg : Cfg) (d : Drops K V) (f : M (World K V) Unit) : M (World K V) (BSTMap K V) :=
  fun s =>
    match f { s with map := BSTMap.new } with
    | (o, s') =>
      onPanic (M.lift (match o with
          | .ok () => .ok s'.map
          | .panic => .panic
          | .abort => .abort
          | .ub => .ub
          | .diverge => .diverge))
        (dropMap cfg d s'.map) { s' with map := s.map }

/-- src/map.rs:146-151 `with_capacity`. If it panics there is no map yet; dropping an empty one
does nothing. -/
def withCapacity (cfg : Cfg) (d : Drops K V) (n : Nat) : M (World K V) (BSTMap K V) :=
  building cfg d (onMap (BSTMap.onNodes (Slab.onItems (Arena.growTo cfg n))))

/-- src/map.rs:786-799 `from_iter`. If `with_capacity` panics the iterator is dropped. -/
def fromIter (cfg : Cfg) (d : Drops K V) (cmps : Nat → K → Probe K) (src : Source K V) :
    M (World K V) (BSTMap K V) :=
  building cfg d do
    onPanic (onMap (BSTMap.onNodes (Slab.onItems (Arena.growTo cfg (src.hint.2.getD src.hint.1)))))
      (dropItems d src.items)
    insertAll cfg d cmps 0 src.items
    if src.panics then M.panic else pure ()

/-- The user's `clone` of a key or value, which may panic. -/
def cloneWith {β : Type} (f : β → Option β) (inj : β → K ⊕ V) (x : β) : M (World K V) β := fun s =>
  match f x with
  | some y => (.ok y, { s with made := s.made ++ [inj y] })
  | none => (.panic, s)

/-- The body of the loop of src/map.rs:88-93. If the clone of a value panics, the clone of its key
is dropped. -/
def cloneBody (cfg : Cfg) (d : Drops K V) (cmps : Nat → K → Probe K) (cloneK : K → Option K)
    (cloneV : V → Option V) (m : BSTMap K V) (st : Nat × List (Node K V)) :
    M (World K V) ((Nat × List (Node K V)) ⊕ Unit) :=
  match st.2 with
  | [] => pure (.inr ())
  | node :: stack => do
    let k ← cloneWith cloneK .inl node.key
    let v ← onPanic (cloneWith cloneV .inr node.value) (dropItem d (.inl k))
    insertStmt cfg d (cmps st.1 k) k v
    let r ← M.lift (node.right m.nodes)
    let l ← M.lift (node.left m.nodes)
    pure (.inl (st.1 + 1, l.toList ++ r.toList ++ stack))

/-- src/map.rs:79-97 `clone`. -/
def clone (cfg : Cfg) (d : Drops K V) (cmps : Nat → K → Probe K) (cloneK : K → Option K)
    (cloneV : V → Option V) : M (World K V) (BSTMap K V) := do
  let s ← M.get
  building cfg d do
    let n ← M.lift (s.map.len cfg)
    onMap (BSTMap.onNodes (Slab.onItems (Arena.growTo cfg n)))
    let root ← M.lift s.map.rootNode
    loop (walkFuel s.map.nodes) (cloneBody cfg d cmps cloneK cloneV s.map) (0, root.toList)

/-- The assignment `*map = f(map)`: the old map is dropped before the new one takes its place,
which it does even if that panics. -/
def assign (cfg : Cfg) (d : Drops K V) (f : M (World K V) (BSTMap K V)) : M (World K V) Unit := do
  let m ← f
  let s ← M.get
  M.modify fun s => { s with map := m }
  dropMap cfg d s.map

/-- The map goes out of scope. Afterwards there is no map (in the model: an empty one). -/
def drop (cfg : Cfg) (d : Drops K V) : M (World K V) Unit := do
  let s ← M.get
  M.modify fun s => { s with map := BSTMap.new }
  dropMap cfg d s.map

end World
end BST.BSTMap
