import Verif.Model.Simple
/-!
# Destructors in `simple_bst`

`Verif/Model/Simple.lean` models the calls of simple_bst/src/map.rs without destructors. Here
every destructor of a key or value is run: by the drop glue of trees of boxes, by calls that
discard a key or value, and by calls that panic, which drop what they own. Destructors may
panic; a panic in a destructor that runs while another panic unwinds aborts the process.

The drop glue is not in the source: it is what the compiler generates for
simple_bst/src/map/node.rs:4-9 (fields are dropped in order of declaration, and if one
destructor panics the rest are still run).
-/
namespace BST.Simple
variable {K V σ α : Type}

/-- The destructors: which keys and values panic when they are dropped. `ret`: whether the
compiler drops a return value that is complete when the destructor of a local variable panics
(compilers have differed: otherwise it is leaked). -/
structure Drops (K V : Type) where
  key : K → Bool
  value : V → Bool
  ret : Bool

/-- A map and (ghost) what became of keys and values: the destructors that were run, in order,
the return values that were leaked, and the clones that were made. -/
structure World (K V : Type) where
  map : Map K V
  dropped : List (K ⊕ V)
  leaked : List V
  made : List (K ⊕ V)
deriving DecidableEq, Repr

/-- A panic is under way: run the destructors `b` and go on unwinding. A panic in `b` aborts.
(Really at once; here after the rest of `b`, which makes no difference, for an abort is the
end.) -/
def unwind (b : M σ Unit) : M σ α := fun s =>
  match b s with
  | (.ok (), s') => (.panic, s')
  | (.panic, s') => (.abort, s')
  | (.abort, s') => (.abort, s')
  | (.ub, s') => (.ub, s')
  | (.diverge, s') => (.diverge, s')

/-- If `a` panics, run the destructors `b` while unwinding. -/
def onPanic (a : M σ α) (b : M σ Unit) : M σ α := fun s =>
  match a s with
  | (.panic, s') => unwind b s'
  | r => r

/-- Drop one thing, then another, also if the first destructor panics. -/
def both (a b : M σ Unit) : M σ Unit := do
  onPanic a b
  b

namespace World

/-- An empty map, and nothing has happened. -/
def new : World K V := { map := Map.new, dropped := [], leaked := [], made := [] }

/-- Use the map. -/
def onMap (f : M (Map K V) α) : M (World K V) α := fun s =>
  match f s.map with
  | (o, m) => (o, { s with map := m })

/-- Run the destructor of a key or value. -/
def dropItem (d : Drops K V) (x : K ⊕ V) : M (World K V) Unit := fun s =>
  (if x.elim d.key d.value then .panic else .ok (), { s with dropped := s.dropped ++ [x] })

/-- Drop glue of `Option<Node>` and `Option<Box<Node>>`: the fields key, value, left, right
(simple_bst/src/map/node.rs:5-8). -/
def dropLink (d : Drops K V) : Link K V → M (World K V) Unit
  | .nil => pure ()
  | .node k v l r =>
    both (dropItem d (.inl k)) (both (dropItem d (.inr v)) (both (dropLink d l) (dropLink d r)))

/-- Drop the items that an iterator has not yielded, with the iterator. -/
def dropItems (d : Drops K V) : List (K × V) → M (World K V) Unit
  | [] => pure ()
  | (k, v) :: rest =>
    both (dropItem d (.inl k)) (both (dropItem d (.inr v)) (dropItems d rest))

/-- Run the destructors `a` of local variables at the end of a function whose return value
`r` is complete. -/
def returning (d : Drops K V) (r : V) (a : M (World K V) Unit) : M (World K V) Unit := fun s =>
  match a s with
  | (.panic, s') =>
    if d.ret then unwind (dropItem d (.inr r)) s'
    else (.panic, { s' with leaked := s'.leaked ++ [r] })
  | r => r

/-- simple_bst/src/map.rs:264-310 `insert`: the new key is dropped if an equal one is there
(300-304), both arguments if a comparison panics. -/
def insert (cfg : Cfg) (d : Drops K V) (c : Probe K) (key : K) (value : V) :
    M (World K V) (Option V) := do
  let old ← onPanic (onMap (Map.insert cfg c key value))
    (both (dropItem d (.inr value)) (dropItem d (.inl key)))
  match old with
  | none => pure none
  | some prev =>
    returning d prev (dropItem d (.inl key))
    pure (some prev)

/-- simple_bst/src/map.rs:328-333 `remove`: the closure drops the key. -/
def remove (cfg : Cfg) (d : Drops K V) (c : Probe K) : M (World K V) (Option V) := do
  let e ← onMap (Map.removeEntry cfg c)
  match e with
  | none => pure none
  | some (k, v) =>
    returning d v (dropItem d (.inl k))
    pure (some v)

/-- The statement `map.insert(key, value);`: the result is dropped. -/
def insertStmt (cfg : Cfg) (d : Drops K V) (c : Probe K) (key : K) (value : V) :
    M (World K V) Unit := do
  let old ← insert cfg d c key value
  match old with
  | none => pure ()
  | some v => dropItem d (.inr v)

/-- The `for` loop of simple_bst/src/map.rs:621-623 and 631-633. If it is left by a panic,
the iterator is dropped, with the items it has not yielded. -/
def insertAll (cfg : Cfg) (d : Drops K V) (cmps : Nat → K → Probe K) :
    Nat → List (K × V) → M (World K V) Unit
  | _, [] => pure ()
  | n, (k, v) :: rest => do
    onPanic (insertStmt cfg d (cmps n k) k v) (dropItems d rest)
    insertAll cfg d cmps (n + 1) rest

/-- simple_bst/src/map.rs:619-625 `extend`. -/
def extend (cfg : Cfg) (d : Drops K V) (cmps : Nat → K → Probe K) (src : BSTMap.Source K V) :
    M (World K V) Unit := do
  insertAll cfg d cmps 0 src.items
  if src.panics then M.panic else pure ()

/-- Work with a new empty map in a local variable: the result is its final value. The map that
was there is not touched, but requests to the allocator are numbered on. If `f` panics the
local variable is dropped. -/
def building (d : Drops K V) (f : M (World K V) Unit) : M (World K V) (Map K V) := fun s =>
  match f { s with map := { Map.new with allocs := s.map.allocs } } with
  | (o, s') =>
    onPanic (M.lift (match o with
        | .ok () => .ok s'.map
        | .panic => .panic
        | .abort => .abort
        | .ub => .ub
        | .diverge => .diverge))
      (dropLink d s'.map.root) { s' with map := { s.map with allocs := s'.map.allocs } }

/-- simple_bst/src/map.rs:627-637 `from_iter`. -/
def fromIter (cfg : Cfg) (d : Drops K V) (cmps : Nat → K → Probe K) (src : BSTMap.Source K V) :
    M (World K V) (Map K V) := building d (extend cfg d cmps src)

/-- Allocate the box of a node that is cloned. -/
def cloneBox (cfg : Cfg) (boxed : Bool) : M (World K V) Unit := fun s =>
  match Map.cloneBox cfg boxed s.map.allocs with
  | (o, n) => (o, { s with map := { s.map with allocs := n } })

/-- The user's `clone` of a key or value, which may panic. -/
def cloneWith {β : Type} (f : β → Option β) (inj : β → K ⊕ V) (x : β) : M (World K V) β := fun s =>
  match f x with
  | some y => (.ok y, { s with made := s.made ++ [inj y] })
  | none => (.panic, s)

/-- Derived `Clone` of `Node` (simple_bst/src/map/node.rs:3). If the clone of a field panics, the
clones of the fields before it are dropped. -/
def cloneLink (cfg : Cfg) (d : Drops K V) (cloneK : K → Option K) (cloneV : V → Option V) :
    Bool → Link K V → M (World K V) (Link K V)
  | _, .nil => pure .nil
  | boxed, .node k v l r => do
    cloneBox cfg boxed
    let k ← cloneWith cloneK .inl k
    let v ← onPanic (cloneWith cloneV .inr v) (dropItem d (.inl k))
    let l ← onPanic (cloneLink cfg d cloneK cloneV true l)
      (both (dropItem d (.inr v)) (dropItem d (.inl k)))
    let r ← onPanic (cloneLink cfg d cloneK cloneV true r)
      (both (dropLink d l) (both (dropItem d (.inr v)) (dropItem d (.inl k))))
    pure (.node k v l r)

/-- simple_bst/src/map.rs:19 derived `clone` of the map. -/
def clone (cfg : Cfg) (d : Drops K V) (cloneK : K → Option K) (cloneV : V → Option V) :
    M (World K V) (Map K V) := do
  let s ← M.get
  let root ← cloneLink cfg d cloneK cloneV false s.map.root
  let s' ← M.get
  pure { root, len := s.map.len, allocs := s'.map.allocs }

/-- The assignment `*map = f(map)`: the old map is dropped before the new one takes its place,
which it does even if that panics. -/
def assign (d : Drops K V) (f : M (World K V) (Map K V)) : M (World K V) Unit := do
  let m ← f
  let s ← M.get
  M.modify fun s => { s with map := m }
  dropLink d s.map.root

/-- simple_bst/src/map.rs:521-523 `clear`: `*self = Self::new()`. -/
def clear (d : Drops K V) : M (World K V) Unit :=
  assign d (fun s => (.ok { Map.new with allocs := s.map.allocs }, s))

/-- The map goes out of scope. Afterwards there is no map (in the model: an empty one). -/
def drop (d : Drops K V) : M (World K V) Unit := do
  let s ← M.get
  M.modify fun s => { s with map := { Map.new with allocs := s.map.allocs } }
  dropLink d s.map.root

end World
end BST.Simple
