import Verif.Model.Iter
/-!
# Model of `src/set.rs`, `src/set/*.rs` and the macros of `src/lib.rs`
-/
namespace BST
variable {T : Type}

/-- src/set.rs:26-28 `BSTSet<T>`. -/
structure BSTSet (T : Type) where
  items : BSTMap T Unit
deriving DecidableEq, Repr

namespace BSTSet

/-- Run a method of the field `items`. -/
@[inline] def onItems {α : Type} (m : M (BSTMap T Unit) α) : M (BSTSet T) α := fun s =>
  match m s.items with
  | (o, items) => (o, { s with items })

/-- src/set.rs:30-36, 76-78 `default` / `new`. -/
def new : BSTSet T := { items := BSTMap.new }
/-- src/set.rs:91-95 `with_capacity`. -/
def withCapacity (cfg : Cfg) (capacity : Nat) : Out Unit × BSTSet T :=
  match BSTMap.withCapacity cfg capacity with
  | (o, items) => (o, { items })
/-- src/set.rs:111-113 `len`. -/
def len (cfg : Cfg) (s : BSTSet T) : Out Nat := s.items.len cfg
/-- src/set.rs:129-131 `capacity`. -/
def capacity (s : BSTSet T) : Nat := s.items.capacity
/-- src/set.rs:147-149 `is_empty`. -/
def isEmpty (cfg : Cfg) (s : BSTSet T) : Out Bool := s.items.isEmpty cfg
/-- src/set.rs:169-174 `contains`. -/
def contains (c : Probe T) (s : BSTSet T) : Out Bool := s.items.containsKey c
/-- src/set.rs:194-199 `get`. -/
def get (c : Probe T) (s : BSTSet T) : Out (Option T) := do
  let e ← s.items.getEntry c
  pure (e.map (·.1))
/-- src/set.rs:221-223 `insert`. -/
def insert (cfg : Cfg) (c : Probe T) (value : T) : M (BSTSet T) Bool := do
  let prev ← onItems (BSTMap.insert cfg c value ())
  pure prev.isNone
/-- src/set.rs:262-267 `take`. -/
def take (cfg : Cfg) (c : Probe T) : M (BSTSet T) (Option T) := do
  let e ← onItems (BSTMap.removeEntry cfg c)
  pure (e.map (·.1))
/-- src/set.rs:240-245 `remove`. -/
def remove (cfg : Cfg) (c : Probe T) : M (BSTSet T) Bool := do
  let e ← take cfg c
  pure e.isSome
/-- src/set.rs:286-288 `clear`. -/
def clear (cfg : Cfg) (d : DropInfo (InnerNode T Unit)) : M (BSTSet T) Unit :=
  onItems (BSTMap.clear cfg d)
/-- src/set.rs:360-362 `reserve`. -/
def reserve (cfg : Cfg) (additional : Nat) : M (BSTSet T) Unit :=
  onItems (BSTMap.reserve cfg additional)
/-- src/set.rs:367-369 `shrink_to_fit`. -/
def shrinkToFit (cfg : Cfg) : M (BSTSet T) Unit := onItems (BSTMap.shrinkToFit cfg)
/-- Drop glue of `BSTSet`. -/
def drop (cfg : Cfg) (d : DropInfo (InnerNode T Unit)) : M (BSTSet T) Unit :=
  onItems (BSTMap.drop cfg d)

/-- What a user iterator passed to `extend`/`from_iter` does, see `BSTMap.Source`. -/
structure Source (T : Type) where
  hint : Nat × Option Nat
  items : List T
  panics : Bool

/-- `iter.into_iter().map(|value| (value, ()))` (src/set.rs:374, 381): `Map` passes
the size hint through. -/
def Source.toMap (src : Source T) : BSTMap.Source T Unit :=
  { hint := src.hint, items := src.items.map fun t => (t, ()), panics := src.panics }

/-- src/set.rs:373-375 `extend`. -/
def extend (cfg : Cfg) (cmps : Nat → T → Probe T) (src : Source T) : M (BSTSet T) Unit :=
  onItems (BSTMap.extend cfg cmps src.toMap)
/-- src/set.rs:379-383 `from_iter`. -/
def fromIter (cfg : Cfg) (cmps : Nat → T → Probe T) (src : Source T) : Out Unit × BSTSet T :=
  match BSTMap.fromIter cfg cmps src.toMap with
  | (o, items) => (o, { items })
/-- src/set.rs:48-54 `clone` (`()` clones to itself). -/
def clone (cfg : Cfg) (cmps : Nat → T → Probe T) (cloneT : T → Option T) (s : BSTSet T) :
    Out Unit × BSTSet T :=
  match BSTMap.clone cfg cmps cloneT some s.items with
  | (o, items) => (o, { items })
/-- src/set.rs:56-60 `PartialEq` (`() == ()` is true). -/
def eq (cfg : Cfg) (teq : T → T → Bool) (a b : BSTSet T) : Out Bool :=
  BSTMap.eq cfg teq (fun _ _ => true) a.items b.items
/-- The same for a `PartialEq` that may panic (see `BSTMap.entryEq`). -/
def eqAsk (cfg : Cfg) (teq : Nat → T → T → Option Bool) (a b : BSTSet T) : Out Bool :=
  BSTMap.eqWith cfg (BSTMap.entryEq teq fun _ _ _ => some true) a.items b.items

/-- src/set/preorder.rs:15-21, src/set/inorder.rs:15-21, src/set/postorder.rs:15-21
`next`: the map iterator's `next`, keeping the key. -/
def nextOf (next : Stack → Out (Option (T × Unit) × Stack)) (st : Stack) :
    Out (Option T × Stack) := do
  let (o, st) ← next st
  pure (o.map (·.1), st)

/-- src/set.rs:291-293 `iter_preorder`, drained. -/
def iterPreorder (s : BSTSet T) : Out (List T) := do
  let st ← IterPreorder.new s.items.nodes s.items.root
  drain s.items.drainFuel (nextOf (IterPreorder.next s.items.nodes)) st
/-- src/set.rs:296-298 `iter_inorder`, drained. -/
def iterInorder (s : BSTSet T) : Out (List T) := do
  let st ← IterInorder.new s.items.nodes s.items.root
  drain s.items.drainFuel (nextOf (IterInorder.next s.items.nodes)) st
/-- src/set.rs:301-303 `iter_postorder`, drained. -/
def iterPostorder (s : BSTSet T) : Out (List T) := do
  let st ← IterPostorder.new s.items.nodes s.items.root
  drain s.items.drainFuel (nextOf (IterPostorder.next s.items.nodes)) st

/-- src/set.rs:350-352 `root`. The set's `Node` (src/set/node.rs:5-7) is a wrapper
around the map's. -/
def rootNode (s : BSTSet T) : Out (Option (Node T Unit)) := s.items.rootNode
/-- src/set/node.rs:28-30 `Node::value`. -/
def nodeValue (n : Node T Unit) : T := n.key
/-- src/set/node.rs:33-35 `Node::has_left`. -/
def nodeHasLeft (n : Node T Unit) : Bool := n.hasLeft
/-- src/set/node.rs:38-40 `Node::has_right`. -/
def nodeHasRight (n : Node T Unit) : Bool := n.hasRight
/-- src/set/node.rs:43-45 `Node::left`. -/
def nodeLeft (s : BSTSet T) (n : Node T Unit) : Out (Option (Node T Unit)) := n.left s.items.nodes
/-- src/set/node.rs:48-50 `Node::right`. -/
def nodeRight (s : BSTSet T) (n : Node T Unit) : Out (Option (Node T Unit)) := n.right s.items.nodes

/-- src/set/node.rs:9-19 `Debug for Node`, rendered with `{:?}`. -/
def debugNode (dt : T → String) (nodes : Nodes T Unit) : Nat → Node T Unit → Out String
  | 0, _ => .diverge
  | fuel + 1, n => do
    let l ← n.left nodes
    let l ← (match l with
      | none => pure none
      | some c => do let s ← debugNode dt nodes fuel c; pure (some s) : Out (Option String))
    let r ← n.right nodes
    let r ← (match r with
      | none => pure none
      | some c => do let s ← debugNode dt nodes fuel c; pure (some s) : Out (Option String))
    pure ("Node { value: " ++ dt n.key ++
      ", left: " ++ BSTMap.debugOption l ++ ", right: " ++ BSTMap.debugOption r ++ " }")

/-- src/set.rs:38-46 `Debug for BSTSet`, rendered with `{:?}`. -/
def debug (dt : T → String) (s : BSTSet T) : Out String := do
  let root ← s.rootNode
  let r ← (match root with
    | none => pure none
    | some n => do
      let s ← debugNode dt s.items.nodes (BSTMap.walkFuel s.items.nodes) n
      pure (some s) : Out (Option String))
  pure ("BSTSet { root: " ++ BSTMap.debugOption r ++ " }")

/-- The insertions of src/lib.rs:38-40, in order. -/
def insertAll (cfg : Cfg) (cmps : Nat → T → Probe T) : Nat → List T → M (BSTSet T) Unit
  | _, [] => pure ()
  | n, t :: rest => do
    let _ ← insert cfg (cmps n t) t
    insertAll cfg cmps (n + 1) rest

end BSTSet

/-- src/lib.rs:12-26 `bstmap! { k => v, ... }`: `BSTMap::new()` and one `insert` per
pair (`let _ =` drops the previous value). -/
def bstmap {K V : Type} (cfg : Cfg) (cmps : Nat → K → Probe K) (pairs : List (K × V)) :
    Out Unit × BSTMap K V :=
  BSTMap.insertAll cfg cmps 0 pairs BSTMap.new

/-- src/lib.rs:28-44 `bstset! { t, ... }`: `BSTSet::with_capacity(count)` and one
`insert` per value. -/
def bstset (cfg : Cfg) (cmps : Nat → T → Probe T) (ts : List T) : Out Unit × BSTSet T :=
  match BSTSet.withCapacity cfg ts.length with
  | (.ok (), s) => BSTSet.insertAll cfg cmps 0 ts s
  | r => r

end BST
