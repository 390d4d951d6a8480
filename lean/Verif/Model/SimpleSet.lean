import Verif.Model.Simple
import Verif.Model.Set
/-!
# Model of `simple_bst/src/set.rs` and `simple_bst/src/set/*.rs`
-/
namespace BST.Simple
variable {T : Type}

/-- simple_bst/src/set.rs:19-21 `SimpleBSTSet<T>`. -/
structure SSet (T : Type) where
  items : Map T Unit

namespace SSet

/-- Run a method of the field `items`. -/
@[inline] def onItems {α : Type} (m : M (Map T Unit) α) : M (SSet T) α := fun s =>
  match m s.items with
  | (o, items) => (o, { s with items })

/-- simple_bst/src/set.rs:23-29, 58-60 `default` / `new`. -/
def new : SSet T := { items := Map.new }
/-- simple_bst/src/set.rs:76-78 `len`. -/
def len (s : SSet T) : Nat := s.items.len
/-- simple_bst/src/set.rs:94-96 `is_empty`. -/
def isEmpty (cfg : Cfg) (s : SSet T) : Out Bool := s.items.isEmpty cfg
/-- simple_bst/src/set.rs:116-121 `contains`. -/
def contains (c : Probe T) (s : SSet T) : Out Bool := s.items.containsKey c
/-- simple_bst/src/set.rs:141-146 `get`. -/
def get (c : Probe T) (s : SSet T) : Out (Option T) := do
  let e ← s.items.getEntry c
  pure (e.map (·.1))
/-- simple_bst/src/set.rs:168-170 `insert`. -/
def insert (cfg : Cfg) (c : Probe T) (value : T) : M (SSet T) Bool := do
  let prev ← onItems (Map.insert cfg c value ())
  pure prev.isNone
/-- simple_bst/src/set.rs:209-214 `take`. -/
def take (cfg : Cfg) (c : Probe T) : M (SSet T) (Option T) := do
  let e ← onItems (Map.removeEntry cfg c)
  pure (e.map (·.1))
/-- simple_bst/src/set.rs:187-192 `remove`. -/
def remove (cfg : Cfg) (c : Probe T) : M (SSet T) Bool := do
  let e ← take cfg c
  pure e.isSome
/-- simple_bst/src/set.rs:229-231 `clear`. -/
def clear : M (SSet T) Unit := onItems Map.clear
/-- simple_bst/src/set.rs:298-302 `extend`. -/
def extend (cfg : Cfg) (cmps : Nat → T → Probe T) (src : BSTSet.Source T) : M (SSet T) Unit :=
  onItems (Map.extend cfg cmps src.toMap)
/-- simple_bst/src/set.rs:304-310 `from_iter`. -/
def fromIter (cfg : Cfg) (cmps : Nat → T → Probe T) (src : BSTSet.Source T) (allocs : Nat) :
    Out Unit × SSet T :=
  match Map.fromIter cfg cmps src.toMap allocs with
  | (o, items) => (o, { items })
/-- simple_bst/src/set.rs:18 derived `clone` (`()` clones to itself). -/
def clone (cfg : Cfg) (cloneT : T → Option T) (s : SSet T) : Out Unit × SSet T :=
  match Map.clone cfg cloneT some s.items with
  | (o, items) => (o, { items })
/-- simple_bst/src/set.rs:41-45 `PartialEq` (`() == ()` is true). -/
def eq (teq : T → T → Bool) (a b : SSet T) : Out Bool :=
  Map.eq teq (fun _ _ => true) a.items b.items
/-- The same for a `PartialEq` that may panic (see `BSTMap.entryEq`). -/
def eqAsk (teq : Nat → T → T → Option Bool) (a b : SSet T) : Out Bool :=
  Map.eqWith (BSTMap.entryEq teq fun _ _ _ => some true) a.items b.items

/-- simple_bst/src/set/preorder.rs:18-20, inorder.rs:18-20, postorder.rs:18-20 `next`: the map
iterator's `next`, keeping the key. -/
def nextOf (o : Spec.Order) (st : Map.Stack T Unit) : Out (Option T × Map.Stack T Unit) := do
  let (x, st) ← Map.next o st
  pure (x.map (·.1), st)
/-- simple_bst/src/set.rs:233-246 `iter_preorder`, `iter_inorder`, `iter_postorder`. -/
def iter (o : Spec.Order) (s : SSet T) : Map.Stack T Unit := Map.iter o s.items

/-- simple_bst/src/set.rs:293-295 `root`. The set's `Node`
(simple_bst/src/set/node.rs:5-7) is a wrapper around a reference to the map's. -/
def rootRef (s : SSet T) : Option (Ref T Unit) := s.items.rootRef
/-- simple_bst/src/set/node.rs:28-30 `Node::value`. -/
def nodeValue (n : Ref T Unit) : T := n.key
/-- simple_bst/src/set/node.rs:33-35 `Node::has_left`. -/
def nodeHasLeft (n : Ref T Unit) : Bool := n.hasLeft
/-- simple_bst/src/set/node.rs:38-40 `Node::has_right`. -/
def nodeHasRight (n : Ref T Unit) : Bool := n.hasRight
/-- simple_bst/src/set/node.rs:43-45 `Node::left`. -/
def nodeLeft (n : Ref T Unit) : Option (Ref T Unit) := n.leftRef
/-- simple_bst/src/set/node.rs:48-50 `Node::right`. -/
def nodeRight (n : Ref T Unit) : Option (Ref T Unit) := n.rightRef

/-- simple_bst/src/set/node.rs:4 derived `PartialEq` of `Node`: that of the map's node. -/
def nodeEq (teq : T → T → Bool) (a b : Ref T Unit) : Bool := a.eq teq (fun _ _ => true) b

/-- simple_bst/src/set/node.rs:9-20 `Debug for Node`, for what `left()` and `right()` return,
rendered with `{:?}`; as a recursion along the boxes. -/
def debugLink (dt : T → String) : Link T Unit → String
  | .nil => "None"
  | .node k _ l r => "Some(" ++ ("Node { value: " ++ dt k ++ ", left: " ++ debugLink dt l ++
      ", right: " ++ debugLink dt r ++ " }") ++ ")"

/-- simple_bst/src/set.rs:31-39 `Debug for SimpleBSTSet`, rendered with `{:?}`. -/
def debug (dt : T → String) (s : SSet T) : String :=
  "SimpleBSTSet { root: " ++ debugLink dt s.items.root ++ " }"

end SSet
end BST.Simple
