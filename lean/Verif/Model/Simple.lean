import Verif.Model.Set
import Verif.Spec
/-!
# Model of `simple_bst/src/map.rs`, `simple_bst/src/map/*.rs` and `simple_bst/src/set.rs`

The crate `simple_bst` keeps its nodes in `Box`es. A tree of boxes is owned, so it is a
value here (`Link`). A pointer or reference to a node inside an owned tree is a `Place`:
the path that leads from the owner to it. Two live nodes have the same address exactly if
they are at the same place (a node is never zero-sized: it contains two boxes).
-/
namespace BST.Simple
variable {K V T : Type}
open Spec (BT)

/-- simple_bst/src/map/node.rs:4-9 `Option<Box<Node<K, V>>>`, and `Option<Node<K, V>>` (the
root, and nodes that are being moved): nothing, or a node with its fields. -/
inductive Link (K V : Type) where
  | nil
  | node (key : K) (value : V) (left right : Link K V)
deriving DecidableEq, Repr

/-- Path from the owner of a tree to a node in it: `false` = through `left`, `true` =
through `right`. -/
abbrev Place := List Bool

namespace Link
def isNil : Link K V → Bool
  | nil => true
  | node .. => false

/-- Number of nodes. -/
def size : Link K V → Nat
  | nil => 0
  | node _ _ l r => l.size + 1 + r.size

/-- What is found at a place. -/
def at' : Place → Link K V → Link K V
  | [], t => t
  | _ :: _, nil => nil
  | false :: p, node _ _ l _ => l.at' p
  | true :: p, node _ _ _ r => r.at' p

/-- Overwrite what is at a place. -/
def put (new : Link K V) : Place → Link K V → Link K V
  | [], _ => new
  | _ :: _, nil => nil
  | false :: p, node k v l r => node k v (put new p l) r
  | true :: p, node k v l r => node k v l (put new p r)

/-- What a client sees who explores the tree with `left()` and `right()`. -/
def view : Link K V → BT (K × V)
  | nil => .nil
  | node k v l r => .node l.view (k, v) r.view
end Link

/-! ### `Node`, by shared reference -/

/-- `&Node<K, V>`: where the node is, and its fields, which cannot change as long as the
reference lives. -/
structure Ref (K V : Type) where
  place : Place
  key : K
  value : V
  left : Link K V
  right : Link K V
deriving DecidableEq, Repr

/-- `Option<&Node>` for what is at a place. -/
def Ref.of (place : Place) : Link K V → Option (Ref K V)
  | .nil => none
  | .node key value left right => some { place, key, value, left, right }

namespace Ref
/-- simple_bst/src/map/node.rs:37-39 `has_left`. -/
def hasLeft (n : Ref K V) : Bool := !n.left.isNil
/-- simple_bst/src/map/node.rs:41-43 `has_right`. -/
def hasRight (n : Ref K V) : Bool := !n.right.isNil
/-- simple_bst/src/map/node.rs:45-47 `left`. -/
def leftRef (n : Ref K V) : Option (Ref K V) := of (n.place ++ [false]) n.left
/-- simple_bst/src/map/node.rs:49-51 `right`. -/
def rightRef (n : Ref K V) : Option (Ref K V) := of (n.place ++ [true]) n.right
end Ref

/-- simple_bst/src/map/node.rs:3 derived `PartialEq` of `Option<Box<Node>>`: `None` equals `None`,
boxes are equal if what they own is. -/
def Link.eq (keq : K → K → Bool) (veq : V → V → Bool) : Link K V → Link K V → Bool
  | .nil, .nil => true
  | .node k v l r, .node k' v' l' r' =>
    keq k k' && veq v v' && l.eq keq veq l' && r.eq keq veq r'
  | _, _ => false

/-- simple_bst/src/map/node.rs:3 derived `PartialEq` of `Node`: the four fields in order. -/
def Ref.eq (keq : K → K → Bool) (veq : V → V → Bool) (a b : Ref K V) : Bool :=
  keq a.key b.key && veq a.value b.value && a.left.eq keq veq b.left && a.right.eq keq veq b.right

/-! ### `Node`, by mutable reference -/

/-- A variable that owns a tree, and (ghost) the number of boxes that have been allocated
so far: it numbers the requests to the allocator. -/
structure Own (K V : Type) where
  root : Link K V
  allocs : Nat
deriving DecidableEq, Repr

namespace Own
/-- Use the node at a place; undefined behaviour if there is none. -/
def deref (p : Place) : M (Own K V) (Ref K V) := M.read fun s =>
  match Ref.of p (s.root.at' p) with
  | none => .ub
  | some n => .ok n

/-- Overwrite the node at a place. -/
def store (p : Place) (new : Link K V) : M (Own K V) Unit :=
  M.modify fun s => { s with root := Link.put new p s.root }

/-- `Box::new(node)` for a node that is going to be linked into the tree. The allocator may
refuse, and it does if the address space is used up: all nodes but the root have a box of
their own. -/
def box (cfg : Cfg) (new : Link K V) : M (Own K V) Unit := fun s =>
  if (s.root.size + new.size - 1) * cfg.esize < usizeBound ∧ cfg.allocOk s.allocs cfg.esize then
    (.ok (), { s with allocs := s.allocs + 1 })
  else (.abort, s)

/-- simple_bst/src/map/node.rs:53-55 `left_mut`. -/
def leftMut (p : Place) : M (Own K V) (Option Place) := do
  let n ← deref p
  pure (n.leftRef.map (·.place))

/-- simple_bst/src/map/node.rs:57-59 `right_mut`. -/
def rightMut (p : Place) : M (Own K V) (Option Place) := do
  let n ← deref p
  pure (n.rightRef.map (·.place))

/-- simple_bst/src/map/node.rs:61-63 `take_left`. -/
def takeLeft (p : Place) : M (Own K V) (Link K V) := do
  let n ← deref p
  store p (.node n.key n.value .nil n.right)
  pure n.left

/-- simple_bst/src/map/node.rs:65-67 `take_right`. -/
def takeRight (p : Place) : M (Own K V) (Link K V) := do
  let n ← deref p
  store p (.node n.key n.value n.left .nil)
  pure n.right

/-- simple_bst/src/map/node.rs:70-73 `set_left`. -/
def setLeft (cfg : Cfg) (p : Place) (new : Link K V) : M (Own K V) Unit := do
  let n ← deref p
  M.lift (debugAssert cfg n.left.isNil)
  box cfg new
  store p (.node n.key n.value new n.right)

/-- simple_bst/src/map/node.rs:76-79 `set_right`. -/
def setRight (cfg : Cfg) (p : Place) (new : Link K V) : M (Own K V) Unit := do
  let n ← deref p
  M.lift (debugAssert cfg n.right.isNil)
  box cfg new
  store p (.node n.key n.value n.left new)

/-- `new_node.map(Box::new)`. -/
def boxOpt (cfg : Cfg) (new : Link K V) : M (Own K V) Unit :=
  if new.isNil then pure () else box cfg new

/-- simple_bst/src/map/node.rs:82-84 `replace_left`. -/
def replaceLeft (cfg : Cfg) (p : Place) (new : Link K V) : M (Own K V) (Link K V) := do
  let n ← deref p
  boxOpt cfg new
  store p (.node n.key n.value new n.right)
  pure n.left

/-- simple_bst/src/map/node.rs:87-89 `replace_right`. -/
def replaceRight (cfg : Cfg) (p : Place) (new : Link K V) : M (Own K V) (Link K V) := do
  let n ← deref p
  boxOpt cfg new
  store p (.node n.key n.value n.left new)
  pure n.right

/-- `mem::replace(node.value_mut(), value)` (simple_bst/src/map/node.rs:33-35). -/
def swapValue (p : Place) (value : V) : M (Own K V) V := do
  let n ← deref p
  store p (.node n.key value n.left n.right)
  pure n.value
end Own

/-- `Option<Node>::unwrap()`. -/
def unwrap : Link K V → Out (Link K V)
  | .nil => .panic
  | n => .ok n

/-- simple_bst/src/map/node.rs:21-23 `into_inner` of the node that was unwrapped. -/
def intoInner : Link K V → Out (K × V)
  | .nil => .panic
  | .node k v _ _ => .ok (k, v)

/-! ### `SimpleBSTMap` -/

/-- simple_bst/src/map.rs:20-23 `SimpleBSTMap<K, V>`, with the ghost counter of `Own`. -/
structure Map (K V : Type) where
  root : Link K V
  len : Nat
  allocs : Nat
deriving DecidableEq, Repr

namespace Map
/-- Use the tree in the field `root`. -/
def onRoot {α : Type} (f : M (Own K V) α) : M (Map K V) α := fun s =>
  match f { root := s.root, allocs := s.allocs } with
  | (o, w) => (o, { s with root := w.root, allocs := w.allocs })

/-- Use the tree in a local variable; the result also tells its final value. -/
def onLocal {α : Type} (x : Link K V) (f : M (Own K V) α) : M (Map K V) (α × Link K V) := fun s =>
  match f { root := x, allocs := s.allocs } with
  | (.ok a, w) => (.ok (a, w.root), { s with allocs := w.allocs })
  | (.panic, w) => (.panic, { s with allocs := w.allocs })
  | (.abort, w) => (.abort, { s with allocs := w.allocs })
  | (.ub, w) => (.ub, { s with allocs := w.allocs })
  | (.diverge, w) => (.diverge, { s with allocs := w.allocs })

/-- simple_bst/src/map.rs:25-32, 63-65 `default` / `new`. -/
def new : Map K V := { root := .nil, len := 0, allocs := 0 }

/-- simple_bst/src/map.rs:100-103 `is_empty`. -/
def isEmpty (cfg : Cfg) (m : Map K V) : Out Bool := do
  debugAssert cfg (m.len != 0 || m.root.isNil)
  pure (m.len == 0)

/-- Fuel for the walks: more than the number of nodes. -/
def fuel (m : Map K V) : Nat := m.root.size + 1

/-- simple_bst/src/map.rs:602-604 `root`. -/
def rootRef (m : Map K V) : Option (Ref K V) := Ref.of [] m.root

/-- simple_bst/src/map.rs:614-616 `root_mut`. -/
def rootMut (m : Map K V) : Option Place := m.rootRef.map (·.place)

/-- simple_bst/src/map.rs:122-136 `contains_key`. -/
def containsKey (c : Probe K) (m : Map K V) : Out Bool :=
  loop m.fuel (fun (st : Nat × Option (Ref K V)) =>
    match st.2 with
    | none => pure (.inr false)
    | some node =>
      match c st.1 node.key with
      | none => .panic
      | some .lt => pure (.inl (st.1 + 1, node.leftRef))
      | some .gt => pure (.inl (st.1 + 1, node.rightRef))
      | some .eq => pure (.inr true)) (0, m.rootRef)

/-- simple_bst/src/map.rs:156-170 `get`. -/
def get (c : Probe K) (m : Map K V) : Out (Option V) :=
  loop m.fuel (fun (st : Nat × Option (Ref K V)) =>
    match st.2 with
    | none => pure (.inr none)
    | some node =>
      match c st.1 node.key with
      | none => .panic
      | some .lt => pure (.inl (st.1 + 1, node.leftRef))
      | some .gt => pure (.inl (st.1 + 1, node.rightRef))
      | some .eq => pure (.inr (some node.value))) (0, m.rootRef)

/-- simple_bst/src/map.rs:229-243 `get_entry`. -/
def getEntry (c : Probe K) (m : Map K V) : Out (Option (K × V)) :=
  loop m.fuel (fun (st : Nat × Option (Ref K V)) =>
    match st.2 with
    | none => pure (.inr none)
    | some node =>
      match c st.1 node.key with
      | none => .panic
      | some .lt => pure (.inl (st.1 + 1, node.leftRef))
      | some .gt => pure (.inl (st.1 + 1, node.rightRef))
      | some .eq => pure (.inr (some (node.key, node.value)))) (0, m.rootRef)

/-- One round of the loop of `get_mut` (simple_bst/src/map.rs:200-206); the loop variables
are the number of comparisons made so far and `current`. -/
def getMutStep (c : Probe K) (st : Nat × Option Place) :
    M (Map K V) ((Nat × Option Place) ⊕ Option Place) :=
  match st.2 with
  | none => pure (.inr none)
  | some p => do
    let node ← onRoot (Own.deref p)
    match c st.1 node.key with
    | none => M.panic
    | some .lt => do let n ← onRoot (Own.leftMut p); pure (.inl (st.1 + 1, n))
    | some .gt => do let n ← onRoot (Own.rightMut p); pure (.inl (st.1 + 1, n))
    | some .eq => pure (.inr (some p))

/-- simple_bst/src/map.rs:195-209 `get_mut`. The reference is the place of its node. -/
def getMut (c : Probe K) : M (Map K V) (Option Place) := do
  let m ← M.get
  loop m.fuel (getMutStep c) (0, m.rootMut)

/-- `self.len += 1`. -/
def addLen (cfg : Cfg) : M (Map K V) Unit := do
  let m ← M.get
  let n ← M.lift (addU cfg m.len 1)
  M.modify fun m => { m with len := n }

/-- `self.len -= 1`. -/
def subLen (cfg : Cfg) : M (Map K V) Unit := do
  let m ← M.get
  let n ← M.lift (subU cfg m.len 1)
  M.modify fun m => { m with len := n }

/-- One round of the loop of `insert` (simple_bst/src/map.rs:278-305). -/
def insertStep (cfg : Cfg) (c : Probe K) (key : K) (value : V) (st : Nat × Option Place) :
    M (Map K V) ((Nat × Option Place) ⊕ Option V) :=
  match st.2 with
  | none => pure (.inr none)
  | some p => do
    let node ← onRoot (Own.deref p)
    match c st.1 node.key with
    | none => M.panic
    | some .lt =>
      if !node.hasLeft then do
        onRoot (Own.setLeft cfg p (.node key value .nil .nil))
        addLen cfg
        pure (.inr none)
      else do
        let n ← onRoot (Own.leftMut p)
        pure (.inl (st.1 + 1, n))
    | some .gt =>
      if !node.hasRight then do
        onRoot (Own.setRight cfg p (.node key value .nil .nil))
        addLen cfg
        pure (.inr none)
      else do
        let n ← onRoot (Own.rightMut p)
        pure (.inl (st.1 + 1, n))
    | some .eq => do
      let prev ← onRoot (Own.swapValue p value)
      pure (.inr (some prev))

/-- simple_bst/src/map.rs:264-310 `insert`. -/
def insert (cfg : Cfg) (c : Probe K) (key : K) (value : V) : M (Map K V) (Option V) := do
  let m ← M.get
  match m.rootMut with
  | none =>
    M.modify fun m => { m with root := .node key value .nil .nil }
    let m ← M.get
    M.lift (debugAssert cfg (m.len == 0))
    M.modify fun m => { m with len := 1 }
    pure none
  | some root => loop m.fuel (insertStep cfg c key value) (0, some root)

/-- One round of the search loop of `remove_entry` (simple_bst/src/map.rs:371-389); the loop
variables are the number of comparisons made so far, `parent` and `current` (null =
`none`). -/
def findStep (c : Probe K) (st : Nat × Option Place × Option Place) :
    M (Map K V) ((Nat × Option Place × Option Place) ⊕ (Option Place × Option Place)) :=
  match st.2.2 with
  | none => pure (.inr (st.2.1, none))
  | some p => do
    let node ← onRoot (Own.deref p)
    match c st.1 node.key with
    | none => M.panic
    | some .lt => do let n ← onRoot (Own.leftMut p); pure (.inl (st.1 + 1, some p, n))
    | some .gt => do let n ← onRoot (Own.rightMut p); pure (.inl (st.1 + 1, some p, n))
    | some .eq => pure (.inr (st.2.1, some p))

/-- The search loop of `remove_entry`, simple_bst/src/map.rs:368-391: final values of
`parent` and `current`. -/
def findWithParent (c : Probe K) (m : Map K V) : M (Map K V) (Option Place × Option Place) :=
  loop m.fuel (findStep c) (0, none, m.rootMut)

/-- One round of the loop of simple_bst/src/map.rs:416-430; the loop variables are
`inorder_succ_parent` and `inorder_succ`. -/
def succStep (st : Place × Place) : M (Own K V) ((Place × Place) ⊕ (Place × Place)) := do
  match ← Own.leftMut st.2 with
  | some l => pure (.inl (st.2, l))
  | none => pure (.inr st)

/-- The loop of simple_bst/src/map.rs:416-430 in the local variable `right_child`: final
values of `inorder_succ_parent` and `inorder_succ`. -/
def findSucc (n : Nat) (parent succ : Place) : M (Own K V) (Place × Place) :=
  loop n succStep (parent, succ)

/-- simple_bst/src/map.rs:412-446, in the local variable `right_child`: cut out the
leftmost node, which is not `right_child` itself. -/
def cutSucc (cfg : Cfg) (n : Nat) : M (Own K V) (Link K V) := do
  let x ← findSucc n [] [false]
  let succRight ← Own.takeRight x.2
  let old ← Own.replaceLeft cfg x.1 succRight
  M.lift (unwrap old)

/-- simple_bst/src/map.rs:410-455 `inorder_succ_node`, taken out of `right_child`. -/
def successor (cfg : Cfg) (rightChild : Link K V) : M (Map K V) (Link K V) :=
  match rightChild with
  | .node _ _ (.node ..) _ => do
    let x ← onLocal rightChild (cutSucc cfg rightChild.size)
    let y ← onLocal x.1 (Own.setRight cfg [] x.2)
    pure y.2
  | _ => pure rightChild

/-- simple_bst/src/map.rs:400-470: the node that replaces the removed one, whose children
were `left` and `right`. -/
def replacement (cfg : Cfg) (left right : Link K V) : M (Map K V) (Link K V) :=
  match left, right with
  | .nil, .nil => pure .nil
  | child, .nil => pure child
  | .nil, child => pure child
  | leftChild, rightChild => do
    let succNode ← successor cfg rightChild
    let y ← onLocal succNode (Own.setLeft cfg [] leftChild)
    pure y.2

/-- simple_bst/src/map.rs:472-504: put `replaceWith` where the node `p` is, and return what
the node contained. `ptr::eq` compares places. -/
def unlink (cfg : Cfg) (parent : Option Place) (p : Place) (replaceWith : Link K V) :
    M (Map K V) (K × V) :=
  match parent with
  | some parent => do
    let parentNode ← onRoot (Own.deref parent)
    if some p = parentNode.leftRef.map (·.place) then
      let node ← onRoot (Own.replaceLeft cfg parent replaceWith)
      M.lift (intoInner node)
    else
      let node ← onRoot (Own.replaceRight cfg parent replaceWith)
      M.lift (intoInner node)
  | none => do
    let m ← M.get
    M.modify fun m => { m with root := replaceWith }
    M.lift (intoInner m.root)

/-- simple_bst/src/map.rs:393-504: remove the node `p`, which was found. -/
def takeOut (cfg : Cfg) (parent : Option Place) (p : Place) : M (Map K V) (K × V) := do
  let _ ← onRoot (Own.deref p)
  subLen cfg
  let left ← onRoot (Own.takeLeft p)
  let right ← onRoot (Own.takeRight p)
  let replaceWith ← replacement cfg left right
  unlink cfg parent p replaceWith

/-- simple_bst/src/map.rs:351-506 `remove_entry`. -/
def removeEntry (cfg : Cfg) (c : Probe K) : M (Map K V) (Option (K × V)) := do
  let m ← M.get
  let x ← findWithParent c m
  match x.2 with
  | none => pure none
  | some p =>
    let e ← takeOut cfg x.1 p
    pure (some e)

/-- simple_bst/src/map.rs:328-333 `remove`. -/
def remove (cfg : Cfg) (c : Probe K) : M (Map K V) (Option V) := do
  let e ← removeEntry cfg c
  pure (e.map (·.2))

/-- simple_bst/src/map.rs:521-523 `clear`, for destructors that do not panic and do not use
up the stack (dropping a tree of boxes is recursive). -/
def clear : M (Map K V) Unit := M.modify fun m => { new with allocs := m.allocs }

/-- The `for` loop of simple_bst/src/map.rs:621-623 and 631-633. `cmps n key` are the
comparisons made by the insertion of the `n`-th item. -/
def insertAll (cfg : Cfg) (cmps : Nat → K → Probe K) : Nat → List (K × V) → M (Map K V) Unit
  | _, [] => pure ()
  | n, (k, v) :: rest => do
    let _ ← insert cfg (cmps n k) k v
    insertAll cfg cmps (n + 1) rest

/-- simple_bst/src/map.rs:619-625 `extend`. The size hint is not used. -/
def extend (cfg : Cfg) (cmps : Nat → K → Probe K) (src : BSTMap.Source K V) : M (Map K V) Unit := do
  insertAll cfg cmps 0 src.items
  if src.panics then M.panic else pure ()

/-- simple_bst/src/map.rs:627-637 `from_iter`; the requests to the allocator are numbered
from `allocs`. The map is returned only if the outcome is `ok`. -/
def fromIter (cfg : Cfg) (cmps : Nat → K → Probe K) (src : BSTMap.Source K V) (allocs : Nat) :
    Out Unit × Map K V :=
  extend cfg cmps src { new with allocs }

/-- The allocation of a box for a node that is cloned (nothing for the root). The state is
the number of requests to the allocator. -/
def cloneBox (cfg : Cfg) (boxed : Bool) : M Nat Unit := fun n =>
  if boxed then if cfg.allocOk n cfg.esize then (.ok (), n + 1) else (.abort, n) else (.ok (), n)

/-- `clone` of a key or value, which may panic. -/
def cloneWith {α : Type} (f : α → Option α) (x : α) : M Nat α :=
  match f x with
  | some y => pure y
  | none => M.panic

/-- Derived `Clone` of `Node` (simple_bst/src/map/node.rs:3): the fields in order; `boxed` =
the node lives in a box, which is allocated before its contents are cloned. -/
def cloneLink (cfg : Cfg) (cloneK : K → Option K) (cloneV : V → Option V) :
    Bool → Link K V → M Nat (Link K V)
  | _, .nil => pure .nil
  | boxed, .node k v l r => do
    cloneBox cfg boxed
    let k ← cloneWith cloneK k
    let v ← cloneWith cloneV v
    let l ← cloneLink cfg cloneK cloneV true l
    let r ← cloneLink cfg cloneK cloneV true r
    pure (.node k v l r)

/-- simple_bst/src/map.rs:19 derived `clone`. -/
def clone (cfg : Cfg) (cloneK : K → Option K) (cloneV : V → Option V) (m : Map K V) :
    Out Unit × Map K V :=
  match cloneLink cfg cloneK cloneV false m.root m.allocs with
  | (.ok root, allocs) => (.ok (), { root, len := m.len, allocs })
  | (.panic, allocs) => (.panic, { m with allocs })
  | (.abort, allocs) => (.abort, { m with allocs })
  | (.ub, allocs) => (.ub, { m with allocs })
  | (.diverge, allocs) => (.diverge, { m with allocs })

/-- Derived `Debug` of `Option<Box<Node>>` (simple_bst/src/map/node.rs:3), with `{:?}`. -/
def debugLink (dk : K → String) (dv : V → String) : Link K V → String
  | .nil => "None"
  | .node k v l r => "Some(" ++ ("Node { key: " ++ dk k ++ ", value: " ++ dv v ++ ", left: " ++
      debugLink dk dv l ++ ", right: " ++ debugLink dk dv r ++ " }") ++ ")"

/-- simple_bst/src/map.rs:19 derived `Debug`. -/
def debug (dk : K → String) (dv : V → String) (m : Map K V) : String :=
  "SimpleBSTMap { root: " ++ debugLink dk dv m.root ++ ", len: " ++ toString m.len ++ " }"

/-! ### Iterators: the stack, top first -/

abbrev Stack (K V : Type) := List (Ref K V)

/-- simple_bst/src/map/preorder.rs:10-16 `IterPreorder::new`. -/
def preNew (m : Map K V) : Stack K V := m.rootRef.toList
/-- simple_bst/src/map/preorder.rs:22-26 `IterPreorder::next`. -/
def preNext : Stack K V → Out (Option (K × V) × Stack K V)
  | [] => .ok (none, [])
  | node :: st => .ok (some (node.key, node.value),
      node.leftRef.toList ++ (node.rightRef.toList ++ st))

/-- The loops of simple_bst/src/map/inorder.rs:14-18 and 31-34, as a recursion along the
left children: push the node at `place` and everything down its left spine. -/
def pushLeftSpine (place : Place) : Link K V → Stack K V → Stack K V
  | .nil, st => st
  | .node key value left right, st =>
    pushLeftSpine (place ++ [false]) left ({ place, key, value, left, right } :: st)
/-- simple_bst/src/map/inorder.rs:11-21 `IterInorder::new`. -/
def inoNew (m : Map K V) : Stack K V := pushLeftSpine [] m.root []
/-- simple_bst/src/map/inorder.rs:28-37 `IterInorder::next`. -/
def inoNext : Stack K V → Out (Option (K × V) × Stack K V)
  | [] => .ok (none, [])
  | node :: st => .ok (some (node.key, node.value),
      pushLeftSpine (node.place ++ [true]) node.right st)

/-- The loops of simple_bst/src/map/postorder.rs:15-20 and 51-62, as a recursion along the
left children: push the right child, then the node. -/
def pushSpine (place : Place) : Link K V → Stack K V → Stack K V
  | .nil, st => st
  | .node key value left right, st =>
    pushSpine (place ++ [false]) left ({ place, key, value, left, right } ::
      ((Ref.of (place ++ [true]) right).toList ++ st))
/-- simple_bst/src/map/postorder.rs:12-23 `IterPostorder::new`. -/
def postNew (m : Map K V) : Stack K V := pushSpine [] m.root []
/-- Fuel for the loop of `next`: it goes down below the right child of the top. -/
def spineFuel : Stack K V → Nat
  | [] => 1
  | node :: _ => node.right.size + 1
/-- One round of the loop of simple_bst/src/map/postorder.rs:37-63; `ptr::eq` compares
places. -/
def postStep (st : Stack K V) : Out (Stack K V ⊕ (Option (K × V) × Stack K V)) :=
  match st with
  | [] => pure (.inr (none, []))
  | node :: rest =>
    match node.rightRef, rest with
    | some right, top :: rest' =>
      if top.place = right.place then
        pure (.inl (pushSpine right.place node.right (node :: rest')))
      else pure (.inr (some (node.key, node.value), rest))
    | _, _ => pure (.inr (some (node.key, node.value), rest))
/-- simple_bst/src/map/postorder.rs:36-66 `IterPostorder::next`. -/
def postNext (st : Stack K V) : Out (Option (K × V) × Stack K V) :=
  loop (spineFuel st) postStep st

/-- `iter_preorder()`, `iter_inorder()`, `iter_postorder()` (simple_bst/src/map.rs:526-538). -/
def iter : Spec.Order → Map K V → Stack K V
  | .pre => preNew
  | .ino => inoNew
  | .post => postNew
/-- `next()` of the corresponding iterator. -/
def next : Spec.Order → Stack K V → Out (Option (K × V) × Stack K V)
  | .pre => preNext
  | .ino => inoNext
  | .post => postNext

/-- `next()` of what `iter_mut_preorder()`, `iter_mut_inorder()` and `iter_mut_postorder()`
return (simple_bst/src/map.rs:541-553): `todo!()`. -/
def iterMutNext (_ : Spec.Order) : M (Map K V) (Option (K × Place)) := M.panic

/-- Everything an iterator yields. -/
def drain (o : Spec.Order) (m : Map K V) : Out (List (K × V)) :=
  BST.drain m.fuel (next o) (iter o m)

/-- `all` of `zip` with the entries that the two iterators yield, numbered. -/
def allPairs {α : Type} (same : Nat → α → α → Out Bool) : Nat → List α → List α → Out Bool
  | n, x :: xs, y :: ys => do
    let r ← same n x y
    if r then allPairs same (n + 1) xs ys else pure false
  | _, _, _ => pure true

/-- simple_bst/src/map.rs:34-50 `PartialEq::eq`; `same` is the closure of line 46 (see
`BSTMap.entryEq`). The iterators, which have no effects and never fail, are drained first. -/
def eqWith (same : Nat → K × V → K × V → Out Bool) (a b : Map K V) : Out Bool :=
  if a.len ≠ b.len then .ok false
  else do
    let x ← drain .ino a
    let y ← drain .ino b
    allPairs same 0 x y

/-- The same where the user's `PartialEq` are functions. -/
def eq (keq : K → K → Bool) (veq : V → V → Bool) (a b : Map K V) : Out Bool :=
  eqWith (fun _ x y => pure (keq x.1 y.1 && veq x.2 y.2)) a b

end Map
end BST.Simple
