import Verif.Model.Slab
/-!
# Model of `src/map.rs` and `src/map/node.rs`

User code that the map calls is a parameter:
* comparisons: `Probe K`, see below;
* destructors: `DropInfo`;
* `Clone`, `PartialEq`, `Debug`, `Iterator` impls: functions.
-/
namespace BST

/-- src/map.rs:21-26 `InnerNode<K, V>`. -/
structure InnerNode (K V : Type) where
  key : K
  value : V
  left : Option Ptr
  right : Option Ptr
deriving DecidableEq, Repr

/-- src/map.rs:32-41 `InnerNode::new`. -/
def InnerNode.new {K V : Type} (key : K) (value : V) : InnerNode K V :=
  { key, value, left := none, right := none }

/-- The comparisons made by one call: `c i k` is what the user's
`key.cmp(k.borrow())` does when it is the `i`-th comparison of this call (counted
from 0) and the key stored in the visited node is `k`; `none` = it panics.
Nothing forces the answers to be consistent. -/
abbrev Probe (K : Type) := Nat → K → Option Ordering

/-- A lawful query: the comparison of the fixed query `q : Q` with the borrowed
form of the stored key. -/
def ask {Q K : Type} (cmp : Q → Q → Ordering) (borrow : K → Q) (q : Q) : Probe K :=
  fun _ k => some (cmp q (borrow k))

/-- The slab of tree nodes. -/
abbrev Nodes (K V : Type) := Slab (InnerNode K V)

variable {K V : Type}

/-! ### `src/map/node.rs`: `Node` -/

/-- src/map/node.rs:10-13 `Node<'a, K, V>`: the reference `node` is represented by
its address and what it points to (nothing can change while the map is shared-borrowed).
The field `nodes` is passed separately. -/
structure Node (K V : Type) where
  ptr : Ptr
  node : InnerNode K V
deriving DecidableEq, Repr

namespace Node
/-- src/map/node.rs:57-62 `Node::new`. -/
def new (nodes : Nodes K V) (p : Ptr) : Out (Node K V) := do
  let node ← nodes.getUnchecked p
  pure { ptr := p, node }

/-- `Option<Ptr>::map(|ptr| Node::new(nodes, ptr))`. -/
def newOpt (nodes : Nodes K V) : Option Ptr → Out (Option (Node K V))
  | none => .ok none
  | some p => do
    let n ← new nodes p
    pure (some n)

/-- src/map/node.rs:65-67 `key`. -/
def key (n : Node K V) : K := n.node.key
/-- src/map/node.rs:70-72 `value`. -/
def value (n : Node K V) : V := n.node.value
/-- src/map/node.rs:75-77 `has_left`. -/
def hasLeft (n : Node K V) : Bool := n.node.left.isSome
/-- src/map/node.rs:80-82 `has_right`. -/
def hasRight (n : Node K V) : Bool := n.node.right.isSome
/-- src/map/node.rs:85-88 `left`. -/
def left (nodes : Nodes K V) (n : Node K V) : Out (Option (Node K V)) := newOpt nodes n.node.left
/-- src/map/node.rs:91-94 `right`. -/
def right (nodes : Nodes K V) (n : Node K V) : Out (Option (Node K V)) := newOpt nodes n.node.right

/-- src/map/node.rs:35-47 `PartialEq for Node`. `sameNodes` is
`ptr::eq(self.nodes, other.nodes)`: whether the two handles come from the same map. -/
def eq (keq : K → K → Bool) (veq : V → V → Bool) (sameNodes : Bool) (a b : Node K V) : Bool :=
  (sameNodes && decide (a.ptr = b.ptr)) || (keq a.key b.key && veq a.value b.value)
end Node

/-! ### `src/map/node.rs`: `NodeMut` -/

/-- src/map/node.rs:101-104 `NodeMut<'a, K, V>`: the address that the reference
`node` points to; the contents live in the slab, which is the state. -/
structure NodeMut where
  ptr : Ptr
deriving DecidableEq, Repr

namespace NodeMut
/-- src/map/node.rs:148-157 `NodeMut::new` (creating the reference requires the
pointer to be valid). -/
def new (p : Ptr) : M (Nodes K V) NodeMut := do
  let _ ← M.read (fun s => s.getUnchecked p)
  pure { ptr := p }

/-- `Option<Ptr>::map(|ptr| NodeMut::new(nodes, ptr))`. -/
def newOpt : Option Ptr → M (Nodes K V) (Option NodeMut)
  | none => pure none
  | some p => do
    let n ← new p
    pure (some n)

/-- Reading through the reference `self.node`. -/
def deref (n : NodeMut) : M (Nodes K V) (InnerNode K V) := M.read (fun s => s.getUnchecked n.ptr)

/-- src/map/node.rs:160-162 `key`. -/
def key (n : NodeMut) : M (Nodes K V) K := do let x ← n.deref; pure x.key
/-- src/map/node.rs:165-167 `value`. -/
def value (n : NodeMut) : M (Nodes K V) V := do let x ← n.deref; pure x.value
/-- src/map/node.rs:170-177 `value_mut` / `into_value_mut`: the place of the value,
identified by the address of its node. -/
def valueMut (n : NodeMut) : M (Nodes K V) Ptr := do let _ ← n.deref; pure n.ptr
/-- src/map/node.rs:180-182 `into_entry_mut`. -/
def intoEntryMut (n : NodeMut) : M (Nodes K V) (K × Ptr) := do
  let x ← n.deref
  pure (x.key, n.ptr)
/-- src/map/node.rs:185-187 `has_left`. -/
def hasLeft (n : NodeMut) : M (Nodes K V) Bool := do let x ← n.deref; pure x.left.isSome
/-- src/map/node.rs:190-192 `has_right`. -/
def hasRight (n : NodeMut) : M (Nodes K V) Bool := do let x ← n.deref; pure x.right.isSome
/-- src/map/node.rs:195-200, 211-216 `left` / `into_left`. -/
def left (n : NodeMut) : M (Nodes K V) (Option NodeMut) := do let x ← n.deref; newOpt x.left
/-- src/map/node.rs:203-208, 219-224 `right` / `into_right`. -/
def right (n : NodeMut) : M (Nodes K V) (Option NodeMut) := do let x ← n.deref; newOpt x.right
/-- src/map/node.rs:227-229 `set_left`. -/
def setLeft (n : NodeMut) (p : Ptr) : M (Nodes K V) Unit :=
  Slab.updateUnchecked n.ptr fun x => { x with left := some p }
/-- src/map/node.rs:232-234 `set_right`. -/
def setRight (n : NodeMut) (p : Ptr) : M (Nodes K V) Unit :=
  Slab.updateUnchecked n.ptr fun x => { x with right := some p }
/-- src/map/node.rs:238-246 `push_left`. -/
def pushLeft (cfg : Cfg) (n : NodeMut) (key : K) (value : V) : M (Nodes K V) Ptr := do
  let p ← Slab.push cfg (InnerNode.new key value)
  n.setLeft p
  pure p
/-- src/map/node.rs:250-258 `push_right`. -/
def pushRight (cfg : Cfg) (n : NodeMut) (key : K) (value : V) : M (Nodes K V) Ptr := do
  let p ← Slab.push cfg (InnerNode.new key value)
  n.setRight p
  pure p
/-- src/map/node.rs:262-264 `replace_value`. -/
def replaceValue (n : NodeMut) (value : V) : M (Nodes K V) V := do
  let x ← n.deref
  Slab.updateUnchecked n.ptr fun x => { x with value }
  pure x.value

/-- src/map/node.rs:123-135 `PartialEq for NodeMut`, for two handles into the maps
with node slabs `sa`, `sb`. -/
def eq (keq : K → K → Bool) (veq : V → V → Bool) (sameNodes : Bool)
    (sa sb : Nodes K V) (a b : NodeMut) : Out Bool := do
  let x ← sa.getUnchecked a.ptr
  let y ← sb.getUnchecked b.ptr
  pure ((sameNodes && decide (a.ptr = b.ptr)) || (keq x.key y.key && veq x.value y.value))
end NodeMut

/-- A client writing through a `&mut V` obtained from the map (`*r = v`), where the
reference is identified by the address of its node. -/
def writeValue (p : Ptr) (v : V) : M (Nodes K V) Unit :=
  Slab.updateUnchecked p fun x => { x with value := v }

/-! ### `src/map.rs`: `BSTMap` -/

/-- src/map.rs:54-57 `BSTMap<K, V>`. -/
structure BSTMap (K V : Type) where
  nodes : Nodes K V
  root : Option Ptr
deriving DecidableEq, Repr

namespace BSTMap

/-- Run a method of the field `nodes`. -/
@[inline] def onNodes {α : Type} (m : M (Nodes K V) α) : M (BSTMap K V) α := fun s =>
  match m s.nodes with
  | (o, nodes) => (o, { s with nodes })

/-- src/map.rs:59-66, 131-133 `default` / `new`. -/
def new : BSTMap K V := { nodes := Slab.new, root := none }

/-- src/map.rs:146-151 `with_capacity`. -/
def withCapacity (cfg : Cfg) (capacity : Nat) : Out Unit × BSTMap K V :=
  onNodes (Slab.onItems (Arena.growTo cfg capacity)) new

/-- src/map.rs:168-170 `len`. -/
def len (cfg : Cfg) (m : BSTMap K V) : Out Nat := m.nodes.len cfg

/-- src/map.rs:186-188 `capacity`. -/
def capacity (m : BSTMap K V) : Nat := m.nodes.capacity

/-- src/map.rs:204-207 `is_empty`. -/
def isEmpty (cfg : Cfg) (m : BSTMap K V) : Out Bool := do
  let e ← m.nodes.isEmpty cfg
  debugAssert cfg (e == m.root.isNone)
  m.nodes.isEmpty cfg

/-- Fuel for the tree walks: more than the number of nodes. -/
def walkFuel (nodes : Nodes K V) : Nat := nodes.items.len + 1

/-- src/map.rs:734-737 `root`. -/
def rootNode (m : BSTMap K V) : Out (Option (Node K V)) := Node.newOpt m.nodes m.root

/-- src/map.rs:747-750 `root_mut`. -/
def rootMut : M (BSTMap K V) (Option NodeMut) := do
  let m ← M.get
  onNodes (NodeMut.newOpt m.root)

/-- src/map.rs:226-240 `contains_key`. -/
def containsKey (c : Probe K) (m : BSTMap K V) : Out Bool := do
  let root ← m.rootNode
  loop (walkFuel m.nodes) (fun (st : Nat × Option (Node K V)) =>
    match st.2 with
    | none => pure (.inr false)
    | some node =>
      match c st.1 node.key with
      | none => .panic
      | some .lt => do let n ← node.left m.nodes; pure (.inl (st.1 + 1, n))
      | some .gt => do let n ← node.right m.nodes; pure (.inl (st.1 + 1, n))
      | some .eq => pure (.inr true)) (0, root)

/-- src/map.rs:260-274 `get`. -/
def get (c : Probe K) (m : BSTMap K V) : Out (Option V) := do
  let root ← m.rootNode
  loop (walkFuel m.nodes) (fun (st : Nat × Option (Node K V)) =>
    match st.2 with
    | none => pure (.inr none)
    | some node =>
      match c st.1 node.key with
      | none => .panic
      | some .lt => do let n ← node.left m.nodes; pure (.inl (st.1 + 1, n))
      | some .gt => do let n ← node.right m.nodes; pure (.inl (st.1 + 1, n))
      | some .eq => pure (.inr (some node.value))) (0, root)

/-- src/map.rs:333-347 `get_entry`. -/
def getEntry (c : Probe K) (m : BSTMap K V) : Out (Option (K × V)) := do
  let root ← m.rootNode
  loop (walkFuel m.nodes) (fun (st : Nat × Option (Node K V)) =>
    match st.2 with
    | none => pure (.inr none)
    | some node =>
      match c st.1 node.key with
      | none => .panic
      | some .lt => do let n ← node.left m.nodes; pure (.inl (st.1 + 1, n))
      | some .gt => do let n ← node.right m.nodes; pure (.inl (st.1 + 1, n))
      | some .eq => pure (.inr (some (node.key, node.value)))) (0, root)

/-- src/map.rs:299-313 `get_mut`. The returned reference is the address of the
node; see `writeValue`. -/
def getMut (c : Probe K) : M (BSTMap K V) (Option Ptr) := do
  let m ← M.get
  let root ← rootMut
  loop (walkFuel m.nodes) (fun (st : Nat × Option NodeMut) =>
    match st.2 with
    | none => pure (.inr none)
    | some node => do
      let k ← onNodes node.key
      match c st.1 k with
      | none => M.panic
      | some .lt => do let n ← onNodes node.left; pure (.inl (st.1 + 1, n))
      | some .gt => do let n ← onNodes node.right; pure (.inl (st.1 + 1, n))
      | some .eq => do let p ← onNodes node.valueMut; pure (.inr (some p))) (0, root)

/-- src/map.rs:372-386 `get_entry_mut`. -/
def getEntryMut (c : Probe K) : M (BSTMap K V) (Option (K × Ptr)) := do
  let m ← M.get
  let root ← rootMut
  loop (walkFuel m.nodes) (fun (st : Nat × Option NodeMut) =>
    match st.2 with
    | none => pure (.inr none)
    | some node => do
      let k ← onNodes node.key
      match c st.1 k with
      | none => M.panic
      | some .lt => do let n ← onNodes node.left; pure (.inl (st.1 + 1, n))
      | some .gt => do let n ← onNodes node.right; pure (.inl (st.1 + 1, n))
      | some .eq => do let e ← onNodes node.intoEntryMut; pure (.inr (some e))) (0, root)

/-- src/map.rs:407-446 `insert`. -/
def insert (cfg : Cfg) (c : Probe K) (key : K) (value : V) : M (BSTMap K V) (Option V) := do
  let m ← M.get
  match ← rootMut with
  | none =>
    let p ← onNodes (Slab.push cfg (InnerNode.new key value))
    M.modify fun m => { m with root := some p }
    pure none
  | some root =>
    loop (walkFuel m.nodes) (fun (st : Nat × Option NodeMut) =>
      match st.2 with
      | none => pure (.inr none)
      | some node => do
        let k ← onNodes node.key
        match c st.1 k with
        | none => M.panic
        | some .lt => do
          if !(← onNodes node.hasLeft) then
            let _ ← onNodes (node.pushLeft cfg key value)
            pure (.inr none)
          else
            let n ← onNodes node.left
            pure (.inl (st.1 + 1, n))
        | some .gt => do
          if !(← onNodes node.hasRight) then
            let _ ← onNodes (node.pushRight cfg key value)
            pure (.inr none)
          else
            let n ← onNodes node.right
            pure (.inl (st.1 + 1, n))
        | some .eq => do
          let prev ← onNodes (node.replaceValue value)
          pure (.inr (some prev))) (0, some root)

/-- The search loop of `remove_entry`, src/map.rs:491-511: final values of
`parent` and `current`. -/
def findWithParent (c : Probe K) (m : BSTMap K V) : Out (Option Ptr × Option Ptr) :=
  loop (walkFuel m.nodes) (fun (st : Nat × Option Ptr × Option Ptr) =>
    match st with
    | (_, parent, none) => pure (.inr (parent, none))
    | (i, parent, some p) => do
      let node ← m.nodes.getUnchecked p
      match c i node.key with
      | none => .panic
      | some .lt => pure (.inl (i + 1, some p, node.left))
      | some .gt => pure (.inl (i + 1, some p, node.right))
      | some .eq => pure (.inr (parent, some p))) (0, none, m.root)

/-- The loop of src/map.rs:537-552: final values of `inorder_succ_parent` and
`inorder_succ`. -/
def findSucc (nodes : Nodes K V) (parent succ : Ptr) : Out (Ptr × Ptr) :=
  loop (walkFuel nodes) (fun (st : Ptr × Ptr) => do
    let node ← nodes.getUnchecked st.2
    match node.left with
    | some l => pure (.inl (st.2, l))
    | none => pure (.inr st)) (parent, succ)

/-- src/map.rs:514-599: the node that replaces the removed one (`replace_with`). -/
def replacement (p : Ptr) : M (Nodes K V) (Option Ptr) := do
  let node ← M.read (fun s => s.getUnchecked p)
  match node.left, node.right with
  | none, none => pure none
  | some child, none => pure (some child)
  | none, some child => pure (some child)
  | some leftPtr, some rightPtr =>
    let rightChild ← M.read (fun s => s.getUnchecked rightPtr)
    let succ ← (match rightChild.left with
      | some rightChildLeft => do
        let s ← M.get
        let (succParent, succ) ← M.lift (findSucc s rightPtr rightChildLeft)
        let succNode ← M.read (fun s => s.getUnchecked succ)
        Slab.updateUnchecked succParent fun x => { x with left := succNode.right }
        Slab.updateUnchecked succ fun x => { x with right := some rightPtr }
        pure succ
      | none => pure rightPtr)
    Slab.updateUnchecked succ fun x => { x with left := some leftPtr }
    pure (some succ)

/-- src/map.rs:487-631 `remove_entry`. -/
def removeEntry (cfg : Cfg) (c : Probe K) : M (BSTMap K V) (Option (K × V)) := do
  let (parent, current) ← M.read (findWithParent c)
  match current with
  | none => pure none
  | some p =>
    let replaceWith ← onNodes (replacement p)
    match parent with
    | some parentPtr =>
      let parentNode ← onNodes (M.read (fun s => s.getUnchecked parentPtr))
      if parentNode.left = current then
        onNodes (Slab.updateUnchecked parentPtr fun x => { x with left := replaceWith })
      else
        onNodes (Slab.updateUnchecked parentPtr fun x => { x with right := replaceWith })
    | none => M.modify fun m => { m with root := replaceWith }
    let node ← onNodes (Slab.remove cfg p)
    pure (some (node.key, node.value))

/-- src/map.rs:464-469 `remove`. -/
def remove (cfg : Cfg) (c : Probe K) : M (BSTMap K V) (Option V) := do
  let e ← removeEntry cfg c
  pure (e.map (·.2))

/-- src/map.rs:650-655 `clear`. `d` describes the destructor of a node, i.e. of its
key and value. -/
def clear (cfg : Cfg) (d : DropInfo (InnerNode K V)) : M (BSTMap K V) Unit := do
  onNodes (Slab.clear cfg d)
  M.modify fun m => { m with root := none }

/-- src/map.rs:758-760 `reserve`. -/
def reserve (cfg : Cfg) (additional : Nat) : M (BSTMap K V) Unit :=
  onNodes (Slab.reserve cfg additional)

/-- src/map.rs:765-767 `shrink_to_fit`. -/
def shrinkToFit (cfg : Cfg) : M (BSTMap K V) Unit := onNodes (Slab.shrinkToFit cfg)

/-- Drop glue of `BSTMap`: drop the field `nodes`. -/
def drop (cfg : Cfg) (d : DropInfo (InnerNode K V)) : M (BSTMap K V) Unit :=
  onNodes (Slab.drop cfg d)

/-- What a user iterator passed to `extend`/`from_iter` does: the size hint it
reports (any values, possibly wrong), the items it yields, and whether `next`
panics after them instead of returning `None`. -/
structure Source (K V : Type) where
  hint : Nat × Option Nat
  items : List (K × V)
  panics : Bool

/-- The `for` loop of src/map.rs:779-781 and 794-796. `cmps n key` are the
comparisons made by the insertion of the `n`-th item. -/
def insertAll (cfg : Cfg) (cmps : Nat → K → Probe K) : Nat → List (K × V) → M (BSTMap K V) Unit
  | _, [] => pure ()
  | n, (k, v) :: rest => do
    let _ ← insert cfg (cmps n k) k v
    insertAll cfg cmps (n + 1) rest

/-- src/map.rs:771-782 `extend`. -/
def extend (cfg : Cfg) (cmps : Nat → K → Probe K) (src : Source K V) : M (BSTMap K V) Unit := do
  let len := src.hint.2.getD src.hint.1
  reserve cfg len
  insertAll cfg cmps 0 src.items
  if src.panics then M.panic else pure ()

/-- src/map.rs:786-799 `from_iter`. As for `withCapacity`, the map is returned only
if the outcome is `ok`. -/
def fromIter (cfg : Cfg) (cmps : Nat → K → Probe K) (src : Source K V) : Out Unit × BSTMap K V :=
  (do
    let len := src.hint.2.getD src.hint.1
    onNodes (Slab.onItems (Arena.growTo cfg len))
    insertAll cfg cmps 0 src.items
    if src.panics then M.panic else pure () : M (BSTMap K V) Unit) new

/-- src/map.rs:79-97 `clone`. The state is the map being built; `m` is `self`;
`cloneK`/`cloneV` are the user's `Clone` impls (`none` = panic). -/
def clone (cfg : Cfg) (cmps : Nat → K → Probe K) (cloneK : K → Option K) (cloneV : V → Option V)
    (m : BSTMap K V) : Out Unit × BSTMap K V :=
  (do
    let n ← M.lift (m.len cfg)
    onNodes (Slab.onItems (Arena.growTo cfg n))
    let root ← M.lift m.rootNode
    loop (walkFuel m.nodes) (fun (st : Nat × List (Node K V)) =>
      match st.2 with
      | [] => pure (.inr ())
      | node :: stack =>
        match cloneK node.key, cloneV node.value with
        | some k, some v => do
          let _ ← insert cfg (cmps st.1 k) k v
          let r ← M.lift (node.right m.nodes)
          let l ← M.lift (node.left m.nodes)
          pure (.inl (st.1 + 1, l.toList ++ r.toList ++ stack))
        | _, _ => M.panic) (0, root.toList) : M (BSTMap K V) Unit) new

end BSTMap
end BST
