import Verif.Model.Aliasing
import Verif.Model.Simple
/-!
# `simple_bst/src/map.rs` and `simple_bst/src/map/node.rs`, with addresses

`Model/Simple.lean` treats a tree of boxes as a value. Here the boxes are blocks of memory, nodes
refer to each other by address, and the references and raw pointers that the functions create
are subject to aliasing rules (`Model/Aliasing.lean`). `remove_entry` is the only function of
`simple_bst` that uses raw pointers; `insert`, `get`, `get_mut` and `clear` are here as well, so
that there are maps to remove from.

A block has one location for each of the fields `left` and `right` of a node and one for the key
and the value together. The map itself is a block with the node that `root` contains and `len`.

References are reborrowed whenever they are passed to a function of the crate, and boxes whenever
they are passed to or returned from one, also as fields of nodes.

Simplified: the functions of `core` are inlined, with one reborrow instead of several. Variables
that no pointer is taken to are not in memory. Keys and values have no destructors.
-/
namespace BST.Boxes
variable {H K V : Type} [Aliasing H]

/-- A pointer to a node with its tag: `Box<Node>`, `&mut Node`, `&Node`, `*mut Node`. -/
structure Pointer where
  block : Nat
  tag : Nat
deriving DecidableEq, Repr

/-- simple_bst/src/map/node.rs:4-9 `Node<K, V>`, by value. -/
structure Node (K V : Type) where
  key : K
  value : V
  left : Option Pointer
  right : Option Pointer
deriving DecidableEq, Repr

/-- A child: `false` = `left`, `true` = `right`. -/
def Node.child (side : Bool) (n : Node K V) : Option Pointer := if side then n.right else n.left

/-- Assignment to the field. -/
def Node.setChild (side : Bool) (b : Option Pointer) (n : Node K V) : Node K V :=
  if side then { n with right := b } else { n with left := b }

/-- Number of the location of the field in a block. Number 0 is key and value. -/
def fieldOf (side : Bool) : Nat := if side then 2 else 1

/-- The memory with one `SimpleBSTMap<K, V>` in block 0: simple_bst/src/map.rs:20-23. -/
structure Mem (H K V : Type) where
  /-- what the blocks contain: a node, or nothing -/
  nodes : Nat → Option (Node K V)
  len : Nat
  /-- tag of the variable that the map is in -/
  owner : Nat
  /-- number of the next block -/
  next : Nat
  heap : H

/-- simple_bst/src/map.rs:25-32, 63-65 `new`, assigned to a variable. -/
def Mem.new : Mem H K V :=
  match Aliasing.allocate 0 4 (Aliasing.empty : H) with
  | (.ok t, h) => { nodes := fun _ => none, len := 0, owner := t, next := 1, heap := h }
  | (_, h) => { nodes := fun _ => none, len := 0, owner := 0, next := 1, heap := h }

/-! ### Memory -/

/-- Change the heap only. -/
def onHeap {α : Type} (f : M H α) : M (Mem H K V) α := fun s =>
  match f s.heap with
  | (o, h) => (o, { s with heap := h })

/-- A pointer to the same node, derived from this one. -/
def reborrow (k : RefKind) (p : Pointer) : M (Mem H K V) Pointer := do
  let t ← onHeap (Aliasing.derive k p.tag ⟨p.block, 0⟩ 3)
  pure ⟨p.block, t⟩

/-- A reference to one location of a node; its tag. -/
def field (k : RefKind) (p : Pointer) (i : Nat) : M (Mem H K V) Nat :=
  onHeap (Aliasing.derive k p.tag ⟨p.block, i⟩ 1)

/-- An access to one location of a block. -/
def touch (write : Bool) (t b i : Nat) : M (Mem H K V) Unit := onHeap (Aliasing.access write t ⟨b, i⟩)

/-- An access to a node as a whole. -/
def touchNode (write : Bool) (p : Pointer) : M (Mem H K V) Unit := do
  touch write p.tag p.block 0
  touch write p.tag p.block 1
  touch write p.tag p.block 2

/-- What a block contains. Undefined behaviour if there is no node. -/
def load (b : Nat) : M (Mem H K V) (Node K V) := M.read fun s =>
  match s.nodes b with
  | none => .ub
  | some n => .ok n

/-- Change what a block contains. -/
def store (b : Nat) (n : Option (Node K V)) : M (Mem H K V) Unit :=
  M.modify fun s => { s with nodes := fun b' => if b' = b then n else s.nodes b' }

/-- A new block that contains a node. -/
def newBlock (n : Node K V) : M (Mem H K V) Pointer := do
  let s ← M.get
  let t ← onHeap (Aliasing.allocate s.next 3)
  M.modify fun s => { s with next := s.next + 1 }
  touchNode true ⟨s.next, t⟩
  store s.next (some n)
  pure ⟨s.next, t⟩

/-- Move the node out of a block, and free the block. -/
def takeBlock (p : Pointer) : M (Mem H K V) (Node K V) := do
  let n ← load p.block
  touchNode false p
  onHeap (Aliasing.deallocate p.tag p.block 3)
  store p.block none
  pure n

/-! ### Boxes -/

/-- A box is passed on. -/
def moveBox : Option Pointer → M (Mem H K V) (Option Pointer)
  | none => pure none
  | some p => do
    let p ← reborrow .excl p
    pure (some p)

/-- A node is passed on, by value. -/
def moveNode (n : Node K V) : M (Mem H K V) (Node K V) := do
  let l ← moveBox n.left
  let r ← moveBox n.right
  pure { n with left := l, right := r }

/-- `Box::new(n)`. The allocator may refuse, and it does if the address space is used up: a map
with `len` nodes has `len - 1` boxes. -/
def boxNew (cfg : Cfg) (n : Node K V) : M (Mem H K V) Pointer := do
  let n ← moveNode n
  let s ← M.get
  if s.len * cfg.esize < usizeBound ∧ cfg.allocOk s.next cfg.esize then
    let p ← newBlock n
    reborrow .excl p
  else M.lift .abort

/-- `|node| *node` for a box. -/
def unbox (p : Pointer) : M (Mem H K V) (Node K V) := do
  let p ← reborrow .excl p
  let n ← takeBlock p
  moveNode n

/-- Drop of `Option<Box<Node>>`: the fields of the node in order, then the box. Recursive. -/
def dropBox : Nat → Option Pointer → M (Mem H K V) Unit
  | _, none => pure ()
  | 0, some _ => HasDiverge.diverge
  | n + 1, some p => do
    let q ← reborrow .excl p
    let x ← load q.block
    touch false q.tag q.block 1
    dropBox n x.left
    touch false q.tag q.block 2
    dropBox n x.right
    onHeap (Aliasing.deallocate p.tag p.block 3)
    store p.block none

/-- Enough for any recursion and loop here: the number of blocks there ever were. -/
def fuel (s : Mem H K V) : Nat := s.next

/-- Drop of the two boxes of a node. -/
def dropChildren (n : Node K V) : M (Mem H K V) Unit := do
  let s ← M.get
  dropBox (fuel s) n.left
  dropBox (fuel s) n.right

/-! ### `Node` -/

/-- simple_bst/src/map/node.rs:25-27 `key`, and a read of the key (the comparison). -/
def keyOf (p : Pointer) : M (Mem H K V) K := do
  let p ← reborrow .shared p
  let t ← field .shared p 0
  touch false t p.block 0
  let n ← load p.block
  pure n.key

/-- simple_bst/src/map/node.rs:29-31 `value`, and a read of the value. -/
def valueOf (p : Pointer) : M (Mem H K V) V := do
  let p ← reborrow .shared p
  let t ← field .shared p 0
  touch false t p.block 0
  let n ← load p.block
  pure n.value

/-- `mem::replace(p.value_mut(), v)` (simple_bst/src/map/node.rs:33-35). -/
def swapValue (p : Pointer) (v : V) : M (Mem H K V) V := do
  let p ← reborrow .excl p
  let t ← field .excl p 0
  touch false t p.block 0
  touch true t p.block 0
  let n ← load p.block
  store p.block (some { n with value := v })
  pure n.value

/-- simple_bst/src/map/node.rs:37-43 `has_left`, `has_right`. -/
def hasChild (side : Bool) (p : Pointer) : M (Mem H K V) Bool := do
  let p ← reborrow .shared p
  touch false p.tag p.block (fieldOf side)
  let n ← load p.block
  pure (n.child side).isSome

/-- simple_bst/src/map/node.rs:45-51 `left`, `right`. -/
def childRef (side : Bool) (p : Pointer) : M (Mem H K V) (Option Pointer) := do
  let p ← reborrow .shared p
  let t ← field .shared p (fieldOf side)
  touch false t p.block (fieldOf side)
  let n ← load p.block
  match n.child side with
  | none => pure none
  | some b => do
    let r ← reborrow .shared b
    pure (some r)

/-- simple_bst/src/map/node.rs:53-59 `left_mut`, `right_mut`. -/
def childMut (side : Bool) (p : Pointer) : M (Mem H K V) (Option Pointer) := do
  let p ← reborrow .excl p
  let t ← field .excl p (fieldOf side)
  touch false t p.block (fieldOf side)
  let n ← load p.block
  match n.child side with
  | none => pure none
  | some b => do
    let r ← reborrow .excl b
    pure (some r)

/-- `map(|node| *node)`. -/
def unboxOpt : Option Pointer → M (Mem H K V) (Option (Node K V))
  | none => pure none
  | some b => do
    let n ← unbox b
    pure (some n)

/-- simple_bst/src/map/node.rs:61-67 `take_left`, `take_right`. -/
def takeChild (side : Bool) (p : Pointer) : M (Mem H K V) (Option (Node K V)) := do
  let p ← reborrow .excl p
  let t ← field .excl p (fieldOf side)
  touch false t p.block (fieldOf side)
  touch true t p.block (fieldOf side)
  let n ← load p.block
  store p.block (some (n.setChild side none))
  unboxOpt (n.child side)

/-- simple_bst/src/map/node.rs:70-79 `set_left`, `set_right`. The assignment drops the old box. -/
def setChild (cfg : Cfg) (side : Bool) (p : Pointer) (new : Node K V) : M (Mem H K V) Unit := do
  let p ← reborrow .excl p
  let new ← moveNode new
  touch false p.tag p.block (fieldOf side)
  let n ← load p.block
  M.lift (debugAssert cfg (n.child side).isNone)
  let b ← boxNew cfg new
  let s ← M.get
  dropBox (fuel s) (n.child side)
  touch true p.tag p.block (fieldOf side)
  store p.block (some (n.setChild side (some b)))

/-- `new_node.map(Box::new)`. -/
def boxOpt (cfg : Cfg) : Option (Node K V) → M (Mem H K V) (Option Pointer)
  | none => pure none
  | some n => do
    let b ← boxNew cfg n
    pure (some b)

/-- A node is passed on, by value, if there is one. -/
def moveOpt : Option (Node K V) → M (Mem H K V) (Option (Node K V))
  | none => pure none
  | some n => do
    let n ← moveNode n
    pure (some n)

/-- simple_bst/src/map/node.rs:82-89 `replace_left`, `replace_right`. -/
def replaceChild (cfg : Cfg) (side : Bool) (p : Pointer) (new : Option (Node K V)) :
    M (Mem H K V) (Option (Node K V)) := do
  let p ← reborrow .excl p
  let new ← moveOpt new
  let t ← field .excl p (fieldOf side)
  let b ← boxOpt cfg new
  touch false t p.block (fieldOf side)
  touch true t p.block (fieldOf side)
  let n ← load p.block
  store p.block (some (n.setChild side b))
  unboxOpt (n.child side)

/-- `Option::unwrap`. -/
def unwrap : Option (Node K V) → M (Mem H K V) (Node K V)
  | none => M.panic
  | some n => pure n

/-- simple_bst/src/map/node.rs:21-23 `into_inner`. The boxes in the node are dropped. -/
def intoInner (n : Node K V) : M (Mem H K V) (K × V) := do
  dropChildren n
  pure (n.key, n.value)

/-! ### `SimpleBSTMap` -/

/-- A call with `&mut self` (`&self`): the tag of `self`. -/
def callMap (k : RefKind) (t : Nat) : M (Mem H K V) Nat := onHeap (Aliasing.derive k t ⟨0, 0⟩ 4)

/-- `self.root.as_mut()`, `self.root.as_ref()`: a reference to the node in the field `root`. -/
def rootOf (k : RefKind) (self : Nat) : M (Mem H K V) (Option Pointer) := do
  let p ← reborrow k ⟨0, self⟩
  touch false p.tag 0 0
  let s ← M.get
  match s.nodes 0 with
  | none => pure none
  | some _ => do
    let r ← reborrow k p
    pure (some r)

/-- simple_bst/src/map.rs:602-604, 614-616 `root`, `root_mut`. -/
def callRoot (k : RefKind) (self : Nat) : M (Mem H K V) (Option Pointer) := do
  let t ← callMap k self
  rootOf k t

/-- `self.len += 1`. -/
def addLen (cfg : Cfg) (self : Nat) : M (Mem H K V) Unit := do
  touch false self 0 3
  let s ← M.get
  let n ← M.lift (addU cfg s.len 1)
  touch true self 0 3
  M.modify fun s => { s with len := n }

/-- `self.len -= 1`. -/
def subLen (cfg : Cfg) (self : Nat) : M (Mem H K V) Unit := do
  touch false self 0 3
  let s ← M.get
  let n ← M.lift (subU cfg s.len 1)
  touch true self 0 3
  M.modify fun s => { s with len := n }

/-- One round of the loop of `get` (simple_bst/src/map.rs:161-167). -/
def getStep (c : Probe K) (st : Nat × Option Pointer) :
    M (Mem H K V) ((Nat × Option Pointer) ⊕ Option V) :=
  match st.2 with
  | none => pure (.inr none)
  | some p => do
    let k ← keyOf p
    match c st.1 k with
    | none => M.panic
    | some .lt => do let n ← childRef false p; pure (.inl (st.1 + 1, n))
    | some .gt => do let n ← childRef true p; pure (.inl (st.1 + 1, n))
    | some .eq => do let v ← valueOf p; pure (.inr (some v))

/-- simple_bst/src/map.rs:156-170 `get`, and a read of the result. -/
def get (c : Probe K) : M (Mem H K V) (Option V) := do
  let s ← M.get
  let self ← callMap .shared s.owner
  let root ← callRoot .shared self
  loop (fuel s + 1) (getStep c) (0, root)

/-- One round of the loop of `get_mut` (simple_bst/src/map.rs:200-206). -/
def getMutStep (c : Probe K) (st : Nat × Option Pointer) :
    M (Mem H K V) ((Nat × Option Pointer) ⊕ Option Pointer) :=
  match st.2 with
  | none => pure (.inr none)
  | some p => do
    let k ← keyOf p
    match c st.1 k with
    | none => M.panic
    | some .lt => do let n ← childMut false p; pure (.inl (st.1 + 1, n))
    | some .gt => do let n ← childMut true p; pure (.inl (st.1 + 1, n))
    | some .eq => pure (.inr (some p))

/-- `map.get_mut(q).map(|r| mem::replace(r, w))` for simple_bst/src/map.rs:195-209 `get_mut`. -/
def getMut (c : Probe K) (w : V) : M (Mem H K V) (Option V) := do
  let s ← M.get
  let self ← callMap .excl s.owner
  let root ← callRoot .excl self
  match ← loop (fuel s + 1) (getMutStep c) (0, root) with
  | none => pure none
  | some p => do
    let v ← swapValue p w
    pure (some v)

/-- One round of the loop of `insert` (simple_bst/src/map.rs:278-306). -/
def insertStep (cfg : Cfg) (self : Nat) (c : Probe K) (key : K) (value : V)
    (st : Nat × Option Pointer) : M (Mem H K V) ((Nat × Option Pointer) ⊕ Option V) :=
  match st.2 with
  | none => pure (.inr none)
  | some p => do
    let k ← keyOf p
    match c st.1 k with
    | none => M.panic
    | some .lt => do
      let h ← hasChild false p
      if !h then do
        setChild cfg false p ⟨key, value, none, none⟩
        addLen cfg self
        pure (.inr none)
      else do
        let n ← childMut false p
        pure (.inl (st.1 + 1, n))
    | some .gt => do
      let h ← hasChild true p
      if !h then do
        setChild cfg true p ⟨key, value, none, none⟩
        addLen cfg self
        pure (.inr none)
      else do
        let n ← childMut true p
        pure (.inl (st.1 + 1, n))
    | some .eq => do
      let prev ← swapValue p value
      pure (.inr (some prev))

/-- simple_bst/src/map.rs:264-310 `insert`. -/
def insert (cfg : Cfg) (c : Probe K) (key : K) (value : V) : M (Mem H K V) (Option V) := do
  let s ← M.get
  let self ← callMap .excl s.owner
  match ← callRoot .excl self with
  | none => do
    touchNode true ⟨0, self⟩
    store 0 (some ⟨key, value, none, none⟩)
    touch false self 0 3
    let s ← M.get
    M.lift (debugAssert cfg (s.len == 0))
    touch true self 0 3
    M.modify fun s => { s with len := 1 }
    pure none
  | some root => loop (fuel s) (insertStep cfg self c key value) (0, some root)

/-- `as_ptr_mut` (simple_bst/src/map.rs:363-365). -/
def asPtrMut : Option Pointer → M (Mem H K V) (Option Pointer)
  | none => pure none
  | some p => do
    let r ← reborrow .raw p
    pure (some r)

/-- One round of the search loop of `remove_entry` (simple_bst/src/map.rs:370-388); the loop
variables are the number of comparisons made so far, `parent` and `current` (null = `none`). -/
def findStep (c : Probe K) (st : Nat × Option Pointer × Option Pointer) :
    M (Mem H K V) ((Nat × Option Pointer × Option Pointer) ⊕ (Option Pointer × Option Pointer)) :=
  match st.2.2 with
  | none => pure (.inr (st.2.1, none))
  | some p => do
    let node ← reborrow .excl p
    let k ← keyOf node
    match c st.1 k with
    | none => M.panic
    | some .lt => do
      let r ← childMut false node
      let n ← asPtrMut r
      pure (.inl (st.1 + 1, some p, n))
    | some .gt => do
      let r ← childMut true node
      let n ← asPtrMut r
      pure (.inl (st.1 + 1, some p, n))
    | some .eq => pure (.inr (st.2.1, some p))

/-- One round of the loop of simple_bst/src/map.rs:412-425; the loop variables are
`inorder_succ_parent` and `inorder_succ`. -/
def succStep (st : Pointer × Pointer) : M (Mem H K V) ((Pointer × Pointer) ⊕ (Pointer × Pointer)) := do
  let node ← reborrow .excl st.2
  match ← childMut false node with
  | some l => do
    let r ← reborrow .raw l
    pure (.inl (st.2, r))
  | none => pure (.inr st)

/-- simple_bst/src/map.rs:409-448, for the variable `right_child` in its block and the pointer to
its left child: cut out the leftmost node. -/
def cutSucc (cfg : Cfg) (rightChild left : Pointer) : M (Mem H K V) (Node K V) := do
  let succ ← reborrow .raw left
  let r ← reborrow .excl rightChild
  let parent ← reborrow .raw r
  let s ← M.get
  let x ← loop (fuel s) succStep (parent, succ)
  let node ← reborrow .excl x.2
  let succRight ← takeChild true node
  let parentNode ← reborrow .excl x.1
  let old ← replaceChild cfg false parentNode succRight
  unwrap old

/-- simple_bst/src/map.rs:406-463 `inorder_succ_node`, taken out of `right_child`. -/
def successor (cfg : Cfg) (rightChild : Node K V) : M (Mem H K V) (Node K V) := do
  let rc ← newBlock rightChild
  match ← childMut false rc with
  | some left => do
    let n ← cutSucc cfg rc left
    let node ← newBlock n
    let right ← takeBlock rc
    setChild cfg true node right
    takeBlock node
  | none => takeBlock rc

/-- simple_bst/src/map.rs:397-472: the node that replaces the removed one, whose children were
`left` and `right`. -/
def replacement (cfg : Cfg) (left right : Option (Node K V)) : M (Mem H K V) (Option (Node K V)) :=
  match left, right with
  | child, none => pure child
  | none, child => pure child
  | some leftChild, some rightChild => do
    let n ← successor cfg rightChild
    let node ← newBlock n
    setChild cfg false node leftChild
    let n ← takeBlock node
    pure (some n)

/-- simple_bst/src/map.rs:474-505: put `replaceWith` where the node `current` is, and return what
the node contained. -/
def unlink (cfg : Cfg) (self : Nat) (parent : Option Pointer) (current : Pointer)
    (replaceWith : Option (Node K V)) : M (Mem H K V) (K × V) :=
  match parent with
  | some parent => do
    let parentNode ← reborrow .excl parent
    let left ← childRef false parentNode
    if left.map (·.block) = some current.block then
      let old ← replaceChild cfg false parentNode replaceWith
      let node ← unwrap old
      intoInner node
    else
      let old ← replaceChild cfg true parentNode replaceWith
      let node ← unwrap old
      intoInner node
  | none => do
    let p ← reborrow .excl ⟨0, self⟩
    let new ← moveOpt replaceWith
    touchNode false p
    touchNode true p
    let s ← M.get
    store 0 new
    let node ← unwrap (s.nodes 0)
    let node ← moveNode node
    intoInner node

/-- simple_bst/src/map.rs:391-505: remove the node `current`, which was found. -/
def takeOut (cfg : Cfg) (self : Nat) (parent : Option Pointer) (current : Pointer) :
    M (Mem H K V) (K × V) := do
  let node ← reborrow .excl current
  subLen cfg self
  let left ← takeChild false node
  let right ← takeChild true node
  let replaceWith ← replacement cfg left right
  unlink cfg self parent current replaceWith

/-- What follows the search loop of `remove_entry` (simple_bst/src/map.rs:390-505). -/
def removeFound (cfg : Cfg) (self : Nat) (x : Option Pointer × Option Pointer) :
    M (Mem H K V) (Option (K × V)) :=
  match x.2 with
  | none => pure none
  | some current => do
    let e ← takeOut cfg self x.1 current
    pure (some e)

/-- simple_bst/src/map.rs:351-506 `remove_entry`. -/
def removeEntry (cfg : Cfg) (c : Probe K) : M (Mem H K V) (Option (K × V)) := do
  let s ← M.get
  let self ← callMap .excl s.owner
  match ← rootOf .excl self with
  | none => pure none
  | some root => do
    let current ← reborrow .raw root
    let x ← loop (fuel s + 1) (findStep c) (0, none, some current)
    removeFound cfg self x

/-- The old contents of the map are dropped (simple_bst/src/map.rs:521-523, and at the end of its
life). -/
def dropRoot (self : Nat) : M (Mem H K V) Unit := do
  let p ← reborrow .excl ⟨0, self⟩
  touchNode false p
  let s ← M.get
  match s.nodes 0 with
  | none => pure ()
  | some n => dropChildren n

/-- simple_bst/src/map.rs:521-523 `clear`. -/
def clear : M (Mem H K V) Unit := do
  let s ← M.get
  let self ← callMap .excl s.owner
  dropRoot self
  touchNode true ⟨0, self⟩
  touch true self 0 3
  store 0 none
  M.modify fun s => { s with len := 0 }

/-- The end of the life of the map: it is dropped, and the variable goes out of scope. -/
def dropMap : M (Mem H K V) Unit := do
  let s ← M.get
  dropRoot s.owner
  onHeap (Aliasing.deallocate s.owner 0 4)
  store 0 none

end BST.Boxes
