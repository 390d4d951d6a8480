import Verif.Model.Borrows
import Verif.Model.Iter
/-!
# The references that `src/slab.rs`, `src/map.rs` and `src/map/*.rs` create

`Model/Borrows.lean` has the arena; here is the code on top of it, for any aliasing rules. Every
function creates, keeps and uses its references (tags) as the Rust code does, and computes the
same as the function of the same name in `Model/Slab.lean`, `Model/Map.lean` or `Model/Iter.lean`.

Memory locations are whole slots: a reference to the `value` variant of an entry, or to a field
of a node, is identified with the reference it is derived from. References to the slab itself
(`nodes: &UnsafeSlab`, `*mut UnsafeSlab`) are not tracked; it lives outside of the chunks.
-/
namespace BST
variable {H K V : Type} [Aliasing H]

/-- A map with the tags of the chunk pointers of its arena, and the heap. -/
structure TMap (H K V : Type) where
  map : BSTMap K V
  tags : List Nat
  heap : H

/-- A reference to a tree node, with its tag: the field `node` of a `Node` or `NodeMut`
(src/map/node.rs:10-13, 101-104), or what an iterator yields. -/
structure NodeRef where
  ptr : Ptr
  tag : Nat
deriving DecidableEq, Repr

namespace TMap

/-- The arena of the map. -/
def items (s : TMap H K V) : Tagged H (Entry (InnerNode K V)) :=
  { arena := s.map.nodes.items, tags := s.tags, heap := s.heap }

/-- Run a method of the field `items` of the field `nodes`. -/
def onItems {α : Type} (f : M (Tagged H (Entry (InnerNode K V))) α) : M (TMap H K V) α := fun s =>
  match f s.items with
  | (o, t) => (o, { map := { s.map with nodes := { s.map.nodes with items := t.arena } }
                    tags := t.tags, heap := t.heap })

/-- Change the contents of memory only. -/
def onMap {α : Type} (f : M (BSTMap K V) α) : M (TMap H K V) α := fun s =>
  match f s.map with
  | (o, m) => (o, { s with map := m })

/-- Change the contents of the slab only. -/
def onNodes {α : Type} (f : M (Nodes K V) α) : M (TMap H K V) α := onMap (BSTMap.onNodes f)

/-- An access to a slot through a reference. -/
def access (write : Bool) (t : Nat) (p : Ptr) : M (TMap H K V) Unit :=
  onItems (Tagged.onHeap (Aliasing.access write t p))

/-- A new map. -/
def new : TMap H K V := { map := .new, tags := [], heap := Aliasing.empty }

/-! ### `src/slab.rs` -/

/-- src/slab.rs:130-132 `get_unchecked`; returns the tag of the reference. -/
def getRef (p : Ptr) : M (TMap H K V) Nat := do
  let _ ← M.read fun s => s.map.nodes.getUnchecked p
  onItems (Tagged.getUnchecked p)

/-- src/slab.rs:140-142 `get_unchecked_mut`; returns the tag of the reference. -/
def getRefMut (p : Ptr) : M (TMap H K V) Nat := do
  let _ ← M.read fun s => s.map.nodes.getUnchecked p
  onItems (Tagged.getUncheckedMut p)

/-- Read the node behind a reference. -/
def deref (n : NodeRef) : M (TMap H K V) (InnerNode K V) := do
  access false n.tag n.ptr
  M.read fun s => s.map.nodes.getUnchecked n.ptr

/-- Write to the node behind a reference. -/
def assign (n : NodeRef) (f : InnerNode K V → InnerNode K V) : M (TMap H K V) Unit := do
  access true n.tag n.ptr
  onNodes (Slab.updateUnchecked n.ptr f)

/-- src/slab.rs:149-168 `push`: `entry` is one reference, read and then written through. -/
def push (cfg : Cfg) (value : InnerNode K V) : M (TMap H K V) Ptr := do
  let s ← M.get
  match s.map.nodes.freeHead with
  | some head =>
    let t ← onItems (Tagged.getUncheckedMut head)
    access false t head
    let entry ← M.read fun s => s.map.nodes.items.getUnchecked head
    let nextFree ← M.lift (Slab.Entry.asFree entry)
    onNodes (M.modify fun s => { s with freeHead := nextFree })
    let n ← M.lift (subU cfg s.map.nodes.freeLen 1)
    onNodes (M.modify fun s => { s with freeLen := n })
    access true t head
    onNodes (Slab.onItems (Arena.setUnchecked head (.value value)))
    pure head
  | none => onItems (Tagged.alloc cfg (.value value))

/-- src/slab.rs:183-198 `remove`: `mem::replace` reads and writes through one reference. -/
def remove (cfg : Cfg) (p : Ptr) : M (TMap H K V) (InnerNode K V) := do
  let t ← onItems (Tagged.getUncheckedMut p)
  access false t p
  access true t p
  onNodes (Slab.remove cfg p)

/-- src/slab.rs:257-266 `reset_internal_state`; entries have no drop glue, so `items.clear()`
creates no reference. -/
def resetInternalState (cfg : Cfg) (how : ChunkPtr) : M (TMap H K V) Unit := do
  onItems (Tagged.clear cfg how false)
  onNodes (M.modify fun s => { s with freeHead := none, freeLen := 0 })

/-- The loop of src/slab.rs:222-233. -/
def freePointers : M (TMap H K V) (List Ptr) := do
  let s ← M.get
  loop (s.map.nodes.items.len + 1) (fun (st : Option Ptr × List Ptr) =>
    match st.1 with
    | none => pure (.inr st.2)
    | some p => do
      let t ← onItems (Tagged.getUnchecked p)
      access false t p
      let entry ← M.read fun s => s.map.nodes.items.getUnchecked p
      let next ← M.lift (Slab.Entry.asFree entry)
      pure (.inl (next, p :: st.2))) (s.map.nodes.freeHead, [])

/-- src/slab.rs:205-249 `clear`: the iterator (`iter_mut().pointers()`) creates a reference to
every entry, free or not; the destructor may read and write the value. -/
def clearNodes (cfg : Cfg) (how : ChunkPtr) (d : DropInfo (InnerNode K V)) :
    M (TMap H K V) Unit := do
  let s ← M.get
  if !d.needsDrop || s.map.nodes.items.len == s.map.nodes.freeLen then
    resetInternalState cfg how
  else
    let frees ← freePointers
    loop (s.map.nodes.items.len + 1) (fun (it : Arena.Iter) => do
      let s ← M.get
      let (o, it) ← M.lift (it.nextPtr cfg s.map.nodes.items)
      match o with
      | none => pure (.inr ())
      | some (p, entry) =>
        let t ← onItems (Tagged.getUncheckedMut p)
        if p ∈ frees then pure (.inl it)
        else
          access true t p
          onNodes (Slab.dropEntry d p entry)
          pure (.inl it)) s.map.nodes.items.iter
    resetInternalState cfg how

/-- src/slab.rs:289-298 `Drop for UnsafeSlab` and the drop of `items`, which happens even if a
destructor panicked; this is all that dropping a map does. -/
def drop (cfg : Cfg) (how : ChunkPtr) (d : DropInfo (InnerNode K V)) : M (TMap H K V) Unit := fun s =>
  let (o, s) := if !d.needsDrop then (.ok (), s) else clearNodes cfg how d s
  match o with
  | .ok () => onItems (Tagged.drop cfg how false) s
  | .panic =>
    match onItems (Tagged.drop cfg how false) s with
    | (.ok (), s) => (.panic, s)
    | r => r
  | o => (o, s)

/-! ### `src/map/node.rs` -/

/-- src/map/node.rs:57-62 `Node::new`, or 148-157 `NodeMut::new` if `ex`. -/
def node (ex : Bool) (p : Ptr) : M (TMap H K V) NodeRef := do
  let t ← if ex then getRefMut p else getRef p
  pure { ptr := p, tag := t }

/-- `Option<Ptr>::map(|ptr| Node::new(nodes, ptr))`, or the same with `NodeMut`; with the root,
src/map.rs:734-737 `root` and 747-750 `root_mut`. -/
def nodeOpt (ex : Bool) : Option Ptr → M (TMap H K V) (Option NodeRef)
  | none => pure none
  | some p => do
    let n ← node ex p
    pure (some n)

/-- src/map/node.rs:85-88 `Node::left`, 195-200 and 211-216 `NodeMut::left`, `into_left`. -/
def left (ex : Bool) (n : NodeRef) : M (TMap H K V) (Option NodeRef) := do
  let x ← deref n
  nodeOpt ex x.left

/-- src/map/node.rs:91-94 `Node::right`, 203-208 and 219-224 `NodeMut::right`, `into_right`. -/
def right (ex : Bool) (n : NodeRef) : M (TMap H K V) (Option NodeRef) := do
  let x ← deref n
  nodeOpt ex x.right

/-- src/map/node.rs:238-246 `push_left`: `self.node` stays in use across `nodes.push`. -/
def pushLeft (cfg : Cfg) (n : NodeRef) (key : K) (value : V) : M (TMap H K V) Ptr := do
  let p ← push cfg (InnerNode.new key value)
  assign n fun x => { x with left := some p }
  pure p

/-- src/map/node.rs:250-258 `push_right`. -/
def pushRight (cfg : Cfg) (n : NodeRef) (key : K) (value : V) : M (TMap H K V) Ptr := do
  let p ← push cfg (InnerNode.new key value)
  assign n fun x => { x with right := some p }
  pure p

/-- src/map/node.rs:262-264 `replace_value`; also `mem::replace` by a client through a
`&mut V` that it got from the map. -/
def replaceValue (n : NodeRef) (value : V) : M (TMap H K V) V := do
  let x ← deref n
  assign n fun x => { x with value }
  pure x.value

/-! ### `src/map.rs` -/

/-- The loop of src/map.rs:226-240, 260-274, 333-347 (`contains_key`, `get`, `get_entry`) and, if
`ex`, 299-313, 372-386 (`get_mut`, `get_entry_mut`), up to the node that was found. -/
def descend (ex : Bool) (c : Probe K) : M (TMap H K V) (Option NodeRef) := do
  let s ← M.get
  let root ← nodeOpt ex s.map.root
  loop (BSTMap.walkFuel s.map.nodes) (fun (st : Nat × Option NodeRef) =>
    match st.2 with
    | none => pure (.inr none)
    | some n => do
      let x ← deref n
      match c st.1 x.key with
      | none => M.panic
      | some .lt => do let l ← left ex n; pure (.inl (st.1 + 1, l))
      | some .gt => do let r ← right ex n; pure (.inl (st.1 + 1, r))
      | some .eq => pure (.inr (some n))) (0, root)

/-- src/map.rs:226-240 `contains_key`. -/
def containsKey (c : Probe K) : M (TMap H K V) Bool := do
  let n ← descend false c
  pure n.isSome

/-- src/map.rs:333-347 `get_entry` (`get`, 260-274, is the same without the key), and the client
reading what it got. -/
def getEntry (c : Probe K) : M (TMap H K V) (Option (K × V)) := do
  match ← descend false c with
  | none => pure none
  | some n =>
    let x ← deref n
    pure (some (x.key, x.value))

/-- src/map.rs:260-274 `get`. -/
def getValue (c : Probe K) : M (TMap H K V) (Option V) := do
  let e ← getEntry c
  pure (e.map (·.2))

/-- src/map.rs:299-313 `get_mut`, 372-386 `get_entry_mut`. -/
def getMut (c : Probe K) : M (TMap H K V) (Option NodeRef) := descend true c

/-- src/map.rs:407-446 `insert`. -/
def insert (cfg : Cfg) (c : Probe K) (key : K) (value : V) : M (TMap H K V) (Option V) := do
  let s ← M.get
  match ← nodeOpt true s.map.root with
  | none =>
    let p ← push cfg (InnerNode.new key value)
    onMap (M.modify fun m => { m with root := some p })
    pure none
  | some root =>
    loop (BSTMap.walkFuel s.map.nodes) (fun (st : Nat × Option NodeRef) =>
      match st.2 with
      | none => pure (.inr none)
      | some n => do
        let x ← deref n
        match c st.1 x.key with
        | none => M.panic
        | some .lt => do
          let x ← deref n
          if !x.left.isSome then
            let _ ← pushLeft cfg n key value
            pure (.inr none)
          else
            let l ← left true n
            pure (.inl (st.1 + 1, l))
        | some .gt => do
          let x ← deref n
          if !x.right.isSome then
            let _ ← pushRight cfg n key value
            pure (.inr none)
          else
            let r ← right true n
            pure (.inl (st.1 + 1, r))
        | some .eq => do
          let prev ← replaceValue n value
          pure (.inr (some prev))) (0, some root)

/-- The search loop of src/map.rs:491-511. -/
def findWithParent (c : Probe K) : M (TMap H K V) (Option Ptr × Option Ptr) := do
  let s ← M.get
  loop (BSTMap.walkFuel s.map.nodes) (fun (st : Nat × Option Ptr × Option Ptr) =>
    match st with
    | (_, parent, none) => pure (.inr (parent, none))
    | (i, parent, some p) => do
      let n ← node false p
      let x ← deref n
      match c i x.key with
      | none => M.panic
      | some .lt => pure (.inl (i + 1, some p, x.left))
      | some .gt => pure (.inl (i + 1, some p, x.right))
      | some .eq => pure (.inr (parent, some p))) (0, none, s.map.root)

/-- The loop of src/map.rs:537-552. -/
def findSucc (parent succ : Ptr) : M (TMap H K V) (Ptr × Ptr) := do
  let s ← M.get
  loop (BSTMap.walkFuel s.map.nodes) (fun (st : Ptr × Ptr) => do
    let n ← node false st.2
    let x ← deref n
    match x.left with
    | some l => pure (.inl (st.2, l))
    | none => pure (.inr st)) (parent, succ)

/-- src/map.rs:514-599. -/
def replacement (p : Ptr) : M (TMap H K V) (Option Ptr) := do
  let n ← node true p
  let x ← deref n
  match x.left, x.right with
  | none, none => pure none
  | some child, none => pure (some child)
  | none, some child => pure (some child)
  | some leftPtr, some rightPtr =>
    let rightChild ← node false rightPtr
    let y ← deref rightChild
    let succ ← (match y.left with
      | some rightChildLeft => do
        let (succParent, succ) ← findSucc rightPtr rightChildLeft
        let succNode ← node true succ
        let z ← deref succNode
        let succParentNode ← node true succParent
        assign succParentNode fun x => { x with left := z.right }
        let succNode ← node true succ
        assign succNode fun x => { x with right := some rightPtr }
        pure succ
      | none => pure rightPtr)
    let succNode ← node true succ
    assign succNode fun x => { x with left := some leftPtr }
    pure (some succ)

/-- src/map.rs:487-631 `remove_entry`. -/
def removeEntry (cfg : Cfg) (c : Probe K) : M (TMap H K V) (Option (K × V)) := do
  let (parent, current) ← findWithParent c
  match current with
  | none => pure none
  | some p =>
    let replaceWith ← replacement p
    match parent with
    | some parentPtr =>
      let parentNode ← node true parentPtr
      let y ← deref parentNode
      if y.left = current then
        assign parentNode fun x => { x with left := replaceWith }
      else
        assign parentNode fun x => { x with right := replaceWith }
    | none => onMap (M.modify fun m => { m with root := replaceWith })
    let x ← remove cfg p
    pure (some (x.key, x.value))

/-- src/map.rs:650-655 `clear`. -/
def clear (cfg : Cfg) (how : ChunkPtr) (d : DropInfo (InnerNode K V)) : M (TMap H K V) Unit := do
  clearNodes cfg how d
  onMap (M.modify fun m => { m with root := none })

/-- src/map.rs:758-760 `reserve`. -/
def reserve (cfg : Cfg) (additional : Nat) : M (TMap H K V) Unit :=
  onItems (Tagged.reserve cfg additional)

/-- src/map.rs:765-767 `shrink_to_fit`. -/
def shrinkToFit (cfg : Cfg) (how : ChunkPtr) : M (TMap H K V) Unit :=
  onItems (Tagged.shrinkToFit cfg how)

/-- The `for` loop of src/map.rs:779-781 and 794-796. -/
def insertAll (cfg : Cfg) (cmps : Nat → K → Probe K) : Nat → List (K × V) → M (TMap H K V) Unit
  | _, [] => pure ()
  | n, (k, v) :: rest => do
    let _ ← insert cfg (cmps n k) k v
    insertAll cfg cmps (n + 1) rest

/-- src/map.rs:771-782 `extend`. -/
def extend (cfg : Cfg) (cmps : Nat → K → Probe K) (src : BSTMap.Source K V) :
    M (TMap H K V) Unit := do
  let len := src.hint.2.getD src.hint.1
  reserve cfg len
  insertAll cfg cmps 0 src.items
  if src.panics then M.panic else pure ()

/-- `StableArena::with_capacity` for a new map (src/map.rs:146-151). -/
def growTo (cfg : Cfg) (n : Nat) : M (TMap H K V) Unit :=
  onItems (Tagged.grow (Arena.growTo cfg n))

/-- src/map.rs:786-799 `from_iter`. -/
def fromIter (cfg : Cfg) (cmps : Nat → K → Probe K) (src : BSTMap.Source K V) :
    M (TMap H K V) Unit := do
  let len := src.hint.2.getD src.hint.1
  growTo cfg len
  insertAll cfg cmps 0 src.items
  if src.panics then M.panic else pure ()

/-- Run a method of the first or of the second of two maps. -/
def onFst {α : Type} (f : M (TMap H K V) α) : M (TMap H K V × TMap H K V) α := fun s =>
  match f s.1 with
  | (o, a) => (o, (a, s.2))
/-- See `onFst`. -/
def onSnd {α : Type} (f : M (TMap H K V) α) : M (TMap H K V × TMap H K V) α := fun s =>
  match f s.2 with
  | (o, b) => (o, (s.1, b))

/-- src/map.rs:79-97 `clone`: the first map is `self`, the second is `cloned`. The references in
`stack` point into the first. -/
def clone (cfg : Cfg) (cmps : Nat → K → Probe K) (cloneK : K → Option K) (cloneV : V → Option V) :
    M (TMap H K V × TMap H K V) Unit := do
  let s ← M.get
  let n ← M.lift (s.1.map.len cfg)
  onSnd (growTo cfg n)
  let root ← onFst (nodeOpt false s.1.map.root)
  loop (BSTMap.walkFuel s.1.map.nodes) (fun (st : Nat × List NodeRef) =>
    match st.2 with
    | [] => pure (.inr ())
    | node :: stack => do
      let x ← onFst (deref node)
      match cloneK x.key, cloneV x.value with
      | some k, some v => do
        let _ ← onSnd (insert cfg (cmps st.1 k) k v)
        let r ← onFst (right false node)
        let l ← onFst (left false node)
        pure (.inl (st.1 + 1, l.toList ++ r.toList ++ stack))
      | _, _ => M.panic) (0, root.toList)

/-! ### `src/map/{preorder,inorder,postorder}.rs` -/

/-- The loop of src/map/inorder.rs:17-23, 38-44, 63-69, 90-96. -/
def pushLeftSpine (current : Option Ptr) (stack : Stack) : M (TMap H K V) Stack := do
  let s ← M.get
  loop (BSTMap.walkFuel s.map.nodes) (fun (st : Option Ptr × Stack) =>
    match st.1 with
    | none => pure (.inr st.2)
    | some p => do
      let n ← node false p
      let x ← deref n
      pure (.inl (x.left, p :: st.2))) (current, stack)

/-- src/map/postorder.rs:15-29, 88-102 `new`. -/
def newPostorder (root : Option Ptr) : M (TMap H K V) Stack := do
  let s ← M.get
  loop (BSTMap.walkFuel s.map.nodes) (fun (st : Option Ptr × Stack) =>
    match st.1 with
    | none => pure (.inr st.2)
    | some p => do
      let n ← node false p
      let x ← deref n
      pure (.inl (x.left, p :: (x.right.toList ++ st.2)))) (root, [])

/-- src/map/preorder.rs:26-33, 58-72 `next`. -/
def nextPreorder (ex : Bool) : Stack → M (TMap H K V) (Option NodeRef × Stack)
  | [] => pure (none, [])
  | top :: stack => do
    let n ← node ex top
    let x ← deref n
    let stack := x.right.toList ++ stack
    let stack := x.left.toList ++ stack
    pure (some n, stack)

/-- src/map/inorder.rs:33-47 `next`: the reference is kept across the loop. -/
def nextInorder : Stack → M (TMap H K V) (Option NodeRef × Stack)
  | [] => pure (none, [])
  | top :: stack => do
    let n ← node false top
    let x ← deref n
    let stack ← pushLeftSpine x.right stack
    pure (some n, stack)

/-- src/map/inorder.rs:79-102 `next`. -/
def nextMutInorder : Stack → M (TMap H K V) (Option NodeRef × Stack)
  | [] => pure (none, [])
  | top :: stack => do
    let n ← node false top
    let x ← deref n
    let stack ← pushLeftSpine x.right stack
    let n ← node true top
    pure (some n, stack)

/-- The inner `loop` of src/map/postorder.rs:58-71, 140-153. -/
def pushSpine (node' : NodeRef) (stack : Stack) : M (TMap H K V) Stack := do
  let s ← M.get
  loop (BSTMap.walkFuel s.map.nodes) (fun (st : NodeRef × Stack) => do
    let (n, stack) := st
    let x ← deref n
    let stack := x.right.toList ++ stack
    let stack := n.ptr :: stack
    match x.left with
    | some l => do
      let n ← node false l
      pure (.inl (n, stack))
    | none => pure (.inr stack)) (node', stack)

/-- src/map/postorder.rs:36-75 `next`; if `ex`, 109-157, which creates another reference when
it is about to return. -/
def nextPostorder (ex : Bool) (stack : Stack) : M (TMap H K V) (Option NodeRef × Stack) := do
  let s ← M.get
  loop (BSTMap.walkFuel s.map.nodes) (fun (stack : Stack) =>
    match stack with
    | [] => pure (.inr (none, []))
    | current :: stack => do
      let n ← node false current
      let x ← deref n
      match x.right, stack with
      | some right, top :: rest =>
        if top = right then
          let n ← node false right
          let stack ← pushSpine n (current :: rest)
          pure (.inl stack)
        else
          let n ← if ex then node true current else pure n
          pure (.inr (some n, top :: rest))
      | _, stack => do
        let n ← if ex then node true current else pure n
        pure (.inr (some n, stack))) stack

/-! ### Traits of `src/map.rs` and `src/map/node.rs` -/

/-- src/map/node.rs:15-27 `Debug for Node`. -/
def debugNode (dk : K → String) (dv : V → String) : Nat → NodeRef → M (TMap H K V) String
  | 0, _ => HasDiverge.diverge
  | fuel + 1, n => do
    let l ← left false n
    let l ← (match l with
      | none => pure none
      | some c => do let s ← debugNode dk dv fuel c; pure (some s) : M (TMap H K V) (Option String))
    let r ← right false n
    let r ← (match r with
      | none => pure none
      | some c => do let s ← debugNode dk dv fuel c; pure (some s) : M (TMap H K V) (Option String))
    let x ← deref n
    pure ("Node { key: " ++ dk x.key ++ ", value: " ++ dv x.value ++
      ", left: " ++ BSTMap.debugOption l ++ ", right: " ++ BSTMap.debugOption r ++ " }")

/-- src/map.rs:68-77 `Debug for BSTMap`. -/
def debug (dk : K → String) (dv : V → String) : M (TMap H K V) String := do
  let s ← M.get
  let root ← nodeOpt false s.map.root
  let r ← (match root with
    | none => pure none
    | some n => do
      let t ← debugNode dk dv (BSTMap.walkFuel s.map.nodes) n
      pure (some t) : M (TMap H K V) (Option String))
  pure ("BSTMap { root: " ++ BSTMap.debugOption r ++ " }")

end TMap
end BST
