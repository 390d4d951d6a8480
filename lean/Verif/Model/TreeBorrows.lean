import Verif.Model.Aliasing
/-!
# Tree Borrows

The rules of Villani, Hostert, Dreyer and Jung (PLDI 2025), as implemented by Miri with
`-Zmiri-tree-borrows`. The pointers into an allocation form a tree; every location has a
permission for every one of them. A pointer that was derived for some locations may be used for
others of the same allocation.

Simplified as `Model/Aliasing.lean` says: without protectors there is no "conflicted" reserved
state, and without interior mutability no reserved state that survives writes by others. A
location that a pointer was not derived for has the permission of a new pointer from the start,
instead of when it is first used; without protectors that makes no difference.
-/
namespace BST

/-- The permission of a pointer at a location. -/
inductive TreePerm where
  /-- of a new mutable reference: may be written through -/
  | reserved
  /-- it was written through -/
  | active
  /-- may be read through only -/
  | frozen
  /-- must not be used -/
  | disabled
deriving DecidableEq, Repr

/-- A pointer in the tree of a location: its tag and the tags of the pointers it is derived from,
up to the root. -/
structure TreeNode where
  tag : Nat
  above : List Nat
  perm : TreePerm
deriving DecidableEq, Repr

/-- The state of a location. -/
abbrev BorrowTree := List TreeNode

/-- May a pointer with this permission, or one derived from it, be read (written) through? -/
def TreePerm.allows (write : Bool) : TreePerm → Bool
  | .reserved => true
  | .active => true
  | .frozen => !write
  | .disabled => false

/-- The permission after an access through the pointer itself or one derived from it
(`mine`), or through any other pointer. -/
def TreePerm.after (mine write : Bool) : TreePerm → TreePerm
  | .reserved => if write then (if mine then .active else .disabled) else .reserved
  | .active => if mine then .active else if write then .disabled else .frozen
  | .frozen => if write && !mine then .disabled else .frozen
  | .disabled => .disabled

namespace BorrowTree

/-- The pointer with tag `t`. -/
def node (t : Nat) (l : BorrowTree) : Option TreeNode := l.find? fun x => x.tag == t

/-- Is `x` the pointer `b`, or is `b` derived from it? -/
def _root_.BST.TreeNode.leadsTo (x b : TreeNode) : Bool := x.tag == b.tag || b.above.contains x.tag

/-- An access through a pointer with tag `t`. `none`: undefined behaviour. -/
def access (write : Bool) (t : Nat) (l : BorrowTree) : Option BorrowTree :=
  match l.node t with
  | none => none
  | some b =>
    if l.all fun x => !x.leadsTo b || x.perm.allows write then
      some (l.map fun x => { x with perm := x.perm.after (x.leadsTo b) write })
    else none

/-- A new pointer, derived from the one with tag `t`. -/
def add (perm : TreePerm) (t new : Nat) (l : BorrowTree) : BorrowTree :=
  match l.node t with
  | none => l
  | some b => l ++ [{ tag := new, above := b.tag :: b.above, perm }]

end BorrowTree

/-- The locations of one allocation. -/
structure TreeBlock where
  id : Nat
  locs : List BorrowTree
deriving DecidableEq, Repr

/-- The borrow state of the heap; `next` is the next unused tag. -/
structure Trees where
  blocks : List TreeBlock
  next : Nat
deriving DecidableEq, Repr

namespace Trees

/-- An access to those of the locations `l` (the first of which has the number `i`) that are among
the `n` ones from `off` on. -/
def touch (write : Bool) (t off n : Nat) : Nat → List BorrowTree → Option (List BorrowTree)
  | _, [] => some []
  | i, x :: l => do
    let x' ← if off ≤ i ∧ i < off + n then x.access write t else some x
    let l' ← touch write t off n (i + 1) l
    pure (x' :: l')

/-- Change the locations of an allocation; undefined behaviour if there is none, or if `f` fails. -/
def onBlock (id : Nat) (f : List BorrowTree → Option (List BorrowTree)) : M Trees Unit := fun b =>
  match b.blocks.find? (fun c => c.id == id) with
  | none => (.ub, b)
  | some c =>
    match f c.locs with
    | none => (.ub, b)
    | some l => (.ok (), { b with blocks := b.blocks.map fun c' =>
        if c'.id = id then { c' with locs := l } else c' })

/-- An access to the `n` locations from `p` on. -/
def accessRange (write : Bool) (t : Nat) (p : Ptr) (n : Nat) : M Trees Unit :=
  onBlock p.block fun l => if l.length < p.off + n then none else touch write t p.off n 0 l

/-- `&mut` and `&` count as reads of the range that they point to; the new pointer has a permission
at all locations. A raw pointer is the pointer that it is derived from. -/
def derive (k : RefKind) (t : Nat) (p : Ptr) (n : Nat) : M Trees Nat :=
  match k with
  | .raw => pure t
  | _ => do
    accessRange false t p n
    let b ← M.get
    onBlock p.block fun l =>
      some (l.map (BorrowTree.add (if k = .excl then .reserved else .frozen) t b.next))
    M.modify fun b => { b with next := b.next + 1 }
    pure b.next

/-- An access to the element `p`. -/
def access (write : Bool) (t : Nat) (p : Ptr) : M Trees Unit := accessRange write t p 1

/-- An allocation. -/
def allocate (id n : Nat) : M Trees Nat := do
  let b ← M.get
  M.modify fun b => { b with
    blocks := b.blocks ++
      [{ id, locs := List.replicate n [{ tag := b.next, above := [], perm := .active }] }]
    next := b.next + 1 }
  pure b.next

/-- Deallocation; it counts as a write to all of the block. -/
def deallocate (t id n : Nat) : M Trees Unit := do
  let b ← M.get
  if (b.blocks.find? (fun c => c.id == id)).any (fun c => c.locs.length == n) then
    accessRange true t { block := id, off := 0 } n
    M.modify fun b => { b with blocks := b.blocks.filter fun c => c.id ≠ id }
  else M.ub

end Trees

instance : Aliasing Trees where
  empty := { blocks := [], next := 0 }
  derive := Trees.derive
  access := Trees.access
  allocate := Trees.allocate
  deallocate := Trees.deallocate

end BST
