import Verif.Model.Aliasing
/-!
# Stacked Borrows

The rules of Jung et al., POPL 2020, as implemented by Miri with tagged raw pointers. Every
location has a stack of permissions.
-/
namespace BST

/-- The permission of an item in a borrow stack. -/
inductive Perm where
  | unique
  | sharedRW
  | sharedRO
  | disabled
deriving DecidableEq, Repr

/-- An item: a tag (the provenance of a pointer) with its permission. -/
structure Item where
  tag : Nat
  perm : Perm
deriving DecidableEq, Repr

/-- The borrow stack of a location, the top first. -/
abbrev BorrowStack := List Item

/-- Does this item grant a pointer with tag `t` a read (or write) access? -/
def Item.grants (write : Bool) (t : Nat) (i : Item) : Bool :=
  i.tag == t && (match i.perm with
    | .disabled => false
    | .sharedRO => !write
    | _ => true)

/-- The `SharedReadWrite` items directly above the granting item, if that is one as well. -/
def BorrowStack.run (g : Item) (above : BorrowStack) : BorrowStack :=
  if g.perm = .sharedRW then (above.reverse.takeWhile fun i => i.perm = .sharedRW).reverse else []

/-- A read through a pointer with tag `t`: the topmost item that grants it is looked up, and
the `Unique` items above it are disabled. `none`: undefined behaviour. -/
def BorrowStack.read (t : Nat) (s : BorrowStack) : Option BorrowStack :=
  match s.dropWhile fun i => !i.grants false t with
  | [] => none
  | g :: below => some ((s.takeWhile fun i => !i.grants false t).map (fun i =>
      if i.perm = .unique then { i with perm := .disabled } else i) ++ g :: below)

/-- A write through a pointer with tag `t`: the topmost item that grants it is looked up, and
everything above it is removed, except `SharedReadWrite` items next to it if it is one. -/
def BorrowStack.write (t : Nat) (s : BorrowStack) : Option BorrowStack :=
  match s.dropWhile fun i => !i.grants true t with
  | [] => none
  | g :: below => some (BorrowStack.run g (s.takeWhile fun i => !i.grants true t) ++ g :: below)

/-- A pointer with tag `new` is derived from one with tag `t`. `&mut` counts as a write and `&`
as a read through the old pointer; a raw pointer is put next to its parent. -/
def BorrowStack.derive (k : RefKind) (t new : Nat) (s : BorrowStack) : Option BorrowStack :=
  match k with
  | .excl => (s.write t).map ({ tag := new, perm := .unique } :: ·)
  | .shared => (s.read t).map ({ tag := new, perm := .sharedRO } :: ·)
  | .raw =>
    match s.dropWhile fun i => !i.grants true t with
    | [] => none
    | g :: below =>
      let above := s.takeWhile fun i => !i.grants true t
      let run := BorrowStack.run g above
      some (above.take (above.length - run.length) ++
        { tag := new, perm := .sharedRW } :: (run ++ g :: below))

/-- The borrow stacks of one allocation. -/
structure Block where
  id : Nat
  stacks : List BorrowStack
deriving DecidableEq, Repr

/-- The borrow state of the heap; `next` is the next unused tag. -/
structure Borrows where
  blocks : List Block
  next : Nat
deriving DecidableEq, Repr

namespace Borrows

/-- Apply `f` to a list, failing if it fails on one element. -/
def mapAll (f : BorrowStack → Option BorrowStack) : List BorrowStack → Option (List BorrowStack)
  | [] => some []
  | s :: l => do
    let s' ← f s
    let l' ← mapAll f l
    pure (s' :: l')

/-- Apply `f` to the stacks of the `n` locations from `p` on. Undefined behaviour if they are
not all inside an allocation, or if `f` fails on one of them. -/
def onRange (p : Ptr) (n : Nat) (f : BorrowStack → Option BorrowStack) : M Borrows Unit := fun b =>
  match b.blocks.find? (fun c => c.id == p.block) with
  | none => (.ub, b)
  | some c =>
    if c.stacks.length < p.off + n then (.ub, b)
    else match mapAll f ((c.stacks.drop p.off).take n) with
      | none => (.ub, b)
      | some l => (.ok (), { b with blocks := b.blocks.map fun c' =>
          if c'.id = p.block then
            { c' with stacks := c.stacks.take p.off ++ (l ++ c.stacks.drop (p.off + n)) }
          else c' })

/-- A new pointer of kind `k` to `n` elements from `p` on, derived from tag `t`. -/
def derive (k : RefKind) (t : Nat) (p : Ptr) (n : Nat) : M Borrows Nat := do
  let b ← M.get
  onRange p n (BorrowStack.derive k t b.next)
  M.modify fun b => { b with next := b.next + 1 }
  pure b.next

/-- An access to the element `p` through a pointer with tag `t`. -/
def access (write : Bool) (t : Nat) (p : Ptr) : M Borrows Unit :=
  onRange p 1 (if write then BorrowStack.write t else BorrowStack.read t)

/-- An allocation of `n` elements; returns the tag of the pointer to it. -/
def allocate (id n : Nat) : M Borrows Nat := do
  let b ← M.get
  M.modify fun b => { b with
    blocks := b.blocks ++
      [{ id, stacks := List.replicate n [{ tag := b.next, perm := .sharedRW }] }]
    next := b.next + 1 }
  pure b.next

/-- Deallocation through a pointer with tag `t`; it counts as a write to all of the block. -/
def deallocate (t id n : Nat) : M Borrows Unit := do
  let b ← M.get
  if (b.blocks.find? (fun c => c.id == id)).any (fun c => c.stacks.length == n) then
    onRange { block := id, off := 0 } n (BorrowStack.write t)
    M.modify fun b => { b with blocks := b.blocks.filter fun c => c.id ≠ id }
  else M.ub

end Borrows

instance : Aliasing Borrows where
  empty := { blocks := [], next := 0 }
  derive := Borrows.derive
  access := Borrows.access
  allocate := Borrows.allocate
  deallocate := Borrows.deallocate

end BST
