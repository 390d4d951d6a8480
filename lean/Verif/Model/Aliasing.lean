import Verif.Model.Arena
/-!
# What a set of aliasing rules consists of

The Rust reference does not fix the rules for references yet. Two sets of rules have been
proposed, Stacked Borrows (`Model/StackedBorrows.lean`) and Tree Borrows
(`Model/TreeBorrows.lean`). Both say when pointers may be derived from others and used; every
pointer has a tag (its provenance). The models of the code (`Model/Borrows.lean`,
`Model/MapBorrows.lean`, `Model/Boxes.lean`) are written for any such rules.

Memory locations are whole elements (`MaybeUninit<T>`) in the arena, which never splits them, and
fields of nodes in `Model/Boxes.lean`.

Not here: protectors, two-phase borrows, interior mutability, and, for the arena, references to
memory other than chunks (the arena itself, the buffer of `chunks`).
-/
namespace BST

/-- The pointers that are derived from others: `&mut`, `&` and `*mut`. -/
inductive RefKind where
  | excl
  | shared
  | raw
deriving DecidableEq, Repr

/-- A set of aliasing rules, with the state `H` of the heap. Violations are undefined behaviour. -/
class Aliasing (H : Type) where
  /-- The heap before the first allocation. -/
  empty : H
  /-- A new pointer of this kind to `n` elements from `p` on, derived from a pointer with tag `t`;
  returns its tag. -/
  derive (k : RefKind) (t : Nat) (p : Ptr) (n : Nat) : M H Nat
  /-- An access to the element `p` through a pointer with tag `t`. -/
  access (write : Bool) (t : Nat) (p : Ptr) : M H Unit
  /-- An allocation of `n` elements; returns the tag of the pointer to it. -/
  allocate (id n : Nat) : M H Nat
  /-- Deallocation of `n` elements through a pointer with tag `t`. -/
  deallocate (t id n : Nat) : M H Unit

end BST
