import Verif.MapBorrowing
import Verif.Model.StackedBorrows
/-!
# How much work a call does

`s.heap.next` counts the references and raw pointers to nodes that were created since the map is
new, and the chunks that were allocated. Nothing here is part of the crate.
-/
namespace BST
variable {K V : Type}
open Spec (Order)

/-- What `f` adds to that number, whether it returns or not. -/
def created {α : Type} (f : M (TMap Borrows K V) α) (s : TMap Borrows K V) : Nat :=
  (f s).2.heap.next - s.heap.next

/-- `n` calls of `next` of a mutable iterator. -/
def nextsMutRef (o : Order) : Nat → Stack → M (TMap Borrows K V) (List (Option NodeRef))
  | 0, _ => pure []
  | n + 1, st => do
    let (x, st) ← o.nextMutRef st
    let xs ← nextsMutRef o n st
    pure (x :: xs)

/-- A new shared iterator and `n` calls of `next`. -/
def iterate (o : Order) (n : Nat) : M (TMap Borrows K V) (List (Option NodeRef)) := do
  let st ← o.iterRef
  nextsRef o n st

/-- A new mutable iterator and `n` calls of `next`. -/
def iterateMut (o : Order) (n : Nat) : M (TMap Borrows K V) (List (Option NodeRef)) := do
  let st ← o.iterRef
  nextsMutRef o n st

/-- References per entry of the map. -/
def Spec.Order.price : Order → Nat
  | .pre => 1
  | .ino => 2
  | .post => 3

/-- The same for mutable iterators. -/
def Spec.Order.priceMut : Order → Nat
  | .pre => 1
  | .ino => 3
  | .post => 4

end BST
