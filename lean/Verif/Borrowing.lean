import Verif.Model.Borrows
import Verif.Model.StackedBorrows
import Verif.Storage
/-!
# Clients that keep references into an arena

Histories of calls on one arena, together with uses of the references that the calls return,
and the discipline under which such uses ought to be fine. Nothing here is part of the crate.
-/
namespace BST
variable {H T : Type} [Aliasing H]

/-- A call, or the use of a reference obtained earlier. -/
inductive BorrowOp (T : Type) where
  | alloc (v : T)
  /-- `get_unchecked`, or a step of `iter()`: a new `&T` -/
  | get (p : Ptr)
  /-- `get_unchecked_mut`, or a step of `iter_mut()`: a new `&mut T` -/
  | getMut (p : Ptr)
  | reserve (n : Nat)
  | shrinkToFit
  | clear
  /-- read or write through the `r`-th reference obtained so far -/
  | use (write : Bool) (r : Nat)
deriving DecidableEq

/-- What a call returns; references are numbered. -/
inductive BorrowRet where
  | unit
  | ptr (p : Ptr)
  | ref (r : Nat)
deriving DecidableEq

/-- The arena, and the references (tag and address) obtained so far. -/
structure Borrower (H T : Type) where
  store : Tagged H T
  refs : List (Nat × Ptr)
deriving DecidableEq

/-- Run a function of the arena. -/
def Borrower.on {α : Type} (f : M (Tagged H T) α) : M (Borrower H T) α := fun s =>
  match f s.store with
  | (o, t) => (o, { s with store := t })

/-- Execute a call or use. The elements have drop glue if `nd`. -/
def BorrowOp.run (cfg : Cfg) (how : ChunkPtr) (nd : Bool) : BorrowOp T → M (Borrower H T) BorrowRet
  | alloc v => do
    let p ← Borrower.on (Tagged.alloc cfg v)
    pure (.ptr p)
  | get p => do
    let t ← Borrower.on (Tagged.getUnchecked p)
    let s ← M.get
    M.modify fun s => { s with refs := s.refs ++ [(t, p)] }
    pure (.ref s.refs.length)
  | getMut p => do
    let t ← Borrower.on (Tagged.getUncheckedMut p)
    let s ← M.get
    M.modify fun s => { s with refs := s.refs ++ [(t, p)] }
    pure (.ref s.refs.length)
  | reserve n => do
    Borrower.on (Tagged.reserve cfg n)
    pure .unit
  | shrinkToFit => do
    Borrower.on (Tagged.shrinkToFit cfg how)
    pure .unit
  | clear => do
    Borrower.on (Tagged.clear cfg how nd)
    pure .unit
  | use write r => do
    let s ← M.get
    match s.refs[r]? with
    | none => M.ub
    | some (t, p) =>
      Borrower.on (Tagged.onHeap (Aliasing.access write t p))
      pure .unit

/-- A new arena and no references. -/
def Borrower.new : Borrower H T := { store := .new, refs := [] }

namespace Spec

/-- What a client may still use: the elements, and the references with their targets
(`true`: mutable); `count` references were obtained so far. -/
structure Live where
  ptrs : List Ptr
  refs : List (Nat × Ptr × Bool)
  count : Nat
deriving DecidableEq

/-- The discipline: pointers must be those of elements, references must be alive, and writing
needs a mutable one. -/
def BorrowValid (l : Live) : BorrowOp T → Prop
  | .get p => p ∈ l.ptrs
  | .getMut p => p ∈ l.ptrs
  | .use write r => ∃ p m, (r, p, m) ∈ l.refs ∧ (write = true → m = true)
  | _ => True

/-- What is alive afterwards. A new `&T` to an element ends the life of the `&mut T` to the same
element, a new `&mut T` that of all references to it; `clear` that of all references. References
to other elements stay alive. -/
def BorrowOp.after (l : Live) : BorrowOp T → Out BorrowRet → Live
  | .alloc _, .ok (.ptr p) => { l with ptrs := l.ptrs ++ [p] }
  | .get p, .ok _ => { l with
      refs := (l.count, p, false) :: l.refs.filter fun e => e.2.1 ≠ p ∨ e.2.2 = false
      count := l.count + 1 }
  | .getMut p, .ok _ => { l with
      refs := (l.count, p, true) :: l.refs.filter fun e => e.2.1 ≠ p
      count := l.count + 1 }
  | .clear, .ok _ => { l with ptrs := [], refs := [] }
  | _, _ => l

/-- Nothing is alive. -/
def Live.none : Live := { ptrs := [], refs := [], count := 0 }

/-- The tags of an arena fit its chunks: every chunk is an allocation of its size, and no tag in
use is still to be given out. -/
structure Fitting (s : Tagged Borrows T) : Prop where
  tags : s.tags.length = s.arena.chunks.length
  blocks : s.heap.blocks.map (fun b => (b.id, b.stacks.length)) =
    s.arena.chunks.map fun c => (c.id, c.slots.length)
  fresh : ∀ b ∈ s.heap.blocks, ∀ st ∈ b.stacks, ∀ i ∈ st, i.tag < s.heap.next

end Spec
end BST
