import Verif.MapReaders
/-!
# Several threads

A heap that permits everything and records every access, and threads that share a map. Nothing
here is part of the crate.
-/
namespace BST
variable {K V : Type}

/-- An access to the `count` elements from `first` on, through the pointer with tag `via`. -/
structure Event where
  write : Bool
  first : Ptr
  count : Nat
  via : Nat
deriving DecidableEq, Repr

/-- The access concerns the element `q`. -/
def Event.Touches (e : Event) (q : Ptr) : Prop :=
  q.block = e.first.block ∧ e.first.off ≤ q.off ∧ q.off < e.first.off + e.count

/-- Two accesses that must not happen at the same time in different threads: they concern a common
element, and one of them is a write. -/
def Event.Conflicts (e e' : Event) : Prop :=
  (e.write = true ∨ e'.write = true) ∧ ∃ q, e.Touches q ∧ e'.Touches q

/-- A heap that records accesses: the allocations with their sizes, and what happened so far, the
oldest first. -/
structure Trace where
  blocks : List (Nat × Nat)
  events : List Event
deriving DecidableEq, Repr

namespace Trace

/-- Something happens. -/
def record (e : Event) : M Trace Unit := M.modify fun h => { h with events := h.events ++ [e] }

/-- Nothing is forbidden. The creation of a pointer counts as an access, a write unless it is a
`&`; so do allocation and deallocation. The tag of a pointer says how many events there were up to
its creation. -/
instance : Aliasing Trace where
  empty := { blocks := [], events := [] }
  derive k t p n := do
    record { write := k ≠ .shared, first := p, count := n, via := t }
    let h ← M.get
    pure h.events.length
  access w t p := record { write := w, first := p, count := 1, via := t }
  allocate id n := do
    let h ← M.get
    record { write := true, first := ⟨id, 0⟩, count := n, via := h.events.length + 1 }
    M.modify fun h => { h with blocks := h.blocks ++ [(id, n)] }
    pure (h.events.length + 1)
  deallocate t id n := do
    record { write := true, first := ⟨id, 0⟩, count := n, via := t }
    M.modify fun h => { h with blocks := h.blocks.filter fun b => b.1 ≠ id }

end Trace

/-- What happens to the nodes of the map while a thread with a `&BSTMap` does this. -/
def accesses (l : List (ReadOp K V)) (s : TMap Trace K V) : List Event :=
  (execute ReadOp.runRef l (.start s)).2.store.heap.events.drop s.heap.events.length

/-- Threads that share a map; every one has its own iterators, references and handles. -/
structure Team (S R P : Type) where
  store : S
  thread : Nat → Reader Unit R P

namespace Team
variable {S R P α : Type}

/-- Nobody has anything yet. -/
def start (s : S) : Team S R P := { store := s, thread := fun _ => .start () }

/-- What thread `i` sees. -/
def view (x : Team S R P) (i : Nat) : Reader S R P :=
  { store := x.store, iters := (x.thread i).iters, refs := (x.thread i).refs,
    nodes := (x.thread i).nodes }

/-- Thread `i` does this. -/
def act (i : Nat) (f : M (Reader S R P) α) : M (Team S R P) α := fun x =>
  match f (x.view i) with
  | (o, r) => (o, { store := r.store, thread := fun j => if j = i then
      { store := (), iters := r.iters, refs := r.refs, nodes := r.nodes } else x.thread j })

end Team

/-- What the threads do, one step after the other: who, and what. -/
abbrev Schedule (K V : Type) := List (Nat × ReadOp K V)

/-- What thread `i` does. -/
def Schedule.of (l : Schedule K V) (i : Nat) : List (ReadOp K V) :=
  (l.filter fun e => e.1 = i).map (·.2)

/-- A step of a schedule, on a map whose references are tracked. -/
def Schedule.runRef {H : Type} [Aliasing H] (e : Nat × ReadOp K V) :
    M (Team (TMap H K V) (Option NodeRef) (Option NodeRef)) (Ret K V) := Team.act e.1 e.2.runRef

/-- The answers that thread `i` gets, if these are all answers. -/
def Schedule.answers {α : Type} (l : Schedule K V) (os : List α) (i : Nat) : List α :=
  ((l.zip os).filter fun e => e.1.1 = i).map (·.2)

end BST
