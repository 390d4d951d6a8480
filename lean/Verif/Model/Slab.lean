import Verif.Model.Arena
/-!
# Model of `src/slab.rs`
-/
namespace BST

/-- src/slab.rs:11-23 `union Entry<T>`, with a tag so that reading the wrong
variant can be called undefined behaviour. `dead` is a ghost state: a value whose
destructor was already started (by `ManuallyDrop::drop`, src/slab.rs:244) while
the bits are still in place. -/
inductive Entry (T : Type) where
  | value (v : T)
  | free (next : Option Ptr)
  | dead
deriving DecidableEq, Repr

/-- What the compiler and the user's `Drop` impl say about the element type:
`needsDrop` = `mem::needs_drop::<T>()`, `panics v` = whether the destructor of
`v` panics. -/
structure DropInfo (T : Type) where
  needsDrop : Bool
  panics : T → Bool

/-- src/slab.rs:53-71 `UnsafeSlab<T>`. `dropped` is a ghost field: the values whose
destructor was run by the slab, in order. -/
structure Slab (T : Type) where
  items : Arena (Entry T)
  freeHead : Option Ptr
  freeLen : Nat
  dropped : List T
deriving DecidableEq, Repr

namespace Slab
variable {T : Type}

/-- Run a method of the field `items`. -/
@[inline] def onItems {α : Type} (m : M (Arena (Entry T)) α) : M (Slab T) α := fun s =>
  match m s.items with
  | (o, items) => (o, { s with items })

/-- src/slab.rs:73-91 `default` / `new`. -/
def new : Slab T := { items := Arena.new, freeHead := none, freeLen := 0, dropped := [] }

/-- src/slab.rs:97-102 `with_capacity`. -/
def withCapacity (cfg : Cfg) (capacity : Nat) : Out Unit × Slab T :=
  onItems (Arena.growTo cfg capacity) new

/-- src/slab.rs:107-109 `len`. -/
def len (cfg : Cfg) (s : Slab T) : Out Nat := subU cfg s.items.len s.freeLen

/-- src/slab.rs:112-114 `is_empty`. -/
def isEmpty (cfg : Cfg) (s : Slab T) : Out Bool := do
  let n ← s.len cfg
  pure (n == 0)

/-- src/slab.rs:120-122 `capacity`. -/
def capacity (s : Slab T) : Nat := s.items.capacity

/-- Reading the `value` variant of the union: anything else is UB. -/
def Entry.asValue : Entry T → Out T
  | .value v => .ok v
  | .free _ => .ub
  | .dead => .ub

/-- Reading the `free` variant of the union: anything else is UB. -/
def Entry.asFree : Entry T → Out (Option Ptr)
  | .free next => .ok next
  | .value _ => .ub
  | .dead => .ub

/-- src/slab.rs:130-132 `get_unchecked`, and the read half of 140-142
`get_unchecked_mut`. -/
def getUnchecked (s : Slab T) (p : Ptr) : Out T := do
  let e ← s.items.getUnchecked p
  Entry.asValue e

/-- Assignment through src/slab.rs:140-142 `get_unchecked_mut`:
`*slab.get_unchecked_mut(ptr) = f(*slab.get_unchecked_mut(ptr))`. -/
def updateUnchecked (p : Ptr) (f : T → T) : M (Slab T) Unit := do
  let v ← M.read (fun s => s.getUnchecked p)
  onItems (Arena.setUnchecked p (.value (f v)))

/-- src/slab.rs:149-168 `push`. -/
def push (cfg : Cfg) (value : T) : M (Slab T) Ptr := do
  let s ← M.get
  match s.freeHead with
  | some head =>
    let entry ← M.read (fun s => s.items.getUnchecked head)
    let nextFree ← M.lift (Entry.asFree entry)
    M.modify fun s => { s with freeHead := nextFree }
    let n ← M.lift (subU cfg s.freeLen 1)
    M.modify fun s => { s with freeLen := n }
    onItems (Arena.setUnchecked head (.value value))
    pure head
  | none => onItems (Arena.alloc cfg (.value value))

/-- src/slab.rs:183-198 `remove`. -/
def remove (cfg : Cfg) (p : Ptr) : M (Slab T) T := do
  let s ← M.get
  let prev ← M.read (fun s => s.items.getUnchecked p)
  onItems (Arena.setUnchecked p (.free s.freeHead))
  M.modify fun s => { s with freeHead := some p }
  let n ← M.lift (addU cfg s.freeLen 1)
  M.modify fun s => { s with freeLen := n }
  M.lift (Entry.asValue prev)

/-- src/slab.rs:257-266 `reset_internal_state`. `needs_drop::<Entry<T>>()` is
`false` (src/slab.rs:31), so `items.clear()` runs no destructor. -/
def resetInternalState (cfg : Cfg) : M (Slab T) Unit := do
  onItems (Arena.clear cfg false (fun _ => false))
  M.modify fun s => { s with freeHead := none, freeLen := 0 }

/-- The loop of src/slab.rs:222-233: collects the pointers on the free list. The
`HashSet` is modelled as a list used only for membership. -/
def freePointers (s : Slab T) : Out (List Ptr) :=
  loop (s.items.len + 1) (fun (st : Option Ptr × List Ptr) =>
    match st.1 with
    | none => pure (.inr st.2)
    | some p => do
      let entry ← s.items.getUnchecked p
      let next ← Entry.asFree entry
      pure (.inl (next, p :: st.2))) (s.freeHead, [])

/-- `ManuallyDrop::drop(&mut entry.value)`, src/slab.rs:241-244: UB if the entry is
not a live value; the destructor may panic. -/
def dropEntry (d : DropInfo T) (p : Ptr) (entry : Entry T) : M (Slab T) Unit := do
  let v ← M.lift (Entry.asValue entry)
  M.modify fun s => { s with items := s.items.poke p (some .dead), dropped := s.dropped ++ [v] }
  if d.panics v then M.panic else pure ()

/-- src/slab.rs:205-249 `clear`. -/
def clear (cfg : Cfg) (d : DropInfo T) : M (Slab T) Unit := do
  let s ← M.get
  if !d.needsDrop || s.items.len == s.freeLen then
    resetInternalState cfg
  else
    let frees ← M.read (fun s => s.freePointers)
    loop (s.items.len + 1) (fun (it : Arena.Iter) => do
      let s ← M.get
      let (o, it) ← M.lift (it.nextPtr cfg s.items)
      match o with
      | none => pure (.inr ())
      | some (p, entry) =>
        if p ∈ frees then pure (.inl it)
        else
          dropEntry d p entry
          pure (.inl it)) s.items.iter
    resetInternalState cfg

/-- src/slab.rs:273-275 `reserve`. -/
def reserve (cfg : Cfg) (additional : Nat) : M (Slab T) Unit :=
  onItems (Arena.reserve cfg additional)

/-- src/slab.rs:280-282 `shrink_to_fit`. -/
def shrinkToFit (cfg : Cfg) : M (Slab T) Unit := onItems (Arena.shrinkToFit cfg)

/-- src/slab.rs:289-298 `Drop for UnsafeSlab`, followed by the drop of the field
`items` (src/arena.rs:439-454), which happens even if `clear` panicked. -/
def drop (cfg : Cfg) (d : DropInfo T) : M (Slab T) Unit := fun s =>
  let (o, s) := if !d.needsDrop then (.ok (), s) else clear cfg d s
  match o with
  | .ok () => onItems (Arena.drop cfg false (fun _ => false)) s
  | .panic =>
    match onItems (Arena.drop cfg false (fun _ => false)) s with
    | (.ok (), s) => (.panic, s)
    | r => r
  | o => (o, s)

end Slab
end BST
