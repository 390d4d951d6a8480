import Verif.Model.Aliasing
/-!
# The references that `src/arena.rs` creates

The reborrows that the functions of `src/arena.rs` perform, function by function, under any
aliasing rules (`Model/Aliasing.lean`). What the functions compute is `Model/Arena.lean`; no
definition there depends on borrows.
-/
namespace BST

/-- How the address of a chunk is turned into a raw pointer. The code has `chunk.as_mut()`
(src/arena.rs:302, 363, 451), a reference to the *first element* that is then cast;
`chunk.as_ptr()` is what it could have been. -/
inductive ChunkPtr where
  | asMut
  | asPtr
deriving DecidableEq, Repr

/-- An arena with the tags of the pointers in src/arena.rs:117 `chunks`, and the heap. -/
structure Tagged (H T : Type) where
  arena : Arena T
  tags : List Nat
  heap : H
deriving DecidableEq, Repr

namespace Tagged
variable {H T : Type} [Aliasing H]

/-- src/arena.rs:146-156. -/
def new : Tagged H T := { arena := .new, tags := [], heap := Aliasing.empty }

/-- Change the heap only. -/
def onHeap {α : Type} (f : M H α) : M (Tagged H T) α := fun s =>
  match f s.heap with
  | (o, h) => (o, { s with heap := h })

/-- The borrow part of src/arena.rs:401-416 for the chunks `l` that were pushed: the pointer is
the one that `Vec` got from the allocator (`as_mut_ptr` of a `Vec` creates no reference to its
elements). -/
def adopt (s : Tagged H T) : List (Chunk T) → Tagged H T
  | [] => s
  | c :: l =>
    match Aliasing.allocate c.id c.slots.length s.heap with
    | (.ok t, h) => adopt { s with tags := s.tags ++ [t], heap := h } l
    | (_, h) => { s with heap := h }

/-- Run a function of the arena that may push chunks (and may fail halfway). -/
def grow {α : Type} (f : M (Arena T) α) : M (Tagged H T) α := fun s =>
  match f s.arena with
  | (o, a) => (o, adopt { s with arena := a } (a.chunks.drop s.tags.length))

/-- The tag of pointers to `p` (`Ptr` and the result of `ptr_at`): src/arena.rs:260, 430 use
`chunk.as_ptr().add(..)`, which has the provenance of the chunk pointer. -/
def tagOf (s : Tagged H T) (p : Ptr) : Out Nat :=
  match (s.arena.chunks.map (·.id)).zip s.tags |>.find? (fun e => e.1 == p.block) with
  | none => .ub
  | some e => .ok e.2

/-- src/arena.rs:245-269 `alloc`: line 261 creates a reference (`item_ptr.as_mut()`), reborrows
it for `as_mut_ptr`, casts it to a raw pointer and writes. -/
def alloc (cfg : Cfg) (v : T) : M (Tagged H T) Ptr := do
  let p ← grow (Arena.alloc cfg v)
  let t ← M.read fun s => s.tagOf p
  let r ← onHeap (Aliasing.derive .excl t p 1)
  let r' ← onHeap (Aliasing.derive .excl r p 1)
  let w ← onHeap (Aliasing.derive .raw r' p 1)
  onHeap (Aliasing.access true w p)
  pure p

/-- src/arena.rs:223-227 `get_unchecked`; also `Iter::next_ptr` and `next_back_ptr` (562-584)
for the pointer computed there. Returns the tag of the reference. -/
def getUnchecked (p : Ptr) : M (Tagged H T) Nat := do
  let _ ← M.read fun s => s.arena.getUnchecked p
  let t ← M.read fun s => s.tagOf p
  onHeap (Aliasing.derive .shared t p 1)

/-- src/arena.rs:235-239 `get_unchecked_mut`; also `IterMut::next_ptr` and `next_back_ptr`
(624-646) for the pointer computed there. Returns the tag of the reference. -/
def getUncheckedMut (p : Ptr) : M (Tagged H T) Nat := do
  let _ ← M.read fun s => s.arena.getUnchecked p
  let t ← M.read fun s => s.tagOf p
  onHeap (Aliasing.derive .excl t p 1)

/-- src/arena.rs:337-343 `reserve`. -/
def reserve (cfg : Cfg) (n : Nat) : M (Tagged H T) Unit := grow (Arena.reserve cfg n)

/-- `chunk.as_mut()` cast to a raw pointer (both are reborrows of one element), or
`chunk.as_ptr()`. -/
def chunkPtr (how : ChunkPtr) (t id : Nat) : M H Nat :=
  match how with
  | .asPtr => pure t
  | .asMut => do
    let r ← Aliasing.derive .excl t { block := id, off := 0 } 1
    Aliasing.derive .raw r { block := id, off := 0 } 1

/-- The items that src/arena.rs:306-325 drops in one chunk: `slice::IterMut` (raw pointer `t`)
yields a reference to the item, which is cast to a raw pointer; the destructor writes. -/
def dropItems (t id : Nat) : List Nat → M H Unit
  | [] => pure ()
  | i :: l => do
    let r ← Aliasing.derive .excl t { block := id, off := i } 1
    let w ← Aliasing.derive .raw r { block := id, off := i } 1
    Aliasing.access true w { block := id, off := i }
    dropItems t id l

/-- The chunks visited by src/arena.rs:296-326; `todo` elements are still to be dropped. -/
def clearChunks (how : ChunkPtr) : Nat → List (Chunk T × Nat) → M H Unit
  | _, [] => pure ()
  | todo, (c, t) :: l => do
    let p ← chunkPtr how t c.id
    let r ← Aliasing.derive .excl p { block := c.id, off := 0 } c.slots.length
    let w ← Aliasing.derive .raw r { block := c.id, off := 0 } c.slots.length
    dropItems w c.id (List.range (min todo c.slots.length))
    if todo < c.slots.length then pure () else clearChunks how (todo - c.slots.length) l

/-- src/arena.rs:286-330 `clear` (for destructors that do not panic). -/
def clear (cfg : Cfg) (how : ChunkPtr) (needsDrop : Bool) : M (Tagged H T) Unit := do
  let s ← M.get
  if !needsDrop || s.arena.isEmpty then pure ()
  else onHeap (clearChunks how s.arena.len (s.arena.chunks.zip s.tags))
  grow (Arena.clear cfg needsDrop fun _ => false)

/-- The chunks released by src/arena.rs:363, 451: `Vec::from_raw_parts` and its drop. -/
def freeAll (how : ChunkPtr) : List (Chunk T × Nat) → M H Unit
  | [] => pure ()
  | (c, t) :: l => do
    let p ← chunkPtr how t c.id
    Aliasing.deallocate p c.id c.slots.length
    freeAll how l

/-- src/arena.rs:348-378 `shrink_to_fit`: what `Arena.shrinkToFit` releases, the last chunk
first. -/
def shrinkToFit (cfg : Cfg) (how : ChunkPtr) : M (Tagged H T) Unit := fun s =>
  match Arena.shrinkToFit cfg s.arena with
  | (.ok (), a) =>
    match freeAll how ((s.arena.chunks.zip s.tags).drop a.chunks.length).reverse s.heap with
    | (o, h) => (o, { arena := a, tags := s.tags.take a.chunks.length, heap := h })
  | (o, a) => (o, { s with arena := a })

/-- src/arena.rs:439-454 `Drop` (for destructors that do not panic). -/
def drop (cfg : Cfg) (how : ChunkPtr) (needsDrop : Bool) : M (Tagged H T) Unit := do
  clear cfg how needsDrop
  let s ← M.get
  onHeap (freeAll how (s.arena.chunks.zip s.tags))
  M.modify fun s => { s with tags := [] , arena := (Arena.drop cfg false (fun _ => false) s.arena).2 }

end Tagged
end BST
