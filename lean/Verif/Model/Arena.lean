import Verif.Model.Basic
/-!
# Model of `src/arena.rs`

`ExponentialAlloc`, `Ptr`, `StableArena` and its iterators.
-/
namespace BST

/-- src/arena.rs:43-47 `ExponentialAlloc::MULTIPLIER`. -/
def MULTIPLIER : Nat := 8

/-- src/arena.rs:51-55 `chunk_len`: `MULTIPLIER * (1usize << chunk_i)`. -/
def chunkLen (cfg : Cfg) (chunkI : Nat) : Out Nat := do
  let s ← shlU cfg 1 chunkI
  mulU cfg MULTIPLIER s

/-- src/arena.rs:9-19 `ChunkPos`. -/
structure ChunkPos where
  chunkIndex : Nat
  itemIndex : Nat
deriving DecidableEq, Repr

/-- src/arena.rs:57-82 `position_for`. -/
def positionFor (cfg : Cfg) (index : Nat) : Out ChunkPos := do
  let dividedIndex := index / MULTIPLIER
  let x ← addU cfg dividedIndex 1
  let y ← subU32 cfg 64 (leadingZeros x)
  let chunkIndex ← subU32 cfg y 1
  let cl ← chunkLen cfg chunkIndex
  let chunkFirstIndex ← subU cfg cl MULTIPLIER
  let itemIndex ← subU cfg index chunkFirstIndex
  pure { chunkIndex, itemIndex }

/-- src/arena.rs:85-94 `Ptr(NonNull<()>)`: an address, here a block id (one per
chunk allocation, never reused) and an element offset in the block. -/
structure Ptr where
  block : Nat
  off : Nat
deriving DecidableEq, Repr

/-- A chunk of memory (one element of src/arena.rs:117 `chunks`): the id of the
allocation it points to, and the contents of that allocation;
`none` = uninitialised `MaybeUninit`. -/
structure Chunk (T : Type) where
  id : Nat
  slots : List (Option T)
deriving DecidableEq, Repr

/-- src/arena.rs:110-139 `StableArena<T>`. `nextId`, `log` and `dropped` are
ghost fields: the next block id, the allocator log, and the values whose
destructor was run by the arena, in order. The chunk vector's own buffer is not
modelled. -/
structure Arena (T : Type) where
  chunks : List (Chunk T)
  len : Nat
  capacity : Nat
  nextId : Nat
  log : List MemEv
  dropped : List T
deriving DecidableEq, Repr

namespace Arena
variable {T : Type}

/-- src/arena.rs:146-156, 181-183 `default` / `new`. -/
def new : Arena T := { chunks := [], len := 0, capacity := 0, nextId := 0, log := [], dropped := [] }

/-- src/arena.rs:205-207 `is_empty`. -/
def isEmpty (a : Arena T) : Bool := a.len == 0

/-- `Vec::with_capacity(n)` as used in src/arena.rs:401, followed by
`chunk.capacity()` (line 405): zero-sized elements have capacity `usize::MAX`;
otherwise more than `isize::MAX` bytes panics with "capacity overflow", a failed
allocation aborts, and the capacity is exactly the requested one. -/
def vecWithCapacity (cfg : Cfg) (id n : Nat) : Out Nat :=
  if cfg.esize = 0 then .ok (usizeBound - 1)
  else if n * cfg.esize > isizeMax then .panic
  else if cfg.allocOk id (n * cfg.esize) then .ok n
  else .abort

/-- src/arena.rs:392-417 `push_chunk`. If the `assert_eq!` fails the new `Vec` is
dropped again while unwinding, so nothing is leaked (no log entry). -/
def pushChunk (cfg : Cfg) : M (Arena T) Unit := do
  let a ← M.get
  let chunkI := asU32 a.chunks.length
  let chunkLen ← M.lift (chunkLen cfg chunkI)
  let vcap ← M.lift (vecWithCapacity cfg a.nextId chunkLen)
  if vcap ≠ chunkLen then M.panic
  else
    let chunk : Chunk T := { id := a.nextId, slots := List.replicate chunkLen none }
    M.modify fun a => { a with
      chunks := a.chunks ++ [chunk]
      nextId := a.nextId + 1
      log := a.log ++ [.alloc a.nextId chunkLen] }
    let cap ← M.lift (addU cfg a.capacity chunkLen)
    M.modify fun a => { a with capacity := cap }

/-- Fuel for the loops that call `push_chunk` (each call doubles the size, so
the 64-bit address space is exhausted after fewer than 64 iterations). -/
def growFuel : Nat := 70

/-- The loop of src/arena.rs:192-194 and 340-342:
`while self.capacity() < capacity { self.push_chunk(); }`. -/
def growTo (cfg : Cfg) (capacity : Nat) : M (Arena T) Unit :=
  loop growFuel (fun (_ : Unit) => do
    let a ← M.get
    if a.capacity < capacity then
      pushChunk cfg
      pure (.inl ())
    else pure (.inr ())) ()

/-- src/arena.rs:189-197 `with_capacity`. (The second component is the arena
being built; it is only returned to the caller if the outcome is `ok`, and
dropped while unwinding otherwise.) -/
def withCapacity (cfg : Cfg) (capacity : Nat) : Out Unit × Arena T :=
  growTo cfg capacity new

/-- Contents of the memory cell at address `p`, if it lies in an allocated chunk
and is initialised. -/
def cell (a : Arena T) (p : Ptr) : Option T :=
  match a.chunks.find? (fun c => c.id == p.block) with
  | none => none
  | some c => (c.slots[p.off]?).join

/-- src/arena.rs:223-227 `get_unchecked` (and the read half of 235-239
`get_unchecked_mut`): `&*ptr`. Undefined unless the address is inside an
allocated chunk and initialised. -/
def getUnchecked (a : Arena T) (p : Ptr) : Out T :=
  match a.cell p with
  | some v => .ok v
  | none => .ub

/-- Store `v` into the cell `p` (raw memory write). -/
def poke (a : Arena T) (p : Ptr) (v : Option T) : Arena T :=
  { a with chunks := a.chunks.map fun c =>
      if c.id = p.block then { c with slots := c.slots.set p.off v } else c }

/-- Assignment through src/arena.rs:235-239 `get_unchecked_mut`:
`*arena.get_unchecked_mut(ptr) = v`. Creating the reference already requires the
cell to be valid. -/
def setUnchecked (p : Ptr) (v : T) : M (Arena T) Unit := do
  let _ ← M.read (fun a => a.getUnchecked p)
  M.modify fun a => a.poke p (some v)

/-- The address computation of src/arena.rs:256-262 and 425-433:
`position_for`, `chunks.get_unchecked(chunk_index)` (out of bounds: UB),
`chunk.as_ptr().add(item_index)` (past the end of the chunk: UB). -/
def ptrAt (cfg : Cfg) (a : Arena T) (index : Nat) : Out Ptr := do
  let pos ← positionFor cfg index
  debugAssert cfg (decide (pos.chunkIndex < a.chunks.length))
  match a.chunks[pos.chunkIndex]? with
  | none => .ub
  | some c =>
    if pos.itemIndex < c.slots.length then .ok { block := c.id, off := pos.itemIndex }
    else .ub

/-- src/arena.rs:245-269 `alloc`. -/
def alloc (cfg : Cfg) (value : T) : M (Arena T) Ptr := do
  let a ← M.get
  M.lift (debugAssert cfg (decide (a.len ≤ a.capacity)))
  if a.len = a.capacity then pushChunk cfg
  let a ← M.get
  M.lift (debugAssert cfg (decide (a.len < a.capacity)))
  let p ← M.read (fun a => a.ptrAt cfg a.len)
  M.modify fun a => a.poke p (some value)
  let len' ← M.lift (addU cfg a.len 1)
  M.modify fun a => { a with len := len' }
  pure p

/-- Marks every cell uninitialised. After `clear` no cell may be read any more
("invalidates all previous addresses", src/arena.rs:285); the real memory keeps
its old bits, the model forgets them, so a stale access is `ub`. -/
def forgetCells (a : Arena T) : Arena T :=
  { a with chunks := a.chunks.map fun c => { c with slots := c.slots.map fun _ => none } }

/-- The innermost statement of src/arena.rs:305-323: `drop_in_place` of one item
(UB if it is not initialised); the destructor may panic (`dropPanics`), in which
case the item still counts as dropped. -/
def dropItem (dropPanics : T → Bool) (c i : Nat) : M (Arena T) Unit := do
  let a ← M.get
  match ((a.chunks[c]?).bind fun ch => (ch.slots[i]?).join) with
  | none => M.ub
  | some v =>
    M.modify fun a => { a with
      chunks := a.chunks.modify c fun ch => { ch with slots := ch.slots.set i none }
      dropped := a.dropped ++ [v] }
    if dropPanics v then M.panic else pure ()

/-- src/arena.rs:286-330 `clear`. `needsDrop` is `mem::needs_drop::<T>()`. The two
nested `for` loops with the labelled `break` are one loop over
(chunk, item, dropped). `slice::from_raw_parts_mut` of more elements than the
chunk has is UB. -/
def clear (cfg : Cfg) (needsDrop : Bool) (dropPanics : T → Bool) : M (Arena T) Unit := do
  let a ← M.get
  if !needsDrop || a.isEmpty then
    M.modify fun a => { a.forgetCells with len := 0 }
  else
    let dropped ← loop (a.capacity + a.chunks.length + 2)
      (fun (st : Nat × Nat × Nat) => do
        let (c, i, dropped) := st
        let a ← M.get
        match a.chunks[c]? with
        | none => pure (.inr dropped)
        | some ch =>
          let chunkLen ← M.lift (chunkLen cfg (asU32 c))
          if ch.slots.length < chunkLen then M.ub
          else if i < chunkLen then
            if dropped = a.len then pure (.inr dropped)
            else
              dropItem dropPanics c i
              pure (.inl (c, i + 1, dropped + 1))
          else pure (.inl (c + 1, 0, dropped))) (0, 0, 0)
    let a ← M.get
    M.lift (debugAssert cfg (decide (dropped = a.len)))
    M.modify fun a => { a.forgetCells with len := 0 }

/-- src/arena.rs:337-343 `reserve`. -/
def reserve (cfg : Cfg) (additional : Nat) : M (Arena T) Unit := do
  let a ← M.get
  let capacity ← M.lift (addU cfg a.len additional)
  growTo cfg capacity

/-- src/arena.rs:348-378 `shrink_to_fit`. The loop variable is `chunks_len`.
`Vec::from_raw_parts(chunk, chunk_len, chunk_len)` followed by drop frees the
chunk (log entry with the element count used for the deallocation); line 377
(`self.chunks.shrink_to_fit()`) has no modelled effect. -/
def shrinkToFit (cfg : Cfg) : M (Arena T) Unit := do
  let a ← M.get
  loop (a.chunks.length + 1) (fun (chunksLen : Nat) => do
    let a ← M.get
    match a.chunks.getLast? with
    | none => pure (.inr ())
    | some chunk =>
      let i ← M.lift (subU cfg chunksLen 1)
      let chunkI := asU32 i
      let chunkLen ← M.lift (chunkLen cfg chunkI)
      let rest ← M.lift (subU cfg a.capacity chunkLen)
      if rest ≥ a.len then
        M.modify fun a => { a with
          chunks := a.chunks.dropLast
          log := a.log ++ [.free chunk.id chunkLen] }
        let chunksLen' ← M.lift (subU cfg chunksLen 1)
        let cap ← M.lift (subU cfg a.capacity chunkLen)
        M.modify fun a => { a with capacity := cap }
        pure (.inl chunksLen')
      else pure (.inr ())) a.chunks.length

/-- src/arena.rs:388-390 `set_len` (unsafe, not used by the crate). -/
def setLen (len : Nat) : M (Arena T) Unit := M.modify fun a => { a with len }

/-- The deallocation loop of src/arena.rs:444-452: chunk `chunk_i` is freed with
element count `chunk_len(chunk_i)`. -/
def freeChunks (cfg : Cfg) : Nat → List (Chunk T) → Out (List MemEv)
  | _, [] => .ok []
  | i, c :: cs => do
    let n ← chunkLen cfg (asU32 i)
    let rest ← freeChunks cfg (i + 1) cs
    pure (.free c.id n :: rest)

/-- src/arena.rs:439-454 `Drop for StableArena`: `clear`, then free every chunk.
If `clear` panics the chunks are leaked. -/
def drop (cfg : Cfg) (needsDrop : Bool) (dropPanics : T → Bool) : M (Arena T) Unit := do
  clear cfg needsDrop dropPanics
  let a ← M.get
  let evs ← M.lift (freeChunks cfg 0 a.chunks)
  M.modify fun a => { a with chunks := [], log := a.log ++ evs }

/-! ### Iterators (src/arena.rs:525-680) -/

/-- src/arena.rs:525-537 / 587-599 `Iter` / `IterMut`: the borrowed arena is
passed separately; the iterator itself is its `Range<usize>`. -/
structure Iter where
  start : Nat
  stop : Nat
deriving DecidableEq, Repr

/-- src/arena.rs:530-537, 592-599 `Iter::new` / `IterMut::new`. -/
def iter (a : Arena T) : Iter := { start := 0, stop := a.len }

/-- src/arena.rs:542-544, 604-606 `size_hint` (that of the range). -/
def Iter.sizeHint (it : Iter) : Nat × Option Nat := (it.stop - it.start, some (it.stop - it.start))

/-- src/arena.rs:562-571, 624-633 `next_ptr` (also `Pointers::next`, 671-673). For
`IterMut` the item is the place `ptr`; its current contents are returned. -/
def Iter.nextPtr (cfg : Cfg) (a : Arena T) (it : Iter) : Out (Option (Ptr × T) × Iter) :=
  if it.start < it.stop then do
    let p ← a.ptrAt cfg it.start
    let v ← a.getUnchecked p
    pure (some (p, v), { it with start := it.start + 1 })
  else .ok (none, it)

/-- src/arena.rs:575-584, 637-646 `next_back_ptr` (also `Pointers::next_back`). -/
def Iter.nextBackPtr (cfg : Cfg) (a : Arena T) (it : Iter) : Out (Option (Ptr × T) × Iter) :=
  if it.start < it.stop then do
    let p ← a.ptrAt cfg (it.stop - 1)
    let v ← a.getUnchecked p
    pure (some (p, v), { it with stop := it.stop - 1 })
  else .ok (none, it)

/-- src/arena.rs:546-548, 608-610 `next`. -/
def Iter.next (cfg : Cfg) (a : Arena T) (it : Iter) : Out (Option T × Iter) := do
  let (o, it) ← it.nextPtr cfg a
  pure (o.map (·.2), it)

/-- src/arena.rs:552-554, 614-616 `next_back`. -/
def Iter.nextBack (cfg : Cfg) (a : Arena T) (it : Iter) : Out (Option T × Iter) := do
  let (o, it) ← it.nextBackPtr cfg a
  pure (o.map (·.2), it)

/-- src/arena.rs:164-172 `PartialEq for StableArena`: compare lengths, then
`self.iter().zip(other.iter()).all(|(v1, v2)| v1.eq(v2))`. `zip` calls `next` on
the left iterator first and stops at the first `None`. -/
def eq (cfg : Cfg) (veq : T → T → Bool) (a b : Arena T) : Out Bool :=
  if a.len ≠ b.len then .ok false
  else loop (a.len + 1) (fun (st : Iter × Iter) => do
    let (x, i) ← st.1.next cfg a
    match x with
    | none => pure (.inr true)
    | some v1 =>
      let (y, j) ← st.2.next cfg b
      match y with
      | none => pure (.inr true)
      | some v2 => if veq v1 v2 then pure (.inl (i, j)) else pure (.inr false))
    (a.iter, b.iter)

/-- src/arena.rs:158-162 `Debug for StableArena` (`{:?}`):
`f.debug_list().entries(self.iter()).finish()`; `dt` is the `Debug` output of an
element. -/
def debug (cfg : Cfg) (dt : T → String) (a : Arena T) : Out String := do
  let items ← loop (a.len + 1) (fun (st : Iter × List String) => do
    let (x, i) ← st.1.next cfg a
    match x with
    | none => pure (.inr st.2)
    | some v => pure (.inl (i, st.2 ++ [dt v]))) (a.iter, [])
  pure ("[" ++ ", ".intercalate items ++ "]")

/-- src/arena.rs:456-464 `IntoIterator for StableArena`: `todo!()`. -/
def intoIter (_ : Arena T) : Out Unit := .panic

end Arena
end BST
