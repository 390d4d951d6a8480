# Formal model of sunjay/bst in Lean 4 — design

The crate under study has two parts: `bst` (`BSTMap`, `BSTSet`: an unbalanced binary search
tree whose nodes live in a hand-written slab on top of a hand-written arena, with `unsafe`
code) and `simple_bst` (`SimpleBSTMap`, `SimpleBSTSet`: the same tree with `Box`es).

* `properties.jsonl`: the properties, in English.
* `lean/Verif/Model/*`: the model, function by function. Every definition cites file and lines.
* `lean/Verif/*.lean` (not in a subdirectory): the specifications and the client vocabulary.
  Nothing there is part of the crate; these files and the theorem statements are what a
  reader has to trust to know *what* was proved.
* `lean/Verif/Proofs/*`: lemmas.
* `lean/Verif/Props/*`: the property theorems (`Cnn_*`) and concrete cases: about 405 examples for
  386 theorems. They are either right after a theorem or in a section at the end of the file
  that names the theorem; some theorems that state parts of one property share a case. Most
  cases evaluate the model on a sample, some apply the theorem to it.
* `MANIFEST.json`: which theorems prove which property (generated by `tools/gen_manifest.py`).
* `seeded/LOG.jsonl`: wrong programs tried against the theorems (section 7).

## 1. The model

`&mut self` methods become functions `State → Out α × State` (monad `M State`): the outcome
and the state *after* the call, also when the call panics, so that "panic, catch, go on" is
expressible. `&self` methods become functions `State → Out α`.

`Out α` is `ok a | panic | abort | ub | diverge`:
* `panic`: a Rust panic (unwinding; the state stays observable);
* `abort`: `handle_alloc_error` (the process is gone);
* `ub`: the code did something undefined: used a pointer into a chunk that is not (or no
  longer) allocated, read an uninitialised slot or the wrong variant of the `Entry` union,
  dropped a value twice, indexed with `get_unchecked` out of bounds;
* `diverge`: a loop ran out of fuel. Every `while`/`loop` is the combinator
  `loop fuel body`, with fuel "number of slots + constant". That no call diverges is
  *proved* (C20, C29), so the fuel is not a bound on the theorems.

| module | models |
|---|---|
| `Model/Basic.lean` | outcomes; `usize` arithmetic on 64 bits with explicit overflow (panic or wrap); loops; the build configuration `Cfg` |
| `Model/Arena.lean` | `src/arena.rs`: `ExponentialAlloc`, `Ptr`, `StableArena`, its iterators, `PartialEq`, `Debug`, `Drop` |
| `Model/Slab.lean` | `src/slab.rs`: `Entry`, `UnsafeSlab`, `Drop` |
| `Model/Map.lean` | `src/map.rs`, `src/map/node.rs`: `BSTMap`, `Node`, `NodeMut` |
| `Model/Iter.lean` | `src/map/{pre,in,post}order.rs`: the six iterators; `PartialEq` and `Debug` of the map |
| `Model/Set.lean` | `src/set.rs`, `src/set/*.rs`, the macros of `src/lib.rs` |
| `Model/Dtors.lean` | the calls of `src/map.rs` and `src/set.rs` that discard keys or values, with the destructors they run |
| `Model/MapDtors.lean` | the calls of `src/map.rs` where every destructor of a key or value is written down |
| `Model/SetDtors.lean` | the same for `src/set.rs` |
| `Model/Simple.lean`, `Model/SimpleSet.lean` | `simple_bst/src/**` |
| `Model/SimpleDtors.lean` | the calls of `simple_bst/src/map.rs` with all destructors of keys and values, the drop glue of trees of boxes, and unwinding |
| `Model/SimpleSetDtors.lean` | the same for `simple_bst/src/set.rs` |
| `Model/NodeEq.lean` | `PartialEq` of nodes (all four collections) and of arenas, where the user's `PartialEq` may panic |
| `Model/Fmt.lean` | `Debug` of all types in every format, with the builders of `core::fmt` (after the standard library) |
| `Model/FmtTo.lean` | the same `Debug` implementations, except that of the arena, with a destination that may refuse what is written |
| `Model/Recursion.lean` | the recursive functions (drop glue, derived `Clone`, `PartialEq` and `Debug` of `simple_bst`, `Debug` of `bst`) with a limit on nested calls |
| `Model/Aliasing.lean` | what a set of aliasing rules consists of |
| `Model/StackedBorrows.lean`, `Model/TreeBorrows.lean` | two of them (no code of the crate) |
| `Model/Borrows.lean` | the references that the functions of `src/arena.rs` create, for any rules |
| `Model/MapBorrows.lean` | the references that the functions of `src/slab.rs`, `src/map.rs` and `src/map/*.rs` create, for any rules |
| `Model/Boxes.lean` | `insert`, `remove_entry`, `get`, `get_mut`, `clear` and drop of `SimpleBSTMap`, with boxes as blocks of memory and all references, boxes and raw pointers, for any rules |
| `Model/Threads.lean` | the field types and `unsafe impl`s of all types, and the compiler's rules for `Send`/`Sync` |
| `Model/Lifetimes.lean` | the field types of all types with their lifetimes, the `impl Drop`s, and the compiler's rules for subtyping and the drop check |
| `Model/Unwind.lean` | the compiler's rules for `UnwindSafe`, `RefUnwindSafe` and `Unpin`, for the same fields |
| `Model/Bench.lean` | the programs of `benches/{two_sum,movie_requests,name_resolution,web_server,map_comparison}.rs` |
| `Model/BenchOps.lean` | the rest of `benches/map_comparison.rs` (mixed operations, several maps) and `benches/set_comparison.rs` |
| `Model/BenchGen.lean` | the functions that make the inputs of those programs, for any source of random numbers, and the benchmark of `remove` |
| `Model/Readme.lean` | the program in `README.md` |
| `Model/RandomTests.lean` | the randomised tests of `src/{map,set,arena}.rs` and `simple_bst/src/{map,set}.rs` |
| `UnitTests.lean` | the fixed unit tests and the documentation examples (a few are left out, see there), evaluated in the model of both crates. These are tests of the model against what the authors expect of their code, and no claim rests on them |
| `Model/Layout.lean` | the language's rules for sizes, alignments and fields, and the layouts of `Entry` and `InnerNode` |

`Cfg` has four independent fields: overflow checks, debug assertions, the size of an element
in bytes, and an oracle that decides which allocation requests succeed. All theorems are for
every `Cfg` unless they say otherwise.

**Memory.** An address (`Ptr`) is a pair (block id, offset). Every chunk allocation returns a
block with a fresh id. A chunk is its id and a list of `Option T` slots (`none` =
uninitialised). Freeing a chunk removes it; a later access through an old pointer is `ub`.
The union `Entry` carries a ghost tag so that reading the wrong variant is visible. Ghost
fields record the allocator log and the values whose destructor was run; no function of the
model reads them.

**User code** is a parameter: key comparisons are *probes* `Nat → K → Option Ordering` (the
answer to the i-th comparison of the call, or a panic). In one execution every `Ord`, however
stateful or inconsistent, is such a function, so theorems about all probes cover adversarial
`Ord`s. Destructors (`DropInfo`), `Clone`, `PartialEq`, `Debug` and iterators with arbitrary
size hints are parameters too, and may panic where the property is about panics.

In `simple_bst` a tree of boxes is owned and hence a value; a pointer into it is a path
(`Place`). Each `Box::new` asks the allocator oracle. That this view is justified for
`remove_entry`, which uses raw pointers, is C56: there boxes are blocks of memory that are
allocated and freed one by one, nodes contain addresses, and the result is the same.

## 2. The specifications

* `Spec.lean`: association lists (`lookup`, `insert`, `remove`), textbook binary search trees
  `BT` (insertion, deletion by in-order successor, the three traversals, `Search`), the
  smallest sufficient capacity `Fits`, how a comparison of two lists ends (`Compared`), rendering
  of trees as text.
* `Client.lean`: what a client can do: exploring the tree with `root/left/right` (`explore`,
  `exploreAt` with addresses), clients of mutable iterators, `Reach` (all maps that a client
  can have in its hands, including after caught panics), `Track` (the same with the largest
  length so far).
* `History.lean`, `SetHistory.lean`, `SimpleHistory.lean`, `SimpleSetHistory.lean`: the calls
  as data (`Op`), `history` (executes a list of calls, catching panics), and the relations
  `Answer` / `TreeAnswer` that say what an association list / a textbook tree answers;
  `Conforms` lifts them to histories.
* `Discards.lean`: histories with destructors that panic, and what an association list or a
  textbook tree would do with the same destructors (`DropAnswer`).
* `SetDiscards.lean`: the same for sets.
* `SimpleDiscards.lean`: the same for `simple_bst`, and which keys and values calls take and give
  (for C57).
* `MapDiscards.lean`: histories of a `BSTMap` in which every destructor is written down, and which
  keys and values calls take and give (for C59).
* `SetLedger.lean`: the same for a `BSTSet` (for C70).
* `SimpleSetLedger.lean`: histories of a `SimpleBSTSet` with destructors, what a textbook tree would do, and which
  elements calls take and give (for C73).
* `Equality.lean`: a tree written down from left to right, and how a comparison ends that reads two
  of them (for C54).
* `Search.lean`: search in a textbook tree with arbitrary comparisons.
* `Rebuild.lean`: copying a tree by insertions, and allowances of comparisons (for C65).
* `Orders.lean`: all orders of a list, means over them, harmonic numbers, numbers of comparisons (for C74).
* `Aging.lean`: how many comparisons every call makes that looks for a key of the map or an element of the set (for C75).
* `Printing.lean`: `Debug` output as a flat list of pieces with depths (for C66).
* `Refusing.lean`: writing pieces one after the other until one is refused (for C81).
* `Programs.lean`: programs over many maps that branch on answers, the three kinds of maps they can be
  run with (`BSTMap`, `SimpleBSTMap`, sorted lists), and their demand of room (for C67).
* `SetPrograms.lean`: the same over sets (for C71).
* `BenchSpec.lean`: pairs with a given sum, declarations in sight, documented responses of a server
  (for C68); size and depth of programs (for C69).
* `BenchOpsSpec.lean`: what the mixed operations of `benches/` find and leave, by number of step (for C72).
* `Storage.lean`: finite maps from pointers, lists of allocated values, the allocator log
  (`replay`), for arenas and slabs.
* `Account.lean`: which keys and values move in and out in a call.
* `Limited.lean`: the traversals with a stack of limited size (for C41). It repeats model code
  with a check at every push; C41 says that it behaves like the model.
* `Borrowing.lean`: clients that keep references to elements of an arena, and the discipline
  (`BorrowValid`) under which using them ought to be fine (for C49 and C52).
* `MapBorrowing.lean`: the calls of `History.lean` on a map whose references are tracked;
  `MapReaders.lean`: clients that hold any number of shared references, iterators and handles
  at once (both for C50 and C52).
* `Races.lean`: a heap that records accesses, when two of them conflict, and threads that share a
  map (for C53).
* `BoxHistory.lean`: the calls on a `SimpleBSTMap` in memory, and which tree one finds there (for
  C56).
* `NodeWrites.lean`: clients of a `SimpleBSTMap` that overwrite whole nodes, and what calls do to an
  arbitrary tree with an arbitrary counter (for C60).
* `Memory.lean`: what allocators promise about the addresses of blocks, and the address of an
  element (for C64).
* `Work.lean`: how many references a call creates, and the price of an iteration (for C51).
* `Demand.lean`: how many entries a history asks for.
* `Readme.lean`: looking through a list (for C78).
* `Related.lean`: two clients with different keys and values that make the same calls, and what it means
  that they get the same results (for C79); `RelatedSimple.lean` the same for the crate `simple_bst`.
* `Placement.lean`: how often the allocator was called, the slots of a list of blocks, and the calls that
  do not need other memory or take no entry out (for C76 and C77).
* `SetsAsMaps.lean`: the call on a map that corresponds to a call on a set, and what the answer of the map
  shows about the answer of the set (for C82); also C76, C77 and C79 for sets.
* `Ancestry.lean`: ancestors in a tree, keys between two others, and the keys on the way to another (for C84).

## 3. Proof architecture (`Proofs/`)

1. Arena: `position_for` is the bijection index ↔ (chunk, offset), by lemmas on
   `BitVec.clz`; the arena invariant; each operation acts on a partial function
   `Ptr → Option T`.
2. Slab: the free list is a duplicate-free linked list inside the arena; each operation acts
   on the partial function of live values.
3. Map: a ghost tree `Tree` with addresses and the representation predicate `Shape cfg m t`;
   contexts for the loops that carry a parent pointer. Each operation commutes with a
   function on trees. This needs no order hypothesis, so it covers broken `Ord`s.
4. Trees: insertion and removal refine sorted lists under a lawful `cmp` (`Std.TransCmp`).
5. Histories: induction over the list of calls.
6. `simple_bst`: the same tree functions; agreement of the two crates follows because both
   conform to the same deterministic specification.
7. Aliasing: `AliasLaws` (`Proofs/Aliasing.lean`) lists what the proofs need of the rules;
   `Proofs/StackLaws.lean` and `Proofs/TreeLaws.lean` prove it for the two sets of rules. All
   else is proved once, for any rules with these laws. The laws have no assumption about
   the code; whether `chunk.as_mut()` may be used for a whole chunk is the one point in which
   the two differ (`AliasView.Sound`).
8. Boxes: `ChainLaws` (`Proofs/Chains.lean`), proved for both sets of rules, says how a chain of
   pointers, each derived from the one before, may be extended, used and cut, location by
   location. `Eff` says which blocks a function may touch; `Boxed` is the tree at an address with
   its blocks. `Run` is a Hoare triple with outcomes. The loops are proved with an open path
   (`At`, `Split`) from the map to the current node.
9. Related programs: `MRel` (`Proofs/Related.lean`) relates two computations on related states, with one
   lemma for each operation; no invariant is needed.

## 4. The properties

All properties of `properties.jsonl` have theorems. `partial` in the manifest:

| id | why partial |
|---|---|
| C17 | false in builds without overflow checks (`C17_false_unchecked`); with "no overflow" it is proved (`C17_reserve_partial`), with checks it panics (`C17_overflow_checked`) |
| C19 | false for enormous size hints (`C19_false_hint`); otherwise proved (`C19_*_partial`, `C19_extend_returns`, `C19_from_iter_returns`) |
| C27 | false: after a panicking destructor in `clear` the next drop is always undefined behaviour (`C27_false`); what holds is `C27_drop_partial`, `C27_calm_partial`; reading is undefined behaviour too (`C27_false_read`) |
| C49 | false under Stacked Borrows for `clear`, `shrink_to_fit` and drop (`C49_false`, `C49_false_map`); all other calls and uses obey the rules (`C49_partial`), and all would after a small change (`C49_fixed`) |
| C60 | false: safe code can swap nodes of two maps, after which `len()` and the order are wrong (`C60_false_len`, `C60_false_order`); no undefined behaviour (`C60_safe_partial`), exact effect of all calls (`C60_answers_partial`), and consistency if the writes keep order and size (`C60_careful_partial`) |

## 5. Trusted base

* Lean's kernel (4.33.0). No other tool is trusted: no `native_decide`, no `bv_decide`, no
  added axioms, no `sorry`. Mathlib is not used.
* Axioms: every property theorem depends on at most `propext`, `Classical.choice` and
  `Quot.sound` (checked with `#print axioms`).
* That the definitions in `Model/` say what the Rust code does: the comments cite the lines.
* The semantics of Rust that the model assumes: panics unwind and can be caught; an
  allocation failure aborts; `usize` has 64 bits (the crate requires it, src/arena.rs:65);
  `Vec::with_capacity(n)` allocates exactly `n` elements (the crate asserts it); the compiler's
  rules for auto traits; `needs_drop` and drop glue; `HashSet` as a mathematical set.

### Modelled

The code outside `#[cfg(test)]` of `src/arena.rs`, `src/slab.rs`, `src/map.rs`, `src/map/*.rs`,
`src/set.rs`, `src/set/*.rs`, `src/lib.rs` and `simple_bst/src/**`, except what the next list
names. A script compared the `fn`s of the crate with the line ranges cited in `Model/`. Those
it found without a citation are: trivial constructors and accessors of handles and iterators
(`new`, `key`, `value`, `len`, `capacity`, `iter`, `iter_mut`, `clone` of a handle), `ptr_at`,
`node_eq` in simple_bst/src/map/postorder.rs, `next` of the in-order and post-order set
iterators of `simple_bst`, trait declarations, and the functions of the arena's `IntoIter`.
A citation shows that somebody looked at the lines, not that the definition is right.

### Not modelled, or simplified

* Threads only for C32 and C53. In `C53_threads` whole calls are interleaved; that their steps may be
  interleaved as well follows from `C53_readers` (no conflicting accesses) by the memory model of the
  language, which is not formalised.
* Borrow checking; lifetimes only in the types of fields, for C61 and C62. Aliasing rules only for C49, C50, C52, C53 and C56: Stacked Borrows and
  Tree Borrows at the granularity of whole elements (slots), for references into chunks, without protectors,
  two-phase borrows and interior mutability. References to the arena, the slab or the map
  themselves are not tracked. In C56 (`simple_bst`) locations are fields of nodes (key and value
  are one), boxes are retagged when they are passed on, and references to the map are tracked;
  functions of `core` are inlined with one reborrow each, and keys and values have no destructors. C10, C40 and C43 state, in the model without borrow stacks, the
  facts from which exclusivity of the handed out references follows: places are distinct, and
  nothing touches a node after handing it out.
* Bytes: addresses are pairs of a block and the number of an element, and provenance is the block
  id. C64 connects them with byte addresses (alignment, overlap, null); what is stored there is not
  modelled as bytes (padding, validity of bit patterns).
* The buffers of the `Vec`s for chunks and iterator stacks, and the `HashSet` in
  `UnsafeSlab::clear`: their allocation cannot fail in the model.
* The machine stack is unlimited except in C58, where it is limited by the number of nested calls
  of a recursive function. The sizes of frames are not modelled, nor that the compiler may turn the
  last call into a jump.
* Destructors of keys and values that a call discards (the equal key passed to `insert`, the
  old value in `extend`, the old map on assignment) are run only in `Model/Dtors.lean`, for
  C48, and in `Model/MapDtors.lean`, for C59, and in `Model/SetDtors.lean`, for C70; elsewhere C24 counts them as handed out. In
  `Model/Dtors.lean`, a key and a value of one node that both
  panic count as one panic (really an abort), a return value that is complete when a
  destructor panics is not followed further (compilers have leaked it or dropped it), and the
  iterator passed to `extend` has no destructor. In `Model/MapDtors.lean` a second panic aborts, return
  values are followed, and iterators own their items, as in `Model/SimpleDtors.lean`; but for
  `clear`, whose destructors must not panic (else C27). `C59_agree` says that the two models
  agree until the process aborts. The same goes for `Model/SetDtors.lean` and `C70_agree`.
* Destructors in `simple_bst` are run only in `Model/SimpleDtors.lean`, for C57, where a second
  panic aborts, return values are followed, and iterators own their items. There a destructor of
  a key or value does nothing but panic or not. The same goes for `Model/SimpleSetDtors.lean`, for C73.
* The arena's owning `IntoIter` (src/arena.rs:485-523), which is `todo!()`, and the two
  forwarding `IntoIterator` impls for references to arenas (src/arena.rs:466-484).
* Clients of `simple_bst` that overwrite whole nodes: only in C60 (without destructors, and with
  trees of boxes as values).
* Destinations of `Debug` output that panic. `Debug` as a call in histories is `{:?}` with
  implementations that do not fail; every format and failing ones are in C66, destinations that
  refuse writes in C81 (not for the internal arena).
* `PartialEq` of users is a total function (it may be any function, but does not panic) in C33, C45 and
  C55. C54 is about any `PartialEq`.
* That a clone is independent of the original holds by construction (states are values); what
  is proved about clones is their contents, shape and storage.
* `tests/`, and of `benches/` all but the functions of `Verif/Model/Bench.lean`,
  `Verif/Model/BenchOps.lean` and `Verif/Model/BenchGen.lean` (the measuring is left out); the table of `tests/send_sync.rs` is the example of C32.

## 6. Findings about the code

1. `UnsafeSlab::clear` (src/slab.rs:207-249): if a destructor panics, the slots already dropped
   still count as live. Every later `clear` or drop of the map, for a type with drop glue, is
   undefined behaviour (`C27_false`). It is reachable from safe code, and catching the panic is
   not needed for it: a map that is a local variable is dropped while the panic unwinds.
   `BSTMap::clear` resets `root` only after `nodes.clear()` (src/map.rs:653-654), so walking
   through the tree after the caught panic always reaches a dropped node (`C27_false_read`).
   `StableArena::clear` sets `len` only at the end (src/arena.rs:296-328) and has the same
   defect (`C27_false_arena`); maps are not affected by this one, since the entries of their
   arena have no destructor.
2. `reserve` adds without checking for overflow (src/arena.rs:338). Without overflow checks it
   wraps around and may return without reserving (`C17_false_unchecked`), although
   src/map.rs:755-757 and src/set.rs:357-359 promise a panic.
3. `reserve` adds to the number of slots ever used, not to `len()`: after removals it
   allocates although there is room. The remark "does nothing if the capacity is already
   sufficient" (src/slab.rs:271-272) does not hold then (`C17_exact`).
4. `extend` and `collect` reserve the *upper* bound of the size hint: iterators with a huge
   upper bound (`(0..u64::MAX).filter(..)`) panic although few items come
   (`C19_false_hint`).
5. `shrink_to_fit` releases nothing after removals, since slots are never moved
   (`C18_not_len`).
6. The documentation promises `O(log n)` look-ups; the tree is not balanced and ascending
   insertions give linear cost (`C30_linear`). On average over all insertion orders the promise
   holds (C74), and for a key that stays it gets no worse with use (C75).
7. `position_for` overflows for the last eight values of `usize` and panics there with overflow
   checks (`C23_sharp`). An arena of that many elements does not fit in memory.
8. An arena of a zero-sized type panics on the first allocation (the capacity of the `Vec` is
   `usize::MAX` and src/arena.rs:405 compares it). Nodes are never zero-sized, so maps and sets
   are not affected (`C34_zst`).
9. `StableArena`'s `Drop` leaks its chunks if an element's destructor panics (`C25_arena`);
   maps store `ManuallyDrop` entries, so their arena runs no element destructors.
10. `StableArena::into_iter` and the mutable iterators of `SimpleBSTMap` are `todo!()`.
11. The mutable iterators are neither `Send` nor `Sync` (a raw pointer field without
    `unsafe impl`), unlike `NodeMut` (`C32_iterMut`).
12. `==` on `Node` handles of `bst` ignores the subtrees, that of `simple_bst` (derived)
    compares them (`C55_not_conversely`).
13. `SimpleBSTMap::remove` re-boxes nodes, so a removal may allocate, hence abort
    (`C29_no_panic` lists the calls that can).
14. `chunk.as_mut()` (src/arena.rs:302, 363, 451) creates a reference to the first element of a
    chunk; the pointer obtained from it is then used for the whole chunk. Under Stacked Borrows
    this is undefined behaviour whenever a map with capacity is dropped (`C49_false_map`).
    `chunk.as_ptr()` would be fine (`C49_fixed`). Stacked Borrows is a proposal, not part of the
    definition of Rust; Tree Borrows (with its treatment of pointers that leave the reborrowed
    range) accepts the code (`C52_arena`, `C52_map`), and so does Stacked Borrows with untagged raw pointers, the
    default of Miri when the crate was written. It is no miscompilation known today.

15. Dropping (also clearing and cloning) a `SimpleBSTMap` recurses as deep as the tree is high, so
    after enough insertions in ascending order the process dies of stack overflow when the map goes
    out of scope (`C58_sorted`). `BSTMap` drops and clones in loops; only its `{:?}` recurses
    (`C58_sorted_bst`).
16. If a destructor panics while a `BSTMap` is dropped, the entries not yet dropped are leaked
    (`C59_drop`, for sets `C70_drop`): `Drop for UnsafeSlab` does not go on after a panic. A `SimpleBSTMap`, a `Vec` or a
    `BTreeMap` drops the rest (`C57_drop`).
17. `root_mut`, `left_mut` and `right_mut` of `simple_bst` return `&mut Node`, so safe code can swap
    nodes of two maps (or assign a clone of a node). `len` then no longer counts the entries:
    `is_empty()` is true for a map with entries or fails its assertion (simple_bst/src/map.rs:101),
    `self.len -= 1` underflows (line 394), insertion into an empty map fails the assertion of
    line 271; and keys can be out of order (`C60_false_len`, `C60_false_order`). Memory safety is not
    affected (`C60_safe_partial`). `bst` is not affected: its `NodeMut` gives access to values only.

18. The fields `_marker: PhantomData<T>` of the arena and the slab are called necessary for the drop
    checker (src/arena.rs:132, src/slab.rs:65). They are not as long as `T` in `impl Drop` is not
    `#[may_dangle]`, which two remarks plan to add (src/arena.rs:437, src/slab.rs:287); then they
    are (`C62_sound`). Until then a `BSTMap` of references is rejected where a `SimpleBSTMap` or a
    `Vec` is accepted (`C62_map`, `C62_simple`).
19. A `BSTMap` is `UnwindSafe` only if references to its keys and values are, since it holds raw
    pointers (src/arena.rs:117) and has no `impl UnwindSafe`: a map with `RefCell` values cannot be
    moved into `catch_unwind`, unlike a `SimpleBSTMap` or a `Vec` (`C63_map`,
    `C63_simple`).
20. "max of 8 bytes overhead per entry" (src/slab.rs:35) holds for all types but zero-sized ones with
    an alignment above 8 (`C64_overhead`), which never occur in maps and sets: there the overhead is 0
    (`C64_node`).
21. `clone` searches the place of every entry anew although it visits them in the order of the tree:
    exactly as many comparisons per entry as it has nodes above it (`C65_count`), quadratically many
    for a map filled in ascending order (`C65_quadratic`). It needs `K: Ord` for that. The derived
    `clone` of `simple_bst` compares nothing.
22. `two_sum` (benches/two_sum.rs:89) computes `target - num`, which overflows for numbers far from the
    target: with overflow checks it then panics although there may be a pair later on, without them it
    may return a pair that does not add up (example beside `C68_two_sum`). The generated inputs are
    small.
23. The benchmark of `remove` (benches/map_comparison.rs:334-336, and benches/set_comparison.rs:276-288
    likewise) fills the map once, outside the closure that is measured: all iterations after the first
    measure `remove` on an empty map (`C69_remove_iterations`, `C72_sets`).
24. `benchmark_map_ops` and `benchmark_set_ops` (benches/map_comparison.rs:190-224,
    benches/set_comparison.rs:182-212) look up and remove from position `key_i - 0` on, which is that of
    the *next* key: in every step the first lookup and the first removal find nothing, odd steps remove
    nothing at all, and the second lookup doubles the `0` just written (`C72_map_ops`, `C72_set_ops`).
    The key after the last one is needed too, which the five keys per step provide (example beside
    `C72_map_ops`).

## 7. Tests of the theorems against wrong programs

`seeded/LOG.jsonl` has one line per wrong program: an edit of a definition of the model in a
scratch copy, the claim it breaks, and which property theorems could no longer be proved. The
scratch copy is compiled with a front end that keeps going after errors (failed proofs become
`sorry`), and a property theorem counts as failed if it then depends on `sorryAx`.

Limits of this test: a theorem also counts as failed when only a helper lemma's proof broke,
so an edit of a core definition marks most theorems as failed whether or not their statements
are false of the edited program. "Failed" is therefore weak evidence; "survived" is the
informative outcome, and survivors are compared with the English claim by hand. The scratch
copy is built without the examples of `Props/`. Where the concrete witness of a theorem took too
much memory to evaluate in the edited model, it was replaced by `sorry` in the scratch copy; the
log lists these theorems under `witness_not_computed`.

For C56 (ids `x..`), C57 (ids `y..`), C59 (ids `z..`), C60 (ids `w..`), C65 (ids `q..`), C66 (ids `f..`), C67 to C69 (ids `h..` and `mv..`), C74 (ids `r..`), C75 (ids `ag..`, `as..`), C76 and C77 (ids `al..`), C78 (ids `rd..`, `rs..`), C80 (ids `rt..`), C81 (ids `rf..`), C82 (ids `sm..`), C83 (ids `un..`), C84 (ids `an..`, `ac..`), C33, C34 and C59 again (ids `ms..`), C58 (ids `dp..`), programs (ids `pg..`), C54, C55 and C60 again (ids `ne..`, `nw..`), C71 and C72 (ids `j..`) and equality
of nodes (ids `n..`) the test is sharper: the statements of the theorems were evaluated in the edited model on random histories, and "failed"
means that a counterexample to the statement was found. For C48 of sets (ids `u..`) and C70 (ids `c..`) the modules were rebuilt;
for C73 (ids `o..`) both was done.

A first batch of seven results was discarded: the driver counted a theorem as failed when its
module had not been compiled at all (seen when one edit of the arena "broke" the `Send`/`Sync`
theorems). The driver now reports such theorems separately as not checked.
