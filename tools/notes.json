{
 "C17": {
  "status": "partial",
  "note": "The claim is false in builds without overflow checks (C17_false_unchecked: len()+n wraps, reserve returns and capacity is too small). Proved when the addition does not overflow (C17_reserve_partial), and that it panics with overflow checks (C17_overflow_checked). C17_exact says when memory is taken: after removals also if there is room."
 },
 "C19": {
  "status": "partial",
  "note": "The claim 'for any size_hint, correct or not' is false: an upper hint that is too large makes extend panic before anything is inserted (C19_false_hint). Proved: whenever the call returns, the contents are those of repeated insert."
 },
 "C27": {
  "status": "partial",
  "note": "The claim is false: whenever a destructor panics during clear, dropping or clearing the map afterwards is undefined behaviour (C27_false, for every reachable map), and so is walking through its tree (C27_false_read). Proved: safe if no destructor panics, and a panic while the map is being dropped is harmless. The arena alone has the same defect (C27_false_arena)."
 },
 "C49": {
  "status": "partial",
  "note": "False under Stacked Borrows: chunk.as_mut() makes a reference to the first element only, and clear, shrink_to_fit and drop use it for the whole chunk (C49_false; for every map with capacity C49_false_map). Proved for all other calls and uses (C49_partial), and for all calls if as_mut() were as_ptr() (C49_fixed). Stacked Borrows is a proposed model; under Tree Borrows the code is fine as it is (C52)."
 },
 "C50": {
  "status": "proved",
  "note": "shrink_to_fit and drop are excepted because they are C49's counterexample; C50_fixed includes them for chunk.as_ptr(). Granularity: whole slots; references to the slab struct itself are not tracked."
 },
 "C51": {
  "status": "proved",
  "note": "Counts the references, raw pointers and chunks that the model of C50 creates; the bounds of C51_calls are reached (concrete cases). For the number of comparisons see C30."
 },
 "C52": {
  "status": "proved",
  "note": "Rules without protectors, two-phase borrows and interior mutability; granularity: whole slots; references to the slab or arena struct itself are not tracked."
 },
 "C53": {
  "status": "proved",
  "note": "Schedules interleave whole calls; that steps inside calls may be interleaved as well follows from the absence of conflicting accesses (C53_readers), by the memory model of the language, which is not formalised. Accesses are recorded per node; fields of the map itself are only read by &self methods (by type). Key and value types are taken to be thread safe themselves (that is C32)."
 },
 "C54": {
  "status": "proved",
  "note": "keq i, veq i are the answers about the entries at position i, so they may depend on when they are asked. For simple_bst the model drains both iterators before it compares; the iterators have no effects and never fail, so this cannot be told apart."
 },
 "C55": {
  "status": "proved",
  "note": "C55_implies is about maps built with the same calls in both crates; C55_not_conversely are the two counterexamples to the converse."
 },
 "C56": {
  "status": "proved",
  "note": "2 <= esize: a node with its two pointers has at least two bytes. Protectors are not part of the rules here. Keys and values are one memory location per node. C56_unique: Holds determines the tree."
 },
 "C57": {
  "status": "proved",
  "note": "2 <= esize: a node with its two pointers has at least two bytes. Contrast with C27, which is false for bst. A return value that is complete when a destructor panics may be dropped or leaked (Drops.ret): compilers have differed. Iterators passed to extend own their remaining items."
 },
 "C58": {
  "status": "proved",
  "note": "Verif/Model/Recursion.lean repeats the recursive functions with a limit on nested calls; each such call counts as one frame. That the other functions do not recurse is read off the source (in the model they are loops)."
 },
 "C59": {
  "status": "proved",
  "note": "Nodes are taken to need dropping. clear comes with destructors that do not panic: with panicking ones the accounts are false (C27). What is lost is `lost` in C59_ledger; C59_drop says exactly which entries a drop that panics leaves. As in C57, a return value that is complete when a destructor panics may be dropped or leaked (Drops.ret)."
 },
 "C60": {
  "status": "partial",
  "note": "False as to len(), order and panics: C60_false_len and C60_false_order exhibit two maps built by insertions whose nodes are swapped (C60_swap: a swap is the overwriting of each node by the other). Proved for all histories with overwritten nodes: absence of undefined behaviour and termination (C60_safe_partial), what exactly every call does to an arbitrary tree and counter (C60_answers_partial), and full consistency if each write keeps the order of the keys and the number of nodes (C60_careful_partial)."
 },
 "C61": {
  "status": "proved",
  "note": "About the declared fields and the rules of the language, which are part of the trusted base; variances of the types of the standard library are as documented. Verif/Model/Lifetimes.lean. The bodies of the functions play no role in it: that they respect the borrows is C10, C40, C43, C49, C50, C52, C53 and C56."
 },
 "C62": {
  "status": "proved",
  "note": "About the declared fields and impls and the rules of the language, which are part of the trusted base. The comments at src/arena.rs:132 and src/slab.rs:65 call the markers necessary for the drop checker; C62_sound shows when they are."
 },
 "C63": {
  "status": "proved",
  "note": "About the declared fields and the rules of the language, which are part of the trusted base; the implementations for the types of the standard library are as documented. Verif/Model/Unwind.lean, with the fields in Verif/Model/Threads.lean. That a map is usable after a caught panic is not what UnwindSafe says; see C27, C57 and C59 for that."
 },
 "C64": {
  "status": "proved",
  "note": "The rules for layouts of structs and repr(C) unions and the promises of the allocator (Placed, Verif/Memory.lean) are part of the trusted base. It connects the addresses of the rest of the model (block and number of the element) with bytes. Entries are those the model's get_unchecked accepts; that no call accesses others is C20 and C22."
 },
 "C65": {
  "status": "proved",
  "note": "Comparisons are counted by allowing a number of them for each insertion (budget) and letting the next one panic. reinsert and depths (Verif/Rebuild.lean) are the specification."
 },
 "C66": {
  "status": "proved",
  "note": "The builders of core::fmt (DebugStruct, DebugTuple, DebugList, PadAdapter) are modelled after the standard library, which is not in /repo; the destination accepts every write. Pieces and print (Verif/Printing.lean) are the specification; C66_plain connects it with the text of C42."
 },
 "C67": {
  "status": "proved",
  "note": "Programs (Verif/Programs.lean) are trees of calls branching over answers, so the continuation may be any function. Maps are not dropped while a program runs; queries are keys. Verif/Programs.lean also has the sorted lists that serve as specification."
 },
 "C68": {
  "status": "proved",
  "note": "The programs are modelled as programs over maps (Model/Bench.lean) and specified without maps in BenchSpec.lean. Random generation, criterion and the dropping of maps are not modelled; a shuffle is any permutation. Without overflow checks two_sum may return a pair whose wrapped sum is the target (example beside the theorem)."
 },
 "C69": {
  "status": "proved",
  "note": "The source of random numbers is any function of a state (Rng in Model/BenchGen.lean) whose shuffle is a permutation. A loop that goes on by luck is run for a given number of rounds; for generate_requests the theorem says nothing about how many are needed (without luck it goes on for ever). Out of memory and lengths near isize::MAX are not modelled."
 },
 "C70": {
  "status": "proved",
  "note": "A second panic aborts; destructors do nothing but panic or not. Destructors that panic during clear are excluded (C27). clear is also excluded in C70_why, since its destructors are its own. Half-built sets that are dropped during unwinding are recorded in World.cut."
 },
 "C71": {
  "status": "proved",
  "note": "By translation to the programs over maps of C67 (a set is a map to ()); the sorted lists of elements are written down independently in SetPrograms.lean."
 },
 "C72": {
  "status": "proved",
  "note": "Positions of keys are natural numbers instead of i64. The room asked for is that for all insertions of a program in one map (set), which is more than needed."
 },
 "C73": {
  "status": "proved",
  "note": "A second panic aborts; destructors do nothing but panic or not. The stack is unlimited (drop glue is recursive: C58)."
 },
 "C74": {
  "status": "proved",
  "note": "Averages count every insertion order once. Comparisons are counted by allowances: a call that may compare b times panics at one more. In the worst case the documented O(log n) is false (C30_linear)."
 },
 "C75": {
  "status": "proved",
  "note": "Comparisons are counted by allowances, as in C74. Sequences with map = src.collect() are excluded, since that is a different tree; clear and with_capacity take the key out. A SimpleBSTMap must not run out of memory."
 },
 "C76": {
  "status": "proved",
  "note": "Allocator calls are the events of the arena's log; the vector of chunks itself (a Vec of pointers) is not counted, it grows with the number of blocks. For SimpleBSTMap the ghost counter of boxes. The call that fails for lack of memory makes no event. C76_set_history is for BSTSet."
 },
 "C77": {
  "status": "proved",
  "note": "A slot is an index into the blocks that the allocator events leave, oldest first. Whether two blocks are neighbours is up to the allocator. C77_order holds for any comparisons; which keys move in is Op.keysIn (an insert that returned None). C77_set_order is for a new BSTSet, without extend."
 },
 "C78": {
  "status": "proved",
  "note": "The stack is a limit on nested calls of find_score, as in Model/Recursion.lean; all calls count as equally large. The comparison of scores is an arbitrary test that may panic."
 },
 "C79": {
  "status": "proved",
  "note": "Relational parametricity, proved for every function that a history calls. Programs that are generic in keys and values tend to have this property whether or not they are correct otherwise, so it says nothing about which answers are given; the other properties do. Both clients have elements of the same size (Cfg.esize). Destructors and addresses are part of the statements for BSTMap only; those for SimpleBSTMap and SimpleBSTSet are about clients whose destructors do not panic."
 },
 "C80": {
  "status": "proved",
  "note": "The tests are modelled as programs whose random choices are arguments. Maps and sets of the standard library are lists without order. test_random_traversals compares with zip, which stops with the shorter of the two sequences, so that an iterator that ends too early would pass it; that the iterators yield every entry is C08. Of the arena's test the two assertions about the Vec alone are left out."
 },
 "C81": {
  "status": "proved",
  "note": "Destinations are total functions from a piece of text and a state to an answer and a state; they do not panic. The pieces and the builders of core::fmt (PadAdapter, DebugStruct, DebugTuple) are modelled after the standard library. Nodes of the simple crate are printed as part of their map or set; Debug of the internal arena is not included."
 },
 "C82": {
  "status": "proved",
  "note": "Texts of Debug are not compared (a set prints differently; C38 and C66 say what). C82_reach and C82_reach_map connect histories with Reach, the assumption of many other theorems. Calls made through the mutable iterators and get_mut have no counterpart on sets."
 },
 "C83": {
  "status": "proved",
  "note": "Complete. C38 has the undoing of one insertion under a total order. Not claimed: an inner node that is removed and inserted again comes back as a leaf elsewhere (an example beside C83_leaf). The leaf theorem is stated for the maps of both crates; a set is a map (C82)."
 },
 "C84": {
  "status": "proved",
  "note": "Complete for maps; sets follow by C82. Not claimed: anything about the ancestors after removals (C75 bounds depths then)."
 }
}