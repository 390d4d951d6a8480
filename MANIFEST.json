{
 "claims": [
  {
   "property": "C01",
   "status": "proved",
   "theorems": [
    "BST.Props.C01_history",
    "BST.Props.C01_no_failure"
   ],
   "note": ""
  },
  {
   "property": "C02",
   "status": "proved",
   "theorems": [
    "BST.Props.C02_insert_outcome",
    "BST.Props.C02_insert_contents",
    "BST.Props.C02_insert_reads"
   ],
   "note": ""
  },
  {
   "property": "C03",
   "status": "proved",
   "theorems": [
    "BST.Props.C03_reinsert",
    "BST.Props.C03_set"
   ],
   "note": ""
  },
  {
   "property": "C04",
   "status": "proved",
   "theorems": [
    "BST.Props.C04_remove",
    "BST.Props.C04_remove_reads"
   ],
   "note": ""
  },
  {
   "property": "C05",
   "status": "proved",
   "theorems": [
    "BST.Props.C05_lookups_agree",
    "BST.Props.C05_lookups_lawful"
   ],
   "note": ""
  },
  {
   "property": "C06",
   "status": "proved",
   "theorems": [
    "BST.Props.C06_len",
    "BST.Props.C06_len_any"
   ],
   "note": ""
  },
  {
   "property": "C07",
   "status": "proved",
   "theorems": [
    "BST.Props.C07_inorder"
   ],
   "note": ""
  },
  {
   "property": "C08",
   "status": "proved",
   "theorems": [
    "BST.Props.C08_traversals"
   ],
   "note": ""
  },
  {
   "property": "C09",
   "status": "proved",
   "theorems": [
    "BST.Props.C09_iter",
    "BST.Props.C09_iterMut"
   ],
   "note": ""
  },
  {
   "property": "C10",
   "status": "proved",
   "theorems": [
    "BST.Props.C10_iterMut_client"
   ],
   "note": ""
  },
  {
   "property": "C11",
   "status": "proved",
   "theorems": [
    "BST.Props.C11_getMut",
    "BST.Props.C11_reads"
   ],
   "note": ""
  },
  {
   "property": "C12",
   "status": "proved",
   "theorems": [
    "BST.Props.C12_search_tree"
   ],
   "note": ""
  },
  {
   "property": "C13",
   "status": "proved",
   "theorems": [
    "BST.Props.C13_clone_shape",
    "BST.Props.C13_clone_same",
    "BST.Props.C13_clone_returns"
   ],
   "note": ""
  },
  {
   "property": "C14",
   "status": "proved",
   "theorems": [
    "BST.Props.C14_eq_iff",
    "BST.Props.C14_equivalence",
    "BST.Props.C14_eq_inorder"
   ],
   "note": ""
  },
  {
   "property": "C15",
   "status": "proved",
   "theorems": [
    "BST.Props.C15_clear",
    "BST.Props.C15_reuse"
   ],
   "note": ""
  },
  {
   "property": "C16",
   "status": "proved",
   "theorems": [
    "BST.Props.C16_with_capacity",
    "BST.Props.C16_zero",
    "BST.Props.C16_len_le",
    "BST.Props.C16_insert_room"
   ],
   "note": ""
  },
  {
   "property": "C17",
   "status": "partial",
   "theorems": [
    "BST.Props.C17_reserve_partial",
    "BST.Props.C17_nothing_else",
    "BST.Props.C17_exact",
    "BST.Props.C17_overflow_checked",
    "BST.Props.C17_false_unchecked"
   ],
   "note": "The claim is false in builds without overflow checks (C17_false_unchecked: len()+n wraps, reserve returns and capacity is too small). Proved when the addition does not overflow (C17_reserve_partial), and that it panics with overflow checks (C17_overflow_checked). C17_exact says when memory is taken: after removals also if there is room."
  },
  {
   "property": "C18",
   "status": "proved",
   "theorems": [
    "BST.Props.C18_shrink",
    "BST.Props.C18_minimal",
    "BST.Props.C18_not_len"
   ],
   "note": ""
  },
  {
   "property": "C19",
   "status": "partial",
   "theorems": [
    "BST.Props.C19_extend_partial",
    "BST.Props.C19_from_iter_partial",
    "BST.Props.C19_extend_returns",
    "BST.Props.C19_from_iter_returns",
    "BST.Props.C19_false_hint"
   ],
   "note": "The claim 'for any size_hint, correct or not' is false: an upper hint that is too large makes extend panic before anything is inserted (C19_false_hint). Proved: whenever the call returns, the contents are those of repeated insert."
  },
  {
   "property": "C20",
   "status": "proved",
   "theorems": [
    "BST.Props.C20_history",
    "BST.Props.C20_set"
   ],
   "note": ""
  },
  {
   "property": "C21",
   "status": "proved",
   "theorems": [
    "BST.Props.C21_map",
    "BST.Props.C21_removal",
    "BST.Props.C21_history",
    "BST.Props.C21_slab"
   ],
   "note": ""
  },
  {
   "property": "C22",
   "status": "proved",
   "theorems": [
    "BST.Props.C22_history",
    "BST.Props.C22_contents"
   ],
   "note": ""
  },
  {
   "property": "C23",
   "status": "proved",
   "theorems": [
    "BST.Props.C23_position",
    "BST.Props.C23_bijective",
    "BST.Props.C23_order",
    "BST.Props.C23_sharp"
   ],
   "note": ""
  },
  {
   "property": "C24",
   "status": "proved",
   "theorems": [
    "BST.Props.C24_map",
    "BST.Props.C24_lifetime",
    "BST.Props.C24_extend",
    "BST.Props.C24_collect",
    "BST.Props.C24_slab",
    "BST.Props.C24_arena"
   ],
   "note": ""
  },
  {
   "property": "C25",
   "status": "proved",
   "theorems": [
    "BST.Props.C25_map",
    "BST.Props.C25_build",
    "BST.Props.C25_slab",
    "BST.Props.C25_arena"
   ],
   "note": ""
  },
  {
   "property": "C26",
   "status": "proved",
   "theorems": [
    "BST.Props.C26_unchanged",
    "BST.Props.C26_when"
   ],
   "note": ""
  },
  {
   "property": "C27",
   "status": "partial",
   "theorems": [
    "BST.Props.C27_false",
    "BST.Props.C27_false_read",
    "BST.Props.C27_drop_partial",
    "BST.Props.C27_calm_partial",
    "BST.Props.C27_false_arena"
   ],
   "note": "The claim is false: whenever a destructor panics during clear, dropping or clearing the map afterwards is undefined behaviour (C27_false, for every reachable map), and so is walking through its tree (C27_false_read). Proved: safe if no destructor panics, and a panic while the map is being dropped is harmless. The arena alone has the same defect (C27_false_arena)."
  },
  {
   "property": "C28",
   "status": "proved",
   "theorems": [
    "BST.Props.C28_history",
    "BST.Props.C28_tree",
    "BST.Props.C28_eq",
    "BST.Props.C28_no_failure"
   ],
   "note": ""
  },
  {
   "property": "C29",
   "status": "proved",
   "theorems": [
    "BST.Props.C29_history",
    "BST.Props.C29_no_panic",
    "BST.Props.C29_no_abort",
    "BST.Props.C29_agree",
    "BST.Props.C29_eq",
    "BST.Props.C29_set_history",
    "BST.Props.C29_set_no_panic",
    "BST.Props.C29_set_no_abort",
    "BST.Props.C29_set_agree",
    "BST.Props.C29_set_eq"
   ],
   "note": ""
  },
  {
   "property": "C30",
   "status": "proved",
   "theorems": [
    "BST.Props.C30_height",
    "BST.Props.C30_linear",
    "BST.Props.C30_linear_possible"
   ],
   "note": ""
  },
  {
   "property": "C31",
   "status": "proved",
   "theorems": [
    "BST.Props.C31_bstmap",
    "BST.Props.C31_bstmap_returns",
    "BST.Props.C31_bstset",
    "BST.Props.C31_bstset_returns"
   ],
   "note": ""
  },
  {
   "property": "C32",
   "status": "proved",
   "theorems": [
    "BST.Props.C32_map",
    "BST.Props.C32_set",
    "BST.Props.C32_shared",
    "BST.Props.C32_nodeMut",
    "BST.Props.C32_iterMut",
    "BST.Props.C32_access",
    "BST.Props.C32_simple"
   ],
   "note": ""
  },
  {
   "property": "C33",
   "status": "proved",
   "theorems": [
    "BST.Props.C33_node_eq",
    "BST.Props.C33_node_self",
    "BST.Props.C33_nodeMut_eq"
   ],
   "note": ""
  },
  {
   "property": "C34",
   "status": "proved",
   "theorems": [
    "BST.Props.C34_history",
    "BST.Props.C34_zst",
    "BST.Props.C34_each_once",
    "BST.Props.C34_plain"
   ],
   "note": ""
  },
  {
   "property": "C35",
   "status": "proved",
   "theorems": [
    "BST.Props.C35_insert_leaf"
   ],
   "note": ""
  },
  {
   "property": "C36",
   "status": "proved",
   "theorems": [
    "BST.Props.C36_capacity",
    "BST.Props.C36_overhead",
    "BST.Props.C36_slots",
    "BST.Props.C36_all",
    "BST.Props.C36_remove_insert"
   ],
   "note": ""
  },
  {
   "property": "C37",
   "status": "proved",
   "theorems": [
    "BST.Props.C37_insert",
    "BST.Props.C37_reserve"
   ],
   "note": ""
  },
  {
   "property": "C38",
   "status": "proved",
   "theorems": [
    "BST.Props.C38_insert_order",
    "BST.Props.C38_insert_remove",
    "BST.Props.C38_remove_comm",
    "BST.Props.C38_remove_idem"
   ],
   "note": ""
  },
  {
   "property": "C39",
   "status": "proved",
   "theorems": [
    "BST.Props.C39_builds",
    "BST.Props.C39_constructors",
    "BST.Props.C39_reserve"
   ],
   "note": ""
  },
  {
   "property": "C40",
   "status": "proved",
   "theorems": [
    "BST.Props.C40_never_touched_again"
   ],
   "note": ""
  },
  {
   "property": "C41",
   "status": "proved",
   "theorems": [
    "BST.Props.C41_stack",
    "BST.Props.C41_within",
    "BST.Props.C41_clone"
   ],
   "note": ""
  },
  {
   "property": "C42",
   "status": "proved",
   "theorems": [
    "BST.Props.C42_set",
    "BST.Props.C42_set_node",
    "BST.Props.C42_debug",
    "BST.Props.C42_debug_same",
    "BST.Props.C42_debug_node",
    "BST.Props.C42_debug_nodeMut"
   ],
   "note": ""
  },
  {
   "property": "C43",
   "status": "proved",
   "theorems": [
    "BST.Props.C43_nodeMut_reads",
    "BST.Props.C43_nodeMut_write"
   ],
   "note": ""
  },
  {
   "property": "C44",
   "status": "proved",
   "theorems": [
    "BST.Props.C44_borrowed",
    "BST.Props.C44_answers"
   ],
   "note": ""
  },
  {
   "property": "C45",
   "status": "proved",
   "theorems": [
    "BST.Props.C45_eq"
   ],
   "note": ""
  },
  {
   "property": "C46",
   "status": "proved",
   "theorems": [
    "BST.Props.C46_history"
   ],
   "note": ""
  },
  {
   "property": "C47",
   "status": "proved",
   "theorems": [
    "BST.Props.C47_insert",
    "BST.Props.C47_remove",
    "BST.Props.C47_shape"
   ],
   "note": ""
  },
  {
   "property": "C48",
   "status": "proved",
   "theorems": [
    "BST.Props.C48_history",
    "BST.Props.C48_safe",
    "BST.Props.C48_calm",
    "BST.Props.C48_insert",
    "BST.Props.C48_remove",
    "BST.Props.C48_set",
    "BST.Props.C48_set_history",
    "BST.Props.C48_set_safe",
    "BST.Props.C48_set_calm"
   ],
   "note": ""
  },
  {
   "property": "C49",
   "status": "partial",
   "theorems": [
    "BST.Props.C49_partial",
    "BST.Props.C49_false",
    "BST.Props.C49_false_map",
    "BST.Props.C49_fixed"
   ],
   "note": "False under Stacked Borrows: chunk.as_mut() makes a reference to the first element only, and clear, shrink_to_fit and drop use it for the whole chunk (C49_false; for every map with capacity C49_false_map). Proved for all other calls and uses (C49_partial), and for all calls if as_mut() were as_ptr() (C49_fixed). Stacked Borrows is a proposed model; under Tree Borrows the code is fine as it is (C52)."
  },
  {
   "property": "C50",
   "status": "proved",
   "theorems": [
    "BST.Props.C50_map",
    "BST.Props.C50_shared",
    "BST.Props.C50_fixed"
   ],
   "note": "shrink_to_fit and drop are excepted because they are C49's counterexample; C50_fixed includes them for chunk.as_ptr(). Granularity: whole slots; references to the slab struct itself are not tracked."
  },
  {
   "property": "C51",
   "status": "proved",
   "theorems": [
    "BST.Props.C51_calls",
    "BST.Props.C51_iter"
   ],
   "note": "Counts the references, raw pointers and chunks that the model of C50 creates; the bounds of C51_calls are reached (concrete cases). For the number of comparisons see C30."
  },
  {
   "property": "C52",
   "status": "proved",
   "theorems": [
    "BST.Props.C52_arena",
    "BST.Props.C52_map",
    "BST.Props.C52_shared"
   ],
   "note": "Rules without protectors, two-phase borrows and interior mutability; granularity: whole slots; references to the slab or arena struct itself are not tracked."
  },
  {
   "property": "C53",
   "status": "proved",
   "theorems": [
    "BST.Props.C53_readers",
    "BST.Props.C53_threads",
    "BST.Props.C53_threads_stacked",
    "BST.Props.C53_clone",
    "BST.Props.C53_iter_mut"
   ],
   "note": "Schedules interleave whole calls; that steps inside calls may be interleaved as well follows from the absence of conflicting accesses (C53_readers), by the memory model of the language, which is not formalised. Accesses are recorded per node; fields of the map itself are only read by &self methods (by type). Key and value types are taken to be thread safe themselves (that is C32)."
  },
  {
   "property": "C54",
   "status": "proved",
   "theorems": [
    "BST.Props.C54_map",
    "BST.Props.C54_set",
    "BST.Props.C54_simple",
    "BST.Props.C54_simple_set",
    "BST.Props.C54_node",
    "BST.Props.C54_nodeMut",
    "BST.Props.C54_set_node",
    "BST.Props.C54_arena",
    "BST.Props.C54_simple_node",
    "BST.Props.C54_simple_set_node",
    "BST.Props.C54_pure"
   ],
   "note": "keq i, veq i are the answers about the entries at position i, so they may depend on when they are asked. For simple_bst the model drains both iterators before it compares; the iterators have no effects and never fail, so this cannot be told apart."
  },
  {
   "property": "C55",
   "status": "proved",
   "theorems": [
    "BST.Props.C55_simple_node",
    "BST.Props.C55_simple_set_node",
    "BST.Props.C55_implies",
    "BST.Props.C55_not_conversely"
   ],
   "note": "C55_implies is about maps built with the same calls in both crates; C55_not_conversely are the two counterexamples to the converse."
  },
  {
   "property": "C56",
   "status": "proved",
   "theorems": [
    "BST.Props.C56_stacked",
    "BST.Props.C56_tree",
    "BST.Props.C56_unique"
   ],
   "note": "2 <= esize: a node with its two pointers has at least two bytes. Protectors are not part of the rules here. Keys and values are one memory location per node. C56_unique: Holds determines the tree."
  },
  {
   "property": "C57",
   "status": "proved",
   "theorems": [
    "BST.Props.C57_history",
    "BST.Props.C57_ledger",
    "BST.Props.C57_abort",
    "BST.Props.C57_clear",
    "BST.Props.C57_drop",
    "BST.Props.C57_life",
    "BST.Props.C57_why",
    "BST.Props.C57_calm"
   ],
   "note": "2 <= esize: a node with its two pointers has at least two bytes. Contrast with C27, which is false for bst. A return value that is complete when a destructor panics may be dropped or leaked (Drops.ret): compilers have differed. Iterators passed to extend own their remaining items."
  },
  {
   "property": "C58",
   "status": "proved",
   "theorems": [
    "BST.Props.C58_drop",
    "BST.Props.C58_clear",
    "BST.Props.C58_clone",
    "BST.Props.C58_eq",
    "BST.Props.C58_debug_simple",
    "BST.Props.C58_debug_simple_set",
    "BST.Props.C58_debug",
    "BST.Props.C58_debug_set",
    "BST.Props.C58_sorted",
    "BST.Props.C58_sorted_bst"
   ],
   "note": "Verif/Model/Recursion.lean repeats the recursive functions with a limit on nested calls; each such call counts as one frame. That the other functions do not recurse is read off the source (in the model they are loops)."
  },
  {
   "property": "C59",
   "status": "proved",
   "theorems": [
    "BST.Props.C59_ledger",
    "BST.Props.C59_abort",
    "BST.Props.C59_drop",
    "BST.Props.C59_life",
    "BST.Props.C59_agree",
    "BST.Props.C59_history",
    "BST.Props.C59_why",
    "BST.Props.C59_calm"
   ],
   "note": "Nodes are taken to need dropping. clear comes with destructors that do not panic: with panicking ones the accounts are false (C27). What is lost is `lost` in C59_ledger; C59_drop says exactly which entries a drop that panics leaves. As in C57, a return value that is complete when a destructor panics may be dropped or leaked (Drops.ret)."
  },
  {
   "property": "C60",
   "status": "partial",
   "theorems": [
    "BST.Props.C60_answers_partial",
    "BST.Props.C60_safe_partial",
    "BST.Props.C60_careful_partial",
    "BST.Props.C60_swap",
    "BST.Props.C60_false_len",
    "BST.Props.C60_false_order"
   ],
   "note": "False as to len(), order and panics: C60_false_len and C60_false_order exhibit two maps built by insertions whose nodes are swapped (C60_swap: a swap is the overwriting of each node by the other). Proved for all histories with overwritten nodes: absence of undefined behaviour and termination (C60_safe_partial), what exactly every call does to an arbitrary tree and counter (C60_answers_partial), and full consistency if each write keeps the order of the keys and the number of nodes (C60_careful_partial)."
  },
  {
   "property": "C61",
   "status": "proved",
   "theorems": [
    "BST.Props.C61_map",
    "BST.Props.C61_shared",
    "BST.Props.C61_mut",
    "BST.Props.C61_simple",
    "BST.Props.C61_access",
    "BST.Props.C61_marker"
   ],
   "note": "About the declared fields and the rules of the language, which are part of the trusted base; variances of the types of the standard library are as documented. Verif/Model/Lifetimes.lean. The bodies of the functions play no role in it: that they respect the borrows is C10, C40, C43, C49, C50, C52, C53 and C56."
  },
  {
   "property": "C62",
   "status": "proved",
   "theorems": [
    "BST.Props.C62_map",
    "BST.Props.C62_simple",
    "BST.Props.C62_handles",
    "BST.Props.C62_sound"
   ],
   "note": "About the declared fields and impls and the rules of the language, which are part of the trusted base. The comments at src/arena.rs:132 and src/slab.rs:65 call the markers necessary for the drop checker; C62_sound shows when they are."
  },
  {
   "property": "C63",
   "status": "proved",
   "theorems": [
    "BST.Props.C63_map",
    "BST.Props.C63_simple",
    "BST.Props.C63_shared",
    "BST.Props.C63_mut",
    "BST.Props.C63_unpin"
   ],
   "note": "About the declared fields and the rules of the language, which are part of the trusted base; the implementations for the types of the standard library are as documented. Verif/Model/Unwind.lean, with the fields in Verif/Model/Threads.lean. That a map is usable after a caught panic is not what UnwindSafe says; see C27, C57 and C59 for that."
  },
  {
   "property": "C64",
   "status": "proved",
   "theorems": [
    "BST.Props.C64_entry",
    "BST.Props.C64_overhead",
    "BST.Props.C64_node",
    "BST.Props.C64_aligned",
    "BST.Props.C64_apart",
    "BST.Props.C64_slab"
   ],
   "note": "The rules for layouts of structs and repr(C) unions and the promises of the allocator (Placed, Verif/Memory.lean) are part of the trusted base. It connects the addresses of the rest of the model (block and number of the element) with bytes. Entries are those the model's get_unchecked accepts; that no call accesses others is C20 and C22."
  },
  {
   "property": "C65",
   "status": "proved",
   "theorems": [
    "BST.Props.C65_reinsert",
    "BST.Props.C65_count",
    "BST.Props.C65_set",
    "BST.Props.C65_quadratic"
   ],
   "note": "Comparisons are counted by allowing a number of them for each insertion (budget) and letting the next one panic. reinsert and depths (Verif/Rebuild.lean) are the specification."
  },
  {
   "property": "C66",
   "status": "proved",
   "theorems": [
    "BST.Props.C66_map",
    "BST.Props.C66_node",
    "BST.Props.C66_nodeMut",
    "BST.Props.C66_stop",
    "BST.Props.C66_plain",
    "BST.Props.C66_reads",
    "BST.Props.C66_set",
    "BST.Props.C66_set_node",
    "BST.Props.C66_set_stop",
    "BST.Props.C66_set_reads",
    "BST.Props.C66_simple",
    "BST.Props.C66_simple_set",
    "BST.Props.C66_arena"
   ],
   "note": "The builders of core::fmt (DebugStruct, DebugTuple, DebugList, PadAdapter) are modelled after the standard library, which is not in /repo; the destination accepts every write. Pieces and print (Verif/Printing.lean) are the specification; C66_plain connects it with the text of C42."
  },
  {
   "property": "C67",
   "status": "proved",
   "theorems": [
    "BST.C67_bst",
    "BST.C67_bst_room",
    "BST.C67_simple",
    "BST.C67_simple_room",
    "BST.C67_agree"
   ],
   "note": "Programs (Verif/Programs.lean) are trees of calls branching over answers, so the continuation may be any function. Maps are not dropped while a program runs; queries are keys. Verif/Programs.lean also has the sorted lists that serve as specification."
  },
  {
   "property": "C68",
   "status": "proved",
   "theorems": [
    "BST.Bench.C68_two_sum",
    "BST.Bench.C68_two_sum_checked",
    "BST.Bench.C68_tabulate_requests",
    "BST.Bench.C68_resolve_program",
    "BST.Bench.C68_run_requests",
    "BST.Bench.C68_compare_maps"
   ],
   "note": "The programs are modelled as programs over maps (Model/Bench.lean) and specified without maps in BenchSpec.lean. Random generation, criterion and the dropping of maps are not modelled; a shuffle is any permutation. Without overflow checks two_sum may return a pair whose wrapped sum is the target (example beside the theorem)."
  },
  {
   "property": "C69",
   "status": "proved",
   "theorems": [
    "BST.Bench.C69_two_sum",
    "BST.Bench.C69_keys",
    "BST.Bench.C69_requests",
    "BST.Bench.C69_program",
    "BST.Bench.C69_movie_requests",
    "BST.Bench.C69_remove_iterations"
   ],
   "note": "The source of random numbers is any function of a state (Rng in Model/BenchGen.lean) whose shuffle is a permutation. A loop that goes on by luck is run for a given number of rounds; for generate_requests the theorem says nothing about how many are needed (without luck it goes on for ever). Out of memory and lengths near isize::MAX are not modelled."
  },
  {
   "property": "C70",
   "status": "proved",
   "theorems": [
    "BST.Props.C70_ledger",
    "BST.Props.C70_abort",
    "BST.Props.C70_drop",
    "BST.Props.C70_life",
    "BST.Props.C70_agree",
    "BST.Props.C70_history",
    "BST.Props.C70_why",
    "BST.Props.C70_calm"
   ],
   "note": "A second panic aborts; destructors do nothing but panic or not. Destructors that panic during clear are excluded (C27). clear is also excluded in C70_why, since its destructors are its own. Half-built sets that are dropped during unwinding are recorded in World.cut."
  },
  {
   "property": "C71",
   "status": "proved",
   "theorems": [
    "BST.C71_bst",
    "BST.C71_bst_room",
    "BST.C71_simple",
    "BST.C71_simple_room",
    "BST.C71_agree"
   ],
   "note": "By translation to the programs over maps of C67 (a set is a map to ()); the sorted lists of elements are written down independently in SetPrograms.lean."
  },
  {
   "property": "C72",
   "status": "proved",
   "theorems": [
    "BST.Bench.C72_map_ops",
    "BST.Bench.C72_multi",
    "BST.Bench.C72_sets",
    "BST.Bench.C72_set_ops"
   ],
   "note": "Positions of keys are natural numbers instead of i64. The room asked for is that for all insertions of a program in one map (set), which is more than needed."
  },
  {
   "property": "C73",
   "status": "proved",
   "theorems": [
    "BST.Props.C73_history",
    "BST.Props.C73_ledger",
    "BST.Props.C73_abort",
    "BST.Props.C73_clear",
    "BST.Props.C73_drop",
    "BST.Props.C73_life",
    "BST.Props.C73_why",
    "BST.Props.C73_calm"
   ],
   "note": "A second panic aborts; destructors do nothing but panic or not. The stack is unlimited (drop glue is recursive: C58)."
  },
  {
   "property": "C74",
   "status": "proved",
   "theorems": [
    "BST.Props.C74_orders",
    "BST.Props.C74_build",
    "BST.Props.C74_build_simple",
    "BST.Props.C74_search",
    "BST.Props.C74_search_simple",
    "BST.Props.C74_height",
    "BST.Props.C74_height_simple",
    "BST.Props.C74_set_build",
    "BST.Props.C74_set_search",
    "BST.Props.C74_set_build_simple",
    "BST.Props.C74_set_search_simple"
   ],
   "note": "Averages count every insertion order once. Comparisons are counted by allowances: a call that may compare b times panics at one more. In the worst case the documented O(log n) is false (C30_linear)."
  },
  {
   "property": "C75",
   "status": "proved",
   "theorems": [
    "BST.Props.C75_remove",
    "BST.Props.C75_remove_simple",
    "BST.Props.C75_history",
    "BST.Props.C75_history_simple",
    "BST.Props.C75_average",
    "BST.Props.C75_average_simple",
    "BST.Props.C75_set_history",
    "BST.Props.C75_set_history_simple",
    "BST.Props.C75_set_average",
    "BST.Props.C75_set_average_simple"
   ],
   "note": "Comparisons are counted by allowances, as in C74. Sequences with map = src.collect() are excluded, since that is a different tree; clear and with_capacity take the key out. A SimpleBSTMap must not run out of memory."
  },
  {
   "property": "C76",
   "status": "proved",
   "theorems": [
    "BST.Props.C76_blocks",
    "BST.Props.C76_call",
    "BST.Props.C76_history",
    "BST.Props.C76_insert_simple",
    "BST.Props.C76_set_history"
   ],
   "note": "Allocator calls are the events of the arena's log; the vector of chunks itself (a Vec of pointers) is not counted, it grows with the number of blocks. For SimpleBSTMap the ghost counter of boxes. The call that fails for lack of memory makes no event. C76_set_history is for BSTSet."
  },
  {
   "property": "C77",
   "status": "proved",
   "theorems": [
    "BST.Props.C77_blocks",
    "BST.Props.C77_order",
    "BST.Props.C77_collect",
    "BST.Props.C77_clone",
    "BST.Props.C77_dense",
    "BST.Props.C77_set_order"
   ],
   "note": "A slot is an index into the blocks that the allocator events leave, oldest first. Whether two blocks are neighbours is up to the allocator. C77_order holds for any comparisons; which keys move in is Op.keysIn (an insert that returned None). C77_set_order is for a new BSTSet, without extend."
  },
  {
   "property": "C78",
   "status": "proved",
   "theorems": [
    "BST.Props.C78_find",
    "BST.Props.C78_score",
    "BST.Props.C78_iter",
    "BST.Props.C78_deep",
    "BST.Props.C78_find_simple",
    "BST.Props.C78_iter_simple",
    "BST.Props.C78_deep_simple"
   ],
   "note": "The stack is a limit on nested calls of find_score, as in Model/Recursion.lean; all calls count as equally large. The comparison of scores is an arbitrary test that may panic."
  },
  {
   "property": "C79",
   "status": "proved",
   "theorems": [
    "BST.Props.C79_history",
    "BST.Props.C79_drop",
    "BST.Props.C79_renaming",
    "BST.Props.C79_only",
    "BST.Props.C79_simple_history",
    "BST.Props.C79_simple_renaming",
    "BST.Props.C79_simple_only",
    "BST.Props.C79_simple_set_history",
    "BST.Props.C79_set_history"
   ],
   "note": "Relational parametricity, proved for every function that a history calls. Programs that are generic in keys and values tend to have this property whether or not they are correct otherwise, so it says nothing about which answers are given; the other properties do. Both clients have elements of the same size (Cfg.esize). Destructors and addresses are part of the statements for BSTMap only; those for SimpleBSTMap and SimpleBSTSet are about clients whose destructors do not panic."
  },
  {
   "property": "C80",
   "status": "proved",
   "theorems": [
    "BST.Tests.C80_maps",
    "BST.Tests.C80_sets",
    "BST.Tests.C80_traverse",
    "BST.Tests.C80_traversals",
    "BST.Tests.C80_arena"
   ],
   "note": "The tests are modelled as programs whose random choices are arguments. Maps and sets of the standard library are lists without order. test_random_traversals compares with zip, which stops with the shorter of the two sequences, so that an iterator that ends too early would pass it; that the iterators yield every entry is C08. Of the arena's test the two assertions about the Vec alone are left out."
  },
  {
   "property": "C81",
   "status": "proved",
   "theorems": [
    "BST.Props.C81_map",
    "BST.Props.C81_node",
    "BST.Props.C81_nodeMut",
    "BST.Props.C81_simple",
    "BST.Props.C81_set",
    "BST.Props.C81_set_node",
    "BST.Props.C81_simple_set",
    "BST.Props.C81_string",
    "BST.Props.C81_buffer"
   ],
   "note": "Destinations are total functions from a piece of text and a state to an answer and a state; they do not panic. The pieces and the builders of core::fmt (PadAdapter, DebugStruct, DebugTuple) are modelled after the standard library. Nodes of the simple crate are printed as part of their map or set; Debug of the internal arena is not included."
  },
  {
   "property": "C82",
   "status": "proved",
   "theorems": [
    "BST.Props.C82_history",
    "BST.Props.C82_history_simple",
    "BST.Props.C82_reach",
    "BST.Props.C82_reach_map"
   ],
   "note": "Texts of Debug are not compared (a set prints differently; C38 and C66 say what). C82_reach and C82_reach_map connect histories with Reach, the assumption of many other theorems. Calls made through the mutable iterators and get_mut have no counterpart on sets."
  },
  {
   "property": "C83",
   "status": "proved",
   "theorems": [
    "BST.Props.C83_undo",
    "BST.Props.C83_redo",
    "BST.Props.C83_leaf",
    "BST.Props.C83_stack",
    "BST.Props.C83_set",
    "BST.Props.C83_simple_undo",
    "BST.Props.C83_simple_redo",
    "BST.Props.C83_simple_leaf",
    "BST.Props.C83_simple_stack",
    "BST.Props.C83_simple_set"
   ],
   "note": "Complete. C38 has the undoing of one insertion under a total order. Not claimed: an inner node that is removed and inserted again comes back as a leaf elsewhere (an example beside C83_leaf). The leaf theorem is stated for the maps of both crates; a set is a map (C82)."
  },
  {
   "property": "C84",
   "status": "proved",
   "theorems": [
    "BST.Props.C84_ancestors",
    "BST.Props.C84_swap",
    "BST.Props.C84_commute",
    "BST.Props.C84_ancestors_simple",
    "BST.Props.C84_swap_simple",
    "BST.Props.C84_commute_simple",
    "BST.Props.C84_cost",
    "BST.Props.C84_cost_absent",
    "BST.Props.C84_cost_simple",
    "BST.Props.C84_cost_absent_simple"
   ],
   "note": "Complete for maps; sets follow by C82. Not claimed: anything about the ancestors after removals (C75 bounds depths then)."
  }
 ]
}