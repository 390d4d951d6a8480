#!/usr/bin/env python3
# Writes /verif/properties.jsonl (one JSON object per line).
import json, os
P = []
def p(id, title, statement, quantifier, why, anchors):
    P.append(dict(id=id, title=title, statement=statement, quantifier=quantifier,
                  why_tests_cant=why, anchors=anchors))

p("C01","A map behaves like an association list for every history",
  "Starting from an empty BSTMap, after any finite sequence of public calls (insert, remove, remove_entry, get_mut/get_entry_mut writes, clear, reserve, shrink_to_fit, reads), every read and every return value is the one a plain association list with unique keys would give for the same sequence.",
  "every finite sequence of API calls, every totally ordered key type, every value type, both build modes",
  "a test fixes the operation sequence and the keys; the claim ranges over unbounded histories including every remove/insert interleaving that reuses freed storage",
  ["src/map.rs: BSTMap::{insert,remove,remove_entry,get,get_mut,get_entry,contains_key,clear}", "src/slab.rs: UnsafeSlab"])
p("C02","insert reports the previous value and updates exactly one key",
  "insert(k,v) returns Some(old) exactly when an entry with a key equal to k existed and old was its value, otherwise None; afterwards get(k) is v and every key not equal to k has the same entry as before.",
  "every reachable map, every key, every value",
  "must hold for every tree shape and every position of the key in the tree",
  ["src/map.rs: BSTMap::insert", "src/map/node.rs: NodeMut::{push_left,push_right,replace_value}"])
p("C03","Re-inserting an equal key keeps the stored key",
  "If insert(k2,v) is called when a key k1 that compares Equal to k2 is stored, the stored key afterwards is still k1 (only the value changes), the number of entries and the shape of the tree do not change. For BSTSet the stored element is not updated and insert returns false.",
  "every reachable map/set and every pair of keys that compare Equal but may be distinguishable",
  "needs all key types whose Ord equality is coarser than identity, and all positions in the tree",
  ["src/map.rs: BSTMap::insert (Ordering::Equal arm)", "src/set.rs: BSTSet::insert"])
p("C04","remove and remove_entry take out exactly the requested entry",
  "remove_entry(q) returns the stored (key, value) that compares Equal to q, or None if there is none; remove(q) returns just the value; afterwards q is absent and every other entry (key and value) is unchanged.",
  "every reachable map, every query of every borrowed form of the key type",
  "the relinking has many cases (0/1/2 children, successor adjacent or deep, root or not); tests sample a few shapes only",
  ["src/map.rs: BSTMap::{remove,remove_entry}"])
p("C05","contains_key, get, get_entry, get_mut and get_entry_mut agree",
  "For every query, contains_key is true iff get is Some iff get_entry is Some iff get_mut is Some iff get_entry_mut is Some; and all of them refer to the same entry, whose key compares Equal to the query.",
  "every reachable map and every query",
  "five separate search loops must agree on every tree and query",
  ["src/map.rs: BSTMap::{contains_key,get,get_entry,get_mut,get_entry_mut}"])
p("C06","len is the number of distinct keys and is_empty is consistent",
  "len() equals the number of distinct keys stored; is_empty() iff len()==0 iff root() is None, so the debug assertion in is_empty never fires.",
  "every reachable map",
  "len is computed from allocator bookkeeping (allocated minus free), so it must be right for every allocation history",
  ["src/map.rs: BSTMap::{len,is_empty,root}", "src/slab.rs: UnsafeSlab::len"])
p("C07","In-order iteration is sorted and complete",
  "iter_inorder yields every entry exactly once, in strictly increasing key order, and nothing else.",
  "every reachable map",
  "must hold for every tree shape and size",
  ["src/map/inorder.rs: IterInorder", "src/map.rs: BSTMap::iter_inorder"])
p("C08","Iterators agree with the recursive traversal through Node",
  "iter_preorder, iter_inorder and iter_postorder yield exactly the sequences obtained by the textbook recursive traversal written with root(), left() and right().",
  "every reachable map",
  "the iterative stack algorithms (notably post-order) must be right for every shape; tests sample random trees of at most 50 nodes and compare with zip, which ignores missing tails",
  ["src/map/preorder.rs", "src/map/inorder.rs", "src/map/postorder.rs", "src/map/node.rs: Node::{left,right}"])
p("C09","Iterators terminate, yield len() items and stay exhausted",
  "Each of the iterators yields exactly len() items, then None, and returns None on every later call (FusedIterator); no call to next loops forever.",
  "every reachable map, every iterator kind, every number of further calls",
  "termination and fusedness are claims about unboundedly many calls",
  ["src/map/preorder.rs", "src/map/inorder.rs", "src/map/postorder.rs"])
p("C10","Mutable iterators hand out disjoint places and nothing else changes",
  "iter_mut_preorder/inorder/postorder visit the same entries in the same order as the shared iterators, never hand out two references to the same value, and writing through the references (at any time, in any order, interleaved with next) changes exactly the values written: keys, shape, order and other values stay the same.",
  "every reachable map and every client program of next calls and writes through the references obtained so far",
  "aliasing of &mut must be excluded for every tree and every interleaving of client writes",
  ["src/map/inorder.rs: IterMutInorder", "src/map/preorder.rs: IterMutPreorder", "src/map/postorder.rs: IterMutPostorder"])
p("C11","Writing through get_mut / get_entry_mut changes one value only",
  "If get_mut(q) or get_entry_mut(q) is Some, writing w through it makes get(q) return w; every other entry, every key, the shape and len are unchanged. If None, nothing changes.",
  "every reachable map, query and written value",
  "all trees and positions",
  ["src/map.rs: BSTMap::{get_mut,get_entry_mut}", "src/map/node.rs: NodeMut"])
p("C12","The public node API always shows a search tree",
  "At every node reachable with root/left/right, all keys in the left subtree are strictly smaller and all keys in the right subtree strictly greater than the node's key; has_left/has_right say whether left()/right() is Some.",
  "every reachable map, every node",
  "an invariant over all histories",
  ["src/map.rs doc comment 'BST properties'", "src/map/node.rs: Node"])
p("C13","clone is an equal, independent copy with the same shape",
  "clone() returns a map that is == to the original, has the same tree shape (hence the same traversals in all three orders and the same root), and the original is unchanged; later operations on one do not affect the other.",
  "every reachable map, every key/value type whose Clone preserves the ordering",
  "shape preservation depends on re-inserting in pre-order for every tree",
  ["src/map.rs: impl Clone for BSTMap"])
p("C14","Equality of maps is equality of contents",
  "a == b iff a and b contain the same keys with equal values, regardless of insertion order, removals, tree shape, capacity; == is an equivalence relation when key and value equality are.",
  "every pair (triple) of reachable maps",
  "ranges over pairs of histories",
  ["src/map.rs: impl PartialEq for BSTMap"])
p("C15","clear empties the collection and keeps its capacity",
  "After clear(), len()==0, the map equals an empty map, all iterators are empty, capacity() is unchanged, and the map can be used again exactly like a new one.",
  "every reachable map",
  "all histories before and after the clear",
  ["src/map.rs: BSTMap::clear", "src/slab.rs: UnsafeSlab::clear", "src/arena.rs: StableArena::clear"])
p("C16","capacity is an honest lower bound",
  "with_capacity(n) gives capacity() >= n (n = 0 performs no allocation); always len() <= capacity(); while len() < capacity(), inserting a new key never allocates and does not change capacity().",
  "every reachable map, every n",
  "all sizes, including those at chunk boundaries, and all histories with removals",
  ["src/map.rs: BSTMap::{with_capacity,capacity}", "src/arena.rs: StableArena::{with_capacity,alloc,push_chunk}"])
p("C17","reserve guarantees room and changes nothing else",
  "If reserve(n) returns, capacity() >= len()+n and the next n insertions of new keys do not allocate; contents and shape are unchanged. If len()+n overflows usize it panics (as documented).",
  "every reachable map, every n, both build modes",
  "overflow near usize::MAX and all histories",
  ["src/map.rs: BSTMap::reserve (docs: Panics)", "src/arena.rs: StableArena::reserve"])
p("C18","shrink_to_fit keeps contents and shrinks to the minimal chunk count",
  "shrink_to_fit never changes contents, shape, len or the addresses of live entries, never makes capacity smaller than len nor larger than before, and releases every chunk that holds no slot that has been in use since the last clear.",
  "every reachable map",
  "all combinations of reserve/insert/remove/clear histories",
  ["src/arena.rs: StableArena::shrink_to_fit", "src/map.rs: BSTMap::shrink_to_fit"])
p("C19","extend and from_iter are repeated insert, whatever the size hint",
  "extend(iter) and collect() give the same contents as inserting the yielded pairs one by one in order (the last value of a duplicated key wins, the first key stays), for any size_hint, correct or not.",
  "every iterator (any items, any size hint), every reachable starting map",
  "size hints are arbitrary user-supplied numbers",
  ["src/map.rs: impl Extend, impl FromIterator"])
p("C20","No undefined behaviour for any history, even with a broken Ord",
  "No sequence of public calls dereferences a dangling, freed, uninitialised or wrong-variant slot, even when the key comparison is inconsistent, stateful or panics; and every call terminates. (Destructors that panic inside clear are the subject of C27.)",
  "every finite history of calls, every (possibly inconsistent, stateful, panicking) comparison",
  "soundness of unsafe code against adversarial safe traits cannot be enumerated",
  ["src/map.rs (all unsafe blocks)", "src/slab.rs", "src/arena.rs"])
p("C21","Addresses are stable",
  "The address of a live entry never changes while other entries are inserted or removed, values are modified, capacity is reserved or shrunk.",
  "every reachable slab/map and every operation other than removing that entry or clear",
  "the number of reallocations and chunk growths is unbounded",
  ["src/arena.rs: StableArena::{alloc,get_unchecked}", "src/slab.rs: UnsafeSlab::{push,remove,shrink_to_fit}"])
p("C22","The slab is a finite map from distinct live pointers to values",
  "push returns a pointer different from every live pointer and stores the value there; get_unchecked of a live pointer returns the value last stored there; remove returns it and makes the pointer dead; no operation affects another live pointer; len counts the live pointers.",
  "every history of push/remove/get_unchecked_mut/reserve/shrink_to_fit/clear that respects the safety contract",
  "free-list reuse depends on unbounded histories",
  ["src/slab.rs: UnsafeSlab::{push,remove,get_unchecked,get_unchecked_mut,len,clear}"])
p("C23","Index to chunk position is an in-bounds bijection",
  "position_for maps the indices 0,1,2,... bijectively and in order onto the (chunk, offset) pairs with offset < chunk_len(chunk); with 64-bit arithmetic nothing overflows for any index that can be allocated.",
  "every index below 2^64 - 8 (all indices an arena can ever hold)",
  "the domain has 2^64 points; the unit test checks the first 6 chunks",
  ["src/arena.rs: ExponentialAlloc::{chunk_len,position_for}"])
p("C24","Every value is dropped or handed back exactly once",
  "Each key/value moved into the collection is, over its lifetime, either returned by exactly one call or dropped exactly once (by clear or by dropping the collection), provided destructors do not panic; nothing is leaked or dropped twice, with or without free-list reuse.",
  "every history ending with dropping the collection",
  "ownership accounting over unbounded histories",
  ["src/slab.rs: UnsafeSlab::{clear,drop,push,remove}", "src/arena.rs: impl Drop"])
p("C25","Every chunk is freed exactly once with the size it was allocated with",
  "All memory chunks obtained are released exactly once, with the same element count they were allocated with, by shrink_to_fit or when the collection is dropped; none is released while it holds a live entry.",
  "every history",
  "leak and double-free freedom over all histories",
  ["src/arena.rs: StableArena::{push_chunk,shrink_to_fit}, impl Drop"])
p("C26","A panicking comparison leaves the map unchanged",
  "If the key comparison panics during get, contains_key, insert or remove, the map is left exactly as it was before the call (same entries, same shape, same capacity) and remains usable.",
  "every reachable map, every call, every comparison number at which the panic happens",
  "every crash point in every operation",
  ["src/map.rs: BSTMap::{insert,remove_entry,get}"])
p("C27","A panicking destructor during clear does not lead to a double drop",
  "If the destructor of one of the stored values panics during clear() and the panic is caught, continuing to use or dropping the map never drops a value twice or reads a dropped value.",
  "every reachable map, every value whose destructor panics",
  "every crash point inside clear",
  ["src/slab.rs: UnsafeSlab::clear", "src/map.rs: BSTMap::clear"])
p("C28","A set behaves like a mathematical set for every history",
  "For every sequence of calls a BSTSet returns what a finite set would: insert is true iff the value was absent, remove is true iff it was present, take/get return the stored element, contains is membership, len is the cardinality, in-order iteration is sorted.",
  "every finite sequence of BSTSet calls",
  "unbounded histories",
  ["src/set.rs: BSTSet", "src/set/{node,preorder,inorder,postorder}.rs"])
p("C29","SimpleBSTMap / SimpleBSTSet satisfy the same specification and agree with BSTMap",
  "For every sequence of calls, SimpleBSTMap returns the same results as BSTMap and as the association-list specification, and both trees have the same shape at every moment; none of the unwrap() calls in simple_bst ever fails.",
  "every finite sequence of calls supported by both (clients that write to values, not to whole nodes, through references to nodes; see C60)",
  "two independent implementations must agree on all histories",
  ["simple_bst/src/map.rs", "simple_bst/src/map/node.rs", "simple_bst/src/set.rs"])
p("C30","Search cost is bounded by the height of the tree",
  "get/contains_key/insert/remove perform at most height(tree) <= len() key comparisons; the documented O(log n) bound holds for balanced trees only.",
  "every reachable map and every query; for the lower bound, every n",
  "a bound over all shapes; the worst case must be exhibited for every n",
  ["src/map.rs doc comments 'Time complexity: O(log n)'"])
p("C31","The bstmap! and bstset! macros equal repeated insert",
  "bstmap!{k1=>v1,...} and bstset!{x1,...} build the map/set obtained by inserting the listed entries in order into an empty collection, for any number of entries and duplicates.",
  "every list of entries",
  "any number of entries",
  ["src/lib.rs: bstmap!, bstset!"])
p("C32","Send and Sync follow the element types",
  "BSTMap<K,V> is Send iff K and V are Send and Sync iff K and V are Sync; BSTSet likewise; shared Node and iterator handles are Send iff Sync iff K and V are Sync; NodeMut is Send iff K,V Send and Sync iff K,V Sync; the mutable iterators, which hold a raw pointer, are neither. Whoever has a handle in another thread can reach only what may be used there. The types of simple_bst likewise follow their element types.",
  "every pair of type arguments",
  "the test checks a table of concrete types only",
  ["src/arena.rs: unsafe impl Send/Sync", "src/map/node.rs: unsafe impl Send/Sync for NodeMut", "tests/send_sync.rs"])
p("C33","Node equality is equality of key and value",
  "Two Node (NodeMut) handles are == iff their keys and values are equal, independent of which tree they come from and of their subtrees; a handle always equals itself or a clone of itself even if value equality is not reflexive.",
  "every pair of handles from any maps",
  "all pairs of maps and nodes",
  ["src/map/node.rs: impl PartialEq for Node / NodeMut"])
p("C34","Arena iteration visits the allocated values in order from both ends",
  "Iterating an arena (iter, iter_mut, pointers) yields the values in allocation order with the pointers returned by alloc; any mix of next and next_back yields each element once and size_hint is exact. (Arenas of zero-sized types hold nothing: every alloc panics.)",
  "every arena history and every mix of next/next_back calls",
  "all lengths and interleavings of both ends",
  ["src/arena.rs: Iter, IterMut, Pointers, ArenaIterator, ArenaDoubleEndedIterator"])
p("C35","Insertion only adds a leaf",
  "insert of a new key leaves the existing tree in place: the new entry becomes a leaf, every existing node keeps its address, parent, children (except the one new link), key and value; the root changes only if the map was empty.",
  "every reachable map and new key",
  "all shapes",
  ["src/map.rs: BSTMap::insert", "src/map/node.rs: NodeMut::{push_left,push_right}"])
p("C36","Freed slots are reused before new memory is taken",
  "Slots freed by remove are reused by later inserts: the number of slots ever in use equals the maximum len() since the last clear, so capacity never exceeds what the peak size (and explicit reservations) require.",
  "every history of inserts and removes",
  "resource bound over unbounded histories",
  ["src/slab.rs: UnsafeSlab::{push,remove}"])
p("C37","A failed allocation leaves the collection intact",
  "If growing the storage panics (capacity overflow), insert leaves the map exactly as before; reserve leaves contents, shape and addresses unchanged.",
  "every reachable map and every allocation failure point",
  "every crash point",
  ["src/arena.rs: StableArena::{alloc,push_chunk,reserve}", "src/map.rs: BSTMap::insert"])
p("C38","Insertion order does not matter for the contents",
  "Inserting the same set of pairs with distinct keys in any order gives == maps; inserting a new key and removing it again gives a map == to the original; inserts of different keys commute; removes commute; remove is idempotent.",
  "every reachable map, every permutation of every list of pairs",
  "all permutations of all lists",
  ["src/map.rs: BSTMap::{insert,remove,eq}"])
p("C39","Arithmetic never overflows except in reserve's addition",
  "In no reachable state does any usize addition, subtraction, multiplication or shift inside the arena and slab overflow, except len()+additional in reserve with an absurd argument; hence debug and release builds behave identically otherwise.",
  "every history, both build modes",
  "overflow happens only at astronomically large sizes that tests cannot build",
  ["src/arena.rs", "src/slab.rs"])
p("C40","Mutable traversals never touch a node again after handing it out",
  "After a mutable iterator has returned a reference into a node, no later call to next reads or writes that node, so the reference stays exclusively valid.",
  "every reachable map and every mutable iterator",
  "an aliasing claim about all future accesses on all trees",
  ["src/map/inorder.rs: IterMutInorder::next", "src/map/preorder.rs: IterMutPreorder::next", "src/map/postorder.rs: IterMutPostorder::next"])
p("C41","Traversal stacks are bounded by the height of the tree",
  "The explicit stack used by the pre-order and in-order iterators (and by clone) never holds more than height+1 pointers, the post-order one never more than twice the height, at any point of the iteration.",
  "every reachable map and every point of every iteration",
  "resource bound over all shapes",
  ["src/map.rs: impl Clone comment 'O(log n) space'", "src/map/{preorder,inorder,postorder}.rs"])
p("C42","Debug output shows exactly the tree",
  "The Debug output of a map/set/node is the nested rendering of its keys, values and shape and depends on nothing else (not on addresses, capacity or history); a clone prints the same text.",
  "every reachable map",
  "all trees",
  ["src/map.rs: impl Debug for BSTMap", "src/map/node.rs: impl Debug for Node", "src/set.rs: impl Debug for BSTSet"])
p("C43","NodeMut navigation reaches exactly the tree and only values can be changed through it",
  "Walking with root_mut/into_left/into_right (or left/right) along any path reaches the same node as root/left/right; value_mut/into_value_mut change that value only; keys and shape cannot be changed.",
  "every reachable map, every path, every written value",
  "all trees and paths",
  ["src/map.rs: BSTMap::root_mut", "src/map/node.rs: NodeMut"])
p("C44","Borrowed-form queries give the same answers as owned keys",
  "For any borrowed form Q of K whose ordering matches, querying with q gives the same result as querying with any owned key k with k.borrow() equal to q.",
  "every borrowed form, query and reachable map",
  "all borrow/ordering pairs",
  ["src/map.rs: where K: Borrow<Q>, Q: Ord bounds"])
p("C45","Storage-level equality and iteration of arenas is element-wise",
  "Two arenas are == iff they hold equal values in the same allocation order, independent of capacity.",
  "every pair of arena histories",
  "pairs of histories",
  ["src/arena.rs: impl PartialEq for StableArena"])
p("C46","A map behaves like a textbook search tree for every history",
  "After any finite sequence of public calls from an empty map, the shape seen through root/left/right is that of a textbook unbalanced search tree (successor replacement on removal) after the same calls, and every return value, traversal order and Debug output is determined by that tree.",
  "every finite sequence of API calls, every totally ordered key type, every value type, both build modes",
  "the shape depends on the whole history",
  ["src/map.rs: BSTMap", "src/map/node.rs", "src/iter.rs"])

p("C47","No entry is lost or duplicated even if comparisons are inconsistent",
  "Whatever the key comparison answers, an insert that returns either replaces the value of one entry and returns the old value or adds exactly one entry, and a remove that returns takes out exactly the entry it returns or nothing; all other entries keep their place in in-order iteration.",
  "every reachable map, every (inconsistent, stateful) sequence of comparison answers",
  "adversarial orderings cannot be enumerated",
  ["src/map.rs: BSTMap::{insert,remove,remove_entry}"])

p("C48","Destructors that panic while a call discards a key or value leave a sound map",
  "If the destructor of a key or value that insert, remove, extend, collect, clone or an assignment discards panics, the map (or set) afterwards has a definite content: insert has replaced the value and kept the old key, remove has taken the entry out, extend has inserted exactly the items up to the one whose insertion discarded it, an assignment has happened although dropping the old map panicked. No later call and no later drop has undefined behaviour because of it; a second panic while unwinding aborts. (clear is the exception, see C27.)",
  "every finite sequence of calls, every pattern of panicking destructors, which may change from call to call",
  "panics in destructors are hardly ever tested, and every call site that discards something is a separate case",
  ["src/map.rs: BSTMap::{insert,remove,extend,from_iter,clone}", "src/set.rs: BSTSet::{insert,remove,extend,from_iter,clone}"])

p("C49","The references that the storage creates obey the aliasing rules",
  "A client of an arena may keep shared references to one element, or one mutable reference per element, across further calls (alloc, reserve, get_unchecked(_mut) on other elements). No call and no use of such a reference violates the aliasing rules (Stacked Borrows), including clear, shrink_to_fit and drop.",
  "every finite sequence of calls and uses that keeps the discipline, every element type",
  "aliasing violations have no observable effect in most builds; tests pass although the program is undefined",
  ["src/arena.rs: StableArena::{alloc,get_unchecked,get_unchecked_mut,clear,shrink_to_fit,drop}"])

p("C50","The references that maps create obey the aliasing rules",
  "No call on a map except shrink_to_fit and drop (which C49 treats) creates or uses references into its storage in a way that violates the aliasing rules (Stacked Borrows): not insertion, removal with its relinking, lookup, mutation through get_mut or handles, clear, extend, collect, clone, nor the six iterators, whose clients may keep all the references they get, read through the shared ones after other reading calls, and write through the mutable ones while iteration goes on.",
  "every finite sequence of calls with any user code (destructors that panic excepted), every key and value type",
  "aliasing violations have no observable effect in most builds; tests pass although the program is undefined",
  ["src/slab.rs: UnsafeSlab::{push,remove,get_unchecked,get_unchecked_mut,clear}","src/map.rs: BSTMap::{insert,remove_entry,get,get_mut,clear,reserve}","src/map/node.rs: Node, NodeMut","src/map/{preorder,inorder,postorder}.rs: Iter*, IterMut*"])

p("C51","Calls visit one path of the tree, and a whole iteration takes linear time",
  "Whatever the shape of the tree, a lookup creates at most height references to nodes, an insertion at most 4 more references, pointers and chunks, a removal at most 7 more references than the height. Creating an iterator and calling next any number of times creates at most c * len() references, where c is 1, 2, 3 for pre-, in-, post-order and 1, 3, 4 for the mutable ones, although a single next may visit many nodes.",
  "every map after any sequence of calls, every comparison function, any number of calls of next",
  "the bound is amortised over a traversal of trees of any size and shape",
  ["src/map.rs: BSTMap::{get,insert,remove_entry}","src/map/{preorder,inorder,postorder}.rs: Iter*, IterMut*"])

p("C52","Under Tree Borrows the references of arenas and maps obey the aliasing rules in all calls",
  "Under the rules of Tree Borrows no call on an arena or a map violates the aliasing rules, including clear, shrink_to_fit and drop, which violate those of Stacked Borrows (C49): not with clients of an arena that keep shared references to one element or one mutable reference per element across calls, not with clients of a map that keep what iterators, lookups and handles return. Dropping the arena or map in the end releases all memory.",
  "every finite sequence of calls and uses that keeps the discipline, any user code (destructors that panic during calls excepted), every element, key and value type",
  "aliasing violations have no observable effect in most builds; tests pass although the program is undefined",
  ["src/arena.rs: StableArena::{alloc,get_unchecked,get_unchecked_mut,clear,shrink_to_fit,drop}","src/slab.rs: UnsafeSlab","src/map.rs: BSTMap","src/map/node.rs: Node, NodeMut","src/map/{preorder,inorder,postorder}.rs: Iter*, IterMut*"])

p("C53","Threads that share a map do not race, and mutable references from one iteration may go to several threads",
  "Threads that hold a &BSTMap each may do lookups, iterate in any order, follow node handles, format and clone the map: no two of their accesses to nodes conflict (the same node, one of them a write), and taking turns in any order every thread gets the answers it would get alone, with no aliasing violation (Tree Borrows; Stacked Borrows for maps that were never shrunk). A node whose &mut a mutable iterator has returned is from then on accessed only through that reference, so these references may be used by other threads while the iteration goes on.",
  "every map after any sequence of calls, any number of threads, every schedule, every program of the threads; every iterator order and number of steps",
  "races depend on the schedule, and tests see few schedules; the send_sync test checks only that the types are declared Send and Sync",
  ["src/arena.rs: unsafe impl Send/Sync for StableArena, Ptr","src/map.rs: BSTMap::{get,get_entry,contains_key,clone,root}","src/map/node.rs: Node","src/map/{preorder,inorder,postorder}.rs: Iter*, IterMut*"])

p("C54","Equality asks PartialEq pair by pair, in order, and only as far as needed",
  "== on two maps (sets) compares the lengths first and nothing else if they differ. Otherwise it compares the entries in order, for each pair the keys and then, if these are equal, the values, and stops at the first pair that is not equal with the answer false. It panics if and only if a comparison panics that is reached in this way; it returns true if and only if all pairs are equal. The same holds for two arenas. == on two nodes of bst asks nothing if they are the same node, and otherwise compares the keys and then, if these are equal, the values; == on two nodes of simple_bst reads both subtrees from left to right, each node before its children, compares entries and whether children are missing, and stops at the first difference or panic. This holds for any PartialEq: one that panics, is not reflexive or symmetric, or gives different answers at different times.",
  "every pair of maps (sets, arenas) after any sequence of calls and every pair of their nodes, every PartialEq of keys and values",
  "where a panic hits or an inconsistent PartialEq is asked depends on the contents of both maps",
  ["src/map.rs: impl PartialEq for BSTMap","src/set.rs: impl PartialEq for BSTSet","simple_bst/src/map.rs: impl PartialEq for SimpleBSTMap","simple_bst/src/set.rs: impl PartialEq for SimpleBSTSet","src/map/node.rs: impl PartialEq for Node, NodeMut","src/arena.rs: impl PartialEq for StableArena","simple_bst/src/map/node.rs: derive(PartialEq)"])

p("C55","Equality of nodes in simple_bst is equality of subtrees, and stricter than in bst",
  "Two nodes of simple_bst are == if and only if the subtrees below them have the same shape and equal keys and values in the same places. So it implies == of the corresponding nodes of bst, which compares one key and one value (C33), but is not implied by it: inserting below a node changes what it is equal to in simple_bst only. A node whose value is not equal to itself is equal to itself only in bst.",
  "every pair of nodes of maps (sets) after any sequence of calls, every PartialEq of keys and values that does not panic",
  "a derived PartialEq is not visible in the code of either crate; agreement would have to be tested on pairs of nodes in many shapes",
  ["simple_bst/src/map/node.rs: derive(PartialEq) for Node","simple_bst/src/set/node.rs: derive(PartialEq) for Node","src/map/node.rs: impl PartialEq for Node"])

p("C56","The raw pointers of SimpleBSTMap::remove_entry are used correctly",
  "Any sequence of calls of insert, remove_entry (remove), get, get_mut and clear on a SimpleBSTMap, whose remove_entry walks and relinks the boxes through raw pointers, uses memory correctly: no access to a freed or moved box, no violation of the aliasing rules (Stacked Borrows and Tree Borrows), no endless loop, also when comparisons panic or contradict each other. Afterwards the boxes in memory form a tree of len() nodes, the same as if trees were plain values, the calls gave the same answers, there is a box for every node but the root and no other, and dropping the map frees every box exactly once.",
  "every finite sequence of calls, every key and value type, every (panicking, inconsistent) Ord, every allocator",
  "a dangling or aliasing raw pointer, a leaked box or a double free mostly has no effect that a test observes, and only some shapes of trees take the code path in question",
  ["simple_bst/src/map.rs: SimpleBSTMap::{insert,remove_entry,get,get_mut,clear}","simple_bst/src/map/node.rs: Node::{left_mut,right_mut,take_left,take_right,set_left,set_right,replace_left,replace_right,into_inner}"])

p("C57","SimpleBSTMap drops every key and value exactly once, also if destructors panic",
  "In any sequence of calls on a SimpleBSTMap whose keys and values have destructors that may panic, every key and value that a call took or cloned is either given back to the caller, or in the map, or was dropped exactly once (clear and drop go on after a panicking destructor; only a second panic, which aborts the process, stops them). A call panics only if user code panics and aborts only if two destructors panic, a destructor panics while user code unwinds, or memory is lacking. Calls that panic because of a destructor have taken full effect: the entry is inserted or removed, the map is cleared or replaced, extend has inserted the items so far. Afterwards the map answers as a textbook tree with the same contents.",
  "every finite sequence of calls, destructors that panic in any pattern and differently at each call, every Ord and Clone (for the accounts also panicking and inconsistent ones), every allocator",
  "the points at which destructors run and unwinding starts multiply with every call; leaks and double drops are invisible to tests of results, and tests with two panics abort the test process",
  ["simple_bst/src/map.rs: SimpleBSTMap::{insert,remove,remove_entry,clear,extend,from_iter,clone}, Drop","simple_bst/src/map/node.rs: Node (drop glue, Clone)"])

p("C58","How many nested calls the recursive functions need: the height of the tree, which has no bound",
  "Dropping and clearing a SimpleBSTMap, cloning it, and printing ({:?}) any of the four collections nest calls exactly as deep as the tree is high; comparing two nodes of simple_bst nests them at most as deep as the lower of the two subtrees. With that much room on the machine's stack these calls do what they do with unlimited room; with less, dropping, clearing and printing always abort, clone aborts unless a clone of a key or value panics first, and comparison never gives a wrong answer. The height can be len(): after n insertions in ascending order these calls abort if there is room for less than n nested calls.",
  "every tree shape, every limit, every destructor (also panicking), Clone and PartialEq",
  "tests use small trees; a stack overflow kills the test process and depends on the platform's stack size",
  ["simple_bst/src/map/node.rs: derive(Debug, Clone, PartialEq), drop glue","simple_bst/src/map.rs: SimpleBSTMap::clear, derive(Debug, Clone)","simple_bst/src/set/node.rs: impl Debug for Node","src/map/node.rs: impl Debug for Node","src/set/node.rs: impl Debug for Node"])

p("C59","BSTMap drops every key and value at most once, and forgets some only after a destructor panicked while a map was dropped",
  "In any sequence of calls on a BSTMap whose keys and values have destructors that may panic (except during clear), every key and value that a call took or cloned is either given back to the caller, or in the map, or was dropped exactly once, or is lost; only entries of a map that was being dropped (by an assignment, or a half-built one by a panic) when one of its destructors panicked can be lost, so nothing is lost if no destructor panics. Dropping a map drops its entries one by one up to and including the first whose destructor panics. Nothing is dropped twice or after it was given back, even if the process aborts. No call has undefined behaviour. A call panics or aborts because of destructors only if one of those it ran panicked, and aborts because of destructors alone only if two did; if none does, outcomes and maps are those of the calls without destructors. As long as the process does not abort the calls do what a textbook tree does with the same destructors.",
  "every finite sequence of calls, destructors that panic in any pattern and differently at each call, every Ord and Clone (also panicking and inconsistent ones), every allocator and build",
  "the points at which destructors run and unwinding starts multiply with every call; leaks and double drops are invisible to tests of results, and tests with two panics abort the test process",
  ["src/map.rs: BSTMap::{insert,remove,remove_entry,clear,extend,from_iter,clone,with_capacity}","src/slab.rs: UnsafeSlab::clear, impl Drop for UnsafeSlab"])

p("C60","SimpleBSTMap stays consistent when the client overwrites whole nodes through root_mut",
  "Whatever safe code does with a SimpleBSTMap, including writing whole nodes through the &mut Node that root_mut, left_mut and right_mut lend out (mem::swap of nodes of two maps, assignment of a clone), there is no undefined behaviour, every call acts on the tree that is there as a search guided by the comparisons, len() is the number of entries, iteration in order is sorted, an entry that iteration yields is found by its key, and no call panics unless code of the user does.",
  "every finite sequence of calls and overwritten nodes, every (panicking, inconsistent) Ord, every allocator and build",
  "the tests never write a node; the damage shows only in later calls, and differs between debug and release builds",
  ["simple_bst/src/map.rs: SimpleBSTMap::{root_mut,len,is_empty,insert,remove_entry}, pub use node::*","simple_bst/src/map/node.rs: Node::{left_mut,right_mut}, derive(Clone)"])

p("C61","Maps and shared handles are covariant, mutable handles are invariant in keys and values",
  "A BSTMap, BSTSet, SimpleBSTMap or SimpleBSTSet of longer-lived references can be used as one of shorter-lived references and not the other way round (like Vec), and so can nodes and iterators that give shared access, whose own lifetime can be shortened too (like &). NodeMut and the mutable iterators can be used with a shorter lifetime of their own, but not with other key or value types (like &mut), so that no reference can be stored in a map that does not live long enough. Taking a handle or a reference from a map at a supertype gives nothing that could not be had by taking it from the original map first. The PhantomData markers in the arena and the slab have no influence on this.",
  "all key, value and element types (also nested maps, cells and references), all lifetimes and outlives relations",
  "variance is inferred by the compiler and nowhere visible in the code; a test that something does not compile covers one instance, and a wrong variance is a soundness hole that no running test shows",
  ["src/arena.rs: StableArena, Ptr","src/slab.rs: UnsafeSlab, Entry","src/map.rs: BSTMap, InnerNode","src/map/node.rs: Node, NodeMut","src/map/{preorder,inorder,postorder}.rs: Iter*, IterMut*","src/set.rs: BSTSet","simple_bst/src/map.rs: SimpleBSTMap","simple_bst/src/map/node.rs: Node"])

p("C62","Whatever the destructors of keys and values need is alive when a map goes out of scope",
  "The compiler lets a BSTMap or BSTSet go out of scope only while everything mentioned in its key and value types is alive, so in particular whatever their destructors need. A SimpleBSTMap or SimpleBSTSet requires only what dropping its contents needs (it may hold references that are already dangling). Nodes and iterators require nothing. The markers in the arena and the slab are not needed for this as the code is, but are once the planned #[may_dangle] is added, and then a BSTMap requires as little as a SimpleBSTMap.",
  "all key, value and element types (also nested maps and references), all lifetimes",
  "the drop check accepts or rejects programs; running tests say nothing about programs that are rejected, and a wrongly accepted one is undefined behaviour",
  ["src/arena.rs: StableArena, impl Drop","src/slab.rs: UnsafeSlab, impl Drop","src/map.rs: BSTMap","src/set.rs: BSTSet","simple_bst/src/map.rs: SimpleBSTMap"])

p("C63","What can be moved into catch_unwind, and what is Unpin",
  "A BSTMap or BSTSet is UnwindSafe if and only if its keys and values are, both by value and behind a shared reference; a reference to it is if and only if references to its keys and values are. A SimpleBSTMap or SimpleBSTSet has UnwindSafe, RefUnwindSafe or Unpin if and only if its keys and values have it, so it may be moved into catch_unwind wherever the BSTMap may, but not the other way round (values in a RefCell). Nodes and iterators that give shared access behave like references to keys and values; NodeMut and the mutable iterators behave like exclusive references, which are never UnwindSafe. A BSTMap is Unpin if and only if its keys and values are; handles always are.",
  "all key, value and element types (also nested maps, cells and references)",
  "auto traits are inferred by the compiler and nowhere visible in the code; a change of a private field changes them for users, and a test covers one instance",
  ["src/arena.rs: StableArena, Ptr","src/slab.rs: UnsafeSlab, Entry","src/map.rs: BSTMap, InnerNode","src/map/node.rs: Node, NodeMut","src/map/{preorder,inorder,postorder}.rs: Iter*, IterMut*","src/set.rs: BSTSet","simple_bst/src/map.rs: SimpleBSTMap","simple_bst/src/map/node.rs: Node"])

p("C64","Every entry has a proper address: aligned, not null, and no byte shared with another",
  "Wherever the allocator puts the chunks of any number of maps, every entry that the code accesses has an address that is not null, aligned for the node, for each of its fields and for a free-list pointer, and lies within an allocated chunk, and the offset added to the address of the chunk fits isize (as ptr::add requires). Different entries, of one map or of several, share no byte, so equal addresses mean the same entry. The same holds for a slab of any element type. A free-list link costs less than one pointer per entry, one pointer for zero-sized types (except for those with an alignment above that of a pointer), and nothing at all in maps and sets.",
  "all layouts of keys, values and elements, every order of fields the compiler may choose, every placement by the allocator, every sequence of calls",
  "alignment and placement are chosen by the compiler and the allocator; misaligned accesses often work on the machine that runs the tests; the size is asserted for one type only",
  ["src/arena.rs: StableArena::{push_chunk,alloc,ptr_at}, Ptr","src/slab.rs: Entry, FreeEntry, const_assert_eq!(size_of::<Entry<()>>(), 8)","src/map.rs: InnerNode"])

p("C65","What clone does, and how many comparisons it makes",
  "Whatever the comparisons and clones of keys and values answer, and as long as memory suffices, clone() does what inserting the clones of the entries one by one, in pre-order, into an empty tree does: the same tree if all of them return, a panic if one of them panics, nothing else. If keys have a total order that cloning respects, the insertion of an entry makes exactly as many comparisons as there are nodes above it in the tree: with one comparison fewer clone() fails, with these it returns a copy of the tree. So a map filled in ascending order takes n(n-1)/2 comparisons to clone (a derived clone would take none).",
  "all histories, all comparisons and clones (inconsistent and panicking ones too) for the first part; all total orders for the count; every n for the last part",
  "tests compare a clone with the original and do not count; the number depends on the shape of the tree",
  ["src/map.rs: impl Clone for BSTMap, BSTMap::insert","src/set.rs: impl Clone for BSTSet"])

p("C66","Debug output in every format, and Debug implementations that fail",
  "{:?} and {:#?} of maps, sets, node handles, arenas, SimpleBSTMap and SimpleBSTSet write exactly this: a flat list of pieces, namely the fixed text of the nested structs and the keys and values printed by the user's Debug in pre-order, where for {:#?} every line begins with four spaces per level of nesting, also the lines that the user's Debug breaks. Printing ends with the first Debug of a key or value that returns an error or panics, having written everything before; it ends with Ok iff all of them do. If keys and values print on one line, {:#?} of two maps is equal iff their trees have the same shape with the same printed keys and values.",
  "all histories, all formats, all implementations of Debug (which may write anything, return an error, or panic)",
  "a test compares the output of a few trees; nested line breaks and failing implementations are not tested, nor can tests show that different trees never print the same",
  ["src/map.rs: impl Debug for BSTMap","src/map/node.rs: impl Debug for Node, NodeMut","src/set.rs: impl Debug for BSTSet","src/set/node.rs: impl Debug for Node","src/arena.rs: impl Debug for StableArena","simple_bst/src/map.rs","simple_bst/src/set.rs: impl Debug for SimpleBSTSet"])

p("C67","Programs over many maps compute the same with BSTMap, SimpleBSTMap and sorted lists",
  "A program that creates any number of maps (new, clone), compares them, calls insert, remove, remove_entry, get, get_entry, contains_key, get_mut with an update that may panic, len, is_empty, clear, iter_inorder and extend on them, and decides after every answer how to go on, computes with BSTMap what it computes with sorted association lists, or ends with a panic or an abort for lack of memory; with SimpleBSTMap only an abort is possible. With an allocator that does not fail and room for the entries inserted, the outcome (result or panic) is exactly the same with all three, all maps have the same entries in the end, and the trees of the two crates have the same shape.",
  "all programs (arbitrary functions of the answers), all lawful orders, all configurations",
  "tests run a few programs; no test covers every program that depends on answers, or relates two crates on all of them",
  ["src/map.rs: BSTMap","simple_bst/src/map.rs: SimpleBSTMap","benches/*.rs: trait Map"])

p("C68","The programs of benches/ compute what they document, with maps of either crate",
  "With BSTMap and with SimpleBSTMap alike, given memory: two_sum returns the first pair of positions whose numbers add up to the target (least second position, then greatest first one) and panics if there is none, as long as no difference overflows, and with overflow checks never returns another pair; tabulate_requests ends with exactly the titles and the genres that occur, each with its number of occurrences; resolve_program counts valid, unresolved and wrong calls where a call refers to the latest declaration in sight and the declarations of a block end with it; run_requests gives every request the documented response, ends with the resulting entries and counts the responses; the comparison of maps inserts only new keys, finds every key at its position, and every second remove of a key yields None, leaving an empty map.",
  "all inputs that fit in memory, all statements nested to any depth, all orders of the generated keys, either crate, with and without overflow checks",
  "benchmarks run on generated inputs and their results are thrown away (black_box); no test compares them with anything",
  ["benches/two_sum.rs:85-97 two_sum","benches/movie_requests.rs:94-115 tabulate_requests","benches/name_resolution.rs:71-118 resolve_program","benches/web_server.rs:193-270 Server::handle, run_requests","benches/map_comparison.rs:90-179"])

p("C69","The inputs of the benchmarks are as documented, and the remove benchmark empties its map in the first iteration",
  "For any source of random numbers: generate_two_sum_input gives numbers with exactly one pair that adds up to the target, and two_sum finds it without overflow; Keys::generate gives as many different keys as asked for; generate_requests, when it ends, gives as many requests as asked for, all of which the server answers with success, and phone numbers of ten digits; generate_program does not panic and gives exactly max_stmts statements nested at most max_depth deep, after at most max_stmts rounds if max_depth is positive; generate_requests of movie_requests.rs does not panic and gives as many requests as asked for, with titles and genres out of 25 and 8 names of eight letters and digits, so that tabulate_requests ends with at most 25 and 8 counters that each add up to the number of requests. The benchmark of remove fills its map once, so that all iterations after the first call remove on an empty map.",
  "all sources of random numbers and all their states, all lengths, depths and numbers of iterations, maps of both crates",
  "the seeds are fixed, so that only one input of each length is ever generated, and nothing is asserted about it",
  ["benches/two_sum.rs:113-140 generate_two_sum_input","benches/map_comparison.rs:87-112 Keys::generate","benches/web_server.rs:272-374 generate_requests","benches/name_resolution.rs:148-255 generate_program","benches/movie_requests.rs:116-150 generate_requests, generate_names","benches/map_comparison.rs:328-340 remove"])

p("C70","BSTSet drops every element at most once, and forgets some only after a destructor panicked while a set was dropped",
  "In any sequence of calls on a BSTSet whose elements have destructors that may panic (except during clear), every element that a call took or cloned is either given back to the caller, or in the set, or was dropped exactly once, or is lost; insert of an element that is there drops the one that was passed, remove drops the one that was found, take gives it back. Only elements of a set that was being dropped (by an assignment, or a half-built one by a panic) when one of its destructors panicked can be lost, so nothing is lost if no destructor panics. Dropping a set drops its elements one by one up to and including the first whose destructor panics. Nothing is dropped twice or after it was given back, even if the process aborts. No call has undefined behaviour. A call panics or aborts because of destructors only if one of those it ran panicked, and aborts because of destructors alone only if two did; if none does, outcomes and sets are those of the calls without destructors. As long as the process does not abort the calls do what a textbook tree does with the same destructors.",
  "every finite sequence of calls, destructors that panic in any pattern and differently at each call, every Ord and Clone (also panicking and inconsistent ones), every allocator and build",
  "the points at which destructors run and unwinding starts multiply with every call; leaks and double drops are invisible to tests of results, and tests with two panics abort the test process",
  ["src/set.rs: BSTSet::{insert,remove,take,clear,extend,from_iter,clone,with_capacity}","src/map.rs: BSTMap::{insert,remove_entry,clear}","src/slab.rs: UnsafeSlab::clear, impl Drop for UnsafeSlab"])

p("C71","Programs over many sets compute the same with BSTSet, SimpleBSTSet and sorted lists",
  "A program that creates any number of sets (new, clone), compares them, calls insert, remove, take, get, contains, len, is_empty, clear, iter_inorder and extend on them, and decides after every answer how to go on, computes with BSTSet what it computes with sorted lists of elements (where insert keeps the element that is there), or ends with a panic or an abort for lack of memory; with SimpleBSTSet only an abort is possible. With an allocator that does not fail and room for the elements inserted, the outcome (result or panic) is exactly the same with all three, all sets have the same elements in the end, and the trees of the two crates have the same shape.",
  "all programs (arbitrary functions of the answers), all lawful orders, all configurations",
  "tests run a few programs; no test covers every program that depends on answers, or relates two crates on all of them",
  ["src/set.rs: BSTSet","simple_bst/src/set.rs: SimpleBSTSet","benches/set_comparison.rs: trait Set"])

p("C72","The mixed, multi-map and set benchmarks compute what their code says, with maps and sets of either crate",
  "For all numbers of steps and all orders of the generated keys, with the maps (sets) of both crates, given memory: in step i of benchmark_map_ops the i%5+1 insertions are of new keys, the overwriting finds i+i%5, the first lookup and the first removal find nothing, the second lookup finds the 0 just written, the third one the key before it, and the second removal (only in even steps) removes the 0; no key is asked for beyond the five per step that are generated; the map ends with exactly the entries of opsEntry. benchmark_set_ops does the same with a set. The benchmarks over several maps end with equal maps, and every lookup finds the position of its key. In the set benchmarks every insertion is new, every get and contains finds its element, and only the first of two removals succeeds; from the second measured iteration on, every removal is one from an empty set.",
  "all numbers of steps, keys, maps and iterations that fit in memory, all orders of the keys, either crate, with and without overflow checks",
  "the results go into black_box and nothing is asserted; the keys are in one order only (fixed seed), and clamped negative positions and the key after the last one are reached in some steps only",
  ["benches/map_comparison.rs:182-227 benchmark_map_ops","benches/map_comparison.rs:230-266 benchmark_inserts_multi, benchmark_gets_multi","benches/set_comparison.rs:118-171 benchmark_inserts, benchmark_gets, benchmark_removes","benches/set_comparison.rs:174-215 benchmark_set_ops"])

p("C73","SimpleBSTSet drops every element exactly once, also if destructors panic",
  "In any sequence of calls on a SimpleBSTSet whose elements have destructors that may panic, every element that a call took or cloned is, unless the process aborts, given back to the caller, or in the set, or was dropped exactly once; nothing is leaked. insert of an element that is there drops the one that was passed, remove drops the one that was found, take gives it back. clear and dropping the set drop every element exactly once, in preorder, also if one destructor panics; the set is empty then all the same. Calls that panic because of a destructor have taken effect, as a textbook tree would. Nothing is dropped twice or after it was given back, even if the process aborts. No call has undefined behaviour. A call panics because of destructors only if one of those it ran panicked, and aborts only if two did, or one and other code of the user, or for lack of memory. If no destructor panics, outcomes and sets are those of the calls without destructors.",
  "every finite sequence of calls, destructors that panic in any pattern and differently at each call, every Ord and Clone (also panicking and inconsistent ones, except where a textbook tree is compared with), every allocator",
  "the points at which destructors run and unwinding starts multiply with every call; leaks and double drops are invisible to tests of results, and tests with two panics abort the test process",
  ["simple_bst/src/set.rs: SimpleBSTSet::{insert,remove,take,clear,extend,from_iter}, derived Clone, drop glue","simple_bst/src/map.rs: SimpleBSTMap::{insert,remove_entry,clear}","simple_bst/src/map/node.rs: struct Node"])

p("C74","The documented O(log n) holds on average over all insertion orders",
  "Insert n entries with different keys into an empty map, in each of the n! orders. The insertions together make, on average over the orders, exactly 2(n+1)H(n)-4n comparisons, at most 2n log2 n, where H(n)=1+1/2+...+1/n; the most in any order is n(n-1)/2, which some order needs. Looking a key up, inserting or removing it (all make the same number of comparisons) takes on average H(lo)+H(hi) comparisons if it is not in the map and H(lo+1)+H(hi+1)-1 if it is, where lo and hi are how many keys are smaller and greater: at most 2 log2 n + 2. The height of the tree, which bounds the comparisons of every call, is on average less than 3 log2 n + 4, and at most n!((n+1)(n+2)(n+3)+12)/(18*2^t) orders give a height of t or more. The same holds for SimpleBSTMap; for the sets of both crates insertions and searches take the same numbers.",
  "all sets of keys of any size that fits in memory, all total orders, all keys looked for, all n! insertion orders, both crates",
  "the orders grow like n!, so that an average over all of them can be taken by tests for a handful of keys only; a random sample estimates it and says nothing about other sizes",
  ["src/map.rs:214, 248, 282, 321, 355 (documented O(log n)), BSTMap::{insert,get,get_entry,contains_key,remove}","src/set.rs:156, 182 BSTSet::{contains,get}, BSTSet::{insert,remove,take}","simple_bst/src/map.rs:110, 144, 178, 217 SimpleBSTMap","simple_bst/src/set.rs:103, 129 SimpleBSTSet"])

p("C75","A key never becomes more expensive to find while it stays in the map",
  "Let a key be in a map and make any sequence of calls on the map, other than replacing it by a newly collected one, after each of which the key is still there. Then get, get_entry, contains_key, get_mut, get_entry_mut, remove, remove_entry and insert of the key, which all make the same number of comparisons, make at most as many in the end as in the beginning; this includes calls that panic, removals of other keys and replacing the map by its clone. remove and remove_entry move no node away from the root, even if the comparisons are inconsistent, so they never make the tree higher. Hence the average of C74 stays an upper bound for a key that remains, whatever is done to the map afterwards. (For a key that is not in the map the number may grow.) The same holds of the elements of sets and the calls contains, get, take, remove and insert.",
  "all maps that can be reached, all sequences of calls, all keys, all lawful orders (for the depths after a removal: all comparisons), both crates, maps and sets; for the average all n! insertion orders and all later calls, which may depend on the order",
  "a test counts comparisons for one tree and one sequence of removals; that removals only ever lift nodes is a statement about all shapes of trees, and degradation by long mixed use is what a short test cannot show",
  ["src/map.rs:464-570 BSTMap::{remove,remove_entry}","src/map.rs BSTMap::{insert,extend,clone}","simple_bst/src/map.rs:328-430 SimpleBSTMap::{remove,remove_entry}","src/set.rs BSTSet::{contains,get,insert,remove,take}","simple_bst/src/set.rs SimpleBSTSet::{contains,get,insert,remove,take}","README.md:103 (no balancing)"])

p("C76","The allocator is called a logarithmic number of times, and by insert only when a new entry does not fit",
  "A map owns n blocks of memory with 4*2^n < need+8, where need is the largest len() and explicit reservation since it was created or last shrunk. Of the calls other than with_capacity, collect, clone, reserve, shrink_to_fit and extend only an insert of a new key into a map whose entries use up its capacity calls the allocator, exactly once, and the capacity becomes twice as large and 8; removals and clear never do. So a program that only makes such calls, starting with BSTMap::new(), and never has more than N entries at a time calls the allocator a times with 4*2^a < N+8 and gives nothing back, however many insertions and removals it makes. In contrast, every insertion of a new key into a non-empty SimpleBSTMap calls the allocator once.",
  "all maps that can be reached, all sequences of calls, all comparisons (also inconsistent and panicking ones), every allocator and build",
  "a test with a counting allocator sees one sequence of calls; that no mix of insertions, overwrites, removals and panics takes a block early is a statement about all of them",
  ["README.md:11-16","src/arena.rs: StableArena::{push,reserve,add_chunk}, ExponentialAlloc","src/slab.rs: UnsafeSlab::{push,remove}","src/map.rs: BSTMap::{insert,remove,remove_entry,clear}","simple_bst/src/map.rs: SimpleBSTMap::insert"])

p("C77","Entries are contiguous in memory: in insertion order without removals, in pre-order in a clone, and without gaps beyond the peak",
  "The blocks of a map have 8, 16, 32, ... slots, and consecutive slots are next to each other except where a block ends. If a new, cleared or pre-sized map only gets calls that take no entry out, the entries are in its slots in the order in which they came in, from the first slot on, without gaps; the same holds of collect for the items with new keys. A clone has its entries in pre-order in its slots, however the original is laid out. With removals, every entry is in one of the first p slots, where p is the largest len() since the map was created or last cleared, and if len() is p, all of these slots are in use.",
  "all maps that can be reached, all sequences of calls, all comparisons (for clone: lawful ones), every allocator and build",
  "addresses are not part of the API, so that tests of results do not see them; a free slot that is skipped or a block that is used out of order shows only in some sequences of calls",
  ["README.md:12-16","src/arena.rs: StableArena::{push,reserve}, ExponentialAlloc::position_for","src/slab.rs: UnsafeSlab::{push,remove,clear}","src/map.rs: BSTMap::{insert,extend,from_iter,clone,clear}"])

p("C78","The recursive search in README.md returns the first node in pre-order with the score, and tests no value after it",
  "find_score(map.root(), score), as in README.md, tests the values of the entries one after the other in pre-order, up to the first one that has the score or whose test panics; it returns the node of that entry, at its place in the tree, or None if no value has the score. This holds however the map came about, also with an inconsistent Ord, and whatever the tests do. It needs room for one nested call more than the height of the tree; with less room an unsuccessful search overflows the stack. The same holds for the same function over the nodes of SimpleBSTMap.",
  "all maps that can be reached, all values, all tests (also ones that panic or depend on how often they were called), all limits of the stack, both crates",
  "the program in README.md is not compiled or run by any test; recursion by users over node handles is not tested for trees of all shapes",
  ["README.md:23-56 find_score, main","src/map/node.rs: Node::{left,right,value}","src/map.rs: BSTMap::root","simple_bst/src/map/node.rs: Node::{left,right,value}"])

p("C79","A map does nothing with keys but compare and move them, and nothing with values but move them",
  "Two clients make the same calls on a BSTMap, with keys and values of different types. If the keys and values they pass are related, and the code of the users (Ord, Clone, Debug, Drop, iterators) does the same for related keys and values, then all calls have the same outcome and return related keys and values and the same numbers and texts, and the maps have the same shape, the same addresses, the same allocator calls and run the same destructors in the same order; also if Ord is inconsistent, if user code panics, or if allocations fail. So renaming keys by a function that keeps the answers of comparisons renames the results and changes nothing else, and no key or value ever appears that the client (or its Clone) did not provide. The same for BSTSet, SimpleBSTMap and SimpleBSTSet (of which only the number of allocations is observed).",
  "all relations between keys and between values, all types, all histories, all comparisons, all sizes of memory",
  "it quantifies over pairs of programs and over all key and value types; tests use a few concrete types",
  ["src/map.rs: impl<K, V> BSTMap<K, V>","src/map/node.rs","src/map/{preorder,inorder,postorder}.rs","src/slab.rs: UnsafeSlab","src/arena.rs: StableArena","src/set.rs: BSTSet","simple_bst/src/map.rs: SimpleBSTMap","simple_bst/src/set.rs: SimpleBSTSet"])

p("C80","The randomised tests of the project cannot fail, whatever is chosen at random",
  "test_random_operations compares a map or set (of either crate) with a HashMap or HashSet, and a StableArena with a Vec, after every one of a number of random operations; test_random_traversals compares the three iterators with recursive functions over node handles, for a map after random insertions and removals. For every sequence of operations, of any length and with any keys and values, all assertions of these tests hold, provided that there is memory for the entries (and stack for the recursion). For maps and sets the order of the keys has to agree with their equality. The test of the arena reads and writes only live elements, and when the arena is dropped at its end every block has been returned.",
  "all sequences of operations and all random choices, all key and value types, all builds, every allocator that does not fail; the assertions of test_random_traversals for all maps that can be reached with any comparison",
  "each run of a randomised test is one sequence of at most a few thousand operations with numbers from a fixed range",
  ["src/map.rs:932-1054 test_random_operations","src/map.rs:1095-1180 test_random_traversals","src/set.rs:456-556 test_random_operations","src/arena.rs:813-924 test_random_operations","simple_bst/src/map.rs:769-892 test_random_operations","simple_bst/src/set.rs:382-482 test_random_operations"])

p("C81","Debug into a destination that refuses writes: a prefix of the text, then Err",
  "write!(w, \"{:?}\", x) and write!(w, \"{:#?}\", x), where x is a map, set or node handle and w is any destination that may refuse what is written to it (a fixed buffer, a closed pipe): the text of C66 is passed to w in pieces that do not depend on w, up to the first piece that w refuses. After it nothing is passed to w, and the call returns Err; if nothing is refused the call ends as in C66. So a String gets the whole text, and a buffer of n characters holds the first n characters of it, with Err exactly if these are not all of it or Debug of a key or value returned Err.",
  "all destinations, all maps and sets that can be reached, all node handles, both formats, both crates, all Debug implementations of keys and values that behave like this themselves (they may also end with Err or a panic)",
  "tests format into a String, which refuses nothing; there is one place to fail for every piece of every text",
  ["src/map.rs:68-77 Debug for BSTMap","src/map/node.rs:15-27,109-121 Debug for Node, NodeMut","src/set.rs:38-46 Debug for BSTSet","src/set/node.rs:9-19 Debug for Node","simple_bst/src/map.rs:19 derive(Debug)","simple_bst/src/map/node.rs:3 derive(Debug)","simple_bst/src/set.rs:31-39 Debug for SimpleBSTSet","simple_bst/src/set/node.rs:9-20 Debug for Node"])

p("C82","A set is a map whose values are ()",
  "Whatever calls a client makes on a BSTSet (or SimpleBSTSet): they end as the corresponding calls on a BSTMap<T, ()> (SimpleBSTMap<T, ()>) would, also if comparisons are inconsistent or panic, allocations fail or destructors panic. The set answers what the answers of the map show: insert returns true exactly if the map returned None, remove if it returned Some, take and get return the key, iterators the keys, in the same order. The map inside of the set is the map of the other client, with the same tree, addresses and memory. So what holds of all maps that can be reached holds of the map in every set; in particular C76, C77 and C79 hold of sets.",
  "all element types, all histories, all comparisons, all sizes of memory, both crates",
  "it compares two programs on all histories, also on those in which user code misbehaves; tests of sets repeat some tests of maps",
  ["src/set.rs: impl<T> BSTSet<T>","src/set/node.rs","src/set/{preorder,inorder,postorder}.rs","simple_bst/src/set.rs: impl<T> SimpleBSTSet<T>","src/map.rs: impl<K, V> BSTMap<K, V>"])

p("C83", "An insertion that is undone leaves no trace in the tree",
  "Inserting a new key and removing it again with the same comparisons returns the pair and restores the tree exactly, including the addresses of all nodes; the removal takes and gives back no memory. Inserting the key once more gives the same tree as the first time, with the new node at the same address, and cannot fail. The same holds for any number of insertions that are undone in the opposite order. Conversely, removing an entry whose node is a leaf and inserting it again restores the tree with all addresses. All this holds also if the comparisons are inconsistent, as long as the inserted key is equal to itself. For SimpleBSTMap, BSTSet and SimpleBSTSet likewise; in simple_bst there are no stable addresses, the removal of the entry takes no memory, and inserting once more may fail only if the allocator refuses.",
  "every reachable map and set, every key, value and sequence of insertions of new keys, every comparison function",
  "for all histories, trees and sequences of insertions; tests compare contents, not trees and addresses",
  ["src/map.rs: BSTMap::{insert,remove_entry}", "src/slab.rs: UnsafeSlab::{push,remove}", "src/set.rs: BSTSet::{insert,take,remove}", "simple_bst/src/map.rs: SimpleBSTMap::{insert,remove_entry}", "simple_bst/src/set.rs: SimpleBSTSet::{insert,take,remove}"])

p("C84", "The tree tells which keys were inserted first, and when the order of two insertions matters",
  "If different keys are inserted into a new map, then, as seen through the node API, x is an ancestor of y if and only if x was inserted before y and before every key between the two. Two insertions that follow each other may be exchanged without any effect on the final tree if and only if a key between the two was inserted before. More generally, two insertions of different keys into any map (also after removals, and also if the keys are already there) give the same tree in either order if and only if the map has a key between the two, or equal to one of them. And the number of comparisons that it takes to look for a key after different keys were inserted into a new map is the number of those keys for which no key inserted earlier lies between them and the key that is looked for, whether it is in the map or not. Addresses of nodes may differ. The same holds for SimpleBSTMap.",
  "every sequence of insertions of different keys, every two keys in it, every lawful order; for two insertions, every map that can be reached with lawful comparisons",
  "for all insertion sequences and all pairs of keys; a test compares a few trees",
  ["src/map.rs: BSTMap::{insert,root}", "src/map/node.rs: Node::{left,right,key}", "simple_bst/src/map.rs: SimpleBSTMap::{insert,root}"])

with open(os.path.join(os.path.dirname(__file__), "..", "properties.jsonl"), "w") as f:
    for x in P: f.write(json.dumps(x) + "\n")
print(len(P))
