import Verif.SimpleHistory
import Verif.SimpleSetHistory
import Verif.Model.Readme
/-!
# The unit tests and documentation examples of the project, run in the model

These are tests of the model, not theorems about the code: what the authors assert of their code for some
inputs has to come out of the model as well. Strings are lists of character codes here (ordered in the
same way). Left out are `drop_empty_arena` and `arena_capacity` (src/arena.rs:718-811) and the
`test_custom_traversal` of the sets; the loops of `exponential_strategy_indexes`, `arena_push` and
`slab_capacity` are shortened.
-/
namespace BST.UnitTests
open Spec (Order)

/-- A build with all checks, on a machine with memory. -/
def cfg : Cfg := { checks := true, debug := true, esize := 40, allocOk := fun _ _ => true }

section Maps
variable {K V : Type}

/-- A call and what it has to return. -/
abbrev Test (K V : Type) := List (SimpleOp K V × Ret K V)

/-- The test passes with both crates. -/
def passes [Ord K] [DecidableEq K] [DecidableEq V] (t : Test K V) : Bool :=
  decide ((history cfg (t.map fun x => x.1.twin compare) BSTMap.new).1 = t.map fun x => .ok x.2) &&
  decide ((simpleHistory cfg (t.map (·.1)) Simple.Map.new).1 = t.map fun x => .ok x.2)

variable [Ord K]
/-- `assert_eq!(map.insert(k, v), r)` -/
def ins (k : K) (v : V) (r : Option V) : SimpleOp K V × Ret K V := (.insert (query (compare k)) k v, .value r)
/-- `assert_eq!(map.get(&k), r)` -/
def get (k : K) (r : Option V) : SimpleOp K V × Ret K V := (.get (query (compare k)), .value r)
/-- `assert_eq!(map.remove(&k), r)` -/
def rem (k : K) (r : Option V) : SimpleOp K V × Ret K V := (.remove (query (compare k)), .value r)
/-- `assert_eq!(map.remove_entry(&k), r)` -/
def remEntry (k : K) (r : Option (K × V)) : SimpleOp K V × Ret K V :=
  (.removeEntry (query (compare k)), .entry r)
/-- `assert_eq!(map.contains_key(&k), r)` -/
def has (k : K) (r : Bool) : SimpleOp K V × Ret K V := (.containsKey (query (compare k)), .bool r)
/-- `assert_eq!(map.is_empty(), r)` -/
def empty (r : Bool) : SimpleOp K V × Ret K V := (.isEmpty, .bool r)
/-- `assert_eq!(map.len(), r)` -/
def len (r : Nat) : SimpleOp K V × Ret K V := (.len, .nat r)
/-- `map.iter_*().collect()`, for keys that are their own values, is the list -/
def iter (o : Order) (l : List K) : SimpleOp K K × Ret K K :=
  (.iter o (l.length + 1), .items ((l.map fun k => some (k, k)) ++ [none]))

end Maps

/-- src/map.rs:811-828, simple_bst/src/map.rs:648-665 `test_map_insert_get` -/
example : passes (K := Int) (V := Int)
    [get 3 none, ins 3 1 none, get 3 (some 1), get 4 none, ins 4 (-2) none, get 3 (some 1), get 4 (some (-2)),
     get 0 none, ins 0 44 none, get 3 (some 1), get 4 (some (-2)), get 0 (some 44)] = true := by decide +kernel

/-- src/map.rs:831-863, simple_bst/src/map.rs:668-700 `test_map_insert_get_remove` -/
example : passes (K := Int) (V := Int)
    [rem 0 none, ins 99 (-3) none, rem 99 (some (-3)), get 3 none, ins 3 1 none, get 3 (some 1), get 4 none,
     ins 4 (-2) none, get 3 (some 1), remEntry 4 (some (4, -2)), remEntry 4 none, get 3 (some 1), get 0 none,
     ins 0 44 none, get 3 (some 1), get 4 none, get 0 (some 44), rem 0 (some 44), rem 0 none, get 3 (some 1),
     get 4 none] = true := by decide +kernel

/-- src/map.rs:866-884, simple_bst/src/map.rs:703-721 `test_map_insert_remove_two_children` -/
example : passes (K := List Nat) (V := Int)
    [ins [98] 0 none, ins [97] 89 none, ins [99] 391 none, rem [98] (some 0), rem [98] none,
     get [97] (some 89), get [99] (some 391), rem [] none] = true := by decide +kernel

/-- src/map.rs:887-910, simple_bst/src/map.rs:724-747 `test_map_insert_replace` -/
example : passes (K := Int) (V := Int)
    [get 3 none, ins 3 1 none, get 3 (some 1), get 4 none, ins 4 (-2) none, get 3 (some 1), get 4 (some (-2)),
     ins 3 933 (some 1), get 3 (some 933), get 4 (some (-2)), ins 3 11 (some 933), get 3 (some 11),
     get 4 (some (-2)), ins 4 3 (some (-2)), get 3 (some 11), get 4 (some 3)] = true := by decide +kernel

/-- src/map.rs:913-930, simple_bst/src/map.rs:750-767 `test_map_insert_get_borrow` -/
example : passes (K := List Nat) (V := Int)
    [get [97, 98, 99] none, ins [97, 98, 99] 1 none, get [97, 98, 99] (some 1), get [67, 79, 79, 76] none,
     ins [67, 79, 79, 76] 3 none, get [97, 98, 99] (some 1), get [67, 79, 79, 76] (some 3), get [] none,
     ins [] 898989 none, get [97, 98, 99] (some 1), get [67, 79, 79, 76] (some 3), get [] (some 898989)] =
    true := by decide +kernel

/-- src/map.rs:1057-1081, simple_bst/src/map.rs:894-920 `traversals` -/
example : passes (K := Int) (V := Int)
    [ins 4 4 none, ins 5 5 none, ins 2 2 none, ins 3 3 none, ins 1 1 none, iter .pre [4, 2, 1, 3, 5],
     iter .ino [1, 2, 3, 4, 5], iter .post [1, 3, 2, 5, 4]] = true := by decide +kernel

/-- src/map.rs:1083-1092 `traversals`, the mutable iterators -/
example : (history (K := Nat) (V := Nat) cfg (([4, 5, 2, 3, 1].map fun k => .insert (query (compare k)) k k) ++
      [.iterMut .pre (List.replicate 6 .next), .iterMut .ino (List.replicate 6 .next),
       .iterMut .post (List.replicate 6 .next)]) BSTMap.new).1.drop 5 =
    [.ok (.keys [4, 2, 1, 3, 5]), .ok (.keys [1, 2, 3, 4, 5]), .ok (.keys [1, 3, 2, 5, 4])] := by decide +kernel

/-- src/map.rs:1183-1211, simple_bst/src/map.rs:923-951 `test_map_remove_traverse` -/
example : passes (K := Int) (V := Int)
    [ins 4 4 none, ins 2 2 none, ins 5 5 none, ins 1 1 none, iter .pre [4, 2, 1, 5], rem 2 (some 2), rem 2 none,
     iter .pre [4, 1, 5]] = true := by decide +kernel

/-- The map of `test_custom_traversal`. -/
def stats : List (Nat × Nat) := [(1, 39382), (0, 400), (40, 999), (42, 33)]

/-- src/map.rs:1214-1252 `test_custom_traversal`, with the search of README.md -/
example :
    let m := (history cfg (stats.map fun x => .insert (query (compare x.1)) x.1 x.2) BSTMap.new).2
    let find (s : Nat) : Out (Option Nat) :=
      (Readme.search 10 (fun _ v => some (v == s)) m 0).1.bind fun n => .ok (n.map (·.key))
    find 500 = .ok none ∧ find 39382 = .ok (some 1) ∧ find 999 = .ok (some 40) ∧ find 33 = .ok (some 42) := by
  decide +kernel

/-! ### Equality -/

/-- A map with these keys and values. -/
def built (l : List (Int × Int)) : BSTMap Int Int :=
  (history cfg (l.map fun x => .insert (query (compare x.1)) x.1 x.2) BSTMap.new).2

/-- The same in the other crate. -/
def builtSimple (l : List (Int × Int)) : Simple.Map Int Int :=
  (simpleHistory cfg (l.map fun x => .insert (query (compare x.1)) x.1 x.2) Simple.Map.new).2

/-- The five maps of src/map.rs:1255-1320, simple_bst/src/map.rs:995-1060 `test_eq`. -/
def five : List (List (Int × Int)) :=
  let l : List Int := (List.range 10).map Int.ofNat
  [l.map fun i => (i, i), l.reverse.map fun i => (i, i), l.map fun i => (i + 10, i + 10),
   l.map fun i => (i + 10, (i + 10) * 10), []]

/-- `test_eq`: which of the maps are equal. -/
example :
    let table := (List.range 5).flatMap fun i => (List.range 5).map fun j =>
      Out.ok (i = j || (i < 2 && j < 2) : Bool)
    ((five.map built).flatMap fun a => (five.map built).map fun b =>
      BSTMap.eq cfg (· == ·) (· == ·) a b) = table ∧
    ((five.map builtSimple).flatMap fun a => (five.map builtSimple).map fun b =>
      Simple.Map.eq (· == ·) (· == ·) a b) = table ∧
    (five.map built).map (·.len cfg) = [.ok 10, .ok 10, .ok 10, .ok 10, .ok 0] ∧
    (five.map builtSimple).map (·.len) = [10, 10, 10, 10, 0] := by decide +kernel

/-- The calls of src/map.rs:1323-1337, simple_bst/src/map.rs:1063-1077 `test_clone_eq`. -/
def cloneEq : List (SimpleOp Int Int) :=
  ((List.range 10).map fun i => .insert (query (compare (i : Int))) i (-i * 25)) ++
  [.remove (query (compare 0)), .remove (query (compare 1)), .remove (query (compare 5))]

/-- `test_clone_eq` -/
example :
    let m := (history cfg (cloneEq.map (·.twin compare)) BSTMap.new).2
    let s := (simpleHistory cfg cloneEq Simple.Map.new).2
    BSTMap.eq cfg (· == ·) (· == ·) m (BSTMap.clone cfg (fun _ k => query (compare k)) some some m).2 =
      .ok true ∧
    Simple.Map.eq (· == ·) (· == ·) s (Simple.Map.clone cfg some some s).2 = .ok true := by decide +kernel

/-! ### Documentation of `BSTMap` and `SimpleBSTMap`. -/

/-- src/map.rs:160-167, 196-203, 218-225, 252-259: `len`, `is_empty`, `contains_key`, `get` -/
example : passes (K := Nat) (V := Nat) [empty true, len 0, ins 1 97 none, len 1, empty false, has 1 true,
    has 2 false, get 1 (some 97), get 2 none] = true := by decide +kernel

/-- src/map.rs:286-298 `get_mut`; 325-332 `get_entry` -/
example : passes (K := Nat) (V := Nat) [ins 1 97 none, get 1 (some 97),
    (.getMut (query (compare 1)) 98, .value (some 97)), get 1 (some 98),
    (.getMut (query (compare 2)) 98, .value none),
    (.getEntry (query (compare 1)), .entry (some (1, 98))), (.getEntry (query (compare 2)), .entry none)] =
    true := by decide +kernel

/-- src/map.rs:359-371 `get_entry_mut` -/
example : (history (K := Nat) (V := Nat) cfg [.insert (query (compare 1)) 1 97,
      .getEntryMut (query (compare 1)) 97, .getEntryMut (query (compare 2)) 97,
      .getEntryMut (query (compare 1)) 98, .get (query (compare 1))] BSTMap.new).1 =
    [.ok (.value none), .ok (.entry (some (1, 97))), .ok (.entry none), .ok (.entry (some (1, 97))),
     .ok (.value (some 98))] := by decide +kernel

/-- src/map.rs:395-406 `insert`; 456-463 `remove`; 479-486 `remove_entry`; 639-649 `clear` -/
example : passes (K := Nat) (V := Nat) [empty true, ins 37 97 none, empty false, ins 37 98 (some 97),
      ins 37 99 (some 98), get 37 (some 99)] = true ∧
    passes (K := Nat) (V := Nat) [ins 1 97 none, rem 1 (some 97), rem 1 none, ins 1 97 none,
      remEntry 1 (some (1, 97)), remEntry 1 none, ins 1 97 none, empty false, (.clear, .unit), empty true] =
    true := by decide +kernel

/-- src/map.rs:181-185 `capacity`; 639-649 `clear` -/
example : (BSTMap.withCapacity (K := Nat) (V := Nat) cfg 100).2.capacity ≥ 100 ∧
    (history (K := Nat) (V := Nat) cfg [.insert (query (compare 1)) 1 97, .capacity,
      .clear ⟨true, fun _ => false⟩, .capacity] BSTMap.new).1 =
    [.ok (.value none), .ok (.nat 8), .ok .unit, .ok (.nat 8)] := by decide +kernel

/-! ### Sets -/

section Sets
variable {T : Type}

/-- The test passes with both crates. -/
def passesSet [Ord T] [DecidableEq T] (t : List (SimpleSetOp T × SetRet T)) : Bool :=
  decide ((setHistory cfg (t.map fun x => x.1.twin compare) BSTSet.new).1 = t.map fun x => .ok x.2) &&
  decide ((simpleSetHistory cfg (t.map (·.1)) Simple.SSet.new).1 = t.map fun x => .ok x.2)

variable [Ord T]
/-- `assert_eq!(set.contains(&t), r)` -/
def mem (t : T) (r : Bool) : SimpleSetOp T × SetRet T := (.contains (query (compare t)), .bool r)
/-- `assert_eq!(set.insert(t), r)` -/
def add (t : T) (r : Bool) : SimpleSetOp T × SetRet T := (.insert (query (compare t)) t, .bool r)
/-- `set.iter_*().collect()` -/
def list (o : Order) (l : List T) : SimpleSetOp T × SetRet T :=
  (.iter o (l.length + 1), .items (l.map some ++ [none]))

end Sets

/-- src/set.rs:395-412, simple_bst/src/set.rs:321-338 `test_set_insert_get` -/
example : passesSet (T := Int) [mem 3 false, add 3 true, mem 3 true, mem 4 false, add 4 true, mem 3 true,
    mem 4 true, mem 0 false, add 0 true, mem 3 true, mem 4 true, mem 0 true] = true := by decide +kernel

/-- src/set.rs:415-434, simple_bst/src/set.rs:341-360 `test_set_insert_replace` -/
example : passesSet (T := Int) [mem 3 false, add 3 true, mem 3 true, mem 4 false, add 4 true, mem 3 true,
    mem 4 true, add 3 false, mem 3 true, mem 4 true, add 4 false, mem 3 true, mem 4 true] = true := by
  decide +kernel

/-- src/set.rs:437-454, simple_bst/src/set.rs:363-380 `test_set_insert_get_borrow` -/
example : passesSet (T := List Nat) [mem [97, 98, 99] false, add [97, 98, 99] true, mem [97, 98, 99] true,
    mem [67, 79, 79, 76] false, add [67, 79, 79, 76] true, mem [97, 98, 99] true, mem [67, 79, 79, 76] true,
    mem [] false, add [] true, mem [97, 98, 99] true, mem [67, 79, 79, 76] true, mem [] true] = true := by
  decide +kernel

/-- src/set.rs:559-585, simple_bst/src/set.rs:485-511 `traversals` -/
example : passesSet (T := Int) [add 4 true, add 5 true, add 2 true, add 3 true, add 1 true,
    list .pre [4, 2, 1, 3, 5], list .ino [1, 2, 3, 4, 5], list .post [1, 3, 2, 5, 4]] = true := by decide +kernel

/-- src/set.rs:103-110, 139-146, 160-168, 186-193, 209-220: the documentation of `len`, `is_empty`, `contains`,
`get`, `insert` -/
example : passesSet (T := Nat) [(.len, .nat 0), (.isEmpty, .bool true), mem 1 false, add 1 true, mem 1 true,
    mem 2 false, (.len, .nat 1), (.isEmpty, .bool false), add 37 true, add 37 false, add 37 false, mem 37 true] =
    true := by decide +kernel

/-- src/set.rs:232-239 `remove`; 254-261 `take`; 275-285 `clear` -/
example : passesSet (T := Nat) [add 1 true, (.remove (query (compare 1)), .bool true),
    (.remove (query (compare 2)), .bool false), add 1 true, (.take (query (compare 1)), .elem (some 1)),
    (.take (query (compare 2)), .elem none), add 1 true, (.isEmpty, .bool false), (.clear, .unit),
    (.isEmpty, .bool true)] = true := by decide +kernel

/-! ### The macros (src/lib.rs:51-102) -/

/-- `bstmap_macro`, `bstset_macro` -/
example :
    let q : Nat → Nat → Probe Nat := fun _ k => query (compare k)
    (bstmap cfg q [(1, 2), (3, 4), (2, 3)]).2.iterInorder = .ok [(1, 2), (2, 3), (3, 4)] ∧
    (bstmap cfg q [(3, 4)]).2.iterInorder = .ok [(3, 4)] ∧
    (bstmap (V := Nat) cfg q []).2.iterInorder = .ok [] ∧
    (bstset cfg q [1, 3, 2]).2.iterInorder = .ok [1, 2, 3] ∧
    (bstset cfg q [99]).2.iterInorder = .ok [99] ∧
    (bstset cfg q []).2.iterInorder = .ok [] := by decide +kernel

/-! ### The slab -/

/-- Destructors are run and do not panic. -/
def calm {T : Type} : DropInfo T := ⟨true, fun _ => false⟩

/-- src/slab.rs:305-370 `slab_push_remove`. The first two slots are used in turn. -/
example :
    let p : Ptr := ⟨0, 0⟩
    let p' : Ptr := ⟨0, 1⟩
    (execute (SlabOp.run cfg calm)
      [.len, .isEmpty, .capacity, .push 19384, .get p, .len, .isEmpty, .capacity, .remove p, .len, .isEmpty,
       .push 831783, .get p, .push 57, .get p, .get p', .len, .remove p, .get p', .len, .push 999, .get p',
       .get p, .len, .remove p', .get p, .len, .capacity] (Slab.new : Slab Nat)).1 =
    [.ok (.nat 0), .ok (.bool true), .ok (.nat 0), .ok (.ptr p), .ok (.value 19384), .ok (.nat 1),
     .ok (.bool false), .ok (.nat 8), .ok (.value 19384), .ok (.nat 0), .ok (.bool true), .ok (.ptr p),
     .ok (.value 831783), .ok (.ptr p'), .ok (.value 831783), .ok (.value 57), .ok (.nat 2),
     .ok (.value 831783), .ok (.value 57), .ok (.nat 1), .ok (.ptr p), .ok (.value 57), .ok (.value 999),
     .ok (.nat 2), .ok (.value 57), .ok (.value 999), .ok (.nat 1), .ok (.nat 8)] := by decide +kernel

/-- src/slab.rs:373-420 `slab_stable_get`: the capacity is 5 times as large after 24 more values -/
example :
    let ptrs : List Ptr := ((List.range 7).map fun i => ⟨0, i + 1⟩) ++ ((List.range 16).map fun i => ⟨1, i⟩) ++
      [⟨2, 0⟩]
    let look (c : Int) : List (SlabOp Int × Out (StoreRet Int)) :=
      (.get ⟨0, 0⟩, .ok (.value (-12 * c))) ::
        ptrs.zipIdx.map fun x => (.get x.1, .ok (.value (x.2 * c)))
    let t : List (SlabOp Int × Out (StoreRet Int)) :=
      [(.push (-12), .ok (.ptr ⟨0, 0⟩)), (.get ⟨0, 0⟩, .ok (.value (-12))), (.capacity, .ok (.nat 8))] ++
      (ptrs.zipIdx.map fun x => (.push x.2, .ok (.ptr x.1))) ++ [(.capacity, .ok (.nat 56))] ++ look 1 ++
      [(.len, .ok (.nat 25)), (.shrinkToFit, .ok .unit), (.capacity, .ok (.nat 56))] ++ look 1 ++
      [(.set ⟨0, 0⟩ 12, .ok (.value (-12)))] ++
      (ptrs.zipIdx.map fun x => (.set x.1 (-x.2), .ok (.value x.2))) ++ look (-1)
    (execute (SlabOp.run cfg calm) (t.map (·.1)) (Slab.new : Slab Int)).1 = t.map (·.2) := by decide +kernel

/-- src/slab.rs:423-466 `slab_clear` -/
example :
    let p : Ptr := ⟨0, 0⟩
    let p' : Ptr := ⟨0, 1⟩
    (execute (SlabOp.run cfg calm)
      [.push 1, .isEmpty, .capacity, .clear, .isEmpty, .capacity, .clear, .isEmpty, .capacity, .push 2, .push 3,
       .remove p, .isEmpty, .clear, .isEmpty, .capacity, .push 4, .push 5, .remove p', .remove p, .isEmpty,
       .clear, .isEmpty, .capacity] (Slab.new : Slab Nat)).1 =
    [.ok (.ptr p), .ok (.bool false), .ok (.nat 8), .ok .unit, .ok (.bool true), .ok (.nat 8), .ok .unit,
     .ok (.bool true), .ok (.nat 8), .ok (.ptr p), .ok (.ptr p'), .ok (.value 2), .ok (.bool false), .ok .unit,
     .ok (.bool true), .ok (.nat 8), .ok (.ptr p), .ok (.ptr p'), .ok (.value 5), .ok (.value 4),
     .ok (.bool true), .ok .unit, .ok (.bool true), .ok (.nat 8)] := by decide +kernel

/-- src/slab.rs:469-493 `drop_non_empty`, 496-539 `drop_removed`: what the destructors were run for when the
slab is dropped. (A removed value is handed to the caller.) -/
example :
    let run (ops : List (SlabOp Nat)) := (Slab.drop cfg calm (execute (SlabOp.run cfg calm) ops Slab.new).2).2
    (run [.push 1, .push 2]).dropped = [1, 2] ∧
    (run [.push 1, .push 2, .remove ⟨0, 0⟩, .push 3]).dropped = [3, 2] := by decide +kernel

/-- src/slab.rs:542-600 `slab_capacity` (from `with_capacity(10)`, which makes room for 24). -/
example :
    let fill : List (SlabOp Nat) := (List.range 24).map .push
    let s := (execute (SlabOp.run cfg calm) [.reserve 10] (Slab.new : Slab Nat)).2
    (execute (SlabOp.run cfg calm) [.capacity, .reserve 0, .capacity, .reserve 10, .capacity] s).1 =
      [.ok (.nat 24), .ok .unit, .ok (.nat 24), .ok .unit, .ok (.nat 24)] ∧
    (execute (SlabOp.run cfg calm)
      (fill ++ [.len, .capacity, .shrinkToFit, .capacity, .get ⟨0, 7⟩, .get ⟨1, 15⟩, .reserve 72, .capacity,
        .shrinkToFit, .capacity, .remove ⟨0, 0⟩, .capacity, .len]) s).1.drop 24 =
      [.ok (.nat 24), .ok (.nat 24), .ok .unit, .ok (.nat 24), .ok (.value 7), .ok (.value 23), .ok .unit,
       .ok (.nat 120), .ok .unit, .ok (.nat 24), .ok (.value 0), .ok (.nat 24), .ok (.nat 23)] := by
  decide +kernel

/-! ### The arena -/

/-- src/arena.rs:691-715 `exponential_strategy_indexes`, the first slot and the last slot of each chunk -/
example : (List.range 6).map (fun i => chunkLen cfg i) = [.ok 8, .ok 16, .ok 32, .ok 64, .ok 128, .ok 256] ∧
    (List.range 6).map (fun i => positionFor cfg (8 * (2 ^ i - 1))) =
      (List.range 6).map (fun i => .ok ⟨i, 0⟩) ∧
    (List.range 6).map (fun i => positionFor cfg (8 * (2 ^ (i + 1) - 1) - 1)) =
      (List.range 6).map (fun i => .ok ⟨i, 8 * 2 ^ i - 1⟩) := by decide +kernel

/-- src/arena.rs:726-748 `arena_push`, with 40 allocations; only at the end all elements are read. -/
example :
    let a := (execute (ArenaOp.run cfg calm) ((List.range 40).map .alloc) (Arena.new : Arena Nat)).2
    (a.takesPlain cfg (List.replicate 41 false) a.iter).map (·.map (·.2)) =
      .ok ((List.range 40).map some ++ [none]) := by decide +kernel

/-- An arena with these elements. -/
def arena (l : List Nat) : Arena Nat := (execute (ArenaOp.run cfg calm) (l.map .alloc) Arena.new).2

/-- src/arena.rs:927-974 `test_eq` -/
example :
    let as := [arena (List.range 10), arena (List.range 10), arena ((List.range 10).map (· + 10)), arena []]
    (as.flatMap fun a => as.map fun b => Arena.eq cfg (· == ·) a b) =
      (List.range 4).flatMap fun i => (List.range 4).map fun j =>
        Out.ok (i = j || (i < 2 && j < 2) : Bool) := by decide +kernel

end BST.UnitTests
