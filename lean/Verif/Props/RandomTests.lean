import Verif.Proofs.RandomTests
import Verif.Proofs.RandomArena
import Verif.Props.Bench
import Verif.Props.Search
/-!
# C80: the randomised tests of the project

`test_random_operations` and `test_random_traversals` (`Verif/Model/RandomTests.lean`): whatever is
chosen at random, no assertion fails, given that there is memory.
-/
namespace BST.Tests
open Std Bench

section
variable {K V : Type} [DecidableEq K] [DecidableEq V]

/-- `test_random_operations` for maps, of either crate: whatever operations are chosen, however many, with
whatever keys and values, the test ends without a failed assertion and with an empty map. The order of the
keys has to agree with their equality, by which the `HashMap` goes. -/
theorem C80_maps {cfg : Cfg} {cmp : K → K → Ordering} [TransCmp cmp] [LawfulEqCmp cmp]
    (as : List (Act K V)) (hn : Fits cfg as.length) :
    Yields cfg cmp (testCase as) (.ok ()) [[]] :=
  yields hn fun _ _ => testCase_does as

/-- The same for sets. -/
theorem C80_sets {cfg : Cfg} {cmp : K → K → Ordering} [TransCmp cmp] [LawfulEqCmp cmp]
    (as : List (SetAct K)) (hn : Fits cfg as.length) :
    SYields cfg cmp (setTestCase as) (.ok ()) [[]] :=
  syields hn fun _ => setTestCase_does as

/-- The assertions of `test_random_traversals` hold for every map that a client can build, with any
comparisons: if there is stack for as many nested calls as the tree is high and one more, the three
recursive functions of the test give what the three iterators give. -/
theorem C80_traverse {cfg : Cfg} {ok : K → Probe K → Prop} {m : BSTMap K V} (hm : Reach cfg ok m)
    {lim : Nat} : ∃ b, explore m = .ok b ∧ (b.height < lim → traverse lim m = .ok ()) := by
  obtain ⟨t, h⟩ := hm.shape
  refine ⟨_, explore_ok h, fun hl => traverse_ok h ?_⟩
  rwa [Spec.BT.map_height, Tree.bt_height] at hl

/-- `test_random_traversals` as a whole, with any comparison function. -/
theorem C80_traversals {cfg : Cfg} (cmp : K → K → Ordering) {rounds : List (Option Nat × K)}
    (hn : Fits cfg rounds.length) {lim : Nat} (hl : rounds.length < lim) :
    (traversalsCase cfg cmp lim rounds BSTMap.new).1 = .ok () := by
  obtain ⟨m', t', h1, h2, h3⟩ := fill_ok (D := rounds.length)
    ⟨Nat.lt_of_lt_of_le (by decide) hn.size, hn.alloc, hn.room⟩ cmp rounds [] (shape_new cfg)
    (by simp [slots, BSTMap.new, Slab.new, Arena.new])
  unfold traversalsCase
  rw [M.bind_ok h1]
  have h4 : t'.height < lim := by
    have h5 := t'.height_le_size
    have h6 := h2.size_le_len
    have h7 : slots (BSTMap.new : BSTMap K K) = 0 := rfl
    have h8 : slots m' = m'.nodes.items.len := rfl
    omega
  exact traverse_ok h2 h4

/-- `test_random_operations` for arenas: whatever values are allocated and written, and whenever the arena
is cleared, or grown, or shrunk, no assertion fails, the reads through the pointers obtained before are
of live elements, and when the arena is dropped at the end all memory has been returned. -/
theorem C80_arena {cfg : Cfg} {d : DropInfo K} (hd : ∀ v, d.panics v = false)
    (as : List (Bool × ArenaAct K)) (hn : Fits cfg (as.map (·.2.room)).sum) :
    ∃ a, arenaCase cfg d as Arena.new = (.ok (), a) ∧ Spec.replay a.log = some [] :=
  arenaCase_ok hd as hn
end

/-! ### Cases -/

/-- Keys inserted twice, removed (one of them a second time, one with two children) and modified. -/
def sampleActs : List (Act Nat Int) :=
  [.hit 0, .insert 5 1, .insert 2 3, .insert 8 4, .modify 1 7, .insert 5 6, .miss 9, .remove 0,
    .hit 0, .modify 0 1, .remove 0, .insert 1 1, .remove 2, .modify 1 (-1)]

example : Fits sampleCfg sampleActs.length := sampleFits (by decide)
example : ((testCase sampleActs).run (BSTMap.maps sampleCfg compare (· == ·) (· == ·)) []).1 = .ok () := by
  decide +kernel
example : ((testCase sampleActs).run (Simple.maps sampleCfg compare (· == ·) (· == ·)) []).1 = .ok () := by
  decide +kernel

/-- An order that does not agree with equality: `3` and `13` are the same key for the map but not for the
`HashMap`, and the test fails. -/
example : ((testCase [.insert 3 1, .insert 13 2] : Prog Nat Int Unit).run
    (BSTMap.maps sampleCfg (fun a b => compare (a % 10) (b % 10)) (· == ·) (· == ·)) []).1 = .panic := by
  decide +kernel

def sampleSetActs : List (SetAct Nat) :=
  [.remove 0, .insert 5, .insert 2, .insert 8, .insert 5, .miss 9, .hit 1, .remove 0, .remove 0, .insert 5]

example : Fits sampleCfg sampleSetActs.length := sampleFits (by decide)
example : ((setTestCase sampleSetActs).run (BSTSet.sets sampleCfg compare (· == ·)) []).1 = .ok () := by
  decide +kernel
example : ((setTestCase sampleSetActs).run (Simple.sets sampleCfg compare (· == ·)) []).1 = .ok () := by
  decide +kernel

/-- `C80_traverse`: a tree of nine nodes; with too little stack the test aborts. -/
example : traverse 10 Sample.nine = .ok () := by decide +kernel
example : traverse 2 Sample.nine = .abort := by decide +kernel

example : (traversalsCase sampleCfg compare 8
    [(none, 5), (none, 2), (some 0, 7), (some 4, 1), (some 1, 3), (none, 7)] BSTMap.new).1 = .ok () := by
  decide +kernel

/-- `C80_arena`: ten elements in two chunks, a pointer into the first one is used after growing, shrinking,
and clearing. -/
def sampleArenaActs : List (Bool × ArenaAct Nat) :=
  (List.range 10).map (fun i => (false, .alloc i)) ++
    [(false, .modify 3 99), (false, .reserve 30), (false, .modify 9 98), (false, .shrink), (false, .modify 3 97),
      (true, .modify 0 5), (false, .alloc 6), (false, .shrink), (false, .modify 0 7)]

example : Fits sampleCfg (sampleArenaActs.map (·.2.room)).sum := sampleFits (by decide)
example : (arenaCase sampleCfg ⟨true, fun _ => false⟩ sampleArenaActs Arena.new).1 = .ok () ∧
    (arenaCase sampleCfg ⟨true, fun _ => false⟩ sampleArenaActs Arena.new).2.log =
      [.alloc 0 8, .alloc 1 16, .alloc 2 32, .free 2 32, .free 1 16, .free 0 8] := by decide +kernel
/-- Without memory for the second chunk the test does not get to its end. -/
example : (arenaCase { sampleCfg with allocOk := fun id _ => decide (id < 1) } ⟨true, fun _ => false⟩
    sampleArenaActs Arena.new).1 = .abort := by decide +kernel

end BST.Tests
