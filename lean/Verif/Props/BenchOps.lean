import Verif.Proofs.BenchMulti
import Verif.Proofs.BenchSetOps
import Verif.Props.Bench
/-!
# C72: the other programs of `benches/map_comparison.rs`, and `benches/set_comparison.rs`

What they compute (`Verif/BenchOpsSpec.lean`), with the maps and sets of either crate. The keys are
those that `Keys::generate` shuffles, in any order.
-/
namespace BST.Bench
open Std

/-- The mix of operations on a map (`benchmark_map_ops`): with five keys per step, as the benchmark
generates them, no key is asked for that does not exist, all calls return what `opsLog` says, and in
the end the map has, of the keys that step `i` inserted, those with a value according to `opsEntry`. -/
theorem C72_map_ops {cfg : Cfg} {steps m : Nat} {keys : List Int} (hk : keys.Perm (keysBefore m))
    (hm : 5 * steps ≤ m) (hn : Fits cfg (startOf steps + steps)) :
    ∃ l, Yields cfg compare (mapOps cfg keys steps) (.ok ((List.range steps).map opsLog)) [l] ∧
      l.Pairwise (fun a b => a.1 < b.1) ∧
      ∀ k v, (k, v) ∈ l ↔ ∃ i j, i < steps ∧ j ≤ i % 5 ∧ keys[startOf i + j]? = some k ∧
        opsEntry i j = some v := by
  have hlen : keys.length = m := by rw [hk.length_eq, keysBefore_length]
  obtain ⟨l, h1, h2, h3⟩ := mapOps_does cfg (hk.symm.nodup (keysBefore_nodup m)) steps
    (by
      intro h
      obtain ⟨s, rfl⟩ := Nat.exists_eq_succ_of_ne_zero h
      have : startOf (s + 1) < _ := startOf_lt s
      simp only [Nat.succ_eq_add_one] at *
      omega)
    (by
      have h4 := hn.room
      have h5 := Nat.mul_le_mul_left (startOf steps + steps + 8) hn.size
      have h6 := startOf_ge steps
      simp only [isizeMax, usizeBound] at *
      omega)
  refine ⟨l, yields hn h1, List.Pairwise.imp (fun h => ?_) h2, h3⟩
  exact Std.compare_eq_lt.1 h

/-- The benchmarks with several maps (`benchmark_inserts_multi`, `benchmark_gets_multi`), of which all
but the last are clones of an empty map: every insertion is one of a new key, every lookup finds the
position of the key, and all maps have the same entries in the end. -/
theorem C72_multi {cfg : Cfg} {n m maps : Nat} {keys : List Int} (hk : keys.Perm (keysBefore m))
    (hm : n ≤ m) (hmaps : 0 < maps) (hn : Fits cfg (n * maps)) :
    ∃ l, Yields cfg compare (compareMulti keys n maps)
        (.ok (List.replicate n (List.replicate maps none),
          (List.range n).map fun i => List.replicate maps (some (n - i - 1), some (n - i - 1))))
        (List.replicate maps l) ∧
      l.Pairwise (fun a b => a.1 < b.1) ∧ ∀ k v, (k, v) ∈ l ↔ v < n ∧ keys[v]? = some k := by
  have hlen : keys.length = m := by rw [hk.length_eq, keysBefore_length]
  obtain ⟨maps, rfl⟩ := Nat.exists_eq_succ_of_ne_zero (Nat.ne_of_gt hmaps)
  obtain ⟨l, h1, h2, h3⟩ := compareMulti_does (hk.symm.nodup (keysBefore_nodup m)) (c := n)
    (by omega) maps
  exact ⟨l, yields hn h1, List.Pairwise.imp (fun h => Std.compare_eq_lt.1 h) h2, h3⟩

/-- The benchmarks of `insert`, `get` and `contains`, and `remove` of sets: every insertion is new,
every lookup finds the element, of two removals the first one succeeds. From the second iteration on
the measured removals are removals from an empty set. -/
theorem C72_sets {cfg : Cfg} {n m : Nat} {values : List Int} (hk : values.Perm (keysBefore m))
    (hm : n ≤ m) (hn : Fits cfg n) (iters : Nat) :
    SYields cfg compare (compareSets values n (iters + 1))
      (.ok (List.replicate n true, (List.range n).map (fun i => (values[n - i - 1]?, true)),
        List.replicate n (true, false) :: List.replicate iters (List.replicate n (false, false)))) [[]] := by
  have hlen : values.length = m := by rw [hk.length_eq, keysBefore_length]
  exact syields hn fun _ => compareSets_does (hk.symm.nodup (keysBefore_nodup m)) (by omega) iters

/-- The mix of operations on a set (`benchmark_set_ops`): no value is asked for that does not exist,
all calls return what `setOpsLog` says, and in the end the set has, of the values that step `i`
inserted, all but the last, and the last if `i` is odd. -/
theorem C72_set_ops {cfg : Cfg} {steps m : Nat} {values : List Int} (hk : values.Perm (keysBefore m))
    (hm : 5 * steps ≤ m) (hn : Fits cfg (startOf steps + steps)) :
    ∃ l, SYields cfg compare (setOps values steps) (.ok ((List.range steps).map (setOpsLog values))) [l] ∧
      l.Pairwise (· < ·) ∧
      ∀ t, t ∈ l ↔ ∃ i j, i < steps ∧ (j < i % 5 ∨ j = i % 5 ∧ i % 2 = 1) ∧
        values[startOf i + j]? = some t := by
  have hlen : values.length = m := by rw [hk.length_eq, keysBefore_length]
  obtain ⟨l, h1, h2, h3⟩ := setOps_does (hk.symm.nodup (keysBefore_nodup m)) steps
    (by
      intro h
      obtain ⟨s, rfl⟩ := Nat.exists_eq_succ_of_ne_zero h
      have : startOf (s + 1) < _ := startOf_lt s
      simp only [Nat.succ_eq_add_one] at *
      omega)
  exact ⟨l, syields hn h1, List.Pairwise.imp (fun h => Std.compare_eq_lt.1 h) h2, h3⟩

/-! ### Cases -/

/-- Twenty keys in an order that is not ascending. -/
def sampleKeys : List Int := [50, -100, 0, 90, -90, 10, -20, 40, 80, -60, -10, 20, 70, -80, 30, -50, 60, -40, -30, -70]

theorem sampleKeys_perm : sampleKeys.Perm (keysBefore 20) := by decide +kernel

example : ((mapOps sampleCfg sampleKeys 4).run (BSTMap.maps sampleCfg compare (· == ·) (· == ·)) []).1 =
    .ok ((List.range 4).map opsLog) := by decide +kernel
example : (List.range 4).map opsLog =
    [⟨[none], some 0, [none, some 0, some 0], [none, some 0]⟩,
      ⟨[none, none], some 2, [none, some 0], [none]⟩,
      ⟨[none, none, none], some 4, [none], [none, some 0]⟩,
      ⟨[none, none, none, none], some 6, [none, some 0, some 5], [none]⟩] := by decide +kernel
example : ((mapOps sampleCfg sampleKeys 4).run
    (BSTMap.maps sampleCfg compare (· == ·) (· == ·)) []).2.map (·.iterInorder) =
    [.ok [(-100, 1), (-90, 3), (-60, 0), (-20, 3), (0, 0), (40, 4), (80, 10), (90, 2)]] := by
  decide +kernel
example : ∃ l, Yields sampleCfg compare (mapOps sampleCfg sampleKeys 4)
    (.ok ((List.range 4).map opsLog)) [l] :=
  let ⟨l, h, _⟩ := C72_map_ops sampleKeys_perm (by decide) (sampleFits (by decide))
  ⟨l, h⟩

/-- One key more than the insertions use is needed: with ten keys for the ten insertions of four
steps, the first lookup of the last step is out of bounds. -/
example : startOf 4 = 10 ∧ ((mapOps sampleCfg (sampleKeys.take 10) 4).run
    (BSTMap.maps sampleCfg compare (· == ·) (· == ·)) []).1 = .panic := by decide +kernel

example : ((compareMulti sampleKeys 3 2).run (Simple.maps sampleCfg compare (· == ·) (· == ·)) []).1 =
    .ok ([[none, none], [none, none], [none, none]],
      [[(some 2, some 2), (some 2, some 2)], [(some 1, some 1), (some 1, some 1)],
        [(some 0, some 0), (some 0, some 0)]]) := by decide +kernel
example : ((compareSets sampleKeys 3 2).run (BSTSet.sets sampleCfg compare (· == ·)) []).1.map (·.2.1) =
    .ok [(some 0, true), (some (-100), true), (some 50, true)] := by decide +kernel
example : ((compareSets sampleKeys 3 2).run (BSTSet.sets sampleCfg compare (· == ·)) []).1.map (·.2.2) =
    .ok [[(true, false), (true, false), (true, false)],
      [(false, false), (false, false), (false, false)]] := by decide +kernel
example : ((setOps sampleKeys 4).run (BSTSet.sets sampleCfg compare (· == ·)) []).2.map (·.iterInorder) =
    [.ok [-100, -90, -60, -20, 0, 40, 80, 90]] := by decide +kernel
example : (List.range 4).map (setOpsLog sampleKeys) =
    [⟨[true], false, [none, some 50, some 50], [false, true]⟩,
      ⟨[true, true], false, [none, some 0], [false]⟩,
      ⟨[true, true, true], false, [none], [false, true]⟩,
      ⟨[true, true, true, true], false, [none, some (-60), some 80], [false]⟩] := by decide +kernel

end BST.Bench
