import Verif.Proofs.BenchRuns
/-!
# C68: the programs in `benches/`

With maps of either crate the programs of `Verif/Model/Bench.lean` compute what
`Verif/BenchSpec.lean` says, for all inputs for which there is memory.
-/
set_option linter.unusedSimpArgs false
namespace BST.Bench
variable {K : Type}
open Std
open Spec (Sorted)

private theorem pairC_iff {cfg : Cfg} {numbers : List Int} {target : Int}
    (h : ∀ a ∈ numbers, ∀ b, subI64 cfg target a = .ok b ↔ a + b = target) (i j : Nat) :
    PairC cfg numbers target i j ↔ Pair numbers target i j := by
  constructor
  · rintro ⟨h1, a, b, h2, h3, h4⟩
    exact ⟨h1, a, b, h2, h3, (h a (List.mem_of_getElem? h2) b).1 h4⟩
  · rintro ⟨h1, a, b, h2, h3, h4⟩
    exact ⟨h1, a, b, h2, h3, (h a (List.mem_of_getElem? h2) b).2 h4⟩

/-- If the differences between the target and the numbers are of type `i64`, `two_sum` returns the
first pair of positions whose numbers add up to the target, and panics if there is none. -/
theorem C68_two_sum {cfg : Cfg} {numbers : List Int} {target : Int} (hn : Fits cfg numbers.length)
    (hi : ∀ a ∈ numbers, IsI64 (target - a)) :
    ∃ o ls, Yields cfg compare (twoSum cfg numbers target) o ls ∧
      ((∃ i j, o = .ok (i, j) ∧ FirstPair numbers target i j) ∨
        (o = .panic ∧ ∀ i j, ¬ Pair numbers target i j)) := by
  have hsub : ∀ a ∈ numbers, subI64 cfg target a = .ok (target - a) := fun a ha => by
    simp [subI64, hi a ha]
  have hp := pairC_iff (cfg := cfg) (numbers := numbers) (target := target) fun a ha b => by
    rw [hsub a ha, Out.ok.injEq]; omega
  obtain ⟨o, ls, h1, h2⟩ := twoSum_does cfg target numbers
  refine ⟨o, ls, yields hn h1, ?_⟩
  simp only [hp] at h2
  rcases h2 with ⟨i, j, h2, h3⟩ | ⟨h2, h3⟩
  · exact .inl ⟨i, j, h2, h3⟩
  · exact .inr ⟨h2, h3 fun a ha => by rw [hsub a ha]; simp⟩

/-- With overflow checks, for any numbers of type `i64`: what `two_sum` returns is the first such pair;
otherwise it panics (also if a difference overflows before that pair is reached). -/
theorem C68_two_sum_checked {cfg : Cfg} {numbers : List Int} {target : Int}
    (hn : Fits cfg numbers.length) (hc : cfg.checks = true) (hi : ∀ a ∈ numbers, IsI64 a) :
    ∃ o ls, Yields cfg compare (twoSum cfg numbers target) o ls ∧
      ((∃ i j, o = .ok (i, j) ∧ FirstPair numbers target i j) ∨ o = .panic) := by
  have hp : ∀ i j, PairC cfg numbers target i j ↔ Pair numbers target i j := by
    intro i j
    constructor
    · rintro ⟨h1, a, b, h2, h3, h4⟩
      refine ⟨h1, a, b, h2, h3, ?_⟩
      unfold subI64 at h4
      split at h4
      · cases h4; omega
      · simp [hc] at h4
    · rintro ⟨h1, a, b, h2, h3, h4⟩
      refine ⟨h1, a, b, h2, h3, ?_⟩
      have h5 : target - a = b := by omega
      simp [subI64, h5, hi b (List.mem_of_getElem? h3)]
  obtain ⟨o, ls, h1, h2⟩ := twoSum_does cfg target numbers
  refine ⟨o, ls, yields hn h1, ?_⟩
  simp only [hp] at h2
  rcases h2 with ⟨i, j, h2, h3⟩ | ⟨h2, _⟩
  · exact .inl ⟨i, j, h2, h3⟩
  · exact .inr h2

/-- `tabulate_requests` counts the titles in one map and the genres in another: the entries are
exactly the names that occur, each with the number of its occurrences. -/
theorem C68_tabulate_requests {cfg : Cfg} (cmp : K → K → Ordering) [TransCmp cmp] [LawfulEqCmp cmp]
    [DecidableEq K] {reqs : List (K × K)} (hn : Fits cfg (2 * reqs.length)) :
    ∃ titles genres,
      Yields cfg cmp (tabulateRequests cfg reqs) (.ok (0, 1)) [titles, genres] ∧
      (∀ name n, (name, n) ∈ titles ↔ 0 < n ∧ (reqs.map (·.1)).count name = n) ∧
      (∀ name n, (name, n) ∈ genres ↔ 0 < n ∧ (reqs.map (·.2)).count name = n) := by
  have hb : reqs.length < usizeBound := by
    have h1 := hn.room
    have h2 : (2 * reqs.length + 8) * 2 ≤ (2 * reqs.length + 8) * cfg.esize :=
      Nat.mul_le_mul_left _ hn.size
    simp only [isizeMax, usizeBound] at *
    omega
  obtain ⟨l1, l2, h1, h2, h3⟩ := tabulateRequests_does (cmp := cmp) cfg reqs hb
  refine ⟨l1, l2, yields hn h1, fun name n => ?_, fun name n => ?_⟩
  · rw [Listed.mem_iff h2.1, h2.2]
    split
    · constructor
      · intro h; cases h
      · rintro ⟨h, h'⟩; rename_i hz; dsimp only at hz; omega
    · rw [Option.some.injEq]; constructor
      · intro h; exact ⟨by omega, h⟩
      · exact fun h => h.2
  · rw [Listed.mem_iff h3.1, h3.2]
    split
    · constructor
      · intro h; cases h
      · rintro ⟨h, h'⟩; rename_i hz; dsimp only at hz; omega
    · rw [Option.some.injEq]; constructor
      · intro h; exact ⟨by omega, h⟩
      · exact fun h => h.2

/-- `resolve_program` counts the calls that are valid, unresolved, and with a wrong number of
arguments, where a call refers to the latest declaration with its name that is in sight. -/
theorem C68_resolve_program {cfg : Cfg} (cmp : K → K → Ordering) [TransCmp cmp] [LawfulEqCmp cmp]
    [DecidableEq K] {program : List (Stmt K)} (hn : Fits cfg (decls program))
    (hc : (verdicts [] program).length < usizeBound) :
    ∃ ls, Yields cfg cmp (resolveProgram cfg program)
      (.ok { validCalls := (verdicts [] program).count (some true)
             unresolved := (verdicts [] program).count none
             incorrectNumArgs := (verdicts [] program).count (some false) }) ls := by
  obtain ⟨ls, h⟩ := resolveProgram_does (cmp := cmp) cfg program hc
  simp only [Counters.plus, Nat.zero_add] at h
  exact ⟨ls, yields hn h⟩

/-- `run_requests` gives the documented response to every request, ends with the entries that result,
and counts the responses of each kind. -/
theorem C68_run_requests {cfg : Cfg} {reqs : List Request} (hn : Fits cfg reqs.length) :
    ∃ data, Yields cfg compare (runRequests cfg reqs) (.ok ((serve (fun _ => none) reqs).1,
        { successes := (serve (fun _ => none) reqs).1.countP isSuccess
          notFound := (serve (fun _ => none) reqs).1.countP isNotFound
          badRequests :=
            (serve (fun _ => none) reqs).1.countP isBadRequest })) [data] ∧
      ∀ id entry, (id, entry) ∈ data ↔ (serve (fun _ => none) reqs).2 id = some entry := by
  have hb : reqs.length < usizeBound := by
    have h1 := hn.room
    have h2 : (reqs.length + 8) * 2 ≤ (reqs.length + 8) * cfg.esize := Nat.mul_le_mul_left _ hn.size
    simp only [isizeMax, usizeBound] at *
    omega
  obtain ⟨l, h1, h2, h3⟩ := runRequests_does cfg reqs hb
  simp only [Tally.plus, Nat.zero_add] at h1
  exact ⟨l, yields hn h1, fun id e => by rw [Listed.mem_iff h2, h3]⟩

/-- For keys in any order as `Keys::generate` makes them: every insertion is of a new key, every
lookup finds the position of the key, the first removal of a key yields its position and the second
yields `None`, and the map ends empty. -/
theorem C68_compare_maps {cfg : Cfg} {n m : Nat} {keys : List Int} (hk : keys.Perm (keysBefore m))
    (hm : n ≤ m) (hn : Fits cfg n) :
    Yields cfg compare (compareMaps keys n)
      (.ok (List.replicate n none,
        (List.range n).map (fun i => (some (n - i - 1), some (n - i - 1))),
        (List.range n).map (fun i => (some (n - i - 1), none)))) [[]] :=
  yields hn fun keq veq => compareMaps_does (hk.symm.nodup (keysBefore_nodup m))
    (by rw [hk.length_eq, keysBefore_length]; exact hm) keq veq

/-! ### Cases -/

/-- Memory enough. -/
def sampleCfg : Cfg := { checks := true, debug := true, esize := 40, allocOk := fun _ _ => true }

/-- The hypotheses of the theorems about memory hold for it. -/
theorem sampleFits {n : Nat} (h : n ≤ 1000) : Fits sampleCfg n :=
  ⟨by decide, fun _ _ => rfl, by simp only [sampleCfg, isizeMax]; omega⟩

example : ∀ a ∈ ([5, -3, 5, 11] : List Int), IsI64 (8 - a) := by decide
example : ((twoSum sampleCfg [5, -3, 5, 11] 8).run
    (BSTMap.maps sampleCfg compare (· == ·) (· == ·)) []).1 = .ok (3, 1) := by decide +kernel
example : ((twoSum sampleCfg [4, 4, 4, 1] 5).run
    (Simple.maps sampleCfg compare (· == ·) (· == ·)) []).1 = .ok (3, 2) := by decide +kernel
example : ((twoSum sampleCfg [4, 1] 8).run
    (BSTMap.maps sampleCfg compare (· == ·) (· == ·)) []).1 = .panic := by decide +kernel

/-- Without overflow checks `two_sum` may return a pair that does not add up to the target: here
`2^63 - 1` and `1` for the target `-2^63`, the only pair there is. With checks it panics. -/
example : ((twoSum { sampleCfg with checks := false } [1, 2 ^ 63 - 1] (-2 ^ 63)).run
    (BSTMap.maps { sampleCfg with checks := false } compare (· == ·) (· == ·)) []).1 = .ok (1, 0) := by
  decide +kernel
example : ((twoSum sampleCfg [1, 2 ^ 63 - 1] (-2 ^ 63)).run
    (BSTMap.maps sampleCfg compare (· == ·) (· == ·)) []).1 = .panic := by decide +kernel

example : ((tabulateRequests sampleCfg [(7, 1), (3, 1), (7, 2), (7, 1)]).run
    (BSTMap.maps sampleCfg compare (· == ·) (· == ·)) []).2.map (·.iterInorder) =
    [.ok [(3, 1), (7, 3)], .ok [(1, 3), (2, 1)]] := by decide +kernel

/-- A name that is declared in an inner block, shadowed there, and used after it. -/
def sampleProgram : List (Stmt Nat) :=
  [.call 1 0, .funcDecl 1 2, .block [.call 1 2, .funcDecl 1 3, .call 1 3, .call 1 2, .funcDecl 5 0],
    .call 1 2, .call 5 0]

example : verdicts [] sampleProgram =
    [none, some true, some true, some false, some true, none] := by decide +kernel
example : ((resolveProgram sampleCfg sampleProgram).run
    (BSTMap.maps sampleCfg compare (· == ·) (· == ·)) []).1 = .ok ⟨3, 2, 1⟩ := by decide +kernel
example : ∃ ls, Yields sampleCfg compare (resolveProgram sampleCfg sampleProgram) (.ok ⟨3, 2, 1⟩) ls :=
  C68_resolve_program (program := sampleProgram) compare (sampleFits (by decide +kernel))
    (by decide +kernel)

/-- Requests of every kind, with every kind of response. -/
def sampleRequests : List Request :=
  [.create 4 ⟨"a", 1, "x"⟩, .create 4 ⟨"b", 2, "y"⟩, .update 4 (.phoneNumber 9), .get 4 .phoneNumber,
    .get 5 .name, .create 5 ⟨"c", 3, "z"⟩, .delete 4, .delete 4]

example : ((runRequests sampleCfg sampleRequests).run
    (BSTMap.maps sampleCfg compare (· == ·) (· == ·)) []).2.map (·.iterInorder) =
    [.ok [(5, ⟨"c", 3, "z"⟩)]] := by decide +kernel
example : (serve (fun _ => none) sampleRequests).1 =
    [.ok (.created 4), .error .badRequest, .ok (.field 4 (.phoneNumber 9)),
      .ok (.field 4 (.phoneNumber 9)), .error .notFound, .ok (.created 5),
      .ok (.deleted 4 ⟨"a", 9, "x"⟩), .error .notFound] := by rfl

example : ((compareMaps [10, -10, 0] 3).run (BSTMap.maps sampleCfg compare (· == ·) (· == ·)) []).1 =
    .ok ([none, none, none], [(some 2, some 2), (some 1, some 1), (some 0, some 0)],
      [(some 2, none), (some 1, none), (some 0, none)]) := by decide +kernel
example : ([10, -10, 0] : List Int).Perm (keysBefore 3) := by decide +kernel

end BST.Bench
