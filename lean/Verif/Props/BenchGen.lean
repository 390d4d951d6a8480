import Verif.Proofs.BenchGen
import Verif.Props.Bench
/-!
# C69: the inputs of the programs in `benches/`

Whatever the source of random numbers gives, the inputs are as the comments in the code say. The
benchmark of `remove` runs on an empty map after the first iteration.
-/
set_option linter.unusedSimpArgs false
namespace BST.Bench
variable {K ρ : Type}
open Std

/-- "There will be exactly one solution" (benches/two_sum.rs:115), and `two_sum` finds it, without
overflow. -/
theorem C69_two_sum (G : Rng K ρ) {len : Nat} (h : 2 ≤ len) (hlen : len < 2 ^ 60) (s : ρ) :
    ∃ numbers target, (generateTwoSumInput G len s).1 = .ok (numbers, target) ∧
      numbers.length = len ∧ ∃ i j, Pair numbers target i j ∧
        (∀ i' j', Pair numbers target i' j' → i' = i ∧ j' = j) ∧
        ∀ cfg, Fits cfg len → ∃ ls, Yields cfg compare (twoSum cfg numbers target) (.ok (i, j)) ls := by
  rcases generateTwoSumInput_gives (G := G) h s with ⟨hf, _⟩ | ⟨⟨numbers, tgt⟩, h1, target, sol, rest, h2, h3⟩
  · exact hf.elim
  obtain ⟨h3, h4, h5, h6, h7, h8, h9⟩ := h3
  dsimp only at h2 h9
  subst h2
  have hlen' : numbers.length = len := by rw [h9.length_eq]; simp [h7]; omega
  obtain ⟨i, j, hp⟩ := pair_exists (target := target) h9 (by omega)
  have hmem : ∀ a ∈ numbers, 0 < a ∧ a ≤ target + len := by
    intro a ha
    have := h9.subset ha
    simp only [List.mem_cons, List.mem_map] at this
    rcases this with rfl | rfl | ⟨n, hn, rfl⟩
    · omega
    · omega
    · have := h8 n hn
      omega
  have hcount : numbers.countP (fun a => decide (a ≤ (target : Int))) ≤ 2 := by
    rw [h9.countP_eq]
    have : (rest.map fun n : Nat => (n : Int)).countP (fun a => decide (a ≤ (target : Int))) = 0 := by
      rw [List.countP_eq_zero]
      intro a ha
      obtain ⟨n, hn, rfl⟩ := List.mem_map.1 ha
      have := h8 n hn
      simp
      omega
    rw [List.countP_cons, List.countP_cons, this]
    split <;> split <;> omega
  have huniq := fun i' j' => pair_unique (i' := i') (j' := j') (fun a ha => (hmem a ha).1) hcount hp
  refine ⟨numbers, target, h1, hlen', i, j, hp, huniq, fun cfg hfit => ?_⟩
  obtain ⟨o, ls, hy, ho⟩ := C68_two_sum (cfg := cfg) (numbers := numbers) (target := target)
    (by rw [hlen']; exact hfit) (by
      intro a ha
      have := hmem a ha
      simp only [IsI64]
      omega)
  rcases ho with ⟨i', j', rfl, hfp⟩ | ⟨rfl, hno⟩
  · obtain ⟨rfl, rfl⟩ := huniq i' j' hfp.1
    exact ⟨ls, hy⟩
  · exact (hno i j hp).elim

/-- "Deterministically generates a set of at least `nkeys` values. All values are guaranteed to be
unique" (benches/map_comparison.rs:87-89). The order is that of any permutation. -/
theorem C69_keys (G : Rng K ρ) (nkeys : Nat) (s : ρ) :
    ∃ keys, (generateKeys G nkeys s).1 = .ok keys ∧ keys.Nodup ∧ keys.length = nkeys ∧
      ∀ cfg n, n ≤ nkeys → Fits cfg n → Yields cfg compare (compareMaps keys n)
        (.ok (List.replicate n none,
          (List.range n).map (fun i => (some (n - i - 1), some (n - i - 1))),
          (List.range n).map (fun i => (some (n - i - 1), none)))) [[]] := by
  rcases mix_gives (G := G) (D := False) (keysBefore nkeys) s with ⟨hf, _⟩ | ⟨keys, h1, h2⟩
  · exact hf.elim
  · exact ⟨keys, h1, h2.symm.nodup (keysBefore_nodup _), by rw [h2.length_eq, keysBefore_length],
      fun cfg n hn hfit => C68_compare_maps h2 hn hfit⟩

/-- The requests that `generate_requests` makes, when it ends, are as many as asked for, and the
server answers all of them with success: there is no bad request ("this will never produce a bad
request", benches/web_server.rs:287) and none for an entry that does not exist. The phone numbers
have ten digits (benches/web_server.rs:372). -/
theorem C69_requests (G : Rng K ρ) (reqs fuel : Nat) (s : ρ) :
    (generateRequests G reqs fuel s).1 = .diverge ∨
    ∃ requests, (generateRequests G reqs fuel s).1 = .ok requests ∧ requests.length = reqs ∧
      (∀ r ∈ requests, ∀ n, r.phone = some n → 10 ^ 9 ≤ n ∧ n < 10 ^ 10) ∧
      ∀ cfg, Fits cfg reqs → ∃ responses data, Yields cfg compare (runRequests cfg requests)
        (.ok (responses, { successes := reqs, notFound := 0, badRequests := 0 })) [data] := by
  rcases generateFrom_gives (G := G) reqs fuel 0 [] (fun _ => none)
    ⟨List.nodup_nil, by simp, by simp⟩ (Nat.zero_le _) s with ⟨_, h⟩ | ⟨l, h1, h2, h3⟩
  · exact .inl h
  · refine .inr ⟨l, h1, h2, h3.2, fun cfg hfit => ?_⟩
    obtain ⟨data, h4, _⟩ := C68_run_requests (cfg := cfg) (reqs := l) (by rw [h2]; exact hfit)
    refine ⟨(serve (fun _ => none) l).1, data, ?_⟩
    have e1 : (serve (fun _ => none) l).1.countP isSuccess = reqs := by
      rw [Nat.sub_zero] at h2
      rw [← h2, ← serve_length (fun _ => none) l, List.countP_eq_length]
      intro r hr
      obtain ⟨x, rfl⟩ := h3.1 r hr
      rfl
    have e2 : (serve (fun _ => none) l).1.countP isNotFound = 0 := by
      rw [List.countP_eq_zero]
      intro r hr
      obtain ⟨x, rfl⟩ := h3.1 r hr
      simp [isNotFound, isBadRequest]
    have e3 : (serve (fun _ => none) l).1.countP isBadRequest = 0 := by
      rw [List.countP_eq_zero]
      intro r hr
      obtain ⟨x, rfl⟩ := h3.1 r hr
      simp [isNotFound, isBadRequest]
    rw [e1, e2, e3] at h4
    exact h4

/-- "Generates a random program with `max_stmts` statements and a nesting depth up to `max_depth`"
(benches/name_resolution.rs:148): there is no panic, and the program has exactly so many statements.
If there may be blocks at all it ends after at most `max_stmts` rounds of the outer loop; without,
it could draw blocks for ever. -/
theorem C69_program (G : Rng K ρ) (maxStmts maxDepth fuel : Nat) (s : ρ) :
    ((maxDepth = 0 ∨ fuel < maxStmts) ∧ (generateProgram G maxStmts maxDepth fuel s).1 = .diverge) ∨
    ∃ program, (generateProgram G maxStmts maxDepth fuel s).1 = .ok program ∧
      size program = maxStmts ∧ depth program ≤ maxDepth :=
  generateProgram_gives (G := G) maxStmts maxDepth fuel s

/-- `generate_requests` of benches/movie_requests.rs does not panic and makes as many requests as
asked for, with 25 titles and 8 genres to choose from, all of them 8 letters and digits long. So
`tabulate_requests` ends with at most 25 and 8 counters, and both kinds of counters add up to the
number of requests. -/
theorem C69_movie_requests (G : Rng K ρ) (requests : Nat) (s : ρ) :
    ∃ reqs, (generateMovieRequests G requests s).1 = .ok reqs ∧ reqs.length = requests ∧
      (∃ titles genres : List String, titles.length = 25 ∧ genres.length = 8 ∧
        (∀ name ∈ titles ++ genres, name.length = 8 ∧ ∀ c ∈ name.toList, c.isAlphanum = true) ∧
        ∀ r ∈ reqs, r.1 ∈ titles ∧ r.2 ∈ genres) ∧
      ∀ cfg (cmp : String → String → Ordering) [TransCmp cmp] [LawfulEqCmp cmp],
        Fits cfg (2 * requests) → ∃ titles genres,
          Yields cfg cmp (tabulateRequests cfg reqs) (.ok (0, 1)) [titles, genres] ∧
          titles.length ≤ 25 ∧ (titles.map (·.2)).sum = requests ∧
          genres.length ≤ 8 ∧ (genres.map (·.2)).sum = requests := by
  rcases generateMovieRequests_gives (G := G) (D := False) requests s with ⟨hf, _⟩ | ⟨reqs, h1, h2, h3⟩
  · exact hf.elim
  refine ⟨reqs, h1, h2, h3, fun cfg cmp _ _ hfit => ?_⟩
  obtain ⟨titles, genres, h4, h5, _, h7⟩ := h3
  have hb : reqs.length < usizeBound := by
    have h1 := hfit.room
    have h2 : (2 * requests + 8) * 2 ≤ (2 * requests + 8) * cfg.esize :=
      Nat.mul_le_mul_left _ hfit.size
    simp only [isizeMax, usizeBound] at *
    omega
  obtain ⟨l1, l2, g1, g2, g3⟩ := tabulateRequests_does (cmp := cmp) cfg reqs hb
  have e1 := g2.total (names := titles) fun a ha => by
    obtain ⟨r, hr, rfl⟩ := List.mem_map.1 ha
    exact (h7 r hr).1
  have e2 := g3.total (names := genres) fun a ha => by
    obtain ⟨r, hr, rfl⟩ := List.mem_map.1 ha
    exact (h7 r hr).2
  rw [List.length_map, h2] at e1 e2
  exact ⟨l1, l2, yields (h2 ▸ hfit) g1, h4 ▸ e1.1, e1.2, h5 ▸ e2.1, e2.2⟩

/-- The benchmark of `remove` fills a map once and then runs `benchmark_removes` on it again and
again: in the first iteration every first `remove` of a key finds it, and in all later iterations
every call of `remove` is one on an empty map. -/
theorem C69_remove_iterations {cfg : Cfg} {n m : Nat} {keys : List Int} (hk : keys.Perm (keysBefore m))
    (hm : n ≤ m) (hn : Fits cfg n) (iters : Nat) :
    Yields cfg compare (removeIterations keys n (iters + 1))
      (.ok ((List.range n).map (fun i => (some (n - i - 1), none)) ::
        List.replicate iters (List.replicate n (none, none)))) [[]] := by
  refine yields hn fun keq veq => ?_
  obtain ⟨ls, h1, h2, _⟩ := removeIterations_does (hk.symm.nodup (keysBefore_nodup m))
    (n := n) (by rw [hk.length_eq, keysBefore_length]; exact hm) (iters + 1) keq veq
  rw [h2 (by omega)] at h1
  have : ((List.range (iters + 1)).map fun t => (List.range n).map fun i =>
      (if t = 0 then some (n - i - 1) else none, (none : Option Nat))) =
      (List.range n).map (fun i => (some (n - i - 1), none)) ::
        List.replicate iters (List.replicate n (none, none)) := by
    rw [List.range_succ_eq_map, List.map_cons, List.map_map]
    refine List.cons_eq_cons.2 ⟨by simp, ?_⟩
    rw [List.eq_replicate_iff]
    refine ⟨by simp, fun b hb => ?_⟩
    obtain ⟨t, _, rfl⟩ := List.mem_map.1 hb
    simp [List.eq_replicate_iff]
  rw [this] at h1
  exact h1

/-! ### Cases -/

/-- A small generator of pseudo-random numbers; `shuffle` reverses. -/
def sampleRng : Rng Nat Nat where
  next := fun s => (s / 65536, (s * 1103515245 + 12345) % 2147483648)
  shuffle := fun l s => (l.reverse, s)
  perm := fun l _ => List.reverse_perm l
  name := fun s => (s / 65536 % 7, (s * 1103515245 + 12345) % 2147483648)
  str := fun s => ("s", (s * 1103515245 + 12345) % 2147483648)

example : (generateTwoSumInput sampleRng 6 5).1 = .ok ([38, 38, 35, 36, 16, 16], 32) := by
  decide +kernel
example : (generateKeys sampleRng 5 1).1 = .ok [20, 10, 0, -10, -20] := by decide +kernel
example : (generateRequests sampleRng 5 20 3).1 =
    .ok [.create 0 ⟨"s", 1000007107, "s"⟩, .create 1 ⟨"s", 1000015796, "s"⟩, .get 0 .phoneNumber,
      .delete 0, .get 1 .phoneNumber] := by decide +kernel

example : (generateMovieRequests sampleRng 3 1).1 =
    .ok [("58aM3rIB", "ms0twJrF"), ("yINEHFmY", "aRQ2s9cN"), ("te58rSsl", "qn5ys9wu")] := by
  decide +kernel

/-- Forty requests: how many counters there are, and what they add up to. -/
example : (match (generateMovieRequests sampleRng 40 1).1 with
    | .ok reqs => ((tabulateRequests sampleCfg reqs).run
        (Simple.maps (K := String) (V := Nat) sampleCfg compare (· == ·) (· == ·)) []).2.map
        fun m => ((Simple.explore m).ino.length, ((Simple.explore m).ino.map (·.2)).sum)
    | _ => []) = [(17, 40), (8, 40)] := by decide +kernel

/-- A program that is generated with success, and a search for one that does not end in the number
of rounds given. -/
example : (match (generateProgram sampleRng 12 2 30 3).1 with
    | .ok p => some (size p, depth p, (verdicts [] p).length)
    | _ => none) = some (12, 2, 6) := by decide +kernel
example : (match (generateProgram sampleRng 12 0 1 3).1 with
    | .diverge => true
    | _ => false) = true := by decide +kernel

example : ((removeIterations [10, -10, 0] 3 3).run
    (BSTMap.maps sampleCfg compare (· == ·) (· == ·)) []).1 =
    .ok [[(some 2, none), (some 1, none), (some 0, none)],
      [(none, none), (none, none), (none, none)],
      [(none, none), (none, none), (none, none)]] := by decide +kernel

end BST.Bench
