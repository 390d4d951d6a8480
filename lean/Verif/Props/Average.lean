import Verif.Proofs.RandomMaps
import Verif.Proofs.Sample
/-!
# C74: comparisons and height on average over all insertion orders

The documentation of both crates promises `O(log n)` for insertions, lookups and removals
(src/map.rs:214, 248, 282, 321, 355 and simple_bst/src/map.rs:110, 144, 178, 217). In the worst case
this is false (`C30_linear`). Here: it is true on average over all orders in which the entries can be
inserted into an empty map.
-/
namespace BST.Props
open BSTMap Std
open Spec (BT budget orders mean factorial harmonic Costs upTo effort grown)
variable {K V : Type} {cfg : Cfg} {cmp : K → K → Ordering} {es : List (K × V)}

/-- What `orders` lists: every rearrangement of the list, and of different elements each of them
exactly once; there are `n!`. -/
theorem C74_orders {α : Type} (l : List α) :
    (orders l).length = factorial l.length ∧ (∀ o, o ∈ orders l ↔ o.Perm l) ∧
      (l.Nodup → (orders l).Nodup) :=
  ⟨Spec.orders_length l, fun _ => Spec.mem_orders, Spec.orders_nodup⟩

example : orders [1, 2, 3] = [[1, 2, 3], [1, 3, 2], [2, 1, 3], [2, 3, 1], [3, 1, 2], [3, 2, 1]] ∧
    mean [1, 2, 3] (fun o => o.head?.getD 0 * 2) = 4 ∧ harmonic 4 = 25 / 12 := by decide +kernel

/-- Four entries. -/
def four : List (Nat × String) := [(1, "a"), (2, "b"), (3, "c"), (4, "d")]

theorem four_apart : four.Pairwise fun a b => compare a.1 b.1 ≠ .eq := by decide

/-- C74. Building a map of `n` different keys. For each order of insertion there are numbers of
comparisons the insertions make (`Costs`). Their sum is, on average over all orders,
`2(n+1)(1 + 1/2 + ... + 1/n) - 4n`, which is at most `2n log2 n`; it is at most `n(n-1)/2`
in every order, and that many in some order. -/
theorem C74_build [TransCmp cmp] (he : 0 < cfg.esize) (ha : ∀ id n, cfg.allocOk id n = true)
    (hn : (es.length + 9) * cfg.esize ≤ isizeMax)
    (hd : es.Pairwise fun a b => cmp a.1 b.1 ≠ .eq) :
    ∃ cost : List (K × V) → List Nat,
      (∀ o ∈ orders es, (cost o).length = es.length ∧
        Costs (cost o) fun f => (insertAll cfg (budget f cmp) 0 o BSTMap.new).1) ∧
      mean es (fun o => (cost o).sum) =
        2 * (es.length + 1) * harmonic es.length - 4 * es.length ∧
      mean es (fun o => (cost o).sum) ≤ 2 * es.length * (Nat.log2 es.length : Nat) ∧
      (∀ o ∈ orders es, 2 * (cost o).sum ≤ es.length * (es.length - 1)) ∧
      ∃ o ∈ orders es, 2 * (cost o).sum = es.length * (es.length - 1) := by
  refine ⟨effort cmp, fun o ho => ?_, Spec.mean_effort hd, ?_, fun o ho => ?_, ?_⟩
  · have hl := (Spec.mem_orders.1 ho).length_eq
    refine ⟨by rw [← hl]; exact Spec.effort_length o _, built_costs he ha (by rw [hl]; exact hn)⟩
  · rw [Spec.mean_effort hd]; exact Spec.quick_log _
  · exact Spec.effort_worst hd ho
  · exact Spec.effort_attained hd

/-- Four entries: 29/6 comparisons on average. In the order 2, 1, 4, 3 it is 0 + 1 + 1 + 2. -/
example :
    (∃ cost : List (Nat × String) → List Nat,
      (∀ o ∈ orders four, Costs (cost o) fun f => (insertAll Sample.cfg (budget f compare) 0 o BSTMap.new).1) ∧
      mean four (fun o => (cost o).sum) = 29 / 6) ∧
    ∀ j < 5, (insertAll Sample.cfg (budget (fun i => [0, 1, 1, 2][i]?.getD 0 - if i = j then 1 else 0) compare) 0 [(2, "b"), (1, "a"), (4, "d"), (3, "c")] BSTMap.new).1 =
      if j = 0 ∨ j = 4 then .ok () else .panic := by
  refine ⟨?_, by decide +kernel⟩
  obtain ⟨cost, h1, h2, _⟩ := C74_build (cfg := Sample.cfg) (cmp := compare) (es := four) (by decide)
    (fun _ _ => rfl) (by decide) four_apart
  exact ⟨cost, fun o ho => (h1 o ho).2, h2.trans (by decide +kernel)⟩

/-- C74. The same for simple_bst. -/
theorem C74_build_simple [TransCmp cmp] (he : 2 ≤ cfg.esize)
    (ha : ∀ id n, cfg.allocOk id n = true) (hn : (es.length + 9) * cfg.esize ≤ isizeMax)
    (hd : es.Pairwise fun a b => cmp a.1 b.1 ≠ .eq) :
    ∃ cost : List (K × V) → List Nat,
      (∀ o ∈ orders es, (cost o).length = es.length ∧
        Costs (cost o) fun f =>
          (Simple.Map.insertAll cfg (budget f cmp) 0 o Simple.Map.new).1) ∧
      mean es (fun o => (cost o).sum) =
        2 * (es.length + 1) * harmonic es.length - 4 * es.length ∧
      mean es (fun o => (cost o).sum) ≤ 2 * es.length * (Nat.log2 es.length : Nat) ∧
      (∀ o ∈ orders es, 2 * (cost o).sum ≤ es.length * (es.length - 1)) ∧
      ∃ o ∈ orders es, 2 * (cost o).sum = es.length * (es.length - 1) := by
  refine ⟨effort cmp, fun o ho => ?_, Spec.mean_effort hd, ?_, fun o ho => ?_, ?_⟩
  · have hl := (Spec.mem_orders.1 ho).length_eq
    refine ⟨by rw [← hl]; exact Spec.effort_length o _,
      Simple.built_costs he ha (by rw [hl]; exact hn)⟩
  · rw [Spec.mean_effort hd]; exact Spec.quick_log _
  · exact Spec.effort_worst hd ho
  · exact Spec.effort_attained hd

/-- Four entries: 29/6 comparisons on average. In the order 2, 1, 4, 3 it is 0 + 1 + 1 + 2. -/
example :
    (∃ cost : List (Nat × String) → List Nat,
      (∀ o ∈ orders four, Costs (cost o) fun f => (Simple.Map.insertAll Sample.cfg (budget f compare) 0 o Simple.Map.new).1) ∧
      mean four (fun o => (cost o).sum) = 29 / 6) ∧
    ∀ j < 5, (Simple.Map.insertAll Sample.cfg (budget (fun i => [0, 1, 1, 2][i]?.getD 0 - if i = j then 1 else 0) compare) 0 [(2, "b"), (1, "a"), (4, "d"), (3, "c")] Simple.Map.new).1 =
      if j = 0 ∨ j = 4 then .ok () else .panic := by
  refine ⟨?_, by decide +kernel⟩
  obtain ⟨cost, h1, h2, _⟩ := C74_build_simple (cfg := Sample.cfg) (cmp := compare) (es := four) (by decide)
    (fun _ _ => rfl) (by decide) four_apart
  exact ⟨cost, fun o ho => (h1 o ho).2, h2.trans (by decide +kernel)⟩

/-- C74. Looking for a key `k` in a map of `n` different keys. For each order of insertion there is
a number of comparisons which `get`, `get_entry`, `contains_key`, `remove` and `insert` of `k` all
make: with fewer they panic, with as many they return. On average over all orders it is
`H(lo) + H(hi)` if `k` is not in the map and `H(lo+1) + H(hi+1) - 1` if it is, where
`H(i) = 1 + 1/2 + ... + 1/i` and `lo` and `hi` are how many keys are smaller and greater; so it is
at most `2 log2 n + 2`. -/
theorem C74_search [TransCmp cmp] (he : 0 < cfg.esize) (ha : ∀ id n, cfg.allocOk id n = true)
    (hn : (es.length + 9) * cfg.esize ≤ isizeMax)
    (hd : es.Pairwise fun a b => cmp a.1 b.1 ≠ .eq) (k : K) :
    let lo := (es.filter fun e => cmp k e.1 == .gt).length
    let hi := (es.filter fun e => cmp k e.1 == .lt).length
    ∃ cost : List (K × V) → Nat,
      (∀ o ∈ orders es, ∃ m,
        insertAll cfg (fun _ k => query (cmp k)) 0 o BSTMap.new = (.ok (), m) ∧
        ∀ b, (b < cost o → m.get (upTo cmp k b) = .panic ∧ m.getEntry (upTo cmp k b) = .panic ∧
            m.containsKey (upTo cmp k b) = .panic ∧ (remove cfg (upTo cmp k b) m).1 = .panic ∧
            ∀ v, (insert cfg (upTo cmp k b) k v m).1 = .panic) ∧
          (cost o ≤ b → (∃ x, m.get (upTo cmp k b) = .ok x) ∧
            (∃ x, m.getEntry (upTo cmp k b) = .ok x) ∧
            (∃ x, m.containsKey (upTo cmp k b) = .ok x) ∧
            (∃ x, (remove cfg (upTo cmp k b) m).1 = .ok x) ∧
            ∀ v, ∃ x, (insert cfg (upTo cmp k b) k v m).1 = .ok x)) ∧
      ((∀ e ∈ es, cmp k e.1 ≠ .eq) → mean es cost = harmonic lo + harmonic hi) ∧
      ((∃ e ∈ es, cmp k e.1 = .eq) →
        mean es cost = harmonic (lo + 1) + harmonic (hi + 1) - 1) ∧
      (0 < es.length → mean es cost ≤ 2 * (Nat.log2 es.length : Nat) + 2) := by
  intro lo hi
  refine ⟨fun o => (grown cmp o).steps cmp k, fun o ho => ?_, fun h => ?_, fun h => ?_, fun h => ?_⟩
  · have hl := (Spec.mem_orders.1 ho).length_eq
    obtain ⟨m, t, h1, h2, h3⟩ := built (cmp := cmp) he ha (o := o) (by rw [hl]; exact hn)
    refine ⟨m, h1, fun b => ?_⟩
    obtain ⟨s1, s2⟩ := Spec.search_upTo (cmp := cmp) k b (grown cmp o)
    rw [← h3] at s1 s2
    obtain ⟨f1, f2⟩ := built_find h2 (c := upTo cmp k b)
    refine ⟨fun hb => ?_, fun hb => ?_⟩
    · obtain ⟨a1, a2, a3, a4, a5⟩ := f2 (s2 (by rw [h3]; exact hb))
      exact ⟨a1, a2, a3, a4, a5 k⟩
    · obtain ⟨a1, a2, a3, a4, a5⟩ := f1 (s1 (by rw [h3]; exact hb))
      refine ⟨a1, a2, a3, a4, a5 he ha (Nat.le_trans (Nat.mul_le_mul_right _ ?_) hn) k⟩
      have hs : t.size = (grown cmp o).size := by rw [← h3, Tree.sh_size]
      have := Spec.grown_size (cmp := cmp) o
      omega
  · rw [Spec.mean_seek hd, Spec.seek_absent h]; rfl
  · rw [Spec.mean_seek hd, Spec.seek_present h]; rfl
  · rw [Spec.mean_seek hd]; exact Spec.seek_log hd k h

/-- Looking for 3 takes 7/3 comparisons on average, looking for 9 takes 25/12. In the order 2, 1, 4, 3
the 3 is found by the third comparison. -/
example :
    (∃ cost : List (Nat × String) → Nat, mean four cost = 7 / 3 ∧ ∀ o ∈ orders four, ∃ m,
      insertAll Sample.cfg (fun _ k => query (compare k)) 0 o BSTMap.new = (.ok (), m) ∧
      ∀ b < cost o, m.containsKey (upTo compare 3 b) = .panic) ∧
    (∃ cost : List (Nat × String) → Nat, mean four cost = 25 / 12 ∧ ∀ o ∈ orders four, ∃ m,
      insertAll Sample.cfg (fun _ k => query (compare k)) 0 o BSTMap.new = (.ok (), m) ∧
      ∀ b < cost o, m.containsKey (upTo compare 9 b) = .panic) ∧
    let m := (insertAll Sample.cfg (fun _ k => query (compare k)) 0 [(2, "b"), (1, "a"), (4, "d"), (3, "c")] BSTMap.new).2
    m.containsKey (upTo compare 3 2) = .panic ∧ m.containsKey (upTo compare 3 3) = .ok true := by
  refine ⟨?_, ?_, by decide +kernel⟩
  · obtain ⟨cost, h1, _, h2, _⟩ := C74_search (cfg := Sample.cfg) (cmp := compare) (es := four) (by decide)
      (fun _ _ => rfl) (by decide) four_apart 3
    refine ⟨cost, (h2 (by decide)).trans (by decide +kernel), fun o ho => ?_⟩
    obtain ⟨m, a1, a2⟩ := h1 o ho
    exact ⟨m, a1, fun b hb => ((a2 b).1 hb).2.2.1⟩
  · obtain ⟨cost, h1, h2, _⟩ := C74_search (cfg := Sample.cfg) (cmp := compare) (es := four) (by decide)
      (fun _ _ => rfl) (by decide) four_apart 9
    refine ⟨cost, (h2 (by decide)).trans (by decide +kernel), fun o ho => ?_⟩
    obtain ⟨m, a1, a2⟩ := h1 o ho
    exact ⟨m, a1, fun b hb => ((a2 b).1 hb).2.2.1⟩

/-- C74. The same for simple_bst. -/
theorem C74_search_simple [TransCmp cmp] (he : 2 ≤ cfg.esize)
    (ha : ∀ id n, cfg.allocOk id n = true) (hn : (es.length + 9) * cfg.esize ≤ isizeMax)
    (hd : es.Pairwise fun a b => cmp a.1 b.1 ≠ .eq) (k : K) :
    let lo := (es.filter fun e => cmp k e.1 == .gt).length
    let hi := (es.filter fun e => cmp k e.1 == .lt).length
    ∃ cost : List (K × V) → Nat,
      (∀ o ∈ orders es, ∃ m,
        Simple.Map.insertAll cfg (fun _ k => query (cmp k)) 0 o Simple.Map.new = (.ok (), m) ∧
        ∀ b, (b < cost o → m.get (upTo cmp k b) = .panic ∧ m.getEntry (upTo cmp k b) = .panic ∧
            m.containsKey (upTo cmp k b) = .panic ∧
            (Simple.Map.remove cfg (upTo cmp k b) m).1 = .panic ∧
            ∀ v, (Simple.Map.insert cfg (upTo cmp k b) k v m).1 = .panic) ∧
          (cost o ≤ b → (∃ x, m.get (upTo cmp k b) = .ok x) ∧
            (∃ x, m.getEntry (upTo cmp k b) = .ok x) ∧
            (∃ x, m.containsKey (upTo cmp k b) = .ok x) ∧
            (∃ x, (Simple.Map.remove cfg (upTo cmp k b) m).1 = .ok x) ∧
            ∀ v, ∃ x, (Simple.Map.insert cfg (upTo cmp k b) k v m).1 = .ok x)) ∧
      ((∀ e ∈ es, cmp k e.1 ≠ .eq) → mean es cost = harmonic lo + harmonic hi) ∧
      ((∃ e ∈ es, cmp k e.1 = .eq) →
        mean es cost = harmonic (lo + 1) + harmonic (hi + 1) - 1) ∧
      (0 < es.length → mean es cost ≤ 2 * (Nat.log2 es.length : Nat) + 2) := by
  intro lo hi
  refine ⟨fun o => (grown cmp o).steps cmp k, fun o ho => ?_, fun h => ?_, fun h => ?_, fun h => ?_⟩
  · have hl := (Spec.mem_orders.1 ho).length_eq
    obtain ⟨m, h1, h2, h3⟩ := Simple.built (cmp := cmp) he ha (o := o) (by rw [hl]; exact hn)
    refine ⟨m, h1, fun b => ?_⟩
    obtain ⟨s1, s2⟩ := Spec.search_upTo (cmp := cmp) k b (grown cmp o)
    rw [← h3] at s1 s2
    have hp : Simple.Plenty cfg m.root.size := (Simple.plenty ha hn).mono (by
      have hs : m.root.size = (grown cmp o).size := by rw [← h3, Simple.view_size']
      have := Spec.grown_size (cmp := cmp) o
      omega)
    obtain ⟨f1, f2⟩ := Simple.built_find h2 (c := upTo cmp k b) hp
    refine ⟨fun hb => ?_, fun hb => ?_⟩
    · obtain ⟨a1, a2, a3, a4, a5⟩ := f2 (s2 (by rw [h3]; exact hb))
      exact ⟨a1, a2, a3, a4, a5 he k⟩
    · obtain ⟨a1, a2, a3, a4, a5⟩ := f1 (s1 (by rw [h3]; exact hb))
      exact ⟨a1, a2, a3, a4, a5 he k⟩
  · rw [Spec.mean_seek hd, Spec.seek_absent h]; rfl
  · rw [Spec.mean_seek hd, Spec.seek_present h]; rfl
  · rw [Spec.mean_seek hd]; exact Spec.seek_log hd k h

/-- Looking for 3 takes 7/3 comparisons on average, looking for 9 takes 25/12. In the order 2, 1, 4, 3
the 3 is found by the third comparison. -/
example :
    (∃ cost : List (Nat × String) → Nat, mean four cost = 7 / 3 ∧ ∀ o ∈ orders four, ∃ m,
      Simple.Map.insertAll Sample.cfg (fun _ k => query (compare k)) 0 o Simple.Map.new = (.ok (), m) ∧
      ∀ b < cost o, m.containsKey (upTo compare 3 b) = .panic) ∧
    (∃ cost : List (Nat × String) → Nat, mean four cost = 25 / 12 ∧ ∀ o ∈ orders four, ∃ m,
      Simple.Map.insertAll Sample.cfg (fun _ k => query (compare k)) 0 o Simple.Map.new = (.ok (), m) ∧
      ∀ b < cost o, m.containsKey (upTo compare 9 b) = .panic) ∧
    let m := (Simple.Map.insertAll Sample.cfg (fun _ k => query (compare k)) 0 [(2, "b"), (1, "a"), (4, "d"), (3, "c")] Simple.Map.new).2
    m.containsKey (upTo compare 3 2) = .panic ∧ m.containsKey (upTo compare 3 3) = .ok true := by
  refine ⟨?_, ?_, by decide +kernel⟩
  · obtain ⟨cost, h1, _, h2, _⟩ := C74_search_simple (cfg := Sample.cfg) (cmp := compare) (es := four) (by decide)
      (fun _ _ => rfl) (by decide) four_apart 3
    refine ⟨cost, (h2 (by decide)).trans (by decide +kernel), fun o ho => ?_⟩
    obtain ⟨m, a1, a2⟩ := h1 o ho
    exact ⟨m, a1, fun b hb => ((a2 b).1 hb).2.2.1⟩
  · obtain ⟨cost, h1, h2, _⟩ := C74_search_simple (cfg := Sample.cfg) (cmp := compare) (es := four) (by decide)
      (fun _ _ => rfl) (by decide) four_apart 9
    refine ⟨cost, (h2 (by decide)).trans (by decide +kernel), fun o ho => ?_⟩
    obtain ⟨m, a1, a2⟩ := h1 o ho
    exact ⟨m, a1, fun b hb => ((a2 b).1 hb).2.2.1⟩

/-- C74. The height of the tree, on average over all orders, is less than `3 log2 n + 4`, and few
orders give much higher trees: those with height at least `t` are at most
`n! * ((n+1)(n+2)(n+3) + 12) / (18 * 2^t)`. In every tree no call makes more comparisons than the
height (`C30_height`). -/
theorem C74_height [TransCmp cmp] (he : 0 < cfg.esize) (ha : ∀ id n, cfg.allocOk id n = true)
    (hn : (es.length + 9) * cfg.esize ≤ isizeMax)
    (hd : es.Pairwise fun a b => cmp a.1 b.1 ≠ .eq) :
    ∃ height : List (K × V) → Nat,
      (∀ o ∈ orders es, ∃ m b,
        insertAll cfg (fun _ k => query (cmp k)) 0 o BSTMap.new = (.ok (), m) ∧
        explore m = .ok b ∧ b.height = height o) ∧
      (0 < es.length → mean es height < 3 * (Nat.log2 es.length : Nat) + 4) ∧
      ∀ t, 18 * (((orders es).filter fun o => decide (t ≤ height o)).length * 2 ^ t) ≤
        factorial es.length * ((es.length + 1) * (es.length + 2) * (es.length + 3) + 12) := by
  refine ⟨fun o => (grown cmp o).height, fun o ho => ?_, Spec.mean_height hd, fun t => ?_⟩
  · have hl := (Spec.mem_orders.1 ho).length_eq
    obtain ⟨m, t, h1, h2, h3⟩ := built (cmp := cmp) he ha (o := o) (by rw [hl]; exact hn)
    exact ⟨m, _, h1, explore_ok h2, congrArg BT.height h3⟩
  · exact Nat.le_trans (Nat.mul_le_mul_left _ (Spec.markov _ _ t)) (Spec.sum_height hd)

/-- Four entries: the mean height is less than 10, and at most 18 orders (of 24) give height 4 or more
(there are 8). -/
example :
    (∃ height : List (Nat × String) → Nat, mean four height < 10 ∧
      ((orders four).filter fun o => decide (4 ≤ height o)).length ≤ 18) ∧
    ((orders four).filter fun o =>
      decide (4 ≤ match explore (insertAll Sample.cfg (fun _ k => query (compare k)) 0 o BSTMap.new).2 with | .ok b => b.height | _ => 0)).length = 8 := by
  refine ⟨?_, by decide +kernel⟩
  obtain ⟨height, _, h2, h3⟩ := C74_height (cfg := Sample.cfg) (cmp := compare) (es := four) (by decide)
    (fun _ _ => rfl) (by decide) four_apart
  refine ⟨height, by
    have := h2 (by decide)
    rwa [show (3 * (Nat.log2 four.length : Nat) + 4 : Rat) = 10 by decide +kernel] at this, ?_⟩
  have := h3 4
  rw [show factorial four.length * ((four.length + 1) * (four.length + 2) * (four.length + 3) + 12) =
    5328 by decide] at this
  omega

/-- C74. The same for simple_bst. -/
theorem C74_height_simple [TransCmp cmp] (he : 2 ≤ cfg.esize)
    (ha : ∀ id n, cfg.allocOk id n = true) (hn : (es.length + 9) * cfg.esize ≤ isizeMax)
    (hd : es.Pairwise fun a b => cmp a.1 b.1 ≠ .eq) :
    ∃ height : List (K × V) → Nat,
      (∀ o ∈ orders es, ∃ m,
        Simple.Map.insertAll cfg (fun _ k => query (cmp k)) 0 o Simple.Map.new = (.ok (), m) ∧
        (Simple.explore m).height = height o) ∧
      (0 < es.length → mean es height < 3 * (Nat.log2 es.length : Nat) + 4) ∧
      ∀ t, 18 * (((orders es).filter fun o => decide (t ≤ height o)).length * 2 ^ t) ≤
        factorial es.length * ((es.length + 1) * (es.length + 2) * (es.length + 3) + 12) := by
  refine ⟨fun o => (grown cmp o).height, fun o ho => ?_, Spec.mean_height hd, fun t => ?_⟩
  · have hl := (Spec.mem_orders.1 ho).length_eq
    obtain ⟨m, h1, h2, h3⟩ := Simple.built (cmp := cmp) he ha (o := o) (by rw [hl]; exact hn)
    exact ⟨m, h1, by rw [Simple.explore_eq, h3]⟩
  · exact Nat.le_trans (Nat.mul_le_mul_left _ (Spec.markov _ _ t)) (Spec.sum_height hd)

/-- Four entries: the mean height is less than 10, and at most 18 orders (of 24) give height 4 or more
(there are 8). -/
example :
    (∃ height : List (Nat × String) → Nat, mean four height < 10 ∧
      ((orders four).filter fun o => decide (4 ≤ height o)).length ≤ 18) ∧
    ((orders four).filter fun o =>
      decide (4 ≤ (Simple.explore (Simple.Map.insertAll Sample.cfg (fun _ k => query (compare k)) 0 o Simple.Map.new).2).height)).length = 8 := by
  refine ⟨?_, by decide +kernel⟩
  obtain ⟨height, _, h2, h3⟩ := C74_height_simple (cfg := Sample.cfg) (cmp := compare) (es := four) (by decide)
    (fun _ _ => rfl) (by decide) four_apart
  refine ⟨height, by
    have := h2 (by decide)
    rwa [show (3 * (Nat.log2 four.length : Nat) + 4 : Rat) = 10 by decide +kernel] at this, ?_⟩
  have := h3 4
  rw [show factorial four.length * ((four.length + 1) * (four.length + 2) * (four.length + 3) + 12) =
    5328 by decide] at this
  omega

/-- C74. `C74_build` for sets. -/
theorem C74_set_build {T : Type} {cmp : T → T → Ordering} {ts : List T} [TransCmp cmp]
    (he : 0 < cfg.esize) (ha : ∀ id n, cfg.allocOk id n = true)
    (hn : (ts.length + 9) * cfg.esize ≤ isizeMax) (hd : ts.Pairwise fun a b => cmp a b ≠ .eq) :
    ∃ cost : List T → List Nat,
      (∀ o ∈ orders ts, (cost o).length = ts.length ∧
        Costs (cost o) fun f => (BSTSet.insertAll cfg (budget f cmp) 0 o BSTSet.new).1) ∧
      mean ts (fun o => (cost o).sum) =
        2 * (ts.length + 1) * harmonic ts.length - 4 * ts.length ∧
      mean ts (fun o => (cost o).sum) ≤ 2 * ts.length * (Nat.log2 ts.length : Nat) ∧
      (∀ o ∈ orders ts, 2 * (cost o).sum ≤ ts.length * (ts.length - 1)) ∧
      ∃ o ∈ orders ts, 2 * (cost o).sum = ts.length * (ts.length - 1) := by
  have hl : (ts.map fun t => (t, ())).length = ts.length := List.length_map ..
  obtain ⟨cost, h1, h2, h3, h4, h5⟩ := C74_build (cfg := cfg) (cmp := cmp)
    (es := ts.map fun t => (t, ())) he ha (by rw [hl]; exact hn) (List.pairwise_map.2 hd)
  rw [Spec.orders_map, hl] at h1 h4 h5
  rw [Spec.mean_map, hl] at h2 h3
  refine ⟨fun o => cost (o.map fun t => (t, ())), fun o ho => ?_, h2, h3,
    fun o ho => h4 _ (List.mem_map_of_mem ho), ?_⟩
  · obtain ⟨a1, a2⟩ := h1 _ (List.mem_map_of_mem ho)
    refine ⟨a1, fun f => ?_⟩
    have := a2 f
    show (_ → (BSTSet.insertAll cfg (budget f cmp) 0 o BSTSet.new).1 = _) ∧
      (_ → (BSTSet.insertAll cfg (budget f cmp) 0 o BSTSet.new).1 = _)
    rw [show BSTSet.insertAll cfg (budget f cmp) 0 o BSTSet.new = _ from
      set_insertAll (budget f cmp) 0 o BSTMap.new]
    exact this
  · obtain ⟨o, ho, e⟩ := h5
    obtain ⟨o', ho', rfl⟩ := List.mem_map.1 ho
    exact ⟨o', ho', e⟩

/-- Four elements: 29/6 comparisons on average. In the order 2, 1, 4, 3 it is 0 + 1 + 1 + 2. -/
example :
    (∃ cost : List Nat → List Nat,
      (∀ o ∈ orders [1, 2, 3, 4], Costs (cost o) fun f => (BSTSet.insertAll Sample.cfg (budget f compare) 0 o BSTSet.new).1) ∧
      mean [1, 2, 3, 4] (fun o => (cost o).sum) = 29 / 6) ∧
    ∀ j < 5, (BSTSet.insertAll Sample.cfg (budget (fun i => [0, 1, 1, 2][i]?.getD 0 - if i = j then 1 else 0) compare) 0 [2, 1, 4, 3] BSTSet.new).1 =
      if j = 0 ∨ j = 4 then .ok () else .panic := by
  refine ⟨?_, by decide +kernel⟩
  obtain ⟨cost, h1, h2, _⟩ := C74_set_build (cfg := Sample.cfg) (cmp := compare) (ts := [1, 2, 3, 4])
    (by decide) (fun _ _ => rfl) (by decide) (by decide)
  exact ⟨cost, fun o ho => (h1 o ho).2, h2.trans (by decide +kernel)⟩

/-- C74. `C74_search` for sets: `contains`, `get`, `remove`, `take` and `insert`. -/
theorem C74_set_search {T : Type} {cmp : T → T → Ordering} {ts : List T} [TransCmp cmp]
    (he : 0 < cfg.esize) (ha : ∀ id n, cfg.allocOk id n = true)
    (hn : (ts.length + 9) * cfg.esize ≤ isizeMax) (hd : ts.Pairwise fun a b => cmp a b ≠ .eq)
    (k : T) :
    let lo := (ts.filter fun t => cmp k t == .gt).length
    let hi := (ts.filter fun t => cmp k t == .lt).length
    ∃ cost : List T → Nat,
      (∀ o ∈ orders ts, ∃ s,
        BSTSet.insertAll cfg (fun _ k => query (cmp k)) 0 o BSTSet.new = (.ok (), s) ∧
        ∀ b, (b < cost o → s.contains (upTo cmp k b) = .panic ∧ s.get (upTo cmp k b) = .panic ∧
            (BSTSet.remove cfg (upTo cmp k b) s).1 = .panic ∧
            (BSTSet.take cfg (upTo cmp k b) s).1 = .panic ∧
            (BSTSet.insert cfg (upTo cmp k b) k s).1 = .panic) ∧
          (cost o ≤ b → (∃ x, s.contains (upTo cmp k b) = .ok x) ∧
            (∃ x, s.get (upTo cmp k b) = .ok x) ∧
            (∃ x, (BSTSet.remove cfg (upTo cmp k b) s).1 = .ok x) ∧
            (∃ x, (BSTSet.take cfg (upTo cmp k b) s).1 = .ok x) ∧
            ∃ x, (BSTSet.insert cfg (upTo cmp k b) k s).1 = .ok x)) ∧
      ((∀ t ∈ ts, cmp k t ≠ .eq) → mean ts cost = harmonic lo + harmonic hi) ∧
      ((∃ t ∈ ts, cmp k t = .eq) → mean ts cost = harmonic (lo + 1) + harmonic (hi + 1) - 1) ∧
      (0 < ts.length → mean ts cost ≤ 2 * (Nat.log2 ts.length : Nat) + 2) := by
  intro lo hi
  have hl : (ts.map fun t => (t, ())).length = ts.length := List.length_map ..
  obtain ⟨cost, h1, h2, h3, h4⟩ := C74_search (cfg := cfg) (cmp := cmp)
    (es := ts.map fun t => (t, ())) he ha (by rw [hl]; exact hn) (List.pairwise_map.2 hd) k
  rw [Spec.orders_map] at h1
  simp only [Spec.mean_map, hl, List.filter_map, List.length_map] at h2 h3 h4
  refine ⟨fun o => cost (o.map fun t => (t, ())), fun o ho => ?_, fun h => h2 ?_, fun h => h3 ?_, h4⟩
  · obtain ⟨m, a1, a2⟩ := h1 _ (List.mem_map_of_mem ho)
    refine ⟨⟨m⟩, ?_, fun b => ⟨fun hb => ?_, fun hb => ?_⟩⟩
    · refine (set_insertAll (fun _ k => query (cmp k)) 0 o BSTMap.new).trans ?_
      rw [a1]
    · obtain ⟨b1, b2, b3, b4, b5⟩ := (a2 b).1 hb
      obtain ⟨c1, c2⟩ := set_remove.2 b4
      exact ⟨b3, set_find.2 b2, c2, c1, set_insert.2 (b5 ())⟩
    · obtain ⟨b1, b2, b3, b4, b5⟩ := (a2 b).2 hb
      obtain ⟨c1, c2⟩ := set_remove.1 b4
      exact ⟨b3, set_find.1 b2, c2, c1, set_insert.1 (b5 ())⟩
  · intro e he'
    obtain ⟨t, ht, rfl⟩ := List.mem_map.1 he'
    exact h t ht
  · obtain ⟨t, ht, he'⟩ := h
    exact ⟨(t, ()), List.mem_map_of_mem ht, he'⟩

/-- Looking for 3 takes 7/3 comparisons on average, looking for 9 takes 25/12. In the order 2, 1, 4, 3
the 3 is found by the third comparison. -/
example :
    (∃ cost : List Nat → Nat, mean [1, 2, 3, 4] cost = 7 / 3 ∧ ∀ o ∈ orders [1, 2, 3, 4], ∃ m,
      BSTSet.insertAll Sample.cfg (fun _ k => query (compare k)) 0 o BSTSet.new = (.ok (), m) ∧
      ∀ b < cost o, m.contains (upTo compare 3 b) = .panic) ∧
    (∃ cost : List Nat → Nat, mean [1, 2, 3, 4] cost = 25 / 12 ∧ ∀ o ∈ orders [1, 2, 3, 4], ∃ m,
      BSTSet.insertAll Sample.cfg (fun _ k => query (compare k)) 0 o BSTSet.new = (.ok (), m) ∧
      ∀ b < cost o, m.contains (upTo compare 9 b) = .panic) ∧
    let m := (BSTSet.insertAll Sample.cfg (fun _ k => query (compare k)) 0 [2, 1, 4, 3] BSTSet.new).2
    m.contains (upTo compare 3 2) = .panic ∧ m.contains (upTo compare 3 3) = .ok true := by
  refine ⟨?_, ?_, by decide +kernel⟩
  · obtain ⟨cost, h1, _, h2, _⟩ := C74_set_search (cfg := Sample.cfg) (cmp := compare) (ts := [1, 2, 3, 4])
      (by decide) (fun _ _ => rfl) (by decide) (by decide) 3
    refine ⟨cost, (h2 (by decide)).trans (by decide +kernel), fun o ho => ?_⟩
    obtain ⟨m, a1, a2⟩ := h1 o ho
    exact ⟨m, a1, fun b hb => ((a2 b).1 hb).1⟩
  · obtain ⟨cost, h1, h2, _⟩ := C74_set_search (cfg := Sample.cfg) (cmp := compare) (ts := [1, 2, 3, 4])
      (by decide) (fun _ _ => rfl) (by decide) (by decide) 9
    refine ⟨cost, (h2 (by decide)).trans (by decide +kernel), fun o ho => ?_⟩
    obtain ⟨m, a1, a2⟩ := h1 o ho
    exact ⟨m, a1, fun b hb => ((a2 b).1 hb).1⟩

/-- C74. The same for `SimpleBSTSet`; the elements are inserted by `extend` (whatever size the
iterator claims to have). -/
theorem C74_set_build_simple {T : Type} {cmp : T → T → Ordering} {ts : List T} [TransCmp cmp]
    (he : 2 ≤ cfg.esize) (ha : ∀ id n, cfg.allocOk id n = true)
    (hn : (ts.length + 9) * cfg.esize ≤ isizeMax) (hd : ts.Pairwise fun a b => cmp a b ≠ .eq) (hint : Nat × Option Nat) :
    ∃ cost : List T → List Nat,
      (∀ o ∈ orders ts, (cost o).length = ts.length ∧
        Costs (cost o) fun f => (Simple.SSet.extend cfg (budget f cmp) ⟨hint, o, false⟩ Simple.SSet.new).1) ∧
      mean ts (fun o => (cost o).sum) =
        2 * (ts.length + 1) * harmonic ts.length - 4 * ts.length ∧
      mean ts (fun o => (cost o).sum) ≤ 2 * ts.length * (Nat.log2 ts.length : Nat) ∧
      (∀ o ∈ orders ts, 2 * (cost o).sum ≤ ts.length * (ts.length - 1)) ∧
      ∃ o ∈ orders ts, 2 * (cost o).sum = ts.length * (ts.length - 1) := by
  have hl : (ts.map fun t => (t, ())).length = ts.length := List.length_map ..
  obtain ⟨cost, h1, h2, h3, h4, h5⟩ := C74_build_simple (cfg := cfg) (cmp := cmp)
    (es := ts.map fun t => (t, ())) he ha (by rw [hl]; exact hn) (List.pairwise_map.2 hd)
  rw [Spec.orders_map, hl] at h1 h4 h5
  rw [Spec.mean_map, hl] at h2 h3
  refine ⟨fun o => cost (o.map fun t => (t, ())), fun o ho => ?_, h2, h3,
    fun o ho => h4 _ (List.mem_map_of_mem ho), ?_⟩
  · obtain ⟨a1, a2⟩ := h1 _ (List.mem_map_of_mem ho)
    refine ⟨a1, fun f => ?_⟩
    have := a2 f
    show (_ → (Simple.SSet.extend cfg (budget f cmp) ⟨hint, o, false⟩ Simple.SSet.new).1 = _) ∧
      (_ → (Simple.SSet.extend cfg (budget f cmp) ⟨hint, o, false⟩ Simple.SSet.new).1 = _)
    rw [show Simple.SSet.extend cfg (budget f cmp) ⟨hint, o, false⟩ Simple.SSet.new = _ from
      Simple.set_extend (budget f cmp) hint o Simple.Map.new]
    exact this
  · obtain ⟨o, ho, e⟩ := h5
    obtain ⟨o', ho', rfl⟩ := List.mem_map.1 ho
    exact ⟨o', ho', e⟩

/-- Four elements: 29/6 comparisons on average. In the order 2, 1, 4, 3 it is 0 + 1 + 1 + 2. -/
example :
    (∃ cost : List Nat → List Nat,
      (∀ o ∈ orders [1, 2, 3, 4], Costs (cost o) fun f => (Simple.SSet.extend Sample.cfg (budget f compare) ⟨(0, none), o, false⟩ Simple.SSet.new).1) ∧
      mean [1, 2, 3, 4] (fun o => (cost o).sum) = 29 / 6) ∧
    ∀ j < 5, (Simple.SSet.extend Sample.cfg (budget (fun i => [0, 1, 1, 2][i]?.getD 0 - if i = j then 1 else 0) compare) ⟨(0, none), [2, 1, 4, 3], false⟩ Simple.SSet.new).1 =
      if j = 0 ∨ j = 4 then .ok () else .panic := by
  refine ⟨?_, by decide +kernel⟩
  obtain ⟨cost, h1, h2, _⟩ := C74_set_build_simple (cfg := Sample.cfg) (cmp := compare) (ts := [1, 2, 3, 4])
    (by decide) (fun _ _ => rfl) (by decide) (by decide) (0, none)
  exact ⟨cost, fun o ho => (h1 o ho).2, h2.trans (by decide +kernel)⟩

/-- C74. The same for `SimpleBSTSet`. -/
theorem C74_set_search_simple {T : Type} {cmp : T → T → Ordering} {ts : List T} [TransCmp cmp]
    (he : 2 ≤ cfg.esize) (ha : ∀ id n, cfg.allocOk id n = true)
    (hn : (ts.length + 9) * cfg.esize ≤ isizeMax) (hd : ts.Pairwise fun a b => cmp a b ≠ .eq)
    (k : T) (hint : Nat × Option Nat) :
    let lo := (ts.filter fun t => cmp k t == .gt).length
    let hi := (ts.filter fun t => cmp k t == .lt).length
    ∃ cost : List T → Nat,
      (∀ o ∈ orders ts, ∃ s,
        Simple.SSet.extend cfg (fun _ k => query (cmp k)) ⟨hint, o, false⟩ Simple.SSet.new = (.ok (), s) ∧
        ∀ b, (b < cost o → s.contains (upTo cmp k b) = .panic ∧ s.get (upTo cmp k b) = .panic ∧
            (Simple.SSet.remove cfg (upTo cmp k b) s).1 = .panic ∧
            (Simple.SSet.take cfg (upTo cmp k b) s).1 = .panic ∧
            (Simple.SSet.insert cfg (upTo cmp k b) k s).1 = .panic) ∧
          (cost o ≤ b → (∃ x, s.contains (upTo cmp k b) = .ok x) ∧
            (∃ x, s.get (upTo cmp k b) = .ok x) ∧
            (∃ x, (Simple.SSet.remove cfg (upTo cmp k b) s).1 = .ok x) ∧
            (∃ x, (Simple.SSet.take cfg (upTo cmp k b) s).1 = .ok x) ∧
            ∃ x, (Simple.SSet.insert cfg (upTo cmp k b) k s).1 = .ok x)) ∧
      ((∀ t ∈ ts, cmp k t ≠ .eq) → mean ts cost = harmonic lo + harmonic hi) ∧
      ((∃ t ∈ ts, cmp k t = .eq) → mean ts cost = harmonic (lo + 1) + harmonic (hi + 1) - 1) ∧
      (0 < ts.length → mean ts cost ≤ 2 * (Nat.log2 ts.length : Nat) + 2) := by
  intro lo hi
  have hl : (ts.map fun t => (t, ())).length = ts.length := List.length_map ..
  obtain ⟨cost, h1, h2, h3, h4⟩ := C74_search_simple (cfg := cfg) (cmp := cmp)
    (es := ts.map fun t => (t, ())) he ha (by rw [hl]; exact hn) (List.pairwise_map.2 hd) k
  rw [Spec.orders_map] at h1
  simp only [Spec.mean_map, hl, List.filter_map, List.length_map] at h2 h3 h4
  refine ⟨fun o => cost (o.map fun t => (t, ())), fun o ho => ?_, fun h => h2 ?_, fun h => h3 ?_, h4⟩
  · obtain ⟨m, a1, a2⟩ := h1 _ (List.mem_map_of_mem ho)
    refine ⟨⟨m⟩, ?_, fun b => ⟨fun hb => ?_, fun hb => ?_⟩⟩
    · refine (Simple.set_extend (fun _ k => query (cmp k)) hint o Simple.Map.new).trans ?_
      rw [a1]
    · obtain ⟨b1, b2, b3, b4, b5⟩ := (a2 b).1 hb
      obtain ⟨c1, c2⟩ := Simple.set_remove.2 b4
      exact ⟨b3, Simple.set_find.2 b2, c2, c1, Simple.set_insert.2 (b5 ())⟩
    · obtain ⟨b1, b2, b3, b4, b5⟩ := (a2 b).2 hb
      obtain ⟨c1, c2⟩ := Simple.set_remove.1 b4
      exact ⟨b3, Simple.set_find.1 b2, c2, c1, Simple.set_insert.1 (b5 ())⟩
  · intro e he'
    obtain ⟨t, ht, rfl⟩ := List.mem_map.1 he'
    exact h t ht
  · obtain ⟨t, ht, he'⟩ := h
    exact ⟨(t, ()), List.mem_map_of_mem ht, he'⟩

/-- Looking for 3 takes 7/3 comparisons on average, looking for 9 takes 25/12. In the order 2, 1, 4, 3
the 3 is found by the third comparison. -/
example :
    (∃ cost : List Nat → Nat, mean [1, 2, 3, 4] cost = 7 / 3 ∧ ∀ o ∈ orders [1, 2, 3, 4], ∃ m,
      Simple.SSet.extend Sample.cfg (fun _ k => query (compare k)) ⟨(0, none), o, false⟩ Simple.SSet.new = (.ok (), m) ∧
      ∀ b < cost o, m.contains (upTo compare 3 b) = .panic) ∧
    (∃ cost : List Nat → Nat, mean [1, 2, 3, 4] cost = 25 / 12 ∧ ∀ o ∈ orders [1, 2, 3, 4], ∃ m,
      Simple.SSet.extend Sample.cfg (fun _ k => query (compare k)) ⟨(0, none), o, false⟩ Simple.SSet.new = (.ok (), m) ∧
      ∀ b < cost o, m.contains (upTo compare 9 b) = .panic) ∧
    let m := (Simple.SSet.extend Sample.cfg (fun _ k => query (compare k)) ⟨(0, none), [2, 1, 4, 3], false⟩ Simple.SSet.new).2
    m.contains (upTo compare 3 2) = .panic ∧ m.contains (upTo compare 3 3) = .ok true := by
  refine ⟨?_, ?_, by decide +kernel⟩
  · obtain ⟨cost, h1, _, h2, _⟩ := C74_set_search_simple (cfg := Sample.cfg) (cmp := compare) (ts := [1, 2, 3, 4])
      (by decide) (fun _ _ => rfl) (by decide) (by decide) 3 (0, none)
    refine ⟨cost, (h2 (by decide)).trans (by decide +kernel), fun o ho => ?_⟩
    obtain ⟨m, a1, a2⟩ := h1 o ho
    exact ⟨m, a1, fun b hb => ((a2 b).1 hb).1⟩
  · obtain ⟨cost, h1, h2, _⟩ := C74_set_search_simple (cfg := Sample.cfg) (cmp := compare) (ts := [1, 2, 3, 4])
      (by decide) (fun _ _ => rfl) (by decide) (by decide) 9 (0, none)
    refine ⟨cost, (h2 (by decide)).trans (by decide +kernel), fun o ho => ?_⟩
    obtain ⟨m, a1, a2⟩ := h1 o ho
    exact ⟨m, a1, fun b hb => ((a2 b).1 hb).1⟩

end BST.Props
