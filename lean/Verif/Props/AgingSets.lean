import Verif.Proofs.AgingSets
import Verif.Props.Aging
/-!
# C75 for sets
-/
namespace BST.Props
open Std
open Spec (upTo orders mean harmonic TakesSet TakesSetSimple)
variable {T : Type} {cfg : Cfg} {cmp : T → T → Ordering}

/-- C75. `C75_history` for sets. The set `s` is what any calls `before` have made of an empty one. -/
theorem C75_set_history [TransCmp cmp] {s : BSTSet T} (before ops : List (SetOp T))
    (hb : ∀ op ∈ before, op.Lawful cmp) (hm : (setHistory cfg before BSTSet.new).2 = s)
    (hops : ∀ op ∈ ops, op.Lawful cmp ∧ op.SameSet) {k : T}
    (hk : ∀ n ≤ ops.length, (setHistory cfg (ops.take n) s).2.contains (query (cmp k)) = .ok true) :
    ∃ d d', TakesSet cfg cmp k s d ∧ TakesSet cfg cmp k (setHistory cfg ops s).2 d' ∧ d' ≤ d := by
  obtain ⟨os, s1, t, h1, h, hs, _⟩ := setHistory_tree (cfg := cfg) before (s := BSTSet.new) (shape_new cfg) .nil hb
  rw [h1] at hm
  cases hm
  obtain ⟨t', h2, h3, h4⟩ := setHistory_steps ops h hs hops hk
  have hl := hk ops.length (Nat.le_refl _)
  rw [List.take_length] at hl
  exact ⟨_, _, takesSet (takes h hs (has_of_contains h (hk 0 (Nat.zero_le _)))),
    takesSet (takes h2 h3 (has_of_contains h2 hl)), h4⟩

/-- Nine insertions. -/
def nineSetOps : List (SetOp Nat) :=
  [5, 2, 8, 1, 9, 3, 7, 4, 6].map fun k => .insert (query (compare k)) k

theorem nineSetOps_lawful : ∀ op ∈ nineSetOps, op.Lawful compare := by
  intro op hop
  obtain ⟨k, _, rfl⟩ := List.mem_map.1 hop
  exact fun n x => .inr rfl

/-- Seven calls that leave 7 in the set. -/
def agingSetOps : List (SetOp Nat) :=
  [.remove (query (compare 5)), .insert (query (compare 10)) 10, .debug toString,
   .take (query (compare 8)), .cloned (fun _ k => query (compare k)) some,
   .extend (fun _ k => query (compare k)) ⟨(0, none), [8, 5], false⟩, .remove (query (compare 6))]

theorem agingSetOps_lawful : ∀ op ∈ agingSetOps, op.Lawful compare ∧ op.SameSet := by
  have hq : ∀ k : Nat, ∃ f, Spec.LawfulQuery compare f ∧ Asks f (query (compare k)) :=
    fun k => ⟨compare k, lawful_cmp compare k, fun _ _ => .inr rfl⟩
  simp only [agingSetOps, List.forall_mem_cons]
  exact ⟨⟨hq 5, trivial⟩, ⟨fun _ _ => .inr rfl, trivial⟩, ⟨trivial, trivial⟩, ⟨hq 8, trivial⟩,
    ⟨⟨fun _ _ _ _ => .inr rfl, fun _ _ h => (Option.some.inj h).symm⟩, trivial⟩,
    ⟨fun _ _ _ _ => .inr rfl, trivial⟩, ⟨hq 6, trivial⟩, by simp⟩

/-- Finding 7 takes three comparisons in the beginning and one in the end. -/
example :
    let s := (setHistory Sample.cfg nineSetOps BSTSet.new).2
    let s' := (setHistory Sample.cfg agingSetOps s).2
    (∃ d d', TakesSet Sample.cfg compare 7 s d ∧ TakesSet Sample.cfg compare 7 s' d' ∧ d' ≤ d) ∧
    s.get (upTo compare 7 2) = .panic ∧ s.get (upTo compare 7 3) = .ok (some 7) ∧
    s'.get (upTo compare 7 0) = .panic ∧ s'.get (upTo compare 7 1) = .ok (some 7) :=
  ⟨C75_set_history nineSetOps agingSetOps nineSetOps_lawful rfl agingSetOps_lawful (by decide +kernel),
    by decide +kernel⟩

/-- C75. The same for `SimpleBSTSet` (as long as there is memory). -/
theorem C75_set_history_simple [TransCmp cmp] (he : 2 ≤ cfg.esize) {s : Simple.SSet T}
    (before ops : List (SimpleSetOp T)) (hb : ∀ op ∈ before, op.Lawful cmp)
    (hm : (simpleSetHistory cfg before Simple.SSet.new).2 = s)
    (ha : Out.abort ∉ (simpleSetHistory cfg before Simple.SSet.new).1)
    (hops : ∀ op ∈ ops, op.Lawful cmp ∧ op.SameSet) {k : T}
    (hk : ∀ n ≤ ops.length,
      (simpleSetHistory cfg (ops.take n) s).2.contains (query (cmp k)) = .ok true)
    (ha' : Out.abort ∉ (simpleSetHistory cfg ops s).1) :
    ∃ d d', TakesSetSimple cfg cmp k s d ∧
      TakesSetSimple cfg cmp k (simpleSetHistory cfg ops s).2 d' ∧ d' ≤ d := by
  obtain ⟨hw, hs⟩ := simpleSetHistory_sorted he before hb (s := Simple.SSet.new) rfl List.Pairwise.nil ha
  rw [hm] at hw hs
  obtain ⟨h1, h2, h3⟩ := simpleSetHistory_steps he ops hw hs hops hk ha'
  have hl := hk ops.length (Nat.le_refl _)
  rw [List.take_length] at hl
  exact ⟨_, _, takesSetSimple (Simple.takes he hw hs (Simple.has_of_contains (hk 0 (Nat.zero_le _)))),
    takesSetSimple (Simple.takes he h1 h2 (Simple.has_of_contains hl)), h3⟩

/-- Finding 7 takes three comparisons before the removals and one after them. -/
example :
    let before : List (SimpleSetOp Nat) :=
      [5, 2, 8, 1, 9, 3, 7, 4, 6].map fun k => .insert (query (compare k)) k
    let s := (simpleSetHistory Sample.cfg before Simple.SSet.new).2
    let ops : List (SimpleSetOp Nat) := [.remove (query (compare 5)), .debug toString, .take (query (compare 6))]
    let s' := (simpleSetHistory Sample.cfg ops s).2
    (∃ d d', TakesSetSimple Sample.cfg compare 7 s d ∧ TakesSetSimple Sample.cfg compare 7 s' d' ∧
      d' ≤ d) ∧
    s.get (upTo compare 7 2) = .panic ∧ s.get (upTo compare 7 3) = .ok (some 7) ∧
    s'.get (upTo compare 7 0) = .panic ∧ s'.get (upTo compare 7 1) = .ok (some 7) := by
  have hq : ∀ k : Nat, ∃ f, Spec.LawfulQuery compare f ∧ Asks f (query (compare k)) :=
    fun k => ⟨compare k, lawful_cmp compare k, fun _ _ => .inr rfl⟩
  refine ⟨C75_set_history_simple (by decide) _ _ ?_ rfl (by decide +kernel) ?_ (by decide +kernel)
    (by decide +kernel), by decide +kernel⟩
  · intro op hop
    obtain ⟨k, _, rfl⟩ := List.mem_map.1 hop
    exact fun n x => .inr rfl
  · simp only [List.forall_mem_cons]
    exact ⟨⟨hq 5, trivial⟩, ⟨trivial, trivial⟩, ⟨hq 6, trivial⟩, by simp⟩

/-- C75. `C75_average` for sets. -/
theorem C75_set_average [TransCmp cmp] {ts : List T} (he : 0 < cfg.esize)
    (ha : ∀ id n, cfg.allocOk id n = true) (hn : (ts.length + 9) * cfg.esize ≤ isizeMax)
    (hd : ts.Pairwise fun a b => cmp a b ≠ .eq) {k : T} (hk : ∃ t ∈ ts, cmp k t = .eq)
    (later : List T → List (SetOp T))
    (hops : ∀ o ∈ orders ts, ∀ op ∈ later o, op.Lawful cmp ∧ op.SameSet)
    (hl : ∀ o ∈ orders ts, ∀ s,
      BSTSet.insertAll cfg (fun _ k => query (cmp k)) 0 o BSTSet.new = (.ok (), s) →
      ∀ n ≤ (later o).length,
        (setHistory cfg ((later o).take n) s).2.contains (query (cmp k)) = .ok true) :
    let lo := (ts.filter fun t => cmp k t == .gt).length
    let hi := (ts.filter fun t => cmp k t == .lt).length
    ∃ cost : List T → Nat,
      (∀ o ∈ orders ts, ∃ s,
        BSTSet.insertAll cfg (fun _ k => query (cmp k)) 0 o BSTSet.new = (.ok (), s) ∧
        TakesSet cfg cmp k (setHistory cfg (later o) s).2 (cost o)) ∧
      mean ts cost ≤ harmonic (lo + 1) + harmonic (hi + 1) - 1 ∧
      mean ts cost ≤ 2 * (Nat.log2 ts.length : Nat) + 2 := by
  intro lo hi
  have hun : ∀ o : List T, (o.map fun t => (t, ())).map (·.1) = o := fun o =>
    (List.map_map ..).trans (List.map_id o)
  obtain ⟨cost, h1, h2, h3⟩ := Spec.mean_choose (cmp := cmp) (k := k) (es := ts.map fun t => (t, ()))
    (P := fun o d => ∃ s,
      BSTSet.insertAll cfg (fun _ k => query (cmp k)) 0 (o.map (·.1)) BSTSet.new = (.ok (), s) ∧
      TakesSet cfg cmp k (setHistory cfg (later (o.map (·.1))) s).2 d)
    (List.pairwise_map.2 hd) (by obtain ⟨t, a, b⟩ := hk; exact ⟨(t, ()), List.mem_map_of_mem a, b⟩)
    (fun o' ho' => by
      rw [Spec.orders_map] at ho'
      obtain ⟨o, ho, rfl⟩ := List.mem_map.1 ho'
      rw [hun]
      have hlen := (Spec.mem_orders.1 ho).length_eq
      obtain ⟨m, t, h1, h2, h3⟩ := built (cmp := cmp) he ha (o := o.map fun t => (t, ()))
        (by rw [List.length_map, hlen]; exact hn)
      have hs : t.SortedBy cmp := by
        unfold Tree.SortedBy
        rw [← Tree.sh_ino, h3]
        exact Spec.insertList_sorted _ List.Pairwise.nil
      have h1' : BSTSet.insertAll cfg (fun _ k => query (cmp k)) 0 o BSTSet.new = (.ok (), ⟨m⟩) := by
        refine (set_insertAll (fun _ k => query (cmp k)) 0 o BSTMap.new).trans ?_
        rw [h1]
      have hk' := hl o ho ⟨m⟩ h1'
      obtain ⟨t', a2, a3, a5⟩ := setHistory_steps (s := ⟨m⟩) (later o) h2 hs (hops o ho) hk'
      have hl' := hk' (later o).length (Nat.le_refl _)
      rw [List.take_length] at hl'
      refine ⟨_, ⟨⟨m⟩, h1', takesSet (takes a2 a3 (has_of_contains a2 hl'))⟩, ?_⟩
      rw [← h3]
      exact a5)
  rw [Spec.orders_map] at h1
  simp only [Spec.mean_map, List.filter_map, List.length_map] at h2 h3
  refine ⟨fun o => cost (o.map fun t => (t, ())), fun o ho => ?_, h2, h3⟩
  have := h1 _ (List.mem_map_of_mem ho)
  rwa [hun] at this

/-- Four elements in any order, then 2 is removed and 5 added: finding 3 takes at most 7/3 comparisons
on average. -/
example :
    let ops : List (SetOp Nat) := [.remove (query (compare 2)), .insert (query (compare 5)) 5]
    ∃ cost : List Nat → Nat,
      (∀ o ∈ orders [1, 2, 3, 4], ∃ s,
        BSTSet.insertAll Sample.cfg (fun _ k => query (compare k)) 0 o BSTSet.new = (.ok (), s) ∧
        TakesSet Sample.cfg compare 3 (setHistory Sample.cfg ops s).2 (cost o)) ∧
      mean [1, 2, 3, 4] cost ≤ 7 / 3 := by
  intro ops
  have hq : ∀ k : Nat, ∃ f, Spec.LawfulQuery compare f ∧ Asks f (query (compare k)) :=
    fun k => ⟨compare k, lawful_cmp compare k, fun _ _ => .inr rfl⟩
  obtain ⟨cost, h1, h2, _⟩ := C75_set_average (cfg := Sample.cfg) (cmp := compare) (ts := [1, 2, 3, 4]) (k := 3)
    (by decide) (fun _ _ => rfl) (by decide) (by decide) ⟨3, by simp, rfl⟩ (fun _ => ops)
    (fun _ _ => by
      simp only [ops, List.forall_mem_cons]
      exact ⟨⟨hq 2, trivial⟩, ⟨fun _ _ => .inr rfl, trivial⟩, by simp⟩)
    (by
      have : ∀ o ∈ orders [1, 2, 3, 4], ∀ n ≤ 2, (setHistory Sample.cfg (ops.take n)
        (BSTSet.insertAll Sample.cfg (fun _ k => query (compare k)) 0 o BSTSet.new).2).2.contains
          (query (compare 3)) = .ok true := by decide +kernel
      intro o ho m hm n hn
      have := this o ho n hn
      rwa [hm] at this)
  exact ⟨cost, h1, Rat.le_trans h2 (by decide +kernel)⟩

/-- C75. The same for `SimpleBSTSet`; the elements are inserted by `extend` (whatever size the
iterator claims to have). -/
theorem C75_set_average_simple [TransCmp cmp] {ts : List T} (he : 2 ≤ cfg.esize)
    (ha : ∀ id n, cfg.allocOk id n = true) (hn : (ts.length + 9) * cfg.esize ≤ isizeMax)
    (hd : ts.Pairwise fun a b => cmp a b ≠ .eq) {k : T} (hk : ∃ t ∈ ts, cmp k t = .eq)
    (hint : Nat × Option Nat) (later : List T → List (SimpleSetOp T))
    (hops : ∀ o ∈ orders ts, ∀ op ∈ later o, op.Lawful cmp ∧ op.SameSet)
    (hl : ∀ o ∈ orders ts, ∀ s,
      Simple.SSet.extend cfg (fun _ k => query (cmp k)) ⟨hint, o, false⟩ Simple.SSet.new = (.ok (), s) →
      Out.abort ∉ (simpleSetHistory cfg (later o) s).1 ∧
      ∀ n ≤ (later o).length,
        (simpleSetHistory cfg ((later o).take n) s).2.contains (query (cmp k)) = .ok true) :
    let lo := (ts.filter fun t => cmp k t == .gt).length
    let hi := (ts.filter fun t => cmp k t == .lt).length
    ∃ cost : List T → Nat,
      (∀ o ∈ orders ts, ∃ s,
        Simple.SSet.extend cfg (fun _ k => query (cmp k)) ⟨hint, o, false⟩ Simple.SSet.new = (.ok (), s) ∧
        TakesSetSimple cfg cmp k (simpleSetHistory cfg (later o) s).2 (cost o)) ∧
      mean ts cost ≤ harmonic (lo + 1) + harmonic (hi + 1) - 1 ∧
      mean ts cost ≤ 2 * (Nat.log2 ts.length : Nat) + 2 := by
  intro lo hi
  have hun : ∀ o : List T, (o.map fun t => (t, ())).map (·.1) = o := fun o =>
    (List.map_map ..).trans (List.map_id o)
  obtain ⟨cost, h1, h2, h3⟩ := Spec.mean_choose (cmp := cmp) (k := k) (es := ts.map fun t => (t, ()))
    (P := fun o d => ∃ s,
      Simple.SSet.extend cfg (fun _ k => query (cmp k)) ⟨hint, o.map (·.1), false⟩ Simple.SSet.new = (.ok (), s) ∧
      TakesSetSimple cfg cmp k (simpleSetHistory cfg (later (o.map (·.1))) s).2 d)
    (List.pairwise_map.2 hd) (by obtain ⟨t, a, b⟩ := hk; exact ⟨(t, ()), List.mem_map_of_mem a, b⟩)
    (fun o' ho' => by
      rw [Spec.orders_map] at ho'
      obtain ⟨o, ho, rfl⟩ := List.mem_map.1 ho'
      rw [hun]
      have hlen := (Spec.mem_orders.1 ho).length_eq
      obtain ⟨m, h1, h2, h3⟩ := Simple.built (cmp := cmp) he ha (o := o.map fun t => (t, ()))
        (by rw [List.length_map, hlen]; exact hn)
      have hs : m.root.Sorted cmp := by
        unfold Simple.Link.Sorted
        rw [h3]
        exact Spec.insertList_sorted _ List.Pairwise.nil
      have h1' : Simple.SSet.extend cfg (fun _ k => query (cmp k)) ⟨hint, o, false⟩ Simple.SSet.new =
          (.ok (), ⟨m⟩) := by
        refine (Simple.set_extend (fun _ k => query (cmp k)) hint o Simple.Map.new).trans ?_
        rw [h1]
      obtain ⟨hab, hk'⟩ := hl o ho ⟨m⟩ h1'
      obtain ⟨a2, a3, a5⟩ := simpleSetHistory_steps he (s := ⟨m⟩) (later o) h2 hs (hops o ho) hk' hab
      have hl' := hk' (later o).length (Nat.le_refl _)
      rw [List.take_length] at hl'
      refine ⟨_, ⟨⟨m⟩, h1', takesSetSimple (Simple.takes he a2 a3 (Simple.has_of_contains hl'))⟩, ?_⟩
      rw [← h3]
      exact a5)
  rw [Spec.orders_map] at h1
  simp only [Spec.mean_map, List.filter_map, List.length_map] at h2 h3
  refine ⟨fun o => cost (o.map fun t => (t, ())), fun o ho => ?_, h2, h3⟩
  have := h1 _ (List.mem_map_of_mem ho)
  rwa [hun] at this

/-- Four elements in any order, then 2 is removed and 5 added: finding 3 takes at most 7/3 comparisons
on average. -/
example :
    let ops : List (SimpleSetOp Nat) := [.remove (query (compare 2)), .insert (query (compare 5)) 5]
    ∃ cost : List Nat → Nat,
      (∀ o ∈ orders [1, 2, 3, 4], ∃ s,
        Simple.SSet.extend Sample.cfg (fun _ k => query (compare k)) ⟨(0, none), o, false⟩ Simple.SSet.new = (.ok (), s) ∧
        TakesSetSimple Sample.cfg compare 3 (simpleSetHistory Sample.cfg ops s).2 (cost o)) ∧
      mean [1, 2, 3, 4] cost ≤ 7 / 3 := by
  intro ops
  have hq : ∀ k : Nat, ∃ f, Spec.LawfulQuery compare f ∧ Asks f (query (compare k)) :=
    fun k => ⟨compare k, lawful_cmp compare k, fun _ _ => .inr rfl⟩
  obtain ⟨cost, h1, h2, _⟩ := C75_set_average_simple (cfg := Sample.cfg) (cmp := compare) (ts := [1, 2, 3, 4]) (k := 3)
    (by decide) (fun _ _ => rfl) (by decide) (by decide) ⟨3, by simp, rfl⟩ (0, none) (fun _ => ops)
    (fun _ _ => by
      simp only [ops, List.forall_mem_cons]
      exact ⟨⟨hq 2, trivial⟩, ⟨fun _ _ => .inr rfl, trivial⟩, by simp⟩)
    (by
      have : ∀ o ∈ orders [1, 2, 3, 4],
          let s := (Simple.SSet.extend Sample.cfg (fun _ k => query (compare k)) ⟨(0, none), o, false⟩ Simple.SSet.new).2
          Out.abort ∉ (simpleSetHistory Sample.cfg ops s).1 ∧
          ∀ n ≤ 2, (simpleSetHistory Sample.cfg (ops.take n) s).2.contains (query (compare 3)) = .ok true := by
        decide +kernel
      intro o ho m hm
      have := this o ho
      rwa [hm] at this)
  exact ⟨cost, h1, Rat.le_trans h2 (by decide +kernel)⟩

end BST.Props
