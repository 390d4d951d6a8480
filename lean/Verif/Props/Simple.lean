import Verif.Proofs.AgreeRun
import Verif.Proofs.SimpleSet
import Verif.Props.Set
import Verif.Props.History
/-!
# The crate `simple_bst`, and calls that cannot fail
-/
namespace BST.Props
open BSTMap Std
open Spec (BT Conforms SimpleAnswer LawfulQuery Order)
section
variable {K V : Type} {cfg : Cfg} {cmp : K → K → Ordering}

/-- C01. Start with an empty map and make any finite sequence of calls. If the allocator
always delivers and the total demand of the calls is moderate, every call returns, except
that it may panic if code of the user that it runs (a comparison, a clone, an iterator)
panics. (No overflow and no refusal can occur.) Together with `C01_history` this determines
all return values. -/
theorem C01_no_failure (he : 0 < cfg.esize) (ha : ∀ i n, cfg.allocOk i n = true)
    (ops : List (Op K V)) (hops : ∀ op ∈ ops, op.Calm)
    (hD : (demand ops + 8) * cfg.esize ≤ isizeMax) :
    (history cfg ops BSTMap.new).1.length = ops.length ∧
    ∀ x ∈ ops.zip (history cfg ops BSTMap.new).1,
      (∃ r, x.2 = .ok r) ∨ (x.2 = .panic ∧ ¬ x.1.Quiet) := by
  obtain ⟨os, m, h1, h2, h3⟩ := history_room (cfg := cfg) (D := demand ops) ⟨he, ha, hD⟩ ops
    (shape_new cfg) hops (by show 0 + demand ops ≤ _; omega)
  rw [h1]
  exact ⟨h2, h3⟩

/-- C29. Start with an empty `SimpleBSTMap` and make any finite sequence of calls. The
outcome of every call is that of a textbook search tree (`Spec.SimpleAnswer`, which refers
to the specification `Spec.TreeAnswer` of `BSTMap`), and the final tree is that of the
textbook. (A node holds two pointers, hence occupies more than one byte.) -/
theorem C29_history [TransCmp cmp] (he : 2 ≤ cfg.esize) (ops : List (SimpleOp K V))
    (hops : ∀ op ∈ ops, op.Lawful cmp) :
    ∃ os m b, simpleHistory cfg ops Simple.Map.new = (os, m) ∧
      Conforms (SimpleAnswer cmp) ops os .nil b ∧
      (Out.abort ∉ os → Simple.explore m = b ∧ m.len = b.size) := by
  obtain ⟨os, m, b, h1, h2, h3⟩ := simpleHistory_tree he (cmp := cmp) ops hops
    (m := Simple.Map.new) rfl List.Pairwise.nil
  refine ⟨os, m, b, h1, h2, fun hh => ?_⟩
  obtain ⟨h4, rfl⟩ := h3 hh
  exact ⟨Simple.explore_eq m, by rw [Simple.view_size']; exact h4⟩

/-- C29. Whatever the comparisons, clones and iterators passed to the calls do, no call on a
`SimpleBSTMap` has undefined behaviour or fails to terminate, and none of the `unwrap()` and
`expect()` calls inside fails: a call panics only if code of the user panics or it is a
mutable iterator (`todo!()`), and aborts only if it allocates. -/
theorem C29_no_panic (he : 2 ≤ cfg.esize) (ops : List (SimpleOp K V)) :
    ∀ x ∈ ops.zip (simpleHistory cfg ops Simple.Map.new).1,
      (∃ r, x.2 = .ok r) ∨ (x.2 = .abort ∧ x.1.Allocates) ∨ (x.2 = .panic ∧ ¬ x.1.Quiet) := by
  obtain ⟨os, m, h1, _, h2, _⟩ := simpleHistory_sem he (fun _ _ => .eq) ops
    (m := Simple.Map.new) rfl
  rw [h1]
  exact h2

/-- C29. With enough memory no call aborts, and all calls are executed. -/
theorem C29_no_abort (he : 2 ≤ cfg.esize) (ha : ∀ i n, cfg.allocOk i n = true)
    (ops : List (SimpleOp K V))
    (hD : demand (ops.map (·.twin fun _ _ => .eq)) * cfg.esize < usizeBound) :
    Out.abort ∉ (simpleHistory cfg ops Simple.Map.new).1 ∧
    (simpleHistory cfg ops Simple.Map.new).1.length = ops.length := by
  obtain ⟨os, m, h1, h2, _, h3⟩ := simpleHistory_sem he (fun _ _ => .eq) ops
    (m := Simple.Map.new) rfl
  rw [h1]
  have := h3 ⟨by show (0 + _) * _ < _; simpa using hD, ha⟩
  exact ⟨this, h2.resolve_right this⟩

/-- C29. Make the same calls on an empty `SimpleBSTMap` and on an empty `BSTMap`. If there is
enough memory for both, all outcomes are the same (including panics in comparisons and
clones), and the final trees, read through the `Node` API, are the same. -/
theorem C29_agree [TransCmp cmp] {cfg' : Cfg} (ops : List (SimpleOp K V))
    (hsh : ∀ op ∈ ops, op.Shared) (hops : ∀ op ∈ ops, op.Lawful cmp)
    (he : 0 < cfg.esize) (ha : ∀ i n, cfg.allocOk i n = true)
    (hD : (demand (ops.map (·.twin cmp)) + 8) * cfg.esize ≤ isizeMax)
    (he' : 2 ≤ cfg'.esize) (ha' : ∀ i n, cfg'.allocOk i n = true)
    (hD' : demand (ops.map (·.twin cmp)) * cfg'.esize < usizeBound) :
    ∃ os m m', history cfg (ops.map (·.twin cmp)) BSTMap.new = (os, m) ∧
      simpleHistory cfg' ops Simple.Map.new = (os, m') ∧
      explore m = .ok (Simple.explore m') := by
  obtain ⟨os, m, t, n, h1, h2, h3, h4, _⟩ := agree_run (cfg := cfg) ⟨he, ha, hD⟩ he' ⟨hD', ha'⟩ ops
    hsh hops (shape_new cfg) .nil (n := Simple.Map.new) rfl rfl (by show 0 + _ ≤ _; omega)
  refine ⟨os, m, n, h1, h2, ?_⟩
  rw [Simple.explore_eq, h4, Tree.link_view]
  exact explore_ok h3

/-- C29. `==` on two `SimpleBSTMap`s gives what `==` gives on the two `BSTMap`s made with the
same calls. -/
theorem C29_eq [TransCmp cmp] {cfg' : Cfg} (ops ops' : List (SimpleOp K V))
    (hsh : ∀ op ∈ ops, op.Shared) (hops : ∀ op ∈ ops, op.Lawful cmp)
    (hsh' : ∀ op ∈ ops', op.Shared) (hops' : ∀ op ∈ ops', op.Lawful cmp)
    (he : 0 < cfg.esize) (ha : ∀ i n, cfg.allocOk i n = true)
    (hD : (demand (ops.map (·.twin cmp)) + demand (ops'.map (·.twin cmp)) + 8) * cfg.esize ≤ isizeMax)
    (he' : 2 ≤ cfg'.esize) (ha' : ∀ i n, cfg'.allocOk i n = true)
    (hD' : (demand (ops.map (·.twin cmp)) + demand (ops'.map (·.twin cmp))) * cfg'.esize <
      usizeBound) (keq : K → K → Bool) (veq : V → V → Bool) :
    BSTMap.eq cfg keq veq (history cfg (ops.map (·.twin cmp)) BSTMap.new).2
      (history cfg (ops'.map (·.twin cmp)) BSTMap.new).2 =
    Simple.Map.eq keq veq (simpleHistory cfg' ops Simple.Map.new).2
      (simpleHistory cfg' ops' Simple.Map.new).2 := by
  obtain ⟨_, m, t, n, h1, h2, h3, h4, h5⟩ := agree_run (cfg := cfg) ⟨he, ha, hD⟩ he' ⟨hD', ha'⟩ ops
    hsh hops (shape_new cfg) .nil (n := Simple.Map.new) rfl rfl (by show 0 + _ ≤ _; omega)
  obtain ⟨_, m', t', n', h1', h2', h3', h4', h5'⟩ := agree_run (cfg := cfg) ⟨he, ha, hD⟩ he'
    ⟨hD', ha'⟩ ops' hsh' hops' (shape_new cfg) .nil (n := Simple.Map.new) rfl rfl
    (by show 0 + _ ≤ _; omega)
  rw [h1, h1', h2, h2', eq_spec h3 h3', link_eq_spec h5 h5' h4 h4']

/-! ### Sets -/

section
variable {T : Type} {cmp : T → T → Ordering}

/-- C28. Start with an empty set and make any finite sequence of calls. If the allocator
always delivers and the total demand of the calls is moderate, every call returns, except
that it may panic if code of the user that it runs panics. -/
theorem C28_no_failure (he : 0 < cfg.esize) (ha : ∀ i n, cfg.allocOk i n = true)
    (ops : List (SetOp T)) (hops : ∀ op ∈ ops, op.Calm)
    (hD : (setDemand ops + 8) * cfg.esize ≤ isizeMax) :
    (setHistory cfg ops BSTSet.new).1.length = ops.length ∧
    ∀ x ∈ ops.zip (setHistory cfg ops BSTSet.new).1,
      (∃ r, x.2 = .ok r) ∨ (x.2 = .panic ∧ ¬ x.1.Quiet) := by
  obtain ⟨os, m, h1, h2, h3⟩ := setHistory_room (cfg := cfg) (D := setDemand ops) ⟨he, ha, hD⟩ ops
    (s := BSTSet.new) (shape_new cfg) hops (by show 0 + setDemand ops ≤ _; omega)
  rw [h1]
  exact ⟨h2, h3⟩

/-- C29. Start with an empty `SimpleBSTSet` and make any finite sequence of calls. The
outcome of every call is that of a textbook search tree of elements
(`Spec.SimpleSetAnswer`, which refers to the specification `Spec.SetTreeAnswer` of
`BSTSet`), and the final tree is that of the textbook. -/
theorem C29_set_history [TransCmp cmp] (he : 2 ≤ cfg.esize) (ops : List (SimpleSetOp T))
    (hops : ∀ op ∈ ops, op.Lawful cmp) :
    ∃ os s b, simpleSetHistory cfg ops Simple.SSet.new = (os, s) ∧
      Conforms (Spec.SimpleSetAnswer cmp) ops os .nil b ∧
      (Out.abort ∉ os → s.explore = b ∧ s.len = b.size) := by
  obtain ⟨os, s, b, h1, h2, h3⟩ := simpleSetHistory_tree he (cmp := cmp) ops hops
    (s := Simple.SSet.new) rfl List.Pairwise.nil
  refine ⟨os, s, b, h1, h2, fun hh => ?_⟩
  obtain ⟨h4, rfl⟩ := h3 hh
  refine ⟨ssExplore_eq s, ?_⟩
  rw [SSet.elems, Spec.BT.map_size, Simple.view_size']
  exact h4

/-- C29. Whatever the comparisons, clones and iterators passed to the calls do, no call on a
`SimpleBSTSet` has undefined behaviour or fails to terminate; a call panics only if code of
the user panics, and aborts only if it allocates. -/
theorem C29_set_no_panic (he : 2 ≤ cfg.esize) (ops : List (SimpleSetOp T)) :
    ∀ x ∈ ops.zip (simpleSetHistory cfg ops Simple.SSet.new).1,
      (∃ r, x.2 = .ok r) ∨ (x.2 = .abort ∧ x.1.Allocates) ∨ (x.2 = .panic ∧ ¬ x.1.Quiet) := by
  obtain ⟨os, m, h1, _, h2, _⟩ := simpleSetHistory_sem he (fun _ _ => .eq) ops
    (s := Simple.SSet.new) rfl
  rw [h1]
  exact h2

/-- C29. With enough memory no call aborts, and all calls are executed. -/
theorem C29_set_no_abort (he : 2 ≤ cfg.esize) (ha : ∀ i n, cfg.allocOk i n = true)
    (ops : List (SimpleSetOp T))
    (hD : setDemand (ops.map (·.twin fun _ _ => .eq)) * cfg.esize < usizeBound) :
    Out.abort ∉ (simpleSetHistory cfg ops Simple.SSet.new).1 ∧
    (simpleSetHistory cfg ops Simple.SSet.new).1.length = ops.length := by
  obtain ⟨os, m, h1, h2, _, h3⟩ := simpleSetHistory_sem he (fun _ _ => .eq) ops
    (s := Simple.SSet.new) rfl
  rw [h1]
  have := h3 ⟨by show (0 + _) * _ < _; simpa using hD, ha⟩
  exact ⟨this, h2.resolve_right this⟩

/-- C29. Make the same calls on an empty `SimpleBSTSet` and on an empty `BSTSet`. If there is
enough memory for both, all outcomes are the same (including panics in comparisons and
clones), and the final trees, read through the `Node` API, are the same. -/
theorem C29_set_agree [TransCmp cmp] {cfg' : Cfg} (ops : List (SimpleSetOp T))
    (hsh : ∀ op ∈ ops, op.Shared) (hops : ∀ op ∈ ops, op.Lawful cmp)
    (he : 0 < cfg.esize) (ha : ∀ i n, cfg.allocOk i n = true)
    (hD : (setDemand (ops.map (·.twin cmp)) + 8) * cfg.esize ≤ isizeMax)
    (he' : 2 ≤ cfg'.esize) (ha' : ∀ i n, cfg'.allocOk i n = true)
    (hD' : setDemand (ops.map (·.twin cmp)) * cfg'.esize < usizeBound) :
    ∃ os s s', setHistory cfg (ops.map (·.twin cmp)) BSTSet.new = (os, s) ∧
      simpleSetHistory cfg' ops Simple.SSet.new = (os, s') ∧
      exploreSet s = .ok s'.explore := by
  obtain ⟨os, m, t, n, h1, h2, h3, h4, _⟩ := set_agree_run (cfg := cfg) ⟨he, ha, hD⟩ he'
    ⟨hD', ha'⟩ ops hsh hops (s := BSTSet.new) (shape_new cfg) .nil (n := Simple.SSet.new) rfl rfl
    (by show 0 + _ ≤ _; omega)
  refine ⟨os, m, n, h1, h2, ?_⟩
  rw [ssExplore_eq, SSet.elems, h4, Tree.link_view]
  exact exploreSet_ok h3

/-- C29. `==` on two `SimpleBSTSet`s gives what `==` gives on the two `BSTSet`s made with the
same calls. -/
theorem C29_set_eq [TransCmp cmp] {cfg' : Cfg} (ops ops' : List (SimpleSetOp T))
    (hsh : ∀ op ∈ ops, op.Shared) (hops : ∀ op ∈ ops, op.Lawful cmp)
    (hsh' : ∀ op ∈ ops', op.Shared) (hops' : ∀ op ∈ ops', op.Lawful cmp)
    (he : 0 < cfg.esize) (ha : ∀ i n, cfg.allocOk i n = true)
    (hD : (setDemand (ops.map (·.twin cmp)) + setDemand (ops'.map (·.twin cmp)) + 8) * cfg.esize ≤
      isizeMax)
    (he' : 2 ≤ cfg'.esize) (ha' : ∀ i n, cfg'.allocOk i n = true)
    (hD' : (setDemand (ops.map (·.twin cmp)) + setDemand (ops'.map (·.twin cmp))) * cfg'.esize <
      usizeBound) (teq : T → T → Bool) :
    BSTSet.eq cfg teq (setHistory cfg (ops.map (·.twin cmp)) BSTSet.new).2
      (setHistory cfg (ops'.map (·.twin cmp)) BSTSet.new).2 =
    Simple.SSet.eq teq (simpleSetHistory cfg' ops Simple.SSet.new).2
      (simpleSetHistory cfg' ops' Simple.SSet.new).2 := by
  obtain ⟨_, m, t, n, h1, h2, h3, h4, h5⟩ := set_agree_run (cfg := cfg) ⟨he, ha, hD⟩ he'
    ⟨hD', ha'⟩ ops hsh hops (s := BSTSet.new) (shape_new cfg) .nil (n := Simple.SSet.new) rfl rfl
    (by show 0 + _ ≤ _; omega)
  obtain ⟨_, m', t', n', h1', h2', h3', h4', h5'⟩ := set_agree_run (cfg := cfg) ⟨he, ha, hD⟩ he'
    ⟨hD', ha'⟩ ops' hsh' hops' (s := BSTSet.new) (shape_new cfg) .nil (n := Simple.SSet.new) rfl rfl
    (by show 0 + _ ≤ _; omega)
  rw [h1, h1', h2, h2']
  unfold BSTSet.eq Simple.SSet.eq
  rw [eq_spec h3 h3', link_eq_spec h5 h5' h4 h4']

end

end

/-! ### Examples -/

/-- A history with every kind of call; some of them panic. -/
def simpleOps : List (SimpleOp Nat String) :=
  let q (n : Nat) : Probe Nat := query (compare n)
  [.insert (q 5) 5 "e", .insert (q 2) 2 "b", .insert (q 8) 8 "h", .insert (q 6) 6 "f",
   .insert (q 5) 5 "E", .get (q 5), .get (q 7), .containsKey (q 2), .getMut (q 8) "H",
   .remove (q 5), .getEntry (q 8), .get (fun _ _ => none), .len, .isEmpty,
   .node [true], .nodeMut [false] "B", .iter .ino 4, .iter .post 2,
   .extend (fun _ k => query (compare k)) ⟨(0, none), [(1, "a"), (6, "ff")], false⟩,
   .cloned some some, .removeEntry (q 2), .iter .pre 3, .clear, .len]

theorem simpleOps_lawful : ∀ op ∈ simpleOps, op.Lawful compare := by
  have hq : ∀ n : Nat, ∃ f, LawfulQuery compare f ∧ Asks f (query (compare n)) :=
    fun n => ⟨_, lawful_cmp compare n, fun _ _ => .inr rfl⟩
  simp only [simpleOps, List.forall_mem_cons]
  refine ⟨fun _ _ => .inr rfl, fun _ _ => .inr rfl, fun _ _ => .inr rfl, fun _ _ => .inr rfl,
    fun _ _ => .inr rfl, hq 5, hq 7, hq 2, hq 8, hq 5, hq 8,
    ⟨_, lawful_cmp compare 0, fun _ _ => .inl rfl⟩, trivial, trivial, trivial, trivial, trivial,
    trivial, fun _ _ _ _ => .inr rfl,
    ⟨fun _ _ _ _ => .inr rfl, fun _ _ h => (Option.some.inj h).symm,
      fun _ _ h => (Option.some.inj h).symm⟩, hq 2, trivial, fun _ => rfl, trivial, by simp⟩

theorem simpleOps_shared : ∀ op ∈ simpleOps, op.Shared := by
  simp [simpleOps, SimpleOp.Shared]

example : (simpleHistory Sample.cfg simpleOps Simple.Map.new).1 =
    [.ok (.value none), .ok (.value none), .ok (.value none), .ok (.value none),
     .ok (.value (some "e")), .ok (.value (some "E")), .ok (.value none), .ok (.bool true),
     .ok (.value (some "h")), .ok (.value (some "E")), .ok (.entry (some (8, "H"))), .panic,
     .ok (.nat 3), .ok (.bool false), .ok (.node (some (8, "H", false, false))),
     .ok (.entry (some (2, "b"))),
     .ok (.items [some (2, "B"), some (6, "f"), some (8, "H"), none]),
     .ok (.items [some (2, "B"), some (8, "H")]), .ok .unit, .ok .unit,
     .ok (.entry (some (2, "B"))),
     .ok (.items [some (6, "ff"), some (1, "a"), some (8, "H")]),
     .ok .unit, .ok (.nat 0)] := by decide +kernel

/-- The hypotheses of `C29_agree` are met by the sample. -/
example : ∃ os m m', history Sample.cfg (simpleOps.map (·.twin compare)) BSTMap.new = (os, m) ∧
    simpleHistory Sample.cfg simpleOps Simple.Map.new = (os, m') ∧
    explore m = .ok (Simple.explore m') :=
  C29_agree simpleOps simpleOps_shared simpleOps_lawful (by decide) (fun _ _ => rfl) (by decide)
    (by decide) (fun _ _ => rfl) (by decide)

/-- Those of `C29_history` and `C29_no_abort`. -/
example : (∃ os m b, simpleHistory Sample.cfg simpleOps Simple.Map.new = (os, m) ∧
      Conforms (SimpleAnswer compare) simpleOps os .nil b ∧
      (Out.abort ∉ os → Simple.explore m = b ∧ m.len = b.size)) ∧
    Out.abort ∉ (simpleHistory Sample.cfg simpleOps Simple.Map.new).1 :=
  ⟨C29_history (by decide) simpleOps simpleOps_lawful,
    (C29_no_abort (by decide) (fun _ _ => rfl) simpleOps (by decide)).1⟩

/-- The tree before the last two calls, which clear the map. -/
example : Simple.explore (simpleHistory Sample.cfg (simpleOps.take 22) Simple.Map.new).2 =
    .node (.node .nil (1, "a") .nil) (6, "ff") (.node .nil (8, "H") .nil) := by decide +kernel

/-- `C29_no_panic`: the only outcome above that is not a return is the panic of call number 11,
a look-up whose comparison panics. -/
example : (simpleOps.zip (simpleHistory Sample.cfg simpleOps Simple.Map.new).1)[11]?.map (·.2) =
    some .panic ∧ ∀ op ∈ simpleOps[11]?, ¬ op.Quiet := by
  refine ⟨by decide +kernel, fun op hop => ?_⟩
  simp [simpleOps] at hop
  subst hop
  simp only [SimpleOp.Quiet, SimpleOp.twin, Op.Quiet, Classical.not_not]
  exact ⟨0, 0, rfl⟩

/-- Those of `C01_no_failure`. -/
example : (history Sample.cfg sampleOps BSTMap.new).1.length = 29 :=
  (C01_no_failure (by decide) (fun _ _ => rfl) sampleOps
    (fun op hop => by have := sampleOps_lawful op hop; cases op <;> first | trivial | exact this)
    (by decide)).1

/-- With a comparison that never gives the same answer twice the calls still return; a
mutable iterator panics; an allocator that refuses the third block aborts the process. -/
example :
    let c : Probe Nat := fun i _ => if i % 2 = 0 then some .lt else some .gt
    (simpleHistory Sample.cfg [.insert c 1 "a", .insert c 1 "b", .insert c 1 "c", .iterMut .ino 0,
      .iterMut .pre 2, .remove c, .remove (fun _ _ => some .eq), .iter .ino 3]
      Simple.Map.new).1 =
    [.ok (.value none), .ok (.value none), .ok (.value none), .ok .unit, .panic,
     .ok (.value none), .ok (.value (some "a")),
     .ok (.items [some (1, "b"), some (1, "c"), none])] ∧
    (simpleHistory { Sample.cfg with allocOk := fun i _ => i != 2 } [.insert c 1 "a",
      .insert c 1 "b", .insert c 1 "c", .insert c 1 "d", .len] Simple.Map.new).1 =
    [.ok (.value none), .ok (.value none), .ok (.value none), .abort] := by
  decide +kernel

/-- Equal contents, different shapes: `==` says `true` in both crates. -/
example :
    let q (n : Nat) : Probe Nat := query (compare n)
    let a := (simpleHistory Sample.cfg [.insert (q 1) 1 "a", .insert (q 2) 2 "b"] Simple.Map.new).2
    let b := (simpleHistory Sample.cfg [.insert (q 2) 2 "b", .insert (q 1) 1 "a"] Simple.Map.new).2
    Simple.Map.eq (· == ·) (· == ·) a b = .ok true ∧ Simple.explore a ≠ Simple.explore b ∧
    Simple.Map.eq (· == ·) (fun _ _ => false) a b = .ok false := by
  decide +kernel

/-- `C29_eq` for these two histories. -/
example :
    let q (n : Nat) : Probe Nat := query (compare n)
    let a : List (SimpleOp Nat String) := [.insert (q 1) 1 "a", .insert (q 2) 2 "b"]
    let b : List (SimpleOp Nat String) := [.insert (q 2) 2 "b", .insert (q 1) 1 "a"]
    BSTMap.eq Sample.cfg (· == ·) (· == ·) (history Sample.cfg (a.map (·.twin compare)) BSTMap.new).2
      (history Sample.cfg (b.map (·.twin compare)) BSTMap.new).2 = .ok true := by decide +kernel

namespace SetExample

def simpleOps : List (SimpleSetOp E) :=
  [.insert (q 5) (5, "e"), .insert (q 2) (2, "b"), .insert (q 8) (8, "h"),
   .insert (q 5) (5, "other"), .get (q 5), .contains (q 7), .contains (fun _ _ => none),
   .extend cmps ⟨(0, none), [(6, "f"), (2, "other"), (1, "a")], false⟩, .len, .iter .ino 6,
   .node [true, false], .take (q 5), .remove (q 5), .remove (q 1), .cloned some, .iter .post 4,
   .isEmpty]

theorem simpleOps_lawful : ∀ op ∈ simpleOps, op.Lawful cmp := by
  have hq : ∀ n, ∃ f, LawfulQuery cmp f ∧ Asks f (q n) :=
    fun n => ⟨cmp (n, ""), lawful_cmp cmp _, fun _ _ => .inr rfl⟩
  simp only [simpleOps, List.forall_mem_cons]
  refine ⟨fun _ _ => .inr rfl, fun _ _ => .inr rfl, fun _ _ => .inr rfl, fun _ _ => .inr rfl,
    hq 5, hq 7, ⟨_, lawful_cmp cmp (0, ""), fun _ _ => .inl rfl⟩, fun _ _ _ _ => .inr rfl, trivial,
    trivial, trivial, hq 5, hq 5, hq 1,
    ⟨fun _ _ _ _ => .inr rfl, fun _ _ h => (Option.some.inj h).symm⟩, trivial, trivial, by simp⟩

theorem simpleOps_shared : ∀ op ∈ simpleOps, op.Shared := by
  simp [simpleOps, SimpleSetOp.Shared]

example : (simpleSetHistory Sample.cfg (simpleOps ++ [.debug (·.2)]) Simple.SSet.new).1 =
    [.ok (.bool true), .ok (.bool true), .ok (.bool true), .ok (.bool false),
     .ok (.elem (some (5, "e"))), .ok (.bool false), .panic, .ok .unit, .ok (.nat 5),
     .ok (.items [some (1, "a"), some (2, "b"), some (5, "e"), some (6, "f"), some (8, "h"), none]),
     .ok (.node (some ((6, "f"), false, false))), .ok (.elem (some (5, "e"))), .ok (.bool false),
     .ok (.bool true), .ok .unit, .ok (.items [some (2, "b"), some (8, "h"), some (6, "f"), none]),
     .ok (.bool false),
     .ok (.text "SimpleBSTSet { root: Some(Node { value: f, left: Some(Node { value: b, left: None, right: None }), right: Some(Node { value: h, left: None, right: None }) }) }")] := by
  decide +kernel

example : ∃ os s s', setHistory Sample.cfg (simpleOps.map (·.twin cmp)) BSTSet.new = (os, s) ∧
    simpleSetHistory Sample.cfg simpleOps Simple.SSet.new = (os, s') ∧
    exploreSet s = .ok s'.explore :=
  C29_set_agree simpleOps simpleOps_shared simpleOps_lawful (by decide) (fun _ _ => rfl) (by decide)
    (by decide) (fun _ _ => rfl) (by decide)

/-- `C29_set_history` and `C29_set_no_abort` for this history. -/
example : (∃ os s b, simpleSetHistory Sample.cfg simpleOps Simple.SSet.new = (os, s) ∧
      Conforms (Spec.SimpleSetAnswer cmp) simpleOps os .nil b ∧
      (Out.abort ∉ os → s.explore = b ∧ s.len = b.size)) ∧
    Out.abort ∉ (simpleSetHistory Sample.cfg simpleOps Simple.SSet.new).1 :=
  ⟨C29_set_history (by decide) simpleOps simpleOps_lawful,
    (C29_set_no_abort (by decide) (fun _ _ => rfl) simpleOps (by decide)).1⟩

/-- `C29_set_no_panic`: a comparison that panics, and an allocator that refuses everything
(the first node is part of the set itself and needs no allocation). -/
example : (simpleSetHistory { Sample.cfg with allocOk := fun _ _ => false }
      [.insert (q 5) (5, "e"), .contains (fun _ _ => none), .insert (q 2) (2, "b"), .len]
      Simple.SSet.new).1 = [.ok (.bool true), .panic, .abort] := by decide +kernel

example : (setHistory Sample.cfg ops BSTSet.new).1.length = 21 :=
  (C28_no_failure (by decide) (fun _ _ => rfl) ops
    (fun op hop => SetOp.Lawful.calm (ops_lawful op hop)) (by decide)).1

/-- `C29_set_eq`: equal elements, different shapes; both crates say `true`. -/
example :
    let a : List (SimpleSetOp E) := [.insert (q 1) (1, "a"), .insert (q 2) (2, "b")]
    let b : List (SimpleSetOp E) := [.insert (q 2) (2, "b"), .insert (q 1) (1, "a")]
    BSTSet.eq Sample.cfg (fun x y => x.1 == y.1) (setHistory Sample.cfg (a.map (·.twin cmp)) BSTSet.new).2
      (setHistory Sample.cfg (b.map (·.twin cmp)) BSTSet.new).2 = .ok true ∧
    Simple.SSet.eq (fun x y => x.1 == y.1) (simpleSetHistory Sample.cfg a Simple.SSet.new).2
      (simpleSetHistory Sample.cfg b Simple.SSet.new).2 = .ok true := by decide +kernel

end SetExample
end BST.Props
