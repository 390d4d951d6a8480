import Verif.Proofs.Programs
import Verif.Proofs.Sample
/-!
# C67: programs that use maps

The programs of `Verif/Programs.lean` create any number of maps, and decide what to do next from
the answers they get. They compute the same with maps of either crate as with sorted lists of
entries.
-/
set_option linter.unusedSimpArgs false
namespace BST
variable {K V R : Type}
open Std BSTMap
open Spec (Sorted Failed)

private theorem listed_run {cmp : K → K → Ordering} [TransCmp cmp] {keq : K → K → Bool}
    {veq : V → V → Bool} (p : Prog K V R) :
    p.demand (treeMaps cmp keq veq) [] = p.demand (Listed.maps cmp keq veq) [] ∧
    ∃ o bs ls, p.run (treeMaps cmp keq veq) [] = (o, bs) ∧
      p.run (Listed.maps cmp keq veq) [] = (o, ls) ∧ Related (TreeRel cmp) bs ls :=
  TreeRel.run p .nil

private theorem TreeRel.sorted {cmp : K → K → Ordering} {bs : List (Spec.BT (K × V))}
    {ls : List (List (K × V))} (h : Related (TreeRel cmp) bs ls) : ∀ l ∈ ls, Sorted cmp l := by
  intro l hl
  obtain ⟨i, hi⟩ := List.getElem?_of_mem hl
  rcases h.get i with ⟨_, h1⟩ | ⟨b, l', _, h1, h2, h3⟩
  · rw [h1] at hi; cases hi
  · rw [h1] at hi; cases hi; rw [← h3]; exact h2

private theorem bst_contents {cfg : Cfg} {cmp : K → K → Ordering} {ms : List (BSTMap K V)}
    {bs : List (Spec.BT (K × V))} {ls : List (List (K × V))} (h : Related (BSTRel cfg cmp) ms bs)
    (h' : Related (TreeRel cmp) bs ls) : ms.map (·.iterInorder) = ls.map .ok := by
  rw [← h'.map_eq (f := fun b => Out.ok b.ino) fun b l hbl => congrArg Out.ok hbl.2]
  refine h.map_eq fun m b hmb => ?_
  obtain ⟨t, h1, _, rfl⟩ := hmb
  rw [iterInorder_spec h1, Tree.sh_ino]

private theorem simple_contents {cmp : K → K → Ordering} {ms : List (Simple.Map K V)}
    {bs : List (Spec.BT (K × V))} {ls : List (List (K × V))} (h : Related (SimpleRel cmp) ms bs)
    (h' : Related (TreeRel cmp) bs ls) : ms.map (fun m => (Simple.explore m).ino) = ls := by
  have h2 := h'.map_eq (f := fun b => b.ino) (g := id) fun b l hbl => hbl.2
  rw [List.map_id] at h2
  rw [← h2]
  exact h.map_eq fun m b hmb => by rw [Simple.explore_eq, hmb.2.2]

/-- Whatever the allocator does, a program with maps of type `BSTMap` either ends with a panic or an
abort, or computes the same as with sorted lists and leaves maps with the same entries. -/
theorem C67_bst (cfg : Cfg) (cmp : K → K → Ordering) [TransCmp cmp] (keq : K → K → Bool)
    (veq : V → V → Bool) (p : Prog K V R) :
    ∃ o ms, p.run (BSTMap.maps cfg cmp keq veq) [] = (o, ms) ∧
      (Failed o ∨ ∃ r ls, o = .ok r ∧ p.run (Listed.maps cmp keq veq) [] = (.ok r, ls) ∧
        (∀ l ∈ ls, Sorted cmp l) ∧ ms.map (·.iterInorder) = ls.map .ok) := by
  obtain ⟨_, o', bs, ls, h1, h2, h3⟩ := listed_run (cmp := cmp) (keq := keq) (veq := veq) p
  obtain ⟨o, ms, h4, h5⟩ := BSTRel.run (cfg := cfg) (cmp := cmp) (keq := keq) (veq := veq) p .nil
  refine ⟨o, ms, h4, ?_⟩
  rcases h5 with ⟨bs', h5, h6⟩ | h5 | ⟨h5, _⟩
  · cases h1.symm.trans h5
    rcases Prog.listed_cases (cmp := cmp) (keq := keq) (veq := veq) p [] with h | ⟨r, h⟩
    · rw [h2] at h
      exact .inl (.inl h)
    · rw [h2] at h
      cases h
      exact .inr ⟨r, ls, rfl, h2, TreeRel.sorted h3, bst_contents h6 h3⟩
  · exact .inl (.inr h5)
  · exact .inl (.inl h5)

/-- If the allocator does not fail and there is room for the entries that the program ever inserts
into one map, it computes exactly the same as with sorted lists: the same result or a panic at the
same place. -/
theorem C67_bst_room {cfg : Cfg} (cmp : K → K → Ordering) [TransCmp cmp] (keq : K → K → Bool)
    (veq : V → V → Bool) (p : Prog K V R) (he : 0 < cfg.esize)
    (ha : ∀ id n, cfg.allocOk id n = true)
    (hfit : (p.demand (Listed.maps cmp keq veq) [] + 8) * cfg.esize ≤ isizeMax) :
    ∃ o ms ls, p.run (BSTMap.maps cfg cmp keq veq) [] = (o, ms) ∧
      p.run (Listed.maps cmp keq veq) [] = (o, ls) ∧
      (∀ l ∈ ls, Sorted cmp l) ∧ ms.map (·.iterInorder) = ls.map .ok := by
  obtain ⟨h0, o', bs, ls, h1, h2, h3⟩ := listed_run (cmp := cmp) (keq := keq) (veq := veq) p
  obtain ⟨o, ms, bs', h4, h5, h6⟩ := BSTRel.run_room (cfg := cfg) (cmp := cmp) (keq := keq)
    (veq := veq) ⟨he, ha, hfit⟩ p .nil (fun _ h => by cases h) (Nat.le_of_eq h0)
  cases h1.symm.trans h5
  exact ⟨_, ms, ls, h4, h2, TreeRel.sorted h3, bst_contents h6 h3⟩

/-- The same for maps of type `SimpleBSTMap`; only an abort is possible for lack of memory. -/
theorem C67_simple {cfg : Cfg} (cmp : K → K → Ordering) [TransCmp cmp] (keq : K → K → Bool)
    (veq : V → V → Bool) (p : Prog K V R) (he : 2 ≤ cfg.esize) :
    ∃ o ms, p.run (Simple.maps cfg cmp keq veq) [] = (o, ms) ∧
      (o = .abort ∨ (o = .panic ∨ ∃ r, o = .ok r) ∧ ∃ ls, p.run (Listed.maps cmp keq veq) [] = (o, ls) ∧
        (∀ l ∈ ls, Sorted cmp l) ∧ ms.map (fun m => (Simple.explore m).ino) = ls) := by
  obtain ⟨_, o', bs, ls, h1, h2, h3⟩ := listed_run (cmp := cmp) (keq := keq) (veq := veq) p
  obtain ⟨o, ms, h4, h5⟩ := SimpleRel.run (cmp := cmp) (keq := keq) (veq := veq) he p .nil
  refine ⟨o, ms, h4, ?_⟩
  rcases h5 with ⟨bs', h5, h6⟩ | h5 | ⟨_, h5⟩
  · cases h1.symm.trans h5
    have h7 := Prog.listed_cases (cmp := cmp) (keq := keq) (veq := veq) p []
    rw [h2] at h7
    exact .inr ⟨h7, ls, h2, TreeRel.sorted h3, simple_contents h6 h3⟩
  · exact .inl h5
  · exact h5.elim

/-- With an allocator that does not fail, and room, there is no abort. -/
theorem C67_simple_room {cfg : Cfg} (cmp : K → K → Ordering) [TransCmp cmp] (keq : K → K → Bool)
    (veq : V → V → Bool) (p : Prog K V R) (he : 2 ≤ cfg.esize)
    (ha : ∀ id n, cfg.allocOk id n = true)
    (hfit : p.demand (Listed.maps cmp keq veq) [] * cfg.esize < usizeBound) :
    ∃ o ms ls, p.run (Simple.maps cfg cmp keq veq) [] = (o, ms) ∧
      p.run (Listed.maps cmp keq veq) [] = (o, ls) ∧
      (∀ l ∈ ls, Sorted cmp l) ∧ ms.map (fun m => (Simple.explore m).ino) = ls := by
  obtain ⟨h0, o', bs, ls, h1, h2, h3⟩ := listed_run (cmp := cmp) (keq := keq) (veq := veq) p
  obtain ⟨o, ms, bs', h4, h5, h6⟩ := SimpleRel.run_room (cmp := cmp) (keq := keq) (veq := veq) he
    ⟨hfit, ha⟩ p .nil (fun _ h => by cases h) (Nat.le_of_eq h0)
  cases h1.symm.trans h5
  exact ⟨_, ms, ls, h4, h2, TreeRel.sorted h3, simple_contents h6 h3⟩

/-- With room, the two crates compute the same, and the trees they end with have the same shape
(`explore` reads a tree through the node API). -/
theorem C67_agree {cfg cfg' : Cfg} (cmp : K → K → Ordering) [TransCmp cmp] (keq : K → K → Bool)
    (veq : V → V → Bool) (p : Prog K V R) (he : 0 < cfg.esize)
    (ha : ∀ id n, cfg.allocOk id n = true)
    (hfit : (p.demand (Listed.maps cmp keq veq) [] + 8) * cfg.esize ≤ isizeMax)
    (he' : 2 ≤ cfg'.esize) (ha' : ∀ id n, cfg'.allocOk id n = true)
    (hfit' : p.demand (Listed.maps cmp keq veq) [] * cfg'.esize < usizeBound) :
    ∃ o ms ms', p.run (BSTMap.maps cfg cmp keq veq) [] = (o, ms) ∧
      p.run (Simple.maps cfg' cmp keq veq) [] = (o, ms') ∧
      ms.map explore = ms'.map fun m => .ok (Simple.explore m) := by
  obtain ⟨h0, o', bs, ls, h1, _, _⟩ := listed_run (cmp := cmp) (keq := keq) (veq := veq) p
  obtain ⟨o, ms, bs', h4, h5, h6⟩ := BSTRel.run_room (cfg := cfg) (cmp := cmp) (keq := keq)
    (veq := veq) ⟨he, ha, hfit⟩ p .nil (fun _ h => by cases h) (Nat.le_of_eq h0)
  obtain ⟨o2, ms2, bs2, h7, h8, h9⟩ := SimpleRel.run_room (cmp := cmp) (keq := keq) (veq := veq) he'
    ⟨hfit', ha'⟩ p .nil (fun _ h => by cases h) (Nat.le_of_eq h0)
  cases h1.symm.trans h5
  cases h1.symm.trans h8
  refine ⟨_, ms, ms2, h4, h7, ?_⟩
  rw [h9.map_eq (g := fun b => Out.ok b) fun m b h => by rw [Simple.explore_eq, h.2.2]]
  refine h6.map_eq fun m b h => ?_
  obtain ⟨t, h1, _, rfl⟩ := h
  exact explore_ok h1

/-! ### A case -/

namespace Sample

/-- Two maps; what is put into the second depends on what is read from the first, then a value is
changed in a clone and the clone compared with its original. -/
def program : Prog Nat Nat (Bool × Nat) := do
  let a ← .make
  let _ ← .ask a (.extend [(5, 50), (2, 20), (8, 80), (9, 90), (2, 21)])
  let b ← .make
  match ← .ask a (.get 2) with
  | .value (some v) => do let _ ← .ask b (.insert v v)
  | _ => .panic
  let c ← .copy a
  let _ ← .ask c (.update 8 fun v => if v = 0 then none else some (v - 1))
  let e ← .same a c
  let _ ← .ask c (.remove 5)
  match ← .ask c .len with
  | .nat n => pure (e, n)
  | _ => .panic


example : (program.run (BSTMap.maps cfg compare (· == ·) (· == ·)) []).1 = .ok (false, 3) := by
  decide +kernel
example : (program.run (Simple.maps cfg compare (· == ·) (· == ·)) []).1 = .ok (false, 3) := by
  decide +kernel
example : program.run (Listed.maps compare (· == ·) (· == ·)) [] = (.ok (false, 3),
    [[(2, 21), (5, 50), (8, 80), (9, 90)], [(21, 21)], [(2, 21), (8, 79), (9, 90)]]) := by
  decide +kernel
example : program.demand (Listed.maps compare (· == ·) (· == ·)) [] = 11 := by decide +kernel

/-- The hypotheses of `C67_agree` hold for it. -/
example : ∃ o ms ms', program.run (BSTMap.maps cfg compare (· == ·) (· == ·)) [] = (o, ms) ∧
    program.run (Simple.maps cfg compare (· == ·) (· == ·)) [] = (o, ms') ∧
    ms.map explore = ms'.map fun m => .ok (Simple.explore m) :=
  C67_agree compare _ _ program (by decide) (fun _ _ => rfl) (by decide +kernel) (by decide)
    (fun _ _ => rfl) (by decide +kernel)

/-- Without memory the first insertion fails, and the program ends. -/
example : (program.run (BSTMap.maps { cfg with allocOk := fun _ _ => false } compare (· == ·) (· == ·))
    []).1 = .abort := by decide +kernel
example : (program.run (Simple.maps { cfg with allocOk := fun _ _ => false } compare (· == ·) (· == ·))
    []).1 = .abort := by decide +kernel

end Sample
end BST
