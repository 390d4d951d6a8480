import Verif.Props.Programs
import Verif.Proofs.SetPrograms
/-!
# C71: programs that use sets

The programs of `Verif/SetPrograms.lean` create any number of sets, and decide what to do next from
the answers they get. They compute the same with sets of either crate as with sorted lists of
elements.
-/
namespace BST
variable {T R : Type}
open Std
open Spec (Sorted Failed)

private theorem listed_sets {cmp : T → T → Ordering} {teq : T → T → Bool} (p : SetProg T R) {o : Out R}
    {ls : List (List (T × Unit))}
    (h : p.toMaps.run (Listed.maps cmp teq fun _ _ => true) [] = (o, ls)) :
    p.run (ListedSet.sets cmp teq) [] = (o, ls.map (List.map (·.1))) :=
  (listedSim cmp teq).start h

private theorem listed_demand {cmp : T → T → Ordering} {teq : T → T → Bool} (p : SetProg T R) :
    p.demand (ListedSet.sets cmp teq) [] = p.toMaps.demand (Listed.maps cmp teq fun _ _ => true) [] :=
  ((listedSim cmp teq).run p []).2

private theorem sorted_sets {cmp : T → T → Ordering} {ls : List (List (T × Unit))}
    (h : ∀ l ∈ ls, Sorted cmp l) :
    ∀ l ∈ ls.map (List.map (·.1)), l.Pairwise fun a b => cmp a b = .lt := by
  intro l hl
  obtain ⟨l', h1, rfl⟩ := List.mem_map.1 hl
  rw [List.pairwise_map]
  exact h l' h1

private theorem bst_sets {ms : List (BSTMap T Unit)} {ls : List (List (T × Unit))}
    (h : ms.map (·.iterInorder) = ls.map .ok) :
    (ms.map BSTSet.mk).map (·.iterInorder) = (ls.map (List.map (·.1))).map .ok := by
  have := congrArg (List.map (Out.map (List.map (·.1)))) h
  simp only [List.map_map] at this ⊢
  rw [show BSTSet.iterInorder ∘ BSTSet.mk = fun m : BSTMap T Unit => m.iterInorder.map (List.map (·.1)) from
    funext fun m => setIterInorder_eq ⟨m⟩]
  exact this

private theorem simple_sets {ms : List (Simple.Map T Unit)} {ls : List (List (T × Unit))}
    (h : ms.map (fun m => (Simple.explore m).ino) = ls) :
    (ms.map Simple.SSet.mk).map (fun s => s.explore.ino) = ls.map (List.map (·.1)) := by
  rw [← h, List.map_map, List.map_map]
  refine List.map_congr_left fun m _ => ?_
  simp only [Function.comp_apply, ssExplore_map, Spec.BT.map_ino]

/-- Whatever the allocator does, a program with sets of type `BSTSet` either ends with a panic or an
abort, or computes the same as with sorted lists and leaves sets with the same elements. -/
theorem C71_bst (cfg : Cfg) (cmp : T → T → Ordering) [TransCmp cmp] (teq : T → T → Bool)
    (p : SetProg T R) :
    ∃ o ss, p.run (BSTSet.sets cfg cmp teq) [] = (o, ss) ∧
      (Failed o ∨ ∃ r ls, o = .ok r ∧ p.run (ListedSet.sets cmp teq) [] = (.ok r, ls) ∧
        (∀ l ∈ ls, l.Pairwise fun a b => cmp a b = .lt) ∧ ss.map (·.iterInorder) = ls.map .ok) := by
  obtain ⟨o, ms, h1, h2⟩ := C67_bst cfg cmp teq (fun _ _ => true) p.toMaps
  refine ⟨o, ms.map .mk, (bstSim cfg cmp teq).start h1, ?_⟩
  refine h2.imp_right fun ⟨r, ls, h3, h4, h5, h6⟩ => ?_
  exact ⟨r, _, h3, listed_sets p h4, sorted_sets h5, bst_sets h6⟩

/-- If the allocator does not fail and there is room for the elements that the program ever inserts
into one set, it computes exactly the same as with sorted lists: the same result or a panic at the
same place. -/
theorem C71_bst_room {cfg : Cfg} (cmp : T → T → Ordering) [TransCmp cmp] (teq : T → T → Bool)
    (p : SetProg T R) (he : 0 < cfg.esize) (ha : ∀ id n, cfg.allocOk id n = true)
    (hfit : (p.demand (ListedSet.sets cmp teq) [] + 8) * cfg.esize ≤ isizeMax) :
    ∃ o ss ls, p.run (BSTSet.sets cfg cmp teq) [] = (o, ss) ∧
      p.run (ListedSet.sets cmp teq) [] = (o, ls) ∧
      (∀ l ∈ ls, l.Pairwise fun a b => cmp a b = .lt) ∧ ss.map (·.iterInorder) = ls.map .ok := by
  rw [listed_demand] at hfit
  obtain ⟨o, ms, ls, h1, h2, h3, h4⟩ := C67_bst_room cmp teq (fun _ _ => true) p.toMaps he ha hfit
  exact ⟨o, ms.map .mk, _, (bstSim cfg cmp teq).start h1, listed_sets p h2,
    sorted_sets h3, bst_sets h4⟩

/-- The same for sets of type `SimpleBSTSet`; only an abort is possible for lack of memory. -/
theorem C71_simple {cfg : Cfg} (cmp : T → T → Ordering) [TransCmp cmp] (teq : T → T → Bool)
    (p : SetProg T R) (he : 2 ≤ cfg.esize) :
    ∃ o ss, p.run (Simple.sets cfg cmp teq) [] = (o, ss) ∧
      (o = .abort ∨ (o = .panic ∨ ∃ r, o = .ok r) ∧ ∃ ls, p.run (ListedSet.sets cmp teq) [] = (o, ls) ∧
        (∀ l ∈ ls, l.Pairwise fun a b => cmp a b = .lt) ∧ ss.map (fun s => s.explore.ino) = ls) := by
  obtain ⟨o, ms, h1, h2⟩ := C67_simple cmp teq (fun _ _ => true) p.toMaps he
  refine ⟨o, ms.map .mk, (simpleSim cfg cmp teq).start h1, ?_⟩
  refine h2.imp_right fun ⟨h3, ls, h4, h5, h6⟩ => ?_
  exact ⟨h3, _, listed_sets p h4, sorted_sets h5, simple_sets h6⟩

/-- With an allocator that does not fail, and room, there is no abort. -/
theorem C71_simple_room {cfg : Cfg} (cmp : T → T → Ordering) [TransCmp cmp] (teq : T → T → Bool)
    (p : SetProg T R) (he : 2 ≤ cfg.esize) (ha : ∀ id n, cfg.allocOk id n = true)
    (hfit : p.demand (ListedSet.sets cmp teq) [] * cfg.esize < usizeBound) :
    ∃ o ss ls, p.run (Simple.sets cfg cmp teq) [] = (o, ss) ∧
      p.run (ListedSet.sets cmp teq) [] = (o, ls) ∧
      (∀ l ∈ ls, l.Pairwise fun a b => cmp a b = .lt) ∧ ss.map (fun s => s.explore.ino) = ls := by
  rw [listed_demand] at hfit
  obtain ⟨o, ms, ls, h1, h2, h3, h4⟩ := C67_simple_room cmp teq (fun _ _ => true) p.toMaps he ha hfit
  exact ⟨o, ms.map .mk, _, (simpleSim cfg cmp teq).start h1, listed_sets p h2,
    sorted_sets h3, simple_sets h4⟩

/-- With room, the two crates compute the same, and the trees they end with have the same shape. -/
theorem C71_agree {cfg cfg' : Cfg} (cmp : T → T → Ordering) [TransCmp cmp] (teq : T → T → Bool)
    (p : SetProg T R) (he : 0 < cfg.esize) (ha : ∀ id n, cfg.allocOk id n = true)
    (hfit : (p.demand (ListedSet.sets cmp teq) [] + 8) * cfg.esize ≤ isizeMax)
    (he' : 2 ≤ cfg'.esize) (ha' : ∀ id n, cfg'.allocOk id n = true)
    (hfit' : p.demand (ListedSet.sets cmp teq) [] * cfg'.esize < usizeBound) :
    ∃ o ss ss', p.run (BSTSet.sets cfg cmp teq) [] = (o, ss) ∧
      p.run (Simple.sets cfg' cmp teq) [] = (o, ss') ∧
      ss.map exploreSet = ss'.map fun s => .ok s.explore := by
  rw [listed_demand] at hfit hfit'
  obtain ⟨o, ms, ms', h1, h2, h3⟩ := C67_agree cmp teq (fun _ _ => true) p.toMaps he ha hfit he' ha' hfit'
  refine ⟨o, ms.map .mk, ms'.map .mk, (bstSim cfg cmp teq).start h1,
    (simpleSim cfg' cmp teq).start h2, ?_⟩
  have := congrArg (List.map (Out.map (Spec.BT.map (·.1)))) h3
  simp only [List.map_map] at this ⊢
  rw [show exploreSet ∘ BSTSet.mk = fun m : BSTMap T Unit => (explore m).map (Spec.BT.map (·.1)) from
    funext fun m => exploreSet_map ⟨m⟩,
    show (fun s : Simple.SSet T => Out.ok s.explore) ∘ Simple.SSet.mk =
      fun m => (Out.ok (Simple.explore m)).map (Spec.BT.map (·.1)) from
    funext fun m => congrArg Out.ok (ssExplore_map ⟨m⟩)]
  exact this

/-! ### A case -/

namespace Sample

/-- Two sets; what is put into the second depends on what is taken from the first, then an element is
removed from a clone and the clone compared with its original. -/
def setProgram : SetProg Nat (Bool × Nat) := do
  let a ← .make
  let _ ← .ask a (.extend [5, 2, 8, 9, 2])
  let b ← .make
  match ← .ask a (.take 2) with
  | .elem (some t) => do let _ ← .ask b (.insert (t + 1))
  | _ => .panic
  let c ← .copy a
  let _ ← .ask c (.remove 5)
  let e ← .same a c
  let _ ← .ask b (.remove 7)
  match ← .ask c .len with
  | .nat n => pure (e, n)
  | _ => .panic

example : (setProgram.run (BSTSet.sets cfg compare (· == ·)) []).1 = .ok (false, 2) := by
  decide +kernel
example : (setProgram.run (Simple.sets cfg compare (· == ·)) []).1 = .ok (false, 2) := by
  decide +kernel
example : setProgram.run (ListedSet.sets compare (· == ·)) [] = (.ok (false, 2),
    [[5, 8, 9], [3], [8, 9]]) := by decide +kernel
example : setProgram.demand (ListedSet.sets compare (· == ·)) [] = 11 := by decide +kernel

/-- The hypotheses of `C71_agree` hold for it. -/
example : ∃ o ss ss', setProgram.run (BSTSet.sets cfg compare (· == ·)) [] = (o, ss) ∧
    setProgram.run (Simple.sets cfg compare (· == ·)) [] = (o, ss') ∧
    ss.map exploreSet = ss'.map fun s => .ok s.explore :=
  C71_agree compare _ setProgram (by decide) (fun _ _ => rfl) (by decide +kernel) (by decide)
    (fun _ _ => rfl) (by decide +kernel)

/-- Without memory the first insertion fails, and the program ends. -/
example : (setProgram.run (BSTSet.sets { cfg with allocOk := fun _ _ => false } compare (· == ·))
    []).1 = .abort := by decide +kernel
example : (setProgram.run (Simple.sets { cfg with allocOk := fun _ _ => false } compare (· == ·))
    []).1 = .abort := by decide +kernel

end Sample
end BST
