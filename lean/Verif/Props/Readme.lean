import Verif.Proofs.Readme
import Verif.Proofs.Sample
import Verif.Proofs.SimpleSem
import Verif.Proofs.SimpleIter
import Verif.Props.Aging
import Verif.Props.Iter
/-!
# C78: the program in README.md finds what it looks for

`find_score` is recursive user code over `root()`, `left()`, `right()` and `value()`.
-/
namespace BST.Props
open BSTMap Tree
open Spec (BT scan)
variable {K V : Type} {cfg : Cfg} {ok : K → Probe K → Prop} {m : BSTMap K V}

/-- C78. `find_score(map.root(), ..)` tests the values one after the other in pre-order, up to the
first one that has the score or whose test panics, and returns the node of that entry, at its place in
the tree; all this whatever the tests do, and however the map came about. It needs room for one nested
call more than the height of the tree. -/
theorem C78_find (hm : Reach cfg ok m) {b : BT (Ptr × K × V)} (hb : exploreAt m = .ok b) {lim : Nat}
    (hl : b.height < lim) (is : Nat → V → Option Bool) :
    ∃ o j, Readme.search lim is m 0 = (o, j) ∧
      scan (fun n (e : Ptr × K × V) => is n e.2.2) (b.order .pre) 0 =
        (o.map (Option.map fun x => (x.ptr, x.key, x.value)), j) ∧
      ∀ x, o = .ok (some x) → ∃ path, nodeAt path m = .ok (some x) := by
  obtain ⟨t, h⟩ := hm.shape
  cases (exploreAt_ok h).symm.trans hb
  rw [bt_height] at hl
  obtain ⟨o, j, h1, h2, h3⟩ := Readme.findScore_spec is h.rep lim hl 0
  refine ⟨o, j, ?_, ?_, fun x hx => ?_⟩
  · unfold Readme.search
    rw [rootNode_ok h.root h.rep, M.lift_ok_bind]
    exact h1
  · rw [bt_order]; exact h2
  · obtain ⟨path, hp⟩ := h3 x hx
    refine ⟨path, ?_⟩
    unfold nodeAt
    rw [rootNode_ok h.root h.rep, Out.ok_bind]
    exact hp

/-- C78. So, if the values are tested with a function that does not panic, the result is the first
entry in pre-order that has the score, and `None` if there is none. -/
theorem C78_score (hm : Reach cfg ok m) {b : BT (K × V)} (hb : explore m = .ok b) {lim : Nat}
    (hl : b.height < lim) (has : V → Bool) :
    (Readme.search lim (fun _ v => some (has v)) m 0).1.map (Option.map fun x => (x.key, x.value)) =
      .ok ((b.order .pre).find? fun e => has e.2) := by
  obtain ⟨t, h⟩ := hm.shape
  cases (explore_ok h).symm.trans hb
  rw [BT.map_height] at hl
  obtain ⟨o, j, h1, h2, _⟩ := C78_find hm (exploreAt_ok h) hl fun _ v => some (has v)
  have h3 := Readme.scan_pure (fun e : Ptr × K × V => has e.2.2) (t.bt.order .pre) 0
  rw [h2] at h3
  rw [h1, BT.map_order, List.find?_map]
  cases o with
  | ok x =>
    replace h3 : x.map (fun x => (x.ptr, x.key, x.value)) =
      (t.bt.order .pre).find? (fun e : Ptr × K × V => has e.2.2) := Out.ok.inj h3
    show Out.ok (x.map _) = _
    refine congrArg _ ?_
    have h4 := congrArg (Option.map fun e : Ptr × K × V => e.2) h3
    rw [Option.map_map] at h4
    exact h4
  | _ => cases h3

/-- C78. It is the entry that `iter_preorder().find(..)` with the same test returns. -/
theorem C78_iter (hm : Reach cfg ok m) {b : BT (K × V)} (hb : explore m = .ok b) {lim : Nat}
    (hl : b.height < lim) (has : V → Bool) :
    ∃ es, m.iterPreorder = .ok es ∧
      (Readme.search lim (fun _ v => some (has v)) m 0).1.map (Option.map fun x => (x.key, x.value)) =
        .ok (es.find? fun e => has e.2) := by
  obtain ⟨b', hb', h, _⟩ := C08_traversals hm
  cases hb.symm.trans hb'
  exact ⟨_, h, C78_score hm hb hl has⟩

/-- In the map with nine entries, whose pre-order is 5, 2, 1, 3, 4, 8, 7, 6, 9: the first entry whose
value comes after "f". -/
example :
    (explore Sample.nine).map (fun b => (b.height, (b.order .pre).map (·.1))) =
      .ok (4, [5, 2, 1, 3, 4, 8, 7, 6, 9]) ∧
    Sample.nine.iterPreorder.map (fun es => (es.find? fun e => decide ("f" < e.2)).map (·.1)) = .ok (some 8) ∧
    (Readme.search 5 (fun _ v => some (decide ("f" < v))) Sample.nine 0).1.map (Option.map (·.key)) =
      .ok (some 8) ∧
    (Readme.search 5 (fun _ v => some (decide ("f" < v))) Sample.nine 0).2 = 6 ∧
    (Readme.search 5 (fun i v => if i = 7 then none else some (v == "i")) Sample.nine 0) = (.panic, 8) := by
  decide +kernel

/-- C78. The room is needed: a search without success, in a tree whose height is not less than the
number of nested calls for which there is room, overflows the stack. (As the tree is not balanced this
can happen with any number of entries that is large enough.) -/
theorem C78_deep (hm : Reach cfg ok m) {b : BT (K × V)} (hb : explore m = .ok b) {lim : Nat}
    (hl : lim ≤ b.height) : (Readme.search lim (fun _ _ => some false) m 0).1 = .abort := by
  obtain ⟨t, h⟩ := hm.shape
  cases (explore_ok h).symm.trans hb
  rw [BT.map_height, bt_height] at hl
  unfold Readme.search
  rw [rootNode_ok h.root h.rep, M.lift_ok_bind]
  exact Readme.findScore_deep (fun _ _ => rfl) h.rep lim hl 0

/-- Room for four calls is not enough for nine entries in a tree of height 4. -/
example : (Readme.search 4 (fun _ _ => some false) Sample.nine 0).1 = .abort ∧
    (Readme.search 5 (fun _ _ => some false) Sample.nine 0) = (.ok none, 9) := by decide +kernel

/-- C78. The same for simple_bst. -/
theorem C78_find_simple (m : Simple.Map K V) {lim : Nat} (hl : (Simple.explore m).height < lim)
    (is : Nat → V → Option Bool) :
    ∃ o j, Readme.searchSimple lim is m 0 = (o, j) ∧
      scan (fun n (e : K × V) => is n e.2) ((Simple.explore m).order .pre) 0 =
        (o.map (Option.map fun x => (x.key, x.value)), j) ∧
      ∀ x, o = .ok (some x) → ((Simple.explore m).sub x.place).label = some (x.key, x.value) := by
  rw [Simple.explore_eq] at *
  obtain ⟨o, j, h1, h2, h3⟩ := Readme.findScoreSimple_spec is m.root [] lim hl 0
  refine ⟨o, j, h1, h2, fun x hx => ?_⟩
  obtain ⟨q, hq, hx⟩ := h3 x hx
  rw [List.nil_append] at hq
  rw [hq] at hx ⊢
  rw [← Simple.view_at]
  cases ht : m.root.at' q with
  | nil => rw [ht] at hx; cases hx
  | node k v l r => rw [ht] at hx; cases hx; rfl

/-- C78. With a test that does not panic, the result is the entry that `iter_preorder().find(..)` returns
for simple_bst. -/
theorem C78_iter_simple (m : Simple.Map K V) {lim : Nat} (hl : (Simple.explore m).height < lim)
    (has : V → Bool) :
    ∃ es, Simple.Map.drain .pre m = .ok es ∧
      (Readme.searchSimple lim (fun _ v => some (has v)) m 0).1.map (Option.map fun x => (x.key, x.value)) =
        .ok (es.find? fun e => has e.2) := by
  refine ⟨_, Simple.Map.drain_eq .pre m, ?_⟩
  obtain ⟨o, j, h1, h2, _⟩ := C78_find_simple m hl fun _ v => some (has v)
  have h3 := Readme.scan_pure (fun e : K × V => has e.2) ((Simple.explore m).order .pre) 0
  rw [h2, Simple.explore_eq] at h3
  rw [h1]
  exact h3

/-- C78. The same for simple_bst. -/
theorem C78_deep_simple (m : Simple.Map K V) {lim : Nat} (hl : lim ≤ (Simple.explore m).height) :
    (Readme.searchSimple lim (fun _ _ => some false) m 0).1 = .abort := by
  rw [Simple.explore_eq] at hl
  exact Readme.findScoreSimple_deep (fun _ _ => rfl) m.root [] lim hl 0

/-- The nine entries again: the entry 4 is found with the fifth test. -/
example :
    let m := (simpleHistory Sample.cfg nineOps Simple.Map.new).2
    (Simple.explore m).height = 4 ∧
    (Readme.searchSimple 5 (fun _ v => some (v == "4")) m 0).1.map (Option.map fun x => (x.key, x.place)) =
      .ok (some (4, [false, true, true])) ∧
    (Readme.searchSimple 5 (fun _ v => some (v == "4")) m 0).2 = 5 ∧
    (Simple.Map.drain .pre m).map (List.map (·.1)) = .ok [5, 2, 1, 3, 4, 8, 7, 6, 9] ∧
    (Readme.searchSimple 4 (fun _ _ => some false) m 0).1 = .abort := by decide +kernel

end BST.Props
