import Verif.Proofs.Compare
import Verif.Proofs.Sample
/-!
# C54, C55: equality when `PartialEq` of keys or values panics, or answers as it likes; equality of nodes in the two crates

`keq i a b` and `veq i a b` are the answers of the user's `PartialEq` when the entries at position
`i` are compared; `none` is a panic.
-/
namespace BST.Props
open BSTMap
open Spec (Compared AgreeBelow entryAnswer)
variable {K V T : Type} {cfg : Cfg} {cmp : K → K → Ordering}

/-- C54. `==` of two maps compares the entries in order, pair by pair: first the keys, then the
values if the keys are equal. It stops at the first pair that differs, panics only if a comparison
panics before that, and compares nothing if the lengths differ. -/
theorem C54_map {ok ok' : K → Probe K → Prop} {a b : BSTMap K V} (ha : Reach cfg ok a)
    (hb : Reach cfg ok' b) (keq : Nat → K → K → Option Bool) (veq : Nat → V → V → Option Bool) :
    ∃ la lb, a.iterInorder = .ok la ∧ b.iterInorder = .ok lb ∧
      Compared (entryAnswer keq veq) la lb (eqWith cfg (entryEq keq veq) a b) := by
  obtain ⟨ta, h1⟩ := ha.shape
  obtain ⟨tb, h2⟩ := hb.shape
  refine ⟨_, _, iterInorder_spec h1, iterInorder_spec h2, compared_if ?_⟩
  rw [eqWith_spec h1 h2, entryEq_eq]

/-- C54. The same for two `BSTSet`s. -/
theorem C54_set (ops ops' : List (SetOp T)) (hops : ∀ op ∈ ops, op.Calm)
    (hops' : ∀ op ∈ ops', op.Calm) (teq : Nat → T → T → Option Bool) :
    let a := (setHistory cfg ops BSTSet.new).2
    let b := (setHistory cfg ops' BSTSet.new).2
    ∃ la lb, a.iterInorder = .ok la ∧ b.iterInorder = .ok lb ∧
      Compared teq la lb (BSTSet.eqAsk cfg teq a b) := by
  obtain ⟨os, s, t, h1, h2, _⟩ := setHistory_shape ops (s := BSTSet.new) (shape_new cfg) hops
  obtain ⟨os', s', t', h1', h2', _⟩ := setHistory_shape ops' (s := BSTSet.new) (shape_new cfg) hops'
  rw [h1, h1']
  refine ⟨_, _, setInorder_spec h2, setInorder_spec h2', ?_⟩
  have : Compared (entryAnswer teq fun _ _ _ => some true) t.kv t'.kv (BSTSet.eqAsk cfg teq s s') :=
    compared_if (by unfold BSTSet.eqAsk; rw [eqWith_spec h2 h2', entryEq_eq])
  rw [Tree.elems, Tree.elems, Spec.BT.map_ino, Spec.BT.map_ino, Tree.sh_ino, Tree.sh_ino]
  exact Compared.map (entryAnswer_unit teq) this

/-- C54. The same for two `SimpleBSTMap`s. -/
theorem C54_simple (he : 2 ≤ cfg.esize) (ops ops' : List (SimpleOp K V))
    (ha : Out.abort ∉ (simpleHistory cfg ops Simple.Map.new).1)
    (ha' : Out.abort ∉ (simpleHistory cfg ops' Simple.Map.new).1)
    (keq : Nat → K → K → Option Bool) (veq : Nat → V → V → Option Bool) :
    let a := (simpleHistory cfg ops Simple.Map.new).2
    let b := (simpleHistory cfg ops' Simple.Map.new).2
    Compared (entryAnswer keq veq) (Simple.explore a).ino (Simple.explore b).ino
      (Simple.Map.eqWith (entryEq keq veq) a b) := by
  have h1 := simpleHistory_wf he ops (m := Simple.Map.new) rfl (Prod.eta _).symm ha
  have h2 := simpleHistory_wf he ops' (m := Simple.Map.new) rfl (Prod.eta _).symm ha'
  refine compared_if ?_
  rw [Simple.explore_eq, Simple.explore_eq, Simple.Map.eqWith_spec h1 h2, entryEq_eq, simplePairs_eq]

/-- C54. The same for two `SimpleBSTSet`s. -/
theorem C54_simple_set (he : 2 ≤ cfg.esize) (ops ops' : List (SimpleSetOp T))
    (ha : Out.abort ∉ (simpleSetHistory cfg ops Simple.SSet.new).1)
    (ha' : Out.abort ∉ (simpleSetHistory cfg ops' Simple.SSet.new).1)
    (teq : Nat → T → T → Option Bool) :
    let a := (simpleSetHistory cfg ops Simple.SSet.new).2
    let b := (simpleSetHistory cfg ops' Simple.SSet.new).2
    Compared teq a.explore.ino b.explore.ino (Simple.SSet.eqAsk teq a b) := by
  have h1 := simpleSetHistory_wf he ops (s := Simple.SSet.new) rfl (Prod.eta _).symm ha
  have h2 := simpleSetHistory_wf he ops' (s := Simple.SSet.new) rfl (Prod.eta _).symm ha'
  have : Compared (entryAnswer teq fun _ _ _ => some true) _ _ (Simple.SSet.eqAsk teq _ _) :=
    compared_if (by
      unfold Simple.SSet.eqAsk
      rw [Simple.Map.eqWith_spec h1 h2, entryEq_eq, simplePairs_eq])
  intro a b
  rw [ssExplore_eq, ssExplore_eq, SSet.elems, SSet.elems, Spec.BT.map_ino,
    Spec.BT.map_ino]
  exact Compared.map (entryAnswer_unit teq) this

/-! ### C55 -/

/-- C55. Two nodes of `simple_bst` (of the same or of different maps) are `==` iff the subtrees
below them have the same shape and equal entries in the same places. -/
theorem C55_simple_node {m m' : Simple.Map K V} {p p' : List Bool} {a b : Simple.Ref K V}
    (ha : Simple.nodeAt p m = some a) (hb : Simple.nodeAt p' m' = some b) (keq : K → K → Bool)
    (veq : V → V → Bool) :
    let ta := (Simple.explore m).sub p
    let tb := (Simple.explore m').sub p'
    a.eq keq veq b = true ↔
      ta.map (fun _ => ()) = tb.map (fun _ => ()) ∧ Spec.sameBy keq veq ta.pre tb.pre = true := by
  rw [Simple.explore_eq, Simple.explore_eq, ← Simple.view_at, ← Simple.view_at]
  intro ta tb
  rw [← nodeEq_link ha hb]
  exact Link.eq_iff _ _

/-- C55. The same for nodes of two `SimpleBSTSet`s. -/
theorem C55_simple_set_node {s s' : Simple.SSet T} {p p' : List Bool} {a b : Simple.Ref T Unit}
    (ha : Simple.goRef p s.rootRef = some a) (hb : Simple.goRef p' s'.rootRef = some b)
    (teq : T → T → Bool) :
    let ta := s.explore.sub p
    let tb := s'.explore.sub p'
    Simple.SSet.nodeEq teq a b = true ↔
      ta.map (fun _ => ()) = tb.map (fun _ => ()) ∧
        ta.pre.length = tb.pre.length ∧ (List.zipWith teq ta.pre tb.pre).all id = true := by
  intro ta tb
  have key := C55_simple_node (m := s.items) (m' := s'.items) ha hb teq fun _ _ => true
  have ea : ta = ((Simple.explore s.items).sub p).map (·.1) := by
    rw [← Spec.BT.map_sub, Simple.explore_eq]; show s.explore.sub p = _; rw [ssExplore_eq]; rfl
  have eb : tb = ((Simple.explore s'.items).sub p').map (·.1) := by
    rw [← Spec.BT.map_sub, Simple.explore_eq]; show s'.explore.sub p' = _; rw [ssExplore_eq]; rfl
  rw [ea, eb, Spec.BT.map_map, Spec.BT.map_map, Spec.BT.map_pre, Spec.BT.map_pre, List.length_map,
    List.length_map]
  refine key.trans (and_congr_right fun _ => ?_)
  rw [sameBy_elems, Bool.and_eq_true, decide_eq_true_iff]

/-- C55. Make the same calls in both crates, and walk to the same nodes. If the nodes are `==` in
`simple_bst`, they are in `bst` (for maps; the converse fails, see below). -/
theorem C55_implies [Std.TransCmp cmp] {cfg' : Cfg} (ops ops' : List (SimpleOp K V))
    (hsh : ∀ op ∈ ops, op.Shared) (hops : ∀ op ∈ ops, op.Lawful cmp)
    (hsh' : ∀ op ∈ ops', op.Shared) (hops' : ∀ op ∈ ops', op.Lawful cmp)
    (he : 0 < cfg.esize) (hal : ∀ i n, cfg.allocOk i n = true)
    (hD : (demand (ops.map (·.twin cmp)) + demand (ops'.map (·.twin cmp)) + 8) * cfg.esize ≤ isizeMax)
    (he' : 2 ≤ cfg'.esize) (hal' : ∀ i n, cfg'.allocOk i n = true)
    (hD' : (demand (ops.map (·.twin cmp)) + demand (ops'.map (·.twin cmp))) * cfg'.esize <
      usizeBound) (keq : K → K → Bool) (veq : V → V → Bool) {p p' : List Bool}
    {a b : Simple.Ref K V}
    (ha : Simple.nodeAt p (simpleHistory cfg' ops Simple.Map.new).2 = some a)
    (hb : Simple.nodeAt p' (simpleHistory cfg' ops' Simple.Map.new).2 = some b)
    (heq : a.eq keq veq b = true) :
    ∃ na nb, nodeAt p (history cfg (ops.map (·.twin cmp)) BSTMap.new).2 = .ok (some na) ∧
      nodeAt p' (history cfg (ops'.map (·.twin cmp)) BSTMap.new).2 = .ok (some nb) ∧
      ∀ same, Node.eq keq veq same na nb = true := by
  obtain ⟨_, m, t, n, h1, h2, h3, h4, h5⟩ := agree_run (cfg := cfg) ⟨he, hal, hD⟩ he' ⟨hD', hal'⟩ ops
    hsh hops (shape_new cfg) .nil (n := Simple.Map.new) rfl rfl (by show 0 + _ ≤ _; omega)
  obtain ⟨_, m', t', n', h1', h2', h3', h4', h5'⟩ := agree_run (cfg := cfg) ⟨he, hal, hD⟩ he'
    ⟨hD', hal'⟩ ops' hsh' hops' (shape_new cfg) .nil (n := Simple.Map.new) rfl rfl
    (by show 0 + _ ≤ _; omega)
  rw [h1, h1']
  rw [h2] at ha
  rw [h2'] at hb
  obtain ⟨na, ea, ka⟩ := node_twin h3 h4 ha
  obtain ⟨nb, eb, kb⟩ := node_twin h3' h4' hb
  refine ⟨na, nb, ea, eb, fun same => ?_⟩
  have := Bool.and_eq_true_iff.1 (Bool.and_eq_true_iff.1 heq).1
  have := (Bool.and_eq_true_iff.1 this.1)
  unfold Node.eq
  rw [ka.1, ka.2, kb.1, kb.2, this.1, this.2]
  simp

/-! ### Cases -/

namespace CompareSample

/-- Keys are compared by `==`, but key 6 panics. -/
def keq (_ : Nat) (a b : Nat) : Option Bool := if a = 6 then none else some (a == b)
/-- Values are compared by `==`, but an empty one panics. -/
def veq (_ : Nat) (a b : String) : Option Bool := if a = "" then none else some (a == b)

def a : BSTMap Nat String := Sample.build [(5, "e"), (2, "b"), (8, "h")]
def b : BSTMap Nat String := Sample.build [(2, "b"), (8, "h"), (5, "e")]
def c : BSTMap Nat String := Sample.build [(2, "b"), (8, ""), (6, "f")]

/-- Equal; a pair that differs; a key that panics; a value that panics; a pair that differs before
one that panics; lengths that differ, with comparisons that always panic; and answers that change
from one pair to the next. -/
example : eqWith Sample.cfg (entryEq keq veq) a b = .ok true ∧
    eqWith Sample.cfg (entryEq keq veq) a c = .ok false ∧
    eqWith Sample.cfg (entryEq keq veq) c a = .panic ∧
    eqWith Sample.cfg (entryEq (fun _ _ _ => some true) veq) c c = .panic ∧
    eqWith Sample.cfg (entryEq (fun _ _ _ => some false) (fun _ _ _ => none)) c a = .ok false ∧
    eqWith Sample.cfg (entryEq (fun _ _ _ => none) (fun _ _ _ => none)) a Sample.nine = .ok false ∧
    eqWith Sample.cfg (entryEq (fun i _ _ => some (i != 2)) (fun _ _ _ => some true)) a c = .ok false ∧
    eqWith Sample.cfg (entryEq (fun i _ _ => some (i != 3)) (fun _ _ _ => some true)) a c = .ok true := by
  decide +kernel

/-- The same for the other three kinds of collections. -/
example :
    let q (n : Nat) : Probe Nat := query (compare n)
    let s := (setHistory Sample.cfg [.insert (q 5) 5, .insert (q 6) 6, .insert (q 2) 2] BSTSet.new).2
    let s' := (setHistory Sample.cfg [.insert (q 2) 2, .insert (q 7) 7, .insert (q 5) 5] BSTSet.new).2
    let m := (simpleHistory Sample.cfg [.insert (q 5) 5 "e", .insert (q 2) 2 ""] Simple.Map.new).2
    let m' := (simpleHistory Sample.cfg [.insert (q 2) 2 "b", .insert (q 5) 5 "e"] Simple.Map.new).2
    let z := (simpleSetHistory Sample.cfg [.insert (q 5) 5, .insert (q 6) 6] Simple.SSet.new).2
    let z' := (simpleSetHistory Sample.cfg [.insert (q 7) 7, .insert (q 5) 5] Simple.SSet.new).2
    BSTSet.eqAsk Sample.cfg keq s s' = .panic ∧ BSTSet.eqAsk Sample.cfg keq s' s = .ok false ∧
    BSTSet.eqAsk Sample.cfg keq s' s' = .ok true ∧
    Simple.Map.eqWith (entryEq keq veq) m m' = .panic ∧
    Simple.Map.eqWith (entryEq keq veq) m' m = .ok false ∧
    Simple.Map.eqWith (entryEq keq veq) m' m' = .ok true ∧
    Simple.SSet.eqAsk keq z z' = .panic ∧ Simple.SSet.eqAsk keq z' z = .ok false ∧
    Simple.SSet.eqAsk keq z' z' = .ok true := by
  decide +kernel

/-! #### C55 -/

def q (n : Nat) : Probe Nat := query (compare n)
def calls (l : List Nat) : List (SimpleOp Nat String) := l.map fun n => .insert (q n) n (toString n)

theorem calls_shared (l : List Nat) : ∀ op ∈ calls l, op.Shared := by
  intro op h
  obtain ⟨n, _, rfl⟩ := List.mem_map.1 h
  exact trivial

theorem calls_lawful (l : List Nat) : ∀ op ∈ calls l, op.Lawful compare := by
  intro op h
  obtain ⟨n, _, rfl⟩ := List.mem_map.1 h
  exact Lawful.query compare n

theorem of_any {α : Type} {o : Option α} {p : α → Bool} (h : o.any p = true) :
    ∃ a, o = some a ∧ p a = true := by
  cases o with
  | none => cases h
  | some a => exact ⟨a, rfl, h⟩

/-- A node that was found. -/
def found {α : Type} : Out (Option α) → Option α
  | .ok x => x
  | _ => none

theorem of_found {α : Type} {o : Out (Option α)} {a : α} (h : found o = some a) :
    o = .ok (some a) := by
  unfold found at h
  split at h
  · subst h; rfl
  · cases h

end CompareSample

open CompareSample in
/-- C55. The converse of `C55_implies` fails: after inserting 2 and 1, 3 in one case and 2, 1 in the
other, the roots are `==` in `bst`, and not in `simple_bst`. And with values that are not equal to
themselves (as `f64::NAN`) a node is `==` to itself in `bst` only. -/
theorem C55_not_conversely :
    let m := (history Sample.cfg ((calls [2, 1, 3]).map (·.twin compare)) BSTMap.new).2
    let m' := (history Sample.cfg ((calls [2, 1]).map (·.twin compare)) BSTMap.new).2
    let n := (simpleHistory Sample.cfg (calls [2, 1, 3]) Simple.Map.new).2
    let n' := (simpleHistory Sample.cfg (calls [2, 1]) Simple.Map.new).2
    (∃ a b a' b', nodeAt [] m = .ok (some a) ∧ nodeAt [] m' = .ok (some b) ∧
      Simple.nodeAt [] n = some a' ∧ Simple.nodeAt [] n' = some b' ∧
      Node.eq (· == ·) (· == ·) false a b = true ∧ a'.eq (· == ·) (· == ·) b' = false) ∧
    (∃ a a', nodeAt [] m = .ok (some a) ∧ Simple.nodeAt [] n = some a' ∧
      Node.eq (· == ·) (fun _ _ => false) true a a = true ∧
      a'.eq (· == ·) (fun _ _ => false) a' = false) := by
  intro m m' n n'
  have h : ((found (nodeAt [] m)).any fun a => (found (nodeAt [] m')).any fun b =>
      (Simple.nodeAt [] n).any fun a' => (Simple.nodeAt [] n').any fun b' =>
        Node.eq (· == ·) (· == ·) false a b && !a'.eq (· == ·) (· == ·) b' &&
        (Node.eq (· == ·) (fun _ _ => false) true a a &&
          !a'.eq (· == ·) (fun _ _ => false) a')) = true := by decide +kernel
  obtain ⟨a, ha, h⟩ := of_any h
  obtain ⟨b, hb, h⟩ := of_any h
  obtain ⟨a', ha', h⟩ := of_any h
  obtain ⟨b', hb', h⟩ := of_any h
  simp only [Bool.and_eq_true, Bool.not_eq_true'] at h
  exact ⟨⟨a, b, a', b', of_found ha, of_found hb, ha', hb', h.1⟩, a, a', of_found ha, ha', h.2⟩

open CompareSample in
/-- Nodes with the same subtree in different places of different maps. -/
example :
    let n := (simpleHistory Sample.cfg (calls [5, 2, 1, 3]) Simple.Map.new).2
    let n' := (simpleHistory Sample.cfg (calls [2, 3, 1, 4]) Simple.Map.new).2
    let n'' := (simpleHistory Sample.cfg (calls [2, 3, 1]) Simple.Map.new).2
    (Simple.nodeAt [false] n).bind (fun a => (Simple.nodeAt [] n').map fun b =>
      a.eq (· == ·) (· == ·) b) = some false ∧
    (Simple.nodeAt [false] n).bind (fun a => (Simple.nodeAt [] n'').map fun b =>
      a.eq (· == ·) (· == ·) b) = some true ∧
    (Simple.nodeAt [false] n).bind (fun a => (Simple.nodeAt [false, true] n).map fun b =>
      a.eq (· == ·) (· == ·) b) = some false := by decide +kernel

open CompareSample in
/-- Sets: the root of a set with 2, 1, 3 and a node of a set with 5, 2, 3, 1. -/
example :
    let s := (simpleSetHistory Sample.cfg ([2, 1, 3].map fun n => .insert (q n) n) Simple.SSet.new).2
    let s' := (simpleSetHistory Sample.cfg ([5, 2, 3, 1].map fun n => .insert (q n) n)
      Simple.SSet.new).2
    (Simple.goRef [] s.rootRef).bind (fun a => (Simple.goRef [false] s'.rootRef).map fun b =>
      Simple.SSet.nodeEq (· == ·) a b) = some true ∧
    (Simple.goRef [] s.rootRef).bind (fun a => (Simple.goRef [] s'.rootRef).map fun b =>
      Simple.SSet.nodeEq (· == ·) a b) = some false := by decide +kernel

open CompareSample in
/-- `C55_implies` for the roots of two maps with 2, 1, 3. -/
example : ∃ na nb,
    nodeAt [] (history Sample.cfg ((calls [2, 1, 3]).map (·.twin compare)) BSTMap.new).2 =
      .ok (some na) ∧
    nodeAt [] (history Sample.cfg ((calls [2, 3, 1]).map (·.twin compare)) BSTMap.new).2 =
      .ok (some nb) ∧
    ∀ same, Node.eq (· == ·) (· == ·) same na nb = true := by
  have h : ∃ a b, Simple.nodeAt [] (simpleHistory Sample.cfg (calls [2, 1, 3]) Simple.Map.new).2 = some a ∧
      Simple.nodeAt [] (simpleHistory Sample.cfg (calls [2, 3, 1]) Simple.Map.new).2 = some b ∧
      a.eq (· == ·) (· == ·) b = true := by
    have h : ((Simple.nodeAt [] (simpleHistory Sample.cfg (calls [2, 1, 3]) Simple.Map.new).2).any
        fun a => (Simple.nodeAt [] (simpleHistory Sample.cfg (calls [2, 3, 1]) Simple.Map.new).2).any
        fun b => a.eq (· == ·) (· == ·) b) = true := by decide +kernel
    obtain ⟨a, ha, h⟩ := of_any h
    obtain ⟨b, hb, h⟩ := of_any h
    exact ⟨a, b, ha, hb, h⟩
  obtain ⟨a, b, ha, hb, h⟩ := h
  exact C55_implies _ _ (calls_shared _) (calls_lawful _) (calls_shared _) (calls_lawful _)
    (by decide) (fun _ _ => rfl) (by decide) (by decide) (fun _ _ => rfl) (by decide) _ _ ha hb h

end BST.Props
