import Verif.Proofs.BoxHistory
import Verif.Proofs.Sample
/-!
# Aliasing rules: the boxes and raw pointers of a `SimpleBSTMap`
-/
namespace BST.Props
open Simple (Link)
variable {K V : Type} {cfg : Cfg}

/-! ### C56 -/

/-- C56 for the rules of Stacked Borrows. Any sequence of calls on a new `SimpleBSTMap`, with any
comparisons, which may contradict each other and panic:

* no call is undefined, and all loops end;
* if the allocator grants all requests and the address space suffices, no call aborts;
* if no call aborts, what is in memory is a tree of `len` nodes with a box for each of them but the
  root, and no other block. The map may be dropped; then all blocks have been freed, each once;
* the outcomes and the tree are those of the model in which trees are values. -/
theorem C56_stacked (he : 2 ≤ cfg.esize) (ops : List (BoxOp K V)) :
    let x := boxHistory Borrows cfg ops
    (∀ o ∈ x.1, o ≠ .ub ∧ o ≠ .diverge) ∧
    (ops.length * cfg.esize < usizeBound → (∀ i, cfg.allocOk i cfg.esize = true) →
      Out.abort ∉ x.1) ∧
    (Out.abort ∉ x.1 → ∃ t, Boxes.Holds x.2 t ∧ x.2.len = t.size ∧
      x.2.heap.blocks.length = t.size - 1 + 1 ∧
      (Boxes.dropMap x.2).1 = .ok () ∧ (Boxes.dropMap x.2).2.heap.blocks = [] ∧
      ∀ cfg' : Cfg, 2 ≤ cfg'.esize →
        let y := simpleHistory cfg' (ops.map BoxOp.plain) Simple.Map.new
        Out.abort ∉ y.1 → y.1 = x.1 ∧ y.2.root = t) := by
  obtain ⟨h1, h2, h3⟩ := Boxes.history_run (n := ops.length) he ops
    (Boxes.new_map : Boxes.MapIs (Boxes.Mem.new : Boxes.Mem Borrows K V) .nil) (by simp [Link.size])
    (Prod.eta _).symm
  refine ⟨h1, fun hb ha => h2 ⟨hb, ha⟩, fun ha => ?_⟩
  obtain ⟨t, hm, h4⟩ := h3 ha
  obtain ⟨h5, h6⟩ := Boxes.drop_done hm
  have h7 := hm.blocks
  exact ⟨t, hm.holds, hm.len, by simpa [boxHistory, ChainLaws.layout, Borrows.layout] using h7, h5,
    List.map_eq_nil_iff.1 h6, fun cfg' he' ha' =>
      h4 cfg' Simple.Map.new _ he' rfl rfl _ (Prod.eta _).symm ha'⟩

/-- C56 for the rules of Tree Borrows. -/
theorem C56_tree (he : 2 ≤ cfg.esize) (ops : List (BoxOp K V)) :
    let x := boxHistory Trees cfg ops
    (∀ o ∈ x.1, o ≠ .ub ∧ o ≠ .diverge) ∧
    (ops.length * cfg.esize < usizeBound → (∀ i, cfg.allocOk i cfg.esize = true) →
      Out.abort ∉ x.1) ∧
    (Out.abort ∉ x.1 → ∃ t, Boxes.Holds x.2 t ∧ x.2.len = t.size ∧
      x.2.heap.blocks.length = t.size - 1 + 1 ∧
      (Boxes.dropMap x.2).1 = .ok () ∧ (Boxes.dropMap x.2).2.heap.blocks = [] ∧
      ∀ cfg' : Cfg, 2 ≤ cfg'.esize →
        let y := simpleHistory cfg' (ops.map BoxOp.plain) Simple.Map.new
        Out.abort ∉ y.1 → y.1 = x.1 ∧ y.2.root = t) := by
  obtain ⟨h1, h2, h3⟩ := Boxes.history_run (n := ops.length) he ops
    (Boxes.new_map : Boxes.MapIs (Boxes.Mem.new : Boxes.Mem Trees K V) .nil) (by simp [Link.size])
    (Prod.eta _).symm
  refine ⟨h1, fun hb ha => h2 ⟨hb, ha⟩, fun ha => ?_⟩
  obtain ⟨t, hm, h4⟩ := h3 ha
  obtain ⟨h5, h6⟩ := Boxes.drop_done hm
  have h7 := hm.blocks
  exact ⟨t, hm.holds, hm.len, by simpa [boxHistory, ChainLaws.layout, Trees.layout] using h7, h5,
    List.map_eq_nil_iff.1 h6, fun cfg' he' ha' =>
      h4 cfg' Simple.Map.new _ he' rfl rfl _ (Prod.eta _).symm ha'⟩

/-- There is only one tree in memory: the statements above speak of that one. -/
theorem C56_unique {H : Type} [Aliasing H] {s : Boxes.Mem H K V} {t t' : Link K V}
    (h : Boxes.Holds s t) (h' : Boxes.Holds s t') : t = t' := h.unique h'

namespace BoxCase

def q (k : Nat) : Probe Nat := ask compare id k

/-- A comparison that panics the third time. -/
def bad (k : Nat) : Probe Nat := fun i x => if i = 2 then none else some (compare k x)

/-- All the cases of `remove_entry`: a leaf, a node with one child, nodes with two children whose
successor is the right child or deeper with a child of its own, the root, a missing key, a panic. -/
def ops : List (BoxOp Nat Nat) :=
  [.insert (q 5) 5 50, .insert (q 2) 2 20, .insert (q 12) 12 120, .insert (q 1) 1 10,
   .insert (q 3) 3 30, .insert (q 9) 9 90, .insert (q 14) 14 140, .insert (q 7) 7 70,
   .insert (q 8) 8 80, .insert (q 4) 4 40, .insert (q 2) 2 21, .insert (bad 0) 0 0,
   .removeEntry (bad 7), .removeEntry (q 5), .get (q 8), .removeEntry (q 2), .removeEntry (q 4),
   .removeEntry (q 1), .getMut (q 9) 91, .removeEntry (q 6), .removeEntry (q 14), .removeEntry (q 7),
   .get (q 9)]

/-- What C56 says of these calls. -/
example : let x := boxHistory Borrows Sample.cfg ops
    (∀ o ∈ x.1, o ≠ .ub ∧ o ≠ .diverge) ∧ Out.abort ∉ x.1 :=
  have h := C56_stacked (cfg := Sample.cfg) (by decide) ops
  ⟨h.1, h.2.1 (by decide) fun _ => rfl⟩

/-- It says that this computation, which goes through all the stacks, ends well. -/
example : (boxHistory Borrows Sample.cfg ops).1 =
    [.ok (.value none), .ok (.value none), .ok (.value none), .ok (.value none), .ok (.value none),
     .ok (.value none), .ok (.value none), .ok (.value none), .ok (.value none), .ok (.value none),
     .ok (.value (some 20)), .panic, .panic, .ok (.entry (some (5, 50))), .ok (.value (some 80)),
     .ok (.entry (some (2, 21))), .ok (.entry (some (4, 40))), .ok (.entry (some (1, 10))),
     .ok (.value (some 90)), .ok (.entry none), .ok (.entry (some (14, 140))),
     .ok (.entry (some (7, 70))), .ok (.value (some 91))] := by decide +kernel

/-- The root is replaced by its successor, which is deeper and has a child. -/
def few : List (BoxOp Nat Nat) :=
  [.insert (q 5) 5 50, .insert (q 2) 2 20, .insert (q 9) 9 90, .insert (q 7) 7 70,
   .insert (q 8) 8 80, .removeEntry (q 5), .getMut (q 8) 81, .removeEntry (bad 8)]

/-- This one goes through all the trees; after it there are three boxes and the map. -/
example : (boxHistory Trees Sample.cfg few).1 =
      [.ok (.value none), .ok (.value none), .ok (.value none), .ok (.value none),
       .ok (.value none), .ok (.entry (some (5, 50))), .ok (.value (some 80)), .panic] ∧
    (boxHistory Trees Sample.cfg few).2.heap.blocks.length = 4 ∧
    (Boxes.dropMap (boxHistory Trees Sample.cfg few).2).2.heap.blocks = [] := by decide +kernel

/-- A map whose box in block 1 contains the left child of the root. -/
def two : Boxes.Mem Borrows Nat Nat :=
  (boxHistory Borrows Sample.cfg [.insert (q 5) 5 50, .insert (q 2) 2 20]).2

/-- The rules do forbid something: a raw pointer to the root must not be used any more once the
map itself was borrowed again, -/
example : ((do
    let self ← Boxes.callMap .excl two.owner
    let root ← Boxes.rootOf .excl self
    let p ← Boxes.asPtrMut root
    let _ ← Boxes.callRoot .excl self
    match p with
    | some p => do let _ ← Boxes.reborrow .excl p; pure ()
    | none => pure () : M (Boxes.Mem Borrows Nat Nat) Unit) two).1 = .ub := by decide +kernel

/-- nor a pointer to a child once the box was taken out of the node. -/
example : ((do
    let self ← Boxes.callMap .excl two.owner
    match ← Boxes.rootOf .excl self with
    | none => pure ()
    | some root => do
      let r ← Boxes.childMut false root
      let p ← Boxes.asPtrMut r
      let _ ← Boxes.takeChild false root
      match p with
      | some p => do let _ ← Boxes.reborrow .excl p; pure ()
      | none => pure () : M (Boxes.Mem Borrows Nat Nat) Unit) two).1 = .ub := by decide +kernel

end BoxCase
end BST.Props
