import Verif.Proofs.Unwind
/-!
# `UnwindSafe`, `RefUnwindSafe` and `Unpin`

`HoldsAuto env tr t`: by the rules of the language and the fields of the types of the crates
(`Verif/Model/Unwind.lean`), the type `t` has the trait `tr`. The types `k`, `v`, `t` are
arbitrary.
-/
namespace BST.Props
open Spec (Order)
open Threads

variable {env : Auto → Nat → Prop} {k v t : Ty} {o : Order}

/-- C63. A `BSTMap` (`BSTSet`) may be moved into `catch_unwind` iff its keys and values may, both
by value and by reference; a reference to it may iff references to its keys and values may. -/
theorem C63_map :
    (HoldsAuto env .unwindSafe (.map k v) ↔
      (HoldsAuto env .unwindSafe k ∧ HoldsAuto env .unwindSafe (.ref k)) ∧
      HoldsAuto env .unwindSafe v ∧ HoldsAuto env .unwindSafe (.ref v)) ∧
    (HoldsAuto env .unwindSafe (.ref (.map k v)) ↔
      HoldsAuto env .unwindSafe (.ref k) ∧ HoldsAuto env .unwindSafe (.ref v)) ∧
    (HoldsAuto env .unwindSafe (.set t) ↔
      HoldsAuto env .unwindSafe t ∧ HoldsAuto env .unwindSafe (.ref t)) ∧
    (HoldsAuto env .unwindSafe (.ref (.set t)) ↔ HoldsAuto env .unwindSafe (.ref t)) := by
  simp only [auto_map, auto_set, auto_ref, Auto.Behind, and_self]
  exact ⟨⟨fun h => ⟨⟨h.1.2, h.1.1⟩, h.2.2, h.2.1⟩, fun h => ⟨⟨h.1.2, h.1.1⟩, h.2.2, h.2.1⟩⟩, trivial,
    ⟨fun h => ⟨h.2, h.1⟩, fun h => ⟨h.2, h.1⟩⟩, trivial⟩

/-- C63. A `SimpleBSTMap` (`SimpleBSTSet`) follows its contents, by value and by reference. So a
`SimpleBSTMap` may be moved into `catch_unwind` wherever the corresponding `BSTMap` may. -/
theorem C63_simple (tr : Auto) :
    (HoldsAuto env tr (.simpleMap k v) ↔ HoldsAuto env tr k ∧ HoldsAuto env tr v) ∧
    (HoldsAuto env tr (.simpleNode k v) ↔ HoldsAuto env tr k ∧ HoldsAuto env tr v) ∧
    (HoldsAuto env tr (.simpleSet t) ↔ HoldsAuto env tr t) ∧
    (HoldsAuto env tr (.map k v) → HoldsAuto env tr (.simpleMap k v)) ∧
    (HoldsAuto env tr (.set t) → HoldsAuto env tr (.simpleSet t)) :=
  ⟨auto_simpleMap, auto_simpleNode, auto_simpleSet,
    fun h => auto_simpleMap.2 ⟨(auto_map.1 h).1.2, (auto_map.1 h).2.2⟩,
    fun h => auto_simpleSet.2 (auto_set.1 h).2⟩

/-- C63. The handles that give shared access behave like references to the keys and values. -/
theorem C63_shared (tr : Auto) :
    (HoldsAuto env tr (.node k v) ↔ HoldsAuto env tr (.ref k) ∧ HoldsAuto env tr (.ref v)) ∧
    (HoldsAuto env tr (.iter o k v) ↔ HoldsAuto env tr (.ref k) ∧ HoldsAuto env tr (.ref v)) ∧
    (HoldsAuto env tr (.setNode t) ↔ HoldsAuto env tr (.ref t)) ∧
    (HoldsAuto env tr (.setIter o t) ↔ HoldsAuto env tr (.ref t)) ∧
    (HoldsAuto env tr (.simpleIter o k v) ↔
      HoldsAuto env tr (.ref k) ∧ HoldsAuto env tr (.ref v)) ∧
    (HoldsAuto env tr (.simpleSetNode t) ↔ HoldsAuto env tr (.ref t)) ∧
    (HoldsAuto env tr (.simpleSetIter o t) ↔ HoldsAuto env tr (.ref t)) := by
  simp only [auto_ref]
  exact ⟨auto_node, auto_iter, auto_setNode, auto_setIter, auto_simpleIter, auto_simpleSetNode,
    auto_simpleSetIter⟩

/-- C63. The handles through which values can be written behave like exclusive references: they
may never be moved into `catch_unwind` (without `AssertUnwindSafe`). -/
theorem C63_mut (tr : Auto) :
    (HoldsAuto env tr (.nodeMut k v) ↔
      HoldsAuto env tr (.refMut k) ∧ HoldsAuto env tr (.refMut v)) ∧
    (HoldsAuto env tr (.iterMut o k v) ↔
      HoldsAuto env tr (.refMut k) ∧ HoldsAuto env tr (.refMut v)) ∧
    ¬ HoldsAuto env .unwindSafe (.nodeMut k v) ∧ ¬ HoldsAuto env .unwindSafe (.iterMut o k v) := by
  simp only [auto_nodeMut, auto_iterMut, auto_refMut]
  refine ⟨?_, ?_, by simp, by simp⟩ <;>
    exact ⟨fun h => ⟨⟨h.1, h.2.1⟩, h.1, h.2.2⟩, fun h => ⟨h.1.1, h.1.2, h.2.2⟩⟩

/-- C63. A `BSTMap`, which keeps its entries at fixed addresses on the heap, is nevertheless
`Unpin` only if its keys and values are (because of the markers), like `Vec`; all handles are
always `Unpin`. -/
theorem C63_unpin :
    (HoldsAuto env .unpin (.map k v) ↔ HoldsAuto env .unpin k ∧ HoldsAuto env .unpin v) ∧
    (HoldsAuto env .unpin (.set t) ↔ HoldsAuto env .unpin (.vec t)) ∧
    HoldsAuto env .unpin (.node k v) ∧ HoldsAuto env .unpin (.nodeMut k v) ∧
    HoldsAuto env .unpin (.iter o k v) ∧ HoldsAuto env .unpin (.iterMut o k v) := by
  simp [auto_map, auto_set, auto_vec, auto_node, auto_nodeMut, auto_iter, auto_iterMut, Auto.Behind]

/-! ### Examples -/

/-- Parameter 0 is like `RefCell<i32>` (`UnwindSafe` and `Unpin`, not `RefUnwindSafe`),
1 like `PhantomPinned` (everything but `Unpin`). -/
def sampleAuto : Auto → Nat → Prop
  | .unwindSafe, _ => True
  | .refUnwindSafe, i => i = 1
  | .unpin, i => i = 0

theorem sampleAuto_param (tr : Auto) (i : Nat) :
    HoldsAuto sampleAuto tr (.param i) ↔ sampleAuto tr i := by
  rw [auto_iff]; cases tr <;> exact .rfl

-- `C63_map`, `C63_simple`: a `SimpleBSTMap<i32, RefCell<i32>>` may be moved into `catch_unwind`, a
-- `BSTMap<i32, RefCell<i32>>` may not. A map of numbers may.
example : HoldsAuto sampleAuto .unwindSafe (.simpleMap .plain (.param 0)) ∧
    ¬ HoldsAuto sampleAuto .unwindSafe (.map .plain (.param 0)) ∧
    HoldsAuto sampleAuto .unwindSafe (.map .plain .plain) ∧
    HoldsAuto sampleAuto .unwindSafe (.map .plain (.set (.param 1))) := by
  simp [auto_simpleMap, auto_map, auto_set, auto_plain, sampleAuto_param, sampleAuto, Auto.Behind]

-- `C63_shared`, `C63_mut`, `C63_unpin`
example : HoldsAuto sampleAuto .unwindSafe (.node .plain .plain) ∧
    ¬ HoldsAuto sampleAuto .unwindSafe (.iter .ino .plain (.param 0)) ∧
    ¬ HoldsAuto sampleAuto .unwindSafe (.nodeMut .plain .plain) ∧
    HoldsAuto sampleAuto .refUnwindSafe (.nodeMut .plain .plain) ∧
    ¬ HoldsAuto sampleAuto .unpin (.map .plain (.param 1)) ∧
    HoldsAuto sampleAuto .unpin (.nodeMut .plain (.param 1)) := by
  simp [auto_node, auto_iter, auto_nodeMut, auto_map, auto_plain, sampleAuto_param, sampleAuto,
    Auto.Behind]

end BST.Props
