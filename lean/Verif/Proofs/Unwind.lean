import Verif.Model.Unwind
/-!
# `UnwindSafe`, `RefUnwindSafe` and `Unpin`: the derived traits
-/
namespace BST.Threads
open Spec (Order)
variable {env : Auto → Nat → Prop} {tr : Auto}

theorem DerivesAuto.mono {S S' : Auto → Ty → Prop} (h : ∀ tr t, S tr t → S' tr t) {t : Ty}
    (hd : DerivesAuto env S tr t) : DerivesAuto env S' tr t := by
  cases tr <;> cases t <;> first
    | exact hd
    | exact h _ _ hd
    | exact fun f hf => h _ _ (hd f hf)

/-- The traits that hold are exactly those that can be derived from traits that hold. -/
theorem auto_iff (env : Auto → Nat → Prop) (tr : Auto) (t : Ty) :
    HoldsAuto env tr t ↔ DerivesAuto env (HoldsAuto env) tr t := by
  have fwd : ∀ tr t, HoldsAuto env tr t → DerivesAuto env (HoldsAuto env) tr t := by
    rintro tr t ⟨S, h1, h2⟩
    exact (h1 _ _ h2).mono fun tr t h => ⟨S, h1, h⟩
  refine ⟨fwd tr t, fun h => ⟨DerivesAuto env (HoldsAuto env), fun tr t h => h.mono fwd, h⟩⟩

section
variable {t k v : Ty} {o : Order}

theorem auto_plain : HoldsAuto env tr .plain := (auto_iff ..).2 (by cases tr <;> trivial)
theorem auto_vec : HoldsAuto env tr (.vec t) ↔ HoldsAuto env tr t := by
  rw [auto_iff]; cases tr <;> exact .rfl
theorem auto_opt : HoldsAuto env tr (.opt t) ↔ HoldsAuto env tr t := by
  rw [auto_iff]; cases tr <;> exact .rfl
theorem auto_phantom : HoldsAuto env tr (.phantom t) ↔ HoldsAuto env tr t := by
  rw [auto_iff]; cases tr <;> exact .rfl
theorem auto_manuallyDrop : HoldsAuto env tr (.manuallyDrop t) ↔ HoldsAuto env tr t := by
  rw [auto_iff]; cases tr <;> exact .rfl
theorem auto_maybeUninit : HoldsAuto env tr (.maybeUninit t) ↔ HoldsAuto env tr t := by
  rw [auto_iff]; cases tr <;> exact .rfl

/-- What must hold of the target of a shared reference or a pointer. -/
def Auto.Behind (env : Auto → Nat → Prop) (t : Ty) : Auto → Prop
  | .unpin => True
  | _ => HoldsAuto env .refUnwindSafe t

theorem auto_ref : HoldsAuto env tr (.ref t) ↔ tr.Behind env t := by
  rw [auto_iff]; cases tr <;> exact .rfl
theorem auto_raw : HoldsAuto env tr (.raw t) ↔ tr.Behind env t := by
  rw [auto_iff]; cases tr <;> exact .rfl
theorem auto_refMut : HoldsAuto env tr (.refMut t) ↔ tr ≠ .unwindSafe ∧ tr.Behind env t := by
  rw [auto_iff]; cases tr <;> simp [DerivesAuto, Auto.Behind]
theorem auto_box : HoldsAuto env tr (.box t) ↔ tr = .unpin ∨ HoldsAuto env tr t := by
  rw [auto_iff]; cases tr <;> simp [DerivesAuto]

theorem auto_struct (h : fields t ≠ []) :
    HoldsAuto env tr t ↔ ∀ f ∈ fields t, HoldsAuto env tr f := by
  rw [auto_iff]
  cases tr <;> cases t <;> first | exact .rfl | exact absurd rfl h

theorem auto_ptr : HoldsAuto env tr .ptr := by
  rw [auto_struct (by simp [fields])]
  cases tr <;> simp [fields, auto_raw, Auto.Behind, auto_plain]

theorem auto_strategy : HoldsAuto env tr .strategy := by
  rw [auto_struct (by simp [fields])]; simp [fields, auto_plain]

theorem auto_arena : HoldsAuto env tr (.arena t) ↔ tr.Behind env t ∧ HoldsAuto env tr t := by
  rw [auto_struct (by simp [fields])]
  cases tr <;> simp [fields, auto_vec, auto_raw, auto_plain, auto_strategy, auto_phantom,
    Auto.Behind, auto_maybeUninit]

theorem auto_freeEntry : HoldsAuto env tr .freeEntry := by
  rw [auto_struct (by simp [fields])]; simp [fields, auto_opt, auto_ptr]

theorem auto_entry : HoldsAuto env tr (.entry t) ↔ HoldsAuto env tr t := by
  rw [auto_struct (by simp [fields])]; simp [fields, auto_manuallyDrop, auto_freeEntry]

theorem auto_slab : HoldsAuto env tr (.slab t) ↔ tr.Behind env t ∧ HoldsAuto env tr t := by
  rw [auto_struct (by simp [fields])]
  cases tr <;> simp [fields, auto_arena, auto_entry, auto_opt, auto_ptr, auto_plain, auto_phantom,
    Auto.Behind]

theorem auto_innerNode :
    HoldsAuto env tr (.innerNode k v) ↔ HoldsAuto env tr k ∧ HoldsAuto env tr v := by
  rw [auto_struct (by simp [fields])]; simp [fields, auto_opt, auto_ptr]

theorem behind_innerNode :
    tr.Behind env (.innerNode k v) ↔ tr.Behind env k ∧ tr.Behind env v := by
  cases tr <;> simp [Auto.Behind, auto_innerNode]

theorem behind_slab : tr.Behind env (.slab t) ↔ tr.Behind env t := by
  cases tr <;> simp [Auto.Behind, auto_slab]

theorem auto_map : HoldsAuto env tr (.map k v) ↔
    (tr.Behind env k ∧ HoldsAuto env tr k) ∧ tr.Behind env v ∧ HoldsAuto env tr v := by
  rw [auto_struct (by simp [fields])]
  simp only [fields, List.forall_mem_cons, auto_slab, behind_innerNode, auto_innerNode, auto_opt]
  exact ⟨fun h => ⟨⟨h.1.1.1, h.1.2.1⟩, h.1.1.2, h.1.2.2⟩,
    fun h => ⟨⟨⟨h.1.1, h.2.1⟩, h.1.2, h.2.2⟩, auto_ptr, by simp⟩⟩

theorem auto_node :
    HoldsAuto env tr (.node k v) ↔ tr.Behind env k ∧ tr.Behind env v := by
  rw [auto_struct (by simp [fields])]
  simp [fields, auto_ref, behind_slab, behind_innerNode]

theorem auto_iter :
    HoldsAuto env tr (.iter o k v) ↔ tr.Behind env k ∧ tr.Behind env v := by
  rw [auto_struct (by simp [fields])]
  simp [fields, auto_ref, behind_slab, behind_innerNode, auto_vec, auto_ptr]

theorem auto_nodeMut : HoldsAuto env tr (.nodeMut k v) ↔
    tr ≠ .unwindSafe ∧ tr.Behind env k ∧ tr.Behind env v := by
  rw [auto_struct (by simp [fields])]
  simp only [fields, List.forall_mem_cons, auto_raw, auto_refMut, behind_slab, behind_innerNode]
  exact ⟨fun h => h.2.1, fun h => ⟨h.2, h, by simp⟩⟩

theorem auto_iterMut : HoldsAuto env tr (.iterMut o k v) ↔
    tr ≠ .unwindSafe ∧ tr.Behind env k ∧ tr.Behind env v := by
  rw [auto_struct (by simp [fields])]
  simp only [fields, List.forall_mem_cons, auto_raw, auto_refMut, behind_slab, behind_innerNode,
    auto_vec, auto_phantom]
  exact ⟨fun h => h.2.2.1, fun h => ⟨h.2, auto_ptr, h, by simp⟩⟩

theorem auto_set : HoldsAuto env tr (.set t) ↔ tr.Behind env t ∧ HoldsAuto env tr t := by
  rw [auto_struct (by simp [fields])]
  cases tr <;> simp [fields, auto_map, auto_plain, Auto.Behind]

theorem auto_setNode : HoldsAuto env tr (.setNode t) ↔ tr.Behind env t := by
  rw [auto_struct (by simp [fields])]
  cases tr <;> simp [fields, auto_node, auto_plain, Auto.Behind]

theorem auto_setIter : HoldsAuto env tr (.setIter o t) ↔ tr.Behind env t := by
  rw [auto_struct (by simp [fields])]
  cases tr <;> simp [fields, auto_iter, auto_plain, Auto.Behind]

/-- Here the cycle matters: a node contains boxes of nodes. -/
theorem auto_simpleNode :
    HoldsAuto env tr (.simpleNode k v) ↔ HoldsAuto env tr k ∧ HoldsAuto env tr v := by
  constructor
  · intro h
    rw [auto_struct (by simp [fields])] at h
    exact ⟨h k (by simp [fields]), h v (by simp [fields])⟩
  · rintro ⟨hk, hv⟩
    refine ⟨fun tr' t => HoldsAuto env tr' t ∨ tr' = tr ∧ (t = .simpleNode k v ∨
      t = .box (.simpleNode k v) ∨ t = .opt (.box (.simpleNode k v))), ?_, .inr ⟨rfl, .inl rfl⟩⟩
    rintro tr' t (h | ⟨rfl, rfl | rfl | rfl⟩)
    · exact ((auto_iff ..).1 h).mono fun _ _ => .inl
    · cases tr' <;>
      · show ∀ f ∈ fields _, _
        simp only [fields, List.forall_mem_cons]
        exact ⟨.inl hk, .inl hv, .inr ⟨trivial, .inr (.inr trivial)⟩,
          .inr ⟨trivial, .inr (.inr trivial)⟩, by simp⟩
    · cases tr' <;> first | exact .inr ⟨rfl, .inl rfl⟩ | trivial
    · cases tr' <;> exact .inr ⟨rfl, .inr (.inl rfl)⟩

theorem behind_simpleNode :
    tr.Behind env (.simpleNode k v) ↔ tr.Behind env k ∧ tr.Behind env v := by
  cases tr <;> simp [Auto.Behind, auto_simpleNode]

theorem auto_simpleMap :
    HoldsAuto env tr (.simpleMap k v) ↔ HoldsAuto env tr k ∧ HoldsAuto env tr v := by
  rw [auto_struct (by simp [fields])]
  simp [fields, auto_opt, auto_plain, auto_simpleNode]

theorem auto_simpleSet : HoldsAuto env tr (.simpleSet t) ↔ HoldsAuto env tr t := by
  rw [auto_struct (by simp [fields])]; simp [fields, auto_simpleMap, auto_plain]

theorem auto_simpleIter :
    HoldsAuto env tr (.simpleIter o k v) ↔ tr.Behind env k ∧ tr.Behind env v := by
  rw [auto_struct (by simp [fields])]; simp [fields, auto_vec, auto_ref, behind_simpleNode]

theorem auto_simpleSetNode : HoldsAuto env tr (.simpleSetNode t) ↔ tr.Behind env t := by
  rw [auto_struct (by simp [fields])]
  cases tr <;> simp [fields, auto_ref, auto_simpleNode, Auto.Behind, auto_plain]

theorem auto_simpleSetIter : HoldsAuto env tr (.simpleSetIter o t) ↔ tr.Behind env t := by
  rw [auto_struct (by simp [fields])]
  cases tr <;> simp [fields, auto_simpleIter, Auto.Behind, auto_plain]
end
end BST.Threads
