import Verif.Model.Threads
/-!
# `Send` and `Sync`: the derived traits
-/
namespace BST.Threads
open Spec (Order)
variable {env : Trait → Nat → Prop} {tr : Trait}

theorem Derives.mono {S S' : Trait → Ty → Prop} (h : ∀ tr t, S tr t → S' tr t) {t : Ty}
    (hd : Derives env S tr t) : Derives env S' tr t := by
  cases tr <;> cases t <;> first
    | exact hd
    | exact h _ _ hd
    | exact fun f hf => h _ _ (hd f hf)

/-- The traits that hold are exactly those that can be derived from traits that hold. -/
theorem holds_iff (env : Trait → Nat → Prop) (tr : Trait) (t : Ty) :
    Holds env tr t ↔ Derives env (Holds env) tr t := by
  have fwd : ∀ tr t, Holds env tr t → Derives env (Holds env) tr t := by
    rintro tr t ⟨S, h1, h2⟩
    exact (h1 _ _ h2).mono fun tr t h => ⟨S, h1, h⟩
  refine ⟨fwd tr t, fun h => ⟨Derives env (Holds env), fun tr t h => h.mono fwd, h⟩⟩

section
variable {t k v : Ty}
theorem holds_plain : Holds env tr .plain := (holds_iff ..).2 trivial
theorem holds_ref : Holds env tr (.ref t) ↔ Holds env .sync t := holds_iff ..
theorem holds_refMut : Holds env tr (.refMut t) ↔ Holds env tr t := holds_iff ..
theorem holds_raw : ¬ Holds env tr (.raw t) := fun h => (holds_iff ..).1 h
theorem holds_vec : Holds env tr (.vec t) ↔ Holds env tr t := holds_iff ..
theorem holds_opt : Holds env tr (.opt t) ↔ Holds env tr t := holds_iff ..
theorem holds_box : Holds env tr (.box t) ↔ Holds env tr t := holds_iff ..
theorem holds_phantom : Holds env tr (.phantom t) ↔ Holds env tr t := holds_iff ..
theorem holds_manuallyDrop : Holds env tr (.manuallyDrop t) ↔ Holds env tr t := holds_iff ..

theorem holds_ptr : Holds env tr .ptr := by
  rw [holds_iff]; cases tr <;> simp [Derives, impls]

theorem holds_arena : Holds env tr (.arena t) ↔ Holds env tr t := by
  rw [holds_iff]; cases tr <;> simp [Derives, impls]

theorem holds_freeEntry : Holds env tr .freeEntry := by
  rw [holds_iff]; cases tr <;> simp [Derives, impls, fields, holds_opt, holds_ptr]

theorem holds_entry : Holds env tr (.entry t) ↔ Holds env tr t := by
  rw [holds_iff]
  cases tr <;> simp [Derives, impls, fields, holds_freeEntry, holds_manuallyDrop]

theorem holds_slab : Holds env tr (.slab t) ↔ Holds env tr t := by
  rw [holds_iff]
  cases tr <;> simp [Derives, impls, fields, holds_arena, holds_entry, holds_opt, holds_ptr,
    holds_plain, holds_phantom]

theorem holds_innerNode : Holds env tr (.innerNode k v) ↔ Holds env tr k ∧ Holds env tr v := by
  rw [holds_iff]
  cases tr <;> simp [Derives, impls, fields, holds_opt, holds_ptr]

theorem holds_map : Holds env tr (.map k v) ↔ Holds env tr k ∧ Holds env tr v := by
  rw [holds_iff]
  cases tr <;> simp [Derives, impls, fields, holds_opt, holds_ptr, holds_slab, holds_innerNode]

theorem holds_node : Holds env tr (.node k v) ↔ Holds env .sync k ∧ Holds env .sync v := by
  rw [holds_iff]
  cases tr <;> simp [Derives, impls, fields, holds_ref, holds_slab, holds_innerNode]

theorem holds_nodeMut : Holds env tr (.nodeMut k v) ↔ Holds env tr k ∧ Holds env tr v := by
  rw [holds_iff]; cases tr <;> simp [Derives, impls]

theorem holds_iter {o : Order} :
    Holds env tr (.iter o k v) ↔ Holds env .sync k ∧ Holds env .sync v := by
  rw [holds_iff]
  cases tr <;> simp [Derives, impls, fields, holds_ref, holds_slab, holds_innerNode, holds_vec,
    holds_ptr]

theorem holds_iterMut {o : Order} : ¬ Holds env tr (.iterMut o k v) := by
  rw [holds_iff]
  cases tr <;> simp [Derives, impls, fields, holds_raw]

theorem holds_set : Holds env tr (.set t) ↔ Holds env tr t := by
  rw [holds_iff]; cases tr <;> simp [Derives, impls, fields, holds_map, holds_plain]

theorem holds_setNode : Holds env tr (.setNode t) ↔ Holds env .sync t := by
  rw [holds_iff]; cases tr <;> simp [Derives, impls, fields, holds_node, holds_plain]

theorem holds_setIter {o : Order} : Holds env tr (.setIter o t) ↔ Holds env .sync t := by
  rw [holds_iff]; cases tr <;> simp [Derives, impls, fields, holds_iter, holds_plain]

/-- Here the cycle matters: a node contains boxes of nodes. -/
theorem holds_simpleNode : Holds env tr (.simpleNode k v) ↔ Holds env tr k ∧ Holds env tr v := by
  constructor
  · intro h
    rw [holds_iff] at h
    cases tr <;> exact ⟨h k (by simp [fields]), h v (by simp [fields])⟩
  · rintro ⟨hk, hv⟩
    refine ⟨fun tr' t => Holds env tr' t ∨ tr' = tr ∧ (t = .simpleNode k v ∨
      t = .box (.simpleNode k v) ∨ t = .opt (.box (.simpleNode k v))), ?_, .inr ⟨rfl, .inl rfl⟩⟩
    rintro tr' t (h | ⟨rfl, rfl | rfl | rfl⟩)
    · exact ((holds_iff ..).1 h).mono fun _ _ => .inl
    · cases tr' <;>
      · show ∀ f ∈ fields _, _
        simp only [fields, List.forall_mem_cons]
        exact ⟨.inl hk, .inl hv, .inr ⟨trivial, .inr (.inr trivial)⟩,
          .inr ⟨trivial, .inr (.inr trivial)⟩, by simp⟩
    · exact .inr ⟨rfl, .inl rfl⟩
    · exact .inr ⟨rfl, .inr (.inl rfl)⟩

theorem holds_simpleMap : Holds env tr (.simpleMap k v) ↔ Holds env tr k ∧ Holds env tr v := by
  rw [holds_iff]
  cases tr <;> simp [Derives, impls, fields, holds_opt, holds_plain, holds_simpleNode]

theorem holds_simpleIter {o : Order} :
    Holds env tr (.simpleIter o k v) ↔ Holds env .sync k ∧ Holds env .sync v := by
  rw [holds_iff]
  cases tr <;> simp [Derives, impls, fields, holds_vec, holds_ref, holds_simpleNode]

theorem holds_simpleSet : Holds env tr (.simpleSet t) ↔ Holds env tr t := by
  rw [holds_iff]; cases tr <;> simp [Derives, impls, fields, holds_simpleMap, holds_plain]

theorem holds_simpleSetNode : Holds env tr (.simpleSetNode t) ↔ Holds env .sync t := by
  rw [holds_iff]
  cases tr <;> simp [Derives, impls, fields, holds_ref, holds_simpleNode, holds_plain]

theorem holds_simpleSetIter {o : Order} :
    Holds env tr (.simpleSetIter o t) ↔ Holds env .sync t := by
  rw [holds_iff]
  cases tr <;> simp [Derives, impls, fields, holds_simpleIter, holds_plain]
end
end BST.Threads
