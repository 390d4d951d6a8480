import Verif.Proofs.Client
import Verif.SetsAsMaps
/-!
# Histories lead to reachable maps

Every map that a history leaves is reachable, so what is proved of reachable maps holds of it.
-/
namespace BST
open BSTMap Tree Spec
variable {K V α β : Type} {cfg : Cfg} {ok : K → Probe K → Prop}

namespace Reach

/-- A computation that leads from reachable maps to reachable maps. -/
def Closes (cfg : Cfg) (ok : K → Probe K → Prop) (f : M (BSTMap K V) α) : Prop :=
  ∀ m, Reach cfg ok m → Reach cfg ok (f m).2

theorem Closes.pure (a : α) : Closes cfg ok (Pure.pure a : M (BSTMap K V) α) := fun _ h => h
theorem Closes.read (f : BSTMap K V → Out α) : Closes cfg ok (M.read f) := fun _ h => h
theorem Closes.lift (o : Out α) : Closes cfg ok (M.lift o : M (BSTMap K V) α) := fun _ h => h
theorem Closes.get : Closes cfg ok (M.get : M (BSTMap K V) _) := fun _ h => h

theorem Closes.bind {f : M (BSTMap K V) α} {g : α → M (BSTMap K V) β} (hf : Closes cfg ok f)
    (hg : ∀ a, Closes cfg ok (g a)) : Closes cfg ok (f >>= g) := by
  intro m hm
  have := hf m hm
  rw [M.bind_apply]
  rcases h : f m with ⟨o, m'⟩
  rw [h] at this
  cases o with
  | ok a => exact hg a m' this
  | panic => exact this
  | abort => exact this
  | ub => exact this
  | diverge => exact this

/-- Every node of the tree can be had with a mutable iterator. -/
theorem handed {m : BSTMap K V} {t : Tree K V} (h : Shape cfg m t) {p : Ptr} (hp : p ∈ t.ptrs) :
    Handed m p := by
  obtain ⟨e, he, rfl⟩ := List.mem_map.1 (t.ino_ptrs_perm.mem_iff.2 hp)
  exact .inorder (iterMutInorder_spec h) (List.mem_map.2 ⟨e, he, rfl⟩)

theorem Closes.write (p : Ptr) (v : V) : Closes cfg ok (onNodes (writeValue p v)) := by
  intro m hm
  obtain ⟨t, h⟩ := hm.shape
  by_cases hp : p ∈ t.ptrs
  · exact .write hm (handed h hp) rfl
  · have hn : m.nodes.view p = none := by
      cases hv : m.nodes.view p with
      | none => rfl
      | some x => exact absurd ((h.live p).1 (by rw [hv]; rfl)) hp
    have he : onNodes (writeValue p v) m = (.ub, m) := by
      simp only [onNodes, writeValue, Slab.updateUnchecked, M.read_bind]
      rw [Slab.getUnchecked_eq, hn]
      rfl
    rw [he]
    exact hm

theorem Closes.swap (p : Ptr) (v : V) : Closes cfg ok (onNodes (swapValue p v)) := by
  intro m hm
  have hw := Closes.write p v m hm
  have e : onNodes (swapValue p v) m = (M.read (fun m : BSTMap K V => m.nodes.getUnchecked p) >>= fun x =>
      onNodes (writeValue p v) >>= fun _ => Pure.pure x.value) m := by
    simp only [swapValue, onNodes, M.bind_apply, M.read]
    cases m.nodes.getUnchecked p with
    | ok x =>
      dsimp only
      rcases writeValue p v m.nodes with ⟨o, s⟩
      cases o <;> rfl
    | panic => rfl
    | abort => rfl
    | ub => rfl
    | diverge => rfl
  rw [e]
  exact Closes.bind (.read _) (fun _ => Closes.bind (.write p v) fun _ => .pure _) m hm

theorem Closes.of_state {f : M (BSTMap K V) α} (h : ∀ m t, Shape cfg m t → (f m).2 = m) : Closes cfg ok f := by
  intro m hm
  obtain ⟨t, hs⟩ := hm.shape
  rw [h m t hs]
  exact hm

theorem Closes.client (o : Order) : ∀ (steps : List (Step V)) (refs : List (K × Ptr)) (st : Stack),
    Closes cfg ok (clientRun o steps refs st)
  | [], _, _ => .pure _
  | .next :: steps, _, _ => .bind (.read _) fun x => client o steps _ x.2
  | .write i v :: steps, refs, st => by
    unfold clientRun
    cases refs[i]? with
    | none => exact .bind (.pure ()) fun _ => client o steps refs st
    | some r => exact .bind (.write r.2 v) fun _ => client o steps refs st

theorem Closes.assign {f : BSTMap K V → Out Unit × BSTMap K V}
    (h : ∀ m m', Reach cfg ok m → f m = (.ok (), m') → Reach cfg ok m') : Closes cfg ok (BSTMap.assign f) := by
  intro m hm
  rw [BSTMap.assign]
  rcases hf : f m with ⟨o, m'⟩
  cases o with
  | ok u => exact h m m' hm hf
  | panic => exact hm
  | abort => exact hm
  | ub => exact hm
  | diverge => exact hm

end Reach

open Reach in
/-- One call. -/
theorem Op.run_closes {op : Op K V} (hc : op.Calm) (ha : op.Allowed ok) : Closes cfg ok (op.run cfg) := by
  cases op with
  | withCapacity n => exact .bind (.assign fun _ _ _ h => .withCapacity h) fun _ => .pure _
  | collect cmps src => exact .bind (.assign fun _ _ _ h => .fromIter ha h) fun _ => .pure _
  | cloned cmps f g => exact .bind (.assign fun _ _ hm h => .clone hm ha h) fun _ => .pure _
  | insert c k v => exact .bind (fun _ hm => .insert hm ha rfl) fun _ => .pure _
  | remove c => exact .bind (fun _ hm => .remove hm rfl) fun _ => .pure _
  | removeEntry c => exact .bind (fun _ hm => .removeEntry hm rfl) fun _ => .pure _
  | get c => exact .bind (.read _) fun _ => .pure _
  | getEntry c => exact .bind (.read _) fun _ => .pure _
  | containsKey c => exact .bind (.read _) fun _ => .pure _
  | getMut c w =>
    refine .bind (.of_state fun m t h => by rw [getMut_spec h]) fun r => ?_
    cases r with
    | none => exact .pure _
    | some p => exact .bind (.swap p w) fun _ => .pure _
  | getEntryMut c w =>
    refine .bind (.of_state fun m t h => by rw [getEntryMut_spec h]) fun r => ?_
    cases r with
    | none => exact .pure _
    | some p => exact .bind (.swap p.2 w) fun _ => .pure _
  | node path => exact .bind (.read _) fun _ => .pure _
  | nodeMut path w =>
    intro m hm
    obtain ⟨t, h⟩ := hm.shape
    show Reach cfg ok ((nodeMutAt path >>= _) m).2
    rw [M.bind_ok (nodeMutAt_ok h path)]
    cases hs : t.sub path with
    | leaf => exact hm
    | node q l k v r =>
      have hr := h.rep.sub path
      rw [hs] at hr
      show Reach cfg ok ((onNodes (NodeMut.key ⟨q⟩) >>= _) m).2
      rw [M.bind_ok (onNodes_pure (key_ok hr)), M.bind_ok (onNodes_pure (valueMut_ok hr))]
      exact Closes.bind (.swap q w) (fun _ => .pure _) m hm
  | iter o n => exact .bind (.read _) fun _ => .bind (.read _) fun _ => .pure _
  | iterMut o steps =>
    refine .bind ?_ fun _ => .pure _
    exact .bind (.read _) fun st => .bind (.client o steps [] st) fun _ => .pure _
  | len => exact .bind (.read _) fun _ => .pure _
  | isEmpty => exact .bind (.read _) fun _ => .pure _
  | capacity => exact .bind .get fun _ => .pure _
  | clear d => exact .bind (fun _ hm => .clear hm hc rfl) fun _ => .pure _
  | reserve n => exact .bind (fun _ hm => .reserve hm rfl) fun _ => .pure _
  | shrinkToFit => exact .bind (fun _ hm => .shrinkToFit hm rfl) fun _ => .pure _
  | extend cmps src => exact .bind (fun _ hm => .extend hm ha rfl) fun _ => .pure _
  | debug dk dv => exact .bind (.read _) fun _ => .pure _

theorem history_reach {m : BSTMap K V} (hm : Reach cfg ok m) {ops : List (Op K V)}
    (hops : ∀ op ∈ ops, op.Calm ∧ op.Allowed ok) : Reach cfg ok (history cfg ops m).2 := by
  induction ops generalizing m with
  | nil => exact hm
  | cons op ops ih =>
    have h1 := Op.run_closes (cfg := cfg) (hops op (.head _)).1 (hops op (.head _)).2 m hm
    rw [history]
    rcases hr : op.run cfg m with ⟨o, m'⟩
    rw [hr] at h1
    have h2 := ih h1 fun op ho => hops op (.tail _ ho)
    cases o with
    | ok r => exact h2
    | panic => exact h2
    | abort => exact h1
    | ub => exact h1
    | diverge => exact h1

end BST
