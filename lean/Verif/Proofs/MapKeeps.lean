import Verif.Proofs.MapReads
/-!
# Calls by shared reference keep shared references usable, however they end
-/
namespace BST
variable {H K V α β : Type} [Aliasing H] [AliasLaws H]
open Spec (Order)

namespace TMap
open AliasLaws
variable {s s' : TMap H K V} {cfg : Cfg}

theorem Shared.of_keeps
    (h : ∀ q t, (view H).Seen s.heap q t → (view H).Seen s'.heap q t) : Shared s s' :=
  fun n hn => h n.ptr n.tag hn

theorem Shared.refl (s : TMap H K V) : Shared s s := fun _ h => h
theorem Shared.trans {a b c : TMap H K V} (h : Shared a b) (h' : Shared b c) : Shared a c :=
  fun n hn => h' n (h n hn)

/-- Shared references stay usable, however the call ends. -/
def Keeps (f : M (TMap H K V) α) : Prop := ∀ s, Shared s (f s).2

theorem Keeps.pure (a : α) : Keeps (Pure.pure a : M (TMap H K V) α) := fun s => .refl s
theorem Keeps.bind {f : M (TMap H K V) α} {g : α → M (TMap H K V) β} (h : Keeps f)
    (h' : ∀ a, Keeps (g a)) : Keeps (f >>= g) := fun s => by
  have hs := h s
  rw [M.bind_apply]
  rcases hf : f s with ⟨o, s'⟩
  rw [hf] at hs
  cases o with
  | ok a => exact hs.trans (h' a s')
  | _ => exact hs
theorem Keeps.get : Keeps (M.get : M (TMap H K V) (TMap H K V)) := fun s => .refl s
theorem Keeps.panic : Keeps (M.panic : M (TMap H K V) α) := fun s => .refl s
theorem Keeps.diverge : Keeps (HasDiverge.diverge : M (TMap H K V) α) := fun s => .refl s
theorem Keeps.read (f : TMap H K V → Out α) : Keeps (M.read f) := fun s => by
  rw [M.read_apply]; exact .refl s
theorem Keeps.loop {A : Type} {body : A → M (TMap H K V) (A ⊕ α)} (h : ∀ a, Keeps (body a)) (n : Nat)
    (a : A) : Keeps (loop n body a) := by
  induction n generalizing a with
  | zero => exact .diverge
  | succ n ih =>
    rw [loop_succ]
    refine .bind (h a) fun x => ?_
    cases x with
    | inl a' => exact ih a'
    | inr b => exact .pure b

theorem keeps_access (t : Nat) (p : Ptr) : Keeps (access false t p : M (TMap H K V) Unit) := by
  intro s
  refine .of_keeps ?_
  have := access_keeps s.heap t p
  unfold access onItems Tagged.onHeap items
  simp only
  exact this

theorem keeps_getRef (p : Ptr) : Keeps (getRef p : M (TMap H K V) Nat) := by
  refine .bind (.read _) fun _ s => .of_keeps ?_
  have h : ∀ x : Tagged H (Entry (InnerNode K V)), ∀ q t, (view H).Seen x.heap q t →
      (view H).Seen (Tagged.getUnchecked p x).2.heap q t := by
    intro x
    unfold Tagged.getUnchecked
    rw [M.bind_apply, M.read_apply]
    cases x.arena.getUnchecked p with
    | ok e =>
      simp only
      rw [M.bind_apply, M.read_apply]
      cases x.tagOf p with
      | ok t => exact derive_keeps x.heap t p
      | _ => exact fun _ _ h => h
    | _ => exact fun _ _ h => h
  exact h s.items

theorem keeps_deref (n : NodeRef) : Keeps (deref n : M (TMap H K V) _) :=
  .bind (keeps_access _ _) fun _ => .read _
theorem keeps_node (p : Ptr) : Keeps (node false p : M (TMap H K V) _) :=
  .bind (keeps_getRef p) fun _ => .pure _
theorem keeps_nodeOpt (o : Option Ptr) : Keeps (nodeOpt false o : M (TMap H K V) _) := by
  cases o with
  | none => exact .pure _
  | some p => exact .bind (keeps_node p) fun _ => .pure _
theorem keeps_left (n : NodeRef) : Keeps (left false n : M (TMap H K V) _) :=
  .bind (keeps_deref n) fun _ => keeps_nodeOpt _
theorem keeps_right (n : NodeRef) : Keeps (right false n : M (TMap H K V) _) :=
  .bind (keeps_deref n) fun _ => keeps_nodeOpt _

theorem keeps_descend (c : Probe K) : Keeps (descend false c : M (TMap H K V) _) := by
  refine .bind .get fun s => .bind (keeps_nodeOpt _) fun r => .loop (fun st => ?_) _ _
  obtain ⟨i, o⟩ := st
  cases o with
  | none => exact .pure _
  | some n =>
    refine .bind (keeps_deref n) fun x => ?_
    cases hc : c i x.key with
    | none => exact .panic
    | some o =>
      cases o with
      | lt => exact .bind (keeps_left n) fun _ => .pure _
      | gt => exact .bind (keeps_right n) fun _ => .pure _
      | eq => exact .pure _

theorem keeps_containsKey (c : Probe K) : Keeps (TMap.containsKey c : M (TMap H K V) _) :=
  .bind (keeps_descend c) fun _ => .pure _

theorem keeps_pushLeftSpine (o : Option Ptr) (st : Stack) :
    Keeps (pushLeftSpine o st : M (TMap H K V) _) := by
  refine .bind .get fun s => .loop (fun st => ?_) _ _
  obtain ⟨o, st⟩ := st
  cases o with
  | none => exact .pure _
  | some p => exact .bind (keeps_node p) fun n => .bind (keeps_deref n) fun _ => .pure _

theorem keeps_iterRef (o : Order) : Keeps (o.iterRef : M (TMap H K V) _) := by
  cases o with
  | pre => exact .bind .get fun _ => .pure _
  | ino => exact .bind .get fun _ => keeps_pushLeftSpine _ _
  | post =>
    refine .bind .get fun _ => .bind .get fun s => .loop (fun st => ?_) _ _
    obtain ⟨o, st⟩ := st
    cases o with
    | none => exact .pure _
    | some p => exact .bind (keeps_node p) fun n => .bind (keeps_deref n) fun _ => .pure _

theorem keeps_debugNode (dk : K → String) (dv : V → String) (fuel : Nat) (n : NodeRef) :
    Keeps (TMap.debugNode dk dv fuel n : M (TMap H K V) _) := by
  induction fuel generalizing n with
  | zero => exact .diverge
  | succ fuel ih =>
    refine .bind (keeps_left n) fun l => .bind ?_ fun _ => .bind (keeps_right n) fun r =>
      .bind ?_ fun _ => .bind (keeps_deref n) fun _ => .pure _
    · cases l with
      | none => exact .pure _
      | some c => exact .bind (ih c) fun _ => .pure _
    · cases r with
      | none => exact .pure _
      | some c => exact .bind (ih c) fun _ => .pure _

theorem keeps_debug (dk : K → String) (dv : V → String) : Keeps (TMap.debug dk dv : M (TMap H K V) _) := by
  refine .bind .get fun s => .bind (keeps_nodeOpt _) fun r => .bind ?_ fun _ => .pure _
  cases r with
  | none => exact .pure _
  | some c => exact .bind (keeps_debugNode _ _ _ _) fun _ => .pure _

end TMap
end BST
