import Verif.Proofs.Steps
import Verif.Proofs.Content
/-!
# Node handles, leaves added by insertion, lookups after a write
-/
set_option linter.unusedSimpArgs false
namespace BST
open BSTMap Tree
open Spec (BT)
variable {K V : Type}

namespace Tree

theorem find_setV (c : Probe K) (q : Ptr) (w : V) (t : Tree K V) (i : Nat) :
    (t.setV q w).find c i = (do let e ← t.find c i; pure (e.map (setE q w))) := by
  induction t generalizing i with
  | leaf => rfl
  | node p l k v r ihl ihr =>
    simp only [setV, find]
    cases c i k with
    | none => rfl
    | some o =>
      cases o with
      | lt => exact ihl (i + 1)
      | gt => exact ihr (i + 1)
      | eq => rfl

theorem ins_addLeaf {c : Probe K} {t : Tree K V} {i : Nat} (h : t.find c i = .ok none) (p : Ptr)
    (k : K) (v : V) : BT.AddLeaf (p, k, v) t.bt (t.ins c p k v i).bt := by
  induction t generalizing i with
  | leaf => exact .here
  | node q l k' v' r ihl ihr =>
    simp only [find] at h
    simp only [ins]
    cases hc : c i k' with
    | none => rw [hc] at h; cases h
    | some o =>
      rw [hc] at h
      cases o with
      | lt => exact .left (ihl h)
      | gt => exact .right (ihr h)
      | eq => cases h

theorem mem_sub_ino (path : List Bool) {t : Tree K V} {p : Ptr} {l : Tree K V} {k : K} {v : V}
    {r : Tree K V} (h : t.sub path = node p l k v r) : (p, k, v) ∈ t.ino := by
  induction path generalizing t with
  | nil =>
    have h : t = _ := h
    subst h
    simp [ino]
  | cons b path ih =>
    cases t with
    | leaf => cases h
    | node q l' k' v' r' =>
      simp only [ino, List.mem_append, List.mem_cons]
      cases b with
      | false => exact Or.inl (ih h)
      | true => exact Or.inr (Or.inr (ih h))

theorem map_inj_of_nodup {α β : Type} {f : α → β} {l : List α} (h : (l.map f).Nodup) {a b : α}
    (ha : a ∈ l) (hb : b ∈ l) (he : f a = f b) : a = b := by
  induction l with
  | nil => cases ha
  | cons x l ih =>
    rw [List.map_cons, List.nodup_cons] at h
    rcases List.mem_cons.1 ha with rfl | ha' <;> rcases List.mem_cons.1 hb with rfl | hb'
    · rfl
    · exact absurd (he ▸ List.mem_map_of_mem hb') h.1
    · exact absurd (he ▸ List.mem_map_of_mem ha') h.1
    · exact ih h.2 ha' hb'

theorem ino_inj {t : Tree K V} (h : t.ptrs.Nodup) {a b : Ptr × K × V} (ha : a ∈ t.ino) (hb : b ∈ t.ino)
    (he : a.1 = b.1) : a = b :=
  map_inj_of_nodup ((t.ino_ptrs_perm.nodup_iff).2 h) ha hb he

theorem sub_append (a b : List Bool) (t : Tree K V) : t.sub (a ++ b) = (t.sub a).sub b := by
  induction a generalizing t with
  | nil => rfl
  | cons c a ih =>
    cases t with
    | leaf => cases b <;> rfl
    | node p l k v r => cases c with
      | false => exact ih l
      | true => exact ih r

theorem sub_height (path : List Bool) (t : Tree K V) : (t.sub path).height ≤ t.height := by
  induction path generalizing t with
  | nil => exact Nat.le_refl _
  | cons b path ih =>
    cases t with
    | leaf => exact Nat.le_refl _
    | node p l k v r =>
      simp only [Tree.height]
      cases b with
      | false => have := ih l; simp only [Tree.sub]; omega
      | true => have := ih r; simp only [Tree.sub]; omega

/-- Different paths lead to different addresses. -/
theorem sub_unique {t : Tree K V} (hn : t.ptrs.Nodup) {a b : List Bool} {p : Ptr} {l l' : Tree K V}
    {k k' : K} {v v' : V} {r r' : Tree K V} (ha : t.sub a = node p l k v r)
    (hb : t.sub b = node p l' k' v' r') : a = b := by
  induction t generalizing a b with
  | leaf => cases a <;> cases ha
  | node q tl tk tv tr ihl ihr =>
    simp only [ptrs, List.nodup_cons, List.mem_append, not_or, List.nodup_append] at hn
    obtain ⟨⟨h1, h2⟩, h3, h4, h5⟩ := hn
    have inl : ∀ {c : List Bool} {x y z u}, tl.sub c = node p x y z u → p ∈ tl.ptrs :=
      fun {c} {x y z u} h => sub_ptrs c tl p (by rw [h]; simp [ptrs])
    have inr : ∀ {c : List Bool} {x y z u}, tr.sub c = node p x y z u → p ∈ tr.ptrs :=
      fun {c} {x y z u} h => sub_ptrs c tr p (by rw [h]; simp [ptrs])
    cases a with
    | nil =>
      cases ha
      cases b with
      | nil => rfl
      | cons c b => cases c with
        | false => exact absurd (inl hb) h1
        | true => exact absurd (inr hb) h2
    | cons c a =>
      cases b with
      | nil =>
        cases hb
        cases c with
        | false => exact absurd (inl ha) h1
        | true => exact absurd (inr ha) h2
      | cons d b =>
        cases c with
        | false => cases d with
          | false => rw [ihl h3 ha hb]
          | true => exact absurd rfl (h5 _ (inl ha) _ (inr hb))
        | true => cases d with
          | false => exact absurd rfl (h5 _ (inl hb) _ (inr ha))
          | true => rw [ihr h4 ha hb]

end Tree

/-- A node handle obtained from a map shows the contents of the memory at its address. -/
theorem nodeAt_view {cfg : Cfg} {m : BSTMap K V} {t : Tree K V} (h : Shape cfg m t)
    {path : List Bool} {n : Node K V} (hn : nodeAt path m = .ok (some n)) :
    m.nodes.view n.ptr = some n.node := by
  rw [nodeAt_ok h] at hn
  have hr := h.rep.sub path
  cases hs : t.sub path with
  | leaf => rw [hs] at hn; cases hn
  | node p l k v r =>
    rw [hs] at hn hr
    cases hn
    exact hr.1

theorem nodeMutAt_view {cfg : Cfg} {m m' : BSTMap K V} {t : Tree K V} (h : Shape cfg m t)
    {path : List Bool} {n : NodeMut} (hn : nodeMutAt path m = (.ok (some n), m')) :
    ∃ x, m.nodes.view n.ptr = some x := by
  rw [nodeMutAt_ok h] at hn
  have hr := h.rep.sub path
  cases hs : t.sub path with
  | leaf => rw [hs] at hn; cases hn
  | node p l k v r =>
    rw [hs] at hn hr
    cases hn
    exact ⟨_, hr.1⟩

theorem deref_of_view {s : Nodes K V} {p : Ptr} {x : InnerNode K V} (h : s.view p = some x) :
    NodeMut.deref ⟨p⟩ s = (.ok x, s) := by
  show (s.getUnchecked p, s) = _
  rw [Slab.getUnchecked_ok h]

end BST
