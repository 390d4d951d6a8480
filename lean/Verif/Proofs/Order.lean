import Verif.Proofs.Tree
/-!
# Search trees under a lawful order: trees against association lists
-/
set_option linter.unusedSimpArgs false
namespace BST
open Std
variable {K V : Type}

theorem lawful_cmp (cmp : K → K → Ordering) [TransCmp cmp] (q : K) : Spec.LawfulQuery cmp (cmp q) where
  lt_of_lt _ _ h1 h2 := TransCmp.lt_trans h2 h1
  lt_of_eq _ _ h1 h2 := TransCmp.lt_of_eq_of_lt h2 h1
  gt_of_gt _ _ h1 h2 :=
    OrientedCmp.gt_of_lt (TransCmp.lt_trans h1 (OrientedCmp.lt_of_gt h2))
  gt_of_eq _ _ h1 h2 :=
    OrientedCmp.gt_of_lt (TransCmp.lt_of_lt_of_eq h1 (OrientedCmp.eq_symm h2))
  congr _ _ h := TransCmp.congr_right h

/-- The query by a borrowed form whose order agrees with that of the keys. -/
theorem lawful_borrow {Q : Type} (cmp : K → K → Ordering) (cmpQ : Q → Q → Ordering) [TransCmp cmpQ]
    (borrow : K → Q) (hb : ∀ a b, cmp a b = cmpQ (borrow a) (borrow b)) (q : Q) :
    Spec.LawfulQuery cmp (fun k => cmpQ q (borrow k)) := by
  have h := lawful_cmp cmpQ q
  exact ⟨fun a b h1 => h.lt_of_lt _ _ (hb a b ▸ h1), fun a b h1 => h.lt_of_eq _ _ (hb a b ▸ h1),
    fun a b h1 => h.gt_of_gt _ _ (hb a b ▸ h1), fun a b h1 => h.gt_of_eq _ _ (hb a b ▸ h1),
    fun a b h1 => h.congr _ _ (hb a b ▸ h1)⟩

theorem hitOf_iff {f : K → Ordering} {k : K} : Spec.hitOf f k = true ↔ f k = .eq := by
  simp [Spec.hitOf]

/-- Around a hit of a lawful query in a sorted list there is no other hit. -/
theorem sorted_hit_split {cmp : K → K → Ordering} {f : K → Ordering} (hf : Spec.LawfulQuery cmp f)
    {a b : List (K × V)} {e : K × V} (hs : Spec.Sorted cmp (a ++ e :: b)) (he : f e.1 = .eq) :
    (∀ x ∈ a, f x.1 = .gt) ∧ ∀ x ∈ b, f x.1 = .lt := by
  unfold Spec.Sorted at hs
  rw [List.pairwise_append] at hs
  refine ⟨fun x hx => hf.gt_of_eq _ _ (hs.2.2 x hx e (by simp)) he, fun x hx => ?_⟩
  exact hf.lt_of_eq _ _ ((List.pairwise_cons.1 hs.2.1).1 x hx) he

theorem lookup_split {f : K → Ordering} {a b : List (K × V)} {e : K × V}
    (ha : ∀ x ∈ a, f x.1 ≠ .eq) (he : f e.1 = .eq) :
    Spec.lookup (Spec.hitOf f) (a ++ e :: b) = some e := by
  unfold Spec.lookup
  rw [List.find?_append, List.find?_eq_none.2 (by intro x hx; simp [hitOf_iff]; exact ha x hx)]
  simp [hitOf_iff.2 he]

theorem map_hit_split {f : K → Ordering} {a b : List (K × V)} {k0 : K} {v0 v : V}
    (ha : ∀ x ∈ a, f x.1 ≠ .eq) (he : f k0 = .eq) (hb : ∀ x ∈ b, f x.1 ≠ .eq) :
    Spec.insert (Spec.hitOf f) k0 v (a ++ (k0, v0) :: b) = a ++ (k0, v) :: b := by
  unfold Spec.insert
  have key : ∀ l : List (K × V), (∀ x ∈ l, f x.1 ≠ .eq) →
      (l.map fun e => if Spec.hitOf f e.1 then (e.1, v) else e) = l := by
    intro l hl
    conv => rhs; rw [← List.map_id l]
    apply List.map_congr_left
    intro x hx
    rw [if_neg (by rw [hitOf_iff]; exact hl x hx)]; rfl
  rw [if_pos (by simp [hitOf_iff.2 he]), List.map_append, List.map_cons, key a ha, key b hb]
  simp [hitOf_iff.2 he]

theorem insert_hit_key {f : K → Ordering} {k k' : K} {v : V} {l : List (K × V)}
    (h : ∃ e ∈ l, f e.1 = .eq) :
    Spec.insert (Spec.hitOf f) k v l = Spec.insert (Spec.hitOf f) k' v l := by
  unfold Spec.insert
  have : l.any (fun e => Spec.hitOf f e.1) = true := by
    obtain ⟨e, he, h⟩ := h
    exact List.any_eq_true.2 ⟨e, he, hitOf_iff.2 h⟩
  rw [if_pos this, if_pos this]

theorem insert_miss {f : K → Ordering} {k : K} {v : V} {l : List (K × V)}
    (h : ∀ e ∈ l, f e.1 ≠ .eq) : Spec.insert (Spec.hitOf f) k v l = (k, v) :: l := by
  unfold Spec.insert
  rw [if_neg]
  intro h'
  obtain ⟨e, he, h'⟩ := List.any_eq_true.1 h'
  exact h e he (hitOf_iff.1 h')

theorem remove_split {f : K → Ordering} {a b : List (K × V)} {e : K × V}
    (ha : ∀ x ∈ a, f x.1 ≠ .eq) (he : f e.1 = .eq) (hb : ∀ x ∈ b, f x.1 ≠ .eq) :
    Spec.remove (Spec.hitOf f) (a ++ e :: b) = a ++ b := by
  unfold Spec.remove
  have key : ∀ l : List (K × V), (∀ x ∈ l, f x.1 ≠ .eq) →
      (l.filter fun e => !Spec.hitOf f e.1) = l := by
    intro l hl
    rw [List.filter_eq_self]
    intro x hx
    have := hl x hx
    simp [Spec.hitOf, this]
  rw [List.filter_append, List.filter_cons, key a ha, key b hb]
  simp [hitOf_iff.2 he]

theorem remove_miss {f : K → Ordering} {l : List (K × V)} (h : ∀ e ∈ l, f e.1 ≠ .eq) :
    Spec.remove (Spec.hitOf f) l = l := by
  unfold Spec.remove
  rw [List.filter_eq_self]
  intro x hx
  have := h x hx
  simp [Spec.hitOf, this]

theorem lookup_none_iff {f : K → Ordering} {l : List (K × V)} :
    Spec.lookup (Spec.hitOf f) l = none ↔ ∀ e ∈ l, f e.1 ≠ .eq := by
  unfold Spec.lookup
  rw [List.find?_eq_none]
  simp [hitOf_iff]

namespace Tree

theorem find_kv {cmp : K → K → Ordering} {f : K → Ordering} (hf : Spec.LawfulQuery cmp f)
    (i : Nat) {t : Tree K V} (hs : t.SortedBy cmp) :
    ∃ e, t.find (probeOf f) i = .ok e ∧ e.map (·.2) = Spec.lookup (Spec.hitOf f) t.kv := by
  refine ⟨_, find_lawful hf i hs, ?_⟩
  unfold Spec.lookup kv
  rw [List.find?_map]; rfl

theorem find_eq_of_ok {f : K → Ordering} {c : Probe K} (hc : ∀ i x, c i x = none ∨ c i x = some (f x))
    {i : Nat} {t : Tree K V} {e : Option (Ptr × K × V)} (h : t.find c i = .ok e) :
    t.find (probeOf f) i = .ok e ∧ (∀ p k v, t.ins c p k v i = t.ins (probeOf f) p k v i) ∧
      t.del c i = t.del (probeOf f) i := by
  induction t generalizing i with
  | leaf => exact ⟨h, fun _ _ _ => rfl, rfl⟩
  | node p l k v r ihl ihr =>
    simp only [find] at h
    rcases hc i k with h0 | h0
    · rw [h0] at h; cases h
    · simp only [find, ins, del, probeOf, h0] at h ⊢
      cases ho : f k with
      | lt => rw [ho] at h; simp only at h ⊢
              obtain ⟨h1, h2, h3⟩ := ihl h
              exact ⟨h1, fun p k v => by rw [h2], by rw [h3]⟩
      | gt => rw [ho] at h; simp only at h ⊢
              obtain ⟨h1, h2, h3⟩ := ihr h
              exact ⟨h1, fun p k v => by rw [h2], by rw [h3]⟩
      | eq => rw [ho] at h; exact ⟨h, fun _ _ _ => rfl, rfl⟩

theorem find_hit {c : Probe K} {f : K → Ordering} (hc : ∀ i x, c i x = none ∨ c i x = some (f x))
    {i : Nat} {t : Tree K V} {e : Ptr × K × V} (h : t.find c i = .ok (some e)) : f e.2.1 = .eq := by
  induction t generalizing i with
  | leaf => cases h
  | node p l k v r ihl ihr =>
    simp only [find] at h
    rcases hc i k with h0 | h0
    · rw [h0] at h; cases h
    · rw [h0] at h
      cases ho : f k with
      | lt => rw [ho] at h; exact ihl h
      | gt => rw [ho] at h; exact ihr h
      | eq => rw [ho] at h; cases h; exact ho

/-- Insertion against the association list. -/
theorem ins_kv {cmp : K → K → Ordering} [TransCmp cmp] {t : Tree K V} (hs : t.SortedBy cmp)
    (p : Ptr) (k : K) (v : V) (i : Nat) :
    (t.ins (probeOf (cmp k)) p k v i).kv.Perm (Spec.insert (Spec.hitOf (cmp k)) k v t.kv) ∧
    (t.ins (probeOf (cmp k)) p k v i).SortedBy cmp := by
  have hf := lawful_cmp cmp k
  obtain ⟨e, he, hl⟩ := find_kv hf i hs
  have hc : ∀ (i : Nat) x, probeOf (cmp k) i x = none ∨ probeOf (cmp k) i x = some (cmp k x) :=
    fun _ _ => Or.inr rfl
  cases e with
  | none =>
    obtain ⟨a, b, h1, h2, ha, hb⟩ := ins_lawful_miss hf hs p k v he
    constructor
    · rw [insert_miss (lookup_none_iff.1 hl.symm), h2, h1]
      exact List.perm_middle
    · unfold SortedBy Spec.Sorted at hs ⊢
      rw [h1] at hs
      rw [h2]
      rw [List.pairwise_append] at hs ⊢
      refine ⟨hs.1, List.pairwise_cons.2 ⟨fun x hx => hb x hx, hs.2.1⟩, ?_⟩
      intro x hx y hy
      have hxk : cmp x.1 k = .lt := OrientedCmp.lt_of_gt (ha x hx)
      rcases List.mem_cons.1 hy with rfl | hy
      · exact hxk
      · exact TransCmp.lt_trans hxk (hb y hy)
  | some e =>
    obtain ⟨q, k0, v0⟩ := e
    have heq := find_hit hc he
    obtain ⟨a, b, h1, h2⟩ := ins_ino_hit (p := p) (k := k) (v := v) he
    have hk : t.kv = a.map (·.2) ++ (k0, v0) :: b.map (·.2) := by simp [kv, h1]
    have hk' : (t.ins (probeOf (cmp k)) p k v i).kv = a.map (·.2) ++ (k0, v) :: b.map (·.2) := by
      simp [kv, h2]
    have hs' := hs
    unfold SortedBy at hs'
    rw [hk] at hs'
    obtain ⟨ha, hb⟩ := sorted_hit_split hf hs' heq
    constructor
    · rw [hk', hk, insert_hit_key (k' := k0) ⟨(k0, v0), by simp, heq⟩,
        map_hit_split (fun x hx => by rw [ha x hx]; simp) heq (fun x hx => by rw [hb x hx]; simp)]
    · unfold SortedBy Spec.Sorted at *
      rw [hk']
      rw [List.pairwise_append, List.pairwise_cons] at hs' ⊢
      refine ⟨hs'.1, hs'.2.1, fun x hx y hy => ?_⟩
      rcases List.mem_cons.1 hy with rfl | hy
      · exact hs'.2.2 x hx (k0, v0) (by simp)
      · exact hs'.2.2 x hx y (by simp [hy])

theorem del_sorted {cmp : K → K → Ordering} {c : Probe K} {t : Tree K V} (hs : t.SortedBy cmp)
    (i : Nat) {e : Option (Ptr × K × V)} (h : t.find c i = .ok e) : (t.del c i).SortedBy cmp := by
  cases e with
  | none => rw [del_ino_miss h]; exact hs
  | some e =>
    obtain ⟨a, b, h1, h2⟩ := del_ino_hit h
    unfold SortedBy Spec.Sorted kv at *
    rw [h2]
    rw [h1] at hs
    refine List.Pairwise.sublist ?_ hs
    simp

theorem del_kv {cmp : K → K → Ordering} {f : K → Ordering} (hf : Spec.LawfulQuery cmp f)
    {t : Tree K V} (hs : t.SortedBy cmp) (i : Nat) :
    (t.del (probeOf f) i).kv = Spec.remove (Spec.hitOf f) t.kv := by
  obtain ⟨e, he, hl⟩ := find_kv hf i hs
  have hc : ∀ (i : Nat) x, probeOf f i x = none ∨ probeOf f i x = some (f x) :=
    fun _ _ => Or.inr rfl
  cases e with
  | none => rw [del_ino_miss he, remove_miss (lookup_none_iff.1 hl.symm)]
  | some e =>
    have heq := find_hit hc he
    obtain ⟨a, b, h1, h2⟩ := del_ino_hit he
    have hk : t.kv = a.map (·.2) ++ e.2 :: b.map (·.2) := by simp [kv, h1]
    have hs' := hs
    unfold SortedBy at hs'
    rw [hk] at hs'
    obtain ⟨ha, hb⟩ := sorted_hit_split hf hs' heq
    rw [hk, remove_split (fun x hx => by rw [ha x hx]; simp) heq (fun x hx => by rw [hb x hx]; simp)]
    simp [kv, h2]

theorem setV_sorted {cmp : K → K → Ordering} {t : Tree K V} (hs : t.SortedBy cmp) (q : Ptr) (w : V)
    (t' : Tree K V) (h : t'.ino = t.ino.map fun e => (e.1, e.2.1, if e.1 = q then w else e.2.2)) :
    t'.SortedBy cmp := by
  unfold SortedBy Spec.Sorted kv at *
  rw [h, List.map_map, List.pairwise_map]
  rw [List.pairwise_map] at hs
  exact hs
end Tree

/-- Two sorted lists with the same elements are equal. -/
theorem sorted_perm_eq {cmp : K → K → Ordering} [TransCmp cmp] {a b : List (K × V)}
    (ha : Spec.Sorted cmp a) (hb : Spec.Sorted cmp b) (h : a.Perm b) : a = b := by
  induction a generalizing b with
  | nil => exact (List.Perm.nil_eq h)
  | cons x a ih =>
    cases b with
    | nil => exact absurd h.length_eq (by simp)
    | cons y b =>
      unfold Spec.Sorted at ha hb
      rw [List.pairwise_cons] at ha hb
      have hxy : x = y := by
        rcases List.mem_cons.1 (h.mem_iff.1 (List.mem_cons_self (a := x) (l := a))) with h1 | h1
        · exact h1
        rcases List.mem_cons.1 (h.mem_iff.2 (List.mem_cons_self (a := y) (l := b))) with h2 | h2
        · exact h2.symm
        have := TransCmp.lt_trans (hb.1 x h1) (ha.1 y h2)
        exact absurd (OrientedCmp.gt_of_lt this) (by rw [this]; simp)
      subst hxy
      rw [ih ha.2 hb.2 (List.Perm.cons_inv h)]

end BST
