import Verif.Proofs.Lookup
/-!
# Association lists: commutation, equality and lookups
-/
set_option linter.unusedSimpArgs false
namespace BST
open Std
variable {K V : Type}

/-! ### Commutation -/

theorem insert_eq (hit : K → Bool) (k : K) (v : V) (l : List (K × V)) :
    Spec.insert hit k v l = (if l.any (fun e => hit e.1) then [] else [(k, v)]) ++
      l.map fun e => if hit e.1 then (e.1, v) else e := by
  unfold Spec.insert
  by_cases h : l.any (fun e => hit e.1) = true
  · simp only [h, if_true, List.nil_append]
  · simp only [if_neg h, List.cons_append, List.nil_append, List.cons.injEq, true_and]
    conv => lhs; rw [← List.map_id l]
    refine List.map_congr_left fun e he => ?_
    rw [List.any_eq_true] at h
    have : ¬ hit e.1 = true := fun h' => h ⟨e, he, h'⟩
    rw [if_neg this, id]

theorem any_map_key (hit g : K → Bool) (v : V) (l : List (K × V)) :
    (l.map fun e => if hit e.1 then (e.1, v) else e).any (fun e => g e.1) = l.any fun e => g e.1 := by
  rw [List.any_map]
  congr 1
  funext e
  simp only [Function.comp]
  split <;> rfl

theorem insert_comm {h1 h2 : K → Bool} {k1 k2 : K} (v1 v2 : V) (l : List (K × V))
    (hk1 : h2 k1 = false) (hk2 : h1 k2 = false) (hd : ∀ x, h1 x = true → h2 x = true → False) :
    (Spec.insert h1 k1 v1 (Spec.insert h2 k2 v2 l)).Perm
      (Spec.insert h2 k2 v2 (Spec.insert h1 k1 v1 l)) := by
  have key : ∀ (h1 h2 : K → Bool) (k1 k2 : K) (v1 v2 : V), h1 k2 = false →
      Spec.insert h1 k1 v1 (Spec.insert h2 k2 v2 l) =
        (if l.any (fun e => h1 e.1) then [] else [(k1, v1)]) ++
        ((if l.any (fun e => h2 e.1) then [] else [(k2, v2)]) ++
          (l.map fun e => if h2 e.1 then (e.1, v2) else e).map
            fun e => if h1 e.1 then (e.1, v1) else e) := by
    intro h1 h2 k1 k2 v1 v2 hk2
    have ha : ∀ b : Bool, ((if b = true then [] else [(k2, v2)]).any fun e => h1 e.1) = false := by
      intro b; cases b <;> simp [hk2]
    have hm : ∀ b : Bool, ((if b = true then [] else [(k2, v2)]).map
        fun e => if h1 e.1 then (e.1, v1) else e) = if b = true then [] else [(k2, v2)] := by
      intro b; cases b <;> simp [hk2]
    rw [insert_eq h1, insert_eq h2, List.any_append, any_map_key, List.map_append, ha, hm,
      Bool.false_or]
  rw [key h1 h2 k1 k2 v1 v2 hk2, key h2 h1 k2 k1 v2 v1 hk1]
  have hm : (l.map fun e => if h2 e.1 then (e.1, v2) else e).map
      (fun e => if h1 e.1 then (e.1, v1) else e) =
      (l.map fun e => if h1 e.1 then (e.1, v1) else e).map
      (fun e => if h2 e.1 then (e.1, v2) else e) := by
    rw [List.map_map, List.map_map]
    refine List.map_congr_left fun e _ => ?_
    simp only [Function.comp]
    by_cases a : h1 e.1 = true
    · have b : h2 e.1 = false := by
        cases hb : h2 e.1 with
        | false => rfl
        | true => exact (hd _ a hb).elim
      simp [a, b]
    · simp [a]
      split <;> simp [a]
  rw [hm, ← List.append_assoc, ← List.append_assoc]
  exact List.perm_append_comm.append_right _

/-- Inserting lists of pairs with different keys: the order does not matter. -/
theorem insertList_order {cmp : K → K → Ordering} [TransCmp cmp] {xs ys : List (K × V)}
    (hp : xs.Perm ys) : ∀ (l : List (K × V)), Distinct cmp xs →
    (Spec.insertList cmp xs l).Perm (Spec.insertList cmp ys l) := by
  induction hp with
  | nil => intro l _; exact .refl _
  | cons x _ ih =>
    intro l hd
    exact ih _ (List.pairwise_cons.1 hd).2
  | swap x y xs =>
    intro l hd
    refine insertList_perm xs ?_
    obtain ⟨h1, h2⟩ := List.pairwise_cons.1 hd
    have hxy : cmp y.1 x.1 ≠ .eq := h1 x (by simp)
    have hyx : cmp x.1 y.1 ≠ .eq := fun h => hxy (OrientedCmp.eq_symm h)
    refine insert_comm _ _ l ?_ ?_ ?_
    · simp [Spec.hitOf, hxy]
    · simp [Spec.hitOf, hyx]
    · intro z hx hy
      exact hxy (TransCmp.eq_trans (hitOf_iff.1 hy) (OrientedCmp.eq_symm (hitOf_iff.1 hx)))
  | trans h1 _ ih1 ih2 =>
    intro l hd
    exact (ih1 l hd).trans (ih2 l (hd.perm h1))

theorem remove_comm (h1 h2 : K → Bool) (l : List (K × V)) :
    Spec.remove h1 (Spec.remove h2 l) = Spec.remove h2 (Spec.remove h1 l) := by
  unfold Spec.remove
  rw [List.filter_filter, List.filter_filter]
  congr 1
  funext e
  exact Bool.and_comm _ _

theorem remove_idem (h : K → Bool) (l : List (K × V)) :
    Spec.remove h (Spec.remove h l) = Spec.remove h l := by
  unfold Spec.remove
  rw [List.filter_filter]
  congr 1
  funext e
  exact Bool.and_self _

/-! ### Equality of sorted lists -/

/-- Both absent, or both present with equal values. -/
def SameAt (veq : V → V → Bool) (a b : Option V) : Prop :=
  (a = none ∧ b = none) ∨ ∃ v w, a = some v ∧ b = some w ∧ veq v w = true

theorem lookup_cons (f : K → Ordering) (e : K × V) (l : List (K × V)) :
    Spec.lookup (Spec.hitOf f) (e :: l) = if f e.1 = .eq then some e else Spec.lookup (Spec.hitOf f) l := by
  unfold Spec.lookup
  rw [List.find?_cons]
  by_cases h : f e.1 = .eq
  · simp [Spec.hitOf, h]
  · have : Spec.hitOf f e.1 = false := by simp [Spec.hitOf, h]
    rw [this, if_neg h]

theorem lookup_tail_none {cmp : K → K → Ordering} [TransCmp cmp] {e : K × V} {l : List (K × V)}
    (h : Spec.Sorted cmp (e :: l)) {k : K} (hk : cmp k e.1 = .eq ∨ cmp k e.1 = .lt) :
    Spec.lookup (Spec.hitOf (cmp k)) l = none := by
  rw [lookup_none_iff]
  intro x hx hxe
  have hlt := (List.pairwise_cons.1 h).1 x hx
  rcases hk with hk | hk
  · have := TransCmp.lt_of_eq_of_lt hk hlt
    rw [this] at hxe; cases hxe
  · have := TransCmp.lt_trans hk hlt
    rw [this] at hxe; cases hxe

theorem sameBy_iff {cmp : K → K → Ordering} [TransCmp cmp] {keq : K → K → Bool}
    (hk : ∀ a b, keq a b = true ↔ cmp a b = .eq) (veq : V → V → Bool) {a b : List (K × V)}
    (ha : Spec.Sorted cmp a) (hb : Spec.Sorted cmp b) :
    Spec.sameBy keq veq a b = true ↔ ∀ k, SameAt veq
      ((Spec.lookup (Spec.hitOf (cmp k)) a).map (·.2)) ((Spec.lookup (Spec.hitOf (cmp k)) b).map (·.2)) := by
  induction a generalizing b with
  | nil =>
    cases b with
    | nil => exact ⟨fun _ _ => Or.inl ⟨rfl, rfl⟩, fun _ => rfl⟩
    | cons y b =>
      refine ⟨fun h => (by cases h), fun h => ?_⟩
      have := h y.1
      rw [lookup_cons, if_pos ReflCmp.compare_self] at this
      rcases this with ⟨_, h⟩ | ⟨_, _, h, _⟩ <;> cases h
  | cons x a ih =>
    cases b with
    | nil =>
      refine ⟨fun h => (by cases h), fun h => ?_⟩
      have := h x.1
      rw [lookup_cons, if_pos ReflCmp.compare_self] at this
      rcases this with ⟨h, _⟩ | ⟨_, _, _, h, _⟩ <;> cases h
    | cons y b =>
      have iha := ih (b := b) (List.pairwise_cons.1 ha).2 (List.pairwise_cons.1 hb).2
      simp only [Spec.sameBy, Bool.and_eq_true, iha, hk]
      constructor
      · rintro ⟨⟨h1, h2⟩, h3⟩ k
        rw [lookup_cons, lookup_cons]
        have hc : cmp k x.1 = cmp k y.1 := TransCmp.congr_right h1
        by_cases hx : cmp k x.1 = .eq
        · rw [if_pos hx, if_pos (hc ▸ hx)]
          exact Or.inr ⟨_, _, rfl, rfl, h2⟩
        · rw [if_neg hx, if_neg (hc ▸ hx)]
          exact h3 k
      · intro h
        have hxy : cmp x.1 y.1 = .eq := by
          cases hc : cmp x.1 y.1 with
          | eq => rfl
          | lt =>
            have := h x.1
            rw [lookup_cons, if_pos ReflCmp.compare_self, lookup_cons, if_neg (by rw [hc]; simp),
              lookup_tail_none hb (Or.inr hc)] at this
            rcases this with ⟨h, _⟩ | ⟨_, _, _, h, _⟩ <;> cases h
          | gt =>
            have hc' : cmp y.1 x.1 = .lt := OrientedCmp.lt_of_gt hc
            have := h y.1
            rw [lookup_cons (e := y), if_pos ReflCmp.compare_self, lookup_cons,
              if_neg (by rw [hc']; simp), lookup_tail_none ha (Or.inr hc')] at this
            rcases this with ⟨_, h⟩ | ⟨_, _, h, _⟩ <;> cases h
        refine ⟨⟨hxy, ?_⟩, fun k => ?_⟩
        · have := h x.1
          rw [lookup_cons, if_pos ReflCmp.compare_self, lookup_cons, if_pos hxy] at this
          rcases this with ⟨h, _⟩ | ⟨v, w, h1, h2, h3⟩
          · cases h
          · cases h1; cases h2; exact h3
        · have hc : cmp k x.1 = cmp k y.1 := TransCmp.congr_right hxy
          by_cases hx : cmp k x.1 = .eq
          · rw [lookup_tail_none ha (Or.inl hx), lookup_tail_none hb (Or.inl (hc ▸ hx))]
            exact Or.inl ⟨rfl, rfl⟩
          · have := h k
            rw [lookup_cons, lookup_cons, if_neg hx, if_neg (hc ▸ hx)] at this
            exact this

theorem sameBy_refl {keq : K → K → Bool} {veq : V → V → Bool} (hk : ∀ k, keq k k = true)
    (hv : ∀ v, veq v v = true) (l : List (K × V)) : Spec.sameBy keq veq l l = true := by
  induction l with
  | nil => rfl
  | cons x l ih => simp [Spec.sameBy, hk, hv, ih]

theorem sameBy_symm {keq : K → K → Bool} {veq : V → V → Bool}
    (hk : ∀ a b, keq a b = true → keq b a = true) (hv : ∀ a b, veq a b = true → veq b a = true)
    {l l' : List (K × V)} (h : Spec.sameBy keq veq l l' = true) : Spec.sameBy keq veq l' l = true := by
  induction l generalizing l' with
  | nil => cases l' with
    | nil => rfl
    | cons => cases h
  | cons x l ih => cases l' with
    | nil => cases h
    | cons y l' =>
      simp only [Spec.sameBy, Bool.and_eq_true] at h ⊢
      exact ⟨⟨hk _ _ h.1.1, hv _ _ h.1.2⟩, ih h.2⟩

theorem sameBy_trans {keq : K → K → Bool} {veq : V → V → Bool}
    (hk : ∀ a b c, keq a b = true → keq b c = true → keq a c = true)
    (hv : ∀ a b c, veq a b = true → veq b c = true → veq a c = true)
    {l l' l'' : List (K × V)} (h : Spec.sameBy keq veq l l' = true)
    (h' : Spec.sameBy keq veq l' l'' = true) : Spec.sameBy keq veq l l'' = true := by
  induction l generalizing l' l'' with
  | nil => cases l' with
    | nil => exact h'
    | cons => cases h
  | cons x l ih => cases l' with
    | nil => cases h
    | cons y l' => cases l'' with
      | nil => cases h'
      | cons z l'' =>
        simp only [Spec.sameBy, Bool.and_eq_true] at h h' ⊢
        exact ⟨⟨hk _ _ _ h.1.1 h'.1.1, hv _ _ _ h.1.2 h'.1.2⟩, ih h.2 h'.2⟩

end BST
