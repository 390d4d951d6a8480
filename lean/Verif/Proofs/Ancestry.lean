import Verif.Ancestry
import Verif.Proofs.RandomMaps
import Verif.History
import Verif.SimpleHistory
/-!
# Ancestors in trees that come of insertions
-/
namespace BST.Spec
open Std
variable {K V : Type} {cmp : K → K → Ordering}

theorem mem_below {x y : K × V} {l : List (K × V)} :
    y ∈ below (onKeys cmp) x l ↔ y ∈ l ∧ cmp y.1 x.1 = .lt := by simp [below, onKeys]

theorem mem_above {x y : K × V} {l : List (K × V)} :
    y ∈ above (onKeys cmp) x l ↔ y ∈ l ∧ cmp y.1 x.1 = .gt := by simp [above, onKeys]

theorem Apart.head [TransCmp cmp] {x : K × V} {l : List (K × V)} (h : Apart (onKeys cmp) (x :: l)) :
    ∀ y ∈ l, cmp y.1 x.1 ≠ .eq :=
  fun y hy he => (List.pairwise_cons.1 h).1 y hy (OrientedCmp.eq_symm he)

theorem Apart.tail {x : K × V} {l : List (K × V)} (h : Apart (onKeys cmp) (x :: l)) :
    Apart (onKeys cmp) l := (List.pairwise_cons.1 h).2

/-- Induction over the trees of insertions. -/
theorem grown_mem [TransCmp cmp] : ∀ (n : Nat) (o : List (K × V)), o.length ≤ n → Apart (onKeys cmp) o →
    ∀ y, y ∈ (grown cmp o).ino ↔ y ∈ o := by
  intro n
  induction n with
  | zero =>
    intro o ho _ y
    rw [List.length_eq_zero_iff.1 (Nat.le_zero.1 ho)]
    simp [grown, BT.insertList, BT.ino]
  | succ n ih =>
    intro o ho hd y
    cases o with
    | nil => simp [grown, BT.insertList, BT.ino]
    | cons a o =>
      have hlen : o.length ≤ n := by simpa using ho
      rw [grown_cons hd.head]
      simp only [BT.ino, List.mem_append, List.mem_cons]
      rw [ih (below (onKeys cmp) a o) (Nat.le_trans (List.length_filter_le ..) hlen)
          (hd.tail.sublist List.filter_sublist),
        ih (above (onKeys cmp) a o) (Nat.le_trans (List.length_filter_le ..) hlen)
          (hd.tail.sublist List.filter_sublist), mem_below, mem_above]
      constructor
      · rintro (h | h | h)
        · exact .inr h.1
        · exact .inl h
        · exact .inr h.1
      · rintro (h | h)
        · exact .inr (.inl h)
        · cases hc : cmp y.1 a.1 with
          | lt => exact .inl ⟨h, rfl⟩
          | gt => exact .inr (.inr ⟨h, rfl⟩)
          | eq => exact absurd hc (hd.head y h)

theorem sub_label_mem {α : Type} {t : BT α} {path : List Bool} {x : α} (h : (t.sub path).label = some x) :
    x ∈ t.ino := by
  induction path generalizing t with
  | nil =>
    cases t with
    | nil => cases h
    | node l a r => cases h; simp [BT.ino]
  | cons b path ih =>
    cases t with
    | nil => cases b <;> cases h
    | node l a r =>
      cases b
      · exact List.mem_append_left _ (ih h)
      · exact List.mem_append_right _ (List.mem_cons_of_mem _ (ih h))

theorem sub_ino_mem {α : Type} {t : BT α} {path : List Bool} {y : α} (h : y ∈ (t.sub path).ino) :
    y ∈ t.ino := by
  induction path generalizing t with
  | nil => exact h
  | cons b path ih =>
    cases t with
    | nil => cases b <;> exact h
    | node l a r =>
      cases b
      · exact List.mem_append_left _ (ih h)
      · exact List.mem_append_right _ (List.mem_cons_of_mem _ (ih h))

theorem over_node {α : Type} {l r : BT α} {a x y : α} (hx : x ≠ a) :
    (BT.node l a r).Over x y ↔ l.Over x y ∨ r.Over x y := by
  constructor
  · rintro ⟨path, h1, h2⟩
    cases path with
    | nil => exact absurd (Option.some.inj h1).symm hx
    | cons b path => cases b
                     · exact .inl ⟨path, h1, h2⟩
                     · exact .inr ⟨path, h1, h2⟩
  · rintro (⟨path, h1, h2⟩ | ⟨path, h1, h2⟩)
    · exact ⟨false :: path, h1, h2⟩
    · exact ⟨true :: path, h1, h2⟩

/-! ### Order -/

theorem not_between_lt [TransCmp cmp] {a x z y : K} (hx : cmp x a = .lt) (hy : cmp y a = .lt)
    (hz : cmp z a ≠ .lt) : ¬ Between cmp x z y := by
  have key : ∀ u, cmp u a = .lt → cmp z u = .gt := fun u hu => by
    rw [OrientedCmp.gt_iff_lt]
    refine TransCmp.lt_of_lt_of_isLE hu ?_
    cases h : cmp a z with
    | gt => exact absurd (OrientedCmp.gt_iff_lt.1 h) hz
    | _ => rfl
  rintro (⟨_, h⟩ | ⟨_, h⟩)
  · exact h (key y hy)
  · exact h (key x hx)

theorem not_between_gt [TransCmp cmp] {a x z y : K} (hx : cmp x a = .gt) (hy : cmp y a = .gt)
    (hz : cmp z a ≠ .gt) : ¬ Between cmp x z y := by
  have key : ∀ u, cmp u a = .gt → cmp u z = .gt := fun u hu => by
    rw [OrientedCmp.gt_iff_lt] at hu ⊢
    exact TransCmp.lt_of_isLE_of_lt (by cases h : cmp z a <;> simp_all) hu
  rintro (⟨h, _⟩ | ⟨h, _⟩)
  · exact h (key x hx)
  · exact h (key y hy)

theorem between_lt [TransCmp cmp] {a x y : K} (hx : cmp x a = .lt) (hy : cmp y a ≠ .lt) :
    Between cmp x a y :=
  .inl ⟨by rw [hx]; simp, fun h => hy (OrientedCmp.gt_iff_lt.1 h)⟩

theorem between_gt [TransCmp cmp] {a x y : K} (hx : cmp x a = .gt) (hy : cmp y a ≠ .gt) :
    Between cmp x a y :=
  .inr ⟨hy, by rw [OrientedCmp.gt_iff_lt.1 hx]; simp⟩

theorem between_left [TransCmp cmp] (a b : K) : Between cmp a a b := by
  cases h : cmp a b with
  | gt => exact .inr ⟨by rw [OrientedCmp.gt_iff_lt.1 h]; simp, by simp [ReflCmp.compare_self]⟩
  | _ => exact .inl ⟨by simp [ReflCmp.compare_self], by rw [h]; simp⟩

theorem Between.symm {a z b : K} (h : Between cmp a z b) : Between cmp b z a := Or.symm h

/-! ### Ancestors -/

theorem over_grown [TransCmp cmp] : ∀ (n : Nat) (o1 o2 : List (K × V)) (x y : K × V), o1.length ≤ n →
    Apart (onKeys cmp) (o1 ++ x :: o2) → y ∈ o1 ++ x :: o2 →
    ((grown cmp (o1 ++ x :: o2)).Over x y ↔ ∀ z ∈ o1, ¬ Between cmp x.1 z.1 y.1) := by
  intro n
  induction n with
  | zero =>
    intro o1 o2 x y hn hd hy
    rw [List.length_eq_zero_iff.1 (Nat.le_zero.1 hn)] at hd hy ⊢
    have hy' := (grown_mem _ _ (Nat.le_refl _) hd y).2 hy
    refine ⟨fun _ z hz => (by cases hz), fun _ => ⟨[], ?_, hy'⟩⟩
    rw [List.nil_append, grown_cons hd.head]
    rfl
  | succ n ih =>
    intro o1 o2 x y hn hd hy
    cases o1 with
    | nil => exact ih [] o2 x y (Nat.zero_le _) hd hy
    | cons a o1 =>
      have hlen : o1.length ≤ n := by simpa using hn
      rw [List.cons_append] at hd hy ⊢
      have hh := hd.head
      have hxa : cmp x.1 a.1 ≠ .eq := hh x (by simp)
      have hne : x ≠ a := fun h => hxa (by rw [h]; exact ReflCmp.compare_self)
      rw [grown_cons hh, over_node hne]
      have hb := hd.tail.sublist (l' := below (onKeys cmp) a (o1 ++ x :: o2)) List.filter_sublist
      have hab := hd.tail.sublist (l' := above (onKeys cmp) a (o1 ++ x :: o2)) List.filter_sublist
      have mb := fun y => grown_mem _ _ (Nat.le_refl _) hb y
      have ma := fun y => grown_mem _ _ (Nat.le_refl _) hab y
      cases hc : cmp x.1 a.1 with
      | eq => exact absurd hc hxa
      | lt =>
        have hR : ¬ (grown cmp (above (onKeys cmp) a (o1 ++ x :: o2))).Over x y := fun ⟨p, h1, _⟩ => by
          have := (mem_above.1 ((ma x).1 (sub_label_mem h1))).2
          rw [hc] at this; cases this
        by_cases hya : cmp y.1 a.1 = .lt
        · have hyo : y ∈ o1 ++ x :: o2 := by
            rcases List.mem_cons.1 hy with rfl | h
            · rw [ReflCmp.compare_self (cmp := cmp)] at hya; cases hya
            · exact h
          have hyb := mem_below.2 ⟨hyo, hya⟩
          have heq : below (onKeys cmp) a (o1 ++ x :: o2) =
              below (onKeys cmp) a o1 ++ x :: below (onKeys cmp) a o2 := by
            simp [below, onKeys, hc]
          rw [heq] at hb hyb
          have := ih (below (onKeys cmp) a o1) (below (onKeys cmp) a o2) x y
            (Nat.le_trans (List.length_filter_le ..) hlen) hb hyb
          rw [heq, this]
          constructor
          · rintro (h | h)
            · intro z hz
              rcases List.mem_cons.1 hz with rfl | hz
              · exact not_between_lt hc hya (by rw [ReflCmp.compare_self (cmp := cmp)]; simp)
              · by_cases hza : cmp z.1 a.1 = .lt
                · exact h z (mem_below.2 ⟨hz, hza⟩)
                · exact not_between_lt hc hya hza
            · exact absurd h hR
          · exact fun h => .inl fun z hz => h z (List.mem_cons_of_mem _ (mem_below.1 hz).1)
        · refine ⟨?_, fun h => absurd (between_lt hc hya) (h a (List.mem_cons_self ..))⟩
          rintro (⟨p, _, h2⟩ | h)
          · exact absurd (mem_below.1 ((mb y).1 (sub_ino_mem h2))).2 hya
          · exact absurd h hR
      | gt =>
        have hR : ¬ (grown cmp (below (onKeys cmp) a (o1 ++ x :: o2))).Over x y := fun ⟨p, h1, _⟩ => by
          have := (mem_below.1 ((mb x).1 (sub_label_mem h1))).2
          rw [hc] at this; cases this
        by_cases hya : cmp y.1 a.1 = .gt
        · have hyo : y ∈ o1 ++ x :: o2 := by
            rcases List.mem_cons.1 hy with rfl | h
            · rw [ReflCmp.compare_self (cmp := cmp)] at hya; cases hya
            · exact h
          have hyb := mem_above.2 ⟨hyo, hya⟩
          have heq : above (onKeys cmp) a (o1 ++ x :: o2) =
              above (onKeys cmp) a o1 ++ x :: above (onKeys cmp) a o2 := by
            simp [above, onKeys, hc]
          rw [heq] at hab hyb
          have := ih (above (onKeys cmp) a o1) (above (onKeys cmp) a o2) x y
            (Nat.le_trans (List.length_filter_le ..) hlen) hab hyb
          rw [heq, this]
          constructor
          · rintro (h | h)
            · exact absurd h hR
            · intro z hz
              rcases List.mem_cons.1 hz with rfl | hz
              · exact not_between_gt hc hya (by rw [ReflCmp.compare_self (cmp := cmp)]; simp)
              · by_cases hza : cmp z.1 a.1 = .gt
                · exact h z (mem_above.2 ⟨hz, hza⟩)
                · exact not_between_gt hc hya hza
          · exact fun h => .inr fun z hz => h z (List.mem_cons_of_mem _ (mem_above.1 hz).1)
        · refine ⟨?_, fun h => absurd (between_gt hc hya) (h a (List.mem_cons_self ..))⟩
          rintro (h | ⟨p, _, h2⟩)
          · exact absurd h hR
          · exact absurd (mem_above.1 ((ma y).1 (sub_ino_mem h2))).2 hya

/-! ### Swapping neighbours -/

theorem grown_swap [TransCmp cmp] : ∀ (n : Nat) (o1 o2 : List (K × V)) (x y : K × V), o1.length ≤ n →
    Apart (onKeys cmp) (o1 ++ x :: y :: o2) → (∃ z ∈ o1, Between cmp x.1 z.1 y.1) →
    grown cmp (o1 ++ x :: y :: o2) = grown cmp (o1 ++ y :: x :: o2) := by
  intro n
  induction n with
  | zero =>
    rintro o1 o2 x y hn _ ⟨z, hz, _⟩
    rw [List.length_eq_zero_iff.1 (Nat.le_zero.1 hn)] at hz; cases hz
  | succ n ih =>
    rintro o1 o2 x y hn hd ⟨z, hz, hb⟩
    cases o1 with
    | nil => cases hz
    | cons a o1 =>
      have hlen : o1.length ≤ n := by simpa using hn
      rw [List.cons_append] at hd
      rw [List.cons_append, List.cons_append]
      have hh := hd.head
      have hh' : ∀ w ∈ o1 ++ y :: x :: o2, cmp w.1 a.1 ≠ .eq := fun w hw => hh w (by
        simp only [List.mem_append, List.mem_cons] at hw ⊢
        rcases hw with h | h | h | h
        · exact .inl h
        · exact .inr (.inr (.inl h))
        · exact .inr (.inl h)
        · exact .inr (.inr (.inr h)))
      have hxa : cmp x.1 a.1 ≠ .eq := hh x (by simp)
      have hya : cmp y.1 a.1 ≠ .eq := hh y (by simp)
      rw [grown_cons hh, grown_cons hh']
      have hB := hd.tail.sublist (l' := below (onKeys cmp) a (o1 ++ x :: y :: o2)) List.filter_sublist
      have hA := hd.tail.sublist (l' := above (onKeys cmp) a (o1 ++ x :: y :: o2)) List.filter_sublist
      cases hx : cmp x.1 a.1 with
      | eq => exact absurd hx hxa
      | lt =>
        cases hy : cmp y.1 a.1 with
        | eq => exact absurd hy hya
        | gt => simp [below, above, onKeys, hx, hy]
        | lt =>
          have hza : cmp z.1 a.1 = .lt := Decidable.byContradiction fun h => not_between_lt hx hy h hb
          have hzo : z ∈ o1 := by
            rcases List.mem_cons.1 hz with rfl | h
            · rw [ReflCmp.compare_self (cmp := cmp)] at hza; cases hza
            · exact h
          have h1 := ih (below (onKeys cmp) a o1) (below (onKeys cmp) a o2) x y
            (Nat.le_trans (List.length_filter_le ..) hlen)
            (by simpa [below, onKeys, hx, hy] using hB) ⟨z, mem_below.2 ⟨hzo, hza⟩, hb⟩
          simpa [below, above, onKeys, hx, hy] using h1
      | gt =>
        cases hy : cmp y.1 a.1 with
        | eq => exact absurd hy hya
        | lt => simp [below, above, onKeys, hx, hy]
        | gt =>
          have hza : cmp z.1 a.1 = .gt := Decidable.byContradiction fun h => not_between_gt hx hy h hb
          have hzo : z ∈ o1 := by
            rcases List.mem_cons.1 hz with rfl | h
            · rw [ReflCmp.compare_self (cmp := cmp)] at hza; cases hza
            · exact h
          have h1 := ih (above (onKeys cmp) a o1) (above (onKeys cmp) a o2) x y
            (Nat.le_trans (List.length_filter_le ..) hlen)
            (by simpa [above, onKeys, hx, hy] using hA) ⟨z, mem_above.2 ⟨hzo, hza⟩, hb⟩
          simpa [below, above, onKeys, hx, hy] using h1

theorem apart_swap [TransCmp cmp] {o1 o2 : List (K × V)} {x y : K × V}
    (h : Apart (onKeys cmp) (o1 ++ x :: y :: o2)) : Apart (onKeys cmp) (o1 ++ y :: x :: o2) :=
  h.perm ((List.Perm.swap y x o2).append_left o1)

theorem grown_swap_iff [TransCmp cmp] {o1 o2 : List (K × V)} {x y : K × V}
    (hd : Apart (onKeys cmp) (o1 ++ x :: y :: o2)) :
    grown cmp (o1 ++ x :: y :: o2) = grown cmp (o1 ++ y :: x :: o2) ↔
      ∃ z ∈ o1, Between cmp x.1 z.1 y.1 := by
  refine ⟨fun h => ?_, grown_swap _ o1 o2 x y (Nat.le_refl _) hd⟩
  refine Classical.byContradiction fun hn => ?_
  have h1 := (over_grown _ o1 (x :: o2) y x (Nat.le_refl _) (apart_swap hd) (by simp)).2
    fun z hz hb => hn ⟨z, hz, hb.symm⟩
  rw [← h] at h1
  have h2 : o1 ++ x :: y :: o2 = (o1 ++ [x]) ++ y :: o2 := by simp
  rw [h2] at h1 hd
  exact (over_grown _ (o1 ++ [x]) o2 y x (Nat.le_refl _) hd (by simp)).1 h1 x (by simp)
    (between_left x.1 y.1).symm

/-! ### Two insertions into any search tree -/

theorem between_eq [TransCmp cmp] {a x y : K} (hx : cmp x a = .eq) : Between cmp x a y := by
  cases h : cmp a y with
  | gt => exact .inr ⟨by rw [OrientedCmp.gt_iff_lt.1 h]; simp, by rw [OrientedCmp.eq_symm hx]; simp⟩
  | _ => exact .inl ⟨by rw [hx]; simp, by rw [h]; simp⟩

theorem insert_commute [TransCmp cmp] {x y : K × V} (hne : cmp x.1 y.1 ≠ .eq) {t : BT (K × V)}
    (ht : t.Search cmp) :
    (t.insert cmp x.1 x.2).insert cmp y.1 y.2 = (t.insert cmp y.1 y.2).insert cmp x.1 x.2 ↔
      ∃ z ∈ t.ino, Between cmp x.1 z.1 y.1 := by
  induction t with
  | nil =>
    refine ⟨fun h => ?_, fun ⟨z, hz, _⟩ => by cases hz⟩
    have hne' : cmp y.1 x.1 ≠ .eq := fun h => hne (OrientedCmp.eq_symm h)
    simp only [BT.insert] at h
    exfalso
    have hxy : x = y := by
      cases h1 : cmp y.1 x.1 with
      | eq => exact absurd h1 hne'
      | lt => cases h2 : cmp x.1 y.1 with
        | eq => exact absurd h2 hne
        | lt => rw [h1, h2] at h; exact (BT.node.inj h).2.1
        | gt => rw [h1, h2] at h; exact (BT.node.inj h).2.1
      | gt => cases h2 : cmp x.1 y.1 with
        | eq => exact absurd h2 hne
        | lt => rw [h1, h2] at h; exact (BT.node.inj h).2.1
        | gt => rw [h1, h2] at h; exact (BT.node.inj h).2.1
    exact hne (by rw [hxy]; exact ReflCmp.compare_self (cmp := cmp))
  | node l e r ihl ihr =>
    obtain ⟨hl, hr, sl, sr⟩ := ht
    have he : e ∈ (BT.node l e r).ino := by simp [BT.ino]
    cases hx : cmp x.1 e.1 with
    | eq =>
      refine ⟨fun _ => ⟨e, he, between_eq hx⟩, fun _ => ?_⟩
      cases hy : cmp y.1 e.1 with
      | eq => exact absurd (TransCmp.eq_trans hx (OrientedCmp.eq_symm hy)) hne
      | _ => simp only [BT.insert, hx, hy]
    | lt =>
      cases hy : cmp y.1 e.1 with
      | eq =>
        refine ⟨fun _ => ⟨e, he, (between_eq hy).symm⟩, fun _ => ?_⟩
        simp only [BT.insert, hx, hy]
      | gt =>
        refine ⟨fun _ => ⟨e, he, between_lt hx (by rw [hy]; simp)⟩, fun _ => ?_⟩
        simp only [BT.insert, hx, hy]
      | lt =>
        simp only [BT.insert, hx, hy, BT.node.injEq, and_true, ihl sl, BT.ino]
        constructor
        · rintro ⟨z, hz, h⟩
          exact ⟨z, List.mem_append_left _ hz, h⟩
        · rintro ⟨z, hz, h⟩
          rcases List.mem_append.1 hz with hz | hz
          · exact ⟨z, hz, h⟩
          · refine absurd h (not_between_lt hx hy ?_)
            rcases List.mem_cons.1 hz with rfl | hz
            · rw [ReflCmp.compare_self (cmp := cmp)]; simp
            · rw [OrientedCmp.gt_iff_lt.2 (hr z hz)]; simp
    | gt =>
      cases hy : cmp y.1 e.1 with
      | eq =>
        refine ⟨fun _ => ⟨e, he, (between_eq hy).symm⟩, fun _ => ?_⟩
        simp only [BT.insert, hx, hy]
      | lt =>
        refine ⟨fun _ => ⟨e, he, between_gt hx (by rw [hy]; simp)⟩, fun _ => ?_⟩
        simp only [BT.insert, hx, hy]
      | gt =>
        simp only [BT.insert, hx, hy, BT.node.injEq, true_and, ihr sr, BT.ino]
        constructor
        · rintro ⟨z, hz, h⟩
          exact ⟨z, List.mem_append_right _ (List.mem_cons_of_mem _ hz), h⟩
        · rintro ⟨z, hz, h⟩
          rcases List.mem_append.1 hz with hz | hz
          · exact absurd h (not_between_gt hx hy (by rw [hl z hz]; simp))
          · rcases List.mem_cons.1 hz with rfl | hz
            · exact absurd h (not_between_gt hx hy (by rw [ReflCmp.compare_self (cmp := cmp)]; simp))
            · exact ⟨z, hz, h⟩

theorem search_of_sorted {t : BT (K × V)} (h : Sorted cmp t.ino) : t.Search cmp := by
  induction t with
  | nil => trivial
  | node l e r ihl ihr =>
    obtain ⟨h1, h2, h3⟩ := List.pairwise_append.1 h
    obtain ⟨h4, h5⟩ := List.pairwise_cons.1 h2
    exact ⟨fun x hx => h3 x hx e (List.mem_cons_self ..), h4, ihl h1, ihr h5⟩

end BST.Spec

namespace BST
open Spec
variable {K V : Type} {cmp : K → K → Ordering}

theorem Spec.BT.insertBy_query (k : K) (v : V) (t : BT (K × V)) (j : Nat) :
    t.insertBy (query (cmp k)) k v j = t.insert cmp k v := by
  induction t generalizing j with
  | nil => rfl
  | node l x r ihl ihr =>
    simp only [BT.insertBy, BT.insert, query]
    cases cmp k x.1 with
    | lt => simp only; rw [show l.insertBy _ _ _ _ = _ from ihl _]
    | gt => simp only; rw [show r.insertBy _ _ _ _ = _ from ihr _]
    | eq => rfl

/-- Insertions that all succeed. -/
theorem history_inserts {cfg : Cfg} (o : List (K × V)) {m m' : BSTMap K V} {t : Tree K V}
    (h : Shape cfg m t) {os : List (Out (Ret K V))}
    (hi : history cfg (o.map fun e => .insert (query (cmp e.1)) e.1 e.2) m = (os, m'))
    (hos : ∀ r ∈ os, ∃ x, r = .ok x) :
    ∃ t', Shape cfg m' t' ∧ t'.sh = BT.insertList cmp o t.sh := by
  induction o generalizing m t os with
  | nil => cases hi; exact ⟨t, h, rfl⟩
  | cons e o ih =>
    obtain ⟨k, v⟩ := e
    have hrun : Op.run cfg (.insert (query (cmp k)) k v : Op K V) m =
        (BSTMap.insert cfg (query (cmp k)) k v >>= fun r => pure (.value r)) m := rfl
    simp only [List.map_cons, history] at hi
    rcases insert_cases h (query (cmp k)) k v with ⟨x, p, m1, _, h1, h2, _⟩ | ⟨r, h1, h2⟩
    · rw [hrun, M.bind_ok h1] at hi
      simp only [M.pure_apply] at hi
      cases hi
      obtain ⟨t', g1, g2⟩ := ih h2 rfl fun r hr => hos r (List.mem_cons_of_mem _ hr)
      rw [ins_insertBy, BT.insertBy_query] at g2
      exact ⟨t', g1, g2⟩
    · exfalso
      have hr : r = .panic ∨ r = .abort := by
        rcases h2 with ⟨h2, _⟩ | ⟨h2, _⟩
        · exact .inl h2
        · exact h2
      rcases hr with rfl | rfl
      · rw [hrun, M.bind_panic h1] at hi
        cases hi
        obtain ⟨x, hx⟩ := hos _ (List.mem_cons_self ..); cases hx
      · rw [hrun, M.bind_apply, h1] at hi
        cases hi
        obtain ⟨x, hx⟩ := hos _ (List.mem_cons_self ..); cases hx

theorem simpleHistory_inserts {cfg : Cfg} (he : 2 ≤ cfg.esize) (o : List (K × V)) {m m' : Simple.Map K V}
    (h : Simple.Wf m) {os : List (Out (Ret K V))}
    (hi : simpleHistory cfg (o.map fun e => .insert (query (cmp e.1)) e.1 e.2) m = (os, m'))
    (hos : ∀ r ∈ os, ∃ x, r = .ok x) :
    m'.root.view = BT.insertList cmp o m.root.view := by
  unfold simpleHistory at hi
  induction o generalizing m os with
  | nil => cases hi; rfl
  | cons e o ih =>
    obtain ⟨k, v⟩ := e
    have hrun : SimpleOp.run cfg (.insert (query (cmp k)) k v : SimpleOp K V) m =
        (Simple.Map.insert cfg (query (cmp k)) k v >>= fun r => pure (.value r)) m := rfl
    simp only [List.map_cons, execute] at hi
    rcases Simple.Map.insert_spec he (query (cmp k)) k v m h with ⟨_, h1⟩ | ⟨x, a, n, _, h1, h2⟩ | ⟨_, h1, _⟩
    · rw [hrun, M.bind_panic h1] at hi
      cases hi
      obtain ⟨x, hx⟩ := hos _ (List.mem_cons_self ..); cases hx
    · rw [hrun, M.bind_ok h1] at hi
      simp only [M.pure_apply] at hi
      cases hi
      have g := ih (m := ⟨_, n, a⟩) h2 rfl fun r hr => hos r (List.mem_cons_of_mem _ hr)
      rw [Simple.view_insertBy, BT.insertBy_query] at g
      exact g
    · rw [hrun, M.bind_apply, h1] at hi
      cases hi
      obtain ⟨x, hx⟩ := hos _ (List.mem_cons_self ..); cases hx

end BST
