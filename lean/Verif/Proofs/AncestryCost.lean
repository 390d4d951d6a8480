import Verif.Proofs.Ancestry
import Verif.Proofs.Aging
/-!
# What it costs to find a key, from the order of insertion
-/
namespace BST.Spec
open Std
variable {K V : Type} {cmp : K → K → Ordering}

theorem onWay_eq [TransCmp cmp] {k : K} {a : K × V} (hk : cmp k a.1 = .eq) (o seen : List (K × V)) :
    onWay cmp k (a :: seen) o = 0 := by
  induction o generalizing seen with
  | nil => rfl
  | cons x o ih =>
    have : ∃ z ∈ a :: seen, Between cmp x.1 z.1 k := ⟨a, List.mem_cons_self .., (between_eq hk).symm⟩
    rw [onWay, if_pos this, Nat.zero_add]
    exact ih (seen ++ [x])

theorem onWay_lt [TransCmp cmp] {k : K} {a : K × V} (hk : cmp k a.1 = .lt) (o seen : List (K × V)) :
    onWay cmp k (a :: seen) o = onWay cmp k (below (onKeys cmp) a seen) (below (onKeys cmp) a o) := by
  induction o generalizing seen with
  | nil => rfl
  | cons x o ih =>
    have ih' := ih (seen ++ [x])
    rw [onWay, List.cons_append, ih']
    by_cases hx : cmp x.1 a.1 = .lt
    · have h1 : below (onKeys cmp) a (x :: o) = x :: below (onKeys cmp) a o := by simp [below, onKeys, hx]
      have h2 : below (onKeys cmp) a (seen ++ [x]) = below (onKeys cmp) a seen ++ [x] := by
        simp [below, onKeys, hx]
      have h3 : (∃ z ∈ a :: seen, Between cmp x.1 z.1 k) ↔
          ∃ z ∈ below (onKeys cmp) a seen, Between cmp x.1 z.1 k := by
        constructor
        · rintro ⟨z, hz, hb⟩
          have hza : cmp z.1 a.1 = .lt := Decidable.byContradiction fun h => not_between_lt hx hk h hb
          rcases List.mem_cons.1 hz with rfl | hz
          · rw [ReflCmp.compare_self (cmp := cmp)] at hza; cases hza
          · exact ⟨z, mem_below.2 ⟨hz, hza⟩, hb⟩
        · rintro ⟨z, hz, hb⟩
          exact ⟨z, List.mem_cons_of_mem _ (mem_below.1 hz).1, hb⟩
      rw [h1, h2, onWay]
      simp only [h3]
    · have h1 : below (onKeys cmp) a (x :: o) = below (onKeys cmp) a o := by simp [below, onKeys, hx]
      have h2 : below (onKeys cmp) a (seen ++ [x]) = below (onKeys cmp) a seen := by
        simp [below, onKeys, hx]
      have h3 : ∃ z ∈ a :: seen, Between cmp x.1 z.1 k :=
        ⟨a, List.mem_cons_self .., (between_lt hk hx).symm⟩
      rw [h1, h2, if_pos h3, Nat.zero_add]

theorem onWay_gt [TransCmp cmp] {k : K} {a : K × V} (hk : cmp k a.1 = .gt) (o seen : List (K × V)) :
    onWay cmp k (a :: seen) o = onWay cmp k (above (onKeys cmp) a seen) (above (onKeys cmp) a o) := by
  induction o generalizing seen with
  | nil => rfl
  | cons x o ih =>
    have ih' := ih (seen ++ [x])
    rw [onWay, List.cons_append, ih']
    by_cases hx : cmp x.1 a.1 = .gt
    · have h1 : above (onKeys cmp) a (x :: o) = x :: above (onKeys cmp) a o := by simp [above, onKeys, hx]
      have h2 : above (onKeys cmp) a (seen ++ [x]) = above (onKeys cmp) a seen ++ [x] := by
        simp [above, onKeys, hx]
      have h3 : (∃ z ∈ a :: seen, Between cmp x.1 z.1 k) ↔
          ∃ z ∈ above (onKeys cmp) a seen, Between cmp x.1 z.1 k := by
        constructor
        · rintro ⟨z, hz, hb⟩
          have hza : cmp z.1 a.1 = .gt := Decidable.byContradiction fun h => not_between_gt hx hk h hb
          rcases List.mem_cons.1 hz with rfl | hz
          · rw [ReflCmp.compare_self (cmp := cmp)] at hza; cases hza
          · exact ⟨z, mem_above.2 ⟨hz, hza⟩, hb⟩
        · rintro ⟨z, hz, hb⟩
          exact ⟨z, List.mem_cons_of_mem _ (mem_above.1 hz).1, hb⟩
      rw [h1, h2, onWay]
      simp only [h3]
    · have h1 : above (onKeys cmp) a (x :: o) = above (onKeys cmp) a o := by simp [above, onKeys, hx]
      have h2 : above (onKeys cmp) a (seen ++ [x]) = above (onKeys cmp) a seen := by
        simp [above, onKeys, hx]
      have h3 : ∃ z ∈ a :: seen, Between cmp x.1 z.1 k :=
        ⟨a, List.mem_cons_self .., (between_gt hk hx).symm⟩
      rw [h1, h2, if_pos h3, Nat.zero_add]

theorem steps_grown [TransCmp cmp] (k : K) : ∀ (n : Nat) (o : List (K × V)), o.length ≤ n →
    Apart (onKeys cmp) o → (grown cmp o).steps cmp k = onWay cmp k [] o := by
  intro n
  induction n with
  | zero =>
    intro o ho _
    rw [List.length_eq_zero_iff.1 (Nat.le_zero.1 ho)]
    rfl
  | succ n ih =>
    intro o ho hd
    cases o with
    | nil => rfl
    | cons a o =>
      have hlen : o.length ≤ n := by simpa using ho
      have h0 : ¬ ∃ z ∈ ([] : List (K × V)), Between cmp a.1 z.1 k := fun ⟨z, hz, _⟩ => by cases hz
      rw [grown_cons hd.head, onWay, if_neg h0, List.nil_append, BT.steps]
      cases hk : cmp k a.1 with
      | eq => simp [onWay_eq hk]
      | lt =>
        simp only
        rw [onWay_lt hk, ih (below (onKeys cmp) a o) (Nat.le_trans (List.length_filter_le ..) hlen)
          (hd.tail.sublist List.filter_sublist)]
        exact Nat.add_comm ..
      | gt =>
        simp only
        rw [onWay_gt hk, ih (above (onKeys cmp) a o) (Nat.le_trans (List.length_filter_le ..) hlen)
          (hd.tail.sublist List.filter_sublist)]
        exact Nat.add_comm ..

theorem search_upTo_has {b : BT (K × V)} {k : K} {n : Nat} {e : K × V} {i : Nat}
    (h : b.search (upTo cmp k n) i = .ok (some e)) : ∃ y ∈ b.ino, cmp k y.1 = .eq := by
  induction b generalizing i with
  | nil => simp [BT.search] at h
  | node l a r ihl ihr =>
    rw [BT.search] at h
    by_cases hi : i < n
    · simp only [upTo, hi, if_true] at h
      cases hc : cmp k a.1 with
      | eq => exact ⟨a, by simp [BT.ino], hc⟩
      | lt =>
        rw [hc] at h
        obtain ⟨y, hy, hk⟩ := ihl h
        exact ⟨y, List.mem_append_left _ hy, hk⟩
      | gt =>
        rw [hc] at h
        obtain ⟨y, hy, hk⟩ := ihr h
        exact ⟨y, List.mem_append_right _ (List.mem_cons_of_mem _ hy), hk⟩
    · simp [upTo, hi] at h

end BST.Spec

namespace BST
open Spec Std
variable {K V : Type} {cmp : K → K → Ordering}

theorem simpleHistory_inserts_sorted [TransCmp cmp] {cfg : Cfg} (he : 2 ≤ cfg.esize) {o : List (K × V)}
    {os : List (Out (Ret K V))} {m : Simple.Map K V}
    (hi : simpleHistory cfg (o.map fun e => .insert (query (cmp e.1)) e.1 e.2) Simple.Map.new = (os, m))
    (hos : ∀ r ∈ os, ∃ v, r = .ok v) : Simple.Wf m ∧ m.root.Sorted cmp := by
  have hl : ∀ op ∈ (o.map fun e => (.insert (query (cmp e.1)) e.1 e.2 : SimpleOp K V)), op.Lawful cmp := by
    intro op hop
    obtain ⟨e, _, rfl⟩ := List.mem_map.1 hop
    exact fun _ _ => .inr rfl
  have hw := simpleHistory_sorted (cfg := cfg) he _ hl (m := Simple.Map.new) rfl .nil (by
    rw [hi]; intro h; obtain ⟨v, hv⟩ := hos _ h; cases hv)
  rw [hi] at hw
  exact hw

end BST
