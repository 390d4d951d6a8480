import Verif.Proofs.RandomTree
import Verif.Proofs.Textbook
import Verif.Proofs.SimpleConform
import Verif.Model.Set
import Verif.Model.SimpleSet
/-!
# Maps of random insertion orders

Building a map is `reinsert`, in both crates; heights.
-/
namespace BST
open Std
open Spec (BT reinsert budget grown effort)
variable {K V : Type} {cmp : K → K → Ordering}

section
open BSTMap Tree

theorem insertAll_reinsert {cfg : Cfg} (he : 0 < cfg.esize) (ha : ∀ id n, cfg.allocOk id n = true)
    {cmps : Nat → K → Probe K} (l : List (K × V)) :
    ∀ (n : Nat) {m : BSTMap K V} {t : Tree K V}, Shape cfg m t →
    (t.size + l.length + 8) * cfg.esize ≤ isizeMax →
    (∃ m' w, insertAll cfg cmps n l m = (.ok (), m') ∧ Shape cfg m' w ∧
        reinsert cmps some some n l t.sh = .ok w.sh) ∨
    ∃ m', insertAll cfg cmps n l m = (.panic, m') ∧ reinsert cmps some some n l t.sh = .panic := by
  induction l with
  | nil => intro n m t h _; exact .inl ⟨m, t, rfl, h, rfl⟩
  | cons e l ih =>
    intro n m t h hn
    obtain ⟨k, v⟩ := e
    rcases insert_cases h (cmps n k) k v with ⟨e, p, m1, hf, hi, hs, _⟩ | ⟨o, hi, ⟨rfl, hf⟩ | ⟨_, _, hfull⟩⟩
    · have hsz := ins_size_le (p := p) (k := k) (v := v) hf
      have hle : (t.ins (cmps n k) p k v 0).size + l.length + 8 ≤ t.size + ((k, v) :: l).length + 8 := by
        simp only [List.length_cons]; omega
      have := Nat.le_trans (Nat.mul_le_mul_right cfg.esize hle) hn
      have hr : reinsert cmps some some n ((k, v) :: l) t.sh =
          reinsert cmps some some (n + 1) l (t.ins (cmps n k) p k v 0).sh := by
        rw [ins_insertBy]
        simp only [reinsert, find_search, hf]
        rfl
      have hstep : insertAll cfg cmps n ((k, v) :: l) m = insertAll cfg cmps (n + 1) l m1 := by
        rw [insertAll, M.bind_ok hi]
      rw [hr, hstep]
      exact ih (n + 1) hs this
    · refine .inr ⟨m, by rw [insertAll, M.bind_panic hi], ?_⟩
      simp only [reinsert, find_search, hf]
      rfl
    · exfalso
      have h1 := hfull.huge he ha h
      have : t.size + 8 ≤ t.size + ((k, v) :: l).length + 8 := by omega
      have := Nat.mul_le_mul_right cfg.esize this
      omega

end

namespace Simple
open Map

theorem view_search (c : Probe K) (i : Nat) (t : Link K V) : t.view.search c i = t.find c i := by
  induction t generalizing i with
  | nil => rfl
  | node k v l r ihl ihr =>
    simp only [Link.view, BT.search, Link.find]
    cases c i k with
    | none => rfl
    | some o => cases o <;> first | rfl | exact ihl _ | exact ihr _

theorem view_insertBy (c : Probe K) (k : K) (v : V) (i : Nat) (t : Link K V) :
    (t.ins c k v i).view = t.view.insertBy c k v i := by
  induction t generalizing i with
  | nil => rfl
  | node k' v' l r ihl ihr =>
    simp only [Link.view, BT.insertBy, Link.ins]
    cases c i k' with
    | none => rfl
    | some o => cases o <;> simp [ihl, ihr, Link.view]

theorem insertAll_reinsert {cfg : Cfg} (he : 2 ≤ cfg.esize) {cmps : Nat → K → Probe K}
    (l : List (K × V)) :
    ∀ (n : Nat) {m : Map K V}, Wf m → Plenty cfg (m.root.size + l.length) →
    (∃ m', Map.insertAll cfg cmps n l m = (.ok (), m') ∧ Wf m' ∧
        reinsert cmps some some n l m.root.view = .ok m'.root.view) ∨
    ∃ m', Map.insertAll cfg cmps n l m = (.panic, m') ∧
      reinsert cmps some some n l m.root.view = .panic := by
  induction l with
  | nil => intro n m h _; exact .inl ⟨m, rfl, h, rfl⟩
  | cons e l ih =>
    intro n m h hn
    obtain ⟨k, v⟩ := e
    rcases insert_spec he (cmps n k) k v m h with ⟨hf, hi⟩ | ⟨e, a, s, hf, hi, hs⟩ | ⟨_, _, hp⟩
    · refine .inr ⟨m, by rw [Map.insertAll, M.bind_panic hi], ?_⟩
      simp only [reinsert, view_search, hf]
    · have hr : reinsert cmps some some n ((k, v) :: l) m.root.view =
          reinsert cmps some some (n + 1) l (m.root.ins (cmps n k) k v 0).view := by
        rw [view_insertBy]
        simp only [reinsert, view_search, hf]
      have hstep : Map.insertAll cfg cmps n ((k, v) :: l) m =
          Map.insertAll cfg cmps (n + 1) l ⟨m.root.ins (cmps n k) k v 0, s, a⟩ := by
        rw [Map.insertAll, M.bind_ok hi]
      rw [hr, hstep]
      refine ih (n + 1) hs (hn.mono ?_)
      have := Link.ins_size hf k v
      simp only [List.length_cons]
      cases e <;> simp at this <;> omega
    · exact absurd (hn.mono (by omega)) hp

end Simple

/-- The steps of a search are its comparisons. -/
theorem search_count (cmp : K → K → Ordering) (k : K) (b : Nat) (t : BT (K × V)) :
    (t.steps cmp k ≤ b → ∃ e, t.search (fun n x => if n < b then some (cmp k x) else none) 0 = .ok e) ∧
    (b < t.steps cmp k →
      t.search (fun n x => if n < b then some (cmp k x) else none) 0 = .panic) := by
  have h := BT.search_budget cmp k b 0 t
  split at h
  · exact ⟨fun _ => h.1, fun hb => by omega⟩
  · exact ⟨fun hb => by omega, fun _ => h⟩

namespace Spec

theorem reinsert_effort (f : Nat → Nat) (o : List (K × V)) :
    ((∀ j d, (effort cmp o)[j]? = some d → d ≤ f j) →
      reinsert (budget f cmp) some some 0 o .nil = .ok (grown cmp o)) ∧
    ((∃ j d, (effort cmp o)[j]? = some d ∧ f j < d) →
      reinsert (budget f cmp) some some 0 o .nil = .panic) := by
  have h := BT.reinsert_budget f cmp (g := fun k => k) (gv := fun v => v) o 0 .nil
  simpa [effort, grown] using h

theorem effort_length (o : List (K × V)) (t : BT (K × V)) : (BT.stepsList cmp o t).length = o.length := by
  induction o generalizing t with
  | nil => rfl
  | cons e o ih => simp [BT.stepsList, ih]

theorem reinsert_query (o : List (K × V)) (i : Nat) (t : BT (K × V)) :
    reinsert (fun _ k => query (cmp k)) some some i o t = .ok (BT.insertList cmp o t) := by
  induction o generalizing i t with
  | nil => rfl
  | cons e o ih =>
    have h : ∀ (t : BT (K × V)) (j : Nat), (∃ x, t.search (query (cmp e.1)) j = .ok x) ∧
        t.insertBy (query (cmp e.1)) e.1 e.2 j = t.insert cmp e.1 e.2 := by
      intro t
      induction t with
      | nil => intro j; exact ⟨⟨_, rfl⟩, rfl⟩
      | node l x r ihl ihr =>
        intro j
        simp only [BT.search, BT.insertBy, BT.insert, query]
        cases cmp e.1 x.1 with
        | lt => exact ⟨(ihl _).1, by rw [show l.insertBy _ _ _ _ = _ from (ihl _).2]⟩
        | gt => exact ⟨(ihr _).1, by rw [show r.insertBy _ _ _ _ = _ from (ihr _).2]⟩
        | eq => exact ⟨⟨_, rfl⟩, rfl⟩
    obtain ⟨⟨x, h1⟩, h2⟩ := h t 0
    simp only [reinsert, h1, h2, ih]
    rfl

/-- No order takes more comparisons than a sorted one. -/
theorem effort_le [TransCmp cmp] (n : Nat) : ∀ o : List (K × V), o.length ≤ n → Apart (onKeys cmp) o →
    2 * (effort cmp o).sum + o.length ≤ o.length * o.length := by
  induction n with
  | zero => intro o hl _; rw [List.length_eq_zero_iff.1 (Nat.le_zero.1 hl)]; simp [effort, BT.stepsList]
  | succ n ih =>
    intro o hl hd
    match o with
    | [] => simp [effort, BT.stepsList]
    | x :: ys =>
      obtain ⟨h1, h2⟩ := List.pairwise_cons.1 hd
      have hne : ∀ y ∈ ys, cmp y.1 x.1 ≠ .eq := fun y hy he => h1 y hy (OrientedCmp.eq_symm he)
      rw [effort_cons hne]
      simp only [List.length_cons] at hl ⊢
      have hb : (below (onKeys cmp) x ys).length ≤ ys.length := List.length_filter_le _ _
      have hab : (below (onKeys cmp) x ys).length + (above (onKeys cmp) x ys).length = ys.length := by
        rw [← filter_length_add (fun e => onKeys cmp e x == .lt) ys]
        congr 1
        rw [above]
        congr 1
        refine List.filter_congr fun e he => ?_
        have := hne e he
        simp only [onKeys]
        cases hc : cmp e.1 x.1 <;> simp_all
      have i1 := ih (below (onKeys cmp) x ys) (by omega) (Apart.sublist (List.filter_sublist ..) h2)
      have i2 := ih (above (onKeys cmp) x ys) (by omega) (Apart.sublist (List.filter_sublist ..) h2)
      rw [← hab]
      generalize (below (onKeys cmp) x ys).length = a at *
      generalize (above (onKeys cmp) x ys).length = b at *
      have e1 : (a + b + 1) * (a + b + 1) = a * a + b * b + 2 * (a * b) + 2 * a + 2 * b + 1 := by grind
      rw [e1]
      omega

theorem effort_sorted [TransCmp cmp] (o : List (K × V)) (hs : o.Pairwise fun a b => onKeys cmp a b = .lt) :
    2 * (effort cmp o).sum + o.length = o.length * o.length := by
  induction o with
  | nil => simp [effort, BT.stepsList]
  | cons x ys ih =>
    obtain ⟨h1, h2⟩ := List.pairwise_cons.1 hs
    have hgt : ∀ y ∈ ys, cmp y.1 x.1 = .gt := fun y hy => OrientedCmp.gt_of_lt (h1 y hy)
    rw [effort_cons fun y hy => by rw [hgt y hy]; decide]
    have e1 : below (onKeys cmp) x ys = [] := by
      rw [below, List.filter_eq_nil_iff]; intro y hy; simp [onKeys, hgt y hy]
    have e2 : above (onKeys cmp) x ys = ys := by
      rw [above, List.filter_eq_self]; intro y hy; simp [onKeys, hgt y hy]
    rw [e1, e2]
    have := ih h2
    simp only [effort, BT.stepsList, List.sum_nil, List.length_cons] at *
    have e3 : (ys.length + 1) * (ys.length + 1) = ys.length * ys.length + 2 * ys.length + 1 := by grind
    omega

theorem mem_orders {α : Type} {l o : List α} : o ∈ orders l ↔ o.Perm l :=
  ⟨arrangements_perm rfl, mem_arrangements rfl⟩

theorem orders_nodup {α : Type} {l : List α} (h : l.Nodup) : (orders l).Nodup :=
  arrangements_nodup rfl h

theorem insert_size_le (k : K) (v : V) (t : BT (K × V)) : (t.insert cmp k v).size ≤ t.size + 1 := by
  induction t with
  | nil => simp [BT.insert, BT.size]
  | node l e r ihl ihr =>
    simp only [BT.insert]
    cases cmp k e.1 <;> simp only [BT.size] <;> omega

theorem insertList_size (o : List (K × V)) (t : BT (K × V)) :
    (BT.insertList cmp o t).size ≤ t.size + o.length := by
  induction o generalizing t with
  | nil => simp [BT.insertList]
  | cons e o ih =>
    have h1 := ih (t.insert cmp e.1 e.2)
    have h2 := insert_size_le (cmp := cmp) e.1 e.2 t
    simp only [BT.insertList, List.foldl_cons, List.length_cons] at *
    omega

theorem grown_size (o : List (K × V)) : (grown cmp o).size ≤ o.length := by
  have := insertList_size (cmp := cmp) o .nil
  simpa [BT.size, grown] using this

theorem effort_worst [TransCmp cmp] {l o : List (K × V)} (hd : Apart (onKeys cmp) l) (ho : o ∈ orders l) :
    2 * (effort cmp o).sum ≤ l.length * (l.length - 1) := by
  have hp := mem_orders.1 ho
  have := effort_le o.length o (Nat.le_refl _) (hd.perm hp.symm)
  rw [hp.length_eq] at this
  rw [Nat.mul_sub_one]
  omega

theorem effort_attained [TransCmp cmp] {l : List (K × V)} (hd : Apart (onKeys cmp) l) :
    ∃ o ∈ orders l, 2 * (effort cmp o).sum = l.length * (l.length - 1) := by
  obtain ⟨s, h1, h2⟩ := exists_sorted hd
  refine ⟨s, mem_orders.2 h1.symm, ?_⟩
  have := effort_sorted (cmp := cmp) s h2
  rw [← h1.length_eq] at this
  rw [Nat.mul_sub_one]
  omega

theorem mean_eq {α : Type} (l : List α) (f : List α → Nat) :
    mean l f = tot (orders l) (fun o => (f o : Rat)) / factorial l.length := by
  rw [mean, tot_nat, orders_length]

theorem fac_pos (n : Nat) : (0 : Rat) < factorial n := by
  have := factorial_pos n
  exact_mod_cast this

theorem mean_effort [TransCmp cmp] {l : List (K × V)} (hd : Apart (onKeys cmp) l) :
    mean l (fun o => (effort cmp o).sum) = quick l.length := by
  rw [mean_eq, tot_effort l.length l (Nat.le_refl _) hd]
  have := fac_ne l.length
  grind

theorem quick_log (n : Nat) : quick n ≤ 2 * n * (Nat.log2 n : Nat) := by
  rcases Nat.eq_zero_or_pos n with rfl | h
  · simp [quick, harmonic]; grind
  · have h1 := harmonic_log n h
    have h2 := cast_nonneg n
    rw [cast_succ] at h1
    have h3 : ((Nat.log2 n : Nat) : Rat) + 1 ≤ n := by
      rw [← cast_succ]
      refine Rat.natCast_le_natCast.2 ?_
      have : Nat.log2 n < n := (Nat.log2_lt (by omega)).2 Nat.lt_two_pow_self
      omega
    have h4 := Rat.mul_le_mul_of_nonneg_left h1 (c := 2 * ((n : Rat) + 1)) (by grind)
    simp only [quick]
    generalize (n : Rat) = x at *
    generalize ((Nat.log2 n : Nat) : Rat) = y at *
    grind

theorem mean_seek [TransCmp cmp] {l : List (K × V)} (hd : Apart (onKeys cmp) l) (k : K) :
    mean l (fun o => (grown cmp o).steps cmp k) =
      seek (smaller cmp k l).length (greater cmp k l).length (same cmp k l).length := by
  rw [mean_eq, tot_seek k l.length l (Nat.le_refl _) hd]
  have := fac_ne l.length
  grind

theorem harmonic_le {m n : Nat} (h : m ≤ n) : harmonic m ≤ harmonic n := by
  induction h with
  | refl => exact Rat.le_refl
  | step _ ih => exact Rat.le_trans ih (harmonic_mono _)

theorem seek_log [TransCmp cmp] {l : List (K × V)} (hd : Apart (onKeys cmp) l) (k : K) (hl : 0 < l.length) :
    seek (smaller cmp k l).length (greater cmp k l).length (same cmp k l).length ≤
      2 * (Nat.log2 l.length : Nat) + 2 := by
  have h1 := lengths (cmp := cmp) k l
  have h2 := same_le hd k
  have h3 := harmonic_log l.length hl
  rw [cast_succ] at h3
  unfold seek
  split
  · have a1 := harmonic_le (show (smaller cmp k l).length ≤ l.length by omega)
    have a2 := harmonic_le (show (greater cmp k l).length ≤ l.length by omega)
    grind
  · have a1 := harmonic_le (show (smaller cmp k l).length + 1 ≤ l.length by omega)
    have a2 := harmonic_le (show (greater cmp k l).length + 1 ≤ l.length by omega)
    grind

/-! ### Heights -/

theorem sum_height [TransCmp cmp] {l : List (K × V)} (hd : Apart (onKeys cmp) l) :
    18 * ((orders l).map fun o => 2 ^ (grown cmp o).height).sum ≤
      factorial l.length * ((l.length + 1) * (l.length + 2) * (l.length + 3) + 12) := by
  have h := tot_height l.length l (Nat.le_refl _) hd
  rw [← tot_nat, spread] at h
  rw [← Rat.natCast_le_natCast]
  simp only [Rat.natCast_mul, Rat.natCast_add]
  generalize ((((orders l).map fun o => 2 ^ (grown cmp o).height).sum : Nat) : Rat) = s at h
  generalize (factorial l.length : Rat) = u at h ⊢
  generalize (l.length : Rat) = x at h ⊢
  have e : u * (((x + 1) * (x + 2) * (x + 3) + 12) / 18) * 18 = u * ((x + 1) * (x + 2) * (x + 3) + 12) := by
    grind
  have e2 : ∀ a b : Rat, a ≤ b → a * 18 ≤ b * 18 := fun a b h => by grind
  have h2 := e2 _ _ h
  rw [e] at h2
  have c18 : ((18 : Nat) : Rat) = 18 := rfl
  have c12 : ((12 : Nat) : Rat) = 12 := rfl
  have c1 : ((1 : Nat) : Rat) = 1 := rfl
  have c2 : ((2 : Nat) : Rat) = 2 := rfl
  have c3 : ((3 : Nat) : Rat) = 3 := rfl
  rw [c18, c12, c1, c2, c3, Rat.mul_comm 18 s]
  exact h2

theorem markov {α : Type} (l : List α) (h : α → Nat) (t : Nat) :
    (l.filter fun o => decide (t ≤ h o)).length * 2 ^ t ≤ (l.map fun o => 2 ^ h o).sum := by
  induction l with
  | nil => simp
  | cons a l ih =>
    simp only [List.filter_cons, List.map_cons, List.sum_cons]
    by_cases ht : t ≤ h a
    · have := Nat.pow_le_pow_right (show 0 < 2 by omega) ht
      simp only [ht, decide_true, if_true, List.length_cons, Nat.add_mul]
      omega
    · simp only [ht, decide_false, Bool.false_eq_true, if_false]
      exact Nat.le_trans ih (Nat.le_add_left ..)

theorem tangent (h t : Nat) : (h + 1) * 2 ^ t ≤ t * 2 ^ t + 2 ^ h := by
  rcases Nat.lt_or_ge h t with hl | hl
  · exact Nat.le_trans (Nat.mul_le_mul_right _ hl) (Nat.le_add_right ..)
  · obtain ⟨y, rfl⟩ := Nat.exists_eq_add_of_le hl
    have h1 : y + 1 ≤ 2 ^ y := Nat.lt_two_pow_self
    have h2 := Nat.mul_le_mul_right (2 ^ t) h1
    rw [Nat.pow_add, Nat.mul_comm (2 ^ t) (2 ^ y), show t + y + 1 = t + (y + 1) by omega, Nat.add_mul]
    omega

theorem sum_tangent {α : Type} (l : List α) (h : α → Nat) (t : Nat) :
    ((l.map h).sum + l.length) * 2 ^ t ≤ l.length * (t * 2 ^ t) + (l.map fun o => 2 ^ h o).sum := by
  induction l with
  | nil => simp
  | cons a l ih =>
    have h1 := tangent (h a) t
    simp only [List.map_cons, List.sum_cons, List.length_cons]
    have e1 : (h a + (l.map h).sum + (l.length + 1)) * 2 ^ t =
        (h a + 1) * 2 ^ t + ((l.map h).sum + l.length) * 2 ^ t := by rw [← Nat.add_mul]; congr 1; omega
    rw [e1, Nat.succ_mul l.length]
    generalize (h a + 1) * 2 ^ t = x at *
    generalize ((l.map h).sum + l.length) * 2 ^ t = y at *
    generalize 2 ^ h a = z at *
    generalize t * 2 ^ t = w at *
    generalize l.length * w = q at *
    omega

theorem cube (n : Nat) (hn : 0 < n) :
    (n + 1) * (n + 2) * (n + 3) + 12 < 18 * 2 ^ (3 * Nat.log2 n + 4) := by
  have h1 : n < 2 ^ (Nat.log2 n + 1) := Nat.lt_log2_self
  have h2 : n * n * n < 2 ^ (Nat.log2 n + 1) * 2 ^ (Nat.log2 n + 1) * 2 ^ (Nat.log2 n + 1) := by
    have a := Nat.mul_lt_mul_of_lt_of_lt h1 h1
    exact Nat.mul_lt_mul_of_lt_of_lt a h1
  rw [← Nat.pow_add, ← Nat.pow_add] at h2
  have h3 : 2 ^ (3 * Nat.log2 n + 4) = 2 * 2 ^ (Nat.log2 n + 1 + (Nat.log2 n + 1) + (Nat.log2 n + 1)) := by
    rw [show 3 * Nat.log2 n + 4 = (Nat.log2 n + 1 + (Nat.log2 n + 1) + (Nat.log2 n + 1)) + 1 by omega,
      Nat.pow_succ, Nat.mul_comm]
  rw [h3]
  obtain ⟨m, rfl⟩ : ∃ m, n = m + 1 := ⟨n - 1, by omega⟩
  have e1 : (m + 1 + 1) * (m + 1 + 2) * (m + 1 + 3) = m * m * m + 9 * (m * m) + 26 * m + 24 := by grind
  have e2 : (m + 1) * (m + 1) * (m + 1) = m * m * m + 3 * (m * m) + 3 * m + 1 := by grind
  rw [e2] at h2
  rw [e1]
  omega

theorem mean_height [TransCmp cmp] {l : List (K × V)} (hd : Apart (onKeys cmp) l) (hl : 0 < l.length) :
    mean l (fun o => (grown cmp o).height) < 3 * (Nat.log2 l.length : Nat) + 4 := by
  have h1 := sum_height hd
  have h2 := cube l.length hl
  have h3 := sum_tangent (orders l) (fun o => (grown cmp o).height) (3 * Nat.log2 l.length + 4)
  have h4 : ((orders l).map fun o => (grown cmp o).height).sum <
      (orders l).length * (3 * Nat.log2 l.length + 4) := by
    rw [orders_length] at h3 ⊢
    generalize ((orders l).map fun o => 2 ^ (grown cmp o).height).sum = s at h1 h3
    generalize ((orders l).map fun o => (grown cmp o).height).sum = r at h3 ⊢
    generalize (l.length + 1) * (l.length + 2) * (l.length + 3) + 12 = c at h1 h2
    generalize 3 * Nat.log2 l.length + 4 = t at h2 h3 ⊢
    have h5 := Nat.mul_lt_mul_of_pos_left h2 (factorial_pos l.length)
    generalize factorial l.length = u at *
    have h6 : s < u * 2 ^ t := by
      have : u * (18 * 2 ^ t) = 18 * (u * 2 ^ t) := by grind
      omega
    have h7 : (r + u) * 2 ^ t < (u * t + u) * 2 ^ t := by
      have : (u * t + u) * 2 ^ t = u * (t * 2 ^ t) + u * 2 ^ t := by grind
      omega
    have h8 := Nat.lt_of_mul_lt_mul_right h7
    omega
  have h5 : (0 : Rat) < (orders l).length := by rw [orders_length]; exact fac_pos _
  have h6 := Rat.natCast_lt_natCast.2 h4
  rw [mean]
  refine Rat.lt_of_mul_lt_mul_right (c := ((orders l).length : Rat)) ?_ (Rat.le_of_lt h5)
  rw [Rat.div_mul_cancel (by grind)]
  simp only [Rat.natCast_mul, Rat.natCast_add] at h6
  have c3 : ((3 : Nat) : Rat) = 3 := rfl
  have c4 : ((4 : Nat) : Rat) = 4 := rfl
  rw [c3, c4, Rat.mul_comm] at h6
  exact h6

theorem search_upTo (k : K) (b : Nat) (t : BT (K × V)) :
    (t.steps cmp k ≤ b → ∃ e, t.search (upTo cmp k b) 0 = .ok e) ∧
    (b < t.steps cmp k → t.search (upTo cmp k b) 0 = .panic) := search_count cmp k b t

theorem seek_absent {l : List (K × V)} {k : K} (h : ∀ e ∈ l, cmp k e.1 ≠ .eq) (i j : Nat) :
    seek i j (same cmp k l).length = harmonic i + harmonic j := by
  rw [seek, if_pos]
  rw [List.length_eq_zero_iff, same, List.filter_eq_nil_iff]
  intro e he
  have := h e he
  simpa using this

theorem seek_present {l : List (K × V)} {k : K} (h : ∃ e ∈ l, cmp k e.1 = .eq) (i j : Nat) :
    seek i j (same cmp k l).length = harmonic (i + 1) + harmonic (j + 1) - 1 := by
  rw [seek, if_neg]
  obtain ⟨e, he, hk⟩ := h
  rw [List.length_eq_zero_iff, same, List.filter_eq_nil_iff]
  intro hn
  exact hn e he (by simp [hk])

end Spec

section
open BSTMap Tree

/-- A map built by insertions into an empty one. -/
theorem built {cfg : Cfg} (he : 0 < cfg.esize) (ha : ∀ id n, cfg.allocOk id n = true)
    {o : List (K × V)} (hn : (o.length + 9) * cfg.esize ≤ isizeMax) :
    ∃ m t, insertAll cfg (fun _ k => query (cmp k)) 0 o BSTMap.new = (.ok (), m) ∧ Shape cfg m t ∧
      t.sh = grown cmp o := by
  have hle := Nat.le_trans (Nat.mul_le_mul_right cfg.esize
    (show (Tree.leaf : Tree K V).size + o.length + 8 ≤ o.length + 9 by simp [Tree.size])) hn
  have hq := Spec.reinsert_query (cmp := cmp) o 0 .nil
  rcases insertAll_reinsert (cmps := fun _ k => query (cmp k)) he ha o 0
    (shape_new (K := K) (V := V) cfg) hle with ⟨m, w, h1, h2, h3⟩ | ⟨m, _, h3⟩
  · exact ⟨m, w, h1, h2, Out.ok.inj (h3.symm.trans hq)⟩
  · cases h3.symm.trans hq

theorem built_costs {cfg : Cfg} (he : 0 < cfg.esize) (ha : ∀ id n, cfg.allocOk id n = true)
    {o : List (K × V)} (hn : (o.length + 9) * cfg.esize ≤ isizeMax) :
    Spec.Costs (effort cmp o) fun f => (insertAll cfg (budget f cmp) 0 o BSTMap.new).1 := by
  intro f
  have hle := Nat.le_trans (Nat.mul_le_mul_right cfg.esize
    (show (Tree.leaf : Tree K V).size + o.length + 8 ≤ o.length + 9 by simp [Tree.size])) hn
  obtain ⟨h4, h5⟩ := Spec.reinsert_effort (cmp := cmp) f o
  rcases insertAll_reinsert (cmps := budget f cmp) he ha o 0
    (shape_new (K := K) (V := V) cfg) hle with ⟨m, w, h1, h2, h3⟩ | ⟨m, h1, h3⟩
  · exact ⟨fun _ => congrArg Prod.fst h1, fun h => (by cases h3.symm.trans (h5 h))⟩
  · exact ⟨fun h => (by cases h3.symm.trans (h4 h)), fun _ => congrArg Prod.fst h1⟩

theorem built_find {cfg : Cfg} {m : BSTMap K V} {t : Tree K V} (h : Shape cfg m t)
    {c : Probe K} :
    ((∃ e, t.sh.search c 0 = .ok e) → (∃ x, m.get c = .ok x) ∧ (∃ x, m.getEntry c = .ok x) ∧
      (∃ x, m.containsKey c = .ok x) ∧ (∃ x, (remove cfg c m).1 = .ok x) ∧
      (0 < cfg.esize → (∀ id n, cfg.allocOk id n = true) → (t.size + 8) * cfg.esize ≤ isizeMax →
        ∀ k v, ∃ x, (insert cfg c k v m).1 = .ok x)) ∧
    (t.sh.search c 0 = .panic → m.get c = .panic ∧ m.getEntry c = .panic ∧
      m.containsKey c = .panic ∧ (remove cfg c m).1 = .panic ∧
      ∀ k v, (insert cfg c k v m).1 = .panic) := by
  rw [find_search]
  constructor
  · rintro ⟨e, he⟩
    rcases t.find_ok_or_panic c 0 with hf | ⟨e', hf⟩
    · rw [hf] at he; cases he
    refine ⟨⟨_, by rw [get_spec h, hf]; rfl⟩, ⟨_, by rw [getEntry_spec h, hf]; rfl⟩,
      ⟨_, by rw [containsKey_spec h, hf]; rfl⟩, ?_, fun hp ha hn k v => ?_⟩
    · rcases remove_cases h c with ⟨_, _, _, h2, _⟩ | ⟨h1, _⟩
      · exact ⟨_, by rw [h2]⟩
      · rw [hf] at h1; cases h1
    · rcases insert_cases h c k v with ⟨_, _, _, _, h2, _⟩ | ⟨o, _, ⟨_, h1⟩ | ⟨_, _, hfull⟩⟩
      · exact ⟨_, by rw [h2]⟩
      · rw [hf] at h1; cases h1
      · have := hfull.huge hp ha h
        omega
  · intro he
    rcases t.find_ok_or_panic c 0 with hf | ⟨e', hf⟩
    · refine ⟨by rw [get_spec h, hf]; rfl, by rw [getEntry_spec h, hf]; rfl,
        by rw [containsKey_spec h, hf]; rfl, ?_, fun k v => ?_⟩
      · rcases remove_cases h c with ⟨_, _, h1, _⟩ | ⟨_, h2⟩
        · rw [hf] at h1; cases h1
        · rw [h2]
      · rcases insert_cases h c k v with ⟨_, _, _, h1, _⟩ | ⟨o, h2, ⟨rfl, _⟩ | ⟨_, h1, _⟩⟩
        · rw [hf] at h1; cases h1
        · rw [h2]
        · rw [hf] at h1; cases h1
    · rw [hf] at he; cases he
end

namespace Simple
open Map

theorem plenty {cfg : Cfg} (ha : ∀ id n, cfg.allocOk id n = true) {n : Nat}
    (hn : (n + 9) * cfg.esize ≤ isizeMax) : Plenty cfg (n + 1) := by
  refine ⟨?_, ha⟩
  have := Nat.mul_le_mul_right cfg.esize (show n + 1 ≤ n + 9 by omega)
  simp only [isizeMax, usizeBound] at *
  omega

theorem built {cfg : Cfg} (he : 2 ≤ cfg.esize) (ha : ∀ id n, cfg.allocOk id n = true)
    {o : List (K × V)} (hn : (o.length + 9) * cfg.esize ≤ isizeMax) :
    ∃ m, Map.insertAll cfg (fun _ k => query (cmp k)) 0 o Map.new = (.ok (), m) ∧ Wf m ∧
      m.root.view = grown cmp o := by
  have hq := Spec.reinsert_query (cmp := cmp) o 0 .nil
  rcases insertAll_reinsert (cmps := fun _ k => query (cmp k)) he o 0 (m := (Map.new : Map K V)) rfl
    ((plenty ha hn).mono (by simp [Map.new, Link.size])) with ⟨m, h1, h2, h3⟩ | ⟨m, _, h3⟩
  · exact ⟨m, h1, h2, Out.ok.inj (h3.symm.trans hq)⟩
  · cases h3.symm.trans hq

theorem built_costs {cfg : Cfg} (he : 2 ≤ cfg.esize) (ha : ∀ id n, cfg.allocOk id n = true)
    {o : List (K × V)} (hn : (o.length + 9) * cfg.esize ≤ isizeMax) :
    Spec.Costs (effort cmp o) fun f => (Map.insertAll cfg (budget f cmp) 0 o Map.new).1 := by
  intro f
  obtain ⟨h4, h5⟩ := Spec.reinsert_effort (cmp := cmp) f o
  rcases insertAll_reinsert (cmps := budget f cmp) he o 0 (m := (Map.new : Map K V)) rfl
    ((plenty ha hn).mono (by simp [Map.new, Link.size])) with ⟨m, h1, h2, h3⟩ | ⟨m, h1, h3⟩
  · exact ⟨fun _ => congrArg Prod.fst h1, fun h => (by cases h3.symm.trans (h5 h))⟩
  · exact ⟨fun h => (by cases h3.symm.trans (h4 h)), fun _ => congrArg Prod.fst h1⟩

theorem built_find {cfg : Cfg} {m : Map K V} (hw : Wf m) {c : Probe K}
    (hp : Plenty cfg m.root.size) :
    ((∃ e, m.root.view.search c 0 = .ok e) → (∃ x, m.get c = .ok x) ∧ (∃ x, m.getEntry c = .ok x) ∧
      (∃ x, m.containsKey c = .ok x) ∧ (∃ x, (remove cfg c m).1 = .ok x) ∧
      (2 ≤ cfg.esize → ∀ k v, ∃ x, (insert cfg c k v m).1 = .ok x)) ∧
    (m.root.view.search c 0 = .panic → m.get c = .panic ∧ m.getEntry c = .panic ∧
      m.containsKey c = .panic ∧ (remove cfg c m).1 = .panic ∧
      (2 ≤ cfg.esize → ∀ k v, (insert cfg c k v m).1 = .panic)) := by
  rw [view_search]
  constructor
  · rintro ⟨e, hf⟩
    refine ⟨⟨_, by rw [get_spec, hf]; rfl⟩, ⟨_, by rw [getEntry_spec, hf]⟩,
      ⟨_, by rw [containsKey_spec, hf]; rfl⟩, ?_, fun he k v => ?_⟩
    · unfold remove
      rcases removeEntry_spec cfg c m hw with ⟨h1, _⟩ | ⟨_, _, _, _, h2, _⟩ | ⟨_, _, h3⟩
      · rw [hf] at h1; cases h1
      · exact ⟨_, by rw [M.bind_ok h2]; rfl⟩
      · exact absurd hp h3
    · rcases insert_spec he c k v m hw with ⟨h1, _⟩ | ⟨_, _, _, _, h2, _⟩ | ⟨_, _, h3⟩
      · rw [hf] at h1; cases h1
      · exact ⟨_, by rw [h2]⟩
      · exact absurd hp h3
  · intro hf
    refine ⟨by rw [get_spec, hf]; rfl, by rw [getEntry_spec, hf],
      by rw [containsKey_spec, hf]; rfl, ?_, fun he k v => ?_⟩
    · unfold remove
      rcases removeEntry_spec cfg c m hw with ⟨_, h2⟩ | ⟨_, _, _, h1, _⟩ | ⟨_, _, h3⟩
      · rw [M.bind_panic h2]
      · rw [hf] at h1; cases h1
      · exact absurd hp h3
    · rcases insert_spec he c k v m hw with ⟨_, h2⟩ | ⟨_, _, _, h1, _⟩ | ⟨h1, _⟩
      · rw [h2]
      · rw [hf] at h1; cases h1
      · rw [hf] at h1; cases h1

end Simple

/-! ### Sets -/

namespace Spec
variable {α β : Type}

theorem picks_map (g : α → β) (l : List α) :
    picks (l.map g) = (picks l).map fun x => (g x.1, x.2.map g) := by
  induction l with
  | nil => rfl
  | cons a l ih => simp [picks, ih]

theorem arrangements_map (g : α → β) (n : Nat) (l : List α) :
    arrangements n (l.map g) = (arrangements n l).map (List.map g) := by
  induction n generalizing l with
  | zero => rfl
  | succ n ih =>
    simp only [arrangements, picks_map, List.flatMap_map, List.map_flatMap, ih, List.map_map]
    rfl

theorem orders_map (g : α → β) (l : List α) : orders (l.map g) = (orders l).map (List.map g) := by
  rw [orders, List.length_map, arrangements_map]; rfl

theorem mean_map (g : α → β) (l : List α) (f : List β → Nat) :
    mean (l.map g) f = mean l fun o => f (o.map g) := by
  simp only [mean, orders_map, List.map_map, List.length_map]
  rfl

end Spec

section
variable {T : Type} {cfg : Cfg}

theorem set_insertAll (cmps : Nat → T → Probe T) (n : Nat) (ts : List T) (m : BSTMap T Unit) :
    BSTSet.insertAll cfg cmps n ts ⟨m⟩ =
      ((BSTMap.insertAll cfg cmps n (ts.map fun t => (t, ())) m).1,
        ⟨(BSTMap.insertAll cfg cmps n (ts.map fun t => (t, ())) m).2⟩) := by
  induction ts generalizing n m with
  | nil => rfl
  | cons t ts ih =>
    simp only [List.map_cons, BSTSet.insertAll, BSTMap.insertAll, BSTSet.insert]
    show M.bind (M.bind _ _) _ _ = ((M.bind _ _ _).1, (⟨(M.bind _ _ _).2⟩ : BSTSet T))
    unfold M.bind BSTSet.onItems
    rcases BSTMap.insert cfg (cmps n t) t () m with ⟨o, m'⟩
    cases o with
    | ok a => exact ih (n + 1) m'
    | _ => rfl

theorem set_find {c : Probe T} {m : BSTMap T Unit} :
    ((∃ x, m.getEntry c = .ok x) → ∃ x, BSTSet.get c ⟨m⟩ = .ok x) ∧
    (m.getEntry c = .panic → BSTSet.get c ⟨m⟩ = .panic) := by
  unfold BSTSet.get
  constructor
  · rintro ⟨x, h⟩; exact ⟨_, by rw [h]; rfl⟩
  · intro h; rw [h]; rfl

theorem set_insert {c : Probe T} {k : T} {m : BSTMap T Unit} :
    ((∃ x, (BSTMap.insert cfg c k () m).1 = .ok x) → ∃ x, (BSTSet.insert cfg c k ⟨m⟩).1 = .ok x) ∧
    ((BSTMap.insert cfg c k () m).1 = .panic → (BSTSet.insert cfg c k ⟨m⟩).1 = .panic) := by
  show (_ → ∃ x, (M.bind _ _ _).1 = _) ∧ (_ → (M.bind _ _ _).1 = _)
  unfold M.bind BSTSet.onItems
  rcases BSTMap.insert cfg c k () m with ⟨o, m'⟩
  constructor
  · rintro ⟨x, h⟩; cases h; exact ⟨_, rfl⟩
  · intro h; cases h; rfl

theorem set_remove {c : Probe T} {m : BSTMap T Unit} :
    ((∃ x, (BSTMap.remove cfg c m).1 = .ok x) → (∃ x, (BSTSet.take cfg c ⟨m⟩).1 = .ok x) ∧
      ∃ x, (BSTSet.remove cfg c ⟨m⟩).1 = .ok x) ∧
    ((BSTMap.remove cfg c m).1 = .panic → (BSTSet.take cfg c ⟨m⟩).1 = .panic ∧
      (BSTSet.remove cfg c ⟨m⟩).1 = .panic) := by
  show (((∃ x, (M.bind _ _ _).1 = _) → (∃ x, (M.bind _ _ _).1 = _) ∧ ∃ x, (M.bind (M.bind _ _) _ _).1 = _) ∧
    ((M.bind _ _ _).1 = _ → (M.bind _ _ _).1 = _ ∧ (M.bind (M.bind _ _) _ _).1 = _))
  unfold M.bind BSTSet.onItems
  rcases BSTMap.removeEntry cfg c m with ⟨o, m'⟩
  cases o with
  | ok a => exact ⟨fun _ => ⟨⟨_, rfl⟩, ⟨_, rfl⟩⟩, fun h => by cases h⟩
  | panic => exact ⟨fun ⟨x, h⟩ => (by cases h), fun _ => ⟨rfl, rfl⟩⟩
  | _ => exact ⟨fun ⟨x, h⟩ => (by cases h), fun h => (by cases h)⟩
end

namespace Simple
variable {T : Type} {cfg : Cfg}

theorem set_extend (cmps : Nat → T → Probe T) (hint : Nat × Option Nat) (ts : List T) (m : Map T Unit) :
    SSet.extend cfg cmps ⟨hint, ts, false⟩ ⟨m⟩ =
      ((Map.insertAll cfg cmps 0 (ts.map fun t => (t, ())) m).1,
        ⟨(Map.insertAll cfg cmps 0 (ts.map fun t => (t, ())) m).2⟩) := by
  unfold SSet.extend SSet.onItems Map.extend
  simp only [BSTSet.Source.toMap, bind, M.bind]
  rcases Map.insertAll cfg cmps 0 (ts.map fun t => (t, ())) m with ⟨o, m'⟩
  cases o <;> rfl

theorem set_find {c : Probe T} {m : Map T Unit} :
    ((∃ x, m.getEntry c = .ok x) → ∃ x, SSet.get c ⟨m⟩ = .ok x) ∧
    (m.getEntry c = .panic → SSet.get c ⟨m⟩ = .panic) := by
  unfold SSet.get
  constructor
  · rintro ⟨x, h⟩; exact ⟨_, by rw [h]; rfl⟩
  · intro h; rw [h]; rfl

theorem set_insert {c : Probe T} {k : T} {m : Map T Unit} :
    ((∃ x, (Map.insert cfg c k () m).1 = .ok x) → ∃ x, (SSet.insert cfg c k ⟨m⟩).1 = .ok x) ∧
    ((Map.insert cfg c k () m).1 = .panic → (SSet.insert cfg c k ⟨m⟩).1 = .panic) := by
  show (_ → ∃ x, (M.bind _ _ _).1 = _) ∧ (_ → (M.bind _ _ _).1 = _)
  unfold M.bind SSet.onItems
  rcases Map.insert cfg c k () m with ⟨o, m'⟩
  constructor
  · rintro ⟨x, h⟩; cases h; exact ⟨_, rfl⟩
  · intro h; cases h; rfl

theorem set_remove {c : Probe T} {m : Map T Unit} :
    ((∃ x, (Map.remove cfg c m).1 = .ok x) → (∃ x, (SSet.take cfg c ⟨m⟩).1 = .ok x) ∧
      ∃ x, (SSet.remove cfg c ⟨m⟩).1 = .ok x) ∧
    ((Map.remove cfg c m).1 = .panic → (SSet.take cfg c ⟨m⟩).1 = .panic ∧
      (SSet.remove cfg c ⟨m⟩).1 = .panic) := by
  show (((∃ x, (M.bind _ _ _).1 = _) → (∃ x, (M.bind _ _ _).1 = _) ∧ ∃ x, (M.bind (M.bind _ _) _ _).1 = _) ∧
    ((M.bind _ _ _).1 = _ → (M.bind _ _ _).1 = _ ∧ (M.bind (M.bind _ _) _ _).1 = _))
  unfold M.bind SSet.onItems
  rcases Map.removeEntry cfg c m with ⟨o, m'⟩
  cases o with
  | ok a => exact ⟨fun _ => ⟨⟨_, rfl⟩, ⟨_, rfl⟩⟩, fun h => by cases h⟩
  | panic => exact ⟨fun ⟨x, h⟩ => (by cases h), fun _ => ⟨rfl, rfl⟩⟩
  | _ => exact ⟨fun ⟨x, h⟩ => (by cases h), fun h => (by cases h)⟩

end Simple
end BST
