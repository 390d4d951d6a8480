import Verif.Proofs.Orders
/-!
# Trees of random insertion orders

Means over all insertion orders: comparisons, and `2 ^ height`.
-/
namespace BST.Spec
open Std
variable {K V : Type} {cmp : K → K → Ordering}

/-- The comparison of entries by their keys. -/
def onKeys (cmp : K → K → Ordering) : K × V → K × V → Ordering := fun a b => cmp a.1 b.1

instance [TransCmp cmp] : TransCmp (onKeys cmp : K × V → K × V → Ordering) where
  eq_swap := OrientedCmp.eq_swap (cmp := cmp)
  isLE_trans := fun h1 h2 => TransCmp.isLE_trans (cmp := cmp) h1 h2

/-- The tree after insertions into an empty one. -/
def grown (cmp : K → K → Ordering) (o : List (K × V)) : BT (K × V) := BT.insertList cmp o .nil

/-- The comparisons of these insertions. -/
def effort (cmp : K → K → Ordering) (o : List (K × V)) : List Nat := BT.stepsList cmp o .nil

theorem insertList_node (x : K × V) :
    ∀ (ys : List (K × V)) (l r : BT (K × V)), (∀ y ∈ ys, cmp y.1 x.1 ≠ .eq) →
    BT.insertList cmp ys (.node l x r) =
      .node (BT.insertList cmp (below (onKeys cmp) x ys) l) x
        (BT.insertList cmp (above (onKeys cmp) x ys) r) ∧
    (BT.stepsList cmp ys (.node l x r)).sum = ys.length +
      ((BT.stepsList cmp (below (onKeys cmp) x ys) l).sum +
        (BT.stepsList cmp (above (onKeys cmp) x ys) r).sum) := by
  intro ys
  induction ys with
  | nil => intro l r _; exact ⟨rfl, rfl⟩
  | cons y ys ih =>
    intro l r h
    have h1 := h y (List.mem_cons_self ..)
    have h2 := fun z hz => h z (List.mem_cons_of_mem _ hz)
    cases hc : cmp y.1 x.1 with
    | lt =>
      obtain ⟨e1, e2⟩ := ih (l.insert cmp y.1 y.2) r h2
      have eb : below (onKeys cmp) x (y :: ys) = y :: below (onKeys cmp) x ys := by
        simp [below, onKeys, hc]
      have ea : above (onKeys cmp) x (y :: ys) = above (onKeys cmp) x ys := by
        simp [above, onKeys, hc]
      rw [eb, ea]
      simp only [BT.insertList, List.foldl_cons, BT.insert, hc, BT.stepsList, BT.steps] at e1 e2 ⊢
      refine ⟨e1, ?_⟩
      simp only [List.sum_cons, e2, List.length_cons]
      omega
    | gt =>
      obtain ⟨e1, e2⟩ := ih l (r.insert cmp y.1 y.2) h2
      have eb : below (onKeys cmp) x (y :: ys) = below (onKeys cmp) x ys := by
        simp [below, onKeys, hc]
      have ea : above (onKeys cmp) x (y :: ys) = y :: above (onKeys cmp) x ys := by
        simp [above, onKeys, hc]
      rw [eb, ea]
      simp only [BT.insertList, List.foldl_cons, BT.insert, hc, BT.stepsList, BT.steps] at e1 e2 ⊢
      refine ⟨e1, ?_⟩
      simp only [List.sum_cons, e2, List.length_cons]
      omega
    | eq => exact absurd hc h1

theorem grown_cons {x : K × V} {ys : List (K × V)} (h : ∀ y ∈ ys, cmp y.1 x.1 ≠ .eq) :
    grown cmp (x :: ys) = .node (grown cmp (below (onKeys cmp) x ys)) x
      (grown cmp (above (onKeys cmp) x ys)) := (insertList_node x ys .nil .nil h).1

theorem effort_cons {x : K × V} {ys : List (K × V)} (h : ∀ y ∈ ys, cmp y.1 x.1 ≠ .eq) :
    (effort cmp (x :: ys)).sum = ys.length + ((effort cmp (below (onKeys cmp) x ys)).sum +
      (effort cmp (above (onKeys cmp) x ys)).sum) := by
  have := (insertList_node x ys .nil .nil h).2
  simp only [effort, BT.stepsList, List.sum_cons]
  simpa [BT.steps, BT.insert] using this

/-- The entries after the first one have other keys. -/
theorem apart_order [TransCmp cmp] {l : List (K × V)} (hd : Apart (onKeys cmp) l) {x : (K × V) × List (K × V)}
    (hx : x ∈ picks l) {o : List (K × V)} (ho : o ∈ orders x.2) : ∀ y ∈ o, cmp y.1 x.1.1 ≠ .eq := by
  have h1 := hd.perm (picks_perm hx).symm
  have h2 := (List.pairwise_cons.1 h1).1
  intro y hy he
  exact h2 y ((arrangements_perm rfl ho).subset hy) (OrientedCmp.eq_symm he)

theorem tot_picks_add {α : Type} {n : Nat} {l : List α} (hl : l.length = n + 1) (c : Rat)
    (g : α × List α → List α → Rat) :
    tot (picks l) (fun x => tot (orders x.2) fun o => c + g x o) =
      (n + 1) * (factorial n * c) + tot (picks l) fun x => tot (orders x.2) fun o => g x o := by
  have e2 : tot (picks l) (fun x => ((orders x.2).length : Rat) * c) = (n + 1) * (factorial n * c) := by
    have : (n : Rat) + 1 = (picks l).length := by rw [picks_length, hl]; simp
    rw [this, ← tot_const]
    refine tot_congr fun x hx => ?_
    have hlx : x.2.length = n := by have := (picks_perm hx).length_eq; simp at this; omega
    rw [orders_length, hlx]
  rw [← e2, ← tot_add]
  refine tot_congr fun x _ => ?_
  rw [tot_add (orders x.2) (fun _ => c) (g x), tot_const]

/-! ### All comparisons of the insertions -/

theorem tot_range_succ (n : Nat) (q : Nat → Rat) :
    tot (List.range (n + 1)) q = tot (List.range n) q + q n := by
  rw [List.range_succ, tot_append, tot_cons, tot_nil]; grind

/-- `2 (n + 1) H(n) - 4 n` -/
def quick (n : Nat) : Rat := 2 * (n + 1) * harmonic n - 4 * n

theorem cast_succ (n : Nat) : ((n + 1 : Nat) : Rat) = n + 1 := by simp

theorem cast_nonneg (n : Nat) : (0 : Rat) ≤ n := by exact_mod_cast Nat.zero_le n

theorem succ_ne (n : Nat) : (n : Rat) + 1 ≠ 0 := by have := cast_nonneg n; grind

theorem harmonic_succ (n : Nat) : (n + 1) * harmonic (n + 1) = (n + 1) * harmonic n + 1 := by
  have h1 := succ_ne n
  rw [harmonic, cast_succ]
  grind

theorem quick_sum (n : Nat) : 2 * tot (List.range (n + 1)) quick = (n + 1) * (quick (n + 1) - n) := by
  induction n with
  | zero =>
    rw [tot_range_succ]
    simp [quick, harmonic, tot_nil]
    grind
  | succ n ih =>
    rw [tot_range_succ, Rat.mul_add, ih]
    have h1 := harmonic_succ (n + 1)
    simp only [quick] at *
    simp only [cast_succ] at *
    grind

theorem tot_effort [TransCmp cmp] (n : Nat) : ∀ l : List (K × V), l.length ≤ n → Apart (onKeys cmp) l →
    tot (orders l) (fun o => ((effort cmp o).sum : Rat)) = factorial l.length * quick l.length := by
  induction n with
  | zero =>
    intro l hl _
    rw [List.length_eq_zero_iff.1 (Nat.le_zero.1 hl)]
    simp [orders, arrangements, tot, effort, BT.stepsList, quick]
    simp [harmonic]
    grind
  | succ n ih =>
    intro l hl hd
    rcases Nat.lt_or_ge n l.length with h | h
    · have hl' : l.length = n + 1 := by omega
      rw [tot_orders n hl']
      have e1 : (tot (picks l) fun x => tot (orders x.2) fun o => ((effort cmp (x.1 :: o)).sum : Rat)) =
          tot (picks l) fun x => tot (orders x.2) fun o => (n : Rat) +
            (((effort cmp (below (onKeys cmp) x.1 o)).sum : Rat) +
              ((effort cmp (above (onKeys cmp) x.1 o)).sum : Rat)) := by
        refine tot_congr fun x hx => tot_congr fun o ho => ?_
        have hlx : x.2.length = n := by have := (picks_perm hx).length_eq; simp at this; omega
        rw [effort_cons (apart_order hd hx ho), (arrangements_perm rfl ho).length_eq, hlx]
        simp
      rw [e1]
      rw [tot_picks_add hl', tot_split hl' hd (a := fun o => ((effort cmp o).sum : Rat)) (q := quick) ih,
        quick_sum, hl', fac_cast]
      grind
    · exact ih l h hd

/-! ### Heights -/

/-- `(binomial(n + 3, 3) + 2) / 3` -/
def spread (n : Nat) : Rat := ((n + 1) * (n + 2) * (n + 3) + 12) / 18

theorem spread_sum (n : Nat) : 4 * tot (List.range (n + 1)) spread = (n + 1) * (spread (n + 1) + 2) := by
  induction n with
  | zero =>
    rw [tot_range_succ]
    simp [spread, tot_nil]
    grind
  | succ n ih =>
    rw [tot_range_succ, Rat.mul_add, ih]
    simp only [spread, cast_succ] at *
    grind

theorem two_pow_max (a b : Nat) : 2 ^ (max a b + 1) + 2 ≤ 2 * (2 ^ a + 2 ^ b) := by
  have h1 : 1 ≤ 2 ^ a := Nat.one_le_two_pow
  have h2 : 1 ≤ 2 ^ b := Nat.one_le_two_pow
  rw [Nat.pow_succ]
  rcases Nat.le_total a b with h | h
  · rw [Nat.max_eq_right h]; omega
  · rw [Nat.max_eq_left h]; omega

theorem tot_height [TransCmp cmp] (n : Nat) : ∀ l : List (K × V), l.length ≤ n → Apart (onKeys cmp) l →
    tot (orders l) (fun o => ((2 ^ (grown cmp o).height : Nat) : Rat)) ≤
      factorial l.length * spread l.length := by
  induction n with
  | zero =>
    intro l hl _
    rw [List.length_eq_zero_iff.1 (Nat.le_zero.1 hl)]
    simp [orders, arrangements, tot, grown, BT.insertList, BT.height, spread, factorial]
    grind
  | succ n ih =>
    intro l hl hd
    rcases Nat.lt_or_ge n l.length with h | h
    · have hl' : l.length = n + 1 := by omega
      rw [tot_orders n hl']
      have e1 : (tot (picks l) fun x => tot (orders x.2) fun o =>
          ((2 ^ (grown cmp (x.1 :: o)).height : Nat) : Rat)) ≤
          tot (picks l) fun x => tot (orders x.2) fun o => (-2 : Rat) + 2 *
            (((2 ^ (grown cmp (below (onKeys cmp) x.1 o)).height : Nat) : Rat) +
              ((2 ^ (grown cmp (above (onKeys cmp) x.1 o)).height : Nat) : Rat)) := by
        refine tot_le fun x hx => tot_le fun o ho => ?_
        rw [grown_cons (apart_order hd hx ho), BT.height]
        have h1 := two_pow_max (grown cmp (below (onKeys cmp) x.1 o)).height
          (grown cmp (above (onKeys cmp) x.1 o)).height
        have h2 := Rat.natCast_le_natCast.2 h1
        simp only [Rat.natCast_add, Rat.natCast_mul] at h2
        have h3 : ((2 : Nat) : Rat) = 2 := rfl
        rw [h3] at h2
        grind
      refine Rat.le_trans e1 ?_
      rw [tot_picks_add hl']
      have e5 : ∀ g : (K × V) × List (K × V) → List (K × V) → Rat,
          (tot (picks l) fun x => tot (orders x.2) fun o => 2 * g x o) =
          2 * tot (picks l) fun x => tot (orders x.2) fun o => g x o := fun g => by
        rw [← tot_mul]; exact tot_congr fun x _ => tot_mul ..
      rw [e5]
      have e3 := tot_split_le hl' hd (a := fun o => ((2 ^ (grown cmp o).height : Nat) : Rat)) (q := spread) ih
      have e4 := congrArg (fun r => (factorial n : Rat) * r) (spread_sum n)
      rw [hl', fac_cast]
      generalize (tot (picks l) fun x => tot (orders x.2) fun o =>
        ((2 ^ (grown cmp (below (onKeys cmp) x.1 o)).height : Nat) : Rat) +
          ((2 ^ (grown cmp (above (onKeys cmp) x.1 o)).height : Nat) : Rat)) = y at e3 ⊢
      generalize tot (List.range (n + 1)) spread = z at e3 e4
      generalize spread (n + 1) = w at e4 ⊢
      generalize (factorial n : Rat) = u at e3 e4 ⊢
      clear e1 ih
      grind
    · exact ih l h hd

/-! ### One search -/

theorem steps_grown_cons {k : K} {x : K × V} {ys : List (K × V)} (h : ∀ y ∈ ys, cmp y.1 x.1 ≠ .eq) :
    (grown cmp (x :: ys)).steps cmp k = match cmp k x.1 with
      | .lt => (grown cmp (below (onKeys cmp) x ys)).steps cmp k + 1
      | .gt => (grown cmp (above (onKeys cmp) x ys)).steps cmp k + 1
      | .eq => 1 := by
  rw [grown_cons h, BT.steps]
  cases cmp k x.1 <;> rfl

/-- The entries with smaller, greater and equal keys. -/
def smaller (cmp : K → K → Ordering) (k : K) (l : List (K × V)) : List (K × V) :=
  l.filter fun e => cmp k e.1 == .gt
def greater (cmp : K → K → Ordering) (k : K) (l : List (K × V)) : List (K × V) :=
  l.filter fun e => cmp k e.1 == .lt
def same (cmp : K → K → Ordering) (k : K) (l : List (K × V)) : List (K × V) :=
  l.filter fun e => cmp k e.1 == .eq

theorem three_way (k : K) (l : List (K × V)) (f : K × V → Rat) :
    tot l f = tot (smaller cmp k l) f + tot (greater cmp k l) f + tot (same cmp k l) f := by
  induction l with
  | nil => simp only [smaller, greater, same, List.filter_nil, tot_nil]; grind
  | cons a l ih =>
    simp only [smaller, greater, same] at ih ⊢
    cases h : cmp k a.1 <;> simp only [List.filter_cons, h, tot_cons, ih] <;>
      simp [tot_cons] <;> grind

/-- The mean number of comparisons of a search, with `i` smaller, `j` greater and `e` equal keys. -/
def seek (i j e : Nat) : Rat :=
  if e = 0 then harmonic i + harmonic j else harmonic (i + 1) + harmonic (j + 1) - 1

theorem sum_harmonic (n : Nat) : tot (List.range n) harmonic = n * harmonic n - n := by
  induction n with
  | zero => simp [tot_nil, harmonic]; grind
  | succ n ih =>
    have := harmonic_succ n
    rw [tot_range_succ, ih]
    simp only [cast_succ]
    grind

theorem sum_harmonic_succ (n : Nat) :
    tot (List.range n) (fun t => harmonic (t + 1)) = (n + 1) * harmonic n - n := by
  induction n with
  | zero => simp [tot_nil, harmonic]; grind
  | succ n ih =>
    have := harmonic_succ n
    rw [tot_range_succ, ih]
    simp only [cast_succ]
    grind

theorem tot_range_add (n : Nat) (q : Nat → Rat) (r : Rat) :
    tot (List.range n) (fun t => q t + r) = tot (List.range n) q + n * r := by
  rw [tot_add (List.range n) q fun _ => r, tot_const, List.length_range]

theorem seek_rec (i j e : Nat) (he : e ≤ 1) (hn : 0 < i + j + e) :
    ((i + j + e : Nat) : Rat) * seek i j e = (i + j + e : Nat) + tot (List.range i) (fun t => seek t j e) +
      tot (List.range j) (fun t => seek i t e) := by
  rcases Nat.eq_zero_or_pos e with rfl | h
  · simp only [seek, if_true]
    have h1 := tot_range_add i harmonic (harmonic j)
    have h2 := tot_range_add j harmonic (harmonic i)
    have h3 : (tot (List.range j) fun t => harmonic i + harmonic t) =
        tot (List.range j) fun t => harmonic t + harmonic i := tot_congr fun _ _ => Rat.add_comm ..
    rw [h3, h1, h2, sum_harmonic, sum_harmonic]
    simp only [Rat.natCast_add]
    have : ((0 : Nat) : Rat) = 0 := rfl
    grind
  · have : e = 1 := by omega
    subst this
    simp only [seek, Nat.one_ne_zero, if_false]
    have h1 := tot_range_add i (fun t => harmonic (t + 1)) (harmonic (j + 1) - 1)
    have h2 := tot_range_add j (fun t => harmonic (t + 1)) (harmonic (i + 1) - 1)
    have h3 : (tot (List.range j) fun t => harmonic (i + 1) + harmonic (t + 1) - 1) =
        tot (List.range j) fun t => harmonic (t + 1) + (harmonic (i + 1) - 1) :=
      tot_congr fun _ _ => by grind
    have h4 : (tot (List.range i) fun t => harmonic (t + 1) + harmonic (j + 1) - 1) =
        tot (List.range i) fun t => harmonic (t + 1) + (harmonic (j + 1) - 1) :=
      tot_congr fun _ _ => by grind
    rw [h3, h4, h1, h2, sum_harmonic_succ, sum_harmonic_succ]
    have h5 := harmonic_succ i
    have h6 := harmonic_succ j
    simp only [Rat.natCast_add]
    have : ((1 : Nat) : Rat) = 1 := rfl
    grind

theorem same_le [TransCmp cmp] {l : List (K × V)} (hd : Apart (onKeys cmp) l) (k : K) :
    (same cmp k l).length ≤ 1 := by
  have h1 : Apart (onKeys cmp) (same cmp k l) := hd.sublist (List.filter_sublist ..)
  have h2 : ∀ e ∈ same cmp k l, cmp k e.1 = .eq := fun e he => by simpa [same] using (List.mem_filter.1 he).2
  match hs : same cmp k l with
  | [] => simp
  | [_] => simp
  | a :: b :: r =>
    rw [hs] at h1 h2
    have h3 := (List.pairwise_cons.1 h1).1 b (by simp)
    exact absurd (TransCmp.eq_trans (OrientedCmp.eq_symm (h2 a (by simp))) (h2 b (by simp))) h3

theorem lengths (k : K) (l : List (K × V)) :
    (smaller cmp k l).length + (greater cmp k l).length + (same cmp k l).length = l.length := by
  induction l with
  | nil => rfl
  | cons a l ih =>
    simp only [smaller, greater, same] at ih ⊢
    cases h : cmp k a.1 <;> simp [h] <;> omega

theorem filter_congr_and {l : List (K × V)} {p q r : K × V → Bool} (h : ∀ e ∈ l, (p e && q e) = r e) :
    (l.filter q).filter p = l.filter r := by
  rw [List.filter_filter]
  exact List.filter_congr h

theorem tot_seek [TransCmp cmp] (k : K) (n : Nat) : ∀ l : List (K × V), l.length ≤ n →
    Apart (onKeys cmp) l →
    tot (orders l) (fun o => ((grown cmp o).steps cmp k : Rat)) = factorial l.length *
      seek (smaller cmp k l).length (greater cmp k l).length (same cmp k l).length := by
  induction n with
  | zero =>
    intro l hl _
    rw [List.length_eq_zero_iff.1 (Nat.le_zero.1 hl)]
    simp [orders, arrangements, tot, grown, BT.insertList, BT.steps, seek, smaller, greater, same, harmonic]
    grind
  | succ n ih =>
    intro l hl hd
    rcases Nat.lt_or_ge n l.length with h | h
    · have hl' : l.length = n + 1 := by omega
      let half : K × V → List (K × V) → List (K × V) := fun x o =>
        o.filter fun e => (cmp k x.1 == .lt && cmp e.1 x.1 == .lt) || (cmp k x.1 == .gt && cmp e.1 x.1 == .gt)
      rw [tot_orders n hl']
      have e1 : (tot (picks l) fun x => tot (orders x.2) fun o => ((grown cmp (x.1 :: o)).steps cmp k : Rat)) =
          tot (picks l) fun x => tot (orders x.2) fun o => 1 +
            ((grown cmp (half x.1 o)).steps cmp k : Rat) := by
        refine tot_congr fun x hx => tot_congr fun o ho => ?_
        rw [steps_grown_cons (apart_order hd hx ho)]
        cases hc : cmp k x.1.1
        · simp only [half, hc, below, onKeys]
          simp
          grind
        · have : half x.1 o = [] := by simp [half, hc]
          rw [this]
          simp [grown, BT.insertList, BT.steps]
          grind
        · simp only [half, hc, above, onKeys]
          simp
          grind
      rw [e1, tot_picks_add hl' 1, tot_half hl' half _ (fun _ _ => rfl)
        (fun x => by simp [ReflCmp.compare_self]) (fun o => ((grown cmp o).steps cmp k : Rat)), tot_mul]
      have hsz : ∀ x ∈ l, (half x l).length ≤ n := by
        intro x hx
        obtain ⟨r, hr⟩ := mem_picks hx
        have hlx : r.length = n := by have := (picks_perm hr).length_eq; simp at this; omega
        have : half x r = half x l := picks_filter_no _ hr (by simp [ReflCmp.compare_self])
        rw [← this, ← hlx]
        exact List.length_filter_le _ _
      have e2 : ∀ x ∈ l, tot (orders (half x l)) (fun o => ((grown cmp o).steps cmp k : Rat)) /
          factorial (half x l).length = seek (smaller cmp k (half x l)).length
            (greater cmp k (half x l)).length (same cmp k (half x l)).length := by
        intro x hx
        rw [ih _ (hsz x hx) (hd.sublist (List.filter_sublist ..))]
        have := fac_ne (half x l).length
        grind
      rw [tot_congr e2, three_way (cmp := cmp) k l]
      have e3 : (tot (smaller cmp k l) fun x => seek (smaller cmp k (half x l)).length
            (greater cmp k (half x l)).length (same cmp k (half x l)).length) =
          tot (List.range (smaller cmp k l).length) fun t =>
            seek t (greater cmp k l).length (same cmp k l).length := by
        rw [← ranks_above (c := onKeys cmp) (l := smaller cmp k l) (hd.sublist (List.filter_sublist ..))]
        refine tot_congr fun x hx => ?_
        have hx2 : cmp k x.1 = .gt := by simpa [smaller] using (List.mem_filter.1 hx).2
        have f1 : smaller cmp k (half x l) = above (onKeys cmp) x (smaller cmp k l) := by
          simp only [smaller, half, above, onKeys, List.filter_filter, hx2]
          refine List.filter_congr fun e _ => ?_
          simp [Bool.and_comm]
        have f2 : greater cmp k (half x l) = greater cmp k l := by
          simp only [greater, half, hx2]
          refine filter_congr_and fun e _ => ?_
          cases he : cmp k e.1 <;> simp
          rw [OrientedCmp.gt_iff_lt]
          exact TransCmp.lt_trans (OrientedCmp.gt_iff_lt.1 hx2) he
        have f3 : same cmp k (half x l) = same cmp k l := by
          simp only [same, half, hx2]
          refine filter_congr_and fun e _ => ?_
          cases he : cmp k e.1 <;> simp
          rw [OrientedCmp.gt_iff_lt]
          exact TransCmp.lt_of_lt_of_eq (OrientedCmp.gt_iff_lt.1 hx2) he
        rw [f1, f2, f3]
      have e4 : (tot (greater cmp k l) fun x => seek (smaller cmp k (half x l)).length
            (greater cmp k (half x l)).length (same cmp k (half x l)).length) =
          tot (List.range (greater cmp k l).length) fun t =>
            seek (smaller cmp k l).length t (same cmp k l).length := by
        rw [← ranks (c := onKeys cmp) (l := greater cmp k l) (hd.sublist (List.filter_sublist ..))]
        refine tot_congr fun x hx => ?_
        have hx2 : cmp k x.1 = .lt := by simpa [greater] using (List.mem_filter.1 hx).2
        have f1 : greater cmp k (half x l) = below (onKeys cmp) x (greater cmp k l) := by
          simp only [greater, half, below, onKeys, List.filter_filter, hx2]
          refine List.filter_congr fun e _ => ?_
          simp [Bool.and_comm]
        have f2 : smaller cmp k (half x l) = smaller cmp k l := by
          simp only [smaller, half, hx2]
          refine filter_congr_and fun e _ => ?_
          cases he : cmp k e.1 <;> simp
          exact TransCmp.lt_trans (OrientedCmp.gt_iff_lt.1 he) hx2
        have f3 : same cmp k (half x l) = same cmp k l := by
          simp only [same, half, hx2]
          refine filter_congr_and fun e _ => ?_
          cases he : cmp k e.1 <;> simp
          exact TransCmp.lt_of_eq_of_lt (OrientedCmp.eq_symm he) hx2
        rw [f1, f2, f3]
      have e5 : (tot (same cmp k l) fun x => seek (smaller cmp k (half x l)).length
            (greater cmp k (half x l)).length (same cmp k (half x l)).length) = 0 := by
        rw [tot_congr (g := fun _ => (0 : Rat)), tot_const, Rat.mul_zero]
        intro x hx
        have hx2 : cmp k x.1 = .eq := by simpa [same] using (List.mem_filter.1 hx).2
        have : half x l = [] := by simp [half, hx2]
        rw [this]
        simp [smaller, greater, same, seek, harmonic]
        grind
      rw [e3, e4, e5]
      have h6 := lengths (cmp := cmp) k l
      have h7 := seek_rec (smaller cmp k l).length (greater cmp k l).length (same cmp k l).length
        (same_le hd k) (by omega)
      rw [h6, hl', cast_succ] at h7
      rw [hl', fac_cast]
      clear e1 e2 e3 e4 e5 ih
      grind
    · exact ih l h hd

/-! ### Logarithms -/

theorem harmonic_add (m k : Nat) : harmonic (m + k) * (m + 1) ≤ harmonic m * (m + 1) + k := by
  induction k with
  | zero => simp; grind
  | succ k ih =>
    have h1 := harmonic_succ (m + k)
    have h2 := cast_nonneg m
    have h3 := cast_nonneg k
    rw [show m + (k + 1) = m + k + 1 by omega, harmonic, cast_succ] at *
    rw [Rat.natCast_add] at *
    have h4 : (1 : Rat) / ((m : Rat) + k + 1) * (m + 1) ≤ 1 := by
      refine Rat.le_of_mul_le_mul_right (c := (m : Rat) + k + 1) ?_ (by grind)
      have h5 : (1 : Rat) / ((m : Rat) + k + 1) * (m + 1) * ((m : Rat) + k + 1) = m + 1 := by
        have : (m : Rat) + k + 1 ≠ 0 := by grind
        clear h1 ih
        grind
      rw [h5]
      grind
    grind

theorem harmonic_mono (n : Nat) : harmonic n ≤ harmonic (n + 1) := by
  have h1 := harmonic_succ n
  have h2 := cast_nonneg n
  refine Rat.le_of_mul_le_mul_right (c := (n : Rat) + 1) ?_ (by grind)
  grind

theorem harmonic_log (n : Nat) (hn : 0 < n) : harmonic n ≤ (Nat.log2 n + 1 : Nat) := by
  induction n using Nat.strongRecOn with
  | ind n ih =>
    rcases Nat.lt_or_ge n 2 with h | h
    · have : n = 1 := by omega
      subst this
      simp [harmonic, Nat.log2_def]
      grind
    · have h1 := ih (n / 2) (by omega) (by omega)
      have h2 : Nat.log2 n = Nat.log2 (n / 2) + 1 := by
        rw [Nat.log2_def, if_pos h]
      have h3 := harmonic_add (n / 2) (n - n / 2)
      rw [show n / 2 + (n - n / 2) = n by omega] at h3
      have h4 : ((n - n / 2 : Nat) : Rat) ≤ (n / 2 : Nat) + 1 := by
        rw [← cast_succ]
        exact Rat.natCast_le_natCast.2 (by omega)
      have h5 := cast_nonneg (n / 2)
      rw [h2, cast_succ]
      refine Rat.le_of_mul_le_mul_right (c := ((n / 2 : Nat) : Rat) + 1) ?_ (by grind)
      have h6 := Rat.mul_le_mul_of_nonneg_right h1 (c := ((n / 2 : Nat) : Rat) + 1) (by grind)
      grind

end BST.Spec
