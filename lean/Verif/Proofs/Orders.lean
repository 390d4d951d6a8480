import Verif.Orders
import Verif.Proofs.Rebuild
/-!
# Lemmas about all insertion orders
-/
namespace BST.Spec
variable {α β : Type}

theorem factorial_pos (n : Nat) : 0 < factorial n := by
  induction n with
  | zero => simp [factorial]
  | succ n ih => exact Nat.mul_pos (by omega) ih

theorem picks_length (l : List α) : (picks l).length = l.length := by
  induction l with
  | nil => rfl
  | cons a l ih => simp [picks, ih]

theorem picks_fst (l : List α) : (picks l).map (·.1) = l := by
  induction l with
  | nil => rfl
  | cons a l ih => simpa [picks, Function.comp_def] using ih

theorem picks_perm {l : List α} {x : α × List α} (h : x ∈ picks l) : (x.1 :: x.2).Perm l := by
  induction l generalizing x with
  | nil => simp [picks] at h
  | cons a l ih =>
    rcases List.mem_cons.1 h with rfl | h
    · exact .refl _
    · obtain ⟨y, hy, rfl⟩ := List.mem_map.1 h
      exact (List.Perm.swap _ _ _).trans ((ih hy).cons a)

theorem mem_picks {l : List α} {a : α} (h : a ∈ l) : ∃ r, (a, r) ∈ picks l := by
  have : a ∈ (picks l).map (·.1) := by rw [picks_fst]; exact h
  obtain ⟨x, hx, rfl⟩ := List.mem_map.1 this
  exact ⟨x.2, hx⟩

theorem arrangements_perm {n : Nat} {l o : List α} (hl : l.length = n) (h : o ∈ arrangements n l) :
    o.Perm l := by
  induction n generalizing l o with
  | zero => rw [List.length_eq_zero_iff.1 hl]; simp [arrangements] at h; simp [h]
  | succ n ih =>
    simp only [arrangements, List.mem_flatMap, List.mem_map] at h
    obtain ⟨x, hx, o', ho', rfl⟩ := h
    have hp := picks_perm hx
    have : x.2.length = n := by have := hp.length_eq; simp at this; omega
    exact ((ih this ho').cons x.1).trans hp

theorem mem_arrangements {n : Nat} {l o : List α} (hl : l.length = n) (h : o.Perm l) :
    o ∈ arrangements n l := by
  induction n generalizing l o with
  | zero =>
    have : o.length = 0 := by rw [h.length_eq, hl]
    simp [arrangements, List.length_eq_zero_iff.1 this]
  | succ n ih =>
    cases o with
    | nil => simp [h.length_eq.symm] at hl
    | cons a o =>
      obtain ⟨r, hr⟩ := mem_picks (h.subset (List.mem_cons_self ..))
      have hp := picks_perm hr
      have h2 : o.Perm r := (h.trans hp.symm).cons_inv
      have h3 : r.length = n := by have := hp.length_eq; simp at this; omega
      simp only [arrangements, List.mem_flatMap, List.mem_map]
      exact ⟨(a, r), hr, o, ih h3 h2, rfl⟩

theorem sum_const (l : List α) (c : Nat) : (l.map fun _ => c).sum = l.length * c := by
  induction l with
  | nil => simp
  | cons a l ih => simp [ih, Nat.add_mul, Nat.add_comm]

theorem arrangements_length {n : Nat} {l : List α} (hl : l.length = n) :
    (arrangements n l).length = factorial n := by
  induction n generalizing l with
  | zero => rfl
  | succ n ih =>
    simp only [arrangements, List.length_flatMap, List.length_map, factorial]
    rw [List.map_congr_left (g := fun _ => factorial n), sum_const, picks_length, hl]
    intro x hx
    have := (picks_perm hx).length_eq
    exact ih (by simp at this; omega)

theorem orders_length (l : List α) : (orders l).length = factorial l.length :=
  arrangements_length rfl

theorem arrangements_nodup {n : Nat} {l : List α} (hl : l.length = n) (h : l.Nodup) :
    (arrangements n l).Nodup := by
  induction n generalizing l with
  | zero => simp [arrangements]
  | succ n ih =>
    simp only [arrangements]
    unfold List.Nodup
    rw [List.pairwise_flatMap]
    refine ⟨fun x hx => ?_, ?_⟩
    · have hp := picks_perm hx
      have h1 : (x.1 :: x.2).Nodup := hp.nodup_iff.2 h
      have := hp.length_eq
      have h2 := ih (by simp at this; omega) (List.nodup_cons.1 h1).2
      rw [List.pairwise_map]
      exact h2.imp fun hne he => hne (List.cons.inj he).2
    · have h3 : ((picks l).map (·.1)).Nodup := by rw [picks_fst]; exact h
      rw [List.Nodup, List.pairwise_map] at h3
      refine h3.imp fun hne a ha b hb he => hne ?_
      obtain ⟨a, _, rfl⟩ := List.mem_map.1 ha
      obtain ⟨b, _, rfl⟩ := List.mem_map.1 hb
      exact (List.cons.inj he).1

/-! ### Sums -/

/-- Sum of `f` over a list. -/
def tot (l : List α) (f : α → Rat) : Rat := (l.map f).sum

theorem tot_nil (f : α → Rat) : tot [] f = 0 := rfl
theorem tot_cons (a : α) (l : List α) (f : α → Rat) : tot (a :: l) f = f a + tot l f := by
  simp [tot]
theorem tot_append (l l' : List α) (f : α → Rat) : tot (l ++ l') f = tot l f + tot l' f := by
  induction l with
  | nil => simp [tot_nil, Rat.zero_add]
  | cons a l ih => rw [List.cons_append, tot_cons, tot_cons, ih]; grind
theorem tot_map (l : List β) (g : β → α) (f : α → Rat) : tot (l.map g) f = tot l fun x => f (g x) := by
  simp [tot, Function.comp_def]
theorem tot_flatMap (l : List β) (g : β → List α) (f : α → Rat) :
    tot (l.flatMap g) f = tot l fun x => tot (g x) f := by
  induction l with
  | nil => rfl
  | cons a l ih => rw [List.flatMap_cons, tot_append, tot_cons, ih]
theorem tot_congr {l : List α} {f g : α → Rat} (h : ∀ x ∈ l, f x = g x) : tot l f = tot l g := by
  rw [tot, tot, List.map_congr_left h]
theorem tot_le {l : List α} {f g : α → Rat} (h : ∀ x ∈ l, f x ≤ g x) : tot l f ≤ tot l g := by
  induction l with
  | nil => exact Rat.le_refl
  | cons a l ih =>
    rw [tot_cons, tot_cons]
    have h1 := h a (List.mem_cons_self ..)
    have h2 := ih fun x hx => h x (List.mem_cons_of_mem _ hx)
    grind
theorem tot_add (l : List α) (f g : α → Rat) : tot l (fun x => f x + g x) = tot l f + tot l g := by
  induction l with
  | nil => simp only [List.filter_nil, tot_nil]; grind
  | cons a l ih => rw [tot_cons, tot_cons, tot_cons, ih]; grind
theorem tot_mul (l : List α) (c : Rat) (f : α → Rat) : tot l (fun x => c * f x) = c * tot l f := by
  induction l with
  | nil => simp [tot_nil]
  | cons a l ih => rw [tot_cons, tot_cons, ih]; grind
theorem tot_const (l : List α) (c : Rat) : tot l (fun _ => c) = l.length * c := by
  induction l with
  | nil => simp [tot_nil]
  | cons a l ih =>
    rw [tot_cons, ih]
    have : ((a :: l).length : Rat) = l.length + 1 := by simp
    rw [this]; grind
theorem tot_perm {l l' : List α} (h : l.Perm l') (f : α → Rat) : tot l f = tot l' f := by
  induction h with
  | nil => rfl
  | cons a _ ih => rw [tot_cons, tot_cons, ih]
  | swap a b l => rw [tot_cons, tot_cons, tot_cons, tot_cons]; grind
  | trans _ _ h1 h2 => rw [h1, h2]
theorem tot_filter (l : List α) (p : α → Bool) (f : α → Rat) :
    tot l f = tot (l.filter p) f + tot (l.filter fun x => !p x) f := by
  induction l with
  | nil => simp only [List.filter_nil, tot_nil]; grind
  | cons a l ih =>
    cases h : p a <;> simp only [List.filter_cons, h, tot_cons, ih] <;> simp only [Bool.not_false,
      Bool.not_true, if_true, Bool.false_eq_true, if_false, tot_cons] <;> grind

theorem tot_nat (l : List α) (f : α → Nat) : (((l.map f).sum : Nat) : Rat) = tot l fun x => (f x : Rat) := by
  induction l with
  | nil => rfl
  | cons a l ih => rw [tot_cons, ← ih]; simp

theorem tot_orders (a : Nat) {l : List α} (hl : l.length = a + 1) (f : List α → Rat) :
    tot (orders l) f = tot (picks l) fun x => tot (orders x.2) fun o => f (x.1 :: o) := by
  unfold orders
  rw [hl, arrangements, tot_flatMap]
  refine tot_congr fun x hx => ?_
  have := (picks_perm hx).length_eq
  rw [tot_map, show x.2.length = a by simp at this; omega]

theorem filter_length_add (p : α → Bool) (l : List α) :
    (l.filter p).length + (l.filter fun a => !p a).length = l.length := by
  induction l with
  | nil => rfl
  | cons a l ih => cases h : p a <;> simp [h] <;> omega

/-- What is picked from the elements with `p`. -/
theorem picks_filter (p : α → Bool) (l : List α) :
    ((picks l).filter fun x => p x.1).map (fun x => (x.1, x.2.filter p)) = picks (l.filter p) := by
  induction l with
  | nil => rfl
  | cons a l ih =>
    cases h : p a
    · simp only [picks, List.filter_cons, h, List.filter_map, Function.comp_def] at ih ⊢
      simp only [Bool.false_eq_true, if_false, List.map_map, Function.comp_def, List.filter_cons, h]
      exact ih
    · simp only [picks, List.filter_cons, h, List.filter_map, Function.comp_def] at ih ⊢
      simp only [if_true, List.map_cons, picks, ← ih, List.map_map, Function.comp_def]
      simp [h]

theorem picks_filter_no (p : α → Bool) {l : List α} {x : α × List α} (h : x ∈ picks l)
    (hx : p x.1 = false) : x.2.filter p = l.filter p := by
  induction l generalizing x with
  | nil => simp [picks] at h
  | cons a l ih =>
    rcases List.mem_cons.1 h with rfl | h
    · simp only at hx
      simp [List.filter_cons, hx]
    · obtain ⟨y, hy, rfl⟩ := List.mem_map.1 h
      simp only at hx
      simp only [List.filter_cons, ih hy hx]

theorem fac_cast (n : Nat) : (factorial (n + 1) : Rat) = (n + 1) * factorial n := by
  simp [factorial]

theorem fac_ne (n : Nat) : (factorial n : Rat) ≠ 0 := by
  have := factorial_pos n
  intro h
  have : (factorial n : Rat) = (0 : Nat) := h
  have := Rat.natCast_inj.1 this
  omega

/-- Every order of the elements with `p` occurs equally often in the orders of all. -/
theorem tot_orders_filter (p : α → Bool) (n : Nat) :
    ∀ (l : List α) (f : List α → Rat), l.length = n →
    (factorial (l.filter p).length : Rat) * tot (orders l) (fun o => f (o.filter p)) =
      factorial n * tot (orders (l.filter p)) f := by
  induction n with
  | zero =>
    intro l f hl
    rw [List.length_eq_zero_iff.1 hl]
    rfl
  | succ n ih =>
    intro l f hl
    rw [tot_orders n hl, tot_filter (picks l) (fun x => p x.1)]
    have hk := filter_length_add p l
    have hno : (factorial (l.filter p).length : Rat) * tot ((picks l).filter fun x => !p x.1) (fun x =>
        tot (orders x.2) fun o => f ((x.1 :: o).filter p)) =
        ((l.filter fun a => !p a).length : Rat) * (factorial n * tot (orders (l.filter p)) f) := by
      have hlen : (l.filter fun a => !p a).length = ((picks l).filter fun x => !p x.1).length := by
        conv => lhs; rw [← picks_fst l, List.filter_map, List.length_map]
        rfl
      rw [hlen, ← tot_const, ← tot_mul]
      refine tot_congr fun x hx => ?_
      obtain ⟨h1, h2⟩ := List.mem_filter.1 hx
      have hlx : x.2.length = n := by have := (picks_perm h1).length_eq; simp at this; omega
      have h2' : p x.1 = false := by simpa using h2
      have h3 := ih x.2 f hlx
      simp only [List.filter_cons, h2', Bool.false_eq_true, if_false]
      rwa [picks_filter_no p h1 h2'] at h3
    have hyes : (factorial (l.filter p).length : Rat) * tot ((picks l).filter fun x => p x.1) (fun x =>
        tot (orders x.2) fun o => f ((x.1 :: o).filter p)) =
        ((l.filter p).length : Rat) * (factorial n * tot (orders (l.filter p)) f) := by
      cases hkn : (l.filter p).length with
      | zero =>
        have : ((picks l).filter fun x => p x.1) = [] := by
          apply List.eq_nil_of_length_eq_zero
          rw [← hkn]
          conv => rhs; rw [← picks_fst l, List.filter_map, List.length_map]
          rfl
        rw [this, tot_nil]
        grind
      | succ k =>
        rw [tot_orders k hkn, ← picks_filter, tot_map, ← tot_mul, ← tot_mul, ← tot_mul]
        refine tot_congr fun x hx => ?_
        obtain ⟨h1, h2⟩ := List.mem_filter.1 hx
        have hlx : x.2.length = n := by have := (picks_perm h1).length_eq; simp at this; omega
        have hlf : (x.2.filter p).length = k := by
          have := ((picks_perm h1).filter p).length_eq
          simp only [List.filter_cons, h2, if_true, List.length_cons] at this
          omega
        have h3 := ih x.2 (fun o => f (x.1 :: o)) hlx
        simp only [List.filter_cons, h2, if_true]
        rw [hlf] at h3
        rw [fac_cast, ← h3]
        have : ((k + 1 : Nat) : Rat) = k + 1 := by simp
        rw [this]
        grind
    rw [Rat.mul_add, hyes, hno, fac_cast]
    have : (n : Rat) + 1 = ((l.filter p).length : Rat) + ((l.filter fun a => !p a).length : Rat) := by
      rw [← Rat.natCast_add, hk, hl]; simp
    rw [this]
    grind

/-! ### Ranks -/
section
open Std
variable {c : α → α → Ordering}

/-- The elements of `l` below `x`. -/
def below (c : α → α → Ordering) (x : α) (l : List α) : List α := l.filter fun e => c e x == .lt

/-- The elements of `l` above `x`. -/
def above (c : α → α → Ordering) (x : α) (l : List α) : List α := l.filter fun e => c e x == .gt

/-- No two elements are equal. -/
def Apart (c : α → α → Ordering) (l : List α) : Prop := l.Pairwise fun a b => c a b ≠ .eq

theorem Apart.perm [TransCmp c] {l l' : List α} (h : l.Perm l') (hl : Apart c l) : Apart c l' :=
  h.pairwise hl fun {_ _} hne he => hne (OrientedCmp.eq_symm he)

theorem ranks_sorted [TransCmp c] (s : List α) (hs : s.Pairwise fun a b => c a b = .lt) :
    ∀ g : Nat → Rat, tot s (fun x => g (below c x s).length) = tot (List.range s.length) g := by
  induction s with
  | nil => intro g; rfl
  | cons a s ih =>
    intro g
    obtain ⟨h1, h2⟩ := List.pairwise_cons.1 hs
    rw [tot_cons, List.length_cons, List.range_succ_eq_map, tot_cons, tot_map]
    have e1 : below c a (a :: s) = [] := by
      rw [below, List.filter_eq_nil_iff]
      intro e he
      rcases List.mem_cons.1 he with rfl | he
      · simp [ReflCmp.compare_self]
      · rw [OrientedCmp.gt_of_lt (h1 e he)]; simp
    rw [e1, List.length_nil, ← ih h2 fun i => g (i + 1)]
    congr 1
    refine tot_congr fun x hx => ?_
    simp [below, List.filter_cons, h1 x hx]

theorem exists_sorted [TransCmp c] {l : List α} (h : Apart c l) :
    ∃ s, l.Perm s ∧ s.Pairwise fun a b => c a b = .lt := by
  let le : α → α → Bool := fun a b => (c a b).isLE
  refine ⟨l.mergeSort le, (List.mergeSort_perm l le).symm, ?_⟩
  have h1 := List.pairwise_mergeSort (le := le) (fun a b d h1 h2 => TransCmp.isLE_trans h1 h2)
    (fun a b => by
      simp only [le]
      rw [OrientedCmp.eq_swap (cmp := c) (a := b) (b := a)]
      cases c a b <;> rfl) l
  have h2 := h.perm (List.mergeSort_perm l le).symm
  refine (h1.and h2).imp fun {a b} hab => ?_
  obtain ⟨h3, h4⟩ := hab
  simp only [le] at h3
  cases hc : c a b
  · rfl
  · exact absurd hc h4
  · rw [hc] at h3; exact absurd h3 (by decide)

theorem ranks [TransCmp c] {l : List α} (h : Apart c l) (g : Nat → Rat) :
    tot l (fun x => g (below c x l).length) = tot (List.range l.length) g := by
  obtain ⟨s, h1, h2⟩ := exists_sorted h
  rw [tot_perm h1, h1.length_eq, ← ranks_sorted s h2]
  refine tot_congr fun x _ => ?_
  rw [below, below, (h1.filter _).length_eq]

theorem transCmp_flip [TransCmp c] : TransCmp fun a b => c b a where
  eq_swap := OrientedCmp.eq_swap (cmp := c)
  isLE_trans := fun h1 h2 => TransCmp.isLE_trans (cmp := c) h2 h1

theorem ranks_above [TransCmp c] {l : List α} (h : Apart c l) (g : Nat → Rat) :
    tot l (fun x => g (above c x l).length) = tot (List.range l.length) g := by
  haveI := transCmp_flip (c := c)
  rw [← ranks (c := fun a b => c b a) (h.imp fun hne he => hne (OrientedCmp.eq_symm he))]
  refine tot_congr fun x _ => ?_
  rw [below, above]
  congr 3
  funext e
  rw [OrientedCmp.eq_swap (cmp := c)]
  cases c x e <;> rfl

theorem Apart.sublist {l l' : List α} (h : l'.Sublist l) (hl : Apart c l) : Apart c l' :=
  List.Pairwise.sublist h hl

theorem picks_tot {l : List α} (f : α → Rat) : tot (picks l) (fun x => f x.1) = tot l f := by
  conv => rhs; rw [← picks_fst l, tot_map]

theorem below_picks [TransCmp c] {l : List α} {x : α × List α} (h : x ∈ picks l) :
    below c x.1 x.2 = below c x.1 l := picks_filter_no _ h (by simp [ReflCmp.compare_self])

theorem above_picks [TransCmp c] {l : List α} {x : α × List α} (h : x ∈ picks l) :
    above c x.1 x.2 = above c x.1 l := picks_filter_no _ h (by simp [ReflCmp.compare_self])

/-- One half of the tree: the mean over all orders of what depends on the elements below (or above)
the first one only. -/
theorem tot_half {n : Nat} {l : List α} (hl : l.length = n + 1)
    (half : α → List α → List α) (p : α → α → Bool) (hp : ∀ x l, half x l = l.filter (p x))
    (hpx : ∀ x, p x x = false) (a : List α → Rat) :
    tot (picks l) (fun x => tot (orders x.2) fun o => a (half x.1 o)) =
      tot l fun x => factorial n * (tot (orders (half x l)) a / factorial (half x l).length) := by
  conv => rhs; rw [← picks_tot]
  refine tot_congr fun x hx => ?_
  have hlx : x.2.length = n := by have := (picks_perm hx).length_eq; simp at this; omega
  have h1 := tot_orders_filter (p x.1) n x.2 a hlx
  simp only [hp]
  rw [picks_filter_no _ hx (hpx x.1)] at h1
  have h2 := fac_ne (l.filter (p x.1)).length
  grind

/-- The recursion: the elements below and above the first one are in all orders, too. -/
theorem tot_split [TransCmp c] {n : Nat} {l : List α} (hl : l.length = n + 1) (hd : Apart c l)
    {a : List α → Rat} {q : Nat → Rat}
    (ha : ∀ l', l'.length ≤ n → Apart c l' → tot (orders l') a = factorial l'.length * q l'.length) :
    tot (picks l) (fun x => tot (orders x.2) fun o => a (below c x.1 o) + a (above c x.1 o)) =
      factorial n * (2 * tot (List.range (n + 1)) q) := by
  have hlen : ∀ x ∈ l, (below c x l).length ≤ n ∧ (above c x l).length ≤ n := by
    intro x hx
    obtain ⟨r, hr⟩ := mem_picks hx
    have hlx : r.length = n := by have := (picks_perm hr).length_eq; simp at this; omega
    rw [← below_picks hr, ← above_picks hr]
    exact ⟨hlx ▸ List.length_filter_le _ _, hlx ▸ List.length_filter_le _ _⟩
  simp only [tot_add]
  rw [tot_half hl (below c) (fun x e => c e x == .lt) (fun _ _ => rfl)
      (fun x => by simp [ReflCmp.compare_self]),
    tot_half hl (above c) (fun x e => c e x == .gt) (fun _ _ => rfl)
      (fun x => by simp [ReflCmp.compare_self]), tot_mul, tot_mul]
  have e1 : tot l (fun x => tot (orders (below c x l)) a / factorial (below c x l).length) =
      tot (List.range (n + 1)) q := by
    rw [← hl, ← ranks hd q]
    refine tot_congr fun x hx => ?_
    rw [ha _ (hlen x hx).1 (hd.sublist (List.filter_sublist ..))]
    have := fac_ne (below c x l).length
    grind
  have e2 : tot l (fun x => tot (orders (above c x l)) a / factorial (above c x l).length) =
      tot (List.range (n + 1)) q := by
    rw [← hl, ← ranks_above hd q]
    refine tot_congr fun x hx => ?_
    rw [ha _ (hlen x hx).2 (hd.sublist (List.filter_sublist ..))]
    have := fac_ne (above c x l).length
    grind
  rw [e1, e2]
  grind

/-- The same for upper bounds. -/
theorem tot_split_le [TransCmp c] {n : Nat} {l : List α} (hl : l.length = n + 1) (hd : Apart c l)
    {a : List α → Rat} {q : Nat → Rat}
    (ha : ∀ l', l'.length ≤ n → Apart c l' → tot (orders l') a ≤ factorial l'.length * q l'.length) :
    tot (picks l) (fun x => tot (orders x.2) fun o => a (below c x.1 o) + a (above c x.1 o)) ≤
      factorial n * (2 * tot (List.range (n + 1)) q) := by
  have hlen : ∀ x ∈ l, (below c x l).length ≤ n ∧ (above c x l).length ≤ n := by
    intro x hx
    obtain ⟨r, hr⟩ := mem_picks hx
    have hlx : r.length = n := by have := (picks_perm hr).length_eq; simp at this; omega
    rw [← below_picks hr, ← above_picks hr]
    exact ⟨hlx ▸ List.length_filter_le _ _, hlx ▸ List.length_filter_le _ _⟩
  have hpos : ∀ n, (0 : Rat) < factorial n := fun n => by
    have := factorial_pos n
    exact_mod_cast this
  have key : ∀ l', l'.length ≤ n → Apart c l' →
      factorial n * (tot (orders l') a / factorial l'.length) ≤ factorial n * q l'.length := by
    intro l' h1 h2
    have h3 := ha l' h1 h2
    have h4 := hpos l'.length
    refine Rat.mul_le_mul_of_nonneg_left ?_ (Rat.le_of_lt (hpos n))
    refine Rat.le_of_mul_le_mul_right ?_ h4
    rw [Rat.div_mul_cancel (fac_ne _)]
    grind
  simp only [tot_add]
  rw [tot_half hl (below c) (fun x e => c e x == .lt) (fun _ _ => rfl)
      (fun x => by simp [ReflCmp.compare_self]),
    tot_half hl (above c) (fun x e => c e x == .gt) (fun _ _ => rfl)
      (fun x => by simp [ReflCmp.compare_self])]
  have e1 : tot l (fun x => factorial n * (tot (orders (below c x l)) a / factorial (below c x l).length)) ≤
      factorial n * tot (List.range (n + 1)) q := by
    rw [← hl, ← ranks hd q, ← tot_mul]
    exact tot_le fun x hx => key _ (hlen x hx).1 (hd.sublist (List.filter_sublist ..))
  have e2 : tot l (fun x => factorial n * (tot (orders (above c x l)) a / factorial (above c x l).length)) ≤
      factorial n * tot (List.range (n + 1)) q := by
    rw [← hl, ← ranks_above hd q, ← tot_mul]
    exact tot_le fun x hx => key _ (hlen x hx).2 (hd.sublist (List.filter_sublist ..))
  grind
end

end BST.Spec
