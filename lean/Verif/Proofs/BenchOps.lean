import Verif.Proofs.BenchRuns
import Verif.BenchOpsSpec
/-!
# Lemmas: the mix of operations of `benches/map_comparison.rs` with sorted lists
-/
namespace BST.Bench
variable {K V R α β σ : Type}
open Std
open Spec (Sorted)
open Prog (Does)
open Listed (val put erase val_put val_erase put_sorted erase_sorted mem_iff)

theorem startOf_mono {i i' : Nat} (h : i ≤ i') : startOf i ≤ startOf i' := by
  induction h with
  | refl => exact Nat.le_refl _
  | step _ ih => simp only [startOf]; omega

theorem startOf_ge (n : Nat) : n ≤ startOf n := by
  induction n with
  | zero => exact Nat.le_refl _
  | succ n ih => simp only [startOf]; omega

theorem startOf_lt (n : Nat) : startOf (n + 1) < 5 * (n + 1) := by
  induction n with
  | zero => decide
  | succ n ih => rw [startOf]; omega

/-- Every position before `startOf n` belongs to one step. -/
theorem startOf_find {n p : Nat} (h : p < startOf n) :
    ∃ i j, i < n ∧ j ≤ i % 5 ∧ p = startOf i + j := by
  induction n with
  | zero => simp [startOf] at h
  | succ n ih =>
    by_cases h1 : p < startOf n
    · obtain ⟨i, j, h2, h3, h4⟩ := ih h1
      exact ⟨i, j, by omega, h3, h4⟩
    · rw [startOf] at h
      exact ⟨n, p - startOf n, by omega, by omega, by omega⟩

/-- A sorted list is determined by the values of its keys. -/
theorem sorted_ext {cmp : K → K → Ordering} [TransCmp cmp] [LawfulEqCmp cmp] {a b : List (K × V)}
    (ha : Sorted cmp a) (hb : Sorted cmp b) (h : ∀ k, val cmp a k = val cmp b k) : a = b := by
  have nodup : ∀ {l : List (K × V)}, Sorted cmp l → l.Nodup := by
    intro l hl
    refine List.Pairwise.imp ?_ hl
    rintro x y h1 rfl
    rw [ReflCmp.compare_self (cmp := cmp)] at h1
    cases h1
  refine sorted_perm_eq ha hb ((List.perm_ext_iff_of_nodup (nodup ha) (nodup hb)).2 fun e => ?_)
  rw [← Prod.eta e, mem_iff ha, mem_iff hb, h]

/-! ### A map as a function from positions -/

/-- `F` with the value at `p` changed. -/
def upd (F : Nat → Option V) (p : Nat) (v : Option V) : Nat → Option V :=
  fun p' => if p' = p then v else F p'

/-- The one map has the keys at the positions where `F` has a value, with these values. -/
def At (keys : List Int) (F : Nat → Option V) (ls : List (List (Int × V))) : Prop :=
  ∃ l, ls = [l] ∧ Sorted compare l ∧
    ∀ k v, val compare l k = some v ↔ ∃ p, keys[p]? = some k ∧ F p = some v

theorem At.congr {keys : List Int} {F G : Nat → Option V} {ls : List (List (Int × V))}
    (h : At keys F ls) (e : ∀ p, F p = G p) : At keys G ls := by
  rwa [show F = G from funext e] at h

section
variable {keys : List Int} {F : Nat → Option V} {ls : List (List (Int × V))} {p : Nat} {k : Int}
variable {keq : Int → Int → Bool} {veq : V → V → Bool}

theorem At.val (hk : keys.Nodup) {l : List (Int × V)} (h : ∀ k v, val compare l k = some v ↔
    ∃ p, keys[p]? = some k ∧ F p = some v) (hp : keys[p]? = some k) : val compare l k = F p := by
  cases hF : F p with
  | some v => exact (h k v).2 ⟨p, hp, hF⟩
  | none =>
    cases hv : Listed.val compare l k with
    | none => rfl
    | some v =>
      obtain ⟨p', h1, h2⟩ := (h k v).1 hv
      rw [nodup_at hk h1 hp, hF] at h2
      cases h2

theorem At.put (hk : keys.Nodup) {l : List (Int × V)} (hs : Sorted compare l)
    (h : ∀ k v, Listed.val compare l k = some v ↔ ∃ p, keys[p]? = some k ∧ F p = some v)
    (hp : keys[p]? = some k) (v : V) : At keys (upd F p (some v)) [put compare k v l] := by
  refine ⟨_, rfl, put_sorted _ _ hs, fun k' v' => ?_⟩
  rw [val_put _ _ hs]
  split
  · rename_i he
    subst he
    constructor
    · intro he; cases he; exact ⟨p, hp, by simp [upd]⟩
    · rintro ⟨p', h1, h2⟩
      rw [nodup_at hk h1 hp] at h2
      simpa [upd] using h2
  · rename_i he
    rw [h]
    constructor
    · rintro ⟨p', h1, h2⟩
      refine ⟨p', h1, ?_⟩
      have : p' ≠ p := by
        rintro rfl
        rw [hp] at h1; cases h1; exact he rfl
      simpa [upd, this] using h2
    · rintro ⟨p', h1, h2⟩
      have : p' ≠ p := by
        rintro rfl
        rw [hp] at h1; cases h1; exact he rfl
      exact ⟨p', h1, by simpa [upd, this] using h2⟩

theorem insert_at (hk : keys.Nodup) (hp : keys[p]? = some k) (h : At keys F ls) (v : V) :
    ∃ ls', Does (Listed.maps compare keq veq) (insert 0 k v) ls 1 (.ok (F p)) ls' ∧
      At keys (upd F p (some v)) ls' := by
  obtain ⟨l, rfl, hs, h⟩ := h
  have h1 := insert_does (cmp := compare) (keq := keq) (veq := veq) (ls := [l]) (i := 0) (l := l) rfl k v
  rw [At.val hk h hp] at h1
  exact ⟨_, h1, At.put hk hs h hp v⟩

theorem get_at (hk : keys.Nodup) (hp : keys[p]? = some k) (h : At keys F ls) :
    Does (Listed.maps compare keq veq) (get 0 k) ls 0 (.ok (F p)) ls := by
  obtain ⟨l, rfl, hs, h⟩ := h
  have h1 := get_does (cmp := compare) (keq := keq) (veq := veq) (ls := [l]) (i := 0) (l := l) rfl k
  rwa [At.val hk h hp] at h1

theorem modify_at (hk : keys.Nodup) (hp : keys[p]? = some k) (h : At keys F ls) {f : V → Option V}
    {v w : V} (hv : F p = some v) (hw : f v = some w) :
    ∃ ls', Does (Listed.maps compare keq veq) (modify 0 k f) ls 0 (.ok (some v)) ls' ∧
      At keys (upd F p (some w)) ls' := by
  obtain ⟨l, rfl, hs, h⟩ := h
  exact ⟨_, modify_some (ls := [l]) (i := 0) (l := l) rfl ((At.val hk h hp).trans hv) hw,
    At.put hk hs h hp w⟩

theorem remove_at (hk : keys.Nodup) (hp : keys[p]? = some k) (h : At keys F ls) :
    ∃ ls', Does (Listed.maps compare keq veq) (remove 0 k) ls 0 (.ok (F p)) ls' ∧
      At keys (upd F p none) ls' := by
  obtain ⟨l, rfl, hs, h⟩ := h
  have h1 := remove_does (cmp := compare) (keq := keq) (veq := veq) (ls := [l]) (i := 0) (l := l) rfl k
  rw [At.val hk h hp] at h1
  refine ⟨_, h1, _, rfl, erase_sorted _ hs, fun k' v' => ?_⟩
  rw [val_erase]
  split
  · rename_i he
    subst he
    constructor
    · intro he; cases he
    · rintro ⟨p', h2, h3⟩
      rw [nodup_at hk h2 hp] at h3
      simp [upd] at h3
  · rename_i he
    rw [h]
    constructor
    · rintro ⟨p', h4, h5⟩
      refine ⟨p', h4, ?_⟩
      have : p' ≠ p := by
        rintro rfl
        rw [hp] at h4; cases h4; exact he rfl
      simpa [upd, this] using h5
    · rintro ⟨p', h4, h5⟩
      have : p' ≠ p := by
        rintro rfl
        rw [hp] at h4; cases h4; exact he rfl
      exact ⟨p', h4, by simpa [upd, this] using h5⟩

end

/-! ### One step -/

section
variable {keys : List Int} {F : Nat → Option Nat} {ls : List (List (Int × Nat))}
variable {keq : Int → Int → Bool} {veq : Nat → Nat → Bool}

theorem keyAt_int {A : Maps Int Nat σ} {i : Int} {p : Nat} {k : Int} (hp : (max i 0).toNat = p)
    (h : keys[p]? = some k) (ls : List σ) : Does A (keyAt keys i) ls 0 (.ok k) ls := by
  unfold keyAt
  rw [hp, h]
  exact Does.pure _ _

/-- One lookup and update. -/
theorem getAndDouble_at (cfg : Cfg) (hk : keys.Nodup) {i : Int} {p : Nat} (hi : (max i 0).toNat = p)
    (hp : p < keys.length) (h : At keys F ls) (hb : ∀ v, F p = some v → v * 2 < usizeBound) :
    ∃ ls', Does (Listed.maps compare keq veq)
        (do let key ← keyAt keys i; getAndDouble cfg 0 key) ls 0 (.ok (F p)) ls' ∧
      At keys (upd F p ((F p).map (2 * ·))) ls' := by
  have hp' := List.getElem?_eq_getElem hp
  generalize keys[p] = k at hp'
  have h1 := get_at (keq := keq) (veq := veq) hk hp' h
  cases hF : F p with
  | none =>
    rw [hF] at h1
    refine ⟨ls, ?_, h.congr fun p' => ?_⟩
    · have := (keyAt_int hi hp' ls).bind (f := fun key => getAndDouble cfg 0 key)
        (h1.bind (f := fun x => match x with
          | none => pure none
          | some value => do
            let _ ← modify 0 k (fun _ => double cfg value)
            pure (some value)) (Does.pure _ _))
      exact this
    · unfold upd
      split
      · subst_vars; exact hF
      · rfl
  | some v =>
    rw [hF] at h1
    have hd : double cfg v = some (2 * v) := by
      unfold double mulU
      rw [if_pos (hb v hF), Nat.mul_comm]
    obtain ⟨ls', h2, h3⟩ := modify_at (keq := keq) (veq := veq) hk hp' h
      (f := fun _ => double cfg v) hF hd
    refine ⟨ls', ?_, h3⟩
    have := (keyAt_int hi hp' ls).bind (f := fun key => getAndDouble cfg 0 key)
      (h1.bind (f := fun x => match x with
        | none => pure none
        | some value => do
          let _ ← modify 0 k (fun _ => double cfg value)
          pure (some value)) (h2.bind (f := fun _ => pure (some v)) (Does.pure _ _)))
    exact this

theorem remove_int (hk : keys.Nodup) {i : Int} {p : Nat} (hi : (max i 0).toNat = p)
    (hp : p < keys.length) (h : At keys F ls) :
    ∃ ls', Does (Listed.maps compare keq veq)
        (do let key ← keyAt keys i; remove 0 key) ls 0 (.ok (F p)) ls' ∧
      At keys (upd F p none) ls' := by
  have hp' := List.getElem?_eq_getElem hp
  generalize keys[p] = k at hp'
  obtain ⟨ls', h1, h2⟩ := remove_at (keq := keq) (veq := veq) hk hp' h
  exact ⟨ls', (keyAt_int hi hp' ls).bind (f := fun key => remove 0 key) h1, h2⟩

theorem each_nil {A : Maps K V σ} {f : α → Prog K V β} (ls : List σ) :
    Does A (each f []) ls 0 (.ok []) ls := Does.pure [] ls

theorem each_one {A : Maps K V σ} {f : α → Prog K V β} {a : α} {b : β} {as : List α} {bs : List β}
    {ls ls' ls'' : List σ} {d d' : Nat} (h : Does A (f a) ls d (.ok b) ls')
    (h' : Does A (each f as) ls' d' (.ok bs) ls'') :
    Does A (each f (a :: as)) ls (d + d') (.ok (b :: bs)) ls'' :=
  h.bind (f := fun b => do let bs ← each f as; pure (b :: bs))
    (h'.bind (f := fun bs => pure (b :: bs)) (Does.pure _ _))

/-- What is in the map before step `i`: what the steps before it have left. -/
def Before (i : Nat) (F : Nat → Option Nat) : Prop :=
  (∀ i' j, i' < i → j ≤ i' % 5 → F (startOf i' + j) = opsEntry i' j) ∧
    ∀ p, startOf i ≤ p → F p = none

/-- The insertions of step `i`. -/
theorem opsInserts (cfg : Cfg) (hk : keys.Nodup) {i s : Nat} (hs : ∀ p, s ≤ p → F p = none)
    (hl : s + (i % 5 + 1) ≤ keys.length) (hb : i + 5 < usizeBound) (h : At keys F ls) :
    ∃ ls', Does (Listed.maps compare keq veq) (each (fun j : Nat => do
          let key ← keyAt keys ((s + j : Nat) : Int)
          let value ← lift (addU cfg i j)
          insert 0 key value) (List.range (i % 5 + 1))) ls (i % 5 + 1)
        (.ok (List.replicate (i % 5 + 1) none)) ls' ∧
      At keys (fun p => if s ≤ p ∧ p < s + (i % 5 + 1) then some (i + (p - s)) else F p) ls' := by
  obtain ⟨ls', a1, a2⟩ := each_does (A := Listed.maps compare keq veq)
    (f := fun j : Nat => do
      let key ← keyAt keys ((s + j : Nat) : Int)
      let value ← lift (addU cfg i j)
      insert 0 key value) (g := fun _ => none) (d := 1)
    (Inv := fun t => At keys (fun p => if s ≤ p ∧ p < s + t then some (i + (p - s)) else F p))
    (i % 5 + 1) 0
    (by
      intro j ls hj h
      have hp' := List.getElem?_eq_getElem (l := keys) (i := s + j) (by omega)
      generalize keys[s + j] = k at hp'
      obtain ⟨ls', h1, h2⟩ := insert_at (keq := keq) (veq := veq) hk hp' h (i + j)
      have h3 : addU cfg i j = .ok (i + j) := by unfold addU; rw [if_pos (by omega)]
      rw [if_neg (by omega), hs _ (by omega)] at h1
      have := (keyAt_does (A := Listed.maps compare keq veq) hp' ls).bind
        (f := fun key => do
          let value ← lift (addU cfg i j)
          insert 0 key value)
        ((lift_ok h3 ls).bind (f := fun value => insert 0 k value) h1)
      refine ⟨ls', this.mono (by omega), h2.congr fun p => ?_⟩
      unfold upd
      by_cases e : p = s + j
      · subst e; rw [if_pos rfl, if_pos (by omega)]; congr 2; omega
      · rw [if_neg e]
        show (if _ then _ else _) = _
        by_cases e2 : s ≤ p ∧ p < s + j
        · rw [if_pos e2, if_pos (by omega)]
        · rw [if_neg e2, if_neg (by omega)])
    (ls := ls) (h.congr fun p => by rw [if_neg (by omega)])
  rw [← List.range_eq_range'] at a1
  have e1 : (List.range (i % 5 + 1)).map (fun _ => (none : Option Nat)) =
      List.replicate (i % 5 + 1) none := by
    rw [List.map_const']; simp
  rw [e1] at a1
  exact ⟨ls', a1.mono (by omega), a2.congr fun p => by rw [Nat.zero_add]⟩

/-- The lookups of a step, where `e` is the position of the last inserted key: the key after it is not
in the map, and the last one has the value zero. -/
theorem opsGets (cfg : Cfg) (hk : keys.Nodup) {i e : Nat} (hl : e + 1 < keys.length)
    (h0 : F (e + 1) = none) (h1 : F e = some 0)
    (hb : ∀ v, F (e - 1) = some v → v * 2 < usizeBound) (h : At keys F ls) :
    ∃ ls', Does (Listed.maps compare keq veq) (each (fun j : Nat => do
          let key ← keyAt keys (((e + 1 : Nat) : Int) - (j : Int))
          getAndDouble cfg 0 key) (List.range (3 - i % 3))) ls 0
        (.ok ([none, some 0, F (e - 1)].take (3 - i % 3))) ls' ∧
      At keys (if i % 3 = 0 then upd F (e - 1) ((F (e - 1)).map (2 * ·)) else F) ls' := by
  obtain ⟨ls1, a1, b1⟩ := getAndDouble_at (keq := keq) (veq := veq) cfg hk
    (i := ((e + 1 : Nat) : Int) - ((0 : Nat) : Int)) (p := e + 1) (by omega) hl h
    (by rw [h0]; intro v hv; cases hv)
  have c1 : At keys F ls1 := b1.congr fun p => by
    unfold upd; split
    · subst_vars; rw [h0]; rfl
    · rfl
  obtain hm | hm | hm : i % 3 = 2 ∨ i % 3 = 1 ∨ i % 3 = 0 := by omega
  · rw [h0] at a1
    refine ⟨ls1, ?_, c1.congr fun p => by rw [if_neg (by omega)]⟩
    rw [hm]
    exact each_one (f := fun j : Nat => do
          let key ← keyAt keys (((e + 1 : Nat) : Int) - (j : Int))
          getAndDouble cfg 0 key) (a := 0) a1 (each_nil _)
  all_goals
    obtain ⟨ls2, a2, b2⟩ := getAndDouble_at (keq := keq) (veq := veq) cfg hk
      (i := ((e + 1 : Nat) : Int) - ((1 : Nat) : Int)) (p := e) (by omega) (by omega) c1
      (by rw [h1]; intro v hv; cases hv; decide)
    have c2 : At keys F ls2 := b2.congr fun p => by
      unfold upd; split
      · subst_vars; rw [h1]; rfl
      · rfl
    rw [h0] at a1
    rw [h1] at a2
  · refine ⟨ls2, ?_, c2.congr fun p => by rw [if_neg (by omega)]⟩
    rw [hm]
    exact each_one (f := fun j : Nat => do
          let key ← keyAt keys (((e + 1 : Nat) : Int) - (j : Int))
          getAndDouble cfg 0 key) (a := 0) a1 (each_one (a := 1) a2 (each_nil _))
  · obtain ⟨ls3, a3, b3⟩ := getAndDouble_at (keq := keq) (veq := veq) cfg hk
      (i := ((e + 1 : Nat) : Int) - ((2 : Nat) : Int)) (p := e - 1) (by omega) (by omega) c2 hb
    refine ⟨ls3, ?_, b3.congr fun p => by rw [if_pos hm]⟩
    rw [hm]
    exact each_one (f := fun j : Nat => do
          let key ← keyAt keys (((e + 1 : Nat) : Int) - (j : Int))
          getAndDouble cfg 0 key) (a := 0) a1
      (each_one (a := 1) a2 (each_one (a := 2) a3 (each_nil _)))

/-- The removals of a step. -/
theorem opsRemoves (hk : keys.Nodup) {i e : Nat} (hl : e + 1 < keys.length)
    (h0 : F (e + 1) = none) (h : At keys F ls) :
    ∃ ls', Does (Listed.maps compare keq veq) (each (fun j : Nat => do
          let key ← keyAt keys (((e + 1 : Nat) : Int) - (j : Int))
          remove 0 key) (List.range (2 - i % 2))) ls 0
        (.ok ([none, F e].take (2 - i % 2))) ls' ∧
      At keys (if i % 2 = 0 then upd F e none else F) ls' := by
  obtain ⟨ls1, a1, b1⟩ := remove_int (keq := keq) (veq := veq) hk
    (i := ((e + 1 : Nat) : Int) - ((0 : Nat) : Int)) (p := e + 1) (by omega) hl h
  have c1 : At keys F ls1 := b1.congr fun p => by
    unfold upd; split
    · subst_vars; rw [h0]
    · rfl
  rw [h0] at a1
  obtain hm | hm : i % 2 = 1 ∨ i % 2 = 0 := by omega
  · refine ⟨ls1, ?_, c1.congr fun p => by rw [if_neg (by omega)]⟩
    rw [hm]
    exact each_one (f := fun j : Nat => do
          let key ← keyAt keys (((e + 1 : Nat) : Int) - (j : Int))
          remove 0 key) (a := 0) a1 (each_nil _)
  · obtain ⟨ls2, a2, b2⟩ := remove_int (keq := keq) (veq := veq) hk
      (i := ((e + 1 : Nat) : Int) - ((1 : Nat) : Int)) (p := e) (by omega) (by omega) c1
    refine ⟨ls2, ?_, b2.congr fun p => by rw [if_pos hm]⟩
    rw [hm]
    exact each_one (f := fun j : Nat => do
          let key ← keyAt keys (((e + 1 : Nat) : Int) - (j : Int))
          remove 0 key) (a := 0) a1 (each_one (a := 1) a2 (each_nil _))

theorem mapStep_does (cfg : Cfg) (hk : keys.Nodup) {i : Nat} (hl : startOf (i + 1) < keys.length)
    (hb : 2 * (i + 5) < usizeBound) (hF : Before i F) (h : At keys F ls) :
    ∃ ls' F', Does (Listed.maps compare keq veq) (mapStep cfg keys 0 i (startOf i)) ls (i % 5 + 2)
        (.ok (opsLog i)) ls' ∧ At keys F' ls' ∧ Before (i + 1) F' := by
  obtain ⟨hF1, hF2⟩ := hF
  rw [startOf] at hl
  generalize hs : startOf i = s at *
  generalize hr : i % 5 = r at *
  have hr5 : r < 5 := by omega
  -- the insertions
  obtain ⟨ls1, a1, b1⟩ := opsInserts (keq := keq) (veq := veq) cfg hk (i := i) (s := s) hF2
    (by omega) (by omega) h
  rw [hr] at a1 b1
  -- the overwriting
  have hp' := List.getElem?_eq_getElem (l := keys) (i := s + r) (by omega)
  generalize keys[s + r] = k at hp'
  obtain ⟨ls2, a2, b2⟩ := insert_at (keq := keq) (veq := veq) hk hp' b1 0
  rw [if_pos (by omega), show i + (s + r - s) = i + r by omega] at a2
  generalize hG : upd (fun p => if s ≤ p ∧ p < s + (r + 1) then some (i + (p - s)) else F p)
    (s + r) (some 0) = G at b2
  have g1 : G (s + r + 1) = none := by
    rw [← hG]; simp only [upd]; rw [if_neg (by omega), if_neg (by omega)]; exact hF2 _ (by omega)
  have g2 : G (s + r) = some 0 := by rw [← hG]; simp [upd]
  have g3 : ∀ j, j < r → G (s + j) = some (i + j) := by
    intro j hj
    rw [← hG]; simp only [upd]
    rw [if_neg (by omega), if_pos (by omega), show s + j - s = j by omega]
  have g4 : ∀ p, p < s → G p = F p := by
    intro p hp
    rw [← hG]; simp only [upd]
    rw [if_neg (by omega), if_neg (by omega)]
  have g5 : ∀ p, s + r < p → G p = none := by
    intro p hp
    rw [← hG]; simp only [upd]
    rw [if_neg (by omega), if_neg (by omega)]
    exact hF2 p (by omega)
  -- the third lookup
  have g6 : G (s + r - 1) = opsThird i := by
    unfold opsThird
    rw [hr]
    by_cases h0 : r = 0
    · subst h0
      rw [if_neg (by omega)]
      cases i with
      | zero => simp only [startOf] at hs; subst hs; simpa using g2
      | succ i' =>
        rw [startOf] at hs
        have := hF1 i' (i' % 5) (by omega) (Nat.le_refl _)
        rw [show s + 0 - 1 = startOf i' + i' % 5 by omega, g4 _ (by omega), this]
        unfold opsEntry
        rw [if_neg (by omega)]
        by_cases h1 : i' % 2 = 1
        · rw [if_pos h1, if_neg (by omega)]
        · rw [if_neg h1, if_pos (by omega)]
    · rw [if_pos h0, show s + r - 1 = s + (r - 1) by omega, g3 _ (by omega)]
      congr 1; omega
  have hb3 : ∀ v, G (s + r - 1) = some v → v * 2 < usizeBound := by
    intro v hv
    rw [g6] at hv
    unfold opsThird at hv
    rw [hr] at hv
    split at hv
    · cases hv; omega
    · split at hv <;> cases hv
      omega
  obtain ⟨ls3, a3, b3⟩ := opsGets (keq := keq) (veq := veq) cfg hk (i := i) (e := s + r) (by omega)
    g1 g2 hb3 b2
  rw [g6] at a3
  generalize hH : (if i % 3 = 0 then upd G (s + r - 1) ((G (s + r - 1)).map (2 * ·)) else G) = H at b3
  have k1 : ∀ p, p ≠ s + r - 1 → H p = G p := by
    intro p hp
    rw [← hH]
    split
    · unfold upd; rw [if_neg hp]
    · rfl
  have k2 : r = 0 → ∀ p, H p = G p := by
    intro h0 p
    by_cases hp : p = s + r - 1
    · rw [← hH]
      split
      · unfold upd
        rw [if_pos hp, hp, g6]
        unfold opsThird
        rw [hr, if_neg (by omega)]
        split <;> rfl
      · rfl
    · exact k1 p hp
  have k3 : ∀ p, s + r ≤ p → H p = G p := by
    intro p hp
    by_cases h0 : r = 0
    · exact k2 h0 p
    · exact k1 p (by omega)
  obtain ⟨ls4, a4, b4⟩ := opsRemoves (keq := keq) (veq := veq) hk (i := i) (e := s + r) (by omega)
    ((k3 _ (by omega)).trans g1) b3
  rw [k3 _ (by omega), g2] at a4
  refine ⟨ls4, _, ?_, b4, ?_, ?_⟩
  · have := a1.bind (f := fun inserted => do
        let key ← keyAt keys (((s + (i % 5 + 1) : Nat) : Int) - 1)
        let overwritten ← insert 0 key 0
        let got ← each (fun j : Nat => do
          let key ← keyAt keys (((s + (i % 5 + 1) : Nat) : Int) - (j : Int))
          getAndDouble cfg 0 key) (List.range (3 - i % 3))
        let removed ← each (fun j : Nat => do
          let key ← keyAt keys (((s + (i % 5 + 1) : Nat) : Int) - (j : Int))
          remove 0 key) (List.range (2 - i % 2))
        pure (⟨inserted, overwritten, got, removed⟩ : StepLog (Option Nat) Nat))
      ((keyAt_int (i := ((s + (i % 5 + 1) : Nat) : Int) - 1) (p := s + r) (by omega) hp' ls1).bind
        (a2.bind
          ((by rw [hr]; exact a3 : Does (Listed.maps compare keq veq) (each (fun j : Nat => do
            let key ← keyAt keys (((s + (i % 5 + 1) : Nat) : Int) - (j : Int))
            getAndDouble cfg 0 key) (List.range (3 - i % 3))) ls2 0 _ ls3).bind
            ((by rw [hr]; exact a4 : Does (Listed.maps compare keq veq) (each (fun j : Nat => do
            let key ← keyAt keys (((s + (i % 5 + 1) : Nat) : Int) - (j : Int))
            remove 0 key) (List.range (2 - i % 2))) ls3 0 _ ls4).bind (Does.pure _ _)))))
    have h5 : opsLog i = ⟨List.replicate (r + 1) none, some (i + r),
        [none, some 0, opsThird i].take (3 - i % 3), [none, some 0].take (2 - i % 2)⟩ := by
      unfold opsLog; rw [hr]
    rw [h5]
    refine Does.mono (d := _) ?_ (Nat.le_refl _)
    unfold mapStep
    rw [hr] at this ⊢
    exact this.mono (by omega)
  · intro i' j hi hj
    by_cases h1 : i' = i
    · subst h1
      rw [hs]
      rw [hr] at hj
      unfold opsEntry
      rw [hr]
      by_cases h2 : j < r
      · rw [if_pos h2]
        have h3 : (if i' % 2 = 0 then upd H (s + r) none else H) (s + j) = H (s + j) := by
          split
          · unfold upd; rw [if_neg (by omega)]
          · rfl
        rw [h3]
        by_cases h4 : j + 1 = r
        · rw [← hH]
          by_cases h5 : i' % 3 = 0
          · rw [if_pos h5, if_pos ⟨h4, h5⟩]
            unfold upd
            rw [if_pos (by omega), show s + r - 1 = s + j by omega, g3 j h2]
            rfl
          · rw [if_neg h5, if_neg (by omega), g3 j h2]
        · rw [k1 _ (by omega), g3 j h2, if_neg (by omega)]
      · have : j = r := by omega
        subst this
        rw [if_neg h2]
        by_cases h3 : i' % 2 = 0
        · rw [if_pos h3, if_neg (by omega)]
          unfold upd
          rw [if_pos rfl]
        · rw [if_neg h3, if_pos (by omega), k3 _ (by omega), g2]
    · have h2 : startOf (i' + 1) ≤ startOf i := startOf_mono (by omega)
      rw [startOf, hs] at h2
      have h3 : (if i % 2 = 0 then upd H (s + r) none else H) (startOf i' + j) = H (startOf i' + j) := by
        split
        · unfold upd; rw [if_neg (by omega)]
        · rfl
      rw [h3]
      by_cases h0 : r = 0
      · rw [k2 h0, g4 _ (by omega)]
        exact hF1 i' j (by omega) hj
      · rw [k1 _ (by omega), g4 _ (by omega)]
        exact hF1 i' j (by omega) hj
  · intro p hp
    rw [startOf, hs, hr] at hp
    have h3 : (if i % 2 = 0 then upd H (s + r) none else H) p = H p := by
      split
      · unfold upd; rw [if_neg (by omega)]
      · rfl
    rw [h3, k3 _ (by omega)]
    exact g5 p (by omega)

theorem mapSteps_does (cfg : Cfg) (hk : keys.Nodup) (n : Nat) {i : Nat}
    (hl : n ≠ 0 → startOf (i + n) < keys.length) (hb : 2 * (i + n + 5) < usizeBound)
    {F : Nat → Option Nat} {ls : List (List (Int × Nat))} (hF : Before i F) (h : At keys F ls) :
    ∃ ls' F', Does (Listed.maps compare keq veq) (mapSteps cfg keys 0 n i (startOf i)) ls
        (startOf (i + n) + n - startOf i) (.ok ((List.range' i n).map opsLog)) ls' ∧
      At keys F' ls' ∧ Before (i + n) F' := by
  induction n generalizing i F ls with
  | zero => exact ⟨ls, F, (Does.pure _ _).mono (by omega), h, hF⟩
  | succ n ih =>
    have hl' := hl (by omega)
    have e : i + (n + 1) = i + 1 + n := by omega
    have hm := startOf_mono (show i + 1 ≤ i + (n + 1) by omega)
    obtain ⟨ls1, F1, a1, b1, c1⟩ := mapStep_does (keq := keq) (veq := veq) cfg hk (i := i)
      (by omega) (by omega) hF h
    obtain ⟨ls2, F2, a2, b2, c2⟩ := ih (i := i + 1) (fun _ => by rw [← e]; exact hl') (by omega) c1 b1
    refine ⟨ls2, F2, ?_, b2, by rw [e]; exact c2⟩
    have := a1.bind (f := fun a => do
      let as ← mapSteps cfg keys 0 n (i + 1) (startOf i + (i % 5 + 1))
      pure (a :: as)) (a2.bind (Does.pure _ _))
    rw [e] at hm ⊢
    exact this.mono (by simp only [startOf] at *; omega)

theorem mapOps_does (cfg : Cfg) (hk : keys.Nodup) (n : Nat) (hl : n ≠ 0 → startOf n < keys.length)
    (hb : 2 * (n + 5) < usizeBound) :
    ∃ l, (∀ keq veq, Does (Listed.maps compare keq veq) (mapOps cfg keys n) []
        (startOf n + n) (.ok ((List.range n).map opsLog)) [l]) ∧ Sorted compare l ∧
      ∀ k v, (k, v) ∈ l ↔ ∃ i j, i < n ∧ j ≤ i % 5 ∧ keys[startOf i + j]? = some k ∧
        opsEntry i j = some v := by
  have key : ∀ keq veq, ∃ ls' F', Does (Listed.maps compare keq veq) (mapSteps cfg keys 0 n 0 0) [[]]
        (startOf n + n) (.ok ((List.range n).map opsLog)) ls' ∧
      At keys F' ls' ∧ Before n F' := by
    intro keq veq
    obtain ⟨ls', F', a, b, c⟩ := mapSteps_does (keq := keq) (veq := veq) cfg hk n (i := 0)
      (by rwa [Nat.zero_add]) (by omega) (F := fun _ => none) (ls := [[]])
      ⟨by intro i' j h; omega, fun _ _ => rfl⟩ ⟨[], rfl, .nil, by simp [Listed.val_nil]⟩
    rw [Nat.zero_add] at a c
    rw [← List.range_eq_range'] at a
    exact ⟨ls', F', a.mono (by omega), b, c⟩
  obtain ⟨ls0, F, _, ⟨l, rfl, hs, hv⟩, hF1, hF2⟩ := key (fun _ _ => true) (fun _ _ => true)
  have same : ∀ k v, (k, v) ∈ l ↔ ∃ i j, i < n ∧ j ≤ i % 5 ∧ keys[startOf i + j]? = some k ∧
        opsEntry i j = some v := by
    intro k v
    rw [mem_iff hs, hv]
    constructor
    · rintro ⟨p, h1, h2⟩
      by_cases h3 : p < startOf n
      · obtain ⟨i, j, h4, h5, rfl⟩ := startOf_find h3
        exact ⟨i, j, h4, h5, h1, by rw [← hF1 i j h4 h5, h2]⟩
      · rw [hF2 p (by omega)] at h2; cases h2
    · rintro ⟨i, j, h1, h2, h3, h4⟩
      exact ⟨_, h3, by rw [hF1 i j h1 h2, h4]⟩
  refine ⟨l, fun keq veq => ?_, hs, same⟩
  obtain ⟨ls1, F1, a1, ⟨l1, rfl, hs1, hv1⟩, hG1, hG2⟩ := key keq veq
  have e : l1 = l := by
    refine sorted_ext hs1 hs fun k => ?_
    have h1 : ∀ v, val compare l1 k = some v ↔ val compare l k = some v := by
      intro v
      rw [hv1, hv]
      have h2 : ∀ p, F1 p = F p := by
        intro p
        by_cases h3 : p < startOf n
        · obtain ⟨i, j, h4, h5, rfl⟩ := startOf_find h3
          rw [hF1 i j h4 h5, hG1 i j h4 h5]
        · rw [hF2 p (by omega), hG2 p (by omega)]
      simp only [h2]
    cases h3 : val compare l k with
    | some v => exact (h1 v).2 h3
    | none =>
      cases h4 : val compare l1 k with
      | none => rfl
      | some v => rw [(h1 v).1 h4] at h3; cases h3
  rw [← e]
  have := (Does.make (A := Listed.maps compare keq veq) []).bind
    (f := fun map => mapSteps cfg keys map n 0 0) a1
  exact this.mono (by omega)

end

end BST.Bench
