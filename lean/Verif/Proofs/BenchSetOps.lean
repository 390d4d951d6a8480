import Verif.Proofs.BenchSets
/-!
# Lemmas: what the programs of `benches/set_comparison.rs` compute with sorted lists
-/
namespace BST.Bench
open Std

variable {values : List Int} {F : Nat → Prop} {ls : List (List Int)} {teq : Int → Int → Bool}

/-! ### Calls at positions -/

theorem sInsert_int (hk : values.Nodup) {i : Int} {p : Nat} (hi : (max i 0).toNat = p)
    (hp : p < values.length) (h : SAt values F ls) {b : Bool} (hb : b = true ↔ ¬ F p) :
    ∃ ls', SDoes (ListedSet.sets compare teq) (do let t ← valueAt values i; sInsert 0 t) ls 1 (.ok b) ls' ∧
      SAt values (fun p' => p' = p ∨ F p') ls' := by
  have hp' := List.getElem?_eq_getElem hp
  obtain ⟨b', ls', h1, h2, h3⟩ := sInsert_at (teq := teq) hk hp' h
  have : b' = b := Bool.eq_iff_iff.2 (h2.trans hb.symm)
  subst this
  exact ⟨ls', ((valueAt_does hi hp' ls).bind (f := fun t => sInsert 0 t) h1).mono (by omega), h3⟩

theorem sRemove_int (hk : values.Nodup) {i : Int} {p : Nat} (hi : (max i 0).toNat = p)
    (hp : p < values.length) (h : SAt values F ls) {b : Bool} (hb : b = true ↔ F p) :
    ∃ ls', SDoes (ListedSet.sets compare teq) (do let t ← valueAt values i; sRemove 0 t) ls 0 (.ok b) ls' ∧
      SAt values (fun p' => p' ≠ p ∧ F p') ls' := by
  have hp' := List.getElem?_eq_getElem hp
  obtain ⟨b', ls', h1, h2, h3⟩ := sRemove_at (teq := teq) hk hp' h
  have : b' = b := Bool.eq_iff_iff.2 (h2.trans hb.symm)
  subst this
  exact ⟨ls', ((valueAt_does hi hp' ls).bind (f := fun t => sRemove 0 t) h1).mono (by omega), h3⟩

theorem sGet_int (hk : values.Nodup) {i : Int} {p : Nat} (hi : (max i 0).toNat = p)
    (hp : p < values.length) (h : SAt values F ls) {o : Option Int} (h1 : F p → o = values[p]?)
    (h2 : ¬ F p → o = none) :
    SDoes (ListedSet.sets compare teq) (do let t ← valueAt values i; sGet 0 t) ls 0 (.ok o) ls := by
  have hp' := List.getElem?_eq_getElem hp
  obtain ⟨o', a1, a2, a3⟩ := sGet_at (teq := teq) hk hp' h
  have : o' = o := by
    by_cases hF : F p
    · rw [a2 hF, h1 hF, hp']
    · rw [a3 hF, h2 hF]
  subst this
  exact ((valueAt_does hi hp' ls).bind (f := fun t => sGet 0 t) a1).mono (by omega)

/-! ### A mix of operations -/

/-- What is in the set before step `i`. -/
def SBefore (i : Nat) (F : Nat → Prop) : Prop :=
  (∀ i' j, i' < i → j ≤ i' % 5 → (F (startOf i' + j) ↔ j < i' % 5 ∨ i' % 2 = 1)) ∧
    ∀ p, startOf i ≤ p → ¬ F p

theorem setStep_does (hk : values.Nodup) {i : Nat} (hl : startOf (i + 1) < values.length)
    (hF : SBefore i F) (h : SAt values F ls) :
    ∃ ls' F', SDoes (ListedSet.sets compare teq) (setStep values 0 i (startOf i)) ls (i % 5 + 2)
        (.ok (setOpsLog values i)) ls' ∧ SAt values F' ls' ∧ SBefore (i + 1) F' := by
  obtain ⟨hF1, hF2⟩ := hF
  rw [startOf] at hl
  have hlog : setOpsLog values i = ⟨List.replicate (i % 5 + 1) true, false,
      [none, values[startOf i + i % 5]?, if i % 5 = 0 ∧ i % 2 = 1 then none else
        values[startOf i + i % 5 - 1]?].take (3 - i % 3), [false, true].take (2 - i % 2)⟩ := rfl
  rw [hlog]
  generalize hs : startOf i = s at *
  -- the insertions
  obtain ⟨ls1, a1, b1⟩ := sEach_does (A := ListedSet.sets compare teq)
    (f := fun j : Nat => do
      let t ← valueAt values ((s + j : Nat) : Int)
      sInsert 0 t) (g := fun _ => true) (d := 1)
    (Inv := fun t => SAt values (fun p => (s ≤ p ∧ p < s + t) ∨ F p)) (i % 5 + 1) 0
    (by
      intro j ls hj h
      obtain ⟨ls', h1, h2⟩ := sInsert_int (teq := teq) hk (i := ((s + j : Nat) : Int)) (p := s + j)
        (by omega) (by omega) h (b := true) (by
          have := hF2 (s + j) (by omega)
          constructor
          · rintro - (h | h)
            · omega
            · exact this h
          · intro _; rfl)
      refine ⟨ls', h1, h2.congr fun p => ?_⟩
      constructor
      · rintro (h | h | h)
        · exact .inl (by omega)
        · exact .inl (by omega)
        · exact .inr h
      · rintro (h | h)
        · by_cases e : p = s + j
          · exact .inl e
          · exact .inr (.inl (by omega))
        · exact .inr (.inr h))
    (ls := ls) (h.congr fun p => ⟨.inr, fun h => h.elim (fun h => by omega) id⟩)
  rw [← List.range_eq_range'] at a1
  have e1 : (List.range (i % 5 + 1)).map (fun _ => true) = List.replicate (i % 5 + 1) true := by
    rw [List.map_const']; simp
  rw [e1, Nat.mul_one] at a1
  rw [Nat.zero_add] at b1
  generalize hr : i % 5 = r at *
  -- the overwriting
  obtain ⟨ls2, a2, b2⟩ := sInsert_int (teq := teq) hk (i := ((s + (r + 1) : Nat) : Int) - 1) (p := s + r)
    (by omega) (by omega) b1 (b := false) (by
      constructor
      · intro h; cases h
      · intro h; exact absurd (.inl (by omega)) h)
  generalize hG : (fun p => p = s + r ∨ (s ≤ p ∧ p < s + (r + 1)) ∨ F p) = G at b2
  have g1 : ∀ p, s + r < p → ¬ G p := by
    intro p hp
    rw [← hG]
    rintro (h | h | h)
    · omega
    · omega
    · exact hF2 p (by omega) h
  have g2 : ∀ p, s ≤ p → p ≤ s + r → G p := by
    intro p hp hp'
    rw [← hG]
    exact .inr (.inl (by omega))
  have g3 : ∀ p, p < s → (G p ↔ F p) := by
    intro p hp
    rw [← hG]
    constructor
    · rintro (h | h | h)
      · omega
      · omega
      · exact h
    · intro h; exact .inr (.inr h)
  -- the lookups
  have c1 := sGet_int (teq := teq) hk (i := ((s + (r + 1) : Nat) : Int) - ((0 : Nat) : Int))
    (p := s + r + 1) (by omega) (by omega) b2 (o := none) (fun h => absurd h (g1 _ (by omega)))
    (fun _ => rfl)
  have c2 := sGet_int (teq := teq) hk (i := ((s + (r + 1) : Nat) : Int) - ((1 : Nat) : Int))
    (p := s + r) (by omega) (by omega) b2 (o := values[s + r]?) (fun _ => rfl)
    (fun h => absurd (g2 _ (by omega) (by omega)) h)
  have c3 := sGet_int (teq := teq) hk (i := ((s + (r + 1) : Nat) : Int) - ((2 : Nat) : Int))
    (p := s + r - 1) (by omega) (by omega) b2
    (o := if r = 0 ∧ i % 2 = 1 then none else values[s + r - 1]?)
    (by
      intro h
      rw [if_neg]
      rintro ⟨h0, h1⟩
      cases i with
      | zero => omega
      | succ i' =>
        rw [startOf] at hs
        rw [show s + r - 1 = startOf i' + i' % 5 by omega, g3 _ (by omega),
          hF1 i' _ (by omega) (Nat.le_refl _)] at h
        omega)
    (by
      intro h
      rw [if_pos]
      by_cases h0 : r = 0
      · refine ⟨h0, ?_⟩
        cases i with
        | zero =>
          rw [startOf] at hs
          exact absurd (g2 _ (by omega) (by omega)) h
        | succ i' =>
          rw [startOf] at hs
          rw [show s + r - 1 = startOf i' + i' % 5 by omega, g3 _ (by omega),
            hF1 i' _ (by omega) (Nat.le_refl _)] at h
          omega
      · exact absurd (g2 _ (by omega) (by omega)) h)
  have a3 : SDoes (ListedSet.sets compare teq) (sEach (fun j : Nat => do
      let t ← valueAt values (((s + (r + 1) : Nat) : Int) - (j : Int))
      sGet 0 t) (List.range (3 - i % 3))) ls2 0
      (.ok ([none, values[s + r]?, if r = 0 ∧ i % 2 = 1 then none else
        values[s + r - 1]?].take (3 - i % 3))) ls2 := by
    obtain hm | hm | hm : i % 3 = 2 ∨ i % 3 = 1 ∨ i % 3 = 0 := by omega
    all_goals rw [hm]
    · exact sEach_one (f := fun j : Nat => do
        let t ← valueAt values (((s + (r + 1) : Nat) : Int) - (j : Int))
        sGet 0 t) (a := 0) c1 (sEach_nil _)
    · exact sEach_one (f := fun j : Nat => do
        let t ← valueAt values (((s + (r + 1) : Nat) : Int) - (j : Int))
        sGet 0 t) (a := 0) c1 (sEach_one (a := 1) c2 (sEach_nil _))
    · exact sEach_one (f := fun j : Nat => do
        let t ← valueAt values (((s + (r + 1) : Nat) : Int) - (j : Int))
        sGet 0 t) (a := 0) c1 (sEach_one (a := 1) c2 (sEach_one (a := 2) c3 (sEach_nil _)))
  -- the removals
  obtain ⟨ls4, d1, f1⟩ := sRemove_int (teq := teq) hk
    (i := ((s + (r + 1) : Nat) : Int) - ((0 : Nat) : Int))
    (p := s + r + 1) (by omega) (by omega) b2 (b := false)
    (by constructor
        · intro h; cases h
        · intro h; exact absurd h (g1 _ (by omega)))
  have f1' : SAt values G ls4 := f1.congr fun p => by
    constructor
    · exact fun h => h.2
    · intro h
      refine ⟨?_, h⟩
      rintro rfl
      exact g1 _ (by omega) h
  have a4 : ∃ ls5, SDoes (ListedSet.sets compare teq) (sEach (fun j : Nat => do
      let t ← valueAt values (((s + (r + 1) : Nat) : Int) - (j : Int))
      sRemove 0 t) (List.range (2 - i % 2))) ls2 0
      (.ok ([false, true].take (2 - i % 2))) ls5 ∧
      SAt values (fun p => G p ∧ (p = s + r → i % 2 = 1)) ls5 := by
    obtain hm | hm : i % 2 = 1 ∨ i % 2 = 0 := by omega
    · refine ⟨ls4, ?_, f1'.congr fun p => ⟨fun h => ⟨h, fun _ => hm⟩, fun h => h.1⟩⟩
      rw [hm]
      exact sEach_one (f := fun j : Nat => do
        let t ← valueAt values (((s + (r + 1) : Nat) : Int) - (j : Int))
        sRemove 0 t) (a := 0) d1 (sEach_nil _)
    · obtain ⟨ls5, d2, f2⟩ := sRemove_int (teq := teq) hk
        (i := ((s + (r + 1) : Nat) : Int) - ((1 : Nat) : Int))
        (p := s + r) (by omega) (by omega) f1' (b := true)
        ⟨fun _ => g2 _ (by omega) (by omega), fun _ => rfl⟩
      refine ⟨ls5, ?_, f2.congr fun p => ⟨fun h => ⟨h.2, fun e => absurd e h.1⟩,
        fun h => ⟨fun e => ?_, h.1⟩⟩⟩
      · rw [hm]
        exact sEach_one (f := fun j : Nat => do
          let t ← valueAt values (((s + (r + 1) : Nat) : Int) - (j : Int))
          sRemove 0 t) (a := 0) d1 (sEach_one (a := 1) d2 (sEach_nil _))
      · have := h.2 e; omega
  obtain ⟨ls5, d3, f3⟩ := a4
  refine ⟨ls5, _, ?_, f3, ?_, ?_⟩
  · have := a1.bind (f := fun inserted => do
        let overwritten ← (do
          let t ← valueAt values (((s + (r + 1) : Nat) : Int) - 1)
          sInsert 0 t)
        let got ← sEach (fun j : Nat => do
          let t ← valueAt values (((s + (r + 1) : Nat) : Int) - (j : Int))
          sGet 0 t) (List.range (3 - i % 3))
        let removed ← sEach (fun j : Nat => do
          let t ← valueAt values (((s + (r + 1) : Nat) : Int) - (j : Int))
          sRemove 0 t) (List.range (2 - i % 2))
        pure (⟨inserted, overwritten, got, removed⟩ : StepLog Bool Int))
      (a2.bind (a3.bind (d3.bind (SDoes.pure _ _))))
    have e2 : setStep values 0 i s = (do
        let inserted ← sEach (fun j : Nat => do
          let t ← valueAt values ((s + j : Nat) : Int)
          sInsert 0 t) (List.range (r + 1))
        let overwritten ← (do
          let t ← valueAt values (((s + (r + 1) : Nat) : Int) - 1)
          sInsert 0 t)
        let got ← sEach (fun j : Nat => do
          let t ← valueAt values (((s + (r + 1) : Nat) : Int) - (j : Int))
          sGet 0 t) (List.range (3 - i % 3))
        let removed ← sEach (fun j : Nat => do
          let t ← valueAt values (((s + (r + 1) : Nat) : Int) - (j : Int))
          sRemove 0 t) (List.range (2 - i % 2))
        pure (⟨inserted, overwritten, got, removed⟩ : StepLog Bool Int)) := by
      unfold setStep
      rw [hr]
      have hp' := List.getElem?_eq_getElem (l := values) (i := s + r) (by omega)
      have : valueAt values (((s + (r + 1) : Nat) : Int) - 1) = pure values[s + r] := by
        unfold valueAt
        rw [show (max (((s + (r + 1) : Nat) : Int) - 1) 0).toNat = s + r by omega, hp']
      simp only [this]
      rfl
    rw [e2]
    exact this.mono (by omega)
  · intro i' j hi hj
    by_cases h1 : i' = i
    · subst h1
      rw [hs]
      rw [hr] at hj ⊢
      constructor
      · rintro ⟨_, h2⟩
        by_cases e : j < r
        · exact .inl e
        · exact .inr (h2 (by omega))
      · intro h2
        exact ⟨g2 _ (by omega) (by omega), fun e => by omega⟩
    · have h2 : startOf (i' + 1) ≤ startOf i := startOf_mono (by omega)
      rw [startOf, hs] at h2
      rw [← hF1 i' j (by omega) hj, ← g3 _ (by omega)]
      exact ⟨fun h => h.1, fun h => ⟨h, fun e => by omega⟩⟩
  · intro p hp
    rw [startOf, hs, hr] at hp
    exact fun h => g1 p (by omega) h.1

theorem setSteps_does (hk : values.Nodup) (n : Nat) {i : Nat}
    (hl : n ≠ 0 → startOf (i + n) < values.length) {F : Nat → Prop} {ls : List (List Int)}
    (hF : SBefore i F) (h : SAt values F ls) :
    ∃ ls' F', SDoes (ListedSet.sets compare teq) (setSteps values 0 n i (startOf i)) ls
        (startOf (i + n) + n - startOf i) (.ok ((List.range' i n).map (setOpsLog values))) ls' ∧
      SAt values F' ls' ∧ SBefore (i + n) F' := by
  induction n generalizing i F ls with
  | zero => exact ⟨ls, F, (SDoes.pure _ _).mono (by omega), h, hF⟩
  | succ n ih =>
    have hl' := hl (by omega)
    have e : i + (n + 1) = i + 1 + n := by omega
    have hm := startOf_mono (show i + 1 ≤ i + (n + 1) by omega)
    obtain ⟨ls1, F1, a1, b1, c1⟩ := setStep_does (teq := teq) hk (i := i) (by omega) hF h
    obtain ⟨ls2, F2, a2, b2, c2⟩ := ih (i := i + 1) (fun _ => by rw [← e]; exact hl') c1 b1
    refine ⟨ls2, F2, ?_, b2, by rw [e]; exact c2⟩
    have := a1.bind (f := fun a => do
      let as ← setSteps values 0 n (i + 1) (startOf i + (i % 5 + 1))
      pure (a :: as)) (a2.bind (f := fun as => pure (_ :: as)) (SDoes.pure _ _))
    rw [e] at hm ⊢
    exact this.mono (by simp only [startOf] at *; omega)

theorem setOps_does (hk : values.Nodup) (n : Nat) (hl : n ≠ 0 → startOf n < values.length) :
    ∃ l, (∀ teq, SDoes (ListedSet.sets compare teq) (setOps values n) []
        (startOf n + n) (.ok ((List.range n).map (setOpsLog values))) [l]) ∧ SSorted compare l ∧
      ∀ t, t ∈ l ↔ ∃ i j, i < n ∧ (j < i % 5 ∨ j = i % 5 ∧ i % 2 = 1) ∧
        values[startOf i + j]? = some t := by
  have key : ∀ teq, ∃ ls' F', SDoes (ListedSet.sets compare teq) (setSteps values 0 n 0 0) [[]]
        (startOf n + n) (.ok ((List.range n).map (setOpsLog values))) ls' ∧
      SAt values F' ls' ∧ SBefore n F' := by
    intro teq
    obtain ⟨ls', F', a, b, c⟩ := setSteps_does (teq := teq) hk n (i := 0)
      (by rwa [Nat.zero_add]) (F := fun _ => False) (ls := [[]])
      ⟨by intro i' j h; omega, fun _ _ h => h⟩ ⟨[], rfl, .nil, by simp⟩
    rw [Nat.zero_add] at a c
    rw [← List.range_eq_range'] at a
    exact ⟨ls', F', a.mono (by omega), b, c⟩
  obtain ⟨ls0, F, _, ⟨l, rfl, hs, hv⟩, hF1, hF2⟩ := key (fun _ _ => true)
  refine ⟨l, fun teq => ?_, hs, fun t => ?_⟩
  · obtain ⟨ls1, F1, a1, b1, hG1, hG2⟩ := key teq
    have h2 : ∀ p, F1 p ↔ F p := by
      intro p
      by_cases h3 : p < startOf n
      · obtain ⟨i, j, h4, h5, rfl⟩ := startOf_find h3
        rw [hF1 i j h4 h5, hG1 i j h4 h5]
      · exact ⟨fun h => absurd h (hG2 p (by omega)), fun h => absurd h (hF2 p (by omega))⟩
    have b1' := b1.congr h2
    obtain ⟨l1, rfl, -⟩ := b1
    rw [SAt.unique (⟨l, rfl, hs, hv⟩ : SAt values F [l]) b1']
    have := (SDoes.make (A := ListedSet.sets compare teq) []).bind
      (f := fun set => setSteps values set n 0 0) a1
    exact this.mono (by omega)
  · rw [hv]
    constructor
    · rintro ⟨p, h1, h2⟩
      by_cases h3 : p < startOf n
      · obtain ⟨i, j, h4, h5, rfl⟩ := startOf_find h3
        exact ⟨i, j, h4, by rw [hF1 i j h4 h5] at h2; omega, h1⟩
      · exact absurd h2 (hF2 p (by omega))
    · rintro ⟨i, j, h1, h2, h3⟩
      exact ⟨_, h3, (hF1 i j h1 (by omega)).2 (by omega)⟩

/-! ### Insertions, lookups and removals -/

theorem sInserts_does (hk : values.Nodup) {n : Nat} (hn : n ≤ values.length) :
    ∃ ls, SDoes (ListedSet.sets compare teq) (sInserts values 0 n) [[]] n
      (.ok (List.replicate n true)) ls ∧ SAt values (· < n) ls := by
  obtain ⟨ls, a1, a2⟩ := sEach_does (A := ListedSet.sets compare teq)
    (f := fun i : Nat => do let t ← valueAt values (i : Int); sInsert 0 t) (g := fun _ => true) (d := 1)
    (Inv := fun i => SAt values (· < i)) n 0
    (by
      intro i ls hi h
      obtain ⟨ls', h1, h2⟩ := sInsert_int (teq := teq) hk (i := (i : Int)) (p := i) (by omega) (by omega) h
        (b := true) (by simp)
      exact ⟨ls', h1, h2.congr fun p => by omega⟩)
    (ls := [[]]) ⟨[], rfl, .nil, by simp⟩
  rw [← List.range_eq_range'] at a1
  have e1 : (List.range n).map (fun _ => true) = List.replicate n true := by
    rw [List.map_const']; simp
  rw [e1] at a1
  exact ⟨ls, a1.mono (by omega), a2.congr fun p => by omega⟩

theorem sGets_does (hk : values.Nodup) {n : Nat} (hn : n ≤ values.length) (h : SAt values (· < n) ls) :
    SDoes (ListedSet.sets compare teq) (sGets values 0 n) ls 0
      (.ok ((List.range n).map fun i => (values[n - i - 1]?, true))) ls := by
  obtain ⟨ls', a1, rfl⟩ := sEach_does (A := ListedSet.sets compare teq)
    (f := fun i : Nat => do
      let t ← valueAt values ((n - i - 1 : Nat) : Int)
      let a ← sGet 0 t
      let b ← sContains 0 t
      pure (a, b)) (g := fun i => (values[n - i - 1]?, true)) (d := 0)
    (Inv := fun _ ls' => ls' = ls) n 0
    (by
      rintro i _ hi rfl
      have hp' := List.getElem?_eq_getElem (l := values) (i := n - i - 1) (by omega)
      obtain ⟨o, b1, b2, -⟩ := sGet_at (teq := teq) hk hp' h
      obtain ⟨b, c1, c2⟩ := sContains_at (teq := teq) hk hp' h
      rw [b2 (by omega)] at b1
      rw [c2.2 (by omega)] at c1
      refine ⟨_, ?_, rfl⟩
      rw [hp']
      have := (valueAt_does (A := ListedSet.sets compare teq) (i := ((n - i - 1 : Nat) : Int))
          (by omega) hp' _).bind (f := fun t => do
          let a ← sGet 0 t
          let b ← sContains 0 t
          pure (a, b))
        (b1.bind (f := fun a => do
          let b ← sContains 0 values[n - i - 1]
          pure (a, b)) (c1.bind (f := fun b => pure (some values[n - i - 1], b)) (SDoes.pure _ _)))
      exact this.mono (by omega))
    (ls := ls) rfl
  rw [← List.range_eq_range'] at a1
  exact a1.mono (by omega)

theorem sRemoves_does (hk : values.Nodup) {n m : Nat} (hn : n ≤ values.length) (hm : m = n ∨ m = 0)
    (h : SAt values (· < m) ls) :
    ∃ ls', SDoes (ListedSet.sets compare teq) (sRemoves values 0 n) ls 0
      (.ok (List.replicate n (decide (m = n), false))) ls' ∧ SAt values (· < 0) ls' := by
  obtain ⟨ls', a1, a2⟩ := sEach_does (A := ListedSet.sets compare teq)
    (f := fun i : Nat => do
      let t ← valueAt values ((n - i - 1 : Nat) : Int)
      let a ← sRemove 0 t
      let b ← sRemove 0 t
      pure (a, b)) (g := fun _ => (decide (m = n), false)) (d := 0)
    (Inv := fun i => SAt values (· < m - i)) n 0
    (by
      intro i ls hi h
      have hp' := List.getElem?_eq_getElem (l := values) (i := n - i - 1) (by omega)
      obtain ⟨b, ls1, b1, b2, b3⟩ := sRemove_at (teq := teq) hk hp' h
      obtain ⟨c, ls2, c1, c2, c3⟩ := sRemove_at (teq := teq) hk hp' b3
      have hb : b = decide (m = n) := by
        rw [Bool.eq_iff_iff, b2, decide_eq_true_iff]
        omega
      have hc : c = false := by
        cases c with
        | false => rfl
        | true => exact absurd rfl (c2.1 rfl).1
      subst hb
      subst hc
      refine ⟨ls2, ?_, c3.congr fun p => by omega⟩
      have := (valueAt_does (A := ListedSet.sets compare teq) (i := ((n - i - 1 : Nat) : Int))
          (by omega) hp' _).bind (f := fun t => do
          let a ← sRemove 0 t
          let b ← sRemove 0 t
          pure (a, b))
        (b1.bind (f := fun a => do
          let b ← sRemove 0 values[n - i - 1]
          pure (a, b)) (c1.bind (f := fun b => pure (_, b)) (SDoes.pure _ _)))
      exact this.mono (by omega))
    (ls := ls) (h.congr fun p => by omega)
  rw [← List.range_eq_range'] at a1
  have e1 : (List.range n).map (fun _ => (decide (m = n), false)) =
      List.replicate n (decide (m = n), false) := by
    rw [List.map_const']; simp
  rw [e1] at a1
  exact ⟨ls', a1.mono (by omega), a2.congr fun p => by omega⟩

theorem compareSets_does (hk : values.Nodup) {n : Nat} (hn : n ≤ values.length)
    (iters : Nat) :
    SDoes (ListedSet.sets compare teq) (compareSets values n (iters + 1)) [] n
      (.ok (List.replicate n true, (List.range n).map (fun i => (values[n - i - 1]?, true)),
        List.replicate n (true, false) :: List.replicate iters (List.replicate n (false, false)))) [[]] := by
  obtain ⟨ls1, a1, a2⟩ := sInserts_does (teq := teq) hk hn
  have b1 := sGets_does (teq := teq) hk hn a2
  obtain ⟨ls2, c1, c2⟩ := sRemoves_does (teq := teq) hk hn (.inl rfl) a2
  rw [show decide (n = n) = true from by simp] at c1
  obtain ⟨ls3, d1, d2⟩ := sEach_does (A := ListedSet.sets compare teq)
    (f := fun _ => sRemoves values 0 n) (g := fun _ => List.replicate n (false, false)) (d := 0)
    (Inv := fun _ => SAt values (· < 0)) iters 1
    (by
      intro i ls _ h
      have := sRemoves_does (teq := teq) hk hn (.inr rfl) h
      rwa [show List.replicate n (decide (0 = n), false) = List.replicate n (false, false) from by
        cases n <;> simp] at this)
    (ls := ls2) c2
  obtain ⟨l, rfl, _, hv⟩ := d2
  have hl : l = [] := List.eq_nil_iff_forall_not_mem.2 fun t ht => by
    obtain ⟨p, _, h⟩ := (hv t).1 ht
    omega
  subst hl
  have e1 : (List.range' 1 iters).map (fun _ => List.replicate n (false, false)) =
      List.replicate iters (List.replicate n (false, false)) := by
    rw [List.map_const']; simp
  rw [e1] at d1
  have e2 := sEach_one (f := fun _ => sRemoves values 0 n) (a := 0) c1 d1
  have e3 : (0 :: List.range' 1 iters) = List.range (iters + 1) := by
    rw [List.range_eq_range']; rfl
  rw [e3] at e2
  have := (SDoes.make (A := ListedSet.sets compare teq) []).bind (f := fun set => do
      let a ← sInserts values set n
      let b ← sGets values set n
      let c ← sEach (fun _ => sRemoves values set n) (List.range (iters + 1))
      pure (a, b, c))
    (a1.bind (f := fun a => do
      let b ← sGets values 0 n
      let c ← sEach (fun _ => sRemoves values 0 n) (List.range (iters + 1))
      pure (a, b, c)) (b1.bind (f := fun b => do
      let c ← sEach (fun _ => sRemoves values 0 n) (List.range (iters + 1))
      pure (_, b, c)) (e2.bind (f := fun c => pure (_, _, c)) (SDoes.pure _ _))))
  exact this.mono (by omega)

end BST.Bench
