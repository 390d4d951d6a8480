import Verif.Proofs.Bench
/-!
# Lemmas: what the programs of `benches/` compute with sorted lists
-/
set_option linter.unusedSimpArgs false
namespace BST.Bench
variable {K V R α β σ : Type}
open Std
open Spec (Sorted)
open Prog (Does)
open Listed (val put erase val_put val_erase put_sorted erase_sorted mem_iff)

/-! ### `two_sum` -/

section
variable {keq : Int → Int → Bool} {veq : Nat → Nat → Bool}

theorem subI64_cases (cfg : Cfg) (a b : Int) :
    (∃ c, subI64 cfg a b = .ok c) ∨ subI64 cfg a b = .panic := by
  unfold subI64
  split
  · exact .inl ⟨_, rfl⟩
  · split
    · exact .inr rfl
    · exact .inl ⟨_, rfl⟩

/-- The pairs that the program finds. -/
def PairC (cfg : Cfg) (numbers : List Int) (target : Int) (i j : Nat) : Prop :=
  j < i ∧ ∃ a b, numbers[i]? = some a ∧ numbers[j]? = some b ∧ subI64 cfg target a = .ok b

theorem twoSumFrom_does (cfg : Cfg) (target : Int) (rest : List Int) (pre : List Int)
    (l : List (Int × Nat)) (hs : Sorted compare l)
    (h1 : ∀ x j, val compare l x = some j → pre[j]? = some x ∧ ∀ j', j < j' → pre[j']? ≠ some x)
    (h2 : ∀ x, val compare l x = none → x ∉ pre)
    (h3 : ∀ i j, PairC cfg (pre ++ rest) target i j → pre.length ≤ i) :
    ∃ o ls', (∀ keq veq, Does (Listed.maps compare keq veq)
        (twoSumFrom cfg 0 target pre.length rest) [l] rest.length o ls') ∧
      ((∃ i j, o = .ok (i, j) ∧ PairC cfg (pre ++ rest) target i j ∧
          ∀ i' j', PairC cfg (pre ++ rest) target i' j' → i < i' ∨ (i = i' ∧ j' ≤ j)) ∨
        (o = .panic ∧ ((∀ a ∈ rest, subI64 cfg target a ≠ .panic) →
          ∀ i j, ¬ PairC cfg (pre ++ rest) target i j))) := by
  induction rest generalizing pre l with
  | nil =>
    refine ⟨.panic, [l], fun keq veq => Does.panic _, .inr ⟨rfl, fun _ i j h => ?_⟩⟩
    have := h3 i j h
    obtain ⟨_, a, _, ha, _⟩ := h
    have := (List.getElem?_eq_some_iff.1 ha).1
    simp at this
    omega
  | cons a rest ih =>
    rcases subI64_cases cfg target a with ⟨c, hc⟩ | hc
    · cases hv : val compare l c with
      | some j =>
        refine ⟨.ok (pre.length, j), [l], fun keq veq => ?_, .inl ⟨pre.length, j, rfl, ?_, ?_⟩⟩
        · have := (lift_ok (A := Listed.maps compare keq veq) hc [l]).bind
            (f := fun complement => do
              match ← get 0 complement with
              | some j => pure (pre.length, j)
              | none => do
                let _ ← insert 0 a pre.length
                twoSumFrom cfg 0 target (pre.length + 1) rest)
            ((get_does (i := 0) (l := l) rfl c).bind
              (f := fun x => match x with
                | some j => pure (pre.length, j)
                | none => do
                  let _ ← insert 0 a pre.length
                  twoSumFrom cfg 0 target (pre.length + 1) rest)
              (d' := 0) (o := .ok (pre.length, j)) (ls'' := [l]) (by rw [hv]; exact Does.pure _ _))
          exact this.mono (Nat.zero_le _)
        · obtain ⟨h4, _⟩ := h1 c j hv
          have hj := (List.getElem?_eq_some_iff.1 h4).1
          refine ⟨hj, a, c, by simp, ?_, hc⟩
          rw [List.getElem?_append_left hj, h4]
        · intro i' j' hp
          have h5 := h3 i' j' hp
          by_cases h6 : pre.length < i'
          · exact .inl h6
          · have h7 : i' = pre.length := by omega
            subst h7
            refine .inr ⟨rfl, ?_⟩
            obtain ⟨h8, a', b', h9, h10, h11⟩ := hp
            have : a' = a := by simpa using h9.symm
            subst this
            rw [hc] at h11
            cases h11
            rw [List.getElem?_append_left h8] at h10
            refine Nat.le_of_not_lt fun hlt => ?_
            exact (h1 c j hv).2 j' hlt h10
      | none =>
        have hpre : (pre ++ [a]).length = pre.length + 1 := by simp
        have happ : pre ++ [a] ++ rest = pre ++ a :: rest := by simp
        obtain ⟨o, ls', h4, h5⟩ := ih (pre ++ [a]) (put compare a pre.length l) (put_sorted _ _ hs)
          (by
            intro x j hx
            rw [val_put _ _ hs] at hx
            split at hx
            · rename_i hxa
              cases hx
              subst hxa
              refine ⟨by simp, fun j' hj' => ?_⟩
              rw [List.getElem?_eq_none (by rw [hpre]; omega)]
              simp
            · rename_i hxa
              obtain ⟨h6, h7⟩ := h1 x j hx
              have hj := (List.getElem?_eq_some_iff.1 h6).1
              refine ⟨by rw [List.getElem?_append_left hj, h6], fun j' hj' => ?_⟩
              by_cases h8 : j' < pre.length
              · rw [List.getElem?_append_left h8]
                exact h7 j' hj'
              · intro h9
                have h10 := (List.getElem?_eq_some_iff.1 h9).1
                have h11 : j' = pre.length := by rw [hpre] at h10; omega
                subst h11
                simp at h9
                exact hxa h9.symm)
          (by
            intro x hx
            rw [val_put _ _ hs] at hx
            split at hx
            · cases hx
            · rename_i hxa
              simp [h2 x hx, hxa])
          (by
            intro i j hp
            rw [happ] at hp
            have h6 := h3 i j hp
            rw [hpre]
            refine Nat.lt_of_le_of_ne h6 fun h7 => ?_
            subst h7
            obtain ⟨h8, a', b', h9, h10, h11⟩ := hp
            have : a' = a := by simpa using h9.symm
            subst this
            rw [hc] at h11
            cases h11
            rw [List.getElem?_append_left h8] at h10
            exact h2 c hv (List.mem_of_getElem? h10))
        rw [hpre] at h4
        rw [happ] at h5
        refine ⟨o, ls', fun keq veq => ?_, ?_⟩
        · have := (lift_ok (A := Listed.maps compare keq veq) hc [l]).bind
            (f := fun complement => do
              match ← get 0 complement with
              | some j => pure (pre.length, j)
              | none => do
                let _ ← insert 0 a pre.length
                twoSumFrom cfg 0 target (pre.length + 1) rest)
            ((get_does (i := 0) (l := l) rfl c).bind
              (f := fun x => match x with
                | some j => pure (pre.length, j)
                | none => do
                  let _ ← insert 0 a pre.length
                  twoSumFrom cfg 0 target (pre.length + 1) rest)
              (d' := 1 + rest.length) (o := o) (ls'' := ls') (by
                rw [hv]
                exact (insert_does (i := 0) (l := l) rfl a pre.length).bind (h4 keq veq)))
          exact this.mono (by simp; omega)
        · rcases h5 with h5 | ⟨h5, h6⟩
          · exact .inl h5
          · exact .inr ⟨h5, fun h => h6 fun b hb => h b (by simp [hb])⟩
    · refine ⟨.panic, [l], fun keq veq => ?_, .inr ⟨rfl, fun h => absurd hc (h a (by simp))⟩⟩
      exact ((lift_panic (A := Listed.maps compare keq veq) hc [l]).bind_panic).mono (Nat.zero_le _)

theorem twoSum_does (cfg : Cfg) (target : Int) (numbers : List Int) :
    ∃ o ls', (∀ keq veq, Does (Listed.maps compare keq veq)
        (twoSum cfg numbers target) [] numbers.length o ls') ∧
      ((∃ i j, o = .ok (i, j) ∧ PairC cfg numbers target i j ∧
          ∀ i' j', PairC cfg numbers target i' j' → i < i' ∨ (i = i' ∧ j' ≤ j)) ∨
        (o = .panic ∧ ((∀ a ∈ numbers, subI64 cfg target a ≠ .panic) →
          ∀ i j, ¬ PairC cfg numbers target i j))) := by
  obtain ⟨o, ls', h1, h2⟩ := twoSumFrom_does cfg target numbers [] [] .nil
    (fun x j h => by cases h) (by simp) (by simp)
  refine ⟨o, ls', fun keq veq => ?_, h2⟩
  exact ((Does.make []).bind (h1 keq veq)).mono (by omega)

end

/-! ### `tabulate_requests` -/

section
variable {cmp : K → K → Ordering} {keq : K → K → Bool} {veq : Nat → Nat → Bool}

/-- The map has the counts `c`. -/
def Counts (cmp : K → K → Ordering) (l : List (K × Nat)) (c : K → Nat) : Prop :=
  Sorted cmp l ∧ ∀ k, val cmp l k = if c k = 0 then none else some (c k)

theorem incrementCounter_does [TransCmp cmp] [LawfulEqCmp cmp] [DecidableEq K] (cfg : Cfg)
    {ls : List (List (K × Nat))} {i : Nat} {l : List (K × Nat)} (hi : ls[i]? = some l) {c : K → Nat}
    (hc : Counts cmp l c) (k : K) (hk : c k + 1 < usizeBound) :
    ∃ l', Does (Listed.maps cmp keq veq) (incrementCounter cfg i k) ls 1 (.ok ()) (ls.set i l') ∧
      l' = put cmp k (c k + 1) l ∧ Counts cmp l' (fun k' => if k' = k then c k + 1 else c k') := by
  refine ⟨put cmp k (c k + 1) l, ?_, rfl, put_sorted _ _ hc.1, fun k' => ?_⟩
  · have hv := hc.2 k
    split at hv
    · rename_i h0
      rw [h0]
      have h1 := (insert_does (cmp := cmp) (keq := keq) (veq := veq) hi k 1).bind (f := fun _ => pure ()) (Does.pure () _)
      exact (modify_none (cmp := cmp) (keq := keq) (veq := veq) hi (inc cfg) hv).bind (f := fun x => match x with
        | some _ => pure ()
        | none => do let _ ← insert i k 1; pure ()) h1
    · have h1 : inc cfg (c k) = some (c k + 1) := by simp [inc, addU_ok cfg hk]
      have h2 := (modify_some (cmp := cmp) (keq := keq) (veq := veq) hi hv h1).bind (f := fun x => match x with
        | some _ => pure ()
        | none => do let _ ← insert i k 1; pure ())
        (d' := 0) (Does.pure () _)
      exact h2.mono (by omega)
  · rw [val_put _ _ hc.1, hc.2]
    by_cases h : k' = k <;> simp [h]

theorem tabulateFrom_does [TransCmp cmp] [LawfulEqCmp cmp] [DecidableEq K] (cfg : Cfg)
    (reqs : List (K × K)) {l1 l2 : List (K × Nat)} {c1 c2 : K → Nat}
    (h1 : Counts cmp l1 c1) (h2 : Counts cmp l2 c2)
    (hb1 : ∀ k, c1 k + reqs.length < usizeBound) (hb2 : ∀ k, c2 k + reqs.length < usizeBound) :
    ∃ l1' l2', (∀ keq veq, Does (Listed.maps cmp keq veq) (tabulateFrom cfg 0 1 reqs) [l1, l2]
        (2 * reqs.length) (.ok ()) [l1', l2']) ∧
      Counts cmp l1' (fun k => c1 k + (reqs.map (·.1)).count k) ∧
      Counts cmp l2' (fun k => c2 k + (reqs.map (·.2)).count k) := by
  induction reqs generalizing l1 l2 c1 c2 with
  | nil => exact ⟨l1, l2, fun keq veq => Does.pure _ _, by simpa using h1, by simpa using h2⟩
  | cons r reqs ih =>
    obtain ⟨t, g⟩ := r
    have e1 : c1 t + 1 < usizeBound := by have := hb1 t; simp at this; omega
    have e2 : c2 g + 1 < usizeBound := by have := hb2 g; simp at this; omega
    obtain ⟨m1, -, rfl, a2⟩ := incrementCounter_does (keq := fun _ _ => true) (veq := fun _ _ => true)
      cfg (ls := [l1, l2]) (i := 0) rfl h1 t e1
    obtain ⟨m2, -, rfl, b2⟩ := incrementCounter_does (keq := fun _ _ => true) (veq := fun _ _ => true)
      cfg (ls := [put cmp t (c1 t + 1) l1, l2]) (i := 1) rfl h2 g e2
    obtain ⟨l1', l2', d1, d2, d3⟩ := ih a2 b2
      (by
        intro k
        have := hb1 k
        have := hb1 t
        simp only [List.length_cons] at *
        split <;> omega)
      (by
        intro k
        have := hb2 k
        have := hb2 g
        simp only [List.length_cons] at *
        split <;> omega)
    refine ⟨l1', l2', fun keq veq => ?_, ?_, ?_⟩
    · obtain ⟨_, a1, rfl, _⟩ := incrementCounter_does (keq := keq) (veq := veq)
        cfg (ls := [l1, l2]) (i := 0) rfl h1 t e1
      obtain ⟨_, b1, rfl, _⟩ := incrementCounter_does (keq := keq) (veq := veq)
        cfg (ls := [put cmp t (c1 t + 1) l1, l2]) (i := 1) rfl h2 g e2
      exact (a1.bind (b1.bind (d1 keq veq))).mono (by simp; omega)
    · refine ⟨d2.1, fun k => ?_⟩
      rw [d2.2 k]
      have : (if k = t then c1 t + 1 else c1 k) + List.count k (List.map (fun x => x.1) reqs) =
          c1 k + List.count k (List.map (fun x => x.1) ((t, g) :: reqs)) := by
        rw [List.map_cons, List.count_cons]
        by_cases h : k = t
        · subst h; simp; omega
        · have : (t == k) = false := by simpa using fun h' => h h'.symm
          simp [h, this]
      simp only [this]
    · refine ⟨d3.1, fun k => ?_⟩
      rw [d3.2 k]
      have : (if k = g then c2 g + 1 else c2 k) + List.count k (List.map (fun x => x.2) reqs) =
          c2 k + List.count k (List.map (fun x => x.2) ((t, g) :: reqs)) := by
        rw [List.map_cons, List.count_cons]
        by_cases h : k = g
        · subst h; simp; omega
        · have : (g == k) = false := by simpa using fun h' => h h'.symm
          simp [h, this]
      simp only [this]

theorem tabulateRequests_does [TransCmp cmp] [LawfulEqCmp cmp] [DecidableEq K] (cfg : Cfg)
    (reqs : List (K × K)) (hb : reqs.length < usizeBound) :
    ∃ l1 l2, (∀ keq veq, Does (Listed.maps cmp keq veq) (tabulateRequests cfg reqs) []
        (2 * reqs.length) (.ok (0, 1)) [l1, l2]) ∧
      Counts cmp l1 (fun k => (reqs.map (·.1)).count k) ∧
      Counts cmp l2 (fun k => (reqs.map (·.2)).count k) := by
  have h0 : Counts cmp ([] : List (K × Nat)) (fun _ => 0) := ⟨.nil, fun k => rfl⟩
  obtain ⟨l1, l2, h1, h2, h3⟩ := tabulateFrom_does cfg reqs h0 h0 (by simpa using fun _ => hb) (by simpa using fun _ => hb)
  refine ⟨l1, l2, fun keq veq => ?_, by simpa using h2, by simpa using h3⟩
  have h4 := (h1 keq veq).bind (f := fun _ => pure (0, 1)) (Does.pure _ _)
  have h5 := (Does.make []).bind (f := fun titles => do
      let genres ← .make
      tabulateFrom cfg titles genres reqs
      pure (titles, genres))
    ((Does.make [[]]).bind (f := fun genres => do
      tabulateFrom cfg 0 genres reqs
      pure (0, genres)) h4)
  exact h5.mono (by omega)

end

/-! ### `resolve_program` -/

section
variable {cmp : K → K → Ordering} {keq : K → K → Bool} {veq : Nat → Nat → Bool}

/-- What a name is bound to in a stack of scopes. -/
def through (cmp : K → K → Ordering) (ls : List (List (K × Nat))) (name : K) : List Nat → Option Nat
  | [] => none
  | i :: is => (val cmp (ls[i]?.getD []) name).or (through cmp ls name is)

/-- The stack of scopes `scopes` holds the declarations `seen`. -/
structure InSight [BEq K] (cmp : K → K → Ordering) (ls : List (List (K × Nat))) (scopes : List Nat)
    (seen : List (K × Nat)) : Prop where
  nodup : scopes.Nodup
  maps : ∀ i ∈ scopes, ∃ l, ls[i]? = some l ∧ Sorted cmp l
  names : ∀ name, through cmp ls name scopes = seen.lookup name

theorem through_congr {ls ls' : List (List (K × Nat))} {name : K} {scopes : List Nat}
    (h : ∀ i ∈ scopes, ls'[i]? = ls[i]?) : through cmp ls' name scopes = through cmp ls name scopes := by
  induction scopes with
  | nil => rfl
  | cons i is ih =>
    simp only [through]
    rw [h i (by simp), ih fun i hi => h i (by simp [hi])]

theorem InSight.congr [BEq K] {ls ls' : List (List (K × Nat))} {scopes : List Nat}
    {seen : List (K × Nat)} (h : InSight cmp ls scopes seen) (he : ∀ i ∈ scopes, ls'[i]? = ls[i]?) :
    InSight cmp ls' scopes seen :=
  ⟨h.nodup, fun i hi => by rw [he i hi]; exact h.maps i hi,
    fun name => by rw [through_congr he]; exact h.names name⟩

/-- The counters after the calls with the verdicts `vs`. -/
def Counters.plus (c : Counters) (vs : List (Option Bool)) : Counters :=
  ⟨c.validCalls + vs.count (some true), c.unresolved + vs.count none,
    c.incorrectNumArgs + vs.count (some false)⟩

/-- The number of calls counted. -/
def Counters.total (c : Counters) : Nat := c.validCalls + c.unresolved + c.incorrectNumArgs

theorem Counters.plus_append (c : Counters) (a b : List (Option Bool)) :
    c.plus (a ++ b) = (c.plus a).plus b := by
  simp [Counters.plus, List.count_append, Nat.add_assoc]

theorem Counters.plus_nil (c : Counters) : c.plus [] = c := rfl

theorem Counters.total_plus (c : Counters) (vs : List (Option Bool)) :
    (c.plus vs).total = c.total + vs.length := by
  induction vs generalizing c with
  | nil => rfl
  | cons v vs ih =>
    have h : c.plus (v :: vs) = (c.plus [v]).plus vs := c.plus_append [v] vs
    rw [h, ih, List.length_cons]
    have : (c.plus [v]).total = c.total + 1 := by
      rcases v with _ | _ | _ <;> simp [Counters.plus, Counters.total] <;> omega
    omega

theorem resolveCall_does [BEq K] (cfg : Cfg) (name : K) (args : Nat) (c : Counters)
    (hc : c.total + 1 < usizeBound) (ls : List (List (K × Nat))) (scopes : List Nat)
    (hm : ∀ i ∈ scopes, ∃ l, ls[i]? = some l) :
    Does (Listed.maps cmp keq veq) (resolveCall cfg name args c scopes) ls 0
      (.ok (c.plus [(through cmp ls name scopes).map (· == args)])) ls := by
  simp only [Counters.total] at hc
  induction scopes with
  | nil =>
    exact (lift_ok (A := Listed.maps cmp keq veq) (addU_ok cfg (n := c.unresolved) (by omega)) ls).bind
      (f := fun n => pure { c with unresolved := n }) (Does.pure _ _)
  | cons i is ih =>
    obtain ⟨l, hl⟩ := hm i (by simp)
    have ih := ih fun i hi => hm i (by simp [hi])
    refine (get_does (cmp := cmp) (keq := keq) (veq := veq) hl name).bind (f := fun x => match x with
      | some params =>
        if args = params then do
          let n ← lift (addU cfg c.validCalls 1)
          pure { c with validCalls := n }
        else do
          let n ← lift (addU cfg c.incorrectNumArgs 1)
          pure { c with incorrectNumArgs := n }
      | none => resolveCall cfg name args c is) (d' := 0) ?_
    simp only [through, hl, Option.getD_some]
    cases hv : val cmp l name with
    | none => simpa using ih
    | some params =>
      by_cases h : args = params
      · subst h
        have := (lift_ok (A := Listed.maps cmp keq veq)
          (addU_ok cfg (n := c.validCalls) (by omega)) ls).bind
          (f := fun n => pure { c with validCalls := n }) (Does.pure _ _)
        simpa [Counters.plus] using this
      · have h' : (params == args) = false := by simpa using fun h' => h h'.symm
        have := (lift_ok (A := Listed.maps cmp keq veq)
          (addU_ok cfg (n := c.incorrectNumArgs) (by omega)) ls).bind
          (f := fun n => pure { c with incorrectNumArgs := n }) (Does.pure _ _)
        simpa [Counters.plus, h, h'] using this

/-- What holds after a statement or several: the scopes below the top one are as before. -/
def Kept (ls ls' : List (List (K × Nat))) (top : Nat) : Prop :=
  ls.length ≤ ls'.length ∧ ∀ (i : Nat), i < ls.length → i ≠ top → ls'[i]? = ls[i]?

theorem InSight.lt [BEq K] {ls : List (List (K × Nat))} {scopes : List Nat} {seen : List (K × Nat)}
    (h : InSight cmp ls scopes seen) {i : Nat} (hi : i ∈ scopes) : i < ls.length := by
  obtain ⟨l, hl, _⟩ := h.maps i hi
  exact (List.getElem?_eq_some_iff.1 hl).1

theorem InSight.push [BEq K] {ls : List (List (K × Nat))} {scopes : List Nat} {seen : List (K × Nat)}
    (h : InSight cmp ls scopes seen) : InSight cmp (ls ++ [[]]) (ls.length :: scopes) seen := by
  have hk : ∀ i ∈ scopes, (ls ++ [[]])[i]? = ls[i]? := fun i hi => by
    rw [List.getElem?_append_left (h.lt hi)]
  refine ⟨List.nodup_cons.2 ⟨fun hi => Nat.lt_irrefl _ (h.lt hi), h.nodup⟩, fun i hi => ?_,
    fun name => ?_⟩
  · rcases List.mem_cons.1 hi with rfl | hi
    · exact ⟨[], by simp, .nil⟩
    · rw [hk i hi]; exact h.maps i hi
  · simp only [through]
    rw [through_congr hk, h.names]
    simp [Listed.val_nil]

theorem InSight.declare [TransCmp cmp] [LawfulEqCmp cmp] [DecidableEq K] {ls : List (List (K × Nat))}
    {top : Nat} {scopes : List Nat} {seen : List (K × Nat)} (h : InSight cmp ls (top :: scopes) seen)
    {l : List (K × Nat)} (hl : ls[top]? = some l) (name : K) (params : Nat) :
    InSight cmp (ls.set top (put cmp name params l)) (top :: scopes) ((name, params) :: seen) := by
  have hs : Sorted cmp l := by
    obtain ⟨l', h1, h2⟩ := h.maps top (by simp)
    rw [hl] at h1; cases h1; exact h2
  have hlt := h.lt (i := top) (by simp)
  have hnd := List.nodup_cons.1 h.nodup
  have hk : ∀ i ∈ scopes, (ls.set top (put cmp name params l))[i]? = ls[i]? := fun i hi => by
    rw [List.getElem?_set_ne (by rintro rfl; exact hnd.1 hi)]
  have ht : (ls.set top (put cmp name params l))[top]? = some (put cmp name params l) := by
    rw [List.getElem?_set_self hlt]
  refine ⟨h.nodup, fun i hi => ?_, fun n => ?_⟩
  · rcases List.mem_cons.1 hi with rfl | hi
    · exact ⟨_, ht, put_sorted _ _ hs⟩
    · rw [hk i hi]; exact h.maps i (by simp [hi])
  · have h1 := h.names n
    simp only [through, hl, Option.getD_some] at h1
    simp only [through, ht, Option.getD_some, val_put _ _ hs, List.lookup_cons]
    rw [through_congr hk]
    by_cases hn : n = name
    · subst hn; simp
    · have : (n == name) = false := by simpa using hn
      simp [hn, this, h1]

mutual
theorem resolveStmt_does [TransCmp cmp] [LawfulEqCmp cmp] [DecidableEq K] (cfg : Cfg) (stmt : Stmt K)
    (ls : List (List (K × Nat))) (top : Nat) (scopes : List Nat) (seen : List (K × Nat)) (c : Counters)
    (h : InSight cmp ls (top :: scopes) seen)
    (hc : c.total + (stmt.verdict seen).length < usizeBound) :
    ∃ ls', (∀ keq veq, Does (Listed.maps cmp keq veq) (resolveStmt cfg (top :: scopes) c stmt) ls
        stmt.decls (.ok (c.plus (stmt.verdict seen))) ls') ∧
      InSight cmp ls' (top :: scopes) (stmt.after seen) ∧ Kept ls ls' top := by
  match stmt with
  | .funcDecl name params =>
    obtain ⟨l, hl, _⟩ := h.maps top (by simp)
    refine ⟨_, fun keq veq => ?_, h.declare hl name params, by simp, fun i hi hne => ?_⟩
    · simp only [resolveStmt, Stmt.decls, Stmt.verdict, Counters.plus_nil]
      exact (insert_does (cmp := cmp) (keq := keq) (veq := veq) hl name params).bind
        (f := fun _ => pure c) (Does.pure c _)
    · rw [List.getElem?_set_ne (Ne.symm hne)]
  | .call name args =>
    refine ⟨ls, fun keq veq => ?_, h, Nat.le_refl _, fun i _ _ => rfl⟩
    simp only [resolveStmt, Stmt.decls, Stmt.verdict, ← h.names name]
    exact resolveCall_does cfg name args c (by simpa [Stmt.verdict] using hc) ls _
      fun i hi => (h.maps i hi).imp fun l hl => hl.1
  | .block stmts =>
    obtain ⟨ls', h1, _, h3, h4⟩ := resolveStmts_does cfg stmts (ls ++ [[]]) ls.length (top :: scopes)
      seen c h.push (by simpa [Stmt.verdict] using hc)
    have hlen : ls.length ≤ ls'.length := Nat.le_trans (by simp) h3
    have hk : ∀ i, i < ls.length → ls'[i]? = ls[i]? := fun i hi => by
      rw [h4 i (by simp; omega) (by omega), List.getElem?_append_left hi]
    refine ⟨ls', fun keq veq => ?_, h.congr fun i hi => hk i (h.lt hi), hlen, fun i hi _ => hk i hi⟩
    simp only [resolveStmt, Stmt.decls, Stmt.verdict]
    exact ((Does.make ls).bind (h1 keq veq)).mono (by omega)

theorem resolveStmts_does [TransCmp cmp] [LawfulEqCmp cmp] [DecidableEq K] (cfg : Cfg)
    (stmts : List (Stmt K))
    (ls : List (List (K × Nat))) (top : Nat) (scopes : List Nat) (seen : List (K × Nat)) (c : Counters)
    (h : InSight cmp ls (top :: scopes) seen)
    (hc : c.total + (verdicts seen stmts).length < usizeBound) :
    ∃ ls', (∀ keq veq, Does (Listed.maps cmp keq veq) (resolveStmts cfg (top :: scopes) c stmts) ls
        (decls stmts) (.ok (c.plus (verdicts seen stmts))) ls') ∧
      (∃ seen', InSight cmp ls' (top :: scopes) seen') ∧ Kept ls ls' top := by
  match stmts with
  | [] =>
    refine ⟨ls, fun keq veq => ?_, ⟨_, h⟩, Nat.le_refl _, fun i _ _ => rfl⟩
    simp only [resolveStmts, decls, verdicts, Counters.plus_nil]
    exact Does.pure _ _
  | stmt :: stmts =>
    simp only [verdicts, List.length_append] at hc
    obtain ⟨ls1, h1, h2, h3⟩ := resolveStmt_does cfg stmt ls top scopes seen c h (by omega)
    obtain ⟨ls2, h4, h5, h6⟩ := resolveStmts_does cfg stmts ls1 top scopes (stmt.after seen)
      (c.plus (stmt.verdict seen)) h2 (by rw [Counters.total_plus]; omega)
    refine ⟨ls2, fun keq veq => ?_, h5, Nat.le_trans h3.1 h6.1, fun i hi hne => ?_⟩
    · simp only [resolveStmts, decls, verdicts, Counters.plus_append]
      exact (h1 keq veq).bind (h4 keq veq)
    · rw [h6.2 i (Nat.lt_of_lt_of_le hi h3.1) hne, h3.2 i hi hne]
end

theorem resolveProgram_does [TransCmp cmp] [LawfulEqCmp cmp] [DecidableEq K] (cfg : Cfg)
    (program : List (Stmt K)) (hc : (verdicts [] program).length < usizeBound) :
    ∃ ls, (∀ keq veq, Does (Listed.maps cmp keq veq) (resolveProgram cfg program) []
        (decls program) (.ok ((⟨0, 0, 0⟩ : Counters).plus (verdicts [] program))) ls) := by
  have h0 : InSight cmp ([] : List (List (K × Nat))) [] [] :=
    ⟨List.nodup_nil, by simp, fun _ => rfl⟩
  obtain ⟨ls, h1, _⟩ := resolveStmts_does (cmp := cmp) cfg program [[]] 0 [] [] ⟨0, 0, 0⟩ h0.push
    (by simpa [Counters.total] using hc)
  refine ⟨ls, fun keq veq => ?_⟩
  simp only [resolveProgram, resolveStmt]
  exact ((Does.make []).bind (h1 keq veq)).mono (by omega)

end

/-! ### The server -/

section
variable {keq : Nat → Nat → Bool} {veq : Entry → Entry → Bool}

theorem handle_does (req : Request) {l : List (Nat × Entry)} (hs : Sorted compare l) :
    ∃ l', (∀ keq veq, Does (Listed.maps compare keq veq) (handle 0 req) [l] 1
        (.ok (respond (val compare l) req).1) [l']) ∧
      Sorted compare l' ∧ val compare l' = (respond (val compare l) req).2 := by
  cases req with
  | create id entry =>
    cases hv : val compare l id with
    | some e =>
      refine ⟨l, fun keq veq => ?_, hs, by simp [respond, hv]⟩
      refine Does.mono ((containsKey_does (cmp := compare) (keq := keq) (veq := veq) (ls := [l]) (i := 0)
        (l := l) rfl id).bind (d' := 0) ?_) (by omega)
      simp only [hv, respond]
      exact Does.pure _ _
    | none =>
      refine ⟨put compare id entry l, fun keq veq => ?_, put_sorted _ _ hs, ?_⟩
      · refine Does.mono ((containsKey_does (cmp := compare) (keq := keq) (veq := veq) (ls := [l])
          (i := 0) (l := l) rfl id).bind (d' := 1) ?_) (by omega)
        simp only [hv, respond]
        exact (insert_does (cmp := compare) (keq := keq) (veq := veq) (ls := [l]) (i := 0) (l := l) rfl id
          entry).bind (f := fun _ => pure (Except.ok (Response.created id))) (Does.pure _ _)
      · funext i; rw [val_put _ _ hs]; simp [respond, hv]
  | get id field =>
    refine ⟨l, fun keq veq => ?_, hs, by simp only [respond]; split <;> rfl⟩
    refine Does.mono ((get_does (cmp := compare) (keq := keq) (veq := veq) (ls := [l]) (i := 0)
      (l := l) rfl id).bind (d' := 0) ?_) (by omega)
    cases hv : val compare l id with
    | none => simp only [hv, respond]; exact Does.pure _ _
    | some e => simp only [hv, respond]; cases field <;> exact Does.pure _ _
  | update id field =>
    cases hv : val compare l id with
    | none =>
      refine ⟨l, fun keq veq => ?_, hs, by simp [respond, hv]⟩
      refine Does.mono ((modify_none (cmp := compare) (keq := keq) (veq := veq) (ls := [l]) (i := 0)
        (l := l) rfl _ hv).bind (d' := 0) ?_) (by omega)
      simp only [hv, respond]
      exact Does.pure _ _
    | some e =>
      refine ⟨put compare id (e.write field) l, fun keq veq => ?_, put_sorted _ _ hs, ?_⟩
      · refine Does.mono ((modify_some (cmp := compare) (keq := keq) (veq := veq) (ls := [l]) (i := 0)
          (l := l) rfl (f := fun entry => some (entry.write field)) hv rfl).bind (d' := 0) ?_) (by omega)
        simp only [hv, respond]
        exact Does.pure _ _
      · funext i; rw [val_put _ _ hs]; cases field <;> simp [respond, hv, Entry.write]
  | delete id =>
    refine ⟨erase compare id l, fun keq veq => ?_, erase_sorted _ hs, ?_⟩
    · refine Does.mono ((remove_does (cmp := compare) (keq := keq) (veq := veq) (ls := [l]) (i := 0)
        (l := l) rfl id).bind (d' := 0) ?_) (by omega)
      cases hv : val compare l id with
      | none => simp only [hv, respond]; exact Does.pure _ _
      | some e => simp only [hv, respond]; exact Does.pure _ _
    · funext i
      rw [val_erase]
      cases hv : val compare l id with
      | none =>
        simp only [respond, hv]
        split
        · rename_i h; rw [h, hv]
        · rfl
      | some e => simp [respond, hv]

/-- The counters after these responses. -/
def Tally.plus (t : Tally) (rs : List (Except Err Response)) : Tally :=
  ⟨t.successes + rs.countP isSuccess,
    t.notFound + rs.countP isNotFound,
    t.badRequests + rs.countP isBadRequest⟩

theorem runFrom_does (cfg : Cfg) (reqs : List Request) {l : List (Nat × Entry)} (hs : Sorted compare l)
    (t : Tally) (ht : t.successes + t.notFound + t.badRequests + reqs.length < usizeBound) :
    ∃ l', (∀ keq veq, Does (Listed.maps compare keq veq) (runFrom cfg 0 t reqs) [l] reqs.length
        (.ok ((serve (val compare l) reqs).1, t.plus (serve (val compare l) reqs).1)) [l']) ∧
      Sorted compare l' ∧ val compare l' = (serve (val compare l) reqs).2 := by
  induction reqs generalizing l t with
  | nil => exact ⟨l, fun keq veq => Does.pure _ _, hs, rfl⟩
  | cons req reqs ih =>
    obtain ⟨l1, h1, h2, h3⟩ := handle_does req hs
    simp only [List.length_cons] at ht
    have key : ∃ t1 : Tally, (∀ keq veq, Does (Listed.maps compare keq veq)
        (t.count cfg (respond (val compare l) req).1) [l1] 0 (.ok t1) [l1]) ∧
        t1.successes + t1.notFound + t1.badRequests = t.successes + t.notFound + t.badRequests + 1 ∧
        ∀ rs, t1.plus rs = t.plus ((respond (val compare l) req).1 :: rs) := by
      rcases (respond (val compare l) req).1 with (_ | _) | _
      · refine ⟨{ t with notFound := t.notFound + 1 }, fun keq veq => ?_, by simp; omega, fun rs => ?_⟩
        · exact (lift_ok (addU_ok cfg (n := t.notFound) (by omega)) [l1]).bind
            (f := fun n => pure { t with notFound := n }) (Does.pure _ _)
        · simp [Tally.plus, List.countP_cons, isSuccess, isNotFound, isBadRequest]; omega
      · refine ⟨{ t with badRequests := t.badRequests + 1 }, fun keq veq => ?_, by simp; omega, fun rs => ?_⟩
        · exact (lift_ok (addU_ok cfg (n := t.badRequests) (by omega)) [l1]).bind
            (f := fun n => pure { t with badRequests := n }) (Does.pure _ _)
        · simp [Tally.plus, List.countP_cons, isSuccess, isNotFound, isBadRequest]; omega
      · refine ⟨{ t with successes := t.successes + 1 }, fun keq veq => ?_, by simp; omega, fun rs => ?_⟩
        · exact (lift_ok (addU_ok cfg (n := t.successes) (by omega)) [l1]).bind
            (f := fun n => pure { t with successes := n }) (Does.pure _ _)
        · simp [Tally.plus, List.countP_cons, isSuccess, isNotFound, isBadRequest]; omega
    obtain ⟨t1, k1, k2, k3⟩ := key
    obtain ⟨l2, h4, h5, h6⟩ := ih h2 t1 (by omega)
    rw [h3] at h4 h6
    refine ⟨l2, fun keq veq => ?_, h5, h6⟩
    rw [k3] at h4
    have h7 := (h1 keq veq).bind (f := fun r => do
      let t ← t.count cfg r
      let x ← runFrom cfg 0 t reqs
      pure (r :: x.1, x.2)) ((k1 keq veq).bind (f := fun t => do
      let x ← runFrom cfg 0 t reqs
      pure ((respond (val compare l) req).1 :: x.1, x.2)) ((h4 keq veq).bind (f := fun x =>
        pure ((respond (val compare l) req).1 :: x.1, x.2)) (Does.pure _ _)))
    exact h7.mono (by simp; omega)

theorem runRequests_does (cfg : Cfg) (reqs : List Request) (hb : reqs.length < usizeBound) :
    ∃ l, (∀ keq veq, Does (Listed.maps compare keq veq) (runRequests cfg reqs) [] reqs.length
        (.ok ((serve (fun _ => none) reqs).1,
          (⟨0, 0, 0⟩ : Tally).plus (serve (fun _ => none) reqs).1)) [l]) ∧
      Sorted compare l ∧ val compare l = (serve (fun _ => none) reqs).2 := by
  obtain ⟨l, h1, h2, h3⟩ := runFrom_does cfg reqs (l := []) .nil ⟨0, 0, 0⟩ (by simpa using hb)
  have h0 : val compare ([] : List (Nat × Entry)) = fun _ => none := rfl
  rw [h0] at h1 h3
  exact ⟨l, fun keq veq => ((Does.make []).bind (h1 keq veq)).mono (by omega), h2, h3⟩

end

/-! ### The comparison of maps -/

section
variable {keq : Int → Int → Bool} {veq : Nat → Nat → Bool}

theorem each_does {A : Maps K V σ} {f : Nat → Prog K V β} {g : Nat → β} {d : Nat}
    {Inv : Nat → List σ → Prop} (m s : Nat)
    (hf : ∀ i ls, i < s + m → Inv i ls → ∃ ls', Does A (f i) ls d (.ok (g i)) ls' ∧ Inv (i + 1) ls')
    {ls : List σ} (h : Inv s ls) :
    ∃ ls', Does A (each f (List.range' s m)) ls (m * d) (.ok ((List.range' s m).map g)) ls' ∧
      Inv (s + m) ls' := by
  induction m generalizing s ls with
  | zero => exact ⟨ls, (Does.pure _ _).mono (Nat.zero_le _), h⟩
  | succ m ih =>
    obtain ⟨ls1, h1, h2⟩ := hf s ls (by omega) h
    obtain ⟨ls2, h3, h4⟩ := ih (s + 1) (fun i ls hi => hf i ls (by omega)) h2
    refine ⟨ls2, ?_, by rwa [Nat.add_assoc, Nat.add_comm 1 m] at h4⟩
    have := h1.bind (f := fun b => do
      let bs ← each f (List.range' (s + 1) m)
      pure (b :: bs)) (h3.bind (Does.pure _ _))
    exact this.mono (by rw [Nat.succ_mul]; omega)

theorem keyAt_does {A : Maps Int Nat σ} {keys : List Int} {i : Nat} {k : Int} (h : keys[i]? = some k)
    (ls : List σ) : Does A (keyAt keys (i : Int)) ls 0 (.ok k) ls := by
  have : (max (i : Int) 0).toNat = i := by omega
  unfold keyAt
  rw [this, h]
  exact Does.pure _ _

/-- The map has the first `n` keys, with their positions. -/
def Holds (keys : List Int) (n : Nat) (ls : List (List (Int × Nat))) : Prop :=
  ∃ l, ls = [l] ∧ Sorted compare l ∧ ∀ k j, val compare l k = some j ↔ j < n ∧ keys[j]? = some k

theorem nodup_at {keys : List Int} (hk : keys.Nodup) {i j : Nat} {k : Int} (h : keys[i]? = some k)
    (h' : keys[j]? = some k) : i = j := by
  obtain ⟨h1, h2⟩ := List.getElem?_eq_some_iff.1 h
  obtain ⟨h3, h4⟩ := List.getElem?_eq_some_iff.1 h'
  rcases Nat.lt_trichotomy i j with h5 | h5 | h5
  · exact absurd (h2.trans h4.symm) (List.pairwise_iff_getElem.1 hk i j h1 h3 h5)
  · exact h5
  · exact absurd (h4.trans h2.symm) (List.pairwise_iff_getElem.1 hk j i h3 h1 h5)

theorem inserts_does {keys : List Int} (hk : keys.Nodup) {n : Nat} (hn : n ≤ keys.length)
    (keq : Int → Int → Bool) (veq : Nat → Nat → Bool) :
    ∃ ls, Does (Listed.maps compare keq veq) (inserts keys 0 n) [[]] n
      (.ok (List.replicate n none)) ls ∧ Holds keys n ls := by
  have hkey : ∀ i, i < n → ∃ k, keys[i]? = some k := fun i hi =>
    ⟨_, List.getElem?_eq_getElem (by omega)⟩
  obtain ⟨ls, a1, a2⟩ := each_does (A := Listed.maps compare keq veq)
    (f := fun i : Nat => do let k ← keyAt keys (i : Int); insert 0 k i) (g := fun _ => none) (d := 1)
    (Inv := Holds keys) n 0
    (by
      rintro i _ hi ⟨l, rfl, h1, h2⟩
      obtain ⟨k, hk'⟩ := hkey i (by omega)
      have hv : val compare l k = none := by
        cases hv : val compare l k with
        | none => rfl
        | some j =>
          obtain ⟨h3, h4⟩ := (h2 k j).1 hv
          have := nodup_at hk hk' h4
          omega
      have h3 := (keyAt_does (A := Listed.maps compare keq veq) hk' [l]).bind (f := fun k => insert 0 k i)
        (insert_does (ls := [l]) (i := 0) (l := l) rfl k i)
      rw [hv] at h3
      refine ⟨_, h3.mono (by omega), _, rfl, put_sorted _ _ h1, fun k' j => ?_⟩
      rw [val_put _ _ h1]
      split
      · rename_i he
        subst he
        constructor
        · intro he; cases he; exact ⟨by omega, hk'⟩
        · rintro ⟨_, h5⟩; rw [nodup_at hk hk' h5]
      · rename_i he
        rw [h2]
        constructor
        · rintro ⟨h5, h6⟩; exact ⟨by omega, h6⟩
        · rintro ⟨h5, h6⟩
          refine ⟨?_, h6⟩
          have : j ≠ i := by
            rintro rfl
            rw [hk'] at h6
            cases h6
            exact he rfl
          omega)
    (ls := [[]]) ⟨[], rfl, .nil, by simp [Listed.val_nil]⟩
  rw [← List.range_eq_range'] at a1
  have e1 : (List.range n).map (fun _ => (none : Option Nat)) = List.replicate n none := by
    rw [List.map_const']; simp
  rw [e1] at a1
  exact ⟨ls, a1.mono (by omega), by simpa using a2⟩

theorem gets_does {keys : List Int} {n : Nat} (hn : n ≤ keys.length)
    (keq : Int → Int → Bool) (veq : Nat → Nat → Bool) {ls : List (List (Int × Nat))} (h : Holds keys n ls) :
    ∃ ls', Does (Listed.maps compare keq veq) (gets keys 0 n) ls 0
      (.ok ((List.range n).map (fun i => (some (n - i - 1), some (n - i - 1))))) ls' ∧ Holds keys n ls' := by
  have hkey : ∀ i, i < n → ∃ k, keys[i]? = some k := fun i hi =>
    ⟨_, List.getElem?_eq_getElem (by omega)⟩
  obtain ⟨ls', b1, b2⟩ := each_does (A := Listed.maps compare keq veq)
    (f := fun i : Nat => do
      let k ← keyAt keys ((n - i - 1 : Nat) : Int)
      let a ← get 0 k
      let b ← modify 0 k some
      pure (a, b)) (g := fun i => (some (n - i - 1), some (n - i - 1))) (d := 0)
    (Inv := fun _ => Holds keys n) n 0
    (by
      rintro i _ hi ⟨l, rfl, h1, h2⟩
      obtain ⟨k, hk'⟩ := hkey (n - i - 1) (by omega)
      have hv := (h2 k _).2 ⟨by omega, hk'⟩
      have h4 := (get_does (keq := keq) (veq := veq) (cmp := compare) (ls := [l]) (i := 0) (l := l) rfl k)
      rw [hv] at h4
      have h3 := (keyAt_does (A := Listed.maps compare keq veq) hk' [l]).bind (f := fun k => do
          let a ← get 0 k
          let b ← modify 0 k some
          pure (a, b))
        (h4.bind (f := fun a => do
          let b ← modify 0 k some
          pure (a, b))
        ((modify_some (ls := [l]) (i := 0) (l := l) rfl (f := some) hv rfl).bind (Does.pure _ _)))
      refine ⟨_, h3.mono (by omega), _, rfl, put_sorted _ _ h1, fun k' j => ?_⟩
      rw [val_put _ _ h1]
      split
      · rename_i he
        subst he
        rw [← hv, h2]
      · exact h2 k' j)
    (ls := ls) h
  rw [← List.range_eq_range'] at b1
  exact ⟨ls', b1, b2⟩

theorem removes_does {keys : List Int} (hk : keys.Nodup) {n : Nat} (hn : n ≤ keys.length)
    (keq : Int → Int → Bool) (veq : Nat → Nat → Bool) {ls : List (List (Int × Nat))} (h : Holds keys n ls) :
    Does (Listed.maps compare keq veq) (removes keys 0 n) ls 0
      (.ok ((List.range n).map (fun i => (some (n - i - 1), none)))) [[]] := by
  have hkey : ∀ i, i < n → ∃ k, keys[i]? = some k := fun i hi =>
    ⟨_, List.getElem?_eq_getElem (by omega)⟩
  obtain ⟨ls3, c1, c2⟩ := each_does (A := Listed.maps compare keq veq)
    (f := fun i : Nat => do
      let k ← keyAt keys ((n - i - 1 : Nat) : Int)
      let a ← remove 0 k
      let b ← remove 0 k
      pure (a, b)) (g := fun i => (some (n - i - 1), none)) (d := 0)
    (Inv := fun i => Holds keys (n - i)) n 0
    (by
      rintro i _ hi ⟨l, rfl, h1, h2⟩
      obtain ⟨k, hk'⟩ := hkey (n - i - 1) (by omega)
      have hv := (h2 k (n - i - 1)).2 ⟨by omega, hk'⟩
      have h4 := (remove_does (keq := keq) (veq := veq) (cmp := compare) (ls := [l]) (i := 0) (l := l) rfl k)
      rw [hv] at h4
      have h5 := (remove_does (keq := keq) (veq := veq) (cmp := compare) (ls := [erase compare k l])
        (i := 0) (l := erase compare k l) rfl k)
      rw [val_erase, if_pos rfl] at h5
      have h3 := (keyAt_does (A := Listed.maps compare keq veq) hk' [l]).bind (f := fun k => do
          let a ← remove 0 k
          let b ← remove 0 k
          pure (a, b))
        (h4.bind (f := fun a => do
          let b ← remove 0 k
          pure (a, b)) (h5.bind (Does.pure _ _)))
      refine ⟨_, h3.mono (by omega), _, rfl, erase_sorted _ (erase_sorted _ h1), fun k' j => ?_⟩
      rw [val_erase, val_erase]
      split
      · rename_i he
        subst he
        constructor
        · intro h; cases h
        · rintro ⟨h6, h7⟩
          have := nodup_at hk hk' h7
          omega
      · rename_i he
        rw [h2]
        constructor
        · rintro ⟨h6, h7⟩
          refine ⟨?_, h7⟩
          have : j ≠ n - i - 1 := by
            rintro rfl
            rw [hk'] at h7
            cases h7
            exact he rfl
          omega
        · rintro ⟨h6, h7⟩; exact ⟨by omega, h7⟩)
    (ls := ls) h
  obtain ⟨l, rfl, h1, h2⟩ := c2
  have hl : l = [] := Listed.eq_nil h1 fun k => by
    cases hv : val compare l k with
    | none => rfl
    | some j =>
      have := ((h2 k j).1 hv).1
      omega
  subst hl
  rw [← List.range_eq_range'] at c1
  exact c1

theorem removes_nothing {keys : List Int} {n : Nat} (hn : n ≤ keys.length)
    (keq : Int → Int → Bool) (veq : Nat → Nat → Bool) :
    Does (Listed.maps compare keq veq) (removes keys 0 n) [[]] 0
      (.ok ((List.range n).map (fun _ => (none, none)))) [[]] := by
  obtain ⟨ls, c1, c2⟩ := each_does (A := Listed.maps compare keq veq)
    (f := fun i : Nat => do
      let k ← keyAt keys ((n - i - 1 : Nat) : Int)
      let a ← remove 0 k
      let b ← remove 0 k
      pure (a, b)) (g := fun _ => (none, none)) (d := 0)
    (Inv := fun _ ls => ls = [[]]) n 0
    (by
      rintro i _ hi rfl
      have hk' : keys[n - i - 1]? = some keys[n - i - 1] := List.getElem?_eq_getElem (by omega)
      have h4 := (remove_does (keq := keq) (veq := veq) (cmp := compare) (ls := [[]]) (i := 0) (l := []) rfl
        keys[n - i - 1])
      have h3 := (keyAt_does (A := Listed.maps compare keq veq) hk' [[]]).bind (f := fun k => do
          let a ← remove 0 k
          let b ← remove 0 k
          pure (a, b))
        (h4.bind (f := fun a => do
          let b ← remove 0 keys[n - i - 1]
          pure (a, b)) (h4.bind (Does.pure _ _)))
      exact ⟨_, h3, rfl⟩)
    (ls := [[]]) rfl
  subst c2
  rw [← List.range_eq_range'] at c1
  exact c1

theorem compareMaps_does {keys : List Int} (hk : keys.Nodup) {n : Nat} (hn : n ≤ keys.length)
    (keq : Int → Int → Bool) (veq : Nat → Nat → Bool) :
    Does (Listed.maps compare keq veq) (compareMaps keys n) [] n
      (.ok (List.replicate n none,
        (List.range n).map (fun i => (some (n - i - 1), some (n - i - 1))),
        (List.range n).map (fun i => (some (n - i - 1), none)))) [[]] := by
  obtain ⟨ls1, a1, a2⟩ := inserts_does hk hn keq veq
  obtain ⟨ls2, b1, b2⟩ := gets_does hn keq veq a2
  have c1 := removes_does hk hn keq veq b2
  have := (Does.make (A := Listed.maps compare keq veq) []).bind (f := fun map => do
      let a ← inserts keys map n
      let b ← gets keys map n
      let c ← removes keys map n
      pure (a, b, c))
    (a1.bind (f := fun a => do
      let b ← gets keys 0 n
      let c ← removes keys 0 n
      pure (a, b, c)) (b1.bind (f := fun b => do
      let c ← removes keys 0 n
      pure (List.replicate n none, b, c)) (c1.bind (f := fun c => pure (List.replicate n none, _, c)) (Does.pure _ _))))
  exact this.mono (by omega)

theorem keysBefore_nodup (n : Nat) : (keysBefore n).Nodup := by
  unfold keysBefore
  rw [List.nodup_iff_pairwise_ne, List.pairwise_map]
  exact (List.nodup_range (n := n)).imp fun h h' => h (by omega)

theorem keysBefore_length (n : Nat) : (keysBefore n).length = n := by simp [keysBefore]

end
end BST.Bench
