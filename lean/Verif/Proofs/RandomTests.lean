import Verif.Model.RandomTests
import Verif.Proofs.BenchRuns
import Verif.Proofs.BenchSets
import Verif.Proofs.Demand
/-!
# The randomised tests: proofs for C80
-/
set_option linter.unusedSimpArgs false
set_option linter.unusedSectionVars false
namespace BST.Tests
variable {K V T : Type} [DecidableEq K] [DecidableEq V] [DecidableEq T]
open Std Bench
open Spec (Sorted)
open Prog (Does)
open Listed (val put erase val_put val_erase put_sorted erase_sorted mem_iff val_cons val_none_of_lt)

theorem bind0 {σ R S : Type} {A : Maps K V σ} {p : Prog K V R} {f : R → Prog K V S} {ls ls' ls'' : List σ}
    {d : Nat} {r : R} {o : Out S} (h : Does A p ls 0 (.ok r) ls') (h' : Does A (f r) ls' d o ls'') :
    Does A (p >>= f) ls d o ls'' := (h.bind h').mono (by omega)

theorem sbind0 {σ R S : Type} {A : Sets T σ} {p : SetProg T R} {f : R → SetProg T S}
    {ls ls' ls'' : List σ} {d : Nat} {r : R} {o : Out S} (h : SDoes A p ls 0 (.ok r) ls')
    (h' : SDoes A (f r) ls' d o ls'') : SDoes A (p >>= f) ls d o ls'' := (h.bind h').mono (by omega)

/-! ### Maps -/

section
variable {cmp : K → K → Ordering} [TransCmp cmp] [LawfulEqCmp cmp]
  {keq : K → K → Bool} {veq : V → V → Bool} {l h : List (K × V)}

/-- The sorted list and the other one have the same entries. -/
structure Same (cmp : K → K → Ordering) (l h : List (K × V)) : Prop where
  sorted : Sorted cmp l
  perm : l.Perm h

theorem Same.get (s : Same cmp l h) (k : K) : Hash.get h k = val cmp l k := by
  have hm : ∀ v, (k, v) ∈ h ↔ val cmp l k = some v := fun v => by
    rw [← s.perm.mem_iff, mem_iff s.sorted]
  unfold Hash.get
  cases hf : h.find? fun e => decide (e.1 = k) with
  | none =>
    rw [List.find?_eq_none] at hf
    cases hv : val cmp l k with
    | none => rfl
    | some v => exact (hf _ ((hm v).2 hv) (by simp)).elim
  | some e =>
    have h1 := List.mem_of_find?_eq_some hf
    have h2 : e.1 = k := by simpa using List.find?_some hf
    cases e
    cases h2
    exact ((hm _).1 h1).symm

theorem erase_eq (k : K) (l : List (K × V)) : erase cmp k l = Hash.remove l k := by
  refine List.filter_congr fun e _ => ?_
  rw [Bool.eq_iff_iff]
  simp only [bne_iff_ne, ne_eq, LawfulEqCmp.compare_eq_iff_eq, decide_eq_true_eq]
  exact ⟨fun h h' => h h'.symm, fun h h' => h h'.symm⟩

theorem Same.remove (s : Same cmp l h) (k : K) : Same cmp (erase cmp k l) (Hash.remove h k) :=
  ⟨erase_sorted k s.sorted, by rw [erase_eq]; exact s.perm.filter _⟩

theorem erase_above {k : K} (hl : ∀ e ∈ l, cmp k e.1 = .lt) : erase cmp k l = l := by
  refine List.filter_eq_self.2 fun e he => ?_
  rw [hl e he]; rfl

theorem put_perm (k : K) (v : V) (hs : Sorted cmp l) : (put cmp k v l).Perm ((k, v) :: erase cmp k l) := by
  induction l with
  | nil => exact .refl _
  | cons e l ih =>
    have hs' := List.pairwise_cons.1 hs
    simp only [put]
    split
    · rename_i hk
      rw [erase_above]
      intro x hx
      rcases List.mem_cons.1 hx with rfl | hx
      · exact hk
      · exact TransCmp.lt_trans hk (hs'.1 x hx)
    · rename_i hk
      have hk' := LawfulEqCmp.compare_eq_iff_eq.1 hk
      have : erase cmp k (e :: l) = erase cmp k l := by simp [erase, hk]
      rw [this, erase_above (fun x hx => by rw [hk']; exact hs'.1 x hx), ← hk']
    · rename_i hk
      have : erase cmp k (e :: l) = e :: erase cmp k l := by simp [erase, hk]
      rw [this]
      exact ((ih hs'.2).cons e).trans (.swap _ _ _)

theorem put_self {k : K} {v : V} (hs : Sorted cmp l) (hv : val cmp l k = some v) : put cmp k v l = l := by
  induction l with
  | nil => cases hv
  | cons e l ih =>
    have hs' := List.pairwise_cons.1 hs
    simp only [put]
    rw [val_cons] at hv
    split
    · rename_i hk
      rw [if_neg (by rw [hk]; simp), val_none_of_lt fun x hx => TransCmp.lt_trans hk (hs'.1 x hx)] at hv
      cases hv
    · rename_i hk
      rw [if_pos hk] at hv
      cases hv
      rfl
    · rename_i hk
      rw [if_neg (by rw [hk]; simp)] at hv
      rw [ih hs'.2 hv]

theorem Same.insert (s : Same cmp l h) (k : K) (v : V) : Same cmp (put cmp k v l) (Hash.insert h k v) :=
  ⟨put_sorted k v s.sorted,
    (put_perm k v s.sorted).trans (by rw [erase_eq]; exact (s.perm.filter _).cons _)⟩

theorem assertEq_does {α σ : Type} [DecidableEq α] {A : Maps K V σ} {a b : α} (h : a = b) (ls : List σ) :
    Does A (assertEq a b) ls 0 (.ok ()) ls := by
  unfold assertEq; rw [if_pos h]; exact Does.pure _ _

theorem sameAt_does (s : Same cmp l h) (k : K) :
    Does (Listed.maps cmp keq veq) (sameAt 0 h k) [l] 0 (.ok ()) [l] := by
  refine bind0 (get_does (l := l) rfl k) (bind0 (assertEq_does (s.get k).symm _) ?_)
  cases hv : val cmp l k with
  | none => exact bind0 (modify_none (l := l) rfl some hv) (assertEq_does ((s.get k).trans hv).symm _)
  | some v =>
    have := modify_some (keq := keq) (veq := veq) (ls := [l]) (i := 0) (f := some) rfl hv rfl
    rw [put_self s.sorted hv] at this
    exact bind0 this (assertEq_does ((s.get k).trans hv).symm _)

theorem len_does (l : List (K × V)) : Does (Listed.maps cmp keq veq) (len 0) [l] 0 (.ok l.length) [l] :=
  ⟨rfl, Nat.le_refl _⟩
theorem isEmpty_does (l : List (K × V)) :
    Does (Listed.maps cmp keq veq) (isEmpty 0) [l] 0 (.ok l.isEmpty) [l] := ⟨rfl, Nat.le_refl _⟩
theorem clear_does (l : List (K × V)) : Does (Listed.maps cmp keq veq) (clear 0) [l] 0 (.ok ()) [[]] :=
  ⟨rfl, Nat.le_refl _⟩

theorem sameSize_does (s : Same cmp l h) :
    Does (Listed.maps cmp keq veq) (sameSize 0 h) [l] 0 (.ok ()) [l] := by
  refine bind0 (isEmpty_does l) (bind0 (assertEq_does ?_ _) (bind0 (len_does l) (assertEq_does ?_ _)))
  · rw [Bool.eq_iff_iff, List.isEmpty_iff_length_eq_zero, List.isEmpty_iff_length_eq_zero,
      s.perm.length_eq]
  · exact s.perm.length_eq

theorem act_does {x : Vars K V} (s : Same cmp l x.expected) (a : Act K V) :
    ∃ l' x', Does (Listed.maps cmp keq veq) (act 0 x a) [l] 1 (.ok x') [l'] ∧ Same cmp l' x'.expected := by
  have done (l : List (K × V)) (x : Vars K V) : Does (Listed.maps cmp keq veq) (pure x) [l] 1 (.ok x) [l] :=
    (Does.pure _ _).mono (by omega)
  cases a with
  | miss key => exact ⟨l, x, bind0 (sameAt_does s key) (done _ _), s⟩
  | hit i =>
    simp only [act]
    split
    · exact ⟨l, x, done _ _, s⟩
    · exact ⟨l, x, bind0 (sameAt_does s _) (done _ _), s⟩
  | modify i value =>
    simp only [act]
    split
    · exact ⟨l, x, done _ _, s⟩
    · rename_i key _
      cases hv : val cmp l key with
      | none =>
        refine ⟨l, x, bind0 (get_does (l := l) rfl key) (bind0 (assertEq_does (s.get key).symm _) ?_), s⟩
        rw [s.get, hv]
        exact bind0 (modify_none (l := l) rfl some hv) (done _ _)
      | some v =>
        have s' := s.insert key value
        refine ⟨put cmp key value l, ⟨Hash.insert x.expected key value, x.keys⟩,
          bind0 (get_does (l := l) rfl key) (bind0 (assertEq_does (s.get key).symm _) ?_), s'⟩
        rw [s.get, hv]
        refine bind0 (modify_some (keq := keq) (veq := veq) (ls := [l]) (i := 0) rfl hv rfl) ?_
        exact bind0 (sameAt_does s' key) (done _ _)
  | remove i =>
    simp only [act]
    split
    · exact ⟨l, x, done _ _, s⟩
    · rename_i key _
      have s1 := s.remove key
      have s2 := s1.remove key
      refine ⟨_, ⟨Hash.remove (Hash.remove x.expected key) key, x.keys⟩,
        bind0 (remove_does (l := l) rfl key) ?_, s2⟩
      refine bind0 (assertEq_does (s.get key).symm _) ?_
      refine bind0 (remove_does (l := erase cmp key l) rfl key) ?_
      exact bind0 (assertEq_does (s1.get key).symm _) (done _ _)
  | insert key value =>
    have s1 := s.insert key value
    refine ⟨_, ⟨Hash.insert x.expected key value, x.keys ++ [key]⟩, bind0 (sameAt_does s key) ?_, s1⟩
    refine Does.bind (d := 1) (d' := 0) (insert_does (l := l) rfl key value) ?_
    refine bind0 (assertEq_does (s.get key).symm _) ?_
    exact bind0 (sameAt_does s1 key) (Does.pure _ _)

theorem acts_does (as : List (Act K V)) : ∀ {l : List (K × V)} {x : Vars K V},
    Same cmp l x.expected → ∃ l' x', Does (Listed.maps cmp keq veq) (acts 0 x as) [l] as.length (.ok x') [l'] ∧
      Same cmp l' x'.expected := by
  induction as with
  | nil => exact fun {l x} s => ⟨l, x, Does.pure _ _, s⟩
  | cons a as ih =>
    intro l x s
    obtain ⟨l1, x1, h1, s1⟩ := act_does (keq := keq) (veq := veq) s a
    obtain ⟨l2, x2, h2, s2⟩ := ih s1
    exact ⟨l2, x2, bind0 (sameSize_does s) ((h1.bind h2).mono (by simp; omega)), s2⟩

theorem sameAll_does (s : Same cmp l h) (keys : List K) :
    Does (Listed.maps cmp keq veq) (sameAll 0 h keys) [l] 0 (.ok ()) [l] := by
  induction keys with
  | nil => exact Does.pure _ _
  | cons k ks ih => exact bind0 (sameAt_does s k) ih

theorem testCase_does (as : List (Act K V)) :
    Does (Listed.maps cmp keq veq) (testCase as) [] as.length (.ok ()) [[]] := by
  have s0 : Same cmp ([] : List (K × V)) [] := ⟨List.Pairwise.nil, .refl _⟩
  obtain ⟨l, x, h1, s1⟩ := acts_does (keq := keq) (veq := veq) as (x := ⟨[], []⟩) s0
  refine bind0 (Does.make _) (Does.bind (d' := 0) h1 ?_)
  refine bind0 (sameAll_does s1 x.keys) (bind0 (clear_does l) ?_)
  exact bind0 (sameSize_does s0) (sameAll_does s0 x.keys)
end

/-! ### Sets -/

section
variable {cmp : T → T → Ordering} [TransCmp cmp] [LawfulEqCmp cmp] {teq : T → T → Bool} {l h : List T}

/-- The sorted list and the other one have the same elements. -/
structure SSame (cmp : T → T → Ordering) (l h : List T) : Prop where
  sorted : SSorted cmp l
  perm : l.Perm h

theorem SSame.get (s : SSame cmp l h) (t : T) : HashSet.get h t = ListedSet.find cmp t l := by
  unfold HashSet.get
  by_cases ht : t ∈ l
  · rw [set_find_some ht]
    have ht' := s.perm.mem_iff.1 ht
    cases hf : h.find? fun x => decide (x = t) with
    | none => rw [List.find?_eq_none] at hf; exact (hf _ ht' (by simp)).elim
    | some x => exact congrArg some (by simpa using List.find?_some hf)
  · rw [set_find_none ht, List.find?_eq_none]
    intro x hx hxt
    exact ht (s.perm.mem_iff.2 ((by simpa using hxt : x = t) ▸ hx))

theorem SSame.mem (s : SSame cmp l h) (t : T) : (ListedSet.find cmp t l).isSome = decide (t ∈ h) := by
  by_cases ht : t ∈ l
  · rw [set_find_some ht, decide_eq_true (s.perm.mem_iff.1 ht)]; rfl
  · rw [set_find_none ht, decide_eq_false (fun h => ht (s.perm.mem_iff.2 h))]; rfl

theorem SSame.remove (s : SSame cmp l h) (t : T) :
    SSame cmp (ListedSet.erase cmp t l) (HashSet.remove h t) := by
  refine ⟨set_erase_sorted t s.sorted, ?_⟩
  have : ListedSet.erase cmp t l = HashSet.remove l t := by
    refine List.filter_congr fun e _ => ?_
    rw [Bool.eq_iff_iff]
    simp only [bne_iff_ne, ne_eq, LawfulEqCmp.compare_eq_iff_eq, decide_eq_true_eq]
    exact ⟨fun h h' => h h'.symm, fun h h' => h h'.symm⟩
  rw [this]
  exact s.perm.filter _

theorem set_put_perm (t : T) (hs : SSorted cmp l) :
    (ListedSet.put cmp t l).Perm (if t ∈ l then l else t :: l) := by
  induction l with
  | nil => simp [ListedSet.put]
  | cons e l ih =>
    have hs' := List.pairwise_cons.1 hs
    simp only [ListedSet.put]
    split
    · rename_i hk
      rw [if_neg]
      intro ht
      rcases List.mem_cons.1 ht with rfl | ht
      · rw [ReflCmp.compare_self (cmp := cmp)] at hk; cases hk
      · have := TransCmp.lt_trans hk (hs'.1 t ht)
        rw [ReflCmp.compare_self (cmp := cmp)] at this; cases this
    · rename_i hk
      rw [LawfulEqCmp.compare_eq_iff_eq] at hk
      rw [if_pos (by rw [hk]; exact List.mem_cons_self)]
    · rename_i hk
      have hne : t ≠ e := by rintro rfl; rw [ReflCmp.compare_self (cmp := cmp)] at hk; cases hk
      by_cases ht : t ∈ l
      · rw [if_pos (List.mem_cons_of_mem _ ht)]
        have := ih hs'.2
        rw [if_pos ht] at this
        exact this.cons e
      · rw [if_neg (by simp [hne, ht])]
        have := ih hs'.2
        rw [if_neg ht] at this
        exact (this.cons e).trans (.swap _ _ _)

theorem SSame.insert (s : SSame cmp l h) (t : T) : SSame cmp (ListedSet.put cmp t l) (HashSet.insert h t) := by
  refine ⟨set_put_sorted t s.sorted, (set_put_perm t s.sorted).trans ?_⟩
  unfold HashSet.insert
  by_cases ht : t ∈ l
  · rw [if_pos ht, if_pos (s.perm.mem_iff.1 ht)]; exact s.perm
  · rw [if_neg ht, if_neg (fun h => ht (s.perm.mem_iff.2 h))]; exact s.perm.cons t

theorem sAssertEq_does {α σ : Type} [DecidableEq α] {A : Sets T σ} {a b : α} (h : a = b) (ls : List σ) :
    SDoes A (sAssertEq a b) ls 0 (.ok ()) ls := by
  unfold sAssertEq; rw [if_pos h]; exact SDoes.pure _ _

theorem sContains_does (l : List T) (t : T) : SDoes (ListedSet.sets cmp teq) (sContains 0 t) [l] 0
    (.ok (ListedSet.find cmp t l).isSome) [l] := ⟨rfl, Nat.le_refl _⟩
theorem sGet_does (l : List T) (t : T) : SDoes (ListedSet.sets cmp teq) (sGet 0 t) [l] 0
    (.ok (ListedSet.find cmp t l)) [l] := ⟨rfl, Nat.le_refl _⟩
theorem sTake_does (l : List T) (t : T) : SDoes (ListedSet.sets cmp teq) (sTake 0 t) [l] 0
    (.ok (ListedSet.find cmp t l)) [ListedSet.erase cmp t l] := ⟨rfl, Nat.le_refl _⟩
theorem sRemove_does (l : List T) (t : T) : SDoes (ListedSet.sets cmp teq) (sRemove 0 t) [l] 0
    (.ok (ListedSet.find cmp t l).isSome) [ListedSet.erase cmp t l] := ⟨rfl, Nat.le_refl _⟩
theorem sInsert_does (l : List T) (t : T) : SDoes (ListedSet.sets cmp teq) (sInsert 0 t) [l] 1
    (.ok (ListedSet.find cmp t l).isNone) [ListedSet.put cmp t l] := ⟨rfl, Nat.le_refl _⟩
theorem sLen_does (l : List T) : SDoes (ListedSet.sets cmp teq) (sLen 0) [l] 0 (.ok l.length) [l] :=
  ⟨rfl, Nat.le_refl _⟩
theorem sIsEmpty_does (l : List T) :
    SDoes (ListedSet.sets cmp teq) (sIsEmpty 0) [l] 0 (.ok l.isEmpty) [l] := ⟨rfl, Nat.le_refl _⟩
theorem sClear_does (l : List T) : SDoes (ListedSet.sets cmp teq) (sClear 0) [l] 0 (.ok ()) [[]] :=
  ⟨rfl, Nat.le_refl _⟩

theorem sSameAt_does (s : SSame cmp l h) (t : T) :
    SDoes (ListedSet.sets cmp teq) (sSameAt 0 h t) [l] 0 (.ok ()) [l] :=
  sbind0 (sContains_does l t) (sbind0 (sAssertEq_does (s.mem t) _) (sbind0 (sGet_does l t)
    (sAssertEq_does (s.get t).symm _)))

theorem sSameSize_does (s : SSame cmp l h) :
    SDoes (ListedSet.sets cmp teq) (sSameSize 0 h) [l] 0 (.ok ()) [l] := by
  refine sbind0 (sIsEmpty_does l) (sbind0 (sAssertEq_does ?_ _) (sbind0 (sLen_does l) (sAssertEq_does ?_ _)))
  · rw [Bool.eq_iff_iff, List.isEmpty_iff_length_eq_zero, List.isEmpty_iff_length_eq_zero,
      s.perm.length_eq]
  · exact s.perm.length_eq

theorem sAct_does {x : SetVars T} (s : SSame cmp l x.expected) (a : SetAct T) :
    ∃ l' x', SDoes (ListedSet.sets cmp teq) (sAct 0 x a) [l] 1 (.ok x') [l'] ∧ SSame cmp l' x'.expected := by
  have done (l : List T) (x : SetVars T) : SDoes (ListedSet.sets cmp teq) (pure x) [l] 1 (.ok x) [l] :=
    (SDoes.pure _ _).mono (by omega)
  cases a with
  | miss t => exact ⟨l, x, sbind0 (sSameAt_does s t) (done _ _), s⟩
  | hit i =>
    simp only [sAct]
    split
    · exact ⟨l, x, done _ _, s⟩
    · exact ⟨l, x, sbind0 (sSameAt_does s _) (done _ _), s⟩
  | remove i =>
    simp only [sAct]
    split
    · exact ⟨l, x, done _ _, s⟩
    · rename_i t _
      have s1 := s.remove t
      have s2 := s1.remove t
      have s3 := s2.remove t
      refine ⟨_, ⟨HashSet.remove (HashSet.remove (HashSet.remove x.expected t) t) t, x.values⟩,
        sbind0 (sTake_does l t) ?_, s3⟩
      refine sbind0 (sAssertEq_does (s.get t).symm _) (sbind0 (sTake_does _ t) ?_)
      refine sbind0 (sAssertEq_does (s1.get t).symm _) (sbind0 (sRemove_does _ t) ?_)
      exact sbind0 (sAssertEq_does (s2.mem t) _) (done _ _)
  | insert t =>
    have s1 := s.insert t
    have hn : (ListedSet.find cmp t l).isNone = decide (t ∉ x.expected) := by
      rw [decide_not, ← s.mem t]; simp
    refine ⟨_, ⟨HashSet.insert x.expected t, x.values ++ [t]⟩, sbind0 (sSameAt_does s t) ?_, s1⟩
    refine SDoes.bind (d := 1) (d' := 0) (sInsert_does l t) ?_
    refine sbind0 (sAssertEq_does hn _) ?_
    exact sbind0 (sSameAt_does s1 t) (SDoes.pure _ _)

theorem sActs_does (as : List (SetAct T)) : ∀ {l : List T} {x : SetVars T},
    SSame cmp l x.expected → ∃ l' x', SDoes (ListedSet.sets cmp teq) (sActs 0 x as) [l] as.length (.ok x') [l'] ∧
      SSame cmp l' x'.expected := by
  induction as with
  | nil => exact fun {l x} s => ⟨l, x, SDoes.pure _ _, s⟩
  | cons a as ih =>
    intro l x s
    obtain ⟨l1, x1, h1, s1⟩ := sAct_does (teq := teq) s a
    obtain ⟨l2, x2, h2, s2⟩ := ih s1
    exact ⟨l2, x2, sbind0 (sSameSize_does s) ((h1.bind h2).mono (by simp; omega)), s2⟩

theorem sSameAll_does (s : SSame cmp l h) (ts : List T) :
    SDoes (ListedSet.sets cmp teq) (sSameAll 0 h ts) [l] 0 (.ok ()) [l] := by
  induction ts with
  | nil => exact SDoes.pure _ _
  | cons k ks ih => exact sbind0 (sSameAt_does s k) ih

theorem setTestCase_does (as : List (SetAct T)) :
    SDoes (ListedSet.sets cmp teq) (setTestCase as) [] as.length (.ok ()) [[]] := by
  have s0 : SSame cmp ([] : List T) [] := ⟨List.Pairwise.nil, .refl _⟩
  obtain ⟨l, x, h1, s1⟩ := sActs_does (teq := teq) as (x := ⟨[], []⟩) s0
  refine sbind0 (SDoes.make _) (SDoes.bind (d' := 0) h1 ?_)
  refine sbind0 (sSameAll_does s1 x.values) (sbind0 (sClear_does l) ?_)
  exact sbind0 (sSameSize_does s0) (sSameAll_does s0 x.values)
end

/-! ### Traversals -/

section
open BSTMap Tree
variable {cfg : Cfg} {s : Nodes K V}

theorem preorder_ok {t : Tree K V} (h : t.Rep s.view) : ∀ (lim : Nat), t.height < lim → ∀ items,
    preorder s lim t.nodeOpt items = .ok (items ++ t.pre.map (·.2)) := by
  induction t with
  | leaf =>
    intro lim hl items
    obtain ⟨lim, rfl⟩ : ∃ k, lim = k + 1 := ⟨lim - 1, by omega⟩
    simp [preorder, Tree.pre, nodeOpt, Tree.root]
  | node p l k v r ihl ihr =>
    intro lim hlim items
    simp only [Tree.height] at hlim
    obtain ⟨lim, rfl⟩ : ∃ k, lim = k + 1 := ⟨lim - 1, by omega⟩
    have hl : Node.left s ⟨p, ⟨k, v, l.root, r.root⟩⟩ = .ok l.nodeOpt := Node.newOpt_ok h.2.1
    have hr : Node.right s ⟨p, ⟨k, v, l.root, r.root⟩⟩ = .ok r.nodeOpt := Node.newOpt_ok h.2.2
    simp only [nodeOpt_node, preorder, Node.key, Node.value, hl, hr, Out.ok_bind,
      ihl h.2.1 lim (by omega), ihr h.2.2 lim (by omega), Tree.pre]
    simp

theorem inorder_ok {t : Tree K V} (h : t.Rep s.view) : ∀ (lim : Nat), t.height < lim → ∀ items,
    inorder s lim t.nodeOpt items = .ok (items ++ t.ino.map (·.2)) := by
  induction t with
  | leaf =>
    intro lim hl items
    obtain ⟨lim, rfl⟩ : ∃ k, lim = k + 1 := ⟨lim - 1, by omega⟩
    simp [inorder, Tree.ino, nodeOpt, Tree.root]
  | node p l k v r ihl ihr =>
    intro lim hlim items
    simp only [Tree.height] at hlim
    obtain ⟨lim, rfl⟩ : ∃ k, lim = k + 1 := ⟨lim - 1, by omega⟩
    have hl : Node.left s ⟨p, ⟨k, v, l.root, r.root⟩⟩ = .ok l.nodeOpt := Node.newOpt_ok h.2.1
    have hr : Node.right s ⟨p, ⟨k, v, l.root, r.root⟩⟩ = .ok r.nodeOpt := Node.newOpt_ok h.2.2
    simp only [nodeOpt_node, inorder, Node.key, Node.value, hl, hr, Out.ok_bind,
      ihl h.2.1 lim (by omega), ihr h.2.2 lim (by omega), Tree.ino]
    simp

theorem postorder_ok {t : Tree K V} (h : t.Rep s.view) : ∀ (lim : Nat), t.height < lim → ∀ items,
    postorder s lim t.nodeOpt items = .ok (items ++ t.post.map (·.2)) := by
  induction t with
  | leaf =>
    intro lim hl items
    obtain ⟨lim, rfl⟩ : ∃ k, lim = k + 1 := ⟨lim - 1, by omega⟩
    simp [postorder, Tree.post, nodeOpt, Tree.root]
  | node p l k v r ihl ihr =>
    intro lim hlim items
    simp only [Tree.height] at hlim
    obtain ⟨lim, rfl⟩ : ∃ k, lim = k + 1 := ⟨lim - 1, by omega⟩
    have hl : Node.left s ⟨p, ⟨k, v, l.root, r.root⟩⟩ = .ok l.nodeOpt := Node.newOpt_ok h.2.1
    have hr : Node.right s ⟨p, ⟨k, v, l.root, r.root⟩⟩ = .ok r.nodeOpt := Node.newOpt_ok h.2.2
    simp only [nodeOpt_node, postorder, Node.key, Node.value, hl, hr, Out.ok_bind,
      ihl h.2.1 lim (by omega), ihr h.2.2 lim (by omega), Tree.post]
    simp

theorem zipped_ok {E σ : Type} {next : σ → Out (Option (K × V) × σ)} {out : E → K × V}
    {I : σ → List E → Prop} (h : IterSpec next out I) (rem : List E) :
    ∀ {st : σ}, I st rem → zipped next (rem.map out) st = .ok () := by
  induction rem with
  | nil => exact fun _ => rfl
  | cons e rem ih =>
    intro st hi
    obtain ⟨st', h1, h2⟩ := h.step st e rem hi
    simp only [List.map_cons, zipped, h1, Out.ok_bind, if_true]
    exact ih h2

theorem traverse_ok {m : BSTMap K V} {t : Tree K V} (h : Shape cfg m t) {lim : Nat} (hl : t.height < lim) :
    traverse lim m = .ok () := by
  obtain ⟨a1, a2⟩ := preNew_ok h
  obtain ⟨st, b1, b2⟩ := inoNew_ok h
  obtain ⟨st', c1, c2⟩ := postNew_ok h
  have hr := rootNode_ok h.root h.rep
  have a3 := zipped_ok (preNext_spec (fun _ x => (x.key, x.value)) (·.2) (fun _ _ _ _ _ => rfl) _ _) _ a2
  have b3 := zipped_ok (inoNext_spec (fun _ x => (x.key, x.value)) (·.2) (fun _ _ _ _ _ => rfl) _ _) _ b2
  have c3 := zipped_ok (postNext_spec (fun _ x => (x.key, x.value)) (·.2) (fun _ _ _ _ _ => rfl) _ _) _ c2
  unfold traverse
  rw [preorder_eq, inorder_eq, postorder_eq]
  simp only [hr, Out.ok_bind, preorder_ok h.rep lim hl, inorder_ok h.rep lim hl, postorder_ok h.rep lim hl,
    List.nil_append, a1, b1, c1, a3, b3, c3]

theorem ok_inv {α β σ : Type} {f : M σ α} {g : α → β} {m m' : σ} {x : β}
    (h : (do let r ← f; pure (g r) : M σ β) m = (.ok x, m')) : ∃ r, f m = (.ok r, m') := by
  cases hf : f m with
  | mk o m1 =>
    cases o with
    | ok r => rw [M.bind_ok hf] at h; cases h; exact ⟨r, rfl⟩
    | panic => rw [M.bind_panic hf] at h; cases h
    | abort => simp [Bind.bind, M.bind, hf] at h
    | ub => simp [Bind.bind, M.bind, hf] at h
    | diverge => simp [Bind.bind, M.bind, hf] at h

theorem fill_ok {D : Nat} (hR : Roomy cfg D) (cmp : K → K → Ordering) (rounds : List (Option Nat × K)) :
    ∀ (keys : List K) {m : BSTMap K K} {t : Tree K K}, Shape cfg m t → slots m + rounds.length ≤ D →
    ∃ m' t', fill cfg cmp keys rounds m = (.ok (), m') ∧ Shape cfg m' t' ∧
      slots m' ≤ slots m + rounds.length := by
  induction rounds with
  | nil => exact fun _ m t h _ => ⟨m, t, rfl, h, Nat.le_refl _⟩
  | cons x rounds ih =>
    obtain ⟨i, value⟩ := x
    intro keys m t h hD
    rw [List.length_cons] at hD
    have step : ∀ {m : BSTMap K K} {t : Tree K K}, Shape cfg m t → slots m + (rounds.length + 1) ≤ D →
        ∃ m' t', (do let _ ← BSTMap.insert cfg (query (cmp value)) value value
                     fill cfg cmp (keys ++ [value]) rounds : M (BSTMap K K) Unit) m = (.ok (), m') ∧
          Shape cfg m' t' ∧ slots m' ≤ slots m + (rounds.length + 1) := by
      intro m t h hD
      obtain ⟨o, m1, t1, h1, h2, h3, h4⟩ := run_room hR h
        (op := .insert (query (cmp value)) value value) trivial (by simp only [Op.demand]; omega)
      obtain ⟨r, rfl⟩ := h4.resolve_right fun h => h.2 (not_panics_query (cmp value))
      obtain ⟨r, h1⟩ := ok_inv h1
      simp only [Op.demand] at h3
      obtain ⟨m2, t2, h5, h6, h7⟩ := ih (keys ++ [value]) h2 (by omega)
      exact ⟨m2, t2, by rw [M.bind_ok h1]; exact h5, h6, by omega⟩
    unfold fill
    cases hk : i.bind fun i => keys[i]? with
    | some key =>
      obtain ⟨o, m1, t1, h1, h2, h3, h4⟩ := run_room hR h
        (op := .remove (query (cmp key))) trivial (by simp only [Op.demand]; omega)
      obtain ⟨r, rfl⟩ := h4.resolve_right fun h => h.2 (not_panics_query (cmp key))
      obtain ⟨r, h1⟩ := ok_inv h1
      simp only [Op.demand] at h3
      obtain ⟨m2, t2, h5, h6, h7⟩ := step h2 (by omega)
      refine ⟨m2, t2, ?_, h6, by simp only [List.length_cons]; omega⟩
      simp only [M.bind_ok h1]
      exact h5
    | none => exact step h hD
end

end BST.Tests
