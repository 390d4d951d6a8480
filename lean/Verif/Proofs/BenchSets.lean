import Verif.Proofs.BenchOps
import Verif.Props.SetPrograms
/-!
# Lemmas: the programs of `benches/set_comparison.rs` with sorted lists
-/
set_option linter.unusedSimpArgs false
set_option linter.unusedSectionVars false
namespace BST.Bench
variable {T R S α β σ : Type}
open Std

/-! ### How programs over sets are composed -/

/-- The program ends with `o` and the sets `ls'`, and inserts at most `d` elements. -/
def SDoes (A : Sets T σ) (p : SetProg T R) (ls : List σ) (d : Nat) (o : Out R) (ls' : List σ) : Prop :=
  p.run A ls = (o, ls') ∧ p.demand A ls ≤ d

variable {A : Sets T σ}

theorem set_bind_run (p : SetProg T R) (f : R → SetProg T S) {ls ls' : List σ} {r : R}
    (h : p.run A ls = (.ok r, ls')) :
    (p.bind f).run A ls = (f r).run A ls' ∧
      (p.bind f).demand A ls = p.demand A ls + (f r).demand A ls' := by
  induction p generalizing ls with
  | ret x => simp only [SetProg.run] at h; cases h; simp [SetProg.bind, SetProg.demand]
  | panic => simp [SetProg.run] at h
  | new k ih =>
    simp only [SetProg.run] at h
    simp only [SetProg.bind, SetProg.run, SetProg.demand]
    exact ih _ h
  | clone i k ih =>
    simp only [SetProg.run] at h
    simp only [SetProg.bind, SetProg.run, SetProg.demand]
    split at h
    · cases h
    rename_i m hm
    split at h <;> try cases h
    rename_i m' hm'
    simp only [hm, hm']
    exact ih _ h
  | eq i j k ih =>
    simp only [SetProg.run] at h
    simp only [SetProg.bind, SetProg.run, SetProg.demand]
    split at h
    · rename_i a b ha hb
      split at h <;> try cases h
      rename_i r' hr'
      simp only [ha, hb, hr']
      exact ih _ h
    · cases h
  | call i c k ih =>
    cases hm : ls[i]? with
    | none => simp [SetProg.run, hm] at h
    | some m =>
      rcases hc : A.call c m with ⟨o, m'⟩
      cases o <;> simp only [SetProg.run, hm, hc] at h <;> try cases h
      obtain ⟨h1, h2⟩ := ih _ h
      simp only [SetProg.bind, SetProg.run, SetProg.demand, hm, hc]
      exact ⟨h1, by omega⟩

namespace SDoes

theorem bind {p : SetProg T R} {f : R → SetProg T S} {ls ls' ls'' : List σ} {d d' : Nat} {r : R}
    {o : Out S} (h : SDoes A p ls d (.ok r) ls') (h' : SDoes A (f r) ls' d' o ls'') :
    SDoes A (p >>= f) ls (d + d') o ls'' := by
  obtain ⟨h1, h2⟩ := set_bind_run p f h.1
  exact ⟨h1.trans h'.1, by
    show (p.bind f).demand A ls ≤ _
    rw [h2]; exact Nat.add_le_add h.2 h'.2⟩

theorem mono {p : SetProg T R} {ls ls' : List σ} {d d' : Nat} {o : Out R}
    (h : SDoes A p ls d o ls') (hd : d ≤ d') : SDoes A p ls d' o ls' := ⟨h.1, Nat.le_trans h.2 hd⟩

theorem pure (r : R) (ls : List σ) : SDoes A (Pure.pure r) ls 0 (.ok r) ls := ⟨rfl, Nat.le_refl _⟩

theorem make (ls : List σ) : SDoes A (SetProg.make : SetProg T Nat) ls 0 (.ok ls.length) (ls ++ [A.new]) :=
  ⟨rfl, Nat.le_refl _⟩

theorem ask {i : Nat} {c : SetCall T} {ls : List σ} {m m' : σ} {r : SetRet T} (hi : ls[i]? = some m)
    (h : A.call c m = (.ok r, m')) : SDoes A (SetProg.ask i c) ls c.demand (.ok r) (ls.set i m') := by
  constructor
  · simp [SetProg.ask, SetProg.run, hi, h]
  · simp [SetProg.ask, SetProg.demand, hi, h]

end SDoes

theorem sEach_nil {f : α → SetProg T β} (ls : List σ) : SDoes A (sEach f []) ls 0 (.ok []) ls :=
  SDoes.pure [] ls

theorem sEach_one {f : α → SetProg T β} {a : α} {b : β} {as : List α} {bs : List β}
    {ls ls' ls'' : List σ} {d d' : Nat} (h : SDoes A (f a) ls d (.ok b) ls')
    (h' : SDoes A (sEach f as) ls' d' (.ok bs) ls'') :
    SDoes A (sEach f (a :: as)) ls (d + d') (.ok (b :: bs)) ls'' :=
  h.bind (f := fun b => do let bs ← sEach f as; pure (b :: bs))
    (h'.bind (f := fun bs => pure (b :: bs)) (SDoes.pure _ _))

theorem sEach_does {f : Nat → SetProg T β} {g : Nat → β} {d : Nat} {Inv : Nat → List σ → Prop}
    (m s : Nat)
    (hf : ∀ i ls, i < s + m → Inv i ls → ∃ ls', SDoes A (f i) ls d (.ok (g i)) ls' ∧ Inv (i + 1) ls')
    {ls : List σ} (h : Inv s ls) :
    ∃ ls', SDoes A (sEach f (List.range' s m)) ls (m * d) (.ok ((List.range' s m).map g)) ls' ∧
      Inv (s + m) ls' := by
  induction m generalizing s ls with
  | zero => exact ⟨ls, (sEach_nil _).mono (Nat.zero_le _), h⟩
  | succ m ih =>
    obtain ⟨ls1, h1, h2⟩ := hf s ls (by omega) h
    obtain ⟨ls2, h3, h4⟩ := ih (s + 1) (fun i ls hi => hf i ls (by omega)) h2
    refine ⟨ls2, ?_, by rwa [Nat.add_assoc, Nat.add_comm 1 m] at h4⟩
    exact (sEach_one h1 h3).mono (by rw [Nat.succ_mul]; omega)

/-! ### Sorted lists of elements -/

/-- The elements are in ascending order. -/
def SSorted (cmp : T → T → Ordering) (l : List T) : Prop := l.Pairwise fun a b => cmp a b = .lt

section
variable {cmp : T → T → Ordering} [TransCmp cmp] [LawfulEqCmp cmp]

theorem set_put_mem {t x : T} {l : List T} : x ∈ ListedSet.put cmp t l ↔ x = t ∨ x ∈ l := by
  induction l with
  | nil => simp [ListedSet.put]
  | cons y l ih =>
    simp only [ListedSet.put]
    split
    · simp
    · rename_i h
      rw [LawfulEqCmp.eq_of_compare h]
      simp
    · rw [List.mem_cons, ih, List.mem_cons]
      constructor
      · rintro (h | h | h)
        · exact .inr (.inl h)
        · exact .inl h
        · exact .inr (.inr h)
      · rintro (h | h | h)
        · exact .inr (.inl h)
        · exact .inl h
        · exact .inr (.inr h)

theorem set_put_sorted (t : T) {l : List T} (h : SSorted cmp l) : SSorted cmp (ListedSet.put cmp t l) := by
  unfold SSorted at *
  induction l with
  | nil => simp [ListedSet.put]
  | cons y l ih =>
    have h' := h
    rw [List.pairwise_cons] at h
    simp only [ListedSet.put]
    split
    · rename_i hlt
      refine List.pairwise_cons.2 ⟨?_, h'⟩
      intro z hz
      rcases List.mem_cons.1 hz with rfl | hz
      · exact hlt
      · exact TransCmp.lt_trans hlt (h.1 z hz)
    · exact h'
    · rename_i hgt
      refine List.pairwise_cons.2 ⟨?_, ih h.2⟩
      intro z hz
      rcases set_put_mem.1 hz with rfl | hz
      · exact OrientedCmp.lt_of_gt hgt
      · exact h.1 z hz

theorem set_erase_mem {t x : T} {l : List T} : x ∈ ListedSet.erase cmp t l ↔ x ∈ l ∧ x ≠ t := by
  simp only [ListedSet.erase, List.mem_filter, bne_iff_ne, ne_eq]
  refine and_congr_right fun _ => not_congr ?_
  constructor
  · intro h; exact (LawfulEqCmp.eq_of_compare h).symm
  · rintro rfl; exact ReflCmp.compare_self

theorem set_erase_sorted (t : T) {l : List T} (h : SSorted cmp l) :
    SSorted cmp (ListedSet.erase cmp t l) := List.Pairwise.filter _ h

theorem set_find_some {t : T} {l : List T} (h : t ∈ l) : ListedSet.find cmp t l = some t := by
  cases hf : ListedSet.find cmp t l with
  | none =>
    have := List.find?_eq_none.1 hf t h
    simp [ReflCmp.compare_self] at this
  | some x =>
    have := List.find?_some hf
    rw [beq_iff_eq] at this
    rw [LawfulEqCmp.eq_of_compare this]

theorem set_find_none {t : T} {l : List T} (h : t ∉ l) : ListedSet.find cmp t l = none := by
  refine List.find?_eq_none.2 fun x hx => ?_
  rw [beq_iff_eq]
  intro he
  rw [LawfulEqCmp.eq_of_compare he] at h
  exact h hx

theorem set_sorted_ext {a b : List T} (ha : SSorted cmp a) (hb : SSorted cmp b)
    (h : ∀ t, t ∈ a ↔ t ∈ b) : a = b := by
  unfold SSorted at *
  have h1 : Spec.Sorted cmp (a.map fun t => (t, ())) := by
    unfold Spec.Sorted; rw [List.pairwise_map]; exact ha
  have h2 : Spec.Sorted cmp (b.map fun t => (t, ())) := by
    unfold Spec.Sorted; rw [List.pairwise_map]; exact hb
  have h3 := sorted_ext h1 h2 fun k => by
    apply Option.ext
    intro v
    rw [← Listed.mem_iff h1, ← Listed.mem_iff h2]
    simp [h]
  have := congrArg (List.map (·.1)) h3
  simpa [List.map_map, Function.comp_def] using this

end

/-! ### A set as a set of positions -/

/-- The one set has the values at the positions where `F` holds. -/
def SAt (values : List Int) (F : Nat → Prop) (ls : List (List Int)) : Prop :=
  ∃ l, ls = [l] ∧ SSorted compare l ∧ ∀ t, t ∈ l ↔ ∃ p, values[p]? = some t ∧ F p

theorem SAt.congr {values : List Int} {F G : Nat → Prop} {ls : List (List Int)}
    (h : SAt values F ls) (e : ∀ p, F p ↔ G p) : SAt values G ls := by
  rwa [show F = G from funext fun p => propext (e p)] at h

theorem SAt.mem {values : List Int} {F : Nat → Prop} (hk : values.Nodup) {l : List Int}
    (h : ∀ t, t ∈ l ↔ ∃ p, values[p]? = some t ∧ F p) {p : Nat} {t : Int} (hp : values[p]? = some t) :
    t ∈ l ↔ F p := by
  rw [h]
  constructor
  · rintro ⟨p', h1, h2⟩
    rwa [nodup_at hk h1 hp] at h2
  · intro hF
    exact ⟨p, hp, hF⟩

theorem SAt.unique {values : List Int} {F : Nat → Prop} {l l' : List Int} (h : SAt values F [l])
    (h' : SAt values F [l']) : l = l' := by
  obtain ⟨_, e, hs, hv⟩ := h
  cases e
  obtain ⟨_, e, hs', hv'⟩ := h'
  cases e
  exact set_sorted_ext hs hs' fun t => by rw [hv, hv']

section
variable {values : List Int} {F : Nat → Prop} {ls : List (List Int)} {p : Nat} {i : Int}
variable {teq : Int → Int → Bool}

theorem valueAt_does {A : Sets Int σ} {t : Int} (hi : (max i 0).toNat = p) (h : values[p]? = some t)
    (ls : List σ) : SDoes A (valueAt values i) ls 0 (.ok t) ls := by
  unfold valueAt
  rw [hi, h]
  exact SDoes.pure _ _

theorem sInsert_at (hk : values.Nodup) {t : Int} (hp : values[p]? = some t) (h : SAt values F ls) :
    ∃ b ls', SDoes (ListedSet.sets compare teq) (sInsert 0 t) ls 1 (.ok b) ls' ∧ (b = true ↔ ¬ F p) ∧
      SAt values (fun p' => p' = p ∨ F p') ls' := by
  obtain ⟨l, rfl, hs, hv⟩ := h
  refine ⟨(ListedSet.find compare t l).isNone, [ListedSet.put compare t l], ⟨rfl, Nat.le_refl _⟩, ?_, _, rfl, set_put_sorted t hs, ?_⟩
  · by_cases hF : F p
    · rw [set_find_some ((SAt.mem hk hv hp).2 hF)]; simp [hF]
    · rw [set_find_none (mt (SAt.mem hk hv hp).1 hF)]; simp [hF]
  · intro t'
    rw [set_put_mem, hv]
    constructor
    · rintro (rfl | ⟨p', h2, h3⟩)
      · exact ⟨p, hp, .inl rfl⟩
      · exact ⟨p', h2, .inr h3⟩
    · rintro ⟨p', h2, rfl | h3⟩
      · rw [hp] at h2; cases h2; exact .inl rfl
      · exact .inr ⟨p', h2, h3⟩

theorem sRemove_at (hk : values.Nodup) {t : Int} (hp : values[p]? = some t) (h : SAt values F ls) :
    ∃ b ls', SDoes (ListedSet.sets compare teq) (sRemove 0 t) ls 0 (.ok b) ls' ∧ (b = true ↔ F p) ∧
      SAt values (fun p' => p' ≠ p ∧ F p') ls' := by
  obtain ⟨l, rfl, hs, hv⟩ := h
  refine ⟨(ListedSet.find compare t l).isSome, [ListedSet.erase compare t l], ⟨rfl, Nat.le_refl _⟩, ?_, _, rfl, set_erase_sorted t hs, ?_⟩
  · by_cases hF : F p
    · rw [set_find_some ((SAt.mem hk hv hp).2 hF)]; simp [hF]
    · rw [set_find_none (mt (SAt.mem hk hv hp).1 hF)]; simp [hF]
  · intro t'
    rw [set_erase_mem, hv]
    constructor
    · rintro ⟨⟨p', h2, h3⟩, h4⟩
      refine ⟨p', h2, ?_, h3⟩
      rintro rfl
      rw [hp] at h2; cases h2; exact h4 rfl
    · rintro ⟨p', h2, h3, h4⟩
      refine ⟨⟨p', h2, h4⟩, ?_⟩
      rintro rfl
      exact h3 (nodup_at hk h2 hp)

theorem sGet_at (hk : values.Nodup) {t : Int} (hp : values[p]? = some t) (h : SAt values F ls) :
    ∃ o, SDoes (ListedSet.sets compare teq) (sGet 0 t) ls 0 (.ok o) ls ∧ (F p → o = some t) ∧
      (¬ F p → o = none) := by
  obtain ⟨l, rfl, hs, hv⟩ := h
  refine ⟨(ListedSet.find compare t l), ⟨rfl, Nat.le_refl _⟩, ?_, ?_⟩
  · intro hF
    exact set_find_some ((SAt.mem hk hv hp).2 hF)
  · intro hF
    exact set_find_none (mt (SAt.mem hk hv hp).1 hF)

theorem sContains_at (hk : values.Nodup) {t : Int} (hp : values[p]? = some t) (h : SAt values F ls) :
    ∃ b, SDoes (ListedSet.sets compare teq) (sContains 0 t) ls 0 (.ok b) ls ∧ (b = true ↔ F p) := by
  obtain ⟨l, rfl, hs, hv⟩ := h
  refine ⟨(ListedSet.find compare t l).isSome, ⟨rfl, Nat.le_refl _⟩, ?_⟩
  by_cases hF : F p
  · rw [set_find_some ((SAt.mem hk hv hp).2 hF)]; simp [hF]
  · rw [set_find_none (mt (SAt.mem hk hv hp).1 hF)]; simp [hF]

end

/-- From sorted lists to the sets of the two crates. -/
theorem syields {cfg : Cfg} {cmp : T → T → Ordering} [TransCmp cmp] {p : SetProg T R} {n : Nat}
    (hn : Fits cfg n) {o : Out R} {ls : List (List T)}
    (h : ∀ teq, SDoes (ListedSet.sets cmp teq) p [] n o ls) : SYields cfg cmp p o ls := by
  intro teq
  obtain ⟨h1, h2⟩ := h teq
  have h3 : (p.demand (ListedSet.sets cmp teq) [] + 8) * cfg.esize ≤ isizeMax :=
    Nat.le_trans (Nat.mul_le_mul_right _ (by omega)) hn.room
  have h4 : p.demand (ListedSet.sets cmp teq) [] * cfg.esize < usizeBound := by
    have : p.demand (ListedSet.sets cmp teq) [] * cfg.esize ≤
        (p.demand (ListedSet.sets cmp teq) [] + 8) * cfg.esize := Nat.mul_le_mul_right _ (by omega)
    simp only [isizeMax, usizeBound] at *
    omega
  have hs := hn.size
  obtain ⟨o1, ms1, ls1, a1, b1, _, c1⟩ := C71_bst_room cmp teq p (by omega) hn.alloc h3
  obtain ⟨o2, ms2, ls2, a2, b2, _, c2⟩ := C71_simple_room cmp teq p hs hn.alloc h4
  cases h1.symm.trans b1
  cases h1.symm.trans b2
  exact ⟨⟨ms1, a1, c1⟩, ms2, a2, c2⟩

end BST.Bench
