import Verif.BenchSpec
import Verif.Props.Programs
/-!
# Lemmas about the programs of `benches/`
-/
set_option linter.unusedSimpArgs false
namespace BST
variable {K V R S σ : Type}
open Std
open Spec (Sorted)

/-! ### Programs one after the other -/

namespace Prog

theorem bind_eq (p : Prog K V R) (f : R → Prog K V S) : p >>= f = p.bind f := rfl
theorem pure_eq (r : R) : (pure r : Prog K V R) = .ret r := rfl

/-- From the maps `ls`, the program ends with `o` and the maps `ls'`, and it needs room for at most
`d` entries. -/
def Does (A : Maps K V σ) (p : Prog K V R) (ls : List σ) (d : Nat) (o : Out R) (ls' : List σ) : Prop :=
  p.run A ls = (o, ls') ∧ p.demand A ls ≤ d

variable {A : Maps K V σ}

theorem bind_run (p : Prog K V R) (f : R → Prog K V S) {ls ls' : List σ} {r : R}
    (h : p.run A ls = (.ok r, ls')) :
    (p.bind f).run A ls = (f r).run A ls' ∧
      (p.bind f).demand A ls = p.demand A ls + (f r).demand A ls' := by
  induction p generalizing ls with
  | ret x => simp only [run] at h; cases h; simp [bind, demand]
  | panic => simp [run] at h
  | new k ih => simp only [run] at h; simp only [bind, run, demand]; exact ih _ h
  | clone i k ih =>
    simp only [run] at h
    simp only [bind, run, demand]
    split at h
    · cases h
    rename_i m hm
    split at h <;> try cases h
    rename_i m' hm'
    simp only [hm, hm']
    exact ih _ h
  | eq i j k ih =>
    simp only [run] at h
    simp only [bind, run, demand]
    split at h
    · rename_i a b ha hb
      split at h <;> try cases h
      rename_i r' hr'
      simp only [ha, hb, hr']
      exact ih _ h
    · cases h
  | call i c k ih =>
    cases hm : ls[i]? with
    | none => simp [run, hm] at h
    | some m =>
      rcases hc : A.call c m with ⟨o, m'⟩
      cases o <;> simp only [run, hm, hc] at h <;> try cases h
      obtain ⟨h1, h2⟩ := ih _ h
      simp only [bind, run, demand, hm, hc]
      exact ⟨h1, by omega⟩

theorem bind_panics (p : Prog K V R) (f : R → Prog K V S) {ls ls' : List σ}
    (h : p.run A ls = (.panic, ls')) :
    (p.bind f).run A ls = (.panic, ls') ∧ (p.bind f).demand A ls = p.demand A ls := by
  induction p generalizing ls with
  | ret x => simp [run] at h
  | panic => simpa [run, bind, demand] using h
  | new k ih => simp only [run] at h; simp only [bind, run, demand]; exact ih _ h
  | clone i k ih =>
    simp only [run] at h
    simp only [bind, run, demand]
    split at h
    · rename_i hm; cases h; simp [hm]
    rename_i m hm
    split at h <;> simp_all
  | eq i j k ih =>
    simp only [run] at h
    simp only [bind, run, demand]
    split at h
    · rename_i a b ha hb
      split at h <;> try cases h
      · rename_i r' hr'
        simp only [ha, hb, hr']
        exact ih _ h
      · rename_i hr'
        simp [ha, hb, hr']
    · rename_i hno
      cases h
      exact ⟨rfl, rfl⟩
  | call i c k ih =>
    cases hm : ls[i]? with
    | none => simp only [run, hm] at h; cases h; simp [bind, run, demand, hm]
    | some m =>
      rcases hc : A.call c m with ⟨o, m'⟩
      cases o <;> simp only [run, hm, hc] at h <;> try cases h
      · obtain ⟨h1, h2⟩ := ih _ h
        simp only [bind, run, demand, hm, hc]
        exact ⟨h1, by omega⟩
      · simp [bind, run, demand, hm, hc]

namespace Does

theorem bind {p : Prog K V R} {f : R → Prog K V S} {ls ls' ls'' : List σ} {d d' : Nat} {r : R}
    {o : Out S} (h : Does A p ls d (.ok r) ls') (h' : Does A (f r) ls' d' o ls'') :
    Does A (p >>= f) ls (d + d') o ls'' := by
  obtain ⟨h1, h2⟩ := bind_run p f h.1
  exact ⟨h1.trans h'.1, by rw [bind_eq, h2]; exact Nat.add_le_add h.2 h'.2⟩

theorem bind_panic {p : Prog K V R} {f : R → Prog K V S} {ls ls' : List σ} {d : Nat}
    (h : Does A p ls d .panic ls') : Does A (p >>= f) ls d .panic ls' := by
  obtain ⟨h1, h2⟩ := bind_panics p f h.1
  exact ⟨h1, by rw [bind_eq, h2]; exact h.2⟩

theorem mono {p : Prog K V R} {ls ls' : List σ} {d d' : Nat} {o : Out R}
    (h : Does A p ls d o ls') (hd : d ≤ d') : Does A p ls d' o ls' := ⟨h.1, Nat.le_trans h.2 hd⟩

theorem pure (r : R) (ls : List σ) : Does A (Pure.pure r) ls 0 (.ok r) ls := ⟨rfl, Nat.le_refl _⟩

theorem panic (ls : List σ) : Does A (Prog.panic : Prog K V R) ls 0 .panic ls := ⟨rfl, Nat.le_refl _⟩

theorem make (ls : List σ) : Does A (Prog.make : Prog K V Nat) ls 0 (.ok ls.length) (ls ++ [A.new]) :=
  ⟨rfl, Nat.le_refl _⟩

theorem ask {i : Nat} {c : Call K V} {ls : List σ} {m m' : σ} {r : Ret K V} (hi : ls[i]? = some m)
    (h : A.call c m = (.ok r, m')) : Does A (Prog.ask i c) ls c.demand (.ok r) (ls.set i m') := by
  constructor
  · simp only [Prog.ask, run, hi, h]
  · simp only [Prog.ask, demand, hi, h]; exact Nat.le_refl _

theorem ask_panic {i : Nat} {c : Call K V} {ls : List σ} {m m' : σ} (hi : ls[i]? = some m)
    (h : A.call c m = (.panic, m')) : Does A (Prog.ask i c) ls c.demand .panic (ls.set i m') := by
  constructor
  · simp only [Prog.ask, run, hi, h]
  · simp only [Prog.ask, demand, hi, h]; exact Nat.le_refl _

end Does
end Prog

/-! ### Sorted lists as functions -/

namespace Listed
variable {cmp : K → K → Ordering}

/-- The value of a key. -/
def val (cmp : K → K → Ordering) (l : List (K × V)) (k : K) : Option V := (find cmp k l).map (·.2)

theorem val_nil (k : K) : val cmp ([] : List (K × V)) k = none := rfl

theorem val_cons (e : K × V) (l : List (K × V)) (k : K) :
    val cmp (e :: l) k = if cmp k e.1 = .eq then some e.2 else val cmp l k := by
  simp only [val, find, List.find?_cons]
  cases h : cmp k e.1 <;> rfl

theorem val_none_of_lt [TransCmp cmp] {k : K} {l : List (K × V)} (h : ∀ e ∈ l, cmp k e.1 = .lt) :
    val cmp l k = none := by
  induction l with
  | nil => rfl
  | cons e l ih =>
    rw [val_cons, if_neg (by rw [h e (by simp)]; simp), ih fun e he => h e (by simp [he])]

theorem put_mem {k : K} {v : V} {l : List (K × V)} {e : K × V} (h : e ∈ put cmp k v l) :
    (e.1 = k) ∨ ∃ e' ∈ l, e.1 = e'.1 := by
  induction l with
  | nil => simp [put] at h; simp [h]
  | cons a l ih =>
    simp only [put] at h
    split at h
    · rcases List.mem_cons.1 h with rfl | h
      · exact .inl rfl
      · exact .inr ⟨e, h, rfl⟩
    · rcases List.mem_cons.1 h with rfl | h
      · exact .inr ⟨a, by simp, rfl⟩
      · exact .inr ⟨e, by simp [h], rfl⟩
    · rcases List.mem_cons.1 h with rfl | h
      · exact .inr ⟨e, by simp, rfl⟩
      · rcases ih h with h | ⟨e', h1, h2⟩
        · exact .inl h
        · exact .inr ⟨e', by simp [h1], h2⟩

theorem put_sorted [TransCmp cmp] (k : K) (v : V) {l : List (K × V)} (hs : Sorted cmp l) :
    Sorted cmp (put cmp k v l) := by
  induction l with
  | nil => exact List.pairwise_singleton _ _
  | cons a l ih =>
    have hs' := List.pairwise_cons.1 hs
    simp only [put]
    split
    · rename_i hk
      refine List.pairwise_cons.2 ⟨fun e he => ?_, hs⟩
      rcases List.mem_cons.1 he with rfl | he
      · exact hk
      · exact TransCmp.lt_trans hk (hs'.1 e he)
    · exact List.pairwise_cons.2 hs'
    · rename_i hk
      refine List.pairwise_cons.2 ⟨fun e he => ?_, ih hs'.2⟩
      rcases put_mem he with h | ⟨e', h1, h2⟩
      · show cmp a.1 e.1 = .lt
        rw [h]
        exact OrientedCmp.lt_of_gt hk
      · show cmp a.1 e.1 = .lt
        rw [h2]
        exact hs'.1 e' h1

theorem erase_sorted (k : K) {l : List (K × V)} (hs : Sorted cmp l) : Sorted cmp (erase cmp k l) :=
  List.Pairwise.filter _ hs

theorem val_put [TransCmp cmp] [LawfulEqCmp cmp] [DecidableEq K] (k : K) (v : V) {l : List (K × V)}
    (hs : Sorted cmp l) (k' : K) :
    val cmp (put cmp k v l) k' = if k' = k then some v else val cmp l k' := by
  have heq : ∀ a b : K, cmp a b = .eq ↔ a = b := fun a b => LawfulEqCmp.compare_eq_iff_eq
  induction l with
  | nil => simp [put, val_cons, val_nil, heq]
  | cons a l ih =>
    have hs' := List.pairwise_cons.1 hs
    simp only [put]
    split
    · simp only [val_cons, heq]
    · rename_i hk
      rw [heq] at hk
      subst hk
      simp only [val_cons, heq]
      split <;> rfl
    · rename_i hk
      rw [val_cons, val_cons, ih hs'.2]
      simp only [heq]
      by_cases h1 : k' = a.1
      · have h2 : k' ≠ k := by
          rintro rfl
          rw [← h1, (heq _ _).2 rfl] at hk
          cases hk
        simp [h1, h1 ▸ h2]
      · simp [h1]

theorem val_erase [TransCmp cmp] [LawfulEqCmp cmp] [DecidableEq K] (k : K) (l : List (K × V)) (k' : K) :
    val cmp (erase cmp k l) k' = if k' = k then none else val cmp l k' := by
  have heq : ∀ a b : K, cmp a b = .eq ↔ a = b := fun a b => LawfulEqCmp.compare_eq_iff_eq
  induction l with
  | nil => simp [erase, val_nil]
  | cons a l ih =>
    by_cases h : k = a.1
    · have : erase cmp k (a :: l) = erase cmp k l := by
        simp [erase, List.filter_cons, (heq k a.1).2 h]
      rw [this, ih, val_cons]
      simp only [heq]
      split
      · rfl
      · rename_i hk; rw [if_neg (h ▸ hk)]
    · have : erase cmp k (a :: l) = a :: erase cmp k l := by
        simp [erase, List.filter_cons, heq, h]
      rw [this, val_cons, ih, val_cons]
      simp only [heq]
      by_cases h1 : k' = a.1
      · have : k' ≠ k := fun h2 => h (h2 ▸ h1)
        simp [h1, h1 ▸ this]
      · simp [h1]

theorem mem_iff [TransCmp cmp] [LawfulEqCmp cmp] {l : List (K × V)} (hs : Sorted cmp l) (k : K) (v : V) :
    (k, v) ∈ l ↔ val cmp l k = some v := by
  have heq : ∀ a b : K, cmp a b = .eq ↔ a = b := fun a b => LawfulEqCmp.compare_eq_iff_eq
  induction l with
  | nil => simp [val_nil]
  | cons a l ih =>
    have hs' := List.pairwise_cons.1 hs
    rw [val_cons, List.mem_cons]
    refine Iff.trans (or_congr_right (ih hs'.2)) ?_
    by_cases h : k = a.1
    · subst h
      rw [if_pos ((heq _ _).2 rfl), val_none_of_lt hs'.1]
      constructor
      · rintro (h | h)
        · rw [← h]
        · cases h
      · intro h; cases h; exact .inl rfl
    · rw [if_neg (by rw [heq]; exact h)]
      constructor
      · rintro (h' | h')
        · exact absurd (by rw [← h']) h
        · exact h'
      · exact .inr

theorem eq_nil [TransCmp cmp] [LawfulEqCmp cmp] {l : List (K × V)} (hs : Sorted cmp l)
    (h : ∀ k, val cmp l k = none) : l = [] := by
  cases l with
  | nil => rfl
  | cons a l =>
    have := (mem_iff hs a.1 a.2).1 (by simp)
    rw [h] at this
    cases this

end Listed

/-! ### The calls of the programs -/

namespace Bench
open Prog (Does)
variable {cmp : K → K → Ordering} {keq : K → K → Bool} {veq : V → V → Bool}

theorem set_self {ls : List σ} {i : Nat} {m : σ} (h : ls[i]? = some m) : ls.set i m = ls := by
  apply List.ext_getElem?
  intro j
  rw [List.getElem?_set]
  split
  · rename_i hij
    subst hij
    have := (List.getElem?_eq_some_iff.1 h).1
    rw [if_pos this, h]
  · rfl

theorem get_does {ls : List (List (K × V))} {i : Nat} {l : List (K × V)} (h : ls[i]? = some l) (k : K) :
    Does (Listed.maps cmp keq veq) (get i k) ls 0 (.ok (Listed.val cmp l k)) ls := by
  have h1 := Does.ask (A := Listed.maps cmp keq veq) (c := .get k) h rfl
  rw [set_self h] at h1
  exact h1.bind (f := fun r => match r with | .value v => pure v | _ => .panic) (Does.pure _ _)

theorem insert_does {ls : List (List (K × V))} {i : Nat} {l : List (K × V)} (h : ls[i]? = some l)
    (k : K) (v : V) : Does (Listed.maps cmp keq veq) (insert i k v) ls 1 (.ok (Listed.val cmp l k))
      (ls.set i (Listed.put cmp k v l)) := by
  have h1 := Does.ask (A := Listed.maps cmp keq veq) (c := .insert k v) h rfl
  exact h1.bind (f := fun r => match r with | .value v => pure v | _ => .panic) (Does.pure _ _)

theorem remove_does {ls : List (List (K × V))} {i : Nat} {l : List (K × V)} (h : ls[i]? = some l)
    (k : K) : Does (Listed.maps cmp keq veq) (remove i k) ls 0 (.ok (Listed.val cmp l k))
      (ls.set i (Listed.erase cmp k l)) := by
  have h1 := Does.ask (A := Listed.maps cmp keq veq) (c := .remove k) h rfl
  exact h1.bind (f := fun r => match r with | .value v => pure v | _ => .panic) (Does.pure _ _)

theorem containsKey_does {ls : List (List (K × V))} {i : Nat} {l : List (K × V)} (h : ls[i]? = some l)
    (k : K) : Does (Listed.maps cmp keq veq) (containsKey i k) ls 0
      (.ok (Listed.val cmp l k).isSome) ls := by
  have h1 := Does.ask (A := Listed.maps cmp keq veq) (c := .containsKey k) h rfl
  rw [set_self h] at h1
  have h2 : (Listed.val cmp l k).isSome = (Listed.find cmp k l).isSome := by simp [Listed.val]
  rw [h2]
  exact h1.bind (f := fun r => match r with | .bool v => pure v | _ => .panic) (Does.pure _ _)

theorem modify_none {ls : List (List (K × V))} {i : Nat} {l : List (K × V)} (h : ls[i]? = some l)
    {k : K} (f : V → Option V) (hk : Listed.val cmp l k = none) :
    Does (Listed.maps cmp keq veq) (modify i k f) ls 0 (.ok none) ls := by
  have hf : Listed.find cmp k l = none := by simpa [Listed.val] using hk
  have h1 := Does.ask (A := Listed.maps cmp keq veq) (c := .update k f) (r := .value none) (m' := l) h
    (by simp [Listed.maps, Listed.call, hf])
  rw [set_self h] at h1
  exact h1.bind (f := fun r => match r with | .value v => pure v | _ => .panic) (Does.pure _ _)

theorem modify_some {ls : List (List (K × V))} {i : Nat} {l : List (K × V)} (h : ls[i]? = some l)
    {k : K} {f : V → Option V} {v w : V} (hk : Listed.val cmp l k = some v) (hw : f v = some w) :
    Does (Listed.maps cmp keq veq) (modify i k f) ls 0 (.ok (some v))
      (ls.set i (Listed.put cmp k w l)) := by
  obtain ⟨e, he, rfl⟩ : ∃ e, Listed.find cmp k l = some e ∧ e.2 = v := by
    simpa [Listed.val] using hk
  have h1 := Does.ask (A := Listed.maps cmp keq veq) (c := .update k f) (r := .value (some e.2))
    (m' := Listed.put cmp k w l) h (by simp [Listed.maps, Listed.call, he, hw])
  exact h1.bind (f := fun r => match r with | .value v => pure v | _ => .panic) (Does.pure _ _)

theorem lift_ok {σ : Type} {A : Maps K V σ} {x : Out R} {r : R} (h : x = .ok r) (ls : List σ) :
    Does A (lift x) ls 0 (.ok r) ls := by subst h; exact Does.pure _ _

theorem lift_panic {σ : Type} {A : Maps K V σ} {x : Out R} (h : x = .panic) (ls : List σ) :
    Does A (lift x) ls 0 .panic ls := by subst h; exact Does.panic _

theorem addU_ok (cfg : Cfg) {n : Nat} (h : n + 1 < usizeBound) : addU cfg n 1 = .ok (n + 1) := by
  simp [addU, h]

/-- From a run with sorted lists to the two crates. -/
theorem yields {cfg : Cfg} [TransCmp cmp] {p : Prog K V R} {n : Nat} (hn : Fits cfg n) {o : Out R}
    {ls : List (List (K × V))}
    (h : ∀ keq veq, Does (Listed.maps cmp keq veq) p [] n o ls) : Yields cfg cmp p o ls := by
  intro keq veq
  obtain ⟨h1, h2⟩ := h keq veq
  have h3 : (p.demand (Listed.maps cmp keq veq) [] + 8) * cfg.esize ≤ isizeMax :=
    Nat.le_trans (Nat.mul_le_mul_right _ (by omega)) hn.room
  have h4 : p.demand (Listed.maps cmp keq veq) [] * cfg.esize < usizeBound := by
    have : p.demand (Listed.maps cmp keq veq) [] * cfg.esize ≤
        (p.demand (Listed.maps cmp keq veq) [] + 8) * cfg.esize := Nat.mul_le_mul_right _ (by omega)
    simp only [isizeMax, usizeBound] at *
    omega
  have hs := hn.size
  obtain ⟨o1, ms1, ls1, a1, b1, _, c1⟩ := C67_bst_room cmp keq veq p (by omega) hn.alloc h3
  obtain ⟨o2, ms2, ls2, a2, b2, _, c2⟩ := C67_simple_room cmp keq veq p hs hn.alloc h4
  cases h1.symm.trans b1
  cases h1.symm.trans b2
  exact ⟨⟨ms1, a1, c1⟩, ms2, a2, c2⟩

end Bench
end BST
