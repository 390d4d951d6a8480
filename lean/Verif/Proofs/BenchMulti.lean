import Verif.Proofs.BenchOps
/-!
# Lemmas: the programs of `benches/map_comparison.rs` over several maps, with sorted lists
-/
namespace BST.Bench
variable {K V R α β σ : Type}
open Std
open Spec (Sorted)
open Prog (Does)
open Listed (val put erase val_put val_erase put_sorted erase_sorted mem_iff)

theorem copy_does {A : Maps K V σ} {ls : List σ} {i : Nat} {m m' : σ} (hi : ls[i]? = some m)
    (h : A.clone m = .ok m') : Does A (Prog.copy i) ls 0 (.ok ls.length) (ls ++ [m']) := by
  constructor
  · simp [Prog.copy, Prog.run, hi, h]
  · simp [Prog.copy, Prog.demand, hi, h]

/-- The same call on each of several maps that are equal. -/
theorem eachMap {A : Maps K V σ} {f : Nat → Prog K V β} {b : β} {l l' : σ} {d : Nat}
    (hf : ∀ ls m, ls[m]? = some l → Does A (f m) ls d (.ok b) (ls.set m l')) {maps : List Nat}
    (hn : maps.Nodup) {ls : List σ} (h : ∀ m ∈ maps, ls[m]? = some l) :
    ∃ ls', Does A (each f maps) ls (maps.length * d) (.ok (List.replicate maps.length b)) ls' ∧
      ls'.length = ls.length ∧ (∀ m ∈ maps, ls'[m]? = some l') := by
  suffices hs : ∃ ls', Does A (each f maps) ls (maps.length * d)
      (.ok (List.replicate maps.length b)) ls' ∧
      ls'.length = ls.length ∧ (∀ m ∈ maps, ls'[m]? = some l') ∧ ∀ m, m ∉ maps → ls'[m]? = ls[m]? by
    obtain ⟨ls', h1, h2, h3, _⟩ := hs
    exact ⟨ls', h1, h2, h3⟩
  induction maps generalizing ls with
  | nil => exact ⟨ls, (each_nil ls).mono (by omega), rfl, by simp, by simp⟩
  | cons m maps ih =>
    rw [List.nodup_cons] at hn
    have h0 := h m List.mem_cons_self
    have hlt := (List.getElem?_eq_some_iff.1 h0).1
    obtain ⟨ls', h1, h2, h3, h4⟩ := ih hn.2 (ls := ls.set m l') (by
      intro m' hm'
      rw [List.getElem?_set_ne (by rintro rfl; exact hn.1 hm')]
      exact h m' (List.mem_cons_of_mem _ hm'))
    refine ⟨ls', ?_, by simpa using h2, ?_, ?_⟩
    · exact (each_one (hf ls m h0) h1).mono (by rw [List.length_cons, Nat.succ_mul]; omega)
    · intro m' hm'
      rcases List.mem_cons.1 hm' with rfl | hm'
      · rw [h4 _ hn.1, List.getElem?_set_self hlt]
      · exact h3 m' hm'
    · intro m' hm'
      rw [h4 m' (fun h => hm' (List.mem_cons_of_mem _ h)), List.getElem?_set_ne]
      rintro rfl
      exact hm' List.mem_cons_self

/-- The numbers of the maps that `vecOf` makes. -/
def vecMaps (n : Nat) : List Nat := List.range' 1 n ++ [0]

theorem vecMaps_nodup (n : Nat) : (vecMaps n).Nodup := by
  unfold vecMaps
  rw [List.nodup_append]
  refine ⟨List.nodup_range', by simp, ?_⟩
  intro a ha b hb
  simp at ha hb
  omega

theorem vecMaps_mem {n m : Nat} : m ∈ vecMaps n ↔ m < n + 1 := by
  simp [vecMaps]
  omega

theorem vecMaps_length (n : Nat) : (vecMaps n).length = n + 1 := by simp [vecMaps]

theorem vecOf_does {cmp : K → K → Ordering} {keq : K → K → Bool} {veq : V → V → Bool} (n : Nat) :
    Does (Listed.maps cmp keq veq) (vecOf (n + 1)) [] 0 (.ok (vecMaps n))
      (List.replicate (n + 1) []) := by
  obtain ⟨ls, h1, h2⟩ := each_does (A := Listed.maps cmp keq veq) (f := fun _ => Prog.copy 0)
    (g := fun i => i + 1) (d := 0) (Inv := fun t ls => ls = List.replicate (t + 1) []) n 0
    (by
      rintro i _ hi rfl
      refine ⟨_, ?_, rfl⟩
      have := copy_does (A := Listed.maps cmp keq veq) (ls := List.replicate (i + 1) ([] : List (K × V)))
        (i := 0) (m := []) (m' := []) (by simp) rfl
      rw [List.length_replicate, ← List.replicate_succ'] at this
      exact this)
    (ls := [[]]) rfl
  rw [← List.range_eq_range'] at h1
  rw [h2, Nat.zero_add] at h1
  have h3 : (List.range n).map (fun i => i + 1) = List.range' 1 n := by
    have := List.map_add_range' (a := 1) 0 n 1
    simp only [Nat.add_comm 1] at this
    rw [List.range_eq_range', this]
  rw [h3] at h1
  have := (Does.make (A := Listed.maps cmp keq veq) []).bind (f := fun map => do
      let clones ← each (fun _ => Prog.copy map) (List.range (n + 1 - 1))
      pure (if n + 1 = 0 then [] else clones ++ [map]))
    (h1.bind (f := fun clones => pure (if n + 1 = 0 then [] else clones ++ [0])) (Does.pure _ _))
  exact this.mono (by omega)

theorem eq_replicate {l : σ} {n : Nat} {ls : List σ} (h1 : ls.length = n)
    (h2 : ∀ m, m < n → ls[m]? = some l) : ls = List.replicate n l := by
  apply List.ext_getElem?
  intro m
  by_cases hm : m < n
  · rw [h2 m hm, List.getElem?_replicate, if_pos hm]
  · rw [List.getElem?_eq_none (by omega), List.getElem?_eq_none (by simp; omega)]

/-- The map with the first `i` keys and their positions. -/
def First (keys : List Int) (i : Nat) (l : List (Int × Nat)) : Prop :=
  At keys (fun p => if p < i then some p else none) [l]

section
variable {keys : List Int} {keq : Int → Int → Bool} {veq : Nat → Nat → Bool}

theorem insertsMulti_does (hk : keys.Nodup) {c : Nat} (hc : c ≤ keys.length) (n : Nat) :
    ∃ l, Does (Listed.maps compare keq veq) (insertsMulti keys (vecMaps n) c)
        (List.replicate (n + 1) []) (c * (n + 1))
        (.ok (List.replicate c (List.replicate (n + 1) none))) (List.replicate (n + 1) l) ∧
      First keys c l := by
  obtain ⟨ls, h1, h2⟩ := each_does (A := Listed.maps compare keq veq)
    (f := fun i : Nat => each (fun map => do let k ← keyAt keys (i : Int); insert map k i) (vecMaps n))
    (g := fun _ => List.replicate (n + 1) none) (d := n + 1)
    (Inv := fun i ls => ∃ l, ls = List.replicate (n + 1) l ∧ First keys i l) c 0
    (by
      rintro i _ hi ⟨l, rfl, l0, h0, hs, hv⟩
      cases h0
      have hp := List.getElem?_eq_getElem (l := keys) (i := i) (by omega)
      generalize keys[i] = k at hp
      have hvk := At.val hk hv hp
      rw [if_neg (by omega)] at hvk
      obtain ⟨ls', a1, a2, a3⟩ := eachMap (A := Listed.maps compare keq veq)
        (f := fun map => do let k ← keyAt keys (i : Int); insert map k i) (b := none) (l := l)
        (l' := put compare k i l) (d := 1)
        (by
          intro ls m hm
          have := (keyAt_does (A := Listed.maps compare keq veq) hp ls).bind
            (f := fun k => insert m k i) (insert_does hm k i)
          rw [hvk] at this
          exact this.mono (by omega))
        (vecMaps_nodup n) (ls := List.replicate (n + 1) l) (by
          intro m hm
          rw [vecMaps_mem] at hm
          rw [List.getElem?_replicate, if_pos hm])
      rw [vecMaps_length, Nat.mul_one] at a1
      refine ⟨ls', a1, put compare k i l, eq_replicate (by simpa using a2) (fun m hm =>
        a3 m (vecMaps_mem.2 hm)), (At.put hk hs hv hp i).congr fun p => ?_⟩
      simp only [upd]
      by_cases e : p = i
      · subst e; rw [if_pos rfl, if_pos (by omega)]
      · rw [if_neg e]
        by_cases e2 : p < i
        · rw [if_pos e2, if_pos (by omega)]
        · rw [if_neg e2, if_neg (by omega)])
    (ls := List.replicate (n + 1) []) ⟨[], rfl, [], rfl, .nil, by simp [Listed.val_nil]⟩
  rw [← List.range_eq_range'] at h1
  have e1 : (List.range c).map (fun _ => List.replicate (n + 1) (none : Option Nat)) =
      List.replicate c (List.replicate (n + 1) none) := by
    rw [List.map_const']; simp
  rw [e1] at h1
  obtain ⟨l, rfl, h3⟩ := h2
  rw [Nat.zero_add] at h3
  exact ⟨l, h1, h3⟩

theorem getsMulti_does (hk : keys.Nodup) {c : Nat} (hc : c ≤ keys.length) (n : Nat)
    {l : List (Int × Nat)} (h : First keys c l) :
    ∃ l', Does (Listed.maps compare keq veq) (getsMulti keys (vecMaps n) c)
        (List.replicate (n + 1) l) 0
        (.ok ((List.range c).map fun i =>
          List.replicate (n + 1) (some (c - i - 1), some (c - i - 1)))) (List.replicate (n + 1) l') ∧
      First keys c l' := by
  obtain ⟨ls, h1, h2⟩ := each_does (A := Listed.maps compare keq veq)
    (f := fun i : Nat => each (fun map => do
      let k ← keyAt keys ((c - i - 1 : Nat) : Int)
      let a ← get map k
      let b ← modify map k some
      pure (a, b)) (vecMaps n))
    (g := fun i => List.replicate (n + 1) (some (c - i - 1), some (c - i - 1))) (d := 0)
    (Inv := fun _ ls => ∃ l, ls = List.replicate (n + 1) l ∧ First keys c l) c 0
    (by
      rintro i _ hi ⟨l, rfl, l0, h0, hs, hv⟩
      cases h0
      have hp := List.getElem?_eq_getElem (l := keys) (i := c - i - 1) (by omega)
      generalize keys[c - i - 1] = k at hp
      have hvk := At.val hk hv hp
      rw [if_pos (by omega)] at hvk
      obtain ⟨ls', a1, a2, a3⟩ := eachMap (A := Listed.maps compare keq veq)
        (f := fun map => do
          let k ← keyAt keys ((c - i - 1 : Nat) : Int)
          let a ← get map k
          let b ← modify map k some
          pure (a, b)) (b := (some (c - i - 1), some (c - i - 1))) (l := l)
        (l' := put compare k (c - i - 1) l) (d := 0)
        (by
          intro ls m hm
          have h4 := get_does (cmp := compare) (keq := keq) (veq := veq) hm k
          rw [hvk] at h4
          have := (keyAt_does (A := Listed.maps compare keq veq) hp ls).bind
            (f := fun k => do
              let a ← get m k
              let b ← modify m k some
              pure (a, b))
            (h4.bind (f := fun a => do
              let b ← modify m k some
              pure (a, b))
            ((modify_some hm (f := some) hvk rfl).bind (f := fun b => pure (some (c - i - 1), b))
              (Does.pure _ _)))
          exact this.mono (by omega))
        (vecMaps_nodup n) (ls := List.replicate (n + 1) l) (by
          intro m hm
          rw [vecMaps_mem] at hm
          rw [List.getElem?_replicate, if_pos hm])
      rw [vecMaps_length, Nat.mul_zero] at a1
      refine ⟨ls', a1, _, eq_replicate (by simpa using a2) (fun m hm =>
        a3 m (vecMaps_mem.2 hm)), (At.put hk hs hv hp (c - i - 1)).congr fun p => ?_⟩
      simp only [upd]
      split
      · subst_vars; rw [if_pos (by omega)]
      · rfl)
    (ls := List.replicate (n + 1) l) ⟨l, rfl, h⟩
  rw [← List.range_eq_range'] at h1
  obtain ⟨l', rfl, h3⟩ := h2
  exact ⟨l', h1, h3⟩

theorem First.unique {c : Nat} {l l' : List (Int × Nat)} (h : First keys c l) (h' : First keys c l') :
    l = l' := by
  obtain ⟨_, e, hs, hv⟩ := h
  cases e
  obtain ⟨_, e, hs', hv'⟩ := h'
  cases e
  refine sorted_ext hs hs' fun k => ?_
  apply Option.ext
  intro v
  rw [hv, hv']

theorem compareMulti_does (hk : keys.Nodup) {c : Nat} (hc : c ≤ keys.length) (n : Nat) :
    ∃ l, (∀ keq veq, Does (Listed.maps compare keq veq) (compareMulti keys c (n + 1)) [] (c * (n + 1))
        (.ok (List.replicate c (List.replicate (n + 1) none), (List.range c).map fun i =>
          List.replicate (n + 1) (some (c - i - 1), some (c - i - 1))))
        (List.replicate (n + 1) l)) ∧
      Sorted compare l ∧ ∀ k v, (k, v) ∈ l ↔ v < c ∧ keys[v]? = some k := by
  have key : ∀ keq veq, ∃ l, Does (Listed.maps compare keq veq) (compareMulti keys c (n + 1)) []
        (c * (n + 1))
        (.ok (List.replicate c (List.replicate (n + 1) none), (List.range c).map fun i =>
          List.replicate (n + 1) (some (c - i - 1), some (c - i - 1))))
        (List.replicate (n + 1) l) ∧ First keys c l := by
    intro keq veq
    obtain ⟨l1, a1, b1⟩ := insertsMulti_does (keq := keq) (veq := veq) hk hc n
    obtain ⟨l2, a2, b2⟩ := getsMulti_does (keq := keq) (veq := veq) hk hc n b1
    refine ⟨l2, ?_, b2⟩
    have := (vecOf_does (cmp := compare) (keq := keq) (veq := veq) n).bind (f := fun maps => do
        let a ← insertsMulti keys maps c
        let b ← getsMulti keys maps c
        pure (a, b))
      (a1.bind (f := fun a => do
        let b ← getsMulti keys (vecMaps n) c
        pure (a, b)) (a2.bind (f := fun b => pure (_, b)) (Does.pure _ _)))
    exact this.mono (by omega)
  obtain ⟨l, _, h0⟩ := key (fun _ _ => true) (fun _ _ => true)
  refine ⟨l, fun keq veq => ?_, ?_⟩
  · obtain ⟨l', h1, h2⟩ := key keq veq
    rw [h0.unique h2]
    exact h1
  · obtain ⟨_, e, hs, hv⟩ := h0
    cases e
    refine ⟨hs, fun k v => ?_⟩
    rw [mem_iff hs, hv]
    constructor
    · rintro ⟨p, h1, h2⟩
      simp only [Option.ite_none_right_eq_some, Option.some.injEq] at h2
      obtain ⟨h2, rfl⟩ := h2
      exact ⟨h2, h1⟩
    · rintro ⟨h1, h2⟩
      exact ⟨v, h2, if_pos h1⟩

end
end BST.Bench
