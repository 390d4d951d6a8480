import Verif.Model.RandomTests
import Verif.Proofs.Storage
import Verif.Proofs.Textbook
import Verif.BenchSpec
/-!
# The randomised test of the arena: proofs for C80
-/
set_option linter.unusedSectionVars false
namespace BST.Tests
variable {T : Type} [DecidableEq T] {cfg : Cfg} {a : Arena T} {l : List (Ptr × T)}
open Bench (Fits)

/-- The local variables of the test, if the arena has the contents `l`. -/
def varsOf (l : List (Ptr × T)) : ArenaVars T := ⟨l.map (·.2), l.map (·.1)⟩

theorem aAssertEq_ok {α : Type} [DecidableEq α] {x y : α} (h : x = y) (a : Arena T) :
    aAssertEq x y a = (.ok (), a) := by
  unfold aAssertEq
  rw [if_pos h]
  rfl

theorem get_ok (h : a.Holds l) {e : Ptr × T} (he : e ∈ l) : a.getUnchecked e.1 = .ok e.2 := by
  simp [Arena.getUnchecked, h.cell e he]

theorem aSameAll_ok (h : a.Holds l) : ∀ r : List (Ptr × T), (∀ e ∈ r, e ∈ l) →
    aSameAll (r.map (·.1)) (r.map (·.2)) a = (.ok (), a) := by
  intro r
  induction r with
  | nil => intro _; rfl
  | cons e r ih =>
    intro hr
    simp only [List.map_cons, aSameAll, M.read_bind, get_ok h (hr e (by simp)), M.lift_ok_bind]
    rw [M.bind_ok (aAssertEq_ok rfl a)]
    exact ih fun x hx => hr x (by simp [hx])

theorem aClear_ok (hi : a.Inv cfg) (h : a.Holds l) {d : DropInfo T} (hd : ∀ v, d.panics v = false) :
    ∃ a', aClear cfg d (varsOf l) true a = (.ok (varsOf []), a') ∧ a'.Inv cfg ∧ a'.Holds [] := by
  have hnp := Slab.dropRun_noPanic (l := Arena.toDrop d l) (d := d) fun v _ => hd v
  rcases Arena.clear_spec hi h d with ⟨_, h1⟩ | ⟨h1, _⟩
  · refine ⟨{ a.cleared with dropped := a.dropped ++ Arena.toDrop d l }, ?_, ?_, ⟨rfl, by simp⟩⟩
    · unfold aClear
      simp only [M.get_bind]
      rw [M.bind_ok h1]
      simp only [M.get_bind]
      rw [M.bind_ok (aAssertEq_ok (show a.cleared.capacity = a.capacity from rfl) _)]
      rfl
    · have := hi.cleared
      exact ⟨this.size, this.slots, this.ids, this.idlt, this.cap, this.lenle, this.init, this.log⟩
  · rw [hnp] at h1; cases h1

theorem aAct_ok {D : Nat} (hF : Fits cfg D) (hi : a.Inv cfg) (h : a.Holds l) (act : ArenaAct T)
    (hD : l.length + act.room ≤ D) :
    ∃ a' l', aAct cfg (varsOf l) act a = (.ok (varsOf l'), a') ∧ a'.Inv cfg ∧ a'.Holds l' ∧
      l'.length ≤ l.length + act.room := by
  have hsz := hF.size
  have hroom := hF.room
  have hlen := h.length
  cases act with
  | alloc value =>
    simp only [ArenaAct.room] at hD
    rcases Arena.alloc_spec hi value with ⟨b, h1, h2, h3, h4, h5⟩ | ⟨hc, ⟨_, h1⟩ | ⟨_, h1⟩⟩
    · have hb : b.Holds l := by
        rcases h5 with ⟨rfl, _⟩ | ⟨rfl, _⟩
        · exact h
        · exact (Arena.Grows.step (.refl hi) h2).holds h
      have h4' := h4
      rw [← h3] at h4
      have hw := hb.wrote h2 h4 value
      rw [h3] at hw
      refine ⟨b.wrote value, l ++ [(b.addr a.len, value)], ?_, h2.wrote h4 value, hw, by simp [ArenaAct.room]⟩
      simp only [aAct]
      rw [M.bind_ok h1, M.read_bind,
        get_ok hw (e := (b.addr a.len, value)) (by simp), M.lift_ok_bind, M.bind_ok (aAssertEq_ok rfl _)]
      simp only [M.get_bind]
      rw [M.bind_ok (aAssertEq_ok (decide_eq_true (Nat.lt_of_le_of_lt (Nat.zero_le _)
        (show a.len < (b.wrote value).capacity from h4'))) _)]
      simp [varsOf]
    · rcases full_huge (by omega) hF.alloc hi h1 with ⟨_, h2⟩ | h2
      · have := Nat.mul_le_mul_right cfg.esize (show a.capacity + 8 ≤ D + 8 by omega)
        omega
      · cases h2
    · rcases full_huge (by omega) hF.alloc hi h1 with ⟨h2, _⟩ | h2 <;> cases h2
  | modify index value =>
    simp only [aAct]
    cases hk : (varsOf l).ptrs[index]? with
    | none => exact ⟨a, l, rfl, hi, h, by omega⟩
    | some ptr =>
      simp only [varsOf, List.getElem?_map, Option.map_eq_some_iff] at hk
      obtain ⟨e, he, rfl⟩ := hk
      have hm : e ∈ l := List.mem_of_getElem? he
      have hlt : index < l.length := (List.getElem?_eq_some_iff.1 he).1
      have hp : (a.cell e.1).isSome := by rw [h.cell e hm]; rfl
      have hl : l = l.take index ++ (e.1, e.2) :: l.drop (index + 1) := by
        rw [List.getElem?_eq_some_iff] at he
        obtain ⟨h1, h2⟩ := he
        have := List.drop_eq_getElem_cons h1
        rw [h2] at this
        rw [show (e.1, e.2) = e from rfl, ← this, List.take_append_drop]
      have hs : l.take index ++ (e.1, value) :: l.drop (index + 1) = l.set index (e.1, value) := by
        rw [List.set_eq_take_append_cons_drop, if_pos hlt]
      have hset : (a.poke e.1 (some value)).Holds (l.set index (e.1, value)) := by
        rw [← hs]
        rw [hl] at h
        exact h.poke hi
      have hmem : (e.1, value) ∈ l.set index (e.1, value) := by rw [← hs]; simp
      have hv : varsOf (l.set index (e.1, value)) =
          ⟨(l.map (·.2)).set index value, l.map (·.1)⟩ := by
        simp only [varsOf, List.map_set]
        congr 1
        refine List.ext_getElem? fun j => ?_
        rw [List.getElem?_set]
        split
        · next hj =>
          subst hj
          rw [List.getElem?_map, he]
          simp [hlt]
        · rfl
      refine ⟨a.poke e.1 (some value), l.set index (e.1, value), ?_, hi.poke hp value, hset, by simp⟩
      rw [hv]
      simp only [varsOf, M.read_bind, get_ok h hm, M.lift_ok_bind]
      rw [M.bind_ok (aAssertEq_ok (by simp [he]) _), M.bind_ok (Arena.setUnchecked_ok hp value), M.read_bind,
        get_ok hset hmem, M.lift_ok_bind, M.bind_ok (aAssertEq_ok (by simp [hlt]) _)]
      rfl
  | reserve additional =>
    simp only [ArenaAct.room] at hD ⊢
    have hbig : a.len + additional < usizeBound := by
      have := Nat.mul_le_mul_left (D + 8) hsz
      simp only [isizeMax, usizeBound] at *
      omega
    obtain ⟨b, h1, ⟨h2, _⟩ | ⟨hc, h2⟩⟩ := Arena.growTo_spec (a.len + additional) hi
    · refine ⟨b, l, ?_, h1.inv, h1.holds h, by omega⟩
      simp only [aAct]
      have : Arena.reserve cfg additional a = (.ok (), b) := by
        unfold Arena.reserve
        simp only [M.get_bind, addU, hbig, if_true, M.lift_ok_bind]
        exact h2
      rw [M.bind_ok this]
      rfl
    · rcases h2 with ⟨_, h2⟩ | ⟨_, h2⟩
      · rcases full_huge (by omega) hF.alloc h1.inv h2 with ⟨_, h3⟩ | h3
        · have := Nat.mul_le_mul_right cfg.esize (show b.capacity + 8 ≤ D + 8 by omega)
          omega
        · cases h3
      · rcases full_huge (by omega) hF.alloc h1.inv h2 with ⟨h3, _⟩ | h3 <;> cases h3
  | shrink =>
    obtain ⟨b, h1, h2⟩ := Arena.shrinkToFit_spec hi
    refine ⟨b, l, ?_, h2.inv, h2.holds h, by omega⟩
    simp only [aAct]
    rw [M.bind_ok h1]
    rfl

theorem isEmpty_eq (h : a.Holds l) : a.isEmpty = (l.map (·.2)).isEmpty := by
  have := h.length
  cases l <;> simp_all [Arena.isEmpty]
  omega

theorem aActs_ok {D : Nat} (hF : Fits cfg D) {d : DropInfo T} (hd : ∀ v, d.panics v = false)
    (as : List (Bool × ArenaAct T)) : ∀ {a : Arena T} {l : List (Ptr × T)}, a.Inv cfg → a.Holds l →
    l.length + (as.map (·.2.room)).sum ≤ D →
    ∃ a' l', aActs cfg d (varsOf l) as a = (.ok (varsOf l'), a') ∧ a'.Inv cfg ∧ a'.Holds l' := by
  induction as with
  | nil => intro a l hi h _; exact ⟨a, l, rfl, hi, h⟩
  | cons x as ih =>
    intro a l hi h hD
    obtain ⟨c, act⟩ := x
    simp only [List.map_cons, List.sum_cons] at hD
    have h0 : ∃ a' l', aClear cfg d (varsOf l) c a = (.ok (varsOf l'), a') ∧
        a'.Inv cfg ∧ a'.Holds l' ∧ l'.length ≤ l.length := by
      cases c with
      | false => exact ⟨a, l, rfl, hi, h, Nat.le_refl _⟩
      | true =>
        obtain ⟨a', h1, h2, h3⟩ := aClear_ok hi h hd
        exact ⟨a', [], h1, h2, h3, by simp⟩
    obtain ⟨a1, l1, h1, hi1, hh1, hl1⟩ := h0
    obtain ⟨a2, l2, h2, hi2, hh2, hl2⟩ := aAct_ok hF hi1 hh1 act (by omega)
    obtain ⟨a3, l3, h3, hi3, hh3⟩ := ih hi2 hh2 (by omega)
    refine ⟨a3, l3, ?_, hi3, hh3⟩
    unfold aActs
    rw [M.bind_ok h1]
    simp only [M.get_bind]
    rw [M.bind_ok (aAssertEq_ok (show a1.isEmpty = (varsOf l1).expected.isEmpty from isEmpty_eq hh1) _),
      M.bind_ok (aAssertEq_ok (show a1.len = (varsOf l1).expected.length by simp [varsOf, hh1.length]) _),
      M.bind_ok (show aSameAll (varsOf l1).ptrs (varsOf l1).expected a1 = _ from
        aSameAll_ok hh1 l1 fun _ he => he), M.bind_ok h2]
    exact h3

theorem arenaCase_ok {d : DropInfo T} (hd : ∀ v, d.panics v = false) (as : List (Bool × ArenaAct T))
    (hF : Fits cfg (as.map (·.2.room)).sum) :
    ∃ a', arenaCase cfg d as Arena.new = (.ok (), a') ∧ Spec.replay a'.log = some [] := by
  obtain ⟨a1, l1, h1, hi, h⟩ := aActs_ok hF hd as (Arena.inv_new cfg) Arena.holds_new
    (by simp)
  rcases Arena.drop_spec hi h d with ⟨_, a2, h2, _, _, h3⟩ | ⟨hr, _⟩
  · refine ⟨a2, ?_, h3⟩
    unfold arenaCase
    rw [M.bind_ok (show aActs cfg d ⟨[], []⟩ as Arena.new = _ from h1)]
    exact h2
  · rw [Slab.dropRun_noPanic (fun v _ => hd v)] at hr
    cases hr

end BST.Tests
