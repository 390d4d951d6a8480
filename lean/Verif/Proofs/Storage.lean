import Verif.Proofs.ArenaClear
import Verif.Proofs.History
import Verif.Storage
/-!
# Histories of an arena
-/
set_option linter.unusedSimpArgs false
namespace BST
open Spec
open Slab (dropRun)
variable {T : Type} {cfg : Cfg}

/-- The steps from both ends partition the list. -/
theorem takeEnds_parts {T : Type} (ends : List Bool) (l : List T) :
    ∃ front mid back, l = front ++ mid ++ back ∧
      ((takeEnds ends l).filterMap (·.2)).Perm (front ++ back) ∧
      (mid = [] ∨ (front ++ back).length = ends.length) := by
  induction ends generalizing l with
  | nil => exact ⟨[], l, [], by simp, List.Perm.refl _, Or.inr rfl⟩
  | cons e ends ih =>
    cases e with
    | false =>
      cases l with
      | nil =>
        obtain ⟨f, m, b, h1, h2, h3⟩ := ih []
        simp only [List.nil_eq, List.append_eq_nil_iff] at h1
        obtain ⟨⟨rfl, rfl⟩, rfl⟩ := h1
        exact ⟨[], [], [], rfl, by simpa [takeEnds] using h2, Or.inl rfl⟩
      | cons x l =>
        obtain ⟨f, m, b, h1, h2, h3⟩ := ih l
        refine ⟨x :: f, m, b, by simp [h1], ?_, ?_⟩
        · simpa [takeEnds] using h2
        · rcases h3 with h3 | h3
          · exact Or.inl h3
          · exact Or.inr (by simp at h3 ⊢; omega)
    | true =>
      rcases List.eq_nil_or_concat l with rfl | ⟨l', x, rfl⟩
      · obtain ⟨f, m, b, h1, h2, h3⟩ := ih []
        simp only [List.nil_eq, List.append_eq_nil_iff] at h1
        obtain ⟨⟨rfl, rfl⟩, rfl⟩ := h1
        exact ⟨[], [], [], rfl, by simpa [takeEnds] using h2, Or.inl rfl⟩
      · obtain ⟨f, m, b, h1, h2, h3⟩ := ih l'
        refine ⟨f, m, b ++ [x], by simp [h1], ?_, ?_⟩
        · simp only [takeEnds, List.concat_eq_append, List.getLast?_append, List.getLast?_singleton,
            Option.some_or, List.dropLast_concat, List.filterMap_cons]
          refine (List.Perm.cons x h2).trans ?_
          rw [← List.append_assoc]
          exact (List.perm_append_singleton x _).symm
        · rcases h3 with h3 | h3
          · exact Or.inl h3
          · exact Or.inr (by simp at h3 ⊢; omega)

/-- The hints of the steps from both ends. -/
theorem takeEnds_hints {T : Type} (ends : List Bool) (l : List T) :
    (takeEnds ends l).map (·.1) =
      (List.range ends.length).map fun i => (l.length - i, some (l.length - i)) := by
  induction ends generalizing l with
  | nil => rfl
  | cons e ends ih =>
    rw [List.length_cons, List.range_succ_eq_map, List.map_cons, List.map_map]
    cases e <;> simp only [takeEnds, List.map_cons, ih, List.length_tail, List.length_dropLast,
      Nat.sub_zero, List.cons.injEq, true_and] <;>
    · refine List.map_congr_left fun i _ => ?_
      simp only [Function.comp_apply, Nat.succ_eq_add_one, Nat.sub_sub, Nat.add_comm 1 i]

namespace Arena
variable {a : Arena T} {l : List (Ptr × T)}

/-- What the two ends of the list are, seen from the iterator. -/
theorem Holds.next {x m y : List (Ptr × T)} (h : a.Holds (x ++ m ++ y)) (hi : a.Inv cfg) :
    let it : Iter := ⟨x.length, x.length + m.length⟩
    it.nextPtr cfg a = .ok (m.head?, ⟨x.length + (m.head?.toList.length), x.length + m.length⟩) ∧
    it.nextBackPtr cfg a =
      .ok (m.getLast?, ⟨x.length, x.length + m.length - m.getLast?.toList.length⟩) := by
  intro it
  have hl := h.length
  simp only [List.length_append] at hl
  cases m with
  | nil =>
    refine ⟨?_, ?_⟩
    · unfold Iter.nextPtr; rw [if_neg (by simp [it])]; rfl
    · unfold Iter.nextBackPtr; rw [if_neg (by simp [it])]; rfl
  | cons e m =>
    refine ⟨?_, ?_⟩
    · obtain ⟨v, h1, h2⟩ := hi.nextPtr_some (it := it) (by simp [it]) (by simp [it] at hl ⊢; omega)
      have hg : (x ++ (e :: m) ++ y)[x.length]? = some e := by simp
      have ha := h.get hg
      have hv := h.cell e (by simp)
      rw [ha] at hv
      change a.cell (a.addr x.length) = some v at h1
      rw [hv] at h1
      cases h1
      rw [h2]
      change Out.ok (some (a.addr x.length, e.2), _) = _
      rw [← ha]
      rfl
    · obtain ⟨v, h1, h2⟩ := hi.nextBackPtr_some (it := it) (by simp [it])
        (by simp [it] at hl ⊢; omega)
      obtain ⟨q, f, hq⟩ : ∃ q f, e :: m = q ++ [f] := by
        rcases List.eq_nil_or_concat (e :: m) with h | ⟨q, f, h⟩
        · cases h
        · exact ⟨q, f, by simpa using h⟩
      have hlen : it.stop - 1 = x.length + q.length := by
        have := congrArg List.length hq
        simp [it] at this ⊢; omega
      have hg : (x ++ (e :: m) ++ y)[x.length + q.length]? = some f := by
        rw [hq]; simp [List.getElem?_append_right]
      have ha := h.get hg
      have hv := h.cell f (by rw [hq]; simp)
      rw [ha] at hv
      rw [hlen, hv] at h1
      cases h1
      rw [h2, hlen, ← ha, hq]
      simp [it]

theorem Holds.takes (ends : List Bool) :
    ∀ {x m y : List (Ptr × T)}, a.Holds (x ++ m ++ y) → a.Inv cfg →
      a.takes cfg ends ⟨x.length, x.length + m.length⟩ = .ok (takeEnds ends m) := by
  induction ends with
  | nil => intros; rfl
  | cons back ends ih =>
    intro x m y h hi
    obtain ⟨h1, h2⟩ := h.next hi
    have hsz : (Iter.mk x.length (x.length + m.length)).sizeHint = (m.length, some m.length) := by
      simp [Iter.sizeHint]
    cases back with
    | false =>
      simp only [Arena.takes, Bool.false_eq_true, if_false]
      rw [h1]
      simp only [Out.ok_bind, hsz, takeEnds]
      cases m with
      | nil =>
        have := ih (x := x) (m := []) (y := y) h hi
        simp only [List.head?_nil, Option.toList, List.length_nil, Nat.add_zero] at this ⊢
        rw [this]; rfl
      | cons e m =>
        have := ih (x := x ++ [e]) (m := m) (y := y) (by simpa using h) hi
        simp only [List.head?_cons, Option.toList, List.length_cons, List.length_nil, List.length_append] at this ⊢
        rw [show x.length + (m.length + 1) = x.length + (0 + 1) + m.length by omega, this]
        rfl
    | true =>
      simp only [Arena.takes, if_true]
      rw [h2]
      simp only [Out.ok_bind, hsz, takeEnds]
      rcases List.eq_nil_or_concat m with rfl | ⟨m, e, rfl⟩
      · have := ih (x := x) (m := []) (y := y) h hi
        simp only [List.getLast?_nil, Option.toList, List.length_nil, Nat.add_zero, Nat.sub_zero] at this ⊢
        rw [this]; rfl
      · have := ih (x := x) (m := m) (y := e :: y) (by simpa using h) hi
        simp only [List.concat_eq_append, List.getLast?_append, List.getLast?_singleton, Option.some_or,
          Option.toList, List.length_append, List.length_cons, List.length_nil, List.dropLast_concat] at this ⊢
        rw [show x.length + (m.length + (0 + 1)) - (0 + 1) = x.length + m.length by omega, this]
        rfl

theorem takesPlain_eq {a : Arena T} : ∀ (ends : List Bool) (it : Iter) {steps}, a.takes cfg ends it = .ok steps →
    a.takesPlain cfg ends it = .ok (steps.map fun x => (x.1, x.2.map (·.2))) := by
  intro ends
  induction ends with
  | nil => intro it steps h; cases h; rfl
  | cons back ends ih =>
    intro it steps h
    have key : ∀ u : Out (Option (Ptr × T) × Iter),
        (do let (x, it') ← u; let r ← a.takes cfg ends it'; pure ((it.sizeHint, x) :: r)) = Out.ok steps →
        (do
          let (x, it') ← (do let (o, it) ← u; pure (o.map (·.2), it) : Out (Option T × Iter))
          let r ← a.takesPlain cfg ends it'
          pure ((it.sizeHint, x) :: r)) = Out.ok (steps.map fun x => (x.1, x.2.map (·.2))) := by
      intro u hu
      cases u with
      | ok q =>
        obtain ⟨x, it'⟩ := q
        simp only [Out.ok_bind, Out.pure_eq] at hu ⊢
        cases hr : a.takes cfg ends it' with
        | ok r =>
          rw [hr] at hu
          cases hu
          rw [ih it' hr]
          rfl
        | _ => rw [hr] at hu; cases hu
      | _ => cases hu
    cases back
    · exact key _ h
    · exact key _ h

theorem Holds.takesMut (f : T → T) (ends : List Bool) :
    ∀ {a : Arena T} {x m y : List (Ptr × T)}, a.Holds (x ++ m ++ y) → a.Inv cfg →
      ∃ a', Arena.takesMut cfg f ends ⟨x.length, x.length + m.length⟩ a =
          (.ok (takeEnds ends m), a') ∧ a'.Inv cfg ∧
        a'.Holds (x ++ mapEnds (fun e => (e.1, f e.2)) ends m ++ y) ∧ a'.dropped = a.dropped := by
  induction ends with
  | nil => intro a x m y h hi; exact ⟨a, rfl, hi, h, rfl⟩
  | cons back ends ih =>
    intro a x m y h hi
    obtain ⟨h1, h2⟩ := h.next hi
    have hsz : (Iter.mk x.length (x.length + m.length)).sizeHint = (m.length, some m.length) := by
      simp [Iter.sizeHint]
    cases back with
    | false =>
      unfold Arena.takesMut
      simp only [M.read_bind, Bool.false_eq_true, if_false]
      rw [h1]
      simp only [M.lift_ok_bind, hsz, takeEnds]
      cases m with
      | nil =>
        obtain ⟨a', e1, e2, e3, e4⟩ := ih (a := a) (x := x) (m := []) (y := y) h hi
        refine ⟨a', ?_, e2, ?_, e4⟩
        · simp only [List.head?_nil, Option.toList, List.length_nil, Nat.add_zero, pure_bind] at e1 ⊢
          rw [M.bind_ok e1]; rfl
        · simpa [mapEnds] using e3
      | cons e m =>
        have hp : (a.cell e.1).isSome := by rw [h.cell e (by simp)]; rfl
        have h' : (a.poke e.1 (some (f e.2))).Holds ((x ++ [(e.1, f e.2)]) ++ m ++ y) := by
          have := Holds.poke (a := a) (x := x) (y := m ++ y) (p := e.1) (v := e.2) (w := f e.2)
            (by simpa using h) hi
          simpa using this
        obtain ⟨a', e1, e2, e3, e4⟩ := ih h' (hi.poke hp _)
        refine ⟨a', ?_, e2, ?_, e4.trans rfl⟩
        · simp only [List.head?_cons, Option.toList, List.length_cons, List.length_nil, List.length_append] at e1 ⊢
          rw [M.bind_ok (setUnchecked_ok hp _), show x.length + (m.length + 1) = x.length + (0 + 1) + m.length by omega, M.bind_ok e1]
          rfl
        · simpa [mapEnds] using e3
    | true =>
      unfold Arena.takesMut
      simp only [M.read_bind, if_true]
      rw [h2]
      simp only [M.lift_ok_bind, hsz, takeEnds]
      rcases List.eq_nil_or_concat m with rfl | ⟨m, e, rfl⟩
      · obtain ⟨a', e1, e2, e3, e4⟩ := ih (a := a) (x := x) (m := []) (y := y) h hi
        refine ⟨a', ?_, e2, ?_, e4⟩
        · simp only [List.getLast?_nil, Option.toList, List.length_nil, Nat.add_zero, pure_bind,
            Nat.sub_zero] at e1 ⊢
          rw [M.bind_ok e1]; rfl
        · simpa [mapEnds] using e3
      · simp only [List.concat_eq_append] at h ⊢
        have hp : (a.cell e.1).isSome := by rw [h.cell e (by simp)]; rfl
        have h' : (a.poke e.1 (some (f e.2))).Holds (x ++ m ++ ((e.1, f e.2) :: y)) := by
          have := Holds.poke (a := a) (x := x ++ m) (y := y) (p := e.1) (v := e.2) (w := f e.2)
            (by simpa using h) hi
          simpa using this
        obtain ⟨a', e1, e2, e3, e4⟩ := ih h' (hi.poke hp _)
        refine ⟨a', ?_, e2, ?_, e4.trans rfl⟩
        · simp only [List.getLast?_append, List.getLast?_singleton, Option.some_or,
            Option.toList, List.length_append, List.length_cons, List.length_nil, List.dropLast_concat] at e1 ⊢
          rw [M.bind_ok (setUnchecked_ok hp _), show x.length + (m.length + (0 + 1)) - (0 + 1) = x.length + m.length by omega, M.bind_ok e1]
          rfl
        · simpa [mapEnds] using e3

theorem Holds.debug_loop (dt : T → String) : ∀ {m x : List (Ptr × T)} (acc : List String)
    (fuel : Nat), a.Holds (x ++ m) → a.Inv cfg → m.length < fuel →
    loop fuel (fun (st : Iter × List String) => (do
      let (x, i) ← st.1.next cfg a
      match x with
      | none => pure (.inr st.2)
      | some v => pure (.inl (i, st.2 ++ [dt v])) : Out ((Iter × List String) ⊕ List String)))
      (⟨x.length, x.length + m.length⟩, acc) = .ok (acc ++ m.map fun e => dt e.2) := by
  intro m
  induction m with
  | nil =>
    intro x acc fuel h hi hf
    obtain ⟨n, rfl⟩ : ∃ n, fuel = n + 1 := ⟨fuel - 1, by omega⟩
    have h1 := (Holds.next (x := x) (m := []) (y := []) (by simpa using h) hi).1
    rw [loopO_inr (a := acc)]
    · simp
    · simp only [Iter.next, List.length_nil, Nat.add_zero] at h1 ⊢
      rw [h1]
      rfl
  | cons e m ih =>
    intro x acc fuel h hi hf
    obtain ⟨n, rfl⟩ : ∃ n, fuel = n + 1 := ⟨fuel - 1, by omega⟩
    have h1 := (Holds.next (x := x) (m := e :: m) (y := []) (by simpa using h) hi).1
    have := ih (x := x ++ [e]) (acc ++ [dt e.2]) n (by simpa using h) hi (by simpa using hf)
    rw [loopO_inl (b' := (⟨(x ++ [e]).length, (x ++ [e]).length + m.length⟩, acc ++ [dt e.2])), this]
    · simp
    · simp only [Iter.next, List.length_cons] at h1 ⊢
      rw [h1]
      simp
      omega

theorem Holds.debug (h : a.Holds l) (hi : a.Inv cfg) (dt : T → String) :
    a.debug cfg dt = .ok ("[" ++ ", ".intercalate (l.map fun e => dt e.2) ++ "]") := by
  unfold Arena.debug
  have := Holds.debug_loop (a := a) (cfg := cfg) dt (m := l) (x := []) [] (a.len + 1) (by simpa using h) hi
    (by rw [h.length]; omega)
  rw [List.length_nil, Nat.zero_add, h.length, List.nil_append] at this
  exact congrArg (fun o : Out (List String) => o >>= fun items =>
    pure ("[" ++ ", ".intercalate items ++ "]")) this

/-! ### Single calls -/

theorem takeEnds_perm {α : Type} (f : α → α) (ends : List Bool) (l : List α) :
    ((((takeEnds ends l).filterMap (·.2)).map f) ++ l).Perm
      (((takeEnds ends l).filterMap (·.2)) ++ mapEnds f ends l) := by
  induction ends generalizing l with
  | nil => exact List.Perm.refl _
  | cons back ends ih =>
    cases back with
    | false =>
      cases l with
      | nil => simpa [takeEnds, mapEnds] using ih []
      | cons e l =>
        simp only [takeEnds, mapEnds, List.head?_cons, List.tail_cons, List.filterMap_cons, List.map_cons,
          Option.map_some, Option.toList, List.cons_append, List.nil_append]
        have h1 : ((((takeEnds ends l).filterMap (·.2)).map f) ++ e :: l).Perm
            (e :: ((((takeEnds ends l).filterMap (·.2)).map f) ++ l)) := List.perm_middle
        have h2 : ((((takeEnds ends l).filterMap (·.2))) ++ f e :: mapEnds f ends l).Perm
            (f e :: ((((takeEnds ends l).filterMap (·.2))) ++ mapEnds f ends l)) := List.perm_middle
        exact ((h1.trans ((ih l).cons e)).cons (f e)).trans
          ((List.Perm.swap _ _ _).trans (h2.symm.cons e))
    | true =>
      rcases List.eq_nil_or_concat l with rfl | ⟨l, e, rfl⟩
      · simpa [takeEnds, mapEnds] using ih []
      · simp only [takeEnds, mapEnds, List.concat_eq_append, List.getLast?_append,
          List.getLast?_singleton, Option.some_or, List.dropLast_concat, List.filterMap_cons, List.map_cons,
          Option.map_some, Option.toList, List.cons_append, List.nil_append]
        have h1 : ((((takeEnds ends l).filterMap (·.2)).map f) ++ (l ++ [e])).Perm
            (e :: ((((takeEnds ends l).filterMap (·.2)).map f) ++ l)) := by
          rw [← List.append_assoc]; exact List.perm_append_singleton _ _
        have h2 : ((((takeEnds ends l).filterMap (·.2))) ++ (mapEnds f ends l ++ [f e])).Perm
            (f e :: ((((takeEnds ends l).filterMap (·.2))) ++ mapEnds f ends l)) := by
          rw [← List.append_assoc]; exact List.perm_append_singleton _ _
        exact ((h1.trans ((ih l).cons e)).cons (f e)).trans
          ((List.Perm.swap _ _ _).trans (h2.symm.cons e))

/-- One call on an arena. -/
theorem step (hi : a.Inv cfg) (h : a.Holds l) {d : DropInfo T} (hd : ∀ v, d.panics v = false)
    (op : ArenaOp T) (hv : ArenaValid l op) :
    ∃ o a' l', op.run cfg d a = (o, a') ∧ a'.Inv cfg ∧ a'.Holds l' ∧ ArenaAnswer l o l' op ∧
      (d.needsDrop = true → (Spec.ArenaOp.valuesIn op o ++ (l.map (·.2) ++ a.dropped)).Perm
        (Spec.ArenaOp.valuesOut op o ++ (l'.map (·.2) ++ a'.dropped))) := by
  have hrefl : ∀ x : List T, x.Perm x := fun x => List.Perm.refl x
  cases op with
  | alloc v =>
    rcases alloc_spec hi v with ⟨b, h1, h2, h3, h4, h5⟩ | ⟨_, ⟨h1, _⟩ | ⟨h1, _⟩⟩
    · have hb : b.Holds l := by
        rcases h5 with ⟨rfl, _⟩ | ⟨rfl, _⟩
        · exact h
        · exact (Grows.step (.refl hi) h2).holds h
      have hdr : b.dropped = a.dropped := by
        rcases h5 with ⟨rfl, _⟩ | ⟨rfl, _⟩ <;> rfl
      rw [← h3] at h4
      have hw := hb.wrote h2 h4 v
      rw [h3] at hw
      refine ⟨_, b.wrote v, _, M.map_eq h1, h2.wrote h4 v, hw, .inl ⟨_, rfl, ?_, rfl⟩, fun _ => ?_⟩
      · rw [hb.mem h2]
        have := (h2.cell_addr (j := a.len) (by omega))
        rw [h3] at this
        simp [this]
      · simp only [Out.map, Spec.ArenaOp.valuesIn, Spec.ArenaOp.valuesOut, List.nil_append,
          List.map_append, List.map_cons, List.map_nil]
        show List.Perm _ (_ ++ b.dropped)
        rw [hdr, ← List.append_assoc]
        refine List.Perm.append_right _ ?_
        exact (List.perm_append_singleton v (l.map (·.2))).symm
    · exact ⟨_, a, l, M.map_eq h1, hi, h, .inr ⟨.inl rfl, rfl⟩, fun _ => hrefl _⟩
    · exact ⟨_, a, l, M.map_eq h1, hi, h, .inr ⟨.inr rfl, rfl⟩, fun _ => hrefl _⟩
  | get p =>
    obtain ⟨e, he, rfl⟩ := List.mem_map.1 hv
    have hg : a.getUnchecked e.1 = .ok e.2 := by simp [getUnchecked, h.cell e he]
    refine ⟨.ok (.value e.2), a, l, ?_, hi, h, ⟨e.2, he, rfl, rfl⟩, fun _ => hrefl _⟩
    simp only [ArenaOp.run, M.read_bind]
    rw [hg]; rfl
  | set p w =>
    obtain ⟨e, he, rfl⟩ := List.mem_map.1 hv
    have hg : a.getUnchecked e.1 = .ok e.2 := by simp [getUnchecked, h.cell e he]
    have hp : (a.cell e.1).isSome := by rw [h.cell e he]; rfl
    obtain ⟨x, y, rfl⟩ := List.append_of_mem he
    refine ⟨.ok (.value e.2), a.poke e.1 (some w), x ++ (e.1, w) :: y, ?_, hi.poke hp w,
      h.poke hi, ⟨x, e.2, y, rfl, rfl, rfl⟩, fun _ => ?_⟩
    · simp only [ArenaOp.run, M.read_bind]
      rw [hg, M.lift_ok_bind, M.bind_ok (setUnchecked_ok hp w)]; rfl
    · simp only [Spec.ArenaOp.valuesIn, Spec.ArenaOp.valuesOut, List.map_append, List.map_cons]
      show List.Perm _ (_ ++ (_ ++ a.dropped))
      rw [← List.append_assoc [w], ← List.append_assoc [e.2]]
      refine List.Perm.append_right _ ?_
      exact (List.perm_middle.cons w).trans ((List.Perm.swap _ _ _).trans
        (List.perm_middle.symm.cons e.2))
  | iter ends =>
    have := Holds.takes (a := a) (cfg := cfg) ends (x := []) (m := l) (y := []) (by simpa using h) hi
    refine ⟨.ok (.items (takeEnds ends l)), a, l, ?_, hi, h, ⟨rfl, rfl⟩, fun _ => hrefl _⟩
    simp only [ArenaOp.run, M.read_bind]
    rw [List.length_nil, Nat.zero_add, h.length] at this
    change (M.lift (a.takes cfg ends ⟨0, a.len⟩) >>= _ : M (Arena T) _) a = _
    rw [this]; rfl
  | iterMut ends f =>
    obtain ⟨a', h1, h2, h3, h4⟩ := Holds.takesMut (cfg := cfg) f ends (a := a) (x := []) (m := l) (y := [])
      (by simpa using h) hi
    rw [List.length_nil, Nat.zero_add, h.length] at h1
    simp only [List.nil_append, List.append_nil] at h3
    refine ⟨.ok (.items (takeEnds ends l)), a', _, ?_, h2, h3, ⟨rfl, rfl⟩, fun _ => ?_⟩
    · simp only [ArenaOp.run, M.get_bind]
      exact M.map_eq h1
    · simp only [Spec.ArenaOp.valuesIn, Spec.ArenaOp.valuesOut]
      rw [h4, ← List.append_assoc, ← List.append_assoc]
      refine List.Perm.append_right _ ?_
      have := (takeEnds_perm (fun e : Ptr × T => (e.1, f e.2)) ends l).map (·.2)
      simpa [List.map_append, Function.comp_def] using this
  | len => exact ⟨_, a, l, rfl, hi, h, ⟨by rw [h.length], rfl⟩, fun _ => hrefl _⟩
  | isEmpty =>
    refine ⟨_, a, l, rfl, hi, h, ⟨?_, rfl⟩, fun _ => hrefl _⟩
    have := h.length
    have he : a.isEmpty = l.isEmpty := by
      cases l <;> simp_all [Arena.isEmpty]
      omega
    rw [he]
  | capacity =>
    exact ⟨_, a, l, rfl, hi, h, ⟨⟨_, by rw [h.length]; exact hi.lenle, rfl⟩, rfl⟩, fun _ => hrefl _⟩
  | reserve n =>
    have hgrow : ∀ n, ∃ o b, growTo cfg n a = (o, b) ∧ Grows cfg a b ∧ (o = .ok () ∨ Fails o) := by
      intro n
      obtain ⟨b, h1, ⟨h2, _⟩ | ⟨_, ⟨h2, _⟩ | ⟨h2, _⟩⟩⟩ := growTo_spec n hi
      · exact ⟨_, b, h2, h1, .inl rfl⟩
      · exact ⟨_, b, h2, h1, .inr (.inl rfl)⟩
      · exact ⟨_, b, h2, h1, .inr (.inr rfl)⟩
    have hres : ∃ o b, Arena.reserve cfg n a = (o, b) ∧ Grows cfg a b ∧ (o = .ok () ∨ Fails o) := by
      unfold Arena.reserve
      simp only [M.get_bind, addU]
      by_cases h1 : a.len + n < usizeBound
      · simp only [h1, if_true, M.lift_ok_bind]; exact hgrow _
      · by_cases h2 : cfg.checks = true
        · simp only [h1, h2, if_false, if_true, M.lift_panic_bind]
          exact ⟨_, a, rfl, .refl hi, .inr (.inl rfl)⟩
        · simp only [h1, h2, if_false, M.lift_ok_bind]; exact hgrow _
    obtain ⟨o, b, h1, h2, h3⟩ := hres
    refine ⟨_, b, l, M.map_eq h1, h2.inv, h2.holds h, ⟨?_, rfl⟩, fun _ => ?_⟩
    · rcases h3 with rfl | rfl | rfl
      · exact .inl rfl
      · exact .inr (.inl rfl)
      · exact .inr (.inr rfl)
    · rw [h2.dropped]; exact hrefl _
  | shrinkToFit =>
    obtain ⟨b, h1, h2⟩ := shrinkToFit_spec hi
    exact ⟨_, b, l, M.map_eq h1, h2.inv, h2.holds h, ⟨rfl, rfl⟩, fun _ => by rw [h2.dropped]; exact hrefl _⟩
  | clear =>
    have hnp := Slab.dropRun_noPanic (l := toDrop d l) (d := d) fun v _ => hd v
    rcases clear_spec hi h d with ⟨_, h1⟩ | ⟨h1, _⟩
    · refine ⟨_, _, [], M.map_eq h1, ?_, ⟨rfl, by simp⟩, ⟨rfl, rfl⟩, fun hn => ?_⟩
      · have := hi.cleared
        exact ⟨this.size, this.slots, this.ids, this.idlt, this.cap, this.lenle, this.init, this.log⟩
      · simp only [Spec.ArenaOp.valuesIn, Spec.ArenaOp.valuesOut, toDrop, hn, if_true, List.nil_append,
          List.map_nil]
        exact List.perm_append_comm
    · rw [hnp] at h1; cases h1
  | debug dt =>
    refine ⟨_, a, l, ?_, hi, h, ⟨rfl, rfl⟩, fun _ => hrefl _⟩
    simp only [ArenaOp.run, M.read_bind, h.debug hi dt]
    rfl

end Arena

/-! ### Histories -/

/-- If single calls are answered correctly (`step`), then so are histories. `Ok s c`: the
state `s` has the contents `c`. -/
theorem execute_follows {S O R C : Type} {run : O → M S R} {valid : C → O → Prop}
    {ans : C → Out R → C → O → Prop} {Ok : S → C → Prop} (hnub : ∀ c o c' op, ans c o c' op →
      o ≠ .ub ∧ o ≠ .diverge)
    (hstep : ∀ s c op, Ok s c → valid c op → ∃ o s' c', run op s = (o, s') ∧ Ok s' c' ∧ ans c o c' op)
    (ops : List O) : ∀ s c, Ok s c → Follows valid ans ops (execute run ops s).1 c := by
  induction ops with
  | nil => intro s c _; rfl
  | cons op ops ih =>
    intro s c hok hv
    obtain ⟨o, s', c', h1, h2, h3⟩ := hstep s c op hok hv
    unfold execute
    rw [h1]
    cases o with
    | ok r => exact ⟨_, _, c', rfl, h3, .inr ⟨by simp, ih s' c' h2⟩⟩
    | panic => exact ⟨_, _, c', rfl, h3, .inr ⟨by simp, ih s' c' h2⟩⟩
    | abort => exact ⟨_, _, c', rfl, h3, .inl ⟨rfl, rfl⟩⟩
    | ub => exact absurd rfl (hnub _ _ _ _ h3).1
    | diverge => exact absurd rfl (hnub _ _ _ _ h3).2

/-- If calls that break the contract have undefined behaviour, then an invariant is kept by
histories without undefined behaviour, and a ledger that is kept by single calls is kept. -/
theorem execute_total {S O R C α : Type} {run : O → M S R} {valid : C → O → Prop}
    {Ok : S → C → Prop} {vin vout : O → Out R → List α} {bal : S → C → List α}
    {after : C → O → Out R → C}
    (hinv : ∀ s c op, Ok s c → ¬ valid c op → (run op s).1 = .ub)
    (hstep : ∀ s c op, Ok s c → valid c op → ∃ o s', run op s = (o, s') ∧
      Ok s' (after c op o) ∧ (vin op o ++ bal s c).Perm (vout op o ++ bal s' (after c op o)))
    (ops : List O) : ∀ s c, Ok s c → (∀ o ∈ (execute run ops s).1, o ≠ .ub) →
      Ok (execute run ops s).2 (contents after ops (execute run ops s).1 c) ∧
        (total vin ops (execute run ops s).1 ++ bal s c).Perm
          (total vout ops (execute run ops s).1 ++
            bal (execute run ops s).2 (contents after ops (execute run ops s).1 c)) := by
  induction ops with
  | nil => intro s c h _; exact ⟨h, List.Perm.refl _⟩
  | cons op ops ih =>
    intro s c hok hub
    by_cases hv : valid c op
    · obtain ⟨o, s', h1, h2, h3⟩ := hstep s c op hok hv
      have hcons : ∀ os s'', (Ok s'' (contents after ops os (after c op o)) ∧
            (total vin ops os ++ bal s' (after c op o)).Perm
            (total vout ops os ++ bal s'' (contents after ops os (after c op o)))) →
          Ok s'' (contents after (op :: ops) (o :: os) c) ∧
            (total vin (op :: ops) (o :: os) ++ bal s c).Perm
            (total vout (op :: ops) (o :: os) ++
              bal s'' (contents after (op :: ops) (o :: os) c)) := by
        rintro os s'' ⟨k1, k2⟩
        refine ⟨k1, ?_⟩
        simp only [total, List.zip_cons_cons, List.flatMap_cons] at k2 ⊢
        rw [List.append_assoc, List.append_assoc]
        refine (List.perm_append_comm_assoc _ _ _).trans ?_
        refine (List.Perm.append_left _ h3).trans ?_
        refine (List.perm_append_comm_assoc _ _ _).trans ?_
        exact List.Perm.append_left _ k2
      unfold execute at hub ⊢
      rw [h1] at hub ⊢
      cases o with
      | ok r =>
        exact hcons _ _ (ih s' _ h2 fun o ho => hub o (by simp [ho]))
      | panic =>
        exact hcons _ _ (ih s' _ h2 fun o ho => hub o (by simp [ho]))
      | abort =>
        refine hcons [] s' ⟨by simpa [contents] using h2, ?_⟩
        simp [total, contents]
      | ub => exact absurd rfl (hub .ub (by simp))
      | diverge =>
        refine hcons [] s' ⟨by simpa [contents] using h2, ?_⟩
        simp [total, contents]
    · have h1 := hinv s c op hok hv
      unfold execute at hub
      rcases h2 : run op s with ⟨o, s'⟩
      rw [h2] at h1 hub
      cases h1
      exact absurd rfl (hub .ub (by simp))

/-- A client that obeys the contract causes no undefined behaviour. -/
theorem execute_obeys {S O R C : Type} {run : O → M S R} {valid : C → O → Prop}
    {Ok : S → C → Prop} {after : C → O → Out R → C}
    (hstep : ∀ s c op, Ok s c → valid c op → ∃ o s', run op s = (o, s') ∧
      Ok s' (after c op o) ∧ o ≠ .ub)
    (ops : List O) : ∀ s c, Ok s c → Obeys valid after ops (execute run ops s).1 c →
      ∀ o ∈ (execute run ops s).1, o ≠ .ub := by
  induction ops with
  | nil => intro s c _ _ o ho; cases ho
  | cons op ops ih =>
    intro s c hok hob
    have hv : valid c op := by
      unfold execute at hob
      generalize hr : run op s = r at hob
      obtain ⟨o, s'⟩ := r
      cases o <;> exact hob.1
    obtain ⟨o, s', h1, h2, h3⟩ := hstep s c op hok hv
    unfold execute at hob ⊢
    rw [h1] at hob ⊢
    cases o with
    | ok r =>
      intro o ho
      rcases List.mem_cons.1 ho with rfl | ho
      · exact h3
      · exact ih s' _ h2 hob.2 o ho
    | panic =>
      intro o ho
      rcases List.mem_cons.1 ho with rfl | ho
      · exact h3
      · exact ih s' _ h2 hob.2 o ho
    | abort => intro o ho; cases List.mem_singleton.1 ho; exact h3
    | ub => exact absurd rfl h3
    | diverge => intro o ho; cases List.mem_singleton.1 ho; exact h3

theorem map_replace {p : Ptr} {v w : T} {x y : List (Ptr × T)}
    (hn : ((x ++ (p, v) :: y).map (·.1)).Nodup) :
    ((x ++ (p, v) :: y).map fun e => if e.1 = p then (p, w) else e) = x ++ (p, w) :: y := by
  simp only [List.map_append, List.map_cons, List.nodup_append, List.nodup_cons] at hn
  have hid : ∀ q : List (Ptr × T), (∀ e ∈ q, e.1 ≠ p) →
      (q.map fun e => if e.1 = p then (p, w) else e) = q := by
    intro q hq
    conv => rhs; rw [← List.map_id q]
    exact List.map_congr_left fun e he => by simp [hq e he]
  rw [List.map_append, List.map_cons, hid x, hid y]
  · simp
  · intro e he hc; exact hn.2.1.1 (hc ▸ List.mem_map_of_mem he)
  · intro e he hc; exact hn.2.2 e.1 (List.mem_map_of_mem he) p (by simp) hc

theorem filter_remove {p : Ptr} {v : T} {x y : List (Ptr × T)}
    (hn : ((x ++ (p, v) :: y).map (·.1)).Nodup) :
    ((x ++ (p, v) :: y).filter fun e => e.1 ≠ p) = x ++ y := by
  simp only [List.map_append, List.map_cons, List.nodup_append, List.nodup_cons] at hn
  have hid : ∀ q : List (Ptr × T), (∀ e ∈ q, e.1 ≠ p) → (q.filter fun e => e.1 ≠ p) = q :=
    fun q hq => List.filter_eq_self.2 fun e he => by simpa using hq e he
  rw [List.filter_append, List.filter_cons, hid x, hid y]
  · simp
  · intro e he hc; exact hn.2.1.1 (hc ▸ List.mem_map_of_mem he)
  · intro e he hc; exact hn.2.2 e.1 (List.mem_map_of_mem he) p (by simp) hc

namespace Arena
variable {a : Arena T} {l : List (Ptr × T)}

theorem answer_after {l' : List (Ptr × T)} {o : Out (StoreRet T)} {op : ArenaOp T}
    (hn : (l.map (·.1)).Nodup) (h : ArenaAnswer l o l' op) : l' = Spec.ArenaOp.after l op o := by
  cases op with
  | alloc v =>
    rcases h with ⟨p, rfl, _, rfl⟩ | ⟨rfl | rfl, rfl⟩ <;> rfl
  | get p => obtain ⟨v, _, rfl, rfl⟩ := h; rfl
  | set p w =>
    obtain ⟨x, v, y, rfl, rfl, rfl⟩ := h
    exact (map_replace hn).symm
  | iter _ => obtain ⟨rfl, rfl⟩ := h; rfl
  | iterMut _ _ => obtain ⟨rfl, rfl⟩ := h; rfl
  | len => obtain ⟨rfl, rfl⟩ := h; rfl
  | isEmpty => obtain ⟨rfl, rfl⟩ := h; rfl
  | capacity => obtain ⟨⟨_, _, rfl⟩, rfl⟩ := h; rfl
  | reserve _ => obtain ⟨rfl | rfl | rfl, rfl⟩ := h <;> rfl
  | shrinkToFit => obtain ⟨rfl, rfl⟩ := h; rfl
  | clear => obtain ⟨rfl, rfl⟩ := h; rfl
  | debug _ => obtain ⟨rfl, rfl⟩ := h; rfl

theorem answer_safe {l' : List (Ptr × T)} {o : Out (StoreRet T)} {op : ArenaOp T}
    (h : ArenaAnswer l o l' op) : o ≠ .ub ∧ o ≠ .diverge := by
  cases op with
  | alloc v => rcases h with ⟨p, rfl, _⟩ | ⟨rfl | rfl, _⟩ <;> exact ⟨by simp, by simp⟩
  | get p => obtain ⟨v, _, rfl, _⟩ := h; exact ⟨by simp, by simp⟩
  | set p w => obtain ⟨x, v, y, _, rfl, _⟩ := h; exact ⟨by simp, by simp⟩
  | iter _ => obtain ⟨rfl, _⟩ := h; exact ⟨by simp, by simp⟩
  | iterMut _ _ => obtain ⟨rfl, _⟩ := h; exact ⟨by simp, by simp⟩
  | len => obtain ⟨rfl, _⟩ := h; exact ⟨by simp, by simp⟩
  | isEmpty => obtain ⟨rfl, _⟩ := h; exact ⟨by simp, by simp⟩
  | capacity => obtain ⟨⟨_, _, rfl⟩, _⟩ := h; exact ⟨by simp, by simp⟩
  | reserve _ => obtain ⟨rfl | rfl | rfl, _⟩ := h <;> exact ⟨by simp, by simp⟩
  | shrinkToFit => obtain ⟨rfl, _⟩ := h; exact ⟨by simp, by simp⟩
  | clear => obtain ⟨rfl, _⟩ := h; exact ⟨by simp, by simp⟩
  | debug _ => obtain ⟨rfl, _⟩ := h; exact ⟨by simp, by simp⟩

/-- Calls that break the contract have undefined behaviour. -/
theorem invalid_ub (hi : a.Inv cfg) (h : a.Holds l) (d : DropInfo T) (op : ArenaOp T)
    (hv : ¬ ArenaValid l op) : (op.run cfg d a).1 = .ub := by
  have hub : ∀ p, p ∉ l.map (·.1) → a.getUnchecked p = .ub := by
    intro p hp
    rw [h.mem hi] at hp
    unfold getUnchecked
    cases hc : a.cell p with
    | none => rfl
    | some v => rw [hc] at hp; exact absurd rfl hp
  cases op with
  | get p => simp only [ArenaOp.run, M.read_bind, hub p hv]; rfl
  | set p w => simp only [ArenaOp.run, M.read_bind, hub p hv]; rfl
  | _ => exact absurd trivial hv

theorem Fresh.holds (h : Fresh cfg a) : a.Inv cfg ∧ a.Holds [] ∧ a.dropped = [] := by
  rcases h with rfl | ⟨n, h⟩
  · exact ⟨inv_new cfg, holds_new, rfl⟩
  · obtain ⟨b, h1, h2⟩ := growTo_spec (T := T) (cfg := cfg) n (inv_new cfg)
    have hb : b = a := by
      rcases h2 with ⟨h2, _⟩ | ⟨_, ⟨h2, _⟩ | ⟨h2, _⟩⟩
      · exact (Prod.mk.inj (h2.symm.trans h)).2
      · cases h2.symm.trans h
      · cases h2.symm.trans h
    subst hb
    exact ⟨h1.inv, h1.holds holds_new, h1.dropped⟩

theorem history_follows {d : DropInfo T} (hd : ∀ v, d.panics v = false) (hi : a.Inv cfg)
    (h : a.Holds l) (ops : List (ArenaOp T)) :
    Follows ArenaValid ArenaAnswer ops (execute (ArenaOp.run cfg d) ops a).1 l := by
  refine execute_follows (Ok := fun a l => a.Inv cfg ∧ a.Holds l)
    (fun _ _ _ _ h => answer_safe h) ?_ ops a l ⟨hi, h⟩
  rintro a l op ⟨hi, h⟩ hv
  obtain ⟨o, a', l', h1, h2, h3, h4, _⟩ := step hi h hd op hv
  exact ⟨o, a', l', h1, ⟨h2, h3⟩, h4⟩

theorem history_total {d : DropInfo T} (hd : ∀ v, d.panics v = false) (hn : d.needsDrop = true)
    (hi : a.Inv cfg) (h : a.Holds l) (ops : List (ArenaOp T)) {os : List (Out (StoreRet T))}
    {a' : Arena T} (he : execute (ArenaOp.run cfg d) ops a = (os, a')) (hub : ∀ o ∈ os, o ≠ .ub) :
    a'.Inv cfg ∧ a'.Holds (contents Spec.ArenaOp.after ops os l) ∧
      (total Spec.ArenaOp.valuesIn ops os ++ (l.map (·.2) ++ a.dropped)).Perm
        (total Spec.ArenaOp.valuesOut ops os ++
          ((contents Spec.ArenaOp.after ops os l).map (·.2) ++ a'.dropped)) := by
  have := execute_total (run := ArenaOp.run cfg d) (Ok := fun a l => a.Inv cfg ∧ a.Holds l)
    (valid := ArenaValid) (vin := Spec.ArenaOp.valuesIn) (vout := Spec.ArenaOp.valuesOut)
    (bal := fun a l => l.map (·.2) ++ a.dropped) (after := Spec.ArenaOp.after)
    (fun a l op h hv => invalid_ub h.1 h.2 d op hv) (fun a l op h hv => by
      obtain ⟨o, a', l', h1, h2, h3, h4, h5⟩ := step h.1 h.2 hd op hv
      have := answer_after (h.2.nodup h.1) h4
      subst this
      exact ⟨o, a', h1, ⟨h2, h3⟩, h5 hn⟩) ops a l ⟨hi, h⟩
  rw [he] at this
  obtain ⟨⟨h1, h2⟩, h3⟩ := this hub
  exact ⟨h1, h2, h3⟩

/-- The contents do not depend on whether the elements have destructors. -/
theorem history_holds {d : DropInfo T} (hd : ∀ v, d.panics v = false)
    (hi : a.Inv cfg) (h : a.Holds l) (ops : List (ArenaOp T)) {os : List (Out (StoreRet T))}
    {a' : Arena T} (he : execute (ArenaOp.run cfg d) ops a = (os, a')) (hub : ∀ o ∈ os, o ≠ .ub) :
    a'.Inv cfg ∧ a'.Holds (contents Spec.ArenaOp.after ops os l) := by
  have := execute_total (run := ArenaOp.run cfg d) (Ok := fun a l => a.Inv cfg ∧ a.Holds l)
    (α := Unit) (valid := ArenaValid) (vin := fun _ _ => []) (vout := fun _ _ => [])
    (bal := fun a l => []) (after := Spec.ArenaOp.after)
    (fun a l op h hv => invalid_ub h.1 h.2 d op hv) (fun a l op h hv => by
      obtain ⟨o, a', l', h1, h2, h3, h4, h5⟩ := step h.1 h.2 hd op hv
      have := answer_after (h.2.nodup h.1) h4
      subst this
      exact ⟨o, a', h1, ⟨h2, h3⟩, List.Perm.refl _⟩) ops a l ⟨hi, h⟩
  rw [he] at this
  exact (this hub).1

theorem history_safe {d : DropInfo T} (hd : ∀ v, d.panics v = false)
    (hi : a.Inv cfg) (h : a.Holds l) (ops : List (ArenaOp T)) {os : List (Out (StoreRet T))}
    {a' : Arena T} (he : execute (ArenaOp.run cfg d) ops a = (os, a'))
    (hob : Obeys ArenaValid Spec.ArenaOp.after ops os l) : ∀ o ∈ os, o ≠ .ub := by
  have := execute_obeys (run := ArenaOp.run cfg d) (Ok := fun a l => a.Inv cfg ∧ a.Holds l)
    (valid := ArenaValid) (after := Spec.ArenaOp.after) (fun a l op h hv => by
      obtain ⟨o, a', l', h1, h2, h3, h4, h5⟩ := step h.1 h.2 hd op hv
      have h6 := answer_safe h4
      have := answer_after (h.2.nodup h.1) h4
      subst this
      exact ⟨o, a', h1, ⟨h2, h3⟩, h6.1⟩) ops a l ⟨hi, h⟩
  rw [he] at this
  exact this hob

/-! ### Equality of arenas -/

theorem Holds.eq_loop {b : Arena T} (veq : T → T → Bool) (hi : a.Inv cfg) (hj : b.Inv cfg) :
    ∀ {m x n y : List (Ptr × T)} (fuel : Nat), a.Holds (x ++ m) → b.Holds (y ++ n) →
      m.length = n.length → m.length < fuel →
    loop fuel (fun (st : Iter × Iter) => (do
      let (x, i) ← st.1.next cfg a
      match x with
      | none => pure (.inr true)
      | some v1 =>
        let (y, j) ← st.2.next cfg b
        match y with
        | none => pure (.inr true)
        | some v2 => if veq v1 v2 then pure (.inl (i, j)) else pure (.inr false) :
        Out ((Iter × Iter) ⊕ Bool)))
      (⟨x.length, x.length + m.length⟩, ⟨y.length, y.length + n.length⟩) =
    .ok ((m.zip n).all fun e => veq e.1.2 e.2.2) := by
  intro m
  induction m with
  | nil =>
    intro x n y fuel h h' hl hf
    obtain ⟨k, rfl⟩ : ∃ k, fuel = k + 1 := ⟨fuel - 1, by omega⟩
    have h1 := (Holds.next (x := x) (m := []) (y := []) (by simpa using h) hi).1
    rw [loopO_inr (a := true)]
    · simp
    · simp only [Iter.next, List.length_nil, Nat.add_zero] at h1 ⊢
      rw [h1]
      rfl
  | cons e m ih =>
    intro x n y fuel h h' hl hf
    obtain ⟨k, rfl⟩ : ∃ k, fuel = k + 1 := ⟨fuel - 1, by omega⟩
    cases n with
    | nil => cases hl
    | cons f n =>
      have h1 := (Holds.next (x := x) (m := e :: m) (y := []) (by simpa using h) hi).1
      have h2 := (Holds.next (x := y) (m := f :: n) (y := []) (by simpa using h') hj).1
      by_cases hv : veq e.2 f.2 = true
      · have := ih (x := x ++ [e]) (n := n) (y := y ++ [f]) k (by simpa using h) (by simpa using h')
          (by simpa using hl) (by simpa using hf)
        rw [loopO_inl (b' := (⟨(x ++ [e]).length, (x ++ [e]).length + m.length⟩,
          ⟨(y ++ [f]).length, (y ++ [f]).length + n.length⟩)), this]
        · simp [hv]
        · simp only [Iter.next, List.length_cons] at h1 h2 ⊢
          rw [h1]
          simp only [Out.ok_bind, Out.pure_eq, List.head?_cons, Option.map_some]
          rw [h2]
          simp [hv]
          omega
      · rw [loopO_inr (a := false)]
        · simp [hv]
        · simp only [Iter.next, List.length_cons] at h1 h2 ⊢
          rw [h1]
          simp only [Out.ok_bind, Out.pure_eq, List.head?_cons, Option.map_some]
          rw [h2]
          simp [hv]

theorem Holds.eq {b : Arena T} {l' : List (Ptr × T)} (h : a.Holds l) (h' : b.Holds l') (hi : a.Inv cfg)
    (hj : b.Inv cfg) (veq : T → T → Bool) : Arena.eq cfg veq a b =
      .ok (l.length == l'.length && (l.zip l').all fun e => veq e.1.2 e.2.2) := by
  unfold Arena.eq
  by_cases hl : a.len = b.len
  · rw [if_neg (by simpa using hl)]
    have := Holds.eq_loop (a := a) (b := b) (cfg := cfg) veq hi hj (x := []) (m := l) (y := []) (n := l') (a.len + 1)
      (by simpa using h) (by simpa using h') (by rw [h.length, h'.length, hl]) (by rw [h.length]; omega)
    simp only [List.length_nil, Nat.zero_add] at this
    rw [h.length, h'.length] at this
    refine Eq.trans this ?_
    rw [h.length, h'.length, hl]
    simp
  · rw [if_pos hl, h.length, h'.length]
    simp [hl]

end Arena
end BST
