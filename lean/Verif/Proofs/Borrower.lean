import Verif.Proofs.Tagged
import Verif.Proofs.Storage
set_option linter.unusedSimpArgs false
set_option linter.unusedSectionVars false
/-!
# Clients that keep references
-/
namespace BST
open Spec (Live BorrowValid Obeys contents)
variable {H T : Type} [Aliasing H] [AliasLaws H] {cfg : Cfg}

namespace Borrower
open Tagged AliasLaws
variable {s : Borrower H T} {l : Live}

/-- A reference with tag `t` can still be used. -/
def LiveAt (h : H) (p : Ptr) (t : Nat) (m : Bool) : Prop :=
  if m then (view H).Top h p t else (view H).Seen h p t

theorem LiveAt.keep {h h' : H} {p : Ptr} {t : Nat} {m : Bool} (hl : LiveAt h p t m)
    (hk : (view H).Keep h h' p) : LiveAt h' p t m := by
  cases m with
  | true => exact hk.1 t hl
  | false => exact hk.2 t hl

structure Ok (cfg : Cfg) (s : Borrower H T) (l : Live) : Prop where
  good : s.store.Good cfg
  ptrs : ∀ p ∈ l.ptrs, (s.store.arena.cell p).isSome
  count : s.refs.length = l.count
  live : ∀ r p m, (r, p, m) ∈ l.refs → p ∈ l.ptrs ∧ ∃ t, s.refs[r]? = some (t, p) ∧
    LiveAt s.store.heap p t m
  excl : ∀ r p m r', (r, p, true) ∈ l.refs → (r', p, m) ∈ l.refs → r' = r ∧ m = true

theorem Ok.keeps (h : Ok cfg s l) {s' : Tagged H T} (hk : Keeps cfg s.store s') :
    Ok cfg { s with store := s' } l where
  good := hk.good
  ptrs p hp := hk.cell p (h.ptrs p hp)
  count := h.count
  live r p m hr := by
    obtain ⟨h1, t, h2, h3⟩ := h.live r p m hr
    exact ⟨h1, t, h2, h3.keep (hk.keep p (h.ptrs p h1))⟩
  excl := h.excl

theorem on_eq {α : Type} {f : M (Tagged H T) α} {o : Out α} {t : Tagged H T}
    (e : f s.store = (o, t)) : Borrower.on f s = (o, { s with store := t }) := by
  unfold Borrower.on; rw [e]

/-- A new reference was stored. -/
theorem get_old {refs : List (Nat × Ptr)} {e e' : Nat × Ptr} {r : Nat} (h : refs[r]? = some e) :
    (refs ++ [e'])[r]? = some e := by
  have := (List.getElem?_eq_some_iff.1 h).1
  rw [List.getElem?_append_left this]; exact h

theorem step (how : ChunkPtr) (nd : Bool) (op : BorrowOp T) (h : Ok cfg s l)
    (hv : BorrowValid l op) :
    ∃ o s', op.run cfg how nd s = (o, s') ∧
      ((o ≠ .ub ∧ Ok cfg s' (Spec.BorrowOp.after l op o)) ∨
        (o = .ub ∧ ¬ (view H).Sound how ∧ (op = .shrinkToFit ∨ op = .clear ∧ nd = true))) := by
  cases op with
  | alloc v =>
    rcases alloc_keeps h.good v with ⟨p, s', e, hk, hp, hn, _⟩ | ⟨e, _⟩ | ⟨e, _⟩
    · refine ⟨_, { s with store := s' }, by
        simp only [BorrowOp.run]; rw [M.bind_ok (on_eq e)]; rfl, .inl ⟨by simp, ?_⟩⟩
      have h' := h.keeps hk
      exact ⟨h'.good, fun q hq => by
        rcases List.mem_append.1 hq with hq | hq
        · exact h'.ptrs q hq
        · rw [List.mem_singleton.1 hq]; exact hp,
        h'.count, fun r q m hr => by
          obtain ⟨h1, h2⟩ := h'.live r q m hr
          exact ⟨List.mem_append_left _ h1, h2⟩, h'.excl⟩
    · exact ⟨_, _, by simp only [BorrowOp.run]; rw [M.bind_panic (on_eq e)],
        .inl ⟨by simp, h⟩⟩
    · exact ⟨_, _, by simp only [BorrowOp.run]; rw [M.bind_abort (on_eq e)],
        .inl ⟨by simp, h⟩⟩
  | get p =>
    have hp := h.ptrs p hv
    obtain ⟨t0, h', e, hst, hi, ho, hkeep⟩ := getUnchecked_ok h.good hp
    have hg := h.good.setHeap hst
    refine ⟨_, { store := { s.store with heap := h' }, refs := s.refs ++ [(t0, p)] },
      by simp only [BorrowOp.run]; rw [M.bind_ok (on_eq e)]; rfl, .inl ⟨by simp, ?_⟩⟩
    refine ⟨hg, h.ptrs, by simp [Spec.BorrowOp.after, h.count], fun r q m hr => ?_,
      fun r q m r' hr hr' => ?_⟩
    · rcases List.mem_cons.1 hr with hr | hr
      · cases hr
        refine ⟨hv, t0, ?_, hi⟩
        rw [← h.count]; simp
      · obtain ⟨hr, hc⟩ := List.mem_filter.1 hr
        obtain ⟨h1, t, h2, h3⟩ := h.live r q m hr
        refine ⟨h1, t, get_old h2, ?_⟩
        by_cases hq : q = p
        · subst hq
          have hm : m = false := by simpa using hc
          subst hm
          exact hkeep _ _ h3
        · exact h3.keep (ho q hq)
    · rcases List.mem_cons.1 hr with hr | hr
      · cases hr
      · obtain ⟨hr, hc⟩ := List.mem_filter.1 hr
        have hq : q ≠ p := by simpa using hc
        rcases List.mem_cons.1 hr' with hr' | hr'
        · cases hr'; exact absurd rfl hq
        · exact h.excl r q m r' hr (List.mem_filter.1 hr').1
  | getMut p =>
    have hp := h.ptrs p hv
    obtain ⟨t0, h', e, hst, hi, ho⟩ := getUncheckedMut_ok h.good hp
    have hg := h.good.setHeap hst
    refine ⟨_, { store := { s.store with heap := h' }, refs := s.refs ++ [(t0, p)] },
      by simp only [BorrowOp.run]; rw [M.bind_ok (on_eq e)]; rfl, .inl ⟨by simp, ?_⟩⟩
    refine ⟨hg, h.ptrs, by simp [Spec.BorrowOp.after, h.count], fun r q m hr => ?_,
      fun r q m r' hr hr' => ?_⟩
    · rcases List.mem_cons.1 hr with hr | hr
      · cases hr
        refine ⟨hv, t0, ?_, hi⟩
        rw [← h.count]; simp
      · obtain ⟨hr, hc⟩ := List.mem_filter.1 hr
        have hq : q ≠ p := by simpa using hc
        obtain ⟨h1, t, h2, h3⟩ := h.live r q m hr
        exact ⟨h1, t, get_old h2, h3.keep (ho q hq)⟩
    · rcases List.mem_cons.1 hr with hr | hr
      · cases hr
        rcases List.mem_cons.1 hr' with hr' | hr'
        · cases hr'; exact ⟨rfl, rfl⟩
        · have := (List.mem_filter.1 hr').2
          simp at this
      · obtain ⟨hr, hc⟩ := List.mem_filter.1 hr
        have hq : q ≠ p := by simpa using hc
        rcases List.mem_cons.1 hr' with hr' | hr'
        · cases hr'; exact absurd rfl hq
        · exact h.excl r q m r' hr (List.mem_filter.1 hr').1
  | reserve n =>
    obtain ⟨o, s', e, hk, ho, _⟩ := reserve_keeps h.good n
    have h' := h.keeps hk
    rcases ho with rfl | rfl | rfl
    · exact ⟨_, _, by simp only [BorrowOp.run]; rw [M.bind_ok (on_eq e)]; rfl,
        .inl ⟨by simp, h'⟩⟩
    · exact ⟨_, _, by simp only [BorrowOp.run]; rw [M.bind_panic (on_eq e)],
        .inl ⟨by simp, h'⟩⟩
    · exact ⟨_, _, by simp only [BorrowOp.run]; rw [M.bind_abort (on_eq e)],
        .inl ⟨by simp, h'⟩⟩
  | shrinkToFit =>
    rcases shrinkToFit_keeps h.good how with ⟨s', e, hk, _⟩ | ⟨hm, e⟩
    · exact ⟨_, _, by simp only [BorrowOp.run]; rw [M.bind_ok (on_eq e)]; rfl,
        .inl ⟨by simp, h.keeps hk⟩⟩
    · rcases hx : Tagged.shrinkToFit cfg how s.store with ⟨o, t⟩
      rw [hx] at e; simp only at e; subst e
      exact ⟨.ub, _, by simp only [BorrowOp.run]; rw [M.bind_apply, on_eq hx],
        .inr ⟨rfl, hm, .inl rfl⟩⟩
  | clear =>
    rcases clear_good h.good how nd with ⟨s', e, hg, _⟩ | ⟨hm, hnd, _, e⟩
    · refine ⟨_, { s with store := s' }, by
        simp only [BorrowOp.run]; rw [M.bind_ok (on_eq e)]; rfl, .inl ⟨by simp, ?_⟩⟩
      exact ⟨hg, fun _ hp => (by cases hp), h.count, fun _ _ _ hr => (by cases hr),
        fun _ _ _ _ hr => (by cases hr)⟩
    · rcases hx : Tagged.clear cfg how nd s.store with ⟨o, t⟩
      rw [hx] at e; simp only at e; subst e
      exact ⟨.ub, _, by simp only [BorrowOp.run]; rw [M.bind_apply, on_eq hx],
        .inr ⟨rfl, hm, .inr ⟨rfl, hnd⟩⟩⟩
  | use w r =>
    obtain ⟨p, m, hr, hw⟩ := hv
    obtain ⟨h1, t, h2, h3⟩ := h.live r p m hr
    have hrun : ∀ h', Aliasing.access w t p s.store.heap = (.ok (), h') →
        (BorrowOp.use w r : BorrowOp T).run cfg how nd s =
          (.ok .unit, { s with store := { s.store with heap := h' } }) := fun h' e => by
      simp only [BorrowOp.run]
      rw [M.get_bind]
      simp only [h2]
      rw [M.bind_ok (on_eq (onHeap_ok e))]; rfl
    cases m with
    | true =>
      obtain ⟨h', e, hs, ht, ho⟩ := access_top (w := w) h.good.sane.wf h3
      refine ⟨_, _, hrun h' e, .inl ⟨by simp, h.good.setHeap hs, h.ptrs, h.count,
        fun r' q m' hr' => ?_, h.excl⟩⟩
      obtain ⟨g1, t', g2, g3⟩ := h.live r' q m' hr'
      refine ⟨g1, t', g2, ?_⟩
      by_cases hq : q = p
      · subst hq
        obtain ⟨rfl, rfl⟩ := h.excl r q m' r' hr hr'
        rw [h2] at g2; cases g2
        exact ht
      · exact g3.keep (ho q hq)
    | false =>
      have hwf : w = false := by
        cases w with
        | false => rfl
        | true => exact absurd (hw rfl) (by simp)
      subst hwf
      obtain ⟨h', e, hs, ho⟩ := access_seen h.good.sane.wf h3
      refine ⟨_, _, hrun h' e, .inl ⟨by simp, h.good.setHeap hs, h.ptrs, h.count,
        fun r' q m' hr' => ?_, h.excl⟩⟩
      obtain ⟨g1, t', g2, g3⟩ := h.live r' q m' hr'
      refine ⟨g1, t', g2, ?_⟩
      by_cases hq : q = p
      · subst hq
        have hm' : m' = false := by
          cases m' with
          | false => rfl
          | true => exact absurd (h.excl r' q false r hr' hr).2 (by simp)
        subst hm'
        have hk := access_keeps s.store.heap t q q t' g3
        rw [e] at hk
        exact hk
      · exact g3.keep (ho q hq)

theorem ok_new : Ok cfg (.new : Borrower H T) .none := by
  refine ⟨⟨Arena.inv_new cfg, rfl, empty_layout, empty_wf, ?_⟩, ?_, rfl, ?_, ?_⟩
  · intro _ _ h; cases h
  · intro _ h; cases h
  · intro _ _ _ h; cases h
  · intro _ _ _ _ h; cases h

end Borrower

/-- If calls that obey the contract keep an invariant, except for those that are to blame. -/
theorem execute_blame {S O R C : Type} {run : O → M S R} {valid : C → O → Prop}
    {Ok : S → C → Prop} {after : C → O → Out R → C} {blame : O → Prop}
    (hstep : ∀ s c op, Ok s c → valid c op → ∃ o s', run op s = (o, s') ∧
      ((o ≠ .ub ∧ Ok s' (after c op o)) ∨ (o = .ub ∧ blame op)))
    (ops : List O) : ∀ s c, Ok s c → Obeys valid after ops (execute run ops s).1 c →
      (∀ x ∈ ops.zip (execute run ops s).1, x.2 = .ub → blame x.1) ∧
      ((∀ o ∈ (execute run ops s).1, o ≠ .ub) →
        Ok (execute run ops s).2 (contents after ops (execute run ops s).1 c)) := by
  induction ops with
  | nil => intro s c hok _; exact ⟨by simp, fun _ => hok⟩
  | cons op ops ih =>
    intro s c hok hob
    have hv : valid c op := by
      unfold execute at hob
      generalize hr : run op s = r at hob
      obtain ⟨o, s'⟩ := r
      cases o <;> exact hob.1
    obtain ⟨o, s', h1, h2⟩ := hstep s c op hok hv
    unfold execute at hob ⊢
    rw [h1] at hob ⊢
    cases o with
    | ok r =>
      obtain ⟨_, h2⟩ := h2.resolve_right (by simp)
      obtain ⟨i1, i2⟩ := ih s' _ h2 hob.2
      refine ⟨fun x hx hu => ?_, fun hno => ?_⟩
      · rcases List.mem_cons.1 hx with rfl | hx
        · cases hu
        · exact i1 x hx hu
      · exact i2 fun o ho => hno o (List.mem_cons_of_mem _ ho)
    | panic =>
      obtain ⟨_, h2⟩ := h2.resolve_right (by simp)
      obtain ⟨i1, i2⟩ := ih s' _ h2 hob.2
      refine ⟨fun x hx hu => ?_, fun hno => ?_⟩
      · rcases List.mem_cons.1 hx with rfl | hx
        · cases hu
        · exact i1 x hx hu
      · exact i2 fun o ho => hno o (List.mem_cons_of_mem _ ho)
    | abort =>
      obtain ⟨_, h2⟩ := h2.resolve_right (by simp)
      refine ⟨fun x hx hu => ?_, fun _ => by simpa [contents] using h2⟩
      simp only [List.zip_cons_cons, List.zip_nil_right, List.mem_singleton] at hx
      rw [hx] at hu; cases hu
    | ub =>
      have hb := (h2.resolve_left (by simp)).2
      refine ⟨fun x hx _ => ?_, fun hno => absurd rfl (hno _ (List.mem_singleton.2 rfl))⟩
      simp only [List.zip_cons_cons, List.zip_nil_right, List.mem_singleton] at hx
      rw [hx]; exact hb
    | diverge =>
      obtain ⟨_, h2⟩ := h2.resolve_right (by simp)
      refine ⟨fun x hx hu => ?_, fun _ => by simpa [contents] using h2⟩
      simp only [List.zip_cons_cons, List.zip_nil_right, List.mem_singleton] at hx
      rw [hx] at hu; cases hu

theorem execute_length {S O R : Type} (run : O → M S R) (ops : List O) (s : S) :
    (execute run ops s).1.length ≤ ops.length := by
  induction ops generalizing s with
  | nil => exact Nat.le_refl _
  | cons op ops ih =>
    unfold execute
    rcases run op s with ⟨o, s'⟩
    have := ih s'
    cases o <;> simp only [List.length_cons, List.length_nil] <;> omega

theorem mem_zip_right {α β : Type} {l : List α} {m : List β} (hl : m.length ≤ l.length) {b : β}
    (hb : b ∈ m) : ∃ a, (a, b) ∈ l.zip m := by
  induction m generalizing l with
  | nil => cases hb
  | cons x m ih =>
    cases l with
    | nil => simp at hl
    | cons a l =>
      rcases List.mem_cons.1 hb with rfl | hb
      · exact ⟨a, List.mem_cons_self ..⟩
      · obtain ⟨a', h⟩ := ih (by simpa using hl) hb
        exact ⟨a', List.mem_cons_of_mem _ h⟩

namespace Borrower
open AliasLaws (view)

theorem history (how : ChunkPtr) (nd : Bool) (ops : List (BorrowOp T))
    (hob : Obeys BorrowValid Spec.BorrowOp.after ops
      (execute (BorrowOp.run cfg how nd) ops (.new : Borrower H T)).1 .none) :
    (∀ x ∈ ops.zip (execute (BorrowOp.run cfg how nd) ops (.new : Borrower H T)).1, x.2 = .ub →
      ¬ (view H).Sound how ∧ (x.1 = .shrinkToFit ∨ x.1 = .clear ∧ nd = true)) ∧
    ((∀ o ∈ (execute (BorrowOp.run cfg how nd) ops (.new : Borrower H T)).1, o ≠ .ub) →
      Ok cfg (execute (BorrowOp.run cfg how nd) ops (.new : Borrower H T)).2
        (contents Spec.BorrowOp.after ops
          (execute (BorrowOp.run cfg how nd) ops (.new : Borrower H T)).1 .none)) :=
  execute_blame (Ok := Ok cfg) (blame := fun op => ¬ (view H).Sound how ∧ (op = .shrinkToFit ∨
    op = .clear ∧ nd = true)) (fun _ _ op h hv => step how nd op h hv) ops _ _ ok_new hob

end Borrower
end BST
