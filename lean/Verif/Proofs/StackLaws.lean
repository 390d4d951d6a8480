import Verif.Proofs.Stacks
import Verif.Proofs.Tagged
import Verif.Borrowing
set_option linter.unusedSimpArgs false
/-!
# Stacked Borrows obeys the laws
-/
namespace BST

namespace BorrowStack
variable {s s' : BorrowStack} {t n : Nat}

theorem getLast_cut {α : Type} {a b : List α} {g : α} {below : List α} {l : List α}
    (h : l = a ++ g :: below) : (b ++ g :: below).getLast? = l.getLast? := by
  rw [h, List.getLast?_append, List.getLast?_append, List.getLast?_cons]; rfl

theorem cut_eq {w : Bool} {g : Item} {below : BorrowStack}
    (hd : s.dropWhile (fun i => !i.grants w t) = g :: below) :
    s = s.takeWhile (fun i => !i.grants w t) ++ g :: below := by
  rw [← hd, List.takeWhile_append_dropWhile]

theorem write_last (h : s.write t = some s') : s'.getLast? = s.getLast? := by
  unfold write at h
  split at h
  · cases h
  · rename_i g below hd
    cases h
    exact getLast_cut (cut_eq hd)

theorem read_last (h : s.read t = some s') : s'.getLast? = s.getLast? := by
  unfold read at h
  split at h
  · cases h
  · rename_i g below hd
    cases h
    exact getLast_cut (cut_eq hd)

theorem read_tags (h : s.read t = some s') : ∀ j ∈ s', ∃ k ∈ s, j.tag = k.tag := by
  unfold read at h
  split at h
  · cases h
  · rename_i g below hd
    cases h
    have h4 := cut_eq hd
    intro j hj
    rcases List.mem_append.1 hj with h | h
    · obtain ⟨k, hk, rfl⟩ := List.mem_map.1 h
      exact ⟨k, by rw [h4]; exact List.mem_append_left _ hk, by split <;> rfl⟩
    · exact ⟨j, by rw [h4]; exact List.mem_append_right _ h, rfl⟩

theorem read_keeps (h : s.read t = some s') : ∀ i ∈ s, i.perm = .sharedRO → i ∈ s' := by
  unfold read at h
  split at h
  · cases h
  · rename_i g below hd
    cases h
    have h4 := cut_eq hd
    intro j hj hr
    rw [h4] at hj
    rcases List.mem_append.1 hj with h | h
    · exact List.mem_append_left _ (List.mem_map.2 ⟨j, h, by simp [hr]⟩)
    · exact List.mem_append_right _ h

theorem write_ne (h : s.write t = some s') : s' ≠ [] := by
  unfold write at h
  split at h
  · cases h
  · cases h; simp
theorem read_ne (h : s.read t = some s') : s' ≠ [] := by
  unfold read at h
  split at h
  · cases h
  · cases h; simp

theorem getLast_cons {α : Type} {l : List α} (h : l ≠ []) (a : α) :
    (a :: l).getLast? = l.getLast? := by
  cases l with
  | nil => exact absurd rfl h
  | cons b l => simp

theorem derive_some {k : RefKind} (h : s.derive k t n = some s') :
    s'.getLast? = s.getLast? ∧ ∀ j ∈ s', j.tag = n ∨ ∃ i ∈ s, j.tag = i.tag := by
  cases k with
  | excl =>
    simp only [derive, Option.map_eq_some_iff] at h
    obtain ⟨s1, h1, rfl⟩ := h
    refine ⟨(getLast_cons (write_ne h1) _).trans (write_last h1), fun j hj => ?_⟩
    rcases List.mem_cons.1 hj with rfl | hj
    · exact .inl rfl
    · exact .inr ⟨j, write_tags h1 j hj, rfl⟩
  | shared =>
    simp only [derive, Option.map_eq_some_iff] at h
    obtain ⟨s1, h1, rfl⟩ := h
    refine ⟨(getLast_cons (read_ne h1) _).trans (read_last h1), fun j hj => ?_⟩
    rcases List.mem_cons.1 hj with rfl | hj
    · exact .inl rfl
    · exact .inr (read_tags h1 j hj)
  | raw =>
    unfold derive at h
    simp only at h
    split at h
    · cases h
    · rename_i g below hd
      have h4 := cut_eq hd
      simp only [Option.some.injEq] at h
      subst h
      refine ⟨?_, fun j hj => ?_⟩
      · have : ∀ (a b : BorrowStack) (x : Item), a ++ x :: (b ++ g :: below) = (a ++ x :: b) ++ g :: below := by
          simp
        rw [this]
        exact getLast_cut h4
      · rcases List.mem_append.1 hj with hj | hj
        · exact .inr ⟨j, by rw [h4]; exact List.mem_append_left _ (List.mem_of_mem_take hj), rfl⟩
        · rcases List.mem_cons.1 hj with rfl | hj
          · exact .inl rfl
          · rcases List.mem_append.1 hj with hj | hj
            · exact .inr ⟨j, by rw [h4]; exact List.mem_append_left _ (run_subset _ _ hj), rfl⟩
            · exact .inr ⟨j, by rw [h4]; exact List.mem_append_right _ hj, rfl⟩

theorem grants_read {g : Item} {w : Bool} (h : g.grants true t = true) : g.grants w t = true := by
  unfold Item.grants at h ⊢
  cases w <;> cases hp : g.perm <;> simp_all

end BorrowStack

namespace Borrows
variable {h h' : Borrows} {p q : Ptr} {n t : Nat}

/-- Tags under Stacked Borrows. The tag of an allocation is at the bottom of all its stacks. -/
def view : AliasView Borrows where
  layout := layout
  Wf h := (h.blocks.map (·.id)).Nodup ∧ ∀ p st, h.stackAt p = some st → ∀ i ∈ st, i.tag < h.next
  Owns h b t := ∀ p st, p.block = b → h.stackAt p = some st → st.getLast? = some ⟨t, .sharedRW⟩
  Whole h b t := ∀ p st, p.block = b → h.stackAt p = some st → st.getLast? = some ⟨t, .sharedRW⟩
  Top h p t := ∃ g rest, h.stackAt p = some (g :: rest) ∧ g.grants true t = true
  Seen h p t := ∃ st, h.stackAt p = some st ∧ (⟨t, .sharedRO⟩ : Item) ∈ st
  Sound how := how = .asPtr

theorem ids_layout (h : Borrows) : h.blocks.map (·.id) = h.layout.map (·.1) := by
  unfold layout; rw [List.map_map]; rfl

theorem nodup_of_layout (hd : (h.blocks.map (·.id)).Nodup) (hl : h'.layout = h.layout) :
    (h'.blocks.map (·.id)).Nodup := by
  rw [ids_layout] at hd ⊢
  rw [hl]; exact hd

theorem keep_of_eq (e : h'.stackAt q = h.stackAt q) : view.Keep h h' q := by
  refine ⟨fun t ht => ?_, fun t ht => ?_⟩
  · obtain ⟨g, rest, h1, h2⟩ := ht
    exact ⟨g, rest, e.trans h1, h2⟩
  · obtain ⟨st, h1, h2⟩ := ht
    exact ⟨st, e.trans h1, h2⟩

theorem step_of (hw : view.Wf h) (hl : h'.layout = h.layout)
    (hq : ∀ q st', h'.stackAt q = some st' → ∃ st, h.stackAt q = some st ∧
      st'.getLast? = st.getLast? ∧ ∀ i ∈ st', i.tag < h'.next) : view.Step h h' where
  wf := ⟨nodup_of_layout hw.1 hl, fun p st' hp => by
    obtain ⟨st, _, _, h3⟩ := hq p st' hp
    exact h3⟩
  layout := hl
  owns b t ho p st' hb hp := by
    obtain ⟨st, h1, h2, _⟩ := hq p st' hp
    exact h2.trans (ho p st hb h1)

theorem find_of_mem (hd : (h.blocks.map (·.id)).Nodup) {b : Block} (hb : b ∈ h.blocks) :
    h.blocks.find? (fun c => c.id == b.id) = some b := by
  cases hf : h.blocks.find? (fun c => c.id == b.id) with
  | none => exact absurd (List.find?_eq_none.1 hf b hb) (by simp)
  | some c =>
    have : c.id = b.id := by simpa using List.find?_some hf
    rw [eq_of_id hd (List.mem_of_find?_eq_some hf) hb this]

theorem stack_of_layout (hd : (h.blocks.map (·.id)).Nodup) {id : Nat} (hl : (id, n) ∈ h.layout)
    (hq : q.block = id) (ho : q.off < n) : ∃ st, h.stackAt q = some st := by
  obtain ⟨b, hbm, hbe⟩ := List.mem_map.1 hl
  cases hbe
  refine ⟨b.stacks[q.off], ?_⟩
  unfold stackAt
  rw [hq]
  simp only [find_of_mem hd hbm, Option.bind_some]
  exact List.getElem?_eq_getElem ho

theorem stack_of_inside (hw : view.Wf h) (hi : view.Inside h p n) (hq : Within q p n) :
    ∃ st, h.stackAt q = some st := by
  obtain ⟨m, hm, hle⟩ := hi
  refine stack_of_layout hw.1 hm hq.1 ?_
  have := hq.2.2; omega

theorem derive_step (hw : view.Wf h) {k : RefKind} (hn : 0 < n)
    (hr : ∀ q, Within q p n → ∃ st st', h.stackAt q = some st ∧ st.derive k t h.next = some st') :
    ∃ h', derive k t p n h = (.ok h.next, h') ∧ view.Step h h' ∧
      (∀ q st, Within q p n → h.stackAt q = some st → h'.stackAt q = st.derive k t h.next) ∧
      ∀ q, ¬ Within q p n → view.Keep h h' q := by
  obtain ⟨h', e, el, en, es⟩ := derive_ok k t hw.1 hn hr
  refine ⟨h', e, step_of hw el fun q st' hst' => ?_, fun q st hq hst => ?_, fun q hq => ?_⟩
  · rw [es] at hst'
    split at hst'
    · rename_i hq
      obtain ⟨st, _, h1, _⟩ := hr q hq
      rw [h1] at hst'
      obtain ⟨h2, h3⟩ := BorrowStack.derive_some (by simpa using hst')
      refine ⟨st, h1, h2, fun i hi => ?_⟩
      rw [en]
      rcases h3 i hi with h | ⟨j, hj, h⟩
      · omega
      · have := hw.2 q st h1 j hj
        omega
    · exact ⟨st', hst', rfl, fun i hi => by rw [en]; have := hw.2 q st' hst' i hi; omega⟩
  · rw [es, if_pos hq, hst]; rfl
  · exact keep_of_eq (by rw [es, if_neg hq])

theorem access_step (hw : view.Wf h) {w : Bool} {st st' : BorrowStack} (hp : h.stackAt p = some st)
    (hf : (if w = true then BorrowStack.write t else BorrowStack.read t) st = some st') :
    ∃ h', access w t p h = (.ok (), h') ∧ view.Step h h' ∧ h'.stackAt p = some st' ∧
      ∀ q, q ≠ p → view.Keep h h' q := by
  obtain ⟨h', e, el, en, _, es⟩ := onRange_ok (p := p) (n := 1)
    (f := if w = true then BorrowStack.write t else BorrowStack.read t) hw.1 Nat.one_pos fun q hq => by
      rw [within_one.1 hq]
      exact ⟨_, _, hp, hf⟩
  refine ⟨h', e, step_of hw el fun q st1 hst1 => ?_, ?_, fun q hq => ?_⟩
  · rw [es] at hst1
    split at hst1
    · rename_i hq
      rw [within_one.1 hq, hp] at hst1
      rw [within_one.1 hq]
      simp only [Option.bind_some] at hst1
      refine ⟨st, hp, ?_, fun i hi => ?_⟩
      · cases w with
        | true => exact BorrowStack.write_last hst1
        | false => exact BorrowStack.read_last hst1
      · rw [en]
        cases w with
        | true => exact hw.2 p st hp i (BorrowStack.write_tags hst1 i hi)
        | false =>
          obtain ⟨j, hj, he⟩ := BorrowStack.read_tags hst1 i hi
          rw [he]; exact hw.2 p st hp j hj
    · exact ⟨st1, hst1, rfl, fun i hi => by rw [en]; exact hw.2 q st1 hst1 i hi⟩
  · rw [es, if_pos (within_one.2 rfl), hp]; exact hf
  · exact keep_of_eq (by rw [es, if_neg fun hw => hq (within_one.1 hw)])

theorem onRange_keeps {f : BorrowStack → Option BorrowStack}
    (hf : ∀ s s', f s = some s' → ∀ i ∈ s, i.perm = .sharedRO → i ∈ s') (p : Ptr) (h : Borrows)
    (q : Ptr) (t : Nat) (hs : view.Seen h q t) : view.Seen (onRange p 1 f h).2 q t := by
  obtain ⟨st, hst, hi⟩ := hs
  unfold onRange
  cases hb : h.blocks.find? fun c => c.id == p.block with
  | none => exact ⟨st, hst, hi⟩
  | some c =>
    simp only
    split
    · exact ⟨st, hst, hi⟩
    · rename_i hlen
      have hl : p.off < c.stacks.length := by omega
      have e : (c.stacks.drop p.off).take 1 = [c.stacks[p.off]] := by
        rw [List.drop_eq_getElem_cons hl]; rfl
      rw [e]
      cases hx : f c.stacks[p.off] with
      | none => simp only [mapAll, hx]; exact ⟨st, hst, hi⟩
      | some y =>
        have e2 : mapAll f [c.stacks[p.off]] = some [y] := by simp [mapAll, hx]
        rw [e2]
        have hid : c.id = p.block := by simpa using List.find?_some hb
        unfold view
        unfold stackAt at hst ⊢
        simp only
        rw [find_map_id (fun b => by split <;> rfl)]
        by_cases hq : q.block = p.block
        · rw [hq, hb] at hst ⊢
          simp only [Option.bind_some, Option.map_some, hid, if_true] at hst ⊢
          have e3 : c.stacks.take p.off ++ ([y] ++ c.stacks.drop (p.off + 1)) = c.stacks.set p.off y := by
            rw [List.set_eq_take_append_cons_drop, if_pos hl]; rfl
          rw [e3]
          by_cases ho : q.off = p.off
          · rw [ho] at hst ⊢
            rw [List.getElem?_eq_getElem hl] at hst
            cases hst
            exact ⟨y, by simp [hl], hf _ _ hx _ hi rfl⟩
          · exact ⟨st, by rw [List.getElem?_set_ne (Ne.symm ho)]; exact hst, hi⟩
        · refine ⟨st, ?_, hi⟩
          cases hb' : h.blocks.find? fun c => c.id == q.block with
          | none => rw [hb'] at hst; cases hst
          | some c' =>
            have hid' : c'.id = q.block := by simpa using List.find?_some hb'
            rw [hb'] at hst
            simp only [Option.bind_some, Option.map_some] at hst ⊢
            rw [if_neg (by rw [hid']; exact hq)]
            exact hst

/-- A derivation succeeds or is undefined; other locations are not affected. -/
theorem derive_cases (hd : (h.blocks.map (·.id)).Nodup) (hn : 0 < n) (k : RefKind) (t : Nat)
    (p : Ptr) :
    (∃ h', derive k t p n h = (.ok h.next, h') ∧ h'.layout = h.layout ∧ h'.next = h.next + 1 ∧
      ∀ q, ¬ Within q p n → h'.stackAt q = h.stackAt q) ∨ derive k t p n h = (.ub, h) := by
  by_cases hr : ∀ q, Within q p n → ∃ st st', h.stackAt q = some st ∧
      st.derive k t h.next = some st'
  · obtain ⟨h', e, el, en, es⟩ := derive_ok k t hd hn hr
    exact .inl ⟨h', e, el, en, fun q hq => by rw [es, if_neg hq]⟩
  · simp only [Classical.not_forall] at hr
    obtain ⟨q, hq, hno⟩ := hr
    refine .inr (derive_ub k t hq fun st hst => ?_)
    cases hst' : st.derive k t h.next with
    | none => rfl
    | some st' => exact absurd ⟨st, st', hst, hst'⟩ hno

/-- What `chunk.as_mut()` is good for: the first element only. -/
theorem chunkPtr_asMut (hd : (h.blocks.map (·.id)).Nodup) (t id : Nat) :
    (∃ t' h', Tagged.chunkPtr .asMut t id h = (.ok t', h') ∧ h'.layout = h.layout ∧ h.next ≤ t' ∧
      t' < h'.next ∧ ∀ q, q ≠ ⟨id, 0⟩ → h'.stackAt q = h.stackAt q) ∨
    (Tagged.chunkPtr .asMut t id h).1 = .ub := by
  unfold Tagged.chunkPtr
  simp only
  show (∃ t' h', (derive .excl t ⟨id, 0⟩ 1 >>= fun r => derive .raw r ⟨id, 0⟩ 1) h = _ ∧ _) ∨
    ((derive .excl t ⟨id, 0⟩ 1 >>= fun r => derive .raw r ⟨id, 0⟩ 1) h).1 = _
  rcases derive_cases hd Nat.one_pos .excl t ⟨id, 0⟩ with ⟨h1, e1, el1, en1, es1⟩ | e1
  · rw [M.bind_ok e1]
    rcases derive_cases (nodup_of_layout hd el1) Nat.one_pos .raw h.next ⟨id, 0⟩ with
      ⟨h2, e2, el2, en2, es2⟩ | e2
    · refine .inl ⟨_, h2, e2, el2.trans el1, by omega, by omega, fun q hq => ?_⟩
      rw [es2 q fun hw => hq (within_one.1 hw), es1 q fun hw => hq (within_one.1 hw)]
    · exact .inr (by rw [e2])
  · exact .inr (by rw [M.bind_apply, e1])

/-- The pointer is not good for the second element. -/
theorem foreign {t' id n : Nat} (hf : ∀ p st, h.stackAt p = some st → ∀ i ∈ st, i.tag < h.next)
    (hn : 2 ≤ n) (ht : h.next ≤ t') (hs : ∀ q, q ≠ ⟨id, 0⟩ → h'.stackAt q = h.stackAt q) :
    ∃ q, Within q ⟨id, 0⟩ n ∧ ∀ st, h'.stackAt q = some st → ∀ i ∈ st, i.tag ≠ t' := by
  refine ⟨⟨id, 1⟩, ⟨rfl, by simp, by simp; omega⟩, fun st hst i hi => ?_⟩
  rw [hs _ (by simp)] at hst
  have := hf _ st hst i hi
  omega

theorem whole_grants {st : BorrowStack} (h1 : view.Whole h q.block t) (h2 : h.stackAt q = some st) :
    (⟨t, .sharedRW⟩ : Item) ∈ st := List.mem_of_getLast? (h1 q st rfl h2)

theorem stackAt_append {id : Nat} (hn : id ∉ h.layout.map (·.1)) (l : List BorrowStack) (k : Nat) :
    ∀ q, stackAt { blocks := h.blocks ++ [{ id, stacks := l }], next := k } q =
      if q.block = id then l[q.off]? else h.stackAt q := by
  intro q
  unfold stackAt
  simp only
  rw [List.find?_append]
  by_cases hq : q.block = id
  · rw [if_pos hq]
    have : h.blocks.find? (fun b => b.id == q.block) = none := by
      rw [List.find?_eq_none]
      intro b hb hbe
      simp only [beq_iff_eq] at hbe
      rw [← ids_layout] at hn
      exact hn (by rw [← hq, ← hbe]; exact List.mem_map.2 ⟨b, hb, rfl⟩)
    rw [this]
    simp [hq]
  · rw [if_neg hq]
    have : (id == q.block) = false := by
      simp only [beq_eq_false_iff_ne, ne_eq]; exact fun h => hq h.symm
    simp [List.find?_cons, this]

theorem stackAt_filter {id : Nat} (q : Ptr) :
    stackAt { h with blocks := h.blocks.filter fun c => c.id ≠ id } q =
      if q.block = id then none else h.stackAt q := by
  unfold stackAt
  simp only
  split
  · rename_i hq
    rw [Option.bind_eq_none_iff]
    intro b hb
    have h1 := List.find?_some hb
    have h2 := (List.mem_filter.1 (List.mem_of_find?_eq_some hb)).2
    simp only [beq_iff_eq] at h1
    simp only [decide_eq_true_eq] at h2
    exact absurd (h1.trans hq) h2
  · rename_i hq
    rw [find_filter_ne hq]

end Borrows

open Borrows in
instance : AliasLaws Borrows where
  toAliasView := Borrows.view
  empty_wf := ⟨List.nodup_nil, fun _ _ h => by cases h⟩
  empty_layout := rfl
  nodup hw := by
    have := hw.1
    rw [ids_layout] at this
    exact this
  whole h := h
  allocate_ok {h id n} hw hn := by
    have hat := stackAt_append hn (List.replicate n [({ tag := h.next, perm := .sharedRW } : Item)])
      (h.next + 1)
    refine ⟨h.next, _, rfl, ⟨⟨?_, fun p st hp i hi => ?_⟩, fun b t hb ho p st hp hst => ?_, fun q hq =>
      keep_of_eq (by rw [hat, if_neg hq])⟩, ?_, fun p st hp hst => ?_⟩
    · rw [List.map_append, List.nodup_append]
      refine ⟨hw.1, by simp, fun a ha b hb => ?_⟩
      simp only [List.map_cons, List.map_nil, List.mem_singleton] at hb
      subst hb
      rw [ids_layout] at ha
      exact fun h => hn (h ▸ ha)
    · rw [hat] at hp
      show i.tag < h.next + 1
      split at hp
      · rw [List.getElem?_replicate] at hp
        split at hp
        · cases hp
          rw [List.mem_singleton.1 hi]
          exact Nat.lt_succ_self _
        · cases hp
      · exact Nat.lt_succ_of_lt (hw.2 p st hp i hi)
    · rw [hat, if_neg (by rw [hp]; exact hb)] at hst
      exact ho p st hp hst
    · show Borrows.layout _ = _
      unfold Borrows.layout
      rw [List.map_append]
      simp only [List.map_cons, List.map_nil, List.length_replicate]
      rfl
    · rw [hat, if_pos hp, List.getElem?_replicate] at hst
      split at hst
      · cases hst; rfl
      · cases hst
  deallocate_ok {h t id n} hw ho hl hn := by
    have e := deallocate_ok (t := t) hw.1 hn hl fun q st hq hst => by
      obtain ⟨st', h1, _⟩ := BorrowStack.write_mem (whole_grants (by rw [hq]; exact ho) hst)
        (BorrowStack.grants_rw ..)
      exact ⟨st', h1⟩
    refine ⟨_, e, ⟨⟨?_, fun p st hp => ?_⟩, fun b t' hb ho' p st hp hst => ?_, fun q hq => ?_⟩, ?_⟩
    · exact List.Nodup.sublist (List.Sublist.map _ List.filter_sublist) hw.1
    · rw [stackAt_filter] at hp
      split at hp
      · cases hp
      · exact hw.2 p st hp
    · rw [stackAt_filter] at hst
      split at hst
      · cases hst
      · exact ho' p st hp hst
    · exact keep_of_eq (by rw [stackAt_filter, if_neg hq])
    · show Borrows.layout _ = List.filter _ (Borrows.layout h)
      unfold Borrows.layout
      rw [List.filter_map]
      rfl
  derive_excl {h t p n} hw ho hi hn := by
    have hwr : ∀ q st, Within q p n → h.stackAt q = some st → ∃ st', st.write t = some st' :=
      fun q st hq hst => by
        obtain ⟨st', h1, _⟩ := BorrowStack.write_mem (whole_grants (by rw [hq.1]; exact ho) hst)
          (BorrowStack.grants_rw ..)
        exact ⟨st', h1⟩
    obtain ⟨h', e, hs, hin, hout⟩ := derive_step (k := .excl) (t := t) hw hn fun q hq => by
      obtain ⟨st, hst⟩ := stack_of_inside hw hi hq
      obtain ⟨st', h1⟩ := hwr q st hq hst
      exact ⟨st, _, hst, by simp only [BorrowStack.derive, h1]; rfl⟩
    refine ⟨_, h', e, hs, fun q hq => ?_, hout⟩
    obtain ⟨st, hst⟩ := stack_of_inside hw hi hq
    obtain ⟨st', h1⟩ := hwr q st hq hst
    refine ⟨⟨h.next, .unique⟩, st', ?_, BorrowStack.grants_unique ..⟩
    rw [hin q st hq hst]
    simp only [BorrowStack.derive, h1]; rfl
  derive_shared {h t p} hw ho hi := by
    obtain ⟨st, hst⟩ := stack_of_inside hw hi (within_one.2 rfl)
    obtain ⟨st', h1, _⟩ := BorrowStack.read_mem (whole_grants ho hst) (BorrowStack.grants_rw ..)
    obtain ⟨h', e, hs, hin, hout⟩ := derive_step (k := .shared) (p := p) (n := 1) (t := t) hw
      Nat.one_pos fun q hq => by
        rw [within_one.1 hq]
        exact ⟨st, _, hst, by simp only [BorrowStack.derive, h1]; rfl⟩
    refine ⟨_, h', e, hs, ⟨⟨h.next, .sharedRO⟩ :: st', ?_, List.mem_cons_self ..⟩, fun q hq =>
      hout q fun hw => hq (within_one.1 hw)⟩
    rw [hin p st (within_one.2 rfl) hst]
    simp only [BorrowStack.derive, h1]; rfl
  derive_top {h k t p n} hw hk hn ht := by
    have hd : ∀ g rest, g.grants true t = true → ∃ i, i.grants true h.next = true ∧
        BorrowStack.derive k t h.next (g :: rest) = some (i :: g :: rest) := fun g rest hg => by
      cases k with
      | excl => exact ⟨_, BorrowStack.grants_unique .., BorrowStack.derive_excl_head hg⟩
      | raw => exact ⟨_, BorrowStack.grants_rw .., BorrowStack.derive_raw_head hg⟩
      | shared => exact absurd rfl hk
    obtain ⟨h', e, hs, hin, hout⟩ := derive_step (k := k) (t := t) hw hn fun q hq => by
      obtain ⟨g, rest, h1, h2⟩ := ht q hq
      obtain ⟨i, _, h3⟩ := hd g rest h2
      exact ⟨_, _, h1, h3⟩
    refine ⟨_, h', e, hs, fun q hq => ?_, hout⟩
    obtain ⟨g, rest, h1, h2⟩ := ht q hq
    obtain ⟨i, h4, h3⟩ := hd g rest h2
    exact ⟨i, _, (hin q _ hq h1).trans h3, h4⟩
  access_top {h w t p} hw ht := by
    obtain ⟨g, rest, h1, h2⟩ := ht
    obtain ⟨h', e, hs, hin, hout⟩ := access_step (w := w) (t := t) (st' := g :: rest) hw h1 (by
      cases w with
      | true => exact BorrowStack.write_head h2
      | false => exact BorrowStack.read_head (BorrowStack.grants_read h2))
    exact ⟨h', e, hs, ⟨g, rest, hin, h2⟩, hout⟩
  access_seen {h t p} hw ht := by
    obtain ⟨st, h1, h2⟩ := ht
    obtain ⟨st', h3, _⟩ := BorrowStack.read_mem h2 (BorrowStack.grants_ro t)
    obtain ⟨h', e, hs, hin, hout⟩ := access_step (w := false) (t := t) hw h1 h3
    exact ⟨h', e, hs, hout⟩
  access_keeps h t p q t' hs := onRange_keeps (fun _ _ h => BorrowStack.read_keeps h) p h q t' hs
  derive_keeps h t p q t' hs := by
    have hk := onRange_keeps (f := BorrowStack.derive .shared t h.next) (fun s s' hs i hi hr => by
      simp only [BorrowStack.derive, Option.map_eq_some_iff] at hs
      obtain ⟨s1, h1, rfl⟩ := hs
      exact List.mem_cons_of_mem _ (BorrowStack.read_keeps h1 i hi hr)) p h q t' hs
    show Borrows.view.Seen (Borrows.derive .shared t p 1 h).2 q t'
    unfold Borrows.derive
    rw [M.get_bind, M.bind_apply]
    rcases ho : onRange p 1 (BorrowStack.derive .shared t h.next) h with ⟨o, h'⟩
    rw [ho] at hk
    cases o <;> exact hk
  chunk_ok {h how t id n} hh hw ho hl hn := by
    have : how = .asPtr := hh
    subst this
    exact ⟨t, h, rfl, .refl hw, ho, fun q _ => .refl h q⟩
  chunk_ub {h how id n} t hh hw hn := by
    have : how = .asMut := by
      cases how with
      | asMut => rfl
      | asPtr => exact absurd rfl hh
    subst this
    rcases chunkPtr_asMut hw.1 t id with ⟨t', h', e, el, ht, _, es⟩ | e
    · obtain ⟨q, hq, hq'⟩ := foreign hw.2 hn ht es
      rw [M.bind_ok e, M.bind_ok e]
      constructor
      · show (Borrows.derive .excl t' ⟨id, 0⟩ n h').1 = .ub
        rw [derive_ub _ _ hq fun st hst => BorrowStack.derive_none _ (hq' st hst)]
      · show (Borrows.deallocate t' id n h').1 = .ub
        rw [deallocate_ub hq fun st hst => BorrowStack.write_none (hq' st hst)]
    · constructor <;>
      · rw [M.bind_apply]
        rcases hx : Tagged.chunkPtr .asMut t id h with ⟨o, s⟩
        rw [hx] at e; simp only at e; subst e; rfl

namespace Borrows


theorem not_sound : ¬ (AliasLaws.view Borrows).Sound .asMut := fun h => by cases h

theorem asMut_of {how : ChunkPtr} (h : ¬ (AliasLaws.view Borrows).Sound how) : how = .asMut := by
  cases how with
  | asMut => rfl
  | asPtr => exact absurd rfl h

theorem blocks_nil {h : Borrows} (hl : (AliasLaws.view Borrows).layout h = []) : h.blocks = [] :=
  List.map_eq_nil_iff.1 hl

theorem wf_of_fitting {T : Type} {cfg : Cfg} {s : Tagged Borrows T} (hi : s.arena.Inv cfg)
    (hf : Spec.Fitting s) : (AliasLaws.view Borrows).Wf s.heap := by
  refine ⟨?_, fun p st hp => ?_⟩
  · have h1 : s.heap.blocks.map (·.id) = s.arena.chunks.map (·.id) := by
      have := congrArg (List.map Prod.fst) hf.blocks
      rw [List.map_map, List.map_map] at this
      exact this
    rw [h1]
    exact hi.ids
  · unfold stackAt at hp
    obtain ⟨b, hb, hst⟩ := Option.bind_eq_some_iff.1 hp
    exact hf.fresh b (List.mem_of_find?_eq_some hb) st (List.mem_of_getElem? hst)

end Borrows
end BST
