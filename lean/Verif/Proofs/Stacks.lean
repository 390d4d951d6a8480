import Verif.Model.StackedBorrows
import Verif.Proofs.Aliasing
set_option linter.unusedSimpArgs false
/-!
# Borrow stacks and the heap: computation lemmas
-/
namespace BST

namespace BorrowStack
variable {s : BorrowStack} {t n : Nat}

/-- A list cut at the first element with property `q`. -/
theorem cut {α : Type} (q : α → Bool) {l : List α} {x : α} (hx : x ∈ l) (hq : q x = true) :
    ∃ g below, l.dropWhile (fun i => !q i) = g :: below ∧ q g = true ∧ x ∈ g :: below ∧
      l = l.takeWhile (fun i => !q i) ++ g :: below := by
  induction l with
  | nil => cases hx
  | cons a l ih =>
    cases ha : q a with
    | true => exact ⟨a, l, by simp [ha], ha, hx, by simp [ha]⟩
    | false =>
      have hx' : x ∈ l := by
        rcases List.mem_cons.1 hx with rfl | h
        · rw [hq] at ha; cases ha
        · exact h
      obtain ⟨g, below, h1, h2, h3, h4⟩ := ih hx'
      exact ⟨g, below, by simp [ha, h1], h2, h3, by
        simp only [List.takeWhile_cons, ha, Bool.not_false, if_true, List.cons_append]; rw [← h4]⟩

theorem grants_tag {i : Item} {w : Bool} (h : i.grants w t = true) : i.tag = t := by
  simp only [Item.grants, Bool.and_eq_true, beq_iff_eq] at h; exact h.1

theorem grants_rw (w : Bool) (t : Nat) : (⟨t, .sharedRW⟩ : Item).grants w t = true := by
  simp [Item.grants]
theorem grants_unique (w : Bool) (t : Nat) : (⟨t, .unique⟩ : Item).grants w t = true := by
  simp [Item.grants]
theorem grants_ro (t : Nat) : (⟨t, .sharedRO⟩ : Item).grants false t = true := by
  simp [Item.grants]

theorem run_subset (g : Item) (above : BorrowStack) {i : Item} (h : i ∈ run g above) : i ∈ above := by
  unfold run at h
  split at h
  · exact List.mem_reverse.1 ((List.takeWhile_sublist _).subset (List.mem_reverse.1 h))
  · cases h

theorem write_mem {i : Item} (hi : i ∈ s) (hg : i.grants true t = true) :
    ∃ s', s.write t = some s' ∧ i ∈ s' ∧ ∀ j ∈ s', j ∈ s := by
  obtain ⟨g, below, h1, h2, h3, h4⟩ := cut (fun i => i.grants true t) hi hg
  refine ⟨_, by unfold write; rw [h1], List.mem_append_right _ h3, fun j hj => ?_⟩
  rw [h4]
  rcases List.mem_append.1 hj with h | h
  · exact List.mem_append_left _ (run_subset _ _ h)
  · exact List.mem_append_right _ h

theorem read_mem {i : Item} (hi : i ∈ s) (hg : i.grants false t = true) :
    ∃ s', s.read t = some s' ∧ (∀ j ∈ s, j.perm ≠ .unique → j ∈ s') ∧
      ∀ j ∈ s', ∃ k ∈ s, j.tag = k.tag := by
  obtain ⟨g, below, h1, h2, h3, h4⟩ := cut (fun i => i.grants false t) hi hg
  refine ⟨_, by unfold read; rw [h1], fun j hj hu => ?_, fun j hj => ?_⟩
  · rw [h4] at hj
    rcases List.mem_append.1 hj with h | h
    · exact List.mem_append_left _ (List.mem_map.2 ⟨j, h, by simp [hu]⟩)
    · exact List.mem_append_right _ h
  · rcases List.mem_append.1 hj with h | h
    · obtain ⟨k, hk, rfl⟩ := List.mem_map.1 h
      exact ⟨k, by rw [h4]; exact List.mem_append_left _ hk, by split <;> rfl⟩
    · exact ⟨j, by rw [h4]; exact List.mem_append_right _ h, rfl⟩

theorem read_head {g : Item} (hg : g.grants false t = true) : read t (g :: s) = some (g :: s) := by
  simp [read, hg]
theorem write_head {g : Item} (hg : g.grants true t = true) : write t (g :: s) = some (g :: s) := by
  simp [write, hg, run]
theorem derive_excl_head {g : Item} (hg : g.grants true t = true) :
    derive .excl t n (g :: s) = some (⟨n, .unique⟩ :: g :: s) := by
  simp [derive, write_head hg]
theorem derive_raw_head {g : Item} (hg : g.grants true t = true) :
    derive .raw t n (g :: s) = some (⟨n, .sharedRW⟩ :: g :: s) := by
  simp [derive, hg, run]

theorem dropWhile_none {w : Bool} (h : ∀ i ∈ s, i.tag ≠ t) :
    s.dropWhile (fun i => !i.grants w t) = [] := by
  induction s with
  | nil => rfl
  | cons i s ih =>
    cases hg : i.grants w t with
    | true => exact absurd (grants_tag hg) (h i (List.mem_cons_self ..))
    | false =>
      rw [List.dropWhile_cons, hg]
      exact ih fun j hj => h j (List.mem_cons_of_mem _ hj)
theorem write_none (h : ∀ i ∈ s, i.tag ≠ t) : s.write t = none := by
  unfold write; rw [dropWhile_none h]
theorem read_none (h : ∀ i ∈ s, i.tag ≠ t) : s.read t = none := by
  unfold read; rw [dropWhile_none h]
theorem derive_none (k : RefKind) (h : ∀ i ∈ s, i.tag ≠ t) : s.derive k t n = none := by
  cases k with
  | excl => simp [derive, write_none h]
  | shared => simp [derive, read_none h]
  | raw => unfold derive; simp only; rw [dropWhile_none h]

theorem write_tags {s s' : BorrowStack} (h : s.write t = some s') : ∀ j ∈ s', j ∈ s := by
  unfold write at h
  split at h
  · cases h
  · rename_i g below hd
    cases h
    have h4 := List.takeWhile_append_dropWhile (p := fun i : Item => !i.grants true t) (l := s)
    rw [hd] at h4
    intro j hj
    rw [← h4]
    rcases List.mem_append.1 hj with h | h
    · exact List.mem_append_left _ (run_subset _ _ h)
    · exact List.mem_append_right _ h

end BorrowStack

namespace Borrows
variable {h h' : Borrows} {p q : Ptr} {n t : Nat} {f : BorrowStack → Option BorrowStack}

/-- The borrow stack of a location. -/
def stackAt (h : Borrows) (p : Ptr) : Option BorrowStack :=
  (h.blocks.find? fun c => c.id == p.block).bind fun c => c.stacks[p.off]?

/-- The allocations and their sizes. -/
def layout (h : Borrows) : List (Nat × Nat) := h.blocks.map fun b => (b.id, b.stacks.length)

theorem mapAll_some {l : List BorrowStack} (hl : ∀ x ∈ l, ∃ y, f x = some y) :
    ∃ l' : List BorrowStack, mapAll f l = some l' ∧ l'.length = l.length ∧ ∀ j : Nat, l'[j]? = (l[j]?).bind f := by
  induction l with
  | nil => exact ⟨[], rfl, rfl, by simp⟩
  | cons x l ih =>
    obtain ⟨y, hy⟩ := hl x (List.mem_cons_self ..)
    obtain ⟨l', h1, h2, h3⟩ := ih fun x hx => hl x (List.mem_cons_of_mem _ hx)
    refine ⟨y :: l', by simp [mapAll, hy, h1], by simp [h2], fun j => ?_⟩
    cases j with
    | zero => simp [hy]
    | succ j => simp [h3]

theorem mapAll_none {l : List BorrowStack} {x : BorrowStack} (hx : x ∈ l) (hf : f x = none) :
    mapAll f l = none := by
  induction l with
  | nil => cases hx
  | cons a l ih =>
    rcases List.mem_cons.1 hx with rfl | h
    · simp [mapAll, hf]
    · simp only [mapAll, ih h]; cases f a <;> rfl

theorem find_map_id {l : List Block} {g : Block → Block} (hg : ∀ b, (g b).id = b.id) (i : Nat) :
    (l.map g).find? (fun c => c.id == i) = (l.find? fun c => c.id == i).map g := by
  induction l with
  | nil => rfl
  | cons b l ih =>
    simp only [List.map_cons, List.find?_cons, hg, ih]
    cases b.id == i <;> rfl

theorem stackAt_layout : (∃ st, h.stackAt p = some st) ↔
    ∃ n, (h.layout.find? fun e => e.1 == p.block) = some (p.block, n) ∧ p.off < n := by
  unfold stackAt layout
  rw [List.find?_map]
  have he : ((fun e : Nat × Nat => e.1 == p.block) ∘ fun b : Block => (b.id, b.stacks.length)) =
    fun c => c.id == p.block := rfl
  rw [he]
  cases hb : h.blocks.find? fun c => c.id == p.block with
  | none => simp
  | some b =>
    have hid : b.id = p.block := by simpa using List.find?_some hb
    simp only [Option.bind_some, Option.map_some, Option.some.injEq, Prod.mk.injEq]
    constructor
    · rintro ⟨st, hst⟩
      exact ⟨_, ⟨hid, rfl⟩, (List.getElem?_eq_some_iff.1 hst).1⟩
    · rintro ⟨n, ⟨_, rfl⟩, hn⟩
      exact ⟨_, List.getElem?_eq_getElem hn⟩

theorem eq_of_id {l : List Block} (hd : (l.map (·.id)).Nodup) {b c : Block} (hb : b ∈ l)
    (hc : c ∈ l) (he : b.id = c.id) : b = c := by
  induction l with
  | nil => cases hb
  | cons a l ih =>
    rw [List.map_cons, List.nodup_cons] at hd
    rcases List.mem_cons.1 hb with hba | hb'
    · rcases List.mem_cons.1 hc with hca | hc'
      · rw [hba, hca]
      · exact absurd (List.mem_map.2 ⟨c, hc', by rw [← he, hba]⟩) hd.1
    · rcases List.mem_cons.1 hc with hca | hc'
      · exact absurd (List.mem_map.2 ⟨b, hb', by rw [he, hca]⟩) hd.1
      · exact ih hd.2 hb' hc'

theorem onRange_ok (hd : (h.blocks.map (·.id)).Nodup) (hn : 0 < n)
    (hr : ∀ q, Within q p n → ∃ st st', h.stackAt q = some st ∧ f st = some st') :
    ∃ h', onRange p n f h = (.ok (), h') ∧ h'.layout = h.layout ∧ h'.next = h.next ∧
      (h'.blocks.filter fun b => b.id ≠ p.block) = (h.blocks.filter fun b => b.id ≠ p.block) ∧
      ∀ q, h'.stackAt q = if Within q p n then (h.stackAt q).bind f else h.stackAt q := by
  have hat : ∀ q : Ptr, q.block = p.block → h.stackAt q =
      (h.blocks.find? fun c => c.id == p.block).bind fun c => c.stacks[q.off]? := by
    intro q hq; unfold stackAt; rw [hq]
  unfold onRange
  cases hb : h.blocks.find? fun c => c.id == p.block with
  | none =>
    obtain ⟨st, _, h1, _⟩ := hr p ⟨rfl, Nat.le_refl _, by omega⟩
    rw [hat p rfl, hb] at h1; cases h1
  | some c =>
    have hid : c.id = p.block := by simpa using List.find?_some hb
    rw [hb] at hat
    simp only [Option.bind_some] at hat
    have hlen : p.off + n ≤ c.stacks.length := by
      obtain ⟨st, _, h1, _⟩ := hr ⟨p.block, p.off + (n - 1)⟩ ⟨rfl, by simp, by simp; omega⟩
      rw [hat ⟨p.block, p.off + (n - 1)⟩ rfl] at h1
      have := (List.getElem?_eq_some_iff.1 h1).1
      simp only at this; omega
    have hlen' : ¬ c.stacks.length < p.off + n := by omega
    simp only [if_neg hlen']
    have hl : ∀ x ∈ (c.stacks.drop p.off).take n, ∃ y, f x = some y := by
      intro x hx
      obtain ⟨j, hj⟩ := List.mem_iff_getElem?.1 hx
      rw [List.getElem?_take] at hj
      split at hj
      · rename_i hjn
        rw [List.getElem?_drop] at hj
        obtain ⟨st, st', h1, h2⟩ := hr ⟨p.block, p.off + j⟩ ⟨rfl, by simp, by simp [hjn]⟩
        rw [hat ⟨p.block, p.off + j⟩ rfl, hj] at h1
        cases h1; exact ⟨st', h2⟩
      · cases hj
    obtain ⟨l', e1, e2, e3⟩ := mapAll_some hl
    simp only [e1]
    have hl' : l'.length = n := by
      rw [e2, List.length_take, List.length_drop]; omega
    refine ⟨_, rfl, ?_, rfl, ?_, fun q => ?_⟩
    · unfold layout
      rw [List.map_map]
      apply List.map_congr_left
      intro b hbm
      simp only [Function.comp]
      split
      · rename_i hbi
        rw [eq_of_id hd hbm (List.mem_of_find?_eq_some hb) (hbi.trans hid.symm)]
        simp only [List.length_append, List.length_take, List.length_drop, hl']
        congr 1; omega
      · rfl
    · rw [List.filter_map]
      have : ((fun b : Block => decide (b.id ≠ p.block)) ∘ fun c' : Block =>
          if c'.id = p.block then
            { c' with stacks := c.stacks.take p.off ++ (l' ++ c.stacks.drop (p.off + n)) }
          else c') = fun b : Block => decide (b.id ≠ p.block) := by
        funext b; simp only [Function.comp]; split <;> rfl
      rw [this]
      conv => rhs; rw [← List.map_id (h.blocks.filter _)]
      apply List.map_congr_left
      intro b hbm
      have := (List.mem_filter.1 hbm).2
      simp only [decide_eq_true_eq] at this
      simp [this]
    · unfold stackAt
      simp only
      rw [find_map_id (by intro b; split <;> rfl)]
      by_cases hq : q.block = p.block
      · rw [hq, hb]
        simp only [Option.map_some, Option.bind_some, hid, if_true, Within, hq, true_and]
        rw [List.getElem?_append, List.getElem?_append, List.length_take, hl', e3,
          List.getElem?_take, List.getElem?_take, List.getElem?_drop, List.getElem?_drop]
        have hm : min p.off c.stacks.length = p.off := by omega
        rw [hm]
        by_cases h1 : q.off < p.off
        · have : ¬ (p.off ≤ q.off ∧ q.off < p.off + n) := by omega
          simp [h1, this]
        · by_cases h2 : q.off < p.off + n
          · have h3 : q.off - p.off < n := by omega
            have h4 : p.off + (q.off - p.off) = q.off := by omega
            have h5 : p.off ≤ q.off := by omega
            simp [h1, h2, h3, h4, h5]
          · have h3 : ¬ q.off - p.off < n := by omega
            have h4 : p.off + n + (q.off - p.off - n) = q.off := by omega
            simp [h1, h2, h3, h4]
      · have hw : ¬ Within q p n := fun hw => hq hw.1
        rw [if_neg hw]
        cases hf : h.blocks.find? fun c => c.id == q.block with
        | none => rfl
        | some b =>
          have hbi : b.id = q.block := by simpa using List.find?_some hf
          have : b.id ≠ p.block := by rw [hbi]; exact hq
          simp [this]

theorem onRange_ub (hw : Within q p n) (hf : ∀ st, h.stackAt q = some st → f st = none) :
    onRange p n f h = (.ub, h) := by
  unfold onRange
  unfold stackAt at hf
  rw [hw.1] at hf
  cases hb : h.blocks.find? fun c => c.id == p.block with
  | none => rfl
  | some c =>
    rw [hb] at hf
    simp only [Option.bind_some] at hf
    simp only
    split
    · rfl
    · rename_i hl
      have hq : q.off < c.stacks.length := by have := hw.2.2; omega
      have hm : c.stacks[q.off] ∈ (c.stacks.drop p.off).take n := by
        apply List.mem_iff_getElem?.2 ⟨q.off - p.off, _⟩
        have h1 : q.off - p.off < n := by have := hw.2; omega
        have h2 : p.off + (q.off - p.off) = q.off := by have := hw.2.1; omega
        rw [List.getElem?_take, if_pos h1, List.getElem?_drop, h2, List.getElem?_eq_getElem hq]
      rw [mapAll_none hm (hf _ (List.getElem?_eq_getElem hq))]

/-- `onRange` succeeds or is undefined; in the latter case nothing changes. -/
theorem onRange_cases (p : Ptr) (n : Nat) (f : BorrowStack → Option BorrowStack) (h : Borrows) :
    (∃ h', onRange p n f h = (.ok (), h')) ∨ onRange p n f h = (.ub, h) := by
  unfold onRange
  split
  · exact .inr rfl
  · split
    · exact .inr rfl
    · split
      · exact .inr rfl
      · exact .inl ⟨_, rfl⟩

theorem derive_ok (k : RefKind) (t : Nat) (hd : (h.blocks.map (·.id)).Nodup) (hn : 0 < n)
    (hr : ∀ q, Within q p n → ∃ st st', h.stackAt q = some st ∧
      st.derive k t h.next = some st') :
    ∃ h', derive k t p n h = (.ok h.next, h') ∧ h'.layout = h.layout ∧ h'.next = h.next + 1 ∧
      ∀ q, h'.stackAt q =
        if Within q p n then (h.stackAt q).bind (BorrowStack.derive k t h.next) else h.stackAt q := by
  obtain ⟨h1, e, el, en, _, es⟩ := onRange_ok hd hn hr
  refine ⟨{ h1 with next := h1.next + 1 }, ?_, el, by rw [← en], es⟩
  unfold derive
  rw [M.get_bind, M.bind_ok e, M.modify_bind]
  rfl

theorem derive_ub (k : RefKind) (t : Nat) (hw : Within q p n)
    (hf : ∀ st, h.stackAt q = some st → st.derive k t h.next = none) :
    derive k t p n h = (.ub, h) := by
  unfold derive
  rw [M.get_bind, M.bind_apply, onRange_ub hw hf]

theorem find_filter_ne {l : List Block} {i j : Nat} (hij : j ≠ i) :
    (l.filter fun c => c.id ≠ i).find? (fun c => c.id == j) = l.find? fun c => c.id == j := by
  induction l with
  | nil => rfl
  | cons b l ih =>
    by_cases hb : b.id = i
    · have h1 : (b.id == j) = false := by simp; omega
      simp only [List.filter_cons, hb, ne_eq, not_true, decide_false, if_false, List.find?_cons]
      simp only [ne_eq] at ih
      rw [hb] at h1
      simp only [Bool.false_eq_true, if_false, h1]
      exact ih
    · simp only [ne_eq] at ih
      simp only [List.filter_cons, hb, ne_eq, not_false_iff, decide_true, if_true, List.find?_cons,
        ih]

theorem deallocate_ok {id : Nat} (hd : (h.blocks.map (·.id)).Nodup) (hn : 0 < n)
    (hl : (id, n) ∈ h.layout)
    (hr : ∀ q st, q.block = id → h.stackAt q = some st → ∃ st', st.write t = some st') :
    deallocate t id n h =
      (.ok (), { h with blocks := h.blocks.filter fun c => c.id ≠ id }) := by
  obtain ⟨b, hbm, hbe⟩ := List.mem_map.1 hl
  cases hbe
  have hf : h.blocks.find? (fun c => c.id == b.id) = some b := by
    cases hf : h.blocks.find? (fun c => c.id == b.id) with
    | none => exact absurd (List.find?_eq_none.1 hf b hbm) (by simp)
    | some c =>
      have : c.id = b.id := by simpa using List.find?_some hf
      rw [eq_of_id hd (List.mem_of_find?_eq_some hf) hbm this]
  obtain ⟨h', e1, e2, e3, e4, e5⟩ := onRange_ok (p := ⟨b.id, 0⟩) (f := BorrowStack.write t) hd hn
    (fun q hq => by
      have hlt : q.off < b.stacks.length := by have := hq.2.2; simpa using this
      have hst : h.stackAt q = some (b.stacks[q.off]'hlt) := by
        unfold stackAt; rw [hq.1]; simp only [hf, Option.bind_some]
        exact List.getElem?_eq_getElem hlt
      obtain ⟨st', hst'⟩ := hr q _ hq.1 hst
      exact ⟨_, st', hst, hst'⟩)
  unfold deallocate
  rw [M.get_bind]
  simp only [hf, Option.any_some, beq_self_eq_true, if_true]
  rw [M.bind_ok e1, M.modify_apply]
  have e4' : (h'.blocks.filter fun b' => decide (b'.id ≠ b.id)) =
    h.blocks.filter fun b' => decide (b'.id ≠ b.id) := e4
  rw [e4']
  congr 1
  rw [show h.next = h'.next from e3.symm]

theorem deallocate_ub {id : Nat} (hw : Within q ⟨id, 0⟩ n)
    (hf : ∀ st, h.stackAt q = some st → st.write t = none) :
    deallocate t id n h = (.ub, h) := by
  unfold deallocate
  rw [M.get_bind]
  split
  · rw [M.bind_apply, onRange_ub hw hf]
  · rfl

end Borrows
end BST
