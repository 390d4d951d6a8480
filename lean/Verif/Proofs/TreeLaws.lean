import Verif.Model.TreeBorrows
import Verif.Proofs.Tagged
set_option linter.unusedSimpArgs false
/-!
# Tree Borrows obeys the laws
-/
namespace BST

namespace TreePerm

theorem allows_read {p : TreePerm} (h : p.allows true = true) (w : Bool) : p.allows w = true := by
  cases p <;> cases w <;> simp_all [allows]

theorem after_mine {p : TreePerm} (h : p.allows true = true) (w : Bool) :
    (p.after true w).allows true = true := by
  cases p <;> cases w <;> simp_all [allows, after]

theorem after_read {p : TreePerm} (h : p.allows false = true) (mine : Bool) :
    (p.after mine false).allows false = true := by
  cases p <;> cases mine <;> simp_all [allows, after]

end TreePerm

namespace BorrowTree
variable {l l' : BorrowTree} {t n : Nat} {w : Bool}

/-- The pointer with tag `t` may be used to write (read), now and after reads. -/
def Usable (w : Bool) (l : BorrowTree) (t : Nat) : Prop :=
  ∃ b, l.node t = some b ∧ ∀ x ∈ l, x.leadsTo b = true → x.perm.allows w = true

/-- The pointer with tag `t` is the root. -/
structure Root (l : BorrowTree) (t : Nat) : Prop where
  node : ∃ b, l.node t = some b ∧ b.above = []
  perm : ∀ x ∈ l, x.tag = t → x.perm = .active
  top : ∀ x ∈ l, x.tag ≠ t → t ∈ x.above

/-- All tags are old. -/
def Old (n : Nat) (l : BorrowTree) : Prop := ∀ x ∈ l, x.tag < n ∧ ∀ a ∈ x.above, a < n

theorem node_some {b : TreeNode} (h : l.node t = some b) : b ∈ l ∧ b.tag = t :=
  ⟨List.mem_of_find?_eq_some h, by simpa using List.find?_some h⟩

theorem Usable.weaken (h : Usable true l t) : Usable w l t := by
  obtain ⟨b, h1, h2⟩ := h
  exact ⟨b, h1, fun x hx hb => TreePerm.allows_read (h2 x hx hb) w⟩

theorem Root.usable (h : Root l t) : Usable true l t := by
  obtain ⟨b, h1, h2⟩ := h.node
  refine ⟨b, h1, fun x hx hb => ?_⟩
  unfold TreeNode.leadsTo at hb
  rw [h2, (node_some h1).2] at hb
  rw [h.perm x hx (by simpa using hb)]
  rfl

theorem access_some (h : Usable w l t) : ∃ l', l.access w t = some l' := by
  obtain ⟨b, h1, h2⟩ := h
  refine ⟨l.map fun x => { x with perm := x.perm.after (x.leadsTo b) w }, ?_⟩
  unfold access
  rw [h1]
  simp only
  rw [if_pos]
  rw [List.all_eq_true]
  intro x hx
  cases hb : x.leadsTo b with
  | false => rfl
  | true => rw [h2 x hx hb]; rfl

/-- What an access does. -/
theorem access_eq (h : l.access w t = some l') : ∃ b, l.node t = some b ∧
    l' = l.map fun x => { x with perm := x.perm.after (x.leadsTo b) w } := by
  unfold access at h
  split at h
  · cases h
  · rename_i b hb
    split at h
    · cases h; exact ⟨b, hb, rfl⟩
    · cases h

theorem node_map {f : TreeNode → TreeNode} (hf : ∀ x, (f x).tag = x.tag) (l : BorrowTree) (t : Nat) :
    node t (l.map f) = (l.node t).map f := by
  unfold node
  rw [List.find?_map]
  congr 1
  congr 1
  funext x
  simp only [Function.comp, hf]

theorem access_old (h : l.access w t = some l') (ho : Old n l) : Old n l' := by
  obtain ⟨b, _, rfl⟩ := access_eq h
  intro x hx
  obtain ⟨y, hy, rfl⟩ := List.mem_map.1 hx
  exact ho y hy

theorem access_root {r : Nat} (h : l.access w t = some l') (hr : Root l r) : Root l' r := by
  obtain ⟨b, hb, rfl⟩ := access_eq h
  refine ⟨?_, fun x hx ht => ?_, fun x hx ht => ?_⟩
  · obtain ⟨c, h1, h2⟩ := hr.node
    rw [node_map (by intro x; rfl), h1]
    exact ⟨_, rfl, h2⟩
  · obtain ⟨y, hy, rfl⟩ := List.mem_map.1 hx
    have hp := hr.perm y hy ht
    have : y.leadsTo b = true := by
      unfold TreeNode.leadsTo
      have ht' : y.tag = r := ht
      by_cases h1 : b.tag = r
      · simp [ht', h1]
      · have := hr.top b (node_some hb).1 h1
        simp [ht', this]
    simp only [hp, this]
    rfl
  · obtain ⟨y, hy, rfl⟩ := List.mem_map.1 hx
    exact hr.top y hy ht

/-- A pointer that may be written through stays so when it is used. -/
theorem access_mine (h : l.access w t = some l') (hu : Usable true l t) : Usable true l' t := by
  obtain ⟨b, hb, rfl⟩ := access_eq h
  obtain ⟨b', h1, h2⟩ := hu
  rw [hb] at h1; cases h1
  refine ⟨{ b with perm := b.perm.after (b.leadsTo b) w }, ?_, fun x hx hl => ?_⟩
  · rw [node_map (by intro x; rfl), hb]; rfl
  · obtain ⟨y, hy, rfl⟩ := List.mem_map.1 hx
    have hl' : y.leadsTo b = true := hl
    simp only [hl']
    exact TreePerm.after_mine (h2 y hy hl') w

/-- A pointer that may be read through stays so after reads. -/
theorem access_reads {t' : Nat} (h : l.access false t = some l') (hu : Usable false l t') :
    Usable false l' t' := by
  obtain ⟨b, _, rfl⟩ := access_eq h
  obtain ⟨c, h1, h2⟩ := hu
  refine ⟨{ c with perm := c.perm.after (c.leadsTo b) false }, ?_, fun x hx hl => ?_⟩
  · rw [node_map (by intro x; rfl), h1]; rfl
  · obtain ⟨y, hy, rfl⟩ := List.mem_map.1 hx
    exact TreePerm.after_read (h2 y hy hl) _

theorem node_append {t' : Nat} {b x : TreeNode} (h : l.node t' = some b) :
    node t' (l ++ [x]) = some b := by
  unfold node at h ⊢
  rw [List.find?_append, h]; rfl

theorem node_new {x : TreeNode} (ho : Old n l) (hx : x.tag = n) : node n (l ++ [x]) = some x := by
  unfold node
  rw [List.find?_append]
  have : l.find? (fun x => x.tag == n) = none := by
    rw [List.find?_eq_none]
    intro y hy he
    have := (ho y hy).1
    simp only [beq_iff_eq] at he
    omega
  rw [this]
  simp [hx]

theorem add_old {perm : TreePerm} (ho : Old n l) : Old (n + 1) (l.add perm t n) := by
  have h1 : Old (n + 1) l := fun x hx => ⟨Nat.lt_succ_of_lt (ho x hx).1,
    fun a ha => Nat.lt_succ_of_lt ((ho x hx).2 a ha)⟩
  unfold add
  split
  · exact h1
  · rename_i b hb
    intro x hx
    rcases List.mem_append.1 hx with hx | hx
    · exact h1 x hx
    · rw [List.mem_singleton.1 hx]
      refine ⟨Nat.lt_succ_self _, fun a ha => ?_⟩
      have hbo := h1 b (node_some hb).1
      rcases List.mem_cons.1 ha with rfl | ha
      · exact hbo.1
      · exact hbo.2 a ha

theorem add_root {perm : TreePerm} {r : Nat} (ho : Old n l) (hr : Root l r) :
    Root (l.add perm t n) r := by
  unfold add
  split
  · exact hr
  · rename_i b hb
    obtain ⟨c, h1, h2⟩ := hr.node
    have hlt : r < n := by
      have := (ho c (node_some h1).1).1
      rwa [(node_some h1).2] at this
    refine ⟨⟨c, node_append h1, h2⟩, fun x hx ht => ?_, fun x hx ht => ?_⟩
    · rcases List.mem_append.1 hx with hx | hx
      · exact hr.perm x hx ht
      · rw [List.mem_singleton.1 hx] at ht
        simp only at ht
        omega
    · rcases List.mem_append.1 hx with hx | hx
      · exact hr.top x hx ht
      · rw [List.mem_singleton.1 hx]
        by_cases hbt : b.tag = r
        · exact List.mem_cons.2 (.inl hbt.symm)
        · exact List.mem_cons_of_mem _ (hr.top b (node_some hb).1 hbt)

theorem add_keeps {perm : TreePerm} {t' : Nat} (ho : Old n l) (hu : Usable w l t') :
    Usable w (l.add perm t n) t' := by
  unfold add
  split
  · exact hu
  · obtain ⟨c, h1, h2⟩ := hu
    refine ⟨c, node_append h1, fun x hx hl => ?_⟩
    rcases List.mem_append.1 hx with hx | hx
    · exact h2 x hx hl
    · rw [List.mem_singleton.1 hx] at hl
      have hc := ho c (node_some h1).1
      unfold TreeNode.leadsTo at hl
      simp only [Bool.or_eq_true, beq_iff_eq, List.contains_iff_mem] at hl
      rcases hl with hl | hl
      · omega
      · have := hc.2 _ hl; omega

/-- Without that assumption. -/
theorem add_reads {t' : Nat} (hu : Usable false l t') : Usable false (l.add .frozen t n) t' := by
  unfold add
  split
  · exact hu
  · obtain ⟨c, h1, h2⟩ := hu
    refine ⟨c, node_append h1, fun x hx hl => ?_⟩
    rcases List.mem_append.1 hx with hx | hx
    · exact h2 x hx hl
    · rw [List.mem_singleton.1 hx]; rfl

theorem add_new {perm : TreePerm} (ho : Old n l) (hu : Usable w l t) (hp : perm.allows w = true) :
    Usable w (l.add perm t n) n := by
  obtain ⟨b, h1, h2⟩ := hu
  unfold add
  rw [h1]
  refine ⟨_, node_new ho rfl, fun x hx hl => ?_⟩
  rcases List.mem_append.1 hx with hx | hx
  · refine h2 x hx ?_
    unfold TreeNode.leadsTo at hl ⊢
    simp only [Bool.or_eq_true, beq_iff_eq, List.contains_iff_mem, List.mem_cons] at hl ⊢
    have := (ho x hx).1
    rcases hl with hl | hl | hl
    · omega
    · exact .inl hl
    · exact .inr hl
  · rw [List.mem_singleton.1 hx]; exact hp

end BorrowTree

namespace Trees
open BorrowTree (Usable Root Old)
variable {h h' : Trees} {p q : Ptr} {n t id : Nat} {w : Bool}

/-- The allocations and their sizes. -/
def layout (h : Trees) : List (Nat × Nat) := h.blocks.map fun b => (b.id, b.locs.length)

/-- The state of a location. -/
def locAt (h : Trees) (p : Ptr) : Option BorrowTree :=
  (h.blocks.find? fun b => b.id == p.block).bind fun b => b.locs[p.off]?

/-- Tags under Tree Borrows. -/
def view : AliasView Trees where
  layout := layout
  Wf h := (h.blocks.map (·.id)).Nodup ∧ ∀ p l, h.locAt p = some l → Old h.next l
  Owns h b t := ∀ p l, p.block = b → h.locAt p = some l → Root l t
  Whole h b t := ∀ p l, p.block = b → h.locAt p = some l → Usable true l t
  Top h p t := ∃ l, h.locAt p = some l ∧ Usable true l t
  Seen h p t := ∃ l, h.locAt p = some l ∧ Usable false l t
  Sound _ := True

theorem ids_layout (h : Trees) : h.blocks.map (·.id) = h.layout.map (·.1) := by
  unfold layout; rw [List.map_map]; rfl

theorem find_of_mem (hd : (h.blocks.map (·.id)).Nodup) {b : TreeBlock} (hb : b ∈ h.blocks) :
    h.blocks.find? (fun c => c.id == b.id) = some b := by
  generalize h.blocks = l at hd hb ⊢
  induction l with
  | nil => cases hb
  | cons c l ih =>
    rw [List.map_cons, List.nodup_cons] at hd
    rw [List.find?_cons]
    rcases List.mem_cons.1 hb with rfl | hb
    · simp
    · have : (c.id == b.id) = false := by
        simp only [beq_eq_false_iff_ne, ne_eq]
        exact fun he => hd.1 (he ▸ List.mem_map_of_mem hb)
      rw [this]
      exact ih hd.2 hb

theorem block_of_layout (hd : (h.blocks.map (·.id)).Nodup) (hl : (id, n) ∈ h.layout) :
    ∃ c, h.blocks.find? (fun c => c.id == id) = some c ∧ c.locs.length = n := by
  obtain ⟨b, hbm, hbe⟩ := List.mem_map.1 hl
  cases hbe
  exact ⟨b, find_of_mem hd hbm, rfl⟩

theorem locAt_of_find {c : TreeBlock} (hc : h.blocks.find? (fun c => c.id == q.block) = some c) :
    h.locAt q = c.locs[q.off]? := by
  unfold locAt; rw [hc]; rfl

theorem find_of_locAt {l : BorrowTree} (hq : h.locAt q = some l) :
    ∃ c, h.blocks.find? (fun c => c.id == q.block) = some c ∧ c.locs[q.off]? = some l :=
  Option.bind_eq_some_iff.1 hq

/-! ### `onBlock` -/

theorem find_update (bs : List TreeBlock) (b id : Nat) (l : List BorrowTree) :
    (bs.map fun c' => if c'.id = id then { c' with locs := l } else c').find? (fun c => c.id == b) =
      (bs.find? fun c => c.id == b).map fun c' => if c'.id = id then { c' with locs := l } else c' := by
  rw [List.find?_map]
  congr 1
  congr 1
  funext c
  simp only [Function.comp]
  split <;> rfl

theorem onBlock_loc {f : List BorrowTree → Option (List BorrowTree)} {c : TreeBlock}
    {l : List BorrowTree} (hc : h.blocks.find? (fun c => c.id == id) = some c)
    (hf : f c.locs = some l) :
    ∃ h', onBlock id f h = (.ok (), h') ∧ h'.next = h.next ∧
      (∀ q, h'.locAt q = if q.block = id then l[q.off]? else h.locAt q) ∧
      h'.blocks.find? (fun c => c.id == id) = some { c with locs := l } ∧
      ((h.blocks.map (·.id)).Nodup → l.length = c.locs.length → h'.layout = h.layout) := by
  have hid : c.id = id := by simpa using List.find?_some hc
  refine ⟨{ h with blocks := h.blocks.map fun c' => if c'.id = id then { c' with locs := l } else c' },
    by unfold onBlock; rw [hc]; simp only [hf], rfl, fun q => ?_, ?_, fun hd hl => ?_⟩
  · unfold locAt
    simp only
    rw [find_update]
    by_cases hq : q.block = id
    · rw [hq, hc, if_pos rfl]
      simp only [Option.map_some, Option.bind_some, hid, if_true]
    · rw [if_neg hq]
      cases hx : h.blocks.find? (fun c => c.id == q.block) with
      | none => rfl
      | some c' =>
        have hid' : c'.id = q.block := by simpa using List.find?_some hx
        simp only [Option.map_some, Option.bind_some]
        rw [if_neg (by rw [hid']; exact hq)]
  · simp only
    rw [find_update, hc]
    simp only [Option.map_some, hid, if_true]
  · unfold layout
    simp only
    rw [List.map_map]
    refine List.map_congr_left fun b hb => ?_
    simp only [Function.comp]
    split
    · rename_i hbe
      have := find_of_mem hd hb
      rw [hbe, hc] at this
      cases this
      simp only [hl]
    · rfl

/-! ### `touch` -/

theorem touch_some {off : Nat} {ls ls' : List BorrowTree} {i : Nat}
    (h : touch w t off n i ls = some ls') : ls'.length = ls.length ∧
      ∀ (j : Nat) l, ls[j]? = some l → ∃ l', ls'[j]? = some l' ∧
        if off ≤ i + j ∧ i + j < off + n then l.access w t = some l' else l' = l := by
  induction ls generalizing i ls' with
  | nil => simp only [touch, Option.some.injEq] at h; subst h; exact ⟨rfl, fun j l hl => by simp at hl⟩
  | cons x ls ih =>
    have hx : ∃ x' l', (if off ≤ i ∧ i < off + n then x.access w t else some x) = some x' ∧
        touch w t off n (i + 1) ls = some l' ∧ ls' = x' :: l' := by
      unfold touch at h
      split at h <;> rename_i hc
      · obtain ⟨x', h1, h2⟩ := Option.bind_eq_some_iff.1 h
        obtain ⟨l', h3, h4⟩ := Option.bind_eq_some_iff.1 h2
        exact ⟨x', l', by rw [if_pos hc]; exact h1, h3, (Option.some.inj h4).symm⟩
      · obtain ⟨x', h1, h2⟩ := Option.bind_eq_some_iff.1 h
        obtain ⟨l', h3, h4⟩ := Option.bind_eq_some_iff.1 h2
        exact ⟨x', l', by rw [if_neg hc]; exact h1, h3, (Option.some.inj h4).symm⟩
    obtain ⟨x', l', h1, h3, rfl⟩ := hx
    obtain ⟨i1, i2⟩ := ih h3
    refine ⟨by simp [i1], fun j l hl => ?_⟩
    cases j with
    | zero =>
      simp only [List.getElem?_cons_zero, Option.some.injEq] at hl
      subst hl
      refine ⟨x', rfl, ?_⟩
      split at h1
      · rename_i hc; rw [if_pos (by simpa using hc)]; exact h1
      · rename_i hc; rw [if_neg (by simpa using hc)]; exact (Option.some.inj h1).symm
    | succ j =>
      rw [List.getElem?_cons_succ] at hl
      obtain ⟨l1, e1, e2⟩ := i2 j l hl
      refine ⟨l1, by rw [List.getElem?_cons_succ]; exact e1, ?_⟩
      have : i + 1 + j = i + (j + 1) := by omega
      rw [this] at e2
      exact e2

theorem touch_ok {off : Nat} {ls : List BorrowTree} {i : Nat}
    (h : ∀ (j : Nat) l, ls[j]? = some l → off ≤ i + j → i + j < off + n → ∃ l', l.access w t = some l') :
    ∃ ls', touch w t off n i ls = some ls' := by
  induction ls generalizing i with
  | nil => exact ⟨[], rfl⟩
  | cons x ls ih =>
    obtain ⟨ls', e⟩ := ih (i := i + 1) fun j l hl h1 h2 =>
      h (j + 1) l (by rw [List.getElem?_cons_succ]; exact hl) (by omega) (by omega)
    have hx : ∃ x', (if off ≤ i ∧ i < off + n then x.access w t else some x) = some x' := by
      split
      · rename_i hc
        exact h 0 x rfl (by simpa using hc.1) (by simpa using hc.2)
      · exact ⟨x, rfl⟩
    obtain ⟨x', hx⟩ := hx
    refine ⟨x' :: ls', ?_⟩
    simp only [touch, e]
    split at hx <;> rename_i hc
    · rw [if_pos hc, hx]; rfl
    · rw [if_neg hc, hx]; rfl

/-! ### Accesses -/

/-- What an access to a range does to the locations. -/
structure Touched (w : Bool) (t : Nat) (p : Ptr) (n : Nat) (h h' : Trees) : Prop where
  next : h'.next = h.next
  back : ∀ q l', h'.locAt q = some l' → ∃ l, h.locAt q = some l
  loc : ∀ q l, h.locAt q = some l → ∃ l', h'.locAt q = some l' ∧
    if Within q p n then l.access w t = some l' else l' = l
  layout : (h.blocks.map (·.id)).Nodup → h'.layout = h.layout

theorem touched_of {c : TreeBlock} {ls : List BorrowTree}
    (hc : h.blocks.find? (fun c => c.id == p.block) = some c) (hlen : p.off + n ≤ c.locs.length)
    (ht : touch w t p.off n 0 c.locs = some ls) :
    ∃ h', accessRange w t p n h = (.ok (), h') ∧ Touched w t p n h h' := by
  obtain ⟨i1, i2⟩ := touch_some ht
  obtain ⟨h', e, hn, hloc, _, hlay⟩ := onBlock_loc (f := fun l =>
    if l.length < p.off + n then none else touch w t p.off n 0 l) hc (l := ls) (by
      rw [if_neg (by omega)]; exact ht)
  refine ⟨h', e, hn, fun q l' hq => ?_, fun q l hq => ?_, fun hd => hlay hd i1⟩
  · rw [hloc] at hq
    split at hq
    · rename_i hb
      have hlt : q.off < c.locs.length := by
        rw [← i1]; exact (List.getElem?_eq_some_iff.1 hq).1
      exact ⟨c.locs[q.off], by
        rw [locAt_of_find (c := c) (by rw [hb]; exact hc)]
        exact List.getElem?_eq_getElem hlt⟩
    · exact ⟨l', hq⟩
  · rw [hloc]
    by_cases hb : q.block = p.block
    · rw [if_pos hb]
      rw [locAt_of_find (c := c) (by rw [hb]; exact hc)] at hq
      obtain ⟨l', e1, e2⟩ := i2 q.off l hq
      refine ⟨l', e1, ?_⟩
      rw [Nat.zero_add] at e2
      by_cases hw : Within q p n
      · rw [if_pos hw]; rw [if_pos ⟨hw.2.1, hw.2.2⟩] at e2; exact e2
      · rw [if_neg hw]; rw [if_neg fun hx => hw ⟨hb, hx.1, hx.2⟩] at e2; exact e2
    · rw [if_neg hb]
      exact ⟨l, hq, by rw [if_neg fun hx : Within q p n => hb hx.1]⟩

theorem access_touched (hn : 0 < n)
    (hu : ∀ q, Within q p n → ∃ l, h.locAt q = some l ∧ Usable w l t) :
    ∃ h', accessRange w t p n h = (.ok (), h') ∧ Touched w t p n h h' := by
  obtain ⟨l, hl, _⟩ := hu ⟨p.block, p.off + (n - 1)⟩ ⟨rfl, by simp, by simp; omega⟩
  obtain ⟨c, hc, hlc⟩ := find_of_locAt hl
  have hlen : p.off + n ≤ c.locs.length := by
    have := (List.getElem?_eq_some_iff.1 hlc).1
    simp only at this
    omega
  obtain ⟨ls, ht⟩ := touch_ok (w := w) (t := t) (off := p.off) (n := n) (ls := c.locs) (i := 0)
    fun j l hj h1 h2 => by
      rw [Nat.zero_add] at h1 h2
      obtain ⟨l1, e1, e2⟩ := hu ⟨p.block, j⟩ ⟨rfl, h1, h2⟩
      rw [locAt_of_find (q := ⟨p.block, j⟩) hc] at e1
      simp only at e1
      rw [hj] at e1; cases e1
      exact BorrowTree.access_some e2
  exact touched_of hc hlen ht

/-- However an access ends, -/
theorem access_cases (w : Bool) (t : Nat) (p : Ptr) (n : Nat) (h : Trees) :
    (∃ h', accessRange w t p n h = (.ok (), h') ∧ Touched w t p n h h') ∨
      accessRange w t p n h = (.ub, h) := by
  cases hc : h.blocks.find? (fun c => c.id == p.block) with
  | none => exact .inr (by unfold accessRange onBlock; rw [hc])
  | some c =>
    by_cases hlen : c.locs.length < p.off + n
    · exact .inr (by unfold accessRange onBlock; rw [hc]; simp only [if_pos hlen])
    · cases ht : touch w t p.off n 0 c.locs with
      | none => exact .inr (by unfold accessRange onBlock; rw [hc]; simp only [if_neg hlen, ht])
      | some ls => exact .inl (touched_of hc (by omega) ht)

theorem Touched.old (ht : Touched w t p n h h') (hw : view.Wf h) :
    ∀ q l', h'.locAt q = some l' → Old h.next l' := fun q l' hq => by
  obtain ⟨l, hl⟩ := ht.back q l' hq
  obtain ⟨l1, e1, e2⟩ := ht.loc q l hl
  rw [hq] at e1; cases e1
  have := hw.2 q l hl
  split at e2
  · exact BorrowTree.access_old e2 this
  · rw [e2]; exact this

theorem Touched.step (ht : Touched w t p n h h') (hw : view.Wf h) : view.Step h h' where
  wf := ⟨by rw [ids_layout, ht.layout hw.1, ← ids_layout]; exact hw.1,
    fun q l' hq => by rw [ht.next]; exact ht.old hw q l' hq⟩
  layout := ht.layout hw.1
  owns b r ho q l' hb hq := by
    obtain ⟨l, hl⟩ := ht.back q l' hq
    obtain ⟨l1, e1, e2⟩ := ht.loc q l hl
    rw [hq] at e1; cases e1
    have := ho q l hb hl
    split at e2
    · exact BorrowTree.access_root e2 this
    · rw [e2]; exact this

theorem Touched.keep (ht : Touched w t p n h h') (hq : ¬ Within q p n) : view.Keep h h' q := by
  refine ⟨fun r hr => ?_, fun r hr => ?_⟩ <;>
  · obtain ⟨l, hl, hu⟩ := hr
    obtain ⟨l', e1, e2⟩ := ht.loc q l hl
    rw [if_neg hq] at e2
    exact ⟨l', e1, e2 ▸ hu⟩

theorem Touched.mine (ht : Touched w t p n h h') (hq : view.Top h q t) : view.Top h' q t := by
  obtain ⟨l, hl, hu⟩ := hq
  obtain ⟨l', e1, e2⟩ := ht.loc q l hl
  refine ⟨l', e1, ?_⟩
  split at e2
  · exact BorrowTree.access_mine e2 hu
  · exact e2 ▸ hu

theorem Touched.reads {r : Nat} (ht : Touched false t p n h h') (hq : view.Seen h q r) :
    view.Seen h' q r := by
  obtain ⟨l, hl, hu⟩ := hq
  obtain ⟨l', e1, e2⟩ := ht.loc q l hl
  refine ⟨l', e1, ?_⟩
  split at e2
  · exact BorrowTree.access_reads e2 hu
  · exact e2 ▸ hu

/-! ### Derivations -/

/-- What happens to the locations when a pointer is added to the tree. -/
structure Added (perm : TreePerm) (t : Nat) (id : Nat) (h h' : Trees) : Prop where
  next : h'.next = h.next + 1
  loc : ∀ q, h'.locAt q = if q.block = id then (h.locAt q).map (BorrowTree.add perm t h.next)
    else h.locAt q
  layout : (h.blocks.map (·.id)).Nodup → h'.layout = h.layout

theorem added_of {c : TreeBlock} (hc : h.blocks.find? (fun c => c.id == id) = some c)
    (perm : TreePerm) (t : Nat) :
    ∃ h', (do
      let b ← M.get
      onBlock id fun l => some (l.map (BorrowTree.add perm t b.next))
      M.modify fun b => { b with next := b.next + 1 }
      pure b.next : M Trees Nat) h = (.ok h.next, h') ∧ Added perm t id h h' := by
  obtain ⟨h1, e, hn, hloc, _, hlay⟩ := onBlock_loc (f := fun l =>
    some (l.map (BorrowTree.add perm t h.next))) hc rfl
  refine ⟨{ h1 with next := h1.next + 1 }, ?_, by show h1.next + 1 = _; rw [hn], fun q => ?_, fun hd => ?_⟩
  · rw [M.get_bind, M.bind_ok e, M.modify_bind]; rfl
  · have : ({ h1 with next := h1.next + 1 } : Trees).locAt q = h1.locAt q := rfl
    rw [this, hloc]
    split
    · rename_i hq
      rw [locAt_of_find (c := c) (by rw [hq]; exact hc), List.getElem?_map]
    · rfl
  · exact hlay hd (List.length_map ..)

theorem Added.step {perm : TreePerm} (ha : Added perm t id h h') (hw : view.Wf h) :
    view.Step h h' where
  wf := by
    refine ⟨by rw [ids_layout, ha.layout hw.1, ← ids_layout]; exact hw.1, fun q l' hq => ?_⟩
    rw [ha.next]
    rw [ha.loc] at hq
    split at hq
    · obtain ⟨l, hl, rfl⟩ := Option.map_eq_some_iff.1 hq
      exact BorrowTree.add_old (hw.2 q l hl)
    · exact fun x hx => ⟨Nat.lt_succ_of_lt (hw.2 q l' hq x hx).1,
        fun a hx' => Nat.lt_succ_of_lt ((hw.2 q l' hq x hx).2 a hx')⟩
  layout := ha.layout hw.1
  owns b r ho q l' hb hq := by
    rw [ha.loc] at hq
    split at hq
    · obtain ⟨l, hl, rfl⟩ := Option.map_eq_some_iff.1 hq
      exact BorrowTree.add_root (hw.2 q l hl) (ho q l hb hl)
    · exact ho q l' hb hq

theorem Added.keep {perm : TreePerm} (ha : Added perm t id h h') (hw : view.Wf h) (q : Ptr) :
    view.Keep h h' q := by
  refine ⟨fun r hr => ?_, fun r hr => ?_⟩ <;>
  · obtain ⟨l, hl, hu⟩ := hr
    by_cases hq : q.block = id
    · exact ⟨_, by rw [ha.loc, if_pos hq, hl]; rfl, BorrowTree.add_keeps (hw.2 q l hl) hu⟩
    · exact ⟨l, by rw [ha.loc, if_neg hq]; exact hl, hu⟩

theorem Added.usable {perm : TreePerm} (ha : Added perm t id h h') (hw : view.Wf h)
    (hp : perm.allows w = true) (hq : q.block = id) {l : BorrowTree} (hl : h.locAt q = some l)
    (hu : Usable w l t) : ∃ l', h'.locAt q = some l' ∧ Usable w l' h.next :=
  ⟨_, by rw [ha.loc, if_pos hq, hl]; rfl, BorrowTree.add_new (hw.2 q l hl) hu hp⟩

theorem derive_eq {k : RefKind} (hk : k ≠ .raw) (h : Trees) :
    derive k t p n h = (do
      accessRange false t p n
      let b ← M.get
      onBlock p.block fun l =>
        some (l.map (BorrowTree.add (if k = .excl then .reserved else .frozen) t b.next))
      M.modify fun b => { b with next := b.next + 1 }
      pure b.next : M Trees Nat) h := by
  cases k with
  | raw => exact absurd rfl hk
  | _ => rfl

theorem Touched.find {c : TreeBlock} (ht : accessRange w t p n h = (.ok (), h'))
    (hc : h.blocks.find? (fun c => c.id == p.block) = some c) :
    ∃ c', h'.blocks.find? (fun c => c.id == p.block) = some c' := by
  unfold accessRange onBlock at ht
  rw [hc] at ht
  simp only at ht
  split at ht
  · cases ht
  · cases ht
    simp only
    rw [find_update, hc]
    exact ⟨_, rfl⟩

/-- Deriving a reference from a pointer that may be used for the range. -/
theorem derive_ok {k : RefKind} (hk : k ≠ .raw) (hn : 0 < n)
    (hu : ∀ q, Within q p n → view.Top h q t) :
    ∃ h1 h', derive k t p n h = (.ok h.next, h') ∧ Touched false t p n h h1 ∧
      Added (if k = .excl then .reserved else .frozen) t p.block h1 h' := by
  obtain ⟨h1, e1, ht⟩ := access_touched (w := false) hn fun q hq => by
    obtain ⟨l, hl, hx⟩ := hu q hq
    exact ⟨l, hl, hx.weaken⟩
  obtain ⟨l, hl, _⟩ := hu p ⟨rfl, Nat.le_refl _, by omega⟩
  obtain ⟨c, hc, _⟩ := find_of_locAt hl
  obtain ⟨c1, hc1⟩ := Touched.find e1 hc
  obtain ⟨h', e2, ha⟩ := added_of hc1 (if k = .excl then .reserved else .frozen) t
  refine ⟨h1, h', ?_, ht, ha⟩
  rw [derive_eq hk, M.bind_ok e1, e2, ht.next]

theorem derive_excl (hw : view.Wf h) (hn : 0 < n) (hu : ∀ q, Within q p n → view.Top h q t) :
    ∃ h', derive .excl t p n h = (.ok h.next, h') ∧ view.Step h h' ∧
      (∀ q, q.block = p.block → view.Top h q t → view.Top h' q h.next) ∧
      ∀ q, ¬ Within q p n → view.Keep h h' q := by
  obtain ⟨h1, h', e, ht, ha⟩ := derive_ok (k := .excl) (by simp) hn hu
  have hs := ht.step hw
  refine ⟨h', e, hs.trans (ha.step hs.wf), fun q hq hx => ?_, fun q hq =>
    (ht.keep hq).trans (ha.keep hs.wf q)⟩
  obtain ⟨l, hl, hx⟩ := ht.mine hx
  have := ha.usable (w := true) hs.wf rfl hq hl hx
  rw [ht.next] at this
  exact this

theorem top_of_inside (hw : view.Wf h) (ho : view.Whole h p.block t) (hi : view.Inside h p n)
    (hq : Within q p n) : view.Top h q t := by
  obtain ⟨m, hm, hle⟩ := hi
  obtain ⟨c, hc, rfl⟩ := block_of_layout hw.1 hm
  have hlt : q.off < c.locs.length := by have := hq.2.2; omega
  have hl : h.locAt q = some c.locs[q.off] := by
    rw [locAt_of_find (c := c) (by rw [hq.1]; exact hc)]
    exact List.getElem?_eq_getElem hlt
  exact ⟨_, hl, ho q _ hq.1 hl⟩

theorem locAt_append (hn : id ∉ h.layout.map (·.1)) (l : List BorrowTree) (k : Nat) (q : Ptr) :
    locAt { blocks := h.blocks ++ [{ id, locs := l }], next := k } q =
      if q.block = id then l[q.off]? else h.locAt q := by
  unfold locAt
  simp only
  rw [List.find?_append]
  by_cases hq : q.block = id
  · rw [if_pos hq]
    have : h.blocks.find? (fun b => b.id == q.block) = none := by
      rw [List.find?_eq_none]
      intro b hb hbe
      simp only [beq_iff_eq] at hbe
      rw [← ids_layout] at hn
      exact hn (by rw [← hq, ← hbe]; exact List.mem_map.2 ⟨b, hb, rfl⟩)
    rw [this]
    simp [hq]
  · rw [if_neg hq]
    have : (id == q.block) = false := by
      simp only [beq_eq_false_iff_ne, ne_eq]; exact fun h => hq h.symm
    simp [List.find?_cons, this]

theorem locAt_filter (q : Ptr) :
    locAt { h with blocks := h.blocks.filter fun c => c.id ≠ id } q =
      if q.block = id then none else h.locAt q := by
  unfold locAt
  simp only
  split
  · rename_i hq
    rw [Option.bind_eq_none_iff]
    intro b hb
    have h1 := List.find?_some hb
    have h2 := (List.mem_filter.1 (List.mem_of_find?_eq_some hb)).2
    simp only [beq_iff_eq] at h1
    simp only [decide_eq_true_eq] at h2
    exact absurd (h1.trans hq) h2
  · rename_i hq
    congr 1
    rw [List.find?_filter]
    congr 1
    funext c
    by_cases hc : c.id = q.block
    · have : c.id ≠ id := by rw [hc]; exact hq
      simp [hc, this, hq]
    · simp [hc]

theorem keep_of_eq (e : h'.locAt q = h.locAt q) : view.Keep h h' q := by
  refine ⟨fun t ht => ?_, fun t ht => ?_⟩ <;>
  · obtain ⟨l, h1, h2⟩ := ht
    exact ⟨l, e.trans h1, h2⟩

theorem root_new (n : Nat) : Root [{ tag := n, above := [], perm := .active }] n := by
  refine ⟨⟨{ tag := n, above := [], perm := .active }, by simp [BorrowTree.node], rfl⟩, fun x hx _ => ?_, fun x hx ht => ?_⟩
  · rw [List.mem_singleton.1 hx]
  · rw [List.mem_singleton.1 hx] at ht; exact absurd rfl ht

end Trees

open Trees in
instance : AliasLaws Trees where
  toAliasView := Trees.view
  empty_wf := ⟨List.nodup_nil, fun _ _ h => by cases h⟩
  empty_layout := rfl
  nodup hw := by
    have := hw.1
    rw [ids_layout] at this
    exact this
  whole ho p l hb hl := (ho p l hb hl).usable
  allocate_ok {h id n} hw hn := by
    have hat := locAt_append hn
      (List.replicate n [({ tag := h.next, above := [], perm := .active } : TreeNode)]) (h.next + 1)
    refine ⟨h.next, _, rfl, ⟨⟨?_, fun p l hp => ?_⟩, fun b t hb ho p l hp hl => ?_, fun q hq =>
      keep_of_eq (by rw [hat, if_neg hq])⟩, ?_, fun p l hp hl => ?_⟩
    · rw [List.map_append, List.nodup_append]
      refine ⟨hw.1, by simp, fun a ha b hb => ?_⟩
      simp only [List.map_cons, List.map_nil, List.mem_singleton] at hb
      subst hb
      rw [ids_layout] at ha
      exact fun h => hn (h ▸ ha)
    · rw [hat] at hp
      intro x hx
      show x.tag < h.next + 1 ∧ ∀ a ∈ x.above, a < h.next + 1
      split at hp
      · rw [List.getElem?_replicate] at hp
        split at hp
        · cases hp
          rw [List.mem_singleton.1 hx]
          exact ⟨Nat.lt_succ_self _, fun a ha => by cases ha⟩
        · cases hp
      · exact ⟨Nat.lt_succ_of_lt (hw.2 p l hp x hx).1,
          fun a ha => Nat.lt_succ_of_lt ((hw.2 p l hp x hx).2 a ha)⟩
    · rw [hat, if_neg (by rw [hp]; exact hb)] at hl
      exact ho p l hp hl
    · show Trees.layout _ = _
      unfold Trees.layout
      rw [List.map_append]
      simp only [List.map_cons, List.map_nil, List.length_replicate]
      rfl
    · rw [hat, if_pos hp, List.getElem?_replicate] at hl
      split at hl
      · cases hl; exact root_new _
      · cases hl
  deallocate_ok {h t id n} hw ho hl hn := by
    obtain ⟨c, hc, hcl⟩ := block_of_layout hw.1 hl
    obtain ⟨h1, e1, ht⟩ := access_touched (w := true) (t := t) (p := ⟨id, 0⟩) hn fun q hq =>
      top_of_inside hw ho ⟨n, hl, by simp⟩ hq
    have hs := ht.step hw
    have e : Trees.deallocate t id n h =
        (.ok (), { h1 with blocks := h1.blocks.filter fun c => c.id ≠ id }) := by
      unfold Trees.deallocate
      rw [M.get_bind, hc]
      simp only [Option.any_some, hcl, beq_self_eq_true, if_true]
      rw [M.bind_ok e1]; rfl
    refine ⟨_, e, ⟨⟨?_, fun p l hp => ?_⟩, fun b t' hb ho' p l hp hl => ?_, fun q hq => ?_⟩, ?_⟩
    · exact List.Nodup.sublist (List.Sublist.map _ List.filter_sublist) hs.wf.1
    · rw [locAt_filter] at hp
      split at hp
      · cases hp
      · exact hs.wf.2 p l hp
    · rw [locAt_filter] at hl
      split at hl
      · cases hl
      · exact hs.owns b t' ho' p l hp hl
    · exact (ht.keep fun hx => hq hx.1).trans (keep_of_eq (by rw [locAt_filter, if_neg hq]))
    · show Trees.layout _ = List.filter _ (Trees.layout h)
      rw [← ht.layout hw.1]
      unfold Trees.layout
      rw [List.filter_map]
      rfl
  derive_excl {h t p n} hw ho hi hn := by
    have hu := fun q hq => top_of_inside (q := q) hw ho hi hq
    obtain ⟨h', e, hs, ht, hk⟩ := Trees.derive_excl hw hn hu
    exact ⟨_, h', e, hs, fun q hq => ht q hq.1 (hu q hq), hk⟩
  derive_shared {h t p} hw ho hi := by
    have hu := fun q hq => top_of_inside (q := q) hw ho hi hq
    obtain ⟨h1, h', e, ht, ha⟩ := Trees.derive_ok (k := .shared) (by simp) Nat.one_pos hu
    have hs := ht.step hw
    refine ⟨_, h', e, hs.trans (ha.step hs.wf), ?_, fun q hq =>
      (ht.keep fun hx => hq (within_one.1 hx)).trans (ha.keep hs.wf q)⟩
    obtain ⟨l, hl, hx⟩ := ht.mine (hu p (within_one.2 rfl))
    have := ha.usable (w := false) hs.wf rfl rfl hl hx.weaken
    rw [ht.next] at this
    exact this
  derive_top {h k t p n} hw hk hn hu := by
    cases k with
    | shared => exact absurd rfl hk
    | raw => exact ⟨t, h, rfl, .refl hw, hu, fun q _ => .refl h q⟩
    | excl =>
      obtain ⟨h', e, hs, ht, hk⟩ := Trees.derive_excl hw hn hu
      exact ⟨_, h', e, hs, fun q hq => ht q hq.1 (hu q hq), hk⟩
  access_top {h w t p} hw hu := by
    obtain ⟨h', e, ht⟩ := access_touched (w := w) (t := t) (p := p) Nat.one_pos fun q hq => by
      rw [within_one.1 hq]
      obtain ⟨l, hl, hx⟩ := hu
      exact ⟨l, hl, hx.weaken⟩
    exact ⟨h', e, ht.step hw, ht.mine hu, fun q hq => ht.keep fun hx => hq (within_one.1 hx)⟩
  access_seen {h t p} hw hu := by
    obtain ⟨h', e, ht⟩ := access_touched (w := false) (t := t) (p := p) Nat.one_pos fun q hq => by
      rw [within_one.1 hq]; exact hu
    exact ⟨h', e, ht.step hw, fun q hq => ht.keep fun hx => hq (within_one.1 hx)⟩
  access_keeps h t p q t' hs := by
    show Trees.view.Seen (Trees.accessRange false t p 1 h).2 q t'
    rcases access_cases false t p 1 h with ⟨h', e, ht⟩ | e
    · rw [e]; exact ht.reads hs
    · rw [e]; exact hs
  derive_keeps h t p q t' hs := by
    show Trees.view.Seen (Trees.derive .shared t p 1 h).2 q t'
    rw [derive_eq (by simp)]
    rcases access_cases false t p 1 h with ⟨h', e, ht⟩ | e
    · rw [M.bind_ok e]
      have hs' := ht.reads hs
      have hc : ∃ c, h.blocks.find? (fun c => c.id == p.block) = some c := by
        cases hc : h.blocks.find? (fun c => c.id == p.block) with
        | some c => exact ⟨c, rfl⟩
        | none =>
          unfold accessRange onBlock at e
          rw [hc] at e; cases e
      obtain ⟨c, hc⟩ := hc
      obtain ⟨c1, hc1⟩ := Touched.find e hc
      obtain ⟨h2, e2, ha⟩ := added_of hc1 (if RefKind.shared = .excl then .reserved else .frozen) t
      rw [e2]
      obtain ⟨l, hl, hu⟩ := hs'
      by_cases hq : q.block = p.block
      · exact ⟨_, by rw [ha.loc, if_pos hq, hl]; rfl, BorrowTree.add_reads hu⟩
      · exact ⟨l, by rw [ha.loc, if_neg hq]; exact hl, hu⟩
    · rw [M.bind_apply, e]; exact hs
  chunk_ok {h how t id n} _ hw ho hl hn := by
    have hwh : Trees.view.Whole h id t := fun p l hb hl => (ho p l hb hl).usable
    cases how with
    | asPtr => exact ⟨t, h, rfl, .refl hw, hwh, fun q _ => .refl h q⟩
    | asMut =>
      obtain ⟨h', e, hs, ht, hk⟩ := Trees.derive_excl (t := t) (p := ⟨id, 0⟩) (n := 1) hw Nat.one_pos
        fun q hq => top_of_inside hw hwh ⟨n, hl, by simp; omega⟩ hq
      refine ⟨h.next, h', ?_, hs, fun q l' hb hq => ?_, fun q hq => hk q fun hx => hq hx.1⟩
      · unfold Tagged.chunkPtr
        simp only
        have e' : Aliasing.derive RefKind.excl t ⟨id, 0⟩ 1 h = (.ok h.next, h') := e
        rw [M.bind_ok e']; rfl
      · have hlay := hs.layout
        have hll : ∃ l, h.locAt q = some l := by
          obtain ⟨c', hc', hcl'⟩ := find_of_locAt hq
          have hm : (q.block, c'.locs.length) ∈ Trees.layout h' := by
            refine List.mem_map.2 ⟨c', List.mem_of_find?_eq_some hc', ?_⟩
            have : c'.id = q.block := by simpa using List.find?_some hc'
            rw [this]
          have hlay' : Trees.layout h' = Trees.layout h := hlay
          rw [hlay'] at hm
          obtain ⟨c, hc, hcl⟩ := block_of_layout hw.1 hm
          have hlt : q.off < c.locs.length := by
            rw [hcl]; exact (List.getElem?_eq_some_iff.1 hcl').1
          exact ⟨c.locs[q.off], by
            rw [locAt_of_find (c := c) hc]; exact List.getElem?_eq_getElem hlt⟩
        obtain ⟨l, hl⟩ := hll
        obtain ⟨l1, e1, e2⟩ := ht q hb ⟨l, hl, hwh q l hb hl⟩
        rw [hq] at e1; cases e1
        exact e2
  chunk_ub _ hh := absurd trivial hh

end BST
