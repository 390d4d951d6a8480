import Verif.Proofs.Aliasing
import Verif.Proofs.ArenaClear
import Verif.Borrowing
set_option linter.unusedSimpArgs false
set_option linter.unusedSectionVars false
/-!
# The calls of the arena and their reborrows
-/
namespace BST

/-- What is known about the tags in a heap. -/
abbrev AliasLaws.view (H : Type) [Aliasing H] [AliasLaws H] : AliasView H := AliasLaws.toAliasView

namespace Tagged
open AliasLaws (view)
variable {H T : Type} [Aliasing H] [AliasLaws H] {cfg : Cfg} {s s' : Tagged H T} {p q : Ptr}
  {h h' : H} {R : List (Nat × Nat)}

/-- The heap is consistent with the pointers `R` (allocation and tag) that own it. -/
structure Sane (h : H) (R : List (Nat × Nat)) : Prop where
  wf : (view H).Wf h
  owns : ∀ b t, (b, t) ∈ R → (view H).Owns h b t

theorem Sane.step (hs : Sane h R) (h1 : (view H).Step h h') : Sane h' R :=
  ⟨h1.wf, fun b t ht => h1.owns b t (hs.owns b t ht)⟩

theorem bind_ub {S α β : Type} {f : M S α} {g : α → M S β} {s : S} (e : (f s).1 = .ub) :
    ((f >>= g) s).1 = .ub := by
  rw [M.bind_apply]
  rcases hx : f s with ⟨o, s'⟩
  rw [hx] at e; simp only at e; subst e; rfl

theorem bind_assoc' {S α β γ : Type} (f : M S α) (g : α → M S β) (k : β → M S γ) (s : S) :
    (f >>= fun a => g a >>= k) s = ((f >>= g) >>= k) s := by
  rw [M.bind_apply, M.bind_apply, M.bind_apply]
  rcases f s with ⟨o, s'⟩
  cases o <;> rfl

theorem freeAll_ub {how : ChunkPtr} (hh : ¬ (view H).Sound how) (hw : (view H).Wf h) {c : Chunk T}
    {t : Nat} (hn : 2 ≤ c.slots.length) (l : List (Chunk T × Nat)) :
    (freeAll how ((c, t) :: l) h).1 = .ub := by
  unfold freeAll
  rw [bind_assoc']
  exact bind_ub (AliasLaws.chunk_ub t hh hw hn).2

theorem clearChunks_ub {how : ChunkPtr} (hh : ¬ (view H).Sound how) (hw : (view H).Wf h)
    {c : Chunk T} {t : Nat} (hn : 2 ≤ c.slots.length) (todo : Nat) (l : List (Chunk T × Nat)) :
    (clearChunks how todo ((c, t) :: l) h).1 = .ub := by
  unfold clearChunks
  rw [bind_assoc']
  exact bind_ub (AliasLaws.chunk_ub t hh hw hn).1

theorem dropItems_ok {w id : Nat} (l : List Nat) (hw : (view H).Wf h) (hl : l.Nodup)
    (hh : ∀ i ∈ l, (view H).Top h ⟨id, i⟩ w) :
    ∃ h', dropItems w id l h = (.ok (), h') ∧ (view H).Step h h' := by
  induction l generalizing h with
  | nil => exact ⟨h, rfl, .refl hw⟩
  | cons i l ih =>
    rw [List.nodup_cons] at hl
    obtain ⟨r1, h1, e1, s1, d1, k1⟩ := AliasLaws.derive_top (k := .excl) (p := ⟨id, i⟩) (n := 1) hw
      (by simp) Nat.one_pos fun q hq => by rw [within_one.1 hq]; exact hh i (List.mem_cons_self ..)
    obtain ⟨r2, h2, e2, s2, d2, k2⟩ := AliasLaws.derive_top (k := .raw) (p := ⟨id, i⟩) (n := 1) s1.wf
      (by simp) Nat.one_pos d1
    obtain ⟨h3, e3, s3, _, k3⟩ := AliasLaws.access_top (w := true) s2.wf (d2 _ (within_one.2 rfl))
    unfold dropItems
    rw [M.bind_ok e1, M.bind_ok e2, M.bind_ok e3]
    obtain ⟨h4, e4, s4⟩ := ih s3.wf hl.2 fun j hj => by
      have hne : (⟨id, j⟩ : Ptr) ≠ ⟨id, i⟩ := fun he => by
        simp only [Ptr.mk.injEq, true_and] at he
        subst he; exact hl.1 hj
      have hne' : ¬ Within ⟨id, j⟩ ⟨id, i⟩ 1 := fun hw => hne (within_one.1 hw)
      exact (k3 _ hne).1 _ ((k2 _ hne').1 _ ((k1 _ hne').1 _ (hh j (List.mem_cons_of_mem _ hj))))
    exact ⟨h4, e4, ((s1.trans s2).trans s3).trans s4⟩

theorem clearChunks_ok {how : ChunkPtr} (hh : (view H).Sound how) (l : List (Chunk T × Nat))
    (todo : Nat) (hs : Sane h R)
    (hl : ∀ e ∈ l, (e.1.id, e.2) ∈ R ∧ (e.1.id, e.1.slots.length) ∈ (view H).layout h ∧
      0 < e.1.slots.length) :
    ∃ h', clearChunks how todo l h = (.ok (), h') ∧ (view H).Step h h' := by
  induction l generalizing h todo with
  | nil => exact ⟨h, rfl, .refl hs.wf⟩
  | cons e l ih =>
    obtain ⟨c, t⟩ := e
    obtain ⟨ht, hc, hn⟩ := hl (c, t) (List.mem_cons_self ..)
    simp only at ht hc hn
    obtain ⟨t0, h0, e0, s0, w0, _⟩ := AliasLaws.chunk_ok hh hs.wf (hs.owns _ _ ht) hc hn
    obtain ⟨r1, h1, e1, s1, d1, _⟩ := AliasLaws.derive_excl (p := ⟨c.id, 0⟩) (n := c.slots.length)
      s0.wf w0 ⟨_, by rw [s0.layout]; exact hc, by simp⟩ hn
    obtain ⟨r2, h2, e2, s2, d2, _⟩ := AliasLaws.derive_top (k := .raw) s1.wf (by simp) hn d1
    obtain ⟨h3, e3, s3⟩ := dropItems_ok (w := r2) (id := c.id)
      (List.range (min todo c.slots.length)) s2.wf List.nodup_range fun i hi => by
        have := List.mem_range.1 hi
        exact d2 ⟨c.id, i⟩ ⟨rfl, by simp, by simp; omega⟩
    have s03 := ((s0.trans s1).trans s2).trans s3
    unfold clearChunks
    rw [M.bind_ok e0, M.bind_ok e1, M.bind_ok e2, M.bind_ok e3]
    split
    · exact ⟨h3, rfl, s03⟩
    · obtain ⟨h4, e4, s4⟩ := ih (todo - c.slots.length) (hs.step s03) fun e he => by
        rw [s03.layout]; exact hl e (List.mem_cons_of_mem _ he)
      exact ⟨h4, e4, s03.trans s4⟩

theorem freeAll_ok {how : ChunkPtr} (hh : (view H).Sound how) (l : List (Chunk T × Nat))
    (hw : (view H).Wf h) (hnd : (l.map (·.1.id)).Nodup)
    (hl : ∀ e ∈ l, (view H).Owns h e.1.id e.2 ∧ (e.1.id, e.1.slots.length) ∈ (view H).layout h ∧
      0 < e.1.slots.length) :
    ∃ h', freeAll how l h = (.ok (), h') ∧ (view H).Wf h' ∧
      (view H).layout h' = ((view H).layout h).filter (fun e => e.1 ∉ l.map (·.1.id)) ∧
      (∀ b t, b ∉ l.map (·.1.id) → (view H).Owns h b t → (view H).Owns h' b t) ∧
      ∀ q, q.block ∉ l.map (·.1.id) → (view H).Keep h h' q := by
  induction l generalizing h with
  | nil => exact ⟨h, rfl, hw, (List.filter_eq_self.2 (by simp)).symm, fun _ _ _ h => h, fun q _ => .refl h q⟩
  | cons e l ih =>
    obtain ⟨c, t⟩ := e
    obtain ⟨ht, hc, hn⟩ := hl (c, t) (List.mem_cons_self ..)
    simp only at ht hc hn
    rw [List.map_cons, List.nodup_cons] at hnd
    obtain ⟨t0, h0, e0, s0, w0, k0⟩ := AliasLaws.chunk_ok hh hw ht hc hn
    obtain ⟨h1, e1, a1, l1⟩ := AliasLaws.deallocate_ok s0.wf w0 (by rw [s0.layout]; exact hc) hn
    have a01 := (AliasView.Apart.of_step s0 k0).trans a1
    rw [s0.layout] at l1
    obtain ⟨h2, e2, w2, l2, o2, k2⟩ := ih a1.wf hnd.2 fun e he => by
      obtain ⟨h1, h2, h3⟩ := hl e (List.mem_cons_of_mem _ he)
      have hne : e.1.id ≠ c.id := fun hc' => hnd.1 (List.mem_map.2 ⟨e, he, hc'⟩)
      exact ⟨a01.owns _ _ hne h1, by
        rw [l1]; exact List.mem_filter.2 ⟨h2, by simpa using hne⟩, h3⟩
    unfold freeAll
    rw [M.bind_ok e0, M.bind_ok e1]
    refine ⟨h2, e2, w2, ?_, fun b t' hb ho => ?_, fun q hq => ?_⟩
    · rw [l2, l1, List.filter_filter]
      apply List.filter_congr
      intro b _
      rw [← Bool.decide_and]
      apply decide_eq_decide.2
      simp only [List.map_cons, List.mem_cons, not_or]
      exact And.comm
    · simp only [List.map_cons, List.mem_cons, not_or] at hb
      exact o2 b t' hb.2 (a01.owns b t' hb.1 ho)
    · simp only [List.map_cons, List.mem_cons, not_or] at hq
      exact (a01.keep q hq.1).trans (k2 q hq.2)

/-- The chunk pointers: allocation and tag. -/
def pairs (s : Tagged H T) : List (Nat × Nat) := (s.arena.chunks.map (·.id)).zip s.tags

/-- Chunk, with its size. -/
def sized (c : Chunk T) : Nat × Nat := (c.id, c.slots.length)

structure Good (cfg : Cfg) (s : Tagged H T) : Prop where
  inv : s.arena.Inv cfg
  tags : s.tags.length = s.arena.chunks.length
  layout : (view H).layout s.heap = s.arena.chunks.map sized
  sane : Sane s.heap s.pairs

theorem func_of_nodup {R : List (Nat × Nat)} (h : (R.map (·.1)).Nodup) :
    ∀ b t t', (b, t) ∈ R → (b, t') ∈ R → t = t' := by
  induction R with
  | nil => intro _ _ _ h; cases h
  | cons e R ih =>
    rw [List.map_cons, List.nodup_cons] at h
    intro b t t' h1 h2
    rcases List.mem_cons.1 h1 with h1 | h1
    · rcases List.mem_cons.1 h2 with h2 | h2
      · rw [← h1] at h2; cases h2; rfl
      · exact absurd (List.mem_map.2 ⟨_, h2, by rw [← h1]⟩) h.1
    · rcases List.mem_cons.1 h2 with h2 | h2
      · exact absurd (List.mem_map.2 ⟨_, h1, by rw [← h2]⟩) h.1
      · exact ih h.2 b t t' h1 h2

theorem zip_fst {α β : Type} (l : List α) (m : List β) : (l.zip m).map (·.1) = l.take m.length := by
  induction l generalizing m with
  | nil => simp
  | cons a l ih => cases m with
    | nil => simp
    | cons b m => simp [ih]

theorem zip_take {α β : Type} (l : List α) (m : List β) (n : Nat) :
    (l.zip m).take n = (l.take n).zip (m.take n) := by
  induction n generalizing l m with
  | zero => simp
  | succ n ih =>
    cases l with
    | nil => simp
    | cons a l => cases m with
      | nil => simp
      | cons b m => simp [ih]

theorem pairs_func (hi : (s.arena.chunks.map (·.id)).Nodup) :
    ∀ b t t', (b, t) ∈ s.pairs → (b, t') ∈ s.pairs → t = t' := by
  apply func_of_nodup
  unfold pairs
  rw [zip_fst]
  exact hi.sublist (List.take_sublist ..)

/-- The first chunks have tags, the chunks `l` do not yet. -/
structure Part (s : Tagged H T) (l : List (Chunk T)) : Prop where
  rest : s.arena.chunks.drop s.tags.length = l
  le : s.tags.length ≤ s.arena.chunks.length
  layout : (view H).layout s.heap = (s.arena.chunks.take s.tags.length).map sized
  sane : Sane s.heap s.pairs

theorem zip_concat {α β : Type} {l l' : List α} {a : α} {m : List β} (b : β)
    (h : l.length = m.length) : (l ++ a :: l').zip (m ++ [b]) = (l ++ a :: l').zip m ++ [(a, b)] := by
  induction l generalizing m with
  | nil =>
    cases m with
    | nil => simp
    | cons _ _ => cases h
  | cons x l ih =>
    cases m with
    | nil => cases h
    | cons y m =>
      simp only [List.cons_append, List.zip_cons_cons]
      rw [ih (by simpa using h)]

theorem adopt_good (hi : s.arena.Inv cfg) {l : List (Chunk T)} (hp : Part s l) :
    Good cfg (adopt s l) ∧ (adopt s l).arena = s.arena ∧
      ∀ q, q.block ∈ ((view H).layout s.heap).map (·.1) → (view H).Keep s.heap (adopt s l).heap q := by
  induction l generalizing s with
  | nil =>
    have hle := List.drop_eq_nil_iff.1 hp.rest
    refine ⟨⟨hi, by have := hp.le; simp only [adopt]; omega, ?_, hp.sane⟩, rfl, fun q _ => .refl _ q⟩
    simp only [adopt]
    rw [hp.layout, List.take_of_length_le hle]
  | cons c l ih =>
    have hk : s.tags.length < s.arena.chunks.length := by
      rcases Nat.lt_or_ge s.tags.length s.arena.chunks.length with h | h
      · exact h
      · have := hp.rest
        rw [List.drop_eq_nil_iff.2 h] at this
        cases this
    have hcut : s.arena.chunks = s.arena.chunks.take s.tags.length ++ c :: l := by
      conv => lhs; rw [← List.take_append_drop s.tags.length s.arena.chunks, hp.rest]
    have hnew : c.id ∉ ((view H).layout s.heap).map (·.1) := by
      rw [hp.layout, List.map_map]
      intro hm
      have := hi.ids
      rw [hcut, List.map_append, List.map_cons, List.nodup_append] at this
      exact this.2.2 _ hm _ (List.mem_cons_self ..) rfl
    obtain ⟨t, h1, e1, a1, l1, o1⟩ := AliasLaws.allocate_ok (n := c.slots.length) hp.sane.wf hnew
    let s1 : Tagged H T := { s with tags := s.tags ++ [t], heap := h1 }
    have hs1 : adopt s (c :: l) = adopt s1 l := by
      simp only [adopt, e1]; rfl
    have hpairs : s1.pairs = s.pairs ++ [(c.id, t)] := by
      show (s.arena.chunks.map (·.id)).zip (s.tags ++ [t]) = _ ++ _
      unfold pairs
      rw [hcut, List.map_append, List.map_cons]
      apply zip_concat
      simp only [List.length_map, List.length_take]
      omega
    have hp1 : Part s1 l := by
      refine ⟨?_, ?_, ?_, a1.wf, fun b t' hb => ?_⟩
      · show s.arena.chunks.drop (s.tags ++ [t]).length = l
        rw [List.length_append, ← List.drop_drop, hp.rest]; rfl
      · show (s.tags ++ [t]).length ≤ _
        rw [List.length_append]; exact hk
      · show (view H).layout h1 = (s.arena.chunks.take (s.tags ++ [t]).length).map sized
        have htake : s.arena.chunks.take (s.tags.length + 1) =
            s.arena.chunks.take s.tags.length ++ [c] := by
          rw [List.take_add, hp.rest]; rfl
        rw [l1, hp.layout, List.length_append, List.length_singleton, htake, List.map_append]
        rfl
      · have hb' := hb
        rw [hpairs] at hb
        rcases List.mem_append.1 hb with hb | hb
        · refine a1.owns b t' (fun he => hnew ?_) (hp.sane.owns b t' hb)
          subst he
          rw [hp.layout, List.map_map]
          have : c.id ∈ s.pairs.map (·.1) := List.mem_map.2 ⟨_, hb, rfl⟩
          unfold pairs at this
          rw [zip_fst, ← List.map_take] at this
          exact this
        · simp only [List.mem_singleton, Prod.mk.injEq] at hb
          rw [hb.1, hb.2]; exact o1
    obtain ⟨g1, g2, g3⟩ := ih (s := s1) hi hp1
    rw [hs1]
    refine ⟨g1, g2, fun q hq => ?_⟩
    refine (a1.keep q fun he => hnew (he ▸ hq)).trans (g3 q ?_)
    show q.block ∈ ((view H).layout h1).map (·.1)
    rw [l1, List.map_append]
    exact List.mem_append_left _ hq

/-- Growth keeps the elements and what may be done with them. -/
structure Keeps (cfg : Cfg) (s s' : Tagged H T) : Prop where
  good : s'.Good cfg
  cell : ∀ q, (s.arena.cell q).isSome → (s'.arena.cell q).isSome
  keep : ∀ q, (s.arena.cell q).isSome → (view H).Keep s.heap s'.heap q

theorem Good.adopt (hg : s.Good cfg) {a : Arena T} (hi : a.Inv cfg)
    (hc : s.arena.chunks.map sized <+: a.chunks.map sized) :
    Good cfg (Tagged.adopt { s with arena := a } (a.chunks.drop s.tags.length)) ∧
    (Tagged.adopt { s with arena := a } (a.chunks.drop s.tags.length)).arena = a ∧
    ∀ q, q.block ∈ ((view H).layout s.heap).map (·.1) → (view H).Keep s.heap
      (Tagged.adopt { s with arena := a } (a.chunks.drop s.tags.length)).heap q := by
  have hlen := hc.length_le
  simp only [List.length_map] at hlen
  have htake : (a.chunks.take s.arena.chunks.length).map sized = s.arena.chunks.map sized := by
    obtain ⟨r, hr⟩ := hc
    rw [List.map_take, ← hr, List.take_left' (by simp)]
  refine adopt_good (s := { s with arena := a }) hi ⟨rfl, ?_, ?_, ?_⟩
  · show s.tags.length ≤ a.chunks.length
    rw [hg.tags]; exact hlen
  · show (view H).layout s.heap = (a.chunks.take s.tags.length).map sized
    rw [hg.tags, htake, hg.layout]
  · have : ({ s with arena := a } : Tagged H T).pairs = s.pairs := by
      unfold pairs
      have h1 := congrArg (List.map (·.1)) htake
      rw [List.map_map, List.map_map] at h1
      have h2 : s.arena.chunks.map (·.id) = (a.chunks.map (·.id)).take s.tags.length := by
        rw [hg.tags, ← List.map_take]; exact h1.symm
      rw [h2]
      show (a.chunks.map (·.id)).zip s.tags = _
      generalize a.chunks.map (·.id) = l
      generalize s.tags = m
      clear h1 h2
      induction m generalizing l with
      | nil => simp
      | cons b m ih => cases l with
        | nil => simp
        | cons a l => simp [← ih]
    rw [this]; exact hg.sane

theorem inside_of_cell {a : Arena T} (h : (a.cell p).isSome) :
    ∃ c ∈ a.chunks, c.id = p.block ∧ p.off < c.slots.length := by
  unfold Arena.cell at h
  split at h
  · cases h
  · rename_i c hc
    refine ⟨c, List.mem_of_find?_eq_some hc, by simpa using List.find?_some hc, ?_⟩
    rcases Nat.lt_or_ge p.off c.slots.length with h' | h'
    · exact h'
    · rw [List.getElem?_eq_none h'] at h; cases h

theorem Good.inside (hg : s.Good cfg) (hp : (s.arena.cell p).isSome) :
    (view H).Inside s.heap p 1 := by
  obtain ⟨c, hc, hid, hoff⟩ := inside_of_cell hp
  refine ⟨c.slots.length, ?_, hoff⟩
  rw [hg.layout, ← hid]
  exact List.mem_map.2 ⟨c, hc, rfl⟩

theorem Good.tagOf (hg : s.Good cfg) (hp : (s.arena.cell p).isSome) :
    ∃ t, s.tagOf p = .ok t ∧ (p.block, t) ∈ s.pairs := by
  obtain ⟨c, hc, hid, _⟩ := inside_of_cell hp
  have hm : p.block ∈ s.pairs.map (·.1) := by
    unfold pairs
    rw [zip_fst, List.take_of_length_le (by rw [List.length_map, hg.tags]; exact Nat.le_refl _)]
    exact List.mem_map.2 ⟨c, hc, hid⟩
  obtain ⟨e, he, hee⟩ := List.mem_map.1 hm
  unfold Tagged.tagOf
  cases hf : List.find? (fun e : Nat × Nat => e.1 == p.block)
      ((s.arena.chunks.map (·.id)).zip s.tags) with
  | none => exact absurd (List.find?_eq_none.1 hf e he) (by simp [hee])
  | some e' =>
    have h1 : e'.1 = p.block := by simpa using List.find?_some hf
    refine ⟨e'.2, rfl, ?_⟩
    rw [← h1]
    exact List.mem_of_find?_eq_some hf

theorem Keeps.refl (hg : s.Good cfg) : Keeps cfg s s := ⟨hg, fun _ h => h, fun q _ => .refl _ q⟩
theorem Keeps.trans {s1 s2 s3 : Tagged H T} (h : Keeps cfg s1 s2) (h' : Keeps cfg s2 s3) :
    Keeps cfg s1 s3 :=
  ⟨h'.good, fun q hq => h'.cell q (h.cell q hq), fun q hq =>
    (h.keep q hq).trans (h'.keep q (h.cell q hq))⟩

theorem Good.keeps_adopt (hg : s.Good cfg) {a : Arena T} (hi : a.Inv cfg)
    (hc : s.arena.chunks.map sized <+: a.chunks.map sized)
    (hcell : ∀ q, (s.arena.cell q).isSome → (a.cell q).isSome) :
    Keeps cfg s (Tagged.adopt { s with arena := a } (a.chunks.drop s.tags.length)) := by
  obtain ⟨h1, h2, h3⟩ := hg.adopt hi hc
  refine ⟨h1, fun q hq => by rw [h2]; exact hcell q hq, fun q hq => h3 q ?_⟩
  obtain ⟨m, hm, _⟩ := hg.inside hq
  exact List.mem_map.2 ⟨_, hm, rfl⟩

/-! ### The calls -/

theorem sized_grown (a : Arena T) : a.chunks.map sized <+: a.grown.chunks.map sized := by
  unfold Arena.grown
  rw [List.map_append]
  exact List.prefix_append ..

theorem sized_grows {a b : Arena T} (h : Arena.Grows cfg a b) :
    a.chunks.map sized <+: b.chunks.map sized := by
  induction h with
  | refl => exact List.prefix_rfl
  | step _ _ ih => exact ih.trans (sized_grown _)

theorem sized_wrote (a : Arena T) (v : T) : (a.wrote v).chunks.map sized = a.chunks.map sized :=
  Arena.poke_chunks_map a _ _

/-- A change of the heap that keeps the allocations. -/
theorem Good.setHeap (hg : s.Good cfg) {h : H} (hs : (view H).Step s.heap h) :
    Good cfg { s with heap := h } :=
  ⟨hg.inv, hg.tags, hs.layout.trans hg.layout, hg.sane.step hs⟩

theorem onHeap_ok {α : Type} {f : M H α} {h : H} {r : α}
    (e : f s.heap = (.ok r, h)) : onHeap f s = (.ok r, { s with heap := h }) := by
  unfold onHeap; rw [e]

theorem getUnchecked_ok (hg : s.Good cfg) (hp : (s.arena.cell p).isSome) :
    ∃ r h', getUnchecked p s = (.ok r, { s with heap := h' }) ∧ (view H).Step s.heap h' ∧
      (view H).Seen h' p r ∧ (∀ q, q ≠ p → (view H).Keep s.heap h' q) ∧
      ∀ q t, (view H).Seen s.heap q t → (view H).Seen h' q t := by
  obtain ⟨t, ht, htm⟩ := hg.tagOf hp
  obtain ⟨r, h', e, hs', hr, ho⟩ := AliasLaws.derive_shared hg.sane.wf
    (AliasLaws.whole (hg.sane.owns _ _ htm)) (hg.inside hp)
  obtain ⟨v, hv⟩ := Option.isSome_iff_exists.1 hp
  refine ⟨r, h', ?_, hs', hr, ho, fun q t' hq => ?_⟩
  · unfold getUnchecked
    have h1 : s.arena.getUnchecked p = .ok v := by unfold Arena.getUnchecked; rw [hv]
    rw [M.read_bind, h1, M.lift_ok_bind, M.read_bind, ht, M.lift_ok_bind]
    exact onHeap_ok e
  · have := AliasLaws.derive_keeps s.heap t p q t' hq
    rw [e] at this; exact this

theorem getUncheckedMut_ok (hg : s.Good cfg) (hp : (s.arena.cell p).isSome) :
    ∃ r h', getUncheckedMut p s = (.ok r, { s with heap := h' }) ∧ (view H).Step s.heap h' ∧
      (view H).Top h' p r ∧ ∀ q, q ≠ p → (view H).Keep s.heap h' q := by
  obtain ⟨t, ht, htm⟩ := hg.tagOf hp
  obtain ⟨r, h', e, hs', hr, ho⟩ := AliasLaws.derive_excl hg.sane.wf
    (AliasLaws.whole (hg.sane.owns _ _ htm)) (hg.inside hp) Nat.one_pos
  obtain ⟨v, hv⟩ := Option.isSome_iff_exists.1 hp
  refine ⟨r, h', ?_, hs', hr p (within_one.2 rfl), fun q hq => ho q fun hw => hq (within_one.1 hw)⟩
  unfold getUncheckedMut
  have h1 : s.arena.getUnchecked p = .ok v := by unfold Arena.getUnchecked; rw [hv]
  rw [M.read_bind, h1, M.lift_ok_bind, M.read_bind, ht, M.lift_ok_bind]
  exact onHeap_ok e

theorem grow_eq {α : Type} {f : M (Arena T) α} {o : Out α} {a : Arena T}
    (e : f s.arena = (o, a)) :
    grow f s = (o, adopt { s with arena := a } (a.chunks.drop s.tags.length)) := by
  unfold grow; rw [e]

theorem adopt_self (hg : s.Good cfg) :
    adopt { s with arena := s.arena } (s.arena.chunks.drop s.tags.length) = s := by
  rw [hg.tags, List.drop_length]; rfl

theorem alloc_keeps (hg : s.Good cfg) (v : T) :
    (∃ p s', alloc cfg v s = (.ok p, s') ∧ Keeps cfg s s' ∧ (s'.arena.cell p).isSome ∧
      (s.arena.cell p) = none ∧ Arena.alloc cfg v s.arena = (.ok p, s'.arena)) ∨
    (alloc cfg v s = (.panic, s) ∧ Arena.alloc cfg v s.arena = (.panic, s.arena)) ∨
    (alloc cfg v s = (.abort, s) ∧ Arena.alloc cfg v s.arena = (.abort, s.arena)) := by
  rcases Arena.alloc_spec hg.inv v with ⟨b, e, hb, hbl, hlt, hbc⟩ | ⟨_, ⟨e, _⟩ | ⟨e, _⟩⟩
  · left
    have hcells : ∀ q, b.cell q = s.arena.cell q := by
      rcases hbc with ⟨rfl, _⟩ | ⟨rfl, _⟩
      · exact fun _ => rfl
      · exact Arena.cell_grown
    have hbl' : b.len < b.capacity := by omega
    have hwi := hb.wrote hbl' v
    have hpre : s.arena.chunks.map sized <+: (b.wrote v).chunks.map sized := by
      rw [sized_wrote]
      rcases hbc with ⟨rfl, _⟩ | ⟨rfl, _⟩
      · exact List.prefix_rfl
      · exact sized_grown _
    have hnone : b.cell (b.addr b.len) = none := by
      have := hb.cell_addr hbl'
      cases hc : b.cell (b.addr b.len) with
      | none => rfl
      | some w => rw [hc] at this; exact absurd (this.1 rfl) (Nat.lt_irrefl _)
    have hwc : ∀ q, (b.wrote v).cell q = if q = b.addr b.len then some v else b.cell q :=
      fun q => hb.cell_poke hbl' (some v) q
    have hk := hg.keeps_adopt hwi hpre fun q hq => by
      rw [hwc]
      split
      · rfl
      · rw [hcells]; exact hq
    obtain ⟨_, harena, _⟩ := hg.adopt hwi hpre
    have e' := grow_eq e
    rw [← hbl] at e'
    generalize hs1 : Tagged.adopt { s with arena := b.wrote v }
      ((b.wrote v).chunks.drop s.tags.length) = s1 at hk harena e'
    have hp1 : (s1.arena.cell (b.addr b.len)).isSome := by
      rw [harena, hwc, if_pos rfl]; rfl
    obtain ⟨t, ht, htm⟩ := hk.good.tagOf hp1
    obtain ⟨r2, h2, e2, s2, d2, k2⟩ := AliasLaws.derive_excl hk.good.sane.wf
      (AliasLaws.whole (hk.good.sane.owns _ _ htm)) (hk.good.inside hp1) Nat.one_pos
    obtain ⟨r3, h3, e3, s3, d3, k3⟩ := AliasLaws.derive_top (k := .excl) s2.wf (by simp) Nat.one_pos d2
    obtain ⟨r4, h4, e4, s4, d4, k4⟩ := AliasLaws.derive_top (k := .raw) s3.wf (by simp) Nat.one_pos d3
    obtain ⟨h5, e5, s5, _, k5⟩ := AliasLaws.access_top (w := true) s4.wf (d4 _ (within_one.2 rfl))
    refine ⟨b.addr b.len, { s1 with heap := h5 }, ?_, ⟨?_, hk.cell, fun q hq => ?_⟩, hp1, ?_,
      by rw [e, harena, hbl]⟩
    · unfold alloc
      rw [M.bind_ok e', M.read_bind, ht, M.lift_ok_bind, M.bind_ok (onHeap_ok e2),
        M.bind_ok (onHeap_ok (s := { s1 with heap := h2 }) e3),
        M.bind_ok (onHeap_ok (s := { s1 with heap := h3 }) e4),
        M.bind_ok (onHeap_ok (s := { s1 with heap := h4 }) e5)]
      rfl
    · exact hk.good.setHeap (((s2.trans s3).trans s4).trans s5)
    · have hne : q ≠ b.addr b.len := fun hw => by
        rw [hw, ← hcells, hnone] at hq; cases hq
      have hne' : ¬ Within q (b.addr b.len) 1 := fun hw => hne (within_one.1 hw)
      exact ((((hk.keep q hq).trans (k2 q hne')).trans (k3 q hne')).trans (k4 q hne')).trans (k5 q hne)
    · rw [← hcells]; exact hnone
  · right; left
    have e' := grow_eq e
    rw [adopt_self hg] at e'
    refine ⟨?_, e⟩
    unfold alloc
    rw [M.bind_apply, e']
  · right; right
    have e' := grow_eq e
    rw [adopt_self hg] at e'
    refine ⟨?_, e⟩
    unfold alloc
    rw [M.bind_apply, e']

theorem grow_keeps (hg : s.Good cfg) {α : Type} {f : M (Arena T) α} {o : Out α} {b : Arena T}
    (e : f s.arena = (o, b)) (hb : Arena.Grows cfg s.arena b) :
    ∃ s', grow f s = (o, s') ∧ Keeps cfg s s' ∧ s'.arena = b :=
  ⟨_, grow_eq e, hg.keeps_adopt hb.inv (sized_grows hb) fun q hq => by rw [hb.cell]; exact hq,
    (hg.adopt hb.inv (sized_grows hb)).2.1⟩

theorem growTo_keeps (hg : s.Good cfg) (n : Nat) :
    ∃ o s', grow (Arena.growTo cfg n) s = (o, s') ∧ Keeps cfg s s' ∧
      Arena.growTo cfg n s.arena = (o, s'.arena) ∧ (o = .ok () ∨ o = .panic ∨ o = .abort) := by
  obtain ⟨b, hb, ⟨e, _⟩ | ⟨_, ⟨e, _⟩ | ⟨e, _⟩⟩⟩ := Arena.growTo_spec (cfg := cfg) n hg.inv <;>
  · obtain ⟨s', e', hk, ha⟩ := grow_keeps hg e hb
    exact ⟨_, s', e', hk, by rw [e, ha], by simp⟩

theorem reserve_keeps (hg : s.Good cfg) (n : Nat) :
    ∃ o s', reserve cfg n s = (o, s') ∧ Keeps cfg s s' ∧ (o = .ok () ∨ o = .panic ∨ o = .abort) ∧
      Arena.reserve cfg n s.arena = (o, s'.arena) := by
  unfold reserve
  cases ha : addU cfg s.arena.len n with
  | ok c =>
    have hre : Arena.reserve cfg n s.arena = Arena.growTo cfg c s.arena := by
      unfold Arena.reserve
      rw [M.get_bind, ha, M.lift_ok_bind]
    obtain ⟨b, hb, ⟨e, _⟩ | ⟨_, ⟨e, _⟩ | ⟨e, _⟩⟩⟩ := Arena.growTo_spec (cfg := cfg) c hg.inv <;>
    · obtain ⟨s', e', hk, ha⟩ := grow_keeps hg (hre.trans e) hb
      exact ⟨_, s', e', hk, by simp, by rw [hre, e, ha]⟩
  | panic =>
    have hre : Arena.reserve cfg n s.arena = (.panic, s.arena) := by
      unfold Arena.reserve
      rw [M.get_bind, ha]; rfl
    obtain ⟨s', e', hk, ha⟩ := grow_keeps hg hre (.refl hg.inv)
    exact ⟨_, s', e', hk, by simp, by rw [hre, ha]⟩
  | _ => unfold addU at ha; split at ha <;> first | cases ha | (split at ha <;> cases ha)

theorem zip_ids (hg : s.Good cfg) {e : Chunk T × Nat} (he : e ∈ s.arena.chunks.zip s.tags) :
    (e.1.id, e.2) ∈ s.pairs ∧ (e.1.id, e.1.slots.length) ∈ (view H).layout s.heap ∧
      2 ≤ e.1.slots.length := by
  refine ⟨?_, ?_, ?_⟩
  · unfold pairs
    rw [List.zip_map_left]
    exact List.mem_map.2 ⟨e, he, rfl⟩
  · rw [hg.layout]
    exact List.mem_map.2 ⟨e.1, (List.of_mem_zip he).1, rfl⟩
  · obtain ⟨i, hi⟩ := List.mem_iff_getElem?.1 (List.of_mem_zip he).1
    rw [hg.inv.slots i _ hi]
    have : 0 < 2 ^ i := Nat.pow_pos (by omega)
    omega

theorem fst_zip (hg : s.Good cfg) :
    (s.arena.chunks.zip s.tags).map (·.1) = s.arena.chunks := by
  rw [zip_fst, List.take_of_length_le (by rw [hg.tags]; exact Nat.le_refl _)]

theorem sublist_nodup (hg : s.Good cfg) {l : List (Chunk T × Nat)}
    (hl : l.Perm (s.arena.chunks.zip s.tags) ∨ l.reverse.Sublist (s.arena.chunks.zip s.tags)) :
    (l.map (·.1.id)).Nodup := by
  have hz : ((s.arena.chunks.zip s.tags).map (·.1.id)).Nodup := by
    have : (s.arena.chunks.zip s.tags).map (·.1.id) =
        ((s.arena.chunks.zip s.tags).map (·.1)).map (·.id) := by rw [List.map_map]; rfl
    rw [this, fst_zip hg]
    exact hg.inv.ids
  rcases hl with hl | hl
  · exact (hl.map _).nodup_iff.2 hz
  · have h1 := hz.sublist (hl.map _)
    rw [List.map_reverse] at h1
    exact (List.reverse_perm _).nodup_iff.1 h1

theorem shrinkToFit_keeps (hg : s.Good cfg) (how : ChunkPtr) :
    (∃ s', shrinkToFit cfg how s = (.ok (), s') ∧ Keeps cfg s s' ∧
      (¬ (view H).Sound how → s'.arena.chunks = s.arena.chunks) ∧
      Arena.shrinkToFit cfg s.arena = (.ok (), s'.arena)) ∨
    (¬ (view H).Sound how ∧ (shrinkToFit cfg how s).1 = .ub) := by
  obtain ⟨b, e, hb⟩ := Arena.shrinkToFit_spec hg.inv
  unfold shrinkToFit
  rw [e]
  simp only
  have hsub : ∀ e ∈ ((s.arena.chunks.zip s.tags).drop b.chunks.length).reverse,
      e ∈ s.arena.chunks.zip s.tags := fun e he =>
    (List.drop_sublist _ _).subset (List.mem_reverse.1 he)
  have hble : b.chunks.length ≤ s.arena.chunks.length := hb.prefix_.length_le
  have htake : s.arena.chunks.take b.chunks.length = b.chunks := by
    obtain ⟨r, hr⟩ := hb.prefix_
    rw [← hr, List.take_left' rfl]
  have hzlen : (s.arena.chunks.zip s.tags).length = s.arena.chunks.length := by
    rw [List.length_zip, hg.tags]; omega
  by_cases hsnd : (view H).Sound how
  · left
    obtain ⟨h', hf, hw', hl', ho', hk'⟩ := freeAll_ok hsnd
      ((s.arena.chunks.zip s.tags).drop b.chunks.length).reverse hg.sane.wf
      (sublist_nodup hg (.inr (by rw [List.reverse_reverse]; exact List.drop_sublist _ _)))
      fun e he => by
        obtain ⟨h1, h2, h3⟩ := zip_ids hg (hsub e he)
        exact ⟨hg.sane.owns _ _ h1, h2, by omega⟩
    rw [hf]
    have hids : ∀ i, i ∈ (((s.arena.chunks.zip s.tags).drop b.chunks.length).reverse.map
        (·.1.id)) ↔ i ∈ (s.arena.chunks.drop b.chunks.length).map (·.id) := by
      intro i
      rw [List.map_reverse, List.mem_reverse]
      have : ((s.arena.chunks.zip s.tags).drop b.chunks.length).map (·.1.id) =
          (((s.arena.chunks.zip s.tags).map (·.1)).drop b.chunks.length).map (·.id) := by
        rw [← List.map_drop, List.map_map]; rfl
      rw [this, fst_zip hg]
    have hnd : ∀ i, i ∈ b.chunks.map (·.id) →
        i ∉ (s.arena.chunks.drop b.chunks.length).map (·.id) := by
      intro i hi hi'
      have := hg.inv.ids
      rw [← List.take_append_drop b.chunks.length s.arena.chunks, htake, List.map_append,
        List.nodup_append] at this
      exact this.2.2 i hi i hi' rfl
    refine ⟨_, rfl, ⟨⟨hb.inv, ?_, ?_, ?_⟩, fun q hq => by rw [hb.cell]; exact hq, fun q hq => ?_⟩,
      fun hn => absurd hsnd hn, rfl⟩
    · show (s.tags.take b.chunks.length).length = b.chunks.length
      rw [List.length_take, hg.tags]; omega
    · show (view H).layout h' = b.chunks.map sized
      rw [hl', hg.layout]
      have hcut : s.arena.chunks.map sized =
          (b.chunks ++ s.arena.chunks.drop b.chunks.length).map sized := by
        rw [← htake, List.length_take, Nat.min_eq_left hble, List.take_append_drop]
      rw [hcut, List.map_append, List.filter_append, List.filter_eq_self.2, List.filter_eq_nil_iff.2,
        List.append_nil]
      · intro x hx
        obtain ⟨c, hc, rfl⟩ := List.mem_map.1 hx
        simp only [decide_eq_true_eq, Classical.not_not]
        rw [hids]
        exact List.mem_map.2 ⟨c, hc, rfl⟩
      · intro x hx
        obtain ⟨c, hc, rfl⟩ := List.mem_map.1 hx
        simp only [decide_eq_true_eq]
        rw [hids]
        exact hnd _ (List.mem_map.2 ⟨c, hc, rfl⟩)
    · refine ⟨hw', fun x t hx => ?_⟩
      have hx' : (b.chunks.map (·.id)).zip (s.tags.take b.chunks.length) =
          s.pairs.take b.chunks.length := by
        unfold pairs
        rw [zip_take, ← List.map_take, htake]
      refine ho' x t ?_ (hg.sane.owns x t ?_)
      · rw [hids]
        exact hnd x (List.of_mem_zip hx).1
      · have hx2 : (x, t) ∈ (b.chunks.map (·.id)).zip (s.tags.take b.chunks.length) := hx
        rw [hx'] at hx2
        exact List.mem_of_mem_take hx2
    · refine hk' q ?_
      rw [hids]
      apply hnd
      have hq' : (b.cell q).isSome := by rw [hb.cell]; exact hq
      obtain ⟨c, hc, hid, _⟩ := inside_of_cell hq'
      exact List.mem_map.2 ⟨c, hc, hid⟩
  · cases hl : ((s.arena.chunks.zip s.tags).drop b.chunks.length).reverse with
    | nil =>
      left
      have hd : (s.arena.chunks.zip s.tags).drop b.chunks.length = [] := List.reverse_eq_nil_iff.1 hl
      have hle := List.drop_eq_nil_iff.1 hd
      rw [hzlen] at hle
      have heq : b.chunks = s.arena.chunks := by
        rw [← htake, List.take_of_length_le hle]
      refine ⟨{ arena := b, tags := s.tags.take b.chunks.length, heap := s.heap }, rfl,
        ⟨⟨hb.inv, ?_, ?_, ?_⟩, fun q hq => by rw [hb.cell]; exact hq, fun q hq => .refl _ q⟩, fun _ => heq,
        rfl⟩
      · show (s.tags.take b.chunks.length).length = b.chunks.length
        rw [List.length_take, hg.tags]; omega
      · show (view H).layout s.heap = b.chunks.map sized
        rw [heq]; exact hg.layout
      · show Sane s.heap ((b.chunks.map (·.id)).zip (s.tags.take b.chunks.length))
        rw [heq, List.take_of_length_le (by rw [hg.tags]; exact Nat.le_refl _)]
        exact hg.sane
    | cons e l =>
      right
      obtain ⟨c, t⟩ := e
      have hm := hsub (c, t) (by rw [hl]; exact List.mem_cons_self ..)
      have := freeAll_ub hsnd hg.sane.wf (t := t) (zip_ids hg hm).2.2 l
      refine ⟨hsnd, ?_⟩
      exact this

theorem clear_arena (hg : s.Good cfg) (nd : Bool) :
    ∃ a : Arena T, Arena.clear cfg nd (fun _ => false) s.arena = (.ok (), a) ∧ a.Inv cfg ∧
      a.chunks.map sized = s.arena.chunks.map sized := by
  obtain ⟨l, hl⟩ := hg.inv.holds
  have hno := Slab.dropRun_noPanic (d := ⟨nd, fun _ => false⟩)
    (l := Arena.toDrop ⟨nd, fun _ => false⟩ l) fun _ _ => rfl
  rcases Arena.clear_spec hg.inv hl ⟨nd, fun _ => false⟩ with ⟨_, e⟩ | ⟨h, _⟩
  · refine ⟨_, e, ?_, ?_⟩
    · have hc := hg.inv.cleared
      exact ⟨hc.size, hc.slots, hc.ids, hc.idlt, hc.cap, hc.lenle, hc.init, hc.log⟩
    · simp [Arena.cleared, Arena.forgetCells, sized, Function.comp_def]
  · rw [hno] at h; cases h

/-- The same chunks, and nothing to adopt. -/
theorem Good.same (hg : s.Good cfg) {a : Arena T} (hi : a.Inv cfg)
    (hc : a.chunks.map sized = s.arena.chunks.map sized) : Good cfg { s with arena := a } := by
  have hlen : a.chunks.length = s.arena.chunks.length := by
    have := congrArg List.length hc
    simpa using this
  refine ⟨hi, hg.tags.trans hlen.symm, hg.layout.trans hc.symm, ?_⟩
  have hids : a.chunks.map (·.id) = s.arena.chunks.map (·.id) := by
    have := congrArg (List.map (·.1)) hc
    rw [List.map_map, List.map_map] at this
    exact this
  show Sane s.heap ((a.chunks.map (·.id)).zip s.tags)
  rw [hids]; exact hg.sane

theorem grow_clear (hg : s.Good cfg) (nd : Bool) :
    ∃ a : Arena T, grow (Arena.clear cfg nd fun _ => false) s = (.ok (), { s with arena := a }) ∧
      Good cfg { s with arena := a } ∧ a.chunks.map sized = s.arena.chunks.map sized := by
  obtain ⟨a, e, hi, hc⟩ := clear_arena hg nd
  refine ⟨a, ?_, hg.same hi hc, hc⟩
  rw [grow_eq e]
  have hlen : a.chunks.length = s.arena.chunks.length := by
    have := congrArg List.length hc
    simpa using this
  rw [hg.tags, ← hlen, List.drop_length]; rfl

/-- `clear` keeps the chunks; with unsound chunk pointers it is undefined unless there is nothing
to drop. -/
theorem clear_good (hg : s.Good cfg) (how : ChunkPtr) (nd : Bool) :
    (∃ s', clear cfg how nd s = (.ok (), s') ∧ Good cfg s' ∧
      s'.arena.chunks.map sized = s.arena.chunks.map sized ∧
      (¬ (view H).Sound how → nd = false ∨ s.arena.len = 0)) ∨
    (¬ (view H).Sound how ∧ nd = true ∧ s.arena.len ≠ 0 ∧ (clear cfg how nd s).1 = .ub) := by
  unfold clear
  rw [M.get_bind]
  by_cases hskip : nd = false ∨ s.arena.len = 0
  · left
    obtain ⟨a, e, hg', hc⟩ := grow_clear hg nd
    have : (!nd || s.arena.isEmpty) = true := by
      rcases hskip with rfl | h
      · rfl
      · simp [Arena.isEmpty, h]
    simp only [this, if_true]
    exact ⟨_, e, hg', hc, fun _ => hskip⟩
  · have hnd : nd = true := by
      cases nd with
      | true => rfl
      | false => exact absurd (.inl rfl) hskip
    have hlen : s.arena.len ≠ 0 := fun h => hskip (.inr h)
    have : (!nd || s.arena.isEmpty) = false := by simp [hnd, Arena.isEmpty, hlen]
    simp only [this, Bool.false_eq_true, if_false]
    by_cases hsnd : (view H).Sound how
    · left
      obtain ⟨h', e, hs'⟩ := clearChunks_ok hsnd (s.arena.chunks.zip s.tags) s.arena.len hg.sane
        fun e he => by
          obtain ⟨h1, h2, h3⟩ := zip_ids hg he
          exact ⟨h1, h2, by omega⟩
      have hg1 := hg.setHeap hs'
      obtain ⟨a, e2, hg', hc⟩ := grow_clear hg1 nd
      rw [M.bind_ok (onHeap_ok e)]
      exact ⟨_, e2, hg', hc, fun hn => absurd hsnd hn⟩
    · right
      refine ⟨hsnd, hnd, hlen, ?_⟩
      cases hz : s.arena.chunks.zip s.tags with
      | nil =>
        exfalso
        have h1 : s.arena.chunks = [] := by rw [← fst_zip hg, hz]; rfl
        have h2 := hg.inv.cap
        have h3 := hg.inv.lenle
        rw [h1] at h2
        simp at h2
        omega
      | cons e l =>
        obtain ⟨c, t⟩ := e
        have hm : (c, t) ∈ s.arena.chunks.zip s.tags := by rw [hz]; exact List.mem_cons_self ..
        have := clearChunks_ub hsnd hg.sane.wf (t := t) (zip_ids hg hm).2.2
          s.arena.len l
        rw [M.bind_apply]
        unfold onHeap
        rcases hx : clearChunks how s.arena.len ((c, t) :: l) s.heap with ⟨o, h⟩
        rw [hx] at this
        simp only at this
        subst this
        rfl

theorem drop_ok (hg : s.Good cfg) {how : ChunkPtr} (hh : (view H).Sound how) (nd : Bool) :
    ∃ s', drop cfg how nd s = (.ok (), s') ∧ (view H).layout s'.heap = [] := by
  rcases clear_good hg how nd with ⟨s1, e1, hg1, _⟩ | ⟨h, _⟩
  · obtain ⟨h', hf, _, hl, _⟩ := freeAll_ok hh (s1.arena.chunks.zip s1.tags) hg1.sane.wf
      (sublist_nodup hg1 (.inl (List.Perm.refl _))) fun e he => by
        obtain ⟨h1, h2, h3⟩ := zip_ids hg1 he
        exact ⟨hg1.sane.owns _ _ h1, h2, by omega⟩
    unfold drop
    rw [M.bind_ok e1, M.get_bind, M.bind_ok (onHeap_ok hf), M.modify_apply]
    refine ⟨_, rfl, ?_⟩
    show (view H).layout h' = []
    rw [hl, List.filter_eq_nil_iff]
    intro b hb
    simp only [decide_eq_true_eq, Classical.not_not]
    have : (s1.arena.chunks.zip s1.tags).map (·.1.id) =
        ((s1.arena.chunks.zip s1.tags).map (·.1)).map (·.id) := by rw [List.map_map]; rfl
    rw [this, fst_zip hg1]
    rw [hg1.layout] at hb
    obtain ⟨c, hc, rfl⟩ := List.mem_map.1 hb
    exact List.mem_map.2 ⟨c, hc, rfl⟩
  · exact absurd hh h

theorem two_le (hi : s.arena.Inv cfg) {c : Chunk T} (hc : c ∈ s.arena.chunks) :
    2 ≤ c.slots.length := by
  obtain ⟨i, hi'⟩ := List.mem_iff_getElem?.1 hc
  rw [hi.slots i _ hi']
  have : 0 < 2 ^ i := Nat.pow_pos (by omega)
  omega

/-- Releasing an arena that has chunks is undefined with unsound chunk pointers, whatever
happened before. -/
theorem drop_ub {how : ChunkPtr} (hh : ¬ (view H).Sound how) (hi : s.arena.Inv cfg)
    (htags : s.tags.length = s.arena.chunks.length) (hw : (view H).Wf s.heap)
    (hc : s.arena.chunks ≠ []) (nd : Bool) : (drop cfg how nd s).1 = .ub := by
  have hz : ∃ c t l, s.arena.chunks.zip s.tags = (c, t) :: l := by
    cases h1 : s.arena.chunks with
    | nil => exact absurd h1 hc
    | cons c l =>
      cases h2 : s.tags with
      | nil =>
        have := htags
        rw [h1, h2] at this; cases this
      | cons t m => exact ⟨c, t, _, rfl⟩
  obtain ⟨c, t, l, hz⟩ := hz
  have hcm : c ∈ s.arena.chunks := (List.of_mem_zip (by rw [hz]; exact List.mem_cons_self ..)).1
  have hn := two_le hi hcm
  unfold drop clear
  by_cases hskip : (!nd || s.arena.isEmpty) = true
  · rw [M.bind_apply, M.get_bind]
    simp only [hskip, if_true]
    have hcl : Arena.clear cfg nd (fun _ => false) s.arena = (.ok (), s.arena.cleared) := by
      unfold Arena.clear
      rw [M.get_bind]
      simp only [hskip, if_true]
      rfl
    have hdrop : (s.arena.cleared).chunks.drop s.tags.length = [] := by
      rw [htags]
      exact List.drop_eq_nil_iff.2 (by simp [Arena.cleared, Arena.forgetCells])
    rw [grow_eq hcl, hdrop]
    simp only [adopt]
    rw [M.get_bind]
    have hzc : ∃ c' l', s.arena.cleared.chunks.zip s.tags = (c', t) :: l' ∧ c'.id = c.id ∧
        c'.slots.length = c.slots.length := by
      simp only [Arena.cleared, Arena.forgetCells]
      rw [List.zip_map_left, hz]
      exact ⟨_, _, rfl, rfl, by simp⟩
    obtain ⟨c', l', hz', _, hlen'⟩ := hzc
    simp only [hz']
    have := freeAll_ub hh hw (c := c') (t := t) (by rw [hlen']; exact hn) l'
    rw [M.bind_apply]
    unfold onHeap
    rcases hx : freeAll how ((c', t) :: l') s.heap with ⟨o, h⟩
    rw [hx] at this
    simp only at this
    subst this
    rfl
  · rw [M.bind_apply, M.get_bind]
    simp only [hskip, Bool.false_eq_true, if_false]
    have := clearChunks_ub hh hw (t := t) hn s.arena.len l
    rw [hz, M.bind_apply]
    unfold onHeap
    rcases hx : clearChunks how s.arena.len ((c, t) :: l) s.heap with ⟨o, h⟩
    rw [hx] at this
    simp only at this
    subst this
    rfl

end Tagged
end BST
