import Verif.Proofs.Remove
/-!
# The remaining operations of the map: growing, shrinking, clearing, writing, dropping
-/
set_option linter.unusedSimpArgs false
namespace BST
open BSTMap
variable {K V : Type}

/-- Nothing but the free memory changed. -/
structure Kept (cfg : Cfg) (m m' : BSTMap K V) (t : Tree K V) : Prop where
  shape : Shape cfg m' t
  view : m'.nodes.view = m.nodes.view
  root : m'.root = m.root
  dropped : m'.nodes.dropped = m.nodes.dropped
  len : m'.nodes.items.len = m.nodes.items.len
  freeLen : m'.nodes.freeLen = m.nodes.freeLen
  freeHead : m'.nodes.freeHead = m.nodes.freeHead

theorem Kept.refl {cfg : Cfg} {m : BSTMap K V} {t : Tree K V} (h : Shape cfg m t) : Kept cfg m m t :=
  ⟨h, rfl, rfl, rfl, rfl, rfl, rfl⟩

theorem Kept.of_cells {cfg : Cfg} {m : BSTMap K V} {t : Tree K V} (h : Shape cfg m t)
    {b : Arena (Entry (InnerNode K V))} (hb : b.Inv cfg) (hc : ∀ p, b.cell p = m.nodes.items.cell p)
    (hl : b.len = m.nodes.items.len) :
    Kept cfg m { m with nodes := { m.nodes with items := b } } t := by
  obtain ⟨frees, hf⟩ := h.slab
  have hv : ({ m.nodes with items := b } : Nodes K V).view = m.nodes.view := Slab.view_of_cells hc
  refine ⟨⟨⟨frees, hf.of_cells hb hc⟩, h.root, ?_, h.nodup, ?_⟩, hv, rfl, rfl, hl, rfl, rfl⟩
  · show t.Rep ({ m.nodes with items := b } : Nodes K V).view
    rw [hv]; exact h.rep
  · intro p
    show (({ m.nodes with items := b } : Nodes K V).view p).isSome ↔ _
    rw [hv]; exact h.live p

theorem shape_new (cfg : Cfg) : Shape cfg (BSTMap.new : BSTMap K V) .leaf where
  slab := Slab.inv_new cfg
  root := rfl
  rep := trivial
  nodup := List.nodup_nil
  live p := by
    show ((Slab.new : Nodes K V).view p).isSome ↔ _
    rw [Slab.view_new]; simp [Tree.ptrs]

/-- The growing loop on the map's storage. -/
theorem grow_spec {cfg : Cfg} {m : BSTMap K V} {t : Tree K V} (h : Shape cfg m t) (n : Nat) :
    ∃ o m', onNodes (Slab.onItems (Arena.growTo cfg n)) m = (o, m') ∧ Kept cfg m m' t ∧
      Arena.Grows cfg m.nodes.items m'.nodes.items ∧
      ((o = .ok () ∧ n ≤ m'.capacity) ∨
       (m'.capacity < n ∧ (o = .panic ∨ o = .abort) ∧
        Arena.pushChunk cfg m'.nodes.items = (o, m'.nodes.items))) := by
  obtain ⟨b, hg, hb⟩ := Arena.growTo_spec n (h.slab.choose_spec.items)
  have hk := Kept.of_cells h hg.inv hg.cell hg.len
  rcases hb with ⟨e, hn⟩ | ⟨hn, ⟨e, hp⟩ | ⟨e, hp⟩⟩
  · exact ⟨_, _, onNodes_ok (Slab.onItems_ok e), hk, hg, Or.inl ⟨rfl, hn⟩⟩
  · exact ⟨_, _, onNodes_ok (Slab.onItems_ok e), hk, hg, Or.inr ⟨hn, Or.inl rfl, hp⟩⟩
  · exact ⟨_, _, onNodes_ok (Slab.onItems_ok e), hk, hg, Or.inr ⟨hn, Or.inr rfl, hp⟩⟩

theorem grow_enough {cfg : Cfg} {m : BSTMap K V} {n : Nat} (hn : n ≤ m.capacity) :
    onNodes (Slab.onItems (Arena.growTo cfg n)) m = (.ok (), m) :=
  onNodes_pure (Slab.onItems_ok (Arena.growTo_enough hn))

/-- The capacity that `reserve` asks for, after overflow. -/
def reserveTarget (m : BSTMap K V) (n : Nat) : Nat := (m.nodes.items.len + n) % usizeBound

theorem reserve_spec (cfg : Cfg) (m : BSTMap K V) (n : Nat) :
    (cfg.checks = true ∧ usizeBound ≤ m.nodes.items.len + n ∧ reserve cfg n m = (.panic, m)) ∨
    ((m.nodes.items.len + n < usizeBound ∨ cfg.checks = false) ∧
      reserve cfg n m = onNodes (Slab.onItems (Arena.growTo cfg (reserveTarget m n))) m) := by
  by_cases hlt : m.nodes.items.len + n < usizeBound
  · refine Or.inr ⟨Or.inl hlt, ?_⟩
    unfold reserve Slab.reserve Arena.reserve reserveTarget
    rw [Nat.mod_eq_of_lt hlt]
    simp only [onNodes, Slab.onItems, M.get_bind, addU_ok cfg hlt, M.lift_ok_bind]
  · cases hc : cfg.checks with
    | true =>
      refine Or.inl ⟨rfl, Nat.le_of_not_lt hlt, ?_⟩
      unfold reserve Slab.reserve Arena.reserve
      simp [onNodes, Slab.onItems, addU, hlt, hc]
    | false =>
      refine Or.inr ⟨Or.inr rfl, ?_⟩
      unfold reserve Slab.reserve Arena.reserve reserveTarget
      simp only [onNodes, Slab.onItems, M.get_bind, addU, hlt, hc, M.lift_ok_bind, if_false]
      rfl

theorem shrinkToFit_spec {cfg : Cfg} {m : BSTMap K V} {t : Tree K V} (h : Shape cfg m t) :
    ∃ m', shrinkToFit cfg m = (.ok (), m') ∧ Kept cfg m m' t ∧
      Arena.Shrunk cfg m.nodes.items m'.nodes.items := by
  obtain ⟨b, e, hs⟩ := Arena.shrinkToFit_spec (h.slab.choose_spec.items)
  exact ⟨_, onNodes_ok (Slab.onItems_ok e), Kept.of_cells h hs.inv hs.cell hs.len, hs⟩

/-- The live nodes are the nodes of the tree. -/
theorem Shape.liveVals_perm {cfg : Cfg} {m : BSTMap K V} {t : Tree K V} (h : Shape cfg m t) :
    (m.nodes.liveVals.map fun x => (x.key, x.value)).Perm t.kv := by
  refine ((h.slab.liveVals_perm h.nodup h.live).map _).trans ?_
  have key : ∀ (s : Nodes K V) (u : Tree K V), u.Rep s.view →
      (u.ptrs.filterMap s.view).map (fun x => (x.key, x.value)) = u.pre.map (·.2) := by
    intro s u
    induction u with
    | leaf => intro _; rfl
    | node p l k v r ihl ihr =>
      intro hr
      simp only [Tree.ptrs, Tree.pre, List.filterMap_cons, hr.1, List.map_cons,
        List.filterMap_append, List.map_append, ihl hr.2.1, ihr hr.2.2]
  rw [key m.nodes t h.rep]
  exact t.pre_perm.map _

/-- `clear`, if no destructor panics. -/
theorem clear_spec {cfg : Cfg} {m : BSTMap K V} {t : Tree K V} (h : Shape cfg m t)
    (d : DropInfo (InnerNode K V)) (hd : ∀ x, d.panics x = false) :
    ∃ m', clear cfg d m = (.ok (), m') ∧ Shape cfg m' .leaf ∧ m'.capacity = m.capacity ∧
      m'.nodes.items.log = m.nodes.items.log ∧ m'.nodes.items.len = 0 ∧ m'.nodes.freeLen = 0 ∧
      m'.nodes.dropped = m.nodes.dropped ++ if d.needsDrop then m.nodes.liveVals else [] := by
  rcases Slab.clear_spec (d := d) h.slab with ⟨s', e, hc, _, hdr⟩ | ⟨_, ⟨v, _, hv⟩, _⟩
  · refine ⟨{ nodes := s', root := none }, ?_, ⟨hc.inv, rfl, trivial, List.nodup_nil, ?_⟩,
      hc.capacity, hc.log, hc.len, hc.freeLen, hdr⟩
    · unfold clear
      rw [M.bind_ok (onNodes_ok e)]; rfl
    · intro p
      show (s'.view p).isSome ↔ _
      rw [hc.view]; simp [Tree.ptrs]
  · rw [hd] at hv; cases hv

/-- Dropping the map, if no destructor panics. -/
theorem drop_spec {cfg : Cfg} {m : BSTMap K V} {t : Tree K V} (h : Shape cfg m t)
    (d : DropInfo (InnerNode K V)) (hd : ∀ x, d.panics x = false) :
    ∃ m', drop cfg d m = (.ok (), m') ∧ m'.nodes.items.chunks = [] ∧
      Spec.replay m'.nodes.items.log = some [] ∧
      m'.nodes.dropped = m.nodes.dropped ++ if d.needsDrop then m.nodes.liveVals else [] := by
  obtain ⟨s', h1, h2, ⟨e, _, hdr⟩ | ⟨_, _, ⟨v, _, hv⟩, _⟩⟩ := Slab.drop_spec (d := d) h.slab
  · exact ⟨_, onNodes_ok e, h1, h2, hdr⟩
  · rw [hd] at hv; cases hv

theorem isEmpty_spec {cfg : Cfg} {m : BSTMap K V} {t : Tree K V} (h : Shape cfg m t) :
    m.isEmpty cfg = .ok (t.size == 0) := by
  have hl : m.nodes.len cfg = .ok t.size := h.len_ok
  unfold isEmpty Slab.isEmpty
  simp only [hl, Out.ok_bind, Out.pure_eq]
  rw [debugAssert_ok]
  · rfl
  · rw [h.root]
    cases t <;> simp [Tree.size]

/-! ### Writing values -/

namespace Tree
/-- The tree with the value at address `q` replaced. -/
def setV (q : Ptr) (w : V) : Tree K V → Tree K V
  | leaf => leaf
  | node p l k v r => node p (l.setV q w) k (if p = q then w else v) (r.setV q w)

@[simp] theorem setV_root (q : Ptr) (w : V) (t : Tree K V) : (t.setV q w).root = t.root := by
  cases t <;> rfl
@[simp] theorem setV_ptrs (q : Ptr) (w : V) (t : Tree K V) : (t.setV q w).ptrs = t.ptrs := by
  induction t with
  | leaf => rfl
  | node p l k v r ihl ihr => simp [setV, ptrs, ihl, ihr]
@[simp] theorem setV_size (q : Ptr) (w : V) (t : Tree K V) : (t.setV q w).size = t.size := by
  rw [← ptrs_length, setV_ptrs, ptrs_length]

/-- Replace the value at an address in a traversal. -/
def setE (q : Ptr) (w : V) (e : Ptr × K × V) : Ptr × K × V :=
  (e.1, e.2.1, if e.1 = q then w else e.2.2)

theorem setV_ino (q : Ptr) (w : V) (t : Tree K V) : (t.setV q w).ino = t.ino.map (setE q w) := by
  induction t with
  | leaf => rfl
  | node p l k v r ihl ihr => simp [setV, ino, ihl, ihr, setE]
theorem setV_pre (q : Ptr) (w : V) (t : Tree K V) : (t.setV q w).pre = t.pre.map (setE q w) := by
  induction t with
  | leaf => rfl
  | node p l k v r ihl ihr => simp [setV, pre, ihl, ihr, setE]
theorem setV_post (q : Ptr) (w : V) (t : Tree K V) : (t.setV q w).post = t.post.map (setE q w) := by
  induction t with
  | leaf => rfl
  | node p l k v r ihl ihr => simp [setV, post, ihl, ihr, setE]

theorem setV_not_mem {q : Ptr} {w : V} {t : Tree K V} (h : q ∉ t.ptrs) : t.setV q w = t := by
  induction t with
  | leaf => rfl
  | node p l k v r ihl ihr =>
    simp only [ptrs, List.mem_cons, List.mem_append, not_or] at h
    simp [setV, ihl h.2.1, ihr h.2.2, Ne.symm h.1]

/-- A search that ends at a node, followed by a write, is an insertion that hits. -/
theorem ins_hit_eq_setV {c : Probe K} {p : Ptr} {k : K} {w : V} {i : Nat} {t : Tree K V}
    {q : Ptr} {k0 : K} {v0 : V} (hn : t.ptrs.Nodup)
    (h : t.find c i = .ok (some (q, k0, v0))) : t.ins c p k w i = t.setV q w := by
  induction t generalizing i with
  | leaf => cases h
  | node p' l k' v' r ihl ihr =>
    simp only [ptrs, List.nodup_cons, List.mem_append, not_or, List.nodup_append] at hn
    obtain ⟨⟨hpl, hpr⟩, hnl, hnr, hd⟩ := hn
    simp only [find] at h
    simp only [ins, setV]
    have hmem : ∀ {u : Tree K V} {j : Nat}, u.find c j = .ok (some (q, k0, v0)) → q ∈ u.ptrs := by
      intro u j hu
      have := List.mem_map_of_mem (f := (·.1)) (find_mem hu)
      exact (ino_ptrs_perm u).mem_iff.1 this
    cases hc : c i k' with
    | none => rw [hc] at h; cases h
    | some o =>
      rw [hc] at h
      cases o with
      | lt =>
        have hq := hmem h
        have e1 : p' ≠ q := by rintro rfl; exact hpl hq
        have e2 : q ∉ r.ptrs := fun hr => hd q hq q hr rfl
        simp [ihl hnl h, setV_not_mem e2, e1]
      | gt =>
        have hq := hmem h
        have e1 : p' ≠ q := by rintro rfl; exact hpr hq
        have e2 : q ∉ l.ptrs := fun hr => hd q hr q hq rfl
        simp [ihr hnr h, setV_not_mem e2, e1]
      | eq =>
        cases h
        simp [setV_not_mem hpl, setV_not_mem hpr]

theorem Rep.setV {h : Ptr → Option (InnerNode K V)} {q : Ptr} {w : V} {x : InnerNode K V}
    (hx : h q = some x) {t : Tree K V} (hr : t.Rep h) (hn : t.ptrs.Nodup) :
    (t.setV q w).Rep (upd h q (some { x with value := w })) := by
  induction t with
  | leaf => trivial
  | node p l k v r ihl ihr =>
    simp only [ptrs, List.nodup_cons, List.mem_append, not_or, List.nodup_append] at hn
    refine ⟨?_, ihl hr.2.1 hn.2.1, ihr hr.2.2 hn.2.2.1⟩
    by_cases hp : p = q
    · subst hp
      have := hr.1
      rw [hx] at this
      cases this
      simp [upd]
    · simp [upd, hp, hr.1]
end Tree

/-- Writing through a reference to the value of a live node. -/
theorem writeValue_spec {cfg : Cfg} {m : BSTMap K V} {t : Tree K V} (h : Shape cfg m t) {q : Ptr}
    (hq : q ∈ t.ptrs) (w : V) :
    ∃ m' x, m.nodes.view q = some x ∧ onNodes (writeValue q w) m = (.ok (), m') ∧
      Shape cfg m' (t.setV q w) ∧ m'.root = m.root ∧
      Slab.Updated cfg q { x with value := w } m.nodes m'.nodes := by
  have hs := (h.live q).2 hq
  obtain ⟨x, hx⟩ := Option.isSome_iff_exists.1 hs
  obtain ⟨s', e, hU⟩ := Slab.update_spec h.slab hx (fun x => { x with value := w })
  refine ⟨{ m with nodes := s' }, x, hx, onNodes_ok e, ⟨hU.inv, ?_, ?_, ?_, ?_⟩, rfl, hU⟩
  · rw [Tree.setV_root]; exact h.root
  · show (t.setV q w).Rep s'.view
    rw [hU.view]; exact h.rep.setV hx h.nodup
  · rw [Tree.setV_ptrs]; exact h.nodup
  · intro p
    show (s'.view p).isSome ↔ _
    rw [Tree.setV_ptrs, hU.view, ← h.live p]
    by_cases hp : p = q
    · subst hp; simp [hx]
    · simp [upd, hp]

end BST
