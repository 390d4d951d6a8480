import Verif.Proofs.Client
/-!
# Enough room: calls that cannot fail
-/
set_option linter.unusedSimpArgs false
namespace BST
open BSTMap Tree
variable {K V : Type}

namespace Tree
theorem ins_size {c : Probe K} {p : Ptr} {k : K} {v : V} {i : Nat} {t : Tree K V}
    {e : Option (Ptr × K × V)} (h : t.find c i = .ok e) :
    (t.ins c p k v i).size = if e = none then t.size + 1 else t.size := by
  cases e with
  | none =>
    rw [if_pos rfl, ← ptrs_length, (ins_ptrs_miss h).length_eq, List.length_cons, ptrs_length]
  | some e => rw [if_neg (by simp), ← ptrs_length, ins_ptrs_hit h, ptrs_length]

theorem ins_size_le {c : Probe K} {p : Ptr} {k : K} {v : V} {i : Nat} {t : Tree K V}
    {e : Option (Ptr × K × V)} (h : t.find c i = .ok e) :
    (t.ins c p k v i).size ≤ t.size + 1 := by
  rw [ins_size h]; split <;> omega

theorem find_total {c : Probe K} (hc : ∀ i x, c i x ≠ none) (i : Nat) (t : Tree K V) :
    ∃ e, t.find c i = .ok e := by
  induction t generalizing i with
  | leaf => exact ⟨none, rfl⟩
  | node p l k v r ihl ihr =>
    unfold find
    cases h : c i k with
    | none => exact absurd h (hc i k)
    | some o => cases o <;> simp [ihl, ihr]
end Tree

theorem Shape.not_full {cfg : Cfg} {m : BSTMap K V} {t : Tree K V} (h : Shape cfg m t)
    (hl : t.size < m.capacity) : ¬ m.nodes.Full cfg := by
  rintro ⟨h1, h2, _⟩
  have := h.len_eq
  have h3 : m.capacity = m.nodes.capacity := rfl
  omega

theorem Shape.room {cfg : Cfg} {m : BSTMap K V} {t : Tree K V} (h : Shape cfg m t)
    (hl : t.size < m.capacity) : m.nodes.items.len < m.capacity ∨ m.nodes.freeLen ≠ 0 := by
  have := h.len_eq
  omega

theorem Shape.size_le {cfg : Cfg} {m : BSTMap K V} {t : Tree K V} (h : Shape cfg m t) :
    t.size ≤ m.capacity := by
  have h1 := h.len_eq
  obtain ⟨fr, hf⟩ := h.slab
  have h2 := hf.items.lenle
  have h3 : m.capacity = m.nodes.items.capacity := rfl
  omega

/-- An insertion with room left. -/
theorem insert_room {cfg : Cfg} {m : BSTMap K V} {t : Tree K V} (h : Shape cfg m t)
    (hl : t.size < m.capacity) {c : Probe K} {e : Option (Ptr × K × V)} (hf : t.find c 0 = .ok e)
    (k : K) (v : V) :
    ∃ p m', insert cfg c k v m = (.ok (e.map (·.2.2)), m') ∧ Shape cfg m' (t.ins c p k v 0) ∧
      m'.nodes.dropped = m.nodes.dropped ∧ m'.nodes.items.log = m.nodes.items.log ∧
      m'.capacity = m.capacity := by
  rcases insert_cases h c k v with ⟨e', p, m', hf', hi, hs, hd, _, hr, _⟩ | ⟨o, _, ho⟩
  · cases hf.symm.trans hf'
    obtain ⟨h1, h2⟩ := hr ((h.room hl).elim Or.inl (fun h => Or.inr (Or.inl h)))
    exact ⟨p, m', hi, hs, hd, h1, h2⟩
  · rcases ho with ⟨_, hf'⟩ | ⟨_, _, hfull⟩
    · cases hf.symm.trans hf'
    · exact absurd hfull (h.not_full hl)

theorem insertAll_room {cfg : Cfg} {ok : K → Probe K → Prop} {cmps : Nat → K → Probe K}
    (hok : ∀ n k, ok k (cmps n k)) (hc : ∀ n k i x, cmps n k i x ≠ none) {l : List (K × V)} :
    ∀ {m : BSTMap K V} {u : Tree K V} {n : Nat}, Shape cfg m u → u.size + l.length ≤ m.capacity →
    ∃ m' w, insertAll cfg cmps n l m = (.ok (), m') ∧ Shape cfg m' w ∧ InsSeq ok u l w ∧
      m'.nodes.dropped = m.nodes.dropped ∧ m'.nodes.items.log = m.nodes.items.log ∧
      m'.capacity = m.capacity := by
  induction l with
  | nil => intro m u n h _; exact ⟨m, u, rfl, h, .nil u, rfl, rfl, rfl⟩
  | cons x l ih =>
    intro m u n h hl
    obtain ⟨k, v⟩ := x
    rw [List.length_cons] at hl
    obtain ⟨e, he⟩ := find_total (hc n k) 0 u
    obtain ⟨p, m1, h1, h2, h3, h4, h5⟩ := insert_room h (by omega) he k v
    obtain ⟨m', w, e1, e2, e3, e4, e5, e6⟩ := ih (n := n + 1) h2 (by
      have := ins_size_le (p := p) (k := k) (v := v) he
      omega)
    refine ⟨m', w, ?_, e2, .cons (cmps n k) p e (hok n k) he e3, e4.trans h3, e5.trans h4, e6.trans h5⟩
    unfold insertAll
    rw [M.bind_ok h1]; exact e1

theorem clone_loop_room {cfg : Cfg} {cmps : Nat → K → Probe K}
    (hc : ∀ n k i x, cmps n k i x ≠ none) {cloneK : K → Option K} {cloneV : V → Option V}
    (hK : ∀ k, cloneK k ≠ none) (hV : ∀ v, cloneV v ≠ none)
    (m : BSTMap K V) (fuel : Nat) : ∀ (ts : List (Tree K V)) (i : Nat) (mb : BSTMap K V) (u : Tree K V),
    (∀ t ∈ ts, t.Rep m.nodes.view) → forestSize ts < fuel → Shape cfg mb u →
    u.size + forestSize ts ≤ mb.capacity →
    ∃ m', loop fuel (cloneBody cfg cmps cloneK cloneV m) (i, ts.filterMap nodeOpt) mb =
        (.ok (), m') := by
  induction fuel with
  | zero => intro ts i mb u _ h; omega
  | succ fuel ih =>
    intro ts i mb u hrep hsz hs hroom
    rcases forest_head ts with ⟨h1, h2⟩ | ⟨p, l, k, v, r, ts', h1, h2, h3, h4, h5⟩
    · exact ⟨mb, loopM_inr (by rw [h1]; rfl)⟩
    · have hn := hrep _ h3
      rw [h1]
      obtain ⟨k', hk⟩ := Option.ne_none_iff_exists'.1 (hK k)
      obtain ⟨v', hv⟩ := Option.ne_none_iff_exists'.1 (hV v)
      obtain ⟨e, he⟩ := find_total (hc i k') 0 u
      obtain ⟨pn, m1, hi, hs1, _, _, hcap⟩ := insert_room hs (by omega) he k' v'
      obtain ⟨m', e1⟩ := ih (l :: r :: ts') (i + 1) m1 _ (by
          intro t ht
          rcases List.mem_cons.1 ht with rfl | ht
          · exact hn.2.1
          rcases List.mem_cons.1 ht with rfl | ht
          · exact hn.2.2
          · exact hrep _ (h4 _ ht)) (by omega) hs1 (by
          have := ins_size_le (p := pn) (k := k') (v := v') he
          omega)
      refine ⟨m', ?_⟩
      rw [loopM_inl (b' := (i + 1, (l :: r :: ts').filterMap nodeOpt)) (s' := m1)]
      · exact e1
      · have hbody : cloneBody cfg cmps cloneK cloneV m
            (i, (⟨p, ⟨k, v, l.root, r.root⟩⟩ : Node K V) :: ts'.filterMap nodeOpt) = (do
            let _ ← insert cfg (cmps i k') k' v'
            let rn ← M.lift (Node.right m.nodes ⟨p, ⟨k, v, l.root, r.root⟩⟩)
            let ln ← M.lift (Node.left m.nodes ⟨p, ⟨k, v, l.root, r.root⟩⟩)
            pure (.inl (i + 1, ln.toList ++ rn.toList ++ ts'.filterMap nodeOpt))) := by
          simp [cloneBody, Node.key, Node.value, hk, hv]
        rw [hbody, M.bind_ok hi]
        have hr : Node.right m.nodes ⟨p, ⟨k, v, l.root, r.root⟩⟩ = .ok r.nodeOpt :=
          Node.newOpt_ok hn.2.2
        have hl : Node.left m.nodes ⟨p, ⟨k, v, l.root, r.root⟩⟩ = .ok l.nodeOpt :=
          Node.newOpt_ok hn.2.1
        rw [hr, hl, M.lift_ok_bind, M.lift_ok_bind, M.pure_apply]
        cases l <;> cases r <;> rfl

/-- Growing an arena to a size that another arena already has cannot panic. -/
theorem Arena.no_panic_below {T U : Type} {cfg : Cfg} {a : Arena T} {b : Arena U} (ha : a.Inv cfg)
    (hb : b.Inv cfg) (hlt : b.capacity < a.capacity) : Arena.pushChunk cfg b ≠ (.panic, b) := by
  have h1 := ha.cap
  have h2 := hb.cap
  have hl : b.chunks.length < a.chunks.length := by
    refine Nat.lt_of_not_le fun h => ?_
    have := Nat.pow_le_pow_right (n := 2) (by omega) h
    omega
  have hs := ha.size _ hl
  rw [Arena.pushChunk_eq hb, if_neg (by omega)]
  split <;> simp

theorem clone_room {cfg : Cfg} (ha : ∀ id n, cfg.allocOk id n = true) {cmps : Nat → K → Probe K}
    (hc : ∀ n k i x, cmps n k i x ≠ none) {cloneK : K → Option K} {cloneV : V → Option V}
    (hK : ∀ k, cloneK k ≠ none) (hV : ∀ v, cloneV v ≠ none) {m : BSTMap K V} {t : Tree K V}
    (h : Shape cfg m t) : ∃ m', clone cfg cmps cloneK cloneV m = (.ok (), m') := by
  obtain ⟨o, m1, hg, hk, hgr, ⟨rfl, hcap⟩ | ⟨hlt, ho, hpc⟩⟩ :=
    grow_spec (shape_new cfg) (m := (BSTMap.new : BSTMap K V)) t.size
  · obtain ⟨m', e1⟩ := clone_loop_room (cfg := cfg) hc hK hV m
      (walkFuel m.nodes) [t] 0 m1 .leaf (by simpa using h.rep)
      (by simpa [forestSize] using h.size_lt) hk.shape (by simpa [forestSize, Tree.size] using hcap)
    refine ⟨m', ?_⟩
    unfold clone
    rw [h.len_ok, M.lift_ok_bind, M.bind_ok hg, rootNode_ok h.root h.rep, M.lift_ok_bind]
    have : ([t].filterMap nodeOpt) = t.nodeOpt.toList := by cases t <;> rfl
    rw [this] at e1
    exact e1
  · exfalso
    obtain ⟨fr, hf⟩ := h.slab
    obtain ⟨fr1, hf1⟩ := hk.shape.slab
    have hp := Arena.no_panic_below hf.items hf1.items (Nat.lt_of_lt_of_le hlt h.size_le)
    rcases ho with rfl | rfl
    · exact hp hpc
    · rw [Arena.pushChunk_eq hf1.items] at hpc
      split at hpc
      · cases hpc
      · rw [if_pos (ha _ _)] at hpc; cases hpc

end BST
