import Verif.Proofs.Order
import Verif.Proofs.Ops
/-!
# Sequences of insertions: `extend`, `from_iter`, `clone`, macros
-/
set_option linter.unusedSimpArgs false
namespace BST
open BSTMap Tree
variable {K V : Type}

/-- `w` results from inserting the listed pairs into `u`, one by one, with
comparisons allowed by `ok` that did not panic. -/
inductive InsSeq (ok : K → Probe K → Prop) : Tree K V → List (K × V) → Tree K V → Prop where
  | nil (u : Tree K V) : InsSeq ok u [] u
  | cons {u w : Tree K V} {k : K} {v : V} {rest : List (K × V)} (c : Probe K) (p : Ptr)
      (e : Option (Ptr × K × V)) : ok k c → u.find c 0 = .ok e →
      InsSeq ok (u.ins c p k v 0) rest w → InsSeq ok u ((k, v) :: rest) w

theorem InsSeq.append {ok : K → Probe K → Prop} {u v w : Tree K V} {a b : List (K × V)}
    (h1 : InsSeq ok u a v) (h2 : InsSeq ok v b w) : InsSeq ok u (a ++ b) w := by
  induction h1 with
  | nil => exact h2
  | cons c p e hc hf _ ih => exact .cons c p e hc hf (ih h2)

/-- One insertion: it succeeds with the tree insertion, or fails and changes nothing. -/
theorem insert_cases {cfg : Cfg} {m : BSTMap K V} {t : Tree K V} (h : Shape cfg m t)
    (c : Probe K) (k : K) (v : V) :
    (∃ e p m', t.find c 0 = .ok e ∧ insert cfg c k v m = (.ok (e.map (·.2.2)), m') ∧
      Shape cfg m' (t.ins c p k v 0) ∧ m'.nodes.dropped = m.nodes.dropped ∧
      m.capacity ≤ m'.capacity ∧
      (m.nodes.items.len < m.capacity ∨ m.nodes.freeLen ≠ 0 ∨ e ≠ none →
        m'.nodes.items.log = m.nodes.items.log ∧ m'.capacity = m.capacity) ∧
      m'.nodes.items.len = (if e = none ∧ m.nodes.freeLen = 0 then m.nodes.items.len + 1
        else m.nodes.items.len)) ∨
    (∃ o, insert cfg c k v m = (o, m) ∧
      (o = .panic ∧ t.find c 0 = .panic ∨
       (o = .panic ∨ o = .abort) ∧ t.find c 0 = .ok none ∧ m.nodes.Full cfg)) := by
  rcases insert_spec h c k v with ⟨h1, h2⟩ | ⟨q, k0, v0, x, m', h1, h2, h3, h4, h5⟩ |
    ⟨h1, pn, m', h2, h3, h4⟩ | ⟨h1, h2, h3 | h3⟩
  · exact Or.inr ⟨_, h2, Or.inl ⟨rfl, h1⟩⟩
  · exact Or.inl ⟨some (q, k0, v0), q, m', h1, h2, h4 q, h5.dropped, Nat.le_of_eq h5.capacity.symm,
      fun _ => ⟨h5.log, h5.capacity⟩, by simp [h5.len]⟩
  · refine Or.inl ⟨none, pn, m', h1, h2, h3, h4.dropped, h4.capacity, ?_, ?_⟩
    · rintro (hr | hr | hr)
      · exact h4.room hr
      · exact ⟨(h4.reuse hr).1, (h4.reuse hr).2.2⟩
      · exact absurd rfl hr
    · by_cases hf : m.nodes.freeLen = 0
      · simp [hf, (h4.len hf).1]
      · simp [hf, (h4.reuse hf).2.1]
  · exact Or.inr ⟨_, h3, Or.inr ⟨Or.inl rfl, h1, h2⟩⟩
  · exact Or.inr ⟨_, h3, Or.inr ⟨Or.inr rfl, h1, h2⟩⟩

/-- Why a run of insertions stopped early: the next pair's comparisons panicked or
there was no memory for it. -/
inductive Stopped (cfg : Cfg) (m : BSTMap K V) (u : Tree K V) (c : Probe K) : Out Unit → Prop where
  | cmp : u.find c 0 = .panic → Stopped cfg m u c .panic
  | memP : u.find c 0 = .ok none → m.nodes.Full cfg → Stopped cfg m u c .panic
  | memA : u.find c 0 = .ok none → m.nodes.Full cfg → Stopped cfg m u c .abort

theorem insertAll_spec {cfg : Cfg} {ok : K → Probe K → Prop} {cmps : Nat → K → Probe K}
    (hok : ∀ n k, ok k (cmps n k)) {l : List (K × V)} {m : BSTMap K V} {u : Tree K V} {n : Nat}
    (h : Shape cfg m u) :
    ∃ o m' w l', insertAll cfg cmps n l m = (o, m') ∧ Shape cfg m' w ∧ InsSeq ok u l' w ∧
      m'.nodes.dropped = m.nodes.dropped ∧ m.capacity ≤ m'.capacity ∧
      ((o = .ok () ∧ l' = l) ∨
       ∃ k v l'', l = l' ++ (k, v) :: l'' ∧ Stopped cfg m' w (cmps (n + l'.length) k) o) := by
  induction l generalizing m u n with
  | nil => exact ⟨_, m, u, [], rfl, h, .nil u, rfl, Nat.le_refl _, Or.inl ⟨rfl, rfl⟩⟩
  | cons x l ih =>
    obtain ⟨k, v⟩ := x
    rcases insert_cases h (cmps n k) k v with ⟨e, p, m1, hf, hi, hs, hd, hc, _⟩ | ⟨o, hi, ho⟩
    · obtain ⟨o, m', w, l', h1, h2, h3, h4, h5, h6⟩ := ih (n := n + 1) hs
      refine ⟨o, m', w, (k, v) :: l', ?_, h2, .cons (cmps n k) p e (hok n k) hf h3,
        h4.trans hd, Nat.le_trans hc h5, ?_⟩
      · unfold insertAll
        rw [M.bind_ok hi]; exact h1
      · rcases h6 with ⟨rfl, rfl⟩ | ⟨k', v', l'', rfl, h6⟩
        · exact Or.inl ⟨rfl, rfl⟩
        · refine Or.inr ⟨k', v', l'', rfl, ?_⟩
          rw [List.length_cons, Nat.add_comm l'.length 1, ← Nat.add_assoc]
          exact h6
    · rcases ho with ⟨rfl, hf⟩ | ⟨rfl | rfl, hf, hfull⟩
      · exact ⟨.panic, m, u, [], by unfold insertAll; exact M.bind_panic hi, h, .nil u, rfl,
          Nat.le_refl _, Or.inr ⟨k, v, l, rfl, .cmp hf⟩⟩
      · exact ⟨.panic, m, u, [], by unfold insertAll; exact M.bind_panic hi, h, .nil u, rfl,
          Nat.le_refl _, Or.inr ⟨k, v, l, rfl, .memP hf hfull⟩⟩
      · exact ⟨.abort, m, u, [], by unfold insertAll; exact M.bind_abort hi, h, .nil u, rfl,
          Nat.le_refl _, Or.inr ⟨k, v, l, rfl, .memA hf hfull⟩⟩

/-- The part of `extend` and `from_iter` after the reservation. -/
theorem insertAll_then {cfg : Cfg} {ok : K → Probe K → Prop} {cmps : Nat → K → Probe K}
    (hok : ∀ n k, ok k (cmps n k)) (src : Source K V) {m : BSTMap K V} {u : Tree K V}
    (h : Shape cfg m u) :
    ∃ o m' w l', (do
        insertAll cfg cmps 0 src.items
        if src.panics then M.panic else pure () : M (BSTMap K V) Unit) m = (o, m') ∧
      Shape cfg m' w ∧ InsSeq ok u l' w ∧
      m'.nodes.dropped = m.nodes.dropped ∧ m.capacity ≤ m'.capacity ∧
      ((l' = src.items ∧ (src.panics = false ∧ o = .ok () ∨ src.panics = true ∧ o = .panic)) ∨
       ∃ k v l'', src.items = l' ++ (k, v) :: l'' ∧ Stopped cfg m' w (cmps l'.length k) o) := by
  obtain ⟨o, m', w, l', h1, h2, h3, h4, h5, h6⟩ := insertAll_spec (n := 0) (l := src.items) hok h
  rcases h6 with ⟨rfl, rfl⟩ | ⟨k, v, l'', hl, hst⟩
  · cases hp : src.panics with
    | false =>
      refine ⟨.ok (), m', w, src.items, ?_, h2, h3, h4, h5, Or.inl ⟨rfl, Or.inl ⟨rfl, rfl⟩⟩⟩
      rw [M.bind_ok h1]; rfl
    | true =>
      refine ⟨.panic, m', w, src.items, ?_, h2, h3, h4, h5, Or.inl ⟨rfl, Or.inr ⟨rfl, rfl⟩⟩⟩
      rw [M.bind_ok h1]; rfl
  · refine ⟨o, m', w, l', ?_, h2, h3, h4, h5, Or.inr ⟨k, v, l'', hl, ?_⟩⟩
    · generalize hP : Stopped cfg m' w (cmps (0 + l'.length) k) = P at hst
      subst hP
      cases hst with
      | cmp => exact M.bind_panic h1
      | memP => exact M.bind_panic h1
      | memA => exact M.bind_abort h1
    · simpa using hst

/-- Outcomes that a caller may see: no undefined behaviour, no endless loop. -/
def Out.Safe {α : Type} : Out α → Prop
  | .ok _ => True
  | .panic => True
  | .abort => True
  | .ub => False
  | .diverge => False

theorem extend_spec {cfg : Cfg} {ok : K → Probe K → Prop} {cmps : Nat → K → Probe K}
    (hok : ∀ n k, ok k (cmps n k)) (src : Source K V) {m : BSTMap K V} {u : Tree K V}
    (h : Shape cfg m u) :
    ∃ o m' w l', extend cfg cmps src m = (o, m') ∧ Shape cfg m' w ∧ InsSeq ok u l' w ∧
      m'.nodes.dropped = m.nodes.dropped ∧ o.Safe ∧ l' <+: src.items ∧
      (o = .ok () → l' = src.items ∧ src.panics = false) := by
  have tail : ∀ (m1 : BSTMap K V), Kept cfg m m1 u → reserve cfg (src.hint.2.getD src.hint.1) m =
      (.ok (), m1) → ∃ o m' w l', extend cfg cmps src m = (o, m') ∧ Shape cfg m' w ∧
      InsSeq ok u l' w ∧ m'.nodes.dropped = m.nodes.dropped ∧ o.Safe ∧ l' <+: src.items ∧
      (o = .ok () → l' = src.items ∧ src.panics = false) := by
    intro m1 hk hr
    obtain ⟨o, m', w, l', h1, h2, h3, h4, h5, h6⟩ := insertAll_then hok src hk.shape
    refine ⟨o, m', w, l', ?_, h2, h3, h4.trans hk.dropped, ?_, ?_, ?_⟩
    · unfold extend
      rw [M.bind_ok hr]; exact h1
    · rcases h6 with ⟨_, ⟨_, rfl⟩ | ⟨_, rfl⟩⟩ | ⟨k, v, l'', _, hst⟩
      · trivial
      · trivial
      · cases hst <;> trivial
    · rcases h6 with ⟨rfl, _⟩ | ⟨k, v, l'', hl, hst⟩
      · exact List.prefix_refl _
      · exact ⟨_, hl.symm⟩
    · rintro rfl
      rcases h6 with ⟨rfl, ⟨h6, _⟩ | ⟨_, h6⟩⟩ | ⟨k, v, l'', hl, hst⟩
      · exact ⟨rfl, h6⟩
      · cases h6
      · cases hst
  rcases reserve_spec cfg m (src.hint.2.getD src.hint.1) with ⟨_, _, hr⟩ | ⟨_, hr⟩
  · exact ⟨.panic, m, u, [], by unfold extend; exact M.bind_panic hr, h, .nil u, rfl, trivial,
      List.nil_prefix, by simp⟩
  · obtain ⟨o, m1, hg, hk, _, ⟨rfl, _⟩ | ⟨_, rfl | rfl, _⟩⟩ :=
      grow_spec h (reserveTarget m (src.hint.2.getD src.hint.1))
    · exact tail m1 hk (hr.trans hg)
    · exact ⟨.panic, m1, u, [], by unfold extend; exact M.bind_panic (hr.trans hg), hk.shape, .nil u,
        hk.dropped, trivial, List.nil_prefix, by simp⟩
    · exact ⟨.abort, m1, u, [], by unfold extend; exact M.bind_abort (hr.trans hg), hk.shape, .nil u,
        hk.dropped, trivial, List.nil_prefix, by simp⟩

theorem fromIter_spec {cfg : Cfg} {ok : K → Probe K → Prop} {cmps : Nat → K → Probe K}
    (hok : ∀ n k, ok k (cmps n k)) (src : Source K V) :
    ∃ o m' w l', fromIter cfg cmps src = (o, m') ∧ Shape cfg m' w ∧ InsSeq ok .leaf l' w ∧
      m'.nodes.dropped = [] ∧ o.Safe ∧ l' <+: src.items ∧
      (o = .ok () → l' = src.items ∧ src.panics = false) := by
  obtain ⟨o, m1, hg, hk, _, ⟨rfl, _⟩ | ⟨_, rfl | rfl, _⟩⟩ :=
    grow_spec (shape_new cfg) (m := (BSTMap.new : BSTMap K V)) (src.hint.2.getD src.hint.1)
  · obtain ⟨o, m', w, l', h1, h2, h3, h4, h5, h6⟩ := insertAll_then hok src hk.shape
    refine ⟨o, m', w, l', ?_, h2, h3, h4.trans hk.dropped, ?_, ?_, ?_⟩
    · unfold fromIter
      refine Eq.trans ?_ h1
      exact M.bind_ok hg
    · rcases h6 with ⟨_, ⟨_, rfl⟩ | ⟨_, rfl⟩⟩ | ⟨k, v, l'', _, hst⟩
      · trivial
      · trivial
      · cases hst <;> trivial
    · rcases h6 with ⟨rfl, _⟩ | ⟨k, v, l'', hl, hst⟩
      · exact List.prefix_refl _
      · exact ⟨_, hl.symm⟩
    · rintro rfl
      rcases h6 with ⟨rfl, ⟨h6, _⟩ | ⟨_, h6⟩⟩ | ⟨k, v, l'', hl, hst⟩
      · exact ⟨rfl, h6⟩
      · cases h6
      · cases hst
  · exact ⟨.panic, m1, .leaf, [], by unfold fromIter; exact M.bind_panic hg, hk.shape, .nil _,
      hk.dropped, trivial, List.nil_prefix, by simp⟩
  · exact ⟨.abort, m1, .leaf, [], by unfold fromIter; exact M.bind_abort hg, hk.shape, .nil _,
      hk.dropped, trivial, List.nil_prefix, by simp⟩

/-! ### `clone` -/

/-- The loop body of `clone`. -/
def cloneBody (cfg : Cfg) (cmps : Nat → K → Probe K) (cloneK : K → Option K) (cloneV : V → Option V)
    (m : BSTMap K V) (st : Nat × List (Node K V)) :
    M (BSTMap K V) ((Nat × List (Node K V)) ⊕ Unit) :=
  match st.2 with
  | [] => pure (.inr ())
  | nd :: stack =>
    match cloneK nd.key, cloneV nd.value with
    | some k, some v => do
      let _ ← insert cfg (cmps st.1 k) k v
      let r ← M.lift (nd.right m.nodes)
      let l ← M.lift (nd.left m.nodes)
      pure (.inl (st.1 + 1, l.toList ++ r.toList ++ stack))
    | _, _ => M.panic

/-- Clone every pair of a list; `none` if one of the calls panics. -/
def cloneList (cloneK : K → Option K) (cloneV : V → Option V) (l : List (K × V)) :
    Option (List (K × V)) :=
  l.mapM fun e => do pure (← cloneK e.1, ← cloneV e.2)

theorem cloneList_cons {cloneK : K → Option K} {cloneV : V → Option V} {k k' : K} {v v' : V}
    {l l' : List (K × V)} (hk : cloneK k = some k') (hv : cloneV v = some v')
    (h : cloneList cloneK cloneV l = some l') :
    cloneList cloneK cloneV ((k, v) :: l) = some ((k', v') :: l') := by
  unfold cloneList at h ⊢
  rw [List.mapM_cons, h]
  simp [hk, hv]

/-- The pre-order entries of a forest. -/
def forestPre (ts : List (Tree K V)) : List (K × V) := ts.flatMap fun t => t.pre.map (·.2)

def forestSize (ts : List (Tree K V)) : Nat := (ts.map Tree.size).sum

theorem forest_head (ts : List (Tree K V)) :
    (ts.filterMap nodeOpt = [] ∧ forestPre ts = []) ∨
    ∃ p l k v r ts', ts.filterMap nodeOpt = ⟨p, ⟨k, v, l.root, r.root⟩⟩ :: ts'.filterMap nodeOpt ∧
      forestPre ts = (k, v) :: forestPre (l :: r :: ts') ∧ Tree.node p l k v r ∈ ts ∧
      (∀ t ∈ ts', t ∈ ts) ∧ forestSize (l :: r :: ts') + 1 = forestSize ts := by
  induction ts with
  | nil => exact Or.inl ⟨rfl, rfl⟩
  | cons t ts ih =>
    cases t with
    | leaf =>
      rcases ih with ⟨h1, h2⟩ | ⟨p, l, k, v, r, ts', h1, h2, h3, h4, h5⟩
      · exact Or.inl ⟨h1, by simpa [forestPre, pre] using h2⟩
      · exact Or.inr ⟨p, l, k, v, r, ts', h1,
          by simpa [forestPre, pre] using h2, by simp [h3], fun t ht => by simp [h4 t ht],
          by simpa [forestSize, Tree.size] using h5⟩
    | node p l k v r =>
      refine Or.inr ⟨p, l, k, v, r, ts, rfl, ?_, by simp, fun t ht => by simp [ht], ?_⟩
      · simp [forestPre, pre]
      · simp [forestSize, Tree.size]; omega

theorem clone_loop {cfg : Cfg} {ok : K → Probe K → Prop} {cmps : Nat → K → Probe K}
    (hok : ∀ n k, ok k (cmps n k)) (cloneK : K → Option K) (cloneV : V → Option V)
    (m : BSTMap K V) (fuel : Nat) : ∀ (ts : List (Tree K V)) (i : Nat) (mb : BSTMap K V) (u : Tree K V),
    (∀ t ∈ ts, t.Rep m.nodes.view) → forestSize ts < fuel → Shape cfg mb u →
    ∃ o m' w l', loop fuel (cloneBody cfg cmps cloneK cloneV m) (i, ts.filterMap nodeOpt) mb =
        (o, m') ∧ Shape cfg m' w ∧ InsSeq ok u l' w ∧ m'.nodes.dropped = mb.nodes.dropped ∧
      o.Safe ∧ (o = .ok () → cloneList cloneK cloneV (forestPre ts) = some l') ∧
      (o = .abort → ∃ k c, w.find c 0 = .ok none ∧ m'.nodes.Full cfg ∧ ok k c) ∧
      (o = .panic → (∃ e ∈ forestPre ts, cloneK e.1 = none ∨ cloneV e.2 = none) ∨
        ∃ n k, w.find (cmps n k) 0 = .panic ∨
          (w.find (cmps n k) 0 = .ok none ∧ m'.nodes.Full cfg)) := by
  induction fuel with
  | zero => intro ts i mb u _ h; omega
  | succ fuel ih =>
    intro ts i mb u hrep hsz hs
    rcases forest_head ts with ⟨h1, h2⟩ | ⟨p, l, k, v, r, ts', h1, h2, h3, h4, h5⟩
    · refine ⟨.ok (), mb, u, [], loopM_inr (by rw [h1]; rfl), hs, .nil u, rfl, trivial, ?_, by simp,
        by simp⟩
      intro _; rw [h2]; rfl
    · have hn := hrep _ h3
      rw [h1, h2]
      cases hk : cloneK k with
      | none =>
        refine ⟨.panic, mb, u, [], loopM_panic ?_, hs, .nil u, rfl, trivial, by simp, by simp,
          fun _ => Or.inl ⟨(k, v), by simp, Or.inl hk⟩⟩
        simp [cloneBody, Node.key, hk]
      | some k' =>
        cases hv : cloneV v with
        | none =>
          refine ⟨.panic, mb, u, [], loopM_panic ?_, hs, .nil u, rfl, trivial, by simp, by simp,
            fun _ => Or.inl ⟨(k, v), by simp, Or.inr hv⟩⟩
          simp [cloneBody, Node.key, Node.value, hk, hv]
        | some v' =>
          have hbody : cloneBody cfg cmps cloneK cloneV m
              (i, (⟨p, ⟨k, v, l.root, r.root⟩⟩ : Node K V) :: ts'.filterMap nodeOpt) = (do
              let _ ← insert cfg (cmps i k') k' v'
              let rn ← M.lift (Node.right m.nodes ⟨p, ⟨k, v, l.root, r.root⟩⟩)
              let ln ← M.lift (Node.left m.nodes ⟨p, ⟨k, v, l.root, r.root⟩⟩)
              pure (.inl (i + 1, ln.toList ++ rn.toList ++ ts'.filterMap nodeOpt))) := by
            simp [cloneBody, Node.key, Node.value, hk, hv]
          rcases insert_cases hs (cmps i k') k' v' with ⟨e, pn, m1, hf, hi, hs1, hd, hc, _⟩ | ⟨o, hi, ho⟩
          · obtain ⟨o, m', w, l', e1, e2, e3, e4, e5, e6, e7, e8⟩ :=
              ih (l :: r :: ts') (i + 1) m1 _ (by
                intro t ht
                rcases List.mem_cons.1 ht with rfl | ht
                · exact hn.2.1
                rcases List.mem_cons.1 ht with rfl | ht
                · exact hn.2.2
                · exact hrep _ (h4 _ ht)) (by omega) hs1
            refine ⟨o, m', w, (k', v') :: l', ?_, e2, .cons (cmps i k') pn e (hok i k') hf e3,
              e4.trans hd, e5, ?_, e7, ?_⟩
            · rw [loopM_inl (b' := (i + 1, (l :: r :: ts').filterMap nodeOpt)) (s' := m1)]
              · exact e1
              · rw [hbody, M.bind_ok hi]
                have hr : Node.right m.nodes ⟨p, ⟨k, v, l.root, r.root⟩⟩ = .ok r.nodeOpt :=
                  Node.newOpt_ok hn.2.2
                have hl : Node.left m.nodes ⟨p, ⟨k, v, l.root, r.root⟩⟩ = .ok l.nodeOpt :=
                  Node.newOpt_ok hn.2.1
                rw [hr, hl, M.lift_ok_bind, M.lift_ok_bind, M.pure_apply]
                cases l <;> cases r <;> rfl
            · intro ho
              have := e6 ho
              exact cloneList_cons hk hv this
            · intro ho
              rcases e8 ho with ⟨e, he, h⟩ | h
              · exact Or.inl ⟨e, by simp [he], h⟩
              · exact Or.inr h
          · rcases ho with ⟨rfl, hf⟩ | ⟨rfl | rfl, hf, hfull⟩
            · exact ⟨.panic, mb, u, [], loopM_panic (by rw [hbody]; exact M.bind_panic hi), hs, .nil u,
                rfl, trivial, by simp, by simp, fun _ => Or.inr ⟨i, k', Or.inl hf⟩⟩
            · exact ⟨.panic, mb, u, [], loopM_panic (by rw [hbody]; exact M.bind_panic hi), hs, .nil u,
                rfl, trivial, by simp, by simp, fun _ => Or.inr ⟨i, k', Or.inr ⟨hf, hfull⟩⟩⟩
            · exact ⟨.abort, mb, u, [], loopM_abort (by rw [hbody]; exact M.bind_abort hi), hs, .nil u,
                rfl, trivial, by simp, fun _ => ⟨k', _, hf, hfull, hok i k'⟩, by simp⟩

theorem clone_spec {cfg : Cfg} {ok : K → Probe K → Prop} {cmps : Nat → K → Probe K}
    (hok : ∀ n k, ok k (cmps n k)) (cloneK : K → Option K) (cloneV : V → Option V)
    {m : BSTMap K V} {t : Tree K V} (h : Shape cfg m t) :
    ∃ o m' w l', clone cfg cmps cloneK cloneV m = (o, m') ∧ Shape cfg m' w ∧
      InsSeq ok .leaf l' w ∧ m'.nodes.dropped = [] ∧ o.Safe ∧
      (o = .ok () → cloneList cloneK cloneV (t.pre.map (·.2)) = some l') := by
  obtain ⟨o, m1, hg, hk, _, ⟨rfl, _⟩ | ⟨_, rfl | rfl, _⟩⟩ :=
    grow_spec (shape_new cfg) (m := (BSTMap.new : BSTMap K V)) t.size
  · obtain ⟨o, m', w, l', e1, e2, e3, e4, e5, e6, _⟩ := clone_loop hok cloneK cloneV m
      (walkFuel m.nodes) [t] 0 m1 .leaf (by simpa using h.rep)
      (by simpa [forestSize] using h.size_lt) hk.shape
    refine ⟨o, m', w, l', ?_, e2, e3, e4.trans hk.dropped, e5, ?_⟩
    · unfold clone
      rw [h.len_ok, M.lift_ok_bind, M.bind_ok hg, rootNode_ok h.root h.rep, M.lift_ok_bind]
      have : ([t].filterMap nodeOpt) = t.nodeOpt.toList := by cases t <;> rfl
      rw [this] at e1
      exact e1
    · intro ho
      have := e6 ho
      simpa [forestPre] using this
  · exact ⟨.panic, m1, .leaf, [], by
      unfold clone; rw [h.len_ok, M.lift_ok_bind]; exact M.bind_panic hg, hk.shape, .nil _,
      hk.dropped, trivial, by simp⟩
  · exact ⟨.abort, m1, .leaf, [], by
      unfold clone; rw [h.len_ok, M.lift_ok_bind]; exact M.bind_abort hg, hk.shape, .nil _,
      hk.dropped, trivial, by simp⟩

end BST
