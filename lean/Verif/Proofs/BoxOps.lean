import Verif.Proofs.BoxPaths
/-!
# The methods of `SimpleBSTMap` in memory
-/
set_option linter.unusedSimpArgs false
set_option linter.unusedSectionVars false
namespace BST.Boxes
variable {H K V : Type} [Aliasing H] [ChainLaws H]
variable {cfg : Cfg} {n u : Nat} {α β : Type} {R : Mem H K V → Prop}
open ChainLaws (Wf Chain layout)
open Simple (Link)

/-- The map in memory has the tree `t`. -/
structure MapIs (s : Mem H K V) (t : Link K V) : Prop where
  inv : Inv s
  own : ∀ i, i < 4 → Chain s.heap ⟨0, i⟩ [(s.owner, true)]
  root : ∃ F, Valued s t (s.nodes 0) F ∧ F.Nodup ∧ (layout s.heap).length = F.length + 1
  len : s.len = t.size

/-- Only pointers to the map were used. -/
structure Same (s s' : Mem H K V) : Prop where
  nodes : s'.nodes = s.nodes
  next : s'.next = s.next
  owner : s'.owner = s.owner
  len : s'.len = s.len
  lay : layout s'.heap = layout s.heap
  inv : Inv s'
  chain : ∀ q c, q.block ≠ 0 → Chain s.heap q c → Chain s'.heap q c

theorem Same.trans {s s1 s2 : Mem H K V} (h : Same s s1) (h' : Same s1 s2) : Same s s2 :=
  ⟨h'.nodes.trans h.nodes, h'.next.trans h.next, h'.owner.trans h.owner, h'.len.trans h.len,
    h'.lay.trans h.lay, h'.inv, fun q c hq hc => h'.chain q c hq (h.chain q c hq hc)⟩

theorem Same.refl {s : Mem H K V} (hi : Inv s) : Same s s :=
  ⟨rfl, rfl, rfl, rfl, rfl, hi, fun _ _ _ h => h⟩

theorem Boxed.same {s s' : Mem H K V} {t : Link K V} {o : Option Pointer} {F : List Nat}
    (h : Boxed s t o F) (hi : Inv s) (he : Same s s') : Boxed s' t o F := by
  induction t generalizing o F with
  | nil => exact h
  | node k v l r ihl ihr =>
    obtain ⟨p, a, b, Fl, Fr, ho, hF, hn, hl, hc, h1, h2⟩ := h
    exact ⟨p, a, b, Fl, Fr, ho, hF, by rw [he.nodes]; exact hn, by rw [he.lay]; exact hl,
      fun i hlt => he.chain _ _ (hi.ne_zero hl) (hc i hlt), ihl h1, ihr h2⟩

theorem Valued.same {s s' : Mem H K V} {t : Link K V} {o : Option (Node K V)} {F : List Nat}
    (h : Valued s t o F) (hi : Inv s) (he : Same s s') : Valued s' t o F := by
  cases t with
  | nil => exact h
  | node k v l r =>
    obtain ⟨a, b, Fl, Fr, ho, hF, h1, h2⟩ := h
    exact ⟨a, b, Fl, Fr, ho, hF, h1.same hi he, h2.same hi he⟩

theorem callMap_run {s : Mem H K V} {k : RefKind} {t : Nat} {w : Bool} {c : List (Nat × Bool)}
    (hi : Inv s) (hk : k ≠ .shared → w = true)
    (hc : ∀ i, i < 4 → Chain s.heap ⟨0, i⟩ (c ++ [(t, w)])) :
    Run cfg n (callMap k t) s (fun r s' => Same s s' ∧
      ∀ i, i < 4 → Chain s'.heap ⟨0, i⟩ (c ++ [(t, w)] ++ [(r, decide (k ≠ .shared))])) R := by
  have hw1 : ∀ q, Within q ⟨0, 0⟩ 4 → Chain s.heap q [(t, w)] := fun q hq => by
    obtain ⟨qb, qo⟩ := q
    obtain ⟨rfl, hq⟩ := hq
    exact ChainLaws.sub (hc qo (by simp at hq; omega)) (List.sublist_append_right ..)
  have key : ∃ r h', Aliasing.derive k t ⟨0, 0⟩ 4 s.heap = (.ok r, h') ∧ Wf h' ∧
      layout h' = layout s.heap ∧
      (∀ q c, Within q ⟨0, 0⟩ 4 → Chain s.heap q (c ++ [(t, w)]) →
        Chain h' q (c ++ [(t, w), (r, decide (k ≠ .shared))])) ∧
      ∀ q c, ¬ Within q ⟨0, 0⟩ 4 → Chain s.heap q c → Chain h' q c := by
    by_cases h : k = .shared
    · subst h
      exact ChainLaws.derive_shared hi.wf (by omega) hw1
    · have := hk h
      subst this
      simpa [h] using ChainLaws.derive_ok hi.wf h (by omega) hw1
  obtain ⟨r, h', e, hw, hl, hin, hout⟩ := key
  refine Run.ok (onHeap_ok e) ⟨⟨rfl, rfl, rfl, rfl, hl, ⟨hw, by rw [hl]; exact hi.bound,
    by rw [hl]; exact hi.base⟩, fun q c hq h => hout _ _ (fun hw => hq hw.1) h⟩, fun i hlt => ?_⟩
  simpa using hin _ _ (within_iff.2 (by omega)) (hc i hlt)

theorem reborrow_any {s : Mem H K V} {p : Pointer} {c : List (Nat × Bool)} {k : RefKind} {w : Bool}
    (hi : Inv s) (hk : k ≠ .shared → w = true) (hc : Cell s p.block (c ++ [(p.tag, w)])) :
    Run cfg n (reborrow k p) s (fun q s' => ∃ t, q = ⟨p.block, t⟩ ∧
      Cell s' p.block (c ++ [(p.tag, w), (t, decide (k ≠ .shared))]) ∧ Quiet u [p.block] s s') R := by
  by_cases h : k = .shared
  · subst h
    exact reborrow_shared hi hc
  · have := hk h
    subst this
    simpa [h] using Boxes.reborrow_run (u := u) (R := R) (cfg := cfg) (n := n) hi h hc

theorem rootOf_run {s : Mem H K V} {k : RefKind} {t : Nat} {w : Bool} {c : List (Nat × Bool)}
    {l : Link K V} {F : List Nat}
    (hi : Inv s) (hk : k ≠ .shared → w = true) (hc : Cell s 0 (c ++ [(t, w)]))
    (hv : Valued s l (s.nodes 0) F) (hn : F.Nodup) :
    Run cfg n (rootOf k t) s (fun o s' => Quiet u [0] s s' ∧
      ((l = .nil ∧ o = none ∧ Cell s' 0 (c ++ [(t, w)])) ∨
        ∃ q r, o = some ⟨0, r⟩ ∧ At s' ⟨0, r⟩ (decide (k ≠ .shared))
          (c ++ [(t, w), (q, decide (k ≠ .shared))]) l F)) R := by
  have h0 := hv.ne_zero hi
  have hlt0 := hi.lt hi.base
  unfold rootOf
  refine Run.bind (reborrow_any (u := u) (p := ⟨0, t⟩) hi hk hc) ?_
  rintro _ s1 ⟨q, rfl, hc1, q1⟩
  simp only at hc1 q1
  have hc1' : Cell s1 0 (c ++ [(t, w)] ++ [(q, decide (k ≠ .shared))]) := by simpa using hc1
  refine Run.bind (touch_run (u := u) q1.eff.inv (by omega) (fun h => by cases h) (hc1' 0 (by omega)) hc1' (.refl _)) ?_
  rintro _ s2 ⟨_, hc2, q2⟩
  refine Run.get ?_
  have q02 := q1.one q2 hi
  rw [q02.nodes]
  cases hx : s.nodes 0 with
  | none =>
    rw [hx] at hv
    have hl : l = .nil := by
      cases l with
      | nil => rfl
      | node => obtain ⟨_, _, _, _, ho, _⟩ := hv; cases ho
    exact Run.pure ⟨q02, .inl ⟨hl, rfl, hc2.sub (List.sublist_append_left ..)⟩⟩
  | some x =>
    rw [hx] at hv
    refine Run.bind (reborrow_any (u := u) (p := ⟨0, q⟩) q2.eff.inv (by simp) hc2) ?_
    rintro _ s3 ⟨r, rfl, hc3, q3⟩
    simp only at hc3 q3
    have q03 := q02.one q3 hi
    refine Run.pure ⟨q03, .inr ⟨q, r, rfl, x, by rw [q03.nodes]; exact hx,
      hv.frame q03.eff hi (by simp only [List.mem_singleton]; intro b hb h; exact h0 (h ▸ hb)),
      List.nodup_cons.2 ⟨h0, hn⟩, by rw [q03.next]; exact hlt0, by simpa using hc3⟩⟩

theorem callRoot_run {s : Mem H K V} {k : RefKind} {t : Nat} {w : Bool} {c : List (Nat × Bool)}
    {l : Link K V} {F : List Nat}
    (hi : Inv s) (hk : k ≠ .shared → w = true)
    (hc : ∀ i, i < 4 → Chain s.heap ⟨0, i⟩ (c ++ [(t, w)]))
    (hv : Valued s l (s.nodes 0) F) (hn : F.Nodup) :
    Run cfg n (callRoot k t) s (fun o s' => ∃ t2 s1, Same s s1 ∧
      (∀ i, i < 4 → Chain s1.heap ⟨0, i⟩ (c ++ [(t, w)] ++ [(t2, decide (k ≠ .shared))])) ∧
      Quiet u [0] s1 s' ∧
      ((l = .nil ∧ o = none ∧ Cell s' 0 (c ++ [(t, w)] ++ [(t2, decide (k ≠ .shared))])) ∨
        ∃ q r, o = some ⟨0, r⟩ ∧ At s' ⟨0, r⟩ (decide (k ≠ .shared))
          (c ++ [(t, w)] ++ [(t2, decide (k ≠ .shared)), (q, decide (k ≠ .shared))]) l F)) R := by
  unfold callRoot
  refine Run.bind (callMap_run hi hk hc) ?_
  rintro t2 s1 ⟨e1, hc1⟩
  refine Run.mono (rootOf_run (u := u) e1.inv (by simp) (fun i hi => hc1 i (by omega))
    (by rw [e1.nodes]; exact hv.same hi e1) hn) ?_ (fun _ h => h)
  rintro o s2 ⟨q2, h⟩
  exact ⟨t2, s1, e1, hc1, q2, h⟩

/-- The map after a call. -/
theorem At.map {s s' : Mem H K V} {r : Nat} {w : Bool} {c c3 : List (Nat × Bool)} {t : Link K V}
    {F F' G D : List Nat} {ν : Int}
    (ha : At s' ⟨0, r⟩ w c t F') (he : Eff u G D (F'.length - F.length) ν s s')
    (hl : (layout s.heap).length = F.length + 1) (hlen : s'.len = t.size)
    (hc : [(s.owner, true)].Sublist (c ++ [(r, w)]))
    (h3 : Chain s.heap ⟨0, 3⟩ (c3 ++ [(u, true)])) (hs : [(s.owner, true)].Sublist (c3 ++ [(u, true)])) :
    MapIs s' t := by
  obtain ⟨x, hx, hv, hn, hlt, hcell⟩ := ha
  refine ⟨he.inv, fun i hi => ?_, ⟨F', by simp only at hx; rw [hx]; exact hv, (List.nodup_cons.1 hn).2, ?_⟩, hlen⟩
  · rw [he.owner]
    by_cases h : i < 3
    · exact (hcell.sub hc) i h
    · have : i = 3 := by omega
      subst this
      exact ChainLaws.sub (he.self _ h3) hs
  · have := he.count
    omega

/-- There are enough rounds for a walk. -/
theorem Valued.rounds {s : Mem H K V} {t : Link K V} {o : Option (Node K V)} {F : List Nat}
    (h : Valued s t o F) (hi : Inv s) (hn : F.Nodup) : t.size ≤ s.next := by
  have h0 := h.ne_zero hi
  have hlt := h.lt hi
  have hlt0 := hi.lt hi.base
  have := nodup_bound (n := s.next) (F := 0 :: F) (List.nodup_cons.2 ⟨h0, hn⟩) (by
    intro b hb
    rcases List.mem_cons.1 hb with rfl | hb
    · exact hlt0
    · exact hlt b hb)
  have := h.size
  simp only [List.length_cons] at *
  omega

/-- The map is empty, and only pointers were used. -/
theorem MapIs.quiet {s s1 s2 : Mem H K V} {t : Link K V} {c c3 : List (Nat × Bool)}
    (h : MapIs s t) (h1 : Same s s1) (q : Quiet u [0] s1 s2)
    (hc : Cell s2 0 c) (hs : [(s.owner, true)].Sublist c)
    (h3 : Chain s1.heap ⟨0, 3⟩ (c3 ++ [(u, true)])) (hs3 : [(s.owner, true)].Sublist (c3 ++ [(u, true)])) :
    MapIs s2 t := by
  obtain ⟨F, hv, hn, hl⟩ := h.root
  have h0 := hv.ne_zero h.inv
  refine ⟨q.eff.inv, fun i hi => ?_, ⟨F, ?_, hn, ?_⟩, ?_⟩
  · rw [q.eff.owner, h1.owner]
    by_cases h : i < 3
    · exact (hc.sub hs) i h
    · have : i = 3 := by omega
      subst this
      exact ChainLaws.sub (q.eff.self _ h3) hs3
  · rw [q.nodes, h1.nodes]
    exact (hv.same h.inv h1).frame q.eff h1.inv
      (by simp only [List.mem_singleton]; intro b hb h; exact h0 (h ▸ hb))
  · have := q.eff.count
    rw [h1.lay] at this
    omega
  · have := q.eff.len
    have := h1.len
    have := h.len
    omega

/-- The map after a walk. -/
theorem Walk.Good.map {W : Walk H K V α} {s s2 s3 s4 : Mem H K V} {t : Link K V} {r : Nat} {w : Bool}
    {c c3 : List (Nat × Bool)} {F : List Nat} {a : α} (g : W.Good u 0 ⟨0, r⟩ w c t F s3 a s4)
    (h : MapIs s t) (e : Same s s2) (q : Quiet u [0] s2 s3) (hat : At s3 ⟨0, r⟩ w c t F)
    (hc : [(s.owner, true)].Sublist (c ++ [(r, w)]))
    (h3 : Chain s2.heap ⟨0, 3⟩ (c3 ++ [(u, true)]))
    (hs : [(s.owner, true)].Sublist (c3 ++ [(u, true)])) : MapIs s4 (W.tree 0 t) := by
  obtain ⟨_, F', hat4, hF', e4⟩ := g
  obtain ⟨F1, hv, hn, hl⟩ := h.root
  have e24 := q.eff.trans e4 (0 :: F) [] (δ := F'.length - F.length) e.inv (by simp)
    (fun _ h => .inl h) (by simp) (by simp) (by simp) (by omega) rfl
  obtain ⟨x3, hx3, hv3, hn3, _⟩ := hat
  have hx4 := hat4
  obtain ⟨_, _, hv4, _⟩ := hx4
  have hF1 : F1.length = F.length := by rw [hv.size, hv3.size]
  have ho := e.owner
  refine hat4.map (u := u) (F := F) e24 (by rw [e.lay]; omega) ?_ (by rw [ho]; exact hc) h3 (by rw [ho]; exact hs)
  have h1 := e4.len
  have h2 := q.eff.len
  have h5 := e.len
  have h6 := h.len
  have h7 := hv4.size
  have h8 := hv3.size
  have h9 : 0 < t.size := by
    cases t with
    | nil => cases hv3.1
    | node => simp only [Link.size]; omega
  have h10 : 0 < (W.tree 0 t).size := by
    revert hv4
    generalize W.tree 0 t = t'
    intro hv4
    cases t' with
    | nil => cases hv4.1
    | node => simp only [Link.size]; omega
  omega

/-- A walk that changes nothing. -/
def Walk.idle : Walk H K V Unit := ⟨fun _ _ _ => pure (), fun _ _ => .ok (), fun _ t => t, fun _ => True, 0⟩

theorem Walk.Bad.map {W : Walk H K V α} {s s2 s3 s4 : Mem H K V} {t : Link K V} {r : Nat} {w : Bool}
    {c c3 : List (Nat × Bool)} {F : List Nat} (g : W.Bad u 0 ⟨0, r⟩ w c t F s3 s4)
    (h : MapIs s t) (e : Same s s2) (q : Quiet u [0] s2 s3) (hat : At s3 ⟨0, r⟩ w c t F)
    (hc : [(s.owner, true)].Sublist (c ++ [(r, w)]))
    (h3 : Chain s2.heap ⟨0, 3⟩ (c3 ++ [(u, true)]))
    (hs : [(s.owner, true)].Sublist (c3 ++ [(u, true)])) : MapIs s4 t :=
  Walk.Good.map (W := Walk.idle) (a := ()) (F := F) (r := r) (w := w) (c := c) (c3 := c3)
    (Walk.Good.same rfl rfl g.2.1 g.2.2) h e q hat hc h3 hs

theorem find_panic {t : Link K V} {pr : Probe K} {f : Option (K × V) → β}
    (h : (t.find pr 0).map f = .panic) : t.find pr 0 = .panic := by
  rcases t.find_ok_or_panic pr 0 with hf | ⟨e, hf⟩
  · exact hf
  · rw [hf] at h; cases h

/-! ### `get` -/

theorem get_run {s : Mem H K V} {pr : Probe K} {t : Link K V} (h : MapIs s t) (hlen : s.len ≤ n) :
    Run cfg n (get pr) s (fun a s' => (t.find pr 0).map (·.map (·.2)) = .ok a ∧ MapIs s' t)
      (fun s' => t.find pr 0 = .panic ∧ MapIs s' t) := by
  obtain ⟨F, hv, hn, hl⟩ := h.root
  unfold get
  refine Run.get ?_
  refine Run.bind (callMap_run (c := []) h.inv (by simp) h.own) ?_
  rintro self s1 ⟨e1, hc1⟩
  refine Run.bind (callRoot_run (u := s.owner) e1.inv (by simp) hc1
    (by rw [e1.nodes]; exact hv.same h.inv e1) hn) ?_
  rintro o s3 ⟨t2, s2, e2, hc2, q3, hor⟩
  have e02 := e1.trans e2
  have h3 : Chain s2.heap ⟨0, 3⟩ ([] ++ [(s.owner, true)]) :=
    ChainLaws.sub (hc2 3 (by omega)) (by simp)
  rcases hor with ⟨rfl, rfl, hc3⟩ | ⟨q, r, rfl, hat⟩
  · refine Run.ok (a := none) (s' := s3) ?_ ⟨rfl, h.quiet e02 q3 hc3 (by simp) h3 (by simp)⟩
    rw [loop_succ]; rfl
  · have hle := q3.eff.len
    have hl2 := e02.len
    refine Run.mono (get_walk (u := s.owner) pr t s3 _ _ _ 0 (fuel s + 1) F hat trivial q3.eff.inv
      (by omega) (by simp) (by simp only [getWalk, fuel]; have := hv.rounds h.inv hn; omega)) ?_ ?_
    · intro a s4 g
      exact ⟨g.1, Walk.Good.map g h e02 q3 hat (by simp) h3 (by simp)⟩
    · intro s4 g
      exact ⟨find_panic g.1, Walk.Bad.map g h e02 q3 hat (by simp) h3 (by simp)⟩

/-! ### `get_mut` -/

theorem getMut_eq (pr : Probe K) (v : V) : (getMut pr v : M (Mem H K V) (Option V)) = (do
    let s ← M.get
    let self ← callMap .excl s.owner
    let root ← callRoot .excl self
    loop (fuel s + 1) (getMutStep pr) (0, root) >>= mutRest v) := rfl

theorem getMut_run {s : Mem H K V} {pr : Probe K} {v : V} {t : Link K V} (h : MapIs s t)
    (hlen : s.len ≤ n) :
    Run cfg n (getMut pr v) s (fun a s' => (t.find pr 0).map (·.map (·.2)) = .ok a ∧
      MapIs s' (t.alter pr v 0)) (fun s' => t.find pr 0 = .panic ∧ MapIs s' t) := by
  obtain ⟨F, hv, hn, hl⟩ := h.root
  rw [getMut_eq]
  refine Run.get ?_
  refine Run.bind (callMap_run (c := []) h.inv (by simp) h.own) ?_
  rintro self s1 ⟨e1, hc1⟩
  refine Run.bind (callRoot_run (u := self) e1.inv (by simp) hc1
    (by rw [e1.nodes]; exact hv.same h.inv e1) hn) ?_
  rintro o s3 ⟨t2, s2, e2, hc2, q3, hor⟩
  have e02 := e1.trans e2
  have h3 : Chain s2.heap ⟨0, 3⟩ ([(s.owner, true)] ++ [(self, true)]) :=
    ChainLaws.sub (hc2 3 (by omega)) (by simp)
  rcases hor with ⟨rfl, rfl, hc3⟩ | ⟨q, r, rfl, hat⟩
  · refine Run.ok (a := none) (s' := s3) ?_ ⟨rfl, h.quiet e02 q3 hc3 (by simp) h3 (by simp)⟩
    rw [M.bind_apply, loop_succ]; rfl
  · have hle := q3.eff.len
    have hl2 := e02.len
    refine Run.mono (mut_walk (u := self) pr v t s3 _ _ _ 0 (fuel s + 1) F hat rfl q3.eff.inv
      (by omega) (fun _ => ⟨_, q3.eff.self _ h3⟩)
      (by simp only [mutWalk, fuel]; have := hv.rounds h.inv hn; omega)) ?_ ?_
    · intro a s4 g
      exact ⟨g.1, Walk.Good.map g h e02 q3 hat (by simp) h3 (by simp)⟩
    · intro s4 g
      exact ⟨find_panic g.1, Walk.Bad.map g h e02 q3 hat (by simp) h3 (by simp)⟩

/-! ### `insert` -/

theorem insert_run {s : Mem H K V} {pr : Probe K} {k : K} {v : V} {t : Link K V} (he : 2 ≤ cfg.esize)
    (h : MapIs s t) (hlen : s.len ≤ n) :
    Run cfg n (insert cfg pr k v) s (fun a s' => (t.find pr 0).map (·.map (·.2)) = .ok a ∧
      MapIs s' (t.ins pr k v 0)) (fun s' => t.find pr 0 = .panic ∧ MapIs s' t) := by
  obtain ⟨F, hv, hn, hl⟩ := h.root
  unfold insert
  refine Run.get ?_
  refine Run.bind (callMap_run (c := []) h.inv (by simp) h.own) ?_
  rintro self s1 ⟨e1, hc1⟩
  refine Run.bind (callRoot_run (u := self) e1.inv (by simp) hc1
    (by rw [e1.nodes]; exact hv.same h.inv e1) hn) ?_
  rintro o s3 ⟨t2, s2, e2, hc2, q3, hor⟩
  have e02 := e1.trans e2
  have h3 : Chain s2.heap ⟨0, 3⟩ ([(s.owner, true)] ++ [(self, true)]) :=
    ChainLaws.sub (hc2 3 (by omega)) (by simp)
  have hle := q3.eff.len
  have hl2 := e02.len
  rcases hor with ⟨rfl, rfl, hc3⟩ | ⟨q, r, rfl, hat⟩
  · obtain rfl : F = [] := hv.2
    have hc3' : Cell s3 0 ([(s.owner, true)] ++ [(self, true)]) := hc3.sub (by simp)
    refine Run.bind (touchNode_run (u := self) (p := ⟨0, self⟩) (x := true) (w := true)
      (c := [(s.owner, true)]) q3.eff.inv (fun h => h) hc3') ?_
    rintro _ s4 ⟨hc4, q4⟩
    refine store_bind ?_
    have e24 := q3.eff.trans q4.eff [0] [] (δ := 0) (ν := 0) e02.inv (by simp) (by simp) (by simp) (by simp)
      (by simp) (by omega) (by omega)
    have e25 := e24.trans (Mem.put_eff (b := 0) (x := some ⟨k, v, none, none⟩) q4.eff.inv) [0] []
      (δ := 0) (ν := 0) e02.inv (by simp) (by simp) (by simp) (by simp)
      (by simp) (by omega) (by omega)
    refine Run.bind (touchLen_quiet (u := self) e25.inv ⟨_, e25.self _ h3⟩) ?_
    rintro _ s6 ⟨hl6, q6⟩
    refine Run.get ?_
    have hz : s6.len = 0 := by
      have := e25.len
      have := h.len
      simp only [Link.size] at this
      omega
    refine Run.lift (a := ()) (by rw [hz]; simp [debugAssert]) ?_
    have e26 := e25.trans q6.eff [0] []
      (δ := 0) (ν := 0) e02.inv (by simp) (by simp) (by simp) (by simp)
      (by simp) (by omega) (by omega)
    refine Run.bind (touchLen_quiet (u := self) e26.inv ⟨_, e26.self _ h3⟩) ?_
    rintro _ s7 ⟨hl7, q7⟩
    have e27 := (e26.trans q7.eff [0] []
      (δ := 0) (ν := 0) e02.inv (by simp) (by simp) (by simp) (by simp)
      (by simp) (by omega) (by omega)).setLen (m := 1) (ν' := 1) (by
        have := h.len
        simp only [Link.size] at this
        omega)
    refine Run.modify ?_
    refine Run.pure ⟨rfl, e27.inv, fun i hi => ?_, ⟨[], ?_, by simp, ?_⟩, rfl⟩
    · rw [e27.owner, e02.owner]
      by_cases h' : i < 3
      · have : Cell s7 0 ([(s.owner, true)] ++ [(self, true)]) := by
          have h5 : Cell (s4.put 0 (some ⟨k, v, none, none⟩)) 0 ([(s.owner, true)] ++ [(self, true)]) := hc4
          have h6 := h5.frame q6.eff (by simp) (e25.inv.lt e25.inv.base)
          exact h6.frame q7.eff (by simp) (q6.eff.inv.lt q6.eff.inv.base)
        exact ChainLaws.sub (this i h') (by simp)
      · have : i = 3 := by omega
        subst this
        exact ChainLaws.sub (e27.self _ h3) (by simp)
    · have : s7.nodes 0 = some ⟨k, v, none, none⟩ := by
        rw [q7.nodes, q6.nodes]; exact Mem.put_self ..
      show Valued _ _ (s7.nodes 0) _
      rw [this]
      exact ⟨none, none, [], [], rfl, rfl, ⟨rfl, rfl⟩, ⟨rfl, rfl⟩⟩
    · have := e27.count
      rw [e02.lay] at this
      simp only [List.length_nil] at *
      omega
  · refine Run.mono (ins_walk (u := self) he pr k v t s3 _ _ _ 0 (fuel s) F hat rfl q3.eff.inv
      (by omega) (fun _ => ⟨_, q3.eff.self _ h3⟩)
      (by simp only [insWalk, fuel]; have := hv.rounds h.inv hn; omega)) ?_ ?_
    · intro a s4 g
      exact ⟨g.1, Walk.Good.map g h e02 q3 hat (by simp) h3 (by simp)⟩
    · intro s4 g
      exact ⟨find_panic g.1, Walk.Bad.map g h e02 q3 hat (by simp) h3 (by simp)⟩

/-! ### `remove_entry` -/

/-- The root is removed. -/
theorem unlinkRoot_run {s : Mem H K V} {self : Nat} {c : List (Nat × Bool)} {k : K} {v : V}
    {w : Link K V} {F : List Nat} {o : Option (Node K V)} {cur : Pointer} (hi : Inv s)
    (hc : Cell s 0 (c ++ [(self, true)])) (hx : s.nodes 0 = some ⟨k, v, none, none⟩)
    (hv : Valued s w o F) (hn : F.Nodup) :
    Run cfg n (unlink cfg self none cur o) s (fun e s' => e = (k, v) ∧
      Valued s' w (s'.nodes 0) F ∧ Cell s' 0 (c ++ [(self, true)]) ∧ Eff u (0 :: F) [] 0 0 s s') R := by
  have h0 := hv.ne_zero hi
  have hd : ∀ b ∈ F, b ∉ [0] := by simp only [List.mem_singleton]; intro b hb h; exact h0 (h ▸ hb)
  have hlt0 := hi.lt hi.base
  unfold unlink
  refine Run.bind (Boxes.reborrow_run (u := u) (p := ⟨0, self⟩) hi (by decide) hc) ?_
  rintro _ s1 ⟨t, rfl, hc1, q1⟩
  simp only at hc1 q1
  refine Run.bind (moveOpt_run (u := u) q1.eff.inv (hv.frame q1.eff hi hd) hn) ?_
  rintro o' s2 ⟨hv2, q2⟩
  have hc2 : Cell s2 0 (c ++ [(self, true)] ++ [(t, true)]) := by
    simpa using hc1.frame q2.eff h0 (by rw [q1.next]; exact hlt0)
  refine Run.bind (touchNode_run (u := u) (p := ⟨0, t⟩) q2.eff.inv (fun h => by cases h) hc2) ?_
  rintro _ s3 ⟨hc3, q3⟩
  refine Run.bind (touchNode_run (u := u) (p := ⟨0, t⟩) q3.eff.inv (fun _ => rfl) hc3) ?_
  rintro _ s4 ⟨hc4, q4⟩
  simp only at hc4 q3 q4
  refine Run.get ?_
  refine store_bind ?_
  have q04 : Quiet u (0 :: F) s s4 := ((q1.trans q2 (F := 0 :: F) hi (by simp)
    (fun _ h => List.mem_cons_of_mem _ h)).trans q3 (F := 0 :: F) hi (fun _ h => h) (by simp)).trans q4 hi
    (fun _ h => h) (by simp)
  rw [q04.nodes, hx]
  have hv4 := (hv2.frame q3.eff q2.eff.inv hd).frame q4.eff q3.eff.inv hd
  have ep := Mem.put_eff (u := u) (b := 0) (x := o') q4.eff.inv
  have hv5 := hv4.frame ep q4.eff.inv hd
  refine Run.bind (P := fun y s' => y = ⟨k, v, none, none⟩ ∧ s' = s4.put 0 o') (Run.pure ⟨rfl, rfl⟩) ?_
  rintro _ _ ⟨rfl, rfl⟩
  refine Run.bind (moveNode_run (u := u) (t := .node k v .nil .nil) (F := []) ep.inv
    ⟨none, none, [], [], rfl, rfl, ⟨rfl, rfl⟩, ⟨rfl, rfl⟩⟩ (by simp)) ?_
  rintro y s6 ⟨⟨a, b, Fl, Fr, hy, hF, ⟨ha, hFl⟩, ⟨hb, hFr⟩⟩, q6⟩
  cases hy
  subst ha hb
  unfold intoInner
  refine Run.bind (dropChildren_run (u := u) (t := .node k v .nil .nil) (F := []) q6.eff.inv
    ⟨none, none, [], [], rfl, rfl, ⟨rfl, rfl⟩, ⟨rfl, rfl⟩⟩ (by simp)) ?_
  rintro _ s7 ⟨_, e7⟩
  have e05 := q04.eff.trans ep (0 :: F) [] (δ := 0) (ν := 0) hi (fun _ h => h) (by simp) (by simp) (by simp)
    (by simp) (by omega) (by omega)
  have e06 := e05.trans q6.eff (0 :: F) [] (δ := 0) (ν := 0) hi (fun _ h => h) (by simp) (by simp) (by simp)
    (by simp) (by omega) (by omega)
  have e07 := e06.trans e7 (0 :: F) [] (δ := 0) (ν := 0) hi (fun _ h => h) (by simp) (by simp) (by simp)
    (by simp) (by simp) (by omega)
  have hx7 : s7.nodes 0 = o' := by
    rw [e7.nodes _ (by simp) (q6.eff.inv.lt q6.eff.inv.base), q6.nodes]; exact Mem.put_self ..
  refine Run.pure ⟨rfl, ?_, ?_, e07⟩
  · rw [hx7]
    exact (hv5.frame q6.eff ep.inv (by simp)).frame e7 q6.eff.inv (by simp)
  · have h5 : Cell (s4.put 0 o') 0 (c ++ [(self, true)] ++ [(t, true)]) := hc4
    exact ((h5.frame q6.eff (by simp) (ep.inv.lt ep.inv.base)).frame e7 (by simp)
      (q6.eff.inv.lt q6.eff.inv.base)).sub (List.sublist_append_left ..)

theorem removeEntry_run {s : Mem H K V} {pr : Probe K} {t : Link K V} (h : MapIs s t)
    (hlen : s.len ≤ n) :
    Run cfg n (removeEntry cfg pr) s (fun e s' => t.find pr 0 = .ok e ∧ MapIs s' (t.del pr 0))
      (fun s' => t.find pr 0 = .panic ∧ MapIs s' t) := by
  obtain ⟨F, hv, hn, hl⟩ := h.root
  have h0 := hv.ne_zero h.inv
  unfold removeEntry
  refine Run.get ?_
  refine Run.bind (callMap_run (c := []) h.inv (by simp) h.own) ?_
  rintro self s1 ⟨e1, hc1⟩
  have h3 : Chain s1.heap ⟨0, 3⟩ ([(s.owner, true)] ++ [(self, true)]) :=
    ChainLaws.sub (hc1 3 (by omega)) (by simp)
  refine Run.bind (rootOf_run (u := self) e1.inv (by simp) (fun i hi => hc1 i (by omega))
    (by rw [e1.nodes]; exact hv.same h.inv e1) hn) ?_
  rintro o s2 ⟨q2, ⟨rfl, rfl, hc2⟩ | ⟨q, r, rfl, hat⟩⟩
  · exact Run.pure ⟨rfl, h.quiet e1 q2 hc2 (by simp) h3 (by simp)⟩
  · refine Run.bind (hat.reborrow_run (u := self) q2.eff.inv (by decide)) ?_
    rintro _ s3 ⟨cur, rfl, hat3, q3⟩
    simp only at hat3 q3
    obtain ⟨C, hat3, hC⟩ : ∃ C, At s3 ⟨0, cur⟩ true C t F ∧
      ([(s.owner, true)] ++ [(self, true)]).Sublist C := ⟨_, hat3, by simp⟩
    have hC1 : [(s.owner, true)].Sublist (C ++ [(cur, true)]) :=
      ((List.sublist_append_left ..).trans hC).trans (List.sublist_append_left ..)
    have q13 := q2.one q3 e1.inv
    have hle := q13.eff.len
    have hl1 := e1.len
    have hlt := h.len
    have hpos : 0 < t.size := by
      obtain ⟨_, _, hv3, _⟩ := hat3
      cases t with
      | nil => cases hv3.1
      | node => simp only [Link.size]; omega
    have hlen3 : Len s3 self := ⟨_, q13.eff.self _ h3⟩
    have hrounds : t.size < fuel s + 1 := by
      have := hv.rounds h.inv hn
      simp only [fuel]; omega
    cases t with
    | nil => simp only [Link.size] at hpos; omega
    | node k v l r' =>
      by_cases heq : pr 0 k = some .eq
      · refine loop_run (P := fun o s' => o = .inr (none, some ⟨0, cur⟩) ∧
          At s' ⟨0, cur⟩ true C (.node k v l r') F ∧ Quiet self [0] s3 s') ?_ ?_ ?_
        · unfold findStep
          simp only
          refine Run.bind (hat3.reborrow_run (u := self) q3.eff.inv (by decide)) ?_
          rintro _ s4 ⟨t4, rfl, hat4, q4⟩
          refine Run.bind (hat4.keyOf_run (u := self) q4.eff.inv) ?_
          rintro _ s5 ⟨rfl, hat5, q5⟩
          rw [heq]
          exact Run.pure ⟨rfl, hat5.back, q4.one q5 q3.eff.inv⟩
        · rintro _ _ ⟨hh, _⟩; cases hh
        · rintro _ s4 ⟨hh, hat4, q4⟩
          cases hh
          have q14 := q13.one q4 e1.inv
          have hle4 := q14.eff.len
          unfold removeFound
          simp only
          refine Run.bind (P := fun e s' => e = (k, v) ∧ MapIs s' (Link.join l r')) ?_ ?_
          · unfold takeOut
            refine takeParts_run (u := self) hat4 q4.eff.inv (by omega) (by omega) (hlen3.eff q4.eff) ?_
            intro o s5 F' hv5 hn5 hs5 hx5 hc5 e5
            simp only at hx5 hc5 e5
            refine Run.mono (unlinkRoot_run (u := self) (c := [(s.owner, true)]) e5.inv
              (hc5.sub (hC.trans (List.sublist_append_left ..))) hx5 hv5 hn5) ?_ (fun _ h => h)
            rintro e s6 ⟨rfl, hv6, hc6, e6⟩
            have e15 := q14.eff.trans e5 (0 :: F) F (ν := -1) e1.inv (by simp) (fun _ h => .inl h) (by simp)
              (fun _ h => .inl h) (fun _ h => List.mem_cons_of_mem _ h) rfl (by omega)
            refine ⟨rfl, e6.inv, fun i hi => ?_, ⟨F', hv6, hn5, ?_⟩, ?_⟩
            · rw [e6.owner, e15.owner, e1.owner]
              by_cases h' : i < 3
              · exact ChainLaws.sub (hc6 i h') (by simp)
              · have : i = 3 := by omega
                subst this
                exact ChainLaws.sub (e6.self _ (e15.self _ h3)) (by simp)
            · have h7 := e6.count
              have h8 := e15.count
              have h9 := e1.lay
              rw [h9] at h8
              omega
            · have h7 := e6.len
              have h8 := e15.len
              have h9 := e1.len
              rw [Link.join_size]
              simp only [Link.size] at hlt
              omega
          · rintro _ s5 ⟨rfl, hm⟩
            exact Run.pure ⟨by simp only [Link.find, heq], by simp only [Link.del, heq]; exact hm⟩
      · refine Run.mono (removeLoop_run (u := self) pr (.node k v l r') s3 ⟨0, cur⟩ _ none 0 (fuel s + 1) F
          (fun k' v' l' r'' hh => by cases hh; exact heq) hat3 q3.eff.inv (by omega) (by omega) hlen3
          hrounds) ?_ ?_
        · rintro e s4 ⟨hf, F', hat4, hF', e4⟩
          have e14 := q13.eff.trans e4 (0 :: F) F (δ := F'.length - F.length) e1.inv (by simp)
            (fun _ h => .inl h) (by simp) (fun _ h => .inl h) (fun _ h => List.mem_cons_of_mem _ h)
            (by omega) rfl
          refine ⟨hf, hat4.map (u := self) (F := F) e14 (by rw [e1.lay]; exact hl) ?_
            (by rw [e1.owner]; exact hC1) h3 (by rw [e1.owner]; simp)⟩
          have h5 := e14.len
          have h6 := Link.del_size hf
          cases e with
          | none => simp only [Option.isSome_none, Bool.false_eq_true, if_false] at h5 h6; omega
          | some e => simp only [Option.isSome_some, if_true] at h5 h6; omega
        · rintro s4 ⟨hf, hat4, e4⟩
          have e14 := q13.eff.trans e4 (0 :: F) [] (δ := F.length - F.length) e1.inv (by simp)
            (fun _ h => .inl h) (by simp) (by simp) (by simp) (by omega) rfl
          refine ⟨hf, hat4.map (u := self) (F := F) e14 (by rw [e1.lay]; exact hl) ?_
            (by rw [e1.owner]; exact hC1) h3 (by rw [e1.owner]; simp)⟩
          have h5 := e14.len
          omega

/-! ### `clear` and the end -/

theorem dropRoot_run {s : Mem H K V} {self : Nat} {c : List (Nat × Bool)} {t : Link K V}
    {F : List Nat} (hi : Inv s) (hc : Cell s 0 (c ++ [(self, true)]))
    (hv : Valued s t (s.nodes 0) F) (hn : F.Nodup) :
    Run cfg n (dropRoot self) s (fun _ s' => Cell s' 0 (c ++ [(self, true)]) ∧
      Eff u (0 :: F) F (-F.length) 0 s s') R := by
  have h0 := hv.ne_zero hi
  have hd : ∀ b ∈ F, b ∉ [0] := by simp only [List.mem_singleton]; intro b hb h; exact h0 (h ▸ hb)
  unfold dropRoot
  refine Run.bind (Boxes.reborrow_run (u := u) (p := ⟨0, self⟩) hi (by decide) hc) ?_
  rintro _ s1 ⟨t', rfl, hc1, q1⟩
  have hc1' : Cell s1 0 (c ++ [(self, true)] ++ [(t', true)]) := by simpa using hc1
  refine Run.bind (touchNode_run (u := u) (p := ⟨0, t'⟩) q1.eff.inv (fun h => by cases h) hc1') ?_
  rintro _ s2 ⟨hc2, q2⟩
  simp only at hc2 q1 q2
  have q02 := q1.one q2 hi
  refine Run.get ?_
  rw [q02.nodes]
  have hv2 := hv.frame q02.eff hi hd
  cases hx : s.nodes 0 with
  | none =>
    rw [hx] at hv2
    obtain rfl : F = [] := by
      cases t with
      | nil => exact hv2.2
      | node => obtain ⟨_, _, _, _, ho, _⟩ := hv2; cases ho
    exact Run.pure ⟨hc2.sub (List.sublist_append_left ..), q02.eff⟩
  | some x =>
    rw [hx] at hv2
    refine Run.mono (dropChildren_run (u := u) q02.eff.inv hv2 hn) ?_ (fun _ h => h)
    rintro _ s3 ⟨hx3, e3⟩
    refine ⟨(hc2.frame e3 h0 (q02.eff.inv.lt q02.eff.inv.base)).sub (List.sublist_append_left ..), ?_⟩
    exact q02.eff.trans e3 _ _ hi (by simp) (fun _ h => .inl (List.mem_cons_of_mem _ h)) (by simp)
      (fun _ h => .inl h) (fun _ h => List.mem_cons_of_mem _ h) (by omega) (by omega)

theorem clear_run {s : Mem H K V} {t : Link K V} (h : MapIs s t) :
    Run cfg n clear s (fun _ s' => MapIs s' .nil) R := by
  obtain ⟨F, hv, hn, hl⟩ := h.root
  unfold clear
  refine Run.get ?_
  refine Run.bind (callMap_run (c := []) h.inv (by simp) h.own) ?_
  rintro self s1 ⟨e1, hc1⟩
  have h3 : Chain s1.heap ⟨0, 3⟩ ([(s.owner, true)] ++ [(self, true)]) :=
    ChainLaws.sub (hc1 3 (by omega)) (by simp)
  refine Run.bind (dropRoot_run (u := self) e1.inv (fun i hi => hc1 i (by omega))
    (by rw [e1.nodes]; exact hv.same h.inv e1) hn) ?_
  rintro _ s2 ⟨hc2, e2⟩
  refine Run.bind (touchNode_run (u := self) (p := ⟨0, self⟩) (x := true) (w := true) e2.inv (fun h => h) hc2) ?_
  rintro _ s3 ⟨hc3, q3⟩
  simp only at hc3 q3
  have e13 := e2.trans q3.eff (0 :: F) F (ν := 0) e1.inv (fun _ h => h) (by simp) (fun _ h => h) (by simp)
    (fun _ h => List.mem_cons_of_mem _ h) rfl (by omega)
  refine Run.bind (touchLen_quiet (u := self) e13.inv ⟨_, e13.self _ h3⟩) ?_
  rintro _ s4 ⟨hl4, q4⟩
  have e14 := e13.trans q4.eff (0 :: F) F (ν := 0) e1.inv (fun _ h => h) (by simp) (fun _ h => h) (by simp)
    (fun _ h => List.mem_cons_of_mem _ h) rfl (by omega)
  have hc4 := hc3.frame q4.eff (by simp) (q3.eff.inv.lt q3.eff.inv.base)
  refine store_bind ?_
  have ep := Mem.put_eff (u := self) (b := 0) (x := none) q4.eff.inv
  have e15 := e14.trans ep (0 :: F) F (ν := 0) e1.inv (fun _ h => h) (by simp) (fun _ h => h) (by simp)
    (fun _ h => List.mem_cons_of_mem _ h) rfl (by omega)
  have e16 := e15.setLen (m := 0) (ν' := -s1.len) (by omega)
  refine Run.ok rfl ⟨e16.inv, fun i hi => ?_, ⟨[], ?_, by simp, ?_⟩, rfl⟩
  · rw [e16.owner, e1.owner]
    by_cases h' : i < 3
    · exact ChainLaws.sub (hc4 i h') (by simp)
    · have : i = 3 := by omega
      subst this
      exact ChainLaws.sub (e16.self _ h3) (by simp)
  · show Valued _ _ ((s4.put 0 none).nodes 0) _
    rw [Mem.put_self]
    exact ⟨rfl, rfl⟩
  · show (layout s4.heap).length = 1
    have h1 := e2.count
    have h2 := q3.eff.count
    have h3 := q4.eff.count
    rw [e1.lay] at h1
    omega

theorem dropMap_run {s : Mem H K V} {t : Link K V} (h : MapIs s t) :
    Run cfg n dropMap s (fun _ s' => layout s'.heap = []) R := by
  obtain ⟨F, hv, hn, hl⟩ := h.root
  unfold dropMap
  refine Run.get ?_
  refine Run.bind (dropRoot_run (u := s.owner) (c := []) h.inv (fun i hi => h.own i (by omega)) hv hn) ?_
  rintro _ s1 ⟨hc1, e1⟩
  obtain ⟨h', e, hw, hl', hout⟩ := ChainLaws.deallocate_ok (t := s.owner) (id := 0) (n := 4) e1.inv.wf e1.inv.base
    (by omega) (fun i hi => by
      by_cases h' : i < 3
      · exact hc1 i h'
      · have : i = 3 := by omega
        subst this
        exact e1.self [] (h.own 3 (by omega)))
  refine Run.bind (P := fun _ s' => s' = { s1 with heap := h' }) (Run.ok (onHeap_ok e) rfl) ?_
  rintro _ _ rfl
  refine store_run ?_
  show layout h' = []
  rw [hl']
  have hc := e1.count
  have hb := e1.inv.base
  have : (layout s1.heap).length = 1 := by omega
  match hL : layout s1.heap, this with
  | [x], _ =>
    rw [hL] at hb
    rw [← List.mem_singleton.1 hb]
    rfl

theorem new_map : MapIs (Mem.new : Mem H K V) .nil := by
  obtain ⟨t, h', e, hw, hl, hin, hout⟩ := ChainLaws.allocate_ok (h := (Aliasing.empty : H)) (id := 0) (n := 4)
    ChainLaws.empty_wf (by rw [ChainLaws.empty_layout]; simp)
  rw [ChainLaws.empty_layout] at hl
  have hnew : (Mem.new : Mem H K V) =
      { nodes := fun _ => none, len := 0, owner := t, next := 1, heap := h' } := by
    unfold Mem.new; rw [e]
  rw [hnew]
  refine ⟨⟨hw, ?_, ?_⟩, hin, ⟨[], ⟨rfl, rfl⟩, by simp, ?_⟩, rfl⟩
  · intro e he
    simp only [hl, List.nil_append, List.mem_singleton] at he
    rw [he]; simp
  · simp [hl]
  · simp [hl]

end BST.Boxes
