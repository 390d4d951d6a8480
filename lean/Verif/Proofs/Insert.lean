import Verif.Proofs.Map
/-!
# `insert` in terms of ghost trees
-/
set_option linter.unusedSimpArgs false
namespace BST
variable {K V : Type}

/-- Bookkeeping of an operation that added one live address `pn`. -/
structure Slab.Added {T : Type} (cfg : Cfg) (s : Slab T) (pn : Ptr) (s' : Slab T) : Prop where
  inv : s'.Inv cfg
  fresh : s.view pn = none
  dom : ∀ x, (s'.view x).isSome ↔ x = pn ∨ (s.view x).isSome
  dropped : s'.dropped = s.dropped
  capacity : s.capacity ≤ s'.capacity
  reuse : s.freeLen ≠ 0 → s'.items.log = s.items.log ∧ s'.items.len = s.items.len ∧
    s'.capacity = s.capacity
  room : s.items.len < s.capacity → s'.items.log = s.items.log ∧ s'.capacity = s.capacity
  len : s.freeLen = 0 → s'.items.len = s.items.len + 1 ∧ s'.freeLen = 0
  grew : s'.capacity = s.capacity ∨
    (s.items.len = s.capacity ∧ s.freeLen = 0 ∧ s'.capacity = 2 * s.capacity + 8)
  log : s'.items.log = s.items.log ∨ ∃ id n, s'.items.log = s.items.log ++ [.alloc id n]
  last : ∀ q, s.freeHead = some q → pn = q

theorem Slab.Pushed.added {T : Type} {cfg : Cfg} {v : T} {s s' : Slab T} {pn : Ptr}
    (h : Slab.Pushed cfg v s pn s') : Slab.Added cfg s pn s' where
  inv := h.inv
  fresh := h.fresh
  dom x := by
    rw [h.view]
    by_cases hx : x = pn
    · simp [hx]
    · simp [upd, hx]
  dropped := h.dropped
  capacity := h.capacity
  reuse := h.reuse
  room := h.room
  len := h.len
  grew := h.grew
  log := h.log
  last := h.last

theorem Slab.Added.updated {T : Type} {cfg : Cfg} {v w : T} {s s1 s' : Slab T} {pn p : Ptr}
    (h : Slab.Added cfg s pn s1) (hu : Slab.Updated cfg p v s1 s') (hp : s1.view p = some w) :
    Slab.Added cfg s pn s' where
  inv := hu.inv
  fresh := h.fresh
  dom x := by
    rw [hu.view, ← h.dom]
    by_cases hx : x = p
    · simp [hx, hp]
    · simp [upd, hx]
  dropped := hu.dropped.trans h.dropped
  capacity := by rw [hu.capacity]; exact h.capacity
  reuse h0 := by rw [hu.capacity, hu.log, hu.len]; exact h.reuse h0
  room h0 := by rw [hu.capacity, hu.log]; exact h.room h0
  len h0 := by rw [hu.len, hu.freeLen]; exact h.len h0
  grew := by rw [hu.capacity]; exact h.grew
  log := by rw [hu.log]; exact h.log
  last := h.last

/-- Why no slot could be found for a new value. -/
def Slab.Full {T : Type} (cfg : Cfg) (s : Slab T) : Prop :=
  s.freeLen = 0 ∧ s.items.len = s.capacity ∧
    (Arena.pushChunk cfg s.items = (.panic, s.items) ∨ Arena.pushChunk cfg s.items = (.abort, s.items))

namespace BSTMap

/-- The loop body of `insert`. -/
def insertBody (cfg : Cfg) (c : Probe K) (key : K) (value : V) (st : Nat × Option NodeMut) :
    M (BSTMap K V) ((Nat × Option NodeMut) ⊕ Option V) :=
  match st.2 with
  | none => pure (.inr none)
  | some node => do
    let k ← onNodes node.key
    match c st.1 k with
    | none => M.panic
    | some .lt => do
      if !(← onNodes node.hasLeft) then
        let _ ← onNodes (node.pushLeft cfg key value)
        pure (.inr none)
      else
        let n ← onNodes node.left
        pure (.inl (st.1 + 1, n))
    | some .gt => do
      if !(← onNodes node.hasRight) then
        let _ ← onNodes (node.pushRight cfg key value)
        pure (.inr none)
      else
        let n ← onNodes node.right
        pure (.inl (st.1 + 1, n))
    | some .eq => do
      let prev ← onNodes (node.replaceValue value)
      pure (.inr (some prev))

theorem pushLeft_spec {cfg : Cfg} {s : Nodes K V} (hi : s.Inv cfg) {p : Ptr} {x : InnerNode K V}
    (hp : s.view p = some x) (k : K) (v : V) :
    (∃ pn s', NodeMut.pushLeft cfg ⟨p⟩ k v s = (.ok pn, s') ∧ Slab.Added cfg s pn s' ∧
      s'.view = upd (upd s.view pn (some ⟨k, v, none, none⟩)) p (some { x with left := some pn })) ∨
    (s.Full cfg ∧ (NodeMut.pushLeft cfg ⟨p⟩ k v s = (.panic, s) ∨
      NodeMut.pushLeft cfg ⟨p⟩ k v s = (.abort, s))) := by
  unfold NodeMut.pushLeft
  rcases Slab.push_spec hi (InnerNode.new k v) with ⟨pn, s1, h1, hP⟩ | ⟨h1, h2, ⟨h3, h4⟩ | ⟨h3, h4⟩⟩
  · left
    have hne : p ≠ pn := by rintro rfl; rw [hP.fresh] at hp; cases hp
    have hp1 : s1.view p = some x := by rw [hP.view, upd_ne _ _ hne]; exact hp
    obtain ⟨s2, h5, hU⟩ := Slab.update_spec hP.inv hp1 (fun x => { x with left := some pn })
    refine ⟨pn, s2, ?_, hP.added.updated hU hp1, by rw [hU.view, hP.view]; rfl⟩
    rw [M.bind_ok h1]
    unfold NodeMut.setLeft
    rw [M.bind_ok h5]; rfl
  · exact Or.inr ⟨⟨h1, h2, Or.inl h4⟩, Or.inl (M.bind_panic h3)⟩
  · exact Or.inr ⟨⟨h1, h2, Or.inr h4⟩, Or.inr (M.bind_abort h3)⟩

theorem pushRight_spec {cfg : Cfg} {s : Nodes K V} (hi : s.Inv cfg) {p : Ptr} {x : InnerNode K V}
    (hp : s.view p = some x) (k : K) (v : V) :
    (∃ pn s', NodeMut.pushRight cfg ⟨p⟩ k v s = (.ok pn, s') ∧ Slab.Added cfg s pn s' ∧
      s'.view = upd (upd s.view pn (some ⟨k, v, none, none⟩)) p (some { x with right := some pn })) ∨
    (s.Full cfg ∧ (NodeMut.pushRight cfg ⟨p⟩ k v s = (.panic, s) ∨
      NodeMut.pushRight cfg ⟨p⟩ k v s = (.abort, s))) := by
  unfold NodeMut.pushRight
  rcases Slab.push_spec hi (InnerNode.new k v) with ⟨pn, s1, h1, hP⟩ | ⟨h1, h2, ⟨h3, h4⟩ | ⟨h3, h4⟩⟩
  · left
    have hne : p ≠ pn := by rintro rfl; rw [hP.fresh] at hp; cases hp
    have hp1 : s1.view p = some x := by rw [hP.view, upd_ne _ _ hne]; exact hp
    obtain ⟨s2, h5, hU⟩ := Slab.update_spec hP.inv hp1 (fun x => { x with right := some pn })
    refine ⟨pn, s2, ?_, hP.added.updated hU hp1, by rw [hU.view, hP.view]; rfl⟩
    rw [M.bind_ok h1]
    unfold NodeMut.setRight
    rw [M.bind_ok h5]; rfl
  · exact Or.inr ⟨⟨h1, h2, Or.inl h4⟩, Or.inl (M.bind_panic h3)⟩
  · exact Or.inr ⟨⟨h1, h2, Or.inr h4⟩, Or.inr (M.bind_abort h3)⟩

/-- Outcome of the insertion into a subtree `t`. -/
inductive InsResult (cfg : Cfg) (c : Probe K) (k : K) (v : V) (i : Nat) (t : Tree K V)
    (s : Nodes K V) : Out (Option V) → Nodes K V → Prop where
  | panicked : t.find c i = .panic → InsResult cfg c k v i t s .panic s
  | hit (q : Ptr) (k0 : K) (v0 : V) (x : InnerNode K V) (s' : Nodes K V) :
      t.find c i = .ok (some (q, k0, v0)) → s.view q = some x →
      Slab.Updated cfg q { x with value := v } s s' →
      (∀ pn, (t.ins c pn k v i).Rep s'.view) →
      InsResult cfg c k v i t s (.ok (some v0)) s'
  | miss (pn : Ptr) (s' : Nodes K V) : t.find c i = .ok none → Slab.Added cfg s pn s' →
      (t.ins c pn k v i).Rep s'.view →
      (∀ x, x ∉ t.ptrs → x ≠ pn → s'.view x = s.view x) →
      InsResult cfg c k v i t s (.ok none) s'
  | fullP : t.find c i = .ok none → s.Full cfg → InsResult cfg c k v i t s .panic s
  | fullA : t.find c i = .ok none → s.Full cfg → InsResult cfg c k v i t s .abort s

theorem insert_loop {cfg : Cfg} {c : Probe K} {key : K} {value : V} {m : BSTMap K V}
    (hi : m.nodes.Inv cfg) {t : Tree K V} (ht : t ≠ .leaf) (hr : t.Rep m.nodes.view)
    (hn : t.ptrs.Nodup) (i fuel : Nat) (hf : t.height < fuel) :
    ∃ o s', loop fuel (insertBody cfg c key value) (i, t.mutOpt) m = (o, { m with nodes := s' }) ∧
      InsResult cfg c key value i t m.nodes o s' := by
  induction t generalizing i fuel with
  | leaf => exact absurd rfl ht
  | node p l k v r ihl ihr =>
    obtain ⟨fuel, rfl⟩ : ∃ k, fuel = k + 1 := ⟨fuel - 1, by omega⟩
    simp only [Tree.height] at hf
    have hk := onNodes_pure (m := m) (key_ok hr)
    simp only [Tree.ptrs, List.nodup_cons, List.mem_append, not_or, List.nodup_append] at hn
    obtain ⟨⟨hpl, hpr⟩, hnl, hnr, hlr⟩ := hn
    have hfind : Tree.find c i (.node p l k v r) = match c i k with
      | none => .panic
      | some .lt => l.find c (i + 1)
      | some .gt => r.find c (i + 1)
      | some .eq => .ok (some (p, k, v)) := rfl
    have hins : ∀ pn, Tree.ins c pn key value i (.node p l k v r) = match c i k with
      | none => .node p l k v r
      | some .lt => .node p (l.ins c pn key value (i + 1)) k v r
      | some .gt => .node p l k v (r.ins c pn key value (i + 1))
      | some .eq => .node p l k value r := fun _ => rfl
    have hbody : insertBody cfg c key value (i, (Tree.node p l k v r).mutOpt) m =
        (match c i k with
        | none => M.panic
        | some .lt => do
          if !(← onNodes (NodeMut.hasLeft ⟨p⟩)) then
            let _ ← onNodes (NodeMut.pushLeft cfg ⟨p⟩ key value)
            pure (.inr none)
          else
            let n ← onNodes (NodeMut.left ⟨p⟩)
            pure (.inl (i + 1, n))
        | some .gt => do
          if !(← onNodes (NodeMut.hasRight ⟨p⟩)) then
            let _ ← onNodes (NodeMut.pushRight cfg ⟨p⟩ key value)
            pure (.inr none)
          else
            let n ← onNodes (NodeMut.right ⟨p⟩)
            pure (.inl (i + 1, n))
        | some .eq => do
          let prev ← onNodes (NodeMut.replaceValue ⟨p⟩ value)
          pure (.inr (some prev)) : M (BSTMap K V) ((Nat × Option NodeMut) ⊕ Option V)) m := by
      show ((onNodes (NodeMut.key ⟨p⟩) >>= _) : M _ _) m = _
      rw [M.bind_ok hk]
    cases hc : c i k with
    | none =>
      rw [hc] at hfind
      refine ⟨.panic, m.nodes, loopM_panic ?_, .panicked hfind⟩
      rw [hbody, hc]; rfl
    | some o =>
      cases o with
      | lt =>
        simp only [hc] at hfind hins hbody
        rw [M.bind_ok (onNodes_pure (hasLeft_ok hr))] at hbody
        by_cases hl : l = .leaf
        · subst hl
          simp only [Tree.root_leaf, Option.isSome_none, Bool.not_false, if_true] at hbody
          rcases pushLeft_spec hi hr.1 key value with ⟨pn, s', h1, hA, hv⟩ | ⟨hF, h1 | h1⟩
          · refine ⟨.ok none, s', loopM_inr (by rw [hbody, M.bind_ok (onNodes_ok h1)]; rfl),
              .miss pn s' hfind hA ?_ ?_⟩
            · have hne : p ≠ pn := by
                rintro rfl; have := hA.fresh; rw [hr.1] at this; cases this
              rw [hins]
              refine ⟨by simp [hv, Tree.ins], ⟨?_, trivial, trivial⟩, ?_⟩
              · rw [hv, upd_ne _ _ (Ne.symm hne)]; simp
              · refine hr.2.2.congr fun q hq => ?_
                have hq1 : q ≠ p := by rintro rfl; exact hpr hq
                have hq2 : q ≠ pn := by
                  rintro rfl
                  have := hr.2.2.isSome hq
                  rw [hA.fresh] at this; cases this
                rw [hv, upd_ne _ _ hq1, upd_ne _ _ hq2]
            · intro x hx hxn
              simp only [Tree.ptrs, List.mem_cons, not_or] at hx
              rw [hv, upd_ne _ _ hx.1, upd_ne _ _ hxn]
          · exact ⟨.panic, m.nodes, loopM_panic (by rw [hbody]; exact M.bind_panic (onNodes_ok h1)),
              .fullP hfind hF⟩
          · exact ⟨.abort, m.nodes, loopM_abort (by rw [hbody]; exact M.bind_abort (onNodes_ok h1)),
              .fullA hfind hF⟩
        · have hsome : l.root.isSome := by
            cases l with
            | leaf => exact absurd rfl hl
            | node => rfl
          rw [hsome] at hbody
          simp only [Bool.not_true, Bool.false_eq_true, if_false] at hbody
          rw [M.bind_ok (onNodes_pure (left_ok hr))] at hbody
          obtain ⟨o, s', h1, hR⟩ := ihl hl hr.2.1 hnl (i + 1) fuel (by omega)
          refine ⟨o, s', (loopM_inl hbody).trans h1, ?_⟩
          cases hR with
          | panicked e => exact .panicked (hfind.trans e)
          | fullP e hF => exact .fullP (hfind.trans e) hF
          | fullA e hF => exact .fullA (hfind.trans e) hF
          | hit q k0 v0 x s' e hx hU hrep =>
            have hq : q ∈ l.ptrs := by
              have := Tree.find_mem e
              exact l.ino_ptrs_perm.mem_iff.1 (List.mem_map_of_mem this)
            refine .hit q k0 v0 x _ (hfind.trans e) hx hU fun pn => ?_
            rw [hins]
            refine ⟨?_, hrep pn, ?_⟩
            · have : p ≠ q := by rintro rfl; exact hpl hq
              rw [hU.view, upd_ne _ _ this, hr.1, Tree.ins_root hl]
            · refine hr.2.2.congr fun y hy => ?_
              have : y ≠ q := by rintro rfl; exact hlr y hq y hy rfl
              rw [hU.view, upd_ne _ _ this]
          | miss pn s' e hA hrep hfr =>
            have hnotin : ∀ y, y ∈ (Tree.node p l k v r).ptrs → y ≠ pn := by
              rintro y hy rfl
              have := hr.isSome hy
              rw [hA.fresh] at this; cases this
            refine .miss pn _ (hfind.trans e) hA ?_ ?_
            · rw [hins]
              refine ⟨?_, hrep, ?_⟩
              · rw [hfr p hpl (hnotin p (by simp [Tree.ptrs])), hr.1, Tree.ins_root hl]
              · refine hr.2.2.congr fun y hy => ?_
                exact hfr y (fun hy' => hlr y hy' y hy rfl) (hnotin y (by simp [Tree.ptrs, hy]))
            · intro x hx hxn
              simp only [Tree.ptrs, List.mem_cons, List.mem_append, not_or] at hx
              exact hfr x hx.2.1 hxn
      | gt =>
        simp only [hc] at hfind hins hbody
        rw [M.bind_ok (onNodes_pure (hasRight_ok hr))] at hbody
        by_cases hl : r = .leaf
        · subst hl
          simp only [Tree.root_leaf, Option.isSome_none, Bool.not_false, if_true] at hbody
          rcases pushRight_spec hi hr.1 key value with ⟨pn, s', h1, hA, hv⟩ | ⟨hF, h1 | h1⟩
          · refine ⟨.ok none, s', loopM_inr (by rw [hbody, M.bind_ok (onNodes_ok h1)]; rfl),
              .miss pn s' hfind hA ?_ ?_⟩
            · have hne : p ≠ pn := by
                rintro rfl; have := hA.fresh; rw [hr.1] at this; cases this
              rw [hins]
              refine ⟨by simp [hv, Tree.ins], ?_, ⟨?_, trivial, trivial⟩⟩
              · refine hr.2.1.congr fun q hq => ?_
                have hq1 : q ≠ p := by rintro rfl; exact hpl hq
                have hq2 : q ≠ pn := by
                  rintro rfl
                  have := hr.2.1.isSome hq
                  rw [hA.fresh] at this; cases this
                rw [hv, upd_ne _ _ hq1, upd_ne _ _ hq2]
              · rw [hv, upd_ne _ _ (Ne.symm hne)]; simp
            · intro x hx hxn
              simp only [Tree.ptrs, List.mem_cons, not_or] at hx
              rw [hv, upd_ne _ _ hx.1, upd_ne _ _ hxn]
          · exact ⟨.panic, m.nodes, loopM_panic (by rw [hbody]; exact M.bind_panic (onNodes_ok h1)),
              .fullP hfind hF⟩
          · exact ⟨.abort, m.nodes, loopM_abort (by rw [hbody]; exact M.bind_abort (onNodes_ok h1)),
              .fullA hfind hF⟩
        · have hsome : r.root.isSome := by
            cases r with
            | leaf => exact absurd rfl hl
            | node => rfl
          rw [hsome] at hbody
          simp only [Bool.not_true, Bool.false_eq_true, if_false] at hbody
          rw [M.bind_ok (onNodes_pure (right_ok hr))] at hbody
          obtain ⟨o, s', h1, hR⟩ := ihr hl hr.2.2 hnr (i + 1) fuel (by omega)
          refine ⟨o, s', (loopM_inl hbody).trans h1, ?_⟩
          cases hR with
          | panicked e => exact .panicked (hfind.trans e)
          | fullP e hF => exact .fullP (hfind.trans e) hF
          | fullA e hF => exact .fullA (hfind.trans e) hF
          | hit q k0 v0 x s' e hx hU hrep =>
            have hq : q ∈ r.ptrs := by
              have := Tree.find_mem e
              exact r.ino_ptrs_perm.mem_iff.1 (List.mem_map_of_mem this)
            refine .hit q k0 v0 x _ (hfind.trans e) hx hU fun pn => ?_
            rw [hins]
            refine ⟨?_, ?_, hrep pn⟩
            · have : p ≠ q := by rintro rfl; exact hpr hq
              rw [hU.view, upd_ne _ _ this, hr.1, Tree.ins_root hl]
            · refine hr.2.1.congr fun y hy => ?_
              have : y ≠ q := by rintro rfl; exact hlr y hy y hq rfl
              rw [hU.view, upd_ne _ _ this]
          | miss pn s' e hA hrep hfr =>
            have hnotin : ∀ y, y ∈ (Tree.node p l k v r).ptrs → y ≠ pn := by
              rintro y hy rfl
              have := hr.isSome hy
              rw [hA.fresh] at this; cases this
            refine .miss pn _ (hfind.trans e) hA ?_ ?_
            · rw [hins]
              refine ⟨?_, ?_, hrep⟩
              · rw [hfr p hpr (hnotin p (by simp [Tree.ptrs])), hr.1, Tree.ins_root hl]
              · refine hr.2.1.congr fun y hy => ?_
                exact hfr y (fun hy' => hlr y hy y hy' rfl) (hnotin y (by simp [Tree.ptrs, hy]))
            · intro x hx hxn
              simp only [Tree.ptrs, List.mem_cons, List.mem_append, not_or] at hx
              exact hfr x hx.2.2 hxn
      | eq =>
        simp only [hc] at hfind hins hbody
        obtain ⟨s', h1, hU⟩ := Slab.update_spec hi hr.1 (fun x => { x with value := value })
        refine ⟨.ok (some v), s', loopM_inr ?_, .hit p k v _ s' hfind hr.1 hU fun pn => ?_⟩
        · rw [hbody, M.bind_ok (a := v) (s' := { m with nodes := s' })]
          · rfl
          · apply onNodes_ok
            unfold NodeMut.replaceValue
            rw [M.bind_ok (deref_ok hr), M.bind_ok h1]; rfl
        · rw [hins]
          refine ⟨by simp [hU.view], hr.2.1.congr fun q hq => ?_, hr.2.2.congr fun q hq => ?_⟩
          · rw [hU.view, upd_ne]; rintro rfl; exact hpl hq
          · rw [hU.view, upd_ne]; rintro rfl; exact hpr hq

/-- `insert`, whatever the comparisons do. -/
theorem insert_spec {cfg : Cfg} {m : BSTMap K V} {t : Tree K V} (h : Shape cfg m t)
    (c : Probe K) (k : K) (v : V) :
    (t.find c 0 = .panic ∧ insert cfg c k v m = (.panic, m)) ∨
    (∃ q k0 v0 x m', t.find c 0 = .ok (some (q, k0, v0)) ∧
      insert cfg c k v m = (.ok (some v0), m') ∧ m.nodes.view q = some x ∧
      (∀ pn, Shape cfg m' (t.ins c pn k v 0)) ∧
      Slab.Updated cfg q { x with value := v } m.nodes m'.nodes) ∨
    (t.find c 0 = .ok none ∧ ∃ pn m', insert cfg c k v m = (.ok none, m') ∧
      Shape cfg m' (t.ins c pn k v 0) ∧ Slab.Added cfg m.nodes pn m'.nodes) ∨
    (t.find c 0 = .ok none ∧ m.nodes.Full cfg ∧
      (insert cfg c k v m = (.panic, m) ∨ insert cfg c k v m = (.abort, m))) := by
  by_cases ht : t = .leaf
  · subst ht
    have hroot := rootMut_ok h.root h.rep
    have hunf : insert cfg c k v m = (do
        let p ← onNodes (Slab.push cfg (InnerNode.new k v))
        M.modify fun m => { m with root := some p }
        pure none : M (BSTMap K V) (Option V)) m := by
      unfold insert
      simp only [M.get_bind]
      rw [M.bind_ok hroot]; rfl
    right; right
    rcases Slab.push_spec h.slab (InnerNode.new k v) with ⟨pn, s1, h1, hP⟩ | ⟨h1, h2, ⟨h3, h4⟩ | ⟨h3, h4⟩⟩
    · left
      refine ⟨rfl, pn, { nodes := s1, root := some pn }, ?_, ?_, hP.added⟩
      · rw [hunf, M.bind_ok (onNodes_ok h1)]; rfl
      · refine ⟨hP.inv, rfl, ⟨by simp [hP.view]; rfl, trivial, trivial⟩, by simp [Tree.ins, Tree.ptrs],
          fun x => ?_⟩
        rw [hP.added.dom, h.live]
        simp [Tree.ins, Tree.ptrs]
    · right
      exact ⟨rfl, ⟨h1, h2, Or.inl h4⟩, Or.inl (by rw [hunf]; exact M.bind_panic (onNodes_ok h3))⟩
    · right
      exact ⟨rfl, ⟨h1, h2, Or.inr h4⟩, Or.inr (by rw [hunf]; exact M.bind_abort (onNodes_ok h3))⟩
  · obtain ⟨o, s', hloop, hR⟩ := insert_loop (c := c) (key := k) (value := v) h.slab ht h.rep h.nodup
      0 _ h.height_lt
    have hunf : insert cfg c k v m = (o, { m with nodes := s' }) := by
      rw [← hloop]
      unfold insert
      simp only [M.get_bind]
      rw [M.bind_ok (rootMut_ok h.root h.rep)]
      cases t with
      | leaf => exact absurd rfl ht
      | node p l k' v' r => rfl
    rw [hunf]
    cases hR with
    | panicked e => exact Or.inl ⟨e, rfl⟩
    | fullP e hF => exact Or.inr (Or.inr (Or.inr ⟨e, hF, Or.inl rfl⟩))
    | fullA e hF => exact Or.inr (Or.inr (Or.inr ⟨e, hF, Or.inr rfl⟩))
    | hit q k0 v0 x s' e hx hU hrep =>
      right; left
      refine ⟨q, k0, v0, x, _, e, rfl, hx, fun pn => ?_, hU⟩
      refine ⟨hU.inv, ?_, hrep pn, ?_, fun y => ?_⟩
      · rw [Tree.ins_root ht]; exact h.root
      · rw [Tree.ins_ptrs_hit e]; exact h.nodup
      · rw [Tree.ins_ptrs_hit e, ← h.live]
        show (s'.view y).isSome ↔ _
        rw [hU.view]
        by_cases hy : y = q
        · simp [hy, hx]
        · simp [upd, hy]
    | miss pn s' e hA hrep hfr =>
      right; right; left
      refine ⟨e, pn, _, rfl, ⟨hA.inv, ?_, hrep, ?_, fun y => ?_⟩, hA⟩
      · rw [Tree.ins_root ht]; exact h.root
      · rw [(Tree.ins_ptrs_miss e).nodup_iff, List.nodup_cons]
        refine ⟨fun hp => ?_, h.nodup⟩
        have := (h.live pn).2 hp
        rw [hA.fresh] at this; cases this
      · rw [(Tree.ins_ptrs_miss e).mem_iff, List.mem_cons, ← h.live]
        exact hA.dom y

end BSTMap
end BST
