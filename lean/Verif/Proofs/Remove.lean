import Verif.Proofs.Insert
/-!
# `remove_entry` in terms of ghost trees
-/
set_option linter.unusedSimpArgs false
namespace BST
variable {K V : Type}

/-- Bookkeeping of operations that only rewrite live slots. -/
structure Slab.Same {T : Type} (cfg : Cfg) (s s' : Slab T) : Prop where
  inv : s'.Inv cfg
  dom : ∀ x, (s'.view x).isSome ↔ (s.view x).isSome
  dropped : s'.dropped = s.dropped
  capacity : s'.capacity = s.capacity
  log : s'.items.log = s.items.log
  len : s'.items.len = s.items.len
  freeLen : s'.freeLen = s.freeLen

namespace Slab.Same
variable {T : Type} {cfg : Cfg} {s s1 s2 : Slab T}
theorem refl (h : s.Inv cfg) : Slab.Same cfg s s := ⟨h, fun _ => Iff.rfl, rfl, rfl, rfl, rfl, rfl⟩
theorem trans (h : Slab.Same cfg s s1) (h' : Slab.Same cfg s1 s2) : Slab.Same cfg s s2 :=
  ⟨h'.inv, fun x => (h'.dom x).trans (h.dom x), h'.dropped.trans h.dropped,
    h'.capacity.trans h.capacity, h'.log.trans h.log, h'.len.trans h.len, h'.freeLen.trans h.freeLen⟩
theorem of_updated {p : Ptr} {v w : T} (hu : Slab.Updated cfg p v s s1) (hp : s.view p = some w) :
    Slab.Same cfg s s1 :=
  ⟨hu.inv, fun x => by
    rw [hu.view]
    by_cases hx : x = p
    · simp [hx, hp]
    · simp [upd, hx], hu.dropped, hu.capacity, hu.log, hu.len, hu.freeLen⟩
end Slab.Same

namespace Tree

/-- The node of a frame, with `o` as the pointer at the hole. -/
def Frame.inner (o : Option Ptr) : Frame K V → InnerNode K V
  | .L _ k v r => ⟨k, v, o, r.root⟩
  | .R _ l k v => ⟨k, v, l.root, o⟩

theorem RepFrame.ptr_view {h : Ptr → Option (InnerNode K V)} {o : Option Ptr} {f : Frame K V}
    (hr : RepFrame h o f) : h f.ptr = some (f.inner o) := by
  cases f <;> exact hr.1

theorem Frame.ptr_mem (f : Frame K V) : f.ptr ∈ f.ptrs := by cases f <;> simp [Frame.ptr, Frame.ptrs]

/-- Redirecting the pointer at the hole. -/
theorem RepCtx.redirect {h : Ptr → Option (InnerNode K V)} {o o' : Option Ptr} {f : Frame K V}
    {fs : List (Frame K V)} (hr : RepCtx h o (f :: fs)) (hn : (ctxPtrs (f :: fs)).Nodup) :
    RepCtx (upd h f.ptr (some (f.inner o'))) o' (f :: fs) := by
  obtain ⟨h1, h2⟩ := hr
  simp only [ctxPtrs, List.nodup_append] at hn
  obtain ⟨hn1, hn2, hn3⟩ := hn
  refine ⟨?_, h2.congr fun p hp => upd_ne _ _ ?_⟩
  · cases f with
    | L p k v r =>
      simp only [Frame.ptrs, List.nodup_cons] at hn1
      refine ⟨by simp [Frame.ptr, Frame.inner], h1.2.congr fun q hq => upd_ne _ _ ?_⟩
      rintro rfl; exact hn1.1 hq
    | R p l k v =>
      simp only [Frame.ptrs, List.nodup_cons] at hn1
      refine ⟨by simp [Frame.ptr, Frame.inner], h1.2.congr fun q hq => upd_ne _ _ ?_⟩
      rintro rfl; exact hn1.1 hq
  · rintro rfl; exact hn3 _ (Frame.ptr_mem f) _ hp rfl

end Tree

namespace BSTMap
open Tree

/-! ### The search with parent pointer -/

theorem findWithParent_loop {c : Probe K} {s : Nodes K V} {t : Tree K V} (hr : t.Rep s.view)
    (fs : List (Frame K V)) (i fuel : Nat) (hf : t.height < fuel) :
    (t.find c i = .panic ∧ loop fuel (fun (st : Nat × Option Ptr × Option Ptr) =>
      match st with
      | (_, parent, none) => pure (.inr (parent, none))
      | (i, parent, some p) => do
        let node ← s.getUnchecked p
        match c i node.key with
        | none => .panic
        | some .lt => pure (.inl (i + 1, some p, node.left))
        | some .gt => pure (.inl (i + 1, some p, node.right))
        | some .eq => pure (.inr (parent, some p)) : _ → Out (_ ⊕ Option Ptr × Option Ptr))
      (i, fs.head?.map Frame.ptr, t.root) = .panic) ∨
    (t.find c i = .ok none ∧ ∃ par, loop fuel (fun (st : Nat × Option Ptr × Option Ptr) =>
      match st with
      | (_, parent, none) => pure (.inr (parent, none))
      | (i, parent, some p) => do
        let node ← s.getUnchecked p
        match c i node.key with
        | none => .panic
        | some .lt => pure (.inl (i + 1, some p, node.left))
        | some .gt => pure (.inl (i + 1, some p, node.right))
        | some .eq => pure (.inr (parent, some p)) : _ → Out (_ ⊕ Option Ptr × Option Ptr))
      (i, fs.head?.map Frame.ptr, t.root) = .ok (par, none)) ∨
    (∃ e, t.find c i = .ok (some e) ∧ loop fuel (fun (st : Nat × Option Ptr × Option Ptr) =>
      match st with
      | (_, parent, none) => pure (.inr (parent, none))
      | (i, parent, some p) => do
        let node ← s.getUnchecked p
        match c i node.key with
        | none => .panic
        | some .lt => pure (.inl (i + 1, some p, node.left))
        | some .gt => pure (.inl (i + 1, some p, node.right))
        | some .eq => pure (.inr (parent, some p)) : _ → Out (_ ⊕ Option Ptr × Option Ptr))
      (i, fs.head?.map Frame.ptr, t.root) =
        .ok ((t.path c i fs).head?.map Frame.ptr, some e.1)) := by
  induction t generalizing i fuel fs with
  | leaf =>
    obtain ⟨fuel, rfl⟩ : ∃ k, fuel = k + 1 := ⟨fuel - 1, by omega⟩
    exact Or.inr (Or.inl ⟨rfl, _, loopO_inr rfl⟩)
  | node p l k v r ihl ihr =>
    obtain ⟨fuel, rfl⟩ : ∃ k, fuel = k + 1 := ⟨fuel - 1, by omega⟩
    simp only [Tree.height] at hf
    have hg := Slab.getUnchecked_ok hr.1
    cases hc : c i k with
    | none =>
      exact Or.inl ⟨by simp [find, hc], loopO_panic (by simp [hg, hc])⟩
    | some o =>
      cases o with
      | lt =>
        rw [loopO_inl (b' := (i + 1, some p, l.root)) (by simp [hg, hc])]
        have e1 : Tree.find c i (.node p l k v r) = l.find c (i + 1) := by simp [find, hc]
        have e2 : Tree.path c i (.node p l k v r) fs = l.path c (i + 1) (.L p k v r :: fs) := by
          simp [path, hc]
        rw [e1, e2]
        exact ihl hr.2.1 (.L p k v r :: fs) (i + 1) fuel (by omega)
      | gt =>
        rw [loopO_inl (b' := (i + 1, some p, r.root)) (by simp [hg, hc])]
        have e1 : Tree.find c i (.node p l k v r) = r.find c (i + 1) := by simp [find, hc]
        have e2 : Tree.path c i (.node p l k v r) fs = r.path c (i + 1) (.R p l k v :: fs) := by
          simp [path, hc]
        rw [e1, e2]
        exact ihr hr.2.2 (.R p l k v :: fs) (i + 1) fuel (by omega)
      | eq =>
        refine Or.inr (Or.inr ⟨(p, k, v), by simp [find, hc], ?_⟩)
        rw [loopO_inr (a := (fs.head?.map Frame.ptr, some p)) (by simp [hg, hc])]
        simp [path, hc]

theorem findWithParent_spec {cfg : Cfg} {m : BSTMap K V} {t : Tree K V} (h : Shape cfg m t)
    (c : Probe K) :
    (t.find c 0 = .panic ∧ findWithParent c m = .panic) ∨
    (t.find c 0 = .ok none ∧ ∃ par, findWithParent c m = .ok (par, none)) ∨
    (∃ e, t.find c 0 = .ok (some e) ∧
      findWithParent c m = .ok ((t.path c 0 []).head?.map Frame.ptr, some e.1)) := by
  have := findWithParent_loop (c := c) h.rep [] 0 _ h.height_lt
  unfold findWithParent
  rw [h.root]
  exact this

/-! ### The in-order successor -/

theorem findSucc_loop {s : Nodes K V} (fs : List (Frame K V)) (pp : Ptr)
    (lp : Ptr) (lk : K) (lv : V) (lr ll : Tree K V)
    (hr : (Tree.node lp ll lk lv lr).Rep s.view) (pk : K) (pv : V) (pr : Tree K V)
    (fuel : Nat) (hf : ll.height < fuel) :
    ∃ fp fk fv fr fs' sp sk sv sr,
      loop fuel (fun (st : Ptr × Ptr) => do
        let node ← s.getUnchecked st.2
        match node.left with
        | some l => pure (.inl (st.2, l))
        | none => pure (.inr st) : _ → Out (_ ⊕ Ptr × Ptr)) (pp, lp) = .ok (fp, sp) ∧
      plug (.L fp fk fv fr :: fs') (node sp leaf sk sv sr) =
        plug (.L pp pk pv pr :: fs) (node lp ll lk lv lr) ∧
      plug (.L fp fk fv fr :: fs') sr = plug (.L pp pk pv pr :: fs) (popMin lp lk lv lr ll).2 ∧
      (popMin lp lk lv lr ll).1 = (sp, sk, sv) := by
  induction ll generalizing fs pp lp lk lv lr pk pv pr fuel with
  | leaf =>
    obtain ⟨fuel, rfl⟩ : ∃ k, fuel = k + 1 := ⟨fuel - 1, by omega⟩
    refine ⟨pp, pk, pv, pr, fs, lp, lk, lv, lr, loopO_inr ?_, rfl, rfl, rfl⟩
    simp [Slab.getUnchecked_ok hr.1]
  | node q ql qk qv qr ih _ =>
    obtain ⟨fuel, rfl⟩ : ∃ k, fuel = k + 1 := ⟨fuel - 1, by omega⟩
    simp only [Tree.height] at hf
    obtain ⟨fp, fk, fv, fr, fs', sp, sk, sv, sr, h1, h2, h3, h4⟩ :=
      ih (.L pp pk pv pr :: fs) lp q qk qv qr hr.2.1 lk lv lr fuel (by omega)
    refine ⟨fp, fk, fv, fr, fs', sp, sk, sv, sr, ?_, h2, h3, h4⟩
    rw [loopO_inl (b' := (lp, q)) (by simp [Slab.getUnchecked_ok hr.1])]
    exact h1

/-- The node that takes the place of the removed one, and the heap after the
pointer surgery among its descendants. -/
theorem replacement_spec {cfg : Cfg} {s : Nodes K V} (hi : s.Inv cfg) {p : Ptr} {l r : Tree K V}
    {k : K} {v : V} (hr : (Tree.node p l k v r).Rep s.view)
    (hn : (Tree.node p l k v r).ptrs.Nodup) (hfuel : r.height < walkFuel s) :
    ∃ s', replacement p s = (.ok (join l r).root, s') ∧ Slab.Same cfg s s' ∧
      (join l r).Rep s'.view ∧ (∀ x, x ∉ l.ptrs → x ∉ r.ptrs → s'.view x = s.view x) := by
  have hg := Slab.getUnchecked_ok hr.1
  have hstart : ∀ (x : InnerNode K V → M (Nodes K V) (Option Ptr)),
      (M.read (fun s => s.getUnchecked p) >>= x) s = x ⟨k, v, l.root, r.root⟩ s := by
    intro x; rw [M.read_bind, hg]; rfl
  cases l with
  | leaf =>
    refine ⟨s, ?_, .refl hi, ?_, fun _ _ _ => rfl⟩
    · unfold replacement; rw [hstart]; cases r <;> rfl
    · simpa [join] using hr.2.2
  | node lp ll lk lv lr =>
    cases r with
    | leaf =>
      refine ⟨s, ?_, .refl hi, ?_, fun _ _ _ => rfl⟩
      · unfold replacement; rw [hstart]; rfl
      · simpa [join] using hr.2.1
    | node rp rl rk rv rr =>
      obtain ⟨_, hrepl, hrepr⟩ := hr
      have hgr := Slab.getUnchecked_ok hrepr.1
      have hlroot : (Tree.node lp ll lk lv lr).root = some lp := rfl
      have hrroot : (Tree.node rp rl rk rv rr).root = some rp := rfl
      have hgo : replacement p s = (do
          let rightChild ← M.read (fun s => s.getUnchecked rp)
          let succ ← (match rightChild.left with
            | some rightChildLeft => do
              let s ← M.get
              let (succParent, succ) ← M.lift (findSucc s rp rightChildLeft)
              let succNode ← M.read (fun s => s.getUnchecked succ)
              Slab.updateUnchecked succParent fun x => { x with left := succNode.right }
              Slab.updateUnchecked succ fun x => { x with right := some rp }
              pure succ
            | none => pure rp)
          Slab.updateUnchecked succ fun x => { x with left := some lp }
          pure (some succ) : M (Nodes K V) (Option Ptr)) s := by
        unfold replacement; rw [hstart]; rfl
      rw [hgo, M.read_bind, hgr, M.lift_ok_bind]
      clear hgo hstart hg
      generalize hL : Tree.node lp ll lk lv lr = L at *
      have hjoin : join L (node rp rl rk rv rr) = node (popMin rp rk rv rr rl).1.1 L
          (popMin rp rk rv rr rl).1.2.1 (popMin rp rk rv rr rl).1.2.2 (popMin rp rk rv rr rl).2 := by
        rw [← hL]; rfl
      rw [hjoin]
      clear hjoin
      have hn' : (L.ptrs ++ (node rp rl rk rv rr).ptrs).Nodup := (List.nodup_cons.1 hn).2
      obtain ⟨_, hnr, hdisj⟩ := List.nodup_append.1 hn'
      clear hn hn'
      cases rl with
      | leaf =>
        obtain ⟨s1, h1, hU⟩ := Slab.update_spec hi hrepr.1 (fun x => { x with left := some lp })
        have hrp : rp ∈ (node rp leaf rk rv rr).ptrs := by simp [Tree.ptrs]
        refine ⟨s1, ?_, .of_updated hU hrepr.1, ⟨?_, ?_, ?_⟩, fun x _ hx => ?_⟩
        · simp only [Tree.root_leaf, pure_bind]
          rw [M.bind_ok h1]; rfl
        · simp [popMin, hU.view, hlroot]
        · refine hrepl.congr fun q hq => ?_
          rw [hU.view, upd_ne]
          rintro rfl; exact hdisj q hq q hrp rfl
        · refine hrepr.2.2.congr fun q hq => ?_
          rw [hU.view, upd_ne]
          rintro rfl
          simp [Tree.ptrs] at hnr
          exact hnr.1 hq
        · rw [hU.view, upd_ne]
          rintro rfl; exact hx hrp
      | node q ql qk qv qr =>
        obtain ⟨fp, fk, fv, fr, fs', sp, sk, sv, sr, h1, h2, h3, h4⟩ :=
          findSucc_loop [] rp q qk qv qr ql hrepr.2.1 rk rv rr (walkFuel s) (by
            simp only [Tree.height] at hfuel; omega)
        have hpm : popMin rp rk rv rr (node q ql qk qv qr) =
            ((sp, sk, sv), plug (.L fp fk fv fr :: fs') sr) := by
          rw [h3, ← h4]; rfl
        have hxroot : (plug (.L fp fk fv fr :: fs') sr).root = some rp := by rw [h3]; rfl
        have h2' : plug (.L fp fk fv fr :: fs') (node sp leaf sk sv sr) =
          node rp (node q ql qk qv qr) rk rv rr := h2
        have h2'' := h2'
        rw [← h2'] at hrepr hnr hdisj
        rw [hpm]
        clear h2 h2' h3 h4 hpm hgr
        obtain ⟨hctx, hsub⟩ := rep_plug.1 hrepr
        have hperm := plug_ptrs (.L fp fk fv fr :: fs') (node sp leaf sk sv sr)
        rw [hperm.nodup_iff, List.nodup_append] at hnr
        obtain ⟨hn1, hn2, hn3⟩ := hnr
        have hfp : fp ∈ ctxPtrs (.L fp fk fv fr :: fs') := by simp [ctxPtrs, Frame.ptrs]
        have hspm : sp ∈ (node sp leaf sk sv sr).ptrs := by simp [Tree.ptrs]
        have hspfp : sp ≠ fp := by rintro rfl; exact hn3 _ hfp _ hspm rfl
        have hspctx : sp ∉ ctxPtrs (.L fp fk fv fr :: fs') := fun hm => hn3 _ hm _ hspm rfl
        have hmem : ∀ x, x ∈ (plug (.L fp fk fv fr :: fs') (node sp leaf sk sv sr)).ptrs ↔
            x ∈ ctxPtrs (.L fp fk fv fr :: fs') ∨ x ∈ (node sp leaf sk sv sr).ptrs := fun x => by
          rw [hperm.mem_iff, List.mem_append]
        have hfpv : s.view fp = some ⟨fk, fv, some sp, fr.root⟩ := hctx.1.1
        obtain ⟨s1, e1, hU1⟩ := Slab.update_spec hi hfpv (fun x => { x with left := sr.root })
        have hspv1 : s1.view sp = some ⟨sk, sv, none, sr.root⟩ := by
          rw [hU1.view, upd_ne _ _ hspfp]; exact hsub.1
        obtain ⟨s2, e2, hU2⟩ := Slab.update_spec hU1.inv hspv1 (fun x => { x with right := some rp })
        have hspv2 : s2.view sp = some ⟨sk, sv, none, some rp⟩ := by rw [hU2.view]; simp
        obtain ⟨s3, e3, hU3⟩ := Slab.update_spec hU2.inv hspv2 (fun x => { x with left := some lp })
        have hv3 : s3.view = upd (upd s.view fp (some ⟨fk, fv, sr.root, fr.root⟩)) sp
            (some ⟨sk, sv, some lp, some rp⟩) := by
          rw [hU3.view, hU2.view, hU1.view]
          funext x
          by_cases hx : x = sp <;> simp [upd, hx]
        refine ⟨s3, ?_, ((Slab.Same.of_updated hU1 hfpv).trans (.of_updated hU2 hspv1)).trans
          (.of_updated hU3 hspv2), ⟨?_, ?_, ?_⟩, fun x _ hx => ?_⟩
        · simp only [Tree.root_node]
          have hsucc : findSucc s rp q = .ok (fp, sp) := h1
          simp only [bind_assoc, M.get_bind, hsucc, M.lift_ok_bind]
          rw [M.read_bind, Slab.getUnchecked_ok hsub.1, M.lift_ok_bind]
          rw [M.bind_ok e1, M.bind_ok e2, pure_bind, M.bind_ok e3]
          rfl
        · rw [hv3, hlroot, hxroot]; simp
        · refine hrepl.congr fun y hy => ?_
          have y1 : y ≠ sp := by rintro rfl; exact hdisj y hy y ((hmem y).2 (Or.inr hspm)) rfl
          have y2 : y ≠ fp := by rintro rfl; exact hdisj y hy y ((hmem y).2 (Or.inl hfp)) rfl
          rw [hv3, upd_ne _ _ y1, upd_ne _ _ y2]
        · refine rep_plug.2 ⟨?_, ?_⟩
          · refine (hctx.redirect (o' := sr.root) hn1).congr fun y hy => ?_
            have y1 : y ≠ sp := by rintro rfl; exact hspctx hy
            rw [hv3, upd_ne _ _ y1]; rfl
          · refine hsub.2.2.congr fun y hy => ?_
            have hy' : y ∈ (node sp leaf sk sv sr).ptrs := by simp [Tree.ptrs, hy]
            have y1 : y ≠ sp := by
              rintro rfl; simp [Tree.ptrs] at hn2; exact hn2.1 hy
            have y2 : y ≠ fp := by rintro rfl; exact hn3 y hfp y hy' rfl
            rw [hv3, upd_ne _ _ y1, upd_ne _ _ y2]
        · have y1 : x ≠ sp := by
            rintro rfl; exact hx (by rw [← h2'']; exact (hmem x).2 (Or.inr hspm))
          have y2 : x ≠ fp := by
            rintro rfl; exact hx (by rw [← h2'']; exact (hmem x).2 (Or.inl hfp))
          rw [hv3, upd_ne _ _ y1, upd_ne _ _ y2]

/-- `remove_entry`, whatever the comparisons do. -/
theorem removeEntry_spec {cfg : Cfg} {m : BSTMap K V} {t : Tree K V} (h : Shape cfg m t)
    (c : Probe K) :
    (t.find c 0 = .panic ∧ removeEntry cfg c m = (.panic, m)) ∨
    (t.find c 0 = .ok none ∧ removeEntry cfg c m = (.ok none, m)) ∨
    (∃ e m', t.find c 0 = .ok (some e) ∧ removeEntry cfg c m = (.ok (some e.2), m') ∧
      Shape cfg m' (t.del c 0) ∧ m'.nodes.dropped = m.nodes.dropped ∧
      m'.capacity = m.capacity ∧ m'.nodes.items.log = m.nodes.items.log ∧
      m'.nodes.items.len = m.nodes.items.len ∧ m'.nodes.freeLen = m.nodes.freeLen + 1 ∧
      m'.nodes.freeHead = some e.1) := by
  rcases findWithParent_spec h c with ⟨hf, hw⟩ | ⟨hf, par, hw⟩ | ⟨⟨p, k, v⟩, hf, hw⟩
  · refine Or.inl ⟨hf, ?_⟩
    unfold removeEntry
    rw [M.read_bind, hw]; rfl
  · refine Or.inr (Or.inl ⟨hf, ?_⟩)
    unfold removeEntry
    rw [M.read_bind, hw]; rfl
  · right; right
    obtain ⟨l, r, hp1, hp2⟩ := path_spec [] hf
    simp only [plug] at hp1 hp2
    generalize hfs : t.path c 0 [] = fs at hp1 hp2 hw
    have hrep := h.rep
    have hnd := h.nodup
    rw [← hp1] at hrep hnd
    obtain ⟨hctx, hsub⟩ := rep_plug.1 hrep
    have hperm := plug_ptrs fs (node p l k v r)
    rw [hperm.nodup_iff, List.nodup_append] at hnd
    obtain ⟨hn1, hn2, hn3⟩ := hnd
    have hpm : p ∈ (node p l k v r).ptrs := by simp [Tree.ptrs]
    have hrfuel : r.height < walkFuel m.nodes := by
      have h1 := h.size_lt
      rw [← t.ptrs_length, ← hp1, hperm.length_eq] at h1
      have h2 := r.height_le_size
      rw [← r.ptrs_length] at h2
      simp only [Tree.ptrs, List.length_append, List.length_cons] at h1
      omega
    obtain ⟨s1, e1, hS1, hR1, hF1⟩ := replacement_spec h.slab hsub hn2 hrfuel
    have hpnot : p ∉ l.ptrs ∧ p ∉ r.ptrs := by
      simp [Tree.ptrs] at hn2; exact hn2.1
    have hv1 : s1.view p = some ⟨k, v, l.root, r.root⟩ := by
      rw [hF1 p hpnot.1 hpnot.2]; exact hsub.1
    have hctx1 : RepCtx s1.view (some p) fs := hctx.congr fun y hy => by
      have hy' : y ∉ (node p l k v r).ptrs := fun hm => hn3 y hy y hm rfl
      simp only [Tree.ptrs, List.mem_cons, List.mem_append, not_or] at hy'
      exact hF1 y hy'.2.1 hy'.2.2
    -- the link to the removed node
    have hlink : ∃ m2 : BSTMap K V, Slab.Same cfg s1 m2.nodes ∧
        m2.root = (plug fs (join l r)).root ∧ RepCtx m2.nodes.view (join l r).root fs ∧
        (∀ x, x ∉ ctxPtrs fs → m2.nodes.view x = s1.view x) ∧
        (match fs.head?.map Frame.ptr with
          | some parentPtr => do
            let parentNode ← onNodes (M.read (fun s => s.getUnchecked parentPtr))
            if parentNode.left = some p then
              onNodes (Slab.updateUnchecked parentPtr fun x => { x with left := (join l r).root })
            else
              onNodes (Slab.updateUnchecked parentPtr fun x => { x with right := (join l r).root })
          | none => M.modify fun m => { m with root := (join l r).root } : M (BSTMap K V) Unit)
          { m with nodes := s1 } = (.ok (), m2) := by
      cases fs with
      | nil => exact ⟨{ nodes := s1, root := (join l r).root }, .refl hS1.inv, rfl, trivial,
          fun _ _ => rfl, rfl⟩
      | cons f fs =>
        have hfv : s1.view f.ptr = some (f.inner (some p)) := hctx1.1.ptr_view
        have hroot : m.root = (plug (f :: fs) (join l r)).root := by
          rw [h.root, ← hp1]; exact root_plug_nonleaf _ (Or.inl (by simp))
        have hread : (onNodes (M.read (fun s => s.getUnchecked f.ptr)) : M (BSTMap K V) _)
            { m with nodes := s1 } = (.ok (f.inner (some p)), { m with nodes := s1 }) := by
          apply onNodes_pure
          simp [Slab.getUnchecked_ok hfv]
        have hfin : ∀ s2, Slab.Updated cfg f.ptr (f.inner (join l r).root) s1 s2 →
            Slab.Same cfg s1 s2 ∧ RepCtx s2.view (join l r).root (f :: fs) ∧
            ∀ x, x ∉ ctxPtrs (f :: fs) → s2.view x = s1.view x := by
          intro s2 hU
          refine ⟨.of_updated hU hfv, ?_, fun x hx => ?_⟩
          · rw [hU.view]; exact hctx1.redirect hn1
          · rw [hU.view, upd_ne]
            rintro rfl
            exact hx (by simp [ctxPtrs, Frame.ptr_mem])
        simp only [List.head?_cons, Option.map_some]
        cases f with
        | L fp fk fv fr =>
          obtain ⟨s2, e2, hU2⟩ := Slab.update_spec hS1.inv hfv (fun x => { x with left := (join l r).root })
          obtain ⟨a1, a2, a3⟩ := hfin s2 hU2
          refine ⟨{ m with nodes := s2 }, a1, hroot, a2, a3, ?_⟩
          rw [M.bind_ok hread]
          rw [if_pos (show (Frame.inner (some p) (Frame.L fp fk fv fr)).left = some p from rfl)]
          exact onNodes_ok (m := { m with nodes := s1 }) e2
        | R fp fl fk fv =>
          obtain ⟨s2, e2, hU2⟩ := Slab.update_spec hS1.inv hfv (fun x => { x with right := (join l r).root })
          obtain ⟨a1, a2, a3⟩ := hfin s2 hU2
          refine ⟨{ m with nodes := s2 }, a1, hroot, a2, a3, ?_⟩
          rw [M.bind_ok hread]
          have hne : (Frame.inner (some p) (Frame.R fp fl fk fv)).left ≠ some p := by
            show fl.root ≠ some p
            intro e
            have : p ∈ fl.ptrs := by
              cases fl with
              | leaf => cases e
              | node q a b c d => cases e; simp [Tree.ptrs]
            exact hn3 p (by simp [ctxPtrs, Frame.ptrs, this]) p hpm rfl
          rw [if_neg hne]
          exact onNodes_ok (m := { m with nodes := s1 }) e2
    obtain ⟨m2, hS2, hroot2, hctx2, hF2, e2⟩ := hlink
    have hpctx : p ∉ ctxPtrs fs := fun hm => hn3 p hm p hpm rfl
    have hv2 : m2.nodes.view p = some ⟨k, v, l.root, r.root⟩ := by rw [hF2 p hpctx]; exact hv1
    obtain ⟨s3, e3, hRm⟩ := Slab.remove_spec hS2.inv hv2
    have hS := hS1.trans hS2
    refine ⟨(p, k, v), { m2 with nodes := s3 }, hf, ?_, ?_, hRm.dropped.trans hS.dropped,
      hRm.capacity.trans hS.capacity, hRm.log.trans hS.log, hRm.len.trans hS.len,
      by rw [hRm.freeLen, hS.freeLen], hRm.head⟩
    · unfold removeEntry
      rw [M.read_bind, hw, M.lift_ok_bind]
      simp only
      rw [M.bind_ok (onNodes_ok e1)]
      refine Eq.trans ?_ ((M.bind_ok (f := fun _ => (do
        let node ← onNodes (Slab.remove cfg p)
        pure (some (node.key, node.value)) : M (BSTMap K V) (Option (K × V)))) e2).trans ?_)
      · cases Option.map Frame.ptr fs.head? with
        | none => rfl
        | some pp =>
          dsimp only
          rw [bind_assoc]
          refine congrFun (congrArg (onNodes (M.read fun s => Slab.getUnchecked s pp) >>= ·)
            (funext fun x => ?_)) { m with nodes := s1 }
          by_cases hx : x.left = some p
          · rw [if_pos hx, if_pos hx]
          · rw [if_neg hx, if_neg hx]
      · rw [M.bind_ok (onNodes_ok e3)]; rfl
    · rw [← hp2]
      have hjm : ∀ x, x ∈ (join l r).ptrs ↔ x ∈ l.ptrs ∨ x ∈ r.ptrs := fun x => by
        rw [(join_ptrs l r).mem_iff, List.mem_append]
      have hplug := plug_ptrs fs (join l r)
      refine ⟨hRm.inv, hroot2, ?_, ?_, fun x => ?_⟩
      · have hsv : s3.view = upd m2.nodes.view p none := hRm.view
        refine rep_plug.2 ⟨hctx2.congr fun y hy => ?_, hR1.congr fun y hy => ?_⟩
        · show s3.view y = _
          rw [hsv, upd_ne]; rintro rfl; exact hpctx hy
        · show s3.view y = _
          have hy' := (hjm y).1 hy
          have y1 : y ≠ p := by
            rintro rfl
            rcases hy' with hy' | hy'
            · exact hpnot.1 hy'
            · exact hpnot.2 hy'
          rw [hsv, upd_ne _ _ y1]
          refine hF2 y fun hm => hn3 y hm y ?_ rfl
          simp only [Tree.ptrs, List.mem_cons, List.mem_append]
          exact Or.inr hy'
      · rw [hplug.nodup_iff, List.nodup_append]
        refine ⟨hn1, ?_, fun a ha b hb => hn3 a ha b ?_⟩
        · rw [(join_ptrs l r).nodup_iff]
          exact (List.nodup_cons.1 hn2).2
        · simp only [Tree.ptrs, List.mem_cons, List.mem_append]
          exact Or.inr ((hjm b).1 hb)
      · show (s3.view x).isSome ↔ _
        rw [hplug.mem_iff, List.mem_append, hjm, hRm.view]
        by_cases hx : x = p
        · subst hx
          simp [hpctx, hpnot]
        · rw [upd_ne _ _ hx, hS.dom, h.live, ← hp1, hperm.mem_iff]
          simp [Tree.ptrs, hx]

end BSTMap
end BST
