import Verif.Proofs.Places
import Verif.Proofs.Content
/-!
# Where `clone` puts the entries
-/
set_option linter.unusedSimpArgs false
namespace BST
open BSTMap Tree
open Spec (BT Order slot replay)
variable {K V : Type} {cfg : Cfg}

theorem Laid.clone_loop {cmps : Nat → K → Probe K} (cloneK : K → Option K) (cloneV : V → Option V)
    (m : BSTMap K V) (fuel : Nat) : ∀ (ts : List (Tree K V)) (i : Nat) (mb m' : BSTMap K V) (u : Tree K V)
    (ks : List K), (∀ t ∈ ts, t.Rep m.nodes.view) → forestSize ts < fuel → Laid cfg mb u ks →
    loop fuel (cloneBody cfg cmps cloneK cloneV m) (i, ts.filterMap nodeOpt) mb = (.ok (), m') →
    ∃ w ks' l', Laid cfg m' w (ks ++ ks') ∧ cloneList cloneK cloneV (forestPre ts) = some l' ∧
      List.Sublist ks' (l'.map (·.1)) := by
  induction fuel with
  | zero => intro ts i mb m' u ks _ h; omega
  | succ fuel ih =>
    intro ts i mb m' u ks hrep hsz hs he
    rcases forest_head ts with ⟨h1, h2⟩ | ⟨p, l, k, v, r, ts', h1, h2, h3, h4, h5⟩
    · rw [loopM_inr (a := ()) (s' := mb) (by rw [h1]; rfl)] at he
      cases he
      exact ⟨u, [], [], by simpa using hs, by rw [h2]; rfl, .slnil⟩
    · have hn := hrep _ h3
      rw [h1] at he
      cases hk : cloneK k with
      | none =>
        rw [loopM_panic (s' := mb) (by simp [cloneBody, Node.key, hk])] at he
        cases he
      | some k' =>
        cases hv : cloneV v with
        | none =>
          rw [loopM_panic (s' := mb) (by simp [cloneBody, Node.key, Node.value, hk, hv])] at he
          cases he
        | some v' =>
          have hbody : cloneBody cfg cmps cloneK cloneV m
              (i, (⟨p, ⟨k, v, l.root, r.root⟩⟩ : Node K V) :: ts'.filterMap nodeOpt) = (do
              let _ ← BSTMap.insert cfg (cmps i k') k' v'
              let rn ← M.lift (Node.right m.nodes ⟨p, ⟨k, v, l.root, r.root⟩⟩)
              let ln ← M.lift (Node.left m.nodes ⟨p, ⟨k, v, l.root, r.root⟩⟩)
              pure (.inl (i + 1, ln.toList ++ rn.toList ++ ts'.filterMap nodeOpt))) := by
            simp [cloneBody, Node.key, Node.value, hk, hv]
          rcases insert_cases hs.shape (cmps i k') k' v' with ⟨e, pn, m1, hf, hi, hs1, hd, hc, _⟩ | ⟨o, hi, ho⟩
          · obtain ⟨t1, hl1⟩ := hs.insert hi
            rw [loopM_inl (b' := (i + 1, (l :: r :: ts').filterMap nodeOpt)) (s' := m1)] at he
            · obtain ⟨w, ks', l', g1, g2, g3⟩ :=
                ih (l :: r :: ts') (i + 1) m1 m' _ _ (by
                  intro t ht
                  rcases List.mem_cons.1 ht with rfl | ht
                  · exact hn.2.1
                  rcases List.mem_cons.1 ht with rfl | ht
                  · exact hn.2.2
                  · exact hrep _ (h4 _ ht)) (by omega) hl1 he
              refine ⟨w, newKey k' (.ok (e.map (·.2.2))) ++ ks', (k', v') :: l', by simpa using g1,
                by rw [h2]; exact cloneList_cons hk hv g2, ?_⟩
              cases e with
              | none => exact g3.cons_cons _
              | some e => exact g3.cons _
            · rw [hbody, M.bind_ok hi]
              have hr : Node.right m.nodes ⟨p, ⟨k, v, l.root, r.root⟩⟩ = .ok r.nodeOpt :=
                Node.newOpt_ok hn.2.2
              have hl : Node.left m.nodes ⟨p, ⟨k, v, l.root, r.root⟩⟩ = .ok l.nodeOpt :=
                Node.newOpt_ok hn.2.1
              rw [hr, hl, M.lift_ok_bind, M.lift_ok_bind, M.pure_apply]
              cases l <;> cases r <;> rfl
          · rcases ho with ⟨rfl, hf⟩ | ⟨rfl | rfl, hf, hfull⟩
            · rw [loopM_panic (by rw [hbody]; exact M.bind_panic hi)] at he; cases he
            · rw [loopM_panic (by rw [hbody]; exact M.bind_panic hi)] at he; cases he
            · rw [loopM_abort (by rw [hbody]; exact M.bind_abort hi)] at he; cases he

theorem clone_laid {cmps : Nat → K → Probe K} {cloneK : K → Option K} {cloneV : V → Option V}
    {m m' : BSTMap K V} {t : Tree K V} (h : Shape cfg m t)
    (he : clone cfg cmps cloneK cloneV m = (.ok (), m')) :
    ∃ w ks l', Laid cfg m' w ks ∧ cloneList cloneK cloneV (t.pre.map (·.2)) = some l' ∧
      List.Sublist ks (l'.map (·.1)) := by
  unfold clone at he
  rw [h.len_ok, M.lift_ok_bind] at he
  cases hg : BSTMap.withCapacity (K := K) (V := V) cfg t.size with
  | mk o1 m1 =>
    have h1 := Laid.withCapacity hg
    have hg : onNodes (Slab.onItems (Arena.growTo cfg t.size)) (BSTMap.new : BSTMap K V) = (o1, m1) := hg
    cases o1 with
    | ok _ =>
      rw [M.bind_ok hg, rootNode_ok h.root h.rep, M.lift_ok_bind] at he
      have e : ([t].filterMap nodeOpt) = t.nodeOpt.toList := by cases t <;> rfl
      rw [← e] at he
      obtain ⟨w, ks, l', g1, g2, g3⟩ := Laid.clone_loop cloneK cloneV m _ [t] 0 m1 m' _ _
        (by simpa using h.rep) (by simpa [forestSize] using h.size_lt) h1 he
      exact ⟨w, ks, l', by simpa using g1, by simpa [forestPre] using g2, g3⟩
    | panic => cases (M.bind_panic hg).symm.trans he
    | abort => cases (M.bind_abort hg).symm.trans he
    | ub => cases (M.bind_ub' hg).symm.trans he
    | diverge => cases (M.bind_diverge' hg).symm.trans he

/-- The clone has its entries in pre-order in memory. -/
theorem clone_places {cmp : K → K → Ordering} [Std.TransCmp cmp]
    {cmps : Nat → K → Probe K} (hok : ∀ n k, Lawful cmp k (cmps n k)) {cloneK : K → Option K}
    {cloneV : V → Option V}
    (hcl : ∀ a b a' b', cloneK a = some a' → cloneK b = some b' → cmp a b = .lt → cmp a' b' = .lt)
    {m m' : BSTMap K V} {t : Tree K V} (h : Shape cfg m t) (hs : t.SortedBy cmp)
    (he : clone cfg cmps cloneK cloneV m = (.ok (), m')) :
    ∃ w, Shape cfg m' w ∧ ∀ i e, w.pre[i]? = some e →
      slot m'.nodes.items.blocks i = some e.1 := by
  obtain ⟨w, hw, hws, hb⟩ := clone_shape hok hcl h hs he
  obtain ⟨w', ks, l', hl, hl', hsub⟩ := clone_laid h he
  have hbt : w'.bt = w.bt := by
    have := (exploreAt_ok hl.shape).symm.trans (exploreAt_ok hw)
    injection this
  have hino : w'.ino = w.ino := by rw [← bt_ino, ← bt_ino, hbt]
  have hl'' : l' = w.pre.map (·.2) := by
    have h1 := hl'
    rw [← bt_pre, ← BT.map_pre] at h1
    obtain ⟨b, hb', hpre⟩ := bt_mapM_pre (clonePair cloneK cloneV) _ h1
    rw [hb] at hb'
    rw [← hpre, ← Option.some.inj hb', BT.map_pre, bt_pre]
  have hlen : ks.length = (l'.map (·.1)).length := by
    have e1 := hl.shape.len_eq
    rw [hl.free, hl.len] at e1
    have e2 : w'.ino.length = w'.size := by
      have := (ino_ptrs_perm w').length_eq
      rw [List.length_map, ptrs_length] at this
      exact this
    rw [hl'', List.length_map, List.length_map, (w.pre_perm).length_eq, ← hino, e2]
    omega
  have hks : ks = l'.map (·.1) := hsub.eq_of_length hlen
  refine ⟨w, hw, fun i e hi => ?_⟩
  have hk : ks[i]? = some e.2.1 := by
    rw [hks, hl'', List.getElem?_map, List.getElem?_map, hi]; rfl
  obtain ⟨p, v, g1, g2⟩ := hl.at_ i _ hk
  rw [hino] at g2
  have hmem : e ∈ w.ino := (w.pre_perm).mem_iff.1 (List.mem_of_getElem? hi)
  rw [g1]
  by_cases hee : (p, e.2.1, v) = e
  · rw [← hee]
  · exfalso
    have hirr : ∀ a : K, cmp a a ≠ .lt := fun a ha => by
      have := Std.ReflCmp.compare_self (cmp := cmp) (a := a)
      rw [this] at ha; cases ha
    have hpw : (w.ino.map (·.2)).Pairwise fun x y => cmp x.1 y.1 = .lt := hws
    rw [List.pairwise_map] at hpw
    obtain ⟨i1, h1, e1⟩ := List.getElem_of_mem g2
    obtain ⟨i2, h2, e2⟩ := List.getElem_of_mem hmem
    have hrel := List.pairwise_iff_getElem.1 hpw
    rcases Nat.lt_trichotomy i1 i2 with hlt | rfl | hlt
    · have := hrel i1 i2 h1 h2 hlt
      rw [e1, e2] at this
      exact hirr _ this
    · exact hee (e1.symm.trans e2)
    · have := hrel i2 i1 h2 h1 hlt
      rw [e1, e2] at this
      exact hirr _ this

end BST
