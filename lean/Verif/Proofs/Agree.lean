import Verif.Proofs.Demand
/-!
# `BSTMap` and `SimpleBSTMap` answer alike
-/
set_option linter.unusedSimpArgs false
namespace BST
open BSTMap Tree
open Spec (BT Order)
open Simple (Link semIns semSrc sem)
variable {K V : Type} {cfg : Cfg}

theorem link_of_sh {t : Tree K V} {b : Link K V} (h : t.sh = b.view) : t.link = b := by
  rw [← Link.ofView_view t.link, Tree.link_view, h, Link.ofView_view]

theorem bt_mapM_none {α β : Type} {f : α → Option β} {b : BT α} {x : α} (hx : x ∈ b.pre)
    (hf : f x = none) : b.mapM f = none := by
  induction b with
  | nil => cases hx
  | node l y r ihl ihr =>
    simp only [BT.pre, List.mem_cons, List.mem_append] at hx
    rcases hx with rfl | hx | hx
    · cases hl : l.mapM f <;> simp [BT.mapM, hf, hl]
    · simp [BT.mapM, ihl hx]
    · cases hl : l.mapM f <;> cases hy : f y <;> simp [BT.mapM, ihr hx, hl, hy]

theorem Tree.sh_pre (t : Tree K V) : t.sh.pre = t.pre.map (·.2) := by
  unfold Tree.sh
  rw [Spec.BT.map_pre, bt_pre]

/-- If there is room, a call on a `BSTMap` does exactly what the same call does on a
`SimpleBSTMap`. -/
theorem twin_exact {D : Nat} (hR : Roomy cfg D) {cmp : K → K → Ordering} [Std.TransCmp cmp]
    {m : BSTMap K V} {t : Tree K V} (h : Shape cfg m t) (hs : t.SortedBy cmp) {op : SimpleOp K V}
    (hsh : op.Shared) (hop : op.Lawful cmp) (hD : slots m + (op.twin cmp).demand ≤ D) :
    ∃ o m' t', (op.twin cmp).run cfg m = (o, m') ∧ Shape cfg m' t' ∧
      slots m' ≤ slots m + (op.twin cmp).demand ∧ (o, t'.link) = sem op t.link := by
  have hcalm : (op.twin cmp).Calm := by
    cases op <;> first | exact fun _ => rfl | trivial
  obtain ⟨o, m', t0, hrun, _, hslots, hout⟩ := run_room hR h hcalm hD
  obtain ⟨o2, m2, t', hrun2, hshape, _, hans⟩ := run_tree h hs (op := op.twin cmp) hop
  cases hrun.symm.trans hrun2
  refine ⟨o, m', t', hrun, hshape, hslots, ?_⟩
  have same : t'.sh = t.sh → t'.link = t.link := fun hh => link_of_sh (by rw [hh, Tree.link_view])
  have uniq : ∀ {w : Tree K V}, Shape cfg m' w → t'.link = w.link := by
    intro w hw
    have : t'.sh = w.sh := Out.ok.inj ((explore_ok hshape).symm.trans (explore_ok hw))
    exact link_of_sh (by rw [this, Tree.link_view])
  cases op with
  | iterMut o n => exact hsh.elim
  | debug dk dv => exact hsh.elim
  | collect cmps src =>
    simp only [SimpleOp.twin, Op.demand] at hD
    obtain ⟨o1, m1, t1, h1, h2, h3, h4⟩ := fromIter_exact hR cmps src (by omega)
    have h5 := (Simple.semSrc_cases h4.symm).1
    simp only [sem]
    rw [← h4]
    obtain ⟨m3, h6, h7⟩ := assign_spec (f := fun _ => fromIter cfg cmps src) (m := m) h1
      (by rcases h5 with rfl | ⟨rfl, _⟩ <;> trivial)
    have h8 : (SimpleOp.twin cmp (.collect cmps src)).run cfg m = _ := M.map_eq h6
    rcases h5 with rfl | ⟨rfl, _⟩
    · rcases h7 with ⟨_, rfl⟩ | ⟨hh | hh, _⟩
      · cases hrun.symm.trans h8
        rw [uniq h2]
        rfl
      · cases hh
      · cases hh
    · rcases h7 with ⟨hh, _⟩ | ⟨_, rfl⟩
      · cases hh
      · cases hrun.symm.trans h8
        rw [uniq h]
        rfl
  | cloned cloneK cloneV =>
    have hb : t'.sh = t.sh := by rcases hans with ⟨_, hh⟩ | ⟨_, hh⟩ <;> exact hh
    rw [same hb]
    simp only [sem]
    obtain ⟨o1, m1, h1, h2, h3⟩ := clone_exact hR (fun _ k => query (cmp k)) cloneK cloneV h
      (by omega)
    obtain ⟨o1', m1', w, l, h1', _, _, _, _, hl⟩ := clone_spec (cfg := cfg) (ok := Anything)
      (cmps := fun _ k => query (cmp k)) (fun _ _ => trivial) cloneK cloneV h
    cases h1.symm.trans h1'
    obtain ⟨m3, h6, h7⟩ := assign_spec h1 (by rcases h3 with rfl | ⟨rfl, _⟩ <;> trivial)
    have h8 : (SimpleOp.twin cmp (.cloned cloneK cloneV)).run cfg m = _ := M.map_eq h6
    cases hrun.symm.trans h8
    rcases h3 with rfl | ⟨rfl, h3⟩
    · have hl := hl rfl
      rw [← Tree.sh_pre] at hl
      obtain ⟨b, hb, _⟩ := bt_mapM_pre (clonePair cloneK cloneV) _ hl
      rw [Tree.link_view, hb, Simple.mapM_clone hop.2.1 hop.2.2 hb]
      show (_, _) = (_, _)
      rw [← Tree.link_view, Link.ofView_view]
      rfl
    · have : t.link.view.mapM (clonePair cloneK cloneV) = none := by
        rw [Tree.link_view]
        rcases h3 with ⟨e, he, hh⟩ | ⟨n, k, i, x, hq⟩
        · refine bt_mapM_none (x := e.2) (by rw [Tree.sh_pre]; exact List.mem_map_of_mem he) ?_
          unfold clonePair
          rcases hh with hh | hh
          · rw [hh]; rfl
          · rw [hh]; cases cloneK e.2.1 <;> rfl
        · cases hq
      rw [this]
      rfl
  | insert c k v =>
    simp only [SimpleOp.twin, Op.demand] at hD
    obtain ⟨o1, m1, t1, h1, h2, h3, h4, h5⟩ := insert_exact hR h (by omega) c k v
    have h8 : (SimpleOp.twin cmp (.insert c k v)).run cfg m = _ := M.map_eq h1
    cases hrun.symm.trans h8
    rw [uniq h2, h4, h5, Out.map_map]
    rfl
  | remove c =>
    rcases remove_cases h c with ⟨e, m1, hf, h1, h2, h3⟩ | ⟨hf, h1⟩
    · have h8 : (SimpleOp.twin cmp (.remove c)).run cfg m = _ := M.map_eq h1
      cases hrun.symm.trans h8
      rw [uniq h2]
      simp only [sem]
      rw [Tree.link_find, hf, Tree.link_del]
      cases e <;> rfl
    · have h8 : (SimpleOp.twin cmp (.remove c)).run cfg m = _ := M.map_eq h1
      cases hrun.symm.trans h8
      have hf' : t.link.find c 0 = .panic := by rw [Tree.link_find, hf]; rfl
      rw [uniq h]
      simp only [sem]
      rw [hf', Link.del_panic hf']
      rfl
  | removeEntry c =>
    rcases removeEntry_cases h c with ⟨e, m1, hf, h1, h2⟩ | ⟨hf, h1⟩
    · have h8 : (SimpleOp.twin cmp (.removeEntry c)).run cfg m = _ := M.map_eq h1
      cases hrun.symm.trans h8
      rw [uniq h2]
      simp only [sem]
      rw [Tree.link_find, hf, Tree.link_del]
      cases e <;> rfl
    · have h8 : (SimpleOp.twin cmp (.removeEntry c)).run cfg m = _ := M.map_eq h1
      cases hrun.symm.trans h8
      have hf' : t.link.find c 0 = .panic := by rw [Tree.link_find, hf]; rfl
      rw [uniq h]
      simp only [sem]
      rw [hf', Link.del_panic hf']; try rfl
  | get c =>
    have h8 : (SimpleOp.twin cmp (.get c)).run cfg m = _ :=
      M.map_eq (f := M.read (BSTMap.get c)) rfl
    cases hrun.symm.trans h8
    rw [uniq h, get_spec h]
    simp only [sem]
    rw [Tree.link_find]
    rcases t.find_ok_or_panic c 0 with hf | ⟨e, hf⟩
    · rw [hf]; rfl
    · rw [hf]; cases e <;> rfl
  | getEntry c =>
    have h8 : (SimpleOp.twin cmp (.getEntry c)).run cfg m = _ :=
      M.map_eq (f := M.read (BSTMap.getEntry c)) rfl
    cases hrun.symm.trans h8
    rw [uniq h, getEntry_spec h]
    simp only [sem]
    rw [Tree.link_find]
    rcases t.find_ok_or_panic c 0 with hf | ⟨e, hf⟩
    · rw [hf]; rfl
    · rw [hf]; cases e <;> rfl
  | containsKey c =>
    have h8 : (SimpleOp.twin cmp (.containsKey c)).run cfg m = _ :=
      M.map_eq (f := M.read (BSTMap.containsKey c)) rfl
    cases hrun.symm.trans h8
    rw [uniq h, containsKey_spec h]
    simp only [sem]
    rw [Tree.link_find]
    rcases t.find_ok_or_panic c 0 with hf | ⟨e, hf⟩
    · rw [hf]; rfl
    · rw [hf]; cases e <;> rfl
  | getMut c w =>
    have hg := getMut_spec h c
    simp only [sem]
    rw [Tree.link_find]
    rcases t.find_ok_or_panic c 0 with hf | ⟨e, hf⟩
    · rw [hf] at hg
      have h8 : (SimpleOp.twin cmp (.getMut c w)).run cfg m = _ := M.bind_panic hg
      cases hrun.symm.trans h8
      rw [uniq h, hf]
      rfl
    · rw [hf] at hg
      cases e with
      | none =>
        have h8 : (SimpleOp.twin cmp (.getMut c w)).run cfg m = _ := M.bind_ok hg
        cases hrun.symm.trans h8
        rw [uniq h, hf]
        rfl
      | some e =>
        obtain ⟨m1, h1, h2⟩ := swapValue_spec h (Tree.find_mem hf) w
        have h8 : (SimpleOp.twin cmp (.getMut c w)).run cfg m = _ :=
          (M.bind_ok hg).trans (M.map_eq h1)
        cases hrun.symm.trans h8
        rw [uniq h2, ← Link.setAt_tree h.nodup hf w, hf]
        rfl
  | node path =>
    obtain ⟨rfl, hb⟩ := hans
    rw [same hb]
    simp only [sem]
    rw [Tree.link_view]
  | nodeMut path w =>
    obtain ⟨rfl, hb⟩ := hans
    have : t'.link = t.link.setAt w path :=
      link_of_sh (by rw [hb, Link.setAt_view, Tree.link_view])
    rw [this]
    simp only [sem]
    rw [Tree.link_view]
  | iter o n =>
    obtain ⟨hb, rfl⟩ := hans
    rw [same hb]
    simp only [sem]
    rw [Tree.link_view]
  | len =>
    obtain ⟨rfl, hb⟩ := hans
    rw [same hb]
    simp only [sem]
    rw [← Simple.view_size', Tree.link_view]
  | isEmpty =>
    obtain ⟨rfl, hb⟩ := hans
    rw [same hb]
    simp only [sem]
    rw [← Simple.view_size', Tree.link_view]
  | clear =>
    obtain ⟨rfl, hb⟩ := hans
    have : t'.link = .nil := link_of_sh hb
    rw [this]
    rfl
  | extend cmps src =>
    simp only [SimpleOp.twin, Op.demand] at hD
    obtain ⟨o1, m1, t1, h1, h2, h3, h4⟩ := extend_exact hR cmps src h hD
    have h8 : (SimpleOp.twin cmp (.extend cmps src)).run cfg m = _ := M.map_eq h1
    cases hrun.symm.trans h8
    rw [uniq h2]
    simp only [sem]
    rw [← h4]

end BST
