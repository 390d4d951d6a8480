import Verif.Proofs.History
/-!
# The answers of every call
-/
set_option linter.unusedSimpArgs false
namespace BST
open BSTMap Tree
open Spec (BT Order)
variable {K V : Type}

theorem find_panics {c : Probe K} {t : Tree K V} {i : Nat} (h : t.find c i = .panic) : Panics c := by
  induction t generalizing i with
  | leaf => cases h
  | node p l k v r ihl ihr =>
    simp only [find] at h
    cases hc : c i k with
    | none => exact ⟨i, k, hc⟩
    | some o =>
      rw [hc] at h
      cases o with
      | lt => exact ihl h
      | gt => exact ihr h
      | eq => cases h

theorem Tree.sh_ino (t : Tree K V) : t.sh.ino = t.kv := bt_kv t

theorem Tree.sh_order (o : Order) (t : Tree K V) : t.sh.order o = (t.order o).map (·.2) := by
  rw [sh, Spec.BT.map_order, bt_order]

theorem Tree.sh_size (t : Tree K V) : t.sh.size = t.size := by
  rw [sh, Spec.BT.map_size, bt_size]

theorem Tree.sh_sub (path : List Bool) (t : Tree K V) : (t.sub path).sh = t.sh.sub path := by
  rw [sh, bt_sub, sh, Spec.BT.map_sub]

section
variable {cmp : K → K → Ordering} {t : Tree K V} {c : Probe K} {f : K → Ordering}
  {e : Option (Ptr × K × V)}

theorem find_lookup (hs : t.SortedBy cmp) (hf : Spec.LawfulQuery cmp f) (hc : Asks f c)
    (he : t.find c 0 = .ok e) : Spec.lookup (Spec.hitOf f) t.sh.ino = e.map (·.2) := by
  obtain ⟨e', h1, h2⟩ := find_kv hf 0 hs
  rw [(find_eq_of_ok hc he).1] at h1
  cases h1
  rw [sh_ino, h2]

theorem setV_sh (hn : t.ptrs.Nodup) (hs : t.SortedBy cmp) (hf : Spec.LawfulQuery cmp f)
    (hc : Asks f c) {x : Ptr × K × V} (he : t.find c 0 = .ok (some x)) (w : V) :
    (t.setV x.1 w).sh = t.sh.map fun e => if Spec.hitOf f e.1 then (e.1, w) else e := by
  have hk := find_hit hc he
  have h1 := (find_eq_of_ok hc he).1
  have key := only_hit (v1 := x.2.2) (k1 := x.2.1) (q := x.1) hn hs hf h1 hk
  rw [sh, bt_setV_hit w key, sh, Spec.BT.map_map, Spec.BT.map_map]
  congr 1
  funext e
  by_cases h : f e.2.1 = .eq
  · simp [h, Spec.hitOf]
  · simp [h, Spec.hitOf]

theorem setHit_miss (hs : t.SortedBy cmp) (hf : Spec.LawfulQuery cmp f) (hc : Asks f c)
    (he : t.find c 0 = .ok none) (w : V) :
    (t.sh.map fun e => if Spec.hitOf f e.1 then (e.1, w) else e) = t.sh := by
  have h := find_lookup hs hf hc he
  rw [sh_ino] at h
  replace h := lookup_none_iff.1 h
  clear he hs
  induction t with
  | leaf => rfl
  | node p l k v r ihl ihr =>
    rw [kv_node] at h
    have h1 := h (k, v) (by simp)
    simp only [sh_node, BT.map, Spec.hitOf]
    have ihl := ihl fun e he => h e (by simp [he])
    have ihr := ihr fun e he => h e (by simp [he])
    simp only [Spec.hitOf] at ihl ihr
    rw [ihl, ihr]
    simp [h1]
end

theorem setV_sorted' {cmp : K → K → Ordering} {t : Tree K V} (hs : t.SortedBy cmp) (q : Ptr) (w : V) :
    (t.setV q w).SortedBy cmp := setV_sorted hs q w _ (by rw [setV_ino]; rfl)

theorem setPath_sh {path : List Bool} {t : Tree K V} (hn : t.ptrs.Nodup) {p : Ptr} {l : Tree K V}
    {k : K} {v : V} {r : Tree K V} (h : t.sub path = .node p l k v r) (w : V) :
    (t.setV p w).sh = t.sh.setPath w path := by
  induction path generalizing t with
  | nil =>
    cases h
    have h1 : p ∉ l.ptrs ∧ p ∉ r.ptrs := by
      simp only [ptrs, List.nodup_cons, List.mem_append, not_or] at hn
      exact hn.1
    simp [setV, setV_not_mem h1.1, setV_not_mem h1.2, BT.setPath]
  | cons b path ih =>
    cases t with
    | leaf => cases b <;> cases h
    | node q l' k' v' r' =>
      simp only [ptrs, List.nodup_cons, List.mem_append, not_or, List.nodup_append] at hn
      obtain ⟨⟨hq1, hq2⟩, hn1, hn2, hd⟩ := hn
      cases b with
      | false =>
        have h : l'.sub path = .node p l k v r := h
        have hp : p ∈ l'.ptrs := sub_ptrs path l' p (by rw [h]; simp [ptrs])
        have hqp : q ≠ p := fun e => hq1 (e ▸ hp)
        have hr : p ∉ r'.ptrs := fun hr => hd p hp p hr rfl
        simp [setV, hqp, setV_not_mem hr, BT.setPath, ih hn1 h]
      | true =>
        have h : r'.sub path = .node p l k v r := h
        have hp : p ∈ r'.ptrs := sub_ptrs path r' p (by rw [h]; simp [ptrs])
        have hqp : q ≠ p := fun e => hq2 (e ▸ hp)
        have hr : p ∉ l'.ptrs := fun hr => hd p hr p hp rfl
        simp [setV, hqp, setV_not_mem hr, BT.setPath, ih hn2 h]

theorem setPath_leaf {path : List Bool} {b : BT (K × V)} (h : b.sub path = .nil) (w : V) :
    b.setPath w path = b := by
  induction path generalizing b with
  | nil => cases h; rfl
  | cons d path ih =>
    cases b with
    | nil => rfl
    | node l e r => cases d <;> simp only [BT.setPath] <;> rw [ih h]

/-! ### Writes through a mutable iterator -/

theorem wr_list {L : List (Ptr × K × V)} (hn : (L.map (·.1)).Nodup) (w : Nat × V) :
    (L.map fun e => if (L.map (·.1))[w.1]? = some e.1 then (e.1, e.2.1, w.2) else e).map (·.2) =
      Spec.setAt (L.map (·.2)) w := by
  unfold Spec.setAt
  apply List.ext_getElem
  · simp
  · intro i h1 h2
    simp only [List.getElem_map, List.getElem_modify]
    have hi : i < L.length := by simpa using h1
    by_cases h : w.1 = i
    · subst h
      simp [hi]
    · rw [if_neg h]
      by_cases hw : w.1 < L.length
      · rw [if_neg]
        intro he
        simp only [List.getElem?_map, List.getElem?_eq_getElem hw, Option.map_some, Option.some.injEq] at he
        have h3 := List.getElem_inj (xs := L.map (·.1)) (i := w.1) (j := i) (h₀ := by simpa using hw)
          (h₁ := by simpa using hi) hn
        simp only [List.getElem_map] at h3
        exact h (h3.1 he)
      · rw [if_neg]
        simp only [List.getElem?_map, List.getElem?_eq_none (by omega : L.length ≤ w.1)]
        simp

theorem writes_order (o : Order) (ws : List (Nat × V)) {b : BT (Ptr × K × V)}
    (hn : ((b.order o).map (·.1)).Nodup) :
    ((ws.foldl (wr ((b.order o).map (·.1))) b).order o).map (·.2) =
        ws.foldl Spec.setAt ((b.order o).map (·.2)) ∧
      (ws.foldl (wr ((b.order o).map (·.1))) b).map (·.2.1) = b.map (·.2.1) := by
  suffices H : ∀ (b' : BT (Ptr × K × V)), (b'.order o).map (·.1) = (b.order o).map (·.1) →
      b'.map (·.2.1) = b.map (·.2.1) →
      ((ws.foldl (wr ((b.order o).map (·.1))) b').order o).map (·.2) =
        ws.foldl Spec.setAt ((b'.order o).map (·.2)) ∧
      (ws.foldl (wr ((b.order o).map (·.1))) b').map (·.2.1) = b.map (·.2.1) from H b rfl rfl
  induction ws with
  | nil => intro b' _ hk; exact ⟨rfl, hk⟩
  | cons w ws ih =>
    intro b' hp hk
    have h1 : ((wr ((b.order o).map (·.1)) b' w).order o).map (·.1) = (b.order o).map (·.1) := by
      rw [← hp, wr, Spec.BT.map_order, List.map_map]
      apply List.map_congr_left
      intro e _
      simp only [Function.comp]
      split <;> rfl
    have h2 : (wr ((b.order o).map (·.1)) b' w).map (·.2.1) = b.map (·.2.1) := by
      rw [← hk, wr, Spec.BT.map_map]
      congr 1
      funext e
      split <;> rfl
    obtain ⟨h3, h4⟩ := ih _ h1 h2
    refine ⟨?_, h4⟩
    rw [List.foldl_cons, h3, List.foldl_cons]
    congr 1
    rw [← hp, wr, Spec.BT.map_order, wr_list (by rw [hp]; exact hn)]

theorem mapM_id_of {α : Type} {g : α → Option α} (hg : ∀ x y, g x = some y → y = x) {b b' : BT α}
    (h : b.mapM g = some b') : b' = b := by
  induction b generalizing b' with
  | nil => cases h; rfl
  | node l a r ihl ihr =>
    simp only [BT.mapM] at h
    cases ha : g a with
    | none => rw [ha] at h; cases h
    | some a' =>
      cases hl : l.mapM g with
      | none => rw [ha, hl] at h; cases h
      | some l' =>
        cases hr : r.mapM g with
        | none => rw [ha, hl, hr] at h; cases h
        | some r' =>
          rw [ha, hl, hr] at h
          cases h
          rw [hg _ _ ha, ihl hl, ihr hr]

theorem sorted_of_keys {cmp : K → K → Ordering} {t t' : Tree K V} (hs : t.SortedBy cmp)
    (h : t'.sh.map (·.1) = t.sh.map (·.1)) : t'.SortedBy cmp := by
  have h1 : t'.kv.map (·.1) = t.kv.map (·.1) := by
    rw [← sh_ino, ← sh_ino, ← Spec.BT.map_ino, ← Spec.BT.map_ino, h]
  have h2 : (t.kv.map (·.1)).Pairwise fun a b => cmp a b = .lt := List.pairwise_map.2 hs
  rw [← h1] at h2
  exact List.pairwise_map.1 h2

/-- Every call answers like a textbook search tree. -/
theorem run_tree {cfg : Cfg} {cmp : K → K → Ordering} [Std.TransCmp cmp] {m : BSTMap K V}
    {t : Tree K V} (h : Shape cfg m t) (hs : t.SortedBy cmp) {op : Op K V} (hop : op.Lawful cmp) :
    ∃ o m' t', op.run cfg m = (o, m') ∧ Shape cfg m' t' ∧ t'.SortedBy cmp ∧
      Spec.TreeAnswer cmp t.sh o t'.sh op := by
  have reb : ∀ {f : BSTMap K V → Out Unit × BSTMap K V} {o : Out Unit} {m1 : BSTMap K V}
      {w : Tree K V} {P : Tree K V → Prop}, f m = (o, m1) → o.Safe → Shape cfg m1 w →
      w.SortedBy cmp → (o = .ok () → P w) →
      ∃ o m' t', (do BSTMap.assign f; pure .unit : M (BSTMap K V) (Ret K V)) m = (o, m') ∧
        Shape cfg m' t' ∧ t'.SortedBy cmp ∧
        ((o = .ok .unit ∧ P t') ∨ (Spec.Failed o ∧ t' = t)) := by
    intro f o m1 w P he hsafe hw hws hP
    obtain ⟨m', h1, h2⟩ := assign_spec he hsafe
    rcases h2 with ⟨rfl, rfl⟩ | ⟨hh, rfl⟩
    · exact ⟨_, _, w, M.map_eq h1, hw, hws, .inl ⟨rfl, hP rfl⟩⟩
    · refine ⟨_, _, t, M.map_eq h1, h, hs, .inr ⟨?_, rfl⟩⟩
      rcases hh with rfl | rfl
      · exact .inl rfl
      · exact .inr rfl
  cases op with
  | withCapacity n =>
    obtain ⟨o, m1, h1, h2, h3⟩ := withCapacity_spec (K := K) (V := V) cfg n
    obtain ⟨o, m', t', h1, h2, h3, h4⟩ := reb (f := fun _ => withCapacity cfg n)
      (P := fun w => w = .leaf) h1 h3 h2 List.Pairwise.nil (fun _ => rfl)
    refine ⟨o, m', t', h1, h2, h3, ?_⟩
    rcases h4 with ⟨rfl, rfl⟩ | ⟨h4, rfl⟩
    · exact .inl ⟨rfl, rfl⟩
    · exact .inr ⟨h4, rfl⟩
  | collect cmps src =>
    obtain ⟨o, m1, w, l, h1, h2, hseq, _, h3, _, hl⟩ := fromIter_spec (cfg := cfg) (ok := Lawful cmp)
      (cmps := cmps) hop src
    obtain ⟨o, m', t', h1, h2, h3, h4⟩ := reb (f := fun _ => fromIter cfg cmps src)
      (P := fun w => w.sh = BT.insertList cmp src.items .nil ∧ src.panics = false)
      h1 h3 h2 (hseq.kv List.Pairwise.nil).2 (fun ho => by
        obtain ⟨rfl, hp⟩ := hl ho
        exact ⟨hseq.sh, hp⟩)
    refine ⟨o, m', t', h1, h2, h3, ?_⟩
    rcases h4 with ⟨rfl, h4⟩ | ⟨h4, rfl⟩
    · exact .inl ⟨rfl, h4⟩
    · exact .inr ⟨h4, rfl⟩
  | cloned cmps cloneK cloneV =>
    obtain ⟨hc1, hc2, hc3⟩ := hop
    obtain ⟨o, m1, w, l, h1, h2, hseq, _, h3, _⟩ := clone_spec (cfg := cfg) (ok := Lawful cmp)
      (cmps := cmps) hc1 cloneK cloneV h
    have hws := (hseq.kv (cmp := cmp) List.Pairwise.nil).2
    obtain ⟨o, m', t', h1, h2, h3, h4⟩ := reb (P := fun w => w.sh = t.sh) h1 h3 h2 hws (fun ho => by
        subst ho
        obtain ⟨w', h4, _, h5⟩ := clone_shape (cmp := cmp) hc1
          (fun a b a' b' ha hb hab => by rw [hc2 _ _ ha, hc2 _ _ hb]; exact hab) h hs h1
        have := mapM_id_of (fun x y hxy => by
          unfold clonePair at hxy
          cases hk : cloneK x.1 with
          | none => rw [hk] at hxy; cases hxy
          | some k' =>
            cases hv : cloneV x.2 with
            | none => rw [hk, hv] at hxy; cases hxy
            | some v' =>
              rw [hk, hv] at hxy
              cases hxy
              rw [hc2 _ _ hk, hc3 _ _ hv]) h5
        have e1 := (explore_ok h4).symm.trans (explore_ok h2)
        exact (Out.ok.inj e1).symm.trans this)
    refine ⟨o, m', t', h1, h2, h3, ?_⟩
    rcases h4 with ⟨rfl, h4⟩ | ⟨h4, rfl⟩
    · exact .inl ⟨rfl, h4⟩
    · exact .inr ⟨h4, rfl⟩
  | insert c k v =>
    have hl := lawful_cmp cmp k
    rcases insert_cases h c k v with ⟨e, p, m', he, h1, h2, _⟩ | ⟨o, h1, h2⟩
    · refine ⟨_, _, _, M.map_eq h1, h2, (closed_sorted cmp).ins p v hs hop he, .inl ⟨?_, ?_⟩⟩
      · rw [find_lookup hs hl hop he, Option.map_map]; rfl
      · exact ins_sh hop he p v
    · refine ⟨_, _, _, M.map_eq h1, h, hs, .inr ?_⟩
      rcases h2 with ⟨rfl, h2⟩ | ⟨h2, h3, _⟩
      · exact .inl ⟨rfl, rfl, find_panics h2⟩
      · refine .inr ⟨?_, rfl, find_lookup hs hl hop h3⟩
        rcases h2 with rfl | rfl
        · exact .inl rfl
        · exact .inr rfl
  | remove c =>
    rcases remove_cases h c with ⟨e, m', he, h1, h2, _⟩ | ⟨hp, h1⟩
    · refine ⟨_, _, _, M.map_eq h1, h2, del_sorted hs 0 he, fun f hf hc => .inl ⟨?_, del_sh hc he⟩⟩
      dsimp only; rw [find_lookup hs hf hc he, Option.map_map]; rfl
    · exact ⟨_, _, _, M.map_eq h1, h, hs, fun f hf hc => .inr ⟨rfl, rfl, find_panics hp⟩⟩
  | removeEntry c =>
    rcases removeEntry_cases h c with ⟨e, m', he, h1, h2⟩ | ⟨hp, h1⟩
    · refine ⟨_, _, _, M.map_eq h1, h2, del_sorted hs 0 he, fun f hf hc => .inl ⟨?_, del_sh hc he⟩⟩
      dsimp only; rw [find_lookup hs hf hc he]; rfl
    · exact ⟨_, _, _, M.map_eq h1, h, hs, fun f hf hc => .inr ⟨rfl, rfl, find_panics hp⟩⟩
  | get c =>
    refine ⟨_, _, _, M.map_eq (f := M.read (BSTMap.get c)) rfl, h, hs, fun f hf hc => ?_⟩
    rw [get_spec h]
    rcases t.find_ok_or_panic c 0 with hp | ⟨e, he⟩
    · rw [hp]; exact .inr ⟨rfl, rfl, find_panics hp⟩
    · dsimp only; rw [he, find_lookup hs hf hc he, Option.map_map]; exact .inl ⟨rfl, rfl⟩
  | getEntry c =>
    refine ⟨_, _, _, M.map_eq (f := M.read (BSTMap.getEntry c)) rfl, h, hs, fun f hf hc => ?_⟩
    rw [getEntry_spec h]
    rcases t.find_ok_or_panic c 0 with hp | ⟨e, he⟩
    · rw [hp]; exact .inr ⟨rfl, rfl, find_panics hp⟩
    · dsimp only; rw [he, find_lookup hs hf hc he]; exact .inl ⟨rfl, rfl⟩
  | containsKey c =>
    refine ⟨_, _, _, M.map_eq (f := M.read (BSTMap.containsKey c)) rfl, h, hs, fun f hf hc => ?_⟩
    rw [containsKey_spec h]
    rcases t.find_ok_or_panic c 0 with hp | ⟨e, he⟩
    · rw [hp]; exact .inr ⟨rfl, rfl, find_panics hp⟩
    · have := find_lookup hs hf hc he
      have h2 : t.sh.ino.any (fun e => Spec.hitOf f e.1) = e.isSome := by
        have h3 := congrArg Option.isSome this
        unfold Spec.lookup at h3
        rw [List.isSome_find?] at h3
        rw [h3]
        cases e <;> rfl
      dsimp only; rw [he, h2]; exact .inl ⟨rfl, rfl⟩
  | getMut c w =>
    have hg := getMut_spec h c
    rcases t.find_ok_or_panic c 0 with hf | ⟨e, he⟩
    · rw [hf] at hg
      exact ⟨_, _, _, M.bind_panic hg, h, hs, fun _ _ _ => .inr ⟨rfl, rfl, find_panics hf⟩⟩
    · rw [he] at hg
      cases e with
      | none =>
        refine ⟨.ok (.value none), _, _, M.bind_ok hg, h, hs, fun f hf hc => .inl ⟨?_, ?_⟩⟩
        · dsimp only; rw [find_lookup hs hf hc he]; rfl
        · dsimp only; rw [setHit_miss hs hf hc he]
      | some e =>
        obtain ⟨m', h1, h2⟩ := swapValue_spec h (Tree.find_mem he) w
        refine ⟨_, _, _, (M.bind_ok hg).trans (M.map_eq h1), h2, setV_sorted' hs _ _,
          fun f hf hc => .inl ⟨?_, setV_sh h.nodup hs hf hc he w⟩⟩
        dsimp only; rw [find_lookup hs hf hc he]; rfl
  | getEntryMut c w =>
    have hg := getEntryMut_spec h c
    rcases t.find_ok_or_panic c 0 with hf | ⟨e, he⟩
    · rw [hf] at hg
      exact ⟨_, _, _, M.bind_panic hg, h, hs, fun _ _ _ => .inr ⟨rfl, rfl, find_panics hf⟩⟩
    · rw [he] at hg
      cases e with
      | none =>
        refine ⟨.ok (.entry none), _, _, M.bind_ok hg, h, hs, fun f hf hc => .inl ⟨?_, ?_⟩⟩
        · dsimp only; rw [find_lookup hs hf hc he]; rfl
        · dsimp only; rw [setHit_miss hs hf hc he]
      | some e =>
        obtain ⟨m', h1, h2⟩ := swapValue_spec h (Tree.find_mem he) w
        refine ⟨_, _, _, (M.bind_ok hg).trans (M.map_eq h1), h2, setV_sorted' hs _ _,
          fun f hf hc => .inl ⟨?_, setV_sh h.nodup hs hf hc he w⟩⟩
        dsimp only; rw [find_lookup hs hf hc he]; rfl
  | node path =>
    refine ⟨_, _, _, M.map_eq (f := M.read (nodeAt path)) rfl, h, hs, ?_, rfl⟩
    rw [nodeAt_ok h, ← sh_sub]
    cases t.sub path with
    | leaf => rfl
    | node p l k v r => cases l <;> cases r <;> rfl
  | nodeMut path w =>
    have hn := nodeMutAt_ok h path
    have hr := h.rep.sub path
    have hsub := sh_sub path t
    cases hst : t.sub path with
    | leaf =>
      rw [hst] at hn hsub
      refine ⟨.ok (.entry none), m, t, M.bind_ok hn, h, hs, ?_, ?_⟩
      · rw [← hsub]; rfl
      · rw [setPath_leaf hsub.symm]
    | node p l k v r =>
      rw [hst] at hn hr hsub
      have hmem := Tree.mem_sub_ino path hst
      obtain ⟨m', h1, h2⟩ := swapValue_spec h hmem w
      refine ⟨.ok (.entry (some (k, v))), m', _, ?_, h2, setV_sorted' hs _ _, ?_,
        setPath_sh h.nodup hst w⟩
      · show (nodeMutAt path >>= _) m = _
        rw [M.bind_ok hn]
        show (onNodes (NodeMut.key ⟨p⟩) >>= _) m = _
        rw [M.bind_ok (onNodes_pure (key_ok hr)), M.bind_ok (onNodes_pure (valueMut_ok hr)),
          M.bind_ok h1]
        rfl
      · rw [← hsub]; rfl
  | iter o n =>
    obtain ⟨st, h1, _, h2⟩ := iter_new h o
    obtain ⟨st', h3, _⟩ := nexts_spec (next_spec o m t.height) n h2
    refine ⟨.ok (.items ((List.map (fun e : Ptr × K × V => some e.2) (order o t) ++
      List.replicate n none).take n)), m, t, ?_, h, hs, rfl, ?_⟩
    · show (M.read o.iter >>= _) m = _
      rw [M.read_bind, h1, M.lift_ok_bind, M.read_bind, h3, M.lift_ok_bind]
      rfl
    · rw [sh_order, List.map_map]; rfl
  | iterMut o steps =>
    obtain ⟨m', t', h1, h2, h3, _⟩ := clientMut_spec h o steps
    have hn : ((t.bt.order o).map (·.1)).Nodup := by rw [bt_order]; exact order_nodup o h.nodup
    obtain ⟨w1, w2⟩ := writes_order o (writes t.size 0 steps) hn
    have hk : t'.sh.map (·.1) = t.sh.map (·.1) := by
      rw [sh, sh, Spec.BT.map_map, Spec.BT.map_map, h3]
      rw [bt_order] at w2
      exact w2
    refine ⟨_, _, _, M.map_eq h1, h2, sorted_of_keys hs hk, ?_, hk, ?_⟩
    · rw [sh_size, sh_order, List.map_map, Out.map, List.map_take, List.map_map]; rfl
    · rw [sh_order, sh_order, ← bt_order, ← bt_order, sh_size, h3]
      rw [← w1, bt_order]
  | len =>
    refine ⟨_, _, _, M.map_eq (f := M.read (BSTMap.len cfg)) rfl, h, hs, ?_, rfl⟩
    rw [h.len_ok, sh_size]
    rfl
  | isEmpty =>
    refine ⟨_, _, _, M.map_eq (f := M.read (BSTMap.isEmpty cfg)) rfl, h, hs, ?_, rfl⟩
    rw [isEmpty_spec h, sh_size]
    rfl
  | capacity =>
    refine ⟨.ok (.nat m.capacity), m, t, rfl, h, hs, ⟨_, ?_, rfl⟩, rfl⟩
    rw [sh_size]; exact h.size_le
  | clear d =>
    obtain ⟨m', h1, h2, _⟩ := clear_spec h d hop
    exact ⟨_, _, _, M.map_eq h1, h2, List.Pairwise.nil, rfl, rfl⟩
  | reserve n =>
    obtain ⟨o, m', h1, h2, h3⟩ := reserve_kept h n
    refine ⟨_, _, _, M.map_eq h1, h2.shape, hs, ?_, rfl⟩
    cases o with
    | ok _ => exact .inl rfl
    | panic => exact .inr (.inl rfl)
    | abort => exact .inr (.inr rfl)
    | ub => exact h3.elim
    | diverge => exact h3.elim
  | shrinkToFit =>
    obtain ⟨m', h1, h2, _⟩ := shrinkToFit_spec h
    exact ⟨_, _, _, M.map_eq h1, h2.shape, hs, rfl, rfl⟩
  | extend cmps src =>
    obtain ⟨o, m1, w, l, h1, h2, hseq, _, h3, ⟨rest, hl⟩, h4⟩ := extend_spec (cfg := cfg)
      (ok := Lawful cmp) (cmps := cmps) hop src h
    refine ⟨_, _, _, M.map_eq h1, h2, (hseq.kv hs).2, l, rest, hl.symm, hseq.sh, ?_⟩
    cases o with
    | ok _ =>
      obtain ⟨h5, h6⟩ := h4 rfl
      refine .inl ⟨rfl, ?_, h6⟩
      rw [← h5] at hl
      exact List.self_eq_append_right.1 hl.symm
    | panic => exact .inr (.inl rfl)
    | abort => exact .inr (.inr rfl)
    | ub => exact h3.elim
    | diverge => exact h3.elim
  | debug dk dv =>
    refine ⟨_, _, _, M.map_eq (f := M.read (fun m : BSTMap K V => m.debug dk dv)) rfl, h, hs, ?_, rfl⟩
    show Out.map _ (m.debug dk dv) = _
    rw [debug_spec h]
    rfl

end BST
