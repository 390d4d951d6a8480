import Verif.Proofs.Account
/-!
# Every call keeps the books
-/
set_option linter.unusedSimpArgs false
namespace BST
open BSTMap Tree
open Spec (BT Order overwritten setAt)
variable {K V : Type} {cfg : Cfg}

theorem entriesIn_ok {m : BSTMap K V} {t : Tree K V} (h : Shape cfg m t) (o : Order) :
    entriesIn o m = (t.order o).map (·.2) := by
  unfold entriesIn
  rw [explore_ok h]
  simp only [BT.map_order, bt_order]

theorem kv_order (o : Order) (t : Tree K V) : ((t.order o).map (·.2)).Perm t.kv :=
  (order_perm o t).map _

theorem removeEntry_account {m : BSTMap K V} {t : Tree K V} (h : Shape cfg m t) (c : Probe K) :
    (∃ e m', t.find c 0 = .ok e ∧ removeEntry cfg c m = (.ok (e.map (·.2)), m') ∧
      Shape cfg m' (t.del c 0) ∧ m'.nodes.dropped = m.nodes.dropped) ∨
    (t.find c 0 = .panic ∧ removeEntry cfg c m = (.panic, m)) := by
  rcases removeEntry_spec h c with ⟨h1, h2⟩ | ⟨h1, h2⟩ | ⟨e, m', h1, h2, h3, h4, _⟩
  · exact Or.inr ⟨h1, h2⟩
  · exact Or.inl ⟨none, m, h1, h2, by rw [del_ino_miss h1]; exact h, rfl⟩
  · exact Or.inl ⟨some e, m', h1, h2, h3, h4⟩

theorem extendTrace_spec {cmps : Nat → K → Probe K} (src : Source K V) {m : BSTMap K V} {t : Tree K V}
    (h : Shape cfg m t) :
    ∃ o m' t', extend cfg cmps src m = (o, m') ∧ Shape cfg m' t' ∧ o.Safe ∧
      m'.nodes.dropped = m.nodes.dropped ∧
      ((extendTrace cfg cmps src m).map (·.1)) <+: src.items ∧
      (o = .ok () → (extendTrace cfg cmps src m).map (·.1) = src.items) ∧
      (∀ e ∈ t.ino, ∃ v, (e.1, e.2.1, v) ∈ t'.ino) ∧
      Balanced t t' ((extendTrace cfg cmps src m).map (·.1.2))
        ((extendTrace cfg cmps src m).filterMap (·.2))
        (((extendTrace cfg cmps src m).filter fun x => x.2.isNone).map (·.1.1)) [] [] := by
  obtain ⟨o, m1, h1, h2, h3⟩ := reserve_kept h (src.hint.2.getD src.hint.1)
  unfold extend extendTrace
  rw [h1]
  rcases h3.cases with rfl | rfl | rfl
  · obtain ⟨o, m', t', g1, g2, g3, g4, g5, g6, g7, g8⟩ :=
      insertTrace_spec (cmps := cmps) (l := src.items) (n := 0) h2.shape
    simp only
    rw [M.bind_ok h1]
    rcases g3.cases with rfl | rfl | rfl
    · rw [M.bind_ok g1]
      cases src.panics with
      | true => exact ⟨.panic, m', t', rfl, g2, trivial, g4.trans h2.dropped, g5, by simp, g7, g8⟩
      | false =>
        exact ⟨.ok (), m', t', rfl, g2, trivial, g4.trans h2.dropped, g5, fun _ => g6 rfl, g7, g8⟩
    · exact ⟨.panic, m', t', M.bind_panic g1, g2, trivial, g4.trans h2.dropped, g5, by simp, g7, g8⟩
    · exact ⟨.abort, m', t', M.bind_abort g1, g2, trivial, g4.trans h2.dropped, g5, by simp, g7, g8⟩
  · exact ⟨.panic, m1, t, M.bind_panic h1, h2.shape, trivial, h2.dropped, by simp, by simp,
      fun e he => ⟨e.2.2, he⟩, .same t⟩
  · exact ⟨.abort, m1, t, M.bind_abort h1, h2.shape, trivial, h2.dropped, by simp, by simp,
      fun e he => ⟨e.2.2, he⟩, .same t⟩

/-- The books of one call. -/
def Books (cfg : Cfg) (op : Op K V) (m : BSTMap K V) (t : Tree K V) (o : Out (Ret K V))
    (m' : BSTMap K V) (t' : Tree K V) : Prop :=
  ∃ gone, (m'.nodes.dropped = m.nodes.dropped ++ gone ∧ ((∀ d, op ≠ .clear d) → gone = [])) ∧
    Balanced t t' (op.valuesIn cfg m o) (op.valuesOut cfg m o) (op.keysIn cfg m o)
      (op.keysOut cfg m o) (gone.map fun x => (x.key, x.value))

theorem Books.quiet {op : Op K V} {m m' : BSTMap K V} {t : Tree K V} {o : Out (Ret K V)}
    (hd : m'.nodes.dropped = m.nodes.dropped) (h1 : op.valuesIn cfg m o = [])
    (h2 : op.valuesOut cfg m o = []) (h3 : op.keysIn cfg m o = []) (h4 : op.keysOut cfg m o = []) :
    Books cfg op m t o m' t :=
  ⟨[], by simp [hd], by rw [h1, h2, h3, h4]; exact .same t⟩

theorem swap_books {m : BSTMap K V} {t : Tree K V} (h : Shape cfg m t) {q : Ptr} {k : K} {v : V}
    (hq : (q, k, v) ∈ t.ino) (w : V) :
    ∃ m', onNodes (swapValue q w) m = (.ok v, m') ∧ Shape cfg m' (t.setV q w) ∧
      m'.nodes.dropped = m.nodes.dropped ∧ Balanced t (t.setV q w) [w] [v] [] [] [] := by
  obtain ⟨m', h1, h2⟩ := swapValue_spec h hq w
  exact ⟨m', h1, h2, (keeps_onNodes (keeps_swapValue q w)).eq h1, .setV h.nodup hq w⟩

/-- Every call keeps the books: nothing appears or disappears. -/
theorem run_books {m : BSTMap K V} {t : Tree K V} (h : Shape cfg m t) {op : Op K V}
    (hc : op.Calm) (hs : op.Stays) (hd : op.Drops) :
    ∃ o m' t', op.run cfg m = (o, m') ∧ o.Safe ∧ Shape cfg m' t' ∧ Books cfg op m t o m' t' := by
  cases op with
  | withCapacity n => cases hs
  | collect cmps src => cases hs
  | cloned cmps cloneK cloneV => cases hs
  | insert c k v =>
    rcases insert_cases h c k v with ⟨e, p, m', hf, h1, h2, h3, _⟩ | ⟨o, h1, h2⟩
    · refine ⟨_, _, _, M.map_eq h1, trivial, h2, [], by simp [h3], ?_⟩
      have := Balanced.ins p k v hf
      cases e <;> exact this
    · rcases h2 with ⟨rfl, _⟩ | ⟨rfl | rfl, _⟩
      all_goals exact ⟨_, _, _, M.map_eq h1, trivial, h, .quiet rfl rfl rfl rfl rfl⟩
  | remove c =>
    rcases removeEntry_account h c with ⟨e, m', hf, h1, h2, h3⟩ | ⟨_, h1⟩
    · have hr : remove cfg c m = (.ok (e.map (·.2.2)), m') := by
        unfold remove
        rw [M.bind_ok h1]
        cases e <;> rfl
      refine ⟨_, _, _, M.map_eq hr, trivial, h2, [], by simp [h3], ?_⟩
      have := Balanced.del hf
      simp only [Op.valuesIn, Op.valuesOut, Op.keysIn, Op.keysOut, h1, Out.map]
      cases e <;> exact this
    · have hr : remove cfg c m = (.panic, m) := M.bind_panic h1
      refine ⟨_, _, _, M.map_eq hr, trivial, h, .quiet rfl rfl rfl rfl ?_⟩
      simp only [Op.keysOut, h1]
  | removeEntry c =>
    rcases removeEntry_account h c with ⟨e, m', hf, h1, h2, h3⟩ | ⟨_, h1⟩
    · refine ⟨_, _, _, M.map_eq h1, trivial, h2, [], by simp [h3], ?_⟩
      have := Balanced.del hf
      cases e <;> exact this
    · exact ⟨_, _, _, M.map_eq h1, trivial, h, .quiet rfl rfl rfl rfl rfl⟩
  | get c =>
    refine ⟨_, _, _, M.map_eq (f := M.read (BSTMap.get c)) rfl, Out.Safe.map ?_ _, h,
      .quiet rfl rfl rfl rfl rfl⟩
    rw [get_spec h]
    exact Out.safe_find _ _ _
  | getEntry c =>
    refine ⟨_, _, _, M.map_eq (f := M.read (BSTMap.getEntry c)) rfl, Out.Safe.map ?_ _, h,
      .quiet rfl rfl rfl rfl rfl⟩
    rw [getEntry_spec h]
    exact Out.safe_find _ _ _
  | containsKey c =>
    refine ⟨_, _, _, M.map_eq (f := M.read (BSTMap.containsKey c)) rfl, Out.Safe.map ?_ _, h,
      .quiet rfl rfl rfl rfl rfl⟩
    rw [containsKey_spec h]
    exact Out.safe_find _ _ _
  | getMut c w =>
    have hg := getMut_spec h c
    rcases t.find_ok_or_panic c 0 with hf | ⟨e, hf⟩
    · rw [hf] at hg
      exact ⟨_, _, _, M.bind_panic hg, trivial, h, .quiet rfl rfl rfl rfl rfl⟩
    · rw [hf] at hg
      cases e with
      | none => exact ⟨_, _, _, M.bind_ok hg, trivial, h, .quiet rfl rfl rfl rfl rfl⟩
      | some e =>
        obtain ⟨m', h1, h2, h3, h4⟩ := swap_books h (Tree.find_mem hf) w
        exact ⟨_, _, _, (M.bind_ok hg).trans (M.map_eq h1), trivial, h2, [], by simp [h3], h4⟩
  | getEntryMut c w =>
    have hg := getEntryMut_spec h c
    rcases t.find_ok_or_panic c 0 with hf | ⟨e, hf⟩
    · rw [hf] at hg
      exact ⟨_, _, _, M.bind_panic hg, trivial, h, .quiet rfl rfl rfl rfl rfl⟩
    · rw [hf] at hg
      cases e with
      | none => exact ⟨_, _, _, M.bind_ok hg, trivial, h, .quiet rfl rfl rfl rfl rfl⟩
      | some e =>
        obtain ⟨m', h1, h2, h3, h4⟩ := swap_books h (Tree.find_mem hf) w
        exact ⟨_, _, _, (M.bind_ok hg).trans (M.map_eq h1), trivial, h2, [], by simp [h3], h4⟩
  | node path =>
    refine ⟨_, _, _, M.map_eq (f := M.read (nodeAt path)) rfl, Out.Safe.map ?_ _, h,
      .quiet rfl rfl rfl rfl rfl⟩
    rw [nodeAt_ok h]
    trivial
  | nodeMut path w =>
    have hn := nodeMutAt_ok h path
    have hr := h.rep.sub path
    cases hs : t.sub path with
    | leaf =>
      rw [hs] at hn
      exact ⟨.ok (.entry none), m, t, M.bind_ok hn, trivial, h, .quiet rfl rfl rfl rfl rfl⟩
    | node p l k v r =>
      rw [hs] at hn hr
      have hmem := Tree.mem_sub_ino path hs
      obtain ⟨m', h1, h2, h3, h4⟩ := swap_books h hmem w
      refine ⟨.ok (.entry (some (k, v))), m', _, ?_, trivial, h2, [], by simp [h3], h4⟩
      show (nodeMutAt path >>= _) m = _
      rw [M.bind_ok hn]
      show (onNodes (NodeMut.key ⟨p⟩) >>= _) m = _
      rw [M.bind_ok (onNodes_pure (key_ok hr)), M.bind_ok (onNodes_pure (valueMut_ok hr)),
        M.bind_ok h1]
      rfl
  | iter o n =>
    obtain ⟨st, h1, _, h2⟩ := iter_new h o
    obtain ⟨st', h3, _⟩ := nexts_spec (next_spec o m t.height) n h2
    refine ⟨.ok (.items ((List.map (fun e : Ptr × K × V => some e.2) (order o t) ++
      List.replicate n none).take n)), m, t, ?_, trivial, h, .quiet rfl rfl rfl rfl rfl⟩
    show (M.read o.iter >>= _) m = _
    rw [M.read_bind, h1, M.lift_ok_bind, M.read_bind, h3, M.lift_ok_bind]
    rfl
  | iterMut o steps =>
    obtain ⟨m', t', h1, h2, h3, _⟩ := clientMut_spec h o steps
    refine ⟨_, _, _, M.map_eq h1, trivial, h2, [],
      by simpa using (keeps_clientMut o steps).eq h1, ?_⟩
    have hlen : (entriesIn o m).length = t.size := by
      rw [entriesIn_ok h, List.length_map, order_length]
    have hw := writes_order o (writes t.size 0 steps) (b := t.bt)
      (by rw [bt_order]; exact order_nodup o h.nodup)
    rw [bt_order, ← h3, bt_order] at hw
    have hk : t'.bt.map (·.2.1) = t.bt.map (·.2.1) := hw.2
    have hp := overwritten_perm (writes t.size 0 steps) ((t.order o).map (·.2))
      (by rw [List.length_map, order_length]; exact writes_lt _ _ _ (Nat.zero_le _))
    rw [← hw.1] at hp
    constructor
    · simp only [Op.valuesIn, Op.valuesOut, Out.map, hlen]
      rw [entriesIn_ok h, List.map_nil, List.map_nil, List.append_nil]
      exact (List.Perm.append_left _ ((kv_order o t).symm.map _)).trans
        (hp.trans (List.Perm.append_left _ ((kv_order o t').map _)))
    · have hk2 : List.map (fun e : Ptr × K × V => e.2.1) (t'.order o) =
          List.map (fun e : Ptr × K × V => e.2.1) (t.order o) := by
        have := congrArg (BT.order o) hk
        rwa [BT.map_order, BT.map_order, bt_order, bt_order] at this
      show (List.map (fun e : K × V => e.1) t.kv).Perm
        (List.map (fun e : K × V => e.1) t'.kv ++ [])
      rw [List.append_nil]
      have a := (kv_order o t).map (fun e : K × V => e.1)
      have b := (kv_order o t').map (fun e : K × V => e.1)
      rw [List.map_map] at a b
      refine a.symm.trans (List.Perm.trans ?_ b)
      exact List.Perm.of_eq hk2.symm
  | len =>
    refine ⟨_, _, _, M.map_eq (f := M.read (BSTMap.len cfg)) rfl, Out.Safe.map ?_ _, h,
      .quiet rfl rfl rfl rfl rfl⟩
    rw [h.len_ok]
    trivial
  | isEmpty =>
    refine ⟨_, _, _, M.map_eq (f := M.read (BSTMap.isEmpty cfg)) rfl, Out.Safe.map ?_ _, h,
      .quiet rfl rfl rfl rfl rfl⟩
    rw [isEmpty_spec h]
    trivial
  | capacity => exact ⟨.ok (.nat m.capacity), m, t, rfl, trivial, h, .quiet rfl rfl rfl rfl rfl⟩
  | clear d =>
    obtain ⟨m', h1, h2, _, _, _, _, h3⟩ := clear_spec h d hc
    rw [hd.1, if_pos rfl] at h3
    refine ⟨_, _, _, M.map_eq h1, trivial, h2, _, ⟨h3, fun h => absurd rfl (h d)⟩, ?_⟩
    have hp := h.liveVals_perm.symm
    constructor
    · exact hp.map (·.2)
    · exact hp.map (·.1)
  | reserve n =>
    obtain ⟨o, m', h1, h2, h3⟩ := reserve_kept h n
    exact ⟨_, _, _, M.map_eq h1, h3.map _, h2.shape, .quiet h2.dropped rfl rfl rfl rfl⟩
  | shrinkToFit =>
    obtain ⟨m', h1, h2, _⟩ := shrinkToFit_spec h
    exact ⟨_, _, _, M.map_eq h1, trivial, h2.shape, .quiet h2.dropped rfl rfl rfl rfl⟩
  | extend cmps src =>
    obtain ⟨o, m1, w, h1, h2, h3, h4, _, _, _, h5⟩ := extendTrace_spec (cmps := cmps) src h
    exact ⟨_, _, _, M.map_eq h1, h3.map _, h2, [], by simp [h4], h5⟩
  | debug dk dv =>
    refine ⟨_, _, _, M.map_eq (f := M.read (fun m : BSTMap K V => m.debug dk dv)) rfl,
      Out.Safe.map ?_ _, h, .quiet rfl rfl rfl rfl rfl⟩
    show (m.debug dk dv).Safe
    rw [debug_spec h]
    trivial

/-- The books of a whole history. -/
theorem history_books (ops : List (Op K V)) : ∀ {m : BSTMap K V} {t : Tree K V}, Shape cfg m t →
    (∀ op ∈ ops, op.Calm ∧ op.Stays ∧ op.Drops) →
    ∃ os m' t' gone, history cfg ops m = (os, m') ∧ Shape cfg m' t' ∧
      m'.nodes.dropped = m.nodes.dropped ++ gone ∧
      Balanced t t' (account cfg (Op.valuesIn cfg) ops m) (account cfg (Op.valuesOut cfg) ops m)
        (account cfg (Op.keysIn cfg) ops m) (account cfg (Op.keysOut cfg) ops m)
        (gone.map fun x => (x.key, x.value)) := by
  induction ops with
  | nil =>
    intro m t h _
    exact ⟨[], m, t, [], rfl, h, by simp, .same t⟩
  | cons op ops ih =>
    intro m t h ho
    obtain ⟨o1, o2, o3⟩ := ho op (by simp)
    obtain ⟨o, m1, t1, h1, h2, h3, gone, ⟨h4, _⟩, h5⟩ := run_books h o1 o2 o3
    cases o with
    | ok r =>
      obtain ⟨os, m', t', gone', g1, g2, g3, g4⟩ := ih h3 (fun x hx => ho x (by simp [hx]))
      refine ⟨.ok r :: os, m', t', gone ++ gone', ?_, g2, by rw [g3, h4, List.append_assoc], ?_⟩
      · simp only [history, h1, g1]
      · simp only [account, h1, List.map_append]
        exact h5.trans g4
    | panic =>
      obtain ⟨os, m', t', gone', g1, g2, g3, g4⟩ := ih h3 (fun x hx => ho x (by simp [hx]))
      refine ⟨.panic :: os, m', t', gone ++ gone', ?_, g2, by rw [g3, h4, List.append_assoc], ?_⟩
      · simp only [history, h1, g1]
      · simp only [account, h1, List.map_append]
        exact h5.trans g4
    | abort =>
      refine ⟨[.abort], m1, t1, gone, ?_, h3, h4, ?_⟩
      · simp only [history, h1]
      · simp only [account, h1]
        exact h5
    | ub => cases h2
    | diverge => cases h2

end BST
