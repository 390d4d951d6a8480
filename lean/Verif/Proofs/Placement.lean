import Verif.Placement
import Verif.Proofs.Track
import Verif.Proofs.Stay
/-!
# Lemmas on allocator calls and on the places of entries
-/
set_option linter.unusedSimpArgs false
namespace BST
open BSTMap Tree
open Spec (BT Order allocs frees slot replay memStep)
variable {K V : Type} {cfg : Cfg}

/-! ### Counting allocator calls -/

theorem replay_count_from (log : List MemEv) : ∀ {l live : List (Nat × Nat)},
    log.foldlM memStep l = some live → allocs log + l.length = frees log + live.length := by
  induction log with
  | nil => intro l live h; cases h; rfl
  | cons e log ih =>
    intro l live h
    rw [List.foldlM_cons] at h
    cases e with
    | alloc id n =>
      simp only [memStep] at h
      split at h
      · cases h
      · have := ih h
        simp only [allocs, frees, List.countP_cons, Spec.isAlloc, List.length_append,
          List.length_singleton] at this ⊢
        simp
        omega
    | free id n =>
      simp only [memStep] at h
      split at h
      · rename_i hm
        have := ih h
        have h1 := List.length_erase_of_mem hm
        have h2 := List.length_pos_of_mem hm
        simp only [allocs, frees, List.countP_cons, Spec.isAlloc] at this ⊢
        simp
        omega
      · cases h

theorem replay_count {log : List MemEv} {live : List (Nat × Nat)} (h : replay log = some live) :
    allocs log = frees log + live.length := replay_count_from log h

theorem allocs_snoc (log : List MemEv) (id n : Nat) :
    allocs (log ++ [.alloc id n]) = allocs log + 1 := by simp [allocs, Spec.isAlloc]

theorem frees_snoc (log : List MemEv) (id n : Nat) :
    frees (log ++ [.alloc id n]) = frees log := by simp [frees, Spec.isAlloc]

theorem Shape.items {m : BSTMap K V} {t : Tree K V} (h : Shape cfg m t) : m.nodes.items.Inv cfg :=
  h.slab.choose_spec.items

theorem Shape.allocs_eq {m : BSTMap K V} {t : Tree K V} (h : Shape cfg m t) :
    ∃ n, allocs m.nodes.items.log = frees m.nodes.items.log + n ∧ m.capacity + 8 = 8 * 2 ^ n := by
  have := replay_count h.items.log
  rw [List.length_map] at this
  exact ⟨_, this, h.items.cap⟩

/-! ### What writes leave alone -/

/-- Memory and counters of the storage. -/
def book (s : Nodes K V) : List MemEv × Nat × Nat × Nat :=
  (s.items.log, s.items.capacity, s.items.len, s.freeLen)

theorem book_writeValue (p : Ptr) (w : V) : M.Keeps book (writeValue p w : M (Nodes K V) Unit) := by
  unfold writeValue Slab.updateUnchecked
  refine .bind (.read _) fun v s => ?_
  unfold Slab.onItems Arena.setUnchecked
  rw [M.read_bind]
  cases s.items.getUnchecked p <;> rfl

theorem book_swapValue (p : Ptr) (w : V) : M.Keeps book (swapValue p w : M (Nodes K V) V) := by
  unfold swapValue
  exact .bind (.read _) fun _ => .bind (book_writeValue p w) fun _ => .pure _

theorem book_onNodes {α : Type} {f : M (Nodes K V) α} (h : M.Keeps book f) :
    M.Keeps (fun m : BSTMap K V => book m.nodes) (onNodes f) := by
  intro m
  have := h m.nodes
  unfold onNodes
  cases hr : f m.nodes with
  | mk o s => rw [hr] at this; exact this

theorem book_clientMut (o : Order) (steps : List (Step V)) :
    M.Keeps (fun m : BSTMap K V => book m.nodes) (clientMut (K := K) o steps) := by
  have run : ∀ (steps : List (Step V)) (refs : List (K × Ptr)) (st : Stack),
      M.Keeps (fun m : BSTMap K V => book m.nodes) (clientRun o steps refs st) := by
    intro steps
    induction steps with
    | nil => intro refs st; exact .pure _
    | cons s steps ih =>
      intro refs st
      cases s with
      | next => exact .bind (.read _) fun _ => ih _ _
      | write i v =>
        unfold clientRun
        cases refs[i]? with
        | none => exact .bind (.pure _) fun _ => ih _ _
        | some r => exact .bind (book_onNodes (book_writeValue _ _)) fun _ => ih _ _
  unfold clientMut
  exact .bind (.read _) fun _ => .bind (run _ _ _) fun _ => .pure _

/-- The calls that only read, or write values. -/
def Op.Light : Op K V → Prop
  | .get _ | .getEntry _ | .containsKey _ | .getMut _ _ | .getEntryMut _ _ | .node _
  | .nodeMut _ _ | .iter _ _ | .iterMut _ _ | .len | .isEmpty | .capacity | .debug _ _ => True
  | _ => False

theorem Op.Light.book {op : Op K V} (hl : op.Light) {m m' : BSTMap K V} {t : Tree K V}
    (h : Shape cfg m t) {o : Out (Ret K V)} (he : op.run cfg m = (o, m')) :
    book m'.nodes = book m.nodes := by
  have key : ∀ {f : M (BSTMap K V) (Ret K V)}, M.Keeps (fun m : BSTMap K V => BST.book m.nodes) f →
      f m = (o, m') → BST.book m'.nodes = BST.book m.nodes := fun hk e => hk.eq e
  have rd : ∀ {α : Type} (f : BSTMap K V → Out α) (g : α → Ret K V),
      M.Keeps (fun m : BSTMap K V => BST.book m.nodes) (do let r ← M.read f; pure (g r)) :=
    fun f g => .bind (.read f) fun _ => .pure _
  cases op with
  | get c => exact key (rd _ _) he
  | getEntry c => exact key (rd _ _) he
  | containsKey c => exact key (rd _ _) he
  | getMut c w =>
    have hg := getMut_spec h c
    rcases t.find_ok_or_panic c 0 with hf | ⟨e, hf⟩
    · rw [hf] at hg
      cases (M.bind_panic hg).symm.trans he; rfl
    · rw [hf] at hg
      cases e with
      | none => cases (M.bind_ok hg).symm.trans he; rfl
      | some e =>
        exact key (.bind (book_onNodes (book_swapValue _ w)) fun _ => .pure _)
          ((M.bind_ok hg).symm.trans he)
  | getEntryMut c w =>
    have hg := getEntryMut_spec h c
    rcases t.find_ok_or_panic c 0 with hf | ⟨e, hf⟩
    · rw [hf] at hg
      cases (M.bind_panic hg).symm.trans he; rfl
    · rw [hf] at hg
      cases e with
      | none => cases (M.bind_ok hg).symm.trans he; rfl
      | some e =>
        exact key (.bind (book_onNodes (book_swapValue _ w)) fun _ => .pure _)
          ((M.bind_ok hg).symm.trans he)
  | node path => exact key (rd _ _) he
  | nodeMut path w =>
    have hn := nodeMutAt_ok h path
    have hr := h.rep.sub path
    cases hs : t.sub path with
    | leaf =>
      rw [hs] at hn
      cases (M.bind_ok hn).symm.trans he; rfl
    | node p l k v r =>
      rw [hs] at hn hr
      refine key ?_ ((M.bind_ok hn).symm.trans he)
      refine .bind (book_onNodes ?_) fun _ => .bind (book_onNodes ?_) fun _ =>
        .bind (book_onNodes (book_swapValue _ w)) fun _ => .pure _
      · unfold NodeMut.key NodeMut.deref
        exact .bind (.read _) fun _ => .pure _
      · unfold NodeMut.valueMut NodeMut.deref
        exact .bind (.read _) fun _ => .pure _
  | iter o n => exact key (.bind (.read _) fun _ => .bind (.read _) fun _ => .pure _) he
  | iterMut o steps => exact key (.bind (book_clientMut o steps) fun _ => .pure _) he
  | len => exact key (rd _ _) he
  | isEmpty => exact key (rd _ _) he
  | capacity => exact key (.bind .get fun _ => .pure _) he
  | debug dk dv => exact key (rd _ _) he
  | _ => cases hl

/-- What an insertion does to the storage. -/
theorem insert_log {m m' : BSTMap K V} {t : Tree K V} (h : Shape cfg m t) {c : Probe K} {k : K} {v : V}
    {o : Out (Option V)} (he : insert cfg c k v m = (o, m')) :
    (m'.nodes.items.log = m.nodes.items.log ∧ m'.capacity = m.capacity) ∨
    (o = .ok none ∧ m.nodes.items.len = m.capacity ∧ m.nodes.freeLen = 0 ∧
      m'.capacity = 2 * m.capacity + 8 ∧
      ∃ id n, m'.nodes.items.log = m.nodes.items.log ++ [.alloc id n]) := by
  rcases insert_spec h c k v with ⟨h1, h2⟩ | ⟨q, k0, v0, x, m', h1, h2, h3, h4, h5⟩ |
    ⟨h1, pn, m', h2, h3, h4⟩ | ⟨h1, h2, h3 | h3⟩
  · cases h2.symm.trans he; exact .inl ⟨rfl, rfl⟩
  · cases h2.symm.trans he; exact .inl ⟨h5.log, h5.capacity⟩
  · cases h2.symm.trans he
    have hc := h3.items.cap
    have hc0 := h.items.cap
    rcases h4.log with g | ⟨id, n, g⟩
    · refine .inl ⟨g, ?_⟩
      have e1 := h.items.log
      have e2 := h3.items.log
      rw [g, e1] at e2
      have e2 := congrArg List.length (Option.some.inj e2)
      simp only [List.length_map] at e2
      rw [← e2] at hc
      have hm : m.capacity = m.nodes.items.capacity := rfl
      have hm' : m'.capacity = m'.nodes.items.capacity := rfl
      omega
    · rcases h4.grew with g' | ⟨g1, g2, g3⟩
      · exfalso
        have e1 := replay_count h.items.log
        have e2 := replay_count h3.items.log
        rw [g, allocs_snoc, frees_snoc] at e2
        simp only [List.length_map] at e1 e2
        have e3 : m'.nodes.items.chunks.length = m.nodes.items.chunks.length + 1 := by omega
        rw [e3, Nat.pow_succ] at hc
        have g' : m'.nodes.items.capacity = m.nodes.items.capacity := g'
        have := Nat.two_pow_pos m.nodes.items.chunks.length
        omega
      · exact .inr ⟨rfl, g1, g2, g3, id, n, g⟩
  · cases h3.symm.trans he; exact .inl ⟨rfl, rfl⟩
  · cases h3.symm.trans he; exact .inl ⟨rfl, rfl⟩

/-- What a call that works in place does to the storage. -/
theorem run_place {m : BSTMap K V} {t : Tree K V} (h : Shape cfg m t) {op : Op K V}
    (hp : op.InPlace) (hc : op.Calm) {o : Out (Ret K V)} {m' : BSTMap K V}
    (he : op.run cfg m = (o, m')) :
    ∃ t', Shape cfg m' t' ∧
      ((m'.nodes.items.log = m.nodes.items.log ∧ m'.capacity = m.capacity) ∨
       ((∃ c k v, op = .insert c k v) ∧ o = .ok (.value none) ∧ t.size = m.capacity ∧
        t'.size = t.size + 1 ∧ m'.capacity = 2 * m.capacity + 8 ∧
        ∃ id n, m'.nodes.items.log = m.nodes.items.log ++ [.alloc id n])) := by
  have light : op.Light → ∃ t', Shape cfg m' t' ∧
      (m'.nodes.items.log = m.nodes.items.log ∧ m'.capacity = m.capacity) := by
    intro hl
    obtain ⟨o1, m1, t1, h1, h2, _⟩ := run_shape h hc
    cases h1.symm.trans he
    have hb := hl.book h he
    simp only [BST.book, Prod.mk.injEq] at hb
    exact ⟨t1, by assumption, hb.1, hb.2.1⟩
  cases op with
  | withCapacity n => cases hp
  | collect cmps src => cases hp
  | cloned cmps cloneK cloneV => cases hp
  | reserve n => cases hp
  | shrinkToFit => cases hp
  | extend cmps src => cases hp
  | insert c k v =>
    have he' : (insert cfg c k v >>= fun r => pure (Ret.value r)) m = (o, m') := he
    cases hi : insert cfg c k v m with
    | mk o1 m1 =>
      have e := M.map_eq (g := (Ret.value : _ → Ret K V)) hi
      cases e.symm.trans he'
      rcases insert_log h hi with hl | ⟨rfl, g1, g2, g3, g4⟩
      · rcases insert_cases h c k v with ⟨e, p, m', hf, h1, h2, h3, _⟩ | ⟨o, h1, h2⟩
        · cases h1.symm.trans hi; exact ⟨_, h2, .inl hl⟩
        · cases h1.symm.trans hi; exact ⟨_, h, .inl hl⟩
      · rcases insert_cases h c k v with ⟨e, p, m', hf, h1, h2, h3, _⟩ | ⟨o, h1, h2⟩
        · cases e with
          | some e => cases h1.symm.trans hi
          | none =>
            cases h1.symm.trans hi
            have hs := ins_size (p := p) (k := k) (v := v) hf
            have := h.len_eq
            refine ⟨_, h2, .inr ⟨⟨_, _, _, rfl⟩, rfl, by omega, by simpa using hs, g3, g4⟩⟩
        · cases h1.symm.trans hi
          rcases h2 with ⟨hx, _⟩ | ⟨hx | hx, _⟩ <;> cases hx
  | remove c =>
    rcases removeEntry_spec h c with ⟨_, h4⟩ | ⟨_, h4⟩ | ⟨e, m1, _, h4, h5, _, h6, h7, _⟩
    · have : remove cfg c m = (.panic, m) := M.bind_panic h4
      cases (M.map_eq this).symm.trans he; exact ⟨_, h, .inl ⟨rfl, rfl⟩⟩
    · have : remove cfg c m = (.ok none, m) := by unfold BSTMap.remove; rw [M.bind_ok h4]; rfl
      cases (M.map_eq this).symm.trans he; exact ⟨_, h, .inl ⟨rfl, rfl⟩⟩
    · have : remove cfg c m = (.ok (some e.2.2), m1) := by unfold BSTMap.remove; rw [M.bind_ok h4]; rfl
      cases (M.map_eq this).symm.trans he; exact ⟨_, h5, .inl ⟨h7, h6⟩⟩
  | removeEntry c =>
    rcases removeEntry_spec h c with ⟨_, h4⟩ | ⟨_, h4⟩ | ⟨e, m1, _, h4, h5, _, h6, h7, _⟩
    · cases (M.map_eq h4).symm.trans he; exact ⟨_, h, .inl ⟨rfl, rfl⟩⟩
    · cases (M.map_eq h4).symm.trans he; exact ⟨_, h, .inl ⟨rfl, rfl⟩⟩
    · cases (M.map_eq h4).symm.trans he; exact ⟨_, h5, .inl ⟨h7, h6⟩⟩
  | clear d =>
    obtain ⟨m1, h1, h2, h3, h4, _⟩ := clear_spec h d hc
    cases (M.map_eq h1).symm.trans he
    exact ⟨_, h2, .inl ⟨h4, h3⟩⟩
  | _ => obtain ⟨t', h1, h2⟩ := light trivial; exact ⟨t', h1, .inl h2⟩

/-- Over a history in place, the allocator is asked for what the largest size needs. -/
theorem history_allocs {N : Nat} {ops : List (Op K V)} (hp : ∀ op ∈ ops, op.InPlace)
    (hc : ∀ op ∈ ops, op.Calm) : ∀ {m : BSTMap K V} {t : Tree K V}, Shape cfg m t →
    m.capacity < 2 * N + 8 →
    (∀ i l, (history cfg (ops.take i) m).2.len cfg = .ok l → l ≤ N) →
    ∃ t', Shape cfg (history cfg ops m).2 t' ∧ (history cfg ops m).2.capacity < 2 * N + 8 ∧
      frees (history cfg ops m).2.nodes.items.log = frees m.nodes.items.log := by
  induction ops with
  | nil => intro m t h hN _; exact ⟨t, h, hN, rfl⟩
  | cons op ops ih =>
    intro m t h hN hl
    have h1 := hl 1
    cases he : op.run cfg m with
    | mk o m1 =>
      obtain ⟨t1, hs, hcase⟩ := run_place h (hp op (by simp)) (hc op (by simp)) he
      have hlen : t1.size ≤ N := by
        refine h1 t1.size ?_
        have : (history cfg [op] m).2 = m1 := by
          simp only [history, he]
          cases o <;> rfl
        rw [List.take_succ_cons, List.take_zero, this]
        exact hs.len_ok
      have hN1 : m1.capacity < 2 * N + 8 := by
        rcases hcase with ⟨_, e⟩ | ⟨_, _, e1, e2, e3, _⟩ <;> omega
      have hf : frees m1.nodes.items.log = frees m.nodes.items.log := by
        rcases hcase with ⟨e, _⟩ | ⟨_, _, _, _, _, id, n, e⟩
        · rw [e]
        · rw [e, frees_snoc]
      have rest : (∀ i l, (history cfg (ops.take i) m1).2.len cfg = .ok l → l ≤ N) →
          ∃ t', Shape cfg (history cfg ops m1).2 t' ∧ (history cfg ops m1).2.capacity < 2 * N + 8 ∧
            frees (history cfg ops m1).2.nodes.items.log = frees m.nodes.items.log := by
        intro hl'
        obtain ⟨t', g1, g2, g3⟩ := ih (fun op h => hp op (by simp [h])) (fun op h => hc op (by simp [h]))
          hs hN1 hl'
        exact ⟨t', g1, g2, g3.trans hf⟩
      have pre : ∀ r, o = .ok r ∨ o = .panic → ∀ ops, (history cfg (op :: ops) m).2 = (history cfg ops m1).2 := by
        rintro r (rfl | rfl) ops <;> simp only [history, he]
      cases o with
      | ok r =>
        rw [pre r (.inl rfl)]
        exact rest fun i l hi => hl (i + 1) l (by rw [List.take_succ_cons, pre r (.inl rfl)]; exact hi)
      | panic =>
        have pre := fun ops => pre .unit (.inr rfl) ops
        rw [pre]
        exact rest fun i l hi => hl (i + 1) l (by rw [List.take_succ_cons, pre]; exact hi)
      | abort => simp only [history, he]; exact ⟨t1, hs, hN1, hf⟩
      | ub => simp only [history, he]; exact ⟨t1, hs, hN1, hf⟩
      | diverge => simp only [history, he]; exact ⟨t1, hs, hN1, hf⟩

end BST
