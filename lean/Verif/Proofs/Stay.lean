import Verif.Proofs.AccountRun
/-!
# Addresses of entries stay
-/
set_option linter.unusedSimpArgs false
namespace BST
open BSTMap Tree
open Spec (BT Order overwritten setAt)
variable {K V : Type} {cfg : Cfg}

/-- All entries keep their address and key. -/
def Tree.Stay (t t' : Tree K V) : Prop := ∀ e ∈ t.ino, ∃ v, (e.1, e.2.1, v) ∈ t'.ino

theorem Tree.Stay.refl (t : Tree K V) : t.Stay t := fun e he => ⟨e.2.2, he⟩

theorem Tree.Stay.ins {t : Tree K V} {c : Probe K} {e : Option (Ptr × K × V)} (p : Ptr) (k : K) (v : V)
    (hf : t.find c 0 = .ok e) : t.Stay (t.ins c p k v 0) := by
  intro x hx
  cases e with
  | none =>
    obtain ⟨a, b, e1, e2⟩ := ins_ino_miss (p := p) (k := k) (v := v) hf
    rw [e1] at hx
    rw [e2]
    refine ⟨x.2.2, ?_⟩
    simp only [List.mem_append, List.mem_cons] at hx ⊢
    rcases hx with hx | hx <;> simp [hx]
  | some y =>
    obtain ⟨q, k0, v0⟩ := y
    obtain ⟨a, b, e1, e2⟩ := ins_ino_hit (p := p) (k := k) (v := v) hf
    rw [e1] at hx
    rw [e2]
    simp only [List.mem_append, List.mem_cons] at hx ⊢
    rcases hx with hx | rfl | hx
    · exact ⟨x.2.2, Or.inl hx⟩
    · exact ⟨v, Or.inr (Or.inl rfl)⟩
    · exact ⟨x.2.2, Or.inr (Or.inr hx)⟩

theorem Tree.Stay.setV (t : Tree K V) (q : Ptr) (w : V) : t.Stay (t.setV q w) := by
  intro e he
  rw [setV_ino]
  exact ⟨_, List.mem_map.2 ⟨e, he, rfl⟩⟩

theorem wr_stay (places : List Ptr) (ws : List (Nat × V)) (b : BT (Ptr × K × V)) :
    ∀ e ∈ b.order .ino, ∃ v, (e.1, e.2.1, v) ∈ (ws.foldl (wr places) b).order .ino := by
  induction ws generalizing b with
  | nil => intro e he; exact ⟨e.2.2, he⟩
  | cons w ws ih =>
    intro e he
    have : ∃ v, (e.1, e.2.1, v) ∈ (wr places b w).order .ino := by
      unfold wr
      rw [BT.map_order]
      by_cases hp : places[w.1]? = some e.1
      · exact ⟨w.2, List.mem_map.2 ⟨e, he, by rw [if_pos hp]⟩⟩
      · exact ⟨e.2.2, List.mem_map.2 ⟨e, he, by rw [if_neg hp]⟩⟩
    obtain ⟨v, hv⟩ := this
    exact ih _ (e.1, e.2.1, v) hv

/-- What a removal returns, and what stays. -/
def Removal (t t' : Tree K V) (o : Out (Ret K V)) (ret : Option (K × V) → Ret K V) : Prop :=
  (o = .panic ∧ t' = t) ∨ (o = .ok (ret none) ∧ t' = t) ∨
  ∃ a b e, t.ino = a ++ e :: b ∧ t'.ino = a ++ b ∧ o = .ok (ret (some e.2))

theorem run_stay {m : BSTMap K V} {t : Tree K V} (h : Shape cfg m t) {op : Op K V}
    (hc : op.Calm) (hs : op.Stays) :
    ∃ o m' t', op.run cfg m = (o, m') ∧ Shape cfg m' t' ∧
      match op with
      | .clear _ => True
      | .remove _ => Removal t t' o (fun e => .value (e.map (·.2)))
      | .removeEntry _ => Removal t t' o .entry
      | _ => t.Stay t' := by
  have quiet : ∀ {op : Op K V}, (∀ m : BSTMap K V, (op.run cfg m).2 = m) →
      ∃ o m' t', op.run cfg m = (o, m') ∧ Shape cfg m' t' ∧ t.Stay t' := by
    intro op hq
    exact ⟨(op.run cfg m).1, m, t, Prod.ext rfl (hq m), h, .refl t⟩
  have rd : ∀ {α : Type} (f : BSTMap K V → Out α) (g : α → Ret K V) (m : BSTMap K V),
      ((do let r ← M.read f; pure (g r) : M (BSTMap K V) (Ret K V)) m).2 = m := by
    intro α f g m
    exact congrArg Prod.snd (M.map_eq (f := M.read f) (g := g) (s := m) (o := f m) (s' := m) rfl)
  cases op with
  | withCapacity n => cases hs
  | collect cmps src => cases hs
  | cloned cmps cloneK cloneV => cases hs
  | insert c k v =>
    rcases insert_cases h c k v with ⟨e, p, m', hf, h1, h2, h3, _⟩ | ⟨o, h1, h2⟩
    · exact ⟨_, _, _, M.map_eq h1, h2, .ins p k v hf⟩
    · exact ⟨_, _, _, M.map_eq h1, h, .refl t⟩
  | remove c =>
    rcases remove_cases h c with ⟨e, m', hf, h1, h2, _⟩ | ⟨_, h1⟩
    · refine ⟨_, _, _, M.map_eq h1, h2, ?_⟩
      cases e with
      | none => exact Or.inr (Or.inl ⟨rfl, del_ino_miss hf⟩)
      | some e =>
        obtain ⟨a, b, e1, e2⟩ := del_ino_hit hf
        exact Or.inr (Or.inr ⟨a, b, e, e1, e2, rfl⟩)
    · exact ⟨_, _, _, M.map_eq h1, h, Or.inl ⟨rfl, rfl⟩⟩
  | removeEntry c =>
    rcases removeEntry_cases h c with ⟨e, m', hf, h1, h2⟩ | ⟨_, h1⟩
    · refine ⟨_, _, _, M.map_eq h1, h2, ?_⟩
      cases e with
      | none => exact Or.inr (Or.inl ⟨rfl, del_ino_miss hf⟩)
      | some e =>
        obtain ⟨a, b, e1, e2⟩ := del_ino_hit hf
        exact Or.inr (Or.inr ⟨a, b, e, e1, e2, rfl⟩)
    · exact ⟨_, _, _, M.map_eq h1, h, Or.inl ⟨rfl, rfl⟩⟩
  | get c => exact quiet (op := .get c) (rd _ _)
  | getEntry c => exact quiet (op := .getEntry c) (rd _ _)
  | containsKey c => exact quiet (op := .containsKey c) (rd _ _)
  | getMut c w =>
    have hg := getMut_spec h c
    rcases t.find_ok_or_panic c 0 with hf | ⟨e, hf⟩
    · rw [hf] at hg
      exact ⟨_, _, _, M.bind_panic hg, h, .refl t⟩
    · rw [hf] at hg
      cases e with
      | none => exact ⟨_, _, _, M.bind_ok hg, h, .refl t⟩
      | some e =>
        obtain ⟨m', h1, h2⟩ := swapValue_spec h (Tree.find_mem hf) w
        exact ⟨_, _, _, (M.bind_ok hg).trans (M.map_eq h1), h2, .setV _ _ _⟩
  | getEntryMut c w =>
    have hg := getEntryMut_spec h c
    rcases t.find_ok_or_panic c 0 with hf | ⟨e, hf⟩
    · rw [hf] at hg
      exact ⟨_, _, _, M.bind_panic hg, h, .refl t⟩
    · rw [hf] at hg
      cases e with
      | none => exact ⟨_, _, _, M.bind_ok hg, h, .refl t⟩
      | some e =>
        obtain ⟨m', h1, h2⟩ := swapValue_spec h (Tree.find_mem hf) w
        exact ⟨_, _, _, (M.bind_ok hg).trans (M.map_eq h1), h2, .setV _ _ _⟩
  | node path => exact quiet (op := .node path) (rd _ _)
  | nodeMut path w =>
    obtain ⟨o, m', t', h1, _, h3, ⟨_, rfl⟩ | ⟨p, k, v, _, _, rfl⟩⟩ := nodeMut_run h path w
    · exact ⟨o, m', _, h1, h3, .refl _⟩
    · exact ⟨o, m', _, h1, h3, .setV _ _ _⟩
  | iter o n =>
    obtain ⟨st, h1, _, h2⟩ := iter_new h o
    obtain ⟨st', h3, _⟩ := nexts_spec (next_spec o m t.height) n h2
    refine ⟨.ok (.items ((List.map (fun e : Ptr × K × V => some e.2) (order o t) ++
      List.replicate n none).take n)), m, t, ?_, h, .refl t⟩
    show (M.read o.iter >>= _) m = _
    rw [M.read_bind, h1, M.lift_ok_bind, M.read_bind, h3, M.lift_ok_bind]
    rfl
  | iterMut o steps =>
    obtain ⟨m', t', h1, h2, h3, _⟩ := clientMut_spec h o steps
    refine ⟨_, _, _, M.map_eq h1, h2, ?_⟩
    have := wr_stay ((t.order o).map (·.1)) (writes t.size 0 steps) t.bt
    rw [← h3, bt_order, bt_order] at this
    exact this
  | len => exact quiet (op := .len) (rd _ _)
  | isEmpty => exact quiet (op := .isEmpty) (rd _ _)
  | capacity => exact quiet (op := .capacity) fun _ => rfl
  | clear d =>
    obtain ⟨m', h1, h2, _⟩ := clear_spec h d hc
    exact ⟨_, _, _, M.map_eq h1, h2, trivial⟩
  | reserve n =>
    obtain ⟨o, m', h1, h2, h3⟩ := reserve_kept h n
    exact ⟨_, _, _, M.map_eq h1, h2.shape, .refl t⟩
  | shrinkToFit =>
    obtain ⟨m', h1, h2, _⟩ := shrinkToFit_spec h
    exact ⟨_, _, _, M.map_eq h1, h2.shape, .refl t⟩
  | extend cmps src =>
    obtain ⟨o, m1, w, h1, h2, _, _, _, _, h4, _⟩ := extendTrace_spec (cmps := cmps) src h
    exact ⟨_, _, _, M.map_eq h1, h2, h4⟩
  | debug dk dv => exact quiet (op := .debug dk dv) (rd (fun m : BSTMap K V => m.debug dk dv) _)

/-- The trace of `collect` is balanced. -/
theorem collectTrace_spec {cmps : Nat → K → Probe K} (src : Source K V) :
    ∃ o m' t', fromIter cfg cmps src = (o, m') ∧ Shape cfg m' t' ∧ o.Safe ∧
      m'.nodes.dropped = [] ∧
      ((collectTrace cfg cmps src).map (·.1)) <+: src.items ∧
      (o = .ok () → (collectTrace cfg cmps src).map (·.1) = src.items) ∧
      Balanced .leaf t' ((collectTrace cfg cmps src).map (·.1.2))
        ((collectTrace cfg cmps src).filterMap (·.2))
        (((collectTrace cfg cmps src).filter fun x => x.2.isNone).map (·.1.1)) [] [] := by
  obtain ⟨o, m1, h1, h2, _, h3⟩ := grow_spec (shape_new (K := K) (V := V) cfg)
    (src.hint.2.getD src.hint.1)
  have h3 : o.Safe := by rcases h3 with ⟨rfl, _⟩ | ⟨_, rfl | rfl, _⟩ <;> trivial
  unfold fromIter collectTrace withCapacity
  rw [h1]
  rcases h3.cases with rfl | rfl | rfl
  · obtain ⟨o, m', t', g1, g2, g3, g4, g5, g6, g7, g8⟩ :=
      insertTrace_spec (cmps := cmps) (l := src.items) (n := 0) h2.shape
    have hd : m'.nodes.dropped = [] := g4.trans h2.dropped
    simp only
    rw [M.bind_ok h1]
    rcases g3.cases with rfl | rfl | rfl
    · rw [M.bind_ok g1]
      cases src.panics with
      | true => exact ⟨.panic, m', t', rfl, g2, trivial, hd, g5, by simp, g8⟩
      | false =>
        exact ⟨.ok (), m', t', rfl, g2, trivial, hd, g5, fun _ => g6 rfl, g8⟩
    · exact ⟨.panic, m', t', M.bind_panic g1, g2, trivial, hd, g5, by simp, g8⟩
    · exact ⟨.abort, m', t', M.bind_abort g1, g2, trivial, hd, g5, by simp, g8⟩
  · exact ⟨.panic, m1, .leaf, M.bind_panic h1, h2.shape, trivial, h2.dropped, by simp, by simp, .same _⟩
  · exact ⟨.abort, m1, .leaf, M.bind_abort h1, h2.shape, trivial, h2.dropped, by simp, by simp, .same _⟩

end BST
