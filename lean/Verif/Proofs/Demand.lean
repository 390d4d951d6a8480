import Verif.Demand
import Verif.Proofs.AccountRun
import Verif.Proofs.Track
import Verif.Proofs.SimpleConform
/-!
# Histories of moderate size: what fails and what does not
-/
set_option linter.unusedSimpArgs false
namespace BST
open BSTMap Tree
open Spec (BT Order)
open Simple (Link semIns semSrc)
variable {K V : Type} {cfg : Cfg}

/-- There is memory for `D` slots. -/
structure Roomy (cfg : Cfg) (D : Nat) : Prop where
  esize : 0 < cfg.esize
  alloc : ∀ id n, cfg.allocOk id n = true
  fits : (D + 8) * cfg.esize ≤ isizeMax

theorem Roomy.mono {D D' : Nat} (h : Roomy cfg D) (hD : D' ≤ D) : Roomy cfg D' :=
  ⟨h.esize, h.alloc, Nat.le_trans (Nat.mul_le_mul_right _ (by omega)) h.fits⟩

theorem Roomy.lt {D : Nat} (h : Roomy cfg D) : D < usizeBound := by
  have h1 := h.fits
  have h2 : D + 8 ≤ (D + 8) * cfg.esize := Nat.le_mul_of_pos_right _ h.esize
  have h3 : isizeMax < usizeBound := by decide
  omega

/-- Number of slots in use (occupied or free). -/
abbrev slots (m : BSTMap K V) : Nat := m.nodes.items.len

theorem Roomy.not_full {D : Nat} (hR : Roomy cfg D) {m : BSTMap K V} {t : Tree K V}
    (h : Shape cfg m t) (hD : slots m ≤ D) : ¬ m.nodes.Full cfg := by
  intro hf
  have h1 := hf.huge hR.esize hR.alloc h
  have h2 : t.size ≤ slots m := h.size_le_len
  have h3 : (t.size + 8) * cfg.esize ≤ (D + 8) * cfg.esize := Nat.mul_le_mul_right _ (by omega)
  have := hR.fits
  omega

/-! ### Methods that keep the number of slots -/

theorem Slab.keeps_update {T : Type} (p : Ptr) (f : T → T) :
    M.Keeps (fun s : Slab T => s.items.len) (Slab.updateUnchecked p f) := by
  unfold Slab.updateUnchecked
  refine .bind (.read _) fun x => ?_
  have : M.Keeps Arena.len (Arena.setUnchecked p (Entry.value (f x))) := by
    unfold Arena.setUnchecked
    exact .bind (.read _) fun _ => fun _ => rfl
  intro s
  have := this s.items
  unfold Slab.onItems
  cases hr : Arena.setUnchecked p (Entry.value (f x)) s.items with
  | mk o a => rw [hr] at this; exact this

theorem slots_onNodes {α : Type} {f : M (Nodes K V) α}
    (h : M.Keeps (fun s : Nodes K V => s.items.len) f) :
    M.Keeps (slots : BSTMap K V → Nat) (onNodes f) := by
  intro m
  have := h m.nodes
  unfold onNodes
  cases hr : f m.nodes with
  | mk o s => rw [hr] at this; exact this

theorem slots_swapValue (p : Ptr) (w : V) :
    M.Keeps (slots : BSTMap K V → Nat) (onNodes (swapValue p w)) := by
  refine slots_onNodes ?_
  unfold swapValue writeValue
  exact .bind (.read _) fun _ => .bind (Slab.keeps_update _ _) fun _ => .pure _

theorem slots_clientRun (o : Order) (steps : List (Step V)) : ∀ (refs : List (K × Ptr)) (st : Stack),
    M.Keeps (slots : BSTMap K V → Nat) (clientRun o steps refs st) := by
  induction steps with
  | nil => intro refs st; exact .pure _
  | cons s steps ih =>
    intro refs st
    cases s with
    | next => exact .bind (.read _) fun _ => ih _ _
    | write i v =>
      unfold clientRun
      cases refs[i]? with
      | none => exact .bind (.pure _) fun _ => ih _ _
      | some r => exact .bind (slots_onNodes (Slab.keeps_update _ _)) fun _ => ih _ _

theorem slots_clientMut (o : Order) (steps : List (Step V)) :
    M.Keeps (slots : BSTMap K V → Nat) (clientMut (K := K) o steps) := by
  unfold clientMut
  exact .bind (.read _) fun _ => .bind (slots_clientRun _ _ _ _) fun _ => .pure _

/-! ### Insertions when there is room -/

theorem insert_exact {D : Nat} (hR : Roomy cfg D) {m : BSTMap K V} {t : Tree K V}
    (h : Shape cfg m t) (hD : slots m ≤ D) (c : Probe K) (k : K) (v : V) :
    ∃ o m' t', BSTMap.insert cfg c k v m = (o, m') ∧ Shape cfg m' t' ∧ slots m' ≤ slots m + 1 ∧
      t'.link = t.link.ins c k v 0 ∧ o = (t.link.find c 0).map fun e => e.map (·.2) := by
  rcases insert_cases h c k v with ⟨e, p, m', hf, hi, hs, _, _, _, hl⟩ | ⟨o, hi, ho⟩
  · refine ⟨_, m', _, hi, hs, ?_, Tree.link_ins _ _ _ _ _ _, ?_⟩
    · show m'.nodes.items.len ≤ m.nodes.items.len + 1
      split at hl <;> omega
    · rw [Tree.link_find, hf]
      cases e <;> rfl
  · rcases ho with ⟨rfl, hf⟩ | ⟨_, _, hfull⟩
    · have hf' : t.link.find c 0 = .panic := by rw [Tree.link_find, hf]; rfl
      exact ⟨_, m, t, hi, h, Nat.le_succ _, (Link.ins_panic hf').symm, by rw [hf']; rfl⟩
    · exact absurd hfull (hR.not_full h hD)

theorem insertAll_exact {D : Nat} (hR : Roomy cfg D) (cmps : Nat → K → Probe K)
    (l : List (K × V)) : ∀ (n : Nat) {m : BSTMap K V} {t : Tree K V}, Shape cfg m t →
    slots m + l.length ≤ D →
    ∃ o m' t', insertAll cfg cmps n l m = (o, m') ∧ Shape cfg m' t' ∧
      slots m' ≤ slots m + l.length ∧ (o, t'.link) = semIns cmps n l t.link := by
  induction l with
  | nil => intro n m t h _; exact ⟨_, m, t, rfl, h, Nat.le_refl _, rfl⟩
  | cons x l ih =>
    intro n m t h hD
    obtain ⟨k, v⟩ := x
    rw [List.length_cons] at hD
    obtain ⟨o, m1, t1, h1, h2, h3, h4, h5⟩ := insert_exact hR h (by omega) (cmps n k) k v
    unfold insertAll semIns
    rcases Link.find_ok_or_panic (cmps n k) 0 t.link with hf | ⟨e, hf⟩
    · rw [hf] at h5 ⊢
      cases h5
      rw [Link.ins_panic hf] at h4
      exact ⟨_, m1, t1, M.bind_panic h1, h2, by rw [List.length_cons]; omega, by rw [h4]⟩
    · rw [hf] at h5 ⊢
      cases h5
      obtain ⟨o', m', t', e1, e2, e3, e4⟩ := ih (n + 1) h2 (by omega)
      exact ⟨o', m', t', (M.bind_ok h1).trans e1, e2, by rw [List.length_cons]; omega,
        by rw [e4, h4]⟩

/-- The common tail of `extend` and `from_iter`. -/
theorem source_exact {D : Nat} (hR : Roomy cfg D) (cmps : Nat → K → Probe K)
    (src : Source K V) {m : BSTMap K V} {t : Tree K V} (h : Shape cfg m t)
    (hD : slots m + src.items.length ≤ D) :
    ∃ o m' t', (do insertAll cfg cmps 0 src.items; if src.panics then M.panic else pure () :
        M (BSTMap K V) Unit) m = (o, m') ∧ Shape cfg m' t' ∧
      slots m' ≤ slots m + src.items.length ∧ (o, t'.link) = semSrc cmps src t.link := by
  obtain ⟨o, m1, t1, h1, h2, h3, h4⟩ := insertAll_exact hR cmps src.items 0 h hD
  obtain ⟨o', t', e1, e2, _⟩ := Simple.semIns_cases cmps src.items 0 t.link
  rw [e1] at h4
  cases h4
  unfold semSrc
  rw [e1]
  rcases e2 with rfl | rfl
  · refine ⟨_, m1, t1, M.bind_ok h1 |>.trans ?_, h2, h3, rfl⟩
    cases src.panics <;> rfl
  · exact ⟨_, m1, t1, M.bind_panic h1, h2, h3, rfl⟩

theorem reserve_exact {D : Nat} (hR : Roomy cfg D) {m : BSTMap K V} {t : Tree K V}
    (h : Shape cfg m t) {n : Nat} (hD : slots m + n ≤ D) :
    ∃ m', reserve cfg n m = (.ok (), m') ∧ Shape cfg m' t ∧ slots m' = slots m := by
  have hlt : m.nodes.items.len + n < usizeBound := Nat.lt_of_le_of_lt hD hR.lt
  rcases reserve_spec cfg m n with ⟨_, hh, _⟩ | ⟨_, hr⟩
  · omega
  · have ht : reserveTarget m n = m.nodes.items.len + n := Nat.mod_eq_of_lt hlt
    obtain ⟨m', h1, h2, _⟩ := grow_moderate hR.esize hR.alloc h (n := reserveTarget m n)
      (by rw [ht]; exact (hR.mono hD).fits)
    exact ⟨m', hr.trans h1, h2.shape, h2.len⟩

theorem extend_exact {D : Nat} (hR : Roomy cfg D) (cmps : Nat → K → Probe K)
    (src : Source K V) {m : BSTMap K V} {t : Tree K V} (h : Shape cfg m t)
    (hD : slots m + (src.announced + src.items.length) ≤ D) :
    ∃ o m' t', extend cfg cmps src m = (o, m') ∧ Shape cfg m' t' ∧
      slots m' ≤ slots m + src.items.length ∧ (o, t'.link) = semSrc cmps src t.link := by
  obtain ⟨m1, h1, h2, h3⟩ := reserve_exact hR h (n := src.announced) (by omega)
  obtain ⟨o, m', t', e1, e2, e3, e4⟩ := source_exact hR cmps src h2 (by omega)
  refine ⟨o, m', t', ?_, e2, by omega, e4⟩
  unfold extend
  exact (M.bind_ok h1).trans e1

theorem fromIter_exact {D : Nat} (hR : Roomy cfg D) (cmps : Nat → K → Probe K)
    (src : Source K V) (hD : src.announced + src.items.length ≤ D) :
    ∃ o m' t', fromIter cfg cmps src = (o, m') ∧ Shape cfg m' t' ∧
      slots m' ≤ src.items.length ∧ (o, t'.link) = semSrc cmps src .nil := by
  obtain ⟨m1, h1, h2, _⟩ := grow_moderate hR.esize hR.alloc (shape_new (K := K) (V := V) cfg)
    (n := src.announced) (hR.mono (by omega)).fits
  have h0 : slots m1 = 0 := h2.len
  obtain ⟨o, m', t', e1, e2, e3, e4⟩ := source_exact hR cmps src h2.shape (by omega)
  refine ⟨o, m', t', ?_, e2, by omega, e4⟩
  unfold fromIter
  exact (M.bind_ok h1).trans e1

/-! ### Copies -/

theorem clone_loop_exact {cmps : Nat → K → Probe K} {cloneK : K → Option K} {cloneV : V → Option V}
    (m : BSTMap K V) (fuel : Nat) : ∀ (ts : List (Tree K V)) (i : Nat) (mb : BSTMap K V) (u : Tree K V),
    (∀ t ∈ ts, t.Rep m.nodes.view) → forestSize ts < fuel → Shape cfg mb u →
    u.size + forestSize ts ≤ mb.capacity →
    ∃ o m', loop fuel (cloneBody cfg cmps cloneK cloneV m) (i, ts.filterMap nodeOpt) mb = (o, m') ∧
      slots m' ≤ slots mb + forestSize ts ∧
      (o = .ok () ∨ (o = .panic ∧ ((∃ e ∈ forestPre ts, cloneK e.1 = none ∨ cloneV e.2 = none) ∨
        ∃ n k, Panics (cmps n k)))) := by
  induction fuel with
  | zero => intro ts i mb u _ h; omega
  | succ fuel ih =>
    intro ts i mb u hrep hsz hs hroom
    rcases forest_head ts with ⟨h1, h2⟩ | ⟨p, l, k, v, r, ts', h1, h2, h3, h4, h5⟩
    · exact ⟨_, mb, loopM_inr (by rw [h1]; rfl), by omega, .inl rfl⟩
    · have hn := hrep _ h3
      rw [h1]
      have hpan : cloneK k = none ∨ cloneV v = none → ∃ o m',
          loop (fuel + 1) (cloneBody cfg cmps cloneK cloneV m)
            (i, (⟨p, ⟨k, v, l.root, r.root⟩⟩ : Node K V) :: ts'.filterMap nodeOpt) mb = (o, m') ∧
          slots m' ≤ slots mb + forestSize ts ∧
          (o = .ok () ∨ (o = .panic ∧ ((∃ e ∈ forestPre ts, cloneK e.1 = none ∨ cloneV e.2 = none) ∨
            ∃ n k, Panics (cmps n k)))) := by
        intro hkv
        have hb : cloneBody cfg cmps cloneK cloneV m
            (i, (⟨p, ⟨k, v, l.root, r.root⟩⟩ : Node K V) :: ts'.filterMap nodeOpt) mb =
            (.panic, mb) := by
          rcases hkv with hk | hv
          · simp [cloneBody, Node.key, Node.value, hk, M.panic]
          · cases hk : cloneK k <;> simp [cloneBody, Node.key, Node.value, hk, hv, M.panic]
        refine ⟨_, mb, loopM_panic hb, Nat.le_add_right _ _, .inr ⟨rfl, .inl ⟨(k, v), ?_, hkv⟩⟩⟩
        rw [h2]
        simp
      cases hk : cloneK k with
      | none => exact hpan (.inl hk)
      | some k' =>
      cases hv : cloneV v with
      | none => exact hpan (.inr hv)
      | some v' =>
      have hbody : cloneBody cfg cmps cloneK cloneV m
            (i, (⟨p, ⟨k, v, l.root, r.root⟩⟩ : Node K V) :: ts'.filterMap nodeOpt) = (do
            let _ ← insert cfg (cmps i k') k' v'
            let rn ← M.lift (Node.right m.nodes ⟨p, ⟨k, v, l.root, r.root⟩⟩)
            let ln ← M.lift (Node.left m.nodes ⟨p, ⟨k, v, l.root, r.root⟩⟩)
            pure (.inl (i + 1, ln.toList ++ rn.toList ++ ts'.filterMap nodeOpt))) := by
          simp [cloneBody, Node.key, Node.value, hk, hv]
      rcases insert_cases hs (cmps i k') k' v' with ⟨e, pn, m1, hf, hi, hs1, _, hcap, _, hl⟩ | ⟨o, hi, ho⟩
      · obtain ⟨o, m', e1, e2, e3⟩ := ih (l :: r :: ts') (i + 1) m1 _ (by
            intro t ht
            rcases List.mem_cons.1 ht with rfl | ht
            · exact hn.2.1
            rcases List.mem_cons.1 ht with rfl | ht
            · exact hn.2.2
            · exact hrep _ (h4 _ ht)) (by omega) hs1 (by
            have := ins_size_le (p := pn) (k := k') (v := v') hf
            omega)
        have hl' : slots m1 ≤ slots mb + 1 := by
          show m1.nodes.items.len ≤ mb.nodes.items.len + 1
          split at hl <;> omega
        refine ⟨o, m', ?_, by omega, ?_⟩
        · rw [loopM_inl (b' := (i + 1, (l :: r :: ts').filterMap nodeOpt)) (s' := m1)]
          · exact e1
          · rw [hbody, M.bind_ok hi]
            have hr : Node.right m.nodes ⟨p, ⟨k, v, l.root, r.root⟩⟩ = .ok r.nodeOpt :=
              Node.newOpt_ok hn.2.2
            have hl : Node.left m.nodes ⟨p, ⟨k, v, l.root, r.root⟩⟩ = .ok l.nodeOpt :=
              Node.newOpt_ok hn.2.1
            rw [hr, hl, M.lift_ok_bind, M.lift_ok_bind, M.pure_apply]
            cases l <;> cases r <;> rfl
        · rcases e3 with h | ⟨h, ⟨x, hx, hxx⟩ | h'⟩
          · exact .inl h
          · refine .inr ⟨h, .inl ⟨x, ?_, hxx⟩⟩
            rw [h2]
            exact List.mem_cons_of_mem _ hx
          · exact .inr ⟨h, .inr h'⟩
      · rcases ho with ⟨rfl, hf⟩ | ⟨_, _, hfull⟩
        · refine ⟨.panic, mb, loopM_panic ?_, Nat.le_add_right _ _, .inr ⟨rfl, .inr ⟨i, k', find_panics hf⟩⟩⟩
          rw [hbody]
          exact M.bind_panic hi
        · exact absurd hfull (hs.not_full (by omega))

theorem clone_exact {D : Nat} (hR : Roomy cfg D) (cmps : Nat → K → Probe K) (cloneK : K → Option K)
    (cloneV : V → Option V) {m : BSTMap K V} {t : Tree K V} (h : Shape cfg m t)
    (hD : slots m ≤ D) :
    ∃ o m', clone cfg cmps cloneK cloneV m = (o, m') ∧ slots m' ≤ t.size ∧
      (o = .ok () ∨ (o = .panic ∧ ((∃ e ∈ t.pre, cloneK e.2.1 = none ∨ cloneV e.2.2 = none) ∨
        ∃ n k, Panics (cmps n k)))) := by
  have hsz := h.size_le_len
  have hsz' : t.size ≤ D := Nat.le_trans hsz hD
  obtain ⟨m1, h1, h2, _, hcap⟩ := grow_moderate hR.esize hR.alloc (shape_new (K := K) (V := V) cfg)
    (n := t.size) (hR.mono hsz').fits
  have h0 : slots m1 = 0 := h2.len
  obtain ⟨o, m', e1, e2, e3⟩ := clone_loop_exact (cfg := cfg) (cmps := cmps) (cloneK := cloneK)
    (cloneV := cloneV) m (walkFuel m.nodes) [t] 0 m1 .leaf (by simpa using h.rep)
    (by simpa [forestSize] using h.size_lt) h2.shape (by simpa [forestSize, Tree.size] using hcap)
  refine ⟨o, m', ?_, by simpa [h0, forestSize] using e2, ?_⟩
  · unfold clone
    rw [h.len_ok, M.lift_ok_bind, M.bind_ok h1, rootNode_ok h.root h.rep, M.lift_ok_bind]
    have : ([t].filterMap nodeOpt) = t.nodeOpt.toList := by cases t <;> rfl
    rw [this] at e1
    exact e1
  · rcases e3 with h | ⟨h, ⟨x, hx, hxx⟩ | h'⟩
    · exact .inl h
    · simp only [forestPre, List.flatMap_cons, List.flatMap_nil, List.append_nil] at hx
      obtain ⟨y, hy, rfl⟩ := List.mem_map.1 hx
      exact .inr ⟨h, .inl ⟨y, hy, hxx⟩⟩
    · exact .inr ⟨h, .inr h'⟩

/-! ### Whole calls -/

theorem not_quiet_src {cmps : Nat → K → Probe K} {src : Source K V}
    (h : (∃ n k, Panics (cmps n k)) ∨ src.panics = true) :
    ¬ ((∀ n k, ¬ Panics (cmps n k)) ∧ src.panics = false) := by
  rintro ⟨h1, h2⟩
  rcases h with ⟨n, k, h⟩ | h
  · exact h1 n k h
  · rw [h2] at h; cases h

theorem run_room {D : Nat} (hR : Roomy cfg D) {m : BSTMap K V} {t : Tree K V} (h : Shape cfg m t)
    {op : Op K V} (hop : op.Calm) (hD : slots m + op.demand ≤ D) :
    ∃ o m' t', op.run cfg m = (o, m') ∧ Shape cfg m' t' ∧ slots m' ≤ slots m + op.demand ∧
      ((∃ r, o = .ok r) ∨ (o = .panic ∧ ¬ op.Quiet)) := by
  have hfind : ∀ {c : Probe K} {α : Type} (g : Option (Ptr × K × V) → α),
      (∃ r, (do let e ← t.find c 0; pure (g e) : Out α) = .ok r) ∨
      ((do let e ← t.find c 0; pure (g e) : Out α) = .panic ∧ ¬ ¬ Panics c) := by
    intro c α g
    rcases t.find_ok_or_panic c 0 with hf | ⟨e, hf⟩
    · rw [hf]; exact .inr ⟨rfl, fun hh => hh (find_panics hf)⟩
    · rw [hf]; exact .inl ⟨_, rfl⟩
  have hmap : ∀ {α β : Type} {o : Out α} {P : Prop} (g : α → β), ((∃ r, o = .ok r) ∨ (o = .panic ∧ P)) →
      ((∃ r, o.map g = .ok r) ∨ (o.map g = .panic ∧ P)) := by
    rintro α β o P g (⟨r, rfl⟩ | ⟨rfl, hp⟩)
    · exact .inl ⟨_, rfl⟩
    · exact .inr ⟨rfl, hp⟩
  have hnq : ∀ {c : Probe K}, t.find c 0 = .panic → ¬ ¬ Panics c := fun hf hh => hh (find_panics hf)
  have hsame : ∀ {n : Nat}, slots m ≤ slots m + n := Nat.le_add_right _ _
  have reb : ∀ {f : BSTMap K V → Out Unit × BSTMap K V} {o : Out Unit} {m1 : BSTMap K V}
      {w : Tree K V} {P : Prop} {n : Nat}, f m = (o, m1) → Shape cfg m1 w → slots m1 ≤ slots m + n →
      (o = .ok () ∨ (o = .panic ∧ P)) →
      ∃ o m' t', (do BSTMap.assign f; pure .unit : M (BSTMap K V) (Ret K V)) m = (o, m') ∧
        Shape cfg m' t' ∧ slots m' ≤ slots m + n ∧ ((∃ r, o = .ok r) ∨ (o = .panic ∧ P)) := by
    intro f o m1 w P n he hw hn ho
    rcases ho with rfl | ⟨rfl, hp⟩
    · obtain ⟨m', h1, h2⟩ := assign_spec he trivial
      rcases h2 with ⟨_, rfl⟩ | ⟨hh | hh, _⟩
      · exact ⟨_, _, w, M.map_eq h1, hw, hn, .inl ⟨_, rfl⟩⟩
      · cases hh
      · cases hh
    · obtain ⟨m', h1, h2⟩ := assign_spec he trivial
      rcases h2 with ⟨hh, _⟩ | ⟨_, rfl⟩
      · cases hh
      · exact ⟨_, _, t, M.map_eq h1, h, hsame, .inr ⟨rfl, hp⟩⟩
  cases op with
  | withCapacity n =>
    obtain ⟨m1, h1, h2, _⟩ := grow_moderate hR.esize hR.alloc (shape_new (K := K) (V := V) cfg)
      (n := n) (hR.mono (Nat.le_trans (Nat.le_add_left _ _) hD)).fits
    have h0 : slots m1 = 0 := h2.len
    exact reb (f := fun _ => withCapacity cfg n) h1 h2.shape (by omega) (.inl rfl)
  | collect cmps src =>
    simp only [Op.demand] at hD ⊢
    obtain ⟨o, m1, t1, h1, h2, h3, h4⟩ := fromIter_exact hR cmps src (by omega)
    have h5 := (Simple.semSrc_cases h4.symm).1
    exact reb (f := fun _ => fromIter cfg cmps src) h1 h2 (by omega)
      (h5.imp_right fun hh => ⟨hh.1, not_quiet_src hh.2⟩)
  | cloned cmps cloneK cloneV =>
    obtain ⟨o, m1, h1, h2, h3⟩ := clone_exact hR cmps cloneK cloneV h (by omega)
    obtain ⟨o', m1', w, l, h1', h2', _⟩ := clone_spec (cfg := cfg) (ok := Anything)
      (cmps := cmps) (fun _ _ => trivial) cloneK cloneV h
    cases h1.symm.trans h1'
    have : t.size ≤ slots m := h.size_le_len
    refine reb h1 h2' (by omega) (h3.imp_right fun hh => ⟨hh.1, ?_⟩)
    rintro ⟨q1, q2, q3⟩
    rcases hh.2 with ⟨e, _, he | he⟩ | ⟨n, k, hp⟩
    · exact q2 _ he
    · exact q3 _ he
    · exact q1 n k hp
  | insert c k v =>
    simp only [Op.demand] at hD ⊢
    obtain ⟨o, m', t', h1, h2, h3, _, h5⟩ := insert_exact hR h (by omega) c k v
    refine ⟨_, m', t', M.map_eq h1, h2, h3, hmap _ ?_⟩
    rw [h5]
    rcases Link.find_ok_or_panic c 0 t.link with hf | ⟨e, hf⟩
    · rw [hf]; exact .inr ⟨rfl, fun hh => hh (Link.find_panics hf)⟩
    · rw [hf]; exact .inl ⟨_, rfl⟩
  | remove c =>
    have hlen : ∀ {o m'}, BSTMap.removeEntry cfg c m = (o, m') → slots m' = slots m := by
      intro o m' he
      rcases removeEntry_spec h c with ⟨_, h1⟩ | ⟨_, h1⟩ | ⟨e, m1, _, h1, _, _, _, _, hl, _⟩
      · cases he.symm.trans h1; rfl
      · cases he.symm.trans h1; rfl
      · cases he.symm.trans h1; exact hl
    rcases remove_cases h c with ⟨e, m', hf, h1, h2, h3⟩ | ⟨hf, h1⟩
    · exact ⟨_, _, _, M.map_eq h1, h2, by rw [hlen h3]; exact hsame, .inl ⟨_, rfl⟩⟩
    · exact ⟨_, _, _, M.map_eq h1, h, hsame, .inr ⟨rfl, hnq hf⟩⟩
  | removeEntry c =>
    rcases removeEntry_spec h c with ⟨hf, h1⟩ | ⟨_, h1⟩ | ⟨e, m1, _, h1, h2, _, _, _, hl, _⟩
    · exact ⟨_, _, _, M.map_eq h1, h, hsame, .inr ⟨rfl, hnq hf⟩⟩
    · exact ⟨_, _, _, M.map_eq h1, h, hsame, .inl ⟨_, rfl⟩⟩
    · exact ⟨_, _, _, M.map_eq h1, h2, by show m1.nodes.items.len ≤ _; rw [hl]; exact hsame,
        .inl ⟨_, rfl⟩⟩
  | get c =>
    refine ⟨_, _, _, M.map_eq (f := M.read (BSTMap.get c)) rfl, h, hsame, hmap _ ?_⟩
    rw [get_spec h]
    exact hfind _
  | getEntry c =>
    refine ⟨_, _, _, M.map_eq (f := M.read (BSTMap.getEntry c)) rfl, h, hsame, hmap _ ?_⟩
    rw [getEntry_spec h]
    exact hfind _
  | containsKey c =>
    refine ⟨_, _, _, M.map_eq (f := M.read (BSTMap.containsKey c)) rfl, h, hsame, hmap _ ?_⟩
    rw [containsKey_spec h]
    exact hfind _
  | getMut c w =>
    have hg := getMut_spec h c
    rcases t.find_ok_or_panic c 0 with hf | ⟨e, hf⟩
    · rw [hf] at hg
      exact ⟨_, _, _, M.bind_panic hg, h, hsame, .inr ⟨rfl, hnq hf⟩⟩
    · rw [hf] at hg
      cases e with
      | none => exact ⟨_, _, _, M.bind_ok hg, h, hsame, .inl ⟨_, rfl⟩⟩
      | some e =>
        obtain ⟨m', h1, h2⟩ := swapValue_spec h (Tree.find_mem hf) w
        exact ⟨_, _, _, (M.bind_ok hg).trans (M.map_eq h1), h2,
          by rw [(slots_swapValue _ _).eq h1]; exact hsame, .inl ⟨_, rfl⟩⟩
  | getEntryMut c w =>
    have hg := getEntryMut_spec h c
    rcases t.find_ok_or_panic c 0 with hf | ⟨e, hf⟩
    · rw [hf] at hg
      exact ⟨_, _, _, M.bind_panic hg, h, hsame, .inr ⟨rfl, hnq hf⟩⟩
    · rw [hf] at hg
      cases e with
      | none => exact ⟨_, _, _, M.bind_ok hg, h, hsame, .inl ⟨_, rfl⟩⟩
      | some e =>
        obtain ⟨m', h1, h2⟩ := swapValue_spec h (Tree.find_mem hf) w
        exact ⟨_, _, _, (M.bind_ok hg).trans (M.map_eq h1), h2,
          by rw [(slots_swapValue _ _).eq h1]; exact hsame, .inl ⟨_, rfl⟩⟩
  | node path =>
    refine ⟨_, _, _, M.map_eq (f := M.read (nodeAt path)) rfl, h, hsame, hmap _ ?_⟩
    rw [nodeAt_ok h]
    exact .inl ⟨_, rfl⟩
  | nodeMut path w =>
    have hn := nodeMutAt_ok h path
    have hr := h.rep.sub path
    cases hs : t.sub path with
    | leaf =>
      rw [hs] at hn
      exact ⟨.ok (.entry none), m, t, M.bind_ok hn, h, hsame, .inl ⟨_, rfl⟩⟩
    | node p l k v r =>
      rw [hs] at hn hr
      have hmem := Tree.mem_sub_ino path hs
      obtain ⟨m', h1, h2⟩ := swapValue_spec h hmem w
      refine ⟨.ok (.entry (some (k, v))), m', _, ?_, h2,
        by rw [(slots_swapValue _ _).eq h1]; exact hsame, .inl ⟨_, rfl⟩⟩
      show (nodeMutAt path >>= _) m = _
      rw [M.bind_ok hn]
      show (onNodes (NodeMut.key ⟨p⟩) >>= _) m = _
      rw [M.bind_ok (onNodes_pure (key_ok hr)), M.bind_ok (onNodes_pure (valueMut_ok hr)),
        M.bind_ok h1]
      rfl
  | iter o n =>
    obtain ⟨st, h1, _, h2⟩ := iter_new h o
    obtain ⟨st', h3, _⟩ := nexts_spec (next_spec o m t.height) n h2
    refine ⟨.ok (.items ((List.map (fun e : Ptr × K × V => some e.2) (order o t) ++
      List.replicate n none).take n)), m, t, ?_, h, hsame, .inl ⟨_, rfl⟩⟩
    show (M.read o.iter >>= _) m = _
    rw [M.read_bind, h1, M.lift_ok_bind, M.read_bind, h3, M.lift_ok_bind]
    rfl
  | iterMut o steps =>
    obtain ⟨m', t', h1, h2, _⟩ := clientMut_spec h o steps
    exact ⟨_, _, _, M.map_eq h1, h2, by rw [(slots_clientMut _ _).eq h1]; exact hsame,
      .inl ⟨_, rfl⟩⟩
  | len =>
    refine ⟨_, _, _, M.map_eq (f := M.read (BSTMap.len cfg)) rfl, h, hsame, hmap _ ?_⟩
    rw [h.len_ok]
    exact .inl ⟨_, rfl⟩
  | isEmpty =>
    refine ⟨_, _, _, M.map_eq (f := M.read (BSTMap.isEmpty cfg)) rfl, h, hsame, hmap _ ?_⟩
    rw [isEmpty_spec h]
    exact .inl ⟨_, rfl⟩
  | capacity => exact ⟨.ok (.nat m.capacity), m, t, rfl, h, hsame, .inl ⟨_, rfl⟩⟩
  | clear d =>
    obtain ⟨m', h1, h2, h3⟩ := clear_spec h d hop
    exact ⟨_, _, _, M.map_eq h1, h2, by show m'.nodes.items.len ≤ _; omega, .inl ⟨_, rfl⟩⟩
  | reserve n =>
    obtain ⟨m', h1, h2, h3⟩ := reserve_exact hR h hD
    exact ⟨_, _, _, M.map_eq h1, h2, by rw [h3]; exact hsame, .inl ⟨_, rfl⟩⟩
  | shrinkToFit =>
    obtain ⟨m', h1, h2, _⟩ := shrinkToFit_spec h
    exact ⟨_, _, _, M.map_eq h1, h2.shape, by show m'.nodes.items.len ≤ _; rw [h2.len]; exact hsame,
      .inl ⟨_, rfl⟩⟩
  | extend cmps src =>
    simp only [Op.demand] at hD ⊢
    obtain ⟨o, m1, t1, h1, h2, h3, h4⟩ := extend_exact hR cmps src h (by omega)
    have h5 := (Simple.semSrc_cases h4.symm).1
    refine ⟨_, _, _, M.map_eq h1, h2, by omega, hmap _ ?_⟩
    exact h5.imp (fun hh => ⟨_, hh⟩) fun hh => ⟨hh.1, not_quiet_src hh.2⟩
  | debug dk dv =>
    refine ⟨_, _, _, M.map_eq (f := M.read (fun m : BSTMap K V => m.debug dk dv)) rfl, h, hsame,
      hmap _ ?_⟩
    show (∃ r, m.debug dk dv = _) ∨ _
    rw [debug_spec h]
    exact .inl ⟨_, rfl⟩

end BST
