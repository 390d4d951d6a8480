import Verif.Proofs.Answers
/-!
# From answers of single calls to histories
-/
set_option linter.unusedSimpArgs false
namespace BST
open BSTMap Tree Std
open Spec (BT Order Sorted setHit hitOf lookup)
variable {K V : Type}

section
variable {cmp : K → K → Ordering} [TransCmp cmp]

theorem insert_ino {t : Tree K V} (hs : t.SortedBy cmp) (k : K) (v : V) :
    ∃ w : Tree K V, w.SortedBy cmp ∧ w.sh = t.sh.insert cmp k v ∧
      w.kv.Perm (Spec.insert (hitOf (cmp k)) k v t.kv) := by
  obtain ⟨e, he, _⟩ := find_kv (lawful_cmp cmp k) 0 hs
  obtain ⟨h1, h2⟩ := ins_kv hs ⟨0, 0⟩ k v 0
  exact ⟨_, h2, ins_sh (Lawful.query cmp k) he _ v, h1⟩

theorem insertList_ino (xs : List (K × V)) {t : Tree K V} (hs : t.SortedBy cmp) :
    ∃ w : Tree K V, w.SortedBy cmp ∧ w.sh = BT.insertList cmp xs t.sh ∧
      w.kv.Perm (Spec.insertList cmp xs t.kv) := by
  induction xs generalizing t with
  | nil => exact ⟨t, hs, rfl, .refl _⟩
  | cons e xs ih =>
    obtain ⟨w, h1, h2, h3⟩ := insert_ino hs e.1 e.2
    obtain ⟨w', h4, h5, h6⟩ := ih h1
    refine ⟨w', h4, ?_, h6.trans (insertList_perm xs h3)⟩
    rw [h5, h2]; rfl

omit [TransCmp cmp] in
theorem erase_ino {t : Tree K V} (hs : t.SortedBy cmp) {f : K → Ordering}
    (hf : Spec.LawfulQuery cmp f) : (t.sh.erase f).ino = Spec.remove (hitOf f) t.kv := by
  obtain ⟨e, he, _⟩ := find_kv hf 0 hs
  rw [← del_sh (f := f) (c := probeOf f) (fun _ _ => .inr rfl) he, sh_ino, del_kv hf hs]

theorem setHit_append (hit : K → Bool) (w : V) (a b : List (K × V)) :
    setHit hit w (a ++ b) = setHit hit w a ++ setHit hit w b := List.map_append

theorem setHit_none {hit : K → Bool} {w : V} {l : List (K × V)} (h : ∀ e ∈ l, hit e.1 = false) :
    setHit hit w l = l := by
  unfold setHit
  conv => rhs; rw [← List.map_id l]
  apply List.map_congr_left
  intro e he
  simp [h e he]

theorem sub_label_mem {α : Type} {path : List Bool} {b : BT α} {e : α}
    (h : (b.sub path).label = some e) : e ∈ b.ino := by
  induction path generalizing b with
  | nil =>
    cases b with
    | nil => cases h
    | node l a r => cases h; simp [BT.ino]
  | cons d path ih =>
    cases b with
    | nil => cases d <;> cases h
    | node l a r => cases d <;> simp [BT.ino, ih h]

theorem setPath_ino {path : List Bool} {b : BT (K × V)} (hs : Sorted cmp b.ino) {k : K} {v : V}
    (h : (b.sub path).label = some (k, v)) (w : V) :
    (b.setPath w path).ino = setHit (hitOf (cmp k)) w b.ino := by
  induction path generalizing b with
  | nil =>
    cases b with
    | nil => cases h
    | node l a r =>
      cases h
      simp only [Sorted, BT.ino, List.pairwise_append, List.pairwise_cons, List.mem_cons] at hs
      obtain ⟨_, ⟨h1, _⟩, h2⟩ := hs
      have hl : ∀ e ∈ l.ino, hitOf (cmp k) e.1 = false := by
        intro e he
        have := OrientedCmp.gt_of_lt (h2 e he _ (.inl rfl))
        simp only [hitOf, this]; rfl
      have hr : ∀ e ∈ r.ino, hitOf (cmp k) e.1 = false := by
        intro e he
        simp only [hitOf, h1 e he]; rfl
      simp only [BT.setPath, BT.ino, setHit_append]
      rw [setHit_none hl]
      congr 1
      show _ = (if hitOf (cmp k) k = true then (k, w) else (k, v)) :: setHit _ w r.ino
      rw [setHit_none hr]
      simp [hitOf, ReflCmp.compare_self]
  | cons d path ih =>
    cases b with
    | nil => cases d <;> cases h
    | node l a r =>
      simp only [Sorted, BT.ino, List.pairwise_append, List.pairwise_cons, List.mem_cons] at hs
      obtain ⟨hsl, ⟨h1, hsr⟩, h2⟩ := hs
      cases d with
      | false =>
        have h : (l.sub path).label = some (k, v) := h
        have hm := sub_label_mem h
        have ha : hitOf (cmp k) a.1 = false := by
          have := h2 _ hm _ (.inl rfl)
          simp only at this
          simp only [hitOf, this]; rfl
        have hr : ∀ e ∈ r.ino, hitOf (cmp k) e.1 = false := by
          intro e he
          have := h2 _ hm _ (.inr he)
          simp only at this
          simp only [hitOf, this]; rfl
        simp only [BT.setPath, BT.ino, setHit_append]
        rw [ih hsl h]
        congr 1
        show _ = (if hitOf (cmp k) a.1 = true then (a.1, w) else a) :: setHit _ w r.ino
        rw [setHit_none hr]
        simp [ha]
      | true =>
        have h : (r.sub path).label = some (k, v) := h
        have hm := sub_label_mem h
        have ha : hitOf (cmp k) a.1 = false := by
          have := OrientedCmp.gt_of_lt (h1 _ hm)
          simp only at this
          simp only [hitOf, this]; rfl
        have hl : ∀ e ∈ l.ino, hitOf (cmp k) e.1 = false := by
          intro e he
          have := OrientedCmp.gt_of_lt (h2 _ he _ (.inr hm))
          simp only at this
          simp only [hitOf, this]; rfl
        simp only [BT.setPath, BT.ino, setHit_append]
        rw [setHit_none hl]
        congr 1
        show _ = (if hitOf (cmp k) a.1 = true then (a.1, w) else a) :: setHit _ w r.ino
        rw [ih hsr h]
        simp [ha]

theorem Spec.BT.order_perm {α : Type} (o : Order) (b : BT α) : (b.order o).Perm b.ino := by
  cases o with
  | ino => exact .refl _
  | pre =>
    show b.pre.Perm b.ino
    induction b with
    | nil => exact .refl _
    | node l a r ihl ihr =>
      exact ((ihl.append ihr).cons a).trans List.perm_middle.symm
  | post =>
    show b.post.Perm b.ino
    induction b with
    | nil => exact .refl _
    | node l a r ihl ihr =>
      refine (ihl.append (ihr.append_right [a])).trans ?_
      exact List.Perm.append_left _ List.perm_append_comm

theorem answer_of_tree {t t' : Tree K V} (hs : t.SortedBy cmp)
    {op : Op K V} (hop : op.Lawful cmp) {o : Out (Ret K V)}
    (h : Spec.TreeAnswer cmp t.sh o t'.sh op) : Spec.Answer cmp t.kv o t'.kv op := by
  have ht := sh_ino t
  have hk : ∀ {u : Tree K V}, t'.sh = u.sh → t'.kv = u.kv := fun {u} h => by
    rw [← sh_ino, h, sh_ino]
  have quer : ∀ {c : Probe K} {r : (K → Ordering) → Ret K V} {b1 : (K → Ordering) → BT (K × V)}
      {l1 : (K → Ordering) → List (K × V)}, Spec.Queried cmp c t.sh o t'.sh r b1 →
      (∀ f, Spec.LawfulQuery cmp f → (b1 f).ino = l1 f) →
      Spec.Queried cmp c t.kv o t'.kv r l1 := by
    intro c r b1 l1 h hb f hf hc
    rcases h f hf hc with ⟨h1, h2⟩ | ⟨h1, h2, h3⟩
    · exact .inl ⟨h1, by rw [← sh_ino, h2, hb f hf]⟩
    · exact .inr ⟨h1, hk h2, h3⟩
  have setm : ∀ (f : K → Ordering) (w : V),
      (t.sh.map fun e => if hitOf f e.1 = true then (e.1, w) else e).ino = setHit (hitOf f) w t.kv := by
    intro f w
    rw [Spec.BT.map_ino, ht]; rfl
  cases op with
  | withCapacity n =>
    rcases h with ⟨h1, h2⟩ | ⟨h1, h2⟩
    · exact .inl ⟨h1, hk (u := .leaf) h2⟩
    · exact .inr ⟨h1, hk h2⟩
  | collect cmps src =>
    rcases h with ⟨h1, h2, h3⟩ | ⟨h1, h2⟩
    · obtain ⟨w, _, h4, h5⟩ := insertList_ino (cmp := cmp) src.items (t := (.leaf : Tree K V)) .nil
      refine .inl ⟨h1, ?_, h3⟩
      rw [hk (h2.trans h4.symm)]
      exact h5
    · exact .inr ⟨h1, hk h2⟩
  | cloned _ _ _ =>
    rcases h with ⟨h1, h2⟩ | ⟨h1, h2⟩
    · exact .inl ⟨h1, hk h2⟩
    · exact .inr ⟨h1, hk h2⟩
  | insert c k v =>
    rcases h with ⟨h1, h2⟩ | ⟨h1, h2, h3⟩ | ⟨h1, h2, h3⟩
    · obtain ⟨w, _, h4, h5⟩ := insert_ino hs k v
      rw [ht] at h1
      refine .inl ⟨h1, ?_⟩
      rw [hk (h2.trans h4.symm)]
      exact h5
    · exact .inr (.inl ⟨h1, hk h2, h3⟩)
    · rw [ht] at h3
      exact .inr (.inr ⟨h1, hk h2, h3⟩)
  | remove c =>
    have h := quer h (fun f hf => erase_ino hs hf)
    rw [ht] at h
    exact h
  | removeEntry c =>
    have h := quer h (fun f hf => erase_ino hs hf)
    rw [ht] at h
    exact h
  | get c =>
    have h := quer h (fun f hf => ht)
    rw [ht] at h
    exact h
  | getEntry c =>
    have h := quer h (fun f hf => ht)
    rw [ht] at h
    exact h
  | containsKey c =>
    have h := quer h (fun f hf => ht)
    rw [ht] at h
    exact h
  | getMut c w =>
    have h := quer h (fun f hf => setm f w)
    rw [ht] at h
    exact h
  | getEntryMut c w =>
    have h := quer h (fun f hf => setm f w)
    rw [ht] at h
    exact h
  | node path =>
    obtain ⟨h1, h2⟩ := h
    refine ⟨hk h2, ?_⟩
    cases hb : t.sh.sub path with
    | nil => rw [hb] at h1; exact .inl h1
    | node l e r =>
      rw [hb] at h1
      refine .inr ⟨e.1, e.2, _, _, ?_, h1⟩
      rw [← ht]
      exact sub_label_mem (path := path) (by rw [hb]; rfl)
  | nodeMut path w =>
    obtain ⟨h1, h2⟩ := h
    cases hb : t.sh.sub path with
    | nil =>
      rw [hb] at h1
      rw [setPath_leaf hb] at h2
      exact .inl ⟨h1, hk h2⟩
    | node l e r =>
      rw [hb] at h1
      have hlab : (t.sh.sub path).label = some (e.1, e.2) := by rw [hb]; rfl
      refine .inr ⟨e.1, e.2, ?_, h1, ?_⟩
      · rw [← ht]; exact sub_label_mem hlab
      · have := setPath_ino (cmp := cmp) (by rw [ht]; exact hs) hlab w
        rw [← sh_ino, h2, this, ht]
  | iter ord n =>
    obtain ⟨h1, h2⟩ := h
    refine ⟨hk h1, t.sh.order ord, ?_, ?_, h2⟩
    · rw [← ht]; exact Spec.BT.order_perm ord _
    · rintro rfl
      show Sorted cmp t.sh.ino
      rw [ht]; exact hs
  | iterMut ord steps =>
    obtain ⟨h1, h2, h3⟩ := h
    rw [← Spec.BT.ino_length, ht] at h1 h3
    refine ⟨t.sh.order ord, ?_, ?_, h1, ?_⟩
    · rw [← ht]; exact Spec.BT.order_perm ord _
    · rintro rfl
      show Sorted cmp t.sh.ino
      rw [ht]; exact hs
    · rw [← h3, ← sh_ino]
      exact (Spec.BT.order_perm ord _).symm
  | len =>
    obtain ⟨h1, h2⟩ := h
    rw [← Spec.BT.ino_length, ht] at h1
    exact ⟨h1, hk h2⟩
  | isEmpty =>
    obtain ⟨h1, h2⟩ := h
    rw [← Spec.BT.ino_length, ht] at h1
    refine ⟨?_, hk h2⟩
    rw [h1]
    cases t.kv <;> rfl
  | capacity =>
    obtain ⟨h1, h2⟩ := h
    rw [← Spec.BT.ino_length, ht] at h1
    exact ⟨h1, hk h2⟩
  | clear d => exact ⟨h.1, hk (u := .leaf) h.2⟩
  | reserve n => exact ⟨h.1, hk h.2⟩
  | shrinkToFit => exact ⟨h.1, hk h.2⟩
  | extend cmps src =>
    obtain ⟨used, rest, h1, h2, h3⟩ := h
    obtain ⟨w, _, h4, h5⟩ := insertList_ino used hs
    refine ⟨used, rest, h1, ?_, h3⟩
    rw [hk (h2.trans h4.symm)]
    exact h5
  | debug dk dv => exact ⟨⟨_, h.1⟩, hk h.2⟩

end

theorem Op.Lawful.calm {cmp : K → K → Ordering} {op : Op K V} (h : op.Lawful cmp) : op.Calm := by
  cases op <;> first | exact h | trivial

theorem history_shape {cfg : Cfg} (ops : List (Op K V)) {m : BSTMap K V} {t : Tree K V}
    (h : Shape cfg m t) (hops : ∀ op ∈ ops, op.Calm) :
    ∃ os m' t', history cfg ops m = (os, m') ∧ Shape cfg m' t' ∧ ∀ o ∈ os, o.Safe := by
  induction ops generalizing m t with
  | nil => exact ⟨[], m, t, rfl, h, by simp⟩
  | cons op ops ih =>
    obtain ⟨o, m1, t1, h1, h2, h3⟩ := run_shape h (hops op (by simp))
    obtain ⟨os, m', t', h4, h5, h6⟩ := ih h3 fun op hop => hops op (by simp [hop])
    cases o with
    | ok r =>
      refine ⟨.ok r :: os, m', t', by simp only [history, h1, h4], h5, ?_⟩
      intro o ho
      rcases List.mem_cons.1 ho with rfl | ho
      · trivial
      · exact h6 o ho
    | panic =>
      refine ⟨.panic :: os, m', t', by simp only [history, h1, h4], h5, ?_⟩
      intro o ho
      rcases List.mem_cons.1 ho with rfl | ho
      · trivial
      · exact h6 o ho
    | abort => exact ⟨[.abort], m1, t1, by simp only [history, h1], h3, by simp [Out.Safe]⟩
    | ub => exact h2.elim
    | diverge => exact h2.elim

theorem history_tree {cfg : Cfg} {cmp : K → K → Ordering} [TransCmp cmp] (ops : List (Op K V))
    {m : BSTMap K V} {t : Tree K V} (h : Shape cfg m t) (hs : t.SortedBy cmp)
    (hops : ∀ op ∈ ops, op.Lawful cmp) :
    ∃ os m' t', history cfg ops m = (os, m') ∧ Shape cfg m' t' ∧ t'.SortedBy cmp ∧
      Spec.Conforms (Spec.TreeAnswer cmp) ops os t.sh t'.sh ∧
      Spec.Conforms (Spec.Answer cmp) ops os t.kv t'.kv := by
  induction ops generalizing m t with
  | nil => exact ⟨[], m, t, rfl, h, hs, rfl, rfl⟩
  | cons op ops ih =>
    have hop := hops op (by simp)
    obtain ⟨o, m1, t1, h1, h2, h3, h4⟩ := run_tree h hs hop
    obtain ⟨o', m1', t1', h1', hsafe, _⟩ := run_shape h hop.calm
    cases h1.symm.trans h1'
    have h4' := answer_of_tree hs hop h4
    obtain ⟨os, m', t', h5, h6, h7, h8, h9⟩ := ih h2 h3 fun op hop => hops op (by simp [hop])
    cases o with
    | ok r =>
      exact ⟨.ok r :: os, m', t', by simp only [history, h1, h5], h6, h7,
        ⟨_, h4, .inr ⟨by simp, h8⟩⟩, ⟨_, h4', .inr ⟨by simp, h9⟩⟩⟩
    | panic =>
      exact ⟨.panic :: os, m', t', by simp only [history, h1, h5], h6, h7,
        ⟨_, h4, .inr ⟨by simp, h8⟩⟩, ⟨_, h4', .inr ⟨by simp, h9⟩⟩⟩
    | abort =>
      exact ⟨[.abort], m1, t1, by simp only [history, h1], h2, h3,
        ⟨_, h4, .inl ⟨rfl, rfl, rfl⟩⟩, ⟨_, h4', .inl ⟨rfl, rfl, rfl⟩⟩⟩
    | ub => exact hsafe.elim
    | diverge => exact hsafe.elim

end BST
