import Verif.Proofs.BoxOps
/-!
# Histories of calls on a `SimpleBSTMap` in memory
-/
set_option linter.unusedSimpArgs false
set_option linter.unusedSectionVars false
namespace BST.Simple.Link
variable {K V : Type}

theorem setAt_false (w : V) (p : Place) (k : K) (v : V) (l r : Link K V) :
    (node k v l r).setAt w (false :: p) = node k v (l.setAt w p) r := by
  unfold setAt
  rw [at']
  cases l.at' p <;> rfl

theorem setAt_true (w : V) (p : Place) (k : K) (v : V) (l r : Link K V) :
    (node k v l r).setAt w (true :: p) = node k v l (r.setAt w p) := by
  unfold setAt
  rw [at']
  cases r.at' p <;> rfl

theorem alter_eq (c : Probe K) (w : V) (i : Nat) (t : Link K V) :
    t.alter c w i = match t.find c i with
      | .ok (some _) => t.setAt w (t.path c i)
      | _ => t := by
  induction t generalizing i with
  | nil => rfl
  | node k v l r ihl ihr =>
    unfold alter find path
    cases hc : c i k with
    | none => rfl
    | some o =>
      cases o with
      | lt =>
        simp only [ihl (i + 1), setAt_false]
        split <;> rfl
      | gt =>
        simp only [ihr (i + 1), setAt_true]
        split <;> rfl
      | eq => rfl

theorem alter_size (c : Probe K) (w : V) (i : Nat) (t : Link K V) :
    (t.alter c w i).size = t.size := by
  rw [alter_eq]
  split
  · exact setAt_size ..
  · rfl

theorem alter_panic {c : Probe K} {w : V} {i : Nat} {t : Link K V} (h : t.find c i = .panic) :
    t.alter c w i = t := by
  rw [alter_eq, h]

end BST.Simple.Link
namespace BST.Boxes
variable {H K V : Type} [Aliasing H] [ChainLaws H]
variable {cfg : Cfg} {n : Nat}
open ChainLaws (Wf Chain layout)
open Simple (Link sem)

theorem Run.map {α β : Type} {f : M (Mem H K V) α} {g : α → β} {s : Mem H K V}
    {P : α → Mem H K V → Prop} {Q : β → Mem H K V → Prop} {R : Mem H K V → Prop}
    (h : Run cfg n f s P R) (hq : ∀ a s', P a s' → Q (g a) s') :
    Run cfg n (f >>= fun a => Pure.pure (g a)) s Q R :=
  Run.bind h fun a s' hp => Run.pure (hq a s' hp)

theorem value_ok {x : Out (Option (K × V))} {a : Option V} (h : x.map (·.map (·.2)) = .ok a) :
    (x.map fun e => (Ret.value (e.map (·.2)) : Ret K V)) = .ok (.value a) := by
  cases x <;> cases h
  rfl

theorem step_run {s : Mem H K V} {t : Link K V} (he : 2 ≤ cfg.esize) (h : MapIs s t) (hn : s.len ≤ n)
    (op : BoxOp K V) :
    Run cfg n (op.run cfg) s
      (fun r s' => (sem op.plain t).1 = .ok r ∧ MapIs s' (sem op.plain t).2)
      (fun s' => (sem op.plain t).1 = .panic ∧ MapIs s' (sem op.plain t).2) := by
  cases op with
  | insert c k v =>
    refine ((insert_run he h hn).map (g := Ret.value) fun a s' hp => ?_).mono (fun _ _ => id) fun s' hp => ?_
    · exact ⟨value_ok hp.1, hp.2⟩
    · refine ⟨by simp only [BoxOp.plain, sem, hp.1, Out.map], ?_⟩
      simp only [BoxOp.plain, sem, Link.ins_panic hp.1]
      exact hp.2
  | removeEntry c =>
    refine ((removeEntry_run h hn).map (g := Ret.entry) fun a s' hp => ?_).mono (fun _ _ => id) fun s' hp => ?_
    · exact ⟨by simp only [BoxOp.plain, sem, hp.1, Out.map], hp.2⟩
    · refine ⟨by simp only [BoxOp.plain, sem, hp.1, Out.map], ?_⟩
      simp only [BoxOp.plain, sem, Link.del_panic hp.1]
      exact hp.2
  | get c =>
    refine ((get_run h hn).map (g := Ret.value) fun a s' hp => ?_).mono (fun _ _ => id) fun s' hp => ?_
    · exact ⟨value_ok hp.1, hp.2⟩
    · exact ⟨by simp only [BoxOp.plain, sem, hp.1, Out.map], hp.2⟩
  | getMut c w =>
    refine ((getMut_run h hn).map (g := Ret.value) fun a s' hp => ?_).mono (fun _ _ => id) fun s' hp => ?_
    · refine ⟨value_ok hp.1, ?_⟩
      have := hp.2
      rw [Link.alter_eq] at this
      exact this
    · refine ⟨by simp only [BoxOp.plain, sem, hp.1, Out.map], ?_⟩
      simp only [BoxOp.plain, sem, hp.1]
      exact hp.2
  | clear =>
    exact (clear_run h).map (g := fun _ => Ret.unit) fun a s' hp => ⟨rfl, hp⟩

theorem sem_size (op : BoxOp K V) (t : Link K V) : (sem op.plain t).2.size ≤ t.size + 1 := by
  cases op with
  | insert c k v =>
    simp only [BoxOp.plain, sem]
    rcases t.find_ok_or_panic c 0 with h | ⟨e, h⟩
    · rw [Link.ins_panic h]; omega
    · rw [Link.ins_size h]; split <;> omega
  | removeEntry c =>
    simp only [BoxOp.plain, sem]
    rcases t.find_ok_or_panic c 0 with h | ⟨e, h⟩
    · rw [Link.del_panic h]; omega
    · rw [Link.del_size h]; omega
  | get c => simp only [BoxOp.plain, sem]; omega
  | getMut c w =>
    simp only [BoxOp.plain, sem]
    split
    · rw [Link.setAt_size]; omega
    · omega
  | clear => simp only [BoxOp.plain, sem, Link.size]; omega

/-- All that is to be said about a history, for the proof by induction. -/
theorem history_run {s : Mem H K V} {t : Link K V} (he : 2 ≤ cfg.esize) (ops : List (BoxOp K V))
    (h : MapIs s t) (hn : t.size + ops.length ≤ n) {os : List (Out (Ret K V))} {s' : Mem H K V}
    (hr : execute (BoxOp.run cfg) ops s = (os, s')) :
    (∀ o ∈ os, o ≠ .ub ∧ o ≠ .diverge) ∧ (Roomy cfg n → Out.abort ∉ os) ∧
    (Out.abort ∉ os → ∃ t', MapIs s' t' ∧ ∀ (cfg' : Cfg) (m m' : Simple.Map K V), 2 ≤ cfg'.esize →
      m.root = t → Simple.Wf m → ∀ os', simpleHistory cfg' (ops.map BoxOp.plain) m = (os', m') →
      Out.abort ∉ os' → os' = os ∧ m'.root = t') := by
  induction ops generalizing s t os with
  | nil =>
    cases hr
    refine ⟨by simp, by simp, fun _ => ⟨t, h, fun cfg' m m' _ hm _ os' hs _ => ?_⟩⟩
    cases hs
    exact ⟨rfl, hm⟩
  | cons op ops ih =>
    simp only [List.length_cons] at hn
    have hst := step_run (n := n) he h (by rw [h.len]; omega) op
    have hsz := sem_size op t
    unfold Run at hst
    rcases ho : op.run cfg s with ⟨o, s1⟩
    rw [ho] at hst
    have next : ∀ (o : Out (Ret K V)), o = .panic ∨ (∃ r, o = .ok r) → op.run cfg s = (o, s1) →
        (sem op.plain t).1 = o → MapIs s1 (sem op.plain t).2 →
        (∀ o ∈ os, o ≠ .ub ∧ o ≠ .diverge) ∧ (Roomy cfg n → Out.abort ∉ os) ∧
        (Out.abort ∉ os → ∃ t', MapIs s' t' ∧ ∀ (cfg' : Cfg) (m m' : Simple.Map K V), 2 ≤ cfg'.esize →
          m.root = t → Simple.Wf m → ∀ os',
          simpleHistory cfg' ((op :: ops).map BoxOp.plain) m = (os', m') →
          Out.abort ∉ os' → os' = os ∧ m'.root = t') := by
      intro o hok ho hso hm1
      rcases hx : execute (BoxOp.run cfg) ops s1 with ⟨os1, s2⟩
      have : os = o :: os1 ∧ s' = s2 := by
        rcases hok with rfl | ⟨r, rfl⟩ <;> simp only [execute, ho, hx] at hr <;> cases hr <;>
          exact ⟨rfl, rfl⟩
      obtain ⟨rfl, rfl⟩ := this
      have hna : (Out.abort : Out (Ret K V)) ≠ o := by rcases hok with rfl | ⟨r, rfl⟩ <;> simp
      obtain ⟨h1, h2, h3⟩ := ih hm1 (by omega) hx
      refine ⟨?_, ?_, ?_⟩
      · intro x hxm
        rcases List.mem_cons.1 hxm with rfl | hxm
        · rcases hok with rfl | ⟨r, rfl⟩ <;> simp
        · exact h1 x hxm
      · intro hR hxm
        rcases List.mem_cons.1 hxm with e | hxm
        · exact hna e
        · exact h2 hR hxm
      · intro ha
        obtain ⟨t', hm', h4⟩ := h3 fun hxm => ha (List.mem_cons_of_mem _ hxm)
        refine ⟨t', hm', fun cfg' m m' he' hm hw os' hs ha' => ?_⟩
        subst hm
        obtain ⟨o1, m1, h5, ⟨h6, hw1⟩ | ⟨rfl, _, _⟩⟩ := Simple.run_sem he' (fun _ _ => .eq) hw op.plain
        · have e1 : o1 = o := by rw [← hso, ← h6]
          have e2 : m1.root = (sem op.plain m.root).2 := by rw [← h6]
          subst e1
          rcases hy : simpleHistory cfg' (ops.map BoxOp.plain) m1 with ⟨os2, m2⟩
          have hy' := hy
          unfold simpleHistory at hy' hs
          have : os' = o1 :: os2 ∧ m' = m2 := by
            rcases hok with rfl | ⟨r, rfl⟩ <;>
              simp only [List.map_cons, execute, h5, hy'] at hs <;> cases hs <;> exact ⟨rfl, rfl⟩
          obtain ⟨rfl, rfl⟩ := this
          obtain ⟨rfl, e3⟩ := h4 cfg' m1 m' he' e2 hw1 os2 hy fun hxm => ha' (List.mem_cons_of_mem _ hxm)
          exact ⟨rfl, e3⟩
        · unfold simpleHistory at hs
          simp only [List.map_cons, execute, h5] at hs
          cases hs
          simp at ha'
    cases o with
    | ok r => exact next _ (.inr ⟨r, rfl⟩) ho hst.1 hst.2
    | panic => exact next _ (.inl rfl) ho hst.1 hst.2
    | abort =>
      simp only [execute, ho] at hr
      cases hr
      exact ⟨by simp, fun hR => (hst hR).elim, by simp⟩
    | ub => exact hst.elim
    | diverge => exact hst.elim

theorem Boxed.stored {s : Mem H K V} {t : Link K V} {o : Option Pointer} {F : List Nat}
    (h : Boxed s t o F) : Stored s.nodes o t := by
  induction t generalizing o F with
  | nil => rw [h.1]; exact .nil
  | node k v l r ihl ihr =>
    obtain ⟨p, a, b, Fl, Fr, rfl, _, hx, _, _, h1, h2⟩ := h
    exact .node (n := ⟨k, v, a, b⟩) hx (ihl h1) (ihr h2)

theorem MapIs.holds {s : Mem H K V} {t : Link K V} (h : MapIs s t) : Holds s t := by
  obtain ⟨F, hv, _, _⟩ := h.root
  cases t with
  | nil => exact .nil hv.1
  | node k v l r =>
    obtain ⟨a, b, Fl, Fr, hx, _, h1, h2⟩ := hv
    exact .node (n := ⟨k, v, a, b⟩) hx h1.stored h2.stored

theorem MapIs.blocks {s : Mem H K V} {t : Link K V} (h : MapIs s t) :
    (layout s.heap).length = t.size - 1 + 1 := by
  obtain ⟨F, hv, _, hl⟩ := h.root
  rw [hl, hv.size]

omit [Aliasing H] [ChainLaws H] in
theorem Stored.unique {nodes : Nat → Option (Node K V)} {o : Option Pointer} {t t' : Link K V}
    (h : Stored nodes o t) (h' : Stored nodes o t') : t = t' := by
  induction h generalizing t' with
  | nil => cases h'; rfl
  | node hx _ _ ihl ihr =>
    cases h' with
    | node hx' h1 h2 =>
      rw [hx] at hx'
      cases hx'
      rw [ihl h1, ihr h2]

omit [ChainLaws H] in
theorem Holds.unique {s : Mem H K V} {t t' : Link K V} (h : Holds s t) (h' : Holds s t') : t = t' := by
  cases h with
  | nil hx =>
    cases h' with
    | nil _ => rfl
    | node hx' => rw [hx] at hx'; cases hx'
  | node hx h1 h2 =>
    cases h' with
    | nil hx' => rw [hx] at hx'; cases hx'
    | node hx' h1' h2' =>
      rw [hx] at hx'
      cases hx'
      rw [h1.unique h1', h2.unique h2']

/-- The end of the life of a map. -/
theorem drop_done {s : Mem H K V} {t : Link K V} (h : MapIs s t) :
    (dropMap s).1 = .ok () ∧ layout (dropMap s).2.heap = [] := by
  have := fun (cfg : Cfg) => dropMap_run (cfg := cfg) (n := 0) (R := fun _ => False) h
  have hR : Roomy ⟨true, true, 2, fun _ _ => true⟩ 0 := ⟨by decide, fun _ => rfl⟩
  have := this ⟨true, true, 2, fun _ _ => true⟩
  unfold Run at this
  split at this
  · rename_i a s' hd
    rw [hd]
    exact ⟨rfl, this⟩
  · exact this.elim
  · exact (this hR).elim
  · exact this.elim

end BST.Boxes
