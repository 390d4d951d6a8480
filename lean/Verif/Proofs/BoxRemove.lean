import Verif.Proofs.BoxFuns
/-!
# `remove_entry` on boxes in memory: the node that replaces the removed one
-/
set_option linter.unusedSimpArgs false
set_option linter.unusedSectionVars false
namespace BST.Boxes
variable {H K V : Type} [Aliasing H] [ChainLaws H]
variable {cfg : Cfg} {n u : Nat} {α β : Type} {R : Mem H K V → Prop}
open ChainLaws (Wf Chain layout)
open Simple (Link)

/-- What follows the loop in `cutSucc`. -/
def cutRest (cfg : Cfg) (x : Pointer × Pointer) : M (Mem H K V) (Node K V) := do
  let node ← reborrow .excl x.2
  let succRight ← takeChild true node
  let parentNode ← reborrow .excl x.1
  let old ← replaceChild cfg false parentNode succRight
  unwrap old

theorem loop_run {γ δ : Type} {m : Nat} {body : γ → M (Mem H K V) (γ ⊕ δ)} {b : γ}
    {g : δ → M (Mem H K V) β} {s : Mem H K V} {P : γ ⊕ δ → Mem H K V → Prop}
    {Q : β → Mem H K V → Prop}
    (h : Run cfg n (body b) s P R)
    (hl : ∀ b' s', P (.inl b') s' → Run cfg n (loop m body b' >>= g) s' Q R)
    (hr : ∀ a s', P (.inr a) s' → Run cfg n (g a) s' Q R) :
    Run cfg n (loop (m + 1) body b >>= g) s Q R := by
  have : (loop (m + 1) body b >>= g) s = (body b >>= fun x => match x with
      | .inl b' => loop m body b' >>= g
      | .inr a => g a) s := by
    rw [loop_succ, M.bind_apply, M.bind_apply, M.bind_apply]
    rcases body b s with ⟨o, s1⟩
    cases o with
    | ok x => cases x <;> rfl
    | panic => rfl
    | abort => rfl
    | ub => rfl
    | diverge => rfl
  have hw : Run cfg n (body b >>= fun x => match x with
      | .inl b' => loop m body b' >>= g
      | .inr a => g a) s Q R := by
    refine Run.bind h ?_
    rintro (b' | a) s' hp
    · exact hl b' s' hp
    · exact hr a s' hp
  unfold Run at hw ⊢
  rw [this]
  exact hw

/-- Keeps a hypothesis out of the sight of `foot`. -/
structure Hide (p : Prop) : Prop where
  out : p

theorem cut_run {s : Mem H K V} {P S b : Pointer} {c d : List (Nat × Bool)} {x : Node K V}
    {lk : K} {lv : V} {ll lr : Link K V} {a a' : Option Pointer} {Fl Fr : List Nat} {m : Nat}
    (hi : Inv s) (hlen : s.len ≤ n)
    (hx : s.nodes P.block = some x) (hP : P.block < s.next)
    (hcP : Cell s P.block (c ++ [(P.tag, true)]))
    (hxl : x.left = some b) (hS : S.block = b.block)
    (hy : s.nodes b.block = some ⟨lk, lv, a, a'⟩) (hly : (b.block, 3) ∈ layout s.heap)
    (hcS : Cell s b.block ((b.tag, true) :: d ++ [(S.tag, true)]))
    (hl : Boxed s ll a Fl) (hr : Boxed s lr a' Fr)
    (hn : (P.block :: b.block :: (Fl ++ Fr)).Nodup) (hm : ll.size < m) :
    Run cfg n (loop m succStep (P, S) >>= cutRest cfg) s (fun y s' => ∃ b' F',
      y = ⟨(Link.popMin lk lv lr ll).1.1, (Link.popMin lk lv lr ll).1.2, none, none⟩ ∧
      Boxed s' (Link.popMin lk lv lr ll).2 b' F' ∧ F'.Nodup ∧
      (∀ e ∈ F', e ∈ b.block :: (Fl ++ Fr) ∨ s.next ≤ e) ∧
      s'.nodes P.block = some { x with left := b' } ∧ Cell s' P.block (c ++ [(P.tag, true)]) ∧
      Eff u (P.block :: b.block :: (Fl ++ Fr)) (b.block :: (Fl ++ Fr))
        (F'.length - (1 + Fl.length + Fr.length)) 0 s s') R := by
  induction ll generalizing s P S b c d x lk lv lr a a' Fl Fr m with
  | nil =>
    obtain ⟨rfl, rfl⟩ := hl
    obtain ⟨sb, st⟩ := S
    simp only at hS
    subst hS
    cases m with
    | zero => simp at hm
    | succ m =>
      have hb := hi.lt hly
      have hFr := hr.lt hi
      refine loop_run (P := fun z s' => z = .inr (P, ⟨b.block, st⟩) ∧ Quiet u [b.block] s s' ∧
        Cell s' b.block ((b.tag, true) :: d ++ [(st, true)])) ?_ ?_ ?_
      · unfold succStep
        refine Run.bind (reborrow_run (u := u) (p := ⟨b.block, st⟩) hi (by decide) hcS) ?_
        rintro _ s1 ⟨t1, rfl, hc1, q1⟩
        have hc1' : Cell s1 b.block ((b.tag, true) :: d ++ [(st, true)] ++ [(t1, true)]) := by simpa using hc1
        refine Run.bind (childMut_run (u := u) (p := ⟨b.block, t1⟩) (d := []) q1.eff.inv
          (by rw [q1.nodes]; exact hy) (by rw [q1.next]; exact hb) hc1' (fun e he => by cases he)) ?_
        rintro o s2 ⟨hc2, ⟨_, rfl, q2⟩ | ⟨e, _, he, _⟩⟩
        · exact Run.pure ⟨rfl, q1.one q2 hi, hc2.sub (by simp)⟩
        · cases he
      · rintro b' s' ⟨h, _⟩
        cases h
      · rintro z s1 ⟨h, q1, hc1⟩
        cases h
        have hcP1 := hcP.frame q1.eff (by foot) hP
        unfold cutRest
        refine Run.bind (reborrow_run (u := u) (p := ⟨b.block, st⟩) q1.eff.inv (by decide) hc1) ?_
        rintro _ s2 ⟨t2, rfl, hc2, q2⟩
        have q12 := q1.one q2 hi
        have hc2' : Cell s2 b.block ((b.tag, true) :: d ++ [(st, true)] ++ [(t2, true)]) := by simpa using hc2
        refine Run.bind (takeChild_run (u := u) (p := ⟨b.block, t2⟩) (side := true) q12.eff.inv
          (by rw [q12.nodes]; exact hy) (by rw [q12.next]; exact hb) hc2'
          (hr.frame q12.eff hi (by foot)) (by foot) (by foot)) ?_
        rintro o s3 ⟨F1, h3, hn3, hs3, hy3, hc3, hx3, e3⟩
        have hP2 : P.block < s2.next := by rw [q12.next]; exact hP
        have hcP3 := (hcP1.frame q2.eff (by foot) (by rw [q1.next]; exact hP)).frame e3 (by foot) hP2
        refine Run.bind (reborrow_run (u := u) e3.inv (by decide) hcP3) ?_
        rintro _ s4 ⟨t4, rfl, hc4, q4⟩
        have hc4' : Cell s4 P.block (c ++ [(P.tag, true)] ++ [(t4, true)]) := by simpa using hc4
        have e14 : Eff u (P.block :: b.block :: Fr) Fr (F1.length - Fr.length) 0 s s4 := by
          have : Eff u (P.block :: b.block :: Fr) Fr (F1.length - Fr.length) 0 s s3 :=
            q12.eff.trans e3 _ _ hi (by foot) (by foot) (by foot) (by foot) (by foot) (by omega) (by omega)
          exact this.trans q4.eff _ _ hi (by foot) (by foot) (by foot) (by foot) (by foot) (by omega) (by omega)
        have hx4 : s4.nodes P.block = some x := by
          rw [q4.nodes, e3.nodes _ (by foot) hP2, q12.nodes]; exact hx
        have hb4 : Boxed s4 (Link.node lk lv .nil .nil) (x.child false) [b.block] := by
          refine ⟨b, none, none, [], [], hxl, by simp, ?_, ?_, ?_, ⟨rfl, rfl⟩, ⟨rfl, rfl⟩⟩
          · rw [q4.nodes]
            exact hy3
          · exact e14.lay _ _ (by foot) hly
          · exact (hc3.sub (by simp)).frame q4.eff (by foot) (by rw [hx3, q12.next]; exact hb)
        have hlen4 : s4.len ≤ n := by have := e14.len; omega
        refine Run.bind (replaceChild_run (u := u) (p := ⟨P.block, t4⟩) (side := false) e14.inv hx4
          (by rw [q4.next, hx3]; exact hP2) hc4' (h3.frame q4.eff e3.inv (by foot)) hb4 (by foot) (by foot) hlen4) ?_
        rintro o s5 ⟨b', F', G', h5, hv5, hn5, hs5, hg5, hx5, hc5, e5⟩
        obtain ⟨_, _, Fa, Fb, ho, hG, ⟨rfl, rfl⟩, ⟨rfl, rfl⟩⟩ := hv5
        subst ho hG
        unfold unwrap
        have := e14.next
        refine Run.pure ⟨b', F', rfl, h5, by foot, by foot, hx5, hc5.sub (by simp), ?_⟩
        refine e14.trans e5 _ _ hi (by foot) (by foot) (by foot) (by foot) (by foot) ?_ (by omega)
        simp only [List.length_nil, List.length_cons, List.length_append]
        omega
  | node k2 v2 l2 r2 ihl ihr =>
    clear ihr
    replace ihl := Hide.mk @ihl
    obtain ⟨p2, a2, b2, F2l, F2r, rfl, rfl, hx2, hl2, hc2, h2l, h2r⟩ := hl
    obtain ⟨sb, st⟩ := S
    simp only at hS
    subst hS
    cases m with
    | zero => simp at hm
    | succ m =>
      have hb := hi.lt hly
      have hp2 := hi.lt hl2
      have hFr := hr.lt hi
      refine loop_run (P := fun z s' => ∃ t r, z = .inl (⟨b.block, st⟩, ⟨p2.block, r⟩) ∧
        Quiet u [b.block, p2.block] s s' ∧ Cell s' b.block ((b.tag, true) :: d ++ [(st, true)]) ∧
        Cell s' p2.block ((p2.tag, true) :: [(t, true)] ++ [(r, true)])) ?_ ?_ ?_
      · unfold succStep
        refine Run.bind (reborrow_run (u := u) (p := ⟨b.block, st⟩) hi (by decide) hcS) ?_
        rintro _ s1 ⟨t1, rfl, hc1, q1⟩
        have hc1' : Cell s1 b.block ((b.tag, true) :: d ++ [(st, true)] ++ [(t1, true)]) := by simpa using hc1
        refine Run.bind (childMut_run (u := u) (p := ⟨b.block, t1⟩) (d := []) q1.eff.inv
          (by rw [q1.nodes]; exact hy) (by rw [q1.next]; exact hb) hc1' (fun e he => by
            cases he
            exact ⟨by foot, by rw [q1.next]; exact hp2, hc2.frame q1.eff (by foot) hp2⟩)) ?_
        rintro o s2 ⟨hc2', ⟨he, _⟩ | ⟨e, t2, he, rfl, hce, q2⟩⟩
        · cases he
        · cases he
          refine Run.bind (reborrow_run (u := u) (p := ⟨p2.block, t2⟩) (c := [(p2.tag, true)])
            q2.eff.inv (by decide) hce) ?_
          rintro _ s3 ⟨t3, rfl, hc3, q3⟩
          refine Run.pure ⟨t2, t3, rfl, ?_, ?_, hc3⟩
          · exact (q1.trans q2 (F := [b.block, p2.block]) hi (by foot) (by foot)).trans q3 hi (by foot) (by foot)
          · exact (hc2'.sub (by simp)).frame q3.eff (by foot) (by rw [q2.next, q1.next]; exact hb)
      · rintro z s1 ⟨t, r, h, q1, hcb, hcp⟩
        cases h
        simp only [Link.size] at hm
        have hlen1 : s1.len ≤ n := by have := q1.eff.len; omega
        refine Run.mono (ihl.out (P := ⟨b.block, st⟩) (S := ⟨p2.block, r⟩) (b := p2) (Fl := F2l) (Fr := F2r)
          q1.eff.inv hlen1 (by rw [q1.nodes]; exact hy) (by rw [q1.next]; exact hb) hcb rfl rfl
          (by rw [q1.nodes]; exact hx2) (q1.eff.lay _ _ (by simp) hl2) hcp
          (h2l.frame q1.eff hi (by foot)) (h2r.frame q1.eff hi (by foot)) (by foot) (by omega)) ?_ (fun _ h => h)
        rintro y s2 ⟨b', F', rfl, h2, hn2, hs2, hx2', hc2', e2⟩
        have hnx := q1.next
        have e12 : Eff u (b.block :: p2.block :: (F2l ++ F2r)) (p2.block :: (F2l ++ F2r))
            (F'.length - (1 + F2l.length + F2r.length)) 0 s s2 :=
          q1.eff.trans e2 _ _ hi (by foot) (by foot) (by foot) (by foot) (by foot) (by omega) (by omega)
        have hF' : ∀ e ∈ F', e ∉ Fr := by foot
        have hF2 : b.block ∉ F' := by foot
        refine ⟨some b, b.block :: (F' ++ Fr), rfl, ?_, by foot, by foot, ?_, ?_, ?_⟩
        · refine ⟨b, b', a', F', Fr, rfl, rfl, hx2', e12.lay _ _ (by foot) hly, hc2'.sub (by simp), h2, ?_⟩
          exact hr.frame e12 hi (by foot)
        · rw [e12.nodes _ (by foot) hP, hx, ← hxl]
        · exact hcP.frame e12 (by foot) hP
        · refine e12.trans (Eff.refl e12.inv) _ _ hi (by foot) (by foot) (by foot) (by foot) (by foot) ?_ (by omega)
          simp only [List.length_cons, List.length_append]
          omega
      · rintro z s1 ⟨t, r, h, _⟩
        cases h

theorem successor_run {s : Mem H K V} {rk : K} {rv : V} {rl rr : Link K V} {x : Node K V}
    {F : List Nat} (hi : Inv s) (hlen : s.len ≤ n) (hv : Valued s (.node rk rv rl rr) (some x) F)
    (hn : F.Nodup) :
    Run cfg n (successor cfg x) s (fun y s' => ∃ F',
      Valued s' (.node (Link.popMin rk rv rr rl).1.1 (Link.popMin rk rv rr rl).1.2 .nil
        (Link.popMin rk rv rr rl).2) (some y) F' ∧ F'.Nodup ∧
      (∀ e ∈ F', e ∈ F ∨ s.next ≤ e) ∧ Eff u F F (F'.length - F.length) 0 s s') R := by
  obtain ⟨a, a', Fl, Fr, ho, rfl, hl, hr⟩ := hv
  cases ho
  have hFl := hl.lt hi
  have hFr := hr.lt hi
  unfold successor
  refine Run.bind (newBlock_run (u := u) hi) ?_
  rintro ⟨rb, rt⟩ s1 ⟨hrb, hc1, hl1, hx1, e1⟩
  simp only at hrb hc1 hl1 hx1
  subst hrb
  have hlt1 := e1.inv.lt hl1
  have hl' := hl.frame e1 hi (by simp)
  have hr' := hr.frame e1 hi (by simp)
  cases rl with
  | nil =>
    obtain ⟨rfl, rfl⟩ := hl
    refine Run.bind (childMut_run (u := u) (p := ⟨s.next, rt⟩) (c := []) (d := []) e1.inv hx1 hlt1 hc1
      (fun e he => by cases he)) ?_
    rintro o s2 ⟨hc2, ⟨_, rfl, q2⟩ | ⟨e, _, he, _⟩⟩
    · refine Run.mono (takeBlock_run (u := u) (p := ⟨s.next, rt⟩) q2.eff.inv (by rw [q2.nodes]; exact hx1)
        (q2.eff.lay _ _ (by simp) hl1) hc2) ?_ (fun _ h => h)
      rintro y s3 ⟨rfl, hx3, e3⟩
      have e13 : Eff u ([] ++ Fr) ([] ++ Fr) 0 0 s s3 := by
        have : Eff u ([] ++ Fr) ([] ++ Fr) 1 0 s s2 :=
          e1.trans q2.eff _ _ hi (by foot) (by foot) (by foot) (by foot) (by foot) (by omega) (by omega)
        exact this.trans e3 _ _ hi (by foot) (by foot) (by foot) (by foot) (by foot) (by omega) (by omega)
      refine ⟨[] ++ Fr, ⟨none, a', [], Fr, rfl, rfl, ⟨rfl, rfl⟩, ?_⟩, by foot, by foot, ?_⟩
      · exact (hr'.frame q2.eff e1.inv (by foot)).frame e3 q2.eff.inv (by foot)
      · simpa using e13
    · cases he
  | node k2 v2 l2 r2 =>
    obtain ⟨p2, a2, b2, F2l, F2r, rfl, rfl, hx2, hl2, hc2, h2l, h2r⟩ := hl'
    have hlt2 := e1.inv.lt hl2
    have hF2l : ∀ b ∈ F2l, b < s.next := fun b hb => hFl b (by simp [hb])
    have hF2r : ∀ b ∈ F2r, b < s.next := fun b hb => hFl b (by simp [hb])
    have hp2 : p2.block < s.next := hFl _ (by simp)
    clear hFl
    refine Run.bind (childMut_run (u := u) (p := ⟨s.next, rt⟩) (c := []) (d := []) e1.inv hx1 hlt1 hc1
      (fun e he => by
        cases he
        exact ⟨by foot, hlt2, hc2⟩)) ?_
    rintro o s2 ⟨hcr2, ⟨he, _⟩ | ⟨e, t2, he, rfl, hce2, q2⟩⟩
    · cases he
    · cases he
      refine Run.bind (P := fun y s' => ∃ b' F',
        y = ⟨(Link.popMin k2 v2 r2 l2).1.1, (Link.popMin k2 v2 r2 l2).1.2, none, none⟩ ∧
        Boxed s' (Link.popMin k2 v2 r2 l2).2 b' F' ∧ F'.Nodup ∧
        (∀ e ∈ F', e ∈ p2.block :: (F2l ++ F2r) ∨ s1.next ≤ e) ∧
        s'.nodes s.next = some ⟨rk, rv, b', a'⟩ ∧ Cell s' s.next [(rt, true)] ∧
        Eff u (s.next :: p2.block :: (F2l ++ F2r)) (p2.block :: (F2l ++ F2r))
          (F'.length - (1 + F2l.length + F2r.length)) 0 s1 s') ?_ ?_
      · unfold cutSucc
        refine Run.bind (reborrow_run (u := u) (p := ⟨p2.block, t2⟩) (c := [(p2.tag, true)]) q2.eff.inv
          (by decide) hce2) ?_
        rintro _ s3 ⟨t3, rfl, hc3, q3⟩
        have hcr3 := hcr2.frame q3.eff (by foot) (by rw [q2.next]; exact hlt1)
        refine Run.bind (reborrow_run (u := u) (p := ⟨s.next, rt⟩) (c := []) q3.eff.inv (by decide) hcr3) ?_
        rintro _ s4 ⟨t4, rfl, hc4, q4⟩
        refine Run.bind (reborrow_run (u := u) (p := ⟨s.next, t4⟩) (c := [(rt, true)]) q4.eff.inv (by decide) hc4) ?_
        rintro _ s5 ⟨t5, rfl, hc5, q5⟩
        refine Run.get ?_
        have q15 : Quiet u [s.next, p2.block] s1 s5 :=
          ((q2.trans q3 (F := [s.next, p2.block]) e1.inv (by foot) (by foot)).trans q4
            (F := [s.next, p2.block]) e1.inv (by foot) (by foot)).trans q5 e1.inv (by foot) (by foot)
        have hlen5 : s5.len ≤ n := by have := q15.eff.len; have := e1.len; omega
        have hl5 := h2l.frame q15.eff e1.inv (by foot)
        have hfuel : l2.size < fuel s5 := by
          have hb : (s.next :: F2l).length ≤ s1.next := nodup_bound (by foot) (by
            have := h2l.lt e1.inv
            foot)
          rw [List.length_cons, h2l.size] at hb
          unfold fuel
          rw [q15.next]
          omega
        have hc3' : Cell s5 p2.block ((p2.tag, true) :: [(t2, true)] ++ [(t3, true)]) := by
          have h34 := hc3.frame q4.eff (by foot) (by rw [q3.next, q2.next]; exact hlt2)
          exact h34.frame q5.eff (by foot) (by rw [q4.next, q3.next, q2.next]; exact hlt2)
        refine Run.mono (cut_run (u := u) (P := ⟨s.next, t5⟩) (S := ⟨p2.block, t3⟩) (b := p2)
          (c := [(rt, true), (t4, true)]) q15.eff.inv hlen5 (by rw [q15.nodes]; exact hx1)
          (by rw [q15.next]; exact hlt1) hc5 rfl rfl (by rw [q15.nodes]; exact hx2)
          (q15.eff.lay _ _ (by simp) hl2) hc3' hl5 (h2r.frame q15.eff e1.inv (by foot)) (by foot) hfuel) ?_ (fun _ h => h)
        rintro y s6 ⟨b', F', hy, h6, hn6, hs6, hx6, hc6, e6⟩
        rw [q15.next] at hs6
        refine ⟨b', F', hy, h6, hn6, hs6, hx6, hc6.sub (by simp), ?_⟩
        exact q15.eff.trans e6 _ _ e1.inv (by foot) (by foot) (by foot) (by foot) (by foot) (by omega) (by omega)
      · rintro y s2' ⟨b', F', rfl, h3, hn3, hs3, hx3, hc3, e3⟩
        clear q2 hcr2 hce2
        have hlt3 : s.next < s2'.next := by have := e3.next; omega
        have hl3 : (s.next, 3) ∈ layout s2'.heap := e3.lay _ _ (by foot) hl1
        have hr3 := hr'.frame e3 e1.inv (by foot)
        have hF'3 := h3.lt e3.inv
        refine Run.bind (newBlock_run (u := u) e3.inv) ?_
        rintro ⟨nb, nt⟩ s4 ⟨hnb, hc4, hl4, hx4, e4⟩
        simp only at hnb hc4 hl4 hx4
        subst hnb
        refine Run.bind (takeBlock_run (u := u) (p := ⟨s.next, rt⟩) e4.inv
          (by rw [e4.nodes _ (by simp) hlt3]; exact hx3) (e4.lay _ _ (by simp) hl3)
          (hc3.frame e4 (by simp) hlt3)) ?_
        rintro _ s5 ⟨rfl, hx5, e5⟩
        have hlt4 := e4.inv.lt hl4
        have hc5 := hc4.frame e5 (by foot) hlt4
        have hl5 := e5.lay _ _ (by foot) hl4
        have hx5' := (e5.nodes _ (by foot) hlt4).trans hx4
        have e35 : Eff u [s.next] [s.next] 0 0 s2' s5 :=
          e4.trans e5 _ _ e3.inv (by foot) (by foot) (by foot) (by foot) (by foot) (by omega) (by omega)
        have hnF : s.next ∉ F' := by foot
        have hv5 : Valued s5 (.node rk rv (Link.popMin k2 v2 r2 l2).2 rr) (some ⟨rk, rv, b', a'⟩) (F' ++ Fr) :=
          ⟨b', a', F', Fr, rfl, rfl, h3.frame e35 e3.inv (by foot), hr3.frame e35 e3.inv (by foot)⟩
        have hn5 : (F' ++ Fr).Nodup := by foot
        have hlen5 : s5.len ≤ n := by
          have := e35.len; have := e3.len; have := e1.len; omega
        have hnx3 := e3.next
        have hFr3 := hr3.lt e3.inv
        refine Run.bind (setChild_run (u := u) (p := ⟨s2'.next, nt⟩) (c := []) (side := true) e5.inv hx5'
          (by rw [hx5]; exact hlt4) hc5 rfl hv5 hn5 (by foot) hlen5) ?_
        rintro _ s6 ⟨b, h6, hb6, _, hx6, hc6, e6⟩
        refine Run.mono (takeBlock_run (u := u) (p := ⟨s2'.next, nt⟩) e6.inv hx6
          (e6.lay _ _ (by simp) hl5) hc6) ?_ (fun _ h => h)
        rintro y s7 ⟨rfl, hx7, e7⟩
        rw [hx5] at hb6
        have hne : b.block ≠ s2'.next := by omega
        refine ⟨[] ++ b.block :: (F' ++ Fr), ⟨none, some b, [], b.block :: (F' ++ Fr), rfl, rfl, ⟨rfl, rfl⟩, ?_⟩, ?_, ?_, ?_⟩
        · exact h6.frame e7 e6.inv (by foot)
        · have : b.block ∉ F' ++ Fr := by foot
          foot
        · have := e1.next
          have := e4.next
          foot
        · have h13 : Eff u (p2.block :: (F2l ++ F2r) ++ Fr) (p2.block :: (F2l ++ F2r) ++ Fr)
              (F'.length - (F2l.length + F2r.length)) 0 s s2' :=
            e1.trans e3 _ _ hi (by foot) (by foot) (by foot) (by foot) (by foot) (by omega) (by omega)
          have h15 : Eff u (p2.block :: (F2l ++ F2r) ++ Fr) (p2.block :: (F2l ++ F2r) ++ Fr)
              (F'.length - (F2l.length + F2r.length)) 0 s s5 :=
            h13.trans e35 _ _ hi (by foot) (by foot) (by foot) (by foot) (by foot) (by omega) (by omega)
          have hn1 := e1.next
          have h16 : Eff u (p2.block :: (F2l ++ F2r) ++ Fr) (p2.block :: (F2l ++ F2r) ++ Fr)
              (F'.length - (F2l.length + F2r.length) + 1) 0 s s6 :=
            h15.trans e6 _ _ hi (by foot) (by foot) (by foot) (by foot) (by foot) (by omega) (by omega)
          refine h16.trans e7 _ _ hi (by foot) (by foot) (by foot) (by foot) (by foot) ?_ (by omega)
          simp only [List.length_append, List.length_cons, List.length_nil]
          omega

theorem replacement_run {s : Mem H K V} {l r : Link K V} {ol or : Option (Node K V)}
    {Fl Fr : List Nat} (hi : Inv s) (hlen : s.len ≤ n) (hl : Valued s l ol Fl) (hr : Valued s r or Fr)
    (hn : (Fl ++ Fr).Nodup) :
    Run cfg n (replacement cfg ol or) s (fun o s' => ∃ F', Valued s' (Link.join l r) o F' ∧
      F'.Nodup ∧ (∀ e ∈ F', e ∈ Fl ++ Fr ∨ s.next ≤ e) ∧
      Eff u (Fl ++ Fr) (Fl ++ Fr) (F'.length - (Fl ++ Fr).length) 0 s s') R := by
  have hFl := hl.lt hi
  have hFr := hr.lt hi
  have done : Eff u (Fl ++ Fr) (Fl ++ Fr) 0 0 s s := (Eff.refl hi).trans (Eff.refl hi) _ _ hi
    (by simp) (by simp) (by simp) (by simp) (by simp) (by omega) (by omega)
  cases r with
  | nil =>
    obtain ⟨rfl, rfl⟩ := hr
    have hj : Link.join l .nil = l := by cases l <;> rfl
    have : replacement (H := H) cfg ol none = pure ol := by
      unfold replacement; cases ol <;> rfl
    rw [this, hj]
    exact Run.pure ⟨Fl, hl, by foot, by foot, by simpa using done⟩
  | node rk rv rl rr =>
    obtain ⟨ra, rb, Frl, Frr, rfl, hF, hrl, hrr⟩ := hr
    have hr : Valued s (.node rk rv rl rr) (some ⟨rk, rv, ra, rb⟩) Fr := ⟨ra, rb, Frl, Frr, rfl, hF, hrl, hrr⟩
    cases l with
    | nil =>
      obtain ⟨rfl, rfl⟩ := hl
      exact Run.pure ⟨Fr, hr, by foot, by foot, by simpa using done⟩
    | node lk lv ll lr =>
      obtain ⟨la, lb, Fll, Flr, rfl, hF', hll, hlr⟩ := hl
      have hl : Valued s (.node lk lv ll lr) (some ⟨lk, lv, la, lb⟩) Fl := ⟨la, lb, Fll, Flr, rfl, hF', hll, hlr⟩
      clear hll hlr hrl hrr hF hF'
      show Run cfg n (successor cfg _ >>= _) s _ _
      refine Run.bind (successor_run (u := u) hi hlen hr (by foot)) ?_
      rintro y s1 ⟨F1, h1, hn1, hs1, e1⟩
      have hF1 := h1.lt e1.inv
      refine Run.bind (newBlock_run (u := u) e1.inv) ?_
      rintro ⟨nb, nt⟩ s2 ⟨hnb, hc2, hl2, hx2, e2⟩
      simp only at hnb hc2 hl2 hx2
      subst hnb
      have e12 : Eff u Fr Fr (F1.length - Fr.length + 1) 0 s s2 :=
        e1.trans e2 _ _ hi (by foot) (by foot) (by foot) (by foot) (by foot) (by omega) (by omega)
      obtain ⟨a, b, Fa, Fb, ho, rfl, ⟨rfl, rfl⟩, hb⟩ := h1
      cases ho
      have hnx := e1.next
      have hlen2 : s2.len ≤ n := by have := e12.len; omega
      have hlt2 := e2.inv.lt hl2
      refine Run.bind (setChild_run (u := u) (p := ⟨s1.next, nt⟩) (c := []) (side := false) e2.inv hx2
        hlt2 hc2 rfl (hl.frame e12 hi (by foot)) (by foot) (by foot) hlen2) ?_
      rintro _ s3 ⟨c, h3, hc3', _, hx3, hc3, e3⟩
      have hb3 : Boxed s3 (Link.popMin rk rv rr rl).2 b Fb := by
        have := hb.frame e2 e1.inv (by foot)
        exact this.frame e3 e2.inv (by foot)
      refine Run.bind (takeBlock_run (u := u) (p := ⟨s1.next, nt⟩) e3.inv hx3
        (e3.lay _ _ (by simp) hl2) hc3) ?_
      rintro z s4 ⟨rfl, hx4, e4⟩
      have hne : c.block ≠ s1.next := by have := e2.next; omega
      have hn2 := e2.next
      have hd : ∀ e ∈ Fl, e ∉ Fb := by foot
      have hcF : c.block ∉ Fl ++ Fb := by foot
      refine Run.pure ⟨(c.block :: Fl) ++ Fb, ⟨some c, b, c.block :: Fl, Fb, rfl, rfl, ?_, ?_⟩, ?_, ?_, ?_⟩
      · exact h3.frame e4 e3.inv (by foot)
      · exact hb3.frame e4 e3.inv (by foot)
      · foot
      · foot
      · have h13 : Eff u (Fl ++ Fr) (Fl ++ Fr) (Fb.length - Fr.length + 2) 0 s s3 :=
          e12.trans e3 _ _ hi (by foot) (by foot) (by foot) (by foot) (by foot)
            (by simp only [List.length_append, List.length_nil]; omega) (by omega)
        refine h13.trans e4 _ _ hi (by foot) (by foot) (by foot) (by foot) (by foot) ?_ (by omega)
        simp only [List.length_append, List.length_cons]
        omega

end BST.Boxes
