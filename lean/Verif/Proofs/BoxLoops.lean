import Verif.Proofs.BoxTake
import Verif.Proofs.SimpleSem
/-!
# The loops of `SimpleBSTMap` in memory
-/
set_option linter.unusedSimpArgs false
set_option linter.unusedSectionVars false
namespace BST.Boxes
variable {H K V : Type} [Aliasing H] [ChainLaws H]
variable {cfg : Cfg} {n u : Nat} {α β : Type} {R : Mem H K V → Prop}
open ChainLaws (Wf Chain layout)
open Simple (Link)

theorem Eff.weaken {s s' : Mem H K V} {F D F' D' : List Nat} {δ ν : Int}
    (h : Eff u F D δ ν s s') (hi : Inv s) (hF : ∀ b ∈ F, b ∈ F') (hD : ∀ b ∈ D, b ∈ D')
    (hs : ∀ b ∈ D', b ∈ F') : Eff u F' D' δ ν s s' :=
  h.trans (Eff.refl h.inv) F' D' hi hF (by simp) hD (by simp) hs (by omega) (by omega)

theorem At.quiet {s s' : Mem H K V} {p q : Pointer} {w w' : Bool} {c c' : List (Nat × Bool)}
    {t : Link K V} {F : List Nat} (h : At s p w c t F) (he : Quiet u [p.block] s s') (hi : Inv s)
    (hq : q.block = p.block) (hc : Cell s' p.block (c' ++ [(q.tag, w')])) : At s' q w' c' t F := by
  obtain ⟨x, hx, hv, hn, hlt, _⟩ := h
  exact ⟨x, by rw [he.nodes, hq]; exact hx, hv.frame he.eff hi (by foot), by rw [hq]; exact hn,
    by rw [he.next, hq]; exact hlt, by rw [hq]; exact hc⟩

theorem At.back {s : Mem H K V} {p : Pointer} {t' : Nat} {w w' : Bool} {c : List (Nat × Bool)}
    {t : Link K V} {F : List Nat} (h : At s ⟨p.block, t'⟩ w' (c ++ [(p.tag, w)]) t F) :
    At s p w c t F := by
  obtain ⟨x, hx, hv, hn, hlt, hc⟩ := h
  exact ⟨x, hx, hv, hn, hlt, hc.sub (by simp)⟩

theorem At.reborrow_run {s : Mem H K V} {p : Pointer} {c : List (Nat × Bool)} {t : Link K V}
    {F : List Nat} {k : RefKind} (h : At s p true c t F) (hi : Inv s) (hk : k ≠ .shared) :
    Run cfg n (reborrow k p) s (fun q s' => ∃ t', q = ⟨p.block, t'⟩ ∧
      At s' ⟨p.block, t'⟩ true (c ++ [(p.tag, true)]) t F ∧ Quiet u [p.block] s s') R := by
  have hc := h
  obtain ⟨_, _, _, _, _, hc⟩ := hc
  refine Run.mono (Boxes.reborrow_run (u := u) hi hk hc) ?_ (fun _ h => h)
  rintro _ s1 ⟨t', rfl, hc1, q1⟩
  exact ⟨t', rfl, h.quiet q1 hi rfl (by simpa using hc1), q1⟩

theorem At.keyOf_run {s : Mem H K V} {p : Pointer} {c : List (Nat × Bool)} {w : Bool} {k : K} {v : V}
    {l r : Link K V} {F : List Nat} (h : At s p w c (.node k v l r) F) (hi : Inv s) :
    Run cfg n (keyOf p) s (fun k' s' => k' = k ∧ At s' p w c (.node k v l r) F ∧
      Quiet u [p.block] s s') R := by
  have hc := h
  obtain ⟨x, hx, ⟨a, b, _, _, ho, _⟩, _, _, hc⟩ := hc
  cases ho
  refine Run.mono (Boxes.keyOf_run (u := u) hi hx hc) ?_ (fun _ h => h)
  rintro _ s1 ⟨rfl, hc1, q1⟩
  exact ⟨rfl, h.quiet q1 hi rfl hc1, q1⟩

theorem At.valueOf_run {s : Mem H K V} {p : Pointer} {c : List (Nat × Bool)} {w : Bool} {k : K}
    {v : V} {l r : Link K V} {F : List Nat} (h : At s p w c (.node k v l r) F) (hi : Inv s) :
    Run cfg n (valueOf p) s (fun v' s' => v' = v ∧ At s' p w c (.node k v l r) F ∧
      Quiet u [p.block] s s') R := by
  have hc := h
  obtain ⟨x, hx, ⟨a, b, _, _, ho, _⟩, _, _, hc⟩ := hc
  cases ho
  refine Run.mono (Boxes.valueOf_run (u := u) hi hx hc) ?_ (fun _ h => h)
  rintro _ s1 ⟨rfl, hc1, q1⟩
  exact ⟨rfl, h.quiet q1 hi rfl hc1, q1⟩

theorem At.swapValue_run {s : Mem H K V} {p : Pointer} {c : List (Nat × Bool)} {k : K}
    {v v' : V} {l r : Link K V} {F : List Nat} (h : At s p true c (.node k v l r) F) (hi : Inv s) :
    Run cfg n (swapValue p v') s (fun a s' => a = v ∧ At s' p true c (.node k v' l r) F ∧
      Eff u [p.block] [] 0 0 s s') R := by
  obtain ⟨x, hx, ⟨a, b, Fl, Fr, ho, rfl, hl, hr⟩, hn, hlt, hc⟩ := h
  cases ho
  refine Run.mono (Boxes.swapValue_run (u := u) hi hx hc) ?_ (fun _ h => h)
  rintro _ s1 ⟨rfl, hc1, hx1, hnx, e1⟩
  exact ⟨rfl, ⟨_, hx1, ⟨a, b, Fl, Fr, rfl, rfl, hl.frame e1 hi (by foot), hr.frame e1 hi (by foot)⟩, hn,
    by rw [hnx]; exact hlt, hc1⟩, e1⟩

/-! ### `remove_entry` -/

/-- What the search loop of `remove_entry` does in the subtree `t`, and what follows it, if the
first comparison does not find the key. -/
def RemOk (H : Type) [Aliasing H] [ChainLaws H] (cfg : Cfg) (n u : Nat) (pr : Probe K)
    (t : Link K V) : Prop :=
  ∀ (s : Mem H K V) (p : Pointer) (c : List (Nat × Bool)) (par : Option Pointer) (i m : Nat)
    (F : List Nat), (∀ k v l r, t = .node k v l r → pr i k ≠ some .eq) → At s p true c t F →
    Inv s → s.len ≤ n → 0 < s.len → Len s u → t.size < m →
    Run cfg n (loop m (findStep pr) (i, par, some p) >>= removeFound cfg u) s
      (fun e s' => t.find pr i = .ok e ∧ ∃ F', At s' p true c (t.del pr i) F' ∧
        (∀ b ∈ F', b ∈ F ∨ s.next ≤ b) ∧
        Eff u (p.block :: F) F (F'.length - F.length) (if e.isSome then -1 else 0) s s')
      (fun s' => t.find pr i = .panic ∧ At s' p true c t F ∧ Eff u (p.block :: F) [] 0 0 s s')

theorem Split.asPtrMut_run {s : Mem H K V} {p : Pointer} {c : List (Nat × Bool)} {x : Node K V}
    {side : Bool} {y z : Link K V} {Fy Fz : List Nat} {a : Option Pointer}
    (h : Split s p true c x side y z Fy Fz) (hi : Inv s)
    (ha : (x.child side = none ∧ a = none) ∨ ∃ b t, x.child side = some b ∧ a = some ⟨b.block, t⟩ ∧
      Cell s b.block [(b.tag, true), (t, true)]) :
    Run cfg n (asPtrMut a) s (fun o s' => Split s' p true c x side y z Fy Fz ∧
      Quiet u (p.block :: Fy) s s' ∧ ((x.child side = none ∧ o = none) ∨
        ∃ b t r, x.child side = some b ∧ o = some ⟨b.block, r⟩ ∧
          Cell s' b.block ([(b.tag, true), (t, true)] ++ [(r, true)]))) R := by
  rcases ha with ⟨h1, rfl⟩ | ⟨b, t, h1, rfl, hc⟩
  · exact Run.pure ⟨h, (Quiet.refl hi).trans (Quiet.refl hi) hi (by simp) (by simp), .inl ⟨h1, rfl⟩⟩
  · unfold asPtrMut
    have hn := h.nodup
    refine Run.bind (Boxes.reborrow_run (u := u) (k := .raw) (c := [(b.tag, true)]) hi (by decide) hc) ?_
    rintro _ s1 ⟨r, rfl, hc1, q1⟩
    simp only at hc1 q1
    have hy := h.this
    rw [h1] at hy
    obtain ⟨F', rfl, hl, _⟩ := hy.some_top
    refine Run.pure ⟨⟨by rw [q1.nodes]; exact h.node, ?_, h.other.frame q1.eff hi (by foot), hn,
      by rw [q1.next]; exact h.lt, h.cell.frame q1.eff (by foot) h.lt⟩,
      q1.trans (Quiet.refl q1.eff.inv) hi (by simp) (by simp), .inr ⟨b, t, r, h1, rfl, by simpa using hc1⟩⟩
    rw [h1]
    exact hy.retop q1.eff hi (by foot) (by rw [q1.nodes]) (hc1.sub (by simp)) (by foot)

/-- In the child of a node. -/
theorem removeDown_run {s : Mem H K V} {pr : Probe K} {p : Pointer} {c : List (Nat × Bool)}
    {x : Node K V} {side : Bool} {y z : Link K V} {Fy Fz : List Nat} {a : Option Pointer} {j m : Nat}
    (ih : RemOk H cfg n u pr y) (h : Split s p true c x side y z Fy Fz) (hi : Inv s)
    (ha : (x.child side = none ∧ a = none) ∨ ∃ b t r, x.child side = some b ∧
      a = some ⟨b.block, r⟩ ∧ Cell s b.block ([(b.tag, true), (t, true)] ++ [(r, true)]))
    (hlen : s.len ≤ n) (hpos : 0 < s.len) (hs : Len s u) (hm : y.size < m) :
    Run cfg n (loop m (findStep pr) (j, some p, a) >>= removeFound cfg u) s
      (fun e s' => y.find pr j = .ok e ∧ ∃ b' F', Split s' p true c (x.setChild side b') side
        (y.del pr j) z F' Fz ∧ (∀ b ∈ F', b ∈ Fy ∨ s.next ≤ b) ∧
        Eff u (p.block :: (Fy ++ Fz)) Fy (F'.length - Fy.length) (if e.isSome then -1 else 0) s s')
      (fun s' => y.find pr j = .panic ∧ Split s' p true c x side y z Fy Fz ∧
        Eff u (p.block :: (Fy ++ Fz)) [] 0 0 s s') := by
  obtain ⟨m, rfl⟩ : ∃ m', m = m' + 1 := ⟨m - 1, by omega⟩
  have hset : x.setChild side (x.child side) = x := by cases side <;> rfl
  rcases ha with ⟨h1, rfl⟩ | ⟨b, t, r, h1, rfl, hc⟩
  · have hy := h.this
    rw [h1] at hy
    obtain ⟨rfl, rfl⟩ := hy.none_nil
    refine loop_run (P := fun x s' => x = .inr (some p, none) ∧ s' = s) (Run.pure ⟨rfl, rfl⟩) ?_ ?_
    · rintro _ _ ⟨hh, _⟩; cases hh
    · rintro _ _ ⟨hh, rfl⟩
      cases hh
      refine Run.pure ⟨rfl, x.child side, [], by rw [hset]; exact h, by simp, ?_⟩
      exact (Eff.refl hi).trans (Eff.refl hi) _ _ hi (by simp) (by simp) (by simp) (by simp)
        (by simp) (by simp) (by simp)
  · obtain ⟨F0, rfl, hlay, hat⟩ := h.down hi h1 hc
    have hn := h.nodup
    have hb0 : ∀ e ∈ b.block :: F0, e ∈ p.block :: (b.block :: F0 ++ Fz) := by foot
    cases y with
    | nil =>
      have hy := h.this
      rw [h1] at hy
      cases hy.1
    | node k v l r' =>
      by_cases heq : pr j k = some .eq
      · refine loop_run (P := fun o s' => o = .inr (some p, some ⟨b.block, r⟩) ∧
            At s' ⟨b.block, r⟩ true [(b.tag, true), (t, true)] (.node k v l r') F0 ∧
            Quiet u [b.block] s s') ?_ ?_ ?_
        · unfold findStep
          simp only
          refine Run.bind (hat.reborrow_run (u := u) hi (by decide)) ?_
          rintro _ s1 ⟨t1, rfl, hat1, q1⟩
          refine Run.bind (hat1.keyOf_run (u := u) q1.eff.inv) ?_
          rintro _ s2 ⟨rfl, hat2, q2⟩
          rw [heq]
          exact Run.pure ⟨rfl, hat2.back, q1.one q2 hi⟩
        · rintro _ _ ⟨hh, _⟩; cases hh
        · rintro _ s1 ⟨hh, hat1, q1⟩
          cases hh
          have e1 : Eff u (b.block :: F0) F0 0 0 s s1 := q1.eff.weaken hi (by foot) (by simp) (by foot)
          have h2 := h.up hi h1 hat1 e1 (fun _ h => .inl h)
          unfold removeFound
          simp only
          obtain ⟨_, _, _, _, _, hc1⟩ := hat1
          have hle := q1.eff.len
          refine Run.bind (takeOut_run (u := u) h2 q1.eff.inv h1 hc1 (by omega) (by omega) (hs.eff e1)) ?_
          rintro _ s2 ⟨rfl, b', F', h3, hF', e2⟩
          rw [q1.next] at hF'
          refine Run.pure ⟨by simp only [Link.find, heq], b', F', by simp only [Link.del, heq]; exact h3, hF', ?_⟩
          exact e1.trans e2 _ _ hi (by foot) (by foot) (by foot) (by foot) (by foot) (by omega) (by simp)
      · refine Run.mono (ih s ⟨b.block, r⟩ _ (some p) j (m + 1) F0 ?_ hat hi hlen hpos hs hm) ?_ ?_
        · intro k' v' l' r'' hh
          cases hh
          exact heq
        · rintro e s1 ⟨hf, F', hat1, hF', e1⟩
          have h2 := h.up hi h1 hat1 e1 hF'
          refine ⟨hf, x.child side, b.block :: F', by rw [hset]; exact h2, by
            grind only [= List.mem_cons], ?_⟩
          refine (e1.trans (Eff.refl e1.inv) _ _ hi hb0 (by simp) (by foot) (by simp) (by foot) ?_ (by omega))
          simp only [List.length_cons]
          omega
        · rintro s1 ⟨hf, hat1, e1⟩
          have h2 := h.up hi h1 hat1 (e1.weaken hi (fun _ h => h) (by simp) (by foot)) (fun _ h => .inl h)
          exact ⟨hf, h2, e1.weaken hi hb0 (by simp) (by simp)⟩

/-- At a node, after the comparison. -/
theorem removeStep_run {s : Mem H K V} {p : Pointer} {q : Nat} {c : List (Nat × Bool)}
    {k : K} {v : V} {side : Bool} {y z : Link K V} {F : List Nat} {j : Nat}
    (h : At s ⟨p.block, q⟩ true (c ++ [(p.tag, true)]) (treeOf k v side y z) F) (hi : Inv s) :
    Run cfg n (do
        let r ← childMut side ⟨p.block, q⟩
        let o ← asPtrMut r
        pure (Sum.inl (j, some p, o) : (Nat × Option Pointer × Option Pointer) ⊕
          (Option Pointer × Option Pointer))) s
      (fun o s' => ∃ a x Fy Fz, o = .inl (j, some p, a) ∧ F = both side Fy Fz ∧ x.key = k ∧
        x.value = v ∧ Split s' p true c x side y z Fy Fz ∧ ((x.child side = none ∧ a = none) ∨
          ∃ b t r, x.child side = some b ∧ a = some ⟨b.block, r⟩ ∧
            Cell s' b.block ([(b.tag, true), (t, true)] ++ [(r, true)])) ∧
        Quiet u (p.block :: F) s s') R := by
  obtain ⟨x, Fy, Fz, rfl, hk, hv, h1⟩ := h.split
  refine Run.bind (h1.childMut_run (u := u) hi) ?_
  rintro a s1 ⟨h2, q1, ha⟩
  refine Run.bind (h2.asPtrMut_run (u := u) q1.eff.inv ha) ?_
  rintro o s2 ⟨h3, q2, ho⟩
  refine Run.pure ⟨o, x, Fy, Fz, rfl, rfl, hk, hv, h3.back, ho, ?_⟩
  exact q1.trans q2 hi (by grind only [= List.mem_cons, mem_both]) (by grind only [= List.mem_cons, mem_both])

theorem removeLoop_run (pr : Probe K) (t : Link K V) : RemOk H cfg n u pr t := by
  have key : ∀ (k : K) (v : V) (l r : Link K V), RemOk H cfg n u pr l → RemOk H cfg n u pr r →
      RemOk H cfg n u pr (.node k v l r) := by
    intro k v l r ihl ihr s p c par i m F hne hat hi hlen hpos hs hm
    obtain ⟨m, rfl⟩ : ∃ m', m = m' + 1 := ⟨m - 1, by omega⟩
    refine loop_run (P := fun o s' => ∃ side y z a x Fy Fz, .node k v l r = treeOf k v side y z ∧
        RemOk H cfg n u pr y ∧ y.size < m ∧ (Link.node k v l r).find pr i = y.find pr (i + 1) ∧
        (Link.node k v l r).del pr i = treeOf k v side (y.del pr (i + 1)) z ∧
        o = .inl (i + 1, some p, a) ∧ F = both side Fy Fz ∧ x.key = k ∧ x.value = v ∧
        Split s' p true c x side y z Fy Fz ∧ ((x.child side = none ∧ a = none) ∨
          ∃ b t r, x.child side = some b ∧ a = some ⟨b.block, r⟩ ∧
            Cell s' b.block ([(b.tag, true), (t, true)] ++ [(r, true)])) ∧
        Quiet u (p.block :: F) s s') ?_ ?_ ?_
    · unfold findStep
      simp only
      refine Run.bind (hat.reborrow_run (u := u) hi (by decide)) ?_
      rintro _ s1 ⟨t1, rfl, hat1, q1⟩
      refine Run.bind (hat1.keyOf_run (u := u) q1.eff.inv) ?_
      rintro k' s2 ⟨hk', hat2, q2⟩
      subst k'
      have q02 : Quiet u (p.block :: F) s s2 := q1.trans q2 hi (by simp) (by simp)
      simp only [Link.size] at hm
      cases hc : pr i k with
      | none =>
        exact Run.panic rfl ⟨by simp only [Link.find, hc], hat2.back, q02.eff⟩
      | some o =>
        cases o with
        | eq => exact absurd hc (hne _ _ _ _ rfl)
        | lt =>
          refine Run.mono (removeStep_run (u := u) (side := false) (y := l) (z := r) (j := i + 1)
            hat2 q2.eff.inv) ?_ (fun _ h => h)
          rintro o s3 ⟨a, x, Fy, Fz, ho, h1, h2, h3, h4, h5, h7⟩
          exact ⟨false, l, r, a, x, Fy, Fz, rfl, ihl, by omega, by simp only [Link.find, hc],
            by simp only [Link.del, hc]; rfl, ho, h1, h2, h3, h4, h5,
            q02.trans h7 hi (fun _ h => h) (fun _ h => h)⟩
        | gt =>
          refine Run.mono (removeStep_run (u := u) (side := true) (y := r) (z := l) (j := i + 1)
            hat2 q2.eff.inv) ?_ (fun _ h => h)
          rintro o s3 ⟨a, x, Fy, Fz, ho, h1, h2, h3, h4, h5, h7⟩
          exact ⟨true, r, l, a, x, Fy, Fz, rfl, ihr, by omega, by simp only [Link.find, hc],
            by simp only [Link.del, hc]; rfl, ho, h1, h2, h3, h4, h5,
            q02.trans h7 hi (fun _ h => h) (fun _ h => h)⟩
    · rintro _ s1 ⟨side, y, z, a, x, Fy, Fz, ht, ih, hsz, hf, hd, ho, rfl, hk, hv, h, ha, q⟩
      cases ho
      have hle := q.eff.len
      have hq := q.next
      refine Run.mono (removeDown_run (u := u) ih h q.eff.inv ha (by omega) (by omega) (hs.eff q.eff)
        hsz) ?_ ?_
      · rintro e s2 ⟨hfe, b', F', h2, hF', e2⟩
        have hat2 := h2.at
        have hkv : (x.setChild side b').key = k ∧ (x.setChild side b').value = v := by
          rw [← hk, ← hv]; cases side <;> exact ⟨rfl, rfl⟩
        rw [hkv.1, hkv.2] at hat2
        rw [hq] at hF'
        refine ⟨hf.trans hfe, _, by rw [hd]; exact hat2, by grind only [mem_both], ?_⟩
        refine q.eff.trans e2 _ _ hi (fun _ h => h)
          (by grind only [mem_both, = List.mem_cons, = List.mem_append]) (by simp)
          (by grind only [mem_both]) (fun _ h => List.mem_cons_of_mem _ h) ?_ (by omega)
        rw [both_length, both_length]
        omega
      · rintro s2 ⟨hfe, h2, e2⟩
        have hat2 := h2.at
        rw [hk, hv, ← ht] at hat2
        exact ⟨hf.trans hfe, hat2, q.eff.trans e2 _ _ hi (fun _ h => h)
          (by grind only [mem_both, = List.mem_cons, = List.mem_append]) (by simp) (by simp) (by simp)
          (by omega) (by omega)⟩
    · rintro _ _ ⟨side, y, z, a, x, Fy, Fz, ht, ih, hsz, hf, hd, ho, _⟩
      cases ho
  induction t with
  | nil => intro s p c par i m F hne hat; obtain ⟨x, _, hv, _⟩ := hat; cases hv.1
  | node k v l r ihl ihr => exact key k v l r ihl ihr

end BST.Boxes
