import Verif.Proofs.BoxWalk
/-!
# A node is taken out of a tree of boxes
-/
set_option linter.unusedSimpArgs false
set_option linter.unusedSectionVars false
namespace BST.Boxes
variable {H K V : Type} [Aliasing H] [ChainLaws H]
variable {cfg : Cfg} {n u : Nat} {α β : Type} {R : Mem H K V → Prop}
open ChainLaws (Wf Chain layout)
open Simple (Link)

/-- `len` can be used with this tag. -/
def Len (s : Mem H K V) (u : Nat) : Prop := ∃ c, Chain s.heap ⟨0, 3⟩ (c ++ [(u, true)])

theorem Len.eff {s s' : Mem H K V} {F D : List Nat} {δ ν : Int} (h : Len s u)
    (he : Eff u F D δ ν s s') : Len s' u := by
  obtain ⟨c, hc⟩ := h
  exact ⟨c, he.self c hc⟩

/-- `len` changes. -/
theorem Eff.setLen {s s' : Mem H K V} {F D : List Nat} {δ ν ν' : Int} {m : Nat}
    (h : Eff u F D δ ν s s') (hm : (m : Int) = s.len + ν') : Eff u F D δ ν' s { s' with len := m } where
  inv := ⟨h.inv.wf, h.inv.bound, h.inv.base⟩
  next := h.next
  owner := h.owner
  sub := h.sub
  nodes := h.nodes
  lay := h.lay
  chain := h.chain
  self := h.self
  count := h.count
  len := hm

theorem touchLen_run {s : Mem H K V} {x w : Bool} {t : Nat} {c : List (Nat × Bool)} (hi : Inv s)
    (hx : x = true → w = true) (hc : Chain s.heap ⟨0, 3⟩ (c ++ [(t, w)])) :
    Run cfg n (touch x t 0 3) s (fun _ s' => s'.nodes = s.nodes ∧ s'.next = s.next ∧
      s'.owner = s.owner ∧ s'.len = s.len ∧ layout s'.heap = layout s.heap ∧ Inv s' ∧
      (∀ c, Chain s.heap ⟨0, 3⟩ (c ++ [(t, w)]) → Chain s'.heap ⟨0, 3⟩ (c ++ [(t, w)])) ∧
      ∀ q c, q ≠ ⟨0, 3⟩ → Chain s.heap q c → Chain s'.heap q c) R := by
  obtain ⟨h', e, hw, hl, hin, hout⟩ := ChainLaws.access_ok (p := ⟨0, 3⟩) (x := x) hi.wf
    (ChainLaws.sub hc (List.sublist_append_right ..)) hx
  exact Run.ok (onHeap_ok e) ⟨rfl, rfl, rfl, rfl, hl, ⟨hw, by rw [hl]; exact hi.bound,
    by rw [hl]; exact hi.base⟩, hin, hout⟩

theorem touchLen_quiet {s : Mem H K V} {x : Bool} (hi : Inv s) (hs : Len s u) :
    Run cfg n (touch x u 0 3) s (fun _ s' => s'.len = s.len ∧ Quiet u [] s s') R := by
  obtain ⟨c, hc⟩ := hs
  refine Run.mono (touchLen_run hi (fun _ => rfl) hc) ?_ (fun _ h => h)
  rintro _ s' ⟨h1, h2, h3, h4, h5, h6, h7, h8⟩
  refine ⟨h4, h1, h2, h6, by omega, h3, fun _ h => h, fun _ _ _ => by rw [h1],
    fun _ _ _ h => by rw [h5]; exact h, fun b i c hi3 _ _ h => h8 _ _ ?_ h, h7,
    by rw [h5]; omega, by rw [h4]; omega⟩
  intro he
  injection he
  omega

theorem subLen_run {s : Mem H K V} (hi : Inv s) (hs : Len s u) (hp : 0 < s.len) :
    Run cfg n (subLen cfg u) s (fun _ s' => s'.nodes = s.nodes ∧ s'.next = s.next ∧
      Eff u [] [] 0 (-1) s s') R := by
  unfold subLen
  refine Run.bind (touchLen_quiet (u := u) hi hs) ?_
  rintro _ s1 ⟨hl1, q1⟩
  refine Run.get ?_
  refine Run.lift (a := s.len - 1) (by unfold subU; rw [if_pos (by omega), hl1]) ?_
  refine Run.bind (touchLen_quiet (u := u) q1.eff.inv (hs.eff q1.eff)) ?_
  rintro _ s2 ⟨hl2, q2⟩
  refine Run.ok rfl ⟨q2.nodes.trans q1.nodes, q2.next.trans q1.next, ?_⟩
  exact (q1.trans q2 (F := []) hi (fun _ h => h) (fun _ h => h)).eff.setLen (by omega)

theorem addLen_run {s : Mem H K V} (hi : Inv s) (hs : Len s u) (hp : s.len + 1 < usizeBound) :
    Run cfg n (addLen cfg u) s (fun _ s' => s'.nodes = s.nodes ∧ s'.next = s.next ∧
      Eff u [] [] 0 1 s s') R := by
  unfold addLen
  refine Run.bind (touchLen_quiet (u := u) hi hs) ?_
  rintro _ s1 ⟨hl1, q1⟩
  refine Run.get ?_
  refine Run.lift (a := s.len + 1) (by unfold addU; rw [hl1, if_pos hp]) ?_
  refine Run.bind (touchLen_quiet (u := u) q1.eff.inv (hs.eff q1.eff)) ?_
  rintro _ s2 ⟨hl2, q2⟩
  refine Run.ok rfl ⟨q2.nodes.trans q1.nodes, q2.next.trans q1.next, ?_⟩
  exact (q1.trans q2 (F := []) hi (fun _ h => h) (fun _ h => h)).eff.setLen (by omega)

/-- What happens before the node is unlinked. -/
theorem takeParts_run {s : Mem H K V} {p : Pointer} {c : List (Nat × Bool)} {k : K} {v : V}
    {l r : Link K V} {F : List Nat} {g : Option (Node K V) → M (Mem H K V) β}
    {Q : β → Mem H K V → Prop} (ha : At s p true c (.node k v l r) F) (hi : Inv s)
    (hlen : s.len ≤ n) (hpos : 0 < s.len) (hs : Len s u)
    (hg : ∀ o s' F', Valued s' (Link.join l r) o F' → F'.Nodup →
      (∀ e ∈ F', e ∈ F ∨ s.next ≤ e) → s'.nodes p.block = some ⟨k, v, none, none⟩ →
      Cell s' p.block (c ++ [(p.tag, true)]) →
      Eff u (p.block :: F) F (F'.length - F.length) (-1) s s' → Run cfg n (g o) s' Q R) :
    Run cfg n (do
      let node ← reborrow .excl p
      subLen cfg u
      let left ← takeChild false node
      let right ← takeChild true node
      let o ← replacement cfg left right
      g o) s Q R := by
  obtain ⟨_, hx, ⟨a, b, Fl, Fr, ho, rfl, hl, hr⟩, hn, hlt, hc⟩ := ha
  cases ho
  have hFl := hl.lt hi
  have hFr := hr.lt hi
  refine Run.bind (reborrow_run (u := u) hi (by decide) hc) ?_
  rintro _ s1 ⟨t, rfl, hc1, q1⟩
  refine Run.bind (subLen_run (u := u) q1.eff.inv (hs.eff q1.eff) (by have := q1.eff.len; omega)) ?_
  rintro _ s2 ⟨hn2, hx2, e2⟩
  have e02 := q1.eff.trans e2 [p.block] [] (δ := 0) (ν := -1) hi (by simp) (by simp) (by simp) (by simp) (by simp) (by omega) (by omega)
  have hl2 := hl.frame e02 hi (by foot)
  have hr2 := hr.frame e02 hi (by foot)
  have hnx2 : s2.nodes p.block = some ⟨k, v, a, b⟩ := by rw [hn2, q1.nodes]; exact hx
  have hlt2 : p.block < s2.next := Nat.lt_of_lt_of_le hlt e02.next
  have hc2 : Cell s2 p.block (c ++ [(p.tag, true)] ++ [(t, true)]) := by
    have := hc1.frame e2 (by simp) (by rw [q1.next]; exact hlt)
    simpa using this
  refine Run.bind (takeChild_run (u := u) (p := ⟨p.block, t⟩) (side := false) e02.inv hnx2 hlt2 hc2 hl2
    (by foot) (by foot)) ?_
  rintro ol s3 ⟨Fl', hl3, hnl, hsl, hnx3, hc3, hnext3, e3⟩
  simp only [Node.setChild] at hnx3
  have hr3 := hr2.frame e3 e02.inv (by foot)
  refine Run.bind (takeChild_run (u := u) (p := ⟨p.block, t⟩) (side := true) e3.inv hnx3
    (by rw [hnext3]; exact hlt2) hc3 hr3 (by foot) (by foot)) ?_
  rintro or s4 ⟨Fr', hr4, hnr, hsr, hnx4, hc4, hnext4, e4⟩
  simp only [Node.setChild] at hnx4
  have hl4 := hl3.frame e4 e3.inv (by foot)
  have e03 := e02.trans e3 (p.block :: (Fl ++ Fr)) (Fl ++ Fr) hi (by foot) (by foot) (by foot)
    (by foot) (by foot) rfl rfl
  have e04 := e03.trans e4 (p.block :: (Fl ++ Fr)) (Fl ++ Fr) hi (by foot) (by foot) (by foot)
    (by foot) (by foot) rfl rfl
  refine Run.bind (replacement_run (u := u) e4.inv (by have := e04.len; omega) hl4 hr4 (by foot)) ?_
  rintro o s5 ⟨F', hv5, hn5, hs5, e5⟩
  have hnext := e04.next
  have e05 := e04.trans e5 (p.block :: (Fl ++ Fr)) (Fl ++ Fr) (δ := F'.length - (Fl ++ Fr).length) (ν := -1)
    hi (by foot) (by foot) (by foot)
    (by foot) (by foot) (by simp only [List.length_append]; omega) (by omega)
  have hp4 : p.block < s4.next := Nat.lt_of_lt_of_le hlt e04.next
  refine hg o s5 F' hv5 hn5 (by grind only [= List.mem_append]) ?_ ?_ e05
  · rw [e5.nodes _ (by foot) hp4]; exact hnx4
  · exact (hc4.frame e5 (by foot) hp4).sub (by simp)

theorem Split.swap {s : Mem H K V} {p : Pointer} {w : Bool} {c : List (Nat × Bool)} {x : Node K V}
    {side : Bool} {y z : Link K V} {Fy Fz : List Nat} (h : Split s p w c x side y z Fy Fz) :
    Split s p w c x (!side) z y Fz Fy := by
  have hn := h.nodup
  exact ⟨h.node, h.other, by rw [Bool.not_not]; exact h.this, by foot, h.lt, h.cell⟩

theorem child_setChild (x : Node K V) (side : Bool) (b : Option Pointer) :
    (x.setChild side b).child side = b := by cases side <;> rfl

theorem child_setChild_ne (x : Node K V) (side : Bool) (b : Option Pointer) :
    (x.setChild side b).child (!side) = x.child (!side) := by cases side <;> rfl

/-- The child is replaced, and what it contained is returned. -/
theorem replaceLeaf_run {s : Mem H K V} {q b : Pointer} {c : List (Nat × Bool)} {x : Node K V}
    {side : Bool} {k : K} {v : V} {w z : Link K V} {Fz F : List Nat} {o : Option (Node K V)}
    (h : Split s q true c x side (.node k v .nil .nil) z [b.block] Fz) (hi : Inv s)
    (hlen : s.len ≤ n) (hv : Valued s w o F) (hn : F.Nodup)
    (hd : ∀ e ∈ F, e ∉ q.block :: b.block :: Fz) :
    Run cfg n (do
      let old ← replaceChild cfg side q o
      let node ← unwrap old
      intoInner node) s (fun e s' => e = (k, v) ∧ ∃ b' F',
        Split s' q true c (x.setChild side b') side w z F' Fz ∧
        (∀ e ∈ F', e ∈ F ∨ s.next ≤ e) ∧
        Eff u (q.block :: b.block :: (F ++ Fz)) [b.block] (F'.length - F.length - 1) 0 s s') R := by
  have hlt := h.lt' hi
  have hvlt := hv.lt hi
  obtain ⟨hx, h1, h2, hns, hltq, hc⟩ := h
  have hz : ∀ e ∈ Fz, e < s.next := fun e he => hlt e (by simp [he])
  refine Run.bind (replaceChild_run (u := u) hi hx hltq hc hv h1 (by foot) (by foot) hlen) ?_
  rintro old s1 ⟨b', F', G', hb', hold, hn', hF', hG', hx1, hc1, e1⟩
  obtain ⟨a1, a2, Gl, Gr, rfl, rfl, ⟨rfl, rfl⟩, ⟨rfl, rfl⟩⟩ := hold
  have hs1 : Split s1 q true c (x.setChild side b') side w z F' Fz :=
    ⟨hx1, by rw [child_setChild]; exact hb',
      by rw [child_setChild_ne]; exact h2.frame e1 hi (by foot), by foot,
      Nat.lt_of_lt_of_le hltq e1.next, hc1⟩
  refine Run.bind (P := fun y s' => y = ⟨k, v, none, none⟩ ∧ s' = s1) (Run.pure ⟨rfl, rfl⟩) ?_
  rintro _ _ ⟨rfl, rfl⟩
  unfold intoInner
  refine Run.bind (dropChildren_run (u := u) (t := .node k v .nil .nil) (F := []) e1.inv
    ⟨none, none, [], [], rfl, rfl, ⟨rfl, rfl⟩, ⟨rfl, rfl⟩⟩ (by simp)) ?_
  rintro _ s2 ⟨_, e2⟩
  refine Run.pure ⟨rfl, b', F', hs1.frame e2 e1.inv (by simp), hF', ?_⟩
  exact e1.trans e2 (q.block :: b.block :: (F ++ Fz)) [b.block]
    (δ := F'.length - F.length - 1) (ν := 0) hi (by foot) (by foot) (by foot) (by foot) (by foot)
    (by simp only [List.length_append, List.length_cons, List.length_nil]; omega) (by omega)

/-- The node is the child of another one. -/
theorem unlink_run {s : Mem H K V} {p b cur : Pointer} {c : List (Nat × Bool)} {x : Node K V}
    {side : Bool} {k : K} {v : V} {w z : Link K V} {Fz F : List Nat} {o : Option (Node K V)}
    {self : Nat}
    (h : Split s p true c x side (.node k v .nil .nil) z [b.block] Fz) (hi : Inv s)
    (hb : x.child side = some b) (hcur : cur.block = b.block)
    (hlen : s.len ≤ n) (hv : Valued s w o F) (hn : F.Nodup)
    (hd : ∀ e ∈ F, e ∉ p.block :: b.block :: Fz) :
    Run cfg n (unlink cfg self (some p) cur o) s (fun e s' => e = (k, v) ∧ ∃ b' F',
        Split s' p true c (x.setChild side b') side w z F' Fz ∧
        (∀ e ∈ F', e ∈ F ∨ s.next ≤ e) ∧
        Eff u (p.block :: b.block :: (F ++ Fz)) [b.block] (F'.length - F.length - 1) 0 s s') R := by
  have hnd := h.nodup
  have hpF : p.block ∉ F := by foot
  unfold unlink
  refine Run.bind (h.reborrow_run (u := u) hi (by decide)) ?_
  rintro _ s1 ⟨t, rfl, h1, q1⟩
  have hv1 := hv.frame q1.eff hi (by foot)
  have fin : ∀ s2 G, (∀ e ∈ G, e ∈ p.block :: b.block :: Fz) → Quiet u G s s2 →
      Split s2 ⟨p.block, t⟩ true (c ++ [(p.tag, true)]) x side (.node k v .nil .nil) z [b.block] Fz →
      Run cfg n (do
        let old ← replaceChild cfg side ⟨p.block, t⟩ o
        let node ← unwrap old
        intoInner node) s2 (fun e s' => e = (k, v) ∧ ∃ b' F',
        Split s' p true c (x.setChild side b') side w z F' Fz ∧
        (∀ e ∈ F', e ∈ F ∨ s.next ≤ e) ∧
        Eff u (p.block :: b.block :: (F ++ Fz)) [b.block] (F'.length - F.length - 1) 0 s s') R := by
    intro s2 G hG q2 h2
    have hv2 := hv.frame q2.eff hi (by foot)
    refine Run.mono (replaceLeaf_run (u := u) h2 q2.eff.inv (by have := q2.eff.len; omega) hv2 hn (by foot)) ?_
      (fun _ h => h)
    rintro e s3 ⟨rfl, b', F', h3, hF', e3⟩
    rw [q2.next] at hF'
    exact ⟨rfl, b', F', h3.back, hF', q2.eff.trans e3 _ _ hi (by foot) (by foot) (by foot) (by foot)
      (by foot) (by omega) (by omega)⟩
  cases side with
  | false =>
    refine Run.bind (h1.childRef_run (u := u) q1.eff.inv) ?_
    rintro _ s2 ⟨h2, q2, ⟨hb2, _⟩ | ⟨b2, t2, hb2, rfl, _⟩⟩
    · rw [hb] at hb2; cases hb2
    · rw [hb] at hb2
      cases hb2
      simp only [Option.map_some, hcur, if_true]
      exact fin s2 _ (fun _ h => h) (q1.trans q2 (F := p.block :: b.block :: Fz) hi (by foot) (by foot)) h2
  | true =>
    refine Run.bind (h1.swap.childRef_run (u := u) q1.eff.inv) ?_
    rintro a s2 ⟨h2, q2, hor⟩
    have hne : a.map (·.block) ≠ some cur.block := by
      rcases hor with ⟨_, rfl⟩ | ⟨b2, t2, hb2, rfl, _⟩
      · simp
      · have h3 := h2.this
        rw [hb2] at h3
        obtain ⟨F3, hF3, _⟩ := h3.some_top
        have : b2.block ∈ Fz := by rw [hF3]; simp
        simp only [Option.map_some, ne_eq, Option.some.injEq]
        intro he
        rw [he, hcur] at this
        foot
    rw [if_neg hne]
    exact fin s2 _ (fun _ h => h) (q1.trans q2 (F := p.block :: b.block :: Fz) hi (by foot) (by foot)) h2.swap

/-- The node is the child of another one. -/
theorem takeOut_run {s : Mem H K V} {p b : Pointer} {c d : List (Nat × Bool)} {x : Node K V}
    {side : Bool} {k : K} {v : V} {l r z : Link K V} {Fy Fz : List Nat} {t : Nat}
    (h : Split s p true c x side (.node k v l r) z Fy Fz) (hi : Inv s)
    (hb : x.child side = some b) (hc : Cell s b.block ((b.tag, true) :: d ++ [(t, true)]))
    (hlen : s.len ≤ n) (hpos : 0 < s.len) (hs : Len s u) :
    Run cfg n (takeOut cfg u (some p) ⟨b.block, t⟩) s (fun e s' => e = (k, v) ∧ ∃ b' F',
        Split s' p true c (x.setChild side b') side (Link.join l r) z F' Fz ∧
        (∀ e ∈ F', e ∈ Fy ∨ s.next ≤ e) ∧
        Eff u (p.block :: (Fy ++ Fz)) Fy (F'.length - Fy.length) (-1) s s') R := by
  obtain ⟨F0, rfl, hlay, ha⟩ := h.down hi hb hc
  have hnd := h.nodup
  have hlt := h.lt' hi
  have hz : ∀ e ∈ Fz, e < s.next := fun e he => hlt e (by simp [he])
  have hp : p.block < s.next := h.lt
  have hbl : b.block < s.next := hi.lt hlay
  have h0 : ∀ e ∈ F0, e < s.next := fun e he => hlt e (by simp [he])
  unfold takeOut
  refine takeParts_run (u := u) ha hi hlen hpos hs ?_
  intro o s1 F' hv1 hn1 hs1 hx1 hc1 e1
  simp only at hx1 hc1 e1
  have ha1 : At s1 ⟨b.block, t⟩ true ((b.tag, true) :: d) (.node k v .nil .nil) [] :=
    ⟨_, hx1, ⟨none, none, [], [], rfl, rfl, ⟨rfl, rfl⟩, ⟨rfl, rfl⟩⟩, by simp,
      Nat.lt_of_lt_of_le hbl e1.next, hc1⟩
  have h1 := h.up hi hb ha1 e1 (by simp)
  refine Run.mono (unlink_run (u := u) h1 e1.inv hb rfl (by have := e1.len; omega) hv1 hn1
    (by grind only [= List.mem_cons, = List.mem_append, = List.nodup_cons, = List.nodup_append])) ?_
    (fun _ h => h)
  rintro e s2 ⟨rfl, b', F2, h2, hF2, e2⟩
  have hnext := e1.next
  refine ⟨rfl, b', F2, h2, by grind only [= List.mem_cons], ?_⟩
  refine e1.trans e2 _ _ hi (by foot) (by foot) (by foot) (by foot) (by foot) ?_ (by omega)
  simp only [List.length_cons]
  omega

end BST.Boxes
