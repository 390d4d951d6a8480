import Verif.Proofs.BoxRemove
/-!
# Walks through a tree of boxes in memory
-/
set_option linter.unusedSimpArgs false
set_option linter.unusedSectionVars false
namespace BST.Boxes
variable {H K V : Type} [Aliasing H] [ChainLaws H]
variable {cfg : Cfg} {n u : Nat} {α β : Type} {R : Mem H K V → Prop}
open ChainLaws (Wf Chain layout)
open Simple (Link)

/-- The pointer `p`, which is the last of a chain, points to the root of the tree `t`, whose other
nodes are in the blocks `F`. -/
def At (s : Mem H K V) (p : Pointer) (w : Bool) (c : List (Nat × Bool)) (t : Link K V)
    (F : List Nat) : Prop :=
  ∃ x, s.nodes p.block = some x ∧ Valued s t (some x) F ∧ (p.block :: F).Nodup ∧
    p.block < s.next ∧ Cell s p.block (c ++ [(p.tag, w)])

/-- As `At`, with the subtrees on the side `side` and on the other side. -/
structure Split (s : Mem H K V) (p : Pointer) (w : Bool) (c : List (Nat × Bool)) (x : Node K V)
    (side : Bool) (y z : Link K V) (Fy Fz : List Nat) : Prop where
  node : s.nodes p.block = some x
  this : Boxed s y (x.child side) Fy
  other : Boxed s z (x.child (!side)) Fz
  nodup : (p.block :: (Fy ++ Fz)).Nodup
  lt : p.block < s.next
  cell : Cell s p.block (c ++ [(p.tag, w)])

theorem Boxed.retop {s s' : Mem H K V} {t : Link K V} {p : Pointer} {F G : List Nat}
    {δ ν : Int} (h : Boxed s t (some p) F) (he : Eff u G [] δ ν s s') (hi : Inv s) (hn : F.Nodup)
    (hx : s'.nodes p.block = s.nodes p.block) (hc : Cell s' p.block [(p.tag, true)])
    (hd : ∀ b ∈ F, b ≠ p.block → b ∉ G) : Boxed s' t (some p) F := by
  cases t with
  | nil => cases h.1
  | node k v l r =>
    obtain ⟨_, a, b, Fl, Fr, ho, rfl, hn', hl, hc', h1, h2⟩ := h
    cases ho
    refine ⟨p, a, b, Fl, Fr, rfl, rfl, by rw [hx]; exact hn', he.lay _ _ (by simp) hl, hc,
      h1.frame he hi fun e he => hd e (by simp [he]) ?_, h2.frame he hi fun e he => hd e (by simp [he]) ?_⟩
    · foot
    · foot

/-- The tree with these subtrees. -/
def treeOf (k : K) (v : V) (side : Bool) (y z : Link K V) : Link K V :=
  if side then .node k v z y else .node k v y z

/-- The blocks of both subtrees. -/
def both (side : Bool) (Fy Fz : List Nat) : List Nat := if side then Fz ++ Fy else Fy ++ Fz

theorem both_length (side : Bool) (Fy Fz : List Nat) :
    (both side Fy Fz).length = Fy.length + Fz.length := by
  cases side
  · exact List.length_append
  · exact List.length_append.trans (Nat.add_comm ..)

theorem mem_both {side : Bool} {Fy Fz : List Nat} {b : Nat} :
    b ∈ both side Fy Fz ↔ b ∈ Fy ∨ b ∈ Fz := by
  cases side
  · exact List.mem_append
  · exact List.mem_append.trans Or.comm

theorem At.split {s : Mem H K V} {p : Pointer} {w : Bool} {c : List (Nat × Bool)} {k : K} {v : V}
    {y z : Link K V} {F : List Nat} {side : Bool} (h : At s p w c (treeOf k v side y z) F) :
    ∃ x Fy Fz, F = both side Fy Fz ∧ x.key = k ∧ x.value = v ∧ Split s p w c x side y z Fy Fz := by
  obtain ⟨x, hx, hv, hn, hlt, hc⟩ := h
  cases side with
  | false =>
    obtain ⟨a, b, Fl, Fr, ho, rfl, h1, h2⟩ := hv
    cases ho
    exact ⟨_, Fl, Fr, rfl, rfl, rfl, hx, h1, h2, hn, hlt, hc⟩
  | true =>
    obtain ⟨a, b, Fl, Fr, ho, rfl, h1, h2⟩ := hv
    cases ho
    exact ⟨_, Fr, Fl, rfl, rfl, rfl, hx, h2, h1, by foot, hlt, hc⟩

theorem Split.at {s : Mem H K V} {p : Pointer} {w : Bool} {c : List (Nat × Bool)} {x : Node K V}
    {side : Bool} {y z : Link K V} {Fy Fz : List Nat} (h : Split s p w c x side y z Fy Fz) :
    At s p w c (treeOf x.key x.value side y z) (both side Fy Fz) := by
  obtain ⟨hx, h1, h2, hn, hlt, hc⟩ := h
  cases side with
  | false => exact ⟨x, hx, ⟨_, _, Fy, Fz, rfl, rfl, h1, h2⟩, hn, hlt, hc⟩
  | true => exact ⟨x, hx, ⟨_, _, Fz, Fy, rfl, rfl, h2, h1⟩, by simp only [both, if_true]; foot, hlt, hc⟩

theorem Split.frame {s s' : Mem H K V} {p : Pointer} {w : Bool} {c : List (Nat × Bool)} {x : Node K V}
    {side : Bool} {y z : Link K V} {Fy Fz G D : List Nat} {δ ν : Int}
    (h : Split s p w c x side y z Fy Fz) (he : Eff u G D δ ν s s') (hi : Inv s)
    (hd : ∀ b ∈ p.block :: (Fy ++ Fz), b ∉ G) : Split s' p w c x side y z Fy Fz :=
  ⟨by rw [he.nodes _ (hd _ (by simp)) h.lt]; exact h.node,
    h.this.frame he hi fun b hb => hd b (by simp [hb]),
    h.other.frame he hi fun b hb => hd b (by simp [hb]), h.nodup, Nat.lt_of_lt_of_le h.lt he.next,
    h.cell.frame he (hd _ (by simp)) h.lt⟩

/-- If only pointers to the node itself were used. -/
theorem Split.quiet {s s' : Mem H K V} {p q : Pointer} {w w' : Bool} {c c' : List (Nat × Bool)}
    {x : Node K V} {side : Bool} {y z : Link K V} {Fy Fz : List Nat}
    (h : Split s p w c x side y z Fy Fz) (he : Quiet u [p.block] s s') (hi : Inv s)
    (hq : q.block = p.block) (hc : Cell s' p.block (c' ++ [(q.tag, w')])) :
    Split s' q w' c' x side y z Fy Fz := by
  have hn := h.nodup
  exact ⟨by rw [he.nodes, hq]; exact h.node,
    h.this.frame he.eff hi (by foot), h.other.frame he.eff hi (by foot), by rw [hq]; exact hn,
    by rw [he.next, hq]; exact h.lt, by rw [hq]; exact hc⟩

theorem Split.back {s : Mem H K V} {p : Pointer} {t : Nat} {w w' : Bool} {c : List (Nat × Bool)}
    {x : Node K V} {side : Bool} {y z : Link K V} {Fy Fz : List Nat}
    (h : Split s ⟨p.block, t⟩ w' (c ++ [(p.tag, w)]) x side y z Fy Fz) :
    Split s p w c x side y z Fy Fz :=
  ⟨h.node, h.this, h.other, h.nodup, h.lt, h.cell.sub (by simp)⟩

theorem Split.lt' {s : Mem H K V} {p : Pointer} {w : Bool} {c : List (Nat × Bool)} {x : Node K V}
    {side : Bool} {y z : Link K V} {Fy Fz : List Nat} (h : Split s p w c x side y z Fy Fz)
    (hi : Inv s) : ∀ b ∈ p.block :: (Fy ++ Fz), b < s.next := by
  have h1 := h.this.lt hi
  have h2 := h.other.lt hi
  have h3 := h.lt
  foot

theorem Boxed.some_top {s : Mem H K V} {t : Link K V} {p : Pointer} {F : List Nat}
    (h : Boxed s t (some p) F) : ∃ F', F = p.block :: F' ∧ (p.block, 3) ∈ layout s.heap ∧
      Cell s p.block [(p.tag, true)] := by
  cases t with
  | nil => cases h.1
  | node k v l r =>
    obtain ⟨_, a, b, Fl, Fr, ho, rfl, hn', hl, hc', h1, h2⟩ := h
    cases ho
    exact ⟨_, rfl, hl, hc'⟩

theorem Boxed.none_nil {s : Mem H K V} {t : Link K V} {F : List Nat}
    (h : Boxed s t none F) : t = .nil ∧ F = [] := by
  cases t with
  | nil => exact ⟨rfl, h.2⟩
  | node k v l r =>
    obtain ⟨_, a, b, Fl, Fr, ho, _⟩ := h
    cases ho

/-- From a node to its child. -/
theorem Split.down {s : Mem H K V} {p b : Pointer} {w w' : Bool} {c d : List (Nat × Bool)}
    {x : Node K V} {side : Bool} {y z : Link K V} {Fy Fz : List Nat} {r : Nat}
    (h : Split s p w c x side y z Fy Fz) (hi : Inv s) (hb : x.child side = some b)
    (hc : Cell s b.block (d ++ [(r, w')])) :
    ∃ Fy', Fy = b.block :: Fy' ∧ (b.block, 3) ∈ layout s.heap ∧ At s ⟨b.block, r⟩ w' d y Fy' := by
  obtain ⟨hx, h1, h2, hn, hlt, hcp⟩ := h
  rw [hb] at h1
  cases y with
  | nil => cases h1.1
  | node k v l r =>
    obtain ⟨_, a, b, Fl, Fr, ho, rfl, hn', hl, hc', h1, h2⟩ := h1
    cases ho
    exact ⟨_, rfl, hl, _, hn', ⟨a, b, Fl, Fr, rfl, rfl, h1, h2⟩, by foot, hi.lt hl, hc⟩

theorem At.boxed {s : Mem H K V} {b : Pointer} {w : Bool} {d : List (Nat × Bool)} {t : Link K V}
    {F : List Nat} {r : Nat} (h : At s ⟨b.block, r⟩ w ((b.tag, true) :: d) t F)
    (hl : (b.block, 3) ∈ layout s.heap) : Boxed s t (some b) (b.block :: F) := by
  obtain ⟨x, hx, hv, hn, hlt, hc⟩ := h
  cases t with
  | nil => cases hv.1
  | node k v l r =>
    obtain ⟨a, a', Fl, Fr, ho, rfl, h1, h2⟩ := hv
    cases ho
    exact ⟨b, a, a', Fl, Fr, rfl, rfl, hx, hl, hc.sub (by simp), h1, h2⟩

/-- Back from the child, whose subtree is another one now. -/
theorem Split.up {s s' : Mem H K V} {p b : Pointer} {w w' : Bool} {c d : List (Nat × Bool)}
    {x : Node K V} {side : Bool} {y y' z : Link K V} {Fy Fy' Fz : List Nat} {r : Nat} {δ ν : Int}
    (h : Split s p w c x side y z (b.block :: Fy) Fz) (hi : Inv s) (hb : x.child side = some b)
    (ha : At s' ⟨b.block, r⟩ w' ((b.tag, true) :: d) y' Fy')
    (he : Eff u (b.block :: Fy) Fy δ ν s s') (hs : ∀ e ∈ Fy', e ∈ Fy ∨ s.next ≤ e) :
    Split s' p w c x side y' z (b.block :: Fy') Fz := by
  have hlt := h.lt' hi
  obtain ⟨hx, h1, h2, hn, hltp, hcp⟩ := h
  rw [hb] at h1
  have hbl : (b.block, 3) ∈ layout s'.heap := by
    obtain ⟨_, _, hl, _⟩ := h1.some_top
    exact he.lay _ _ (by foot) hl
  have h1' := ha.boxed hbl
  obtain ⟨_, _, _, hn', _, _⟩ := ha
  simp only at hn'
  have hz : ∀ e ∈ Fz, e < s.next := fun e he => hlt e (by simp [he])
  refine ⟨by rw [he.nodes _ (by foot) hltp]; exact hx, by rw [hb]; exact h1', h2.frame he hi (by foot), by foot,
    Nat.lt_of_lt_of_le hltp he.next, hcp.frame he (by foot) hltp⟩

/-! ### Pointers -/

theorem Split.reborrow_run {s : Mem H K V} {p : Pointer} {c : List (Nat × Bool)} {x : Node K V}
    {side : Bool} {y z : Link K V} {Fy Fz : List Nat} {k : RefKind}
    (h : Split s p true c x side y z Fy Fz) (hi : Inv s) (hk : k ≠ .shared) :
    Run cfg n (reborrow k p) s (fun q s' => ∃ t, q = ⟨p.block, t⟩ ∧
      Split s' ⟨p.block, t⟩ true (c ++ [(p.tag, true)]) x side y z Fy Fz ∧
      Quiet u [p.block] s s') R := by
  refine Run.mono (Boxes.reborrow_run (u := u) hi hk h.cell) ?_ (fun _ h => h)
  rintro _ s1 ⟨t, rfl, hc, q⟩
  exact ⟨t, rfl, h.quiet q hi rfl (by simpa using hc), q⟩

theorem Split.keyOf_run {s : Mem H K V} {p : Pointer} {w : Bool} {c : List (Nat × Bool)}
    {x : Node K V} {side : Bool} {y z : Link K V} {Fy Fz : List Nat}
    (h : Split s p w c x side y z Fy Fz) (hi : Inv s) :
    Run cfg n (keyOf p) s (fun k s' => k = x.key ∧ Split s' p w c x side y z Fy Fz ∧
      Quiet u [p.block] s s') R := by
  refine Run.mono (Boxes.keyOf_run (u := u) hi h.node h.cell) ?_ (fun _ h => h)
  rintro _ s1 ⟨rfl, hc, q⟩
  exact ⟨rfl, h.quiet q hi rfl hc, q⟩

theorem Split.childMut_run {s : Mem H K V} {p : Pointer} {c : List (Nat × Bool)} {x : Node K V}
    {side : Bool} {y z : Link K V} {Fy Fz : List Nat}
    (h : Split s p true c x side y z Fy Fz) (hi : Inv s) :
    Run cfg n (childMut side p) s (fun a s' => Split s' p true c x side y z Fy Fz ∧
      Quiet u (p.block :: Fy) s s' ∧ ((x.child side = none ∧ a = none) ∨
        ∃ b t, x.child side = some b ∧ a = some ⟨b.block, t⟩ ∧
          Cell s' b.block [(b.tag, true), (t, true)])) R := by
  have hn := h.nodup
  have hlt := h.lt' hi
  refine Run.mono (Boxes.childMut_run (u := u) (d := []) (side := side) hi h.node h.lt h.cell ?_) ?_ (fun _ h => h)
  · intro b hb
    have h1 := h.this
    rw [hb] at h1
    obtain ⟨F', rfl, hl, hc⟩ := h1.some_top
    exact ⟨by foot, hi.lt hl, hc⟩
  · rintro a s1 ⟨hc1, ⟨hb, rfl, q1⟩ | ⟨b, t, hb, rfl, hcb, q1⟩⟩
    · exact ⟨h.quiet q1 hi rfl hc1, q1.trans (Quiet.refl q1.eff.inv) hi (by simp) (by simp), .inl ⟨hb, rfl⟩⟩
    · have h1 := h.this
      rw [hb] at h1
      obtain ⟨F', rfl, hl, hc⟩ := h1.some_top
      refine ⟨⟨by rw [q1.nodes]; exact h.node, ?_, h.other.frame q1.eff hi (by foot), hn,
        by rw [q1.next]; exact h.lt, hc1⟩, q1.trans (Quiet.refl q1.eff.inv) hi (by foot) (by simp),
        .inr ⟨b, t, hb, rfl, hcb⟩⟩
      rw [hb]
      exact h1.retop q1.eff hi (by foot) (by rw [q1.nodes]) (hcb.sub (by simp)) (by foot)

theorem Split.childRef_run {s : Mem H K V} {p : Pointer} {w : Bool} {c : List (Nat × Bool)}
    {x : Node K V} {side : Bool} {y z : Link K V} {Fy Fz : List Nat}
    (h : Split s p w c x side y z Fy Fz) (hi : Inv s) :
    Run cfg n (childRef side p) s (fun a s' => Split s' p w c x side y z Fy Fz ∧
      Quiet u (p.block :: Fy) s s' ∧ ((x.child side = none ∧ a = none) ∨
        ∃ b t, x.child side = some b ∧ a = some ⟨b.block, t⟩ ∧
          Cell s' b.block [(b.tag, true), (t, false)])) R := by
  have hn := h.nodup
  have hlt := h.lt' hi
  refine Run.mono (Boxes.childRef_run (u := u) (d := []) (w' := true) (side := side) hi h.node h.lt h.cell ?_) ?_ (fun _ h => h)
  · intro b hb
    have h1 := h.this
    rw [hb] at h1
    obtain ⟨F', rfl, hl, hc⟩ := h1.some_top
    exact ⟨by foot, hi.lt hl, hc⟩
  · rintro a s1 ⟨hc1, ⟨hb, rfl, q1⟩ | ⟨b, t, hb, rfl, hcb, q1⟩⟩
    · exact ⟨h.quiet q1 hi rfl hc1, q1.trans (Quiet.refl q1.eff.inv) hi (by simp) (by simp), .inl ⟨hb, rfl⟩⟩
    · have h1 := h.this
      rw [hb] at h1
      obtain ⟨F', rfl, hl, hc⟩ := h1.some_top
      refine ⟨⟨by rw [q1.nodes]; exact h.node, ?_, h.other.frame q1.eff hi (by foot), hn,
        by rw [q1.next]; exact h.lt, hc1⟩, q1.trans (Quiet.refl q1.eff.inv) hi (by foot) (by simp),
        .inr ⟨b, t, hb, rfl, hcb⟩⟩
      rw [hb]
      exact h1.retop q1.eff hi (by foot) (by rw [q1.nodes]) (hcb.sub (by simp)) (by foot)

end BST.Boxes
