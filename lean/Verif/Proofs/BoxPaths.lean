import Verif.Proofs.BoxLoops
/-!
# `get`, `get_mut` and `insert` in memory
-/
set_option linter.unusedSimpArgs false
set_option linter.unusedSectionVars false
namespace BST.Simple.Link
variable {K V : Type}

/-- The value of the entry that is found is replaced. -/
def alter (c : Probe K) (w : V) : Nat → Link K V → Link K V
  | _, nil => nil
  | i, node k v l r =>
    match c i k with
    | none => node k v l r
    | some .lt => node k v (alter c w (i + 1) l) r
    | some .gt => node k v l (alter c w (i + 1) r)
    | some .eq => node k w l r

end BST.Simple.Link
namespace BST.Boxes
variable {H K V : Type} [Aliasing H] [ChainLaws H]
variable {cfg : Cfg} {n u : Nat} {α β : Type} {R : Mem H K V → Prop}
open ChainLaws (Wf Chain layout)
open Simple (Link)

theorem loop_run' {γ δ : Type} {m : Nat} {body : γ → M (Mem H K V) (γ ⊕ δ)} {b : γ}
    {s : Mem H K V} {P : γ ⊕ δ → Mem H K V → Prop} {Q : δ → Mem H K V → Prop}
    (h : Run cfg n (body b) s P R)
    (hl : ∀ b' s', P (.inl b') s' → Run cfg n (loop m body b') s' Q R)
    (hr : ∀ a s', P (.inr a) s' → Q a s') :
    Run cfg n (loop (m + 1) body b) s Q R := by
  rw [loop_succ]
  refine Run.bind h ?_
  rintro (b' | a) s' hp
  · exact hl b' s' hp
  · exact Run.pure (hr a s' hp)

/-- A walk down the tree: what it does with `m` rounds left after `i` comparisons, its result, and
the tree that it leaves; which pointers it needs, and how many more rounds than there are nodes. -/
structure Walk (H K V α : Type) where
  go : Nat → Nat → Option Pointer → M (Mem H K V) α
  res : Nat → Link K V → Out α
  tree : Nat → Link K V → Link K V
  may : Bool → Prop
  extra : Nat

variable {W : Walk H K V α}

def Walk.Good (W : Walk H K V α) (u i : Nat) (p : Pointer) (w : Bool) (c : List (Nat × Bool))
    (t : Link K V) (F : List Nat) (s : Mem H K V) (a : α) (s' : Mem H K V) : Prop :=
  W.res i t = .ok a ∧ ∃ F', At s' p w c (W.tree i t) F' ∧ (∀ b ∈ F', b ∈ F ∨ s.next ≤ b) ∧
    Eff u (p.block :: F) [] (F'.length - F.length) (F'.length - F.length) s s'

def Walk.Bad (W : Walk H K V α) (u i : Nat) (p : Pointer) (w : Bool) (c : List (Nat × Bool))
    (t : Link K V) (F : List Nat) (s : Mem H K V) (s' : Mem H K V) : Prop :=
  W.res i t = .panic ∧ At s' p w c t F ∧ Eff u (p.block :: F) [] 0 0 s s'

/-- What the walk does in the tree `t`. -/
def Walk.Ok (W : Walk H K V α) (cfg : Cfg) (n u : Nat) (t : Link K V) : Prop :=
  ∀ (s : Mem H K V) (p : Pointer) (w : Bool) (c : List (Nat × Bool)) (i m : Nat)
    (F : List Nat), At s p w c t F → W.may w → Inv s → s.len ≤ n → (w = true → Len s u) →
    t.size + W.extra ≤ m →
    Run cfg n (W.go m i (some p)) s (W.Good u i p w c t F s) (W.Bad u i p w c t F s)

/-- The walk is about to go on in a subtree. -/
def Walk.Going (W : Walk H K V α) (cfg : Cfg) (n u i m : Nat) (p : Pointer) (w : Bool)
    (c : List (Nat × Bool)) (k : K) (v : V) (t : Link K V) (F : List Nat) (s : Mem H K V)
    (o : Option Pointer) (s' : Mem H K V) : Prop :=
  ∃ side y z x Fy Fz b d r w', t = treeOf k v side y z ∧ W.Ok cfg n u y ∧ W.may w' ∧
    (w' = true → w = true) ∧
    y.size + W.extra ≤ m ∧ W.res i t = W.res (i + 1) y ∧
    W.tree i t = treeOf k v side (W.tree (i + 1) y) z ∧ o = some ⟨b.block, r⟩ ∧
    F = both side Fy Fz ∧ x.key = k ∧ x.value = v ∧ Split s' p w c x side y z Fy Fz ∧
    x.child side = some b ∧ Cell s' b.block (((b.tag, true) :: d) ++ [(r, w')]) ∧
    Quiet u (p.block :: F) s s'

theorem Walk.Going.run {i m : Nat} {p : Pointer} {w : Bool} {c : List (Nat × Bool)} {k : K} {v : V}
    {t : Link K V} {F : List Nat} {s s' : Mem H K V} {o : Option Pointer}
    (h : W.Going cfg n u i m p w c k v t F s o s') (hi : Inv s) (hlen : s.len ≤ n)
    (hs : w = true → Len s u) :
    Run cfg n (W.go m (i + 1) o) s' (W.Good u i p w c t F s) (W.Bad u i p w c t F s) := by
  obtain ⟨side, y, z, x, Fy, Fz, b, d, r, w', ht, hok, hw, hww, hm, hres, htree, rfl, rfl, hk, hv, hsp, hb,
    hc, q⟩ := h
  obtain ⟨F0, rfl, hlay, hat⟩ := hsp.down q.eff.inv hb hc
  have hle := q.eff.len
  have hq := q.next
  refine Run.mono (hok s' ⟨b.block, r⟩ w' _ (i + 1) m F0 hat hw q.eff.inv (by omega)
    (fun h => (hs (hww h)).eff q.eff) hm) ?_ ?_
  · rintro a s2 ⟨hr, F', hat2, hF', e2⟩
    rw [hq] at hF'
    have hsp2 := hsp.up q.eff.inv hb hat2 (e2.weaken q.eff.inv (fun _ h => h) (by simp) (by foot))
      (by rw [hq]; exact hF')
    have hat3 := hsp2.at
    rw [hk, hv, ← htree] at hat3
    refine ⟨hres.trans hr, _, hat3, by grind only [mem_both, = List.mem_cons], ?_⟩
    refine q.eff.trans e2 _ _ hi (fun _ h => h) (by grind only [mem_both, = List.mem_cons]) (by simp)
      (by simp) (by simp) ?_ ?_ <;>
    · rw [both_length, both_length]
      simp only [List.length_cons]
      omega
  · rintro s2 ⟨hr, hat2, e2⟩
    have hsp2 := hsp.up q.eff.inv hb hat2 (e2.weaken q.eff.inv (fun _ h => h) (by simp) (by foot))
      (fun _ h => .inl h)
    have hat3 := hsp2.at
    rw [hk, hv, ← ht] at hat3
    exact ⟨hres.trans hr, hat3, q.eff.trans e2 _ _ hi (fun _ h => h)
      (by grind only [mem_both, = List.mem_cons]) (by simp) (by simp) (by simp) (by omega) (by omega)⟩

theorem Walk.Good.same {i : Nat} {p : Pointer} {w : Bool} {c : List (Nat × Bool)} {t t' : Link K V}
    {F : List Nat} {s s' : Mem H K V} {a : α} (hr : W.res i t = .ok a) (ht : W.tree i t = t')
    (hat : At s' p w c t' F) (he : Eff u (p.block :: F) [] 0 0 s s') : W.Good u i p w c t F s a s' := by
  refine ⟨hr, F, by rw [ht]; exact hat, fun _ h => .inl h, ?_⟩
  rw [Int.sub_self]
  exact he

/-! ### `get` -/

def getWalk (H : Type) [Aliasing H] (pr : Probe K) : Walk H K V (Option V) where
  go m i o := loop m (getStep pr) (i, o)
  res i t := (t.find pr i).map (·.map (·.2))
  tree _ t := t
  may _ := True
  extra := 1

theorem getChild_run {s : Mem H K V} {pr : Probe K} {p : Pointer} {w : Bool}
    {c : List (Nat × Bool)} {k : K} {v : V} {side : Bool} {y z : Link K V} {F : List Nat} {i m : Nat}
    (ih : (getWalk H pr).Ok cfg n u y) (h : At s p w c (treeOf k v side y z) F) (hi : Inv s)
    (hm : y.size + 1 ≤ m) (hf : (treeOf k v side y z).find pr i = y.find pr (i + 1))
    {s0 : Mem H K V} (hi0 : Inv s0) (q0 : Quiet u (p.block :: F) s0 s) :
    Run cfg n (childRef side p) s (fun o s' =>
      (getWalk H pr).Going cfg n u i m p w c k v (treeOf k v side y z) F s0 o s' ∨
      (o = none ∧ (getWalk H pr).Good u i p w c (treeOf k v side y z) F s0 none s')) R := by
  obtain ⟨x, Fy, Fz, rfl, hk, hv, h1⟩ := h.split
  refine Run.mono (h1.childRef_run (u := u) hi) ?_ (fun _ h => h)
  rintro a s1 ⟨h2, q1, ha⟩
  have q : Quiet u (p.block :: both side Fy Fz) s0 s1 :=
    q0.trans q1 hi0 (fun _ h => h) (by grind only [= List.mem_cons, mem_both])
  rcases ha with ⟨hn, rfl⟩ | ⟨b, t, hb, rfl, hc⟩
  · refine .inr ⟨rfl, ?_⟩
    have hat := h2.at
    rw [hk, hv] at hat
    have hy := h2.this
    rw [hn] at hy
    obtain ⟨rfl, rfl⟩ := hy.none_nil
    exact Walk.Good.same (by simp only [getWalk, hf, Link.find]; rfl) rfl hat q.eff
  · exact .inl ⟨side, y, z, x, Fy, Fz, b, [], t, false, rfl, ih, trivial, by simp, hm,
      by simp only [getWalk, hf], rfl, rfl, rfl, hk, hv, h2, hb, hc, q⟩

theorem get_walk (pr : Probe K) (t : Link K V) : (getWalk H pr).Ok cfg n u t := by
  induction t with
  | nil => intro s p w c i m F hat; obtain ⟨x, _, hv, _⟩ := hat; cases hv.1
  | node k v l r ihl ihr =>
    intro s p w c i m F hat hw hi hlen hs hm
    obtain ⟨m, rfl⟩ : ∃ m', m = m' + 1 := ⟨m - 1, by simp only [getWalk] at hm; omega⟩
    simp only [getWalk, Link.size] at hm
    refine loop_run' (P := fun o s' => (∃ o', o = .inl (i + 1, o') ∧
        ((getWalk H pr).Going cfg n u i m p w c k v (.node k v l r) F s o' s' ∨
        (o' = none ∧ (getWalk H pr).Good u i p w c (.node k v l r) F s none s'))) ∨
        ∃ a, o = .inr a ∧ (getWalk H pr).Good u i p w c (.node k v l r) F s a s') ?_ ?_ ?_
    · unfold getStep
      simp only
      refine Run.bind (hat.keyOf_run (u := u) hi) ?_
      rintro k' s1 ⟨hk', hat1, q1⟩
      subst k'
      have q : Quiet u (p.block :: F) s s1 := q1.trans (Quiet.refl q1.eff.inv) hi (by simp) (by simp)
      cases hc : pr i k with
      | none =>
        exact Run.panic rfl ⟨by simp only [getWalk, Link.find, hc]; rfl, hat1, q.eff⟩
      | some o =>
        cases o with
        | eq =>
          refine Run.bind (hat1.valueOf_run (u := u) q1.eff.inv) ?_
          rintro v' s2 ⟨hv', hat2, q2⟩
          subst v'
          refine Run.pure (.inr ⟨_, rfl, Walk.Good.same ?_ rfl hat2 (q.trans q2 hi (fun _ h => h) (by simp)).eff⟩)
          simp only [getWalk, Link.find, hc]; rfl
        | lt =>
          refine Run.bind (getChild_run (u := u) (i := i) (m := m) (side := false) (y := l) (z := r) ihl hat1 q1.eff.inv
            (by omega) (by simp [treeOf, Link.find, hc]) hi q) ?_
          intro o s2 h
          exact Run.pure (.inl ⟨o, rfl, h⟩)
        | gt =>
          refine Run.bind (getChild_run (u := u) (i := i) (m := m) (side := true) (y := r) (z := l) ihr hat1 q1.eff.inv
            (by omega) (by simp [treeOf, Link.find, hc]) hi q) ?_
          intro o s2 h
          exact Run.pure (.inl ⟨o, rfl, h⟩)
    · rintro b' s1 (⟨o', ho, h | ⟨rfl, h⟩⟩ | ⟨a, ho, _⟩)
      · cases ho
        exact h.run hi hlen hs
      · cases ho
        obtain ⟨m, rfl⟩ : ∃ m', m = m' + 1 := ⟨m - 1, by omega⟩
        refine Run.ok (a := none) (s' := s1) ?_ h
        rw [loop_succ]; rfl
      · cases ho
    · rintro a s1 (⟨o', ho, _⟩ | ⟨a', ho, h⟩)
      · cases ho
      · cases ho; exact h

/-! ### `get_mut` -/

/-- What follows the loop of `get_mut`. -/
def mutRest (w : V) : Option Pointer → M (Mem H K V) (Option V)
  | none => pure none
  | some p => do
    let v ← swapValue p w
    pure (some v)

def mutWalk (H : Type) [Aliasing H] (pr : Probe K) (v : V) : Walk H K V (Option V) where
  go m i o := loop m (getMutStep pr) (i, o) >>= mutRest v
  res i t := (t.find pr i).map (·.map (·.2))
  tree i t := t.alter pr v i
  may w := w = true
  extra := 1

theorem mutChild_run {s : Mem H K V} {pr : Probe K} {v' : V} {p : Pointer}
    {c : List (Nat × Bool)} {k : K} {v : V} {side : Bool} {y z : Link K V} {F : List Nat} {i m : Nat}
    (ih : (mutWalk H pr v').Ok cfg n u y) (h : At s p true c (treeOf k v side y z) F) (hi : Inv s)
    (hm : y.size + 1 ≤ m) (hf : (treeOf k v side y z).find pr i = y.find pr (i + 1))
    (ht : (treeOf k v side y z).alter pr v' i = treeOf k v side (y.alter pr v' (i + 1)) z)
    {s0 : Mem H K V} (hi0 : Inv s0) (q0 : Quiet u (p.block :: F) s0 s) :
    Run cfg n (childMut side p) s (fun o s' =>
      (mutWalk H pr v').Going cfg n u i m p true c k v (treeOf k v side y z) F s0 o s' ∨
      (o = none ∧ (mutWalk H pr v').Good u i p true c (treeOf k v side y z) F s0 none s')) R := by
  obtain ⟨x, Fy, Fz, rfl, hk, hv, h1⟩ := h.split
  refine Run.mono (h1.childMut_run (u := u) hi) ?_ (fun _ h => h)
  rintro a s1 ⟨h2, q1, ha⟩
  have q : Quiet u (p.block :: both side Fy Fz) s0 s1 :=
    q0.trans q1 hi0 (fun _ h => h) (by grind only [= List.mem_cons, mem_both])
  rcases ha with ⟨hn, rfl⟩ | ⟨b, t, hb, rfl, hc⟩
  · refine .inr ⟨rfl, ?_⟩
    have hat := h2.at
    rw [hk, hv] at hat
    have hy := h2.this
    rw [hn] at hy
    obtain ⟨rfl, rfl⟩ := hy.none_nil
    exact Walk.Good.same (by simp only [mutWalk, hf, Link.find]; rfl)
      (by simp only [mutWalk, ht, Link.alter]) hat q.eff
  · exact .inl ⟨side, y, z, x, Fy, Fz, b, [], t, true, rfl, ih, rfl, fun _ => rfl, hm,
      by simp only [mutWalk, hf], ht, rfl, rfl, hk, hv, h2, hb, hc, q⟩

theorem mut_walk (pr : Probe K) (v' : V) (t : Link K V) : (mutWalk H pr v').Ok cfg n u t := by
  induction t with
  | nil => intro s p w c i m F hat; obtain ⟨x, _, hv, _⟩ := hat; cases hv.1
  | node k v l r ihl ihr =>
    intro s p w c i m F hat hw hi hlen hs hm
    obtain rfl : w = true := hw
    obtain ⟨m, rfl⟩ : ∃ m', m = m' + 1 := ⟨m - 1, by simp only [mutWalk] at hm; omega⟩
    simp only [mutWalk, Link.size] at hm
    refine loop_run (P := fun o s' => (∃ o', o = .inl (i + 1, o') ∧
        ((mutWalk H pr v').Going cfg n u i m p true c k v (.node k v l r) F s o' s' ∨
        (o' = none ∧ (mutWalk H pr v').Good u i p true c (.node k v l r) F s none s'))) ∨
        (pr i k = some .eq ∧ o = .inr (some p) ∧ At s' p true c (.node k v l r) F ∧
          Quiet u (p.block :: F) s s')) ?_ ?_ ?_
    · unfold getMutStep
      simp only
      refine Run.bind (hat.keyOf_run (u := u) hi) ?_
      rintro k' s1 ⟨hk', hat1, q1⟩
      subst k'
      have q : Quiet u (p.block :: F) s s1 := q1.trans (Quiet.refl q1.eff.inv) hi (by simp) (by simp)
      cases hc : pr i k with
      | none =>
        exact Run.panic rfl ⟨by simp only [mutWalk, Link.find, hc]; rfl, hat1, q.eff⟩
      | some o =>
        cases o with
        | eq => exact Run.pure (.inr ⟨rfl, rfl, hat1, q⟩)
        | lt =>
          refine Run.bind (mutChild_run (u := u) (i := i) (m := m) (side := false) (y := l) (z := r)
            ihl hat1 q1.eff.inv (by omega) (by simp [treeOf, Link.find, hc])
            (by simp [treeOf, Link.alter, hc]) hi q) ?_
          intro o s2 h
          exact Run.pure (.inl ⟨o, rfl, h⟩)
        | gt =>
          refine Run.bind (mutChild_run (u := u) (i := i) (m := m) (side := true) (y := r) (z := l)
            ihr hat1 q1.eff.inv (by omega) (by simp [treeOf, Link.find, hc])
            (by simp [treeOf, Link.alter, hc]) hi q) ?_
          intro o s2 h
          exact Run.pure (.inl ⟨o, rfl, h⟩)
    · rintro b' s1 (⟨o', ho, h | ⟨rfl, h⟩⟩ | ⟨_, ho, _⟩)
      · cases ho
        exact h.run hi hlen hs
      · cases ho
        obtain ⟨m, rfl⟩ : ∃ m', m = m' + 1 := ⟨m - 1, by omega⟩
        refine Run.ok (a := none) (s' := s1) ?_ h
        rw [M.bind_apply, loop_succ]; rfl
      · cases ho
    · rintro a s1 (⟨o', ho, _⟩ | ⟨hc, ho, hat1, q⟩)
      · cases ho
      · cases ho
        unfold mutRest
        refine Run.bind (hat1.swapValue_run (u := u) (v' := v') q.eff.inv) ?_
        rintro _ s2 ⟨rfl, hat2, e2⟩
        refine Run.pure (Walk.Good.same (t' := .node k v' l r) ?_ ?_ hat2 ?_)
        · simp only [mutWalk, Link.find, hc]; rfl
        · simp only [mutWalk, Link.alter, hc]
        · exact q.eff.trans e2 _ _ hi (fun _ h => h) (by simp) (by simp) (by simp) (by simp)
            (by omega) (by omega)

/-! ### `insert` -/

def insWalk (H : Type) [Aliasing H] (cfg : Cfg) (u : Nat) (pr : Probe K) (key : K) (value : V) :
    Walk H K V (Option V) where
  go m i o := loop m (insertStep cfg u pr key value) (i, o)
  res i t := (t.find pr i).map (·.map (·.2))
  tree i t := t.ins pr key value i
  may w := w = true
  extra := 0

theorem insChild_run {s : Mem H K V} {pr : Probe K} {key : K} {value : V} {p : Pointer}
    {c : List (Nat × Bool)} {k : K} {v : V} {side : Bool} {y z : Link K V} {F : List Nat} {i m : Nat}
    (he2 : 2 ≤ cfg.esize)
    (ih : (insWalk H cfg u pr key value).Ok cfg n u y)
    (h : At s p true c (treeOf k v side y z) F) (hi : Inv s)
    (hm : y.size ≤ m) (hf : (treeOf k v side y z).find pr i = y.find pr (i + 1))
    (ht : (treeOf k v side y z).ins pr key value i = treeOf k v side (y.ins pr key value (i + 1)) z)
    {s0 : Mem H K V} (hi0 : Inv s0) (q0 : Quiet u (p.block :: F) s0 s) (hlen : s0.len ≤ n)
    (hs : Len s0 u) :
    Run cfg n (do
      let h ← hasChild side p
      if !h then do
        setChild cfg side p ⟨key, value, none, none⟩
        addLen cfg u
        pure (Sum.inr none)
      else do
        let n ← childMut side p
        pure (Sum.inl (i + 1, n))) s (fun o s' => (∃ o', o = .inl (i + 1, o') ∧
      (insWalk H cfg u pr key value).Going cfg n u i m p true c k v (treeOf k v side y z) F s0 o' s') ∨
      ∃ a, o = .inr a ∧
        (insWalk H cfg u pr key value).Good u i p true c (treeOf k v side y z) F s0 a s') R := by
  obtain ⟨x, Fy, Fz, rfl, hk, hv, h1⟩ := h.split
  have hn1 := h1.nodup
  refine Run.bind (hasChild_run (u := u) (side := side) hi h1.node h1.cell) ?_
  rintro hb s1 ⟨rfl, hc1, q1⟩
  have h2 := h1.quiet q1 hi rfl hc1
  have q01 : Quiet u (p.block :: both side Fy Fz) s0 s1 := q0.trans q1 hi0 (fun _ h => h) (by simp)
  have hle := q01.eff.len
  cases hch : x.child side with
  | none =>
    have hy := h2.this
    rw [hch] at hy
    obtain ⟨rfl, rfl⟩ := hy.none_nil
    have hz := h2.other.lt q1.eff.inv
    have hx2 := q01.next
    refine Run.bind (setChild_run (u := u) (t := .node key value .nil .nil) (F := []) q1.eff.inv
      h2.node h2.lt h2.cell hch ⟨none, none, [], [], rfl, rfl, ⟨rfl, rfl⟩, ⟨rfl, rfl⟩⟩ (by simp)
      (by simp) (by omega)) ?_
    rintro _ s2 ⟨b, hb2, hnb, hroom, hx2', hc2, e2⟩
    have hle2 := e2.len
    have hp := h2.lt
    have hsp : Split s2 p true c (x.setChild side (some b)) side (.node key value .nil .nil) z
        [b.block] Fz := by
      refine ⟨hx2', by rw [child_setChild]; exact hb2, ?_, ?_, Nat.lt_of_lt_of_le hp e2.next, hc2⟩
      · rw [child_setChild_ne]; exact h2.other.frame e2 q1.eff.inv (by foot)
      · have : b.block ∉ Fz := fun h => by have := hz _ h; omega
        have : b.block ≠ p.block := by omega
        foot
    refine Run.bind (addLen_run (u := u) e2.inv ((hs.eff q01.eff).eff e2) ?_) ?_
    · have := Nat.mul_le_mul_left s1.len he2
      have hub : usizeBound = 2 ^ 64 := rfl
      omega
    rintro _ s3 ⟨hn3, hx3, e3⟩
    have hsp3 := hsp.frame e3 e2.inv (by simp)
    have hat := hsp3.at
    have hkv : (x.setChild side (some b)).key = k ∧ (x.setChild side (some b)).value = v := by
      rw [← hk, ← hv]; cases side <;> exact ⟨rfl, rfl⟩
    rw [hkv.1, hkv.2] at hat
    refine Run.pure (.inr ⟨none, rfl, by simp only [insWalk, hf, Link.find]; rfl, _,
      by simp only [insWalk, ht, Link.ins]; exact hat, ?_, ?_⟩)
    · intro e he
      rcases mem_both.1 he with he | he
      · simp only [List.mem_singleton] at he
        subst he
        exact .inr (by omega)
      · exact .inl (mem_both.2 (.inr he))
    · refine ((q01.eff.trans e2 (p.block :: both side [] Fz) [] hi0 (fun _ h => h) (by simp) (by simp)
        (by simp) (by simp) rfl rfl)).trans e3 _ _ hi0 (fun _ h => h) (by simp) (by simp) (by simp) (by simp) ?_ ?_ <;>
      · rw [both_length, both_length]
        simp only [List.length_cons, List.length_nil]
        omega
  | some b0 =>
    refine Run.bind (h2.childMut_run (u := u) q1.eff.inv) ?_
    rintro a s2 ⟨h3, q2, ha⟩
    have q : Quiet u (p.block :: both side Fy Fz) s0 s2 :=
      q01.trans q2 hi0 (fun _ h => h) (by grind only [= List.mem_cons, mem_both])
    rcases ha with ⟨hn, _⟩ | ⟨b, t, hb, rfl, hc⟩
    · rw [hch] at hn; cases hn
    · exact Run.pure (.inl ⟨_, rfl, side, y, z, x, Fy, Fz, b, [], t, true, rfl, ih, rfl, fun _ => rfl, hm,
        by simp only [insWalk, hf], ht, rfl, rfl, hk, hv, h3, hb, hc, q⟩)

theorem ins_walk (he2 : 2 ≤ cfg.esize) (pr : Probe K) (key : K) (value : V) (t : Link K V) :
    (insWalk H cfg u pr key value).Ok cfg n u t := by
  induction t with
  | nil => intro s p w c i m F hat; obtain ⟨x, _, hv, _⟩ := hat; cases hv.1
  | node k v l r ihl ihr =>
    intro s p w c i m F hat hw hi hlen hs hm
    obtain rfl : w = true := hw
    obtain ⟨m, rfl⟩ : ∃ m', m = m' + 1 := ⟨m - 1, by simp only [insWalk, Link.size] at hm; omega⟩
    simp only [insWalk, Link.size] at hm
    refine loop_run' (P := fun o s' => (∃ o', o = .inl (i + 1, o') ∧
        (insWalk H cfg u pr key value).Going cfg n u i m p true c k v (.node k v l r) F s o' s') ∨
        ∃ a, o = .inr a ∧
          (insWalk H cfg u pr key value).Good u i p true c (.node k v l r) F s a s') ?_ ?_ ?_
    · unfold insertStep
      simp only
      refine Run.bind (hat.keyOf_run (u := u) hi) ?_
      rintro k' s1 ⟨hk', hat1, q1⟩
      subst k'
      have q : Quiet u (p.block :: F) s s1 := q1.trans (Quiet.refl q1.eff.inv) hi (by simp) (by simp)
      cases hc : pr i k with
      | none =>
        exact Run.panic rfl ⟨by simp only [insWalk, Link.find, hc]; rfl, hat1, q.eff⟩
      | some o =>
        cases o with
        | eq =>
          refine Run.bind (hat1.swapValue_run (u := u) (v' := value) q1.eff.inv) ?_
          rintro v' s2 ⟨hv', hat2, e2⟩
          subst v'
          refine Run.pure (.inr ⟨_, rfl, Walk.Good.same (t' := .node k value l r) ?_ ?_ hat2 ?_⟩)
          · simp only [insWalk, Link.find, hc]; rfl
          · simp only [insWalk, Link.ins, hc]
          · exact q.eff.trans e2 _ _ hi (fun _ h => h) (by simp) (by simp) (by simp) (by simp)
              (by omega) (by omega)
        | lt =>
          exact insChild_run (u := u) (i := i) (m := m) (side := false) (y := l) (z := r)
            he2 ihl hat1 q1.eff.inv (by omega) (by simp [treeOf, Link.find, hc])
            (by simp [treeOf, Link.ins, hc]) hi q hlen (hs rfl)
        | gt =>
          exact insChild_run (u := u) (i := i) (m := m) (side := true) (y := r) (z := l)
            he2 ihr hat1 q1.eff.inv (by omega) (by simp [treeOf, Link.find, hc])
            (by simp [treeOf, Link.ins, hc]) hi q hlen (hs rfl)
    · rintro b' s1 (⟨o', ho, h⟩ | ⟨a, ho, _⟩)
      · cases ho
        exact h.run hi hlen hs
      · cases ho
    · rintro a s1 (⟨o', ho, _⟩ | ⟨a', ho, h⟩)
      · cases ho
      · cases ho; exact h

end BST.Boxes
