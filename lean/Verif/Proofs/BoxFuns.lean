import Verif.Proofs.BoxNodes
/-!
# The functions of `Node` on boxes in memory
-/
set_option linter.unusedSimpArgs false
set_option linter.unusedSectionVars false
namespace BST.Boxes
variable {H K V : Type} [Aliasing H] [ChainLaws H]
variable {cfg : Cfg} {n u : Nat} {α β : Type} {R : Mem H K V → Prop}
open ChainLaws (Wf Chain layout)
open Simple (Link)

/-! ### Boxes -/

theorem moveBox_run {s : Mem H K V} {t : Link K V} {o : Option Pointer} {F : List Nat}
    (hi : Inv s) (hb : Boxed s t o F) (hn : F.Nodup) :
    Run cfg n (moveBox o) s (fun o' s' => Boxed s' t o' F ∧ Quiet u F s s') R := by
  cases t with
  | nil =>
    obtain ⟨rfl, rfl⟩ := hb
    exact Run.pure ⟨⟨rfl, rfl⟩, Quiet.refl hi⟩
  | node k v l r =>
    obtain ⟨p, a, b, Fl, Fr, rfl, rfl, hx, hl, hc, h1, h2⟩ := hb
    unfold moveBox
    refine Run.bind (reborrow_run (u := u) (c := []) hi (by decide) hc) ?_
    rintro _ s1 ⟨t, rfl, hc1, q1⟩
    have hlt1 := h1.lt hi
    refine Run.pure ⟨⟨_, a, b, Fl, Fr, rfl, rfl, by rw [q1.nodes]; exact hx,
      q1.eff.lay _ _ (by simp) hl, hc1.sub (by simp), h1.frame q1.eff hi (by foot),
      h2.frame q1.eff hi (by foot)⟩, ?_⟩
    exact q1.trans (Quiet.refl q1.eff.inv) hi (by simp) (by simp)

theorem moveNode_run {s : Mem H K V} {t : Link K V} {x : Node K V} {F : List Nat}
    (hi : Inv s) (hb : Valued s t (some x) F) (hn : F.Nodup) :
    Run cfg n (moveNode x) s (fun x' s' => Valued s' t (some x') F ∧ Quiet u F s s') R := by
  cases t with
  | nil => cases hb.1
  | node k v l r =>
    obtain ⟨a, b, Fl, Fr, ho, rfl, h1, h2⟩ := hb
    cases ho
    unfold moveNode
    refine Run.bind (moveBox_run (u := u) hi h1 (by foot)) ?_
    rintro a' s1 ⟨h1', q1⟩
    refine Run.bind (moveBox_run (u := u) q1.eff.inv (h2.frame q1.eff hi (by foot)) (by foot)) ?_
    rintro b' s2 ⟨h2', q2⟩
    refine Run.pure ⟨⟨a', b', Fl, Fr, rfl, rfl, h1'.frame q2.eff q1.eff.inv (by foot), h2'⟩, ?_⟩
    exact q1.trans q2 hi (by foot) (by foot)

theorem moveOpt_run {s : Mem H K V} {t : Link K V} {o : Option (Node K V)} {F : List Nat}
    (hi : Inv s) (hb : Valued s t o F) (hn : F.Nodup) :
    Run cfg n (moveOpt o) s (fun o' s' => Valued s' t o' F ∧ Quiet u F s s') R := by
  cases o with
  | none =>
    have : F = [] := by
      cases t with
      | nil => exact hb.2
      | node k v l r => obtain ⟨a, b, Fl, Fr, ho, _⟩ := hb; cases ho
    subst this
    exact Run.pure ⟨hb, Quiet.refl hi⟩
  | some x =>
    unfold moveOpt
    refine Run.bind (moveNode_run (u := u) hi hb hn) ?_
    rintro x' s1 ⟨h1, q1⟩
    exact Run.pure ⟨h1, q1⟩

theorem boxNew_run {s : Mem H K V} {t : Link K V} {x : Node K V} {F : List Nat}
    (hi : Inv s) (hb : Valued s t (some x) F) (hn : F.Nodup) (hlen : s.len ≤ n) :
    Run cfg n (boxNew cfg x) s (fun p s' => Boxed s' t (some p) (p.block :: F) ∧
      s.next ≤ p.block ∧ s.len * cfg.esize < usizeBound ∧ Eff u F [] 1 0 s s') R := by
  unfold boxNew
  refine Run.bind (moveNode_run (u := u) hi hb hn) ?_
  rintro x' s1 ⟨h1, q1⟩
  refine Run.get ?_
  have hlen1 : s1.len = s.len := by have := q1.eff.len; omega
  by_cases hr : s1.len * cfg.esize < usizeBound ∧ cfg.allocOk s1.next cfg.esize
  · rw [if_pos hr]
    refine Run.bind (newBlock_run (u := u) q1.eff.inv) ?_
    rintro p s2 ⟨hp, hc2, hl2, hx2, e2⟩
    refine Run.mono (reborrow_run (u := u) (c := []) e2.inv (by decide) hc2) ?_ (fun _ h => h)
    rintro _ s3 ⟨t', rfl, hc3, q3⟩
    have e12 : Eff u F [] 1 0 s s2 := q1.eff.trans e2 F [] hi (by simp) (by simp) (by simp)
      (by simp) (by simp) (by omega) (by omega)
    have hnext := q1.next
    have hlt := hb.lt hi
    refine ⟨?_, by simp only; omega, hlen1 ▸ hr.1, e12.trans q3.eff F [] hi (by simp) (by simp; omega) (by simp)
      (by simp) (by simp) (by omega) (by omega)⟩
    cases t with
    | nil => cases h1.1
    | node k v l r =>
      have h2 := h1.frame e2 q1.eff.inv (by simp)
      have h3 := h2.frame q3.eff e2.inv (by foot)
      obtain ⟨a, b, Fl, Fr, ho, rfl, h3l, h3r⟩ := h3
      cases ho
      exact ⟨_, a, b, Fl, Fr, rfl, rfl, by rw [q3.nodes]; exact hx2, q3.eff.lay _ _ (by simp) hl2,
        hc3.sub (by simp), h3l, h3r⟩
  · rw [if_neg hr]
    unfold Run
    rw [M.lift_apply]
    intro hR
    have hR' := hR.mono (a := s1.len) (by omega)
    exact hr ⟨hR'.1, hR'.2 _⟩

theorem unbox_run {s : Mem H K V} {t : Link K V} {p : Pointer} {F : List Nat}
    (hi : Inv s) (hb : Boxed s t (some p) F) (hn : F.Nodup) :
    Run cfg n (unbox p) s (fun x s' => ∃ F', F = p.block :: F' ∧ Valued s' t (some x) F' ∧
      s'.next = s.next ∧ Eff u F F (-1) 0 s s') R := by
  cases t with
  | nil => cases hb.1
  | node k v l r =>
    obtain ⟨_, a, b, Fl, Fr, ho, rfl, hx, hl, hc, h1, h2⟩ := hb
    cases ho
    unfold unbox
    refine Run.bind (reborrow_run (u := u) (c := []) hi (by decide) hc) ?_
    rintro _ s1 ⟨t, rfl, hc1, q1⟩
    refine Run.bind (takeBlock_run (u := u) (p := ⟨p.block, t⟩) q1.eff.inv
      (by rw [q1.nodes]; exact hx) (q1.eff.lay _ _ (by simp) hl) (hc1.sub (by simp))) ?_
    rintro _ s2 ⟨rfl, hn2, e2⟩
    have e12 : Eff u [p.block] [p.block] (-1) 0 s s2 := q1.eff.trans e2 _ _ hi (by simp) (by simp)
      (by simp) (by simp) (by simp) (by omega) (by omega)
    have hv : Valued s2 (.node k v l r) (some ⟨k, v, a, b⟩) (Fl ++ Fr) :=
      ⟨a, b, Fl, Fr, rfl, rfl, h1.frame e12 hi (by foot), h2.frame e12 hi (by foot)⟩
    refine Run.mono (moveNode_run (u := u) e2.inv hv (by foot)) ?_ (fun _ h => h)
    rintro x' s3 ⟨h3, q3⟩
    refine ⟨_, rfl, h3, by rw [q3.next, hn2, q1.next], ?_⟩
    exact e12.trans q3.eff _ _ hi (by simp) (by foot) (by simp) (by simp) (by simp) (by omega) (by omega)

theorem unboxOpt_run {s : Mem H K V} {t : Link K V} {o : Option Pointer} {F : List Nat}
    (hi : Inv s) (hb : Boxed s t o F) (hn : F.Nodup) :
    Run cfg n (unboxOpt o) s (fun x s' => ∃ F', Valued s' t x F' ∧ F'.Nodup ∧ (∀ b ∈ F', b ∈ F) ∧
      s'.next = s.next ∧ Eff u F F (F'.length - F.length) 0 s s') R := by
  cases o with
  | none =>
    have : F = [] ∧ t = .nil := by
      cases t with
      | nil => exact ⟨hb.2, rfl⟩
      | node k v l r => obtain ⟨p, a, b, Fl, Fr, ho, _⟩ := hb; cases ho
    obtain ⟨rfl, rfl⟩ := this
    exact Run.pure ⟨[], ⟨rfl, rfl⟩, by simp, by simp, rfl, Eff.refl hi⟩
  | some p =>
    unfold unboxOpt
    refine Run.bind (unbox_run (u := u) hi hb hn) ?_
    rintro x s1 ⟨F', rfl, h1, hn1, e1⟩
    refine Run.pure ⟨F', h1, by foot, by simp; foot, hn1, ?_⟩
    refine e1.trans (Eff.refl e1.inv) _ _ hi (by simp) (by simp) (by simp) (by simp) (by simp) ?_ (by omega)
    simp only [List.length_cons]
    omega

theorem dropBox_run {s : Mem H K V} {t : Link K V} {o : Option Pointer} {F : List Nat} {m : Nat}
    (hi : Inv s) (hb : Boxed s t o F) (hn : F.Nodup) (hm : F.length ≤ m) :
    Run cfg n (dropBox m o) s (fun _ s' => s'.next = s.next ∧
      Eff u F F (-F.length) 0 s s') R := by
  induction t generalizing o F m s with
  | nil =>
    obtain ⟨rfl, rfl⟩ := hb
    unfold dropBox
    exact Run.pure ⟨rfl, Eff.refl hi⟩
  | node k v l r ihl ihr =>
    obtain ⟨p, a, b, Fl, Fr, rfl, rfl, hx, hl, hc, h1, h2⟩ := hb
    cases m with
    | zero => simp at hm
    | succ m =>
      unfold dropBox
      simp only [List.length_cons, List.length_append] at hm
      refine Run.bind (reborrow_run (u := u) (c := []) hi (by decide) hc) ?_
      rintro _ s1 ⟨t, rfl, hc1, q1⟩
      refine load_bind (by rw [q1.nodes]; exact hx) ?_
      have hc1' : Cell s1 p.block [(p.tag, true), (t, true)] := hc1
      refine Run.bind (touch_run (u := u) (x := false) (w := true) (d := [(p.tag, true)])
        q1.eff.inv (by omega) (fun h => by cases h)
        (hc1' 1 (by omega)) hc1' (.refl _)) ?_
      rintro _ s2 ⟨_, hc2, q2⟩
      have q12 := q1.one q2 hi
      refine Run.bind (ihl q12.eff.inv (h1.frame q12.eff hi (by foot)) (by foot) (by omega)) ?_
      rintro _ s3 ⟨hn3, e3⟩
      have hp2 : p.block < s2.next := by rw [q12.next]; exact hi.lt hl
      have hc3 := hc2.frame e3 (by foot) hp2
      refine Run.bind (touch_run (u := u) (x := false) (w := true) (d := [(p.tag, true)])
        e3.inv (by omega) (fun h => by cases h)
        (hc3 2 (by omega)) hc3 (.refl _)) ?_
      rintro _ s4 ⟨_, hc4, q4⟩
      have e14 : Eff u (p.block :: (Fl ++ Fr)) Fl (-Fl.length) 0 s s4 := by
        have h13 : Eff u (p.block :: (Fl ++ Fr)) Fl (-Fl.length) 0 s s3 :=
          q12.eff.trans e3 _ _ hi (by simp) (by foot) (by foot) (by foot) (by foot) (by omega) (by omega)
        exact h13.trans q4.eff _ _ hi (by simp) (by foot) (by simp) (by simp) (by foot) (by omega) (by omega)
      have hr4 : Boxed s4 r b Fr := by
        have := h2.frame q12.eff hi (by foot)
        have := this.frame e3 q12.eff.inv (by foot)
        exact this.frame q4.eff e3.inv (by foot)
      refine Run.bind (ihr e14.inv hr4 (by foot) (by omega)) ?_
      rintro _ s5 ⟨hn5, e5⟩
      have hp4 : p.block < s4.next := by rw [q4.next, hn3]; exact hp2
      have hc5 := (hc4.sub (c' := [(p.tag, true)]) (by simp)).frame e5 (by foot) hp4
      have hl5 : (p.block, 3) ∈ layout s5.heap :=
        e5.lay _ _ (by foot) (e14.lay _ _ (by foot) hl)
      refine Run.bind (free_run (u := u) e5.inv hl5 hc5) ?_
      rintro _ s6 ⟨hn6, hx6, e6⟩
      refine store_run ⟨by rw [Mem.put_next, hx6, hn5, q4.next, hn3, q12.next], ?_⟩
      have e15 : Eff u (p.block :: (Fl ++ Fr)) (p.block :: (Fl ++ Fr)) (-Fl.length + -Fr.length) 0 s s5 :=
        e14.trans e5 _ _ hi (by simp) (by foot) (by foot) (by foot) (by simp) (by omega) (by omega)
      have e16 : Eff u (p.block :: (Fl ++ Fr)) (p.block :: (Fl ++ Fr)) (-Fl.length + -Fr.length - 1) 0 s s6 :=
        e15.trans e6 _ _ hi (by simp) (by foot) (by foot) (by foot) (by simp) (by omega) (by omega)
      refine e16.trans (Mem.put_eff e6.inv) _ _ hi (by simp) (by foot) (by foot) (by foot) (by simp) ?_ (by omega)
      simp only [List.length_cons, List.length_append]
      omega

theorem dropChildren_run {s : Mem H K V} {t : Link K V} {x : Node K V} {F : List Nat}
    (hi : Inv s) (hb : Valued s t (some x) F) (hn : F.Nodup) :
    Run cfg n (dropChildren x) s (fun _ s' => s'.next = s.next ∧
      Eff u F F (-F.length) 0 s s') R := by
  cases t with
  | nil => cases hb.1
  | node k v l r =>
    have hlt := hb.lt hi
    obtain ⟨a, b, Fl, Fr, ho, rfl, h1, h2⟩ := hb
    cases ho
    have hlen := nodup_bound hn hlt
    rw [List.length_append] at hlen
    unfold dropChildren
    refine Run.get ?_
    refine Run.bind (dropBox_run (u := u) hi h1 (by foot) (by unfold fuel; omega)) ?_
    rintro _ s1 ⟨hn1, e1⟩
    refine Run.mono (dropBox_run (u := u) e1.inv (h2.frame e1 hi (by foot)) (by foot)
      (by unfold fuel; omega)) ?_ (fun _ h => h)
    rintro _ s2 ⟨hn2, e2⟩
    refine ⟨hn2.trans hn1, e1.trans e2 _ _ hi (by foot) (by foot) (by foot) (by foot) (by simp) ?_ (by omega)⟩
    rw [List.length_append]
    omega

/-! ### Nodes -/

theorem fieldOf_lt (side : Bool) : fieldOf side < 3 := by cases side <;> decide

/-- A read of one location through a shared reference to a node. -/
theorem peek_run {s : Mem H K V} {p : Pointer} {c : List (Nat × Bool)} {w : Bool} {i : Nat}
    {g : Pointer → Nat → M (Mem H K V) β} {Q : β → Mem H K V → Prop} (hi : Inv s) (hlt : i < 3)
    (hc : Cell s p.block (c ++ [(p.tag, w)]))
    (hg : ∀ (t t' : Nat) (s' : Mem H K V), Cell s' p.block (c ++ [(p.tag, w)]) →
      Quiet u [p.block] s s' → Run cfg n (g ⟨p.block, t⟩ t') s' Q R) :
    Run cfg n (do
      let p ← reborrow .shared p
      let t ← field .shared p i
      touch false t p.block i
      g p t) s Q R := by
  refine Run.bind (reborrow_shared (u := u) hi hc) ?_
  rintro _ s1 ⟨t, rfl, hc1, q1⟩
  refine Run.bind (field_run (u := u) (c := c ++ [(p.tag, w)]) (p := ⟨p.block, t⟩) (w := false)
    q1.eff.inv hlt (fun h => absurd rfl h) (by simpa using hc1)) ?_
  rintro t2 s2 ⟨hch2, hc2, q2⟩
  refine Run.bind (touch_run (u := u) q2.eff.inv hlt (fun h => by cases h) hch2 hc2 (by simp)) ?_
  rintro _ s3 ⟨_, hc3, q3⟩
  exact hg t t2 s3 (hc3.sub (by simp)) ((q1.one q2 hi).one q3 hi)

theorem keyOf_run {s : Mem H K V} {p : Pointer} {c : List (Nat × Bool)} {w : Bool} {x : Node K V}
    (hi : Inv s) (hx : s.nodes p.block = some x) (hc : Cell s p.block (c ++ [(p.tag, w)])) :
    Run cfg n (keyOf p) s (fun k s' => k = x.key ∧ Cell s' p.block (c ++ [(p.tag, w)]) ∧
      Quiet u [p.block] s s') R := by
  unfold keyOf
  refine peek_run (u := u) (i := 0) hi (by omega) hc fun t _ s1 hc1 q1 => ?_
  exact load_bind (by rw [q1.nodes]; exact hx) (Run.pure ⟨rfl, hc1, q1⟩)

theorem valueOf_run {s : Mem H K V} {p : Pointer} {c : List (Nat × Bool)} {w : Bool} {x : Node K V}
    (hi : Inv s) (hx : s.nodes p.block = some x) (hc : Cell s p.block (c ++ [(p.tag, w)])) :
    Run cfg n (valueOf p) s (fun v s' => v = x.value ∧ Cell s' p.block (c ++ [(p.tag, w)]) ∧
      Quiet u [p.block] s s') R := by
  unfold valueOf
  refine peek_run (u := u) (i := 0) hi (by omega) hc fun t _ s1 hc1 q1 => ?_
  exact load_bind (by rw [q1.nodes]; exact hx) (Run.pure ⟨rfl, hc1, q1⟩)

theorem hasChild_run {s : Mem H K V} {p : Pointer} {c : List (Nat × Bool)} {w : Bool} {x : Node K V}
    {side : Bool} (hi : Inv s) (hx : s.nodes p.block = some x)
    (hc : Cell s p.block (c ++ [(p.tag, w)])) :
    Run cfg n (hasChild side p) s (fun v s' => v = (x.child side).isSome ∧
      Cell s' p.block (c ++ [(p.tag, w)]) ∧ Quiet u [p.block] s s') R := by
  unfold hasChild
  refine Run.bind (reborrow_shared (u := u) hi hc) ?_
  rintro _ s1 ⟨t, rfl, hc1, q1⟩
  have hc1' : Cell s1 p.block (c ++ [(p.tag, w)] ++ [(t, false)]) := by simpa using hc1
  refine Run.bind (touch_run (u := u) q1.eff.inv (fieldOf_lt side) (fun h => by cases h)
    (hc1' _ (fieldOf_lt side)) hc1' (.refl _)) ?_
  rintro _ s2 ⟨_, hc2, q2⟩
  have q12 := q1.one q2 hi
  exact load_bind (by rw [q12.nodes]; exact hx) (Run.pure ⟨rfl, hc2.sub (by simp), q12⟩)

/-- A reference to a location through which it is read and written. -/
theorem poke_run {s : Mem H K V} {p : Pointer} {c : List (Nat × Bool)} {i : Nat}
    {g : M (Mem H K V) β} {Q : β → Mem H K V → Prop} (hi : Inv s) (hlt : i < 3)
    (hc : Cell s p.block (c ++ [(p.tag, true)]))
    (hg : ∀ (s' : Mem H K V), Cell s' p.block (c ++ [(p.tag, true)]) → Quiet u [p.block] s s' →
      Run cfg n g s' Q R) :
    Run cfg n (do
      let t ← field .excl p i
      touch false t p.block i
      touch true t p.block i
      g) s Q R := by
  refine Run.bind (field_run (u := u) hi hlt (fun _ => rfl) hc) ?_
  rintro t2 s2 ⟨hch2, hc2, q2⟩
  refine Run.bind (touch_run (u := u) q2.eff.inv hlt (fun h => by cases h) hch2 hc2 (by simp)) ?_
  rintro _ s3 ⟨hch3, hc3, q3⟩
  refine Run.bind (touch_run (u := u) q3.eff.inv hlt (fun _ => rfl) hch3 hc3 (by simp)) ?_
  rintro _ s4 ⟨_, hc4, q4⟩
  exact hg s4 hc4 ((q2.one q3 hi).one q4 hi)

theorem swapValue_run {s : Mem H K V} {p : Pointer} {c : List (Nat × Bool)} {x : Node K V} {v : V}
    (hi : Inv s) (hx : s.nodes p.block = some x) (hc : Cell s p.block (c ++ [(p.tag, true)])) :
    Run cfg n (swapValue p v) s (fun v' s' => v' = x.value ∧
      Cell s' p.block (c ++ [(p.tag, true)]) ∧ s'.nodes p.block = some { x with value := v } ∧
      s'.next = s.next ∧ Eff u [p.block] [] 0 0 s s') R := by
  unfold swapValue
  refine Run.bind (reborrow_run (u := u) hi (by decide) hc) ?_
  rintro _ s1 ⟨t, rfl, hc1, q1⟩
  refine poke_run (u := u) (p := ⟨p.block, t⟩) (c := c ++ [(p.tag, true)]) q1.eff.inv (by omega)
    (by simpa using hc1) fun s2 hc2 q2 => ?_
  have q12 := q1.one q2 hi
  refine load_bind (by rw [q12.nodes]; exact hx) (store_bind (Run.pure ⟨rfl, ?_, Mem.put_self .., q12.next, ?_⟩))
  · exact hc2.sub (by simp)
  · exact q12.eff.trans (Mem.put_eff q12.eff.inv) _ _ hi (by simp) (by simp) (by simp) (by simp)
      (by simp) (by omega) (by omega)

theorem childRef_run {s : Mem H K V} {p : Pointer} {c : List (Nat × Bool)} {w : Bool} {x : Node K V}
    {side w' : Bool} {d : List (Nat × Bool)} (hi : Inv s) (hx : s.nodes p.block = some x)
    (hp : p.block < s.next) (hc : Cell s p.block (c ++ [(p.tag, w)]))
    (hd : ∀ b, x.child side = some b → b.block ≠ p.block ∧ b.block < s.next ∧
      Cell s b.block (d ++ [(b.tag, w')])) :
    Run cfg n (childRef side p) s (fun a s' => Cell s' p.block (c ++ [(p.tag, w)]) ∧
      ((x.child side = none ∧ a = none ∧ Quiet u [p.block] s s') ∨
       ∃ b t, x.child side = some b ∧ a = some ⟨b.block, t⟩ ∧
        Cell s' b.block (d ++ [(b.tag, w'), (t, false)]) ∧ Quiet u [p.block, b.block] s s')) R := by
  unfold childRef
  refine peek_run (u := u) hi (fieldOf_lt side) hc fun t _ s1 hc1 q1 => ?_
  refine load_bind (by rw [q1.nodes]; exact hx) ?_
  cases hch : x.child side with
  | none => exact Run.pure ⟨hc1, .inl ⟨rfl, rfl, q1⟩⟩
  | some b =>
    obtain ⟨hne, hlt, hd⟩ := hd b hch
    refine Run.bind (reborrow_shared (u := u) q1.eff.inv (hd.frame q1.eff (by simpa using hne) hlt)) ?_
    rintro _ s2 ⟨t2, rfl, hc2, q2⟩
    exact Run.pure ⟨hc1.frame q2.eff (by simpa using fun h => hne h.symm) (by rw [q1.next]; exact hp),
      .inr ⟨b, t2, rfl, rfl, hc2, q1.trans q2 hi (by simp) (by simp)⟩⟩

theorem childMut_run {s : Mem H K V} {p : Pointer} {c : List (Nat × Bool)} {x : Node K V}
    {side : Bool} {d : List (Nat × Bool)} (hi : Inv s) (hx : s.nodes p.block = some x)
    (hp : p.block < s.next) (hc : Cell s p.block (c ++ [(p.tag, true)]))
    (hd : ∀ b, x.child side = some b → b.block ≠ p.block ∧ b.block < s.next ∧
      Cell s b.block (d ++ [(b.tag, true)])) :
    Run cfg n (childMut side p) s (fun a s' => Cell s' p.block (c ++ [(p.tag, true)]) ∧
      ((x.child side = none ∧ a = none ∧ Quiet u [p.block] s s') ∨
       ∃ b t, x.child side = some b ∧ a = some ⟨b.block, t⟩ ∧
        Cell s' b.block (d ++ [(b.tag, true), (t, true)]) ∧ Quiet u [p.block, b.block] s s')) R := by
  unfold childMut
  refine Run.bind (reborrow_run (u := u) hi (by decide) hc) ?_
  rintro _ s1 ⟨t, rfl, hc1, q1⟩
  refine Run.bind (field_run (u := u) (c := c ++ [(p.tag, true)]) (p := ⟨p.block, t⟩) (w := true)
    q1.eff.inv (fieldOf_lt side) (fun _ => rfl) (by simpa using hc1)) ?_
  rintro t2 s2 ⟨hch2, hc2, q2⟩
  refine Run.bind (touch_run (u := u) q2.eff.inv (fieldOf_lt side) (fun h => by cases h) hch2 hc2 (by simp)) ?_
  rintro _ s3 ⟨_, hc3, q3⟩
  have q13 := (q1.one q2 hi).one q3 hi
  have hc3' : Cell s3 p.block (c ++ [(p.tag, true)]) := hc3.sub (by simp)
  refine load_bind (by rw [q13.nodes]; exact hx) ?_
  cases hch : x.child side with
  | none => exact Run.pure ⟨hc3', .inl ⟨rfl, rfl, q13⟩⟩
  | some b =>
    obtain ⟨hne, hlt, hd⟩ := hd b hch
    refine Run.bind (reborrow_run (u := u) q13.eff.inv (by decide)
      (hd.frame q13.eff (by simpa using hne) hlt)) ?_
    rintro _ s4 ⟨t4, rfl, hc4, q4⟩
    exact Run.pure ⟨hc3'.frame q4.eff (by simpa using fun h => hne h.symm) (by rw [q13.next]; exact hp),
      .inr ⟨b, t4, rfl, rfl, hc4, q13.trans q4 hi (by simp) (by simp)⟩⟩

theorem takeChild_run {s : Mem H K V} {p : Pointer} {c : List (Nat × Bool)} {x : Node K V}
    {side : Bool} {t : Link K V} {F : List Nat} (hi : Inv s) (hx : s.nodes p.block = some x)
    (hp : p.block < s.next) (hc : Cell s p.block (c ++ [(p.tag, true)]))
    (hb : Boxed s t (x.child side) F) (hn : F.Nodup) (hpF : p.block ∉ F) :
    Run cfg n (takeChild side p) s (fun o s' => ∃ F', Valued s' t o F' ∧ F'.Nodup ∧
      (∀ b ∈ F', b ∈ F) ∧ s'.nodes p.block = some (x.setChild side none) ∧
      Cell s' p.block (c ++ [(p.tag, true)]) ∧ s'.next = s.next ∧
      Eff u (p.block :: F) F (F'.length - F.length) 0 s s') R := by
  unfold takeChild
  refine Run.bind (reborrow_run (u := u) hi (by decide) hc) ?_
  rintro _ s1 ⟨t1, rfl, hc1, q1⟩
  refine poke_run (u := u) (p := ⟨p.block, t1⟩) (c := c ++ [(p.tag, true)]) q1.eff.inv (fieldOf_lt side)
    (by simpa using hc1) fun s2 hc2 q2 => ?_
  have q12 := q1.one q2 hi
  refine load_bind (by rw [q12.nodes]; exact hx) (store_bind ?_)
  have e3 : Eff u [p.block] [] 0 0 s (s2.put p.block (some (x.setChild side none))) :=
    q12.eff.trans (Mem.put_eff q12.eff.inv) _ _ hi (by simp) (by simp) (by simp) (by simp)
      (by simp) (by omega) (by omega)
  have hc3 : Cell (s2.put p.block (some (x.setChild side none))) p.block (c ++ [(p.tag, true)]) :=
    hc2.sub (by simp)
  refine Run.mono (unboxOpt_run (u := u) e3.inv (hb.frame e3 hi (by foot)) hn) ?_ (fun _ h => h)
  rintro o s4 ⟨F', h4, hn4, hs4, hx4, e4⟩
  have hp3 : p.block < (s2.put p.block (some (x.setChild side none))).next := by
    rw [Mem.put_next, q12.next]; exact hp
  refine ⟨F', h4, hn4, hs4, by rw [e4.nodes _ hpF hp3, Mem.put_self], hc3.frame e4 hpF hp3,
    by rw [hx4, Mem.put_next, q12.next], ?_⟩
  exact e3.trans e4 _ _ hi (by simp) (by foot) (by foot) (by foot) (by foot) (by omega) (by omega)

theorem setChild_run {s : Mem H K V} {p : Pointer} {c : List (Nat × Bool)} {x new : Node K V}
    {side : Bool} {t : Link K V} {F : List Nat} (hi : Inv s) (hx : s.nodes p.block = some x)
    (hp : p.block < s.next) (hc : Cell s p.block (c ++ [(p.tag, true)]))
    (hnone : x.child side = none) (hb : Valued s t (some new) F) (hn : F.Nodup) (hpF : p.block ∉ F)
    (hlen : s.len ≤ n) :
    Run cfg n (setChild cfg side p new) s (fun _ s' => ∃ b, Boxed s' t (some b) (b.block :: F) ∧
      s.next ≤ b.block ∧ s.len * cfg.esize < usizeBound ∧
      s'.nodes p.block = some (x.setChild side (some b)) ∧
      Cell s' p.block (c ++ [(p.tag, true)]) ∧ Eff u (p.block :: F) [] 1 0 s s') R := by
  unfold setChild
  refine Run.bind (reborrow_run (u := u) hi (by decide) hc) ?_
  rintro _ s1 ⟨t1, rfl, hc1, q1⟩
  have hc1' : Cell s1 p.block (c ++ [(p.tag, true)] ++ [(t1, true)]) := by simpa using hc1
  refine Run.bind (moveNode_run (u := u) q1.eff.inv (hb.frame q1.eff hi (by foot)) hn) ?_
  rintro new2 s2 ⟨h2, q2⟩
  have hc2 := hc1'.frame q2.eff hpF (by rw [q1.next]; exact hp)
  refine Run.bind (touch_run (u := u) (x := false) q2.eff.inv (fieldOf_lt side) (fun h => by cases h)
    (hc2 _ (fieldOf_lt side)) hc2 (.refl _)) ?_
  rintro _ s3 ⟨_, hc3, q3⟩
  have q13 : Quiet u (p.block :: F) s s3 :=
    (q1.trans q2 (F := p.block :: F) hi (by foot) (by foot)).trans q3 hi (by foot) (by foot)
  refine load_bind (by rw [q13.nodes]; exact hx) ?_
  refine Run.lift (debugAssert_ok _ (by rw [hnone]; rfl)) ?_
  have hlen3 : s3.len = s.len := by have := q13.eff.len; omega
  refine Run.bind (boxNew_run (u := u) q3.eff.inv (h2.frame q3.eff q2.eff.inv (by foot)) hn (by omega)) ?_
  rintro b s4 ⟨h4, hb4, hr4, e4⟩
  refine Run.get ?_
  rw [hnone]
  have : (dropBox (fuel s4) none : M (Mem H K V) Unit) = pure () := by unfold dropBox; rfl
  rw [this]
  refine Run.bind (P := fun _ s' => s' = s4) (Run.pure rfl) ?_
  rintro _ _ rfl
  have hp3 : p.block < s3.next := by rw [q13.next]; exact hp
  have hc4 := hc3.frame e4 hpF hp3
  refine Run.bind (touch_run (u := u) (x := true) e4.inv (fieldOf_lt side) (fun _ => rfl)
    (hc4 _ (fieldOf_lt side)) hc4 (.refl _)) ?_
  rintro _ s5 ⟨_, hc5, q5⟩
  have e14 : Eff u (p.block :: F) [] 1 0 s s5 := by
    have : Eff u (p.block :: F) [] 1 0 s _ :=
      q13.eff.trans e4 _ _ hi (by simp) (by foot) (by simp) (by simp) (by simp) (by omega) (by omega)
    exact this.trans q5.eff _ _ hi (by simp) (by foot) (by simp) (by simp) (by simp) (by omega) (by omega)
  have hnb : b.block ≠ p.block := by omega
  refine store_run ⟨b, ?_, by rw [q13.next] at hb4; exact hb4, hlen3 ▸ hr4, Mem.put_self .., hc5.sub (by simp), ?_⟩
  · have := h4.frame q5.eff e4.inv (by foot)
    exact this.frame (u := u) (Mem.put_eff q5.eff.inv) q5.eff.inv (by foot)
  · exact e14.trans (Mem.put_eff e14.inv) _ _ hi (by simp) (by foot) (by simp) (by simp) (by simp) (by omega) (by omega)

theorem boxOpt_run {s : Mem H K V} {t : Link K V} {o : Option (Node K V)} {F : List Nat}
    (hi : Inv s) (hb : Valued s t o F) (hn : F.Nodup) (hlen : s.len ≤ n) :
    Run cfg n (boxOpt cfg o) s (fun p s' => ∃ F', Boxed s' t p F' ∧ F'.Nodup ∧
      (∀ b ∈ F', b ∈ F ∨ s.next ≤ b) ∧ Eff u F [] (F'.length - F.length) 0 s s') R := by
  cases o with
  | none =>
    have : F = [] ∧ t = .nil := by
      cases t with
      | nil => exact ⟨hb.2, rfl⟩
      | node k v l r => obtain ⟨a, b, Fl, Fr, ho, _⟩ := hb; cases ho
    obtain ⟨rfl, rfl⟩ := this
    exact Run.pure ⟨[], ⟨rfl, rfl⟩, by simp, by simp, Eff.refl hi⟩
  | some x =>
    unfold boxOpt
    refine Run.bind (boxNew_run (u := u) hi hb hn hlen) ?_
    rintro p s1 ⟨h1, hp, _, e1⟩
    have hlt := hb.lt hi
    refine Run.pure ⟨_, h1, by foot, by foot, ?_⟩
    refine e1.trans (Eff.refl e1.inv) _ _ hi (by simp) (by simp) (by simp) (by simp) (by simp) ?_ (by omega)
    rw [List.length_cons]
    omega

theorem replaceChild_run {s : Mem H K V} {p : Pointer} {c : List (Nat × Bool)} {x : Node K V}
    {new : Option (Node K V)} {side : Bool} {t w : Link K V} {F G : List Nat} (hi : Inv s)
    (hx : s.nodes p.block = some x) (hp : p.block < s.next)
    (hc : Cell s p.block (c ++ [(p.tag, true)]))
    (ht : Valued s t new F) (hw : Boxed s w (x.child side) G) (hn : (F ++ G).Nodup)
    (hpF : p.block ∉ F ++ G) (hlen : s.len ≤ n) :
    Run cfg n (replaceChild cfg side p new) s (fun o s' => ∃ b F' G', Boxed s' t b F' ∧
      Valued s' w o G' ∧ (F' ++ G').Nodup ∧ (∀ a ∈ F', a ∈ F ∨ s.next ≤ a) ∧ (∀ a ∈ G', a ∈ G) ∧
      s'.nodes p.block = some (x.setChild side b) ∧ Cell s' p.block (c ++ [(p.tag, true)]) ∧
      Eff u (p.block :: (F ++ G)) G (F'.length + G'.length - F.length - G.length) 0 s s') R := by
  unfold replaceChild
  refine Run.bind (reborrow_run (u := u) hi (by decide) hc) ?_
  rintro _ s1 ⟨t1, rfl, hc1, q1⟩
  have hc1' : Cell s1 p.block (c ++ [(p.tag, true)] ++ [(t1, true)]) := by simpa using hc1
  refine Run.bind (moveOpt_run (u := u) q1.eff.inv (ht.frame q1.eff hi (by foot)) (by foot)) ?_
  rintro new2 s2 ⟨h2, q2⟩
  have hc2 := hc1'.frame q2.eff (by foot) (by rw [q1.next]; exact hp)
  refine Run.bind (field_run (u := u) (p := ⟨p.block, t1⟩) q2.eff.inv (fieldOf_lt side) (fun _ => rfl) hc2) ?_
  rintro t3 s3 ⟨hch3, hc3, q3⟩
  have q13 : Quiet u (p.block :: F) s s3 :=
    (q1.trans q2 (F := p.block :: F) hi (by foot) (by foot)).trans q3 hi (by foot) (by foot)
  have hlen3 : s3.len = s.len := by have := q13.eff.len; omega
  refine Run.bind (boxOpt_run (u := u) q3.eff.inv (h2.frame q3.eff q2.eff.inv (by foot)) (by foot) (by omega)) ?_
  rintro b s4 ⟨F', h4, hn4, hs4, e4⟩
  have hp3 : p.block < s3.next := by rw [q13.next]; exact hp
  have hc4 := hc3.frame e4 (by foot) hp3
  have hch4 := e4.chain _ _ _ (fieldOf_lt side) (by foot) hp3 hch3
  refine Run.bind (touch_run (u := u) (x := false) e4.inv (fieldOf_lt side) (fun h => by cases h) hch4 hc4 (by simp)) ?_
  rintro _ s5 ⟨hch5, hc5, q5⟩
  refine Run.bind (touch_run (u := u) (x := true) q5.eff.inv (fieldOf_lt side) (fun _ => rfl) hch5 hc5 (by simp)) ?_
  rintro _ s6 ⟨hch6, hc6, q6⟩
  have q56 := q5.one q6 e4.inv
  have hnx := q13.next
  have e16 : Eff u (p.block :: F) [] (F'.length - F.length) 0 s s6 := by
    have : Eff u (p.block :: F) [] (F'.length - F.length) 0 s s4 :=
      q13.eff.trans e4 _ _ hi (by simp) (by foot) (by simp) (by simp) (by simp) (by omega) (by omega)
    exact this.trans q56.eff _ _ hi (by simp) (by foot) (by simp) (by simp) (by simp) (by omega) (by omega)
  have hx6 : s6.nodes p.block = some x := by
    rw [q56.nodes, e4.nodes _ (by foot) hp3, q13.nodes]; exact hx
  refine load_bind hx6 (store_bind ?_)
  have e17 : Eff u (p.block :: F) [] (F'.length - F.length) 0 s (s6.put p.block (some (x.setChild side b))) :=
    e16.trans (Mem.put_eff e16.inv) _ _ hi (by simp) (by foot) (by simp) (by simp) (by simp) (by omega) (by omega)
  have hG := hw.lt hi
  have h7 : Boxed (s6.put p.block (some (x.setChild side b))) t b F' := by
    have h6 := h4.frame q56.eff e4.inv (by foot)
    exact h6.frame (u := u) (Mem.put_eff q56.eff.inv) q56.eff.inv (by foot)
  have hF' := h7.lt e17.inv
  refine Run.mono (unboxOpt_run (u := u) e17.inv (hw.frame e17 hi (by foot)) (by foot)) ?_ (fun _ h => h)
  rintro o s8 ⟨G', h8, hn8, hs8, hx8, e8⟩
  have hd : ∀ a ∈ F', a ∉ G := by foot
  have hp7 : p.block < (s6.put p.block (some (x.setChild side b))).next := by
    have := e17.next; omega
  have hc7 : Cell (s6.put p.block (some (x.setChild side b))) p.block (c ++ [(p.tag, true)]) :=
    hc6.sub (by simp)
  refine ⟨b, F', G', h7.frame e8 e17.inv hd, h8, by foot, by foot, hs8, ?_, hc7.frame e8 (by foot) hp7, ?_⟩
  · rw [e8.nodes _ (by foot) hp7, Mem.put_self]
  · exact e17.trans e8 _ _ hi (by foot) (by foot) (by foot) (by foot) (by foot) (by omega) (by omega)

end BST.Boxes
