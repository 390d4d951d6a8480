import Verif.SetLedger
import Verif.Proofs.MapHot
import Verif.Proofs.SetDtors
/-!
# Destructors in `BSTSet`: every element is accounted for
-/
set_option linter.unusedSimpArgs false
set_option linter.unusedSectionVars false
namespace BST
open BSTMap Tree
variable {T : Type}

namespace BSTSet.World
variable {α β : Type} {cfg : Cfg} {bad : T → Bool} {s s' : World T} {I J : List T} {R : α → List T}

section
variable [DecidableEq T]

theorem elemsOf_count (l : List (T ⊕ Unit)) (t : T) : (elemsOf l).count t = l.count (.inl t) := by
  unfold elemsOf
  induction l with
  | nil => rfl
  | cons x l ih =>
    cases x with
    | inl a =>
      simp only [List.filterMap_cons, Sum.getLeft?_inl, List.count_cons, ih]
      have : ((Sum.inl a : T ⊕ Unit) == Sum.inl t) = (a == t) := by rw [Bool.eq_iff_iff]; simp
      rw [this]
    | inr u => simp only [List.filterMap_cons, Sum.getLeft?_inr, List.count_cons, ih]; simp

theorem exploreSetNode_eq (s : BSTSet T) (fuel : Nat) (n : Option (Node T Unit)) :
    exploreSetNode s fuel n = (exploreNode s.items.nodes fuel n).map (Spec.BT.map (·.2.1)) := by
  induction fuel generalizing n with
  | zero => cases n <;> rfl
  | succ fuel ih =>
    cases n with
    | none => rfl
    | some n =>
      simp only [exploreSetNode, exploreNode, BSTSet.nodeLeft, BSTSet.nodeRight, ih]
      cases n.left s.items.nodes with
      | ok l =>
        simp only [Out.ok_bind]
        cases exploreNode s.items.nodes fuel l with
        | ok l' =>
          simp only [Out.ok_bind, Out.map]
          cases n.right s.items.nodes with
          | ok r =>
            simp only [Out.ok_bind]
            cases exploreNode s.items.nodes fuel r <;> rfl
          | _ => rfl
        | _ => rfl
      | _ => rfl

theorem contents_set (m : BSTMap T Unit) : (⟨m⟩ : BSTSet T).contents = (entriesIn .ino m).map (·.1) := by
  have h : exploreSet (⟨m⟩ : BSTSet T) = (explore m).map (Spec.BT.map (·.1)) := by
    simp only [exploreSet, explore, exploreAt, BSTSet.rootNode, exploreSetNode_eq]
    cases m.rootNode with
    | ok r =>
      simp only [Out.ok_bind]
      cases exploreNode m.nodes (walkFuel m.nodes) r with
      | ok b =>
        show Out.ok _ = Out.ok _
        rw [Spec.BT.map_map]
      | _ => rfl
    | _ => rfl
  unfold BSTSet.contents entriesIn
  rw [h]
  cases explore m with
  | ok b => exact Spec.BT.map_ino _ _
  | _ => rfl

theorem contents_count (m : BSTMap T Unit) (t : T) :
    (⟨m⟩ : BSTSet T).contents.count t = m.contents.count (.inl t) := by
  rw [contents_set, BSTMap.contents, itemsOf_inl]

/-- How often `t` is there: in the set or dropped. -/
def heldS (t : T) (s : World T) : Nat := s.set.contents.count t + s.dropped.count t

/-- How often `t` was in a set whose drop was cut short. -/
def cutS (t : T) (s : World T) : Nat := (s.cut.flatMap contents).count t

/-- The destructor of an element of `s` panics. -/
def BadS (bad : T → Bool) (s : BSTSet T) : Prop := ∃ t ∈ s.contents, bad t = true

structure SStep (cfg : Cfg) (bad : T → Bool) (s s' : World T) (I R : List T) : Prop where
  wf : Valid cfg s'.set.items
  le : ∀ x, heldS x s' + R.count x + s.made.count x ≤ heldS x s + I.count x + s'.made.count x
  ge : ∀ x, heldS x s + I.count x + s'.made.count x + cutS x s ≤
    heldS x s' + R.count x + s.made.count x + cutS x s'
  cut : ∀ m ∈ s'.cut, m ∈ s.cut ∨ BadS bad m

structure SDied (s s' : World T) (I : List T) : Prop where
  le : ∀ x, s'.dropped.count x + s.made.count x ≤ heldS x s + I.count x + s'.made.count x

def SLed (cfg : Cfg) (bad : T → Bool) (s : World T) (I : List T) (R : α → List T) :
    Out α × World T → Prop
  | (.ok a, s') => SStep cfg bad s s' I (R a)
  | (.panic, s') => SStep cfg bad s s' I []
  | (.abort, s') => SDied s s' I
  | _ => False

theorem SStep.trans {s1 s2 : World T} {Q R : List T} (h : SStep cfg bad s s1 I R)
    (h' : SStep cfg bad s1 s2 R Q) : SStep cfg bad s s2 I Q where
  wf := h'.wf
  le x := by have := h.le x; have := h'.le x; omega
  ge x := by have := h.ge x; have := h'.ge x; omega
  cut m hm := (h'.cut m hm).elim (h.cut m) .inr

theorem SStep.died {s1 s2 : World T} {R : List T} (h : SStep cfg bad s s1 I R)
    (h' : SDied s1 s2 R) : SDied s s2 I where
  le x := by have := h.le x; have := h'.le x; omega

theorem SStep.refl (h : Valid cfg s.set.items) (I : List T) : SStep cfg bad s s I I :=
  ⟨h, fun _ => Nat.le_refl _, fun _ => Nat.le_refl _, fun _ h => .inl h⟩

theorem SLed.bind {f : M (World T) α} {g : α → M (World T) β} {Q : β → List T}
    (hf : SLed cfg bad s I R (f s))
    (hg : ∀ a s1, f s = (.ok a, s1) → Valid cfg s1.set.items → SLed cfg bad s1 (R a) Q (g a s1)) :
    SLed cfg bad s I Q ((f >>= g) s) := by
  rw [M.bind_apply]
  rcases he : f s with ⟨o, s1⟩
  rw [he] at hf
  cases o with
  | ok a =>
    have h' := hg a s1 he (SStep.wf hf)
    dsimp only
    rcases hr : g a s1 with ⟨o, s2⟩
    rw [hr] at h'
    cases o with
    | ok a => exact SStep.trans hf h'
    | panic => exact SStep.trans hf h'
    | abort => exact SStep.died hf h'
    | ub => exact h'
    | diverge => exact h'
  | panic => exact hf
  | abort => exact hf
  | ub => exact hf
  | diverge => exact hf

theorem SLed.pure (hw : Valid cfg s.set.items) (a : α) :
    SLed cfg bad s (R a) R ((Pure.pure a : M (World T) α) s) := SStep.refl hw _

theorem SLed.item (hw : Valid cfg s.set.items) (t : T) :
    SLed cfg bad s [t] (fun _ => []) (dropElem bad t s) := by
  have h : SStep cfg bad s { s with dropped := s.dropped ++ [t] } [t] [] :=
    ⟨hw, fun y => by simp only [heldS, List.count_append, List.count_nil]; omega,
      fun y => by simp only [heldS, cutS, List.count_append, List.count_nil]; omega, fun _ h => .inl h⟩
  unfold dropElem
  split
  · exact h
  · exact h

theorem toSet {w : BSTMap.World T Unit} {I R : List (T ⊕ Unit)}
    (h : BSTMap.World.Step cfg (drops bad) (fresh s.set.items) w I R) :
    SStep cfg bad s (s.after w) (elemsOf I) (elemsOf R) := by
  have hl : ∀ (l : List Unit) t, (l.map (Sum.inr : Unit → T ⊕ Unit)).count (.inl t) = 0 := by
    intro l t; rw [count_map_inr]; rfl
  have hcut : ∀ t, ((w.cut.map fun m => (⟨m⟩ : BSTSet T)).flatMap BSTSet.contents).count t =
      (w.cut.flatMap BSTMap.contents).count (.inl t) := by
    intro t
    induction w.cut with
    | nil => rfl
    | cons m l ih =>
      simp only [List.map_cons, List.flatMap_cons, List.count_append]
      rw [ih, contents_count]
  have hset : s.set = ⟨s.set.items⟩ := rfl
  refine ⟨h.wf, fun t => ?_, fun t => ?_, fun m hm => ?_⟩
  · have h1 := h.le (.inl t)
    simp only [BSTMap.World.held, fresh, hl, List.count_nil] at h1
    simp only [heldS, after, List.count_append, elemsOf_count]
    rw [hset, contents_count, contents_count]
    omega
  · have h1 := h.ge (.inl t)
    simp only [BSTMap.World.held, BSTMap.World.cutCount, fresh, hl, List.count_nil, List.flatMap_nil] at h1
    simp only [heldS, cutS, after, List.count_append, elemsOf_count, List.flatMap_append, hcut]
    rw [hset, contents_count, contents_count]
    omega
  · rcases List.mem_append.1 hm with hm | hm
    · exact .inl hm
    · obtain ⟨m, hm', rfl⟩ := List.mem_map.1 hm
      refine .inr ?_
      rcases h.cut m hm' with h | ⟨e, he, h | h⟩
      · cases h
      · exact ⟨e.1, by rw [contents_set]; exact List.mem_map_of_mem he, h⟩
      · cases h

theorem toSet_died {w : BSTMap.World T Unit} {I : List (T ⊕ Unit)}
    (h : BSTMap.World.Died (drops bad) (fresh s.set.items) w I) :
    SDied s (s.after w) (elemsOf I) := by
  have hl : ∀ (l : List Unit) t, (l.map (Sum.inr : Unit → T ⊕ Unit)).count (.inl t) = 0 := by
    intro l t; rw [count_map_inr]; rfl
  have hset : s.set = ⟨s.set.items⟩ := rfl
  refine ⟨fun t => ?_⟩
  have h1 := h.le (.inl t)
  simp only [BSTMap.World.held, fresh, hl, List.count_nil] at h1
  simp only [heldS, after, List.count_append, elemsOf_count]
  rw [hset, contents_count]
  omega

theorem SLed.onItems {f : M (BSTMap.World T Unit) α} {I : List (T ⊕ Unit)} {R : α → List (T ⊕ Unit)}
    (h : BSTMap.World.Led cfg (drops bad) (fresh s.set.items) I R (f (fresh s.set.items))) :
    SLed cfg bad s (elemsOf I) (fun a => elemsOf (R a)) (onItems f s) := by
  unfold World.onItems
  rcases hf : f (fresh s.set.items) with ⟨o, w⟩
  rw [hf] at h
  cases o with
  | ok a => exact toSet h
  | panic => exact toSet h
  | abort => exact toSet_died h
  | ub => exact h
  | diverge => exact h

theorem elemsOf_map (l : List T) : elemsOf (itemsOf (l.map fun t => (t, ()))) = l := by
  induction l with
  | nil => rfl
  | cons t l ih =>
    show t :: elemsOf (itemsOf (l.map fun t => (t, ()))) = _
    rw [ih]

theorem removeEntry_led (hw : Valid cfg s.set.items) (c : Probe T) :
    SLed cfg bad s [] (fun r => (r.map (·.1)).toList)
      (World.onItems (BSTMap.World.onMap (removeEntry cfg c)) s) := by
  have : BSTMap.World.Led cfg (drops bad) (fresh s.set.items) [] (fun r => (r.toList.flatMap fun e =>
      [.inl e.1, .inr e.2] : List (T ⊕ Unit))) (BSTMap.World.onMap (removeEntry cfg c) (fresh s.set.items)) := by
    obtain ⟨t, h⟩ := hw
    rcases removeEntry_account h c with ⟨e, m, hf, h1, h2, h3⟩ | ⟨_, h1⟩
    · rw [BSTMap.World.onMap_eq (s := fresh s.set.items) h1]
      have hst := BSTMap.World.Step.onMap (s := fresh s.set.items) (d := drops bad) (g := []) h h2
        (by rw [h3, List.append_nil]; rfl) (Balanced.del hf)
      cases e with
      | none => exact hst
      | some e => exact hst
    · rw [BSTMap.World.onMap_eq (s := fresh s.set.items) h1]
      exact BSTMap.World.Step.onMap (s := fresh s.set.items) (d := drops bad) (g := []) h h
        (by rw [List.append_nil]; rfl) (Balanced.same t)
  have h2 := SLed.onItems this
  have e : (fun r : Option (T × Unit) => elemsOf (r.toList.flatMap fun e =>
      [.inl e.1, .inr e.2] : List (T ⊕ Unit))) = fun r => (r.map (·.1)).toList := by
    funext r; cases r <;> rfl
  rw [e] at h2
  exact h2

theorem take_led (hw : Valid cfg s.set.items) (c : Probe T) :
    SLed cfg bad s [] Option.toList (World.take cfg c s) :=
  SLed.bind (removeEntry_led hw c) fun e _ _ hw1 => SLed.pure (R := Option.toList) hw1 (e.map (·.1))

theorem remove_led (hw : Valid cfg s.set.items) (c : Probe T) :
    SLed cfg bad s [] (fun _ => []) (World.remove cfg bad c s) := by
  refine SLed.bind (take_led hw c) fun e s1 _ hw1 => ?_
  cases e with
  | none => exact SLed.pure (R := fun _ : Bool => ([] : List T)) hw1 false
  | some t => exact SLed.bind (SLed.item hw1 t) fun _ s2 _ hw2 => SLed.pure (R := fun _ : Bool => ([] : List T)) hw2 true

/-- From a call on the map. -/
theorem SLed.ofRun {op : Op T Unit} (hop : op.Drops) (hw : Valid cfg s.set.items) {I : List T}
    {R : α → List T} {φ : Ret T Unit → α}
    (hI : ∀ o, elemsOf (op.takes s.set.items o) = I)
    (hR : ∀ r, elemsOf (op.gives s.set.items (.ok r)) = R (φ r))
    (hP : elemsOf (op.gives s.set.items .panic) = []) :
    SLed cfg bad s I R ((World.onItems (op.runWorld cfg (drops bad)) >>= fun r => Pure.pure (φ r)) s) := by
  obtain ⟨o, w, h1, h2⟩ := BSTMap.World.run_led (cfg := cfg) (d := drops bad) (s := fresh s.set.items) op hop hw
  have h3 : World.onItems (op.runWorld cfg (drops bad)) s = (o, s.after w) := by
    unfold World.onItems; rw [h1]
  rcases h2 with ⟨⟨r, rfl⟩ | rfl, h2⟩ | ⟨rfl, h2, _⟩
  · rw [M.bind_ok h3]
    have := toSet h2
    have e1 := hI (.ok r)
    have e2 := hR r
    simp only [fresh] at this
    rw [e1, e2] at this
    exact this
  · rw [M.bind_panic h3]
    have := toSet h2
    simp only [fresh] at this
    rw [hI, hP] at this
    exact this
  · rw [M.bind_abort h3]
    have := toSet_died h2
    simp only [fresh] at this
    rw [hI] at this
    exact this

end

theorem onItems_map {γ : Type} (f : M (BSTMap.World T Unit) α) (g : α → γ) :
    World.onItems (f >>= fun a => Pure.pure (g a)) = (World.onItems f >>= fun a => Pure.pure (g a)) := by
  funext s
  rw [M.bind_apply]
  unfold World.onItems
  rw [M.bind_apply]
  rcases f (fresh s.set.items) with ⟨o, w⟩
  cases o <;> rfl

/-- A call on a set does what the call on the map does. -/
theorem simWorld (op : SetOp T) (hd : ∀ dt, op ≠ .debug dt) (hr : ∀ c, op ≠ .remove c) :
    op.runWorld cfg bad s =
      (World.onItems (op.toOp.runWorld cfg (drops bad)) >>= fun r => Pure.pure (op.ret r)) s := by
  have rest : ∀ op : SetOp T, (∀ dt, op ≠ .debug dt) → World.onSet (op.run cfg) s =
      (World.onItems (BSTMap.World.onMap (op.toOp.run cfg)) >>= fun r => Pure.pure (op.ret r)) s := by
    intro op hd
    rw [M.bind_apply]
    unfold World.onSet World.onItems BSTMap.World.onMap
    dsimp only
    rw [SetOp.sim (s := ⟨(fresh s.set.items).map⟩) op hd]
    dsimp only
    rcases op.toOp.run cfg (fresh s.set.items).map with ⟨o, m⟩
    cases o <;> rfl
  cases op with
  | withCapacity n =>
    simp only [SetOp.runWorld, SetOp.toOp, Op.runWorld, onItems_map, bind_assoc, pure_bind]; rfl
  | collect cmps src =>
    simp only [SetOp.runWorld, SetOp.toOp, Op.runWorld, onItems_map, bind_assoc, pure_bind]; rfl
  | cloned cmps cloneT =>
    simp only [SetOp.runWorld, SetOp.toOp, Op.runWorld, onItems_map, bind_assoc, pure_bind]; rfl
  | insert c t =>
    simp only [SetOp.runWorld, SetOp.toOp, Op.runWorld, onItems_map, bind_assoc, pure_bind, World.insert]; rfl
  | extend cmps src =>
    simp only [SetOp.runWorld, SetOp.toOp, Op.runWorld, onItems_map, bind_assoc, pure_bind]; rfl
  | take c =>
    have h : BSTMap.World.onMap ((Op.removeEntry c : Op T Unit).run cfg) =
        (BSTMap.World.onMap (removeEntry cfg c) >>= fun e => Pure.pure (.entry e)) := by
      funext w
      rw [M.bind_apply]
      unfold BSTMap.World.onMap
      simp only [Op.run, M.bind_apply]
      rcases removeEntry cfg c w.map with ⟨o, m⟩
      cases o <;> rfl
    show _ = (World.onItems (BSTMap.World.onMap ((Op.removeEntry c : Op T Unit).run cfg)) >>= _) s
    rw [h, onItems_map]
    simp only [SetOp.runWorld, World.take, bind_assoc, pure_bind]; rfl
  | debug dt => exact absurd rfl (hd dt)
  | remove c => exact absurd rfl (hr c)
  | _ => exact rest _ hd

section
variable [DecidableEq T]

theorem debug_run (cfg : Cfg) (dt : T → String) (x : BSTSet T) :
    ((SetOp.debug dt).run cfg x).2 = x := by
  simp only [SetOp.run, M.bind_apply, M.read]
  rcases x.debug dt <;> rfl

theorem onSet_same {f : M (BSTSet T) α} {o : Out α} (h : f s.set = (o, s.set)) :
    World.onSet f s = (o, s) := by
  have h1 : (fun m : BSTMap T Unit => match f ⟨m⟩ with
      | (o, x) => (o, x.items)) s.set.items = (o, s.set.items) := by
    show (match f s.set with
      | (o, x) => (o, x.items)) = _
    rw [h]
  have h2 : World.onSet f s = (match (fun m : BSTMap T Unit => match f ⟨m⟩ with
      | (o, x) => (o, x.items)) s.set.items with
    | (o, m) => (o, s.after { fresh m with dropped := BSTMap.World.gone s.set.items m })) := rfl
  rw [h2, h1]
  dsimp only
  rw [gone_nil rfl]
  simp only [after, fresh, elemsOf, List.filterMap_nil, List.append_nil, List.map_nil]

theorem onSet_debug (dt : T → String) :
    World.onSet ((SetOp.debug dt).run cfg) s = (((SetOp.debug dt).run cfg s.set).1, s) :=
  onSet_same (Prod.ext rfl (debug_run cfg dt s.set))

/-- One call. -/
theorem run_led (op : SetOp T) (hop : op.Drops) (hw : Valid cfg s.set.items) :
    SLed cfg bad s op.takes (fun r => op.gives (.ok r)) (op.runWorld cfg bad s) := by
  by_cases hd : ∃ dt, op = .debug dt
  · obtain ⟨dt, rfl⟩ := hd
    show SLed cfg bad s [] _ (World.onSet ((SetOp.debug dt).run cfg) s)
    rw [onSet_debug]
    obtain ⟨t, h⟩ := hw
    obtain ⟨o, s', t', h1, h2, _⟩ := SetOp.run_shape h (op := .debug dt) trivial
    rw [h1]
    cases o with
    | ok r => exact SStep.refl ⟨t, h⟩ []
    | panic => exact SStep.refl ⟨t, h⟩ []
    | abort => exact ⟨fun x => by simp only [heldS, List.count_nil]; omega⟩
    | ub => exact h2
    | diverge => exact h2
  by_cases hr : ∃ c, op = .remove c
  · obtain ⟨c, rfl⟩ := hr
    exact SLed.bind (remove_led hw c) fun r _ _ hw1 =>
      SLed.pure (R := fun r => (SetOp.remove c).gives (.ok r)) hw1 (.bool r)
  rw [simWorld op (fun dt e => hd ⟨dt, e⟩) (fun c e => hr ⟨c, e⟩)]
  refine SLed.ofRun ?_ hw (fun o => ?_) (fun r => ?_) ?_
  · cases op <;> first | trivial | exact hop
  · cases op with
    | collect cmps src => exact elemsOf_map src.items
    | extend cmps src => exact elemsOf_map src.items
    | _ => rfl
  · cases op with
    | insert c t =>
      cases r with
      | value r => cases r <;> rfl
      | _ => rfl
    | take c =>
      cases r with
      | entry e => cases e <;> rfl
      | _ => rfl
    | remove c => exact absurd rfl fun e => hr ⟨c, e⟩
    | _ => cases r <;> rfl
  · cases op <;> rfl

end
end BSTSet.World

open BSTSet.World in
/-- The accounts of a history. -/
theorem setWorldHistory_led [DecidableEq T] {cfg : Cfg}
    (ops : List ((T → Bool) × SetOp T)) (hops : ∀ x ∈ ops, x.2.Drops)
    {s : BSTSet.World T} (hw : Valid cfg s.set.items) :
    ∃ os s', setWorldHistory cfg ops s = (os, s') ∧
      (∀ o ∈ os, (∃ r, o = .ok r) ∨ o = .panic ∨ o = .abort) ∧
      (os.length = ops.length ∨ Out.abort ∈ os) ∧
      (Out.abort ∉ os → Valid cfg s'.set.items ∧ (∀ m ∈ s'.cut, m ∈ s.cut ∨ ∃ x ∈ ops, BadS x.1 m) ∧ ∀ x,
        heldS x s + (setTaken ops os).count x + s'.made.count x + cutS x s ≤
          heldS x s' + (setGiven ops os).count x + s.made.count x + cutS x s' ∧
        heldS x s' + (setGiven ops os).count x + s.made.count x ≤
          heldS x s + (setTaken ops os).count x + s'.made.count x) ∧
      ∀ x, s'.dropped.count x + (setGiven ops os).count x + s.made.count x ≤
        heldS x s + (setTaken ops os).count x + s'.made.count x := by
  unfold setWorldHistory
  induction ops generalizing s with
  | nil =>
    exact ⟨[], s, rfl, by simp, .inl rfl,
      fun _ => ⟨hw, fun _ h => .inl h, fun x => ⟨Nat.le_refl _, Nat.le_refl _⟩⟩, fun x => by
      simp only [setGiven, setTaken, List.zip_nil_left, List.flatMap_nil, List.count_nil, heldS]; omega⟩
  | cons op ops ih =>
    obtain ⟨bad, op⟩ := op
    have h := run_led (bad := bad) op (hops (bad, op) (by simp)) hw
    have hl : ∀ o os x, (setTaken ((bad, op) :: ops) (o :: os)).count x =
        op.takes.count x + (setTaken ops os).count x := by
      intro o os x
      simp only [setTaken, List.zip_cons_cons, List.flatMap_cons, List.count_append]
    have hl' : ∀ o os x, (setGiven ((bad, op) :: ops) (o :: os)).count x =
        (op.gives o).count x + (setGiven ops os).count x := by
      intro o os x
      simp only [setGiven, List.zip_cons_cons, List.flatMap_cons, List.count_append]
    have hfail : ∀ o : Out (SetRet T), (∀ r, o ≠ .ok r) → op.gives o = [] := by
      intro o ho
      cases o with
      | ok r => exact absurd rfl (ho r)
      | _ => cases op <;> rfl
    rcases h1 : op.runWorld cfg bad s with ⟨o, s1⟩
    rw [h1] at h
    have h' : ((∃ r, o = .ok r) ∨ o = .panic) ∧ SStep cfg bad s s1 op.takes (op.gives o) ∨
        o = .abort ∧ SDied s s1 op.takes := by
      cases o with
      | ok r => exact .inl ⟨.inl ⟨r, rfl⟩, h⟩
      | panic => exact .inl ⟨.inr rfl, by rw [hfail _ (by simp)]; exact h⟩
      | abort => exact .inr ⟨rfl, h⟩
      | ub => exact h.elim
      | diverge => exact h.elim
    rcases h' with ⟨h2, h3⟩ | ⟨rfl, h3⟩
    · obtain ⟨os, s', g1, g2, g3, g5, g6⟩ := ih (fun x hx => hops x (List.mem_cons_of_mem _ hx)) h3.wf
      refine ⟨o :: os, s', ?_, ?_, ?_, ?_, ?_⟩
      · rcases h2 with ⟨r, rfl⟩ | rfl <;> simp only [execute, h1, g1]
      · intro o' ho'
        rcases List.mem_cons.1 ho' with rfl | ho'
        · rcases h2 with h2 | h2
          · exact .inl h2
          · exact .inr (.inl h2)
        · exact g2 o' ho'
      · exact g3.imp (fun h => by rw [List.length_cons, List.length_cons, h]) fun h => List.mem_cons_of_mem _ h
      · intro hn
        obtain ⟨i1, i3, i2⟩ := g5 fun h => hn (List.mem_cons_of_mem _ h)
        refine ⟨i1, fun m hm => ?_, fun x => ?_⟩
        · rcases i3 m hm with hm | ⟨x, hx, hm⟩
          · exact (h3.cut m hm).imp id fun h => ⟨_, List.mem_cons_self .., h⟩
          · exact .inr ⟨x, List.mem_cons_of_mem _ hx, hm⟩
        have := i2 x
        have := h3.le x
        have := h3.ge x
        rw [hl, hl']
        omega
      · intro x
        have := g6 x
        have := h3.le x
        rw [hl, hl']
        omega
    · refine ⟨[.abort], s1, by simp only [execute, h1], by simp, .inr (by simp), by simp, ?_⟩
      intro x
      have := h3.le x
      rw [hl, hl', hfail _ (by simp)]
      simp only [setGiven, setTaken, List.zip_nil_right, List.flatMap_nil, List.count_nil]
      omega
end BST
