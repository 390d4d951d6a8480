import Verif.SimpleSetLedger
import Verif.Proofs.SimpleSet
import Verif.Proofs.SimpleHot
import Verif.Proofs.SetHot
/-!
# Destructors in `SimpleBSTSet`: every call is a call on the underlying map
-/
set_option linter.unusedSimpArgs false
set_option linter.unusedSectionVars false
namespace BST
open Spec (BT hitOf lookup fate panicking)
open Simple (Link SSet Wf Plenty)
open BSTSet.World (elemsOf drops elemsOf_count elemsOf_map elemsOf_items panicking_elems)
variable {T : Type} {cfg : Cfg} {bad : T → Bool}

/-- The call on the map that a call on a set makes, up to destructors of `()`. -/
def SimpleSetOp.toOpDrop : SimpleSetOp T → SimpleOp T Unit
  | remove c => .remove c
  | op => op.toOp

/-- The result of the set from that of the map. -/
def SimpleSetOp.retDrop (op : SimpleSetOp T) : Ret T Unit → SetRet T :=
  (op.twin fun _ _ => .eq).retDrop

namespace Simple.SSet.World
variable {α β : Type} {s s' : World T}

theorem onItems_run {f : M (Simple.World T Unit) α} {o : Out α} {w : Simple.World T Unit}
    (h : f (fresh s.set.items) = (o, w)) : onItems f s = (o, s.after w) := by
  unfold onItems; rw [h]

theorem onItems_fst (f : M (Simple.World T Unit) α) :
    onItems f s = ((f (fresh s.set.items)).1, s.after (f (fresh s.set.items)).2) := rfl

theorem after_same (m : Simple.Map T Unit) : s.after (fresh m) = { s with set := ⟨m⟩ } := by
  simp [after, fresh, elemsOf]

theorem sim_map {γ : Type} {f : M (Simple.World T Unit) α} {g : M (World T) β} {φ : α → β}
    {a : α → Ret T Unit} {b : β → γ} {ret : Ret T Unit → γ} {s0 : Simple.World T Unit}
    (hg : g s = ((f s0).1.map φ, s.after (f s0).2)) (hr : ∀ x, ret (a x) = b (φ x)) :
    (do let r ← g; pure (b r) : M (World T) γ) s =
      (((do let r ← f; pure (a r) : M (Simple.World T Unit) (Ret T Unit)) s0).1.map ret,
        s.after ((do let r ← f; pure (a r) : M (Simple.World T Unit) (Ret T Unit)) s0).2) := by
  have e : (do let r ← f; pure (a r) : M (Simple.World T Unit) (Ret T Unit)) s0 =
      ((f s0).1.map a, (f s0).2) := M.map_eq rfl
  refine (M.map_eq hg).trans ?_
  rw [e]
  simp only [Out.map_map]
  congr 1
  congr 1
  funext x
  exact (hr x).symm

theorem sim_same {γ : Type} {f : M (Simple.World T Unit) α} {g : M (World T) α}
    {a : α → Ret T Unit} {b : α → γ} {ret : Ret T Unit → γ} {s0 : Simple.World T Unit}
    (hg : g s = ((f s0).1, s.after (f s0).2)) (hr : ∀ x, ret (a x) = b x) :
    (do let r ← g; pure (b r) : M (World T) γ) s =
      (((do let r ← f; pure (a r) : M (Simple.World T Unit) (Ret T Unit)) s0).1.map ret,
        s.after ((do let r ← f; pure (a r) : M (Simple.World T Unit) (Ret T Unit)) s0).2) :=
  sim_map (φ := fun x => x) (by rw [hg, Out.map_id']) hr

theorem remove_sim (c : Probe T) : remove cfg bad c s =
    ((Simple.World.remove cfg (drops bad) c (fresh s.set.items)).1.map Option.isSome,
      s.after (Simple.World.remove cfg (drops bad) c (fresh s.set.items)).2) := by
  unfold remove take Simple.World.remove
  simp only [M.bind_apply, onItems, Simple.World.onMap]
  rcases h : Simple.Map.removeEntry cfg c (fresh s.set.items).map with ⟨o, m⟩
  rcases o with e | _ | _ | _ | _
  · cases e with
    | none => rfl
    | some e =>
      obtain ⟨t, ⟨⟩⟩ := e
      simp only [M.pure_apply, Option.map_some, dropElem, Simple.World.returning, Simple.World.dropItem,
        Sum.elim_inl, drops, M.bind_apply]
      by_cases hb : bad t = true
      · simp [hb, after, fresh, elemsOf, Simple.unwind, Simple.World.dropItem, Out.map]
      · simp [hb, after, fresh, elemsOf, M.pure_apply, Out.map]
  all_goals rfl

/-- A call on a set does what the call on the map does. -/
theorem run_eq (op : SimpleSetOp T) (hd : ∀ dt, op ≠ .debug dt) :
    op.runWorld cfg bad s =
      ((op.toOpDrop.runDrop cfg (drops bad) (fresh s.set.items)).1.map op.retDrop,
        s.after (op.toOpDrop.runDrop cfg (drops bad) (fresh s.set.items)).2) := by
  have rest : ∀ op : SimpleSetOp T, (∀ dt, op ≠ .debug dt) → World.onSet (op.run cfg) s =
      ((Simple.World.onMap (op.toOp.run cfg) (fresh s.set.items)).1.map (op.twin fun _ _ => .eq).ret,
        s.after (Simple.World.onMap (op.toOp.run cfg) (fresh s.set.items)).2) := by
    intro op hd
    unfold World.onSet
    rw [SimpleSetOp.sim (cfg := cfg) (fun _ _ => .eq) op hd]
    rcases h : op.toOp.run cfg s.set.items with ⟨o, m⟩
    rw [Simple.World.onMap_eq (s := fresh s.set.items) h]
    simp [after, fresh, elemsOf]
  cases op with
  | collect cmps src => exact sim_same (onItems_fst _) fun _ => rfl
  | cloned cloneT => exact sim_same (onItems_fst _) fun _ => rfl
  | insert c t => exact sim_map (φ := Option.isNone) (M.map_eq (onItems_fst _)) fun _ => rfl
  | remove c => exact sim_map (φ := Option.isSome) (remove_sim c) fun _ => rfl
  | take c =>
    have h1 : World.take cfg c s = _ := M.map_eq (onItems_fst (Simple.World.onMap (Simple.Map.removeEntry cfg c)))
    refine (M.map_eq h1).trans ?_
    have h2 : (SimpleSetOp.take c).toOpDrop.runDrop cfg (drops bad) (fresh s.set.items) =
        Simple.World.onMap (do let r ← Simple.Map.removeEntry cfg c; pure (Ret.entry r)) (fresh s.set.items) := rfl
    rw [h2]
    unfold Simple.World.onMap
    rw [M.bind_apply]
    rcases Simple.Map.removeEntry cfg c (fresh s.set.items).map with ⟨o, m⟩
    cases o <;> rfl
  | clear => exact sim_same (onItems_fst _) fun _ => rfl
  | extend cmps src => exact sim_same (onItems_fst _) fun _ => rfl
  | debug dt => exact absurd rfl (hd dt)
  | _ => exact rest _ hd

theorem run_debug (dt : T → String) : (SimpleSetOp.debug dt).runWorld cfg bad s =
    (.ok (.text (s.set.debug dt)), s) := rfl

/-! ### Accounts -/

section
variable [DecidableEq T]

/-- How often the element is in the set or was dropped. -/
def heldE (t : T) (s : World T) : Nat :=
  s.set.items.root.items.count (.inl t) + s.dropped.count t

/-- Everything is accounted for. -/
structure Step (s s' : World T) (I R : List T) : Prop where
  wf : Wf s'.set.items
  eq : ∀ x, heldE x s + I.count x + s'.made.count x = heldE x s' + R.count x + s.made.count x

theorem count_inr (l : List Unit) (t : T) : (l.map (Sum.inr : Unit → T ⊕ Unit)).count (.inl t) = 0 := by
  rw [List.count_eq_zero]
  intro h
  obtain ⟨_, _, h⟩ := List.mem_map.1 h
  cases h

theorem toSet {w : Simple.World T Unit} {I R : List (T ⊕ Unit)}
    (h : Simple.World.Step (drops bad) (fresh s.set.items) w I R) :
    Step s (s.after w) (elemsOf I) (elemsOf R) := by
  refine ⟨h.wf, fun t => ?_⟩
  have h1 := h.eq (.inl t)
  simp only [Simple.World.held, fresh, count_inr, List.count_nil] at h1
  simp only [heldE, after, List.count_append, elemsOf_count]
  omega

theorem toSet_died {w : Simple.World T Unit} {I : List (T ⊕ Unit)}
    (h : Simple.World.Died (drops bad) (fresh s.set.items) w I) (x : T) :
    (s.after w).dropped.count x + s.made.count x ≤
      heldE x s + (elemsOf I).count x + (s.after w).made.count x := by
  have h1 := h.le (.inl x)
  simp only [Simple.World.held, fresh, count_inr, List.count_nil] at h1
  simp only [heldE, after, List.count_append, elemsOf_count]
  omega

theorem takes_eq (op : SimpleSetOp T) (hd : ∀ dt, op ≠ .debug dt) (o : Out (Ret T Unit)) :
    elemsOf (op.toOpDrop.takes o) = op.takes := by
  cases op <;> first
    | rfl
    | exact elemsOf_map _
    | exact absurd rfl (hd _)

theorem gives_eq (op : SimpleSetOp T) (hd : ∀ dt, op ≠ .debug dt) (o : Out (Ret T Unit)) :
    elemsOf (op.toOpDrop.gives o) = op.gives (o.map op.retDrop) := by
  cases op with
  | debug dt => exact absurd rfl (hd dt)
  | _ =>
    rcases o with r | _ | _ | _ | _
    · cases r <;> first | rfl | (rename_i v; cases v <;> rfl)
    all_goals rfl

theorem run_led (he : 2 ≤ cfg.esize) (op : SimpleSetOp T) (hw : Wf s.set.items) :
    ∃ o s', op.runWorld cfg bad s = (o, s') ∧
      (((∃ r, o = .ok r) ∨ o = .panic) ∧ Step s s' op.takes (op.gives o) ∨
       (o = .abort ∧ op.gives o = [] ∧ ∀ x, s'.dropped.count x + s.made.count x ≤
          heldE x s + op.takes.count x + s'.made.count x)) := by
  by_cases hd : ∃ dt, op = .debug dt
  · obtain ⟨dt, rfl⟩ := hd
    exact ⟨_, _, run_debug dt, .inl ⟨.inl ⟨_, rfl⟩, hw, fun _ => rfl⟩⟩
  · have hd' : ∀ dt, op ≠ .debug dt := fun dt e => hd ⟨dt, e⟩
    obtain ⟨o, w, h1, h2⟩ := Simple.World.runDrop_led (d := drops bad) (s := fresh s.set.items) he op.toOpDrop hw
    refine ⟨o.map op.retDrop, s.after w, by rw [run_eq op hd', h1], ?_⟩
    rcases h2 with ⟨h2, h3⟩ | ⟨rfl, h2, h3⟩
    · refine .inl ⟨?_, ?_⟩
      · rcases h2 with ⟨r, rfl⟩ | rfl
        · exact .inl ⟨_, rfl⟩
        · exact .inr rfl
      · have := toSet h3
        rw [takes_eq op hd', gives_eq op hd'] at this
        exact this
    · refine .inr ⟨rfl, ?_, fun x => ?_⟩
      · rw [← gives_eq op hd', h3]; rfl
      · have := toSet_died h2 x
        rw [takes_eq op hd'] at this
        exact this

theorem history_led (he : 2 ≤ cfg.esize) (ops : List ((T → Bool) × SimpleSetOp T))
    {s : World T} (hw : Wf s.set.items) :
    ∃ os s', simpleSetWorldHistory cfg ops s = (os, s') ∧
      (∀ o ∈ os, (∃ r, o = .ok r) ∨ o = .panic ∨ o = .abort) ∧
      (os.length = ops.length ∨ Out.abort ∈ os) ∧
      (Out.abort ∉ os → Wf s'.set.items ∧ ∀ x,
        heldE x s + (simpleSetTaken ops os).count x + s'.made.count x =
          heldE x s' + (simpleSetGiven ops os).count x + s.made.count x) ∧
      ∀ x, s'.dropped.count x + (simpleSetGiven ops os).count x + s.made.count x ≤
        heldE x s + (simpleSetTaken ops os).count x + s'.made.count x := by
  unfold simpleSetWorldHistory
  induction ops generalizing s with
  | nil =>
    refine ⟨[], s, rfl, by simp, .inl rfl, fun _ => ⟨hw, fun x => rfl⟩, fun x => ?_⟩
    simp only [simpleSetTaken, simpleSetGiven, List.zip_nil_left, List.flatMap_nil, List.count_nil, heldE]
    omega
  | cons y ops ih =>
    obtain ⟨bad, op⟩ := y
    have ht : ∀ o os x, (simpleSetTaken ((bad, op) :: ops) (o :: os)).count x =
        op.takes.count x + (simpleSetTaken ops os).count x := by
      intro o os x
      simp only [simpleSetTaken, List.zip_cons_cons, List.flatMap_cons, List.count_append]
    have hg : ∀ o os x, (simpleSetGiven ((bad, op) :: ops) (o :: os)).count x =
        (op.gives o).count x + (simpleSetGiven ops os).count x := by
      intro o os x
      simp only [simpleSetGiven, List.zip_cons_cons, List.flatMap_cons, List.count_append]
    obtain ⟨o, s1, h1, ⟨h2, h3⟩ | ⟨rfl, h2, h3⟩⟩ := run_led (bad := bad) he op hw
    · obtain ⟨os, s', g1, g2, g3, g5, g6⟩ := ih h3.wf
      refine ⟨o :: os, s', ?_, ?_, ?_, ?_, ?_⟩
      · rcases h2 with ⟨r, rfl⟩ | rfl <;> simp only [execute, h1, g1]
      · intro o' ho'
        rcases List.mem_cons.1 ho' with rfl | ho'
        · rcases h2 with h2 | h2
          · exact .inl h2
          · exact .inr (.inl h2)
        · exact g2 o' ho'
      · exact g3.imp (fun h => by rw [List.length_cons, List.length_cons, h]) fun h => List.mem_cons_of_mem _ h
      · intro hn
        obtain ⟨i1, i2⟩ := g5 fun h => hn (List.mem_cons_of_mem _ h)
        refine ⟨i1, fun x => ?_⟩
        have := i2 x
        have := h3.eq x
        rw [ht, hg]
        omega
      · intro x
        have := g6 x
        have := h3.eq x
        rw [ht, hg]
        omega
    · refine ⟨[.abort], s1, by simp only [execute, h1], by simp, .inr (by simp), by simp, fun x => ?_⟩
      have h4 : (simpleSetTaken ops []).count x = 0 := by simp [simpleSetTaken]
      have h5 : (simpleSetGiven ops []).count x = 0 := by simp [simpleSetGiven]
      have := h3 x
      rw [ht, hg, h2, h4, h5]
      simp only [List.count_nil]
      omega
end

/-! ### Reasons -/

theorem quiet_toOpDrop {op : SimpleSetOp T} (h : op.Quiet) : op.toOpDrop.Quiet := by
  cases op with
  | remove c => exact h
  | _ => exact SimpleSetOp.Quiet.toOp h

theorem allocates_toOpDrop {op : SimpleSetOp T} (h : op.toOpDrop.Allocates) : op.Allocates := by
  cases op <;> exact h

theorem demand_toOpDrop (cmp : T → T → Ordering) (op : SimpleSetOp T) :
    (op.toOpDrop.twin cmp).demand = (op.twin cmp).demand := by
  cases op with
  | remove c => rfl
  | _ => rw [← SetOp.demand_toOp, ← SimpleSetOp.twin_toOp]; rfl

theorem run_hot (he : 2 ≤ cfg.esize) (cmp : T → T → Ordering) (op : SimpleSetOp T) (hw : Wf s.set.items) :
    ∃ o s' ys, op.runWorld cfg bad s = (o, s') ∧ s'.dropped = s.dropped ++ ys ∧
      match o with
      | .ok _ => ys.countP bad = 0
      | .panic => (¬ op.Quiet ∧ ys.countP bad = 0) ∨ ys.countP bad = 1
      | .abort => 2 ≤ ys.countP bad ∨ (¬ op.Quiet ∧ 1 ≤ ys.countP bad) ∨
          (op.Allocates ∧ ¬ Plenty cfg (s.set.items.root.size + (op.twin cmp).demand))
      | _ => False := by
  by_cases hd : ∃ dt, op = .debug dt
  · obtain ⟨dt, rfl⟩ := hd
    exact ⟨_, _, [], run_debug dt, by rw [List.append_nil], rfl⟩
  · have hd' : ∀ dt, op ≠ .debug dt := fun dt e => hd ⟨dt, e⟩
    have h := Simple.World.runDrop_hot (d := drops bad) (s := fresh s.set.items) he cmp op.toOpDrop hw
    rw [run_eq op hd']
    rcases hu : op.toOpDrop.runDrop cfg (drops bad) (fresh s.set.items) with ⟨o, w⟩
    rw [hu] at h
    have e : ∀ ys, w.dropped = (fresh s.set.items).dropped ++ ys →
        (s.after w).dropped = s.dropped ++ elemsOf ys := by
      intro ys h
      show s.dropped ++ elemsOf w.dropped = _
      rw [h]; rfl
    have hq : ¬ op.toOpDrop.Quiet → ¬ op.Quiet := fun h h' => h (quiet_toOpDrop h')
    rw [demand_toOpDrop] at h
    cases o with
    | ok r =>
      obtain ⟨ys, h1, h2⟩ := h
      rw [panicking_elems] at h2
      exact ⟨_, _, _, rfl, e ys h1, h2⟩
    | panic =>
      obtain ⟨ys, h1, h2⟩ := h
      rw [panicking_elems] at h2
      exact ⟨_, _, _, rfl, e ys h1, h2.imp (fun h => ⟨hq h.1, h.2⟩) id⟩
    | abort =>
      obtain ⟨ys, h1, h2⟩ := h
      rw [panicking_elems] at h2
      refine ⟨_, _, _, rfl, e ys h1, ?_⟩
      rcases h2 with h2 | h2 | h2
      · exact .inr (.inr ⟨allocates_toOpDrop h2.1, h2.2⟩)
      · exact .inl h2
      · exact .inr (.inl ⟨hq h2.1, h2.2⟩)
    | ub => exact h.elim
    | diverge => exact h.elim

/-! ### Destructors that do not panic -/

theorem mapRemove_eq (c : Probe T) (m : Simple.Map T Unit) :
    ((SimpleOp.remove c).run cfg m).1.map (SetOp.remove c).retDrop =
      ((SimpleOp.removeEntry c).run cfg m).1.map (SetOp.remove c).ret ∧
    ((SimpleOp.remove c).run cfg m).2 = ((SimpleOp.removeEntry (V := Unit) c).run cfg m).2 := by
  rcases hu : Simple.Map.removeEntry cfg c m with ⟨o, m'⟩
  have h1 : (SimpleOp.remove c).run cfg m = _ := M.map_eq (M.map_eq hu)
  have h2 : (SimpleOp.removeEntry c).run cfg m = _ := M.map_eq hu
  rw [h1, h2]
  rcases o with e | _ | _ | _ | _
  · cases e <;> exact ⟨rfl, rfl⟩
  all_goals exact ⟨rfl, rfl⟩

theorem run_calm (hc : ∀ t, bad t = false) (op : SimpleSetOp T) :
    ((op.runWorld cfg bad s).1, (op.runWorld cfg bad s).2.set) = op.run cfg s.set := by
  by_cases hd : ∃ dt, op = .debug dt
  · obtain ⟨dt, rfl⟩ := hd
    rfl
  · have hd' : ∀ dt, op ≠ .debug dt := fun dt e => hd ⟨dt, e⟩
    have h := Simple.World.runDrop_sim (d := drops bad) ⟨hc, fun _ => rfl⟩ cfg op.toOpDrop (fresh s.set.items)
    rw [run_eq op hd', SimpleSetOp.sim (cfg := cfg) (fun _ _ => .eq) op hd']
    have h1 := congrArg Prod.fst h
    have h2 := congrArg Prod.snd h
    dsimp only at h1 h2
    dsimp only [after]
    rw [h1, h2]
    have hm : (fresh s.set.items).map = s.set.items := rfl
    rw [hm]
    cases op with
    | remove c =>
      obtain ⟨g1, g2⟩ := mapRemove_eq (cfg := cfg) c s.set.items
      exact Prod.ext g1 (congrArg SSet.mk g2)
    | _ => rfl

theorem history_calm (cfg : Cfg) (ops : List ((T → Bool) × SimpleSetOp T))
    (hc : ∀ x ∈ ops, ∀ t, x.1 t = false) (s : World T) :
    ((simpleSetWorldHistory cfg ops s).1, (simpleSetWorldHistory cfg ops s).2.set) =
      simpleSetHistory cfg (ops.map (·.2)) s.set := by
  unfold simpleSetWorldHistory simpleSetHistory
  induction ops generalizing s with
  | nil => rfl
  | cons op ops ih =>
    have h := run_calm (cfg := cfg) (s := s) (hc op (by simp)) op.2
    simp only [List.map_cons, execute]
    rw [← h]
    rcases op.2.runWorld cfg op.1 s with ⟨o, s1⟩
    have h2 := ih (fun x hx => hc x (List.mem_cons_of_mem _ hx)) s1
    cases o <;> simp only [← h2]

/-! ### The textbook -/

theorem panicking_items (l : List (T × Unit)) :
    panicking (drops bad) (itemsOf l) = (l.map (·.1)).countP bad := by
  rw [panicking_elems, elemsOf_items]

theorem discarded_elems {cmp : T → T → Ordering} (ts : List T) (b : BT (T × Unit)) :
    panicking (drops bad) (itemsOf (BT.discarded cmp (ts.map fun t => (t, ())) b)) =
      (BT.rejected cmp ts (b.map (·.1))).countP bad := by
  induction ts generalizing b with
  | nil => rfl
  | cons t ts ih =>
    simp only [List.map_cons, BT.discarded, BT.rejected, Simple.World.itemsOf_append,
      Simple.World.panicking_append, List.countP_append]
    rw [ih, Spec.BT.insert_elems, Spec.BT.map_ino, any_elems, panicking_items]
    congr 1
    cases lookup (hitOf (cmp t)) b.ino <;> rfl

theorem fate_map {R R' : Type} (f : R → R') (r : R) (n : Nat) : (fate r n).map f = fate (f r) n := by
  match n with
  | 0 => rfl
  | 1 => rfl
  | n + 2 => rfl

/-- From entries to elements. -/
theorem answer_of {cmp : T → T → Ordering} {b b' : BT (T × Unit)} {o : Out (Ret T Unit)}
    {op : SimpleSetOp T} (hd : ∀ dt, op ≠ .debug dt)
    (h : Spec.SimpleDropAnswer cmp b o b' (drops bad, op.toOpDrop)) :
    Spec.SimpleSetDropAnswer cmp (b.map (·.1)) (o.map op.retDrop) (b'.map (·.1)) (bad, op) := by
  have hino : (b.map (·.1)).ino = b.ino.map (·.1) := Spec.BT.map_ino _ _
  have hp := panicking_items (bad := bad) b.ino
  have rest : ∀ op : SimpleSetOp T, (∀ dt, op ≠ .debug dt) → Spec.SimpleAnswer cmp b o b' op.toOp →
      (o.map (op.twin cmp).ret = .abort ∧ op.Allocates) ∨
        Spec.SetTreeAnswer cmp (b.map (·.1)) (o.map (op.twin cmp).ret) (b'.map (·.1)) (op.twin cmp) := by
    intro op hd ha
    have hr : ∀ dt, op.twin cmp ≠ .debug dt := by
      intro dt; cases op <;> first | (intro e; cases e; done) | exact absurd rfl (hd _)
    have key : (o = .abort ∧ op.toOp.Allocates) ∨ Spec.TreeAnswer cmp b o b' (op.toOp.twin cmp) := by
      cases op <;> first | exact ha | exact absurd rfl (hd _)
    rw [SimpleSetOp.twin_toOp] at key
    rcases key with ⟨rfl, h'⟩ | h'
    · exact .inl ⟨rfl, SimpleSetOp.allocates_toOp hd h'⟩
    · exact .inr (setTreeAnswer_of hr h')
  cases op with
  | clear =>
    obtain ⟨rfl, rfl⟩ := h
    refine ⟨?_, rfl⟩
    rw [fate_map, hp, ← hino]; rfl
  | collect c src =>
    have hdis := discarded_elems (bad := bad) (cmp := cmp) src.items .nil
    have hins := Spec.BT.insertList_elems (cmp := cmp) src.items .nil
    rcases h with ⟨rfl, rfl, h1, h2⟩ | ⟨rfl, rfl, h1⟩ | rfl
    · refine .inl ⟨?_, hins, h1, hdis ▸ h2⟩
      rw [fate_map, hp, ← hino]; rfl
    · refine .inr (.inl ⟨rfl, rfl, h1.imp id (Or.imp id fun h => ?_)⟩)
      exact fun h' => h (hdis.trans h')
    · exact .inr (.inr rfl)
  | cloned ct =>
    rcases h with ⟨rfl, rfl⟩ | ⟨rfl, rfl, h1⟩ | rfl
    · refine .inl ⟨?_, rfl⟩
      rw [fate_map, hp, ← hino]; rfl
    · refine .inr (.inl ⟨rfl, rfl, h1.resolve_right ?_⟩)
      rintro ⟨_, h⟩
      cases h
    · exact .inr (.inr rfl)
  | insert c t =>
    have hany := any_elems (hitOf (cmp t)) b.ino
    rw [← hino] at hany
    rcases h with ⟨rfl, rfl⟩ | ⟨h1, rfl, rfl⟩ | ⟨rfl, h1⟩
    · refine .inl ⟨?_, Spec.BT.insert_elems t b⟩
      rw [hany]
      cases lookup (hitOf (cmp t)) b.ino with
      | none => rfl
      | some e =>
        simp only [Option.map_some, Option.isSome_some, drops, Bool.and_false]
        by_cases hb : bad t = true <;> simp only [hb] <;> rfl
    · refine .inr (.inl ⟨h1, rfl, ?_⟩)
      simp only [drops, Bool.or_false]
      by_cases hb : bad t = true <;> simp only [hb] <;> rfl
    · exact .inr (.inr ⟨rfl, by rw [hany, h1]; rfl⟩)
  | remove c =>
    intro f hf ha
    have hl := lookup_elems (hitOf f) b.ino
    rw [← hino] at hl
    rcases h f hf ha with ⟨rfl, rfl⟩ | ⟨h1, rfl, rfl⟩ | rfl
    · refine .inl ⟨?_, Spec.BT.erase_elems f b⟩
      rw [hl]
      cases lookup (hitOf f) b.ino with
      | none => rfl
      | some e =>
        simp only [Option.map_some, drops, Bool.and_false]
        by_cases hb : bad e.1 = true <;> simp only [hb] <;> rfl
    · exact .inr (.inl ⟨h1, rfl, rfl⟩)
    · exact .inr (.inr rfl)
  | extend c src =>
    obtain ⟨used, more, h0, h⟩ := h
    have h0 : src.items.map (fun t => (t, ())) = used ++ more := h0
    obtain ⟨u, r, h1, rfl, rfl⟩ := List.map_eq_append_iff.1 h0
    have hdis := discarded_elems (bad := bad) (cmp := cmp) u b
    have hdl := discarded_elems (bad := bad) (cmp := cmp) u.dropLast b
    have hins := Spec.BT.insertList_elems (cmp := cmp) u b
    rw [List.map_dropLast] at hdl
    refine ⟨u, r, h1, ?_⟩
    rcases h with ⟨rfl, h2, rfl, h3, h4⟩ | ⟨rfl, rfl, h2, h3⟩ | rfl
    · exact .inl ⟨rfl, List.map_eq_nil_iff.1 h2, hins, h3, hdis ▸ h4⟩
    · refine .inr (.inl ⟨rfl, hins, hdl ▸ h2, ?_⟩)
      rcases h3 with ⟨h3, h4⟩ | h3 | h3
      · exact .inl ⟨h3, List.map_eq_nil_iff.1 h4⟩
      · exact .inr (.inl h3)
      · exact .inr (.inr fun h' => h3 (hdis.trans h'))
    · exact .inr (.inr rfl)
  | debug dt => exact absurd rfl (hd dt)
  | _ => exact rest _ hd h

/-- The set is the textbook tree `b`. -/
def Is (cmp : T → T → Ordering) (b : BT T) (s : World T) : Prop :=
  Wf s.set.items ∧ s.set.items.root.Sorted cmp ∧ SSet.elems s.set = b

theorem lawful_toOpDrop {cmp : T → T → Ordering} {op : SimpleSetOp T} (h : op.Lawful cmp) :
    op.toOpDrop.Lawful cmp := by
  have h' : op.toOp.Lawful cmp := by
    show (op.toOp.twin cmp).Lawful cmp
    rw [SimpleSetOp.twin_toOp]
    exact SetOp.Lawful.toOp h
  cases op <;> exact h'

theorem run_eff (he : 2 ≤ cfg.esize) {cmp : T → T → Ordering} [Std.TransCmp cmp]
    {op : SimpleSetOp T} (hop : op.Lawful cmp) {b : BT T} (hs : Is cmp b s) :
    ∃ o s' b', op.runWorld cfg bad s = (o, s') ∧ Spec.SimpleSetDropAnswer cmp b o b' (bad, op) ∧
      (o = .abort ∨ (((∃ r, o = .ok r) ∨ o = .panic) ∧ Is cmp b' s')) := by
  by_cases hd : ∃ dt, op = .debug dt
  · obtain ⟨dt, rfl⟩ := hd
    refine ⟨_, _, b, run_debug dt, ⟨?_, rfl⟩, .inr ⟨.inl ⟨_, rfl⟩, hs⟩⟩
    obtain ⟨_, _, rfl⟩ := hs
    refine congrArg (fun x => Out.ok (SetRet.text x)) ?_
    exact congrArg (fun x => "SimpleBSTSet { root: " ++ x ++ " }") (ssDebugLink_eq dt _)
  · have hd' : ∀ dt, op ≠ .debug dt := fun dt e => hd ⟨dt, e⟩
    obtain ⟨hw, hso, rfl⟩ := hs
    obtain ⟨o, w, b', h1, h2, h3⟩ := Simple.World.runDrop_eff (d := drops bad) (s := fresh s.set.items) he
      (lawful_toOpDrop hop) (b := s.set.items.root.view) ⟨hw, hso, rfl⟩
    have h2' := answer_of hd' h2
    refine ⟨o.map op.retDrop, s.after w, _, by rw [run_eq op hd', h1], h2', ?_⟩
    rcases h3 with rfl | ⟨h3, h4, h5, rfl⟩
    · exact .inl rfl
    · refine .inr ⟨?_, h4, h5, rfl⟩
      rcases h3 with ⟨r, rfl⟩ | rfl
      · exact .inl ⟨_, rfl⟩
      · exact .inr rfl

theorem history_eff (he : 2 ≤ cfg.esize) {cmp : T → T → Ordering} [Std.TransCmp cmp]
    (ops : List ((T → Bool) × SimpleSetOp T)) (hops : ∀ x ∈ ops, x.2.Lawful cmp) {s : World T}
    {b0 : BT T} (hs : Is cmp b0 s) :
    ∃ os s' b, simpleSetWorldHistory cfg ops s = (os, s') ∧
      Spec.Conforms (Spec.SimpleSetDropAnswer cmp) ops os b0 b ∧ (Out.abort ∉ os → Is cmp b s') := by
  unfold simpleSetWorldHistory
  induction ops generalizing s b0 with
  | nil => exact ⟨[], s, _, rfl, rfl, fun _ => hs⟩
  | cons op ops ih =>
    obtain ⟨o, s1, b1, h1, h2, h3⟩ := run_eff (bad := op.1) he (hops op (by simp)) hs
    rcases h3 with rfl | ⟨h3, h4⟩
    · exact ⟨[.abort], s1, b1, by simp only [execute, h1], ⟨b1, h2, .inl ⟨rfl, rfl, rfl⟩⟩, by simp⟩
    · obtain ⟨os, s', b, g1, g2, g3⟩ := ih (fun x hx => hops x (List.mem_cons_of_mem _ hx)) h4
      refine ⟨o :: os, s', b, ?_, ⟨b1, h2, .inr ⟨?_, g2⟩⟩, fun hn => g3 fun h => hn (List.mem_cons_of_mem _ h)⟩
      · rcases h3 with ⟨r, rfl⟩ | rfl <;> simp only [execute, h1, g1]
      · rcases h3 with ⟨r, rfl⟩ | rfl <;> simp

/-! ### `clear` and the end -/

theorem explore_pre (s : SSet T) : s.explore.pre = elemsOf s.items.root.items := by
  rw [ssExplore_eq, Simple.World.items_pre, elemsOf_items]
  unfold SSet.elems
  rw [Spec.BT.map_pre]

section
variable [DecidableEq T]

theorem explore_count (s : SSet T) (x : T) :
    s.explore.ino.count x = s.items.root.items.count (.inl x) := by
  rw [Simple.World.items_count, ← elemsOf_count, elemsOf_items, ssExplore_eq]
  unfold SSet.elems
  rw [Spec.BT.map_ino]

theorem explore_pre_count (s : SSet T) (x : T) :
    s.explore.pre.count x = s.items.root.items.count (.inl x) := by
  rw [explore_pre, elemsOf_count]

end

theorem clear_spec (bad : T → Bool) (s : World T) :
    ∃ s', clear bad s = (fate () (s.set.explore.pre.countP bad), s') ∧
      SSet.elems s'.set = .nil ∧ s'.set.len = 0 ∧
      (s.set.explore.pre.countP bad < 2 → s'.dropped = s.dropped ++ s.set.explore.pre) := by
  obtain ⟨ys, zs, h1, h2, h3⟩ := Simple.World.Burns.link (d := drops bad) s.set.items.root
    (fresh { Simple.Map.new with allocs := s.set.items.allocs })
  rw [panicking_elems, ← explore_pre] at h2 h3
  refine ⟨_, onItems_run (f := Simple.World.clear (drops bad)) h3, rfl, rfl, fun h => ?_⟩
  obtain rfl := h2 h
  rw [List.append_nil] at h1
  rw [explore_pre, h1]; rfl

end Simple.SSet.World
end BST
