import Verif.Proofs.SetLedger
/-!
# Destructors in `BSTSet`: why a call panics or aborts, and agreement with `Verif/Model/Dtors.lean`
-/
set_option linter.unusedSimpArgs false
namespace BST
open BSTMap Tree
open Spec (panicking)
variable {T : Type}

namespace BSTSet.World
variable {α β : Type} {cfg : Cfg} {bad : T → Bool} {s : World T}

theorem elemsOf_items (l : List (T × Unit)) : elemsOf (itemsOf l) = l.map (·.1) := by
  induction l with
  | nil => rfl
  | cons e l ih =>
    show e.1 :: elemsOf (itemsOf l) = _
    rw [ih]; rfl

theorem panicking_elems (ys : List (T ⊕ Unit)) : panicking (drops bad) ys = (elemsOf ys).countP bad := by
  unfold panicking elemsOf
  induction ys with
  | nil => rfl
  | cons y ys ih =>
    cases y with
    | inl t => simp only [List.countP_cons, List.filterMap_cons, Sum.getLeft?_inl, ih]; rfl
    | inr u =>
      simp only [List.countP_cons, List.filterMap_cons, Sum.getLeft?_inr, ih]
      show _ + (if (false : Bool) = true then 1 else 0) = _
      simp

/-- What the call `g` without destructors has to do with the result `r` of the call with them. -/
def STie (cfg : Cfg) (bad : T → Bool) (s : World T) (g : M (BSTSet T) α) (r : Out α × World T) : Prop :=
  ∃ ys : List T, r.2.dropped = s.dropped ++ ys ∧ match r.1 with
    | .ok a => ys.countP bad = 0 ∧ g s.set = (.ok a, r.2.set) ∧ Valid cfg r.2.set.items
    | .panic => (ys.countP bad = 1 ∨ ys.countP bad = 0 ∧ g s.set = (.panic, r.2.set)) ∧ Valid cfg r.2.set.items
    | .abort => 2 ≤ ys.countP bad ∨ (1 ≤ ys.countP bad ∧ ∀ a, (g s.set).1 ≠ .ok a) ∨ (g s.set).1 = .abort
    | _ => False

theorem STie.bind {f : M (World T) α} {g : M (BSTSet T) α} {f' : α → M (World T) β}
    {g' : α → M (BSTSet T) β} (h : STie cfg bad s g (f s))
    (h' : ∀ a s1, f s = (.ok a, s1) → Valid cfg s1.set.items → STie cfg bad s1 (g' a) (f' a s1)) :
    STie cfg bad s (g >>= g') ((f >>= f') s) := by
  rw [M.bind_apply]
  rcases he : f s with ⟨o, s1⟩
  rw [he] at h
  obtain ⟨ys, h1, h2⟩ := h
  dsimp only at h1
  cases o with
  | ok a =>
    obtain ⟨h2, h3, h4⟩ := h2
    obtain ⟨zs, g1, g2⟩ := h' a s1 he h4
    refine ⟨ys ++ zs, by dsimp only; rw [g1, h1, List.append_assoc], ?_⟩
    dsimp only at g2 h3 ⊢
    have hb : (g >>= g') s.set = g' a s1.set := M.bind_ok h3
    rw [hb, List.countP_append, h2, Nat.zero_add]
    exact g2
  | panic =>
    obtain ⟨h2, h3⟩ := h2
    refine ⟨ys, h1, ?_, h3⟩
    exact h2.imp id fun h => ⟨h.1, M.bind_panic h.2⟩
  | abort =>
    refine ⟨ys, h1, ?_⟩
    dsimp only at h2 ⊢
    refine h2.imp id (Or.imp (fun h => ⟨h.1, fun b => ?_⟩) fun h => ?_)
    · rw [M.bind_apply]
      rcases hg : g s.set with ⟨o, m⟩
      rw [hg] at h
      cases o with
      | ok a => exact absurd rfl (h.2 a)
      | _ => simp
    · rw [M.bind_apply]
      rcases hg : g s.set with ⟨o, m⟩
      rw [hg] at h
      dsimp only at h
      subst h
      rfl
  | ub => exact h2.elim
  | diverge => exact h2.elim

theorem STie.pure (hw : Valid cfg s.set.items) (a : α) :
    STie cfg bad s (Pure.pure a) ((Pure.pure a : M (World T) α) s) :=
  ⟨[], by simp [M.pure_apply], rfl, rfl, hw⟩

theorem STie.item (hw : Valid cfg s.set.items) (t : T) :
    STie cfg bad s (Pure.pure ()) (dropElem bad t s) := by
  refine ⟨[t], rfl, ?_⟩
  unfold dropElem
  cases ht : bad t with
  | false => exact ⟨by simp [ht], rfl, hw⟩
  | true => exact ⟨.inl (by simp [ht]), hw⟩

/-- From the map. -/
theorem STie.onItems {f : M (BSTMap.World T Unit) α} {g : M (BSTMap T Unit) α}
    (h : BSTMap.World.Tie cfg (drops bad) (fresh s.set.items) g (f (fresh s.set.items))) :
    STie cfg bad s (BSTSet.onItems g) (World.onItems f s) := by
  obtain ⟨ys, h1, h2⟩ := h
  refine ⟨elemsOf ys, ?_, ?_⟩
  · show s.dropped ++ elemsOf _ = _
    rw [h1]; rfl
  · unfold World.onItems
    rw [panicking_elems] at h2
    rcases hf : f (fresh s.set.items) with ⟨o, w⟩
    rw [hf] at h2
    have hon : ∀ {o : Out α} {m}, g s.set.items = (o, m) → BSTSet.onItems g s.set = (o, ⟨m⟩) :=
      fun h => onItems_eq h
    have ho : (BSTSet.onItems g s.set).1 = (g s.set.items).1 := by
      rcases hg : g s.set.items with ⟨o, m⟩; rw [hon hg]
    dsimp only at h2 ⊢
    cases o with
    | ok a => exact ⟨h2.1, hon h2.2.1, h2.2.2⟩
    | panic => exact ⟨h2.1.imp id fun h => ⟨h.1, hon h.2⟩, h2.2⟩
    | abort => rw [ho]; exact h2
    | ub => exact h2
    | diverge => exact h2

theorem STie.congr {g g' : M (BSTSet T) α} {r : Out α × World T} (h : STie cfg bad s g r)
    (hg : g s.set = g' s.set) : STie cfg bad s g' r := by
  unfold STie at *
  rw [← hg]
  exact h

theorem removeEntry_tie (hw : Valid cfg s.set.items) (c : Probe T) :
    STie cfg bad s (BSTSet.onItems (removeEntry cfg c))
      (World.onItems (BSTMap.World.onMap (removeEntry cfg c)) s) := by
  refine STie.onItems ?_
  obtain ⟨t, h⟩ := hw
  rcases removeEntry_account h c with ⟨e, m, hf, h1, h2, h3⟩ | ⟨_, h1⟩
  · exact BSTMap.World.Tie.onMap (s := fresh s.set.items) h1 trivial ⟨_, h2⟩ h3
  · exact BSTMap.World.Tie.onMap (s := fresh s.set.items) h1 trivial ⟨_, h⟩ rfl

theorem take_tie (hw : Valid cfg s.set.items) (c : Probe T) :
    STie cfg bad s (BSTSet.take cfg c) (World.take cfg c s) :=
  STie.bind (removeEntry_tie hw c) fun _ _ _ hw1 => STie.pure hw1 _

theorem remove_tie (hw : Valid cfg s.set.items) (c : Probe T) :
    STie cfg bad s (BSTSet.remove cfg c) (World.remove cfg bad c s) := by
  refine STie.bind (take_tie hw c) fun e s1 _ hw1 => ?_
  cases e with
  | none => exact STie.pure hw1 false
  | some t =>
    have := STie.bind (g := Pure.pure ()) (g' := fun _ => Pure.pure true) (f' := fun _ => Pure.pure true)
      (STie.item (bad := bad) hw1 t) fun _ _ _ hw2 => STie.pure hw2 true
    exact this

/-- One call. -/
theorem run_tie (op : SetOp T) (hop : ∀ e, op ≠ .clear e) (hw : Valid cfg s.set.items) :
    STie cfg bad s (op.run cfg) (op.runWorld cfg bad s) := by
  haveI : DecidableEq T := fun _ _ => Classical.propDecidable _
  by_cases hd : ∃ dt, op = .debug dt
  · obtain ⟨dt, rfl⟩ := hd
    show STie cfg bad s _ (World.onSet ((SetOp.debug dt).run cfg) s)
    rw [onSet_debug]
    obtain ⟨t, h⟩ := hw
    obtain ⟨o, s', t', h1, h2, _⟩ := SetOp.run_shape h (op := .debug dt) trivial
    have h3 := debug_run cfg dt s.set
    rw [h1] at h3
    dsimp only at h3
    subst h3
    refine ⟨[], by simp, ?_⟩
    rw [h1]
    cases o with
    | ok r => exact ⟨rfl, rfl, t, h⟩
    | panic => exact ⟨.inr ⟨rfl, rfl⟩, t, h⟩
    | abort => exact .inr (.inr rfl)
    | ub => exact h2
    | diverge => exact h2
  by_cases hr : ∃ c, op = .remove c
  · obtain ⟨c, rfl⟩ := hr
    exact STie.bind (remove_tie hw c) fun _ _ _ hw1 => STie.pure hw1 _
  rw [simWorld op (fun dt e => hd ⟨dt, e⟩) (fun c e => hr ⟨c, e⟩)]
  have h1 := STie.onItems (BSTMap.World.run_tie (cfg := cfg) (d := drops bad) (s := fresh s.set.items) op.toOp
    (fun e he => by cases op <;> first | exact hop _ rfl | cases he) hw)
  have h2 := STie.bind (f' := fun r => Pure.pure (op.ret r)) (g' := fun r => Pure.pure (op.ret r)) h1
    fun _ _ _ hw1 => STie.pure hw1 _
  refine STie.congr h2 ?_
  rw [SetOp.sim op fun dt e => hd ⟨dt, e⟩, M.bind_apply]
  rcases hu : op.toOp.run cfg s.set.items with ⟨o, m⟩
  rw [onItems_eq hu]
  cases o <;> rfl

theorem run_calm (op : SetOp T) (hop : op.Drops) (hd : ∀ t, bad t = false) (hw : Valid cfg s.set.items) :
    (op.runWorld cfg bad s).1 = (op.run cfg s.set).1 ∧ ((op.runWorld cfg bad s).1 ≠ .abort →
      (op.runWorld cfg bad s).2.set = (op.run cfg s.set).2 ∧ Valid cfg (op.runWorld cfg bad s).2.set.items) := by
  haveI : DecidableEq T := fun _ _ => Classical.propDecidable _
  by_cases hc : ∃ e, op = .clear e
  · obtain ⟨e, rfl⟩ := hc
    have h1 := run_led (bad := bad) (.clear e) hop hw
    refine ⟨rfl, fun ha => ⟨rfl, ?_⟩⟩
    rcases hu : (SetOp.clear e).runWorld cfg bad s with ⟨o, s'⟩
    rw [hu] at h1 ha
    cases o with
    | ok r => exact SStep.wf h1
    | panic => exact SStep.wf h1
    | abort => exact absurd rfl ha
    | ub => exact h1.elim
    | diverge => exact h1.elim
  · obtain ⟨ys, _, g⟩ := run_tie (bad := bad) (s := s) op (fun e he => hc ⟨e, he⟩) hw
    have hp : ys.countP bad = 0 := by
      rw [List.countP_eq_zero]; intro t _; simp [hd t]
    rcases hu : op.runWorld cfg bad s with ⟨o, s'⟩
    rw [hu] at g
    dsimp only at g ⊢
    cases o with
    | ok r => rw [g.2.1]; exact ⟨rfl, fun _ => ⟨rfl, g.2.2⟩⟩
    | panic =>
      rcases g with ⟨g | g, g'⟩
      · omega
      · rw [g.2]; exact ⟨rfl, fun _ => ⟨rfl, g'⟩⟩
    | abort =>
      rcases g with g | g | g
      · omega
      · omega
      · rw [g]; exact ⟨rfl, fun h => absurd rfl h⟩
    | ub => exact g.elim
    | diverge => exact g.elim

theorem history_calm (ops : List ((T → Bool) × SetOp T)) (hops : ∀ x ∈ ops, x.2.Drops)
    (hc : ∀ x ∈ ops, ∀ t, x.1 t = false) {s : World T} (hw : Valid cfg s.set.items) :
    (setWorldHistory cfg ops s).1 = (setHistory cfg (ops.map (·.2)) s.set).1 ∧
      (Out.abort ∉ (setWorldHistory cfg ops s).1 →
        (setWorldHistory cfg ops s).2.set = (setHistory cfg (ops.map (·.2)) s.set).2) := by
  unfold setWorldHistory setHistory
  induction ops generalizing s with
  | nil => exact ⟨rfl, fun _ => rfl⟩
  | cons x ops ih =>
    have h1 := run_calm x.2 (hops x (by simp)) (hc x (by simp)) hw
    rcases hx : x.2.runWorld cfg x.1 s with ⟨o, s1⟩
    rcases hy : x.2.run cfg s.set with ⟨o', m1⟩
    rw [hx, hy] at h1
    dsimp only at h1
    obtain ⟨rfl, h1⟩ := h1
    have ih := @ih (fun y hy => hops y (List.mem_cons_of_mem _ hy)) (fun y hy => hc y (List.mem_cons_of_mem _ hy))
    cases o with
    | ok r =>
      obtain ⟨rfl, h3⟩ := h1 (by simp)
      obtain ⟨ih1, ih2⟩ := ih h3
      simp only [execute, List.map_cons, hx, hy]
      exact ⟨by rw [ih1], fun h => ih2 fun h' => h (List.mem_cons_of_mem _ h')⟩
    | panic =>
      obtain ⟨rfl, h3⟩ := h1 (by simp)
      obtain ⟨ih1, ih2⟩ := ih h3
      simp only [execute, List.map_cons, hx, hy]
      exact ⟨by rw [ih1], fun h => ih2 fun h' => h (List.mem_cons_of_mem _ h')⟩
    | abort =>
      simp only [execute, List.map_cons, hx, hy]
      exact ⟨trivial, fun h => absurd (List.mem_singleton.2 rfl) h⟩
    | ub =>
      simp only [execute, List.map_cons, hx, hy]
      exact ⟨trivial, fun _ => (h1 (by simp)).1⟩
    | diverge =>
      simp only [execute, List.map_cons, hx, hy]
      exact ⟨trivial, fun _ => (h1 (by simp)).1⟩

/-- A call aborts, or does to the set what the call of `Verif/Model/Dtors.lean` does. -/
theorem run_sim (op : SetOp T) (s : World T) :
    (op.runWorld cfg bad s).1 = .abort ∨
      op.runDrop cfg (elemDtors bad) s.set = ((op.runWorld cfg bad s).1, (op.runWorld cfg bad s).2.set) := by
  haveI : DecidableEq T := fun _ _ => Classical.propDecidable _
  by_cases hd : ∃ dt, op = .debug dt
  · obtain ⟨dt, rfl⟩ := hd
    right
    have : (SetOp.debug dt).runWorld cfg bad s = (((SetOp.debug dt).run cfg s.set).1, s) := onSet_debug dt
    rw [this]
    exact Prod.ext rfl (debug_run cfg dt s.set)
  by_cases hr : ∃ c, op = .remove c
  · obtain ⟨c, rfl⟩ := hr
    right
    simp only [SetOp.runWorld, SetOp.runDrop, World.remove, BSTSet.removeDrop, World.take, BSTSet.take,
      M.bind_apply, BSTSet.onItems, World.onItems, BSTMap.World.onMap, fresh]
    rcases removeEntry cfg c s.set.items with ⟨o, m⟩
    rcases o with e | _ | _ | _ | _
    · cases e with
      | none => rfl
      | some e =>
        simp only [M.pure_apply, Option.map_some, Option.any_some, dropElem, M.bind_apply]
        have hk : (elemDtors bad).badKey e.1 = bad e.1 := rfl
        by_cases hb : bad e.1 = true
        · rw [if_pos (hk.trans hb), if_pos hb]; rfl
        · rw [if_neg (by rw [hk]; exact hb), if_neg hb]; rfl
    all_goals rfl
  have hd' : ∀ dt, op ≠ .debug dt := fun dt e => hd ⟨dt, e⟩
  have e : op.toOpDrop = op.toOp ∧ op.retDrop = op.ret := by
    cases op with
    | remove c => exact absurd rfl fun e => hr ⟨c, e⟩
    | _ => exact ⟨rfl, rfl⟩
  rw [simWorld op hd' (fun c e => hr ⟨c, e⟩), SetOp.simDrop op hd', e.1, e.2, M.bind_apply]
  have h1 := BSTMap.World.run_sim (cfg := cfg) (d := drops bad) op.toOp (fresh s.set.items)
  unfold World.onItems
  rcases hu : op.toOp.runWorld cfg (drops bad) (fresh s.set.items) with ⟨o, w⟩
  rw [hu] at h1
  rcases h1 with h1 | h1
  · left; dsimp only at h1; subst h1; rfl
  · right
    have h2 : op.toOp.runDrop cfg (elemDtors bad) s.set.items = (o, w.map) := h1
    rw [h2]
    cases o <;> rfl

theorem history_sim (ops : List ((T → Bool) × SetOp T)) (s : World T)
    (h : Out.abort ∉ (setWorldHistory cfg ops s).1) :
    setHistoryDrop cfg (ops.map fun x => (elemDtors x.1, x.2)) s.set =
      ((setWorldHistory cfg ops s).1, (setWorldHistory cfg ops s).2.set) := by
  unfold setWorldHistory setHistoryDrop at *
  induction ops generalizing s with
  | nil => rfl
  | cons x ops ih =>
    rcases hx : x.2.runWorld cfg x.1 s with ⟨o, s1⟩
    have h1 := run_sim (cfg := cfg) (bad := x.1) x.2 s
    rw [hx] at h1
    dsimp only at h1
    cases o with
    | ok r =>
      have h1 := h1.resolve_left (by simp)
      simp only [execute, hx, List.map_cons, h1] at h ⊢
      rw [ih s1 fun h' => h (List.mem_cons_of_mem _ h')]
    | panic =>
      have h1 := h1.resolve_left (by simp)
      simp only [execute, hx, List.map_cons, h1] at h ⊢
      rw [ih s1 fun h' => h (List.mem_cons_of_mem _ h')]
    | abort => simp [execute, hx] at h
    | ub =>
      have h1 := h1.resolve_left (by simp)
      simp only [execute, hx, List.map_cons, h1]
    | diverge =>
      have h1 := h1.resolve_left (by simp)
      simp only [execute, hx, List.map_cons, h1]

theorem drop_spec (hw : Valid cfg s.set.items) (bad : T → Bool) :
    ∃ o s' l rest, World.drop cfg bad s = (o, s') ∧ s'.set = BSTSet.new ∧ s.set.contents.Perm (l ++ rest) ∧
      (∀ t ∈ l, bad t = false) ∧
      match rest with
      | [] => o = .ok () ∧ s'.dropped = s.dropped ++ l
      | t :: _ => bad t = true ∧ s'.dropped = s.dropped ++ (l ++ [t]) ∧ o = .panic := by
  haveI : DecidableEq T := fun _ _ => Classical.propDecidable _
  obtain ⟨t, h⟩ := hw
  obtain ⟨o, w, l, rest, h1, h2, h3, h4⟩ := BSTMap.World.drop_spec (s := fresh s.set.items) h (drops bad)
  have hm := BSTMap.World.drop_map (cfg := cfg) (d := drops bad) (fresh s.set.items)
  rw [h1] at hm
  dsimp only at hm
  refine ⟨o, s.after w, l.map (·.1), rest.map (·.1), ?_, ?_, ?_, ?_, ?_⟩
  · unfold World.drop World.onItems; rw [h1]
  · show (⟨w.map⟩ : BSTSet T) = ⟨BSTMap.new⟩
    rw [hm]
  · rw [← List.map_append]
    have e : s.set.contents = (entriesIn .ino s.set.items).map (·.1) := contents_set s.set.items
    rw [e]
    exact h2.map _
  · intro t ht
    obtain ⟨e, he, rfl⟩ := List.mem_map.1 ht
    exact (h3 e he).1
  · cases rest with
    | nil =>
      refine ⟨h4.1, ?_⟩
      show s.dropped ++ elemsOf w.dropped = _
      rw [h4.2, ← elemsOf_items]; rfl
    | cons e rest =>
      obtain ⟨g1, g2, g3⟩ := h4
      have hv : ∀ u, (drops bad).value u = false := fun _ => rfl
      have hk : (drops bad).key e.1 = bad e.1 := rfl
      rw [hv, hk] at g1 g3
      simp only [Bool.or_false, Bool.and_false, Bool.false_eq_true, if_false] at g1 g3
      refine ⟨g1, ?_, g3⟩
      show s.dropped ++ elemsOf w.dropped = _
      rw [g2]
      have : (l.map (·.1) ++ [e.1]) = (l ++ [e]).map (·.1) := by simp
      rw [this, ← elemsOf_items]; rfl

end BSTSet.World
end BST
