import Verif.SetsAsMaps
import Verif.Proofs.SetHistory
import Verif.Proofs.SimpleSet
/-!
# Sets as maps: lemmas for C82
-/
namespace BST
open Spec
variable {T α β γ δ : Type} {cfg : Cfg}

namespace SetsAsMaps

theorem OutRel.bind {R : α → β → Prop} {S : γ → δ → Prop} {o : Out α} {o' : Out β} {f : α → Out γ}
    {g : β → Out δ} (h : OutRel R o o') (hf : ∀ a b, R a b → OutRel S (f a) (g b)) :
    OutRel S (o >>= f) (o' >>= g) := by
  cases h with
  | ok h => exact hf _ _ h
  | panic => exact .panic
  | abort => exact .abort
  | ub => exact .ub
  | diverge => exact .diverge

theorem OutRel.refl (o : Out α) : OutRel Eq o o := by
  cases o with
  | ok a => exact .ok rfl
  | panic => exact .panic
  | abort => exact .abort
  | ub => exact .ub
  | diverge => exact .diverge

/-- A call whose result is computed from that of the map. -/
theorem onItems_bind (f : M (BSTMap T Unit) α) (g : α → β) (h : α → γ) {R : γ → β → Prop}
    (hr : ∀ a, R (h a) (g a)) (s : BSTSet T) :
    ((BSTSet.onItems f >>= fun a => pure (g a)) s).2.items = ((f >>= fun a => pure (h a)) s.items).2 ∧
    OutRel R ((f >>= fun a => pure (h a)) s.items).1 ((BSTSet.onItems f >>= fun a => pure (g a)) s).1 := by
  rw [M.bind_apply, M.bind_apply, BSTSet.onItems]
  rcases f s.items with ⟨o, m⟩
  cases o with
  | ok a => exact ⟨rfl, .ok (hr a)⟩
  | panic => exact ⟨rfl, .panic⟩
  | abort => exact ⟨rfl, .abort⟩
  | ub => exact ⟨rfl, .ub⟩
  | diverge => exact ⟨rfl, .diverge⟩

/-- A call that replaces the set. -/
theorem assign_bind (f : BSTMap T Unit → Out Unit × BSTMap T Unit) {R : γ → β → Prop} {b : β} {c : γ}
    (hr : R c b) (s : BSTSet T) :
    ((BSTSet.assign (fun s => match f s.items with | (o, items) => (o, ⟨items⟩)) >>= fun _ => pure b) s).2.items =
      ((BSTMap.assign f >>= fun _ => pure c) s.items).2 ∧
    OutRel R ((BSTMap.assign f >>= fun _ => pure c) s.items).1
      ((BSTSet.assign (fun s => match f s.items with | (o, items) => (o, ⟨items⟩)) >>= fun _ => pure b) s).1 := by
  rw [M.bind_apply, M.bind_apply, BSTSet.assign, BSTMap.assign]
  rcases f s.items with ⟨o, m⟩
  cases o with
  | ok a => exact ⟨rfl, .ok hr⟩
  | panic => exact ⟨rfl, .panic⟩
  | abort => exact ⟨rfl, .abort⟩
  | ub => exact ⟨rfl, .ub⟩
  | diverge => exact ⟨rfl, .diverge⟩

/-- A call that only reads. -/
theorem read_bind {σ τ : Type} {R : γ → β → Prop} {f : σ → Out α} {f' : τ → Out δ} {g : α → β} {h : δ → γ}
    {Q : δ → α → Prop} (hr : ∀ a b, Q a b → R (h a) (g b)) {s : σ} {t : τ} (hq : OutRel Q (f' t) (f s)) :
    ((M.read f >>= fun a => pure (g a)) s).2 = s ∧ ((M.read f' >>= fun a => pure (h a)) t).2 = t ∧
    OutRel R ((M.read f' >>= fun a => pure (h a)) t).1 ((M.read f >>= fun a => pure (g a)) s).1 := by
  rw [M.bind_apply, M.bind_apply, M.read, M.read]
  revert hq
  generalize f' t = x
  generalize f s = y
  intro hq
  cases hq with
  | ok h => exact ⟨rfl, rfl, .ok (hr _ _ h)⟩
  | panic => exact ⟨rfl, rfl, .panic⟩
  | abort => exact ⟨rfl, rfl, .abort⟩
  | ub => exact ⟨rfl, rfl, .ub⟩
  | diverge => exact ⟨rfl, rfl, .diverge⟩

theorem goSetNode_eq (s : BSTSet T) : ∀ (path : List Bool) (n : Option (Node T Unit)),
    goSetNode s path n = goNode s.items.nodes path n
  | [], _ => rfl
  | _ :: _, none => rfl
  | b :: path, some n => by
    simp only [goSetNode, goNode, goSetNode_eq s path]
    rfl

theorem setNodeAt_eq (path : List Bool) (s : BSTSet T) : setNodeAt path s = nodeAt path s.items := by
  simp only [setNodeAt, nodeAt, goSetNode_eq]
  rfl

theorem nexts_rel {σ : Type} {next : σ → Out (Option (T × Unit) × σ)} : ∀ (n : Nat) (st : σ),
    OutRel (fun a b => b = (a.1.map (Option.map (·.1)), a.2)) (nexts next n st)
      (nexts (fun st => do let (o, st) ← next st; pure (o.map (·.1), st)) n st)
  | 0, _ => .ok rfl
  | n + 1, st => by
    simp only [nexts]
    cases next st with
    | ok a =>
      show OutRel _ (nexts next n a.2 >>= fun x => pure (a.1 :: x.1, x.2))
        (nexts (fun st => do let (o, st) ← next st; pure (o.map (·.1), st)) n a.2 >>=
          fun x => pure (a.1.map (·.1) :: x.1, x.2))
      refine OutRel.bind (nexts_rel n a.2) ?_
      rintro ⟨a1, a2⟩ _ rfl
      exact .ok rfl
    | panic => exact .panic
    | abort => exact .abort
    | ub => exact .ub
    | diverge => exact .diverge

theorem debugNode_rel (dt : T → String) (nodes : Nodes T Unit) : ∀ (fuel : Nat) (n : Node T Unit),
    OutRel (fun _ _ => True) (BSTMap.debugNode dt (fun _ => "()") nodes fuel n)
      (BSTSet.debugNode dt nodes fuel n)
  | 0, _ => .diverge
  | fuel + 1, n => by
    simp only [BSTMap.debugNode, BSTSet.debugNode]
    have ih := debugNode_rel dt nodes fuel
    have any : ∀ {α β : Type} {a : α} {b : β}, OutRel (fun (_ : α) (_ : β) => True) (Out.ok a) (Out.ok b) :=
      .ok trivial
    refine OutRel.bind (OutRel.refl _) ?_
    rintro l _ rfl
    refine OutRel.bind (R := fun _ _ => True) ?_ fun _ _ _ => OutRel.bind (OutRel.refl _) ?_
    · rcases l with _ | c
      · exact any
      · exact OutRel.bind (ih c) fun _ _ _ => any
    rintro r _ rfl
    refine OutRel.bind (R := fun _ _ => True) ?_ fun _ _ _ => any
    rcases r with _ | c
    · exact any
    · exact OutRel.bind (ih c) fun _ _ _ => any

theorem debug_rel (dt : T → String) (s : BSTSet T) :
    OutRel (fun _ _ => True) (s.items.debug dt fun _ => "()") (s.debug dt) := by
  simp only [BSTMap.debug, BSTSet.debug, BSTSet.rootNode]
  refine OutRel.bind (OutRel.refl _) ?_
  rintro (_ | n) _ rfl
  · exact .ok trivial
  · refine OutRel.bind (R := fun _ _ => True) ?_ fun _ _ _ => .ok trivial
    exact OutRel.bind (debugNode_rel dt _ _ n) fun _ _ _ => .ok trivial

/-- One call. -/
theorem run (op : SetOp T) (s : BSTSet T) :
    (op.run cfg s).2.items = (op.onMap.run cfg s.items).2 ∧
    OutRel (Tells op) (op.onMap.run cfg s.items).1 (op.run cfg s).1 := by
  have reads : ∀ {α δ : Type} {f : BSTSet T → Out α} {f' : BSTMap T Unit → Out δ} {g : α → SetRet T}
      {h : δ → Ret T Unit} (Q : δ → α → Prop), (∀ a b, Q a b → Tells op (h a) (g b)) →
      OutRel Q (f' s.items) (f s) →
      ((M.read f >>= fun a => pure (g a)) s).2.items = ((M.read f' >>= fun a => pure (h a)) s.items).2 ∧
      OutRel (Tells op) ((M.read f' >>= fun a => pure (h a)) s.items).1
        ((M.read f >>= fun a => pure (g a)) s).1 := by
    intro α δ f f' g h Q hr hq
    obtain ⟨h1, h2, h3⟩ := read_bind (R := Tells op) hr hq
    exact ⟨by rw [h1, h2], h3⟩
  cases op with
  | withCapacity n => exact assign_bind (fun _ => BSTMap.withCapacity cfg n) .withCapacity s
  | collect cmps src => exact assign_bind (fun _ => BSTMap.fromIter cfg cmps src.pairs) .collect s
  | cloned cmps f => exact assign_bind (BSTMap.clone cfg cmps f some) .cloned s
  | insert c t =>
    simp only [SetOp.run, SetOp.onMap, Op.run, BSTSet.insert, bind_assoc, pure_bind]
    exact onItems_bind _ (fun r : Option Unit => SetRet.bool r.isNone) (fun r => Ret.value r)
      (R := Tells (.insert c t)) (fun _ => .insert) s
  | remove c =>
    have h := onItems_bind (BSTMap.removeEntry cfg c) (fun e => SetRet.bool (e.map (·.1)).isSome)
      (fun e => Ret.value (e.map (·.2))) (R := Tells (.remove c)) (fun e => by cases e <;> exact .remove) s
    simp only [SetOp.run, SetOp.onMap, Op.run, BSTSet.remove, BSTSet.take, BSTMap.remove, bind_assoc, pure_bind]
    exact h
  | take c =>
    simp only [SetOp.run, SetOp.onMap, Op.run, BSTSet.take, bind_assoc, pure_bind]
    exact onItems_bind _ (fun e : Option (T × Unit) => SetRet.elem (e.map (·.1))) (fun e => Ret.entry e)
      (R := Tells (.take c)) (fun _ => .take) s
  | get c =>
    refine reads (fun a b => b = a.map (·.1)) (by rintro a _ rfl; exact .get) ?_
    rw [BSTSet.get]
    cases s.items.getEntry c with
    | ok a => exact .ok rfl
    | panic => exact .panic
    | abort => exact .abort
    | ub => exact .ub
    | diverge => exact .diverge
  | contains c => exact reads Eq (by rintro a _ rfl; exact .contains) (OutRel.refl _)
  | node path =>
    refine reads Eq ?_ (by rw [setNodeAt_eq]; exact OutRel.refl _)
    rintro a _ rfl
    cases a <;> exact .node
  | iter o n =>
    simp only [SetOp.run, SetOp.onMap, Op.run, M.read_bind]
    cases o.iter s.items with
    | ok st =>
      exact reads (fun a b => b = (a.1.map (Option.map (·.1)), a.2)) (by rintro a _ rfl; exact .iter)
        (nexts_rel n st)
    | panic => exact ⟨rfl, .panic⟩
    | abort => exact ⟨rfl, .abort⟩
    | ub => exact ⟨rfl, .ub⟩
    | diverge => exact ⟨rfl, .diverge⟩
  | len => exact reads Eq (by rintro a _ rfl; exact .len) (OutRel.refl _)
  | isEmpty => exact reads Eq (by rintro a _ rfl; exact .isEmpty) (OutRel.refl _)
  | capacity => exact ⟨rfl, .ok .capacity⟩
  | clear d => exact onItems_bind _ (fun _ => SetRet.unit) (fun _ => Ret.unit) (fun _ => .clear) s
  | reserve n => exact onItems_bind _ (fun _ => SetRet.unit) (fun _ => Ret.unit) (fun _ => .reserve) s
  | shrinkToFit => exact onItems_bind _ (fun _ => SetRet.unit) (fun _ => Ret.unit) (fun _ => .shrinkToFit) s
  | extend cmps src => exact onItems_bind _ (fun _ => SetRet.unit) (fun _ => Ret.unit) (fun _ => .extend) s
  | debug dt => exact reads (fun _ _ => True) (fun _ _ _ => .debug) (debug_rel dt s)

theorem history (ops : List (SetOp T)) (s : BSTSet T) :
    (setHistory cfg ops s).2.items = (BST.history cfg (ops.map SetOp.onMap) s.items).2 ∧
    TellsAll ops (BST.history cfg (ops.map SetOp.onMap) s.items).1 (setHistory cfg ops s).1 := by
  induction ops generalizing s with
  | nil => exact ⟨rfl, .nil⟩
  | cons op ops ih =>
    obtain ⟨h1, h2⟩ := run (cfg := cfg) op s
    simp only [setHistory, execute, List.map_cons, BST.history]
    rcases hr : op.run cfg s with ⟨o, s'⟩
    rcases hq : op.onMap.run cfg s.items with ⟨o', m'⟩
    rw [hr, hq] at h1 h2
    cases h1
    have ih := ih s'
    rw [setHistory] at ih
    cases h2 with
    | ok h => exact ⟨ih.1, .cons (.ok h) ih.2⟩
    | panic => exact ⟨ih.1, .cons .panic ih.2⟩
    | abort => exact ⟨rfl, .cons .abort .nil⟩
    | ub => exact ⟨rfl, .cons .ub .nil⟩
    | diverge => exact ⟨rfl, .cons .diverge .nil⟩

/-! ### The simple crate -/

open Simple

theorem simple_onItems_bind (f : M (Map T Unit) α) (g : α → β) (h : α → γ) {R : γ → β → Prop}
    (hr : ∀ a, R (h a) (g a)) (s : SSet T) :
    ((SSet.onItems f >>= fun a => pure (g a)) s).2.items = ((f >>= fun a => pure (h a)) s.items).2 ∧
    OutRel R ((f >>= fun a => pure (h a)) s.items).1 ((SSet.onItems f >>= fun a => pure (g a)) s).1 := by
  rw [M.bind_apply, M.bind_apply, SSet.onItems]
  rcases f s.items with ⟨o, m⟩
  cases o with
  | ok a => exact ⟨rfl, .ok (hr a)⟩
  | panic => exact ⟨rfl, .panic⟩
  | abort => exact ⟨rfl, .abort⟩
  | ub => exact ⟨rfl, .ub⟩
  | diverge => exact ⟨rfl, .diverge⟩

theorem simple_assign_bind (f : Map T Unit → Out Unit × Map T Unit) {R : γ → β → Prop} {b : β} {c : γ}
    (hr : R c b) (s : SSet T) :
    ((SSet.assign (fun s => match f s.items with | (o, items) => (o, ⟨items⟩)) >>= fun _ => pure b) s).2.items =
      ((Simple.assign f >>= fun _ => pure c) s.items).2 ∧
    OutRel R ((Simple.assign f >>= fun _ => pure c) s.items).1
      ((SSet.assign (fun s => match f s.items with | (o, items) => (o, ⟨items⟩)) >>= fun _ => pure b) s).1 := by
  rw [M.bind_apply, M.bind_apply, SSet.assign, Simple.assign]
  rcases f s.items with ⟨o, m⟩
  cases o with
  | ok a => exact ⟨rfl, .ok hr⟩
  | panic => exact ⟨rfl, .panic⟩
  | abort => exact ⟨rfl, .abort⟩
  | ub => exact ⟨rfl, .ub⟩
  | diverge => exact ⟨rfl, .diverge⟩

theorem simple_goNode_eq : ∀ (path : List Bool) (n : Option (Ref T Unit)), SSet.goNode path n = goRef path n
  | [], _ => rfl
  | _ :: _, none => rfl
  | b :: path, some n => by
    simp only [SSet.goNode, goRef, simple_goNode_eq path]
    rfl

theorem simple_run (cmp : T → T → Ordering) (op : SimpleSetOp T) (s : SSet T) :
    (op.run cfg s).2.items = (op.onMap.run cfg s.items).2 ∧
    OutRel (Tells (op.twin cmp)) (op.onMap.run cfg s.items).1 (op.run cfg s).1 := by
  have reads : ∀ {α δ : Type} {f : SSet T → Out α} {f' : Map T Unit → Out δ} {g : α → SetRet T}
      {h : δ → Ret T Unit} (Q : δ → α → Prop), (∀ a b, Q a b → Tells (op.twin cmp) (h a) (g b)) →
      OutRel Q (f' s.items) (f s) →
      ((M.read f >>= fun a => pure (g a)) s).2.items = ((M.read f' >>= fun a => pure (h a)) s.items).2 ∧
      OutRel (Tells (op.twin cmp)) ((M.read f' >>= fun a => pure (h a)) s.items).1
        ((M.read f >>= fun a => pure (g a)) s).1 := by
    intro α δ f f' g h Q hr hq
    obtain ⟨h1, h2, h3⟩ := read_bind (R := Tells (op.twin cmp)) hr hq
    exact ⟨by rw [h1, h2], h3⟩
  cases op with
  | collect cmps src =>
    exact simple_assign_bind (fun m => Map.fromIter cfg cmps src.pairs m.allocs) .collect s
  | cloned f => exact simple_assign_bind (Map.clone cfg f some) .cloned s
  | insert c t =>
    simp only [SimpleSetOp.run, SimpleSetOp.onMap, SimpleOp.run, SSet.insert, bind_assoc, pure_bind]
    exact simple_onItems_bind _ (fun r : Option Unit => SetRet.bool r.isNone) (fun r => Ret.value r)
      (R := Tells (.insert c t)) (fun _ => .insert) s
  | remove c =>
    have h := simple_onItems_bind (Map.removeEntry cfg c) (fun e => SetRet.bool (e.map (·.1)).isSome)
      (fun e => Ret.value (e.map (·.2))) (R := Tells (.remove c)) (fun e => by cases e <;> exact .remove) s
    simp only [SimpleSetOp.run, SimpleSetOp.onMap, SimpleOp.run, SSet.remove, SSet.take, Map.remove, bind_assoc,
      pure_bind]
    exact h
  | take c =>
    simp only [SimpleSetOp.run, SimpleSetOp.onMap, SimpleOp.run, SSet.take, bind_assoc, pure_bind]
    exact simple_onItems_bind _ (fun e : Option (T × Unit) => SetRet.elem (e.map (·.1))) (fun e => Ret.entry e)
      (R := Tells (.take c)) (fun _ => .take) s
  | get c =>
    refine reads (fun a b => b = a.map (·.1)) (by rintro a _ rfl; exact .get) ?_
    rw [SSet.get]
    cases s.items.getEntry c with
    | ok a => exact .ok rfl
    | panic => exact .panic
    | abort => exact .abort
    | ub => exact .ub
    | diverge => exact .diverge
  | contains c => exact reads Eq (by rintro a _ rfl; exact .contains) (OutRel.refl _)
  | node path =>
    refine ⟨rfl, .ok ?_⟩
    rw [simple_goNode_eq]
    show Tells (.node path) (.node ((goRef path s.items.rootRef).map _)) (.node ((goRef path s.items.rootRef).map _))
    cases goRef path s.items.rootRef <;> exact .node
  | iter o n =>
    exact reads (f := fun s => nexts (SSet.nextOf o) n (SSet.iter o s))
      (f' := fun m => nexts (Map.next o) n (Map.iter o m))
      (fun a b => b = (a.1.map (Option.map (·.1)), a.2)) (by rintro a _ rfl; exact .iter)
      (nexts_rel n (Map.iter o s.items))
  | len => exact ⟨rfl, .ok .len⟩
  | isEmpty => exact reads Eq (by rintro a _ rfl; exact .isEmpty) (OutRel.refl _)
  | clear => exact simple_onItems_bind _ (fun _ => SetRet.unit) (fun _ => Ret.unit) (fun _ => .clear) s
  | extend cmps src => exact simple_onItems_bind _ (fun _ => SetRet.unit) (fun _ => Ret.unit) (fun _ => .extend) s
  | debug dt => exact ⟨rfl, .ok .debug⟩

theorem simple_history (cmp : T → T → Ordering) (ops : List (SimpleSetOp T)) (s : SSet T) :
    (simpleSetHistory cfg ops s).2.items = (simpleHistory cfg (ops.map SimpleSetOp.onMap) s.items).2 ∧
    TellsAll (ops.map (·.twin cmp)) (simpleHistory cfg (ops.map SimpleSetOp.onMap) s.items).1
      (simpleSetHistory cfg ops s).1 := by
  induction ops generalizing s with
  | nil => exact ⟨rfl, .nil⟩
  | cons op ops ih =>
    obtain ⟨h1, h2⟩ := simple_run (cfg := cfg) cmp op s
    simp only [simpleSetHistory, execute, List.map_cons, simpleHistory]
    rcases hr : op.run cfg s with ⟨o, s'⟩
    rcases hq : op.onMap.run cfg s.items with ⟨o', m'⟩
    rw [hr, hq] at h1 h2
    cases h1
    have ih := ih s'
    rw [simpleSetHistory, simpleHistory] at ih
    cases h2 with
    | ok h => exact ⟨ih.1, .cons (.ok h) ih.2⟩
    | panic => exact ⟨ih.1, .cons .panic ih.2⟩
    | abort => exact ⟨rfl, .cons .abort .nil⟩
    | ub => exact ⟨rfl, .cons .ub .nil⟩
    | diverge => exact ⟨rfl, .cons .diverge .nil⟩

/-- The keys that move into the map are the elements for which `insert` returned `true`. -/
theorem account_added {cfg : Cfg} {ops : List (SetOp T)} (hf : ∀ op ∈ ops, op.Fills) (s : BSTSet T) :
    account cfg (Op.keysIn cfg) (ops.map SetOp.onMap) s.items = added ops (setHistory cfg ops s).1 := by
  induction ops generalizing s with
  | nil => rfl
  | cons op ops ih =>
    obtain ⟨h1, h2⟩ := run (cfg := cfg) op s
    have hop := hf op (.head _)
    have ih := ih (fun o h => hf o (.tail _ h)) (op.run cfg s).2
    simp only [List.map_cons, account, setHistory, execute]
    rw [setHistory] at ih
    rcases hr : op.run cfg s with ⟨o, s1⟩
    rcases hq : op.onMap.run cfg s.items with ⟨o', m1⟩
    rw [hr, hq] at h1 h2
    rw [hr] at ih
    cases h1
    have stop : ∀ o'' : Out (Ret T Unit), (∀ r, o'' ≠ .ok r) → Op.keysIn cfg s.items op.onMap o'' = [] := by
      intro o'' hn
      cases op <;> first | exact hop.elim | rfl | skip
      cases o'' <;> first | rfl | exact absurd rfl (hn _)
    have skip : ∀ o : Out (SetRet T), (∀ r, o ≠ .ok r) → ∀ os, added (op :: ops) (o :: os) = added ops os := by
      intro o hn os
      cases op <;> first | rfl | skip
      cases o <;> first | rfl | exact absurd rfl (hn _)
    have none_left : added ops [] = [] := by
      cases ops with
      | nil => rfl
      | cons o _ => cases o <;> rfl
    cases h2 with
    | ok h =>
      dsimp only
      rw [ih]
      cases h <;> first | exact hop.elim | rfl | skip
      rename_i r
      cases r <;> rfl
    | panic =>
      dsimp only
      rw [ih, stop _ (by nofun), skip _ (by nofun)]; rfl
    | abort => dsimp only; rw [stop _ (by nofun), skip _ (by nofun), none_left]
    | ub => dsimp only; rw [stop _ (by nofun), skip _ (by nofun), none_left]
    | diverge => dsimp only; rw [stop _ (by nofun), skip _ (by nofun), none_left]

end SetsAsMaps
end BST
