import Verif.SimpleSetHistory
import Verif.Proofs.SetHistory
import Verif.Proofs.AgreeRun
/-!
# `SimpleBSTSet`: every call is a call on the underlying map
-/
set_option linter.unusedSimpArgs false
namespace BST
open BSTMap Tree
open Spec (BT Order)
open Simple (Link Ref SSet sem Wf Plenty)
variable {T : Type} {cfg : Cfg}

/-- The call on the map that a call on a set makes (`debug` has none). -/
def SimpleSetOp.toOp : SimpleSetOp T → SimpleOp T Unit
  | collect cmps src => .collect cmps src.toMap
  | cloned cloneT => .cloned cloneT some
  | insert c t => .insert c t ()
  | remove c => .removeEntry c
  | take c => .removeEntry c
  | get c => .getEntry c
  | contains c => .containsKey c
  | node path => .node path
  | iter o n => .iter o n
  | len => .len
  | isEmpty => .isEmpty
  | clear => .clear
  | extend cmps src => .extend cmps src.toMap
  | debug dt => .debug dt fun _ => ""

theorem SimpleSetOp.twin_toOp (cmp : T → T → Ordering) (op : SimpleSetOp T) :
    op.toOp.twin cmp = (op.twin cmp).toOp := by cases op <;> rfl

theorem ssOnItems_eq {α : Type} {f : M (Simple.Map T Unit) α} {s : SSet T} {o : Out α}
    {m : Simple.Map T Unit} (h : f s.items = (o, m)) : SSet.onItems f s = (o, ⟨m⟩) := by
  unfold SSet.onItems; rw [h]

theorem ssAssign_sim {f : Simple.Map T Unit → Out Unit × Simple.Map T Unit}
    {g : SSet T → Out Unit × SSet T} {s : SSet T}
    (h : g s = ((f s.items).1, ⟨(f s.items).2⟩)) :
    SSet.assign g s = ((Simple.assign f s.items).1, ⟨(Simple.assign f s.items).2⟩) := by
  unfold SSet.assign Simple.assign
  rw [h]
  cases hf : f s.items with
  | mk o m => cases o <;> rfl

theorem ssGoNode_eq (path : List Bool) (n : Option (Ref T Unit)) :
    SSet.goNode path n = Simple.goRef path n := by
  induction path generalizing n with
  | nil => cases n <;> rfl
  | cons b path ih =>
    cases n with
    | none => rfl
    | some n => simp only [SSet.goNode, Simple.goRef, ih, SSet.nodeRight, SSet.nodeLeft]

theorem ssNexts_of (o : Order) (n : Nat) (st : Simple.Map.Stack T Unit) :
    nexts (SSet.nextOf o) n st =
      (nexts (Simple.Map.next o) n st).map fun r => (r.1.map (Option.map (·.1)), r.2) := by
  induction n generalizing st with
  | zero => rfl
  | succ n ih =>
    simp only [nexts, SSet.nextOf]
    cases Simple.Map.next o st with
    | ok r =>
      obtain ⟨x, st1⟩ := r
      simp only [Out.ok_bind, Out.pure_eq]
      rw [ih]
      cases nexts (Simple.Map.next o) n st1 <;> rfl
    | panic => rfl
    | abort => rfl
    | ub => rfl
    | diverge => rfl

section
variable {s : SSet T}

theorem ssim_map {α β γ : Type} {f : M (Simple.Map T Unit) α} {g : M (SSet T) β} {φ : α → β}
    {a : α → Ret T Unit} {b : β → γ} {ret : Ret T Unit → γ}
    (hg : g s = ((f s.items).1.map φ, ⟨(f s.items).2⟩)) (hr : ∀ x, ret (a x) = b (φ x)) :
    (do let r ← g; pure (b r) : M (SSet T) γ) s =
      (((do let r ← f; pure (a r) : M (Simple.Map T Unit) (Ret T Unit)) s.items).1.map ret,
        ⟨((do let r ← f; pure (a r) : M (Simple.Map T Unit) (Ret T Unit)) s.items).2⟩) := by
  have e : (do let r ← f; pure (a r) : M (Simple.Map T Unit) (Ret T Unit)) s.items =
      ((f s.items).1.map a, (f s.items).2) := M.map_eq rfl
  refine (M.map_eq hg).trans ?_
  rw [e]
  simp only [Out.map_map]
  congr 1
  congr 1
  funext x
  exact (hr x).symm

theorem ssim_same {α γ : Type} {f : M (Simple.Map T Unit) α} {g : M (SSet T) α}
    {a : α → Ret T Unit} {b : α → γ} {ret : Ret T Unit → γ}
    (hg : g s = ((f s.items).1, ⟨(f s.items).2⟩)) (hr : ∀ x, ret (a x) = b x) :
    (do let r ← g; pure (b r) : M (SSet T) γ) s =
      (((do let r ← f; pure (a r) : M (Simple.Map T Unit) (Ret T Unit)) s.items).1.map ret,
        ⟨((do let r ← f; pure (a r) : M (Simple.Map T Unit) (Ret T Unit)) s.items).2⟩) :=
  ssim_map (φ := fun x => x) (by rw [hg, Out.map_id']) hr

/-- A call on a set does what the call on the map does. -/
theorem SimpleSetOp.sim (cmp : T → T → Ordering) (op : SimpleSetOp T) (hd : ∀ dt, op ≠ .debug dt) :
    op.run cfg s =
      ((op.toOp.run cfg s.items).1.map (op.twin cmp).ret, ⟨(op.toOp.run cfg s.items).2⟩) := by
  cases op with
  | collect cmps src => exact ssim_same (ssAssign_sim rfl) fun _ => rfl
  | cloned cloneT => exact ssim_same (ssAssign_sim rfl) fun _ => rfl
  | insert c t =>
    exact ssim_map (φ := Option.isNone) (M.map_eq (ssOnItems_eq rfl)) fun _ => rfl
  | remove c =>
    refine ssim_map (φ := Option.isSome) ?_ fun _ => rfl
    show SSet.remove cfg c s = _
    unfold SSet.remove SSet.take
    have e : SSet.onItems (Simple.Map.removeEntry cfg c) s = ((Simple.Map.removeEntry cfg c s.items).1,
        ⟨(Simple.Map.removeEntry cfg c s.items).2⟩) := ssOnItems_eq rfl
    refine (M.map_eq (M.map_eq e)).trans ?_
    rw [Out.map_map]
    congr 1; congr 1; funext x; cases x <;> rfl
  | take c =>
    have e : SSet.onItems (Simple.Map.removeEntry cfg c) s = ((Simple.Map.removeEntry cfg c s.items).1,
        ⟨(Simple.Map.removeEntry cfg c s.items).2⟩) := ssOnItems_eq rfl
    exact ssim_map (φ := Option.map fun e : T × Unit => e.1) (M.map_eq e) fun _ => rfl
  | get c =>
    refine ssim_map (φ := Option.map (·.1)) ?_ fun _ => rfl
    show ((SSet.get c s), s) = _
    unfold SSet.get
    show _ = ((Simple.Map.getEntry c s.items).map _, (⟨s.items⟩ : SSet T))
    cases Simple.Map.getEntry c s.items <;> rfl
  | contains c => exact ssim_same rfl fun _ => rfl
  | node path =>
    refine (Simple.get_pure _ s).trans ?_
    refine congrArg (fun x => (Out.ok (SetRet.node x), s)) ?_
    rw [ssGoNode_eq]
    show _ = Option.map _ (Option.map _ (Simple.nodeAt path s.items))
    rw [Option.map_map]; rfl
  | iter o n =>
    simp only [SimpleSetOp.run, SimpleSetOp.toOp, SimpleOp.run, M.get_bind]
    show (do let r ← M.lift (nexts (SSet.nextOf o) n (Simple.Map.iter o s.items)); pure (.items r.1) :
      M (SSet T) (SetRet T)) s = _
    rw [ssNexts_of]
    cases nexts (Simple.Map.next o) n (Simple.Map.iter o s.items) <;> rfl
  | len => rfl
  | isEmpty => exact ssim_same rfl fun _ => rfl
  | clear => exact ssim_same (ssOnItems_eq rfl) fun _ => rfl
  | extend cmps src => exact ssim_same (ssOnItems_eq rfl) fun _ => rfl
  | debug dt => exact absurd rfl (hd dt)
end

/-- The tree of elements. -/
def SSet.elems (s : SSet T) : BT T := s.items.root.view.map (·.1)

theorem ssDebugLink_eq (dt : T → String) (t : Link T Unit) :
    SSet.debugLink dt t = (t.view.map (·.1)).debugSet dt := by
  induction t with
  | nil => rfl
  | node k v l r ihl ihr =>
    simp only [SSet.debugLink, ihl, ihr]; rfl

theorem ssExploreRef_eq (n : Nat) (x : Option (Ref T Unit)) :
    SSet.exploreRef n x = (Simple.exploreRef n x).map (·.1) := by
  induction n generalizing x with
  | zero => cases x <;> rfl
  | succ n ih =>
    cases x with
    | none => rfl
    | some x =>
      simp only [SSet.exploreRef, Simple.exploreRef, ih, SSet.nodeLeft, SSet.nodeRight,
        SSet.nodeValue, BT.map]

theorem ssExplore_eq (s : SSet T) : SSet.explore s = SSet.elems s := by
  unfold SSet.explore SSet.elems
  rw [ssExploreRef_eq, ← Simple.explore_eq]; rfl

theorem SetOp.demand_toOp (op : SetOp T) : op.toOp.demand = op.demand := by
  cases op <;> first | rfl | simp [toOp, Op.demand, demand, Source.announced, BSTSet.Source.toMap]

theorem SetOp.Quiet.toOp {op : SetOp T} (h : op.Quiet) : op.toOp.Quiet := by
  cases op with
  | cloned cmps cloneT => exact ⟨h.1, h.2, fun _ => by simp⟩
  | _ => exact h

theorem SimpleSetOp.Quiet.toOp {op : SimpleSetOp T} (h : op.Quiet) : op.toOp.Quiet := by
  cases op with
  | cloned cloneT =>
    refine ⟨fun _ _ hp => ?_, h, fun _ => by simp⟩
    obtain ⟨_, _, e⟩ := hp
    cases e
  | clear => exact fun _ => rfl
  | _ => exact h

theorem SimpleSetOp.allocates_toOp {op : SimpleSetOp T} (hd : ∀ dt, op ≠ .debug dt)
    (h : op.toOp.Allocates) : op.Allocates := by
  cases op <;> exact h

/-- One call on a `SimpleBSTSet`. -/
theorem SimpleSetOp.step (he : 2 ≤ cfg.esize) (cmp : T → T → Ordering) {s : SSet T} (hw : Wf s.items)
    (op : SimpleSetOp T) :
    ∃ o s', op.run cfg s = (o, s') ∧
      ((Wf s'.items ∧ s'.items.root.size ≤ s.items.root.size + (op.twin cmp).demand ∧
        ((∃ r, o = .ok r) ∨ (o = .panic ∧ ¬ op.Quiet)) ∧
        (Std.TransCmp cmp → op.Lawful cmp → s.items.root.Sorted cmp → s'.items.root.Sorted cmp ∧
          Spec.SimpleSetAnswer cmp (SSet.elems s) o (SSet.elems s') op)) ∨
       (o = .abort ∧ op.Allocates ∧
        ¬ Plenty cfg (s.items.root.size + (op.twin cmp).demand))) := by
  by_cases hd : ∃ dt, op = .debug dt
  · obtain ⟨dt, rfl⟩ := hd
    refine ⟨_, s, Simple.get_pure _ s, .inl ⟨hw, Nat.le_add_right _ _, .inl ⟨_, rfl⟩,
      fun _ _ hs => ⟨hs, ?_, rfl⟩⟩⟩
    refine congrArg (fun x => Out.ok (SetRet.text x)) ?_
    exact congrArg (fun x => "SimpleBSTSet { root: " ++ x ++ " }") (ssDebugLink_eq dt _)
  · have hd' : ∀ dt, op ≠ .debug dt := fun dt e => hd ⟨dt, e⟩
    have hdem : (op.toOp.twin cmp).demand = (op.twin cmp).demand := by
      rw [twin_toOp, SetOp.demand_toOp]
    obtain ⟨o, m1, h1, h2⟩ := Simple.run_sem he cmp hw op.toOp
    refine ⟨o.map (op.twin cmp).ret, ⟨m1⟩, by rw [SimpleSetOp.sim cmp op hd', h1], ?_⟩
    rcases h2 with ⟨h2, hw1⟩ | ⟨rfl, h2, h3⟩
    · left
      obtain ⟨h4, h5⟩ := Simple.sem_cases cmp op.toOp h2.symm
      refine ⟨hw1, hdem ▸ h5, ?_, fun _ hop hs => ?_⟩
      · rcases h4 with ⟨r, rfl⟩ | ⟨rfl, h4⟩
        · exact .inl ⟨_, rfl⟩
        · exact .inr ⟨rfl, fun hq => h4 hq.toOp⟩
      · have hop' : op.toOp.Lawful cmp := by
          show (op.toOp.twin cmp).Lawful cmp
          rw [twin_toOp]
          exact SetOp.Lawful.toOp hop
        obtain ⟨hs1, _, ha⟩ := Simple.sem_tree hop' hs h2.symm
        refine ⟨hs1, ?_⟩
        have hr : ∀ dt, op.twin cmp ≠ .debug dt := by
          intro dt; cases op <;> first | (intro e; cases e; done) | exact absurd rfl (hd' _)
        have key : (o = .abort ∧ op.toOp.Allocates) ∨
            Spec.TreeAnswer cmp s.items.root.view o m1.root.view (op.toOp.twin cmp) := by
          cases op <;> first | exact ha | exact absurd rfl (hd' _)
        rw [twin_toOp] at key
        have : (o.map (op.twin cmp).ret = .abort ∧ op.Allocates) ∨
            Spec.SetTreeAnswer cmp (SSet.elems s) (o.map (op.twin cmp).ret) (SSet.elems ⟨m1⟩)
              (op.twin cmp) := by
          rcases key with ⟨rfl, h⟩ | h
          · exact .inl ⟨rfl, SimpleSetOp.allocates_toOp hd' h⟩
          · exact .inr (setTreeAnswer_of hr h)
        cases op <;> first | exact this | exact absurd rfl (hd' _)
    · exact .inr ⟨rfl, SimpleSetOp.allocates_toOp hd' h2, hdem ▸ h3⟩

theorem setDemand_cons (op : SetOp T) (ops : List (SetOp T)) :
    setDemand (op :: ops) = op.demand + setDemand ops := by simp [setDemand]

theorem simpleSetHistory_sem (he : 2 ≤ cfg.esize) (cmp : T → T → Ordering)
    (ops : List (SimpleSetOp T)) {s : SSet T} (hw : Wf s.items) :
    ∃ os s', simpleSetHistory cfg ops s = (os, s') ∧ (os.length = ops.length ∨ Out.abort ∈ os) ∧
      (∀ x ∈ ops.zip os, (∃ r, x.2 = .ok r) ∨ (x.2 = .abort ∧ x.1.Allocates) ∨
        (x.2 = .panic ∧ ¬ x.1.Quiet)) ∧
      (Plenty cfg (s.items.root.size + setDemand (ops.map (·.twin cmp))) → Out.abort ∉ os) := by
  unfold simpleSetHistory
  induction ops generalizing s with
  | nil => exact ⟨[], s, rfl, .inl rfl, by simp, by simp⟩
  | cons op ops ih =>
    obtain ⟨o, s1, h1, ⟨hw1, h5, h4, _⟩ | ⟨rfl, h2, h3⟩⟩ := SimpleSetOp.step he cmp hw op
    · obtain ⟨os, m', g1, g2, g3, g4⟩ := ih hw1
      refine ⟨o :: os, m', ?_, ?_, ?_, ?_⟩
      · rcases h4 with ⟨r, rfl⟩ | ⟨rfl, _⟩ <;> simp only [execute, h1, g1]
      · rcases g2 with g2 | g2
        · exact .inl (by simp [g2])
        · exact .inr (List.mem_cons_of_mem _ g2)
      · intro x hx
        rw [List.zip_cons_cons] at hx
        rcases List.mem_cons.1 hx with rfl | hx
        · exact h4.imp_right .inr
        · exact g3 x hx
      · intro hp hm
        rcases List.mem_cons.1 hm with rfl | hm
        · rcases h4 with ⟨r, hr⟩ | ⟨hr, _⟩ <;> cases hr
        · refine g4 (hp.mono ?_) hm
          rw [List.map_cons, setDemand_cons]
          omega
    · refine ⟨[.abort], s1, by simp only [execute, h1], .inr (by simp), ?_, ?_⟩
      · intro x hx
        cases ops <;> simp [List.zip_cons_cons] at hx <;> exact .inr (.inl (hx ▸ ⟨rfl, h2⟩))
      · intro hp
        exact absurd (hp.mono (by rw [List.map_cons, setDemand_cons]; omega)) h3

theorem simpleSetHistory_wf (he : 2 ≤ cfg.esize) (ops : List (SimpleSetOp T)) {s s' : SSet T}
    (hw : Wf s.items) {os : List (Out (SetRet T))} (h : simpleSetHistory cfg ops s = (os, s'))
    (ha : Out.abort ∉ os) : Wf s'.items := by
  unfold simpleSetHistory at h
  induction ops generalizing s os with
  | nil => cases h; exact hw
  | cons op ops ih =>
    obtain ⟨o, s1, h1, ⟨hw1, _, h4, _⟩ | ⟨rfl, h2, h3⟩⟩ := SimpleSetOp.step he (fun _ _ => .eq) hw op
    · rcases hr : execute (SimpleSetOp.run cfg) ops s1 with ⟨os1, s2⟩
      have : os = o :: os1 ∧ s' = s2 := by
        rcases h4 with ⟨r, rfl⟩ | ⟨rfl, _⟩ <;> simp only [execute, h1, hr] at h <;> cases h <;>
          exact ⟨rfl, rfl⟩
      obtain ⟨rfl, rfl⟩ := this
      exact ih hw1 hr fun hm => ha (List.mem_cons_of_mem _ hm)
    · simp only [execute, h1] at h
      cases h
      simp at ha

theorem simpleSetHistory_tree (he : 2 ≤ cfg.esize) {cmp : T → T → Ordering} [Std.TransCmp cmp]
    (ops : List (SimpleSetOp T)) (hops : ∀ op ∈ ops, op.Lawful cmp) {s : SSet T} (hw : Wf s.items)
    (hs : s.items.root.Sorted cmp) :
    ∃ os s' b, simpleSetHistory cfg ops s = (os, s') ∧
      Spec.Conforms (Spec.SimpleSetAnswer cmp) ops os (SSet.elems s) b ∧
      (Out.abort ∉ os → Wf s'.items ∧ SSet.elems s' = b) := by
  unfold simpleSetHistory
  induction ops generalizing s with
  | nil => exact ⟨[], s, _, rfl, rfl, fun _ => ⟨hw, rfl⟩⟩
  | cons op ops ih =>
    obtain ⟨o, s1, h1, ⟨hw1, h5, h4, h6⟩ | ⟨rfl, h2, h3⟩⟩ := SimpleSetOp.step he cmp hw op
    · obtain ⟨hs1, ha⟩ := h6 inferInstance (hops op (by simp)) hs
      obtain ⟨os, m', b, g1, g2, g3⟩ := ih (fun op hop => hops op (by simp [hop])) hw1 hs1
      refine ⟨o :: os, m', b, ?_, ⟨_, ha, .inr ⟨?_, g2⟩⟩, ?_⟩
      · rcases h4 with ⟨r, rfl⟩ | ⟨rfl, _⟩ <;> simp only [execute, h1, g1]
      · rcases h4 with ⟨r, rfl⟩ | ⟨rfl, _⟩ <;> simp
      · exact fun hm => g3 fun hh => hm (List.mem_cons_of_mem _ hh)
    · refine ⟨[.abort], s1, SSet.elems s, by simp only [execute, h1],
        ⟨SSet.elems s, ?_, .inl ⟨rfl, rfl, rfl⟩⟩, by simp⟩
      cases op <;> first | exact .inl ⟨rfl, h2⟩ | exact h2.elim

/-! ### `BSTSet` with enough memory, and agreement -/

theorem setHistory_room {D : Nat} (hR : Roomy cfg D) (ops : List (SetOp T)) {s : BSTSet T}
    {t : Tree T Unit} (h : Shape cfg s.items t) (hops : ∀ op ∈ ops, op.Calm)
    (hD : slots s.items + setDemand ops ≤ D) :
    ∃ os s', setHistory cfg ops s = (os, s') ∧ os.length = ops.length ∧
      ∀ x ∈ ops.zip os, (∃ r, x.2 = .ok r) ∨ (x.2 = .panic ∧ ¬ x.1.Quiet) := by
  unfold setHistory
  induction ops generalizing s t with
  | nil => exact ⟨[], s, rfl, rfl, by simp⟩
  | cons op ops ih =>
    rw [setDemand_cons] at hD
    have key : ∃ o s1 t1, op.run cfg s = (o, s1) ∧ Shape cfg s1.items t1 ∧
        slots s1.items ≤ slots s.items + op.demand ∧
        ((∃ r, o = .ok r) ∨ (o = .panic ∧ ¬ op.Quiet)) := by
      by_cases hd : ∃ dt, op = .debug dt
      · obtain ⟨dt, rfl⟩ := hd
        refine ⟨_, s, t, M.map_eq (f := M.read (fun s : BSTSet T => s.debug dt)) rfl, h,
          Nat.le_add_right _ _, .inl ⟨_, congrArg (Out.map SetRet.text) (setDebug_spec h)⟩⟩
      · obtain ⟨o, m1, t1, h1, h2, h3, h4⟩ := run_room hR h (hops op (by simp)).toOp
          (by rw [SetOp.demand_toOp]; omega)
        rw [SetOp.demand_toOp] at h3
        refine ⟨_, _, t1, by rw [SetOp.sim op (fun dt e => hd ⟨dt, e⟩), h1], h2, h3, ?_⟩
        rcases h4 with ⟨r, rfl⟩ | ⟨rfl, h4⟩
        · exact .inl ⟨_, rfl⟩
        · exact .inr ⟨rfl, fun hq => h4 hq.toOp⟩
    obtain ⟨o, s1, t1, h1, h2, h3, h4⟩ := key
    obtain ⟨os, m', g1, g2, g3⟩ := ih h2 (fun op hop => hops op (by simp [hop])) (by omega)
    refine ⟨o :: os, m', ?_, by simp [g2], ?_⟩
    · rcases h4 with ⟨r, rfl⟩ | ⟨rfl, _⟩ <;> simp only [execute, h1, g1]
    · intro x hx
      rw [List.zip_cons_cons] at hx
      rcases List.mem_cons.1 hx with rfl | hx
      · exact h4
      · exact g3 x hx

theorem set_agree_run {cfg' : Cfg} {D : Nat} (hR : Roomy cfg D) (he : 2 ≤ cfg'.esize)
    (hP : Plenty cfg' D) {cmp : T → T → Ordering} [Std.TransCmp cmp]
    (ops : List (SimpleSetOp T)) (hsh : ∀ op ∈ ops, op.Shared) (hops : ∀ op ∈ ops, op.Lawful cmp)
    {s : BSTSet T} {t : Tree T Unit} (h : Shape cfg s.items t) (hs : t.SortedBy cmp)
    {n : SSet T} (hw : Wf n.items) (hn : n.items.root = t.link)
    (hD : slots s.items + setDemand (ops.map (·.twin cmp)) ≤ D) :
    ∃ os s' t' n', setHistory cfg (ops.map (·.twin cmp)) s = (os, s') ∧
      simpleSetHistory cfg' ops n = (os, n') ∧ Shape cfg s'.items t' ∧ n'.items.root = t'.link ∧
      Wf n'.items := by
  unfold simpleSetHistory setHistory
  induction ops generalizing s t n with
  | nil => exact ⟨[], s, t, n, rfl, rfl, h, hn, hw⟩
  | cons op ops ih =>
    rw [List.map_cons, setDemand_cons] at hD
    have hd' : ∀ dt, op ≠ .debug dt := by
      rintro dt rfl; exact hsh (.debug dt) (by simp)
    have hr : ∀ dt, op.twin cmp ≠ .debug dt := by
      intro dt; cases op <;> first | (intro e; cases e; done) | exact absurd rfl (hd' _)
    have hsh' : op.toOp.Shared := by
      have := hsh op (by simp)
      cases op <;> exact this
    have hop' : op.toOp.Lawful cmp := by
      show (op.toOp.twin cmp).Lawful cmp
      rw [SimpleSetOp.twin_toOp]
      exact SetOp.Lawful.toOp (hops op (by simp))
    have hdem : (op.toOp.twin cmp).demand = (op.twin cmp).demand := by
      rw [SimpleSetOp.twin_toOp, SetOp.demand_toOp]
    obtain ⟨o, m1, t1, h1, h2, h3, h4⟩ := twin_exact hR h hs hsh' hop' (by omega)
    rw [SimpleSetOp.twin_toOp] at h1
    rw [hdem] at h3
    have hsz : t.size ≤ slots s.items := h.size_le_len
    obtain ⟨o', n1, k1, ⟨k2, hw1⟩ | ⟨rfl, _, k3⟩⟩ := Simple.run_sem he cmp hw op.toOp
    · rw [hn, ← h4] at k2
      obtain ⟨ho, hn1⟩ := Prod.mk.inj k2
      subst ho
      obtain ⟨hs1, _, _⟩ := Simple.sem_tree hop' (Link.tree_sorted.2 hs) h4.symm
      obtain ⟨os, s', t', n', g1, g2, g3, g4, g5⟩ := ih (fun op hop => hsh op (by simp [hop]))
        (fun op hop => hops op (by simp [hop])) (s := ⟨m1⟩) h2 (Link.tree_sorted.1 hs1) (n := ⟨n1⟩)
        hw1 hn1 (by show slots m1 + _ ≤ _; omega)
      obtain ⟨h5, _⟩ := Simple.sem_cases cmp op.toOp h4.symm
      have e1 : (op.twin cmp).run cfg s = (o'.map (op.twin cmp).ret, ⟨m1⟩) := by
        rw [SetOp.sim _ hr, h1]
      have e2 : op.run cfg' n = (o'.map (op.twin cmp).ret, ⟨n1⟩) := by
        rw [SimpleSetOp.sim cmp op hd', k1]
      refine ⟨o'.map (op.twin cmp).ret :: os, s', t', n', ?_, ?_, g3, g4, g5⟩
      · rcases h5 with ⟨r, rfl⟩ | ⟨rfl, _⟩ <;> simp only [List.map_cons, execute, e1, g1, Out.map]
      · rcases h5 with ⟨r, rfl⟩ | ⟨rfl, _⟩ <;> simp only [execute, e2, g2, Out.map]
    · refine absurd (hP.mono ?_) k3
      rw [hn, Tree.link_size]
      omega

end BST
