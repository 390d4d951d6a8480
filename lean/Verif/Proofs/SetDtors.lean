import Verif.SetDiscards
import Verif.Proofs.Dtors
/-!
# Sets with destructors that panic: every call is a call on the underlying map
-/
set_option linter.unusedSimpArgs false
namespace BST
open BSTMap Tree Std
open Spec (BT hitOf lookup Queried Failed)
variable {T : Type} {cfg : Cfg} {s : BSTSet T} {d : Dtors T Unit}

/-- The call on the map that a call on a set with destructors makes. -/
def SetOp.toOpDrop : SetOp T → Op T Unit
  | remove c => .remove c
  | op => op.toOp

/-- What it returns. -/
def SetOp.retDrop : SetOp T → Ret T Unit → SetRet T
  | remove _, .value r => .bool r.isSome
  | op, r => op.ret r

theorem assignDrop_sim {f : BSTMap T Unit → Out Unit × BSTMap T Unit}
    {g : BSTSet T → Out Unit × BSTSet T} (h : g s = ((f s.items).1, ⟨(f s.items).2⟩)) :
    BSTSet.assignDrop cfg d g s =
      ((BSTMap.assignDrop cfg d f s.items).1, ⟨(BSTMap.assignDrop cfg d f s.items).2⟩) := by
  unfold BSTSet.assignDrop BSTMap.assignDrop
  rw [h]
  rcases hf : f s.items with ⟨o, m⟩
  cases o with
  | panic =>
    dsimp only
    have : (BSTSet.drop cfg d.node ⟨m⟩).1 = (BSTMap.drop cfg d.node m).1 := rfl
    rw [this]
    rcases (BSTMap.drop cfg d.node m).1 with _ | _ | _ | _ | _ <;> rfl
  | _ => rfl

/-- A call on a set does what the call on the map does. -/
theorem SetOp.simDrop (op : SetOp T) (hd : ∀ dt, op ≠ .debug dt) :
    op.runDrop cfg d s = ((op.toOpDrop.runDrop cfg d s.items).1.map op.retDrop,
      ⟨(op.toOpDrop.runDrop cfg d s.items).2⟩) := by
  cases op with
  | withCapacity n => exact sim_same (assignDrop_sim rfl) fun _ => rfl
  | collect cmps src => exact sim_same (assignDrop_sim rfl) fun _ => rfl
  | cloned cmps cloneT => exact sim_same (assignDrop_sim rfl) fun _ => rfl
  | insert c t =>
    exact sim_map (φ := Option.isNone) (M.map_eq (onItems_eq rfl)) fun _ => rfl
  | remove c =>
    refine sim_map (φ := Option.isSome) ?_ fun _ => rfl
    show BSTSet.removeDrop cfg d c s = _
    simp only [BSTSet.removeDrop, BSTSet.take, BSTMap.removeDrop, M.bind_apply, BSTSet.onItems]
    rcases removeEntry cfg c s.items with ⟨o, m⟩
    rcases o with e | _ | _ | _ | _
    · cases e with
      | none => rfl
      | some e =>
        simp only [M.pure_apply, Option.map_some, Option.any_some]
        by_cases hb : d.badKey e.1 = true
        · rw [if_pos hb, if_pos hb]; rfl
        · rw [if_neg hb, if_neg hb]; rfl
    all_goals rfl
  | extend cmps src => exact sim_same (onItems_eq rfl) fun _ => rfl
  | debug dt => exact absurd rfl (hd dt)
  | _ => exact SetOp.sim (cfg := cfg) _ hd

section
variable {cmp : T → T → Ordering}

theorem bad_set (hv : d.value () = false) (e : T × Unit) : d.bad e = Spec.hurtsKey d e.1 := by
  obtain ⟨t, ⟨⟩⟩ := e
  simp [Dtors.bad, Spec.hurtsKey, hv]

theorem any_bad (hv : d.value () = false) (l : List (T × Unit)) :
    l.any d.bad = (l.map (·.1)).any (Spec.hurtsKey d) := by
  rw [List.any_map]
  exact congrArg l.any (funext fun e => bad_set hv e)

theorem discarded_elems (hv : d.value () = false) (ts : List T) (l : List (T × Unit)) :
    (Spec.discarded cmp (ts.map fun t => (t, ())) l).any d.bad =
      (Spec.rejected cmp ts (l.map (·.1))).any (Spec.hurtsKey d) := by
  induction ts generalizing l with
  | nil => rfl
  | cons t ts ih =>
    simp only [List.map_cons, Spec.discarded, Spec.rejected, List.any_append]
    rw [ih, insert_elems, any_elems]
    congr 1
    cases lookup (hitOf (cmp t)) l with
    | none => rfl
    | some e => simp [bad_set hv]

/-- From entries to elements. -/
theorem setDropAnswer_of {C C' : Type} {g : C → C'} {ans : C → Out (Ret T Unit) → C → Op T Unit → Prop}
    {ans' : C' → Out (SetRet T) → C' → SetOp T → Prop} {ents : C → List (T × Unit)}
    {els : C' → List T} (hents : ∀ l, els (g l) = (ents l).map (·.1))
    (hans : ∀ {l l' : C} {op : SetOp T} {o : Out (Ret T Unit)}, (∀ dt, op ≠ .debug dt) →
      ans l o l' op.toOp → ans' (g l) (o.map op.ret) (g l') op)
    (hrem : ∀ {l l' : C} {c : Probe T} {o : Out (Ret T Unit)}, ans l o l' (.remove c) →
      ans' (g l) (o.map (SetOp.remove c).retDrop) (g l') (.remove c))
    (hv : d.value () = false) {l l' : C} {o : Out (Ret T Unit)} {op : SetOp T}
    (hd : ∀ dt, op ≠ .debug dt) (h : DropAnswer0 cmp ans ents l o l' (d, op.toOpDrop)) :
    Spec.SetDropAnswer cmp ans' els (g l) (o.map op.retDrop) (g l') (d, op) := by
  have hk : l' = l → g l' = g l := fun e => by rw [e]
  have hany : (els (g l)).any (Spec.hurtsKey d) = (ents l).any d.bad := by
    rw [any_bad hv, hents]
  cases op with
  | withCapacity n =>
    rcases h with ⟨rfl, h⟩ | ⟨h, h'⟩
    · refine .inl ⟨?_, hans hd h⟩
      rw [hany]
      dsimp only
      cases (ents l).any d.bad <;> rfl
    · exact .inr ⟨Failed.map h _, hk h'⟩
  | cloned cmps cloneT =>
    rcases h with ⟨rfl, h⟩ | ⟨h, h'⟩
    · refine .inl ⟨?_, hans hd h⟩
      rw [hany]
      dsimp only
      cases (ents l).any d.bad <;> rfl
    · exact .inr ⟨Failed.map h _, hk h'⟩
  | collect cmps src =>
    rcases h with ⟨rfl, h, h2⟩ | ⟨h, h'⟩
    · refine .inl ⟨?_, hans hd h, ?_⟩
      · rw [hany]
        dsimp only
        cases (ents l).any d.bad <;> rfl
      · rw [← h2]
        exact (discarded_elems hv src.items []).symm
    · exact .inr ⟨Failed.map h _, hk h'⟩
  | insert c t =>
    rcases h with ⟨r, h, rfl⟩ | ⟨h, rfl⟩ | ⟨h, rfl⟩
    · refine .inl ⟨r.isNone, hans hd h, ?_⟩
      have e : (!r.isNone && Spec.hurtsKey d t) = (r.isSome && d.badKey t) := by cases r <;> rfl
      rw [e]
      dsimp only
      cases r.isSome && d.badKey t <;> rfl
    · refine .inr (.inl ⟨hans hd h, ?_⟩)
      have e : Spec.hurtsKey d t = (d.badKey t || d.badValue ()) := by
        simp [Spec.hurtsKey, Dtors.badKey, Dtors.badValue, hv]
      rw [e]
      dsimp only
      cases d.badKey t || d.badValue () <;> rfl
    · exact .inr (.inr ⟨hans hd h, rfl⟩)
  | remove c =>
    intro f hf hc
    rcases h f hf hc with ⟨r, h2, rfl⟩ | ⟨h2, rfl⟩
    · refine .inl ⟨_, hrem h2, ?_⟩
      have e : ((els (g l)).find? (hitOf f)).any (Spec.hurtsKey d) =
          ((lookup (hitOf f) (ents l)).any fun e => d.badKey e.1) := by
        rw [hents, lookup_elems]
        cases lookup (hitOf f) (ents l) <;> rfl
      rw [e]
      dsimp only
      cases (lookup (hitOf f) (ents l)).any fun e => d.badKey e.1 <;> rfl
    · exact .inr ⟨hrem h2, rfl⟩
  | extend cmps src =>
    obtain ⟨used, rest, h1, h2⟩ := h
    have h1 : src.items.map (fun t => (t, ())) = used ++ rest := h1
    obtain ⟨u, r, e1, e2, e3⟩ := List.map_eq_append_iff.1 h1
    subst e2 e3
    refine ⟨u, r, e1, ?_⟩
    rcases h2 with ⟨rfl, h4, h5, h6⟩ | ⟨h3, h5, h6⟩
    · refine .inl ⟨rfl, List.map_eq_nil_iff.1 h4, hans hd h5, ?_⟩
      rw [← h6, hents]
      exact (discarded_elems hv u _).symm
    · refine .inr ⟨Failed.map h3 _, hans (op := .extend cmps ⟨src.hint, u, false⟩) (by simp) h5, ?_⟩
      rw [← h6, hents, ← List.map_dropLast]
      exact (discarded_elems hv u.dropLast _).symm
  | debug dt => exact absurd rfl (hd dt)
  | take c => exact hans hd h
  | get c => exact hans hd h
  | contains c => exact hans hd h
  | node c => exact hans hd h
  | iter o n => exact hans hd h
  | len => exact hans hd h
  | isEmpty => exact hans hd h
  | capacity => exact hans hd h
  | clear c => exact hans hd h
  | reserve c => exact hans hd h
  | shrinkToFit => exact hans hd h

theorem setTreeAnswer_remove {b b' : BT (T × Unit)} {c : Probe T} {o : Out (Ret T Unit)}
    (h : Spec.TreeAnswer cmp b o b' (.remove c)) :
    Spec.SetTreeAnswer cmp (b.map (·.1)) (o.map (SetOp.remove c).retDrop) (b'.map (·.1)) (.remove c) := by
  have hino : (b.map (·.1)).ino = b.ino.map (·.1) := Spec.BT.map_ino _ _
  refine Queried.elems h (fun f => ?_) fun f => Spec.BT.erase_elems f b
  rw [hino, any_elems]
  cases lookup (hitOf f) b.ino <;> rfl

theorem setAnswer_remove {l l' : List (T × Unit)} {c : Probe T} {o : Out (Ret T Unit)}
    (h : Spec.Answer cmp l o l' (.remove c)) :
    Spec.SetAnswer cmp (l.map (·.1)) (o.map (SetOp.remove c).retDrop) (l'.map (·.1)) (.remove c) := by
  refine Queried.elems h (fun f => ?_) fun f => remove_elems _ _
  rw [any_elems]
  cases lookup (hitOf f) l <;> rfl

end

theorem SetOp.Lawful.toOpDrop {cmp : T → T → Ordering} {op : SetOp T} (h : op.Lawful cmp) :
    op.toOpDrop.Lawful cmp := by
  cases op with
  | remove c => exact h
  | _ => exact SetOp.Lawful.toOp h

theorem SetOp.Calm.toOpDrop {op : SetOp T} (h : op.Calm) : op.toOpDrop.Calm := by
  cases op with
  | remove c => exact h
  | _ => exact SetOp.Calm.toOp h

theorem SetOp.runDrop_shape {t : Tree T Unit} (h : Shape cfg s.items t) {op : SetOp T}
    (hop : op.Calm) : ∃ o s' t', op.runDrop cfg d s = (o, s') ∧ o.Safe ∧ Shape cfg s'.items t' := by
  by_cases hd : ∃ dt, op = .debug dt
  · obtain ⟨dt, rfl⟩ := hd
    exact SetOp.run_shape h hop
  · obtain ⟨o, m', t', h1, h2, h3⟩ := BST.runDrop_shape (d := d) h hop.toOpDrop
    exact ⟨_, _, t', by rw [SetOp.simDrop op (fun dt e => hd ⟨dt, e⟩), h1], h2.map _, h3⟩

theorem SetOp.runDrop_tree {cmp : T → T → Ordering} [TransCmp cmp] (hv : d.value () = false)
    {t : Tree T Unit} (h : Shape cfg s.items t) (hs : t.SortedBy cmp) {op : SetOp T}
    (hop : op.Lawful cmp) :
    ∃ o s' t', op.runDrop cfg d s = (o, s') ∧ Shape cfg s'.items t' ∧ t'.SortedBy cmp ∧
      Spec.SetDropAnswer cmp (Spec.SetTreeAnswer cmp) BT.ino t.elems o t'.elems (d, op) ∧
      Spec.SetDropAnswer cmp (Spec.SetAnswer cmp) id t.elems.ino o t'.elems.ino (d, op) := by
  by_cases hd : ∃ dt, op = .debug dt
  · obtain ⟨dt, rfl⟩ := hd
    exact SetOp.run_tree h hs hop
  · have hd' : ∀ dt, op ≠ .debug dt := fun dt e => hd ⟨dt, e⟩
    obtain ⟨o, m', t', h1, h2, h3, h4, h5⟩ := BST.runDrop_tree (d := d) h hs (SetOp.Lawful.toOpDrop hop)
    refine ⟨_, _, t', by rw [SetOp.simDrop op hd', h1], h2, h3,
      setDropAnswer_of (g := BT.map (·.1)) (fun b => Spec.BT.map_ino _ b) setTreeAnswer_of setTreeAnswer_remove hv hd' h4, ?_⟩
    have := setDropAnswer_of (els := id) (g := List.map (·.1)) (fun l => rfl) setAnswer_of
      setAnswer_remove hv hd' h5
    rwa [← sh_ino, ← sh_ino, ← Spec.BT.map_ino, ← Spec.BT.map_ino] at this

theorem setHistoryDrop_tree {cmp : T → T → Ordering} [TransCmp cmp]
    (ops : List (Dtors T Unit × SetOp T)) {t : Tree T Unit} (h : Shape cfg s.items t)
    (hs : t.SortedBy cmp) (hops : ∀ x ∈ ops, x.2.Lawful cmp) (hv : ∀ x ∈ ops, x.1.value () = false) :
    ∃ os s' t', setHistoryDrop cfg ops s = (os, s') ∧ Shape cfg s'.items t' ∧ t'.SortedBy cmp ∧
      Spec.Conforms (Spec.SetDropAnswer cmp (Spec.SetTreeAnswer cmp) BT.ino) ops os t.elems t'.elems ∧
      Spec.Conforms (Spec.SetDropAnswer cmp (Spec.SetAnswer cmp) id) ops os t.elems.ino t'.elems.ino := by
  obtain ⟨os, s', c', d', h1, ⟨t', h2, h3, rfl, rfl⟩, h4, h5, _⟩ :=
    execute_conforms (run := fun x : Dtors T Unit × SetOp T => x.2.runDrop cfg x.1)
      (good := fun x => x.2.Lawful cmp ∧ x.1.value () = false)
      (ans := Spec.SetDropAnswer cmp (Spec.SetTreeAnswer cmp) BT.ino)
      (ans' := Spec.SetDropAnswer cmp (Spec.SetAnswer cmp) id)
      (Ok := fun s c d => ∃ t, Shape cfg s.items t ∧ t.SortedBy cmp ∧ c = t.elems ∧ d = t.elems.ino)
      (fun s c d x ⟨t, h, hs, hc, hd⟩ hop => by
        subst hc hd
        obtain ⟨o, s', t', h1, h2, h3, h4, h5⟩ := SetOp.runDrop_tree hop.2 h hs hop.1
        obtain ⟨o', s'', t'', g1, g2, _⟩ := SetOp.runDrop_shape (d := x.1) h (SetOp.Lawful.calm hop.1)
        cases h1.symm.trans g1
        exact ⟨o, s', _, _, h1, g2, ⟨t', h2, h3, rfl, rfl⟩, h4, h5⟩)
      ops ⟨t, h, hs, rfl, rfl⟩ fun x hx => ⟨hops x hx, hv x hx⟩
  exact ⟨os, s', t', h1, h2, h3, h4, h5⟩

theorem setHistoryDrop_shape (ops : List (Dtors T Unit × SetOp T)) {t : Tree T Unit}
    (h : Shape cfg s.items t) (hops : ∀ x ∈ ops, x.2.Calm) :
    ∃ os s' t', setHistoryDrop cfg ops s = (os, s') ∧ Shape cfg s'.items t' ∧ ∀ o ∈ os, o.Safe := by
  obtain ⟨os, s', c', d', h1, ⟨t', h2⟩, _, _, h5⟩ :=
    execute_conforms (run := fun x : Dtors T Unit × SetOp T => x.2.runDrop cfg x.1)
      (good := fun x => x.2.Calm)
      (ans := fun (_ : Unit) _ _ _ => True) (ans' := fun (_ : Unit) _ _ _ => True)
      (Ok := fun s _ _ => ∃ t, Shape cfg s.items t)
      (fun s c d x ⟨t, h⟩ hop => by
        obtain ⟨o, s', t', g1, g2, g3⟩ := SetOp.runDrop_shape (d := x.1) h hop
        exact ⟨o, s', c, d, g1, g2, ⟨t', g3⟩, trivial, trivial⟩)
      ops (c := ()) (d := ()) ⟨t, h⟩ hops
  exact ⟨os, s', t', h1, h2, h5⟩

theorem SetOp.runDrop_calm {t : Tree T Unit} (h : Shape cfg s.items t)
    (hk : ∀ k, d.badKey k = false) (hv : ∀ v, d.badValue v = false) (op : SetOp T) :
    op.runDrop cfg d s = op.run cfg s := by
  by_cases hd : ∃ dt, op = .debug dt
  · obtain ⟨dt, rfl⟩ := hd
    rfl
  · have hd' : ∀ dt, op ≠ .debug dt := fun dt e => hd ⟨dt, e⟩
    rw [SetOp.simDrop op hd', SetOp.sim op hd', BST.runDrop_calm h hk hv]
    cases op with
    | remove c =>
      simp only [SetOp.toOpDrop, SetOp.toOp, Op.run, M.bind_apply, BSTMap.remove]
      rcases removeEntry cfg c s.items with ⟨o, m⟩
      rcases o with e | _ | _ | _ | _
      · cases e <;> rfl
      all_goals rfl
    | _ => rfl

end BST
