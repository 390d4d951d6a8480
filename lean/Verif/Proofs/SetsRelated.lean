import Verif.Proofs.SetsAsMaps
import Verif.Proofs.RelatedHistory
/-!
# Related programs over sets: lemmas for C79
-/
namespace BST.SetsAsMaps
open Spec
variable {T T' : Type} {R : T → T' → Prop} {cfg : Cfg}

theorem source_rel {s : BSTSet.Source T} {s' : BSTSet.Source T'} (h : SetSourceRel R s s') :
    SourceRel R Eq s.pairs s'.pairs := by
  refine ⟨h.hint, ?_, h.panics⟩
  show ListRel _ (s.items.map fun t => (t, ())) (s'.items.map fun t => (t, ()))
  have := h.items
  revert this
  generalize s.items = l, s'.items = l'
  intro this
  induction this with
  | nil => exact .nil
  | cons hr _ ih => exact .cons ⟨hr, rfl⟩ ih

theorem op_rel {op : SetOp T} {op' : SetOp T'} (h : SetOpRel R op op') : OpRel R Eq op.onMap op'.onMap := by
  cases h with
  | withCapacity => exact .withCapacity
  | collect hc hs => exact .collect hc (source_rel hs)
  | cloned hc hf => exact .cloned hc hf fun v _ _ => by cases v; exact .some rfl
  | insert hc hk => exact .insert hc hk rfl
  | remove hc => exact .remove hc
  | take hc => exact .removeEntry hc
  | get hc => exact .getEntry hc
  | contains hc => exact .containsKey hc
  | node => exact .node
  | iter => exact .iter
  | len => exact .len
  | isEmpty => exact .isEmpty
  | capacity => exact .capacity
  | clear hd => exact .clear hd
  | reserve => exact .reserve
  | shrinkToFit => exact .shrinkToFit
  | extend hc hs => exact .extend hc (source_rel hs)
  | debug hd => exact .debug hd fun _ _ _ => rfl

theorem fst_rel {e : Option (T × Unit)} {e' : Option (T' × Unit)} (h : OptRel (PairRel R Eq) e e') :
    OptRel R (e.map (·.1)) (e'.map (·.1)) := by
  cases h with
  | none => exact .none
  | some h => exact .some h.1

theorem fsts_rel {e : List (Option (T × Unit))} {e' : List (Option (T' × Unit))}
    (h : ListRel (OptRel (PairRel R Eq)) e e') :
    ListRel (OptRel R) (e.map (Option.map (·.1))) (e'.map (Option.map (·.1))) := by
  induction h with
  | nil => exact .nil
  | cons h _ ih => exact .cons (fst_rel h) ih

theorem setDebugNode_rel {dt : T → String} {dt' : T' → String} (hk : ∀ k k', R k k' → dt k = dt' k')
    {s : Nodes T Unit} {s' : Nodes T' Unit} (h : NodesRel R Eq s s') (fuel : Nat) {n : Node T Unit}
    {n' : Node T' Unit} (hn : NodeRel R Eq n n') :
    OutRel Eq (BSTSet.debugNode dt s fuel n) (BSTSet.debugNode dt' s' fuel n') := by
  induction fuel generalizing n n' with
  | zero => exact .diverge
  | succ fuel ih =>
    have sub : ∀ {x : Option (Node T Unit)} {x' : Option (Node T' Unit)}, OptRel (NodeRel R Eq) x x' →
        OutRel Eq (match x with
          | none => pure none
          | some c => do let s ← BSTSet.debugNode dt s fuel c; pure (some s) : Out (Option String))
        (match x' with
          | none => pure none
          | some c => do let s ← BSTSet.debugNode dt' s' fuel c; pure (some s) : Out (Option String)) := by
      intro x x' hx
      cases hx with
      | none => exact .ok rfl
      | some hx => exact OutRel.bind (ih hx) fun _ _ e => .ok (by rw [e])
    unfold BSTSet.debugNode
    refine (Node.left_rel h hn).bind fun _ _ hc => ?_
    refine (sub hc).bind fun _ _ hl => ?_
    refine (Node.right_rel h hn).bind fun _ _ hc => ?_
    refine (sub hc).bind fun _ _ hr => ?_
    refine .ok ?_
    unfold Node.key
    rw [hk _ _ hn.node.key, hl, hr]

theorem setDebug_rel {dt : T → String} {dt' : T' → String} (hk : ∀ k k', R k k' → dt k = dt' k')
    {s : BSTSet T} {s' : BSTSet T'} (h : MapRel R Eq s.items s'.items) :
    OutRel Eq (s.debug dt) (s'.debug dt') := by
  unfold BSTSet.debug BSTSet.rootNode
  refine (BSTMap.rootNode_rel h).bind fun _ _ hr => ?_
  have hl : BSTMap.walkFuel s.items.nodes = BSTMap.walkFuel s'.items.nodes := BSTMap.walkFuel_rel h.nodes
  refine OutRel.bind (R := Eq) ?_ fun _ _ e => .ok (by rw [e])
  cases hr with
  | none => exact .ok rfl
  | some hx =>
    dsimp only
    rw [hl]
    exact (setDebugNode_rel hk h.nodes _ hx).bind fun _ _ e => .ok (by rw [e])

theorem shows_rel {op : SetOp T} {op' : SetOp T'} (h : SetOpRel R op op')
    (hd : ∀ dt, op ≠ .debug dt) {r : Ret T Unit} {r' : Ret T' Unit} {q : SetRet T} {q' : SetRet T'}
    (hr : RetRel R Eq r r') (h1 : Tells op r q) (h2 : Tells op' r' q') : SetRetRel R q q' := by
  cases h <;> cases h1 <;> cases h2 <;> try exact .unit
  case insert => cases hr with | value h => cases h <;> exact .bool
  case remove => cases hr with | value h => cases h <;> exact .bool
  case take => cases hr with | entry h => exact .elem (fst_rel h)
  case get => cases hr with | entry h => exact .elem (fst_rel h)
  case contains => cases hr; exact .bool
  case node =>
    cases hr with
    | node h =>
      cases h with
      | none => exact .node .none
      | some h => exact .node (.some ⟨h.1, h.2.2⟩)
  case iter => cases hr with | items h => exact .items (fsts_rel h)
  case len => cases hr; exact .nat
  case isEmpty => cases hr; exact .bool
  case capacity => cases hr; exact .nat
  case debug => exact absurd rfl (hd _)

theorem setRun_rel {op : SetOp T} {op' : SetOp T'} (h : SetOpRel R op op') {s : BSTSet T} {s' : BSTSet T'}
    (hs : MapRel R Eq s.items s'.items) :
    OutRel (SetRetRel R) (op.run cfg s).1 (op'.run cfg s').1 ∧
      MapRel R Eq (op.run cfg s).2.items (op'.run cfg s').2.items := by
  obtain ⟨h1, h2⟩ := run (cfg := cfg) op s
  obtain ⟨h3, h4⟩ := run (cfg := cfg) op' s'
  obtain ⟨h5, h6⟩ := run_rel (cfg := cfg) (op_rel h) _ _ hs
  rw [h1, h3]
  refine ⟨?_, h6⟩
  by_cases hd : ∃ dt, op = .debug dt
  · obtain ⟨dt, rfl⟩ := hd
    cases h with
    | debug hk =>
      exact (read_bind (R := SetRetRel R) (Q := Eq) (by rintro a _ rfl; exact .text)
        (setDebug_rel hk hs)).2.2
  · have hd : ∀ dt, op ≠ .debug dt := fun dt e => hd ⟨dt, e⟩
    generalize (op.run cfg s).1 = x at *
    generalize (op'.run cfg s').1 = x' at *
    generalize (op.onMap.run cfg s.items).1 = y at *
    generalize (op'.onMap.run cfg s'.items).1 = y' at *
    cases h5 with
    | ok hr =>
      cases h2 with
      | ok h2 => cases h4 with | ok h4 => exact .ok (shows_rel h hd hr h2 h4)
    | panic => cases h2; cases h4; exact .panic
    | abort => cases h2; cases h4; exact .abort
    | ub => cases h2; cases h4; exact .ub
    | diverge => cases h2; cases h4; exact .diverge

theorem setHistory_rel {ops : List (SetOp T)} {ops' : List (SetOp T')} (h : ListRel (SetOpRel R) ops ops')
    {s : BSTSet T} {s' : BSTSet T'} (hs : MapRel R Eq s.items s'.items) :
    ListRel (OutRel (SetRetRel R)) (setHistory cfg ops s).1 (setHistory cfg ops' s').1 ∧
      MapRel R Eq (setHistory cfg ops s).2.items (setHistory cfg ops' s').2.items := by
  induction h generalizing s s' with
  | nil => exact ⟨.nil, hs⟩
  | @cons op op' ops ops' h _ ih =>
    obtain ⟨h1, h2⟩ := setRun_rel (cfg := cfg) h hs
    simp only [setHistory, execute]
    rcases hr : op.run cfg s with ⟨o, s1⟩
    rcases hq : op'.run cfg s' with ⟨o', s1'⟩
    rw [hr, hq] at h1 h2
    have ih := ih h2
    rw [setHistory, setHistory] at ih
    cases h1 with
    | ok h => exact ⟨.cons (.ok h) ih.1, ih.2⟩
    | panic => exact ⟨.cons .panic ih.1, ih.2⟩
    | abort => exact ⟨.cons .abort .nil, h2⟩
    | ub => exact ⟨.cons .ub .nil, h2⟩
    | diverge => exact ⟨.cons .diverge .nil, h2⟩

theorem exploreSetNode_rel {s : BSTSet T} {s' : BSTSet T'} (h : MapRel R Eq s.items s'.items) (fuel : Nat)
    {n : Option (Node T Unit)} {n' : Option (Node T' Unit)} (hn : OptRel (NodeRel R Eq) n n') :
    OutRel (BTRel R) (exploreSetNode s fuel n) (exploreSetNode s' fuel n') := by
  induction fuel generalizing n n' with
  | zero =>
    cases hn with
    | none => exact .ok .nil
    | some _ => exact .diverge
  | succ fuel ih =>
    cases hn with
    | none => exact .ok .nil
    | some hx =>
      unfold exploreSetNode
      refine (Node.left_rel h.nodes hx).bind fun _ _ hc => ?_
      refine (ih hc).bind fun _ _ hl => ?_
      refine (Node.right_rel h.nodes hx).bind fun _ _ hc => ?_
      refine (ih hc).bind fun _ _ hr => ?_
      exact .ok (.node hl hx.node.key hr)

theorem exploreSet_rel {s : BSTSet T} {s' : BSTSet T'} (h : MapRel R Eq s.items s'.items) :
    OutRel (BTRel R) (exploreSet s) (exploreSet s') := by
  unfold exploreSet
  refine (BSTMap.rootNode_rel h).bind fun _ _ hr => ?_
  rw [show BSTMap.walkFuel s.items.nodes = BSTMap.walkFuel s'.items.nodes from BSTMap.walkFuel_rel h.nodes]
  exact exploreSetNode_rel h _ hr

end BST.SetsAsMaps
