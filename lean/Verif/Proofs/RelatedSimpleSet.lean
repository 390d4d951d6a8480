import Verif.Proofs.RelatedSimple
import Verif.Proofs.SetsRelated
/-!
# Lemmas about related programs that use `SimpleBSTSet`
-/
namespace BST.Simple.SSet
open Spec

variable {T T' α α' : Type} {R : T → T' → Prop} {cfg : Cfg}

/-- Related maps inside. -/
def SSetRel (R : T → T' → Prop) (s : SSet T) (s' : SSet T') : Prop := SMapRel R Eq s.items s'.items

theorem onItems_rel {RA : α → α' → Prop} {f : M (Map T Unit) α} {f' : M (Map T' Unit) α'}
    (h : MRel (SMapRel R Eq) RA f f') : MRel (SSetRel R) RA (onItems f) (onItems f') :=
  fun s s' hs => h s.items s'.items hs

theorem isNone_rel {S : α → α' → Prop} {o : Option α} {o' : Option α'} (h : OptRel S o o') :
    o.isNone = o'.isNone := by cases h <;> rfl
theorem isSome_rel {S : α → α' → Prop} {o : Option α} {o' : Option α'} (h : OptRel S o o') :
    o.isSome = o'.isSome := by cases h <;> rfl

theorem insert_rel {c : Probe T} {c' : Probe T'} (hc : ProbeRel R c c') {t : T} {t' : T'} (ht : R t t') :
    MRel (SSetRel R) Eq (insert cfg c t) (insert cfg c' t') :=
  (onItems_rel (Map.insert_rel hc ht rfl)).bind fun _ _ h => .pure (isNone_rel h)

theorem take_rel {c : Probe T} {c' : Probe T'} (hc : ProbeRel R c c') :
    MRel (SSetRel R) (OptRel R) (take cfg c) (take cfg c') :=
  (onItems_rel (Map.removeEntry_rel hc)).bind fun _ _ h => .pure (SetsAsMaps.fst_rel h)

theorem remove_rel {c : Probe T} {c' : Probe T'} (hc : ProbeRel R c c') :
    MRel (SSetRel R) Eq (remove cfg c) (remove cfg c') :=
  (take_rel hc).bind fun _ _ h => .pure (isSome_rel h)

theorem assign_rel {f : SSet T → Out Unit × SSet T} {f' : SSet T' → Out Unit × SSet T'}
    (h : MRel (SSetRel R) Eq f f') : MRel (SSetRel R) Eq (assign f) (assign f') := by
  intro m m' hm
  obtain ⟨h1, h2⟩ := h m m' hm
  unfold assign
  cases hx : f m with
  | mk o t =>
    cases hx' : f' m' with
    | mk o' t' =>
      rw [hx, hx'] at h1 h2
      cases h1 with
      | ok h => exact ⟨.ok rfl, h2⟩
      | panic => exact ⟨.panic, hm.root, hm.len, h2.allocs⟩
      | abort => exact ⟨.abort, hm.root, hm.len, h2.allocs⟩
      | ub => exact ⟨.ub, hm.root, hm.len, h2.allocs⟩
      | diverge => exact ⟨.diverge, hm.root, hm.len, h2.allocs⟩

theorem nextOf_rel (o : Order) {st : Map.Stack T Unit} {st' : Map.Stack T' Unit}
    (h : ListRel (RefRel R Eq) st st') :
    OutRel (PairRel (OptRel R) (ListRel (RefRel R Eq))) (nextOf o st) (nextOf o st') := by
  unfold nextOf
  refine (Map.next_rel o h).bind ?_
  rintro ⟨x, st⟩ ⟨x', st'⟩ ⟨hx, hs⟩
  exact .pure ⟨SetsAsMaps.fst_rel hx, hs⟩

theorem debugLink_rel {dt : T → String} {dt' : T' → String} (hd : ∀ k k', R k k' → dt k = dt' k')
    {t : Link T Unit} {t' : Link T' Unit} (h : LinkRel R Eq t t') : debugLink dt t = debugLink dt' t' := by
  induction h with
  | nil => rfl
  | node h1 _ _ _ ihl ihr => unfold debugLink; rw [hd _ _ h1, ihl, ihr]

theorem run_rel {op : SimpleSetOp T} {op' : SimpleSetOp T'} (h : SimpleSetOpRel R op op') :
    MRel (SSetRel R) (SetRetRel R) (op.run cfg) (op'.run cfg) := by
  cases h with
  | collect hc hs =>
    refine (assign_rel fun m m' hm => ?_).bind fun _ _ _ => .pure .unit
    rw [hm.allocs]
    exact Map.fromIter_rel hc (SetsAsMaps.source_rel hs) _
  | cloned hf =>
    refine (assign_rel fun m m' hm => ?_).bind fun _ _ _ => .pure .unit
    exact Map.clone_rel hf (fun v _ e => by cases v; exact .some rfl) _ _ hm
  | insert hc hk => exact (insert_rel hc hk).bind fun _ _ h => by rw [h]; exact .pure .bool
  | remove hc => exact (remove_rel hc).bind fun _ _ h => by rw [h]; exact .pure .bool
  | take hc => exact (take_rel hc).bind fun _ _ h => .pure (.elem h)
  | get hc =>
    refine MRel.bind (.read fun _ _ hm => ?_) fun _ _ h => .pure (.elem h)
    exact (Map.getEntry_rel hc hm).bind fun _ _ h => .pure (SetsAsMaps.fst_rel h)
  | contains hc =>
    exact MRel.bind (.read fun _ _ hm => Map.containsKey_rel hc hm) fun _ _ h => by rw [h]; exact .pure .bool
  | node =>
    refine MRel.bind .get fun m m' hm => .pure (.node ?_)
    rw [SetsAsMaps.simple_goNode_eq, SetsAsMaps.simple_goNode_eq]
    refine (Map.goRef_rel _ (Map.rootRef_rel hm)).map ?_
    intro a a' ha
    exact ⟨ha.key, by
      unfold nodeHasLeft nodeHasRight Ref.hasLeft Ref.hasRight
      rw [isNil_rel ha.left, isNil_rel ha.right]⟩
  | @iter o n =>
    refine MRel.bind .get fun m m' hm => ?_
    refine MRel.bind (.lift (Map.nexts_rel (fun _ _ h => nextOf_rel o h) n (Map.iter_rel hm o))) fun _ _ h => ?_
    exact .pure (.items h.1)
  | len =>
    refine MRel.bind .get fun m m' h => ?_
    rw [show m.len = m'.len from SMapRel.len h]; exact .pure .nat
  | isEmpty =>
    refine MRel.bind (RA := Eq) (.read fun _ _ hm => .of_eq (Map.isEmpty_rel hm)) fun _ _ h => ?_
    rw [h]; exact .pure .bool
  | clear => exact (onItems_rel Map.clear_rel).bind fun _ _ _ => .pure .unit
  | extend hc hs => exact (onItems_rel (Map.extend_rel hc (SetsAsMaps.source_rel hs))).bind fun _ _ _ => .pure .unit
  | @debug dt dt' hd =>
    refine MRel.bind .get fun m m' h => ?_
    have : m.debug dt = m'.debug dt' := by unfold debug; rw [debugLink_rel hd (SMapRel.root h)]
    rw [this]; exact .pure .text

theorem simpleSetHistory_rel {ops : List (SimpleSetOp T)} {ops' : List (SimpleSetOp T')}
    (h : ListRel (SimpleSetOpRel R) ops ops') {m : SSet T} {m' : SSet T'} (hm : SSetRel R m m') :
    ListRel (OutRel (SetRetRel R)) (simpleSetHistory cfg ops m).1 (simpleSetHistory cfg ops' m').1 ∧
      SSetRel R (simpleSetHistory cfg ops m).2 (simpleSetHistory cfg ops' m').2 := by
  unfold simpleSetHistory
  induction h generalizing m m' with
  | nil => exact ⟨.nil, hm⟩
  | @cons op op' l l' hop hl ih =>
    obtain ⟨h1, h2⟩ := run_rel (cfg := cfg) hop m m' hm
    unfold execute
    cases hx : op.run cfg m with
    | mk o t =>
      cases hx' : op'.run cfg m' with
      | mk o' t' =>
        rw [hx, hx'] at h1 h2
        cases h1 with
        | ok h => exact ⟨.cons (.ok h) (ih h2).1, (ih h2).2⟩
        | panic => exact ⟨.cons .panic (ih h2).1, (ih h2).2⟩
        | abort => exact ⟨.cons .abort .nil, h2⟩
        | ub => exact ⟨.cons .ub .nil, h2⟩
        | diverge => exact ⟨.cons .diverge .nil, h2⟩

theorem exploreRef_rel (fuel : Nat) {n : Option (Ref T Unit)} {n' : Option (Ref T' Unit)}
    (h : OptRel (RefRel R Eq) n n') : BTRel R (exploreRef fuel n) (exploreRef fuel n') := by
  induction fuel generalizing n n' with
  | zero => cases h <;> exact .nil
  | succ fuel ih =>
    cases h with
    | none => exact .nil
    | some h => exact .node (ih (leftRef_rel h)) h.key (ih (rightRef_rel h))

theorem explore_rel {s : SSet T} {s' : SSet T'} (h : SSetRel R s s') : BTRel R (explore s) (explore s') := by
  unfold explore; rw [Map.fuel_rel h]; exact exploreRef_rel _ (Map.rootRef_rel h)

end BST.Simple.SSet
