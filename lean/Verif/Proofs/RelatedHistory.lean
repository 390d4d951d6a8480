import Verif.Proofs.RelatedMap
/-!
# Lemmas about related programs: iterators, histories
-/
namespace BST
open Spec

variable {K K' V V' α α' σ : Type} {R : K → K' → Prop} {S : V → V' → Prop} {cfg : Cfg}

/-! ### Iterators -/
section iter
variable {s : Nodes K V} {s' : Nodes K' V'}

theorem pushLeftSpine_rel (h : NodesRel R S s s') (p : Option Ptr) (st : Stack) :
    OutRel Eq (IterInorder.pushLeftSpine s p st) (IterInorder.pushLeftSpine s' p st) := by
  unfold IterInorder.pushLeftSpine
  rw [BSTMap.walkFuel_rel h]
  refine OutRel.loop (R := Eq) ?_ _ rfl
  rintro ⟨o, st⟩ _ rfl
  cases o with
  | none => exact .pure (.inr rfl)
  | some p => exact (Slab.getUnchecked_rel h p).bind fun x x' hx => .pure (.inl (by rw [hx.left]))

theorem postNew_rel (h : NodesRel R S s s') (p : Option Ptr) :
    OutRel Eq (IterPostorder.new s p) (IterPostorder.new s' p) := by
  unfold IterPostorder.new
  rw [BSTMap.walkFuel_rel h]
  refine OutRel.loop (R := Eq) ?_ _ rfl
  rintro ⟨o, st⟩ _ rfl
  cases o with
  | none => exact .pure (.inr rfl)
  | some p => exact (Slab.getUnchecked_rel h p).bind fun x x' hx => .pure (.inl (by rw [hx.left, hx.right]))

theorem pushSpine_rel (h : NodesRel R S s s') (p : Ptr) {x : InnerNode K V} {x' : InnerNode K' V'}
    (hx : InnerRel R S x x') (st : Stack) :
    OutRel Eq (IterPostorder.pushSpine s p x st) (IterPostorder.pushSpine s' p x' st) := by
  unfold IterPostorder.pushSpine
  rw [BSTMap.walkFuel_rel h]
  refine OutRel.loop (R := PairRel Eq (PairRel (InnerRel R S) Eq)) ?_ _ ⟨rfl, hx, rfl⟩
  rintro ⟨p, x, st⟩ ⟨p', x', st'⟩ ⟨hp, hx, hst⟩
  cases hp
  cases hst
  dsimp only at hx ⊢
  rw [hx.left, hx.right]
  split
  · rename_i l _
    exact (Slab.getUnchecked_rel h l).bind fun y y' hy => .pure (.inl ⟨rfl, hy, rfl⟩)
  · exact .pure (.inr rfl)

theorem postNext_rel (h : NodesRel R S s s') (st : Stack) :
    OutRel (PairRel (OptRel (PairRel R S)) Eq) (IterPostorder.next s st) (IterPostorder.next s' st) := by
  unfold IterPostorder.next
  rw [BSTMap.walkFuel_rel h]
  refine OutRel.loop (R := Eq) ?_ _ rfl
  rintro st _ rfl
  cases st with
  | nil => exact .pure (.inr ⟨.none, rfl⟩)
  | cons cur st =>
    refine (Slab.getUnchecked_rel h cur).bind fun x x' hx => ?_
    rw [hx.right]
    split
    · split
      · refine (Slab.getUnchecked_rel h _).bind fun y y' hy => ?_
        exact (pushSpine_rel h _ hy _).bind fun _ _ e => .pure (.inl e)
      · exact .pure (.inr ⟨.some ⟨hx.key, hx.value⟩, rfl⟩)
    · exact .pure (.inr ⟨.some ⟨hx.key, hx.value⟩, rfl⟩)

theorem postMutNext_rel (h : NodesRel R S s s') (st : Stack) :
    OutRel (PairRel (OptRel (PairRel R Eq)) Eq) (IterMutPostorder.next s st)
      (IterMutPostorder.next s' st) := by
  unfold IterMutPostorder.next
  rw [BSTMap.walkFuel_rel h]
  refine OutRel.loop (R := Eq) ?_ _ rfl
  rintro st _ rfl
  cases st with
  | nil => exact .pure (.inr ⟨.none, rfl⟩)
  | cons cur st =>
    refine (Slab.getUnchecked_rel h cur).bind fun x x' hx => ?_
    rw [hx.right]
    split
    · split
      · refine (Slab.getUnchecked_rel h _).bind fun y y' hy => ?_
        exact (pushSpine_rel h _ hy _).bind fun _ _ e => .pure (.inl e)
      · exact (Slab.getUnchecked_rel h _).bind fun y y' hy => .pure (.inr ⟨.some ⟨hy.key, rfl⟩, rfl⟩)
    · exact (Slab.getUnchecked_rel h _).bind fun y y' hy => .pure (.inr ⟨.some ⟨hy.key, rfl⟩, rfl⟩)

variable {m : BSTMap K V} {m' : BSTMap K' V'}

theorem iter_rel (h : MapRel R S m m') (o : Order) : OutRel Eq (o.iter m) (o.iter m') := by
  cases o with
  | pre => unfold Order.iter IterPreorder.new; dsimp only; rw [h.root]; exact .ok rfl
  | ino => unfold Order.iter IterInorder.new; dsimp only; rw [h.root]; exact pushLeftSpine_rel h.nodes _ _
  | post => unfold Order.iter; dsimp only; rw [h.root]; exact postNew_rel h.nodes _

theorem iterMut_rel (h : MapRel R S m m') (o : Order) : OutRel Eq (o.iterMut m) (o.iterMut m') := by
  cases o with
  | pre => unfold Order.iterMut IterMutPreorder.new; dsimp only; rw [h.root]; exact .ok rfl
  | ino => unfold Order.iterMut IterMutInorder.new; dsimp only; rw [h.root]; exact pushLeftSpine_rel h.nodes _ _
  | post => unfold Order.iterMut; dsimp only; rw [h.root]; exact postNew_rel h.nodes _

theorem next_rel (h : MapRel R S m m') (o : Order) (st : Stack) :
    OutRel (PairRel (OptRel (PairRel R S)) Eq) (o.next m st) (o.next m' st) := by
  cases o with
  | pre =>
    cases st with
    | nil => exact .ok ⟨.none, rfl⟩
    | cons top st =>
      exact (Slab.getUnchecked_rel h.nodes top).bind fun x x' hx =>
        .pure ⟨.some ⟨hx.key, hx.value⟩, by dsimp only; rw [hx.left, hx.right]⟩
  | ino =>
    cases st with
    | nil => exact .ok ⟨.none, rfl⟩
    | cons top st =>
      refine (Slab.getUnchecked_rel h.nodes top).bind fun x x' hx => ?_
      rw [hx.right]
      exact (pushLeftSpine_rel h.nodes _ _).bind fun _ _ e => .pure ⟨.some ⟨hx.key, hx.value⟩, e⟩
  | post => exact postNext_rel h.nodes st

theorem nextMut_rel (h : MapRel R S m m') (o : Order) (st : Stack) :
    OutRel (PairRel (OptRel (PairRel R Eq)) Eq) (o.nextMut m st) (o.nextMut m' st) := by
  cases o with
  | pre =>
    cases st with
    | nil => exact .ok ⟨.none, rfl⟩
    | cons top st =>
      exact (Slab.getUnchecked_rel h.nodes top).bind fun x x' hx =>
        .pure ⟨.some ⟨hx.key, rfl⟩, by dsimp only; rw [hx.left, hx.right]⟩
  | ino =>
    cases st with
    | nil => exact .ok ⟨.none, rfl⟩
    | cons top st =>
      refine (Slab.getUnchecked_rel h.nodes top).bind fun x x' hx => ?_
      rw [hx.right]
      refine (pushLeftSpine_rel h.nodes _ _).bind fun _ _ e => ?_
      exact (Slab.getUnchecked_rel h.nodes top).bind fun y y' hy => .pure ⟨.some ⟨hy.key, rfl⟩, e⟩
  | post => exact postMutNext_rel h.nodes st

theorem nexts_rel {RA : α → α' → Prop} {f : σ → Out (Option α × σ)} {f' : σ → Out (Option α' × σ)}
    (hf : ∀ st, OutRel (PairRel (OptRel RA) Eq) (f st) (f' st)) (n : Nat) (st : σ) :
    OutRel (PairRel (ListRel (OptRel RA)) Eq) (nexts f n st) (nexts f' n st) := by
  induction n generalizing st with
  | zero => exact .ok ⟨.nil, rfl⟩
  | succ n ih =>
    unfold nexts
    refine (hf st).bind ?_
    rintro ⟨o, st1⟩ ⟨o', st2⟩ ⟨ho, he⟩
    cases he
    refine (ih _).bind ?_
    rintro ⟨l, st1⟩ ⟨l', st2⟩ ⟨hl, he⟩
    exact .pure ⟨.cons ho hl, he⟩

theorem clientRun_rel (o : Order) {steps : List (Step V)} {steps' : List (Step V')}
    (h : ListRel (StepRel S) steps steps') {refs : List (K × Ptr)} {refs' : List (K' × Ptr)}
    (hr : ListRel (PairRel R Eq) refs refs') (st : Stack) :
    MRel (MapRel R S) (PairRel (ListRel (PairRel R Eq)) Eq) (clientRun o steps refs st)
      (clientRun o steps' refs' st) := by
  induction h generalizing refs refs' st with
  | nil => exact .pure ⟨hr, rfl⟩
  | cons h1 _ ih =>
    cases h1 with
    | next =>
      unfold clientRun
      refine MRel.bind (.read fun m m' hm => nextMut_rel hm o st) ?_
      rintro ⟨x, st1⟩ ⟨x', st2⟩ ⟨hx, he⟩
      cases he
      exact ih (hr.append hx.toList) _
    | @write i v v' hv =>
      unfold clientRun
      have := hr.getElem? i
      revert this
      generalize refs[i]? = x, refs'[i]? = x'
      intro hx
      cases hx with
      | none => exact ih hr st
      | @some a a' ha =>
        dsimp only
        rw [ha.2]
        exact (BSTMap.onNodes_rel (writeValue_rel _ hv)).bind fun _ _ _ => ih hr st

theorem clientMut_rel (o : Order) {steps : List (Step V)} {steps' : List (Step V')}
    (h : ListRel (StepRel S) steps steps') :
    MRel (MapRel R S) (ListRel (PairRel R Eq)) (clientMut o steps) (clientMut o steps') := by
  unfold clientMut
  refine MRel.bind (.read fun m m' hm => iterMut_rel hm o) ?_
  rintro st _ rfl
  refine (clientRun_rel o h .nil st).bind ?_
  rintro ⟨x, st1⟩ ⟨x', st2⟩ ⟨hx, _⟩
  exact .pure hx

/-! ### Walking through the tree -/

theorem goNode_rel (h : NodesRel R S s s') (path : List Bool) {n : Option (Node K V)}
    {n' : Option (Node K' V')} (hn : OptRel (NodeRel R S) n n') :
    OutRel (OptRel (NodeRel R S)) (goNode s path n) (goNode s' path n') := by
  induction path generalizing n n' with
  | nil => exact .ok hn
  | cons b path ih =>
    cases hn with
    | none => exact .ok .none
    | some hn =>
      unfold goNode
      dsimp only
      split
      · exact (Node.right_rel h hn).bind fun _ _ hc => ih hc
      · exact (Node.left_rel h hn).bind fun _ _ hc => ih hc

theorem nodeAt_rel (h : MapRel R S m m') (path : List Bool) :
    OutRel (OptRel (NodeRel R S)) (nodeAt path m) (nodeAt path m') :=
  (BSTMap.rootNode_rel h).bind fun _ _ hn => goNode_rel h.nodes path hn

theorem goMut_rel (path : List Bool) (n : Option NodeMut) : MRel (MapRel R S) Eq
    (goMut path n : M (BSTMap K V) _) (goMut path n : M (BSTMap K' V') _) := by
  induction path generalizing n with
  | nil => exact .pure rfl
  | cons b path ih =>
    cases n with
    | none => exact .pure rfl
    | some n =>
      unfold goMut
      dsimp only
      split
      · exact (BSTMap.onNodes_rel (NodeMut.right_rel n)).bind fun _ _ e => by rw [e]; exact ih _
      · exact (BSTMap.onNodes_rel (NodeMut.left_rel n)).bind fun _ _ e => by rw [e]; exact ih _

theorem nodeMutAt_rel (path : List Bool) : MRel (MapRel R S) Eq
    (nodeMutAt path : M (BSTMap K V) _) (nodeMutAt path : M (BSTMap K' V') _) :=
  BSTMap.rootMut_rel.bind fun _ _ e => by rw [e]; exact goMut_rel path _

theorem exploreNode_rel (h : NodesRel R S s s') (fuel : Nat) {n : Option (Node K V)}
    {n' : Option (Node K' V')} (hn : OptRel (NodeRel R S) n n') :
    OutRel (BTRel (PairRel Eq (PairRel R S))) (exploreNode s fuel n) (exploreNode s' fuel n') := by
  induction fuel generalizing n n' with
  | zero =>
    cases hn with
    | none => exact .ok .nil
    | some hn => exact .diverge
  | succ fuel ih =>
    cases hn with
    | none => exact .ok .nil
    | some hn =>
      unfold exploreNode
      refine (Node.left_rel h hn).bind fun _ _ hc => ?_
      refine (ih hc).bind fun _ _ hl => ?_
      refine (Node.right_rel h hn).bind fun _ _ hc => ?_
      refine (ih hc).bind fun _ _ hr => ?_
      exact .pure (.node hl ⟨hn.ptr, hn.node.key, hn.node.value⟩ hr)

theorem exploreAt_rel (h : MapRel R S m m') :
    OutRel (BTRel (PairRel Eq (PairRel R S))) (exploreAt m) (exploreAt m') := by
  unfold exploreAt
  rw [BSTMap.walkFuel_rel h.nodes]
  exact (BSTMap.rootNode_rel h).bind fun _ _ hn => exploreNode_rel h.nodes _ hn

/-! ### `Debug` -/

theorem debugNode_rel {dk : K → String} {dk' : K' → String} {dv : V → String} {dv' : V' → String}
    (hk : ∀ k k', R k k' → dk k = dk' k') (hv : ∀ v v', S v v' → dv v = dv' v') (h : NodesRel R S s s')
    (fuel : Nat) {n : Node K V} {n' : Node K' V'} (hn : NodeRel R S n n') :
    OutRel Eq (BSTMap.debugNode dk dv s fuel n) (BSTMap.debugNode dk' dv' s' fuel n') := by
  induction fuel generalizing n n' with
  | zero => exact .diverge
  | succ fuel ih =>
    have sub : ∀ {x : Option (Node K V)} {x' : Option (Node K' V')}, OptRel (NodeRel R S) x x' →
        OutRel Eq (match x with
          | none => pure none
          | some c => do let s ← BSTMap.debugNode dk dv s fuel c; pure (some s) : Out (Option String))
        (match x' with
          | none => pure none
          | some c => do let s ← BSTMap.debugNode dk' dv' s' fuel c; pure (some s) : Out (Option String)) := by
      intro x x' hx
      cases hx with
      | none => exact .pure rfl
      | some hx => exact (ih hx).bind fun _ _ e => .pure (by rw [e])
    unfold BSTMap.debugNode
    refine (Node.left_rel h hn).bind fun _ _ hc => ?_
    refine (sub hc).bind fun _ _ hl => ?_
    refine (Node.right_rel h hn).bind fun _ _ hc => ?_
    refine (sub hc).bind fun _ _ hr => ?_
    refine .pure ?_
    unfold Node.key Node.value
    rw [hk _ _ hn.node.key, hv _ _ hn.node.value, hl, hr]

theorem debug_rel {dk : K → String} {dk' : K' → String} {dv : V → String} {dv' : V' → String}
    (hk : ∀ k k', R k k' → dk k = dk' k') (hv : ∀ v v', S v v' → dv v = dv' v') (h : MapRel R S m m') :
    OutRel Eq (m.debug dk dv) (m'.debug dk' dv') := by
  unfold BSTMap.debug
  rw [BSTMap.walkFuel_rel h.nodes]
  refine (BSTMap.rootNode_rel h).bind fun x x' hx => ?_
  refine OutRel.bind (R := Eq) ?_ fun _ _ e => .pure (by rw [e])
  cases hx with
  | none => exact .pure rfl
  | some hx => exact (debugNode_rel hk hv h.nodes _ hx).bind fun _ _ e => .pure (by rw [e])
end iter

/-! ### Histories -/

theorem run_rel {op : Op K V} {op' : Op K' V'} (h : OpRel R S op op') :
    MRel (MapRel R S) (RetRel R S) (op.run cfg) (op'.run cfg) := by
  cases h with
  | withCapacity =>
    exact (BSTMap.assign_rel fun _ _ _ => BSTMap.withCapacity_rel _).bind fun _ _ _ => .pure .unit
  | collect hc hs =>
    exact (BSTMap.assign_rel fun _ _ _ => BSTMap.fromIter_rel hc hs).bind fun _ _ _ => .pure .unit
  | cloned hc hf hg =>
    exact (BSTMap.assign_rel fun _ _ hm => BSTMap.clone_rel hc hf hg hm).bind fun _ _ _ => .pure .unit
  | insert hc hk hv => exact (BSTMap.insert_rel hc hk hv).bind fun _ _ h => .pure (.value h)
  | remove hc => exact (BSTMap.remove_rel hc).bind fun _ _ h => .pure (.value h)
  | removeEntry hc => exact (BSTMap.removeEntry_rel hc).bind fun _ _ h => .pure (.entry h)
  | get hc => exact MRel.bind (.read fun _ _ hm => BSTMap.get_rel hc hm) fun _ _ h => .pure (.value h)
  | getEntry hc =>
    exact MRel.bind (.read fun _ _ hm => BSTMap.getEntry_rel hc hm) fun _ _ h => .pure (.entry h)
  | containsKey hc =>
    exact MRel.bind (.read fun _ _ hm => BSTMap.containsKey_rel hc hm) fun _ _ h => by
      rw [h]; exact .pure .bool
  | getMut hc hw =>
    refine (BSTMap.getMut_rel hc).bind ?_
    rintro r _ rfl
    cases r with
    | none => exact .pure (.value .none)
    | some p => exact (BSTMap.onNodes_rel (swapValue_rel p hw)).bind fun _ _ h => .pure (.value (.some h))
  | getEntryMut hc hw =>
    refine (BSTMap.getEntryMut_rel hc).bind fun r r' hr => ?_
    cases hr with
    | none => exact .pure (.entry .none)
    | @some a a' ha =>
      obtain ⟨k, p⟩ := a
      obtain ⟨k', p'⟩ := a'
      obtain ⟨hk, hp⟩ := ha
      cases hp
      exact (BSTMap.onNodes_rel (swapValue_rel p hw)).bind fun _ _ h => .pure (.entry (.some ⟨hk, h⟩))
  | node =>
    refine MRel.bind (.read fun _ _ hm => nodeAt_rel hm _) fun n n' hn => .pure (.node (hn.map ?_))
    intro a a' ha
    exact ⟨ha.node.key, ha.node.value, by
      unfold Node.hasLeft Node.hasRight
      rw [ha.node.left, ha.node.right]⟩
  | nodeMut hw =>
    refine (nodeMutAt_rel _).bind ?_
    rintro n _ rfl
    cases n with
    | none => exact .pure (.entry .none)
    | some n =>
      refine (BSTMap.onNodes_rel (NodeMut.key_rel n)).bind fun _ _ hk => ?_
      refine (BSTMap.onNodes_rel (NodeMut.valueMut_rel n)).bind ?_
      rintro p _ rfl
      exact (BSTMap.onNodes_rel (swapValue_rel p hw)).bind fun _ _ h => .pure (.entry (.some ⟨hk, h⟩))
  | iter =>
    refine MRel.bind (.read fun _ _ hm => iter_rel hm _) ?_
    rintro st _ rfl
    refine MRel.bind (.read fun _ _ hm => nexts_rel (next_rel hm _) _ st) fun _ _ h => ?_
    exact .pure (.items h.1)
  | iterMut hs => exact (clientMut_rel _ hs).bind fun _ _ h => .pure (.keys (h.map fun _ _ e => e.1))
  | len =>
    refine MRel.bind (RA := Eq) (.read fun _ _ hm => .of_eq (Slab.len_rel hm.nodes)) fun _ _ h => ?_
    rw [h]; exact .pure .nat
  | isEmpty =>
    refine MRel.bind (RA := Eq) (.read fun _ _ hm => .of_eq (BSTMap.isEmpty_rel hm)) fun _ _ h => ?_
    rw [h]; exact .pure .bool
  | capacity =>
    refine MRel.bind .get fun m m' h => ?_
    unfold BSTMap.capacity Slab.capacity
    rw [h.nodes.items.capacity]
    exact .pure .nat
  | clear hd => exact (BSTMap.clear_rel hd).bind fun _ _ _ => .pure .unit
  | reserve => exact (BSTMap.onNodes_rel (Slab.reserve_rel _)).bind fun _ _ _ => .pure .unit
  | shrinkToFit => exact (BSTMap.onNodes_rel Slab.shrinkToFit_rel).bind fun _ _ _ => .pure .unit
  | extend hc hs => exact (BSTMap.extend_rel hc hs).bind fun _ _ _ => .pure .unit
  | debug hk hv =>
    refine MRel.bind (.read fun _ _ hm => debug_rel hk hv hm) fun _ _ h => ?_
    rw [h]; exact .pure .text

theorem history_rel {ops : List (Op K V)} {ops' : List (Op K' V')} (h : ListRel (OpRel R S) ops ops')
    {m : BSTMap K V} {m' : BSTMap K' V'} (hm : MapRel R S m m') :
    ListRel (OutRel (RetRel R S)) (history cfg ops m).1 (history cfg ops' m').1 ∧
      MapRel R S (history cfg ops m).2 (history cfg ops' m').2 := by
  induction h generalizing m m' with
  | nil => exact ⟨.nil, hm⟩
  | @cons op op' l l' hop hl ih =>
    obtain ⟨h1, h2⟩ := run_rel (cfg := cfg) hop m m' hm
    unfold history
    cases hx : op.run cfg m with
    | mk o t =>
      cases hx' : op'.run cfg m' with
      | mk o' t' =>
        rw [hx, hx'] at h1 h2
        cases h1 with
        | ok h => exact ⟨.cons (.ok h) (ih h2).1, (ih h2).2⟩
        | panic => exact ⟨.cons .panic (ih h2).1, (ih h2).2⟩
        | abort => exact ⟨.cons .abort .nil, h2⟩
        | ub => exact ⟨.cons .ub .nil, h2⟩
        | diverge => exact ⟨.cons .diverge .nil, h2⟩

/-! ### Renaming -/
namespace Props

theorem BTRel.eq_map {α β : Type} {f : α → β} {b : BT α} {b' : BT β}
    (h : BTRel (fun a a' => a' = f a) b b') : b' = b.map f := by
  induction h with
  | nil => rfl
  | node _ h _ ihl ihr => rw [ihl, ihr, h]; rfl

theorem OptRel.eq_map {α β : Type} {f : α → β} {b : Option α} {b' : Option β}
    (h : OptRel (fun a a' => a' = f a) b b') : b' = b.map f := by
  cases h with
  | none => rfl
  | some h => rw [h]; rfl

theorem ListRel.eq_map {α β : Type} {f : α → β} {b : List α} {b' : List β}
    (h : ListRel (fun a a' => a' = f a) b b') : b' = b.map f := by
  induction h with
  | nil => rfl
  | cons h _ ih => rw [ih, h]; rfl

theorem ListRel.mono {α β : Type} {R S : α → β → Prop} {l : List α} {l' : List β} (h : ListRel R l l')
    (hi : ∀ a b, R a b → S a b) : ListRel S l l' := by
  induction h with
  | nil => exact .nil
  | cons h _ ih => exact .cons (hi _ _ h) ih

theorem OptRel.mono {α β : Type} {R S : α → β → Prop} {l : Option α} {l' : Option β} (h : OptRel R l l')
    (hi : ∀ a b, R a b → S a b) : OptRel S l l' := by
  cases h with
  | none => exact .none
  | some h => exact .some (hi _ _ h)

theorem BTRel.mono {α β : Type} {R S : α → β → Prop} {l : BT α} {l' : BT β} (h : BTRel R l l')
    (hi : ∀ a b, R a b → S a b) : BTRel S l l' := by
  induction h with
  | nil => exact .nil
  | node _ h _ ihl ihr => exact .node ihl (hi _ _ h) ihr

theorem RetRel.eq_map {f : K → K'} {g : V → V'} {r : Ret K V} {r' : Ret K' V'}
    (h : RetRel (fun k k' => k' = f k) (fun v v' => v' = g v) r r') : r' = r.map f g := by
  have pair : ∀ (a : K × V) (b : K' × V'),
      PairRel (fun k k' => k' = f k) (fun v v' => v' = g v) a b → b = (f a.1, g a.2) := by
    rintro ⟨a, b⟩ ⟨c, d⟩ ⟨h1, h2⟩
    cases h1; cases h2; rfl
  cases h with
  | unit => rfl
  | bool => rfl
  | nat => rfl
  | text => rfl
  | value h => rw [OptRel.eq_map h]; rfl
  | entry h => rw [OptRel.eq_map (OptRel.mono h pair)]; rfl
  | node h =>
    rw [OptRel.eq_map (OptRel.mono (S := fun (a : K × V × Bool × Bool) b => b = (f a.1, g a.2.1, a.2.2)) h ?_)]
    · rfl
    · rintro ⟨a, b, c⟩ ⟨a', b', c'⟩ ⟨h1, h2, h3⟩
      cases h1; cases h2; cases h3; rfl
  | items h =>
    rw [ListRel.eq_map (ListRel.mono h fun _ _ h => OptRel.eq_map (OptRel.mono h pair))]; rfl
  | keys h => rw [ListRel.eq_map h]; rfl

end Props

/-! ### Where keys and values come from -/

/-- Equal, with the property `P`. -/
def Diag {α : Type} (P : α → Prop) (a b : α) : Prop := a = b ∧ P a

namespace Diag
variable {α : Type} {P : K → Prop} {Q : V → Prop}

theorem list {T : α → α → Prop} {l : List α} (h : ∀ x ∈ l, T x x) : ListRel T l l := by
  induction l with
  | nil => exact .nil
  | cons a l ih => exact .cons (h a (by simp)) (ih fun x hx => h x (by simp [hx]))

theorem probe (c : Probe K) : ProbeRel (Diag P) c c := by
  rintro i k _ ⟨rfl, _⟩; rfl

theorem probes (c : Nat → K → Probe K) : ProbesRel (Diag P) c c := by
  rintro n k _ ⟨rfl, _⟩; exact probe _

theorem source {s : BSTMap.Source K V} (h : ∀ e ∈ s.items, P e.1 ∧ Q e.2) :
    SourceRel (Diag P) (Diag Q) s s :=
  ⟨rfl, list fun e he => ⟨⟨rfl, (h e he).1⟩, rfl, (h e he).2⟩, rfl⟩

theorem inner {x y : InnerNode K V} (h : InnerRel (Diag P) (Diag Q) x y) : x = y := by
  obtain ⟨k, v, l, r⟩ := x
  obtain ⟨k', v', l', r'⟩ := y
  obtain ⟨⟨h1, _⟩, ⟨h2, _⟩, h3, h4⟩ := h
  cases h1; cases h2; cases h3; cases h4; rfl

theorem opt {P : α → Prop} {f : α → Option α} (h : ∀ k k', P k → f k = some k' → P k') (k k' : α)
    (hk : Diag P k k') : OptRel (Diag P) (f k) (f k') := by
  obtain ⟨rfl, hp⟩ := hk
  cases hf : f k with
  | none => exact .none
  | some x => exact .some ⟨rfl, h _ _ hp hf⟩

theorem op {op : Op K V} (h : op.Only P Q) : OpRel (Diag P) (Diag Q) op op := by
  cases op with
  | withCapacity n => exact .withCapacity
  | collect c s => exact .collect (probes c) (source h)
  | cloned c f g => exact .cloned (probes c) (opt h.1) (opt h.2)
  | insert c k v => exact .insert (probe c) ⟨rfl, h.1⟩ ⟨rfl, h.2⟩
  | remove c => exact .remove (probe c)
  | removeEntry c => exact .removeEntry (probe c)
  | get c => exact .get (probe c)
  | getEntry c => exact .getEntry (probe c)
  | containsKey c => exact .containsKey (probe c)
  | getMut c w => exact .getMut (probe c) ⟨rfl, h⟩
  | getEntryMut c w => exact .getEntryMut (probe c) ⟨rfl, h⟩
  | node p => exact .node
  | nodeMut p w => exact .nodeMut ⟨rfl, h⟩
  | iter o n => exact .iter
  | iterMut o steps =>
    refine .iterMut (list fun x hx => ?_)
    cases x with
    | next => exact .next
    | write i w => exact .write ⟨rfl, h i w hx⟩
  | len => exact .len
  | isEmpty => exact .isEmpty
  | capacity => exact .capacity
  | clear d => exact .clear ⟨rfl, fun x x' hx => by rw [inner hx]⟩
  | reserve n => exact .reserve
  | shrinkToFit => exact .shrinkToFit
  | extend c s => exact .extend (probes c) (source h)
  | debug dk dv =>
    exact .debug (by rintro k _ ⟨rfl, _⟩; rfl) (by rintro k _ ⟨rfl, _⟩; rfl)

theorem mem {T : α → α → Prop} {l l' : List α} (h : ListRel T l l') : ∀ x ∈ l, ∃ y, T x y := by
  induction h with
  | nil => intro x hx; cases hx
  | cons h _ ih =>
    intro x hx
    rcases List.mem_cons.mp hx with rfl | hx
    · exact ⟨_, h⟩
    · exact ih x hx

theorem ret {r r' : Ret K V} (h : RetRel (Diag P) (Diag Q) r r') : r.Only P Q := by
  cases h with
  | unit => trivial
  | bool => trivial
  | nat => trivial
  | text => trivial
  | value h => rintro x rfl; cases h with | some h => exact h.2
  | entry h => rintro x rfl; cases h with | some h => exact ⟨h.1.2, h.2.2⟩
  | node h => rintro x rfl; cases h with | some h => exact ⟨h.1.2, h.2.1.2⟩
  | items h =>
    intro x hx
    obtain ⟨y, hy⟩ := mem h _ hx
    cases hy with | some h => exact ⟨h.1.2, h.2.2⟩
  | keys h =>
    intro x hx
    obtain ⟨y, hy⟩ := mem h _ hx
    exact hy.2

theorem tree {T : α → α → Prop} {b b' : BT α} (h : BTRel T b b') : ∀ x ∈ b.ino, ∃ y, T x y := by
  induction h with
  | nil => intro x hx; cases hx
  | node _ h _ ihl ihr =>
    intro x hx
    simp only [BT.ino, List.mem_append, List.mem_cons] at hx
    rcases hx with hx | rfl | hx
    · exact ihl x hx
    · exact ⟨_, h⟩
    · exact ihr x hx
end Diag

end BST
