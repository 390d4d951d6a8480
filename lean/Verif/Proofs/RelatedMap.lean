import Verif.Proofs.Related
/-!
# Lemmas about related programs: maps, iterators, histories
-/
namespace BST
open Spec

variable {K K' V V' α α' σ : Type} {R : K → K' → Prop} {S : V → V' → Prop} {cfg : Cfg}

structure NodeRel (R : K → K' → Prop) (S : V → V' → Prop) (n : Node K V) (n' : Node K' V') : Prop where
  ptr : n.ptr = n'.ptr
  node : InnerRel R S n.node n'.node

abbrev NodesRel (R : K → K' → Prop) (S : V → V' → Prop) : Nodes K V → Nodes K' V' → Prop :=
  SlabRel (InnerRel R S)

structure MapRel (R : K → K' → Prop) (S : V → V' → Prop) (m : BSTMap K V) (m' : BSTMap K' V') : Prop where
  nodes : NodesRel R S m.nodes m'.nodes
  root : m.root = m'.root

theorem innerNew_rel {k : K} {k' : K'} {v : V} {v' : V'} (hk : R k k') (hv : S v v') :
    InnerRel R S (InnerNode.new k v) (InnerNode.new k' v') := ⟨hk, hv, rfl, rfl⟩

/-! ### `Node` -/
namespace Node
variable {s : Nodes K V} {s' : Nodes K' V'} {n : Node K V} {n' : Node K' V'}

theorem newOpt_rel (h : NodesRel R S s s') (p : Option Ptr) :
    OutRel (OptRel (NodeRel R S)) (newOpt s p) (newOpt s' p) := by
  cases p with
  | none => exact .ok .none
  | some p =>
    unfold newOpt new
    refine OutRel.bind (R := NodeRel R S) ((Slab.getUnchecked_rel h p).bind fun x x' hx => ?_) fun a a' ha => ?_
    · exact .pure ⟨rfl, hx⟩
    · exact .pure (.some ha)

theorem left_rel (h : NodesRel R S s s') (hn : NodeRel R S n n') :
    OutRel (OptRel (NodeRel R S)) (n.left s) (n'.left s') := by
  unfold left; rw [hn.node.left]; exact newOpt_rel h _

theorem right_rel (h : NodesRel R S s s') (hn : NodeRel R S n n') :
    OutRel (OptRel (NodeRel R S)) (n.right s) (n'.right s') := by
  unfold right; rw [hn.node.right]; exact newOpt_rel h _
end Node

/-! ### `NodeMut` -/
namespace NodeMut

theorem deref_rel (n : NodeMut) : MRel (NodesRel R S) (InnerRel R S) n.deref n.deref := Slab.read_rel n.ptr

theorem newOpt_rel (p : Option Ptr) : MRel (NodesRel R S) Eq (newOpt p) (newOpt p) := by
  cases p with
  | none => exact .pure rfl
  | some p =>
    unfold newOpt new
    refine MRel.bind (RA := Eq) ((Slab.read_rel p).bind fun x x' hx => .pure rfl) ?_
    rintro a _ rfl
    exact .pure rfl

theorem key_rel (n : NodeMut) : MRel (NodesRel R S) R n.key n.key :=
  (deref_rel n).bind fun _ _ h => .pure h.key
theorem valueMut_rel (n : NodeMut) : MRel (NodesRel R S) Eq n.valueMut n.valueMut :=
  (deref_rel n).bind fun _ _ _ => .pure rfl
theorem intoEntryMut_rel (n : NodeMut) : MRel (NodesRel R S) (PairRel R Eq) n.intoEntryMut n.intoEntryMut :=
  (deref_rel n).bind fun _ _ h => .pure ⟨h.key, rfl⟩
theorem hasLeft_rel (n : NodeMut) : MRel (NodesRel R S) Eq n.hasLeft n.hasLeft :=
  (deref_rel n).bind fun _ _ h => .pure (by rw [h.left])
theorem hasRight_rel (n : NodeMut) : MRel (NodesRel R S) Eq n.hasRight n.hasRight :=
  (deref_rel n).bind fun _ _ h => .pure (by rw [h.right])
theorem left_rel (n : NodeMut) : MRel (NodesRel R S) Eq n.left n.left :=
  (deref_rel n).bind fun _ _ h => by rw [h.left]; exact newOpt_rel _
theorem right_rel (n : NodeMut) : MRel (NodesRel R S) Eq n.right n.right :=
  (deref_rel n).bind fun _ _ h => by rw [h.right]; exact newOpt_rel _

theorem setLeft_rel (n : NodeMut) (p : Ptr) : MRel (NodesRel R S) Eq (n.setLeft p) (n.setLeft p) :=
  Slab.updateUnchecked_rel _ fun _ _ h => ⟨h.key, h.value, rfl, h.right⟩
theorem setRight_rel (n : NodeMut) (p : Ptr) : MRel (NodesRel R S) Eq (n.setRight p) (n.setRight p) :=
  Slab.updateUnchecked_rel _ fun _ _ h => ⟨h.key, h.value, h.left, rfl⟩

variable {k : K} {k' : K'} {v : V} {v' : V'}

theorem pushLeft_rel (n : NodeMut) (hk : R k k') (hv : S v v') :
    MRel (NodesRel R S) Eq (n.pushLeft cfg k v) (n.pushLeft cfg k' v') := by
  unfold pushLeft
  refine (Slab.push_rel (innerNew_rel hk hv)).bind ?_
  rintro p _ rfl
  exact (setLeft_rel n p).bind fun _ _ _ => .pure rfl

theorem pushRight_rel (n : NodeMut) (hk : R k k') (hv : S v v') :
    MRel (NodesRel R S) Eq (n.pushRight cfg k v) (n.pushRight cfg k' v') := by
  unfold pushRight
  refine (Slab.push_rel (innerNew_rel hk hv)).bind ?_
  rintro p _ rfl
  exact (setRight_rel n p).bind fun _ _ _ => .pure rfl

theorem replaceValue_rel (n : NodeMut) (hv : S v v') :
    MRel (NodesRel R S) S (n.replaceValue v) (n.replaceValue v') := by
  unfold replaceValue
  refine (deref_rel n).bind fun x x' hx => ?_
  refine (Slab.updateUnchecked_rel _ fun _ _ h => ⟨h.key, hv, h.left, h.right⟩).bind fun _ _ _ => ?_
  exact .pure hx.value
end NodeMut

theorem writeValue_rel (p : Ptr) {v : V} {v' : V'} (hv : S v v') :
    MRel (NodesRel R S) Eq (writeValue p v) (writeValue p v') :=
  Slab.updateUnchecked_rel _ fun _ _ h => ⟨h.key, hv, h.left, h.right⟩

theorem swapValue_rel (p : Ptr) {v : V} {v' : V'} (hv : S v v') :
    MRel (NodesRel R S) S (swapValue p v) (swapValue p v') :=
  (Slab.read_rel p).bind fun _ _ hx => (writeValue_rel p hv).bind fun _ _ _ => .pure hx.value

/-! ### `BSTMap` -/
namespace BSTMap

theorem onNodes_rel {RA : α → α' → Prop} {f : M (Nodes K V) α} {f' : M (Nodes K' V') α'}
    (h : MRel (NodesRel R S) RA f f') : MRel (MapRel R S) RA (onNodes f) (onNodes f') := by
  intro s s' hs
  obtain ⟨h1, h2⟩ := h s.nodes s'.nodes hs.nodes
  exact ⟨h1, h2, hs.root⟩

theorem new_rel : MapRel R S (new : BSTMap K V) new := ⟨Slab.new_rel, rfl⟩

theorem walkFuel_rel {s : Nodes K V} {s' : Nodes K' V'} (h : NodesRel R S s s') :
    walkFuel s = walkFuel s' := by unfold walkFuel; rw [h.items.len]

theorem rootNode_rel {m : BSTMap K V} {m' : BSTMap K' V'} (h : MapRel R S m m') :
    OutRel (OptRel (NodeRel R S)) m.rootNode m'.rootNode := by
  unfold rootNode; rw [h.root]; exact Node.newOpt_rel h.nodes _

theorem rootMut_rel : MRel (MapRel R S) Eq (rootMut : M (BSTMap K V) _) rootMut := by
  unfold rootMut
  refine MRel.bind .get fun m m' h => ?_
  rw [h.root]
  exact onNodes_rel (NodeMut.newOpt_rel _)

theorem isEmpty_rel {m : BSTMap K V} {m' : BSTMap K' V'} (h : MapRel R S m m') :
    m.isEmpty cfg = m'.isEmpty cfg := by
  unfold isEmpty; rw [Slab.isEmpty_rel h.nodes, h.root]

section search
variable {c : Probe K} {c' : Probe K'} {m : BSTMap K V} {m' : BSTMap K' V'}

/-- The loop of `contains_key`, `get` and `get_entry`. -/
theorem search_rel {RA : α → α' → Prop} (hc : ProbeRel R c c') (h : MapRel R S m m') {a : α} {a' : α'}
    {f : Node K V → α} {f' : Node K' V' → α'} (ha : RA a a')
    (hf : ∀ n n', NodeRel R S n n' → RA (f n) (f' n')) :
    OutRel RA
      (do let root ← m.rootNode
          loop (walkFuel m.nodes) (fun (st : Nat × Option (Node K V)) =>
            match st.2 with
            | none => pure (.inr a)
            | some node =>
              match c st.1 node.key with
              | none => .panic
              | some .lt => do let n ← node.left m.nodes; pure (.inl (st.1 + 1, n))
              | some .gt => do let n ← node.right m.nodes; pure (.inl (st.1 + 1, n))
              | some .eq => pure (.inr (f node))) (0, root))
      (do let root ← m'.rootNode
          loop (walkFuel m'.nodes) (fun (st : Nat × Option (Node K' V')) =>
            match st.2 with
            | none => pure (.inr a')
            | some node =>
              match c' st.1 node.key with
              | none => .panic
              | some .lt => do let n ← node.left m'.nodes; pure (.inl (st.1 + 1, n))
              | some .gt => do let n ← node.right m'.nodes; pure (.inl (st.1 + 1, n))
              | some .eq => pure (.inr (f' node))) (0, root)) := by
  refine (rootNode_rel h).bind fun r r' hr => ?_
  rw [walkFuel_rel h.nodes]
  refine OutRel.loop (R := PairRel Eq (OptRel (NodeRel R S))) ?_ _ ⟨rfl, hr⟩
  rintro ⟨i, o⟩ ⟨i', o'⟩ ⟨hi, ho⟩
  cases hi
  cases ho with
  | none => exact .pure (.inr ha)
  | @some n n' hn =>
    dsimp only
    have e : c i n.key = c' i n'.key := hc i _ _ hn.node.key
    rw [e]
    split
    · exact .panic
    · exact (Node.left_rel h.nodes hn).bind fun _ _ hx => .pure (.inl ⟨rfl, hx⟩)
    · exact (Node.right_rel h.nodes hn).bind fun _ _ hx => .pure (.inl ⟨rfl, hx⟩)
    · exact .pure (.inr (hf _ _ hn))

theorem containsKey_rel (hc : ProbeRel R c c') (h : MapRel R S m m') :
    OutRel Eq (containsKey c m) (containsKey c' m') :=
  search_rel (f := fun _ => true) (f' := fun _ => true) hc h rfl fun _ _ _ => rfl

theorem get_rel (hc : ProbeRel R c c') (h : MapRel R S m m') :
    OutRel (OptRel S) (get c m) (get c' m') :=
  search_rel hc h .none fun _ _ hn => .some hn.node.value

theorem getEntry_rel (hc : ProbeRel R c c') (h : MapRel R S m m') :
    OutRel (OptRel (PairRel R S)) (getEntry c m) (getEntry c' m') :=
  search_rel hc h .none fun _ _ hn => .some ⟨hn.node.key, hn.node.value⟩

theorem getMut_rel (hc : ProbeRel R c c') :
    MRel (MapRel R S) Eq (getMut c : M (BSTMap K V) _) (getMut c' : M (BSTMap K' V') _) := by
  unfold getMut
  refine MRel.bind .get fun m m' h => ?_
  refine rootMut_rel.bind ?_
  rintro r _ rfl
  rw [walkFuel_rel h.nodes]
  refine MRel.loop (RA := Eq) ?_ _ rfl
  rintro ⟨i, o⟩ _ rfl
  cases o with
  | none => exact .pure (.inr rfl)
  | some n =>
    refine (onNodes_rel (NodeMut.key_rel n)).bind fun k k' hk => ?_
    dsimp only
    rw [hc i _ _ hk]
    split
    · exact .panic
    · exact (onNodes_rel (NodeMut.left_rel n)).bind fun _ _ e => .pure (.inl (by rw [e]))
    · exact (onNodes_rel (NodeMut.right_rel n)).bind fun _ _ e => .pure (.inl (by rw [e]))
    · exact (onNodes_rel (NodeMut.valueMut_rel n)).bind fun _ _ e => .pure (.inr (by rw [e]))

theorem getEntryMut_rel (hc : ProbeRel R c c') : MRel (MapRel R S) (OptRel (PairRel R Eq))
    (getEntryMut c : M (BSTMap K V) _) (getEntryMut c' : M (BSTMap K' V') _) := by
  unfold getEntryMut
  refine MRel.bind .get fun m m' h => ?_
  refine rootMut_rel.bind ?_
  rintro r _ rfl
  rw [walkFuel_rel h.nodes]
  refine MRel.loop (RA := Eq) ?_ _ rfl
  rintro ⟨i, o⟩ _ rfl
  cases o with
  | none => exact .pure (.inr .none)
  | some n =>
    refine (onNodes_rel (NodeMut.key_rel n)).bind fun k k' hk => ?_
    dsimp only
    rw [hc i _ _ hk]
    split
    · exact .panic
    · exact (onNodes_rel (NodeMut.left_rel n)).bind fun _ _ e => .pure (.inl (by rw [e]))
    · exact (onNodes_rel (NodeMut.right_rel n)).bind fun _ _ e => .pure (.inl (by rw [e]))
    · exact (onNodes_rel (NodeMut.intoEntryMut_rel n)).bind fun _ _ e => .pure (.inr (.some e))

theorem insert_rel (hc : ProbeRel R c c') {k : K} {k' : K'} {v : V} {v' : V'} (hk : R k k') (hv : S v v') :
    MRel (MapRel R S) (OptRel S) (insert cfg c k v) (insert cfg c' k' v') := by
  unfold insert
  refine MRel.bind .get fun m m' h => ?_
  refine rootMut_rel.bind ?_
  rintro r _ rfl
  cases r with
  | none =>
    refine (onNodes_rel (Slab.push_rel (innerNew_rel hk hv))).bind ?_
    rintro p _ rfl
    refine MRel.bind (.modify fun t t' ht => ⟨ht.nodes, rfl⟩) fun _ _ _ => ?_
    exact .pure .none
  | some root =>
    dsimp only
    rw [walkFuel_rel h.nodes]
    refine MRel.loop (RA := Eq) ?_ _ rfl
    rintro ⟨i, o⟩ _ rfl
    cases o with
    | none => exact .pure (.inr .none)
    | some n =>
      refine (onNodes_rel (NodeMut.key_rel n)).bind fun x x' hx => ?_
      dsimp only
      rw [hc i _ _ hx]
      split
      · exact .panic
      · refine (onNodes_rel (NodeMut.hasLeft_rel n)).bind ?_
        rintro b _ rfl
        split
        · exact (onNodes_rel (NodeMut.pushLeft_rel n hk hv)).bind fun _ _ _ => .pure (.inr .none)
        · exact (onNodes_rel (NodeMut.left_rel n)).bind fun _ _ e => .pure (.inl (by rw [e]))
      · refine (onNodes_rel (NodeMut.hasRight_rel n)).bind ?_
        rintro b _ rfl
        split
        · exact (onNodes_rel (NodeMut.pushRight_rel n hk hv)).bind fun _ _ _ => .pure (.inr .none)
        · exact (onNodes_rel (NodeMut.right_rel n)).bind fun _ _ e => .pure (.inl (by rw [e]))
      · exact (onNodes_rel (NodeMut.replaceValue_rel n hv)).bind fun _ _ e => .pure (.inr (.some e))

theorem findWithParent_rel (hc : ProbeRel R c c') (h : MapRel R S m m') :
    OutRel Eq (findWithParent c m) (findWithParent c' m') := by
  unfold findWithParent
  rw [walkFuel_rel h.nodes, h.root]
  refine OutRel.loop (R := Eq) ?_ _ rfl
  rintro ⟨i, parent, o⟩ _ rfl
  cases o with
  | none => exact .pure (.inr rfl)
  | some p =>
    refine (Slab.getUnchecked_rel h.nodes p).bind fun x x' hx => ?_
    rw [hc i _ _ hx.key]
    split
    · exact .panic
    · exact .pure (.inl (by rw [hx.left]))
    · exact .pure (.inl (by rw [hx.right]))
    · exact .pure (.inr rfl)
end search

theorem findSucc_rel {s : Nodes K V} {s' : Nodes K' V'} (h : NodesRel R S s s') (a b : Ptr) :
    OutRel Eq (findSucc s a b) (findSucc s' a b) := by
  unfold findSucc
  rw [walkFuel_rel h]
  refine OutRel.loop (R := Eq) ?_ _ rfl
  rintro ⟨i, o⟩ _ rfl
  refine (Slab.getUnchecked_rel h _).bind fun x x' hx => ?_
  rw [hx.left]
  split
  · exact .pure (.inl rfl)
  · exact .pure (.inr rfl)

theorem replacement_rel (p : Ptr) : MRel (NodesRel R S) Eq (replacement p) (replacement p) := by
  unfold replacement
  refine (Slab.read_rel p).bind fun x x' hx => ?_
  rw [hx.left, hx.right]
  split
  · exact .pure rfl
  · exact .pure rfl
  · exact .pure rfl
  · rename_i l r _ _
    refine (Slab.read_rel r).bind fun y y' hy => ?_
    rw [hy.left]
    refine MRel.bind (RA := Eq) ?_ ?_
    · split
      · rename_i q _
        refine MRel.bind .get fun s s' hs => ?_
        refine MRel.bind (.lift (findSucc_rel hs r q)) ?_
        rintro ⟨sp, su⟩ _ rfl
        refine (Slab.read_rel su).bind fun z z' hz => ?_
        refine (Slab.updateUnchecked_rel _ fun _ _ h => ⟨h.key, h.value, hz.right, h.right⟩).bind fun _ _ _ => ?_
        refine (Slab.updateUnchecked_rel _ fun _ _ h => ⟨h.key, h.value, h.left, rfl⟩).bind fun _ _ _ => ?_
        exact .pure rfl
      · exact .pure rfl
    · rintro su _ rfl
      refine (Slab.updateUnchecked_rel _ fun _ _ h => ⟨h.key, h.value, rfl, h.right⟩).bind fun _ _ _ => ?_
      exact .pure rfl

theorem removeEntry_rel {c : Probe K} {c' : Probe K'} (hc : ProbeRel R c c') :
    MRel (MapRel R S) (OptRel (PairRel R S)) (removeEntry cfg c) (removeEntry cfg c') := by
  unfold removeEntry
  refine MRel.bind (.read fun _ _ h => findWithParent_rel hc h) ?_
  rintro ⟨parent, current⟩ _ rfl
  cases current with
  | none => exact .pure .none
  | some p =>
    refine (onNodes_rel (replacement_rel p)).bind ?_
    rintro rw' _ rfl
    have rest : MRel (MapRel R S) (OptRel (PairRel R S))
        (do let node ← onNodes (Slab.remove cfg p)
            pure (some (node.key, node.value)) : M (BSTMap K V) _)
        (do let node ← onNodes (Slab.remove cfg p)
            pure (some (node.key, node.value)) : M (BSTMap K' V') _) :=
      (onNodes_rel (Slab.remove_rel p)).bind fun _ _ hx => .pure (.some ⟨hx.key, hx.value⟩)
    cases parent with
    | none => exact MRel.bind (.modify fun t t' ht => ⟨ht.nodes, rfl⟩) fun _ _ _ => rest
    | some pp =>
      refine (onNodes_rel (Slab.read_rel pp)).bind fun y y' hy => ?_
      rw [hy.left]
      split
      · refine MRel.bind (RA := Eq) (onNodes_rel (Slab.updateUnchecked_rel _ ?_)) fun _ _ _ => rest
        exact fun _ _ h => ⟨h.key, h.value, rfl, h.right⟩
      · refine MRel.bind (RA := Eq) (onNodes_rel (Slab.updateUnchecked_rel _ ?_)) fun _ _ _ => rest
        exact fun _ _ h => ⟨h.key, h.value, h.left, rfl⟩

theorem remove_rel {c : Probe K} {c' : Probe K'} (hc : ProbeRel R c c') :
    MRel (MapRel R S) (OptRel S) (remove cfg c) (remove cfg c') :=
  (removeEntry_rel hc).bind fun _ _ h => .pure (h.map fun _ _ he => he.2)

theorem clear_rel {d : DropInfo (InnerNode K V)} {d' : DropInfo (InnerNode K' V')}
    (hd : DropRel (InnerRel R S) d d') : MRel (MapRel R S) Eq (clear cfg d) (clear cfg d') :=
  (onNodes_rel (Slab.clear_rel hd)).bind fun _ _ _ => .modify fun _ _ ht => ⟨ht.nodes, rfl⟩

theorem insertAll_rel {c : Nat → K → Probe K} {c' : Nat → K' → Probe K'} (hc : ProbesRel R c c')
    {l : List (K × V)} {l' : List (K' × V')} (h : ListRel (PairRel R S) l l') (n : Nat) :
    MRel (MapRel R S) Eq (insertAll cfg c n l) (insertAll cfg c' n l') := by
  induction h generalizing n with
  | nil => exact .pure rfl
  | @cons e e' l l' he _ ih =>
    exact (insert_rel (hc n _ _ he.1) he.1 he.2).bind fun _ _ _ => ih (n + 1)

section build
variable {c : Nat → K → Probe K} {c' : Nat → K' → Probe K'} {s : Source K V} {s' : Source K' V'}

theorem growTo_rel (n : Nat) : MRel (MapRel R S) Eq
    (onNodes (Slab.onItems (Arena.growTo cfg n)) : M (BSTMap K V) _)
    (onNodes (Slab.onItems (Arena.growTo cfg n)) : M (BSTMap K' V') _) :=
  onNodes_rel (Slab.onItems_rel (Arena.growTo_rel n))

theorem extend_rel (hc : ProbesRel R c c') (hs : SourceRel R S s s') :
    MRel (MapRel R S) Eq (extend cfg c s) (extend cfg c' s') := by
  unfold extend
  dsimp only
  rw [hs.hint, hs.panics]
  refine (onNodes_rel (Slab.reserve_rel _)).bind fun _ _ _ => ?_
  refine (insertAll_rel hc hs.items 0).bind fun _ _ _ => ?_
  split
  · exact .panic
  · exact .pure rfl

theorem fromIter_rel (hc : ProbesRel R c c') (hs : SourceRel R S s s') :
    OutRel Eq (fromIter cfg c s).1 (fromIter cfg c' s').1 ∧
      MapRel R S (fromIter cfg c s).2 (fromIter cfg c' s').2 := by
  unfold fromIter
  dsimp only
  rw [hs.hint, hs.panics]
  refine MRel.bind (growTo_rel _) (fun _ _ _ => ?_) _ _ new_rel
  refine (insertAll_rel hc hs.items 0).bind fun _ _ _ => ?_
  split
  · exact .panic
  · exact .pure rfl

theorem withCapacity_rel (n : Nat) : OutRel Eq (withCapacity (K := K) (V := V) cfg n).1
      (withCapacity (K := K') (V := V') cfg n).1 ∧
    MapRel R S (withCapacity (K := K) (V := V) cfg n).2 (withCapacity (K := K') (V := V') cfg n).2 :=
  growTo_rel n _ _ new_rel

theorem clone_rel (hc : ProbesRel R c c') {f : K → Option K} {f' : K' → Option K'} {g : V → Option V}
    {g' : V' → Option V'} (hf : ∀ k k', R k k' → OptRel R (f k) (f' k'))
    (hg : ∀ v v', S v v' → OptRel S (g v) (g' v')) {m : BSTMap K V} {m' : BSTMap K' V'}
    (h : MapRel R S m m') :
    OutRel Eq (clone cfg c f g m).1 (clone cfg c' f' g' m').1 ∧
      MapRel R S (clone cfg c f g m).2 (clone cfg c' f' g' m').2 := by
  unfold clone len
  rw [Slab.len_rel h.nodes, walkFuel_rel h.nodes]
  refine MRel.bind (.lift_eq rfl) (fun n n' e => ?_) _ _ new_rel
  cases e
  refine (growTo_rel _).bind fun _ _ _ => ?_
  refine MRel.bind (.lift (rootNode_rel h)) fun r r' hr => ?_
  refine MRel.loop (RA := PairRel Eq (ListRel (NodeRel R S))) ?_ _ ⟨rfl, hr.toList⟩
  rintro ⟨i, st⟩ ⟨i', st'⟩ ⟨hi, hst⟩
  cases hi
  cases hst with
  | nil => exact .pure (.inr rfl)
  | @cons n n' st st' hn hst =>
    have h1 := hf _ _ hn.node.key
    have h2 := hg _ _ hn.node.value
    dsimp only
    unfold Node.key Node.value
    revert h1 h2
    generalize f n.node.key = x, f' n'.node.key = x', g n.node.value = y, g' n'.node.value = y'
    intro h1 h2
    cases h1 with
    | none => exact .panic
    | some hk =>
      cases h2 with
      | none => exact .panic
      | some hv =>
        refine (insert_rel (hc i _ _ hk) hk hv).bind fun _ _ _ => ?_
        refine MRel.bind (.lift (Node.right_rel h.nodes hn)) fun r r' hr => ?_
        refine MRel.bind (.lift (Node.left_rel h.nodes hn)) fun l l' hl => ?_
        exact .pure (.inl ⟨rfl, (hl.toList.append hr.toList).append hst⟩)

theorem assign_rel {f : BSTMap K V → Out Unit × BSTMap K V} {f' : BSTMap K' V' → Out Unit × BSTMap K' V'}
    (h : MRel (MapRel R S) Eq f f') : MRel (MapRel R S) Eq (assign f) (assign f') := by
  intro m m' hm
  obtain ⟨h1, h2⟩ := h m m' hm
  unfold assign
  cases hx : f m with
  | mk o t =>
    cases hx' : f' m' with
    | mk o' t' =>
      rw [hx, hx'] at h1 h2
      cases h1 with
      | ok h => exact ⟨.ok rfl, h2⟩
      | panic => exact ⟨.panic, hm⟩
      | abort => exact ⟨.abort, hm⟩
      | ub => exact ⟨.ub, hm⟩
      | diverge => exact ⟨.diverge, hm⟩
end build

end BSTMap
end BST
