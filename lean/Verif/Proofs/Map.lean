import Verif.Proofs.Slab
import Verif.Proofs.Tree
/-!
# The map operations in terms of ghost trees

No hypothesis on the comparisons: the shape of the heap is right whatever the
user's `Ord` does.
-/
set_option linter.unusedSimpArgs false
namespace BST
variable {K V : Type}

/-- The map is a well-formed tree in a well-formed slab, and nothing else lives in
the slab. -/
structure Shape (cfg : Cfg) (m : BSTMap K V) (t : Tree K V) : Prop where
  slab : m.nodes.Inv cfg
  root : m.root = t.root
  rep : t.Rep m.nodes.view
  nodup : t.ptrs.Nodup
  live : ∀ p, (m.nodes.view p).isSome ↔ p ∈ t.ptrs

namespace Shape
variable {cfg : Cfg} {m : BSTMap K V} {t : Tree K V}

theorem len_eq (h : Shape cfg m t) : m.nodes.items.len = t.size + m.nodes.freeLen := by
  rw [h.slab.len_eq h.nodup h.live, Tree.ptrs_length]

theorem height_lt (h : Shape cfg m t) : t.height < BSTMap.walkFuel m.nodes := by
  have := h.len_eq
  have := t.height_le_size
  unfold BSTMap.walkFuel
  omega

theorem size_lt (h : Shape cfg m t) : t.size < BSTMap.walkFuel m.nodes := by
  have := h.len_eq
  unfold BSTMap.walkFuel
  omega

theorem len_ok (h : Shape cfg m t) : m.len cfg = .ok t.size := by
  have := h.slab.len_ok h.nodup h.live
  rw [Tree.ptrs_length] at this
  exact this

end Shape

/-! ### Reading nodes -/

theorem Node.newOpt_ok {s : Nodes K V} {t : Tree K V} (h : t.Rep s.view) :
    Node.newOpt s t.root = .ok t.nodeOpt := by
  cases t with
  | leaf => rfl
  | node p l k v r => simp [Node.newOpt, Node.new, Slab.getUnchecked_ok h.1, Tree.nodeOpt]

/-- `nodeOpt` for `NodeMut`. -/
def Tree.mutOpt (t : Tree K V) : Option NodeMut := t.root.map NodeMut.mk

theorem NodeMut.newOpt_ok {s : Nodes K V} {t : Tree K V} (h : t.Rep s.view) :
    NodeMut.newOpt t.root s = (.ok t.mutOpt, s) := by
  cases t with
  | leaf => rfl
  | node p l k v r =>
    have : NodeMut.new p s = (.ok ⟨p⟩, s) := by
      unfold NodeMut.new; rw [M.read_bind, Slab.getUnchecked_ok h.1]; rfl
    unfold NodeMut.newOpt
    simp only [Tree.root_node]
    rw [M.bind_ok this]; rfl

namespace BSTMap

theorem onNodes_ok {α : Type} {f : M (Nodes K V) α} {m : BSTMap K V} {o : Out α} {s : Nodes K V}
    (h : f m.nodes = (o, s)) : onNodes f m = (o, { m with nodes := s }) := by
  simp [onNodes, h]

theorem onNodes_pure {α : Type} {f : M (Nodes K V) α} {m : BSTMap K V} {o : Out α}
    (h : f m.nodes = (o, m.nodes)) : onNodes f m = (o, m) := onNodes_ok h

theorem rootMut_ok {m : BSTMap K V} {t : Tree K V} (hr : m.root = t.root)
    (h : t.Rep m.nodes.view) : rootMut m = (.ok t.mutOpt, m) := by
  unfold rootMut
  rw [M.get_bind, hr]
  exact onNodes_pure (NodeMut.newOpt_ok h)

theorem rootNode_ok {m : BSTMap K V} {t : Tree K V} (hr : m.root = t.root)
    (h : t.Rep m.nodes.view) : rootNode m = .ok t.nodeOpt := by
  unfold rootNode; rw [hr]; exact Node.newOpt_ok h

section nodeMut
variable {s : Nodes K V} {p : Ptr} {l r : Tree K V} {k : K} {v : V}

theorem deref_ok (h : (Tree.node p l k v r).Rep s.view) :
    NodeMut.deref ⟨p⟩ s = (.ok ⟨k, v, l.root, r.root⟩, s) := by
  simp [NodeMut.deref, Slab.getUnchecked_ok h.1]
theorem key_ok (h : (Tree.node p l k v r).Rep s.view) :
    NodeMut.key ⟨p⟩ s = (.ok k, s) := by
  unfold NodeMut.key; rw [M.bind_ok (deref_ok h)]; rfl
theorem value_ok (h : (Tree.node p l k v r).Rep s.view) :
    NodeMut.value ⟨p⟩ s = (.ok v, s) := by
  unfold NodeMut.value; rw [M.bind_ok (deref_ok h)]; rfl
theorem valueMut_ok (h : (Tree.node p l k v r).Rep s.view) :
    NodeMut.valueMut ⟨p⟩ s = (.ok p, s) := by
  unfold NodeMut.valueMut; rw [M.bind_ok (deref_ok h)]; rfl
theorem intoEntryMut_ok (h : (Tree.node p l k v r).Rep s.view) :
    NodeMut.intoEntryMut ⟨p⟩ s = (.ok (k, p), s) := by
  unfold NodeMut.intoEntryMut; rw [M.bind_ok (deref_ok h)]; rfl
theorem hasLeft_ok (h : (Tree.node p l k v r).Rep s.view) :
    NodeMut.hasLeft ⟨p⟩ s = (.ok l.root.isSome, s) := by
  unfold NodeMut.hasLeft; rw [M.bind_ok (deref_ok h)]; rfl
theorem hasRight_ok (h : (Tree.node p l k v r).Rep s.view) :
    NodeMut.hasRight ⟨p⟩ s = (.ok r.root.isSome, s) := by
  unfold NodeMut.hasRight; rw [M.bind_ok (deref_ok h)]; rfl
theorem left_ok (h : (Tree.node p l k v r).Rep s.view) :
    NodeMut.left ⟨p⟩ s = (.ok l.mutOpt, s) := by
  unfold NodeMut.left; rw [M.bind_ok (deref_ok h)]; exact NodeMut.newOpt_ok h.2.1
theorem right_ok (h : (Tree.node p l k v r).Rep s.view) :
    NodeMut.right ⟨p⟩ s = (.ok r.mutOpt, s) := by
  unfold NodeMut.right; rw [M.bind_ok (deref_ok h)]; exact NodeMut.newOpt_ok h.2.2
end nodeMut

/-! ### Searching -/

theorem search_loop {α : Type} (s : Nodes K V) (c : Probe K) (miss : α) (hit : Node K V → α)
    {t : Tree K V} (h : t.Rep s.view) (i fuel : Nat) (hf : t.height < fuel) :
    loop fuel (fun (st : Nat × Option (Node K V)) =>
      match st.2 with
      | none => pure (.inr miss)
      | some node =>
        match c st.1 node.key with
        | none => .panic
        | some .lt => do let n ← node.left s; pure (.inl (st.1 + 1, n))
        | some .gt => do let n ← node.right s; pure (.inl (st.1 + 1, n))
        | some .eq => pure (.inr (hit node)) : _ → Out (_ ⊕ α)) (i, t.nodeOpt) =
    (do
      let e ← t.find c i
      match e with
      | none => pure miss
      | some e => match s.view e.1 with
        | some x => pure (hit ⟨e.1, x⟩)
        | none => .ub) := by
  induction t generalizing i fuel with
  | leaf =>
    obtain ⟨fuel, rfl⟩ : ∃ k, fuel = k + 1 := ⟨fuel - 1, by omega⟩
    exact loopO_inr rfl
  | node p l k v r ihl ihr =>
    obtain ⟨fuel, rfl⟩ : ∃ k, fuel = k + 1 := ⟨fuel - 1, by omega⟩
    simp only [Tree.height] at hf
    have hl := Node.newOpt_ok h.2.1
    have hr := Node.newOpt_ok h.2.2
    unfold Tree.find
    cases hc : c i k with
    | none =>
      rw [loopO_panic]
      · rfl
      · simp [Tree.nodeOpt, Node.key, hc]
    | some o =>
      cases o with
      | lt =>
        rw [loopO_inl (b' := (i + 1, l.nodeOpt))]
        · exact ihl h.2.1 _ _ (by omega)
        · simp [Tree.nodeOpt, Node.key, hc, Node.left, hl]
      | gt =>
        rw [loopO_inl (b' := (i + 1, r.nodeOpt))]
        · exact ihr h.2.2 _ _ (by omega)
        · simp [Tree.nodeOpt, Node.key, hc, Node.right, hr]
      | eq =>
        rw [loopO_inr (a := hit ⟨p, ⟨k, v, l.root, r.root⟩⟩)]
        · simp [h.1]
        · simp [Tree.nodeOpt, Node.key, hc]

theorem find_view {s : Nodes K V} {t : Tree K V} (h : t.Rep s.view) {c : Probe K} {i : Nat}
    {e : Ptr × K × V} (he : t.find c i = .ok (some e)) :
    ∃ l r, s.view e.1 = some ⟨e.2.1, e.2.2, l, r⟩ := h.mem_ino (Tree.find_mem he)

section
variable {cfg : Cfg} {m : BSTMap K V} {t : Tree K V}

theorem containsKey_spec (h : Shape cfg m t) (c : Probe K) :
    m.containsKey c = (do let e ← t.find c 0; pure e.isSome) := by
  unfold containsKey
  rw [rootNode_ok h.root h.rep]
  refine (search_loop m.nodes c false (fun _ => true) h.rep 0 _ h.height_lt).trans ?_
  rcases t.find_ok_or_panic c 0 with hf | ⟨e, hf⟩
  · rw [hf]; rfl
  · rw [hf]
    cases e with
    | none => rfl
    | some e => obtain ⟨l, r, hv⟩ := find_view h.rep hf; simp [hv]

theorem get_spec (h : Shape cfg m t) (c : Probe K) :
    m.get c = (do let e ← t.find c 0; pure (e.map (·.2.2))) := by
  unfold get
  rw [rootNode_ok h.root h.rep]
  refine (search_loop m.nodes c none (fun n => some n.value) h.rep 0 _ h.height_lt).trans ?_
  rcases t.find_ok_or_panic c 0 with hf | ⟨e, hf⟩
  · rw [hf]; rfl
  · rw [hf]
    cases e with
    | none => rfl
    | some e => obtain ⟨l, r, hv⟩ := find_view h.rep hf; simp [hv, Node.value]

theorem getEntry_spec (h : Shape cfg m t) (c : Probe K) :
    m.getEntry c = (do let e ← t.find c 0; pure (e.map (·.2))) := by
  unfold getEntry
  rw [rootNode_ok h.root h.rep]
  refine (search_loop m.nodes c none (fun n => some (n.key, n.value)) h.rep 0 _ h.height_lt).trans ?_
  rcases t.find_ok_or_panic c 0 with hf | ⟨e, hf⟩
  · rw [hf]; rfl
  · rw [hf]
    cases e with
    | none => rfl
    | some e => obtain ⟨l, r, hv⟩ := find_view h.rep hf; simp [hv, Node.value, Node.key]
end

theorem searchMut_loop {α : Type} (m : BSTMap K V) (c : Probe K) (miss : α)
    (hitM : NodeMut → M (BSTMap K V) α) (hit : Ptr × K × V → α)
    {t : Tree K V} (h : t.Rep m.nodes.view)
    (hhit : ∀ p l k v r, (Tree.node p l k v r).Rep m.nodes.view →
      hitM ⟨p⟩ m = (.ok (hit (p, k, v)), m)) (i fuel : Nat) (hf : t.height < fuel) :
    loop fuel (fun (st : Nat × Option NodeMut) =>
      match st.2 with
      | none => pure (.inr miss)
      | some node => do
        let k ← onNodes node.key
        match c st.1 k with
        | none => M.panic
        | some .lt => do let n ← onNodes node.left; pure (.inl (st.1 + 1, n))
        | some .gt => do let n ← onNodes node.right; pure (.inl (st.1 + 1, n))
        | some .eq => do let a ← hitM node; pure (.inr a) : _ → M (BSTMap K V) (_ ⊕ α))
        (i, t.mutOpt) m =
    ((do let e ← t.find c i; pure ((e.map hit).getD miss)), m) := by
  induction t generalizing i fuel with
  | leaf =>
    obtain ⟨fuel, rfl⟩ : ∃ k, fuel = k + 1 := ⟨fuel - 1, by omega⟩
    exact loopM_inr rfl
  | node p l k v r ihl ihr =>
    obtain ⟨fuel, rfl⟩ : ∃ k, fuel = k + 1 := ⟨fuel - 1, by omega⟩
    simp only [Tree.height] at hf
    have hk := onNodes_pure (m := m) (key_ok h)
    unfold Tree.find
    cases hc : c i k with
    | none =>
      rw [loopM_panic (s' := m)]
      · rfl
      · simp only [Tree.mutOpt, Tree.root_node, Option.map_some]
        rw [M.bind_ok hk]
        simp [hc]
    | some o =>
      cases o with
      | lt =>
        rw [loopM_inl (b' := (i + 1, l.mutOpt)) (s' := m)]
        · exact ihl h.2.1 _ _ (by omega)
        · simp only [Tree.mutOpt, Tree.root_node, Option.map_some]
          rw [M.bind_ok hk]
          simp only [hc]
          rw [M.bind_ok (onNodes_pure (left_ok h))]; rfl
      | gt =>
        rw [loopM_inl (b' := (i + 1, r.mutOpt)) (s' := m)]
        · exact ihr h.2.2 _ _ (by omega)
        · simp only [Tree.mutOpt, Tree.root_node, Option.map_some]
          rw [M.bind_ok hk]
          simp only [hc]
          rw [M.bind_ok (onNodes_pure (right_ok h))]; rfl
      | eq =>
        rw [loopM_inr (a := hit (p, k, v)) (s' := m)]
        · rfl
        · simp only [Tree.mutOpt, Tree.root_node, Option.map_some]
          rw [M.bind_ok hk]
          simp only [hc]
          rw [M.bind_ok (hhit p l k v r h)]; rfl

section
variable {cfg : Cfg} {m : BSTMap K V} {t : Tree K V}

theorem getMut_spec (h : Shape cfg m t) (c : Probe K) :
    getMut c m = ((do let e ← t.find c 0; pure (e.map (·.1))), m) := by
  unfold getMut
  simp only [M.get_bind]
  rw [M.bind_ok (rootMut_ok h.root h.rep)]
  have := searchMut_loop m c none
    (fun node => do let p ← onNodes node.valueMut; pure (some p)) (fun e => some e.1) h.rep
    (fun p l k v r hr => by rw [M.bind_ok (onNodes_pure (valueMut_ok hr))]; rfl) 0 _ h.height_lt
  simp only [bind_assoc, pure_bind] at this
  refine this.trans ?_
  rcases t.find_ok_or_panic c 0 with hf | ⟨e, hf⟩
  · rw [hf]; rfl
  · rw [hf]; cases e <;> rfl

theorem getEntryMut_spec (h : Shape cfg m t) (c : Probe K) :
    getEntryMut c m = ((do let e ← t.find c 0; pure (e.map fun e => (e.2.1, e.1))), m) := by
  unfold getEntryMut
  simp only [M.get_bind]
  rw [M.bind_ok (rootMut_ok h.root h.rep)]
  have := searchMut_loop m c none
    (fun node => do let e ← onNodes node.intoEntryMut; pure (some e)) (fun e => some (e.2.1, e.1)) h.rep
    (fun p l k v r hr => by rw [M.bind_ok (onNodes_pure (intoEntryMut_ok hr))]; rfl) 0 _ h.height_lt
  simp only [bind_assoc, pure_bind] at this
  refine this.trans ?_
  rcases t.find_ok_or_panic c 0 with hf | ⟨e, hf⟩
  · rw [hf]; rfl
  · rw [hf]; cases e <;> rfl
end

end BSTMap
end BST
