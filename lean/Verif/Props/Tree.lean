import Verif.Proofs.Nodes
import Verif.Proofs.Lookup
import Verif.Proofs.Sample
/-!
# Properties of the tree as the node API shows it

`exploreAt m` is the whole tree read with `root()`, `left()`, `right()`; each node is
labelled with its address, key and value.
-/
namespace BST.Props
open BSTMap
open Spec (BT)
variable {K V : Type} {cfg : Cfg} {ok : K → Probe K → Prop} {m : BSTMap K V}

/-! ### C11 -/

/-- C11. Writing `w` through the reference from `get_mut` (any comparisons `c`): the
value is changed in the place found by the lookup and nothing else changes; the same
lookup then finds `w`. -/
theorem C11_getMut (hm : Reach cfg ok m) {c : Probe K} {p : Ptr}
    (hg : getMut c m = (.ok (some p), m)) (w : V) :
    ∃ b k v m', exploreAt m = .ok b ∧ (p, k, v) ∈ b.ino ∧ m.getEntry c = .ok (some (k, v)) ∧
      onNodes (writeValue p w) m = (.ok (), m') ∧
      exploreAt m' = .ok (b.map fun e => if e.1 = p then (e.1, e.2.1, w) else e) ∧
      m'.getEntry c = .ok (some (k, w)) ∧
      m'.len cfg = m.len cfg ∧ m'.capacity = m.capacity := by
  obtain ⟨t, h⟩ := hm.shape
  rw [getMut_spec h] at hg
  rcases t.find_ok_or_panic c 0 with hf | ⟨e, hf⟩
  · rw [hf] at hg; cases hg
  · rw [hf] at hg
    cases e with
    | none => cases hg
    | some e =>
      cases hg
      have hmem := Tree.find_mem hf
      obtain ⟨m', x, hx, he, h', hroot, hU⟩ := writeValue_spec h (ptr_mem_of_ino hmem) w
      refine ⟨t.bt, e.2.1, e.2.2, m', exploreAt_ok h, by rw [Tree.bt_ino]; exact hmem, ?_, he, ?_, ?_,
        ?_, hU.capacity⟩
      · rw [getEntry_spec h, hf]; rfl
      · rw [exploreAt_ok h', bt_setV]
        congr 2
        funext x
        simp only [eq_comm (a := e.1)]
      · rw [getEntry_spec h', Tree.find_setV, hf]
        show Out.ok (some ((Tree.setE e.1 w e).2)) = _
        simp [Tree.setE]
      · rw [h'.len_ok, h.len_ok, Tree.setV_size]

/-- The comparisons need not be lawful: here the third answer is "equal". -/
example :
    let c : Probe Nat := fun i _ => if i = 2 then some .eq else some .gt
    getMut c Sample.nine = (.ok (some ⟨0, 4⟩), Sample.nine) ∧
    Sample.nine.getEntry c = .ok (some (9, "i")) ∧
    (onNodes (writeValue ⟨0, 4⟩ "I") Sample.nine).2.getEntry c = .ok (some (9, "I")) := by
  decide +kernel

/-- C11. After the write, `get` returns `w`, and every query that does not match what the
first one matches is unaffected. `get_entry_mut` hands out the same place (C05). -/
theorem C11_reads (hm : Reach cfg ok m)
    {f : K → Ordering} {p : Ptr} (hg : getMut (query f) m = (.ok (some p), m)) (w : V) :
    ∃ m', onNodes (writeValue p w) m = (.ok (), m') ∧ m'.get (query f) = .ok (some w) ∧
      ∀ g : K → Ordering, (∀ x, f x = .eq → g x ≠ .eq) →
        m'.getEntry (query g) = m.getEntry (query g) := by
  obtain ⟨t, h⟩ := hm.shape
  rw [getMut_spec h] at hg
  rcases t.find_ok_or_panic (query f) 0 with hp | ⟨e, hfi⟩
  · rw [hp] at hg; cases hg
  · rw [hfi] at hg
    cases e with
    | none => cases hg
    | some e =>
      cases hg
      have hmem := Tree.find_mem hfi
      obtain ⟨m', x, hx, he, h', hroot, hU⟩ := writeValue_spec h (ptr_mem_of_ino hmem) w
      refine ⟨m', he, ?_, fun g hd => ?_⟩
      · rw [get_spec h', Tree.find_setV, hfi]
        show Out.ok (some ((Tree.setE e.1 w e).2.2)) = _
        simp [Tree.setE]
      · rw [getEntry_spec h', getEntry_spec h, Tree.find_setV]
        rcases t.find_ok_or_panic (query g) 0 with hp | ⟨x, hgi⟩
        · rw [hp]; rfl
        · rw [hgi]
          cases x with
          | none => rfl
          | some x =>
            have h1 : f e.2.1 = .eq := Tree.find_hit (fun _ _ => Or.inr rfl) hfi
            have h2 : g x.2.1 = .eq := Tree.find_hit (fun _ _ => Or.inr rfl) hgi
            have hne : x.1 ≠ e.1 := by
              intro heq
              have := Tree.ino_inj h.nodup (Tree.find_mem hgi) hmem heq
              rw [this] at h2
              exact hd _ h1 h2
            show Out.ok (some ((Tree.setE e.1 w x).2)) = Out.ok (some x.2)
            simp [Tree.setE, hne]

example : getMut (query (Sample.cmp 7)) Sample.nine = (.ok (some ⟨0, 6⟩), Sample.nine) ∧
    (onNodes (writeValue ⟨0, 6⟩ "G") Sample.nine).2.get (query (Sample.cmp 7)) = .ok (some "G") := by
  decide +kernel

/-! ### C12 -/

/-- C12. The tree shown by the node API is a search tree; following any path of
`left()`/`right()` shows the corresponding node, and `has_left`/`has_right` say whether
`left()`/`right()` is `Some`. -/
theorem C12_search_tree {cmp : K → K → Ordering} [Std.TransCmp cmp] (hm : Reach cfg (Lawful cmp) m) :
    ∃ b, explore m = .ok b ∧ b.Search cmp ∧
      ∀ path, ∃ n, nodeAt path m = .ok n ∧
        n.map (fun n => (n.key, n.value)) = (b.sub path).label ∧
        ∀ nd, n = some nd → ∃ l r, nd.left m.nodes = .ok l ∧ nd.right m.nodes = .ok r ∧
          nd.hasLeft = l.isSome ∧ nd.hasRight = r.isSome ∧
          l.map (fun n => (n.key, n.value)) = (b.sub (path ++ [false])).label ∧
          r.map (fun n => (n.key, n.value)) = (b.sub (path ++ [true])).label := by
  obtain ⟨t, h, hs⟩ := hm.sorted
  refine ⟨_, explore_ok h, sorted_search hs, fun path => ⟨_, nodeAt_ok h path, ?_, ?_⟩⟩
  · rw [BT.map_sub, ← Tree.bt_sub]
    cases t.sub path <;> rfl
  · intro nd hnd
    have hr := h.rep.sub path
    cases hsu : t.sub path with
    | leaf => rw [hsu] at hnd; cases hnd
    | node p l k v r =>
      rw [hsu] at hnd hr
      cases hnd
      refine ⟨l.nodeOpt, r.nodeOpt, Node.newOpt_ok hr.2.1, Node.newOpt_ok hr.2.2, ?_, ?_, ?_, ?_⟩
      · cases l <;> rfl
      · cases r <;> rfl
      · rw [BT.map_sub, ← Tree.bt_sub, Tree.sub_append, hsu]
        show _ = BT.label (BT.map _ l.bt)
        cases l <;> rfl
      · rw [BT.map_sub, ← Tree.bt_sub, Tree.sub_append, hsu]
        show _ = BT.label (BT.map _ r.bt)
        cases r <;> rfl

example : ((nodeAt [false, true] Sample.eight).bind fun n => .ok (n.map fun n =>
    (n.key, n.value, n.hasLeft, n.hasRight))) = .ok (some (3, "c", false, true)) := by decide +kernel

/-! ### C33 -/

/-- C33. Two `Node` handles (from the same or from different maps) are `==` iff their
keys and values are, provided key and value equality are reflexive. -/
theorem C33_node_eq {ok' : K → Probe K → Prop} {m' : BSTMap K V} (hm : Reach cfg ok m)
    (hm' : Reach cfg ok' m') {pa pb : List Bool} {a b : Node K V} (ha : nodeAt pa m = .ok (some a))
    (hb : nodeAt pb m' = .ok (some b)) (same : Bool) (hsame : same = true → m = m')
    {keq : K → K → Bool} {veq : V → V → Bool} (hk : ∀ k, keq k k = true) (hv : ∀ v, veq v v = true) :
    Node.eq keq veq same a b = (keq a.key b.key && veq a.value b.value) := by
  obtain ⟨t, h⟩ := hm.shape
  obtain ⟨t', h'⟩ := hm'.shape
  have ea := nodeAt_view h ha
  have eb := nodeAt_view h' hb
  unfold Node.eq
  cases same with
  | false => simp
  | true =>
    by_cases hp : a.ptr = b.ptr
    · have : a.node = b.node := by
        rw [hsame rfl, hp, eb] at ea
        injection ea with ea
        exact ea.symm
      simp [Node.key, Node.value, this, hk, hv]
    · simp [hp]

/-- Values that are different; and the same map on both sides. -/
example : ((nodeAt [] Sample.nine).bind fun a => (nodeAt [] (Sample.build [(5, "E")])).bind fun b =>
      .ok ((a.bind fun a => b.map fun b => Node.eq (· == ·) (· == ·) false a b))) =
        .ok (some false) ∧
    ((nodeAt [true] Sample.nine).bind fun a => (nodeAt [true, false] Sample.nine).bind fun b =>
      .ok ((a.bind fun a => b.map fun b => Node.eq (· == ·) (· == ·) true a b))) =
        .ok (some false) := by decide +kernel

/-- C33. A handle equals itself and its copies, whatever `PartialEq` says. -/
theorem C33_node_self (keq : K → K → Bool) (veq : V → V → Bool) (a : Node K V) :
    Node.eq keq veq true a a = true := by simp [Node.eq]

/-- The hypothesis on `PartialEq` in `C33_node_eq` is needed: with values that are not equal
to themselves (like `f64::NAN`) a handle is still equal to itself, but two handles with the
same contents from different maps are not equal. -/
example : ((nodeAt [] Sample.nine).bind fun a =>
      .ok ((a.map fun a => Node.eq (· == ·) (fun _ _ => false) true a a))) = .ok (some true) ∧
    ((nodeAt [] Sample.nine).bind fun a => (nodeAt [] (Sample.build [(5, "e")])).bind fun b =>
      .ok ((a.bind fun a => b.map fun b => Node.eq (· == ·) (fun _ _ => false) false a b))) =
        .ok (some false) := by decide +kernel

/-- C33 for `NodeMut`. -/
theorem C33_nodeMut_eq {ok' : K → Probe K → Prop} {m' m1 m2 : BSTMap K V} (hm : Reach cfg ok m)
    (hm' : Reach cfg ok' m') {pa pb : List Bool} {a b : NodeMut}
    (ha : nodeMutAt pa m = (.ok (some a), m1)) (hb : nodeMutAt pb m' = (.ok (some b), m2))
    (same : Bool) (hsame : same = true → m = m')
    {keq : K → K → Bool} {veq : V → V → Bool} (hk : ∀ k, keq k k = true) (hv : ∀ v, veq v v = true) :
    ∃ ka va kb vb, a.key m.nodes = (.ok ka, m.nodes) ∧ a.value m.nodes = (.ok va, m.nodes) ∧
      b.key m'.nodes = (.ok kb, m'.nodes) ∧ b.value m'.nodes = (.ok vb, m'.nodes) ∧
      NodeMut.eq keq veq same m.nodes m'.nodes a b = .ok (keq ka kb && veq va vb) := by
  obtain ⟨t, h⟩ := hm.shape
  obtain ⟨t', h'⟩ := hm'.shape
  obtain ⟨x, ea⟩ := nodeMutAt_view h ha
  obtain ⟨y, eb⟩ := nodeMutAt_view h' hb
  have ga := Slab.getUnchecked_ok ea
  have gb := Slab.getUnchecked_ok eb
  have da : a.deref m.nodes = (.ok x, m.nodes) := deref_of_view ea
  have db : b.deref m'.nodes = (.ok y, m'.nodes) := deref_of_view eb
  refine ⟨x.key, x.value, y.key, y.value, ?_, ?_, ?_, ?_, ?_⟩
  · unfold NodeMut.key; rw [M.bind_ok da]; rfl
  · unfold NodeMut.value; rw [M.bind_ok da]; rfl
  · unfold NodeMut.key; rw [M.bind_ok db]; rfl
  · unfold NodeMut.value; rw [M.bind_ok db]; rfl
  · unfold NodeMut.eq
    rw [ga, gb, Out.ok_bind, Out.ok_bind]
    cases same with
    | false => simp
    | true =>
      by_cases hp : a.ptr = b.ptr
      · have : x = y := by
          rw [hsame rfl, hp, eb] at ea
          injection ea with ea
          exact ea.symm
        simp [this, hk, hv]
      · simp [hp]

/-- Equal handles with different subtrees: key 2 in two maps. -/
example : ((nodeAt [false] Sample.nine).bind fun a => (nodeAt [] (Sample.build [(2, "b")])).bind fun b =>
    .ok ((a.bind fun a => b.map fun b => Node.eq (· == ·) (· == ·) false a b))) = .ok (some true) := by
  decide +kernel

/-! ### C35 -/

/-- C35. Inserting a new key adds a leaf to the tree, in a place that was not in use;
everything else stays where it is (`AddLeaf` is about addresses, keys, values and
shape). Only in an empty map the root changes. -/
theorem C35_insert_leaf (hm : Reach cfg ok m) {c : Probe K} {k : K} {v : V} {m' : BSTMap K V}
    (hi : insert cfg c k v m = (.ok none, m')) :
    ∃ b b' p, exploreAt m = .ok b ∧ exploreAt m' = .ok b' ∧ BT.AddLeaf (p, k, v) b b' ∧
      (∀ e ∈ b.ino, e.1 ≠ p) ∧
      (b.size ≠ 0 → b'.label = b.label ∧ m'.root = m.root) := by
  obtain ⟨t, h⟩ := hm.shape
  rcases insert_spec h c k v with ⟨_, hi'⟩ | ⟨q, k0, v0, x, m1, _, hi', _⟩ |
    ⟨hf, p, m1, hi', h', _⟩ | ⟨_, _, hi' | hi'⟩
  · cases hi'.symm.trans hi
  · cases hi'.symm.trans hi
  · cases hi'.symm.trans hi
    refine ⟨t.bt, _, p, exploreAt_ok h, exploreAt_ok h', Tree.ins_addLeaf hf p k v, ?_, ?_⟩
    · intro e he heq
      rw [Tree.bt_ino] at he
      have hn := ((Tree.ins_ptrs_miss (p := p) (k := k) (v := v) hf).nodup_iff).1 h'.nodup
      exact (List.nodup_cons.1 hn).1 (heq ▸ ptr_mem_of_ino he)
    · intro hne
      have ht : t ≠ .leaf := by rintro rfl; exact hne rfl
      refine ⟨?_, ?_⟩
      · cases t with
        | leaf => exact absurd rfl ht
        | node q l k' v' r =>
          simp only [Tree.find] at hf
          simp only [Tree.ins]
          cases hc : c 0 k' with
          | none => simp [hc] at hf
          | some o => cases o with
            | lt => rfl
            | gt => rfl
            | eq => rw [hc] at hf; cases hf
      · rw [h'.root, h.root, Tree.ins_root ht]
  · cases hi'.symm.trans hi
  · cases hi'.symm.trans hi

example : (insert Sample.cfg (query (Sample.cmp 5)) 5 "e" Sample.eight).1 = .ok none := by
  decide +kernel

/-! ### C42 -/

/-- C42. `{:?}` of a map is the nested rendering of its tree: a function of keys, values
and shape only. -/
theorem C42_debug (hm : Reach cfg ok m) (dk : K → String) (dv : V → String) :
    ∃ b, explore m = .ok b ∧
      m.debug dk dv = .ok ("BSTMap { root: " ++ b.debugMap dk dv ++ " }") := by
  obtain ⟨t, h⟩ := hm.shape
  exact ⟨_, explore_ok h, debug_spec h⟩

/-- C42. Maps with the same tree print the same. -/
theorem C42_debug_same {ok' : K → Probe K → Prop} {cfg' : Cfg} {m' : BSTMap K V} (hm : Reach cfg ok m)
    (hm' : Reach cfg' ok' m') (he : explore m = explore m') (dk : K → String) (dv : V → String) :
    m.debug dk dv = m'.debug dk dv := by
  obtain ⟨b, h1, h2⟩ := C42_debug hm dk dv
  obtain ⟨b', h1', h2'⟩ := C42_debug hm' dk dv
  rw [h1, h1'] at he
  cases he
  rw [h2, h2']

/-- Two maps with the same tree in different places: one has a freed slot. -/
example : explore (removeEntry Sample.cfg (query (Sample.cmp 3))
      (Sample.build [(3, "c"), (2, "b"), (1, "a")])).2 = explore (Sample.build [(2, "b"), (1, "a")]) ∧
    (removeEntry Sample.cfg (query (Sample.cmp 3)) (Sample.build [(3, "c"), (2, "b"), (1, "a")])).2 ≠
      Sample.build [(2, "b"), (1, "a")] := by decide +kernel

/-- C42. `{:?}` of a node handle (wrapped in `Some(..)`) is the rendering of its subtree. -/
theorem C42_debug_node (hm : Reach cfg ok m) (dk : K → String) (dv : V → String) {path : List Bool}
    {n : Node K V} (hn : nodeAt path m = .ok (some n)) :
    ∃ b str, explore m = .ok b ∧ debugNode dk dv m.nodes (walkFuel m.nodes) n = .ok str ∧
      "Some(" ++ str ++ ")" = (b.sub path).debugMap dk dv := by
  obtain ⟨t, h⟩ := hm.shape
  rw [nodeAt_ok h] at hn
  have hr := h.rep.sub path
  have hh := Tree.sub_height path t
  cases hs : t.sub path with
  | leaf => rw [hs] at hn; cases hn
  | node p l k v r =>
    rw [hs] at hn hr hh
    cases hn
    obtain ⟨str, e1, e2⟩ := debugNode_ok (dk := dk) (dv := dv) hr (walkFuel m.nodes)
      (Nat.le_trans hh (Nat.le_of_lt h.height_lt))
    refine ⟨_, str, explore_ok h, e1, ?_⟩
    rw [BT.map_sub, ← Tree.bt_sub, hs]
    exact e2

/-- C42. `{:?}` of a mutable node handle shows the key and the value of its node, and
placeholders instead of the subtrees. -/
theorem C42_debug_nodeMut (hm : Reach cfg ok m) (dk : K → String) (dv : V → String) {path : List Bool}
    {n : NodeMut} {m' : BSTMap K V} (hn : nodeMutAt path m = (.ok (some n), m')) :
    ∃ b k v, explore m = .ok b ∧ (b.sub path).label = some (k, v) ∧
      debugNodeMut dk dv m'.nodes n =
        .ok ("NodeMut { key: " ++ dk k ++ ", value: " ++ dv v ++ ", left: \"...\", right: \"...\" }") := by
  obtain ⟨t, h⟩ := hm.shape
  have hr := h.rep.sub path
  rw [nodeMutAt_ok h] at hn
  cases hs : t.sub path with
  | leaf => rw [hs] at hn; cases hn
  | node p l k v r =>
    rw [hs] at hn hr
    cases hn
    refine ⟨_, k, v, explore_ok h, ?_, ?_⟩
    · rw [BT.map_sub, ← Tree.bt_sub, hs]; rfl
    · unfold debugNodeMut
      rw [Slab.getUnchecked_ok hr.1]
      rfl

/-- `C42_debug_nodeMut`: the left child of the root. -/
example : let m := Sample.build [(2, "b"), (1, "a")]
    ∃ n, nodeMutAt [false] m = (.ok (some n), m) ∧ debugNodeMut toString (fun s => s) m.nodes n =
      .ok "NodeMut { key: 1, value: a, left: \"...\", right: \"...\" }" :=
  ⟨⟨⟨0, 1⟩⟩, by decide +kernel, by decide +kernel⟩

example : (Sample.build [(2, "b"), (1, "a")]).debug toString (fun s => s) =
    .ok ("BSTMap { root: Some(Node { key: 2, value: b, left: Some(Node { key: 1, value: a, " ++
      "left: None, right: None }), right: None }) }") := by decide +kernel

/-! ### C43 -/

/-- C43. Walking with `root_mut`/`into_left`/`into_right` along a path leaves the map
alone and arrives at the node that `root`/`left`/`right` arrive at: same address, key,
value, `has_left`, `has_right`. -/
theorem C43_nodeMut_reads (hm : Reach cfg ok m) (path : List Bool) :
    ∃ n, nodeAt path m = .ok n ∧ nodeMutAt path m = (.ok (n.map fun n => ⟨n.ptr⟩), m) ∧
      ∀ nd, n = some nd →
        NodeMut.key ⟨nd.ptr⟩ m.nodes = (.ok nd.key, m.nodes) ∧
        NodeMut.value ⟨nd.ptr⟩ m.nodes = (.ok nd.value, m.nodes) ∧
        NodeMut.hasLeft ⟨nd.ptr⟩ m.nodes = (.ok nd.hasLeft, m.nodes) ∧
        NodeMut.hasRight ⟨nd.ptr⟩ m.nodes = (.ok nd.hasRight, m.nodes) ∧
        NodeMut.valueMut ⟨nd.ptr⟩ m.nodes = (.ok nd.ptr, m.nodes) ∧
        NodeMut.intoEntryMut ⟨nd.ptr⟩ m.nodes = (.ok (nd.key, nd.ptr), m.nodes) := by
  obtain ⟨t, h⟩ := hm.shape
  refine ⟨_, nodeAt_ok h path, ?_, fun nd hnd => ?_⟩
  · rw [nodeMutAt_ok h]
    cases t.sub path <;> rfl
  · have hn := nodeAt_ok h path
    rw [hnd] at hn
    have hv := nodeAt_view h hn
    have hd : NodeMut.deref ⟨nd.ptr⟩ m.nodes = (.ok nd.node, m.nodes) := deref_of_view hv
    refine ⟨?_, ?_, ?_, ?_, ?_, ?_⟩
    · unfold NodeMut.key; rw [M.bind_ok hd]; rfl
    · unfold NodeMut.value; rw [M.bind_ok hd]; rfl
    · unfold NodeMut.hasLeft; rw [M.bind_ok hd]; rfl
    · unfold NodeMut.hasRight; rw [M.bind_ok hd]; rfl
    · unfold NodeMut.valueMut; rw [M.bind_ok hd]; rfl
    · unfold NodeMut.intoEntryMut; rw [M.bind_ok hd]; rfl

/-- A path to an inner node, and one that leads out of the tree. -/
example : (nodeMutAt [false, true] Sample.eight).1 = .ok (some ⟨⟨0, 5⟩⟩) ∧
    (NodeMut.key ⟨⟨0, 5⟩⟩ Sample.eight.nodes).1 = .ok 3 ∧
    (NodeMut.hasLeft ⟨⟨0, 5⟩⟩ Sample.eight.nodes).1 = .ok false ∧
    (NodeMut.hasRight ⟨⟨0, 5⟩⟩ Sample.eight.nodes).1 = .ok true ∧
    (nodeMutAt [true, true, true] Sample.eight).1 = .ok none := by decide +kernel

/-- C43. Writing through `value_mut`/`into_value_mut` of the node at `path` changes that
value and nothing else. -/
theorem C43_nodeMut_write (hm : Reach cfg ok m) {path : List Bool} {n : NodeMut} {m1 : BSTMap K V}
    (hn : nodeMutAt path m = (.ok (some n), m1)) (w : V) :
    ∃ b k v m', exploreAt m = .ok b ∧ (b.sub path).label = some (n.ptr, k, v) ∧
      onNodes (writeValue n.ptr w) m = (.ok (), m') ∧
      exploreAt m' = .ok (b.map fun e => if e.1 = n.ptr then (e.1, e.2.1, w) else e) ∧
      (∀ path', path' ≠ path → ∀ e, (b.sub path').label = some e → e.1 ≠ n.ptr) := by
  obtain ⟨t, h⟩ := hm.shape
  rw [nodeMutAt_ok h] at hn
  cases hs : t.sub path with
  | leaf => rw [hs] at hn; cases hn
  | node p l k v r =>
    rw [hs] at hn
    cases hn
    obtain ⟨m', x, hx, he, h', hroot, hU⟩ :=
      writeValue_spec h (ptr_mem_of_ino (Tree.mem_sub_ino path hs)) w
    refine ⟨_, k, v, m', exploreAt_ok h, ?_, he, ?_, ?_⟩
    · rw [← Tree.bt_sub, hs]; rfl
    · rw [exploreAt_ok h', bt_setV]
      congr 2
      funext x
      simp only [eq_comm (a := p)]
    · intro path' hne e hl
      rw [← Tree.bt_sub] at hl
      cases hs' : t.sub path' with
      | leaf => rw [hs'] at hl; cases hl
      | node p' l' k' v' r' =>
        rw [hs'] at hl
        cases hl
        intro heq
        have heq : p' = p := heq
        subst heq
        exact hne (Tree.sub_unique h.nodup hs' hs)

example : (onNodes (writeValue ⟨0, 2⟩ "H") Sample.nine).2.get (query (Sample.cmp 8)) = .ok (some "H") ∧
    nodeMutAt [true] Sample.nine = (.ok (some ⟨⟨0, 2⟩⟩), Sample.nine) := by decide +kernel

end BST.Props
