import Verif.Client
import Verif.Proofs.Build
import Verif.Proofs.Remove
import Verif.Proofs.Iter
/-!
# Client programs against ghost trees: exploration, reachability
-/
set_option linter.unusedSimpArgs false
namespace BST
open BSTMap Tree
variable {K V : Type}

namespace Tree
theorem nodeOpt_node (p : Ptr) (l : Tree K V) (k : K) (v : V) (r : Tree K V) :
    (node p l k v r).nodeOpt = some ⟨p, ⟨k, v, l.root, r.root⟩⟩ := rfl

/-- The ghost tree as a specification tree. -/
def bt : Tree K V → Spec.BT (Ptr × K × V)
  | leaf => .nil
  | node p l k v r => .node l.bt (p, k, v) r.bt

theorem bt_pre (t : Tree K V) : t.bt.pre = t.pre := by
  induction t with
  | leaf => rfl
  | node p l k v r ihl ihr => simp [bt, Spec.BT.pre, pre, ihl, ihr]
theorem bt_ino (t : Tree K V) : t.bt.ino = t.ino := by
  induction t with
  | leaf => rfl
  | node p l k v r ihl ihr => simp [bt, Spec.BT.ino, ino, ihl, ihr]
theorem bt_post (t : Tree K V) : t.bt.post = t.post := by
  induction t with
  | leaf => rfl
  | node p l k v r ihl ihr => simp [bt, Spec.BT.post, post, ihl, ihr]
theorem bt_size (t : Tree K V) : t.bt.size = t.size := by
  induction t with
  | leaf => rfl
  | node p l k v r ihl ihr => simp [bt, Spec.BT.size, size, ihl, ihr]
theorem bt_height (t : Tree K V) : t.bt.height = t.height := by
  induction t with
  | leaf => rfl
  | node p l k v r ihl ihr => simp [bt, Spec.BT.height, height, ihl, ihr]
end Tree

namespace Spec.BT
variable {α β : Type}
theorem map_pre (f : α → β) (t : BT α) : (t.map f).pre = t.pre.map f := by
  induction t with
  | nil => rfl
  | node l a r ihl ihr => simp [map, pre, ihl, ihr]
theorem map_ino (f : α → β) (t : BT α) : (t.map f).ino = t.ino.map f := by
  induction t with
  | nil => rfl
  | node l a r ihl ihr => simp [map, ino, ihl, ihr]
theorem map_post (f : α → β) (t : BT α) : (t.map f).post = t.post.map f := by
  induction t with
  | nil => rfl
  | node l a r ihl ihr => simp [map, post, ihl, ihr]
theorem map_size (f : α → β) (t : BT α) : (t.map f).size = t.size := by
  induction t with
  | nil => rfl
  | node l a r ihl ihr => simp [map, size, ihl, ihr]
theorem map_height (f : α → β) (t : BT α) : (t.map f).height = t.height := by
  induction t with
  | nil => rfl
  | node l a r ihl ihr => simp [map, height, ihl, ihr]
theorem map_map {γ : Type} (f : α → β) (g : β → γ) (t : BT α) :
    (t.map f).map g = t.map fun x => g (f x) := by
  induction t with
  | nil => rfl
  | node l a r ihl ihr => simp [map, ihl, ihr]
theorem map_id (t : BT α) : (t.map fun x => x) = t := by
  induction t with
  | nil => rfl
  | node l a r ihl ihr => simp [map, ihl, ihr]
theorem map_sub (f : α → β) (path : List Bool) (t : BT α) : (t.map f).sub path = (t.sub path).map f := by
  induction path generalizing t with
  | nil => rfl
  | cons b path ih => cases t <;> cases b <;> simp [map, sub, ih]
theorem map_label (f : α → β) (t : BT α) : (t.map f).label = t.label.map f := by
  cases t <;> rfl
theorem ino_length (t : BT α) : t.ino.length = t.size := by
  induction t with
  | nil => rfl
  | node l a r ihl ihr => simp [ino, size, ihl, ihr]; omega
theorem height_le_size (t : BT α) : t.height ≤ t.size := by
  induction t with
  | nil => exact Nat.le_refl _
  | node l a r ihl ihr => simp only [height, size]; omega
theorem AddLeaf.map {a : α} {t t' : BT α} (h : AddLeaf a t t') (f : α → β) :
    AddLeaf (f a) (t.map f) (t'.map f) := by
  induction h with
  | here => exact .here
  | left _ ih => exact .left ih
  | right _ ih => exact .right ih
end Spec.BT

/-! ### Exploration -/

theorem exploreNode_ok {s : Nodes K V} {t : Tree K V} (h : t.Rep s.view) (fuel : Nat)
    (hf : t.height ≤ fuel) : exploreNode s fuel t.nodeOpt = .ok t.bt := by
  induction t generalizing fuel with
  | leaf => cases fuel <;> rfl
  | node p l k v r ihl ihr =>
    simp only [Tree.height] at hf
    obtain ⟨fuel, rfl⟩ : ∃ k, fuel = k + 1 := ⟨fuel - 1, by omega⟩
    have hl : Node.left s ⟨p, ⟨k, v, l.root, r.root⟩⟩ = .ok l.nodeOpt := Node.newOpt_ok h.2.1
    have hr : Node.right s ⟨p, ⟨k, v, l.root, r.root⟩⟩ = .ok r.nodeOpt := Node.newOpt_ok h.2.2
    simp only [nodeOpt_node, exploreNode, hl, hr, Out.ok_bind, ihl h.2.1 fuel (by omega),
      ihr h.2.2 fuel (by omega)]
    rfl

theorem exploreAt_ok {cfg : Cfg} {m : BSTMap K V} {t : Tree K V} (h : Shape cfg m t) :
    exploreAt m = .ok t.bt := by
  unfold exploreAt
  rw [rootNode_ok h.root h.rep, Out.ok_bind]
  exact exploreNode_ok h.rep _ (Nat.le_of_lt h.height_lt)

theorem explore_ok {cfg : Cfg} {m : BSTMap K V} {t : Tree K V} (h : Shape cfg m t) :
    explore m = .ok (t.bt.map (·.2)) := by
  unfold explore
  rw [exploreAt_ok h]; rfl

namespace Tree
/-- The subtree at a path. -/
def sub : List Bool → Tree K V → Tree K V
  | [], t => t
  | _ :: _, leaf => leaf
  | false :: path, node _ l _ _ _ => l.sub path
  | true :: path, node _ _ _ _ r => r.sub path

theorem bt_sub (path : List Bool) (t : Tree K V) : (t.sub path).bt = t.bt.sub path := by
  induction path generalizing t with
  | nil => rfl
  | cons b path ih => cases t <;> cases b <;> simp [bt, sub, Spec.BT.sub, ih]

theorem Rep.sub {h : Ptr → Option (InnerNode K V)} {t : Tree K V} (hr : t.Rep h) (path : List Bool) :
    (t.sub path).Rep h := by
  induction path generalizing t with
  | nil => exact hr
  | cons b path ih =>
    cases t with
    | leaf => trivial
    | node p l k v r => cases b with
      | false => exact ih hr.2.1
      | true => exact ih hr.2.2

theorem sub_ptrs (path : List Bool) (t : Tree K V) : ∀ p ∈ (t.sub path).ptrs, p ∈ t.ptrs := by
  induction path generalizing t with
  | nil => exact fun _ h => h
  | cons b path ih =>
    intro p hp
    cases t with
    | leaf => exact hp
    | node q l k v r =>
      simp only [ptrs, List.mem_cons, List.mem_append]
      cases b with
      | false => exact Or.inr (Or.inl (ih _ _ hp))
      | true => exact Or.inr (Or.inr (ih _ _ hp))
end Tree

theorem goNode_ok {s : Nodes K V} (path : List Bool) {t : Tree K V} (h : t.Rep s.view) :
    goNode s path t.nodeOpt = .ok (t.sub path).nodeOpt := by
  induction path generalizing t with
  | nil => rfl
  | cons b path ih =>
    cases t with
    | leaf => rfl
    | node p l k v r =>
      have hl : Node.left s ⟨p, ⟨k, v, l.root, r.root⟩⟩ = .ok l.nodeOpt := Node.newOpt_ok h.2.1
      have hr : Node.right s ⟨p, ⟨k, v, l.root, r.root⟩⟩ = .ok r.nodeOpt := Node.newOpt_ok h.2.2
      cases b with
      | false => simp [goNode, nodeOpt_node, hl, Tree.sub, ih h.2.1]
      | true => simp [goNode, nodeOpt_node, hr, Tree.sub, ih h.2.2]

theorem nodeAt_ok {cfg : Cfg} {m : BSTMap K V} {t : Tree K V} (h : Shape cfg m t) (path : List Bool) :
    nodeAt path m = .ok (t.sub path).nodeOpt := by
  unfold nodeAt
  rw [rootNode_ok h.root h.rep, Out.ok_bind]
  exact goNode_ok path h.rep

theorem goMut_ok {m : BSTMap K V} (path : List Bool) {t : Tree K V} (h : t.Rep m.nodes.view) :
    goMut path t.mutOpt m = (.ok (t.sub path).mutOpt, m) := by
  induction path generalizing t with
  | nil => rfl
  | cons b path ih =>
    cases t with
    | leaf => rfl
    | node p l k v r =>
      cases b with
      | false =>
        show (onNodes (NodeMut.left ⟨p⟩) >>= goMut path) m = _
        rw [M.bind_ok (onNodes_pure (left_ok h))]; exact ih h.2.1
      | true =>
        show (onNodes (NodeMut.right ⟨p⟩) >>= goMut path) m = _
        rw [M.bind_ok (onNodes_pure (right_ok h))]; exact ih h.2.2

theorem nodeMutAt_ok {cfg : Cfg} {m : BSTMap K V} {t : Tree K V} (h : Shape cfg m t)
    (path : List Bool) : nodeMutAt path m = (.ok (t.sub path).mutOpt, m) := by
  unfold nodeMutAt
  rw [M.bind_ok (rootMut_ok h.root h.rep)]
  exact goMut_ok path h.rep

/-! ### Places handed out -/

theorem ptr_mem_of_ino {t : Tree K V} {e : Ptr × K × V} (h : e ∈ t.ino) : e.1 ∈ t.ptrs :=
  t.ino_ptrs_perm.mem_iff.1 (List.mem_map_of_mem h)

theorem Handed.mem {cfg : Cfg} {m : BSTMap K V} {t : Tree K V} (h : Shape cfg m t) {p : Ptr}
    (hp : Handed m p) : p ∈ t.ptrs := by
  cases hp with
  | @getMut c p m' e =>
    rw [getMut_spec h] at e
    rcases t.find_ok_or_panic c 0 with hf | ⟨x, hf⟩
    · rw [hf] at e; cases e
    · rw [hf] at e
      cases x with
      | none => cases e
      | some x => cases e; exact ptr_mem_of_ino (find_mem hf)
  | @getEntryMut c k p m' e =>
    rw [getEntryMut_spec h] at e
    rcases t.find_ok_or_panic c 0 with hf | ⟨x, hf⟩
    · rw [hf] at e; cases e
    · rw [hf] at e
      cases x with
      | none => cases e
      | some x => cases e; exact ptr_mem_of_ino (find_mem hf)
  | @preorder l k p e hm =>
    rw [iterMutPreorder_spec h] at e
    cases e
    obtain ⟨x, hx, hxe⟩ := List.mem_map.1 hm
    cases hxe
    exact ptr_mem_of_ino (t.pre_perm.mem_iff.1 hx)
  | @inorder l k p e hm =>
    rw [iterMutInorder_spec h] at e
    cases e
    obtain ⟨x, hx, hxe⟩ := List.mem_map.1 hm
    cases hxe
    exact ptr_mem_of_ino hx
  | @postorder l k p e hm =>
    rw [iterMutPostorder_spec h] at e
    cases e
    obtain ⟨x, hx, hxe⟩ := List.mem_map.1 hm
    cases hxe
    exact ptr_mem_of_ino (t.post_perm.mem_iff.1 hx)
  | @node path n p m' m'' e1 e2 =>
    rw [nodeMutAt_ok h] at e1
    cases hs : t.sub path with
    | leaf => rw [hs] at e1; cases e1
    | node q l k v r =>
      rw [hs] at e1
      cases e1
      have hr := h.rep.sub path
      rw [hs] at hr
      rw [onNodes_pure (valueMut_ok hr)] at e2
      cases e2
      refine sub_ptrs path t _ ?_
      rw [hs]; simp [ptrs]

/-! ### Reachability -/

/-- A property of trees that insertion (with allowed comparisons), removal and
writing keep. -/
structure Closed (ok : K → Probe K → Prop) (P : Tree K V → Prop) : Prop where
  leaf : P .leaf
  ins {t : Tree K V} {c : Probe K} {k : K} {e : Option (Ptr × K × V)} (p : Ptr) (v : V) :
    P t → ok k c → t.find c 0 = .ok e → P (t.ins c p k v 0)
  del {t : Tree K V} {c : Probe K} {e : Option (Ptr × K × V)} :
    P t → t.find c 0 = .ok e → P (t.del c 0)
  setV {t : Tree K V} (p : Ptr) (v : V) : P t → P (t.setV p v)

theorem Closed.insSeq {ok : K → Probe K → Prop} {P : Tree K V → Prop} (hP : Closed ok P)
    {u w : Tree K V} {l : List (K × V)} (h : InsSeq ok u l w) (hu : P u) : P w := by
  induction h with
  | nil => exact hu
  | cons c p e hc hf _ ih => exact ih (hP.ins p _ hu hc hf)

theorem removeEntry_cases {cfg : Cfg} {m : BSTMap K V} {t : Tree K V} (h : Shape cfg m t)
    (c : Probe K) :
    (∃ e m', t.find c 0 = .ok e ∧ removeEntry cfg c m = (.ok (e.map (·.2)), m') ∧
      Shape cfg m' (t.del c 0)) ∨
    (t.find c 0 = .panic ∧ removeEntry cfg c m = (.panic, m)) := by
  rcases removeEntry_spec h c with ⟨h1, h2⟩ | ⟨h1, h2⟩ | ⟨e, m', h1, h2, h3, _⟩
  · exact Or.inr ⟨h1, h2⟩
  · exact Or.inl ⟨none, m, h1, h2, by rw [del_ino_miss h1]; exact h⟩
  · exact Or.inl ⟨some e, m', h1, h2, h3⟩

theorem remove_cases {cfg : Cfg} {m : BSTMap K V} {t : Tree K V} (h : Shape cfg m t)
    (c : Probe K) :
    (∃ e m', t.find c 0 = .ok e ∧ remove cfg c m = (.ok (e.map (·.2.2)), m') ∧
      Shape cfg m' (t.del c 0) ∧ removeEntry cfg c m = (.ok (e.map (·.2)), m')) ∨
    (t.find c 0 = .panic ∧ remove cfg c m = (.panic, m)) := by
  unfold remove
  rcases removeEntry_cases h c with ⟨e, m', h1, h2, h3⟩ | ⟨h1, h2⟩
  · refine Or.inl ⟨e, m', h1, ?_, h3, h2⟩
    rw [M.bind_ok h2]
    cases e <;> rfl
  · exact Or.inr ⟨h1, M.bind_panic h2⟩

theorem reserve_kept {cfg : Cfg} {m : BSTMap K V} {t : Tree K V} (h : Shape cfg m t) (n : Nat) :
    ∃ o m', reserve cfg n m = (o, m') ∧ Kept cfg m m' t ∧ o.Safe := by
  rcases reserve_spec cfg m n with ⟨_, _, hr⟩ | ⟨_, hr⟩
  · exact ⟨_, m, hr, Kept.refl h, trivial⟩
  · obtain ⟨o, m', hg, hk, _, ⟨rfl, _⟩ | ⟨_, rfl | rfl, _⟩⟩ := grow_spec h (reserveTarget m n)
    all_goals exact ⟨_, m', hr.trans hg, hk, trivial⟩

theorem Reach.shapeP {cfg : Cfg} {ok : K → Probe K → Prop} {P : Tree K V → Prop} (hP : Closed ok P)
    {m : BSTMap K V} (hm : Reach cfg ok m) : ∃ t, Shape cfg m t ∧ P t := by
  induction hm with
  | new => exact ⟨.leaf, shape_new cfg, hP.leaf⟩
  | @withCapacity n m e =>
    obtain ⟨o, m1, hg, hk, _⟩ := grow_spec (shape_new cfg) (m := (BSTMap.new : BSTMap K V)) n
    have e' := hg.symm.trans e
    cases e'
    exact ⟨.leaf, hk.shape, hP.leaf⟩
  | @fromIter cmps src m hok e =>
    obtain ⟨o, m', w, l', h1, h2, h3, _⟩ := fromIter_spec hok src (cfg := cfg)
    cases h1.symm.trans e
    exact ⟨w, h2, hP.insSeq h3 hP.leaf⟩
  | @clone cmps cloneK cloneV m m' _ hok e ih =>
    obtain ⟨t, ht, _⟩ := ih
    obtain ⟨o, m'', w, l', h1, h2, h3, _⟩ := clone_spec hok cloneK cloneV ht
    cases h1.symm.trans e
    exact ⟨w, h2, hP.insSeq h3 hP.leaf⟩
  | @insert c k v o m m' _ hok e ih =>
    obtain ⟨t, ht, hPt⟩ := ih
    rcases insert_cases ht c k v with ⟨x, p, m1, hf, hi, hs, _⟩ | ⟨o', hi, _⟩
    · cases hi.symm.trans e
      exact ⟨_, hs, hP.ins p v hPt hok hf⟩
    · cases hi.symm.trans e
      exact ⟨t, ht, hPt⟩
  | @removeEntry c o m m' _ e ih =>
    obtain ⟨t, ht, hPt⟩ := ih
    rcases removeEntry_cases ht c with ⟨x, m1, hf, hi, hs⟩ | ⟨hf, hi⟩
    · cases hi.symm.trans e
      exact ⟨_, hs, hP.del hPt hf⟩
    · cases hi.symm.trans e
      exact ⟨t, ht, hPt⟩
  | @remove c o m m' _ e ih =>
    obtain ⟨t, ht, hPt⟩ := ih
    rcases remove_cases ht c with ⟨x, m1, hf, hi, hs, _⟩ | ⟨hf, hi⟩
    · cases hi.symm.trans e
      exact ⟨_, hs, hP.del hPt hf⟩
    · cases hi.symm.trans e
      exact ⟨t, ht, hPt⟩
  | @write p v o m m' _ hh e ih =>
    obtain ⟨t, ht, hPt⟩ := ih
    obtain ⟨m1, x, _, hw, hs, _⟩ := writeValue_spec ht (hh.mem ht) v
    cases hw.symm.trans e
    exact ⟨_, hs, hP.setV p v hPt⟩
  | @clear d o m m' _ hd e ih =>
    obtain ⟨t, ht, hPt⟩ := ih
    obtain ⟨m1, hc, hs, _⟩ := clear_spec ht d hd
    cases hc.symm.trans e
    exact ⟨_, hs, hP.leaf⟩
  | @reserve n o m m' _ e ih =>
    obtain ⟨t, ht, hPt⟩ := ih
    obtain ⟨o', m1, hr, hk, _⟩ := reserve_kept ht n
    cases hr.symm.trans e
    exact ⟨t, hk.shape, hPt⟩
  | @shrinkToFit o m m' _ e ih =>
    obtain ⟨t, ht, hPt⟩ := ih
    obtain ⟨m1, hr, hk, _⟩ := shrinkToFit_spec ht
    cases hr.symm.trans e
    exact ⟨t, hk.shape, hPt⟩
  | @extend cmps src o m m' _ hok e ih =>
    obtain ⟨t, ht, hPt⟩ := ih
    obtain ⟨o', m1, w, l', h1, h2, h3, _⟩ := extend_spec hok src ht
    cases h1.symm.trans e
    exact ⟨w, h2, hP.insSeq h3 hPt⟩

theorem Reach.shape {cfg : Cfg} {ok : K → Probe K → Prop} {m : BSTMap K V} (hm : Reach cfg ok m) :
    ∃ t, Shape cfg m t := by
  obtain ⟨t, h, _⟩ := hm.shapeP (P := fun _ => True)
    ⟨trivial, fun _ _ _ _ _ => trivial, fun _ _ => trivial, fun _ _ _ => trivial⟩
  exact ⟨t, h⟩

theorem closed_sorted (cmp : K → K → Ordering) [Std.TransCmp cmp] :
    Closed (Lawful cmp) (fun t : Tree K V => t.SortedBy cmp) where
  leaf := List.Pairwise.nil
  ins p v hs hc hf := by
    rw [(find_eq_of_ok hc hf).2.1]
    exact (ins_kv hs p _ v 0).2
  del hs hf := del_sorted hs 0 hf
  setV p v hs := setV_sorted hs p v _ (setV_ino p v _)

theorem Reach.sorted {cfg : Cfg} {cmp : K → K → Ordering} [Std.TransCmp cmp] {m : BSTMap K V}
    (hm : Reach cfg (Lawful cmp) m) : ∃ t, Shape cfg m t ∧ t.SortedBy cmp :=
  hm.shapeP (closed_sorted cmp)

theorem Lawful.query (cmp : K → K → Ordering) (k : K) : Lawful cmp k (query (cmp k)) :=
  fun _ _ => Or.inr rfl

end BST
