import Verif.Proofs.SetHistory
import Verif.Proofs.Textbook
import Verif.Proofs.Sample
/-!
# Properties of `BSTSet`

`setHistory cfg ops s` executes the calls `ops` one after the other on `s`, catching panics
(`Verif/SetHistory.lean`). The sets that a client can have in its hands are those that
histories starting with the empty set leave.
-/
namespace BST.Props
open BSTMap Std
open Spec (BT SetAnswer SetTreeAnswer Conforms LawfulQuery Order)
section
variable {T : Type} {cfg : Cfg} {cmp : T → T → Ordering}

/-- C28. Start with an empty set and make any finite sequence of calls. The outcome of every
call is one that a plain finite set gives for the same sequence (`Spec.SetAnswer`), and the
final elements are those of the finite set. Comparisons and clones may panic, the allocator
may refuse, and sizes may overflow; the specification says what is left then. -/
theorem C28_history [TransCmp cmp] (ops : List (SetOp T)) (hops : ∀ op ∈ ops, op.Lawful cmp) :
    ∃ os s l, setHistory cfg ops BSTSet.new = (os, s) ∧ s.iterInorder = .ok l ∧
      (l.Pairwise fun a b => cmp a b = .lt) ∧ Conforms (SetAnswer cmp) ops os [] l := by
  obtain ⟨os, s, t, h1, h2, h3, _, h4⟩ :=
    setHistory_tree ops (s := BSTSet.new) (shape_new cfg) .nil hops
  refine ⟨os, s, _, h1, setInorder_spec h2, ?_, h4⟩
  rw [Tree.elems, Spec.BT.map_ino, Tree.sh_ino]
  exact (List.pairwise_map (f := fun e : T × Unit => e.1)).2 h3

/-- C28. The same with a textbook (unbalanced) search tree of elements: the answers of the
node API, the three iteration orders and the `Debug` output are determined as well, and
the final shape is the shape of the textbook tree. -/
theorem C28_tree [TransCmp cmp] (ops : List (SetOp T)) (hops : ∀ op ∈ ops, op.Lawful cmp) :
    ∃ os s b, setHistory cfg ops BSTSet.new = (os, s) ∧ exploreSet s = .ok b ∧
      s.iterPreorder = .ok b.pre ∧ s.iterInorder = .ok b.ino ∧ s.iterPostorder = .ok b.post ∧
      Conforms (SetTreeAnswer cmp) ops os .nil b := by
  obtain ⟨os, s, t, h1, h2, _, h3, _⟩ :=
    setHistory_tree ops (s := BSTSet.new) (shape_new cfg) .nil hops
  exact ⟨os, s, t.elems, h1, exploreSet_ok h2, setPreorder_spec h2, setInorder_spec h2,
    setPostorder_spec h2, h3⟩

/-- C28. `==` of two sets compares the elements in order, pairwise; the shapes do not
matter. -/
theorem C28_eq (ops ops' : List (SetOp T)) (hops : ∀ op ∈ ops, op.Calm)
    (hops' : ∀ op ∈ ops', op.Calm) (teq : T → T → Bool) :
    let a := (setHistory cfg ops BSTSet.new).2
    let b := (setHistory cfg ops' BSTSet.new).2
    ∃ la lb, a.iterInorder = .ok la ∧ b.iterInorder = .ok lb ∧
      BSTSet.eq cfg teq a b = .ok (decide (la.length = lb.length) && (List.zipWith teq la lb).all id) := by
  obtain ⟨os, s, t, h1, h2, _⟩ := setHistory_shape ops (s := BSTSet.new) (shape_new cfg) hops
  obtain ⟨os', s', t', h1', h2', _⟩ := setHistory_shape ops' (s := BSTSet.new) (shape_new cfg) hops'
  rw [h1, h1']
  exact ⟨_, _, setInorder_spec h2, setInorder_spec h2', setEq_spec h2 h2'⟩

/-- C20. No history of calls on a set has undefined behaviour or hangs, with comparisons,
clones and size hints that may be inconsistent, stateful and may panic. If no destructor
panics, neither has dropping the set in the end. -/
theorem C20_set (ops : List (SetOp T)) (hops : ∀ op ∈ ops, op.Calm) :
    (∀ o ∈ (setHistory cfg ops BSTSet.new).1, o ≠ .ub ∧ o ≠ .diverge) ∧
    ∀ d : DropInfo (InnerNode T Unit), (∀ x, d.panics x = false) →
      (BSTSet.drop cfg d (setHistory cfg ops BSTSet.new).2).1 = .ok () := by
  obtain ⟨os, s, t, h1, h2, h3⟩ := setHistory_shape ops (s := BSTSet.new) (shape_new cfg) hops
  rw [h1]
  refine ⟨fun o ho => ?_, fun d hd => ?_⟩
  · have := h3 o ho
    constructor <;> rintro rfl <;> exact this
  · obtain ⟨m', h4, _⟩ := drop_spec h2 d hd
    unfold BSTSet.drop
    rw [onItems_eq h4]

/-- C03. Inserting an element that compares equal to a stored element `t1` into a set returns
`false` and changes nothing: `t1` stays, in the same node at the same address. -/
theorem C03_set [TransCmp cmp] (ops : List (SetOp T)) (hops : ∀ op ∈ ops, op.Lawful cmp)
    {t1 t2 : T} :
    let s := (setHistory cfg ops BSTSet.new).2
    s.get (query (cmp t2)) = .ok (some t1) →
    ∃ s', BSTSet.insert cfg (query (cmp t2)) t2 s = (.ok false, s') ∧
      s'.get (query (cmp t2)) = .ok (some t1) ∧ exploreAt s'.items = exploreAt s.items ∧
      s'.iterInorder = s.iterInorder ∧ s'.len cfg = s.len cfg ∧ s'.capacity = s.capacity := by
  obtain ⟨os, s, t, h1, h2, h3, _, _⟩ :=
    setHistory_tree ops (s := BSTSet.new) (shape_new cfg) .nil hops
  rw [h1]
  intro s hg
  have hg' : s.items.getEntry (query (cmp t2)) = .ok (some (t1, ())) := by
    change BSTSet.get (query (cmp t2)) s = _ at hg
    unfold BSTSet.get at hg
    cases he : s.items.getEntry (query (cmp t2)) with
    | ok e =>
      rw [he] at hg
      cases e with
      | none => cases hg
      | some e =>
        obtain ⟨a, u⟩ := e
        cases hg; rfl
    | panic => rw [he] at hg; cases hg
    | abort => rw [he] at hg; cases hg
    | ub => rw [he] at hg; cases hg
    | diverge => rw [he] at hg; cases hg
  obtain ⟨m', b, e1, e2, e3, e4, e5, e6⟩ := reinsert_spec h2 h3 () hg'
  have hsame : exploreAt m' = exploreAt s.items := by
    rw [e4, e3]
    have : ∀ b : BT (Ptr × T × Unit),
        b.map (fun e => (e.1, e.2.1, if cmp t2 e.2.1 = .eq then () else e.2.2)) = b := by
      intro b
      induction b with
      | nil => rfl
      | node l a r ihl ihr => rw [BT.map, ihl, ihr]
    rw [this]
  obtain ⟨o, s1, t', g1, _, g2⟩ := SetOp.run_shape h2 (op := .insert (query (cmp t2)) t2) trivial
  have hrun : (SetOp.insert (query (cmp t2)) t2).run cfg s = (.ok (.bool false), ⟨m'⟩) :=
    M.map_eq (M.map_eq (onItems_eq e1))
  cases g1.symm.trans hrun
  refine ⟨⟨m'⟩, M.map_eq (onItems_eq e1), ?_, hsame, ?_, e5, e6⟩
  · show BSTSet.get _ ⟨m'⟩ = _
    unfold BSTSet.get
    rw [e2]; rfl
  · have hb : t'.bt = t.bt := by
      have := (exploreAt_ok g2).symm.trans (hsame.trans (exploreAt_ok h2))
      injection this
    rw [setInorder_spec g2, setInorder_spec h2, elems_eq, elems_eq, hb]

/-- C31. If `bstset! { t, ... }` returns, it shows the tree obtained by inserting the
elements in order into an empty tree, and there is room for all of them. -/
theorem C31_bstset [TransCmp cmp] {cmps : Nat → T → Probe T} (hok : ∀ n t, Lawful cmp t (cmps n t))
    {ts : List T} {s : BSTSet T} (he : bstset cfg cmps ts = (.ok (), s)) :
    exploreSet s = .ok (BT.nil.addList cmp ts) ∧ ts.length ≤ s.capacity ∧
    ∃ l, s.iterInorder = .ok l ∧ l.Perm (Spec.addList cmp ts []) := by
  obtain ⟨m, h1, h2, h3⟩ := bstset_ok he
  obtain ⟨o, m1, w, l', e1, e2, e3, _, e5, e6⟩ := insertAll_spec (n := 0)
    (l := ts.map fun t => (t, ())) hok h2
  cases e1.symm.trans h3
  rcases e6 with ⟨_, rfl⟩ | ⟨k, v, l'', _, hst⟩
  · refine ⟨?_, ?_, _, setInorder_spec e2, ?_⟩
    · rw [exploreSet_ok e2, Tree.elems]
      have hw : w.sh = _ := e3.sh
      rw [hw]
      exact congrArg _ (Spec.BT.insertList_elems _ _)
    · refine Nat.le_trans ?_ e5
      obtain ⟨o', m', g1, _, _, g4⟩ := grow_spec (shape_new (K := T) (V := Unit) cfg) ts.length
      have g1 : BSTMap.withCapacity cfg ts.length = (o', m') := g1
      cases g1.symm.trans h1
      rcases g4 with ⟨_, g⟩ | ⟨_, g, _⟩
      · exact g
      · rcases g with g | g <;> cases g
    · rw [Tree.elems, Spec.BT.map_ino, Tree.sh_ino]
      exact ((e3.kv List.Pairwise.nil).1.map _).trans (.of_eq (insertList_elems _ _))
  · generalize cmps (0 + l'.length) k = c at hst
    cases hst

/-- C31. `bstset!` with any list of moderate length returns. -/
theorem C31_bstset_returns (he : 0 < cfg.esize) (ha : ∀ id n, cfg.allocOk id n = true)
    {cmps : Nat → T → Probe T} (hc : ∀ n t i x, cmps n t i x ≠ none) {ts : List T}
    (hl : (ts.length + 8) * cfg.esize ≤ isizeMax) :
    ∃ s, bstset cfg cmps ts = (.ok (), s) := by
  obtain ⟨m, g1, g2, _⟩ := grow_moderate he ha (shape_new (K := T) (V := Unit) cfg) hl
  have g1 : BSTMap.withCapacity cfg ts.length = (.ok (), m) := g1
  obtain ⟨m', e⟩ := insertAll_moderate he ha hc (l := ts.map fun t => (t, ())) g2.shape 0 (by
    simpa [Tree.size] using hl)
  refine ⟨⟨m'⟩, ?_⟩
  unfold bstset BSTSet.withCapacity
  rw [g1]
  show BSTSet.insertAll cfg cmps 0 ts ⟨m⟩ = _
  rw [setInsertAll_sim, e]

/-- C42. `{:?}` of a set is the nested rendering of its tree of elements. -/
theorem C42_set (ops : List (SetOp T)) (hops : ∀ op ∈ ops, op.Calm) (dt : T → String) :
    let s := (setHistory cfg ops BSTSet.new).2
    ∃ b, exploreSet s = .ok b ∧ s.debug dt = .ok ("BSTSet { root: " ++ b.debugSet dt ++ " }") := by
  obtain ⟨os, s, t, h1, h2, _⟩ := setHistory_shape ops (s := BSTSet.new) (shape_new cfg) hops
  rw [h1]
  exact ⟨_, exploreSet_ok h2, setDebug_spec h2⟩

/-- C42. `{:?}` of a node handle of a set (wrapped in `Some(..)`) is the rendering of its
subtree. -/
theorem C42_set_node (ops : List (SetOp T)) (hops : ∀ op ∈ ops, op.Calm) (dt : T → String)
    {path : List Bool} {n : Node T Unit} :
    let s := (setHistory cfg ops BSTSet.new).2
    setNodeAt path s = .ok (some n) →
    ∃ b str, exploreSet s = .ok b ∧
      BSTSet.debugNode dt s.items.nodes (walkFuel s.items.nodes) n = .ok str ∧
      "Some(" ++ str ++ ")" = (b.sub path).debugSet dt := by
  obtain ⟨os, s, t, h1, h, _⟩ := setHistory_shape ops (s := BSTSet.new) (shape_new cfg) hops
  rw [h1]
  intro s hn
  have hn : nodeAt path s.items = .ok (some n) := by
    rw [← hn]
    unfold setNodeAt nodeAt BSTSet.rootNode
    congr 1; funext n; exact (goSetNode_eq s path n).symm
  rw [nodeAt_ok h] at hn
  have hr := h.rep.sub path
  have hh := Tree.sub_height path t
  cases hs : t.sub path with
  | leaf => rw [hs] at hn; cases hn
  | node p l k v r =>
    rw [hs] at hn hr hh
    cases hn
    obtain ⟨str, e1, e2⟩ := setDebugNode_ok (dt := dt) hr (walkFuel s.items.nodes)
      (Nat.le_trans hh (Nat.le_of_lt h.height_lt))
    refine ⟨_, str, exploreSet_ok h, e1, ?_⟩
    rw [elems_eq, BT.map_sub, ← Tree.bt_sub, hs]
    exact e2

end

/-! ### Examples -/

namespace SetExample

/-- Elements that can be equal without being identical: only the number is compared. -/
abbrev E := Nat × String
def cmp : E → E → Ordering := fun a b => compare a.1 b.1
def q (n : Nat) : Probe E := query (fun e => compare n e.1)
def cmps : Nat → E → Probe E := fun _ e => query (cmp e)

instance : TransCmp cmp where
  eq_swap := by intro a b; exact OrientedCmp.eq_swap (cmp := (compare : Nat → Nat → Ordering))
  isLE_trans := by
    intro a b c
    exact TransCmp.isLE_trans (cmp := (compare : Nat → Nat → Ordering))

def ops : List (SetOp E) :=
  [.insert (q 5) (5, "e"), .insert (q 2) (2, "b"), .insert (q 8) (8, "h"),
   .insert (q 5) (5, "other"), .get (q 5), .contains (q 7), .contains (fun _ _ => none),
   .extend cmps ⟨(0, none), [(6, "f"), (2, "other"), (1, "a")], false⟩, .len, .iter .ino 6,
   .iter .pre 2, .node [true, false], .take (q 5), .remove (q 5), .remove (q 1), .iter .post 9,
   .cloned cmps some, .reserve 9, .capacity, .isEmpty, .debug (·.2)]

example : (setHistory Sample.cfg ops BSTSet.new).1 =
    [.ok (.bool true), .ok (.bool true), .ok (.bool true), .ok (.bool false),
     .ok (.elem (some (5, "e"))), .ok (.bool false), .panic, .ok .unit, .ok (.nat 5),
     .ok (.items [some (1, "a"), some (2, "b"), some (5, "e"), some (6, "f"), some (8, "h"), none]),
     .ok (.items [some (5, "e"), some (2, "b")]), .ok (.node (some ((6, "f"), false, false))),
     .ok (.elem (some (5, "e"))), .ok (.bool false), .ok (.bool true),
     .ok (.items [some (2, "b"), some (8, "h"), some (6, "f"), none, none, none, none, none, none]),
     .ok .unit, .ok .unit, .ok (.nat 24), .ok (.bool false),
     .ok (.text "BSTSet { root: Some(Node { value: f, left: Some(Node { value: b, left: None, right: None }), right: Some(Node { value: h, left: None, right: None }) }) }")] := by
  decide +kernel

theorem ops_lawful : ∀ op ∈ ops, op.Lawful cmp := by
  have hq : ∀ n, ∃ f, LawfulQuery cmp f ∧ Asks f (q n) :=
    fun n => ⟨cmp (n, ""), lawful_cmp cmp _, fun _ _ => .inr rfl⟩
  simp only [ops, List.forall_mem_cons]
  refine ⟨fun _ _ => .inr rfl, fun _ _ => .inr rfl, fun _ _ => .inr rfl, fun _ _ => .inr rfl,
    hq 5, hq 7, ⟨_, lawful_cmp cmp (0, ""), fun _ _ => .inl rfl⟩, fun _ _ _ _ => .inr rfl, trivial,
    trivial, trivial, trivial, hq 5, hq 5, hq 1, trivial,
    ⟨fun _ _ _ _ => .inr rfl, fun _ _ h => (Option.some.inj h).symm⟩, trivial, trivial, trivial,
    trivial, by simp⟩

example : (setHistory Sample.cfg (ops.take 3) BSTSet.new).2.get (query (cmp (5, "new"))) =
    .ok (some (5, "e")) := by decide +kernel

example : (bstset Sample.cfg cmps [(3, "c"), (1, "a"), (3, "d"), (2, "b")]).1 = .ok () ∧
    exploreSet (bstset Sample.cfg cmps [(3, "c"), (1, "a"), (3, "d"), (2, "b")]).2 =
      .ok (.node (.node .nil (1, "a") (.node .nil (2, "b") .nil)) (3, "c") .nil) := by
  decide +kernel

/-- `C28_history` and `C28_tree` for the history above. -/
example : (∃ os s l, setHistory Sample.cfg ops BSTSet.new = (os, s) ∧ s.iterInorder = .ok l ∧
      (l.Pairwise fun a b => cmp a b = .lt) ∧ Conforms (SetAnswer cmp) ops os [] l) ∧
    ∃ os s b, setHistory Sample.cfg ops BSTSet.new = (os, s) ∧ exploreSet s = .ok b ∧
      s.iterPreorder = .ok b.pre ∧ s.iterInorder = .ok b.ino ∧ s.iterPostorder = .ok b.post ∧
      Conforms (SetTreeAnswer cmp) ops os .nil b :=
  ⟨C28_history ops ops_lawful, C28_tree ops ops_lawful⟩

/-- The end of that history. -/
example : exploreSet (setHistory Sample.cfg ops BSTSet.new).2 =
    .ok (.node (.node .nil (2, "b") .nil) (6, "f") (.node .nil (8, "h") .nil)) := by decide +kernel

/-- `C20_set`: with comparisons that alternate, all calls return, and so does the drop. -/
example :
    let c : Probe E := fun i _ => if i % 2 = 0 then some .lt else some .gt
    let h := setHistory Sample.cfg [.insert c (1, "a"), .insert c (1, "b"), .insert c (1, "c"),
      .remove c, .take (fun _ _ => some .eq), .clear ⟨true, fun _ => false⟩] BSTSet.new
    h.1 = [.ok (.bool true), .ok (.bool true), .ok (.bool true), .ok (.bool false),
      .ok (.elem (some (1, "a"))), .ok .unit] ∧
    (BSTSet.drop Sample.cfg ⟨true, fun _ => false⟩ h.2).1 = .ok () := by decide +kernel

/-- `C28_eq`: equal elements in different shapes; and with an equality that compares the
strings too. -/
example :
    let a := (setHistory Sample.cfg [.insert (q 1) (1, "a"), .insert (q 2) (2, "b")] BSTSet.new).2
    let b := (setHistory Sample.cfg [.insert (q 2) (2, "b"), .insert (q 1) (1, "A")] BSTSet.new).2
    exploreSet a ≠ exploreSet b ∧
    BSTSet.eq Sample.cfg (fun x y => x.1 == y.1) a b = .ok true ∧
    BSTSet.eq Sample.cfg (fun x y => x.1 == y.1 && x.2 == y.2) a b = .ok false := by decide +kernel

/-- `C03_set`: the first of two equal elements stays. -/
example :
    let s := (setHistory Sample.cfg (ops.take 3) BSTSet.new).2
    (BSTSet.insert Sample.cfg (query (cmp (5, "new"))) (5, "new") s).1 = .ok false ∧
    (BSTSet.insert Sample.cfg (query (cmp (5, "new"))) (5, "new") s).2.get (q 5) =
      .ok (some (5, "e")) := by decide +kernel

/-- `C31_bstset_returns`. -/
example (ts : List E) (h : ts.length < 2 ^ 32) : ∃ s, bstset Sample.cfg cmps ts = (.ok (), s) :=
  C31_bstset_returns (by decide) (fun _ _ => rfl) (by simp [cmps, query])
    (by simp only [Sample.cfg, isizeMax]; omega)

/-- `C42_set`. -/
example : ((setHistory Sample.cfg (ops.take 2) BSTSet.new).2.debug fun e => e.2) =
    .ok ("BSTSet { root: Some(Node { value: e, left: Some(Node { value: b, left: None, " ++
      "right: None }), right: None }) }") := by decide +kernel

/-- `C42_set_node`: the left child of the root. -/
example : ((setNodeAt [false] (setHistory Sample.cfg (ops.take 2) BSTSet.new).2).bind fun n =>
      match n with
      | none => .ok none
      | some n => (BSTSet.debugNode (fun e : E => e.2)
          (setHistory Sample.cfg (ops.take 2) BSTSet.new).2.items.nodes 5 n).bind fun s =>
            .ok (some s)) =
    .ok (some "Node { value: b, left: None, right: None }") := by decide +kernel

end SetExample
end BST.Props
