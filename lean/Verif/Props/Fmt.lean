import Verif.Proofs.FmtLines
import Verif.Proofs.ArenaAgain
import Verif.Proofs.Sample
/-!
# Properties of `Debug`: every format, and implementations that fail

`Spec.print` writes a flat list of pieces with explicit depths (`Verif/Printing.lean`); the
code nests writers. `p` is `true` for `{:#?}` and `false` for `{:?}`. `dk`, `dv`, `dt` are the
`Debug` of keys, values and elements: they write anything, and end with `Ok`, with `Err` or by
a panic. `dn` is that of `usize`, which only `SimpleBSTMap` prints.
-/
namespace BST.Props
open BSTMap Spec

section
variable {K V T : Type} {cfg : Cfg} {ok : K → Probe K → Prop} {m : BSTMap K V}

/-! ### Maps -/

/-- C66. What `{:?}` and `{:#?}` of a map write, and how they end: the pieces of its tree, up
to the first key or value whose `Debug` does not end with `Ok`. -/
theorem C66_map (hm : Reach cfg ok m) (p : Bool) (dk : K → Fmt) (dv : V → Fmt) (dn : Nat → Fmt) :
    ∃ b, explore m = .ok b ∧
      m.fmt p dk dv = .ok (print (Shown.fmt dk dv dn) true
        (Spec.struct p "BSTMap" [("root", tree p entryRow b)] 0)) := by
  obtain ⟨t, h⟩ := hm.shape
  obtain ⟨F, h1, h2⟩ := fmt_shows p dk dv dn h
  exact ⟨_, explore_ok h, by rw [h1, h2.here]⟩

/-- C66. The same for a node handle: the node with its subtrees, not wrapped in `Some`. -/
theorem C66_node (hm : Reach cfg ok m) (p : Bool) (dk : K → Fmt) (dv : V → Fmt) (dn : Nat → Fmt)
    {path : List Bool} {n : Node K V} (hn : nodeAt path m = .ok (some n)) :
    ∃ b l e r, explore m = .ok b ∧ b.sub path = .node l e r ∧
      fmtNode p dk dv m.nodes (walkFuel m.nodes) n = .ok (print (Shown.fmt dk dv dn) true
        (Spec.node p (entryRow e) (tree p entryRow l) (tree p entryRow r) 0)) := by
  obtain ⟨t, h⟩ := hm.shape
  rw [nodeAt_ok h] at hn
  have hr := h.rep.sub path
  have hh := Tree.sub_height path t
  cases hs : t.sub path with
  | leaf => rw [hs] at hn; cases hn
  | node q l k v r =>
    rw [hs] at hn hr hh
    cases hn
    obtain ⟨F, e1, e2⟩ := fmtNode_ok p dk dv dn hr (walkFuel m.nodes)
      (Nat.le_trans hh (Nat.le_of_lt h.height_lt))
    refine ⟨_, l.bt.map (·.2), (k, v), r.bt.map (·.2), explore_ok h, ?_, ?_⟩
    · rw [BT.map_sub, ← Tree.bt_sub, hs]; rfl
    · rw [e1, e2.here]

/-- C66. The same for a mutable node handle, which shows placeholders for its subtrees. -/
theorem C66_nodeMut (hm : Reach cfg ok m) (p : Bool) (dk : K → Fmt) (dv : V → Fmt) (dn : Nat → Fmt)
    {path : List Bool} {n : NodeMut} {m' : BSTMap K V} (hn : nodeMutAt path m = (.ok (some n), m')) :
    ∃ b k v, explore m = .ok b ∧ (b.sub path).label = some (k, v) ∧
      fmtNodeMut p dk dv m'.nodes n = .ok (print (Shown.fmt dk dv dn) true
        (Spec.struct p "NodeMut" [("key", one (.user (.key k))), ("value", one (.user (.value v))),
          ("left", one (.text "\"...\"")), ("right", one (.text "\"...\""))] 0)) := by
  obtain ⟨t, h⟩ := hm.shape
  have hr := h.rep.sub path
  rw [nodeMutAt_ok h] at hn
  cases hs : t.sub path with
  | leaf => rw [hs] at hn; cases hn
  | node q l k v r =>
    rw [hs] at hn hr
    cases hn
    refine ⟨_, k, v, explore_ok h, ?_, ?_⟩
    · rw [BT.map_sub, ← Tree.bt_sub, hs]; rfl
    · unfold fmtNodeMut
      rw [Slab.getUnchecked_ok hr.1]
      have := shows_struct (du := Shown.fmt dk dv dn) p "NodeMut"
        [("key", dk k, one (.user (.key k))), ("value", dv v, one (.user (.value v))),
          ("left", Fmt.text "\"...\"", one (.text "\"...\"")),
          ("right", Fmt.text "\"...\"", one (.text "\"...\""))] (by simp) (by
        intro f hf
        simp only [List.mem_cons, List.not_mem_nil, or_false] at hf
        rcases hf with rfl | rfl | rfl | rfl
        · exact Shows.user (Shown.fmt dk dv dn) (.key k)
        · exact Shows.user (Shown.fmt dk dv dn) (.value v)
        · exact Shows.text _ _
        · exact Shows.text _ _)
      exact congrArg Out.ok (this.here true).symm

/-- C66. Printing a map calls the `Debug` of its keys and values in pre-order, each key before
its value, and ends as the first of these calls that does not end with `Ok`. In particular
it ends with `Ok` iff all of them do; it does not panic by itself, and it swallows no error. -/
theorem C66_stop (hm : Reach cfg ok m) (p : Bool) (dk : K → Fmt) (dv : V → Fmt) :
    ∃ b F, explore m = .ok b ∧ m.fmt p dk dv = .ok F ∧
      F.stop = firstStop (b.pre.flatMap fun e => [(dk e.1).stop, (dv e.2).stop]) := by
  obtain ⟨b, h1, h2⟩ := C66_map hm p dk dv (fun _ => .text "")
  refine ⟨b, _, h1, h2, ?_⟩
  rw [print_stop, users_struct]
  simp only [List.flatMap_cons, List.flatMap_nil, List.append_nil, users_tree]
  rw [List.map_flatMap]
  rfl

/-- C66. With `Debug` implementations that are functions to strings, `{:?}` writes the text
of C42. -/
theorem C66_plain (hm : Reach cfg ok m) (dk : K → String) (dv : V → String) :
    ∃ str, m.debug dk dv = .ok str ∧
      m.fmt false (fun k => .text (dk k)) (fun v => .text (dv v)) = .ok (.text str) := by
  obtain ⟨t, h⟩ := hm.shape
  refine ⟨_, debug_spec h, ?_⟩
  obtain ⟨F, h1, h2⟩ := fmt_shows false (fun k => .text (dk k)) (fun v => .text (dv v)) (fun _ => .text "") h
  have h3 := shows_one false "BSTMap" "root"
    (shows_debugMap dk dv (fun _ => .text "") (t.bt.map (·.2)))
  rw [h1, ← h2.here true, h3.here]
  simp [Fmt.debugStruct, Fmt.Builder.field, Fmt.Builder.finish, Fmt.seq, Fmt.text]

/-- C66. `{:#?}` tells two maps apart whenever their trees print differently: if every key and
value prints on one line, the outputs are equal iff the trees have the same shape and the same
printed keys and values at each place. -/
theorem C66_reads {cfg' : Cfg} {ok' : K → Probe K → Prop} {m' : BSTMap K V} (hm : Reach cfg ok m)
    (hm' : Reach cfg' ok' m') (dk : K → Fmt) (dv : V → Fmt)
    (hk : ∀ k, (dk k).stop = .ok ∧ '\n' ∉ (dk k).out) (hv : ∀ v, (dv v).stop = .ok ∧ '\n' ∉ (dv v).out) :
    ∃ b b', explore m = .ok b ∧ explore m' = .ok b' ∧
      (m.fmt true dk dv = m'.fmt true dk dv ↔
        b.map (fun e => ((dk e.1).out, (dv e.2).out)) = b'.map (fun e => ((dk e.1).out, (dv e.2).out))) := by
  obtain ⟨b, h1, h2⟩ := C66_map hm true dk dv (fun _ => .text "")
  obtain ⟨b', h1', h2'⟩ := C66_map hm' true dk dv (fun _ => .text "")
  refine ⟨b, b', h1, h1', ?_⟩
  have hr : OneLine (Shown.fmt dk dv fun _ => .text "") (entryRow (K := K) (V := V)) := by
    intro x f hf
    simp only [entryRow, List.mem_cons, List.not_mem_nil, or_false] at hf
    rcases hf with rfl | rfl
    · exact ⟨show '\n' ∉ "key".toList by decide, hk _⟩
    · exact ⟨show '\n' ∉ "value".toList by decide, hv _⟩
  rw [h2, h2', Out.ok.injEq, print_iff hr hr 2 (fun _ => rfl)]
  exact entry_iff

/-! ### Sets -/

/-- C66. What `{:?}` and `{:#?}` of a set write. -/
theorem C66_set (ops : List (SetOp T)) (hops : ∀ op ∈ ops, op.Calm) (p : Bool) (dt : T → Fmt) :
    let s := (setHistory cfg ops BSTSet.new).2
    ∃ b, exploreSet s = .ok b ∧ s.fmt p dt = .ok (print dt true
      (Spec.struct p "BSTSet" [("root", tree p elemRow b)] 0)) := by
  obtain ⟨os, s, t, h1, h2, _⟩ := setHistory_shape ops (s := BSTSet.new) (shape_new cfg) hops
  rw [h1]
  obtain ⟨F, h3, h4⟩ := setFmt_shows p dt h2
  exact ⟨_, exploreSet_ok h2, by rw [h3, h4.here]⟩

/-- C66. The same for a node handle of a set. -/
theorem C66_set_node (ops : List (SetOp T)) (hops : ∀ op ∈ ops, op.Calm) (p : Bool) (dt : T → Fmt)
    {path : List Bool} {n : Node T Unit} :
    let s := (setHistory cfg ops BSTSet.new).2
    setNodeAt path s = .ok (some n) →
    ∃ b l e r, exploreSet s = .ok b ∧ b.sub path = .node l e r ∧
      BSTSet.fmtNode p dt s.items.nodes (walkFuel s.items.nodes) n = .ok (print dt true
        (Spec.node p (elemRow e) (tree p elemRow l) (tree p elemRow r) 0)) := by
  obtain ⟨os, s, t, h1, h, _⟩ := setHistory_shape ops (s := BSTSet.new) (shape_new cfg) hops
  rw [h1]
  intro s hn
  have hn : nodeAt path s.items = .ok (some n) := by
    rw [← hn]
    unfold setNodeAt nodeAt BSTSet.rootNode
    congr 1; funext n; exact (goSetNode_eq s path n).symm
  rw [nodeAt_ok h] at hn
  have hr := h.rep.sub path
  have hh := Tree.sub_height path t
  cases hs : t.sub path with
  | leaf => rw [hs] at hn; cases hn
  | node q l k v r =>
    rw [hs] at hn hr hh
    cases hn
    obtain ⟨F, e1, e2⟩ := setFmtNode_ok p dt hr (walkFuel s.items.nodes)
      (Nat.le_trans hh (Nat.le_of_lt h.height_lt))
    refine ⟨_, l.bt.map (·.2.1), k, r.bt.map (·.2.1), exploreSet_ok h, ?_, ?_⟩
    · rw [elems_eq, BT.map_sub, ← Tree.bt_sub, hs]; rfl
    · rw [e1, e2.here]

/-- C66. Printing a set calls the `Debug` of its elements in pre-order and ends as the first
of these calls that does not end with `Ok`. -/
theorem C66_set_stop (ops : List (SetOp T)) (hops : ∀ op ∈ ops, op.Calm) (p : Bool) (dt : T → Fmt) :
    let s := (setHistory cfg ops BSTSet.new).2
    ∃ b F, exploreSet s = .ok b ∧ s.fmt p dt = .ok F ∧
      F.stop = firstStop (b.pre.map fun e => (dt e).stop) := by
  obtain ⟨b, h1, h2⟩ := C66_set (cfg := cfg) ops hops p dt
  refine ⟨b, _, h1, h2, ?_⟩
  rw [print_stop, users_struct]
  simp only [List.flatMap_cons, List.flatMap_nil, List.append_nil, users_tree]
  rw [List.map_flatMap, List.map_eq_flatMap]
  rfl

/-- C66. `{:#?}` of two sets: equal iff the printed trees are. -/
theorem C66_set_reads {cfg' : Cfg} (ops ops' : List (SetOp T)) (hops : ∀ op ∈ ops, op.Calm)
    (hops' : ∀ op ∈ ops', op.Calm) (dt : T → Fmt)
    (ht : ∀ t, (dt t).stop = .ok ∧ '\n' ∉ (dt t).out) :
    let s := (setHistory cfg ops BSTSet.new).2
    let s' := (setHistory cfg' ops' BSTSet.new).2
    ∃ b b', exploreSet s = .ok b ∧ exploreSet s' = .ok b' ∧
      (s.fmt true dt = s'.fmt true dt ↔
        b.map (fun e => (dt e).out) = b'.map (fun e => (dt e).out)) := by
  obtain ⟨b, h1, h2⟩ := C66_set (cfg := cfg) ops hops true dt
  obtain ⟨b', h1', h2'⟩ := C66_set (cfg := cfg') ops' hops' true dt
  refine ⟨b, b', h1, h1', ?_⟩
  have hr : OneLine dt (elemRow (T := T)) := by
    intro x f hf
    simp only [elemRow, List.mem_cons, List.not_mem_nil, or_false] at hf
    subst hf
    exact ⟨show '\n' ∉ "value".toList by decide, ht _⟩
  rw [h2, h2', Out.ok.injEq, print_iff hr hr 1 (fun _ => rfl)]
  exact elem_iff

/-! ### simple_bst and the arena -/

/-- C66. The derived `Debug` of a `SimpleBSTMap` shows its tree and its field `len`; this for
every value of the type. -/
theorem C66_simple (m : Simple.Map K V) (p : Bool) (dk : K → Fmt) (dv : V → Fmt) (dn : Nat → Fmt) :
    m.fmt p dk dv dn = print (Shown.fmt dk dv dn) true
      (Spec.struct p "SimpleBSTMap" [("root", tree p entryRow (Simple.explore m)),
        ("len", one (.user (.len m.len)))] 0) := by
  rw [Simple.explore_eq, (simpleFmt_shows p dk dv dn m).here]

/-- C66. The same for a `SimpleBSTSet`, which shows its tree of elements only. -/
theorem C66_simple_set (s : Simple.SSet T) (p : Bool) (dt : T → Fmt) :
    s.fmt p dt = print dt true
      (Spec.struct p "SimpleBSTSet" [("root", tree p elemRow (Simple.SSet.explore s))] 0) := by
  rw [ssExplore_eq]
  exact ((shows_one p "SimpleBSTSet" "root" (setFmtLink_shows p dt s.items.root)).here true).symm

/-- C66. `{:?}` and `{:#?}` of an arena, after any history that respects the safety contract:
the list of its values in the order of allocation. -/
theorem C66_arena {a a1 : Arena T} {d : DropInfo T} (ha : a.Fresh cfg) (hd : ∀ v, d.panics v = false)
    {ops : List (ArenaOp T)} {os : List (Out (StoreRet T))}
    (he : execute (ArenaOp.run cfg d) ops a = (os, a1))
    (hob : Obeys ArenaValid Spec.ArenaOp.after ops os []) (p : Bool) (dt : T → Fmt) :
    a1.fmt cfg p dt = .ok (print dt true
      (list p ((contents Spec.ArenaOp.after ops os []).map (·.2)) 0)) := by
  obtain ⟨hi, h⟩ := Arena.history_holds hd ha.holds.1 ha.holds.2.1 ops he
    (Arena.history_safe hd ha.holds.1 ha.holds.2.1 ops he hob)
  exact arenaFmt_ok p dt h hi true

end

/-! ### Examples -/

namespace FmtExample

def dk (k : Nat) : Fmt := .text (toString k)
/-- The quotation marks of a string. -/
def dv (v : String) : Fmt := .text ("\"" ++ v ++ "\"")
/-- Two lines. -/
def two (v : String) : Fmt := .text (v ++ "\n" ++ v)
/-- `Debug` that fails at one value, after writing a line. -/
def fails (stop : Stop) (v : String) : Fmt := if v = "a" then ⟨"oh\n".toList, stop⟩ else .text v

/-- `C66_map`, `{:#?}`. -/
example : (Sample.build [(2, "b"), (1, "a")]).fmt true dk dv = .ok (.text
"BSTMap {
    root: Some(
        Node {
            key: 2,
            value: \"b\",
            left: Some(
                Node {
                    key: 1,
                    value: \"a\",
                    left: None,
                    right: None,
                },
            ),
            right: None,
        },
    ),
}") := by decide +kernel

/-- `C66_map`: line breaks of the values are followed by the indentation in `{:#?}`, not in
`{:?}`. -/
example : (Sample.build [(2, "b")]).fmt true dk two = .ok (.text
"BSTMap {
    root: Some(
        Node {
            key: 2,
            value: b
            b,
            left: None,
            right: None,
        },
    ),
}") ∧ (Sample.build [(2, "b")]).fmt false dk two = .ok (.text
"BSTMap { root: Some(Node { key: 2, value: b
b, left: None, right: None }) }") := by decide +kernel

/-- `C66_map`, `C66_stop`: an error or a panic at the second value. -/
example : (Sample.build [(2, "b"), (1, "a"), (3, "c")]).fmt true dk (fails .err) = .ok ⟨
"BSTMap {
    root: Some(
        Node {
            key: 2,
            value: b,
            left: Some(
                Node {
                    key: 1,
                    value: oh
".toList, .err⟩ ∧ (Sample.build [(2, "b"), (1, "a"), (3, "c")]).fmt false dk (fails .panic) = .ok ⟨
"BSTMap { root: Some(Node { key: 2, value: b, left: Some(Node { key: 1, value: oh
".toList, .panic⟩ := by decide +kernel

/-- `C66_plain`: a map with a freed slot. -/
example : let m := (removeEntry Sample.cfg (query (Sample.cmp 3)) (Sample.build [(3, "c"), (2, "b"), (1, "a")])).2
    m.fmt false dk dv = (m.debug toString (fun v => "\"" ++ v ++ "\"") >>= fun str => .ok (.text str)) := by
  decide +kernel

/-- Implementations that print one line. -/
def parity (k : Nat) : Fmt := .text (if k % 2 = 0 then "even" else "odd")
def empty (v : String) : Fmt := .text (if v = "" then "empty" else "not empty")

theorem parity_line (k : Nat) : (parity k).stop = .ok ∧ '\n' ∉ (parity k).out := by
  unfold parity; split <;> decide
theorem empty_line (v : String) : (empty v).stop = .ok ∧ '\n' ∉ (empty v).out := by
  unfold empty; split <;> decide

/-- `C66_reads`: two maps that print the same, and one with the same entries as the first but
another shape. -/
example : (∃ b b', explore (Sample.build [(2, "b"), (1, "a")]) = .ok b ∧
      explore (Sample.build [(4, "d"), (3, "c")]) = .ok b' ∧
      ((Sample.build [(2, "b"), (1, "a")]).fmt true parity empty =
          (Sample.build [(4, "d"), (3, "c")]).fmt true parity empty ↔
        b.map (fun e => ((parity e.1).out, (empty e.2).out)) =
          b'.map (fun e => ((parity e.1).out, (empty e.2).out)))) ∧
    (Sample.build [(2, "b"), (1, "a")]).fmt true parity empty =
      (Sample.build [(4, "d"), (3, "c")]).fmt true parity empty ∧
    (Sample.build [(2, "b"), (1, "a")]).iterInorder = (Sample.build [(1, "a"), (2, "b")]).iterInorder ∧
    (Sample.build [(2, "b"), (1, "a")]).fmt true parity empty ≠
      (Sample.build [(1, "a"), (2, "b")]).fmt true parity empty :=
  ⟨C66_reads (Sample.build_reach _) (Sample.build_reach _) parity empty parity_line empty_line,
    by decide +kernel, by decide +kernel, by decide +kernel⟩

/-- `C66_reads`, without its hypothesis: line breaks can imitate the fields. -/
example : let odd (k : Nat) : Fmt := .text (if k = 0 then "1,\nvalue: x" else "1")
    (Sample.build [(0, "y")]).fmt true odd (fun v => .text v) =
      (Sample.build [(1, "x,\nvalue: y")]).fmt true odd (fun v => .text v) := by
  decide +kernel

/-- `C66_nodeMut`: the left child of the root. -/
example : let m := Sample.build [(2, "b"), (1, "a")]
    ∃ n, nodeMutAt [false] m = (.ok (some n), m) ∧ fmtNodeMut true dk dv m.nodes n = .ok (.text
"NodeMut {
    key: 1,
    value: \"a\",
    left: \"...\",
    right: \"...\",
}") := by
  exact ⟨⟨⟨0, 1⟩⟩, by decide +kernel, by decide +kernel⟩

/-- `C66_simple`, and `C66_arena` on a full and on an empty arena. -/
example : (Simple.Map.mk (.node 2 "b" .nil .nil) 1 0).fmt true dk dv dk = (.text
"SimpleBSTMap {
    root: Some(
        Node {
            key: 2,
            value: \"b\",
            left: None,
            right: None,
        },
    ),
    len: 1,
}") ∧
  (execute (ArenaOp.run Sample.cfg ⟨false, fun _ => false⟩) [.alloc 7, .alloc 8] Arena.new).2.fmt
    Sample.cfg true dk = .ok (.text "[\n    7,\n    8,\n]") ∧
  (Arena.new : Arena Nat).fmt Sample.cfg true dk = .ok (.text "[]") := by decide +kernel

def setOps : List (SetOp Nat) :=
  [.insert (query (compare 2)) 2, .insert (query (compare 1)) 1, .insert (query (compare 3)) 3,
    .remove (query (compare 3))]

theorem setOps_calm : ∀ op ∈ setOps, op.Calm := by
  simp [setOps, SetOp.Calm]

/-- `C66_set`, `C66_set_stop`. -/
example : (setHistory Sample.cfg setOps BSTSet.new).2.fmt true dk = .ok (.text
"BSTSet {
    root: Some(
        Node {
            value: 2,
            left: Some(
                Node {
                    value: 1,
                    left: None,
                    right: None,
                },
            ),
            right: None,
        },
    ),
}") := by decide +kernel

/-- `C66_set_node`: the left child of the root; `C66_node` is the same for maps. -/
example : let s := (setHistory Sample.cfg setOps BSTSet.new).2
    (setNodeAt [false] s >>= fun n => match n with
      | some n => BSTSet.fmtNode false dk s.items.nodes (walkFuel s.items.nodes) n
      | none => .panic) = .ok (.text "Node { value: 1, left: None, right: None }") := by
  decide +kernel

/-- `C66_set_reads`: the same elements in another shape. -/
example : (setHistory Sample.cfg setOps BSTSet.new).2.fmt true parity ≠
    (setHistory Sample.cfg [.insert (query (compare 1)) 1, .insert (query (compare 2)) 2]
      BSTSet.new).2.fmt true parity := by decide +kernel

/-- `C66_node`: the left child of the root. -/
example : let m := Sample.build [(2, "b"), (1, "a")]
    (nodeAt [false] m >>= fun n => match n with
      | some n => fmtNode true dk dv m.nodes (walkFuel m.nodes) n
      | none => .panic) = .ok (.text
"Node {
    key: 1,
    value: \"a\",
    left: None,
    right: None,
}") := by decide +kernel

/-- `C66_simple_set`. -/
example : (Simple.SSet.mk ⟨.node 2 () .nil (.node 3 () .nil .nil), 2, 0⟩).fmt false dk = .text
    "SimpleBSTSet { root: Some(Node { value: 2, left: None, right: Some(Node { value: 3, left: None, right: None }) }) }" := by
  decide +kernel

end FmtExample
end BST.Props
