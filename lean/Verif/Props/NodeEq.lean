import Verif.Proofs.NodeEq
import Verif.Proofs.Sample
import Verif.Props.Compare
import Verif.Props.Storage
/-!
# C54 for nodes and arenas: equality when `PartialEq` panics, or answers as it likes
-/
namespace BST.Props
open BSTMap
open Spec
variable {K V T : Type} {cfg : Cfg} {ok : K → Probe K → Prop} {m : BSTMap K V}

/-- C54. `==` of two `Node`s: a node is equal to itself, and nothing is asked. Otherwise the keys are
compared, and the values if the keys are equal, and nothing else. -/
theorem C54_node {m' : BSTMap K V} (hm : Reach cfg ok m)
    {pa pb : List Bool} {a b : Node K V} (ha : nodeAt pa m = .ok (some a))
    (hb : nodeAt pb m' = .ok (some b)) (same : Bool) (hsame : same = true → m = m')
    (keq : K → K → Option Bool) (veq : V → V → Option Bool) :
    a.eqAsk keq veq same b =
      if same = true ∧ pa = pb then .ok true
      else match keq a.key b.key with
        | none => .panic
        | some false => .ok false
        | some true =>
          match veq a.value b.value with
          | none => .panic
          | some r => .ok r := by
  obtain ⟨t, h⟩ := hm.shape
  exact nodeAsk_eq h ha hb same hsame keq veq

/-- C54. The same for `NodeMut`. -/
theorem C54_nodeMut {ok' : K → Probe K → Prop} {m' m1 m2 : BSTMap K V} (hm : Reach cfg ok m)
    (hm' : Reach cfg ok' m') {pa pb : List Bool} {a b : NodeMut}
    (ha : nodeMutAt pa m = (.ok (some a), m1)) (hb : nodeMutAt pb m' = (.ok (some b), m2))
    (same : Bool) (hsame : same = true → m = m') (keq : K → K → Option Bool)
    (veq : V → V → Option Bool) :
    ∃ ka va kb vb, a.key m.nodes = (.ok ka, m.nodes) ∧ a.value m.nodes = (.ok va, m.nodes) ∧
      b.key m'.nodes = (.ok kb, m'.nodes) ∧ b.value m'.nodes = (.ok vb, m'.nodes) ∧
      NodeMut.eqAsk keq veq same m.nodes m'.nodes a b =
        if same = true ∧ pa = pb then .ok true
        else match keq ka kb with
          | none => .panic
          | some false => .ok false
          | some true =>
            match veq va vb with
            | none => .panic
            | some r => .ok r := by
  obtain ⟨t, h⟩ := hm.shape
  obtain ⟨t', h'⟩ := hm'.shape
  obtain ⟨x, ea⟩ := nodeMutAt_view h ha
  obtain ⟨y, eb⟩ := nodeMutAt_view h' hb
  have ga := Slab.getUnchecked_ok ea
  have gb := Slab.getUnchecked_ok eb
  have da : a.deref m.nodes = (.ok x, m.nodes) := deref_of_view ea
  have db : b.deref m'.nodes = (.ok y, m'.nodes) := deref_of_view eb
  refine ⟨x.key, x.value, y.key, y.value, ?_, ?_, ?_, ?_, ?_⟩
  · unfold NodeMut.key; rw [M.bind_ok da]; rfl
  · unfold NodeMut.value; rw [M.bind_ok da]; rfl
  · unfold NodeMut.key; rw [M.bind_ok db]; rfl
  · unfold NodeMut.value; rw [M.bind_ok db]; rfl
  · unfold NodeMut.eqAsk
    rw [ga, gb, Out.ok_bind, Out.ok_bind]
    cases same with
    | false => simp; rfl
    | true =>
      cases hsame rfl
      have := nodeMutAt_ptr h ha hb
      by_cases hp : a.ptr = b.ptr
      · simp [hp, this.1 hp]
      · simp [hp, mt this.2 hp]; rfl

/-- C54. The same for nodes of `BSTSet`s. -/
theorem C54_set_node {ops ops' : List (SetOp T)} (hops : ∀ op ∈ ops, op.Calm)
    {pa pb : List Bool} {a b : Node T Unit}
    (ha : setNodeAt pa (setHistory cfg ops BSTSet.new).2 = .ok (some a))
    (hb : setNodeAt pb (setHistory cfg ops' BSTSet.new).2 = .ok (some b)) (same : Bool)
    (hsame : same = true → ops = ops') (teq : T → T → Option Bool) :
    BSTSet.nodeEqAsk teq same a b =
      if same = true ∧ pa = pb then .ok true
      else match teq (BSTSet.nodeValue a) (BSTSet.nodeValue b) with
        | none => .panic
        | some r => .ok r := by
  obtain ⟨os, s, t, h1, h2, _⟩ := setHistory_shape ops (s := BSTSet.new) (shape_new cfg) hops
  rw [h1, setNodeAt_eq] at ha
  rw [setNodeAt_eq] at hb
  have := nodeAsk_eq h2 ha hb same (fun h => by rw [← hsame h, h1]) teq fun _ _ => some true
  refine this.trans ?_
  simp only [BSTSet.nodeValue]
  split
  · rfl
  · rcases teq a.key b.key with _ | _ | _ <;> rfl

/-- C54. `==` of two arenas compares the lengths first, and if they are equal the elements in order of
allocation, until two are not equal or a comparison panics. -/
theorem C54_arena {a a1 b b1 : Arena T} {d : DropInfo T} (ha : a.Fresh cfg) (hb : b.Fresh cfg)
    (hd : ∀ v, d.panics v = false) {ops ops' : List (ArenaOp T)}
    {os os' : List (Out (StoreRet T))} (he : execute (ArenaOp.run cfg d) ops a = (os, a1))
    (he' : execute (ArenaOp.run cfg d) ops' b = (os', b1))
    (hob : Obeys ArenaValid Spec.ArenaOp.after ops os [])
    (hob' : Obeys ArenaValid Spec.ArenaOp.after ops' os' []) (veq : Nat → T → T → Option Bool) :
    Compared veq ((contents Spec.ArenaOp.after ops os []).map (·.2))
      ((contents Spec.ArenaOp.after ops' os' []).map (·.2)) (Arena.eqAsk cfg veq a1 b1) := by
  obtain ⟨hi, h⟩ := Arena.history_holds hd ha.holds.1 ha.holds.2.1 ops he
    (Arena.history_safe hd ha.holds.1 ha.holds.2.1 ops he hob)
  obtain ⟨hi', h'⟩ := Arena.history_holds hd hb.holds.1 hb.holds.2.1 ops' he'
    (Arena.history_safe hd hb.holds.1 hb.holds.2.1 ops' he' hob')
  exact h.eqAsk h' hi hi' veq

/-- C54. `==` of two nodes of `simple_bst` (of the same or of different maps) reads the two subtrees
from left to right, each node before its children. It compares what it finds pair by pair: first keys,
then values if the keys are equal, and whether there is a subtree at all. It stops at the first
difference and panics only if a comparison panics before that. -/
theorem C54_simple_node {m m' : Simple.Map K V} {p p' : List Bool} {a b : Simple.Ref K V}
    (ha : Simple.nodeAt p m = some a) (hb : Simple.nodeAt p' m' = some b)
    (keq : Nat → K → K → Option Bool) (veq : Nat → V → V → Option Bool) :
    Scanned (markAnswer (entryAnswer keq veq)) ((Simple.explore m).sub p).marked
      ((Simple.explore m').sub p').marked (a.eqAsk keq veq b) := by
  rw [Simple.explore_eq, Simple.explore_eq, ← Simple.view_at, ← Simple.view_at, ← nodeAsk_link ha hb]
  exact (Link.eqAsk_scan keq veq _ _ 0).scanned

/-- C54. The same for nodes of two `SimpleBSTSet`s. -/
theorem C54_simple_set_node {s s' : Simple.SSet T} {p p' : List Bool} {a b : Simple.Ref T Unit}
    (ha : Simple.goRef p s.rootRef = some a) (hb : Simple.goRef p' s'.rootRef = some b)
    (teq : Nat → T → T → Option Bool) :
    Scanned (markAnswer teq) (s.explore.sub p).marked (s'.explore.sub p').marked
      (Simple.SSet.nodeEqAsk teq a b) := by
  have key := C54_simple_node (m := s.items) (m' := s'.items) ha hb teq fun _ _ _ => some true
  have ea : s.explore.sub p = ((Simple.explore s.items).sub p).map (·.1) := by
    rw [← Spec.BT.map_sub, Simple.explore_eq, ssExplore_eq]; rfl
  have eb : s'.explore.sub p' = ((Simple.explore s'.items).sub p').map (·.1) := by
    rw [← Spec.BT.map_sub, Simple.explore_eq, ssExplore_eq]; rfl
  rw [ea, eb, marked_map, marked_map]
  refine BST.Scanned.map (fun i x y => ?_) key
  rcases x with _ | x <;> rcases y with _ | y <;> simp only [markAnswer, Option.map]
  exact entryAnswer_unit teq i x y

/-- C54. For a `PartialEq` that is a function these are the comparisons of C33 and C55. -/
theorem C54_pure (keq : K → K → Bool) (veq : V → V → Bool) :
    (∀ (same : Bool) (a b : Node K V), a.eqAsk (fun a b => some (keq a b)) (fun a b => some (veq a b))
      same b = .ok (a.eq keq veq same b)) ∧
    ∀ a b : Simple.Ref K V, a.eqAsk (fun _ a b => some (keq a b)) (fun _ a b => some (veq a b)) b =
      .ok (a.eq keq veq b) :=
  ⟨Node.eqAsk_pure keq veq, Ref.eqAsk_pure keq veq⟩

/-! ### Cases -/

namespace NodeEqSample
open CompareSample (q)

/-- Keys are compared by `==`, but key 6 panics. -/
def kq (a b : Nat) : Option Bool := if a = 6 then none else some (a == b)
/-- Values are compared by `==`, but an empty one panics. -/
def vq (a b : String) : Option Bool := if a = "" then none else some (a == b)

def a : BSTMap Nat String := Sample.build [(5, "e"), (2, ""), (6, "f")]
def b : BSTMap Nat String := Sample.build [(6, "f"), (2, ""), (5, "e")]

def ask (same : Bool) (pa pb : List Bool) (m m' : BSTMap Nat String) : Out (Option (Out Bool)) := do
  let a ← nodeAt pa m
  let b ← nodeAt pb m'
  pure (a.bind fun a => b.map fun b => a.eqAsk kq vq same b)

def askMut (same : Bool) (pa pb : List Bool) (m m' : BSTMap Nat String) : Option (Out Bool) :=
  match nodeMutAt pa m, nodeMutAt pb m' with
  | (.ok (some a), _), (.ok (some b), _) => some (NodeMut.eqAsk kq vq same m.nodes m'.nodes a b)
  | _, _ => none

/-- The same node, whose value would panic; the same entry in another map: the value panics; a key
that panics; different keys; equal entries. -/
example : ask true [false] [false] a a = .ok (some (.ok true)) ∧
    ask false [false] [false] a b = .ok (some .panic) ∧ ask false [true] [] a b = .ok (some .panic) ∧
    ask true [] [true] a a = .ok (some (.ok false)) ∧
    ask false [] [false, true] a b = .ok (some (.ok true)) := by decide +kernel

example : askMut true [false] [false] a a = some (.ok true) ∧
    askMut false [false] [false] a b = some .panic ∧ askMut false [true] [] a b = some .panic ∧
    askMut true [] [true] a a = some (.ok false) ∧
    askMut false [] [false, true] a b = some (.ok true) := by decide +kernel

def bset (l : List Nat) : BSTSet Nat :=
  (setHistory Sample.cfg (l.map fun n => .insert (q n) n) BSTSet.new).2

def askSet (same : Bool) (p p' : List Bool) (s s' : BSTSet Nat) : Out (Option (Out Bool)) := do
  let a ← setNodeAt p s
  let b ← setNodeAt p' s'
  pure (a.bind fun a => b.map fun b => BSTSet.nodeEqAsk kq same a b)

example : askSet true [true] [true] (bset [5, 4, 6]) (bset [5, 4, 6]) = .ok (some (.ok true)) ∧
    askSet false [true] [true] (bset [5, 4, 6]) (bset [5, 4, 6]) = .ok (some .panic) ∧
    askSet false [] [] (bset [5, 4, 6]) (bset [5]) = .ok (some (.ok true)) := by decide +kernel

def arena (l : List Nat) : Arena Nat :=
  (execute (ArenaOp.run StorageExample.cfg ⟨true, fun _ => false⟩) (l.map .alloc) Arena.new).2

/-- Equal; a panic; lengths that differ; a difference before a panic. -/
example :
    let eq l l' := Arena.eqAsk StorageExample.cfg (fun _ => kq) (arena l) (arena l')
    eq [1, 2, 3] [1, 2, 3] = .ok true ∧ eq [1, 6, 3] [1, 6, 3] = .panic ∧
    eq [1, 6] [1] = .ok false ∧ eq [1, 6] [2, 6] = .ok false := by decide +kernel

def smap (l : List Nat) : Simple.Map Nat String :=
  (simpleHistory Sample.cfg (l.map fun n => .insert (q n) n (if n = 3 then "" else "v"))
    Simple.Map.new).2

def askSimple (p p' : List Bool) (m m' : Simple.Map Nat String) : Option (Out Bool) := do
  let a ← Simple.nodeAt p m
  let b ← Simple.nodeAt p' m'
  pure (a.eqAsk (fun _ => kq) (fun _ => vq) b)

/-- Equal; a left child that is missing is noticed before the right key panics; the right key
panics; the left value panics before it is noticed that a right child is missing; a right child that
is missing; nodes at different depths. -/
example : askSimple [] [] (smap [5, 4, 7]) (smap [5, 4, 7]) = some (.ok true) ∧
    askSimple [] [] (smap [5, 4, 6]) (smap [5, 6]) = some (.ok false) ∧
    askSimple [] [] (smap [5, 4, 6]) (smap [5, 4, 6]) = some .panic ∧
    askSimple [] [] (smap [5, 3]) (smap [5, 3, 7]) = some .panic ∧
    askSimple [] [] (smap [5, 4]) (smap [5, 4, 7]) = some (.ok false) ∧
    askSimple [false] [] (smap [5, 4, 7]) (smap [4]) = some (.ok true) := by decide +kernel

def sset (l : List Nat) : Simple.SSet Nat :=
  (simpleSetHistory Sample.cfg (l.map fun n => .insert (q n) n) Simple.SSet.new).2

def askSimpleSet (p p' : List Bool) (s s' : Simple.SSet Nat) : Option (Out Bool) := do
  let a ← Simple.goRef p s.rootRef
  let b ← Simple.goRef p' s'.rootRef
  pure (Simple.SSet.nodeEqAsk (fun _ => kq) a b)

example : askSimpleSet [] [] (sset [5, 4, 6]) (sset [5, 4, 6]) = some .panic ∧
    askSimpleSet [] [] (sset [5, 4, 6]) (sset [5, 6]) = some (.ok false) ∧
    askSimpleSet [false] [] (sset [5, 4, 6]) (sset [4]) = some (.ok true) := by decide +kernel

end NodeEqSample
end BST.Props
