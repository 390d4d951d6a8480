import Verif.Model.SimpleSet
/-!
# `==` of nodes and of arenas when the user's `PartialEq` may panic

The definitions `Node.eq`, `NodeMut.eq`, `Arena.eq`, `Simple.Ref.eq` are for a `PartialEq` that is a
function. Here it may panic (`none`) and answer differently at different times.
-/
namespace BST
variable {K V T : Type}

/-- src/map/node.rs:35-47 `PartialEq for Node`: first the addresses are compared (see `Node.eq`), then
the keys, then the values, each only if needed. Nothing is asked twice, so no time is needed. -/
def Node.eqAsk (keq : K → K → Option Bool) (veq : V → V → Option Bool) (sameNodes : Bool)
    (a b : Node K V) : Out Bool :=
  if sameNodes && decide (a.ptr = b.ptr) then .ok true
  else BSTMap.entryEq (fun _ => keq) (fun _ => veq) 0 (a.key, a.value) (b.key, b.value)

/-- src/map/node.rs:123-135 `PartialEq for NodeMut`, see `NodeMut.eq`. -/
def NodeMut.eqAsk (keq : K → K → Option Bool) (veq : V → V → Option Bool) (sameNodes : Bool)
    (sa sb : Nodes K V) (a b : NodeMut) : Out Bool := do
  let x ← sa.getUnchecked a.ptr
  let y ← sb.getUnchecked b.ptr
  if sameNodes && decide (a.ptr = b.ptr) then .ok true
  else BSTMap.entryEq (fun _ => keq) (fun _ => veq) 0 (x.key, x.value) (y.key, y.value)

/-- src/set/node.rs:4 derived `PartialEq` of the set's `Node`: that of the map's node. -/
def BSTSet.nodeEqAsk (teq : T → T → Option Bool) (sameNodes : Bool) (a b : Node T Unit) : Out Bool :=
  a.eqAsk teq (fun _ _ => some true) sameNodes b

/-- src/arena.rs:164-172 `PartialEq for StableArena`, see `Arena.eq`. `veq n` answers about the `n`-th
pair. -/
def Arena.eqAsk (cfg : Cfg) (veq : Nat → T → T → Option Bool) (a b : Arena T) : Out Bool :=
  if a.len ≠ b.len then .ok false
  else loop (a.len + 1) (fun (st : Nat × Iter × Iter) => do
    let (x, i) ← st.2.1.next cfg a
    match x with
    | none => pure (.inr true)
    | some v1 =>
      let (y, j) ← st.2.2.next cfg b
      match y with
      | none => pure (.inr true)
      | some v2 =>
        match veq st.1 v1 v2 with
        | none => .panic
        | some true => pure (.inl (st.1 + 1, i, j))
        | some false => pure (.inr false))
    (0, a.iter, b.iter)

namespace Simple

/-- Read a clock and advance it. -/
def tick : M Nat Nat := fun n => (.ok n, n + 1)

/-- simple_bst/src/map/node.rs:3 derived `PartialEq` of `Option<Box<Node>>`, see `Link.eq`. The state is
a clock: it counts the pairs of `Option`s that have been compared. -/
def Link.eqAsk (keq : Nat → K → K → Option Bool) (veq : Nat → V → V → Option Bool) :
    Link K V → Link K V → M Nat Bool
  | .nil, .nil => do
    let _ ← tick
    pure true
  | .node k v l r, .node k' v' l' r' => do
    let n ← tick
    let same ← M.lift (BSTMap.entryEq keq veq n (k, v) (k', v'))
    if same then
      let same ← l.eqAsk keq veq l'
      if same then r.eqAsk keq veq r' else pure false
    else pure false
  | _, _ => do
    let _ ← tick
    pure false

/-- simple_bst/src/map/node.rs:3 derived `PartialEq` of `Node`: the four fields in order. -/
def Ref.eqAsk (keq : Nat → K → K → Option Bool) (veq : Nat → V → V → Option Bool) (a b : Ref K V) :
    Out Bool :=
  ((do
    let same ← M.lift (BSTMap.entryEq keq veq 0 (a.key, a.value) (b.key, b.value))
    if same then
      let same ← a.left.eqAsk keq veq b.left
      if same then a.right.eqAsk keq veq b.right else pure false
    else pure false : M Nat Bool) 1).1

/-- simple_bst/src/set/node.rs:4 derived `PartialEq` of the set's `Node`: that of the map's node. -/
def SSet.nodeEqAsk (teq : Nat → T → T → Option Bool) (a b : Ref T Unit) : Out Bool :=
  a.eqAsk teq (fun _ _ _ => some true) b

end Simple
end BST
