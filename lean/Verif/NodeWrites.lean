import Verif.SimpleHistory
import Verif.Search
/-!
# Clients of `SimpleBSTMap` that overwrite whole nodes

`root_mut`, `left_mut` and `right_mut` of `simple_bst` return `&mut Node<K, V>`
(simple_bst/src/map.rs:614-616, simple_bst/src/map/node.rs:53-59), and `Node` is an ordinary
type (`pub use node::*`, simple_bst/src/map.rs:11), so safe code can `mem::swap` two nodes
together with the subtrees below them, or assign a `clone()` of a node. The histories of
`Verif/SimpleHistory.lean` contain no such writes; those of this file do. Nothing here is part
of the crate.
-/
namespace BST
variable {K V : Type}
open Spec (BT Order)
open Simple (Link Map Own)

/-- A call on a `SimpleBSTMap`, or the overwriting of a node. -/
inductive NodeOp (K V : Type) where
  | call (op : SimpleOp K V)
  /-- Walk with `root_mut()` and `left_mut()`/`right_mut()` along the path, then
  `mem::replace(node, new)`, where `new` is the node with these fields. -/
  | replace (path : List Bool) (k : K) (v : V) (l r : Link K V)

/-- What the client gets. -/
inductive NodeRet (K V : Type) where
  | ret (r : Ret K V)
  /-- The node that has been replaced, with its subtrees; `nil` if the walk ended. -/
  | old (b : BT (K × V))
deriving DecidableEq

/-- Execute it. -/
def NodeOp.run (cfg : Cfg) : NodeOp K V → M (Map K V) (NodeRet K V)
  | call op => do
    let r ← op.run cfg
    pure (.ret r)
  | replace path k v l r => do
    let x ← Simple.nodeMutAt path
    match x with
    | none => pure (.old .nil)
    | some p =>
      let n ← Map.onRoot (Own.deref p)
      Map.onRoot (Own.store p (.node k v l r))
      pure (.old (.node n.left.view (n.key, n.value) n.right.view))

/-- It may allocate (a moved node keeps the boxes below it). -/
def NodeOp.Allocates : NodeOp K V → Prop
  | call op => op.Allocates
  | replace .. => False

/-- `mem::swap` of a node of one map and a node of another one; `false` if a walk ends before. -/
def Simple.swapNodes (p q : List Bool) : M (Map K V × Map K V) Bool := fun s =>
  match Simple.nodeMutAt p s.1, Simple.nodeMutAt q s.2 with
  | (.ok (some x), a), (.ok (some y), b) =>
    (.ok true, ({ a with root := Link.put (b.root.at' y) x a.root },
      { b with root := Link.put (a.root.at' x) y b.root }))
  | (.ok _, _), (.ok _, _) => (.ok false, s)
  | _, _ => (.ub, s)

/-! ### What is left of the specification: an arbitrary tree and an arbitrary counter -/

namespace Spec
namespace BT
/-- Overwrite the subtree at a path, if there is a node. -/
def graft (new : BT (K × V)) : List Bool → BT (K × V) → BT (K × V)
  | _, nil => nil
  | [], node _ _ _ => new
  | false :: path, node l e r => node (graft new path l) e r
  | true :: path, node l e r => node l e (graft new path r)

/-- Write to the value that a search guided by the comparisons finds. -/
def writeBy (c : Probe K) (w : V) : Nat → BT (K × V) → BT (K × V)
  | _, nil => nil
  | i, node l e r =>
    match c i e.1 with
    | none => node l e r
    | some .lt => node (l.writeBy c w (i + 1)) e r
    | some .gt => node l e (r.writeBy c w (i + 1))
    | some .eq => node l (e.1, w) r

/-- Write to the value of the node at a path. -/
def writeAt (w : V) : List Bool → BT (K × V) → BT (K × V)
  | _, nil => nil
  | [], node l e r => node l (e.1, w) r
  | false :: path, node l e r => node (l.writeAt w path) e r
  | true :: path, node l e r => node l e (r.writeAt w path)

/-- Nothing below. -/
def isNil : BT (K × V) → Bool
  | nil => true
  | _ => false
end BT

/-- A tree, and a counter that is only meant to be its size. -/
structure Book (K V : Type) where
  tree : BT (K × V)
  count : Nat

namespace Book
/-- `count + 1` on 64 bits: `none` is a panic. -/
def up (cfg : Cfg) (n : Nat) : Option Nat :=
  if n + 1 < 2 ^ 64 then some (n + 1) else if cfg.checks then none else some ((n + 1) % 2 ^ 64)

/-- `count - 1` on 64 bits. -/
def down (cfg : Cfg) : Nat → Option Nat
  | 0 => if cfg.checks then none else some (2 ^ 64 - 1)
  | n + 1 => some n

/-- A search that changes nothing. -/
def ask {α : Type} (c : Probe K) (f : Option (K × V) → α) (s : Book K V) : Out α × Book K V :=
  match s.tree.search c 0 with
  | .ok e => (.ok (f e), s)
  | _ => (.panic, s)

/-- Insert. The first node sets the counter to 1 (with debug assertions the counter must have
been 0; the node is in the tree nevertheless), any further one adds 1 to it. -/
def insert (cfg : Cfg) (c : Probe K) (k : K) (v : V) (s : Book K V) : Out (Option V) × Book K V :=
  match s.tree.search c 0 with
  | .ok none =>
    if s.tree.isNil then
      if cfg.debug && s.count != 0 then (.panic, ⟨.node .nil (k, v) .nil, s.count⟩)
      else (.ok none, ⟨.node .nil (k, v) .nil, 1⟩)
    else
      match up cfg s.count with
      | some n => (.ok none, ⟨s.tree.insertBy c k v 0, n⟩)
      | none => (.panic, ⟨s.tree.insertBy c k v 0, s.count⟩)
  | .ok (some e) => (.ok (some e.2), ⟨s.tree.insertBy c k v 0, s.count⟩)
  | _ => (.panic, s)

/-- Remove. The counter is decremented before anything else happens. -/
def remove (cfg : Cfg) (c : Probe K) (s : Book K V) : Out (Option (K × V)) × Book K V :=
  match s.tree.search c 0 with
  | .ok none => (.ok none, s)
  | .ok (some e) =>
    match down cfg s.count with
    | some n => (.ok (some e), ⟨s.tree.eraseBy c 0, n⟩)
    | none => (.panic, s)
  | _ => (.panic, s)

/-- Insert the items one after the other, until something panics. -/
def insertAll (cfg : Cfg) (cmps : Nat → K → Probe K) :
    Nat → List (K × V) → Book K V → Out Unit × Book K V
  | _, [], s => (.ok (), s)
  | n, (k, v) :: rest, s =>
    match insert cfg (cmps n k) k v s with
    | (.ok _, s') => insertAll cfg cmps (n + 1) rest s'
    | (_, s') => (.panic, s')

/-- Insert what an iterator yields. -/
def extend (cfg : Cfg) (cmps : Nat → K → Probe K) (src : BSTMap.Source K V) (s : Book K V) :
    Out Unit × Book K V :=
  match insertAll cfg cmps 0 src.items s with
  | (.ok _, s') => (if src.panics then .panic else .ok (), s')
  | (_, s') => (.panic, s')

/-- Change only what is returned. -/
def as {α β : Type} (f : α → β) (x : Out α × Book K V) : Out β × Book K V := (do let a ← x.1; pure (f a), x.2)

/-- What a call does to an arbitrary tree with an arbitrary counter. -/
def call (cfg : Cfg) : SimpleOp K V → Book K V → Out (Ret K V) × Book K V
  | .collect cmps src, s =>
    match extend cfg cmps src ⟨.nil, 0⟩ with
    | (.ok _, s') => (.ok .unit, s')
    | _ => (.panic, s)
  | .cloned ck cv, s =>
    match s.tree.mapM fun e => do pure (← ck e.1, ← cv e.2) with
    | some b => (.ok .unit, ⟨b, s.count⟩)
    | none => (.panic, s)
  | .insert c k v, s => as .value (insert cfg c k v s)
  | .remove c, s => as (fun e => .value (e.map (·.2))) (remove cfg c s)
  | .removeEntry c, s => as .entry (remove cfg c s)
  | .get c, s => ask c (fun e => .value (e.map (·.2))) s
  | .getEntry c, s => ask c .entry s
  | .containsKey c, s => ask c (fun e => .bool e.isSome) s
  | .getMut c w, s =>
    ((ask c (fun e => .value (e.map (·.2))) s).1, ⟨s.tree.writeBy c w 0, s.count⟩)
  | .node path, s => (.ok (.node (s.tree.sub path).info), s)
  | .nodeMut path w, s => (.ok (.entry (s.tree.sub path).label), ⟨s.tree.writeAt w path, s.count⟩)
  | .iter o n, s => (.ok (.items (((s.tree.order o).map some ++ List.replicate n none).take n)), s)
  | .iterMut _ n, s => (if n = 0 then .ok .unit else .panic, s)
  | .len, s => (.ok (.nat s.count), s)
  | .isEmpty, s =>
    (if cfg.debug && s.count == 0 && !s.tree.isNil then .panic else .ok (.bool (s.count == 0)), s)
  | .clear, _ => (.ok .unit, ⟨.nil, 0⟩)
  | .extend cmps src, s => as (fun _ => .unit) (extend cfg cmps src s)
  | .debug dk dv, s => (.ok (.text ("SimpleBSTMap { root: " ++ s.tree.debugMap dk dv ++ ", len: " ++
      toString s.count ++ " }")), s)

/-- The same with the overwriting of nodes. -/
def answer (cfg : Cfg) : NodeOp K V → M (Book K V) (NodeRet K V)
  | .call op => fun s => as .ret (call cfg op s)
  | .replace path k v l r => fun s =>
    (.ok (.old (s.tree.sub path)), ⟨BT.graft (.node l.view (k, v) r.view) path s.tree, s.count⟩)
end Book

/-- Overwriting a node leaves the keys in order and the number of nodes as it is. -/
def Keeps (cmp : K → K → Ordering) (b new : BT (K × V)) (path : List Bool) : Prop :=
  (BT.graft new path b).size = b.size ∧ Sorted cmp (BT.graft new path b).ino

/-- The textbook (`SimpleAnswer`), and overwriting of nodes. -/
def NodeAnswer (cmp : K → K → Ordering) (b : BT (K × V)) (o : Out (NodeRet K V))
    (b' : BT (K × V)) : NodeOp K V → Prop
  | .call op => ∃ o', o = (do let r ← o'; pure (.ret r)) ∧ SimpleAnswer cmp b o' b' op
  | .replace path k v l r =>
    o = .ok (.old (b.sub path)) ∧ b' = BT.graft (.node l.view (k, v) r.view) path b
end Spec

/-- The code of the user respects the order. -/
def NodeOp.Lawful (cmp : K → K → Ordering) : NodeOp K V → Prop
  | call op => op.Lawful cmp
  | replace .. => True
end BST
