import Verif.MapBorrowing
/-!
# Clients that hold many shared references at once

Between two calls that take `&mut self`, a client may hold any number of shared iterators,
references and node handles, and use them in any order. Nothing here is part of the crate.
-/
namespace BST
variable {H K V : Type} [Aliasing H]
open Spec (Order)

/-- A map, and what a client holds that has borrowed it: iterators, references to entries
(`none`: there was no entry), and node handles. -/
structure Reader (S R H : Type) where
  store : S
  iters : List (Order × Stack)
  refs : List R
  nodes : List H

namespace Reader
variable {S R H α : Type}

/-- The client has nothing yet. -/
def start (s : S) : Reader S R H := { store := s, iters := [], refs := [], nodes := [] }

/-- A call on the map. -/
def on (f : M S α) : M (Reader S R H) α := fun x =>
  match f x.store with
  | (o, s) => (o, { x with store := s })

/-- Keep an iterator. -/
def keepIter (i : Order × Stack) : M (Reader S R H) Unit :=
  M.modify fun x => { x with iters := x.iters ++ [i] }
/-- An iterator has advanced. -/
def setIter (n : Nat) (i : Order × Stack) : M (Reader S R H) Unit :=
  M.modify fun x => { x with iters := x.iters.set n i }
/-- Keep a reference. -/
def keepRef (r : R) : M (Reader S R H) Unit := M.modify fun x => { x with refs := x.refs ++ [r] }
/-- Keep a handle. -/
def keepNode (h : H) : M (Reader S R H) Unit := M.modify fun x => { x with nodes := x.nodes ++ [h] }
end Reader

/-- What the client does next. Numbers refer to the lists of what it holds; if there is no such
thing it does nothing. -/
inductive ReadOp (K V : Type) where
  /-- `get_entry` (or `get`), and keep what it returns. -/
  | get (c : Probe K)
  | containsKey (c : Probe K)
  | debug (dk : K → String) (dv : V → String)
  /-- Create an iterator, and keep it. -/
  | iter (o : Order)
  /-- `next` of an iterator, and keep what it returns. -/
  | next (i : Nat)
  /-- `root()`, and keep the handle. -/
  | root
  /-- `left()` or `right()` of a handle, and keep the result. -/
  | child (h : Nat) (right : Bool)
  /-- Read the key and the value behind a reference. -/
  | read (r : Nat)
  /-- `key()`, `value()` and whether there are children, of a handle. -/
  | readNode (h : Nat)

/-- The client with copies of entries instead of references. -/
def ReadOp.run : ReadOp K V →
    M (Reader (BSTMap K V) (Option (K × V)) (Option (Node K V))) (Ret K V)
  | get c => do
    let e ← Reader.on (M.read (BSTMap.getEntry c))
    Reader.keepRef e
    pure .unit
  | containsKey c => do
    let b ← Reader.on (M.read (BSTMap.containsKey c))
    pure (.bool b)
  | debug dk dv => do
    let t ← Reader.on (M.read (BSTMap.debug dk dv))
    pure (.text t)
  | iter o => do
    let st ← Reader.on (M.read o.iter)
    Reader.keepIter (o, st)
    pure .unit
  | next i => do
    let x ← M.get
    match x.iters[i]? with
    | none => pure .unit
    | some (o, st) =>
      let (e, st) ← Reader.on (M.read fun m => o.next m st)
      Reader.setIter i (o, st)
      Reader.keepRef e
      pure .unit
  | root => do
    let n ← Reader.on (M.read BSTMap.rootNode)
    Reader.keepNode n
    pure .unit
  | child h right => do
    let x ← M.get
    match x.nodes[h]? with
    | some (some n) =>
      let c ← Reader.on (M.read fun m => if right then n.right m.nodes else n.left m.nodes)
      Reader.keepNode c
      pure .unit
    | _ => pure .unit
  | read r => do
    let x ← M.get
    match x.refs[r]? with
    | none => pure .unit
    | some e => pure (.entry e)
  | readNode h => do
    let x ← M.get
    match x.nodes[h]? with
    | some (some n) => pure (.node (some (n.key, n.value, n.node.left.isSome, n.node.right.isSome)))
    | _ => pure .unit

/-- The client with references, which it uses when it reads. -/
def ReadOp.runRef : ReadOp K V →
    M (Reader (TMap H K V) (Option NodeRef) (Option NodeRef)) (Ret K V)
  | get c => do
    let n ← Reader.on (TMap.descend false c)
    Reader.keepRef n
    pure .unit
  | containsKey c => do
    let b ← Reader.on (TMap.containsKey c)
    pure (.bool b)
  | debug dk dv => do
    let t ← Reader.on (TMap.debug dk dv)
    pure (.text t)
  | iter o => do
    let st ← Reader.on o.iterRef
    Reader.keepIter (o, st)
    pure .unit
  | next i => do
    let x ← M.get
    match x.iters[i]? with
    | none => pure .unit
    | some (o, st) =>
      let (n, st) ← Reader.on (o.nextRef st)
      Reader.setIter i (o, st)
      Reader.keepRef n
      pure .unit
  | root => do
    let n ← Reader.on (nodeRefAt false [])
    Reader.keepNode n
    pure .unit
  | child h right => do
    let x ← M.get
    match x.nodes[h]? with
    | some (some n) =>
      let c ← Reader.on (if right then TMap.right false n else TMap.left false n)
      Reader.keepNode c
      pure .unit
    | _ => pure .unit
  | read r => do
    let x ← M.get
    match x.refs[r]? with
    | none => pure .unit
    | some none => pure (.entry none)
    | some (some n) =>
      let y ← Reader.on (TMap.deref n)
      pure (.entry (some (y.key, y.value)))
  | readNode h => do
    let x ← M.get
    match x.nodes[h]? with
    | some (some n) =>
      let y ← Reader.on (TMap.deref n)
      pure (.node (some (y.key, y.value, y.left.isSome, y.right.isSome)))
    | _ => pure .unit

/-- A step of a client: a call of `Verif/History.lean`, before which everything that was borrowed
is given up, or a step that takes `&self`, after which everything is kept. -/
inductive Act (K V : Type) where
  | call (op : Op K V)
  | read (op : ReadOp K V)

/-- Give up everything, and call. -/
def Reader.call {S R H α : Type} (f : M S α) : M (Reader S R H) α := fun x =>
  match f x.store with
  | (o, s) => (o, .start s)

/-- A step of a client with copies of entries. -/
def Act.run (cfg : Cfg) :
    Act K V → M (Reader (BSTMap K V) (Option (K × V)) (Option (Node K V))) (Ret K V)
  | call op => Reader.call (op.run cfg)
  | read op => op.run

/-- A step of a client with references. -/
def Act.runRef (cfg : Cfg) (how : ChunkPtr) :
    Act K V → M (Reader (TMap H K V) (Option NodeRef) (Option NodeRef)) (Ret K V)
  | call op => Reader.call (op.runRef cfg how)
  | read op => op.runRef

end BST
