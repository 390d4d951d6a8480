import Verif.History
import Verif.Storage
/-!
# Histories: sequences of calls on one set

As `Verif/History.lean`, for `BSTSet`. Nothing here is part of the crate.
-/
namespace BST
variable {T : Type}
open Spec (BT Order hitOf LawfulQuery)

/-- One call (or small client program) on a set. -/
inductive SetOp (T : Type) where
  /-- `set = BSTSet::with_capacity(n)` -/
  | withCapacity (n : Nat)
  /-- `set = src.collect()` -/
  | collect (cmps : Nat → T → Probe T) (src : BSTSet.Source T)
  /-- `set = set.clone()` -/
  | cloned (cmps : Nat → T → Probe T) (cloneT : T → Option T)
  | insert (c : Probe T) (t : T)
  | remove (c : Probe T)
  | take (c : Probe T)
  | get (c : Probe T)
  | contains (c : Probe T)
  /-- Walk with `root()` and `left()`/`right()` along the path; read the node. -/
  | node (path : List Bool)
  /-- `n` calls of `next` on a new iterator -/
  | iter (o : Order) (n : Nat)
  | len
  | isEmpty
  | capacity
  | clear (d : DropInfo (InnerNode T Unit))
  | reserve (n : Nat)
  | shrinkToFit
  | extend (cmps : Nat → T → Probe T) (src : BSTSet.Source T)
  /-- `format!("{:?}", set)` -/
  | debug (dt : T → String)

/-- What a call returns. -/
inductive SetRet (T : Type) where
  | unit
  | bool (b : Bool)
  | nat (n : Nat)
  | elem (t : Option T)
  | node (n : Option (T × Bool × Bool))
  | items (l : List (Option T))
  | text (s : String)
deriving DecidableEq

/-- Replace the set by a newly built one; if that fails nothing happens. -/
def BSTSet.assign (f : BSTSet T → Out Unit × BSTSet T) : M (BSTSet T) Unit := fun s =>
  match f s with
  | (.ok (), s') => (.ok (), s')
  | (o, _) => (o, s)

/-- Follow a path (`false` = `left()`, `true` = `right()`) from a node of a set. -/
def goSetNode (s : BSTSet T) : List Bool → Option (Node T Unit) → Out (Option (Node T Unit))
  | [], n => .ok n
  | _ :: _, none => .ok none
  | b :: path, some n => do
    let c ← if b then s.nodeRight n else s.nodeLeft n
    goSetNode s path c

/-- `root()` followed by a path. -/
def setNodeAt (path : List Bool) (s : BSTSet T) : Out (Option (Node T Unit)) := do
  let root ← s.rootNode
  goSetNode s path root

/-- Read the subtree of a set's `Node` recursively. -/
def exploreSetNode (s : BSTSet T) : Nat → Option (Node T Unit) → Out (BT T)
  | _, none => .ok .nil
  | 0, some _ => .diverge
  | fuel + 1, some n => do
    let l ← s.nodeLeft n
    let l ← exploreSetNode s fuel l
    let r ← s.nodeRight n
    let r ← exploreSetNode s fuel r
    pure (.node l (BSTSet.nodeValue n) r)

/-- The whole tree of a set as the node API shows it. -/
def exploreSet (s : BSTSet T) : Out (BT T) := do
  let root ← s.rootNode
  exploreSetNode s (BSTMap.walkFuel s.items.nodes) root

/-- Execute a call. -/
def SetOp.run (cfg : Cfg) : SetOp T → M (BSTSet T) (SetRet T)
  | withCapacity n => do
    BSTSet.assign (fun _ => BSTSet.withCapacity cfg n)
    pure .unit
  | collect cmps src => do
    BSTSet.assign (fun _ => BSTSet.fromIter cfg cmps src)
    pure .unit
  | cloned cmps cloneT => do
    BSTSet.assign (BSTSet.clone cfg cmps cloneT)
    pure .unit
  | insert c t => do
    let r ← BSTSet.insert cfg c t
    pure (.bool r)
  | remove c => do
    let r ← BSTSet.remove cfg c
    pure (.bool r)
  | take c => do
    let r ← BSTSet.take cfg c
    pure (.elem r)
  | get c => do
    let r ← M.read (BSTSet.get c)
    pure (.elem r)
  | contains c => do
    let r ← M.read (BSTSet.contains c)
    pure (.bool r)
  | node path => do
    let n ← M.read (setNodeAt path)
    pure (.node (n.map fun n =>
      (BSTSet.nodeValue n, BSTSet.nodeHasLeft n, BSTSet.nodeHasRight n)))
  | iter o n => do
    let st ← M.read (fun s : BSTSet T => o.iter s.items)
    let r ← M.read (fun s : BSTSet T => nexts (BSTSet.nextOf (o.next s.items)) n st)
    pure (.items r.1)
  | len => do
    let n ← M.read (BSTSet.len cfg)
    pure (.nat n)
  | isEmpty => do
    let b ← M.read (BSTSet.isEmpty cfg)
    pure (.bool b)
  | capacity => do
    let s ← M.get
    pure (.nat s.capacity)
  | clear d => do
    BSTSet.clear cfg d
    pure .unit
  | reserve n => do
    BSTSet.reserve cfg n
    pure .unit
  | shrinkToFit => do
    BSTSet.shrinkToFit cfg
    pure .unit
  | extend cmps src => do
    BSTSet.extend cfg cmps src
    pure .unit
  | debug dt => do
    let str ← M.read (fun s : BSTSet T => s.debug dt)
    pure (.text str)

/-- Execute a sequence of calls, catching panics. -/
def setHistory (cfg : Cfg) (ops : List (SetOp T)) (s : BSTSet T) :
    List (Out (SetRet T)) × BSTSet T := execute (SetOp.run cfg) ops s

/-- No destructor run by the call panics (see C27). -/
def SetOp.Calm : SetOp T → Prop
  | clear d => ∀ x, d.panics x = false
  | _ => True

/-- The user code called by the operation respects the order `cmp` (it may panic). -/
def SetOp.Lawful (cmp : T → T → Ordering) : SetOp T → Prop
  | collect cmps _ => ∀ n t, Asks (cmp t) (cmps n t)
  | cloned cmps cloneT => (∀ n t, Asks (cmp t) (cmps n t)) ∧ ∀ t t', cloneT t = some t' → t' = t
  | insert c t => Asks (cmp t) c
  | remove c => ∃ f, LawfulQuery cmp f ∧ Asks f c
  | take c => ∃ f, LawfulQuery cmp f ∧ Asks f c
  | get c => ∃ f, LawfulQuery cmp f ∧ Asks f c
  | contains c => ∃ f, LawfulQuery cmp f ∧ Asks f c
  | clear d => ∀ x, d.panics x = false
  | extend cmps _ => ∀ n t, Asks (cmp t) (cmps n t)
  | _ => True

namespace Spec

/-- Adding to a finite set: if an equal element is there, nothing changes (the old element
stays). -/
def add (cmp : T → T → Ordering) (t : T) (l : List T) : List T :=
  if l.any (hitOf (cmp t)) then l else t :: l

/-- Adding several elements, in order. -/
def addList (cmp : T → T → Ordering) (ts : List T) (l : List T) : List T :=
  ts.foldl (fun l t => add cmp t l) l

/-- Removing from a finite set. -/
def discard (hit : T → Bool) (l : List T) : List T := l.filter fun t => !hit t

/-- A finite set with the elements `l` (in no particular order) may answer the call with the
outcome `o`, and has the elements `l'` afterwards. -/
def SetAnswer (cmp : T → T → Ordering) (l : List T) (o : Out (SetRet T)) (l' : List T) :
    SetOp T → Prop
  | .withCapacity _ => (o = .ok .unit ∧ l' = []) ∨ (Failed o ∧ l' = l)
  | .collect _ src => (o = .ok .unit ∧ l'.Perm (addList cmp src.items []) ∧ src.panics = false) ∨
      (Failed o ∧ l' = l)
  | .cloned _ _ => (o = .ok .unit ∧ l' = l) ∨ (Failed o ∧ l' = l)
  | .insert c t =>
    (o = .ok (.bool (!l.any (hitOf (cmp t)))) ∧ l'.Perm (add cmp t l)) ∨
    (o = .panic ∧ l' = l ∧ Panics c) ∨
    (Failed o ∧ l' = l ∧ l.any (hitOf (cmp t)) = false)
  | .remove c => Queried cmp c l o l' (fun f => .bool (l.any (hitOf f)))
      (fun f => discard (hitOf f) l)
  | .take c => Queried cmp c l o l' (fun f => .elem (l.find? (hitOf f)))
      (fun f => discard (hitOf f) l)
  | .get c => Queried cmp c l o l' (fun f => .elem (l.find? (hitOf f))) (fun _ => l)
  | .contains c => Queried cmp c l o l' (fun f => .bool (l.any (hitOf f))) (fun _ => l)
  | .node _ => l' = l ∧ (o = .ok (.node none) ∨
      ∃ t hl hr, t ∈ l ∧ o = .ok (.node (some (t, hl, hr))))
  | .iter ord n => l' = l ∧ ∃ xs : List T, xs.Perm l ∧
      (ord = .ino → xs.Pairwise fun a b => cmp a b = .lt) ∧
      o = .ok (.items ((xs.map some ++ List.replicate n none).take n))
  | .len => o = .ok (.nat l.length) ∧ l' = l
  | .isEmpty => o = .ok (.bool l.isEmpty) ∧ l' = l
  | .capacity => (∃ n, l.length ≤ n ∧ o = .ok (.nat n)) ∧ l' = l
  | .clear _ => o = .ok .unit ∧ l' = []
  | .reserve _ => (o = .ok .unit ∨ Failed o) ∧ l' = l
  | .shrinkToFit => o = .ok .unit ∧ l' = l
  | .extend _ src => ∃ used rest, src.items = used ++ rest ∧ l'.Perm (addList cmp used l) ∧
      (o = .ok .unit ∧ rest = [] ∧ src.panics = false ∨ Failed o)
  | .debug _ => (∃ s, o = .ok (.text s)) ∧ l' = l

/-- Textbook insertion of an element; an equal element stays as it is. -/
def BT.add (cmp : T → T → Ordering) (t : T) : BT T → BT T
  | .nil => .node .nil t .nil
  | .node l x r =>
    match cmp t x with
    | .lt => .node (l.add cmp t) x r
    | .gt => .node l x (r.add cmp t)
    | .eq => .node l x r

/-- Textbook insertions, one after the other. -/
def BT.addList (cmp : T → T → Ordering) (ts : List T) (b : BT T) : BT T :=
  ts.foldl (fun b t => b.add cmp t) b

/-- Textbook deletion of an element. -/
def BT.discard (f : T → Ordering) : BT T → BT T
  | .nil => .nil
  | .node l x r =>
    match f x with
    | .lt => .node (l.discard f) x r
    | .gt => .node l x (r.discard f)
    | .eq => .join l r

/-- What a `Node` of a set shows: the element, and whether there are children. -/
def BT.infoSet : BT T → Option (T × Bool × Bool)
  | .nil => none
  | .node l x r => some (x, l.label.isSome, r.label.isSome)

/-- A textbook search tree `b` of elements may answer the call with the outcome `o`, and is
`b'` afterwards. -/
def SetTreeAnswer (cmp : T → T → Ordering) (b : BT T) (o : Out (SetRet T)) (b' : BT T) :
    SetOp T → Prop
  | .withCapacity _ => (o = .ok .unit ∧ b' = .nil) ∨ (Failed o ∧ b' = b)
  | .collect _ src => (o = .ok .unit ∧ b' = BT.addList cmp src.items .nil ∧ src.panics = false) ∨
      (Failed o ∧ b' = b)
  | .cloned _ _ => (o = .ok .unit ∧ b' = b) ∨ (Failed o ∧ b' = b)
  | .insert c t =>
    (o = .ok (.bool (!b.ino.any (hitOf (cmp t)))) ∧ b' = b.add cmp t) ∨
    (o = .panic ∧ b' = b ∧ Panics c) ∨
    (Failed o ∧ b' = b ∧ b.ino.any (hitOf (cmp t)) = false)
  | .remove c => Queried cmp c b o b' (fun f => .bool (b.ino.any (hitOf f))) (fun f => b.discard f)
  | .take c => Queried cmp c b o b' (fun f => .elem (b.ino.find? (hitOf f))) (fun f => b.discard f)
  | .get c => Queried cmp c b o b' (fun f => .elem (b.ino.find? (hitOf f))) (fun _ => b)
  | .contains c => Queried cmp c b o b' (fun f => .bool (b.ino.any (hitOf f))) (fun _ => b)
  | .node path => o = .ok (.node (b.sub path).infoSet) ∧ b' = b
  | .iter ord n => b' = b ∧
      o = .ok (.items (((b.order ord).map some ++ List.replicate n none).take n))
  | .len => o = .ok (.nat b.size) ∧ b' = b
  | .isEmpty => o = .ok (.bool (b.size == 0)) ∧ b' = b
  | .capacity => (∃ n, b.size ≤ n ∧ o = .ok (.nat n)) ∧ b' = b
  | .clear _ => o = .ok .unit ∧ b' = .nil
  | .reserve _ => (o = .ok .unit ∨ Failed o) ∧ b' = b
  | .shrinkToFit => o = .ok .unit ∧ b' = b
  | .extend _ src => ∃ used rest, src.items = used ++ rest ∧ b' = BT.addList cmp used b ∧
      (o = .ok .unit ∧ rest = [] ∧ src.panics = false ∨ Failed o)
  | .debug dt => o = .ok (.text ("BSTSet { root: " ++ b.debugSet dt ++ " }")) ∧ b' = b

end Spec
end BST
