import Verif.Model.SimpleDtors
import Verif.Model.SimpleSet
import Verif.Model.Set
/-!
# The recursive functions, with a machine stack of limited size

Some code calls itself once per level of the tree: the drop glue and the derived `Clone`,
`PartialEq` and `Debug` of the nodes of `simple_bst`, and `Debug` of the nodes of `bst`. Every call
needs a frame on the machine's stack; when there is no room for another frame the process aborts
(stack overflow). Here these functions are repeated with `lim`, the number of nested calls for which
there is room. All frames count as equally large; frames of other functions are not counted, since
there is a bounded number of them.

All other functions of the crates that visit nodes are loops (or iterate with a `Vec` on the heap as a
stack, see C41), so they have no counterpart here.
-/
namespace BST.Deep
open Simple (Link Drops World Ref both onPanic SSet)
variable {K V T : Type}

/-- The drop glue for simple_bst/src/map/node.rs:4-9, see `World.dropLink`. -/
def dropLink (d : Drops K V) : Nat → Link K V → M (World K V) Unit
  | _, .nil => pure ()
  | 0, .node _ _ _ _ => M.lift .abort
  | lim + 1, .node k v l r =>
    both (World.dropItem d (.inl k)) (both (World.dropItem d (.inr v))
      (both (dropLink d lim l) (dropLink d lim r)))

/-- A `SimpleBSTMap` goes out of scope, see `World.drop`. -/
def drop (lim : Nat) (d : Drops K V) : M (World K V) Unit := do
  let s ← M.get
  M.modify fun s => { s with map := { Simple.Map.new with allocs := s.map.allocs } }
  dropLink d lim s.map.root

/-- simple_bst/src/map.rs:521-523 `clear`, see `World.clear`: the new map takes the place of the old
one, which is dropped. -/
def clear (lim : Nat) (d : Drops K V) : M (World K V) Unit := do
  let s ← M.get
  M.modify fun s => { s with map := { Simple.Map.new with allocs := s.map.allocs } }
  dropLink d lim s.map.root

/-- Derived `Clone` of `Node` (simple_bst/src/map/node.rs:3), see `World.cloneLink`. -/
def cloneLink (cfg : Cfg) (d : Drops K V) (cloneK : K → Option K) (cloneV : V → Option V) :
    Nat → Bool → Link K V → M (World K V) (Link K V)
  | _, _, .nil => pure .nil
  | 0, _, .node _ _ _ _ => M.lift .abort
  | lim + 1, boxed, .node k v l r => do
    World.cloneBox cfg boxed
    let k ← World.cloneWith cloneK .inl k
    let v ← onPanic (World.cloneWith cloneV .inr v) (World.dropItem d (.inl k))
    let l ← onPanic (cloneLink cfg d cloneK cloneV lim true l)
      (both (World.dropItem d (.inr v)) (World.dropItem d (.inl k)))
    let r ← onPanic (cloneLink cfg d cloneK cloneV lim true r)
      (both (dropLink d lim l) (both (World.dropItem d (.inr v)) (World.dropItem d (.inl k))))
    pure (.node k v l r)

/-- simple_bst/src/map.rs:19 derived `clone` of the map, see `World.clone`. -/
def clone (lim : Nat) (cfg : Cfg) (d : Drops K V) (cloneK : K → Option K) (cloneV : V → Option V) :
    M (World K V) (Simple.Map K V) := do
  let s ← M.get
  let root ← cloneLink cfg d cloneK cloneV lim false s.map.root
  let s' ← M.get
  pure { root, len := s.map.len, allocs := s'.map.allocs }

/-- Derived `PartialEq` of `Option<Box<Node>>` (simple_bst/src/map/node.rs:3), see `Link.eq`. -/
def eqLink (keq : K → K → Bool) (veq : V → V → Bool) : Nat → Link K V → Link K V → Out Bool
  | _, .nil, .nil => pure true
  | 0, .node _ _ _ _, .node _ _ _ _ => .abort
  | lim + 1, .node k v l r, .node k' v' l' r' =>
    if keq k k' && veq v v' then do
      let same ← eqLink keq veq lim l l'
      if same then eqLink keq veq lim r r' else pure false
    else pure false
  | _, _, _ => pure false

/-- Derived `PartialEq` of `Node` (simple_bst/src/map/node.rs:3), see `Ref.eq`. This call counts. -/
def eqRef (keq : K → K → Bool) (veq : V → V → Bool) : Nat → Ref K V → Ref K V → Out Bool
  | 0, _, _ => .abort
  | lim + 1, a, b =>
    if keq a.key b.key && veq a.value b.value then do
      let same ← eqLink keq veq lim a.left b.left
      if same then eqLink keq veq lim a.right b.right else pure false
    else pure false

/-- Derived `Debug` of `Option<Box<Node>>` (simple_bst/src/map/node.rs:3), see `Map.debugLink`. -/
def debugLink (dk : K → String) (dv : V → String) : Nat → Link K V → Out String
  | _, .nil => pure "None"
  | 0, .node _ _ _ _ => .abort
  | lim + 1, .node k v l r => do
    let l ← debugLink dk dv lim l
    let r ← debugLink dk dv lim r
    pure ("Some(" ++ ("Node { key: " ++ dk k ++ ", value: " ++ dv v ++ ", left: " ++ l ++ ", right: " ++
      r ++ " }") ++ ")")

/-- simple_bst/src/map.rs:19 derived `Debug`, see `Map.debug`. -/
def debugSimple (lim : Nat) (dk : K → String) (dv : V → String) (m : Simple.Map K V) : Out String := do
  let root ← debugLink dk dv lim m.root
  pure ("SimpleBSTMap { root: " ++ root ++ ", len: " ++ toString m.len ++ " }")

/-- simple_bst/src/set/node.rs:9-19 `Debug for Node`, see `SSet.debugLink`. -/
def debugSetLink (dt : T → String) : Nat → Link T Unit → Out String
  | _, .nil => pure "None"
  | 0, .node _ _ _ _ => .abort
  | lim + 1, .node k _ l r => do
    let l ← debugSetLink dt lim l
    let r ← debugSetLink dt lim r
    pure ("Some(" ++ ("Node { value: " ++ dt k ++ ", left: " ++ l ++ ", right: " ++ r ++ " }") ++ ")")

/-- simple_bst/src/set.rs:31-39 `Debug for SimpleBSTSet`, see `SSet.debug`. -/
def debugSimpleSet (lim : Nat) (dt : T → String) (s : SSet T) : Out String := do
  let root ← debugSetLink dt lim s.items.root
  pure ("SimpleBSTSet { root: " ++ root ++ " }")

/-- src/map/node.rs:15-27 `Debug for Node`, see `BSTMap.debugNode`. -/
def debugNode (dk : K → String) (dv : V → String) (nodes : Nodes K V) : Nat → Node K V → Out String
  | 0, _ => .abort
  | lim + 1, n => do
    let l ← n.left nodes
    let l ← (match l with
      | none => pure none
      | some c => do let s ← debugNode dk dv nodes lim c; pure (some s) : Out (Option String))
    let r ← n.right nodes
    let r ← (match r with
      | none => pure none
      | some c => do let s ← debugNode dk dv nodes lim c; pure (some s) : Out (Option String))
    pure ("Node { key: " ++ dk n.key ++ ", value: " ++ dv n.value ++
      ", left: " ++ BSTMap.debugOption l ++ ", right: " ++ BSTMap.debugOption r ++ " }")

/-- src/map.rs:68-77 `Debug for BSTMap`, see `BSTMap.debug`. -/
def debug (lim : Nat) (dk : K → String) (dv : V → String) (m : BSTMap K V) : Out String := do
  let root ← m.rootNode
  let r ← (match root with
    | none => pure none
    | some n => do let s ← debugNode dk dv m.nodes lim n; pure (some s) : Out (Option String))
  pure ("BSTMap { root: " ++ BSTMap.debugOption r ++ " }")

/-- src/set/node.rs:9-19 `Debug for Node`, see `BSTSet.debugNode`. -/
def debugSetNode (dt : T → String) (nodes : Nodes T Unit) : Nat → Node T Unit → Out String
  | 0, _ => .abort
  | lim + 1, n => do
    let l ← n.left nodes
    let l ← (match l with
      | none => pure none
      | some c => do let s ← debugSetNode dt nodes lim c; pure (some s) : Out (Option String))
    let r ← n.right nodes
    let r ← (match r with
      | none => pure none
      | some c => do let s ← debugSetNode dt nodes lim c; pure (some s) : Out (Option String))
    pure ("Node { value: " ++ dt n.key ++
      ", left: " ++ BSTMap.debugOption l ++ ", right: " ++ BSTMap.debugOption r ++ " }")

/-- src/set.rs:38-46 `Debug for BSTSet`, see `BSTSet.debug`. -/
def debugSet (lim : Nat) (dt : T → String) (s : BSTSet T) : Out String := do
  let root ← s.rootNode
  let r ← (match root with
    | none => pure none
    | some n => do let s ← debugSetNode dt s.items.nodes lim n; pure (some s) : Out (Option String))
  pure ("BSTSet { root: " ++ BSTMap.debugOption r ++ " }")

end BST.Deep
