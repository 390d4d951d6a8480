import Verif.Model.BenchOps
import Verif.Client
/-!
# The randomised tests of the project

`test_random_operations` in src/map.rs:932-1054 and src/set.rs:456-556, the same in
simple_bst/src/map.rs:769-892 and simple_bst/src/set.rs:382-482 (the texts differ only in the name of the
type), `test_random_traversals` in src/map.rs:1095-1180, and `test_random_operations` in
src/arena.rs:813-924. A failed assertion is a panic.

The random choices are arguments; all are considered, also those that the tests never make (other
keys and values, more operations). The maps of the standard library that the tests compare with are lists
of entries in no particular order.
-/
namespace BST.Tests
open Bench
variable {K V T : Type}

/-! ### `std::collections::HashMap` -/

/-- `HashMap::get`. -/
def Hash.get [DecidableEq K] (h : List (K × V)) (k : K) : Option V :=
  (h.find? fun e => decide (e.1 = k)).map (·.2)
/-- `HashMap::remove`, what remains. -/
def Hash.remove [DecidableEq K] (h : List (K × V)) (k : K) : List (K × V) :=
  h.filter fun e => decide (e.1 ≠ k)
/-- `HashMap::insert`, or writing through `HashMap::get_mut` if there is an entry. -/
def Hash.insert [DecidableEq K] (h : List (K × V)) (k : K) (v : V) : List (K × V) :=
  (k, v) :: Hash.remove h k

/-! ### `test_random_operations` for maps -/

/-- `assert_eq!(a, b)` -/
def assertEq {α : Type} [DecidableEq α] (a b : α) : Prog K V Unit :=
  if a = b then pure () else .panic

/-- `map.len()` -/
def len (m : Nat) : Prog K V Nat := do
  match ← .ask m .len with
  | .nat n => pure n
  | _ => .panic
/-- `map.is_empty()` -/
def isEmpty (m : Nat) : Prog K V Bool := do
  match ← .ask m .isEmpty with
  | .bool b => pure b
  | _ => .panic
/-- `map.clear()` -/
def clear (m : Nat) : Prog K V Unit := do
  let _ ← .ask m .clear
  pure ()

/-- What an operation of the test does, with its random choices. The position of a key that
`keys.choose` chooses is `i`; there is none only if there are no keys. -/
inductive Act (K V : Type) where
  | miss (key : K)
  | hit (i : Nat)
  | modify (i : Nat) (value : V)
  | remove (i : Nat)
  | insert (key : K) (value : V)

/-- The local variables `expected` and `keys` (src/map.rs:954-956). -/
structure Vars (K V : Type) where
  expected : List (K × V)
  keys : List K

variable [DecidableEq K] [DecidableEq V]

/-- The two lines `assert_eq!(map.get(&key), expected.get(&key));` and
`assert_eq!(map.get_mut(&key), expected.get_mut(&key));` (e.g. src/map.rs:970-971). In the model the
value obtained from `get_mut` is written back. -/
def sameAt (map : Nat) (expected : List (K × V)) (key : K) : Prog K V Unit := do
  let a ← get map key
  assertEq a (Hash.get expected key)
  let b ← modify map key some
  assertEq b (Hash.get expected key)

/-- src/map.rs:962-963. -/
def sameSize (map : Nat) (expected : List (K × V)) : Prog K V Unit := do
  let b ← isEmpty map
  assertEq b expected.isEmpty
  let n ← len map
  assertEq n expected.length

/-- src/map.rs:965-1035. -/
def act (map : Nat) (x : Vars K V) : Act K V → Prog K V (Vars K V)
  | .miss key => do
    sameAt map x.expected key
    pure x
  | .hit i =>
    match x.keys[i]? with
    | none => pure x
    | some key => do
      sameAt map x.expected key
      pure x
  | .modify i value =>
    match x.keys[i]? with
    | none => pure x
    | some key => do
      let a ← get map key
      assertEq a (Hash.get x.expected key)
      match Hash.get x.expected key with
      | none => do
        let _ ← modify map key some
        pure x
      | some _ =>
        match ← modify map key fun _ => some value with
        | none => pure x
        | some _ =>
          let x := { x with expected := Hash.insert x.expected key value }
          sameAt map x.expected key
          pure x
  | .remove i =>
    match x.keys[i]? with
    | none => pure x
    | some key => do
      let a ← remove map key
      assertEq a (Hash.get x.expected key)
      let x := { x with expected := Hash.remove x.expected key }
      let a ← remove map key
      assertEq a (Hash.get x.expected key)
      pure { x with expected := Hash.remove x.expected key }
  | .insert key value => do
    let x := { x with keys := x.keys ++ [key] }
    sameAt map x.expected key
    let a ← insert map key value
    assertEq a (Hash.get x.expected key)
    let x := { x with expected := Hash.insert x.expected key value }
    sameAt map x.expected key
    pure x

/-- The loop of src/map.rs:961-1036. -/
def acts (map : Nat) (x : Vars K V) : List (Act K V) → Prog K V (Vars K V)
  | [] => pure x
  | a :: as => do
    sameSize map x.expected
    let x ← act map x a
    acts map x as

/-- The loops of src/map.rs:1038-1041 and 1049-1052. -/
def sameAll (map : Nat) (expected : List (K × V)) : List K → Prog K V Unit
  | [] => pure ()
  | key :: keys => do
    sameAt map expected key
    sameAll map expected keys

/-- src/map.rs:951-1053, simple_bst/src/map.rs:788-890 `test_case`. -/
def testCase (as : List (Act K V)) : Prog K V Unit := do
  let map ← .make
  let x ← acts map ⟨[], []⟩ as
  sameAll map x.expected x.keys
  clear map
  sameSize map ([] : List (K × V))
  sameAll map [] x.keys

/-! ### `test_random_operations` for sets -/

section
variable [DecidableEq T]

/-- `HashSet::get`. -/
def HashSet.get (h : List T) (t : T) : Option T := h.find? fun x => decide (x = t)
/-- `HashSet::take` or `HashSet::remove`, what remains. -/
def HashSet.remove (h : List T) (t : T) : List T := h.filter fun x => decide (x ≠ t)
/-- `HashSet::insert`. -/
def HashSet.insert (h : List T) (t : T) : List T := if t ∈ h then h else t :: h

/-- `assert_eq!(a, b)` -/
def sAssertEq {α : Type} [DecidableEq α] (a b : α) : SetProg T Unit :=
  if a = b then pure () else .panic

/-- `set.len()` -/
def sLen (s : Nat) : SetProg T Nat := do
  match ← .ask s .len with
  | .nat n => pure n
  | _ => .panic
/-- `set.is_empty()` -/
def sIsEmpty (s : Nat) : SetProg T Bool := do
  match ← .ask s .isEmpty with
  | .bool b => pure b
  | _ => .panic
/-- `set.take(&t)` -/
def sTake (s : Nat) (t : T) : SetProg T (Option T) := do
  match ← .ask s (.take t) with
  | .elem o => pure o
  | _ => .panic
/-- `set.clear()` -/
def sClear (s : Nat) : SetProg T Unit := do
  let _ ← .ask s .clear
  pure ()

/-- What an operation of the test does, with its random choices, see `Act`. -/
inductive SetAct (T : Type) where
  | miss (value : T)
  | hit (i : Nat)
  | remove (i : Nat)
  | insert (value : T)

/-- The local variables `expected` and `values` (src/set.rs:478-480). -/
structure SetVars (T : Type) where
  expected : List T
  values : List T

/-- The two lines `assert_eq!(set.contains(&value), expected.contains(&value));` and
`assert_eq!(set.get(&value), expected.get(&value));` (e.g. src/set.rs:492-493). -/
def sSameAt (set : Nat) (expected : List T) (value : T) : SetProg T Unit := do
  let a ← sContains set value
  sAssertEq a (decide (value ∈ expected))
  let b ← sGet set value
  sAssertEq b (HashSet.get expected value)

/-- src/set.rs:484-485. -/
def sSameSize (set : Nat) (expected : List T) : SetProg T Unit := do
  let b ← sIsEmpty set
  sAssertEq b expected.isEmpty
  let n ← sLen set
  sAssertEq n expected.length

/-- src/set.rs:487-537. -/
def sAct (set : Nat) (x : SetVars T) : SetAct T → SetProg T (SetVars T)
  | .miss value => do
    sSameAt set x.expected value
    pure x
  | .hit i =>
    match x.values[i]? with
    | none => pure x
    | some value => do
      sSameAt set x.expected value
      pure x
  | .remove i =>
    match x.values[i]? with
    | none => pure x
    | some value => do
      let a ← sTake set value
      sAssertEq a (HashSet.get x.expected value)
      let x := { x with expected := HashSet.remove x.expected value }
      let a ← sTake set value
      sAssertEq a (HashSet.get x.expected value)
      let x := { x with expected := HashSet.remove x.expected value }
      let b ← sRemove set value
      sAssertEq b (decide (value ∈ x.expected))
      pure { x with expected := HashSet.remove x.expected value }
  | .insert value => do
    let x := { x with values := x.values ++ [value] }
    sSameAt set x.expected value
    let b ← sInsert set value
    sAssertEq b (decide (value ∉ x.expected))
    let x := { x with expected := HashSet.insert x.expected value }
    sSameAt set x.expected value
    pure x

/-- The loop of src/set.rs:483-538. -/
def sActs (set : Nat) (x : SetVars T) : List (SetAct T) → SetProg T (SetVars T)
  | [] => pure x
  | a :: as => do
    sSameSize set x.expected
    let x ← sAct set x a
    sActs set x as

/-- The loops of src/set.rs:540-543 and 551-554. -/
def sSameAll (set : Nat) (expected : List T) : List T → SetProg T Unit
  | [] => pure ()
  | value :: values => do
    sSameAt set expected value
    sSameAll set expected values

/-- src/set.rs:475-555, simple_bst/src/set.rs:401-481 `test_case`. -/
def setTestCase (as : List (SetAct T)) : SetProg T Unit := do
  let set ← .make
  let x ← sActs set ⟨[], []⟩ as
  sSameAll set x.expected x.values
  sClear set
  sSameSize set ([] : List T)
  sSameAll set [] x.values
end

/-! ### `test_random_traversals` -/

/-- src/map.rs:1157-1163 `preorder`. The first number is that of the nested calls for which there is
room on the machine's stack, as in `Model/Recursion.lean`. -/
def preorder (nodes : Nodes K V) : Nat → Option (Node K V) → List (K × V) → Out (List (K × V))
  | 0, _, _ => .abort
  | _ + 1, none, items => pure items
  | lim + 1, some node, items => do
    let items := items ++ [(node.key, node.value)]
    let l ← node.left nodes
    let items ← preorder nodes lim l items
    let r ← node.right nodes
    preorder nodes lim r items

/-- src/map.rs:1165-1171 `inorder`. -/
def inorder (nodes : Nodes K V) : Nat → Option (Node K V) → List (K × V) → Out (List (K × V))
  | 0, _, _ => .abort
  | _ + 1, none, items => pure items
  | lim + 1, some node, items => do
    let l ← node.left nodes
    let items ← inorder nodes lim l items
    let items := items ++ [(node.key, node.value)]
    let r ← node.right nodes
    inorder nodes lim r items

/-- src/map.rs:1173-1179 `postorder`. -/
def postorder (nodes : Nodes K V) : Nat → Option (Node K V) → List (K × V) → Out (List (K × V))
  | 0, _, _ => .abort
  | _ + 1, none, items => pure items
  | lim + 1, some node, items => do
    let l ← node.left nodes
    let items ← postorder nodes lim l items
    let r ← node.right nodes
    let items ← postorder nodes lim r items
    pure (items ++ [(node.key, node.value)])

/-- `for (expected, actual) in expected.into_iter().zip(actual) { assert_eq!(expected, actual); }`
(e.g. src/map.rs:1138-1140). `zip` ends with the shorter one. -/
def zipped {σ : Type} (next : σ → Out (Option (K × V) × σ)) : List (K × V) → σ → Out Unit
  | [], _ => pure ()
  | e :: es, st => do
    let (o, st) ← next st
    match o with
    | none => pure ()
    | some a => if e = a then zipped next es st else .panic

/-- src/map.rs:1135-1154. -/
def traverse (lim : Nat) (map : BSTMap K V) : Out Unit := do
  let root ← map.rootNode
  let expected ← preorder map.nodes lim root []
  let actual ← IterPreorder.new map.nodes map.root
  zipped (IterPreorder.next map.nodes) expected actual
  let root ← map.rootNode
  let expected ← inorder map.nodes lim root []
  let actual ← IterInorder.new map.nodes map.root
  zipped (IterInorder.next map.nodes) expected actual
  let root ← map.rootNode
  let expected ← postorder map.nodes lim root []
  let actual ← IterPostorder.new map.nodes map.root
  zipped (IterPostorder.next map.nodes) expected actual

/-- The loop of src/map.rs:1121-1133. A round is the position of a key that is removed first, if one is,
and the key that is inserted. -/
def fill (cfg : Cfg) (cmp : K → K → Ordering) : List K → List (Option Nat × K) → M (BSTMap K K) Unit
  | _, [] => pure ()
  | keys, (i, value) :: rounds => do
    match i.bind fun i => keys[i]? with
    | some key => do
      let _ ← BSTMap.remove cfg (query (cmp key))
      pure ()
    | none => pure ()
    let _ ← BSTMap.insert cfg (query (cmp value)) value value
    fill cfg cmp (keys ++ [value]) rounds

/-- src/map.rs:1114-1155 `test_case`. -/
def traversalsCase (cfg : Cfg) (cmp : K → K → Ordering) (lim : Nat) (rounds : List (Option Nat × K)) :
    M (BSTMap K K) Unit := do
  fill cfg cmp [] rounds
  M.read (traverse lim)

/-! ### `test_random_operations` for arenas -/

section
variable [DecidableEq T]

/-- What an operation of the test does, with its random choices. -/
inductive ArenaAct (T : Type) where
  | alloc (value : T)
  | modify (index : Nat) (value : T)
  | reserve (additional : Nat)
  | shrink

/-- The local variables `expected` and `ptrs` (src/arena.rs:835-837). -/
structure ArenaVars (T : Type) where
  expected : List T
  ptrs : List Ptr

/-- `assert_eq!(a, b)` -/
def aAssertEq {α : Type} [DecidableEq α] (a b : α) : M (Arena T) Unit :=
  if a = b then pure () else M.panic

/-- src/arena.rs:864-867. `zip` ends with the shorter one. -/
def aSameAll : List Ptr → List T → M (Arena T) Unit
  | ptr :: ptrs, e :: es => do
    let value ← M.read fun a => a.getUnchecked ptr
    aAssertEq value e
    aSameAll ptrs es
  | _, _ => pure ()

/-- src/arena.rs:847-858. -/
def aClear (cfg : Cfg) (d : DropInfo T) (x : ArenaVars T) : Bool → M (Arena T) (ArenaVars T)
  | false => pure x
  | true => do
  let a ← M.get
  let capacity := a.capacity
  Arena.clear cfg d.needsDrop d.panics
  let a ← M.get
  aAssertEq a.capacity capacity
  pure ⟨[], []⟩

/-- src/arena.rs:869-921. Indexing `ptrs` cannot panic, since `index` is chosen below its length; other
numbers are treated like the case without pointers. The `Vec` is a list: its capacity and the two
assertions about the `Vec` alone (879 and 883) are left out. -/
def aAct (cfg : Cfg) (x : ArenaVars T) : ArenaAct T → M (Arena T) (ArenaVars T)
  | .alloc value => do
    let ptr ← Arena.alloc cfg value
    let v ← M.read fun a => a.getUnchecked ptr
    aAssertEq v value
    let a ← M.get
    aAssertEq (decide (0 < a.capacity)) true
    pure ⟨x.expected ++ [value], x.ptrs ++ [ptr]⟩
  | .modify index value =>
    match x.ptrs[index]? with
    | none => pure x
    | some ptr => do
      let v ← M.read fun a => a.getUnchecked ptr
      aAssertEq (some v) x.expected[index]?
      Arena.setUnchecked ptr value
      let expected := x.expected.set index value
      let v ← M.read fun a => a.getUnchecked ptr
      aAssertEq (some v) expected[index]?
      pure { x with expected }
  | .reserve additional => do
    Arena.reserve cfg additional
    pure x
  | .shrink => do
    Arena.shrinkToFit cfg
    pure x

/-- The loop of src/arena.rs:845-922. With every operation comes whether the arena is cleared first; the
test does that at most once. -/
def aActs (cfg : Cfg) (d : DropInfo T) (x : ArenaVars T) :
    List (Bool × ArenaAct T) → M (Arena T) (ArenaVars T)
  | [] => pure x
  | (c, act) :: as => do
    let x ← aClear cfg d x c
    let a ← M.get
    aAssertEq a.isEmpty x.expected.isEmpty
    aAssertEq a.len x.expected.length
    aSameAll x.ptrs x.expected
    let x ← aAct cfg x act
    aActs cfg d x as

/-- src/arena.rs:832-923 `test_case`, on the new arena. At its end the arena is dropped. -/
def arenaCase (cfg : Cfg) (d : DropInfo T) (as : List (Bool × ArenaAct T)) : M (Arena T) Unit := do
  let _ ← aActs cfg d ⟨[], []⟩ as
  Arena.drop cfg d.needsDrop d.panics
end

/-- For how many elements an operation needs room, at most (not part of the test). -/
def ArenaAct.room : ArenaAct T → Nat
  | .alloc _ => 1
  | .reserve additional => additional
  | _ => 0

end BST.Tests
