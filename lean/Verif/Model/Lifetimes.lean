import Verif.Spec
/-!
# Subtyping and the drop check

The types of both crates with their lifetimes, the fields they are made of, and the rules by
which the compiler derives from them

* which types are subtypes of which (`Sub`): the variance of a struct in its parameters is
  that of its fields, the fields of a struct being covariant; recursive types are treated
  coinductively (the compiler takes the most permissive solution of the constraints);
* which lifetimes and parameters must be alive when a value goes out of scope (`NeedsAlive`):
  those of the fields, except that a type with an `impl Drop` of its own needs all its
  parameters alive, unless they have the attribute `#[may_dangle]`.

The variances and drop behaviour of the types of the standard library are those documented in
the reference of the language and the Rustonomicon. Trait objects, function pointers and
higher-ranked types, which can occur only inside `K`, `V` and `T`, are left out.

The comments of the code make claims about two details of its declarations (`Decls`), so these
are parameters; `Decls.code` is the code as it is.
-/
namespace BST.Lifetimes
open Spec (Order)

/-- Details of the declarations of `StableArena<T>` and `UnsafeSlab<T>`. -/
structure Decls where
  /-- The fields `_marker: PhantomData<T>` are there (src/arena.rs:138, src/slab.rs:70). -/
  marker : Bool
  /-- The `T` in `impl<T> Drop` has the attribute `#[may_dangle]`, as planned in src/arena.rs:437
  and src/slab.rs:287. -/
  mayDangle : Bool

/-- The declarations of the code: the markers are there, the attribute is not. -/
def Decls.code : Decls := ⟨true, false⟩

/-- Lifetimes. Which outlives which is a parameter of the rules. -/
abbrev Life := Nat

/-- Types: parameters, types of the standard library, and the types of the crates. The types
of the crates are as in `Verif/Model/Threads.lean`, with lifetimes. -/
inductive Ty where
  /-- An arbitrary type: `K`, `V`, `T`. -/
  | param (i : Nat)
  /-- A type without any inner structure: `usize`, `str`, `()`. -/
  | plain
  /-- `&'a T` -/
  | ref (a : Life) (t : Ty)
  /-- `&'a mut T` -/
  | refMut (a : Life) (t : Ty)
  /-- `*mut T` -/
  | rawMut (t : Ty)
  /-- `NonNull<T>` -/
  | nonNull (t : Ty)
  /-- `Cell<T>`; the crates do not use it, their users can. -/
  | cell (t : Ty)
  | vec (t : Ty)
  | opt (t : Ty)
  | box (t : Ty)
  | phantom (t : Ty)
  | manuallyDrop (t : Ty)
  | maybeUninit (t : Ty)
  /-- src/arena.rs:94 `Ptr` -/
  | ptr
  /-- src/arena.rs:39 `ExponentialAlloc` -/
  | strategy
  /-- src/arena.rs:110 `StableArena<T>` -/
  | arena (t : Ty)
  /-- src/slab.rs:19 `FreeEntry` -/
  | freeEntry
  /-- src/slab.rs:12 `Entry<T>` (a union) -/
  | entry (t : Ty)
  /-- src/slab.rs:53 `UnsafeSlab<T>` -/
  | slab (t : Ty)
  /-- src/map.rs:21 `InnerNode<K, V>` -/
  | innerNode (k v : Ty)
  /-- src/map.rs:54 `BSTMap<K, V>` -/
  | map (k v : Ty)
  /-- src/map/node.rs:10 `map::Node<'a, K, V>` -/
  | node (a : Life) (k v : Ty)
  /-- src/map/node.rs:101 `map::NodeMut<'a, K, V>` -/
  | nodeMut (a : Life) (k v : Ty)
  /-- src/map/preorder.rs:8, inorder.rs:8, postorder.rs:8 `map::Iter*order<'a, K, V>` -/
  | iter (o : Order) (a : Life) (k v : Ty)
  /-- src/map/preorder.rs:38, inorder.rs:52, postorder.rs:80 `map::IterMut*order<'a, K, V>` -/
  | iterMut (o : Order) (a : Life) (k v : Ty)
  /-- src/set.rs:26 `BSTSet<T>` -/
  | set (t : Ty)
  /-- src/set/node.rs:5 `set::Node<'a, T>` -/
  | setNode (a : Life) (t : Ty)
  /-- src/set/preorder.rs:3, inorder.rs:3, postorder.rs:3 `set::Iter*order<'a, T>` -/
  | setIter (o : Order) (a : Life) (t : Ty)
  /-- simple_bst/src/map/node.rs:4 `Node<K, V>` -/
  | simpleNode (k v : Ty)
  /-- simple_bst/src/map.rs:20 `SimpleBSTMap<K, V>` -/
  | simpleMap (k v : Ty)
  /-- simple_bst/src/map/preorder.rs:5, inorder.rs:5, postorder.rs:6 `Iter*order<'a, K, V>` -/
  | simpleIter (o : Order) (a : Life) (k v : Ty)
  /-- simple_bst/src/set.rs:19 `SimpleBSTSet<T>` -/
  | simpleSet (t : Ty)
  /-- simple_bst/src/set/node.rs:5 `set::Node<'a, T>` -/
  | simpleSetNode (a : Life) (t : Ty)
  /-- simple_bst/src/set/preorder.rs:3, inorder.rs:3, postorder.rs:3 `set::Iter*order<'a, T>` -/
  | simpleSetIter (o : Order) (a : Life) (t : Ty)

/-- The types of the fields of the structs, unions and enums of the crates. -/
def fields (d : Decls) : Ty → List Ty
  -- src/arena.rs:94
  | .ptr => [.nonNull .plain]
  -- src/arena.rs:40
  | .strategy => [.plain]
  -- src/arena.rs:117, 122, 125, 130, 138
  | .arena t => [.vec (.nonNull (.maybeUninit t)), .plain, .plain, .strategy] ++
      if d.marker then [.phantom t] else []
  -- src/slab.rs:22
  | .freeEntry => [.opt .ptr]
  -- src/slab.rs:13-14
  | .entry t => [.manuallyDrop t, .freeEntry]
  -- src/slab.rs:54, 61, 63, 70
  | .slab t => [.arena (.entry t), .opt .ptr, .plain] ++ if d.marker then [.phantom t] else []
  -- src/map.rs:22-25
  | .innerNode k v => [k, v, .opt .ptr, .opt .ptr]
  -- src/map.rs:55-56
  | .map k v => [.slab (.innerNode k v), .opt .ptr]
  -- src/map/node.rs:11-12
  | .node a k v => [.ref a (.slab (.innerNode k v)), .ref a (.innerNode k v)]
  -- src/map/node.rs:102-103
  | .nodeMut a k v => [.rawMut (.slab (.innerNode k v)), .refMut a (.innerNode k v)]
  -- src/map/preorder.rs:9-10, inorder.rs:9-10, postorder.rs:9-10
  | .iter _ a k v => [.ref a (.slab (.innerNode k v)), .vec .ptr]
  -- src/map/preorder.rs:39-41, inorder.rs:53-55, postorder.rs:81-83
  | .iterMut _ a k v => [.rawMut (.slab (.innerNode k v)), .vec .ptr,
      .phantom (.refMut a (.slab (.innerNode k v)))]
  -- src/set.rs:27
  | .set t => [.map t .plain]
  -- src/set/node.rs:6
  | .setNode a t => [.node a t .plain]
  -- src/set/preorder.rs:4, inorder.rs:4, postorder.rs:4
  | .setIter o a t => [.iter o a t .plain]
  -- simple_bst/src/map/node.rs:5-8
  | .simpleNode k v => [k, v, .opt (.box (.simpleNode k v)), .opt (.box (.simpleNode k v))]
  -- simple_bst/src/map.rs:21-22
  | .simpleMap k v => [.opt (.simpleNode k v), .plain]
  -- simple_bst/src/map/preorder.rs:6, inorder.rs:6, postorder.rs:7
  | .simpleIter _ a k v => [.vec (.ref a (.simpleNode k v))]
  -- simple_bst/src/set.rs:20
  | .simpleSet t => [.simpleMap t .plain]
  -- simple_bst/src/set/node.rs:6
  | .simpleSetNode a t => [.ref a (.simpleNode t .plain)]
  -- simple_bst/src/set/preorder.rs:4, inorder.rs:4, postorder.rs:4
  | .simpleSetIter o a t => [.simpleIter o a t .plain]
  | _ => []

/-! ## Subtyping -/

/-- The type constructor: the type with its arguments forgotten. -/
def head : Ty → Ty
  | .param i => .param i
  | .plain => .plain
  | .ref _ _ => .ref 0 .plain
  | .refMut _ _ => .refMut 0 .plain
  | .rawMut _ => .rawMut .plain
  | .nonNull _ => .nonNull .plain
  | .cell _ => .cell .plain
  | .vec _ => .vec .plain
  | .opt _ => .opt .plain
  | .box _ => .box .plain
  | .phantom _ => .phantom .plain
  | .manuallyDrop _ => .manuallyDrop .plain
  | .maybeUninit _ => .maybeUninit .plain
  | .ptr => .ptr
  | .strategy => .strategy
  | .arena _ => .arena .plain
  | .freeEntry => .freeEntry
  | .entry _ => .entry .plain
  | .slab _ => .slab .plain
  | .innerNode _ _ => .innerNode .plain .plain
  | .map _ _ => .map .plain .plain
  | .node _ _ _ => .node 0 .plain .plain
  | .nodeMut _ _ _ => .nodeMut 0 .plain .plain
  | .iter o _ _ _ => .iter o 0 .plain .plain
  | .iterMut o _ _ _ => .iterMut o 0 .plain .plain
  | .set _ => .set .plain
  | .setNode _ _ => .setNode 0 .plain
  | .setIter o _ _ => .setIter o 0 .plain
  | .simpleNode _ _ => .simpleNode .plain .plain
  | .simpleMap _ _ => .simpleMap .plain .plain
  | .simpleIter o _ _ _ => .simpleIter o 0 .plain .plain
  | .simpleSet _ => .simpleSet .plain
  | .simpleSetNode _ _ => .simpleSetNode 0 .plain
  | .simpleSetIter o _ _ => .simpleSetIter o 0 .plain

/-- How the arguments of two types with the same constructor must be related. -/
inductive Arg where
  /-- A lifetime: the one of the subtype outlives the other. -/
  | life (a : Life)
  /-- A covariant position. -/
  | co (t : Ty)
  /-- An invariant position: subtypes of each other. -/
  | inv (t : Ty)

/-- The arguments of a type with their variances: those of the types of the language and the
standard library, and the fields of the types of the crates. -/
def args (d : Decls) : Ty → List Arg
  | .ref a t => [.life a, .co t]
  | .refMut a t => [.life a, .inv t]
  | .rawMut t => [.inv t]
  | .nonNull t => [.co t]
  | .cell t => [.inv t]
  | .vec t => [.co t]
  | .opt t => [.co t]
  | .box t => [.co t]
  | .phantom t => [.co t]
  | .manuallyDrop t => [.co t]
  | .maybeUninit t => [.co t]
  | t => (fields d t).map .co

/-- Two arguments are related, if the facts in `S` can be used. `out a b`: `'a: 'b`. -/
def Arg.Rel (out : Life → Life → Prop) (S : Ty → Ty → Prop) : Arg → Arg → Prop
  | .life a, .life b => out a b
  | .co t, .co u => S t u
  | .inv t, .inv u => S t u ∧ S u t
  | _, _ => False

/-- Two lists of arguments are related one by one. -/
def AllRel (out : Life → Life → Prop) (S : Ty → Ty → Prop) : List Arg → List Arg → Prop
  | [], [] => True
  | x :: xs, y :: ys => x.Rel out S y ∧ AllRel out S xs ys
  | _, _ => False

/-- The compiler concludes that `t` is a subtype of `u`, if the facts in `S` can be used. -/
def Derives (d : Decls) (out : Life → Life → Prop) (S : Ty → Ty → Prop) (t u : Ty) : Prop :=
  head t = head u ∧ AllRel out S (args d t) (args d u)

/-- `t` is a subtype of `u`: it is in a set of facts that support each other. -/
def Sub (d : Decls) (out : Life → Life → Prop) (t u : Ty) : Prop :=
  ∃ S : Ty → Ty → Prop, (∀ t u, S t u → Derives d out S t u) ∧ S t u

/-! ## The drop check -/

/-- Something that a type can mention: a lifetime or an arbitrary type. -/
inductive Atom where
  | life (a : Life)
  | param (i : Nat)
  deriving DecidableEq

/-- The lifetimes and parameters written in a type. -/
def mentions : Ty → List Atom
  | .param i => [.param i]
  | .plain | .ptr | .strategy | .freeEntry => []
  | .ref a t | .refMut a t | .setNode a t | .setIter _ a t | .simpleSetNode a t
  | .simpleSetIter _ a t => .life a :: mentions t
  | .rawMut t | .nonNull t | .cell t | .vec t | .opt t | .box t | .phantom t | .manuallyDrop t
  | .maybeUninit t | .arena t | .entry t | .slab t | .set t | .simpleSet t => mentions t
  | .innerNode k v | .map k v | .simpleNode k v | .simpleMap k v => mentions k ++ mentions v
  | .node a k v | .nodeMut a k v | .iter _ a k v | .iterMut _ a k v | .simpleIter _ a k v =>
      .life a :: (mentions k ++ mentions v)

/-- The types with an `impl Drop` of their own: src/arena.rs:439 `StableArena<T>`, src/slab.rs:289
`UnsafeSlab<T>`. There is none in simple_bst. -/
def hasDrop : Ty → Bool
  | .arena _ => true
  | .slab _ => true
  | _ => false

/-- What is dropped along with a value of the type, as the compiler sees it: the contents of
the owning types of the standard library, and the fields of the types of the crates.
References, raw pointers, `ManuallyDrop` and `MaybeUninit` drop nothing, `PhantomData<T>`
stands for a `T`. -/
def owned (d : Decls) : Ty → List Ty
  | .cell t => [t]
  | .vec t => [t]
  | .opt t => [t]
  | .box t => [t]
  | .phantom t => [t]
  | t => fields d t

/-- The lifetimes and parameters that must still be alive when a value of the type goes out of
scope. A parameter stands for a type about which nothing is known, so it must be alive itself. -/
inductive NeedsAlive (d : Decls) : Ty → Atom → Prop
  | param (i : Nat) : NeedsAlive d (.param i) (.param i)
  | drop (t : Ty) (x : Atom) : hasDrop t = true → d.mayDangle = false → x ∈ mentions t →
      NeedsAlive d t x
  | owned (t u : Ty) (x : Atom) : u ∈ owned d t → NeedsAlive d u x → NeedsAlive d t x

end BST.Lifetimes
