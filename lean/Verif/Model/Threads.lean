import Verif.Spec
/-!
# `Send` and `Sync`

The types of both crates, the fields they are made of, the hand-written `unsafe impl`s, and
the rules by which the compiler derives the auto traits `Send` and `Sync` from them. The
rules are those of the language: an auto trait holds for a struct, union or enum if it holds
for all of its fields, unless the crate has an `impl` of its own, which then decides; cycles
are allowed (the traits are coinductive). Lifetimes are left out, they play no role.
-/
namespace BST.Threads
open Spec (Order)

/-- The two auto traits. -/
inductive Trait where
  | send
  | sync
  deriving DecidableEq

/-- Types: parameters, types of the standard library, and the types of the crates. -/
inductive Ty where
  /-- An arbitrary type: `K`, `V`, `T`. -/
  | param (i : Nat)
  /-- A type without any inner structure: `usize`, `u32`, `()`. -/
  | plain
  | ref (t : Ty)
  | refMut (t : Ty)
  /-- `*mut T` or `NonNull<T>` -/
  | raw (t : Ty)
  | vec (t : Ty)
  | opt (t : Ty)
  | box (t : Ty)
  | phantom (t : Ty)
  | manuallyDrop (t : Ty)
  | maybeUninit (t : Ty)
  /-- src/arena.rs:94 `Ptr` -/
  | ptr
  /-- src/arena.rs:39 `ExponentialAlloc` -/
  | strategy
  /-- src/arena.rs:110 `StableArena<T>` -/
  | arena (t : Ty)
  /-- src/slab.rs:19 `FreeEntry` -/
  | freeEntry
  /-- src/slab.rs:12 `Entry<T>` (a union) -/
  | entry (t : Ty)
  /-- src/slab.rs:53 `UnsafeSlab<T>` -/
  | slab (t : Ty)
  /-- src/map.rs:21 `InnerNode<K, V>` -/
  | innerNode (k v : Ty)
  /-- src/map.rs:54 `BSTMap<K, V>` -/
  | map (k v : Ty)
  /-- src/map/node.rs:10 `map::Node<'_, K, V>` -/
  | node (k v : Ty)
  /-- src/map/node.rs:101 `map::NodeMut<'_, K, V>` -/
  | nodeMut (k v : Ty)
  /-- src/map/preorder.rs:8, inorder.rs:8, postorder.rs:8 `map::Iter*order<'_, K, V>` -/
  | iter (o : Order) (k v : Ty)
  /-- src/map/preorder.rs:38, inorder.rs:52, postorder.rs:80 `map::IterMut*order<'_, K, V>` -/
  | iterMut (o : Order) (k v : Ty)
  /-- src/set.rs:26 `BSTSet<T>` -/
  | set (t : Ty)
  /-- src/set/node.rs:5 `set::Node<'_, T>` -/
  | setNode (t : Ty)
  /-- src/set/preorder.rs:3, inorder.rs:3, postorder.rs:3 `set::Iter*order<'_, T>` -/
  | setIter (o : Order) (t : Ty)
  /-- simple_bst/src/map/node.rs:4 `Node<K, V>` -/
  | simpleNode (k v : Ty)
  /-- simple_bst/src/map.rs:20 `SimpleBSTMap<K, V>` -/
  | simpleMap (k v : Ty)
  /-- simple_bst/src/map/preorder.rs:5, inorder.rs:5, postorder.rs:6 `Iter*order<'_, K, V>` -/
  | simpleIter (o : Order) (k v : Ty)
  /-- simple_bst/src/set.rs:19 `SimpleBSTSet<T>` -/
  | simpleSet (t : Ty)
  /-- simple_bst/src/set/node.rs:5 `set::Node<'_, T>` -/
  | simpleSetNode (t : Ty)
  /-- simple_bst/src/set/preorder.rs:3, inorder.rs:3, postorder.rs:3 `set::Iter*order<'_, T>` -/
  | simpleSetIter (o : Order) (t : Ty)

/-- The types of the fields of the structs, unions and enums. -/
def fields : Ty → List Ty
  -- src/arena.rs:94
  | .ptr => [.raw .plain]
  -- src/arena.rs:40
  | .strategy => [.plain]
  -- src/arena.rs:117, 122, 125, 130, 138
  | .arena t => [.vec (.raw (.maybeUninit t)), .plain, .plain, .strategy, .phantom t]
  -- src/slab.rs:22
  | .freeEntry => [.opt .ptr]
  -- src/slab.rs:13-14
  | .entry t => [.manuallyDrop t, .freeEntry]
  -- src/slab.rs:54, 61, 63, 70
  | .slab t => [.arena (.entry t), .opt .ptr, .plain, .phantom t]
  -- src/map.rs:22-25
  | .innerNode k v => [k, v, .opt .ptr, .opt .ptr]
  -- src/map.rs:55-56
  | .map k v => [.slab (.innerNode k v), .opt .ptr]
  -- src/map/node.rs:11-12
  | .node k v => [.ref (.slab (.innerNode k v)), .ref (.innerNode k v)]
  -- src/map/node.rs:102-103
  | .nodeMut k v => [.raw (.slab (.innerNode k v)), .refMut (.innerNode k v)]
  -- src/map/preorder.rs:9-10, inorder.rs:9-10, postorder.rs:9-10
  | .iter _ k v => [.ref (.slab (.innerNode k v)), .vec .ptr]
  -- src/map/preorder.rs:39-41, inorder.rs:53-55, postorder.rs:81-83
  | .iterMut _ k v => [.raw (.slab (.innerNode k v)), .vec .ptr,
      .phantom (.refMut (.slab (.innerNode k v)))]
  -- src/set.rs:27
  | .set t => [.map t .plain]
  -- src/set/node.rs:6
  | .setNode t => [.node t .plain]
  -- src/set/preorder.rs:4, inorder.rs:4, postorder.rs:4
  | .setIter o t => [.iter o t .plain]
  -- simple_bst/src/map/node.rs:5-8
  | .simpleNode k v => [k, v, .opt (.box (.simpleNode k v)), .opt (.box (.simpleNode k v))]
  -- simple_bst/src/map.rs:21-22
  | .simpleMap k v => [.opt (.simpleNode k v), .plain]
  -- simple_bst/src/map/preorder.rs:6, inorder.rs:6, postorder.rs:7
  | .simpleIter _ k v => [.vec (.ref (.simpleNode k v))]
  -- simple_bst/src/set.rs:20
  | .simpleSet t => [.simpleMap t .plain]
  -- simple_bst/src/set/node.rs:6
  | .simpleSetNode t => [.ref (.simpleNode t .plain)]
  -- simple_bst/src/set/preorder.rs:4, inorder.rs:4, postorder.rs:4
  | .simpleSetIter o t => [.simpleIter o t .plain]
  | _ => []

/-- The hand-written implementations, with their conditions. -/
def impls : Trait → Ty → Option (List (Trait × Ty))
  -- src/arena.rs:99
  | .send, .ptr => some []
  -- src/arena.rs:103
  | .sync, .ptr => some []
  -- src/arena.rs:142
  | .send, .arena t => some [(.send, t)]
  -- src/arena.rs:144
  | .sync, .arena t => some [(.sync, t)]
  -- src/map/node.rs:106
  | .send, .nodeMut k v => some [(.send, k), (.send, v)]
  -- src/map/node.rs:107
  | .sync, .nodeMut k v => some [(.sync, k), (.sync, v)]
  | _, _ => none

/-- The facts from which the compiler concludes that the trait holds, if the facts in `S` can
be used. `env` says which traits the parameters have. -/
def Derives (env : Trait → Nat → Prop) (S : Trait → Ty → Prop) (tr : Trait) : Ty → Prop
  | .param i => env tr i
  | .plain => True
  -- `&T` is `Send` if `T` is `Sync`.
  | .ref t => S .sync t
  | .refMut t => S tr t
  | .raw _ => False
  | .vec t => S tr t
  | .opt t => S tr t
  | .box t => S tr t
  | .phantom t => S tr t
  | .manuallyDrop t => S tr t
  | .maybeUninit t => S tr t
  | t =>
    match impls tr t with
    | some cond => ∀ c ∈ cond, S c.1 c.2
    | none => ∀ f ∈ fields t, S tr f

/-- The trait holds: it is in a set of facts that support each other. -/
def Holds (env : Trait → Nat → Prop) (tr : Trait) (t : Ty) : Prop :=
  ∃ S : Trait → Ty → Prop, (∀ tr t, S tr t → Derives env S tr t) ∧ S tr t

end BST.Threads
