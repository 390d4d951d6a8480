import Verif.Proofs.Threads
/-!
# `Send` and `Sync`

`Holds env tr t`: by the rules of the language, the fields of the types and the hand-written
`unsafe impl`s of the crates (`Verif/Model/Threads.lean`), the type `t` has the trait `tr`.
The types `k`, `v`, `t` below are arbitrary, for example parameters with the traits given by
`env`, or again maps.
-/
namespace BST.Props
open Spec (Order)
open Threads

variable {env : Trait → Nat → Prop} {k v t : Ty} {o : Order}

/-- C32. A `BSTMap` can be sent to another thread iff its keys and values can, and shared
with another thread iff its keys and values can. -/
theorem C32_map :
    (Holds env .send (.map k v) ↔ Holds env .send k ∧ Holds env .send v) ∧
    (Holds env .sync (.map k v) ↔ Holds env .sync k ∧ Holds env .sync v) :=
  ⟨holds_map, holds_map⟩

/-- C32. The same for `BSTSet`. -/
theorem C32_set :
    (Holds env .send (.set t) ↔ Holds env .send t) ∧
    (Holds env .sync (.set t) ↔ Holds env .sync t) :=
  ⟨holds_set, holds_set⟩

/-- C32. The handles that give shared access (nodes and iterators) can be sent and shared iff
the keys and values can be shared. -/
theorem C32_shared (tr : Trait) :
    (Holds env tr (.node k v) ↔ Holds env .sync k ∧ Holds env .sync v) ∧
    (Holds env tr (.iter o k v) ↔ Holds env .sync k ∧ Holds env .sync v) ∧
    (Holds env tr (.setNode t) ↔ Holds env .sync t) ∧
    (Holds env tr (.setIter o t) ↔ Holds env .sync t) :=
  ⟨holds_node, holds_iter, holds_setNode, holds_setIter⟩

/-- C32. A `NodeMut` behaves like an exclusive reference to the keys and values. -/
theorem C32_nodeMut (tr : Trait) :
    Holds env tr (.nodeMut k v) ↔ Holds env tr (.refMut k) ∧ Holds env tr (.refMut v) := by
  rw [holds_nodeMut, holds_refMut, holds_refMut]

/-- C32. The mutable iterators can neither be sent nor shared, whatever the keys and values
are. -/
theorem C32_iterMut (tr : Trait) : ¬ Holds env tr (.iterMut o k v) := holds_iterMut

/-- C32. Everything that the public methods of a handle give access to may be used by the
thread that has the handle. Whoever receives a handle by value gets what is listed for
`send`; whoever receives a reference to it gets what is listed for `sync`: values that can be
moved out (`BSTMap::remove_entry`), references to keys and values (all of them are reachable
from the handle through `left` and `right`, `next` and so on). -/
theorem C32_access :
    (Holds env .send (.map k v) → Holds env .send k ∧ Holds env .send v ∧
      Holds env .send (.refMut v)) ∧
    (Holds env .sync (.map k v) → Holds env .send (.ref k) ∧ Holds env .send (.ref v) ∧
      Holds env .send (.node k v) ∧ Holds env .send (.iter o k v)) ∧
    (∀ tr, Holds env tr (.node k v) → Holds env .send (.ref k) ∧ Holds env .send (.ref v)) ∧
    (∀ tr, Holds env tr (.iter o k v) → Holds env .send (.ref k) ∧ Holds env .send (.ref v)) ∧
    (Holds env .send (.nodeMut k v) → Holds env .send (.refMut k) ∧ Holds env .send (.refMut v)) ∧
    (Holds env .sync (.nodeMut k v) → Holds env .send (.ref k) ∧ Holds env .send (.ref v)) := by
  simp only [holds_map, holds_node, holds_iter, holds_nodeMut, holds_ref, holds_refMut]
  exact ⟨fun h => ⟨h.1, h.2, h.2⟩, fun h => ⟨h.1, h.2, h, h⟩, fun _ h => h, fun _ h => h,
    fun h => h, fun h => h⟩

/-- C32. The crate `simple_bst`: the same, although its nodes contain nodes. -/
theorem C32_simple (tr : Trait) :
    (Holds env tr (.simpleMap k v) ↔ Holds env tr k ∧ Holds env tr v) ∧
    (Holds env tr (.simpleNode k v) ↔ Holds env tr k ∧ Holds env tr v) ∧
    (Holds env tr (.simpleIter o k v) ↔ Holds env .sync k ∧ Holds env .sync v) ∧
    (Holds env tr (.simpleSet t) ↔ Holds env tr t) ∧
    (Holds env tr (.simpleSetNode t) ↔ Holds env .sync t) ∧
    (Holds env tr (.simpleSetIter o t) ↔ Holds env .sync t) :=
  ⟨holds_simpleMap, holds_simpleNode, holds_simpleIter, holds_simpleSet, holds_simpleSetNode,
    holds_simpleSetIter⟩

/-! ### Examples: the table of tests/send_sync.rs -/

/-- Parameter 0 is like `Rc<i32>` (neither), 1 like `Cell<i32>` (`Send` only), 2 like
`Box<dyn Any + Sync>` (`Sync` only). -/
def sampleEnv : Trait → Nat → Prop
  | .send, i => i = 1
  | .sync, i => i = 2

theorem sampleEnv_param (tr : Trait) (i : Nat) : Holds sampleEnv tr (.param i) ↔ sampleEnv tr i :=
  holds_iff ..

-- tests/send_sync.rs:96-99
example : Holds sampleEnv .send (.map .plain .plain) ∧ Holds sampleEnv .sync (.map .plain .plain) ∧
    ¬ Holds sampleEnv .send (.map (.param 0) .plain) ∧
    ¬ Holds sampleEnv .sync (.map (.param 0) .plain) ∧
    Holds sampleEnv .send (.map (.param 1) .plain) ∧
    ¬ Holds sampleEnv .sync (.map (.param 1) .plain) ∧
    ¬ Holds sampleEnv .send (.map .plain (.param 2)) ∧
    Holds sampleEnv .sync (.map .plain (.param 2)) := by
  simp [C32_map, holds_plain, sampleEnv_param, sampleEnv]

-- tests/send_sync.rs:103-104, 108-109
example : ¬ Holds sampleEnv .send (.node (.param 1) .plain) ∧
    Holds sampleEnv .send (.node .plain (.param 2)) ∧
    Holds sampleEnv .send (.nodeMut (.param 1) .plain) ∧
    ¬ Holds sampleEnv .send (.nodeMut .plain (.param 2)) ∧
    Holds sampleEnv .sync (.nodeMut .plain (.param 2)) := by
  simp [C32_shared (o := .pre) (t := .plain), C32_nodeMut, holds_refMut, holds_plain,
    sampleEnv_param, sampleEnv]

-- The mutable iterators, even of plain data; the shared iterators need only `Sync`.
example : ¬ Holds sampleEnv .send (.iterMut .ino .plain .plain) ∧
    Holds sampleEnv .send (.iter .ino .plain (.param 2)) ∧
    ¬ Holds sampleEnv .sync (.iter .ino .plain (.param 1)) := by
  simp [C32_iterMut, C32_shared (t := .plain), holds_plain, sampleEnv_param, sampleEnv]

-- `C32_access`: a map with values like `Box<dyn Any + Sync>` may be shared, so the thread that
-- shares it may send nodes, iterators and references to values on; the values themselves not.
example : Holds sampleEnv .sync (.map .plain (.param 2)) ∧
    Holds sampleEnv .send (.ref (.param 2)) ∧ ¬ Holds sampleEnv .send (.param 2) := by
  have h : Holds sampleEnv .sync (.map .plain (.param 2)) := by
    simp [C32_map, holds_plain, sampleEnv_param, sampleEnv]
  exact ⟨h, (C32_access (o := .ino) (k := .plain)).2.1 h |>.2.1, by simp [sampleEnv_param, sampleEnv]⟩

-- `C32_simple`: nodes of `simple_bst` are owned data, so they follow their contents.
example : Holds sampleEnv .send (.simpleMap .plain (.param 1)) ∧
    ¬ Holds sampleEnv .sync (.simpleMap .plain (.param 1)) ∧
    ¬ Holds sampleEnv .send (.simpleIter .ino .plain (.param 1)) := by
  simp [C32_simple (o := .ino) (t := .plain), holds_plain, sampleEnv_param, sampleEnv]

-- A map of maps.
example : Holds sampleEnv .send (.map .plain (.set (.map (.param 1) .plain))) ∧
    ¬ Holds sampleEnv .sync (.map .plain (.set (.map (.param 1) .plain))) := by
  simp [C32_map, C32_set, holds_plain, sampleEnv_param, sampleEnv]

end BST.Props
