import Verif.Model.SimpleDtors
import Verif.Model.SimpleSet
import Verif.Model.SetDtors
/-!
# Destructors in `simple_bst::SimpleBSTSet`

As `Verif/Model/SimpleDtors.lean`, for the functions of simple_bst/src/set.rs that run destructors.
A set is a struct with the one field `items: SimpleBSTMap<T, ()>` (simple_bst/src/set.rs:19-21),
without a `Drop` of its own: what is dropped in a map of elements to `()` is dropped here. The values
`()` have no destructors, so that only what becomes of the elements is written down.
-/
namespace BST.Simple.SSet
variable {T α : Type}
open BSTSet.World (elemsOf drops)

/-- A set and (ghost) what became of elements: the destructors that were run, in order, and the
clones that were made. -/
structure World (T : Type) where
  set : SSet T
  dropped : List T
  made : List T

namespace World

/-- An empty set, and nothing has happened. -/
def new : World T := { set := SSet.new, dropped := [], made := [] }

/-- A map, and nothing has happened to it. -/
def fresh (m : Map T Unit) : Simple.World T Unit :=
  { map := m, dropped := [], leaked := [], made := [] }

/-- What happened to the field `items` happened to the set. -/
def after (s : World T) (w : Simple.World T Unit) : World T where
  set := ⟨w.map⟩
  dropped := s.dropped ++ elemsOf w.dropped
  made := s.made ++ elemsOf w.made

/-- Use the field `items`. -/
def onItems (f : M (Simple.World T Unit) α) : M (World T) α := fun s =>
  match f (fresh s.set.items) with
  | (o, w) => (o, s.after w)

/-- Call a function that runs no destructors. -/
def onSet (f : M (SSet T) α) : M (World T) α := fun s =>
  match f s.set with
  | (o, set) => (o, { s with set })

/-- Run the destructor of an element. -/
def dropElem (bad : T → Bool) (t : T) : M (World T) Unit := fun s =>
  (if bad t then .panic else .ok (), { s with dropped := s.dropped ++ [t] })

/-- simple_bst/src/set.rs:168-170 `insert`. -/
def insert (cfg : Cfg) (bad : T → Bool) (c : Probe T) (value : T) : M (World T) Bool := do
  let prev ← onItems (Simple.World.insert cfg (drops bad) c value ())
  pure prev.isNone

/-- simple_bst/src/set.rs:209-214 `take`. The closure takes the element and a `()` apart. -/
def take (cfg : Cfg) (c : Probe T) : M (World T) (Option T) := do
  let e ← onItems (Simple.World.onMap (Map.removeEntry cfg c))
  pure (e.map (·.1))

/-- simple_bst/src/set.rs:187-192 `remove`: the `Option<T>` that `take` returns is a temporary,
dropped at the end. -/
def remove (cfg : Cfg) (bad : T → Bool) (c : Probe T) : M (World T) Bool := do
  let e ← take cfg c
  match e with
  | none => pure false
  | some t =>
    dropElem bad t
    pure true

/-- simple_bst/src/set.rs:229-231 `clear`. -/
def clear (bad : T → Bool) : M (World T) Unit := onItems (Simple.World.clear (drops bad))

/-- simple_bst/src/set.rs:298-302 `extend`. The adapter `Map` owns the iterator, and drops it. -/
def extend (cfg : Cfg) (bad : T → Bool) (cmps : Nat → T → Probe T) (src : BSTSet.Source T) :
    M (World T) Unit := onItems (Simple.World.extend cfg (drops bad) cmps src.toMap)

/-- The assignment `*set = SimpleBSTSet { items: f(..) }`: the old set is dropped before the new one
takes its place, which it does even if that panics. -/
def assign (bad : T → Bool) (f : M (Simple.World T Unit) (Map T Unit)) : M (World T) Unit :=
  onItems (Simple.World.assign (drops bad) f)

/-- The field of simple_bst/src/set.rs:304-310 `from_iter`. -/
def fromIter (cfg : Cfg) (bad : T → Bool) (cmps : Nat → T → Probe T) (src : BSTSet.Source T) :
    M (Simple.World T Unit) (Map T Unit) :=
  Simple.World.fromIter cfg (drops bad) cmps src.toMap

/-- The field of simple_bst/src/set.rs:18 derived `clone` (`()` clones to itself). -/
def clone (cfg : Cfg) (bad : T → Bool) (cloneT : T → Option T) :
    M (Simple.World T Unit) (Map T Unit) :=
  Simple.World.clone cfg (drops bad) cloneT some

/-- The set goes out of scope. Afterwards there is no set (in the model: an empty one). -/
def drop (bad : T → Bool) : M (World T) Unit := onItems (Simple.World.drop (drops bad))

end World
end BST.Simple.SSet
