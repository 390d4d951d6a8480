import Verif.Model.MapDtors
/-!
# Destructors in `bst::BSTSet`, one by one

As `Verif/Model/MapDtors.lean`, for the functions of src/set.rs that run destructors. A set is a
struct with the one field `items: BSTMap<T, ()>` (src/set.rs:22-28), without a `Drop` of its own: whatever
is dropped in a map of elements to `()` is dropped here. The values `()` have no destructors, so
that only what becomes of the elements is written down.

Nodes are taken to need dropping (`mem::needs_drop::<InnerNode<T, ()>>()`): otherwise there are
no destructors to speak of.
-/
namespace BST.BSTSet
variable {T α : Type}

/-- A set and (ghost) what became of elements: the destructors that were run, in order, the clones
that were made, and the sets whose drop was cut short by a destructor that panicked (as they were
before). -/
structure World (T : Type) where
  set : BSTSet T
  dropped : List T
  made : List T
  cut : List (BSTSet T)
deriving DecidableEq

namespace World

/-- The elements among keys and values of a map of elements to `()`. -/
def elemsOf (l : List (T ⊕ Unit)) : List T := l.filterMap Sum.getLeft?

/-- `bad`: which elements panic when they are dropped. (Whether return values are leaked does not matter: in
the field `items` they are `()`.) -/
def drops (bad : T → Bool) : Simple.Drops T Unit := ⟨bad, fun _ => false, true⟩

/-- An empty set, and nothing has happened. -/
def new : World T := { set := BSTSet.new, dropped := [], made := [], cut := [] }

/-- A map, and nothing has happened to it. -/
def fresh (m : BSTMap T Unit) : BSTMap.World T Unit :=
  { map := m, dropped := [], leaked := [], made := [], cut := [] }

/-- What happened to the field `items` happened to the set. -/
def after (s : World T) (w : BSTMap.World T Unit) : World T where
  set := ⟨w.map⟩
  dropped := s.dropped ++ elemsOf w.dropped
  made := s.made ++ elemsOf w.made
  cut := s.cut ++ w.cut.map fun m => ⟨m⟩

/-- Use the field `items`. -/
def onItems (f : M (BSTMap.World T Unit) α) : M (World T) α := fun s =>
  match f (fresh s.set.items) with
  | (o, w) => (o, s.after w)

/-- Call a function that runs no destructors but those of `clear`. -/
def onSet (f : M (BSTSet T) α) : M (World T) α :=
  onItems (BSTMap.World.onMap fun m => match f ⟨m⟩ with
    | (o, s) => (o, s.items))

/-- Run the destructor of an element. -/
def dropElem (bad : T → Bool) (t : T) : M (World T) Unit := fun s =>
  (if bad t then .panic else .ok (), { s with dropped := s.dropped ++ [t] })

/-- src/set.rs:221-223 `insert`. -/
def insert (cfg : Cfg) (bad : T → Bool) (c : Probe T) (value : T) : M (World T) Bool := do
  let prev ← onItems (BSTMap.World.insert cfg (drops bad) c value ())
  pure prev.isNone

/-- src/set.rs:262-267 `take`. The closure takes the element and a `()` apart. -/
def take (cfg : Cfg) (c : Probe T) : M (World T) (Option T) := do
  let e ← onItems (BSTMap.World.onMap (BSTMap.removeEntry cfg c))
  pure (e.map (·.1))

/-- src/set.rs:240-245 `remove`: the `Option<T>` that `take` returns is a temporary, dropped at the end. -/
def remove (cfg : Cfg) (bad : T → Bool) (c : Probe T) : M (World T) Bool := do
  let e ← take cfg c
  match e with
  | none => pure false
  | some t =>
    dropElem bad t
    pure true

/-- src/set.rs:373-375 `extend`. The adapter `Map` owns the iterator, and drops it. -/
def extend (cfg : Cfg) (bad : T → Bool) (cmps : Nat → T → Probe T) (src : Source T) :
    M (World T) Unit := onItems (BSTMap.World.extend cfg (drops bad) cmps src.toMap)

/-- The assignment `*set = BSTSet { items: f(..) }`: the old set is dropped before the new one takes its
place, see `BSTMap.World.assign`. -/
def assign (cfg : Cfg) (bad : T → Bool) (f : M (BSTMap.World T Unit) (BSTMap T Unit)) :
    M (World T) Unit := onItems (BSTMap.World.assign cfg (drops bad) f)

/-- The field of src/set.rs:91-95 `with_capacity`. -/
def withCapacity (cfg : Cfg) (bad : T → Bool) (n : Nat) : M (BSTMap.World T Unit) (BSTMap T Unit) :=
  BSTMap.World.withCapacity cfg (drops bad) n

/-- The field of src/set.rs:379-383 `from_iter`. -/
def fromIter (cfg : Cfg) (bad : T → Bool) (cmps : Nat → T → Probe T) (src : Source T) :
    M (BSTMap.World T Unit) (BSTMap T Unit) :=
  BSTMap.World.fromIter cfg (drops bad) cmps src.toMap

/-- The field of src/set.rs:49-53 `clone`. -/
def clone (cfg : Cfg) (bad : T → Bool) (cmps : Nat → T → Probe T) (cloneT : T → Option T) :
    M (BSTMap.World T Unit) (BSTMap T Unit) :=
  BSTMap.World.clone cfg (drops bad) cmps cloneT some

/-- The set goes out of scope. Afterwards there is no set (in the model: an empty one). -/
def drop (cfg : Cfg) (bad : T → Bool) : M (World T) Unit :=
  onItems (BSTMap.World.drop cfg (drops bad))

end World
end BST.BSTSet
