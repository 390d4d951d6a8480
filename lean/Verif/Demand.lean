import Verif.History
/-!
# How much room a history needs at most, and which calls can fail

Nothing here is part of the crate.
-/
namespace BST
variable {K V : Type}

/-- The number of entries a `Source` announces: the upper bound of its size hint, or else the
lower one. -/
def BSTMap.Source.announced (src : BSTMap.Source K V) : Nat := src.hint.2.getD src.hint.1

/-- How many more entries the call makes room for. -/
def Op.demand : Op K V → Nat
  | withCapacity n => n
  | collect _ src => src.announced + src.items.length
  | insert _ _ _ => 1
  | reserve n => n
  | extend _ src => src.announced + src.items.length
  | _ => 0

/-- The same for a sequence of calls. -/
def demand (ops : List (Op K V)) : Nat := (ops.map Op.demand).sum

/-- No code of the user that the call may run (comparisons, clones, iterators, destructors)
panics. -/
def Op.Quiet : Op K V → Prop
  | collect cmps src => (∀ n k, ¬ Panics (cmps n k)) ∧ src.panics = false
  | cloned cmps cloneK cloneV => (∀ n k, ¬ Panics (cmps n k)) ∧ (∀ k, cloneK k ≠ none) ∧
      ∀ v, cloneV v ≠ none
  | insert c _ _ => ¬ Panics c
  | remove c => ¬ Panics c
  | removeEntry c => ¬ Panics c
  | get c => ¬ Panics c
  | getEntry c => ¬ Panics c
  | containsKey c => ¬ Panics c
  | getMut c _ => ¬ Panics c
  | getEntryMut c _ => ¬ Panics c
  | clear d => ∀ x, d.panics x = false
  | extend cmps src => (∀ n k, ¬ Panics (cmps n k)) ∧ src.panics = false
  | _ => True

end BST
