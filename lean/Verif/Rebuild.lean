import Verif.Search
/-!
# Rebuilding a tree by insertion (for C65)

What it takes to copy a search tree by inserting its entries into an empty one. Nothing here is
part of the crate.
-/
namespace BST.Spec
variable {K V α : Type}

/-- Clone the pairs of a list one by one and insert each into the tree `t`; the `i`-th insertion
compares as `cmps i key` says. A panic of a clone or a comparison ends it. -/
def reinsert (cmps : Nat → K → Probe K) (cloneK : K → Option K) (cloneV : V → Option V) :
    Nat → List (K × V) → BT (K × V) → Out (BT (K × V))
  | _, [], t => .ok t
  | i, e :: l, t =>
    match cloneK e.1, cloneV e.2 with
    | some k, some v =>
      match t.search (cmps i k) 0 with
      | .ok _ => reinsert cmps cloneK cloneV (i + 1) l (t.insertBy (cmps i k) k v 0)
      | _ => .panic
    | _, _ => .panic

/-- How far from the root the nodes are, in pre-order; the root is at distance `d`. -/
def BT.depths : Nat → BT α → List Nat
  | _, nil => []
  | d, node l _ r => d :: (l.depths (d + 1) ++ r.depths (d + 1))

/-- Comparisons by the order `cmp`, of which the `i`-th insertion may make `f i`; one more
panics. -/
def budget (f : Nat → Nat) (cmp : K → K → Ordering) : Nat → K → Probe K :=
  fun i k n x => if n < f i then some (cmp k x) else none

end BST.Spec
