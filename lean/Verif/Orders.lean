import Verif.Rebuild
/-!
# All insertion orders (for C74)

The orders in which the elements of a list can be arranged, and harmonic numbers. Nothing here is
part of the crate.
-/
namespace BST.Spec
variable {α : Type}

/-- The ways to pick an element of a list: the element and what is left. -/
def picks : List α → List (α × List α)
  | [] => []
  | a :: l => (a, l) :: (picks l).map fun x => (x.1, a :: x.2)

/-- Pick `n` elements one after the other, in every possible way. -/
def arrangements : Nat → List α → List (List α)
  | 0, _ => [[]]
  | n + 1, l => (picks l).flatMap fun x => (arrangements n x.2).map (x.1 :: ·)

/-- The orders in which the elements of a list can be arranged. -/
def orders (l : List α) : List (List α) := arrangements l.length l

/-- `n!` -/
def factorial : Nat → Nat
  | 0 => 1
  | n + 1 => (n + 1) * factorial n

/-- `1 + 1/2 + ... + 1/n` -/
def harmonic : Nat → Rat
  | 0 => 0
  | n + 1 => harmonic n + 1 / (n + 1 : Nat)

/-- The mean of `f` over all orders of `l`. -/
def mean (l : List α) (f : List α → Nat) : Rat :=
  (((orders l).map f).sum : Nat) / (orders l).length

/-- `cost` are the numbers of comparisons the insertions of `run` make, where `run f` is what comes
of them if the `i`-th may make at most `f i`: it succeeds if `f` allows for these numbers and panics
if not. -/
def Costs (cost : List Nat) (run : (Nat → Nat) → Out Unit) : Prop :=
  ∀ f : Nat → Nat, ((∀ i d : Nat, cost[i]? = some d → d ≤ f i) → run f = .ok ()) ∧
    ((∃ i d : Nat, cost[i]? = some d ∧ f i < d) → run f = .panic)

/-- At most `b` comparisons with `k` by the order `cmp`; one more panics. -/
def upTo {K : Type} (cmp : K → K → Ordering) (k : K) (b : Nat) : Probe K :=
  fun n x => if n < b then some (cmp k x) else none

end BST.Spec
