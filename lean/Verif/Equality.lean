import Verif.Spec
/-!
# Specification: comparing two trees from left to right
-/
namespace BST.Spec
variable {α : Type}

/-- A tree written down from left to right: every node before its subtrees, and a mark (`none`) for
every subtree that is missing. -/
def BT.marked : BT α → List (Option α)
  | .nil => [none]
  | .node l a r => some a :: (l.marked ++ r.marked)

/-- The answer about two places of trees, if `ans` answers about two elements. -/
def markAnswer (ans : Nat → α → α → Option Bool) (i : Nat) : Option α → Option α → Option Bool
  | some x, some y => ans i x y
  | none, none => some true
  | _, _ => some false

/-- How a comparison of two lists ends that compares the elements pair by pair in order, until two
are not equal or a comparison (`ans`) panics. -/
def Scanned (ans : Nat → α → α → Option Bool) (la lb : List α) : Out Bool → Prop
  | .ok true => la.length = lb.length ∧ AgreeBelow ans la lb la.length
  | .ok false => ∃ (i : Nat) (x y : α), la[i]? = some x ∧ lb[i]? = some y ∧
      AgreeBelow ans la lb i ∧ ans i x y = some false
  | .panic => ∃ (i : Nat) (x y : α), la[i]? = some x ∧ lb[i]? = some y ∧
      AgreeBelow ans la lb i ∧ ans i x y = none
  | _ => False

end BST.Spec
