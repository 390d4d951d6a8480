import Verif.Spec
/-!
# Ancestors in a tree (for C84)

Which entries are above which, and which keys lie between two others. Nothing here is part of the
crate.
-/
namespace BST.Spec
variable {K α : Type}

/-- `x` is `y` or an ancestor of `y` in `t`: `y` is found in a subtree with `x` at its root. -/
def BT.Over (t : BT α) (x y : α) : Prop :=
  ∃ path, (t.sub path).label = some x ∧ y ∈ (t.sub path).ino

/-- `z` lies between `a` and `b`, whichever of them is smaller; it may be one of them. -/
def Between (cmp : K → K → Ordering) (a z b : K) : Prop :=
  (cmp a z ≠ .gt ∧ cmp z b ≠ .gt) ∨ (cmp b z ≠ .gt ∧ cmp z a ≠ .gt)

instance {cmp : K → K → Ordering} {a z b : K} : Decidable (Between cmp a z b) :=
  inferInstanceAs (Decidable (_ ∨ _))

/-- How many entries of `o` are on the way to `k`, if `seen` came before them: those for which nothing
that came earlier lies between them and `k`. -/
def onWay {V : Type} (cmp : K → K → Ordering) (k : K) (seen : List (K × V)) : List (K × V) → Nat
  | [] => 0
  | x :: o =>
    (if ∃ z ∈ seen, Between cmp x.1 z.1 k then 0 else 1) + onWay cmp k (seen ++ [x]) o

end BST.Spec
