import Verif.Client
/-!
# Searching with arbitrary comparisons

What a search tree operation does when the comparisons are not those of an order. Nothing
here is part of the crate.
-/
namespace BST.Spec.BT
variable {K V : Type}

/-- Go down the tree as the comparisons `c` say; the first one is number `i`. -/
def search (c : Probe K) : Nat → BT (K × V) → Out (Option (K × V))
  | _, nil => .ok none
  | i, node l e r =>
    match c i e.1 with
    | none => .panic
    | some .lt => l.search c (i + 1)
    | some .gt => r.search c (i + 1)
    | some .eq => .ok (some e)

/-- Insertion guided by the comparisons. -/
def insertBy (c : Probe K) (k : K) (v : V) : Nat → BT (K × V) → BT (K × V)
  | _, nil => node nil (k, v) nil
  | i, node l e r =>
    match c i e.1 with
    | none => node l e r
    | some .lt => node (l.insertBy c k v (i + 1)) e r
    | some .gt => node l e (r.insertBy c k v (i + 1))
    | some .eq => node l (e.1, v) r

/-- Removal guided by the comparisons. -/
def eraseBy (c : Probe K) : Nat → BT (K × V) → BT (K × V)
  | _, nil => nil
  | i, node l e r =>
    match c i e.1 with
    | none => node l e r
    | some .lt => node (l.eraseBy c (i + 1)) e r
    | some .gt => node l e (r.eraseBy c (i + 1))
    | some .eq => join l r

end BST.Spec.BT
