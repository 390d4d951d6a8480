import Verif.Model.Readme
import Verif.Client
import Verif.SimpleHistory
/-!
# Looking through a list

Specification for C78. Nothing here is part of the crate.
-/
namespace BST.Spec

/-- Look through a list from the front for an element with a property. `is i x` is the outcome of the
`i`-th test, made with the element `x`; `none` is a panic. The result is the first element with the
property, if no test before it panics, and the number of tests made, counted from `i`. -/
def scan {α : Type} (is : Nat → α → Option Bool) : List α → Nat → Out (Option α) × Nat
  | [], i => (.ok none, i)
  | x :: xs, i =>
    match is i x with
    | none => (.panic, i + 1)
    | some true => (.ok (some x), i + 1)
    | some false => scan is xs (i + 1)

end BST.Spec
