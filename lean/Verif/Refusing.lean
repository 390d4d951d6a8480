import Verif.Model.FmtTo

/-!
# Specification of `Debug` into a destination that may refuse what is written

A call of `fmt` that has nothing to do with what is printed but the pieces it writes: it writes
them one after the other, and ends with `Err` as soon as one is refused. If none is, it ends in a
given way.
-/

namespace BST.Spec

variable {σ : Type}

/-- Write the pieces one after the other until one is refused. Returns whether none was. -/
def writeAll (w : Sink σ) : List (List Char) → σ → Bool × σ
  | [], x => (true, x)
  | s :: ss, x =>
    match w.write s x with
    | (true, x') => writeAll w ss x'
    | (false, x') => (false, x')

/-- How a call ends that has written everything. -/
def Stop.out : Stop → Out Bool
  | .ok => .ok true
  | .err => .ok false
  | .panic => .panic

/-- Write the pieces; if none is refused end with `stop`, else with `Err`. -/
def recite (w : Sink σ) (pieces : List (List Char)) (stop : Stop) : M σ Bool := fun x =>
  match writeAll w pieces x with
  | (true, x') => (Stop.out stop, x')
  | (false, x') => (.ok false, x')

/-- With any destination, the call writes the text `F.out`, in the same pieces whatever the
destination is, up to the first that is refused; it ends like `F` if none is, else with `Err`. -/
def Recites (d : Printing) (F : Fmt) : Prop :=
  ∃ pieces : List (List Char), pieces.flatten = F.out ∧ ∀ (σ : Type) (w : Sink σ),
    d σ w = recite w pieces F.stop

/-- A `String`: it accepts everything. -/
def stringSink : Sink (List Char) where
  write s x := (true, x ++ s)

/-- A buffer of `n` characters that takes what fits, and refuses what does not fit entirely. -/
def bufferSink (n : Nat) : Sink (List Char) where
  write s x := ((x ++ s).length ≤ n, (x ++ s).take n)

end BST.Spec
