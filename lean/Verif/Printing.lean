import Verif.Spec
import Verif.Model.Fmt

/-!
# Specification of what `Debug` prints

A flat description, without nested writers. What is printed is a list of pieces, each
with the depth at which it is written: fixed text, or a key, value or element printed by
the user's `Debug`. `print` writes the pieces one after the other. Where a character begins
a line, it first writes four spaces per level of depth; it stops at the first piece of the
user's that does not end with `Ok`.
-/

namespace BST.Spec

variable {α β K V T : Type}

inductive Piece (β : Type)
  | text (s : String)
  | user (x : β)

/-- Pieces with the depths at which they are written. -/
abbrev Pieces (β : Type) := List (Nat × Piece β)

/-- Write characters at depth `n`; `start` says whether the next one begins a line. Returns
what is written and whether the next character begins a line. -/
def emit (n : Nat) : Bool → List Char → List Char × Bool
  | start, [] => ([], start)
  | start, c :: cs =>
    let rest := emit n (c == '\n') cs
    ((if start then List.replicate (4 * n) ' ' else []) ++ c :: rest.1, rest.2)

/-- Write the pieces, up to the first that fails. -/
def print (du : β → Fmt) : Bool → Pieces β → Fmt
  | _, [] => ⟨[], .ok⟩
  | start, (n, .text s) :: ps =>
    let w := emit n start s.toList
    let rest := print du w.2 ps
    ⟨w.1 ++ rest.out, rest.stop⟩
  | start, (n, .user x) :: ps =>
    let w := emit n start (du x).out
    match (du x).stop with
    | .ok =>
      let rest := print du w.2 ps
      ⟨w.1 ++ rest.out, rest.stop⟩
    | stop => ⟨w.1, stop⟩

/-- The depth inside something at depth `n`: `{:?}` does not indent. -/
def inner (p : Bool) (n : Nat) : Nat := if p then n + 1 else n

/-- The fields of a struct at depth `n`. -/
def fields (p : Bool) (n : Nat) : List (String × (Nat → Pieces β)) → Pieces β
  | [] => []
  | (name, value) :: fs =>
    (inner p n, .text (name ++ ": ")) :: value (inner p n) ++
      (if p then [(inner p n, .text ",\n")]
        else if fs.isEmpty then [] else [(inner p n, .text ", ")]) ++
      fields p n fs

/-- A struct with at least one field, at depth `n`. -/
def struct (p : Bool) (name : String) (fs : List (String × (Nat → Pieces β))) (n : Nat) : Pieces β :=
  (n, .text (name ++ if p then " {\n" else " { ")) :: fields p n fs ++
    [(n, .text (if p then "}" else " }"))]

/-- `Some(..)` at depth `n`. -/
def some_ (p : Bool) (x : Nat → Pieces β) (n : Nat) : Pieces β :=
  (n, .text (if p then "Some(\n" else "Some(")) :: x (inner p n) ++
    (if p then [(inner p n, .text ",\n")] else []) ++ [(n, .text ")")]

/-- Something the user's `Debug` prints, or fixed text. -/
def one (x : Piece β) (n : Nat) : Pieces β := [(n, x)]

/-- A `Node`: the fields of its label, and its subtrees. -/
def node (p : Bool) (row : List (String × β)) (l r : Nat → Pieces β) : Nat → Pieces β :=
  struct p "Node" (row.map (fun f => (f.1, one (.user f.2))) ++ [("left", l), ("right", r)])

/-- A tree as an `Option<Node>`; `row` gives the fields of a label. -/
def tree (p : Bool) (row : α → List (String × β)) : BT α → Nat → Pieces β
  | .nil => one (.text "None")
  | .node l x r => some_ p (node p (row x) (tree p row l) (tree p row r))

/-- The elements of a list. -/
def elems (p : Bool) (n : Nat) : List β → Pieces β
  | [] => []
  | x :: xs => (inner p n, .user x) ::
      (if p then [(inner p n, .text ",\n")] else if xs.isEmpty then [] else [(inner p n, .text ", ")]) ++
      elems p n xs

/-- A list at depth `n`. -/
def list (p : Bool) (xs : List β) (n : Nat) : Pieces β :=
  (n, .text (if p && !xs.isEmpty then "[\n" else "[")) :: elems p n xs ++ [(n, .text "]")]

/-- What is printed by other implementations of `Debug`: the keys and values of the user, and
the length of a `SimpleBSTMap`. -/
inductive Shown (K V : Type)
  | key (k : K)
  | value (v : V)
  | len (n : Nat)

def Shown.fmt (dk : K → Fmt) (dv : V → Fmt) (dn : Nat → Fmt) : Shown K V → Fmt
  | .key k => dk k
  | .value v => dv v
  | .len n => dn n

/-- How a sequence of calls ends that stops at the first that is not `Ok`. -/
def firstStop : List Stop → Stop
  | [] => .ok
  | s :: l => if s = .ok then firstStop l else s

/-- The fields of a map node. -/
def entryRow (e : K × V) : List (String × Shown K V) := [("key", .key e.1), ("value", .value e.2)]
/-- The fields of a set node. -/
def elemRow (t : T) : List (String × T) := [("value", t)]

end BST.Spec
