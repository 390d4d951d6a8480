import Verif.Model.Fmt

/-!
# `Debug` into a destination that may refuse what is written

`Model/Fmt.lean` gives what `Debug` writes if the destination accepts everything. Here the
destination is any `core::fmt::Write`: a state, and an answer to every `write_str`. The builders of
`core::fmt` stop at the first `Err`, whether it comes from the destination or from the `Debug` of a
key or value.

As there, `p` is the `alternate` flag, and the builders and `PadAdapter` are modelled after
`library/core/src/fmt/builders.rs`.
-/

namespace BST

variable {K V T σ : Type}

/-- A destination with state `σ`: `write_str` returns `Ok` (`true`) or `Err`. It may have taken any
part of what it refuses. -/
structure Sink (σ : Type) where
  write : List Char → σ → Bool × σ

/-- A call of `fmt`, for any destination: it returns `Ok` (`true`) or `Err`, or panics. -/
abbrev Printing := (σ : Type) → Sink σ → M σ Bool

namespace Printing

/-- `f.write_str(s)`. -/
def text (s : String) : Printing := fun _ w x => (.ok (w.write s.toList x).1, (w.write s.toList x).2)

/-- `Ok(())`. -/
def done : Printing := fun _ _ => pure true

/-- `a?; b`, and `a.and_then(|_| b)`. -/
def seq (a b : Printing) : Printing := fun σ w => do
  let r ← a σ w
  if r then b σ w else pure false

/-- `s.split_inclusive('\n')`. -/
def lines : List Char → List (List Char)
  | [] => []
  | c :: cs =>
    if c = '\n' then [c] :: lines cs
    else match lines cs with
      | [] => [[c]]
      | l :: ls => (c :: l) :: ls

/-- The loop of `PadAdapter::write_str`; the flag is `on_newline`. -/
def padLines (w : Sink σ) : List (List Char) → σ × Bool → Bool × σ × Bool
  | [], x => (true, x)
  | l :: ls, (x, onNewline) =>
    let r := if onNewline then w.write "    ".toList x else (true, x)
    if r.1 then
      let r' := w.write l r.2
      if r'.1 then padLines w ls (r'.2, l.getLast? == some '\n') else (false, r'.2, l.getLast? == some '\n')
    else (false, r.2, onNewline)

/-- core's `PadAdapter`. -/
def padSink (w : Sink σ) : Sink (σ × Bool) where
  write s x := padLines w (lines s) x

/-- A call of `fmt` through a fresh `PadAdapter`. -/
def pad (a : Printing) : Printing := fun σ w x =>
  let r := a (σ × Bool) (padSink w) (x, true)
  (r.1, r.2.1)

/-- A `DebugStruct` or `DebugTuple`: the calls made so far (whose `Result` is its field `result`),
and `has_fields`. -/
structure Builder where
  acc : Printing
  hasFields : Bool

/-- `DebugStruct::field`. -/
def Builder.field (p : Bool) (b : Builder) (name : String) (value : Printing) : Builder :=
  { acc := b.acc.seq
      (if p then
        ((if b.hasFields then done else text " {\n").seq
          (pad ((text name).seq ((text ": ").seq (value.seq (text ",\n"))))))
      else
        ((if b.hasFields then text ", " else text " { ").seq
          ((text name).seq ((text ": ").seq value))))
    hasFields := true }

/-- `DebugStruct::finish`. -/
def Builder.finish (p : Bool) (b : Builder) : Printing :=
  if b.hasFields then b.acc.seq (if p then text "}" else text " }") else b.acc

/-- `f.debug_struct(name)`, one call of `field` per element of the list, `finish()`. -/
def debugStruct (p : Bool) (name : String) (fields : List (String × Printing)) : Printing :=
  (fields.foldl (fun (b : Builder) f => b.field p f.1 f.2) ⟨text name, false⟩).finish p

/-- `Formatter::debug_tuple_field1_finish`. -/
def debugTuple1 (p : Bool) (name : String) (value : Printing) : Printing :=
  (text name).seq
    ((if p then (text "(\n").seq (pad (value.seq (text ",\n"))) else (text "(").seq value).seq
      (text ")"))

/-- The derived `Debug` of `Option`. -/
def debugOption (p : Bool) : Option Printing → Printing
  | none => text "None"
  | some a => debugTuple1 p "Some" a

/-- Look something up in the map, and print it. (The code looks up each child before the call of
`field` that prints it, also if that call will do nothing.) -/
def look {α : Type} (o : Out α) (f : α → Printing) : Printing := fun σ w => do
  let a ← M.lift o
  f a σ w

end Printing

namespace BSTMap

/-- src/map/node.rs:15-27 `Debug for Node`, see `BSTMap.fmtNode`. -/
def fmtNodeTo (p : Bool) (dk : K → Printing) (dv : V → Printing) (nodes : Nodes K V) :
    Nat → Node K V → Printing
  | 0, _ => fun _ _ => M.lift .diverge
  | fuel + 1, n => Printing.debugStruct p "Node" [("key", dk n.key), ("value", dv n.value),
      ("left", .look (n.left nodes) fun l => .debugOption p (l.map (fmtNodeTo p dk dv nodes fuel))),
      ("right", .look (n.right nodes) fun r => .debugOption p (r.map (fmtNodeTo p dk dv nodes fuel)))]

/-- src/map.rs:68-77 `Debug for BSTMap`. -/
def fmtTo (p : Bool) (dk : K → Printing) (dv : V → Printing) (m : BSTMap K V) : Printing :=
  Printing.debugStruct p "BSTMap" [("root", .look m.rootNode fun r =>
    .debugOption p (r.map (fmtNodeTo p dk dv m.nodes (walkFuel m.nodes))))]

/-- src/map/node.rs:109-121 `Debug for NodeMut`, see `BSTMap.fmtNodeMut`. -/
def fmtNodeMutTo (p : Bool) (dk : K → Printing) (dv : V → Printing) (nodes : Nodes K V) (n : NodeMut) :
    Printing :=
  .look (nodes.getUnchecked n.ptr) fun x =>
    Printing.debugStruct p "NodeMut" [("key", dk x.key), ("value", dv x.value),
      ("left", .text "\"...\""), ("right", .text "\"...\"")]

end BSTMap

namespace BSTSet

/-- src/set/node.rs:9-19 `Debug for Node`. -/
def fmtNodeTo (p : Bool) (dt : T → Printing) (nodes : Nodes T Unit) : Nat → Node T Unit → Printing
  | 0, _ => fun _ _ => M.lift .diverge
  | fuel + 1, n => Printing.debugStruct p "Node" [("value", dt n.key),
      ("left", .look (n.left nodes) fun l => .debugOption p (l.map (fmtNodeTo p dt nodes fuel))),
      ("right", .look (n.right nodes) fun r => .debugOption p (r.map (fmtNodeTo p dt nodes fuel)))]

/-- src/set.rs:38-46 `Debug for BSTSet`. -/
def fmtTo (p : Bool) (dt : T → Printing) (s : BSTSet T) : Printing :=
  Printing.debugStruct p "BSTSet" [("root", .look s.rootNode fun r =>
    .debugOption p (r.map (fmtNodeTo p dt s.items.nodes (BSTMap.walkFuel s.items.nodes))))]

end BSTSet

namespace Simple

/-- simple_bst/src/map/node.rs:3 derived `Debug`, see `Map.fmtLink`. -/
def Map.fmtLinkTo (p : Bool) (dk : K → Printing) (dv : V → Printing) : Link K V → Printing
  | .nil => Printing.debugOption p none
  | .node k v l r => Printing.debugOption p (some (Printing.debugStruct p "Node" [("key", dk k),
      ("value", dv v), ("left", Map.fmtLinkTo p dk dv l), ("right", Map.fmtLinkTo p dk dv r)]))

/-- simple_bst/src/map.rs:19 derived `Debug`; `dn` is the `Debug` of `usize`. -/
def Map.fmtTo (p : Bool) (dk : K → Printing) (dv : V → Printing) (dn : Nat → Printing) (m : Map K V) :
    Printing :=
  Printing.debugStruct p "SimpleBSTMap" [("root", Map.fmtLinkTo p dk dv m.root), ("len", dn m.len)]

/-- simple_bst/src/set/node.rs:9-20 `Debug for Node`, see `SSet.fmtLink`. -/
def SSet.fmtLinkTo (p : Bool) (dt : T → Printing) : Link T Unit → Printing
  | .nil => Printing.debugOption p none
  | .node k _ l r => Printing.debugOption p (some (Printing.debugStruct p "Node" [("value", dt k),
      ("left", SSet.fmtLinkTo p dt l), ("right", SSet.fmtLinkTo p dt r)]))

/-- simple_bst/src/set.rs:31-39 `Debug for SimpleBSTSet`. -/
def SSet.fmtTo (p : Bool) (dt : T → Printing) (s : SSet T) : Printing :=
  Printing.debugStruct p "SimpleBSTSet" [("root", SSet.fmtLinkTo p dt s.items.root)]

end Simple
end BST
