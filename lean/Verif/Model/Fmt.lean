import Verif.Model.Set
import Verif.Model.SimpleSet

/-!
# `Debug` in every format: `{:?}`, `{:#?}`, and a user's `Debug` that fails

`Model/Iter.lean` and `Model/Set.lean` model `{:?}` for `Debug` implementations of keys
and values that are functions to strings. Here the same implementations are modelled as
what they are, calls of the builders of `core::fmt`:

* the output is a list of characters, and a call of `fmt` ends with `Ok`, with `Err`, or by
  a panic, having written what it has written (`Fmt`);
* the formatter's `alternate` flag (`{:#?}`) is the argument `p`. The other flags (width,
  precision, `{:x?}`) reach only the `Debug` of the keys, the values and `len`, which are
  arguments;
* the destination accepts every write, like the `String` of `format!`.

`DebugStruct`, `DebugTuple`, `DebugList` and `PadAdapter` are not in /repo. They are
modelled after `library/core/src/fmt/builders.rs`.
-/

namespace BST

variable {K V T : Type}

/-- How a call of `fmt` ends. -/
inductive Stop
  | ok
  | err
  | panic
deriving DecidableEq, Repr

/-- One call of `fmt`: what it writes, and how it ends. -/
structure Fmt where
  out : List Char
  stop : Stop
deriving DecidableEq, Repr

namespace Fmt

/-- `f.write_str(s)`. -/
def text (s : String) : Fmt := ⟨s.toList, .ok⟩

/-- `a?; b`: what follows an `Err` or a panic does not run. -/
def seq (a b : Fmt) : Fmt :=
  match a.stop with
  | .ok => ⟨a.out ++ b.out, b.stop⟩
  | _ => a

/-- core's `PadAdapter`, one character at a time: four spaces before each character that
begins a line. The flag is `PadAdapterState::on_newline`. -/
def padOut : Bool → List Char → List Char
  | _, [] => []
  | onNewline, c :: cs =>
    (if onNewline then [' ', ' ', ' ', ' '] else []) ++ c :: padOut (c == '\n') cs

/-- A call of `fmt` through a fresh `PadAdapter`, whose state starts as `on_newline: true`. -/
def pad (a : Fmt) : Fmt := ⟨padOut true a.out, a.stop⟩

/-- The fields of core's `DebugStruct`, `DebugTuple` and `DebugInner`: what is written so
far, with `result`, and `has_fields`. -/
structure Builder where
  acc : Fmt
  hasFields : Bool

/-- `DebugStruct::field`. -/
def Builder.field (p : Bool) (b : Builder) (name : String) (value : Fmt) : Builder :=
  { acc := b.acc.seq
      (if p then
        ((if b.hasFields then text "" else text " {\n").seq
          (pad ((text name).seq ((text ": ").seq (value.seq (text ",\n"))))))
      else
        ((if b.hasFields then text ", " else text " { ").seq
          ((text name).seq ((text ": ").seq value))))
    hasFields := true }

/-- `DebugStruct::finish`. -/
def Builder.finish (p : Bool) (b : Builder) : Fmt :=
  if b.hasFields then b.acc.seq (if p then text "}" else text " }") else b.acc

/-- `f.debug_struct(name)`, one call of `field` per element of the list, `finish()`. -/
def debugStruct (p : Bool) (name : String) (fields : List (String × Fmt)) : Fmt :=
  (fields.foldl (fun (b : Builder) f => b.field p f.1 f.2) ⟨text name, false⟩).finish p

/-- `Formatter::debug_tuple_field1_finish`: a `DebugTuple` with one field. -/
def debugTuple1 (p : Bool) (name : String) (value : Fmt) : Fmt :=
  (text name).seq
    ((if p then (text "(\n").seq (pad (value.seq (text ",\n"))) else (text "(").seq value).seq
      (text ")"))

/-- The derived `Debug` of `Option`. -/
def debugOption (p : Bool) : Option Fmt → Fmt
  | none => text "None"
  | some a => debugTuple1 p "Some" a

/-- `DebugInner::entry`. -/
def Builder.entry (p : Bool) (b : Builder) (value : Fmt) : Builder :=
  { acc := b.acc.seq
      (if p then
        ((if b.hasFields then text "" else text "\n").seq (pad (value.seq (text ",\n"))))
      else
        ((if b.hasFields then text ", " else text "").seq value))
    hasFields := true }

/-- `f.debug_list().entries(..).finish()`. -/
def debugList (p : Bool) (entries : List Fmt) : Fmt :=
  (entries.foldl (fun (b : Builder) e => b.entry p e) ⟨text "[", false⟩).acc.seq (text "]")

end Fmt

namespace BSTMap

/-- src/map/node.rs:15-27 `Debug for Node`: recursive through the `Debug` of the options, so
with fuel. `dk`, `dv` are the user's `Debug`. The children are rendered before the fields are
joined, where the code renders each in its place. -/
def fmtNode (p : Bool) (dk : K → Fmt) (dv : V → Fmt) (nodes : Nodes K V) :
    Nat → Node K V → Out Fmt
  | 0, _ => .diverge
  | fuel + 1, n => do
    let l ← n.left nodes
    let l ← (match l with
      | none => pure none
      | some c => do let s ← fmtNode p dk dv nodes fuel c; pure (some s) : Out (Option Fmt))
    let r ← n.right nodes
    let r ← (match r with
      | none => pure none
      | some c => do let s ← fmtNode p dk dv nodes fuel c; pure (some s) : Out (Option Fmt))
    pure (Fmt.debugStruct p "Node" [("key", dk n.key), ("value", dv n.value),
      ("left", Fmt.debugOption p l), ("right", Fmt.debugOption p r)])

/-- src/map.rs:68-77 `Debug for BSTMap`. -/
def fmt (p : Bool) (dk : K → Fmt) (dv : V → Fmt) (m : BSTMap K V) : Out Fmt := do
  let root ← m.rootNode
  let r ← (match root with
    | none => pure none
    | some n => do let s ← fmtNode p dk dv m.nodes (walkFuel m.nodes) n; pure (some s) :
      Out (Option Fmt))
  pure (Fmt.debugStruct p "BSTMap" [("root", Fmt.debugOption p r)])

/-- src/map/node.rs:109-121 `Debug for NodeMut`. The placeholders are `&str`s, which print
with quotes. -/
def fmtNodeMut (p : Bool) (dk : K → Fmt) (dv : V → Fmt) (nodes : Nodes K V) (n : NodeMut) :
    Out Fmt := do
  let x ← nodes.getUnchecked n.ptr
  pure (Fmt.debugStruct p "NodeMut" [("key", dk x.key), ("value", dv x.value),
    ("left", Fmt.text "\"...\""), ("right", Fmt.text "\"...\"")])

end BSTMap

namespace BSTSet

/-- src/set/node.rs:9-19 `Debug for Node`, as `BSTMap.fmtNode`. -/
def fmtNode (p : Bool) (dt : T → Fmt) (nodes : Nodes T Unit) : Nat → Node T Unit → Out Fmt
  | 0, _ => .diverge
  | fuel + 1, n => do
    let l ← n.left nodes
    let l ← (match l with
      | none => pure none
      | some c => do let s ← fmtNode p dt nodes fuel c; pure (some s) : Out (Option Fmt))
    let r ← n.right nodes
    let r ← (match r with
      | none => pure none
      | some c => do let s ← fmtNode p dt nodes fuel c; pure (some s) : Out (Option Fmt))
    pure (Fmt.debugStruct p "Node" [("value", dt n.key),
      ("left", Fmt.debugOption p l), ("right", Fmt.debugOption p r)])

/-- src/set.rs:38-46 `Debug for BSTSet`. -/
def fmt (p : Bool) (dt : T → Fmt) (s : BSTSet T) : Out Fmt := do
  let root ← s.rootNode
  let r ← (match root with
    | none => pure none
    | some n => do
      let s ← fmtNode p dt s.items.nodes (BSTMap.walkFuel s.items.nodes) n
      pure (some s) : Out (Option Fmt))
  pure (Fmt.debugStruct p "BSTSet" [("root", Fmt.debugOption p r)])

end BSTSet

namespace Arena

/-- src/arena.rs:158-162 `Debug for StableArena`; `dt` is the element's `Debug`. -/
def fmt (cfg : Cfg) (p : Bool) (dt : T → Fmt) (a : Arena T) : Out Fmt := do
  let items ← loop (a.len + 1) (fun (st : Iter × List Fmt) => do
    let (x, i) ← st.1.next cfg a
    match x with
    | none => pure (.inr st.2)
    | some v => pure (.inl (i, st.2 ++ [dt v]))) (a.iter, [])
  pure (Fmt.debugList p items)

end Arena

namespace Simple

/-- simple_bst/src/map/node.rs:3 derived `Debug` of `Option<Box<Node>>`; a `Box` prints as
what is in it. At the root it is an `Option<Node>`, which prints the same. -/
def Map.fmtLink (p : Bool) (dk : K → Fmt) (dv : V → Fmt) : Link K V → Fmt
  | .nil => Fmt.debugOption p none
  | .node k v l r => Fmt.debugOption p (some (Fmt.debugStruct p "Node" [("key", dk k),
      ("value", dv v), ("left", Map.fmtLink p dk dv l), ("right", Map.fmtLink p dk dv r)]))

/-- simple_bst/src/map.rs:19 derived `Debug`; `dn` is the `Debug` of `usize`. -/
def Map.fmt (p : Bool) (dk : K → Fmt) (dv : V → Fmt) (dn : Nat → Fmt) (m : Map K V) : Fmt :=
  Fmt.debugStruct p "SimpleBSTMap" [("root", Map.fmtLink p dk dv m.root), ("len", dn m.len)]

/-- simple_bst/src/set/node.rs:9-20 `Debug for Node`, inside the `Option` of `left`, `right`
and `root`. -/
def SSet.fmtLink (p : Bool) (dt : T → Fmt) : Link T Unit → Fmt
  | .nil => Fmt.debugOption p none
  | .node k _ l r => Fmt.debugOption p (some (Fmt.debugStruct p "Node" [("value", dt k),
      ("left", SSet.fmtLink p dt l), ("right", SSet.fmtLink p dt r)]))

/-- simple_bst/src/set.rs:31-39 `Debug for SimpleBSTSet`. -/
def SSet.fmt (p : Bool) (dt : T → Fmt) (s : SSet T) : Fmt :=
  Fmt.debugStruct p "SimpleBSTSet" [("root", SSet.fmtLink p dt s.items.root)]

end Simple
end BST
