import Verif.Proofs.Refusing
import Verif.Props.Fmt

/-!
# C81: `Debug` into a destination that may refuse what is written

The `Debug` implementations of keys and values are any that write some pieces one after the other and
return `Err` as soon as one is refused (`Spec.Recites`; `{:?}` of numbers and strings, and everything
that is derived, is like this). Which text `m.fmt` is says C66.
-/

namespace BST.Props
open BSTMap Std Spec
variable {K V T : Type} {cfg : Cfg} {ok : K → Probe K → Prop} {m : BSTMap K V}

section
variable {dk : K → Printing} {dv : V → Printing} {fk : K → Fmt} {fv : V → Fmt}

/-- C81. `{:?}` and `{:#?}` of a `BSTMap`, for any destination: the text of C66 is written piece by
piece, up to the first piece that the destination refuses. Nothing is written after it, and the result
is `Err`. -/
theorem C81_map (hm : Reach cfg ok m) (p : Bool) (hk : ∀ k, Recites (dk k) (fk k))
    (hv : ∀ v, Recites (dv v) (fv v)) :
    ∃ F, m.fmt p fk fv = .ok F ∧ Recites (m.fmtTo p dk dv) F := by
  obtain ⟨_, _, h⟩ := C66_map hm p fk fv (fun _ => .text "")
  exact ⟨_, h, fmtTo_ok p hk hv h⟩

/-- C81. The same for a node handle. -/
theorem C81_node (hm : Reach cfg ok m) (p : Bool) (hk : ∀ k, Recites (dk k) (fk k))
    (hv : ∀ v, Recites (dv v) (fv v)) {path : List Bool} {n : Node K V}
    (hn : nodeAt path m = .ok (some n)) :
    ∃ F, fmtNode p fk fv m.nodes (walkFuel m.nodes) n = .ok F ∧
      Recites (fmtNodeTo p dk dv m.nodes (walkFuel m.nodes) n) F := by
  obtain ⟨_, _, _, _, _, _, h⟩ := C66_node hm p fk fv (fun _ => .text "") hn
  exact ⟨_, h, fmtNodeTo_ok p hk hv _ n h⟩

/-- C81. The same for a mutable node handle. -/
theorem C81_nodeMut (hm : Reach cfg ok m) (p : Bool) (hk : ∀ k, Recites (dk k) (fk k))
    (hv : ∀ v, Recites (dv v) (fv v)) {path : List Bool} {n : NodeMut} {m' : BSTMap K V}
    (hn : nodeMutAt path m = (.ok (some n), m')) :
    ∃ F, fmtNodeMut p fk fv m'.nodes n = .ok F ∧ Recites (fmtNodeMutTo p dk dv m'.nodes n) F := by
  obtain ⟨_, _, _, _, _, h⟩ := C66_nodeMut hm p fk fv (fun _ => .text "") hn
  exact ⟨_, h, fmtNodeMutTo_ok p hk hv h⟩

/-- C81. The same for a `SimpleBSTMap`. -/
theorem C81_simple (m : Simple.Map K V) (p : Bool) {dn : Nat → Printing} {fn : Nat → Fmt}
    (hk : ∀ k, Recites (dk k) (fk k)) (hv : ∀ v, Recites (dv v) (fv v)) (hn : ∀ n, Recites (dn n) (fn n)) :
    Recites (m.fmtTo p dk dv dn) (m.fmt p fk fv fn) :=
  .two p _ _ _ (fmtLinkTo_ok p hk hv m.root) (hn m.len)

end

section
variable {dt : T → Printing} {ft : T → Fmt}

/-- C81. The same for a `BSTSet`. -/
theorem C81_set (ops : List (SetOp T)) (hops : ∀ op ∈ ops, op.Calm) (p : Bool)
    (ht : ∀ t, Recites (dt t) (ft t)) :
    let s := (setHistory cfg ops BSTSet.new).2
    ∃ F, s.fmt p ft = .ok F ∧ Recites (s.fmtTo p dt) F := by
  obtain ⟨_, _, h⟩ := C66_set (cfg := cfg) ops hops p ft
  exact ⟨_, h, setFmtTo_ok p ht h⟩

/-- C81. The same for a node handle of a `BSTSet`. -/
theorem C81_set_node (ops : List (SetOp T)) (hops : ∀ op ∈ ops, op.Calm) (p : Bool)
    (ht : ∀ t, Recites (dt t) (ft t)) {path : List Bool} {n : Node T Unit} :
    let s := (setHistory cfg ops BSTSet.new).2
    setNodeAt path s = .ok (some n) →
    ∃ F, BSTSet.fmtNode p ft s.items.nodes (walkFuel s.items.nodes) n = .ok F ∧
      Recites (BSTSet.fmtNodeTo p dt s.items.nodes (walkFuel s.items.nodes) n) F := by
  intro s hn
  obtain ⟨_, _, _, _, _, _, h⟩ := C66_set_node (cfg := cfg) ops hops p ft hn
  exact ⟨_, h, setFmtNodeTo_ok p ht _ n h⟩

/-- C81. The same for a `SimpleBSTSet`. -/
theorem C81_simple_set (s : Simple.SSet T) (p : Bool) (ht : ∀ t, Recites (dt t) (ft t)) :
    Recites (s.fmtTo p dt) (s.fmt p ft) := .one p _ _ (setFmtLinkTo_ok p ht s.items.root)

end

/-- C81. What this means for a `String` (as in `format!`): all of the text is appended, and the result
is that of C66. -/
theorem C81_string {d : Printing} {F : Fmt} (h : Recites d F) (x : List Char) :
    d _ stringSink x = (Stop.out F.stop, x ++ F.out) := by
  obtain ⟨ss, h1, h2⟩ := h
  rw [h2, recite, writeAll_string, h1]

/-- C81. What it means for a buffer of `n` characters: it holds the first `n` characters of the text,
and the result is `Err` if this is not all of it. -/
theorem C81_buffer {d : Printing} {F : Fmt} (h : Recites d F) (n : Nat) :
    d _ (bufferSink n) [] =
      (if F.out.length ≤ n then Stop.out F.stop else .ok false, F.out.take n) := by
  obtain ⟨ss, h1, h2⟩ := h
  rw [h2, recite, writeAll_buffer n ss [] (Nat.zero_le n), h1, List.nil_append]
  by_cases hn : F.out.length ≤ n
  · rw [decide_eq_true hn, if_pos hn]
  · rw [decide_eq_false hn, if_neg hn]

/-! ### Cases -/

namespace RefusingCase

/-- The `Debug` of numbers, and one that writes two pieces and then returns `Err` for the value 7. -/
def num (k : Nat) : Printing := .text (toString k)
def odd (v : Nat) : Printing := (Printing.text "<").seq ((Printing.text (toString v)).seq
  (if v = 7 then fun _ _ => pure false else .text ">"))
def oddText (v : Nat) : Fmt := if v = 7 then ⟨"<7".toList, .err⟩ else .text ("<" ++ toString v ++ ">")

theorem num_ok (k : Nat) : Recites (num k) (.text (toString k)) := .text _

theorem odd_ok (v : Nat) : Recites (odd v) (oddText v) := by
  have e : Recites (fun _ _ => pure false) ⟨[], .err⟩ := ⟨[], rfl, fun _ _ => rfl⟩
  by_cases h : v = 7
  · subst h
    exact (Recites.text _).seq ((Recites.text _).seq e)
  · have := (Recites.text "<").seq ((Recites.text (toString v)).seq (Recites.text ">"))
    unfold odd oddText
    rw [if_neg h, if_neg h]
    have e2 : Fmt.text ("<" ++ toString v ++ ">") =
        (Fmt.text "<").seq ((Fmt.text (toString v)).seq (Fmt.text ">")) := by simp [Fmt.text, Fmt.seq]
    exact e2 ▸ this

/-- A map with three entries. -/
def three : BSTMap Nat Nat :=
  (history Sample.cfg ([2, 1, 3].map fun k => .insert (query (compare k)) k (k + 4)) BSTMap.new).2

/-- `{:?}` into a `String` stops at the value 7, the last one. -/
example : three.fmtTo false num odd _ stringSink [] = (.ok false,
    ("BSTMap { root: Some(Node { key: 2, value: <6>, left: Some(Node { key: 1, value: <5>, " ++
      "left: None, right: None }), right: Some(Node { key: 3, value: <7").toList) := by decide +kernel

/-- `{:#?}` into a buffer of 45 characters. -/
example : three.fmtTo true num odd _ (bufferSink 45) [] = (.ok false,
    "BSTMap {\n    root: Some(\n        Node {\n     ".toList) := by decide +kernel

/-- A destination that counts what it is asked to write and refuses the fourth: it is not asked a fifth
time. -/
def fourth : Sink Nat := ⟨fun _ n => (n != 3, n + 1)⟩

example : three.fmtTo false num num _ fourth 0 = (.ok false, 4) ∧
    three.fmtTo true num num _ fourth 0 = (.ok false, 4) := by decide +kernel

/-- A buffer that is large enough. -/
example :
    let m := (simpleHistory Sample.cfg [.insert (query (compare 2)) 2 0] Simple.Map.new).2
    m.fmtTo false num odd num _ (bufferSink 99) [] = (.ok true,
      "SimpleBSTMap { root: Some(Node { key: 2, value: <0>, left: None, right: None }), len: 1 }".toList) := by
  decide +kernel

end RefusingCase
end BST.Props
