import Verif.Printing
import Verif.Proofs.Content

/-! # Nested `PadAdapter`s write what the flat description says -/

namespace BST

open Spec

variable {α β K V T : Type}

namespace Fmt

theorem seq_ok {a : Fmt} (h : a.stop = .ok) (b : Fmt) : a.seq b = ⟨a.out ++ b.out, b.stop⟩ := by
  unfold seq; rw [h]

theorem seq_stop {a : Fmt} (h : a.stop ≠ .ok) (b : Fmt) : a.seq b = a := by
  unfold seq
  split
  · exact absurd ‹_› h
  · rfl

theorem seq_mk_ok {o : List Char} {s : Stop} (h : s = .ok) (b : Fmt) :
    (⟨o, s⟩ : Fmt).seq b = ⟨o ++ b.out, b.stop⟩ := seq_ok (a := ⟨o, s⟩) h b

theorem seq_mk_stop {o : List Char} {s : Stop} (h : s ≠ .ok) (b : Fmt) :
    (⟨o, s⟩ : Fmt).seq b = ⟨o, s⟩ := seq_stop (a := ⟨o, s⟩) h b

theorem seq_congr {a b c : Fmt} (h : a.stop = .ok → b = c) : a.seq b = a.seq c := by
  by_cases hs : a.stop = .ok
  · rw [h hs]
  · rw [seq_stop hs, seq_stop hs]

theorem seq_seq (a b c : Fmt) : (a.seq b).seq c = a.seq (b.seq c) := by
  by_cases h : a.stop = .ok
  · rw [seq_ok h, seq_ok h]
    by_cases h' : b.stop = .ok
    · rw [seq_ok h', seq_mk_ok h', List.append_assoc]
    · rw [seq_stop h', seq_mk_stop h']
  · rw [seq_stop h, seq_stop h, seq_stop h]

theorem seq_text (s t : String) (b : Fmt) :
    (text s).seq ((text t).seq b) = (text (s ++ t)).seq b := by
  rw [← seq_seq]
  congr 1
  rw [seq_ok rfl]
  simp [text]

theorem empty_seq (b : Fmt) : (text "").seq b = b := by
  rw [seq_ok rfl]; rfl

theorem seq_empty (a : Fmt) : a.seq ⟨[], .ok⟩ = a := by
  by_cases h : a.stop = .ok
  · rw [seq_ok h, List.append_nil, ← h]
  · rw [seq_stop h]

end Fmt

namespace Spec

open Fmt

/-- Whether the next character begins a line, after writing `cs`. -/
def after (s : Bool) (cs : List Char) : Bool :=
  match cs.getLast? with
  | none => s
  | some c => c == '\n'

theorem after_append (s : Bool) (a b : List Char) : after s (a ++ b) = after (after s a) b := by
  unfold after
  rw [List.getLast?_append]
  cases b.getLast? <;> rfl

theorem after_cons (s : Bool) (c : Char) (cs : List Char) : after s (c :: cs) = after (c == '\n') cs := by
  rw [← List.singleton_append, after_append]; rfl

theorem after_newline (s : Bool) (cs : List Char) : after s (cs ++ ['\n']) = true := by
  rw [after_append]; rfl

theorem emit_zero (s : Bool) (cs : List Char) : emit 0 s cs = (cs, after s cs) := by
  induction cs generalizing s with
  | nil => rfl
  | cons c cs ih => rw [emit, ih, after_cons]; simp

theorem after_spaces (s : Bool) (k : Nat) (hk : k ≠ 0) : after s (List.replicate k ' ') = false := by
  cases k with
  | zero => exact absurd rfl hk
  | succ k => rw [List.replicate_succ', after_append]; rfl

theorem emit_after (n : Nat) (s : Bool) (cs : List Char) :
    (emit n s cs).2 = after s (emit n s cs).1 := by
  induction cs generalizing s with
  | nil => rfl
  | cons c cs ih =>
    rw [emit, after_append, after_cons, ← ih]

theorem padOut_append (s : Bool) (a b : List Char) :
    padOut s (a ++ b) = padOut s a ++ padOut (after s a) b := by
  induction a generalizing s with
  | nil => rfl
  | cons c cs ih => rw [List.cons_append, padOut, padOut, ih, after_cons, List.append_assoc, List.cons_append]

theorem padOut_spaces (k : Nat) : padOut false (List.replicate k ' ') = List.replicate k ' ' := by
  induction k with
  | zero => rfl
  | succ k ih => rw [List.replicate_succ, padOut, show ((' ' : Char) == '\n') = false from rfl, ih]; rfl

theorem padOut_emit (n : Nat) (s : Bool) (cs : List Char) :
    padOut s (emit n s cs).1 = (emit (n + 1) s cs).1 ∧ (emit n s cs).2 = (emit (n + 1) s cs).2 := by
  induction cs generalizing s with
  | nil => exact ⟨rfl, rfl⟩
  | cons c cs ih =>
    obtain ⟨h1, h2⟩ := ih (c == '\n')
    refine ⟨?_, by simpa [emit] using h2⟩
    simp only [emit]
    cases s with
    | false => simp [padOut, h1]
    | true =>
      cases n with
      | zero => simp [padOut, h1, List.replicate]
      | succ n =>
        rw [if_pos rfl, if_pos rfl, show 4 * (n + 1) = (4 * n + 3) + 1 by omega, List.replicate_succ]
        rw [List.cons_append, padOut, padOut_append, padOut, h1, if_pos rfl,
          show ((' ' : Char) == '\n') = false from rfl, padOut_spaces]
        have : after false (List.replicate (4 * n + 3) ' ') = false := after_spaces _ _ (by omega)
        rw [this]
        simp only [Bool.false_eq_true, if_false, List.nil_append]
        have e : List.replicate (4 * (n + 1 + 1)) ' ' =
            [' ', ' ', ' ', ' '] ++ ' ' :: List.replicate (4 * n + 3) ' ' := by
          rw [show 4 * (n + 1 + 1) = (4 * n + 3) + 1 + 1 + 1 + 1 + 1 by omega]
          simp only [List.replicate_succ (n := _ + _)]
          rfl
        rw [e, List.append_assoc]; rfl

/-- One level deeper. -/
def shift (ps : Pieces β) : Pieces β := ps.map (fun x => (x.1 + 1, x.2))

theorem shift_append (a b : Pieces β) : shift (a ++ b) = shift a ++ shift b := List.map_append

theorem print_text (du : β → Fmt) (n : Nat) (s : Bool) (t : String) (ps : Pieces β) :
    print du s ((n, .text t) :: ps) =
      (⟨(emit n s t.toList).1, .ok⟩ : Fmt).seq (print du (emit n s t.toList).2 ps) := rfl

theorem print_user (du : β → Fmt) (n : Nat) (s : Bool) (x : β) (ps : Pieces β) :
    print du s ((n, .user x) :: ps) =
      (⟨(emit n s (du x).out).1, (du x).stop⟩ : Fmt).seq (print du (emit n s (du x).out).2 ps) := by
  rw [print]
  cases h : (du x).stop <;> rfl

theorem print_append (du : β → Fmt) (s : Bool) (ps qs : Pieces β) :
    print du s (ps ++ qs) = (print du s ps).seq (print du (after s (print du s ps).out) qs) := by
  induction ps generalizing s with
  | nil => rw [List.nil_append, print, seq_ok rfl]; rfl
  | cons a ps ih =>
    obtain ⟨n, x⟩ := a
    rw [List.cons_append]
    cases x with
    | text t =>
      rw [print_text, print_text, ih, seq_seq]
      congr 1
      refine seq_congr fun h => ?_
      rw [seq_ok rfl, emit_after]
      dsimp only
      rw [after_append]
    | user x =>
      rw [print_user, print_user, ih, seq_seq]
      refine seq_congr fun h => ?_
      refine seq_congr fun h' => ?_
      rw [seq_ok h, emit_after]
      dsimp only
      rw [after_append]

/-- A piece written through a `PadAdapter` is written one level deeper. -/
theorem print_shift (du : β → Fmt) (s : Bool) (ps : Pieces β) :
    print du s (shift ps) = ⟨padOut s (print du s ps).out, (print du s ps).stop⟩ := by
  induction ps generalizing s with
  | nil => rfl
  | cons a ps ih =>
    obtain ⟨n, x⟩ := a
    rw [shift, List.map_cons, ← shift]
    cases x with
    | text t =>
      obtain ⟨h1, h2⟩ := padOut_emit n s t.toList
      rw [print_text, print_text, seq_ok rfl, seq_ok rfl, ← h1, ← h2, ih]
      dsimp only
      rw [padOut_append, emit_after]
    | user x =>
      obtain ⟨h1, h2⟩ := padOut_emit n s (du x).out
      rw [print_user, print_user, ← h1, ← h2, ih]
      by_cases h : (du x).stop = .ok
      · rw [seq_mk_ok h, seq_mk_ok h]
        dsimp only
        rw [padOut_append, emit_after]
      · rw [seq_mk_stop h, seq_mk_stop h]

/-- `F` writes the pieces `x`: at depth 0, wherever in a line it starts. -/
structure Shows (du : β → Fmt) (F : Fmt) (x : Nat → Pieces β) : Prop where
  here : ∀ s, print du s (x 0) = F
  deeper : ∀ n, x (n + 1) = shift (x n)

theorem Shows.text (du : β → Fmt) (t : String) : Shows du (Fmt.text t) (one (.text t)) := by
  refine ⟨fun s => ?_, fun n => rfl⟩
  rw [one, print_text, emit_zero]
  exact seq_empty _

theorem Shows.user (du : β → Fmt) (x : β) : Shows du (du x) (one (.user x)) := by
  refine ⟨fun s => ?_, fun n => rfl⟩
  rw [one, print_user, emit_zero]
  exact seq_empty _

theorem Shows.text0 (du : β → Fmt) (s : Bool) (t : String) (ps : Pieces β) :
    print du s ((0, .text t) :: ps) = (Fmt.text t).seq (print du (after s t.toList) ps) := by
  rw [print_text, emit_zero]; rfl

theorem print_text0 (du : β → Fmt) (s : Bool) (t : String) :
    print du s [(0, .text t)] = Fmt.text t := (Shows.text du t).here s

/-- Text, a value, and text, through a fresh `PadAdapter`. -/
theorem print_padded {du : β → Fmt} {F : Fmt} {x : Nat → Pieces β} (h : Shows du F x) (a b : String) :
    print du true ((1, .text a) :: x 1 ++ [(1, .text b)]) =
      pad ((Fmt.text a).seq (F.seq (Fmt.text b))) := by
  have e : ((1, .text a) :: x 1 ++ [(1, .text b)] : Pieces β) =
      shift ((0, .text a) :: x 0 ++ [(0, .text b)]) := by
    rw [h.deeper 0, shift_append]; rfl
  rw [e, print_shift]
  have e2 : print du true ((0, .text a) :: x 0 ++ [(0, .text b)]) =
      (Fmt.text a).seq (F.seq (Fmt.text b)) := by
    rw [List.cons_append, Shows.text0, print_append, h.here, print_text0]
  rw [e2]; rfl

theorem pad_after {F : Fmt} {s : Bool} {a : List Char} (h : F.out = a ++ ['\n']) :
    after s (pad F).out = true := by
  unfold pad
  rw [h]
  dsimp only
  rw [padOut_append, after_append]
  simp only [padOut]
  rw [← List.append_nil (_ ++ ['\n']), List.append_nil, after_append]
  rfl

theorem fields_pretty {du : β → Fmt} (fs : List (String × Fmt × (Nat → Pieces β)))
    (h : ∀ f ∈ fs, Shows du f.2.1 f.2.2) (b : Builder) (hb : b.hasFields = true) :
    ((fs.map (fun f => (f.1, f.2.1))).foldl (fun (b : Builder) f => b.field true f.1 f.2) b) =
      ⟨b.acc.seq (print du true (fields true 0 (fs.map (fun f => (f.1, f.2.2))))), true⟩ := by
  induction fs generalizing b with
  | nil =>
    simp only [List.map_nil, List.foldl_nil, fields, print]
    rw [seq_empty, ← hb]
  | cons f fs ih =>
    obtain ⟨nm, F, x⟩ := f
    simp only [List.map_cons, List.foldl_cons]
    rw [ih (fun f hf => h f (List.mem_cons_of_mem _ hf)) _ rfl]
    congr 1
    have hx := h _ List.mem_cons_self
    simp only [fields, inner, if_pos]
    rw [print_append, show (0 + 1 : Nat) = 1 from rfl, print_padded hx]
    simp only [Builder.field, if_pos, hb]
    rw [empty_seq, seq_seq, seq_text]
    congr 1
    refine seq_congr fun hs => ?_
    congr 1
    have hF : F.stop = .ok := by
      have hs : ((Fmt.text (nm ++ ": ")).seq (F.seq (Fmt.text ",\n"))).stop = .ok := hs
      rw [seq_ok rfl] at hs
      by_cases h' : F.stop = .ok
      · exact h'
      · rw [seq_stop h'] at hs; exact hs
    symm
    refine pad_after (a := (nm ++ ": ").toList ++ (F.out ++ [','])) ?_
    rw [seq_ok rfl, seq_ok hF]
    simp [Fmt.text]

theorem fields_plain {du : β → Fmt} (fs : List (String × Fmt × (Nat → Pieces β)))
    (h : ∀ f ∈ fs, Shows du f.2.1 f.2.2) (b : Builder) (hb : b.hasFields = true) (s : Bool) :
    ((fs.map (fun f => (f.1, f.2.1))).foldl (fun (b : Builder) f => b.field false f.1 f.2) b) =
      ⟨b.acc.seq (print du s ((if fs.isEmpty then [] else [(0, .text ", ")]) ++
        fields false 0 (fs.map (fun f => (f.1, f.2.2))))), true⟩ := by
  induction fs generalizing b s with
  | nil =>
    simp only [List.map_nil, List.foldl_nil, fields, List.isEmpty_nil, if_pos, List.append_nil, print]
    rw [seq_empty, ← hb]
  | cons f fs ih =>
    obtain ⟨nm, F, x⟩ := f
    simp only [List.map_cons, List.foldl_cons]
    have hx := h _ List.mem_cons_self
    rw [List.isEmpty_cons, if_neg (by simp), List.singleton_append, Shows.text0, fields]
    simp only [inner, Bool.false_eq_true, if_false]
    rw [List.cons_append, List.cons_append, Shows.text0, List.append_assoc, print_append, hx.here,
      List.isEmpty_map]
    rw [ih (fun f hf => h f (List.mem_cons_of_mem _ hf)) _ rfl
      (after (after (after s ", ".toList) (nm ++ ": ").toList) F.out)]
    simp only [Builder.field, Bool.false_eq_true, if_false, hb, if_true]
    congr 1
    simp only [seq_seq]
    rw [seq_text nm ": "]

theorem shows_struct {du : β → Fmt} (p : Bool) (name : String)
    (fs : List (String × Fmt × (Nat → Pieces β))) (hne : fs ≠ [])
    (h : ∀ f ∈ fs, Shows du f.2.1 f.2.2) :
    Shows du (debugStruct p name (fs.map (fun f => (f.1, f.2.1))))
      (Spec.struct p name (fs.map (fun f => (f.1, f.2.2)))) := by
  constructor
  · intro s
    cases fs with
    | nil => exact absurd rfl hne
    | cons f fs =>
      obtain ⟨nm, F, x⟩ := f
      have hx := h _ List.mem_cons_self
      have hfs : ∀ f ∈ fs, Shows du f.2.1 f.2.2 := fun f hf => h f (List.mem_cons_of_mem _ hf)
      unfold Spec.struct debugStruct
      rw [List.cons_append, Shows.text0, print_append]
      cases p with
      | true =>
        have hall := fields_pretty ((nm, F, x) :: fs) h ⟨(Fmt.text name).seq (Fmt.text " {\n"), true⟩ rfl
        have e : ((((nm, F, x) :: fs).map (fun f => (f.1, f.2.1))).foldl
              (fun (b : Builder) f => b.field true f.1 f.2) ⟨(Fmt.text name).seq (Fmt.text " {\n"), true⟩) =
            ((((nm, F, x) :: fs).map (fun f => (f.1, f.2.1))).foldl
              (fun (b : Builder) f => b.field true f.1 f.2) ⟨Fmt.text name, false⟩) := by
          simp only [List.map_cons, List.foldl_cons]
          congr 1
          simp only [Builder.field, if_true, Bool.false_eq_true, if_false]
          rw [empty_seq, seq_seq]
        rw [← e, hall]
        simp only [Builder.finish, if_true]
        rw [print_text0, seq_seq, seq_seq, seq_text]
        refine seq_congr fun _ => ?_
        have : after s (name ++ " {\n").toList = true := by
          rw [String.toList_append, show " {\n".toList = [' ', '{'] ++ ['\n'] from rfl,
            ← List.append_assoc, after_newline]
        rw [this]
      | false =>
        have hall := fun s => fields_plain fs hfs ⟨(Fmt.text name).seq ((Fmt.text " { ").seq
          ((Fmt.text nm).seq ((Fmt.text ": ").seq F))), true⟩ rfl s
        simp only [List.map_cons, List.foldl_cons]
        simp only [Bool.false_eq_true, if_false]
        rw [show Builder.field false ⟨Fmt.text name, false⟩ nm F = ⟨(Fmt.text name).seq ((Fmt.text " { ").seq
          ((Fmt.text nm).seq ((Fmt.text ": ").seq F))), true⟩ from rfl]
        rw [fields]
        simp only [inner, Bool.false_eq_true, if_false]
        rw [List.cons_append, List.cons_append, Shows.text0, List.append_assoc, print_append, hx.here,
          List.isEmpty_map]
        rw [hall (after (after (after s (name ++ " { ").toList) (nm ++ ": ").toList) F.out)]
        simp only [Builder.finish, if_true, Bool.false_eq_true, if_false]
        rw [print_text0]
        simp only [seq_seq]
        rw [seq_text nm ": ", seq_text name " { "]
  · intro n
    have hf : ∀ fs : List (String × Fmt × (Nat → Pieces β)), (∀ f ∈ fs, Shows du f.2.1 f.2.2) →
        fields p (n + 1) (fs.map (fun f => (f.1, f.2.2))) =
          shift (fields p n (fs.map (fun f => (f.1, f.2.2)))) := by
      intro fs
      induction fs with
      | nil => intro _; rfl
      | cons f fs ih =>
        intro h
        simp only [List.map_cons, fields]
        rw [ih (fun f hf => h f (List.mem_cons_of_mem _ hf)), shift_append, shift_append]
        have e : inner p (n + 1) = inner p n + 1 := by unfold inner; split <;> rfl
        rw [e, (h f List.mem_cons_self).deeper]
        congr 1
        congr 1
        split
        · rfl
        · split <;> rfl
    unfold Spec.struct
    rw [hf fs h, shift_append]
    rfl

theorem shows_some {du : β → Fmt} (p : Bool) {F : Fmt} {x : Nat → Pieces β} (h : Shows du F x) :
    Shows du (debugTuple1 p "Some" F) (some_ p x) := by
  constructor
  · intro s
    unfold some_ debugTuple1
    cases p with
    | true =>
      simp only [inner, if_true]
      have e : ((0, Piece.text "Some(\n") :: x (0 + 1) ++ [(0 + 1, .text ",\n")] ++ [(0, .text ")")] :
          Pieces β) = (0, .text "Some(\n") :: (shift (x 0 ++ [(0, .text ",\n")]) ++ [(0, .text ")")]) := by
        rw [h.deeper 0, shift_append]; simp [shift]
      rw [e, Shows.text0, print_append, print_text0,
        show after s "Some(\n".toList = true from rfl, print_shift, print_append, h.here,
        print_text0, seq_seq, seq_text]
      rfl
    | false =>
      simp only [inner, Bool.false_eq_true, if_false, List.append_nil]
      rw [List.cons_append, Shows.text0, print_append, print_text0, h.here, seq_seq,
        seq_text]
      rfl
  · intro n
    unfold some_
    have e : inner p (n + 1) = inner p n + 1 := by unfold inner; split <;> rfl
    rw [shift_append, shift_append, e]
    cases p
    · rw [h.deeper]; rfl
    · rw [h.deeper]; rfl

theorem elems_pretty {du : β → Fmt} (xs : List β) (b : Builder) (hb : b.hasFields = true) :
    ((xs.map du).foldl (fun (b : Builder) e => b.entry true e) b) =
      ⟨b.acc.seq (print du true (elems true 0 xs)), true⟩ := by
  induction xs generalizing b with
  | nil =>
    simp only [List.map_nil, List.foldl_nil, elems, print]
    rw [seq_empty, ← hb]
  | cons x xs ih =>
    simp only [List.map_cons, List.foldl_cons]
    rw [ih _ rfl]
    congr 1
    simp only [elems, inner, if_true]
    have e : ((0 + 1, Piece.user x) :: [(0 + 1, .text ",\n")] ++ elems true 0 xs : Pieces β) =
        shift (one (.user x) 0 ++ one (.text ",\n") 0) ++ elems true 0 xs := rfl
    rw [e, print_append, print_shift, print_append, (Shows.user du x).here, (Shows.text du ",\n").here]
    simp only [Builder.entry, if_true, hb]
    rw [empty_seq, seq_seq]
    congr 1
    refine seq_congr fun hs => ?_
    congr 1
    have hF : (du x).stop = .ok := by
      have hs : ((du x).seq (Fmt.text ",\n")).stop = .ok := hs
      by_cases h' : (du x).stop = .ok
      · exact h'
      · rw [seq_stop h'] at hs; exact hs
    symm
    refine pad_after (a := (du x).out ++ [',']) ?_
    rw [seq_ok hF]
    simp [Fmt.text]

theorem elems_plain {du : β → Fmt} (xs : List β) (b : Builder) (hb : b.hasFields = true) (s : Bool) :
    ((xs.map du).foldl (fun (b : Builder) e => b.entry false e) b) =
      ⟨b.acc.seq (print du s ((if xs.isEmpty then [] else [(0, .text ", ")]) ++ elems false 0 xs)), true⟩ := by
  induction xs generalizing b s with
  | nil =>
    simp only [List.map_nil, List.foldl_nil, elems, List.isEmpty_nil, if_pos, List.append_nil, print]
    rw [seq_empty, ← hb]
  | cons x xs ih =>
    simp only [List.map_cons, List.foldl_cons]
    rw [List.isEmpty_cons, if_neg (by simp), List.singleton_append, Shows.text0, elems]
    simp only [inner, Bool.false_eq_true, if_false]
    have e : ((0, Piece.user x) :: (if xs.isEmpty then [] else [(0, .text ", ")]) ++ elems false 0 xs :
        Pieces β) = one (.user x) 0 ++ ((if xs.isEmpty then [] else [(0, .text ", ")]) ++
          elems false 0 xs) := rfl
    rw [e, print_append, (Shows.user du x).here, ih _ rfl (after (after s ", ".toList) (du x).out)]
    simp only [Builder.entry, Bool.false_eq_true, if_false, hb, if_true]
    congr 1
    simp only [seq_seq]

theorem debugList_eq (du : β → Fmt) (p : Bool) (xs : List β) (s : Bool) :
    debugList p (xs.map du) = print du s (list p xs 0) := by
  unfold debugList list
  rw [List.cons_append, Shows.text0, print_append, print_text0]
  cases xs with
  | nil => cases p <;> rfl
  | cons x xs =>
    cases p with
    | true =>
      have hall := elems_pretty (du := du) (x :: xs) ⟨(Fmt.text "[").seq (Fmt.text "\n"), true⟩ rfl
      have e : (((x :: xs).map du).foldl (fun (b : Builder) f => b.entry true f)
            ⟨(Fmt.text "[").seq (Fmt.text "\n"), true⟩) =
          (((x :: xs).map du).foldl (fun (b : Builder) f => b.entry true f) ⟨Fmt.text "[", false⟩) := by
        simp only [List.map_cons, List.foldl_cons]
        congr 1
      rw [← e, hall, seq_seq, seq_seq, seq_text]
      have hs : (if (true && !(x :: xs).isEmpty) = true then "[\n" else "[") = "[\n" := rfl
      rw [hs, show after s "[\n".toList = true from rfl]
      rfl
    | false =>
      simp only [List.map_cons, List.foldl_cons, Bool.false_and, Bool.false_eq_true, if_false]
      have hb : Builder.entry false ⟨Fmt.text "[", false⟩ (du x) =
          ⟨(Fmt.text "[").seq (du x), true⟩ := by
        simp only [Builder.entry, Bool.false_eq_true, if_false, empty_seq]
      rw [hb, elems_plain (du := du) xs ⟨(Fmt.text "[").seq (du x), true⟩ rfl
        (after (after s "[".toList) (du x).out), elems]
      simp only [inner, Bool.false_eq_true, if_false]
      have e : ((0, Piece.user x) :: (if xs.isEmpty then [] else [(0, .text ", ")]) ++ elems false 0 xs :
          Pieces β) = one (.user x) 0 ++ ((if xs.isEmpty then [] else [(0, .text ", ")]) ++
            elems false 0 xs) := rfl
      rw [e, print_append du _ (one _ _), (Shows.user du x).here]
      simp only [seq_seq]

end Spec
end BST
