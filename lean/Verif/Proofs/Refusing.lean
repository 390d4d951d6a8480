import Verif.Refusing
import Verif.Proofs.Fmt

/-! # Calls of `fmt` that write pieces one after the other -/

namespace BST
open Spec
variable {K V T σ : Type}

theorem writeAll_append (w : Sink σ) (a b : List (List Char)) (x : σ) :
    writeAll w (a ++ b) x =
      if (writeAll w a x).1 then writeAll w b (writeAll w a x).2 else (false, (writeAll w a x).2) := by
  induction a generalizing x with
  | nil => rfl
  | cons s a ih =>
    rw [List.cons_append, writeAll, writeAll]
    rcases w.write s x with ⟨_ | _, x'⟩
    · rfl
    · exact ih x'

theorem writeAll_cons (w : Sink σ) (s : List Char) (ss : List (List Char)) (x : σ) :
    writeAll w (s :: ss) x =
      if (w.write s x).1 then writeAll w ss (w.write s x).2 else (false, (w.write s x).2) := by
  rw [writeAll]
  rcases w.write s x with ⟨_ | _, x'⟩ <;> rfl

namespace Printing

/-- What a `PadAdapter` writes for some lines. -/
def padded : Bool → List (List Char) → List (List Char)
  | _, [] => []
  | nl, l :: ls => (if nl then ["    ".toList] else []) ++ l :: padded (l.getLast? == some '\n') ls

def ended : Bool → List (List Char) → Bool
  | nl, [] => nl
  | _, l :: ls => ended (l.getLast? == some '\n') ls

theorem padLines_eq (w : Sink σ) (ls : List (List Char)) (x : σ) (nl : Bool) :
    (padLines w ls (x, nl)).1 = (writeAll w (padded nl ls) x).1 ∧
    (padLines w ls (x, nl)).2.1 = (writeAll w (padded nl ls) x).2 ∧
    ((padLines w ls (x, nl)).1 = true → (padLines w ls (x, nl)).2.2 = ended nl ls) := by
  induction ls generalizing x nl with
  | nil => exact ⟨rfl, rfl, fun _ => rfl⟩
  | cons l ls ih =>
    cases nl with
    | false =>
      simp only [padLines, padded, ended, Bool.false_eq_true, if_false, if_true, List.nil_append, writeAll]
      rcases w.write l x with ⟨_ | _, x'⟩
      · exact ⟨rfl, rfl, fun h => nomatch h⟩
      · exact ih _ _
    | true =>
      simp only [padLines, padded, ended, if_true, List.cons_append, List.nil_append, writeAll]
      rcases w.write "    ".toList x with ⟨_ | _, x'⟩
      · exact ⟨rfl, rfl, fun h => nomatch h⟩
      · simp only [if_true]
        rcases w.write l x' with ⟨_ | _, x''⟩
        · exact ⟨rfl, rfl, fun h => nomatch h⟩
        · exact ih _ _

theorem lines_ne {cs : List Char} {l : List Char} {ls : List (List Char)} (h : lines cs = l :: ls) : l ≠ [] := by
  cases cs with
  | nil => cases h
  | cons c cs =>
    rw [lines] at h
    split at h
    · cases h; simp
    · split at h <;> cases h <;> simp

theorem lines_nil {cs : List Char} (h : lines cs = []) : cs = [] := by
  cases cs with
  | nil => rfl
  | cons c cs =>
    rw [lines] at h
    split at h
    · cases h
    · split at h <;> cases h

theorem padded_lines (nl : Bool) (cs : List Char) :
    (padded nl (lines cs)).flatten = Fmt.padOut nl cs ∧ ended nl (lines cs) = after nl cs := by
  induction cs generalizing nl with
  | nil => exact ⟨rfl, rfl⟩
  | cons c cs ih =>
    rw [Fmt.padOut, after_cons, lines]
    split
    · rename_i hc
      subst hc
      obtain ⟨h1, h2⟩ := ih true
      rw [padded, ended]
      refine ⟨?_, h2⟩
      rw [List.flatten_append, List.flatten_cons, show (['\n'].getLast? == some '\n') = true from rfl, h1]
      cases nl <;> rfl
    · rename_i hc
      have hb : (c == '\n') = false := by simp [hc]
      rw [hb]
      obtain ⟨h1, h2⟩ := ih false
      split
      · rename_i hl
        cases lines_nil hl
        refine ⟨?_, ?_⟩
        · cases nl <;> rfl
        · rw [ended, ended]
          show (some c == some '\n') = false
          simp [hc]
      · rename_i l ls hl
        rw [hl] at h1 h2
        have hlast : (c :: l).getLast? = l.getLast? := by
          cases l with
          | nil => exact absurd rfl (lines_ne hl)
          | cons d l => rfl
        rw [padded] at h1 ⊢
        rw [ended] at h2 ⊢
        rw [hlast]
        refine ⟨?_, h2⟩
        rw [← h1]
        cases nl <;> simp

/-- What a `PadAdapter` writes for some pieces. -/
def padPieces : Bool → List (List Char) → List (List Char)
  | _, [] => []
  | nl, s :: ss => padded nl (lines s) ++ padPieces (after nl s) ss

theorem padPieces_flatten (nl : Bool) (ss : List (List Char)) :
    (padPieces nl ss).flatten = Fmt.padOut nl ss.flatten := by
  induction ss generalizing nl with
  | nil => rfl
  | cons s ss ih =>
    rw [padPieces, List.flatten_append, (padded_lines nl s).1, ih, List.flatten_cons, padOut_append]

theorem writeAll_pad (w : Sink σ) (ss : List (List Char)) (x : σ) (nl : Bool) :
    (writeAll (padSink w) ss (x, nl)).1 = (writeAll w (padPieces nl ss) x).1 ∧
    (writeAll (padSink w) ss (x, nl)).2.1 = (writeAll w (padPieces nl ss) x).2 := by
  induction ss generalizing x nl with
  | nil => exact ⟨rfl, rfl⟩
  | cons s ss ih =>
    obtain ⟨h1, h2, h3⟩ := padLines_eq w (lines s) x nl
    rw [padPieces, writeAll_append, ← h1, ← h2, writeAll_cons,
      show (padSink w).write s (x, nl) = padLines w (lines s) (x, nl) from rfl]
    rw [(padded_lines nl s).2] at h3
    revert h3
    rcases padLines w (lines s) (x, nl) with ⟨_ | _, x', nl'⟩
    · intro _; exact ⟨rfl, rfl⟩
    · intro h3
      cases h3 rfl
      exact ih _ _

end Printing

namespace Spec.Recites
open Printing (padPieces)

theorem text (s : String) : Recites (.text s) (.text s) := by
  refine ⟨[s.toList], by simp [Fmt.text], fun σ w => ?_⟩
  funext x
  show (Out.ok (w.write s.toList x).1, (w.write s.toList x).2) = _
  simp only [recite, writeAll, Fmt.text]
  rcases w.write s.toList x with ⟨_ | _, x'⟩ <;> rfl

theorem done : Recites Printing.done (.text "") := ⟨[], rfl, fun _ _ => rfl⟩

theorem seq {a b : Printing} {F G : Fmt} (ha : Recites a F) (hb : Recites b G) :
    Recites (a.seq b) (F.seq G) := by
  obtain ⟨ss, h1, h2⟩ := ha
  obtain ⟨ss', h1', h2'⟩ := hb
  by_cases hs : F.stop = .ok
  · rw [Fmt.seq_ok hs]
    refine ⟨ss ++ ss', by rw [List.flatten_append, h1, h1'], fun σ w => ?_⟩
    funext x
    simp only [Printing.seq, M.bind_apply, h2, h2', recite, hs, writeAll_append]
    rcases writeAll w ss x with ⟨_ | _, x'⟩
    · rfl
    · rfl
  · rw [Fmt.seq_stop hs]
    refine ⟨ss, h1, fun σ w => ?_⟩
    funext x
    simp only [Printing.seq, M.bind_apply, h2, recite]
    rcases writeAll w ss x with ⟨_ | _, x'⟩
    · rfl
    · cases h : F.stop with
      | ok => exact absurd h hs
      | err => rfl
      | panic => rfl

theorem pad {a : Printing} {F : Fmt} (ha : Recites a F) : Recites a.pad F.pad := by
  obtain ⟨ss, h1, h2⟩ := ha
  refine ⟨padPieces true ss, by rw [Printing.padPieces_flatten, h1]; rfl, fun σ w => ?_⟩
  funext x
  obtain ⟨h3, h4⟩ := Printing.writeAll_pad w ss x true
  simp only [Printing.pad, h2, recite]
  show _ = (match writeAll w (padPieces true ss) x with
    | (true, x') => (Stop.out F.stop, x')
    | (false, x') => (.ok false, x'))
  revert h3 h4
  rcases writeAll (Printing.padSink w) ss (x, true) with ⟨_ | _, x'⟩ <;>
    rcases writeAll w (padPieces true ss) x with ⟨_ | _, x''⟩ <;> intro h3 h4 <;>
    first
    | (cases h3; done)
    | (simp only at h4; simp only [h4])

theorem ite {c : Bool} {a b : Printing} {F G : Fmt} (ha : Recites a F) (hb : Recites b G) :
    Recites (if c then a else b) (if c then F else G) := by
  cases c
  · exact hb
  · exact ha

/-- The builder of this model and the one of `Model/Fmt.lean`. -/
def Builds (b : Printing.Builder) (B : Fmt.Builder) : Prop :=
  Recites b.acc B.acc ∧ b.hasFields = B.hasFields

theorem field (p : Bool) {b : Printing.Builder} {B : Fmt.Builder} (h : Builds b B) (name : String)
    {a : Printing} {F : Fmt} (ha : Recites a F) : Builds (b.field p name a) (B.field p name F) := by
  obtain ⟨h1, h2⟩ := h
  refine ⟨?_, rfl⟩
  unfold Printing.Builder.field Fmt.Builder.field
  rw [h2]
  exact h1.seq (ite ((ite done (text _)).seq
    (pad ((text _).seq ((text _).seq (ha.seq (text _)))))) ((ite (text _) (text _)).seq
      ((text _).seq ((text _).seq ha))))

theorem finish (p : Bool) {b : Printing.Builder} {B : Fmt.Builder} (h : Builds b B) :
    Recites (b.finish p) (B.finish p) := by
  obtain ⟨h1, h2⟩ := h
  unfold Printing.Builder.finish Fmt.Builder.finish
  rw [h2]
  exact ite (h1.seq (ite (text _) (text _))) h1

theorem option (p : Bool) {a : Option Printing} {F : Option Fmt}
    (h : match a, F with
      | none, none => True
      | some a, some F => Recites a F
      | _, _ => False) : Recites (.debugOption p a) (Fmt.debugOption p F) := by
  match a, F, h with
  | none, none, _ => exact text _
  | some a, some F, h =>
    exact (text _).seq ((ite ((text _).seq (pad (Recites.seq h (text _)))) ((text _).seq h)).seq (text _))

theorem one (p : Bool) (name f : String) {a : Printing} {F : Fmt} (h : Recites a F) :
    Recites (.debugStruct p name [(f, a)]) (Fmt.debugStruct p name [(f, F)]) :=
  finish p (field p ⟨text _, rfl⟩ _ h)

theorem two (p : Bool) (name f g : String) {a b : Printing} {F G : Fmt} (h : Recites a F) (h' : Recites b G) :
    Recites (.debugStruct p name [(f, a), (g, b)]) (Fmt.debugStruct p name [(f, F), (g, G)]) :=
  finish p (field p (field p ⟨text _, rfl⟩ _ h) _ h')

end Spec.Recites

open Spec.Recites

theorem Printing.look_ok {α : Type} (a : α) (f : α → Printing) : Printing.look (.ok a) f = f a := rfl

section
variable {cfg : Cfg}

theorem fmtNodeTo_ok (p : Bool) {dk : K → Printing} {dv : V → Printing} {fk : K → Fmt} {fv : V → Fmt}
    (hk : ∀ k, Recites (dk k) (fk k)) (hv : ∀ v, Recites (dv v) (fv v)) {nodes : Nodes K V} :
    ∀ (fuel : Nat) (n : Node K V) {F : Fmt}, BSTMap.fmtNode p fk fv nodes fuel n = .ok F →
      Recites (BSTMap.fmtNodeTo p dk dv nodes fuel n) F
  | 0, _, F, h => by cases h
  | fuel + 1, n, F, h => by
    rw [BSTMap.fmtNode] at h
    rw [BSTMap.fmtNodeTo]
    have child : ∀ {o : Out (Option (Node K V))} {g : Option Fmt → Out Fmt},
        (o >>= fun l => (match l with
          | none => pure none
          | some c => do let s ← BSTMap.fmtNode p fk fv nodes fuel c; pure (some s) : Out (Option Fmt)) >>= g)
            = .ok F →
        ∃ G, g G = .ok F ∧ Recites (.look o fun l =>
          .debugOption p (l.map (BSTMap.fmtNodeTo p dk dv nodes fuel))) (Fmt.debugOption p G) := by
      intro o g h
      cases o with
      | ok l =>
        rw [Out.ok_bind] at h
        rw [Printing.look_ok]
        cases l with
        | none => exact ⟨none, h, option p trivial⟩
        | some c =>
          simp only at h
          cases hc : BSTMap.fmtNode p fk fv nodes fuel c with
          | ok s =>
            rw [hc] at h
            exact ⟨some s, h, option p (fmtNodeTo_ok p hk hv fuel c hc)⟩
          | _ => rw [hc] at h; cases h
      | _ => cases h
    obtain ⟨L, h, hl⟩ := child h
    obtain ⟨R, h, hr⟩ := child h
    cases h
    exact finish p (field p (field p (field p (field p ⟨text _, rfl⟩ _ (hk _)) _ (hv _)) _ hl) _ hr)

theorem setFmtNodeTo_ok (p : Bool) {dt : T → Printing} {ft : T → Fmt}
    (ht : ∀ t, Recites (dt t) (ft t)) {nodes : Nodes T Unit} :
    ∀ (fuel : Nat) (n : Node T Unit) {F : Fmt}, BSTSet.fmtNode p ft nodes fuel n = .ok F →
      Recites (BSTSet.fmtNodeTo p dt nodes fuel n) F
  | 0, _, F, h => by cases h
  | fuel + 1, n, F, h => by
    rw [BSTSet.fmtNode] at h
    rw [BSTSet.fmtNodeTo]
    have child : ∀ {o : Out (Option (Node T Unit))} {g : Option Fmt → Out Fmt},
        (o >>= fun l => (match l with
          | none => pure none
          | some c => do let s ← BSTSet.fmtNode p ft nodes fuel c; pure (some s) : Out (Option Fmt)) >>= g)
            = .ok F →
        ∃ G, g G = .ok F ∧ Recites (.look o fun l =>
          .debugOption p (l.map (BSTSet.fmtNodeTo p dt nodes fuel))) (Fmt.debugOption p G) := by
      intro o g h
      cases o with
      | ok l =>
        rw [Out.ok_bind] at h
        rw [Printing.look_ok]
        cases l with
        | none => exact ⟨none, h, option p trivial⟩
        | some c =>
          simp only at h
          cases hc : BSTSet.fmtNode p ft nodes fuel c with
          | ok s =>
            rw [hc] at h
            exact ⟨some s, h, option p (setFmtNodeTo_ok p ht fuel c hc)⟩
          | _ => rw [hc] at h; cases h
      | _ => cases h
    obtain ⟨L, h, hl⟩ := child h
    obtain ⟨R, h, hr⟩ := child h
    cases h
    exact finish p (field p (field p (field p ⟨text _, rfl⟩ _ (ht _)) _ hl) _ hr)

theorem fmtTo_ok (p : Bool) {dk : K → Printing} {dv : V → Printing} {fk : K → Fmt} {fv : V → Fmt}
    (hk : ∀ k, Recites (dk k) (fk k)) (hv : ∀ v, Recites (dv v) (fv v)) {m : BSTMap K V} {F : Fmt}
    (h : m.fmt p fk fv = .ok F) : Recites (m.fmtTo p dk dv) F := by
  unfold BSTMap.fmt at h
  unfold BSTMap.fmtTo
  cases hr : m.rootNode with
  | ok r =>
    rw [hr, Out.ok_bind] at h
    rw [Printing.look_ok]
    cases r with
    | none => cases h; exact one p _ _ (option p trivial)
    | some n =>
      simp only at h
      cases hc : BSTMap.fmtNode p fk fv m.nodes (BSTMap.walkFuel m.nodes) n with
      | ok s =>
        rw [hc] at h
        cases h
        exact one p _ _ (option p (a := some _) (F := some _) (fmtNodeTo_ok p hk hv _ n hc))
      | _ => rw [hc] at h; cases h
  | _ => rw [hr] at h; cases h

theorem setFmtTo_ok (p : Bool) {dt : T → Printing} {ft : T → Fmt}
    (ht : ∀ t, Recites (dt t) (ft t)) {s : BSTSet T} {F : Fmt}
    (h : s.fmt p ft = .ok F) : Recites (s.fmtTo p dt) F := by
  unfold BSTSet.fmt at h
  unfold BSTSet.fmtTo
  cases hr : s.rootNode with
  | ok r =>
    rw [hr, Out.ok_bind] at h
    rw [Printing.look_ok]
    cases r with
    | none => cases h; exact one p _ _ (option p trivial)
    | some n =>
      simp only at h
      cases hc : BSTSet.fmtNode p ft s.items.nodes (BSTMap.walkFuel s.items.nodes) n with
      | ok s' =>
        rw [hc] at h
        cases h
        exact one p _ _ (option p (a := some _) (F := some _) (setFmtNodeTo_ok p ht _ n hc))
      | _ => rw [hc] at h; cases h
  | _ => rw [hr] at h; cases h

theorem fmtNodeMutTo_ok (p : Bool) {dk : K → Printing} {dv : V → Printing} {fk : K → Fmt} {fv : V → Fmt}
    (hk : ∀ k, Recites (dk k) (fk k)) (hv : ∀ v, Recites (dv v) (fv v)) {nodes : Nodes K V}
    {n : NodeMut} {F : Fmt} (h : BSTMap.fmtNodeMut p fk fv nodes n = .ok F) :
    Recites (BSTMap.fmtNodeMutTo p dk dv nodes n) F := by
  unfold BSTMap.fmtNodeMut at h
  unfold BSTMap.fmtNodeMutTo
  cases hr : nodes.getUnchecked n.ptr with
  | ok x =>
    rw [hr, Out.ok_bind] at h
    cases h
    rw [Printing.look_ok]
    exact finish p (field p (field p (field p (field p ⟨text _, rfl⟩ _ (hk _)) _ (hv _)) _ (text _)) _
      (text _))
  | _ => rw [hr] at h; cases h

theorem fmtLinkTo_ok (p : Bool) {dk : K → Printing} {dv : V → Printing} {fk : K → Fmt} {fv : V → Fmt}
    (hk : ∀ k, Recites (dk k) (fk k)) (hv : ∀ v, Recites (dv v) (fv v)) : ∀ t : Simple.Link K V,
    Recites (Simple.Map.fmtLinkTo p dk dv t) (Simple.Map.fmtLink p fk fv t)
  | .nil => option p trivial
  | .node _ _ l r => option p (a := some _) (F := some _)
      (finish p (field p (field p (field p (field p ⟨text _, rfl⟩ _ (hk _)) _ (hv _)) _
        (fmtLinkTo_ok p hk hv l)) _ (fmtLinkTo_ok p hk hv r)))

theorem setFmtLinkTo_ok (p : Bool) {dt : T → Printing} {ft : T → Fmt} (ht : ∀ t, Recites (dt t) (ft t)) :
    ∀ t : Simple.Link T Unit, Recites (Simple.SSet.fmtLinkTo p dt t) (Simple.SSet.fmtLink p ft t)
  | .nil => option p trivial
  | .node _ _ l r => option p (a := some _) (F := some _)
      (finish p (field p (field p (field p ⟨text _, rfl⟩ _ (ht _)) _
        (setFmtLinkTo_ok p ht l)) _ (setFmtLinkTo_ok p ht r)))

/-- Writing pieces into a `String`. -/
theorem writeAll_string (ss : List (List Char)) (x : List Char) :
    writeAll stringSink ss x = (true, x ++ ss.flatten) := by
  induction ss generalizing x with
  | nil => simp [writeAll]
  | cons s ss ih =>
    rw [writeAll_cons]
    show (if true then writeAll stringSink ss (x ++ s) else _) = _
    rw [if_pos rfl, ih, List.flatten_cons, List.append_assoc]

/-- Writing pieces into a buffer. -/
theorem writeAll_buffer (n : Nat) (ss : List (List Char)) (x : List Char) (hx : x.length ≤ n) :
    writeAll (bufferSink n) ss x = (decide ((x ++ ss.flatten).length ≤ n), (x ++ ss.flatten).take n) := by
  induction ss generalizing x with
  | nil => simp [writeAll, hx, List.take_of_length_le hx]
  | cons s ss ih =>
    rw [writeAll_cons]
    show (if decide ((x ++ s).length ≤ n) = true then writeAll (bufferSink n) ss ((x ++ s).take n)
      else (false, (x ++ s).take n)) = _
    by_cases h : (x ++ s).length ≤ n
    · rw [if_pos (by simpa using h), List.take_of_length_le h, ih _ h, List.flatten_cons, List.append_assoc]
    · rw [if_neg (by simpa using h), List.flatten_cons, ← List.append_assoc]
      have h2 : ¬ (x ++ s ++ ss.flatten).length ≤ n := by
        rw [List.length_append]; omega
      rw [decide_eq_false h2, List.take_append_of_le_length (l₁ := x ++ s) (by omega)]

end
end BST
