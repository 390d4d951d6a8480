import Verif.Proofs.MapReaders
import Verif.Proofs.Borrower
import Verif.Proofs.TreeLaws
import Verif.Proofs.Sample
/-!
# Aliasing rules: the references of the arena and of maps under Tree Borrows
-/
namespace BST.Props
open Spec
variable {K V T : Type} {cfg : Cfg}

/-! ### C52 -/

/-- C52 for the arena as it is, with `chunk.as_mut()`. A client of a new arena may keep any number
of references to elements: shared ones to the same element, or one mutable reference per element,
across further calls (`BorrowValid`). Under the rules of Tree Borrows no call and no use of a
reference is undefined, and dropping the arena then releases all memory. -/
theorem C52_arena {nd : Bool} {ops : List (BorrowOp T)} {os : List (Out BorrowRet)}
    {s : Borrower Trees T} (he : execute (BorrowOp.run cfg .asMut nd) ops .new = (os, s))
    (hob : Obeys BorrowValid Spec.BorrowOp.after ops os .none) :
    (∀ o ∈ os, o ≠ .ub) ∧ (Tagged.drop cfg .asMut nd s.store).1 = .ok () ∧
      (Tagged.drop cfg .asMut nd s.store).2.heap.blocks = [] := by
  have h := Borrower.history (cfg := cfg) .asMut nd ops (by rw [he]; exact hob)
  rw [he] at h
  have hno : ∀ o ∈ os, o ≠ .ub := fun o ho hu => by
    have hlen := execute_length (BorrowOp.run cfg .asMut nd) ops (.new : Borrower Trees T)
    rw [he] at hlen
    obtain ⟨op, hop⟩ := mem_zip_right hlen ho
    exact absurd trivial (h.1 _ hop hu).1
  obtain ⟨s', e, hb⟩ := Tagged.drop_ok (h.2 hno).good (how := .asMut) trivial nd
  rw [e]
  exact ⟨hno, rfl, List.map_eq_nil_iff.1 hb⟩

/-- C52 for maps. Any sequence of calls, `shrink_to_fit` among them, with any user code except for
panicking destructors: under the rules of Tree Borrows no call is undefined; all calls answer as
if nothing about references were recorded, and leave the same map. The map may be dropped in the
end, even if destructors panic; then all memory has been released. -/
theorem C52_map (ops : List (Op K V)) (hc : ∀ op ∈ ops, op.Calm) :
    let r := execute (Op.runRef cfg .asMut) ops (.new : TMap Trees K V)
    r.1 = (history cfg ops .new).1 ∧ r.2.map = (history cfg ops .new).2 ∧ (∀ o ∈ r.1, o ≠ .ub) ∧
    ∀ d, ∃ o s, TMap.drop cfg .asMut d r.2 = (o, s) ∧ (o = .ok () ∨ o = .panic) ∧
      s.heap.blocks = [] := by
  intro r
  obtain ⟨os, s, t, e1, e2, hk, ht, h⟩ := TMap.history_sim (cfg := cfg)
    (s := (TMap.new : TMap Trees K V)) (how := .asMut) ops (shape_new cfg) .new hc
    fun h => absurd trivial h
  have e2' : history cfg ops .new = (os, s.map) := e2
  have e1' : r = (os, s) := e1
  rw [e1', e2']
  refine ⟨rfl, rfl, fun o ho hu => by have := h o ho; rw [hu] at this; exact this, fun d => ?_⟩
  obtain ⟨o, s', e, ho, hl⟩ := TMap.drop_ok ht hk (how := .asMut) trivial d
  exact ⟨o, s', e, ho, List.map_eq_nil_iff.1 hl⟩

/-- C52 for clients that hold several things at once, as in `C50_shared`: lookups, iterators of any
kind and number, and node handles, read at any time between two calls that need `&mut self`. -/
theorem C52_shared (acts : List (Act K V)) (hc : ∀ op, .call op ∈ acts → op.Calm) :
    let r := execute (Act.runRef cfg .asMut) acts (.start (.new : TMap Trees K V))
    r.1 = (execute (Act.run cfg) acts (.start .new)).1 ∧
    r.2.store.map = (execute (Act.run cfg) acts (.start .new)).2.store ∧ ∀ o ∈ r.1, o ≠ .ub := by
  intro r
  obtain ⟨os, x, y, t, e1, e2, h, hi⟩ := Reader.acts (cfg := cfg) (how := .asMut) acts
    (.start (s := (TMap.new : TMap Trees K V)) (shape_new cfg) rfl .new) hc
    fun h => absurd trivial h
  have e1' : r = (os, x) := e1
  rw [e1', e2]
  exact ⟨rfl, hi.map, fun o ho hu => by have := h o ho; rw [hu] at this; exact this⟩

/-! ### Concrete cases for C52 -/

namespace TreeSample

def P (b o : Nat) : Ptr := ⟨b, o⟩
def q (k : Nat) : Probe Nat := ask compare id k

/-- Elements in two chunks, references to them across further calls; then memory is given back,
all elements are dropped, and their slots used again. -/
def ops : List (BorrowOp Nat) :=
  [.alloc 0, .alloc 1, .alloc 2, .alloc 3, .alloc 4, .alloc 5, .alloc 6, .alloc 7, .alloc 8,
   .getMut (P 0 0), .getMut (P 1 0), .use true 0, .use true 1, .reserve 100, .use false 0,
   .get (P 0 3), .get (P 0 3), .use false 2, .use false 3, .use true 1, .getMut (P 0 3),
   .use true 4, .alloc 9, .use true 0, .shrinkToFit, .use true 0, .use true 1, .clear, .alloc 5,
   .getMut (P 0 0), .use true 5]

def outs : List (Out BorrowRet) :=
  [.ok (.ptr (P 0 0)), .ok (.ptr (P 0 1)), .ok (.ptr (P 0 2)), .ok (.ptr (P 0 3)),
   .ok (.ptr (P 0 4)), .ok (.ptr (P 0 5)), .ok (.ptr (P 0 6)), .ok (.ptr (P 0 7)),
   .ok (.ptr (P 1 0)),
   .ok (.ref 0), .ok (.ref 1), .ok .unit, .ok .unit, .ok .unit, .ok .unit,
   .ok (.ref 2), .ok (.ref 3), .ok .unit, .ok .unit, .ok .unit, .ok (.ref 4),
   .ok .unit, .ok (.ptr (P 1 1)), .ok .unit, .ok .unit, .ok .unit, .ok .unit, .ok .unit,
   .ok (.ptr (P 0 0)), .ok (.ref 5), .ok .unit]

/-- The end of that history. -/
def final : Borrower Trees Nat := (execute (BorrowOp.run Sample.cfg .asMut true) ops .new).2

theorem run_eq : execute (BorrowOp.run Sample.cfg .asMut true) ops .new = (outs, final) := by
  have h : (execute (BorrowOp.run Sample.cfg .asMut true) ops (.new : Borrower Trees Nat)).1 = outs := by
    decide +kernel
  rw [← h]
  exact (Prod.eta _).symm

theorem obeys : Obeys BorrowValid Spec.BorrowOp.after ops outs .none := by
  simp [ops, outs, Obeys, BorrowValid, Spec.BorrowOp.after, P, Live.none]

example : (∀ o ∈ outs, o ≠ .ub) ∧ (Tagged.drop Sample.cfg .asMut true final.store).1 = .ok () ∧
    (Tagged.drop Sample.cfg .asMut true final.store).2.heap.blocks = [] := C52_arena run_eq obeys

/-- There is something to release: two chunks. -/
example : final.store.heap.blocks.map (fun b => (b.id, b.locs.length)) = [(0, 8), (1, 16)] := by
  decide +kernel

/-- The rules forbid the use of reference 0, whose element was dropped and replaced. -/
example : (execute (BorrowOp.run Sample.cfg .asMut true) (ops ++ [.use false 0])
    (.new : Borrower Trees Nat)).1 = outs ++ [.ub] := by decide +kernel

/-- They are more liberal than those of Stacked Borrows: two mutable references to one element
may exist, and both be read, but once one was used to write the other one is dead. -/
example : (execute (BorrowOp.run Sample.cfg .asMut true)
      [.alloc 7, .getMut (P 0 0), .getMut (P 0 0), .use false 0, .use false 1, .use true 0, .use false 1]
      (.new : Borrower Trees Nat)).1 =
    [.ok (.ptr (P 0 0)), .ok (.ref 0), .ok (.ref 1), .ok .unit, .ok .unit, .ok .unit, .ub] := by
  decide +kernel

/-- Nor may one write through a shared reference, or through a mutable reference that was written
through before the element was read otherwise. -/
example : (execute (BorrowOp.run Sample.cfg .asMut true)
      [.alloc 7, .get (P 0 0), .use false 0, .use true 0] (.new : Borrower Trees Nat)).1 =
      [.ok (.ptr (P 0 0)), .ok (.ref 0), .ok .unit, .ub] ∧
    (execute (BorrowOp.run Sample.cfg .asMut true)
      [.alloc 7, .getMut (P 0 0), .use true 0, .get (P 0 0), .use false 0, .use true 0]
      (.new : Borrower Trees Nat)).1 =
      [.ok (.ptr (P 0 0)), .ok (.ref 0), .ok .unit, .ok (.ref 1), .ok .unit, .ub] := by
  decide +kernel

/-- Nine entries in two of three chunks. Clients of iterators keep the references they get, the
root is removed and its slot used again, the map is copied, memory is given back twice. -/
def mapOps : List (Op Nat Nat) :=
  [.withCapacity 50, .extend (fun _ k => q k)
     ⟨(9, none), [(5, 50), (2, 20), (8, 80), (1, 10), (9, 90), (3, 30), (7, 70), (4, 40), (6, 60)], false⟩,
   .iterMut .post [.next, .next, .write 0 11, .next, .write 1 12, .write 0 13, .next, .write 3 14],
   .shrinkToFit, .iter .ino 4, .removeEntry (q 5), .insert (q 5) 5 55, .getMut (q 8) 81,
   .getEntryMut (q 2) 21, .nodeMut [true, false] 71, .node [false, true],
   .cloned (fun _ k => q k) some some, .iter .pre 9, .remove (q 100), .get (q 2), .shrinkToFit, .len]

example : ∀ op ∈ mapOps, op.Calm := by simp [mapOps, Op.Calm]

/-- It says that this computation, which goes through all the trees, ends well. -/
example : (execute (Op.runRef Sample.cfg .asMut) mapOps (.new : TMap Trees Nat Nat)).1 =
    [.ok .unit, .ok .unit, .ok (.keys [1, 4, 3, 2]), .ok .unit,
     .ok (.items [some (1, 13), some (2, 14), some (3, 30), some (4, 12)]),
     .ok (.entry (some (5, 50))), .ok (.value none), .ok (.value (some 80)),
     .ok (.entry (some (2, 14))), .ok (.entry (some (7, 70))), .ok (.node (some (3, 30, false, true))),
     .ok .unit,
     .ok (.items [some (6, 60), some (2, 21), some (1, 13), some (3, 30), some (4, 12), some (5, 55),
       some (8, 81), some (7, 71), some (9, 90)]),
     .ok (.value none), .ok (.value (some 21)), .ok .unit, .ok (.nat 9)] := by decide +kernel

/-- A mutable reference from `get_mut` must not be used after the value was changed through
another one. -/
example : ((do
    let _ ← TMap.insert Sample.cfg (q 1) 1 10
    let a ← TMap.getMut (q 1)
    let b ← TMap.getMut (q 1)
    match a, b with
    | some a, some b => let _ ← TMap.replaceValue b 6; let _ ← TMap.replaceValue a 5; pure ()
    | _, _ => pure () : M (TMap Trees Nat Nat) Unit) .new).1 = .ub := by decide +kernel

/-- For `C52_shared`: iterators that take turns, references from lookups and a handle; then the map
is changed, memory given back, and read again. -/
def acts : List (Act Nat Nat) :=
  [.call (.withCapacity 50),
   .call (.extend (fun _ k => q k) ⟨(5, none), [(5, 50), (2, 20), (8, 80), (1, 10), (3, 30)], false⟩),
   .read (.iter .ino), .read (.get (q 2)), .read (.iter .post), .read (.next 0), .read (.next 1),
   .read .root, .read (.child 0 false), .read (.next 0), .read (.get fun _ _ => none),
   .read (.child 1 true), .read (.get (q 7)), .read (.next 1),
   .read (.read 0), .read (.read 1), .read (.readNode 1), .read (.read 3), .read (.read 2),
   .read (.readNode 2), .read (.read 4), .read (.readNode 0), .read (.read 0),
   .call (.removeEntry (q 5)), .read .root, .call .shrinkToFit, .read .root, .read (.readNode 0)]

example : ∀ op, .call op ∈ acts → op.Calm := by
  intro op h
  simp only [acts, List.mem_cons, Act.call.injEq, reduceCtorEq, false_or, or_false,
    List.not_mem_nil] at h
  rcases h with rfl | rfl | rfl | rfl <;> exact trivial

example : (execute (Act.runRef Sample.cfg .asMut) acts (.start (.new : TMap Trees Nat Nat))).1 =
    [.ok .unit, .ok .unit, .ok .unit, .ok .unit, .ok .unit, .ok .unit, .ok .unit, .ok .unit, .ok .unit,
     .ok .unit, .panic, .ok .unit, .ok .unit, .ok .unit,
     .ok (.entry (some (2, 20))), .ok (.entry (some (1, 10))),
     .ok (.node (some (2, 20, true, true))), .ok (.entry (some (2, 20))),
     .ok (.entry (some (1, 10))), .ok (.node (some (3, 30, false, false))), .ok (.entry none),
     .ok (.node (some (5, 50, true, true))), .ok (.entry (some (2, 20))),
     .ok (.entry (some (5, 50))), .ok .unit, .ok .unit, .ok .unit,
     .ok (.node (some (8, 80, true, false)))] := by decide +kernel

end TreeSample
end BST.Props
