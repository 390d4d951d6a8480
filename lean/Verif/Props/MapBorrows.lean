import Verif.Proofs.MapReaders
import Verif.Proofs.StackLaws
import Verif.Proofs.Sample
/-!
# Aliasing rules: the references that maps create
-/
namespace BST.Props
open Spec
variable {K V : Type} {cfg : Cfg}

/-! ### C50 -/

/-- C50. Any sequence of calls on a map without `shrink_to_fit` (for which see C49), with any user
code except for panicking destructors: under the rules of Stacked Borrows no reference is used
that another one has invalidated, so no call is undefined; all calls answer as if nothing
about references were recorded, and leave the same map. Among the calls are clients of iterators
that keep all the references they get: shared ones, which they read in the end (`nextsRef`,
`readRefs`), or mutable ones, through which they write at any time (`clientRef`). -/
theorem C50_map (ops : List (Op K V)) (hc : ∀ op ∈ ops, op.Calm)
    (hs : ∀ op ∈ ops, op ≠ .shrinkToFit) :
    let r := execute (Op.runRef cfg .asMut) ops (.new : TMap Borrows K V)
    r.1 = (history cfg ops .new).1 ∧ r.2.map = (history cfg ops .new).2 ∧ ∀ o ∈ r.1, o ≠ .ub := by
  intro r
  obtain ⟨os, s, t, e1, e2, _, _, h⟩ := TMap.history_sim (cfg := cfg) (s := (TMap.new : TMap Borrows K V)) (how := .asMut)
    ops (shape_new cfg) .new hc fun _ => hs
  have e2' : history cfg ops .new = (os, s.map) := e2
  have e1' : r = (os, s) := e1
  rw [e1', e2']
  exact ⟨rfl, rfl, fun o ho hu => by have := h o ho; rw [hu] at this; exact this⟩

/-- C50 for clients that hold several things at once. Between calls that need `&mut self` (or that
replace the map) the client makes calls by shared reference: lookups, iterators of any kind and
number, node handles. It keeps all that they return, and reads through any of it at any time: no
step is undefined, and the client sees what it would have seen had it copied every entry when it
got the reference. -/
theorem C50_shared (acts : List (Act K V)) (hc : ∀ op, .call op ∈ acts → op.Calm)
    (hs : .call .shrinkToFit ∉ acts) :
    let r := execute (Act.runRef cfg .asMut) acts (.start (.new : TMap Borrows K V))
    r.1 = (execute (Act.run cfg) acts (.start .new)).1 ∧
    r.2.store.map = (execute (Act.run cfg) acts (.start .new)).2.store ∧ ∀ o ∈ r.1, o ≠ .ub := by
  intro r
  obtain ⟨os, x, y, t, e1, e2, h, hi⟩ := Reader.acts (cfg := cfg) (how := .asMut) acts
    (.start (s := (TMap.new : TMap Borrows K V)) (shape_new cfg) rfl .new) hc fun _ => hs
  have e1' : r = (os, x) := e1
  rw [e1', e2]
  exact ⟨rfl, hi.map, fun o ho hu => by have := h o ho; rw [hu] at this; exact this⟩

/-- C50 with `chunk.as_ptr()` instead of `chunk.as_mut()` in the arena: `shrink_to_fit` may be
among the calls, and the map may be dropped in the end, even if destructors panic; then all
memory has been released. -/
theorem C50_fixed (ops : List (Op K V)) (hc : ∀ op ∈ ops, op.Calm) :
    let r := execute (Op.runRef cfg .asPtr) ops (.new : TMap Borrows K V)
    r.1 = (history cfg ops .new).1 ∧ r.2.map = (history cfg ops .new).2 ∧ (∀ o ∈ r.1, o ≠ .ub) ∧
    ∀ d, ∃ o s, TMap.drop cfg .asPtr d r.2 = (o, s) ∧ (o = .ok () ∨ o = .panic) ∧
      s.heap.blocks = [] := by
  intro r
  obtain ⟨os, s, t, e1, e2, hk, ht, h⟩ := TMap.history_sim (cfg := cfg) (s := (TMap.new : TMap Borrows K V))
    (how := .asPtr) ops (shape_new cfg) .new hc fun h => absurd rfl h
  have e2' : history cfg ops .new = (os, s.map) := e2
  have e1' : r = (os, s) := e1
  rw [e1', e2']
  refine ⟨rfl, rfl, fun o ho hu => by have := h o ho; rw [hu] at this; exact this, fun d => ?_⟩
  obtain ⟨o, s', e, ho, hl⟩ := TMap.drop_ok ht hk (how := .asPtr) rfl d
  exact ⟨o, s', e, ho, Borrows.blocks_nil hl⟩

/-! ### Concrete cases for C50 -/

namespace MapBorrowSample

def q (k : Nat) : Probe Nat := ask compare id k

/-- Nine entries in two chunks. A client of a mutable iterator writes through references it got
earlier while it goes on; another reads in the end through all the shared references it got. The
root, which has two children and whose successor is deeper, is removed, and its slot used again;
the map is copied. -/
def ops : List (Op Nat Nat) :=
  [.collect (fun _ k => q k)
     ⟨(9, none), [(5, 50), (2, 20), (8, 80), (1, 10), (9, 90), (3, 30), (7, 70), (4, 40), (6, 60)], false⟩,
   .iterMut .post [.next, .next, .write 0 11, .next, .write 1 12, .write 0 13, .next, .write 3 14],
   .iter .ino 4, .removeEntry (q 5), .insert (q 5) 5 55, .getMut (q 8) 81, .getEntryMut (q 2) 21,
   .nodeMut [true, false] 71, .node [false, true], .cloned (fun _ k => q k) some some,
   .iter .pre 9, .remove (q 100), .get (q 2), .len]

def outs : List (Out (Ret Nat Nat)) := (history Sample.cfg ops .new).1

example : outs =
    [.ok .unit, .ok (.keys [1, 4, 3, 2]),
     .ok (.items [some (1, 13), some (2, 14), some (3, 30), some (4, 12)]),
     .ok (.entry (some (5, 50))), .ok (.value none), .ok (.value (some 80)),
     .ok (.entry (some (2, 14))), .ok (.entry (some (7, 70))), .ok (.node (some (3, 30, false, true))),
     .ok .unit,
     .ok (.items [some (6, 60), some (2, 21), some (1, 13), some (3, 30), some (4, 12), some (5, 55),
       some (8, 81), some (7, 71), some (9, 90)]),
     .ok (.value none), .ok (.value (some 21)), .ok (.nat 9)] := by decide +kernel

/-- The hypotheses of `C50_map` are met. -/
example : (∀ op ∈ ops, op.Calm) ∧ ∀ op ∈ ops, op ≠ .shrinkToFit := by
  simp [ops, Op.Calm]

/-- It says that this computation, which goes through all the borrow stacks, ends well. -/
example : (execute (Op.runRef Sample.cfg .asMut) ops (.new : TMap Borrows Nat Nat)).1 = outs := by decide +kernel

/-- For `C50_shared`: two iterators that take turns, references from lookups, a handle that is
followed to its children, one lookup whose comparison panics, and `Debug` in between; then all is
read, some of it twice. Afterwards the map is changed, and read again. -/
def acts : List (Act Nat Nat) :=
  [.call (.collect (fun _ k => q k) ⟨(5, none), [(5, 50), (2, 20), (8, 80), (1, 10), (3, 30)], false⟩),
   .read (.iter .ino), .read (.get (q 2)), .read (.iter .post), .read (.next 0), .read (.next 1),
   .read .root, .read (.child 0 false), .read (.next 0), .read (.get fun _ _ => none),
   .read (.debug (fun _ => "k") (fun _ => "v")), .read (.child 1 true), .read (.get (q 7)), .read (.next 1),
   .read (.read 0), .read (.read 1), .read (.readNode 1), .read (.read 3), .read (.read 2),
   .read (.readNode 2), .read (.read 4), .read (.readNode 0), .read (.read 0), .read (.read 5),
   .call (.removeEntry (q 5)), .read .root, .read (.readNode 0), .read (.read 0)]

example : (∀ op, .call op ∈ acts → op.Calm) ∧ .call .shrinkToFit ∉ acts := by
  constructor
  · intro op h
    simp only [acts, List.mem_cons, Act.call.injEq, reduceCtorEq, false_or, or_false,
      List.not_mem_nil] at h
    rcases h with rfl | rfl <;> exact trivial
  · simp [acts]

example : (execute (Act.run Sample.cfg) acts (.start .new)).1 =
    [.ok .unit, .ok .unit, .ok .unit, .ok .unit, .ok .unit, .ok .unit, .ok .unit, .ok .unit,
     .ok .unit, .panic, .ok (.text ("BSTMap { root: Some(Node { key: k, value: v, left: Some(Node { key: k, value: v," ++
       " left: Some(Node { key: k, value: v, left: None, right: None }), right: " ++
       "Some(Node { key: k, value: v, left: None, right: None }) }), right: Some(Node { " ++
       "key: k, value: v, left: None, right: None }) }) }")),
     .ok .unit, .ok .unit, .ok .unit,
     .ok (.entry (some (2, 20))), .ok (.entry (some (1, 10))),
     .ok (.node (some (2, 20, true, true))), .ok (.entry (some (2, 20))),
     .ok (.entry (some (1, 10))), .ok (.node (some (3, 30, false, false))), .ok (.entry none),
     .ok (.node (some (5, 50, true, true))), .ok (.entry (some (2, 20))),
     .ok (.entry (some (3, 30))), .ok (.entry (some (5, 50))), .ok .unit,
     .ok (.node (some (8, 80, true, false))), .ok .unit] := by decide +kernel

example : (execute (Act.runRef Sample.cfg .asMut) acts (.start (.new : TMap Borrows Nat Nat))).1 =
    (execute (Act.run Sample.cfg) acts (.start .new)).1 := by decide +kernel

/-- Releasing memory is the exception (C49), … -/
example : (execute (Op.runRef Sample.cfg .asMut)
    (.withCapacity 100 :: .insert (q 1) 1 1 :: [.shrinkToFit]) (.new : TMap Borrows Nat Nat)).1 =
    [.ok .unit, .ok (.value none), .ub] := by decide +kernel

/-- … but not with `as_ptr()`. -/
example : (execute (Op.runRef Sample.cfg .asPtr)
    (.withCapacity 100 :: .insert (q 1) 1 1 :: [.shrinkToFit, .insert (q 2) 2 2, .len])
    (.new : TMap Borrows Nat Nat)).1 =
    [.ok .unit, .ok (.value none), .ok .unit, .ok (.value none), .ok (.nat 2)] := by decide +kernel

/-- The rules do forbid something: a mutable reference from `get_mut` must not be used after
another one to the same value was made, … -/
example : ((do
    let _ ← TMap.insert Sample.cfg (q 1) 1 10
    let a ← TMap.getMut (q 1)
    let _ ← TMap.getMut (q 1)
    match a with
    | some n => let _ ← TMap.replaceValue n 5; pure ()
    | none => pure () : M (TMap Borrows Nat Nat) Unit) .new).1 = .ub := by decide +kernel

/-- … nor a reference yielded by a mutable iterator after the node was read through the map. -/
example : ((do
    let _ ← TMap.insert Sample.cfg (q 1) 1 10
    let (x, _) ← TMap.nextPreorder true [⟨0, 0⟩]
    let _ ← TMap.getEntry (q 1)
    match x with
    | some n => TMap.assign n fun x => { x with value := 3 }
    | none => pure () : M (TMap Borrows Nat Nat) Unit) .new).1 = .ub := by decide +kernel

end MapBorrowSample
end BST.Props
