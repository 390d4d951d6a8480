import Verif.Proofs.Races
import Verif.Proofs.StackLaws
import Verif.Proofs.TreeLaws
import Verif.Proofs.Sample
/-!
# Several threads
-/
namespace BST.Props
open Spec (Order)
variable {K V : Type} {cfg : Cfg}

/-! ### C53 -/

/-- C53 for two threads with a `&BSTMap` each, after any sequence of calls: whatever they do (lookups,
iterators, node handles, `Debug`, in any order and number), no access of one conflicts with an
access of the other; both find the map as it was and leave it so, and get the answers they would
get without recording. -/
theorem C53_readers {how : ChunkPtr} (ops : List (Op K V)) (hc : ∀ op ∈ ops, op.Calm)
    (a b : List (ReadOp K V)) :
    let s := (execute (Op.runRef cfg how) ops (.new : TMap Trace K V)).2
    (∀ e ∈ accesses a s, ∀ e' ∈ accesses b s, ¬ e.Conflicts e') ∧
    (execute ReadOp.runRef a (.start s)).2.store.map = s.map ∧
    (execute ReadOp.runRef a (.start s)).1 = (execute ReadOp.run a (.start (history cfg ops .new).2)).1 := by
  intro s
  obtain ⟨os, s1, t, e1, e2, hk, ht, _⟩ := TMap.history_sim (cfg := cfg)
    (s := (TMap.new : TMap Trace K V)) (how := how) ops (shape_new cfg) .new hc
    fun h => absurd trivial h
  have e2' : history cfg ops .new = (os, s1.map) := e2
  have hs : s = s1 := by show (execute ..).2 = _; rw [e1]
  rw [hs, e2']
  have reads : ∀ (l : List (ReadOp K V)), ∀ e ∈ accesses l s1, ∀ q, e.Touches q → e.write = false :=
    fun l e he q hq => Trace.reads
      (Reader.along_execute Reader.preorder_shared Reader.along_runRef l (.start s1)) he hq
  obtain ⟨os', x, y, e3, e4, hm, hst⟩ := Reader.reads a (.start (m := s1.map) ht rfl hk)
  refine ⟨fun e he e' he' => ?_, ?_, ?_⟩
  · rintro ⟨h | h, q, h1, h2⟩
    · rw [reads a e he q h1] at h; cases h
    · rw [reads b e' he' q h2] at h; cases h
  · rw [e3]; exact hm.map.trans hst
  · rw [e3, e4]

/-- C53 for any number of threads with a `&BSTMap` each that take turns in any order, under the
rules of Tree Borrows: nothing is undefined, the map stays as it is, and every thread gets the
answers it would get if it were alone. -/
theorem C53_threads (ops : List (Op K V)) (hc : ∀ op ∈ ops, op.Calm) (l : Schedule K V) :
    let s := (execute (Op.runRef cfg .asMut) ops (.new : TMap Trees K V)).2
    let r := execute Schedule.runRef l (.start s)
    r.2.store.map = s.map ∧ r.1.length = l.length ∧ (∀ o ∈ r.1, o = .panic ∨ ∃ a, o = .ok a) ∧
    ∀ i, l.answers r.1 i = (execute ReadOp.run (l.of i) (.start (history cfg ops .new).2)).1 := by
  intro s r
  obtain ⟨os, s1, t, e1, e2, hk, ht, _⟩ := TMap.history_sim (cfg := cfg)
    (s := (TMap.new : TMap Trees K V)) (how := .asMut) ops (shape_new cfg) .new hc
    fun h => absurd trivial h
  have e2' : history cfg ops .new = (os, s1.map) := e2
  have hs : s = s1 := by show (execute ..).2 = _; rw [e1]
  obtain ⟨os', x, e3, hl, ho, hm, ha⟩ := Team.run_all l (Team.tinv_start ht hk)
  have hr : r = (os', x) := by show execute _ _ (Team.start s) = _; rw [hs, e3]
  rw [hr, hs, e2']
  exact ⟨hm, hl, ho, ha⟩

/-- The same under the rules of Stacked Borrows, for maps that were never shrunk (C49). -/
theorem C53_threads_stacked (ops : List (Op K V)) (hc : ∀ op ∈ ops, op.Calm)
    (hn : ∀ op ∈ ops, op ≠ .shrinkToFit) (l : Schedule K V) :
    let s := (execute (Op.runRef cfg .asMut) ops (.new : TMap Borrows K V)).2
    let r := execute Schedule.runRef l (.start s)
    r.2.store.map = s.map ∧ r.1.length = l.length ∧ (∀ o ∈ r.1, o = .panic ∨ ∃ a, o = .ok a) ∧
    ∀ i, l.answers r.1 i = (execute ReadOp.run (l.of i) (.start (history cfg ops .new).2)).1 := by
  intro s r
  obtain ⟨os, s1, t, e1, e2, hk, ht, _⟩ := TMap.history_sim (cfg := cfg)
    (s := (TMap.new : TMap Borrows K V)) (how := .asMut) ops (shape_new cfg) .new hc fun _ => hn
  have e2' : history cfg ops .new = (os, s1.map) := e2
  have hs : s = s1 := by show (execute ..).2 = _; rw [e1]
  obtain ⟨os', x, e3, hl, ho, hm, ha⟩ := Team.run_all l (Team.tinv_start ht hk)
  have hr : r = (os', x) := by show execute _ _ (Team.start s) = _; rw [hs, e3]
  rw [hr, hs, e2']
  exact ⟨hm, hl, ho, ha⟩

/-- C53 for `clone`: however it ends, it only reads the map that it clones, so several threads may
clone a map while others read it. -/
theorem C53_clone (cmps : Nat → K → Probe K) (cloneK : K → Option K) (cloneV : V → Option V)
    (s : TMap Trace K V) (a : List (ReadOp K V)) :
    ∀ e ∈ (TMap.clone cfg cmps cloneK cloneV (s, .new)).2.1.heap.events.drop s.heap.events.length,
      (∀ q, e.Touches q → e.write = false) ∧ ∀ e' ∈ accesses a s, ¬ e.Conflicts e' := by
  intro e he
  have h1 : ∀ q, e.Touches q → e.write = false := fun q hq =>
    Trace.reads (TMap.keeps_clone cmps cloneK cloneV (s, .new)) he hq
  refine ⟨h1, fun e' he' => ?_⟩
  rintro ⟨h | h, q, h2, h3⟩
  · rw [h1 q h2] at h; cases h
  · rw [Trace.reads (Reader.along_execute Reader.preorder_shared Reader.along_runRef a (.start s))
      he' h3] at h
    cases h

/-- C53 for mutable iterators: a client advances a mutable iterator and writes through the references
it got so far, in any order. The references point to different nodes. Each of them was created
by an exclusive access to its node (the event before number `tag`), and from then on the node is used
only through it: not by the iterator, and not through another reference. So the references may
be sent to other threads, to be used while the iteration goes on. -/
theorem C53_iter_mut {how : ChunkPtr} (ops : List (Op K V)) (hc : ∀ op ∈ ops, op.Calm) (o : Order)
    (steps : List (Step V)) :
    let s := (execute (Op.runRef cfg how) ops (.new : TMap Trace K V)).2
    ∃ refs s', (do let st ← o.iterRef; clientRef o steps [] st) s = (.ok refs, s') ∧
      (refs.map (·.2.ptr)).Nodup ∧ ∀ r ∈ refs,
        (∃ e, s'.heap.events[r.2.tag - 1]? = some e ∧ 0 < r.2.tag ∧ e.write = true ∧
          e.Touches r.2.ptr) ∧
        ∀ e ∈ s'.heap.events.drop r.2.tag, e.Touches r.2.ptr → e.via = r.2.tag := by
  intro s
  obtain ⟨os, s1, t, e1, e2, hk, ht, _⟩ := TMap.history_sim (cfg := cfg)
    (s := (TMap.new : TMap Trace K V)) (how := how) ops (shape_new cfg) .new hc
    fun h => absurd trivial h
  have hs : s = s1 := by show (execute ..).2 = _; rw [e1]
  rw [hs]
  obtain ⟨st, h2, _, h3⟩ := iter_new ht o
  have sim := TMap.iterRef_sim (s := s1) (cfg := cfg) rfl hk o
  rw [h2] at sim
  obtain ⟨a, s2, e3, hm, hk2, rfl⟩ := sim
  obtain ⟨refs, s3, st3, e4, _, _, hh, hnd⟩ := TMap.clientRef_spec o t.height steps (s := s2)
    (t := t) (dn := []) (refs := []) (rem := t.order o) (by rw [hm]; exact ht) (by simp)
    (by rw [hm]; exact h3) hk2 rfl (fun _ h => (by cases h))
  exact ⟨refs, s3, (M.bind_ok e3).trans e4, hnd, fun r hr => hh r hr⟩

/-! ### Concrete cases for C53 -/

namespace RaceSample

def q (k : Nat) : Probe Nat := ask compare id k

/-- Nine entries, one of which is removed. -/
def ops : List (Op Nat Nat) :=
  [.collect (fun _ k => q k)
     ⟨(9, none), [(5, 50), (2, 20), (8, 80), (1, 10), (9, 90), (3, 30), (7, 70), (4, 40), (6, 60)], false⟩,
   .remove (q 5)]

example : ∀ op ∈ ops, op.Calm := by simp [ops, Op.Calm]
example : ∀ op ∈ ops, op ≠ .shrinkToFit := by simp [ops]

/-- The map with everything that happened to it. -/
def traced : TMap Trace Nat Nat := (execute (Op.runRef Sample.cfg .asMut) ops .new).2

/-- A lookup, an iterator and a node handle. -/
def one : List (ReadOp Nat Nat) := [.get (q 4), .read 0, .iter .ino, .next 0, .next 0, .read 2]
def two : List (ReadOp Nat Nat) := [.iter .post, .next 0, .root, .child 0 true, .readNode 1, .read 0]

/-- They do access the map, and common nodes of it. -/
example : (accesses one traced).length = 25 ∧ (accesses two traced).length = 13 ∧
    ((accesses one traced).filter fun e => (accesses two traced).any fun e' => e.first = e'.first).length
      = 17 := by decide +kernel

/-- A call with `&mut self` does conflict with lookups: the root, which the call borrows
exclusively, is one of the nodes that the lookup reads. -/
example : ∃ e ∈ (TMap.insert Sample.cfg (q 10) 10 100 traced).2.heap.events.drop traced.heap.events.length,
    ∃ e' ∈ accesses one traced, e.Conflicts e' := by
  refine ⟨⟨true, ⟨1, 0⟩, 1, 2⟩, by decide +kernel, ⟨false, ⟨1, 0⟩, 1, 2⟩, by decide +kernel,
    .inl rfl, ⟨1, 0⟩, ⟨rfl, by decide, by decide⟩, ⟨rfl, by decide, by decide⟩⟩

/-- Three threads. -/
def turns : Schedule Nat Nat :=
  [(0, .iter .ino), (1, .get (q 8)), (0, .next 0), (2, .iter .post), (2, .next 0), (1, .read 0),
   (0, .next 0), (2, .read 0), (0, .read 1), (1, .containsKey (q 5)), (0, .read 0)]

example : turns.of 0 = [.iter .ino, .next 0, .next 0, .read 1, .read 0] := rfl

example : (execute Schedule.runRef turns
      (.start (execute (Op.runRef Sample.cfg .asMut) ops (.new : TMap Trees Nat Nat)).2)).1 =
    [.ok .unit, .ok .unit, .ok .unit, .ok .unit, .ok .unit, .ok (.entry (some (8, 80))), .ok .unit,
     .ok (.entry (some (1, 10))), .ok (.entry (some (2, 20))), .ok (.bool false),
     .ok (.entry (some (1, 10)))] := by decide +kernel

/-- `clone` of that map reads it. -/
example : ((TMap.clone Sample.cfg (fun _ k => q k) some some (traced, .new)).2.1.heap.events.drop
    traced.heap.events.length).length = 32 := by decide +kernel

/-- A mutable iteration, in which the client writes through references after the iterator has moved
on. -/
def steps : List (Step Nat) := [.next, .next, .write 0 11, .next, .write 1 12, .next]

def final : Out (List (Nat × NodeRef)) × TMap Trace Nat Nat :=
  (do let st ← Order.ino.iterRef; clientRef .ino steps [] st) traced

/-- Four references, created by the events that these numbers follow. -/
example : final.1 = .ok [(1, ⟨⟨0, 3⟩, 132⟩), (2, ⟨⟨0, 1⟩, 138⟩), (3, ⟨⟨0, 5⟩, 145⟩),
    (4, ⟨⟨0, 7⟩, 150⟩)] := by decide +kernel

/-- After the first was created, 19 things happened; two of them to its node, both through it: the
client reads the key and, later, writes. -/
example : (final.2.heap.events.drop 132).length = 19 ∧
    (final.2.heap.events.drop 132).filter (fun e => e.first = ⟨0, 3⟩) =
      [⟨false, ⟨0, 3⟩, 1, 132⟩, ⟨true, ⟨0, 3⟩, 1, 132⟩] := by decide +kernel

end RaceSample
end BST.Props
