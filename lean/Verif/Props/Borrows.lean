import Verif.Proofs.Borrower
import Verif.Proofs.StackLaws
import Verif.Proofs.Sample
/-!
# Aliasing rules: the references that the arena creates
-/
namespace BST.Props
open Spec
variable {T : Type} {cfg : Cfg}

/-! ### C49 -/

/-- C49, the part that holds. A client of a new arena may keep any number of references to
elements: shared ones to the same element, or one mutable reference per element, across further
calls (`BorrowValid`). Under the rules of Stacked Borrows no call and no use of a reference is
undefined, except that `shrink_to_fit`, and `clear` if elements have destructors, may be.
Missing: those two, and dropping the arena; see `C49_false`. -/
theorem C49_partial {nd : Bool} {ops : List (BorrowOp T)} {os : List (Out BorrowRet)}
    {s : Borrower Borrows T} (he : execute (BorrowOp.run cfg .asMut nd) ops .new = (os, s))
    (hob : Obeys BorrowValid Spec.BorrowOp.after ops os .none) :
    ∀ x ∈ ops.zip os, x.2 = .ub → x.1 = .shrinkToFit ∨ x.1 = .clear ∧ nd = true := by
  have h := (Borrower.history (cfg := cfg) .asMut nd ops (by rw [he]; exact hob)).1
  rw [he] at h
  exact fun x hx hu => (h x hx hu).2

/-- C49 is false as it stands. `chunk.as_mut()` makes a reference to the first element of a
chunk, and the code uses it for all of them. So, whatever the client did before (obeying the
discipline, and without undefined behaviour so far): dropping the arena is undefined if it ever
allocated and still has capacity; `clear` is if there are elements with destructors;
`shrink_to_fit` is if it gives back memory. -/
theorem C49_false {nd : Bool} {ops : List (BorrowOp T)} {os : List (Out BorrowRet)}
    {s : Borrower Borrows T} (he : execute (BorrowOp.run cfg .asMut nd) ops .new = (os, s))
    (hob : Obeys BorrowValid Spec.BorrowOp.after ops os .none) (hno : ∀ o ∈ os, o ≠ .ub) :
    (s.store.arena.capacity ≠ 0 → (Tagged.drop cfg .asMut nd s.store).1 = .ub) ∧
    (nd = true → s.store.arena.len ≠ 0 → (Tagged.clear cfg .asMut nd s.store).1 = .ub) ∧
    ((Arena.shrinkToFit cfg s.store.arena).2.capacity ≠ s.store.arena.capacity →
      (Tagged.shrinkToFit cfg .asMut s.store).1 = .ub) := by
  have h := (Borrower.history (cfg := cfg) .asMut nd ops (by rw [he]; exact hob)).2
  rw [he] at h
  have hg := (h hno).good
  refine ⟨fun hc => ?_, fun h1 h2 => ?_, fun hc => ?_⟩
  · refine Tagged.drop_ub Borrows.not_sound hg.inv hg.tags hg.sane.wf (fun hn => hc ?_) nd
    have := hg.inv.cap
    rw [hn] at this
    simpa using this
  · rcases Tagged.clear_good hg .asMut nd with ⟨_, _, _, _, h3⟩ | ⟨_, _, _, h3⟩
    · rcases h3 Borrows.not_sound with h3 | h3
      · rw [h1] at h3; cases h3
      · exact absurd h3 h2
    · exact h3
  · rcases Tagged.shrinkToFit_keeps hg .asMut with ⟨s', e, hk, h3, _⟩ | ⟨_, h3⟩
    · exfalso
      have harena : s'.arena = (Arena.shrinkToFit cfg s.store.arena).2 := by
        obtain ⟨b, e1, _⟩ := Arena.shrinkToFit_spec hg.inv
        unfold Tagged.shrinkToFit at e
        rw [e1] at e ⊢
        simp only at e
        exact (congrArg (fun x => x.2.arena) e).symm
      rw [← harena] at hc
      have h1 := hk.good.inv.cap
      have h2 := hg.inv.cap
      rw [h3 Borrows.not_sound] at h1
      simp only at h1 h2
      omega
    · exact h3

/-- C49 is false for maps as well: in every state of the heap that fits the map's arena
(whatever references were made before), releasing a map that has capacity is undefined. The
entries of the slab have no destructors themselves (src/slab.rs:12-31). -/
theorem C49_false_map {K V : Type} {ok : K → Probe K → Prop} {m : BSTMap K V}
    (hm : Reach cfg ok m) (hc : m.capacity ≠ 0) {s : Tagged Borrows (Entry (InnerNode K V))}
    (hs : s.arena = m.nodes.items) (hf : Fitting s) :
    (Tagged.drop cfg .asMut false s).1 = .ub := by
  obtain ⟨t, ht⟩ := hm.shape
  obtain ⟨frees, hfr⟩ := ht.slab
  have hi : s.arena.Inv cfg := by rw [hs]; exact hfr.items
  refine Tagged.drop_ub Borrows.not_sound hi hf.tags (Borrows.wf_of_fitting hi hf) (fun hn => hc ?_) false
  have := hi.cap
  rw [hn, hs] at this
  have h2 : m.capacity = m.nodes.items.capacity := rfl
  rw [h2]
  simpa using this

/-- C49 would hold with `chunk.as_ptr()` in the three places: no call and no use of a live
reference is undefined, and dropping the arena then releases all memory. -/
theorem C49_fixed {nd : Bool} {ops : List (BorrowOp T)} {os : List (Out BorrowRet)}
    {s : Borrower Borrows T} (he : execute (BorrowOp.run cfg .asPtr nd) ops .new = (os, s))
    (hob : Obeys BorrowValid Spec.BorrowOp.after ops os .none) :
    (∀ o ∈ os, o ≠ .ub) ∧ (Tagged.drop cfg .asPtr nd s.store).1 = .ok () ∧
      (Tagged.drop cfg .asPtr nd s.store).2.heap.blocks = [] := by
  have h := Borrower.history (cfg := cfg) .asPtr nd ops (by rw [he]; exact hob)
  rw [he] at h
  have hno : ∀ o ∈ os, o ≠ .ub := fun o ho hu => by
    have hlen := execute_length (BorrowOp.run cfg .asPtr nd) ops (.new : Borrower Borrows T)
    rw [he] at hlen
    obtain ⟨op, hop⟩ := mem_zip_right hlen ho
    exact absurd rfl (h.1 _ hop hu).1
  obtain ⟨s', e, hb⟩ := Tagged.drop_ok (h.2 hno).good (how := .asPtr) rfl nd
  rw [e]
  exact ⟨hno, rfl, Borrows.blocks_nil hb⟩

/-! ### Concrete cases for C49 -/

namespace BorrowSample

def P (b o : Nat) : Ptr := ⟨b, o⟩

/-- Ten elements in two chunks (a third one is reserved). Mutable references to the elements 0
and 8 stay in use while others are created and elements are added; two shared references to
element 3 are in use at the same time, and a mutable one after them. -/
def ops : List (BorrowOp Nat) :=
  [.alloc 0, .alloc 1, .alloc 2, .alloc 3, .alloc 4, .alloc 5, .alloc 6, .alloc 7, .alloc 8,
   .getMut (P 0 0), .getMut (P 1 0), .use true 0, .use true 1, .reserve 100, .use false 0,
   .get (P 0 3), .get (P 0 3), .use false 2, .use false 3, .use true 1, .getMut (P 0 3),
   .use true 4, .alloc 9, .use true 0]

def outs : List (Out BorrowRet) :=
  [.ok (.ptr (P 0 0)), .ok (.ptr (P 0 1)), .ok (.ptr (P 0 2)), .ok (.ptr (P 0 3)),
   .ok (.ptr (P 0 4)), .ok (.ptr (P 0 5)), .ok (.ptr (P 0 6)), .ok (.ptr (P 0 7)),
   .ok (.ptr (P 1 0)),
   .ok (.ref 0), .ok (.ref 1), .ok .unit, .ok .unit, .ok .unit, .ok .unit,
   .ok (.ref 2), .ok (.ref 3), .ok .unit, .ok .unit, .ok .unit, .ok (.ref 4),
   .ok .unit, .ok (.ptr (P 1 1)), .ok .unit]

/-- The end of that history. -/
def final : Borrower Borrows Nat := (execute (BorrowOp.run Sample.cfg .asMut true) ops .new).2

theorem run_eq : execute (BorrowOp.run Sample.cfg .asMut true) ops .new = (outs, final) := by
  have h : (execute (BorrowOp.run Sample.cfg .asMut true) ops (.new : Borrower Borrows Nat)).1 = outs := by decide +kernel
  rw [← h]
  exact (Prod.eta _).symm

/-- The hypotheses of `C49_partial` and `C49_false` are met, … -/
theorem obeys : Obeys BorrowValid Spec.BorrowOp.after ops outs .none := by
  simp [ops, outs, Obeys, BorrowValid, Spec.BorrowOp.after, P, Live.none]

example : ∀ x ∈ ops.zip outs, x.2 = .ub → x.1 = .shrinkToFit ∨ x.1 = .clear ∧ true = true :=
  C49_partial run_eq obeys

/-- … and so are those of its three parts: the calls that follow are undefined. -/
example : (∀ o ∈ outs, o ≠ .ub) ∧ final.store.arena.capacity = 120 ∧
    final.store.arena.len = 10 ∧
    (Arena.shrinkToFit Sample.cfg final.store.arena).2.capacity = 24 := by decide +kernel
example : (Tagged.drop Sample.cfg .asMut true final.store).1 = .ub ∧
    (Tagged.clear Sample.cfg .asMut true final.store).1 = .ub ∧
    (Tagged.shrinkToFit Sample.cfg .asMut final.store).1 = .ub := by decide +kernel

/-- `C49_false_map`: tags for the chunks of a map with two of them, as if they had just been
allocated. -/
def tagged : Tagged Borrows (Entry (InnerNode Nat String)) :=
  Tagged.adopt { arena := Sample.eight.nodes.items, tags := [], heap := { blocks := [], next := 0 } }
    Sample.eight.nodes.items.chunks

example : tagged.arena = Sample.eight.nodes.items ∧ Sample.eight.capacity = 24 ∧
    tagged.tags = [0, 1] ∧
    tagged.tags.length = tagged.arena.chunks.length ∧
    tagged.heap.blocks.map (fun b => (b.id, b.stacks.length)) =
      tagged.arena.chunks.map (fun c => (c.id, c.slots.length)) ∧
    (∀ b ∈ tagged.heap.blocks, ∀ st ∈ b.stacks, ∀ i ∈ st, i.tag < tagged.heap.next) ∧
    (Tagged.drop Sample.cfg .asMut false tagged).1 = .ub := by decide +kernel

/-- `C49_fixed`: the history goes on, with memory given back and all elements dropped. -/
def moreOps : List (BorrowOp Nat) :=
  ops ++ [.shrinkToFit, .use true 0, .use true 1, .clear, .alloc 5, .getMut (P 0 0), .use true 5]

def moreOuts : List (Out BorrowRet) :=
  outs ++ [.ok .unit, .ok .unit, .ok .unit, .ok .unit, .ok (.ptr (P 0 0)), .ok (.ref 5), .ok .unit]

example : (execute (BorrowOp.run Sample.cfg .asPtr true) moreOps (.new : Borrower Borrows Nat)).1 = moreOuts := by
  decide +kernel
example : Obeys BorrowValid Spec.BorrowOp.after moreOps moreOuts .none := by
  simp [moreOps, moreOuts, ops, outs, Obeys, BorrowValid, Spec.BorrowOp.after, P, Live.none]

/-- The discipline is needed: reference 0 died when the elements were dropped. -/
example : (execute (BorrowOp.run Sample.cfg .asPtr true) (moreOps ++ [.use true 0])
      (.new : Borrower Borrows Nat)).1 =
    moreOuts ++ [.ub] := by decide +kernel

/-- Likewise without `clear`: a mutable reference dies when another one to its element is
created, and shared references die with it. -/
example : (execute (BorrowOp.run Sample.cfg .asPtr true)
      [.alloc 7, .getMut (P 0 0), .getMut (P 0 0), .use true 0] (.new : Borrower Borrows Nat)).1 =
      [.ok (.ptr (P 0 0)), .ok (.ref 0), .ok (.ref 1), .ub] ∧
    (execute (BorrowOp.run Sample.cfg .asPtr true)
      [.alloc 7, .get (P 0 0), .getMut (P 0 0), .use false 0] (.new : Borrower Borrows Nat)).1 =
      [.ok (.ptr (P 0 0)), .ok (.ref 0), .ok (.ref 1), .ub] := by decide +kernel

end BorrowSample
end BST.Props
