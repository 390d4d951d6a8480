import Verif.Proofs.NodeWrites
import Verif.Proofs.Sample
/-!
# Whole nodes of a `SimpleBSTMap` overwritten by the client

`C60` as one would like to have it: whatever safe code does, `len()` of a `SimpleBSTMap` is the
number of its entries, iteration in order is sorted, an entry that iteration yields is found by
its key, and calls panic only if code of the user does. This is false, since `root_mut`,
`left_mut` and `right_mut` lend out whole nodes (`C60_false_len`, `C60_false_order`). What is
left of it is `C60_answers_partial`, `C60_safe_partial` and `C60_careful_partial`.
-/
namespace BST.Props
open BSTMap Std
open Simple (Link swapNodes)
open Spec (BT Book Conforms NodeAnswer Keeps)

section
variable {K V : Type} {cfg : Cfg} {cmp : K → K → Ordering}

/-- C60, what is left (1): in every history of calls and overwritten nodes, every call acts on
the tree that is there as a search guided by the comparisons does, and on the counter by adding
or subtracting one (`Spec.Book`), until the process aborts for lack of memory. So what is
returned depends only on the tree that the node API shows and on `len()`; overwriting a node
has no effect but this. Missing for C60: that the counter is the size, and the order. -/
theorem C60_answers_partial (ops : List (NodeOp K V)) :
    ∃ os m, execute (NodeOp.run cfg) ops Simple.Map.new = (os, m) ∧
      ((os, ⟨Simple.explore m, m.len⟩) = execute (Book.answer cfg) ops ⟨.nil, 0⟩ ∨
       ∃ pre op post, ops = pre ++ op :: post ∧ op.Allocates ∧
         os = (execute (Book.answer cfg) pre ⟨.nil, 0⟩).1 ++ [.abort]) := by
  obtain ⟨os, m, h1, h2⟩ := Simple.node_history cfg ops Simple.Map.new
  refine ⟨os, m, h1, ?_⟩
  rw [Simple.explore_eq]
  exact h2

/-- C60, what is left (2): overwriting nodes never leads to undefined behaviour (the raw
pointers in `remove_entry` are fine in any tree) nor to a call that does not terminate. -/
theorem C60_safe_partial (ops : List (NodeOp K V)) :
    ∀ x ∈ ops.zip (execute (NodeOp.run cfg) ops Simple.Map.new).1,
      (∃ r, x.2 = .ok r) ∨ x.2 = .panic ∨ (x.2 = .abort ∧ x.1.Allocates) :=
  Simple.node_outcomes cfg ops Simple.Map.new

/-- C60, what is left (3): if every node is overwritten by a node such that the keys of the
whole tree stay in order and the number of nodes is as before, then all is well: the outcomes
are those of the textbook, and `len()` is the number of entries at the end. -/
theorem C60_careful_partial [TransCmp cmp] (he : 2 ≤ cfg.esize) (ops : List (NodeOp K V))
    (hops : ∀ op ∈ ops, op.Lawful cmp)
    (hk : ∀ pre path k v l r post, ops = pre ++ .replace path k v l r :: post →
      Keeps cmp (Simple.explore (execute (NodeOp.run cfg) pre Simple.Map.new).2)
        (.node l.view (k, v) r.view) path) :
    ∃ os m b, execute (NodeOp.run cfg) ops Simple.Map.new = (os, m) ∧
      Conforms (NodeAnswer cmp) ops os .nil b ∧
      (Out.abort ∉ os → Simple.explore m = b ∧ m.len = b.size) := by
  obtain ⟨os, m, b, h1, h2, h3⟩ := Simple.node_history_tree he (cmp := cmp) ops hops
    (m := Simple.Map.new) rfl List.Pairwise.nil (fun pre path k v l r post h => by
      have := hk pre path k v l r post h
      rw [Simple.explore_eq] at this
      exact this)
  refine ⟨os, m, b, h1, h2, fun hh => ?_⟩
  obtain ⟨h4, rfl⟩ := h3 hh
  exact ⟨Simple.explore_eq m, by rw [Simple.view_size']; exact h4⟩

/-- `mem::swap` of nodes of two maps is the overwriting of each one by the other: both maps
continue with histories as above. -/
theorem C60_swap (p q : List Bool) (a b : Simple.Map K V) {x y : Simple.Ref K V}
    (hx : Simple.nodeAt p a = some x) (hy : Simple.nodeAt q b = some y) :
    swapNodes p q (a, b) = (.ok true,
      ((NodeOp.run cfg (.replace p y.key y.value y.left y.right) a).2,
       (NodeOp.run cfg (.replace q x.key x.value x.left x.right) b).2)) := by
  have hx' : Simple.Ref.of p (a.root.at' p) = some x := (Simple.goRef_eq p a.root []).symm.trans hx
  have hy' : Simple.Ref.of q (b.root.at' q) = some y := (Simple.goRef_eq q b.root []).symm.trans hy
  cases ha : a.root.at' p with
  | nil => rw [ha] at hx'; cases hx'
  | node ka va la ra =>
    cases hb : b.root.at' q with
    | nil => rw [hb] at hy'; cases hy'
    | node kb vb lb rb =>
      rw [ha] at hx'
      rw [hb] at hy'
      cases hx'
      cases hy'
      exact Simple.swapNodes_eq p q a b ha hb

end

namespace NodeWrites
/-- A debug or release build, with or without overflow checks. -/
def cfg (debug checks : Bool) : Cfg := { checks, debug, esize := 40, allocOk := fun _ _ => true }

/-- The comparisons with a key. -/
def q (n : Nat) : Probe Nat := query (compare n)

/-- The map after inserting the keys in this order. -/
def build (c : Cfg) (l : List Nat) : Simple.Map Nat Nat :=
  (simpleHistory c (l.map fun n => .insert (q n) n n) Simple.Map.new).2
end NodeWrites
open NodeWrites

/-- C60 is false. Swap the roots of a map with the key 5 and a map with the keys 2, 1, 3.
The first map now has three entries, but `len()` is 1. After removing one, `is_empty()` is true
(or panics, in a debug build) although there are two entries; the next removal panics, or
`len()` becomes 2⁶⁴ - 1. The second map has one entry, but `len()` is 3; once it has been
removed, insertion into the empty map panics in a debug build, after it has happened. -/
theorem C60_false_len (debug checks : Bool) :
    ∃ a b, swapNodes [] [] (build (cfg debug checks) [5], build (cfg debug checks) [2, 1, 3]) =
        (.ok true, (a, b)) ∧
      a.len = 1 ∧ a.drain .ino = .ok [(1, 1), (2, 2), (3, 3)] ∧
      (simpleHistory (cfg debug checks) [.remove (q 2), .isEmpty, .iter .ino 2, .remove (q 1), .len]
          a).1 =
        [.ok (.value (some 2)), if debug then .panic else .ok (.bool true),
          .ok (.items [some (1, 1), some (3, 3)]),
          if checks then .panic else .ok (.value (some 1)),
          .ok (.nat (if checks then 0 else 2 ^ 64 - 1))] ∧
      b.len = 3 ∧ b.drain .ino = .ok [(5, 5)] ∧
      (simpleHistory (cfg debug checks) [.remove (q 5), .iter .ino 1, .len, .insert (q 7) 7 7,
          .iter .ino 2, .len] b).1 =
        [.ok (.value (some 5)), .ok (.items [none]), .ok (.nat 2),
          if debug then .panic else .ok (.value none),
          .ok (.items [some (7, 7), none]), .ok (.nat (if debug then 2 else 1))] := by
  refine ⟨(swapNodes [] [] (build (cfg debug checks) [5], build (cfg debug checks) [2, 1, 3])).2.1,
    (swapNodes [] [] (build (cfg debug checks) [5], build (cfg debug checks) [2, 1, 3])).2.2, ?_⟩
  cases debug <;> cases checks <;> decide +kernel

/-- C60 is false. Swap the left child of the root of a map with the keys 5 and 2 with the root
of a map with the key 9: iteration of the first map is out of order, the key 9 is not found,
and inserting it adds it a second time. -/
theorem C60_false_order (debug checks : Bool) :
    ∃ a b, swapNodes [false] [] (build (cfg debug checks) [5, 2], build (cfg debug checks) [9]) =
        (.ok true, (a, b)) ∧
      a.drain .ino = .ok [(9, 9), (5, 5)] ∧ a.get (q 9) = .ok none ∧
      (simpleHistory (cfg debug checks) [.insert (q 9) 9 9, .iter .ino 3, .len] a).1 =
        [.ok (.value none), .ok (.items [some (9, 9), some (5, 5), some (9, 9)]), .ok (.nat 3)] := by
  refine ⟨(swapNodes [false] [] (build (cfg debug checks) [5, 2], build (cfg debug checks) [9])).2.1,
    (swapNodes [false] [] (build (cfg debug checks) [5, 2], build (cfg debug checks) [9])).2.2, ?_⟩
  cases debug <;> cases checks <;> decide +kernel

/-- A history that overwrites the left child by a node in order, and one that does not. -/
def nodeOps (k : Nat) : List (NodeOp Nat Nat) :=
  [.call (.insert (q 5) 5 5), .call (.insert (q 2) 2 2), .replace [false] k k .nil .nil,
   .call (.get (q k)), .call (.insert (q k) k 0), .call .len]

example : (execute (NodeOp.run (cfg true true)) (nodeOps 3) Simple.Map.new).1 =
    [.ok (.ret (.value none)), .ok (.ret (.value none)), .ok (.old (.node .nil (2, 2) .nil)),
     .ok (.ret (.value (some 3))), .ok (.ret (.value (some 3))), .ok (.ret (.nat 2))] ∧
  (execute (NodeOp.run (cfg true true)) (nodeOps 9) Simple.Map.new).1 =
    [.ok (.ret (.value none)), .ok (.ret (.value none)), .ok (.old (.node .nil (2, 2) .nil)),
     .ok (.ret (.value none)), .ok (.ret (.value none)), .ok (.ret (.nat 3))] := by decide +kernel

/-- The first one meets the hypotheses of `C60_careful_partial`. -/
example : ∃ os m b, execute (NodeOp.run (cfg true true)) (nodeOps 3) Simple.Map.new = (os, m) ∧
      Conforms (NodeAnswer compare) (nodeOps 3) os .nil b ∧
      (Out.abort ∉ os → Simple.explore m = b ∧ m.len = b.size) := by
  refine C60_careful_partial (by decide) _ ?_ ?_
  · simp only [nodeOps, List.forall_mem_cons]
    exact ⟨fun _ _ => .inr rfl, fun _ _ => .inr rfl, trivial,
      ⟨_, lawful_cmp compare 3, fun _ _ => .inr rfl⟩, fun _ _ => .inr rfl, trivial, by simp⟩
  · intro pre path k v l r post h
    match pre with
    | [] => simp [nodeOps] at h
    | [_] => simp [nodeOps] at h
    | [_, _] =>
      simp only [nodeOps, List.cons_append, List.nil_append, List.cons.injEq, NodeOp.replace.injEq] at h
      obtain ⟨rfl, rfl, ⟨rfl, rfl, rfl, rfl, rfl⟩, _⟩ := h
      unfold Keeps Spec.Sorted
      decide +kernel
    | [_, _, _] => simp [nodeOps] at h
    | [_, _, _, _] => simp [nodeOps] at h
    | [_, _, _, _, _] => simp [nodeOps] at h
    | _ :: _ :: _ :: _ :: _ :: _ :: _ => simp [nodeOps] at h

end BST.Props
