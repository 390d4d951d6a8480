import Verif.Proofs.Conform
import Verif.Proofs.Sample
/-!
# Whole histories of calls

`history cfg ops m` executes the calls `ops` one after the other on `m`, catching panics
(`Verif/History.lean`).
-/
namespace BST.Props
open BSTMap Std
open Spec (BT Answer TreeAnswer Conforms LawfulQuery Order)
variable {K V : Type} {cfg : Cfg} {cmp : K → K → Ordering}

/-- C01. Start with an empty map and make any finite sequence of calls. The outcome of every
call is one that a plain association list gives for the same sequence (`Spec.Answer`), and
the final contents are those of the association list. Comparisons and clones may panic, the
allocator may refuse, and sizes may overflow; the specification says what is left then. -/
theorem C01_history [TransCmp cmp] (ops : List (Op K V)) (hops : ∀ op ∈ ops, op.Lawful cmp) :
    ∃ os m l, history cfg ops BSTMap.new = (os, m) ∧ m.iterInorder = .ok l ∧
      Conforms (Answer cmp) ops os [] l := by
  obtain ⟨os, m, t, h1, h2, _, _, h3⟩ := history_tree ops (shape_new cfg) .nil hops
  exact ⟨os, m, t.kv, h1, iterInorder_spec h2, h3⟩

/-- Panicking comparisons are allowed: the second insertion does nothing. -/
example : ∃ os m l, history Sample.cfg [.insert (query (compare 5)) 5 "e",
      .insert (fun _ _ => none) 2 "b", .insert (query (compare 2)) 2 "B", .remove (query (compare 5))]
      BSTMap.new = (os, m) ∧ os = [.ok (.value none), .panic, .ok (.value none), .ok (.value (some "e"))] ∧
      m.iterInorder = .ok l ∧ l = [(2, "B")] :=
  ⟨_, _, _, (Prod.eta _).symm, by decide +kernel, by decide +kernel, rfl⟩

/-- C46. The same with a textbook (unbalanced) search tree in place of the association list:
the return values of `root`/`left`/`right`, the three iteration orders and the `Debug`
output are determined as well, and the final shape is the shape of the textbook tree. -/
theorem C46_history [TransCmp cmp] (ops : List (Op K V)) (hops : ∀ op ∈ ops, op.Lawful cmp) :
    ∃ os m b, history cfg ops BSTMap.new = (os, m) ∧ explore m = .ok b ∧
      Conforms (TreeAnswer cmp) ops os .nil b := by
  obtain ⟨os, m, t, h1, h2, _, h3, _⟩ := history_tree ops (shape_new cfg) .nil hops
  exact ⟨os, m, t.sh, h1, explore_ok h2, h3⟩

/-- The shape after replacing a root with two children: the smallest entry of the right
subtree moves up. -/
example : ∃ os m b, history Sample.cfg [.insert (query (compare 5)) 5 "e",
      .insert (query (compare 2)) 2 "b", .insert (query (compare 8)) 8 "h",
      .insert (query (compare 7)) 7 "g", .remove (query (compare 5))] BSTMap.new = (os, m) ∧
      explore m = .ok b ∧ b = .node (.node .nil (2, "b") .nil) (7, "g") (.node .nil (8, "h") .nil) :=
  ⟨_, _, _, (Prod.eta _).symm, by decide +kernel, rfl⟩

/-- C20. Start with an empty map and make any finite sequence of calls, with comparisons
that may be inconsistent, stateful and may panic, clones that may be wrong, and iterators
whose size hints may be wrong. No call has undefined behaviour, and every call terminates
(it returns, panics or aborts). If no destructor panics, neither has dropping the map in
the end. -/
theorem C20_history (ops : List (Op K V)) (hops : ∀ op ∈ ops, op.Calm) :
    (∀ o ∈ (history cfg ops BSTMap.new).1, o ≠ .ub ∧ o ≠ .diverge) ∧
    ∀ d : DropInfo (InnerNode K V), (∀ x, d.panics x = false) →
      (drop cfg d (history cfg ops BSTMap.new).2).1 = .ok () := by
  obtain ⟨os, m, t, h1, h2, h3⟩ := history_shape ops (shape_new cfg) hops
  rw [h1]
  refine ⟨fun o ho => ?_, fun d hd => ?_⟩
  · have := h3 o ho
    constructor <;> rintro rfl <;> exact this
  · obtain ⟨m', h4, _⟩ := drop_spec h2 d hd
    rw [h4]

/-! ### Examples -/

/-- A history with every kind of call; some of them panic. -/
def sampleOps : List (Op Nat String) :=
  let q (n : Nat) : Probe Nat := query (compare n)
  [.insert (q 5) 5 "e", .insert (q 2) 2 "b", .insert (q 8) 8 "h", .insert (q 6) 6 "f",
   .insert (q 5) 5 "E", .get (q 5), .get (q 7), .containsKey (q 2), .getMut (q 8) "H",
   .remove (q 5), .getEntry (q 8), .get (fun _ _ => none), .len, .isEmpty, .capacity,
   .node [true], .nodeMut [false] "B", .iter .ino 4, .iter .post 2,
   .iterMut .ino [.next, .next, .write 1 "F"], .reserve 20, .shrinkToFit,
   .extend (fun _ k => query (compare k)) ⟨(0, none), [(1, "a"), (6, "ff")], false⟩,
   .cloned (fun _ k => query (compare k)) some some, .removeEntry (q 2), .iter .pre 3,
   .debug toString id, .clear ⟨true, fun _ => false⟩, .len]

theorem sampleOps_lawful : ∀ op ∈ sampleOps, op.Lawful compare := by
  have hq : ∀ n : Nat, ∃ f, LawfulQuery compare f ∧ Asks f (query (compare n)) :=
    fun n => ⟨_, lawful_cmp compare n, fun _ _ => .inr rfl⟩
  simp only [sampleOps, List.forall_mem_cons]
  refine ⟨fun _ _ => .inr rfl, fun _ _ => .inr rfl, fun _ _ => .inr rfl, fun _ _ => .inr rfl,
    fun _ _ => .inr rfl, hq 5, hq 7, hq 2, hq 8, hq 5, hq 8,
    ⟨_, lawful_cmp compare 0, fun _ _ => .inl rfl⟩, trivial, trivial, trivial, trivial, trivial,
    trivial, trivial, trivial, trivial, trivial, fun _ _ _ _ => .inr rfl,
    ⟨fun _ _ _ _ => .inr rfl, fun _ _ h => (Option.some.inj h).symm,
      fun _ _ h => (Option.some.inj h).symm⟩, hq 2, trivial, trivial, fun _ => rfl, trivial, by simp⟩

example : (history Sample.cfg sampleOps BSTMap.new).1 =
    [.ok (.value none), .ok (.value none), .ok (.value none), .ok (.value none),
     .ok (.value (some "e")), .ok (.value (some "E")), .ok (.value none), .ok (.bool true),
     .ok (.value (some "h")), .ok (.value (some "E")), .ok (.entry (some (8, "H"))), .panic,
     .ok (.nat 3), .ok (.bool false), .ok (.nat 8), .ok (.node (some (8, "H", false, false))),
     .ok (.entry (some (2, "b"))),
     .ok (.items [some (2, "B"), some (6, "f"), some (8, "H"), none]),
     .ok (.items [some (2, "B"), some (8, "H")]), .ok (.keys [2, 6]), .ok .unit, .ok .unit,
     .ok .unit, .ok .unit, .ok (.entry (some (2, "B"))),
     .ok (.items [some (6, "ff"), some (1, "a"), some (8, "H")]),
     .ok (.text "BSTMap { root: Some(Node { key: 6, value: ff, left: Some(Node { key: 1, value: a, left: None, right: None }), right: Some(Node { key: 8, value: H, left: None, right: None }) }) }"),
     .ok .unit, .ok (.nat 0)] := by decide +kernel

/-- A comparison that never gives the same answer twice: the calls still return. -/
example :
    let c : Probe Nat := fun i _ => if i % 2 = 0 then some .lt else some .gt
    (history Sample.cfg [.insert c 1 "a", .insert c 1 "b", .insert c 1 "c", .insert c 1 "d",
      .remove c, .get (fun _ _ => some .eq), .iter .ino 5] BSTMap.new).1 =
    [.ok (.value none), .ok (.value none), .ok (.value none), .ok (.value none),
     .ok (.value none), .ok (.value (some "a")),
     .ok (.items [some (1, "b"), some (1, "d"), some (1, "c"), some (1, "a"), none])] := by
  decide +kernel

end BST.Props
