import Verif.Proofs.SimpleSetDtors
import Verif.Props.Dtors
/-!
# What becomes of every element of a `SimpleBSTSet`

`simpleSetWorldHistory cfg ops s` executes calls on a `SimpleBSTSet` with destructors
(`Verif/SimpleSetLedger.lean`, `Verif/Model/SimpleSetDtors.lean`). Each element of `ops` is a call together
with the destructors at the time of that call: which elements panic when they are dropped. The
state remembers which destructors were run (`dropped`) and which clones were made (`made`).
-/
set_option linter.unusedSimpArgs false
namespace BST.Props
open Std
open Spec (BT Conforms SimpleSetDropAnswer fate)
open Simple (SSet)
open Simple.SSet (World)
variable {T : Type} {cfg : Cfg} {cmp : T → T → Ordering}

/-! ### C73 -/

/-- Elements from 100 on panic when they are dropped; the order looks at the last digit. -/
def spinyOps : List ((Nat → Bool) × SimpleSetOp Nat) :=
  [((100 ≤ ·), .insert (query (lastDigit 5)) 5),
   ((100 ≤ ·), .insert (query (lastDigit 15)) 15),
   ((100 ≤ ·), .insert (query (lastDigit 105)) 105),
   ((100 ≤ ·), .extend (fun _ k => query (lastDigit k)) ⟨(0, none), [108, 125, 7], false⟩),
   ((100 ≤ ·), .insert (query (lastDigit 2)) 2),
   ((100 ≤ ·), .take (query (lastDigit 5))),
   ((100 ≤ ·), .remove (query (lastDigit 8))),
   ((100 ≤ ·), .insert (query (lastDigit 101)) 101),
   ((100 ≤ ·), .insert (query (lastDigit 6)) 6),
   ((100 ≤ ·), .collect (fun _ k => query (lastDigit k)) ⟨(0, none), [3, 2, 13, 4], false⟩),
   ((100 ≤ ·), .cloned (fun t => if t == 4 then none else some t)),
   ((100 ≤ ·), .cloned some),
   ((100 ≤ ·), .insert (fun _ _ => none) 4),
   ((100 ≤ ·), .remove (query (lastDigit 3))),
   ((100 ≤ ·), .insert (query (lastDigit 107)) 107),
   ((100 ≤ ·), .debug toString),
   ((100 ≤ ·), .clear),
   ((100 ≤ ·), .insert (query (lastDigit 6)) 6),
   ((100 ≤ ·), .insert (fun _ _ => none) 109),
   ((100 ≤ ·), .insert (query (lastDigit 1)) 1)]

theorem spinyOps_lawful : ∀ x ∈ spinyOps, x.2.Lawful lastDigit := by
  simp only [spinyOps, List.forall_mem_cons]
  refine ⟨fun _ _ => .inr rfl, fun _ _ => .inr rfl, fun _ _ => .inr rfl, fun _ _ _ _ => .inr rfl,
    fun _ _ => .inr rfl, ⟨lastDigit 5, lawful_cmp lastDigit 5, fun _ _ => .inr rfl⟩,
    ⟨lastDigit 8, lawful_cmp lastDigit 8, fun _ _ => .inr rfl⟩, fun _ _ => .inr rfl, fun _ _ => .inr rfl,
    fun _ _ _ _ => .inr rfl, ⟨fun _ _ _ _ => .inr rfl, fun v w h => ?_⟩,
    ⟨fun _ _ _ _ => .inr rfl, fun _ _ h => (Option.some.inj h).symm⟩,
    fun _ _ => .inl rfl, ⟨lastDigit 3, lawful_cmp lastDigit 3, fun _ _ => .inr rfl⟩,
    fun _ _ => .inr rfl, trivial, fun _ => rfl, fun _ _ => .inr rfl, fun _ _ => .inl rfl,
    fun _ _ => .inr rfl, by simp⟩
  simp only at h
  split at h
  · cases h
  · exact (Option.some.inj h).symm

/-- C73. Start with an empty set and make any finite sequence of calls, where the destructors of
elements panic in any pattern. Every call does what a textbook search tree does with the same
destructors (`Spec.SimpleSetDropAnswer`): `insert` drops the new element if an equal one is there;
`insert` and `remove` have taken full effect if a destructor makes them panic; `extend` stops behind
the element that was dropped and panicked; an assignment and `clear` have happened although dropping the
old set panics; and a second panic during unwinding aborts the process. -/
theorem C73_history [TransCmp cmp] (he : 2 ≤ cfg.esize) (ops : List ((T → Bool) × SimpleSetOp T))
    (hops : ∀ x ∈ ops, x.2.Lawful cmp) :
    ∃ os s b, simpleSetWorldHistory cfg ops World.new = (os, s) ∧
      Conforms (SimpleSetDropAnswer cmp) ops os .nil b ∧
      (Out.abort ∉ os → s.set.explore = b ∧ s.set.len = b.size) := by
  obtain ⟨os, s, b, h1, h2, h3⟩ := World.history_eff he ops hops (s := World.new) (b0 := .nil)
    ⟨rfl, List.Pairwise.nil, rfl⟩
  refine ⟨os, s, b, h1, h2, fun h => ?_⟩
  obtain ⟨g1, _, rfl⟩ := h3 h
  refine ⟨ssExplore_eq _, ?_⟩
  unfold SSet.elems
  rw [Spec.BT.map_size, Simple.view_size']
  exact g1

/-- `C73_history` for the calls above. -/
example := C73_history (cfg := Sample.cfg) (by decide) spinyOps spinyOps_lawful

/-- What happens: the calls that panic have taken effect (but for the first `clone` and the
insertion whose comparison panics); the last call but one aborts. -/
example : (simpleSetWorldHistory Sample.cfg spinyOps World.new).1 =
      [.ok (.bool true), .ok (.bool false), .panic, .panic, .ok (.bool true), .ok (.elem (some 5)), .panic,
        .ok (.bool true), .ok (.bool true), .panic, .panic, .ok .unit, .panic, .ok (.bool true),
        .ok (.bool true), .ok (.text ("SimpleBSTSet { root: Some(Node { value: 4, left: Some(Node { value: 2, " ++
          "left: None, right: None }), right: Some(Node { value: 107, left: None, right: None }) }) }")),
        .panic, .ok (.bool true), .abort] ∧
    (simpleSetWorldHistory Sample.cfg (spinyOps.take 4) World.new).2.set.explore =
      .node .nil 5 (.node .nil 108 .nil) ∧
    (simpleSetWorldHistory Sample.cfg (spinyOps.take 7) World.new).2.set.explore = .node .nil 2 .nil ∧
    (simpleSetWorldHistory Sample.cfg (spinyOps.take 10) World.new).2.set.explore =
      .node (.node .nil 2 .nil) 3 (.node .nil 4 .nil) ∧
    (simpleSetWorldHistory Sample.cfg (spinyOps.take 17) World.new).2.set.explore = .nil := by
  decide +kernel

/-- C73. The accounts. Whatever the comparisons, clones and destructors do: if the process has
not aborted, every element that the calls took from the caller, and every clone they made,
has been given back to the caller, or is in the set, or its destructor was run, exactly once: nothing
is leaked. No call has undefined behaviour or does not terminate. -/
theorem C73_ledger (he : 2 ≤ cfg.esize) (ops : List ((T → Bool) × SimpleSetOp T)) :
    ∃ os s, simpleSetWorldHistory cfg ops World.new = (os, s) ∧
      (∀ o ∈ os, o ≠ .ub ∧ o ≠ .diverge) ∧
      (Out.abort ∉ os → os.length = ops.length ∧
        (simpleSetTaken ops os ++ s.made).Perm (simpleSetGiven ops os ++ s.set.explore.ino ++ s.dropped)) := by
  haveI : DecidableEq T := fun _ _ => Classical.propDecidable _
  obtain ⟨os, s, h1, h2, h3, h5, _⟩ := World.history_led he ops (s := World.new) rfl
  refine ⟨os, s, h1, fun o ho => ?_, fun h => ⟨h3.resolve_right h, ?_⟩⟩
  · rcases h2 o ho with ⟨r, rfl⟩ | rfl | rfl <;> simp
  · rw [List.perm_iff_count]
    intro x
    have h6 := (h5 h).2 x
    have h7 : World.heldE x (World.new : World T) = 0 := rfl
    have h8 : (World.new : World T).made.count x = 0 := rfl
    have h9 := World.explore_count s.set x
    rw [h7, h8] at h6
    simp only [World.heldE, List.count_append] at *
    omega

/-- Comparisons that are inconsistent, a comparison that panics, and clones that differ. -/
def wildSetOps : List ((Nat → Bool) × SimpleSetOp Nat) :=
  let c : Probe Nat := fun n _ => if n == 1 then some .eq else some .gt
  [((100 ≤ ·), .insert c 5), ((100 ≤ ·), .insert c 3), ((100 ≤ ·), .insert c 105),
   ((fun _ => false), .cloned (fun k => some (k + 100))),
   ((100 ≤ ·), .extend (fun n _ => if n == 2 then fun _ _ => none else fun _ _ => some .lt)
      ⟨(7, none), [1, 2, 8, 9], false⟩),
   ((100 ≤ ·), .take (fun _ _ => some .eq)),
   ((100 ≤ ·), .remove (fun _ _ => some .eq))]

/-- `C73_ledger`: 105 was dropped by `insert`, and the items from 8 on were dropped by `extend`, which
panicked. -/
example :
    let h := simpleSetWorldHistory Sample.cfg wildSetOps World.new
    2 ≤ Sample.cfg.esize ∧ Out.abort ∉ h.1 ∧
    h.1 = [.ok (.bool true), .ok (.bool true), .panic, .ok .unit, .panic, .ok (.elem (some 105)), .panic] ∧
    h.2.set.explore.ino = [2, 1] ∧
    h.2.dropped = [105, 5, 3, 8, 9, 103] ∧ h.2.made = [105, 103] ∧
    simpleSetTaken wildSetOps h.1 = [5, 3, 105, 1, 2, 8, 9] ∧
    simpleSetGiven wildSetOps h.1 = [105] := by decide +kernel

/-- C73. Even if the process aborts in the middle of the last call: no element has been dropped
that was given away or dropped before. (What is left, `rest`, is never dropped.) -/
theorem C73_abort (he : 2 ≤ cfg.esize) (ops : List ((T → Bool) × SimpleSetOp T)) :
    ∃ os s rest, simpleSetWorldHistory cfg ops World.new = (os, s) ∧
      (simpleSetTaken ops os ++ s.made).Perm (simpleSetGiven ops os ++ s.dropped ++ rest) := by
  haveI : DecidableEq T := fun _ _ => Classical.propDecidable _
  obtain ⟨os, s, h1, _, _, _, h6⟩ := World.history_led he ops (s := World.new) rfl
  obtain ⟨r, hr⟩ := perm_of_count_le (l := simpleSetGiven ops os ++ s.dropped)
      (m := simpleSetTaken ops os ++ s.made) fun x => by
    have := h6 x
    have h7 : World.heldE x (World.new : World T) = 0 := rfl
    have h8 : (World.new : World T).made.count x = 0 := rfl
    rw [h7, h8] at this
    simp only [List.count_append]
    omega
  exact ⟨os, s, r, h1, hr⟩

/-- `C73_abort`: the calls above abort when both a comparison and the destructor of 109 panic; the last
call is not executed. -/
example :
    let h := simpleSetWorldHistory Sample.cfg spinyOps World.new
    h.1.length = 19 ∧ h.1.getLast? = some .abort ∧ h.2.dropped.getLast? = some 109 ∧
      h.2.set.explore = .node .nil 6 .nil := by decide +kernel

/-- Three elements, of which two have destructors that panic. -/
def spines : World Nat :=
  (simpleSetWorldHistory Sample.cfg [((100 ≤ ·), .insert (query (lastDigit 5)) 5),
    ((100 ≤ ·), .insert (query (lastDigit 102)) 102), ((100 ≤ ·), .insert (query (lastDigit 107)) 107)]
    World.new).2

/-- C73. `clear`, for any set and destructors: every element is dropped exactly once, in preorder, even
if one of the destructors panics; then the call panics, and the set is empty all the same. Only
a second panic (an abort) stops it. -/
theorem C73_clear (bad : T → Bool) (s : World T) :
    ∃ s', World.clear bad s = (fate () (s.set.explore.pre.countP bad), s') ∧
      s'.set.explore = .nil ∧ s'.set.len = 0 ∧
      (s.set.explore.pre.countP bad < 2 → s'.dropped = s.dropped ++ s.set.explore.pre) := by
  obtain ⟨s', h1, h2, h3, h4⟩ := World.clear_spec bad s
  exact ⟨s', h1, by rw [ssExplore_eq, h2], h3, h4⟩

/-- `C73_clear`: with no, one and two destructors that panic. -/
example :
    (World.clear (fun _ => false) spines).1 = .ok () ∧
    (World.clear (106 ≤ ·) spines).1 = .panic ∧
    (World.clear (106 ≤ ·) spines).2.dropped = [5, 102, 107] ∧
    (World.clear (106 ≤ ·) spines).2.set.explore = .nil ∧
    (World.clear (100 ≤ ·) spines).1 = .abort := by decide +kernel

/-- C73. Dropping the set does the same. -/
theorem C73_drop (bad : T → Bool) (s : World T) :
    ∃ s', World.drop bad s = (fate () (s.set.explore.pre.countP bad), s') ∧
      (s.set.explore.pre.countP bad < 2 → s'.dropped = s.dropped ++ s.set.explore.pre) := by
  obtain ⟨s', h1, _, _, h4⟩ := World.clear_spec bad s
  exact ⟨s', h1, h4⟩

/-- `C73_drop`. -/
example : (World.drop (· == 5) spines).1 = .panic ∧
    (World.drop (· == 5) spines).2.dropped = [5, 102, 107] := by decide +kernel

/-- C73. The whole life of a set: it is created, used in any way, and dropped. If the process
did not abort, every element that was taken or cloned was given back to the caller or
dropped, exactly once; nothing is forgotten. -/
theorem C73_life (he : 2 ≤ cfg.esize) (ops : List ((T → Bool) × SimpleSetOp T)) (bad : T → Bool)
    {os : List (Out (SetRet T))} {s s' : World T} {o : Out Unit}
    (h : simpleSetWorldHistory cfg ops World.new = (os, s)) (ha : Out.abort ∉ os)
    (hd : World.drop bad s = (o, s')) (ho : o ≠ .abort) :
    (simpleSetTaken ops os ++ s.made).Perm (simpleSetGiven ops os ++ s'.dropped) := by
  haveI : DecidableEq T := fun _ _ => Classical.propDecidable _
  obtain ⟨os1, s1, h1, _, h2⟩ := C73_ledger he ops
  rw [h] at h1
  cases h1
  obtain ⟨s2, h3, h4⟩ := C73_drop bad s
  rw [hd] at h3
  cases h3
  have h5 := h4 (by
    match hn : s.set.explore.pre.countP bad with
    | 0 => omega
    | 1 => omega
    | n + 2 => rw [hn] at ho; exact absurd rfl ho)
  have h6 := (h2 ha).2
  rw [h5]
  rw [List.perm_iff_count] at h6 ⊢
  intro x
  have h7 := h6 x
  have h8 := World.explore_count s.set x
  have h9 := World.explore_pre_count s.set x
  simp only [List.count_append] at *
  omega

/-- `C73_life`: calls after which the drop panics, but every element is dropped. -/
example :
    let h := simpleSetWorldHistory Sample.cfg wildSetOps World.new
    Out.abort ∉ h.1 ∧ (World.drop (· == 1) h.2).1 = .panic ∧
    (World.drop (· == 1) h.2).2.dropped = h.2.dropped ++ [1, 2] := by decide +kernel

/-- C73. Why a call panics or aborts. After any history, let a call run the destructors of `ys`.
If it returns, none of them panicked. If it panics, exactly one of them did, or none and other
code of the user. If it aborts, two of them panicked, or one did and other code of the user, or the
call allocates and memory is lacking. -/
theorem C73_why (he : 2 ≤ cfg.esize) {ops : List ((T → Bool) × SimpleSetOp T)}
    {os : List (Out (SetRet T))} {s : World T}
    (h : simpleSetWorldHistory cfg ops World.new = (os, s)) (ha : Out.abort ∉ os)
    (bad : T → Bool) (op : SimpleSetOp T) :
    ∃ o s' ys, op.runWorld cfg bad s = (o, s') ∧ s'.dropped = s.dropped ++ ys ∧
      match o with
      | .ok _ => ys.countP bad = 0
      | .panic => (¬ op.Quiet ∧ ys.countP bad = 0) ∨ ys.countP bad = 1
      | .abort => 2 ≤ ys.countP bad ∨ (¬ op.Quiet ∧ 1 ≤ ys.countP bad) ∨
          (op.Allocates ∧ ¬ ((s.set.len + (op.twin cmp).demand) * cfg.esize < usizeBound ∧
            ∀ i b, cfg.allocOk i b = true))
      | _ => False := by
  haveI : DecidableEq T := fun _ _ => Classical.propDecidable _
  obtain ⟨os1, s1, h1, _, _, h2, _⟩ := World.history_led he ops (s := World.new) rfl
  rw [h] at h1
  cases h1
  have hw := (h2 ha).1
  obtain ⟨o, s', ys, g1, g2, g3⟩ := World.run_hot (bad := bad) he cmp op hw
  refine ⟨o, s', ys, g1, g2, ?_⟩
  have hl : s.set.len = s.set.items.root.size := hw
  rw [hl]
  cases o with
  | ok r => exact g3
  | panic => exact g3
  | abort => exact g3
  | ub => exact g3
  | diverge => exact g3

/-- `C73_why`: calls that return; that panic because of a destructor and because of a comparison;
and that abort because of two destructors, of a comparison and a destructor, and for lack of
memory. -/
example :
    let run := fun cfg (op : SimpleSetOp Nat) => ((op.runWorld cfg (100 ≤ ·) spines).1,
      (op.runWorld cfg (100 ≤ ·) spines).2.dropped)
    run Sample.cfg (.insert (query (lastDigit 15)) 15) = (.ok (.bool false), [15]) ∧
    run Sample.cfg (.remove (query (lastDigit 5))) = (.ok (.bool true), [5]) ∧
    run Sample.cfg (.remove (query (lastDigit 2))) = (.panic, [102]) ∧
    run Sample.cfg (.insert (query (lastDigit 105)) 105) = (.panic, [105]) ∧
    run Sample.cfg (.insert (fun _ _ => none) 15) = (.panic, [15]) ∧
    run Sample.cfg .clear = (.abort, [5, 102, 107]) ∧
    run Sample.cfg (.insert (fun _ _ => none) 105) = (.abort, [105]) ∧
    run { Sample.cfg with allocOk := fun _ _ => false } (.insert (query (lastDigit 1)) 1) = (.abort, []) := by
  decide +kernel

/-- C73. If no destructor panics, nothing changes: the calls are those of the other
theorems. -/
theorem C73_calm (cfg : Cfg) (ops : List ((T → Bool) × SimpleSetOp T))
    (hc : ∀ x ∈ ops, ∀ t, x.1 t = false) (s : World T) :
    ((simpleSetWorldHistory cfg ops s).1, (simpleSetWorldHistory cfg ops s).2.set) =
      simpleSetHistory cfg (ops.map (·.2)) s.set :=
  World.history_calm cfg ops hc s

/-- `C73_calm`: the calls above with destructors that do not panic. Two calls (of `insert`) panic because
of their comparisons, one (of `clone`) because of a clone. -/
example :
    let ops := spinyOps.map fun x => ((fun _ => false : Nat → Bool), x.2)
    (∀ x ∈ ops, ∀ t, x.1 t = false) ∧
    ((simpleSetWorldHistory Sample.cfg ops World.new).1.filter (· == .panic)).length = 3 ∧
    (simpleSetWorldHistory Sample.cfg ops World.new).2.dropped =
      [15, 105, 125, 108, 13, 7, 2, 101, 6, 2, 3, 3, 2, 4, 4, 3, 4, 2, 107, 109] :=
  ⟨fun x hx => by obtain ⟨y, _, rfl⟩ := List.mem_map.1 hx; exact fun _ => rfl, by decide +kernel,
    by decide +kernel⟩

end BST.Props
