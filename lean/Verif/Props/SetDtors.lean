import Verif.Proofs.SetHot
import Verif.Props.Dtors
/-!
# What becomes of every element of a `BSTSet`

`setWorldHistory cfg ops s` executes calls on a `BSTSet` with destructors (`Verif/SetLedger.lean`,
`Verif/Model/SetDtors.lean`). Each element of `ops` is a call together with the destructors at
the time of that call: which elements panic when they are dropped. The state remembers which destructors
were run (`dropped`), which clones were made (`made`), and the sets that were being
dropped when a destructor panicked (`cut`): the slab forgets the rest of such a set
(src/slab.rs:289-298).
-/
set_option linter.unusedSimpArgs false
namespace BST.Props
open Std BSTMap
open Spec (BT Conforms SetDropAnswer SetAnswer SetTreeAnswer)
open BSTSet (World)
variable {T : Type} {cfg : Cfg} {cmp : T → T → Ordering}

/-! ### C70 -/

/-- Elements from 100 on panic when they are dropped; the order looks at the last digit. -/
def thornyOps : List ((Nat → Bool) × SetOp Nat) :=
  [((100 ≤ ·), .insert (query (lastDigit 5)) 5),
   ((100 ≤ ·), .insert (query (lastDigit 15)) 15),
   ((100 ≤ ·), .insert (query (lastDigit 105)) 105),
   ((100 ≤ ·), .extend (fun _ k => query (lastDigit k)) ⟨(0, none), [108, 125, 7], false⟩),
   ((100 ≤ ·), .insert (query (lastDigit 2)) 2),
   ((100 ≤ ·), .take (query (lastDigit 5))),
   ((100 ≤ ·), .remove (query (lastDigit 8))),
   ((100 ≤ ·), .insert (query (lastDigit 101)) 101),
   ((100 ≤ ·), .insert (query (lastDigit 6)) 6),
   ((100 ≤ ·), .collect (fun _ k => query (lastDigit k)) ⟨(0, none), [3, 2, 13, 4], false⟩),
   ((100 ≤ ·), .cloned (fun _ k => query (lastDigit k)) (fun t => if t == 4 then none else some t)),
   ((100 ≤ ·), .cloned (fun _ k => query (lastDigit k)) some),
   ((100 ≤ ·), .insert (fun _ _ => none) 4),
   ((100 ≤ ·), .remove (query (lastDigit 3))),
   ((100 ≤ ·), .clear ⟨true, fun _ => false⟩),
   ((100 ≤ ·), .insert (query (lastDigit 107)) 107),
   ((100 ≤ ·), .withCapacity 3),
   ((100 ≤ ·), .insert (query (lastDigit 6)) 6),
   ((100 ≤ ·), .insert (fun _ _ => none) 109),
   ((100 ≤ ·), .insert (query (lastDigit 1)) 1)]

theorem thornyOps_lawful : ∀ x ∈ thornyOps, x.2.Lawful lastDigit := by
  simp only [thornyOps, List.forall_mem_cons]
  refine ⟨fun _ _ => .inr rfl, fun _ _ => .inr rfl, fun _ _ => .inr rfl, fun _ _ _ _ => .inr rfl,
    fun _ _ => .inr rfl, ⟨lastDigit 5, lawful_cmp lastDigit 5, fun _ _ => .inr rfl⟩,
    ⟨lastDigit 8, lawful_cmp lastDigit 8, fun _ _ => .inr rfl⟩, fun _ _ => .inr rfl, fun _ _ => .inr rfl,
    fun _ _ _ _ => .inr rfl, ⟨fun _ _ _ _ => .inr rfl, fun v w h => ?_⟩,
    ⟨fun _ _ _ _ => .inr rfl, fun _ _ h => (Option.some.inj h).symm⟩,
    fun _ _ => .inl rfl, ⟨lastDigit 3, lawful_cmp lastDigit 3, fun _ _ => .inr rfl⟩,
    fun _ => rfl, fun _ _ => .inr rfl, trivial, fun _ _ => .inr rfl, fun _ _ => .inl rfl,
    fun _ _ => .inr rfl, by simp⟩
  simp only at h
  split at h
  · cases h
  · exact (Option.some.inj h).symm

theorem thornyOps_drops : ∀ x ∈ thornyOps, x.2.Drops := by
  simp [thornyOps, SetOp.Drops]

/-- C70. The accounts. Start with an empty set and make any finite sequence of calls, whatever the
comparisons, clones and destructors do (only, `clear` finds destructors that do not panic, for
else see C27). If the process has not aborted: every element that the calls took
from the caller, and every clone they made, has been given back to the caller, or is in the set,
or its destructor was run, exactly once, or it is `lost`. Only what was in a set that was being dropped
can be lost, and only if the destructor of one of its elements panicked then; so nothing is lost if no
destructor panics. No call has undefined behaviour or does not terminate. -/
theorem C70_ledger (ops : List ((T → Bool) × SetOp T)) (hops : ∀ x ∈ ops, x.2.Drops) :
    ∃ os s, setWorldHistory cfg ops World.new = (os, s) ∧
      (∀ o ∈ os, o ≠ .ub ∧ o ≠ .diverge) ∧
      (Out.abort ∉ os → os.length = ops.length ∧
        (∃ lost rest,
          (setTaken ops os ++ s.made).Perm (setGiven ops os ++ s.set.contents ++ s.dropped ++ lost) ∧
          (s.cut.flatMap BSTSet.contents).Perm (lost ++ rest) ∧
          ((∀ x ∈ ops, ∀ t, x.1 t = false) → lost = [])) ∧
        ∀ m ∈ s.cut, ∃ x ∈ ops, ∃ t ∈ m.contents, x.1 t = true) := by
  haveI : DecidableEq T := fun _ _ => Classical.propDecidable _
  obtain ⟨os, s, h1, h2, h3, h5, _⟩ :=
    setWorldHistory_led (cfg := cfg) ops hops (s := World.new) BSTMap.World.valid_new
  refine ⟨os, s, h1, fun o ho => ?_, fun h => ⟨h3.resolve_right h, ?_, fun m hm => ?_⟩⟩
  · rcases h2 o ho with ⟨r, rfl⟩ | rfl | rfl <;> simp
  · obtain ⟨_, hc, h6⟩ := h5 h
    have h7 : ∀ x, World.heldS x (World.new : World T) = 0 := fun x => rfl
    have h8 : ∀ x, (World.new : World T).made.count x = 0 := fun x => rfl
    have h9 : ∀ x, World.cutS x (World.new : World T) = 0 := fun x => rfl
    obtain ⟨lost, hl⟩ := perm_of_count_le (l := setGiven ops os ++ s.set.contents ++
        s.dropped) (m := setTaken ops os ++ s.made) fun x => by
      have := (h6 x).2
      rw [h7, h8] at this
      simp only [World.heldS, List.count_append] at *
      omega
    have hl' := hl
    rw [List.perm_iff_count] at hl'
    obtain ⟨rest, hr⟩ := perm_of_count_le (l := lost) (m := s.cut.flatMap BSTSet.contents) fun x => by
      have := (h6 x).1
      have := hl' x
      rw [h7, h8, h9] at *
      simp only [World.heldS, World.cutS, List.count_append] at *
      omega
    refine ⟨lost, rest, hl, hr, fun hcalm => ?_⟩
    have : s.cut = [] := by
      cases hcut : s.cut with
      | nil => rfl
      | cons m l =>
        rcases hc m (by rw [hcut]; simp) with h | ⟨x, hx, t, _, ht⟩
        · cases h
        · rw [hcalm x hx] at ht; cases ht
    rw [this] at hr
    have := hr.length_eq
    simp only [List.flatMap_nil, List.length_nil, List.length_append] at this
    exact List.length_eq_zero_iff.1 (by omega)
  · rcases (h5 h).2.1 m hm with h | h
    · cases h
    · exact h

/-- `C70_ledger` for the calls above but the last two. The tenth call drops a set of three
elements; the destructor of 101 panics and 2, which comes after it, is lost. -/
example : (∀ x ∈ thornyOps.take 18, x.2.Drops) ∧
    let h := setWorldHistory Sample.cfg (thornyOps.take 18) World.new
    h.1 = [.ok (.bool true), .ok (.bool false), .panic, .panic, .ok (.bool true), .ok (.elem (some 5)), .panic,
      .ok (.bool true), .ok (.bool true), .panic, .panic, .ok .unit, .panic, .ok (.bool true), .ok .unit,
      .ok (.bool true), .panic, .ok (.bool true)] ∧
    h.2.dropped = [15, 105, 125, 7, 108, 13, 6, 101, 3, 2, 3, 2, 4, 4, 3, 2, 4, 107] ∧
    h.2.made = [3, 2, 3, 2, 4] ∧ h.2.set.contents = [6] ∧
    h.2.cut.map BSTSet.contents = [[101, 2, 6], [107]] ∧
    setGiven (thornyOps.take 18) h.1 = [5] ∧
    setTaken (thornyOps.take 18) h.1 = [5, 15, 105, 108, 125, 7, 2, 101, 6, 3, 2, 13, 4, 4, 107, 6] :=
  ⟨fun x hx => thornyOps_drops x (List.mem_of_mem_take hx), by decide +kernel⟩

/-- `C70_ledger`: destructors that do not panic, after which nothing is lost. -/
example :
    let ops := thornyOps.map fun x => ((fun _ => false : Nat → Bool), x.2)
    (∀ x ∈ ops, ∀ t, x.1 t = false) ∧ (∀ x ∈ ops, x.2.Drops) ∧
    Out.abort ∉ (setWorldHistory Sample.cfg ops World.new).1 ∧
    (setWorldHistory Sample.cfg ops World.new).2.cut = [] ∧
    (setWorldHistory Sample.cfg ops World.new).2.set.contents = [1, 6] :=
  ⟨fun x hx => by obtain ⟨y, _, rfl⟩ := List.mem_map.1 hx; exact fun _ => rfl,
    fun x hx => by obtain ⟨y, hy, rfl⟩ := List.mem_map.1 hx; exact thornyOps_drops y hy, by decide +kernel,
    by decide +kernel, by decide +kernel⟩

/-- C70. Even if the process aborts in the middle of the last call: no element has been dropped
that was given away or dropped before. (What is left, `rest`, is never dropped.) -/
theorem C70_abort (ops : List ((T → Bool) × SetOp T)) (hops : ∀ x ∈ ops, x.2.Drops) :
    ∃ os s rest, setWorldHistory cfg ops World.new = (os, s) ∧
      (setTaken ops os ++ s.made).Perm (setGiven ops os ++ s.dropped ++ rest) := by
  haveI : DecidableEq T := fun _ _ => Classical.propDecidable _
  obtain ⟨os, s, h1, _, _, _, h6⟩ :=
    setWorldHistory_led (cfg := cfg) ops hops (s := World.new) BSTMap.World.valid_new
  obtain ⟨r, hr⟩ := perm_of_count_le (l := setGiven ops os ++ s.dropped)
      (m := setTaken ops os ++ s.made) fun x => by
    have := h6 x
    have h7 : World.heldS x (World.new : World T) = 0 := rfl
    have h8 : (World.new : World T).made.count x = 0 := rfl
    rw [h7, h8] at this
    simp only [List.count_append]
    omega
  exact ⟨os, s, r, h1, hr⟩

/-- `C70_abort`: the calls above abort when both a comparison and the destructor of 109 panic; the last
call is not executed. -/
example : (∀ x ∈ thornyOps, x.2.Drops) ∧
    let h := setWorldHistory Sample.cfg thornyOps World.new
    h.1.length = 19 ∧ h.1.getLast? = some .abort ∧ h.2.dropped.getLast? = some 109 ∧
      h.2.set.contents = [6] := ⟨thornyOps_drops, by decide +kernel⟩

/-- C70. Dropping the set, after any such calls. If no destructor of its elements panics, all
are dropped, once. Else the elements `l ++ [t]` are dropped, where `t` is the first one
with a destructor that panics, and no others. -/
theorem C70_drop {ops : List ((T → Bool) × SetOp T)} (hops : ∀ x ∈ ops, x.2.Drops)
    {os : List (Out (SetRet T))} {s : World T} (h : setWorldHistory cfg ops World.new = (os, s))
    (ha : Out.abort ∉ os) (bad : T → Bool) :
    ∃ o s' l rest, World.drop cfg bad s = (o, s') ∧ s'.set = BSTSet.new ∧ s.set.contents.Perm (l ++ rest) ∧
      (∀ t ∈ l, bad t = false) ∧
      match rest with
      | [] => o = .ok () ∧ s'.dropped = s.dropped ++ l
      | t :: _ => bad t = true ∧ s'.dropped = s.dropped ++ (l ++ [t]) ∧ o = .panic := by
  haveI : DecidableEq T := fun _ _ => Classical.propDecidable _
  obtain ⟨os1, s1, h1, _, _, h5, _⟩ :=
    setWorldHistory_led (cfg := cfg) ops hops (s := World.new) BSTMap.World.valid_new
  rw [h] at h1
  cases h1
  exact World.drop_spec (h5 ha).1 bad

/-- `C70_drop`: of the three elements 6, 101 and 2 (in this order in memory) the last is not dropped. -/
example : Out.abort ∉ (setWorldHistory Sample.cfg (thornyOps.take 9) World.new).1 ∧
    let s := (setWorldHistory Sample.cfg (thornyOps.take 9) World.new).2
    (World.drop Sample.cfg (100 ≤ ·) s).1 = .panic ∧
    (World.drop Sample.cfg (100 ≤ ·) s).2.dropped = s.dropped ++ [6, 101] ∧
    (World.drop Sample.cfg (fun _ => false) s).1 = .ok () ∧
    (World.drop Sample.cfg (fun _ => false) s).2.dropped = s.dropped ++ [6, 101, 2] := by
  decide +kernel

/-- C70. The whole life of a set if no destructor panics: it is created, used in any way, and
dropped. Every element that was taken or cloned was given back to the caller or dropped,
exactly once; nothing is forgotten. -/
theorem C70_life (ops : List ((T → Bool) × SetOp T)) (hops : ∀ x ∈ ops, x.2.Drops)
    (hc : ∀ x ∈ ops, ∀ t, x.1 t = false) {bad : T → Bool} (hd : ∀ t, bad t = false)
    {os : List (Out (SetRet T))} {s : World T}
    (h : setWorldHistory cfg ops World.new = (os, s)) (ha : Out.abort ∉ os) :
    ∃ s', World.drop cfg bad s = (.ok (), s') ∧ s'.set.contents = [] ∧
      (setTaken ops os ++ s.made).Perm (setGiven ops os ++ s'.dropped) := by
  haveI : DecidableEq T := fun _ _ => Classical.propDecidable _
  obtain ⟨os1, s1, h1, _, h2⟩ := C70_ledger (cfg := cfg) ops hops
  rw [h] at h1
  cases h1
  obtain ⟨_, ⟨lost, _, h3, _, h4⟩, _⟩ := h2 ha
  obtain rfl := h4 hc
  obtain ⟨o, s', l, rest, g1, g0, g2, _, g4⟩ := C70_drop hops h ha bad
  cases rest with
  | cons e r =>
    obtain ⟨g4, _⟩ := g4
    rw [hd] at g4
    cases g4
  | nil =>
    obtain ⟨rfl, g4⟩ := g4
    refine ⟨s', g1, by rw [g0]; rfl, ?_⟩
    rw [g4]
    rw [List.perm_iff_count] at h3 g2 ⊢
    intro x
    have h7 := h3 x
    have h8 := g2 x
    simp only [List.count_append, List.append_nil] at *
    omega

/-- `C70_life`: the calls above with destructors that do not panic. -/
example :
    let ops := thornyOps.map fun x => ((fun _ => false : Nat → Bool), x.2)
    let h := setWorldHistory Sample.cfg ops World.new
    Out.abort ∉ h.1 ∧ (World.drop Sample.cfg (fun _ => false) h.2).2.dropped.length = h.2.dropped.length + 2 ∧
    h.2.dropped.length = 20 := by decide +kernel

/-- C70. The calls do what C48 says: as long as the process does not abort, outcomes and sets are
those of `setHistoryDrop`. -/
theorem C70_agree (ops : List ((T → Bool) × SetOp T)) {os : List (Out (SetRet T))} {s : World T}
    (h : setWorldHistory cfg ops World.new = (os, s)) (ha : Out.abort ∉ os) :
    setHistoryDrop cfg (ops.map fun x => (elemDtors x.1, x.2)) BSTSet.new = (os, s.set) := by
  have := World.history_sim (cfg := cfg) ops World.new (by rw [h]; exact ha)
  rw [h] at this
  exact this

/-- C70. So they do what a textbook search tree does with the same destructors. -/
theorem C70_history [TransCmp cmp] (ops : List ((T → Bool) × SetOp T))
    (hops : ∀ x ∈ ops, x.2.Lawful cmp) {os : List (Out (SetRet T))} {s : World T}
    (h : setWorldHistory cfg ops World.new = (os, s)) (ha : Out.abort ∉ os) :
    ∃ l b, s.set.iterInorder = .ok l ∧ exploreSet s.set = .ok b ∧
      Conforms (SetDropAnswer cmp (SetAnswer cmp) id) (ops.map fun x => (elemDtors x.1, x.2)) os [] l ∧
      Conforms (SetDropAnswer cmp (SetTreeAnswer cmp) BT.ino) (ops.map fun x => (elemDtors x.1, x.2)) os .nil b := by
  obtain ⟨os1, m, l, b, h1, h2, h3, h4, h5⟩ := C48_set_history (cfg := cfg) (cmp := cmp)
    (ops.map fun x => (elemDtors x.1, x.2)) (by
      intro x hx
      obtain ⟨y, hy, rfl⟩ := List.mem_map.1 hx
      exact hops y hy) (by
      intro x hx
      obtain ⟨y, hy, rfl⟩ := List.mem_map.1 hx
      rfl)
  rw [C70_agree ops h ha] at h1
  cases h1
  exact ⟨l, b, h2, h3, h4, h5⟩

/-- `C70_agree` and `C70_history` for the calls above but the last two. -/
example : (∀ x ∈ thornyOps.take 18, x.2.Lawful lastDigit) ∧
    Out.abort ∉ (setWorldHistory Sample.cfg (thornyOps.take 18) World.new).1 ∧
    (setWorldHistory Sample.cfg (thornyOps.take 12) World.new).2.set.iterInorder = .ok [2, 3, 4] :=
  ⟨fun x hx => thornyOps_lawful x (List.mem_of_mem_take hx), by decide +kernel, by decide +kernel⟩

/-- C70. Why a call panics or aborts. In a set made by any sequence of calls, let a call other than
`clear` run the destructors of `ys`. If it returns, none of these panicked, and result and set
are those of the call without destructors (`op.run`, which the other properties are about). If it panics,
one of them did — or none, and the call panics also without destructors. If it aborts, two
of them panicked; or one, and the call does not return without destructors either (a panic met a
panic); or the call aborts also without destructors (the memory is full). -/
theorem C70_why {ops : List ((T → Bool) × SetOp T)} (hops : ∀ x ∈ ops, x.2.Drops)
    {os : List (Out (SetRet T))} {s : World T} (h : setWorldHistory cfg ops World.new = (os, s))
    (ha : Out.abort ∉ os) (bad : T → Bool) {op : SetOp T} (hop : ∀ e, op ≠ .clear e) :
    ∃ o s' ys, op.runWorld cfg bad s = (o, s') ∧ s'.dropped = s.dropped ++ ys ∧
      match o with
      | .ok r => ys.countP bad = 0 ∧ op.run cfg s.set = (.ok r, s'.set)
      | .panic => ys.countP bad = 1 ∨ (ys.countP bad = 0 ∧ op.run cfg s.set = (.panic, s'.set))
      | .abort => 2 ≤ ys.countP bad ∨ (1 ≤ ys.countP bad ∧ ∀ r, (op.run cfg s.set).1 ≠ .ok r) ∨
          (op.run cfg s.set).1 = .abort
      | _ => False := by
  haveI : DecidableEq T := fun _ _ => Classical.propDecidable _
  obtain ⟨os1, s1, h1, _, _, h5, _⟩ :=
    setWorldHistory_led (cfg := cfg) ops hops (s := World.new) BSTMap.World.valid_new
  rw [h] at h1
  cases h1
  obtain ⟨ys, g1, g2⟩ := World.run_tie (bad := bad) op hop (h5 ha).1
  rcases hu : op.runWorld cfg bad s with ⟨o, s'⟩
  rw [hu] at g1 g2
  refine ⟨o, s', ys, rfl, g1, ?_⟩
  cases o with
  | ok r => exact ⟨g2.1, g2.2.1⟩
  | panic => exact g2.1
  | abort => exact g2
  | ub => exact g2
  | diverge => exact g2

/-- `C70_why`: a call that returns; calls that panic because of a destructor, and because of a
comparison; calls that abort because of two destructors, of a comparison and a destructor, and
for lack of memory. -/
example :
    let s : World Nat := (setWorldHistory Sample.cfg (thornyOps.take 9) World.new).2
    let run := fun cfg (op : SetOp Nat) => ((op.runWorld cfg (100 ≤ ·) s).1,
      (op.runWorld cfg (100 ≤ ·) s).2.dropped.drop s.dropped.length)
    run Sample.cfg (.insert (query (lastDigit 16)) 16) = (.ok (.bool false), [16]) ∧
    run Sample.cfg (.remove (query (lastDigit 6))) = (.ok (.bool true), [6]) ∧
    run Sample.cfg (.remove (query (lastDigit 1))) = (.panic, [101]) ∧
    run Sample.cfg (.insert (query (lastDigit 106)) 106) = (.panic, [106]) ∧
    run Sample.cfg (.insert (fun _ _ => none) 16) = (.panic, [16]) ∧
    run Sample.cfg (.extend (fun _ k => query (lastDigit k)) ⟨(0, none), [16, 106, 103], false⟩) =
      (.abort, [16, 106, 103]) ∧
    run Sample.cfg (.insert (fun _ _ => none) 105) = (.abort, [105]) ∧
    run { Sample.cfg with allocOk := fun _ _ => false } (.withCapacity 3) = (.abort, []) := by
  decide +kernel

/-- C70. If no destructor panics, nothing changes: the calls are those of the other theorems. -/
theorem C70_calm (ops : List ((T → Bool) × SetOp T)) (hops : ∀ x ∈ ops, x.2.Drops)
    (hc : ∀ x ∈ ops, ∀ t, x.1 t = false) :
    ∃ os s, setWorldHistory cfg ops World.new = (os, s) ∧
      os = (setHistory cfg (ops.map (·.2)) BSTSet.new).1 ∧
      (Out.abort ∉ os → s.set = (setHistory cfg (ops.map (·.2)) BSTSet.new).2) :=
  ⟨_, _, rfl, World.history_calm ops hops hc BSTMap.World.valid_new⟩

/-- `C70_calm`: the calls above with destructors that do not panic. Two calls (of `insert`) panic because of
their comparisons, one (of `clone`) because of a clone. -/
example :
    let ops := thornyOps.map fun x => ((fun _ => false : Nat → Bool), x.2)
    (∀ x ∈ ops, ∀ t, x.1 t = false) ∧ (∀ x ∈ ops, x.2.Drops) ∧
    Out.abort ∉ (setWorldHistory Sample.cfg ops World.new).1 ∧
    (setWorldHistory Sample.cfg ops World.new).1.count .panic = 3 := by
  refine ⟨?_, ?_, by decide +kernel, by decide +kernel⟩
  · intro x hx
    obtain ⟨y, _, rfl⟩ := List.mem_map.1 hx
    exact fun _ => rfl
  · intro x hx
    obtain ⟨y, hy, rfl⟩ := List.mem_map.1 hx
    exact thornyOps_drops y hy

end BST.Props
