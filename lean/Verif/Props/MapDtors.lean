import Verif.Proofs.MapHot
import Verif.Props.SimpleDtors
/-!
# What becomes of every key and value of a `BSTMap`

`worldHistory cfg ops s` executes calls on a `BSTMap` with destructors (`Verif/MapDiscards.lean`,
`Verif/Model/MapDtors.lean`). Each element of `ops` is a call together with the destructors at
the time of that call. The state remembers which destructors were run (`dropped`), which clones
were made (`made`), which return values were leaked (`leaked`), and the maps that were being
dropped when a destructor panicked (`cut`): the slab forgets the rest of such a map
(src/slab.rs:289-298), where `simple_bst` goes on dropping (C57).
-/
set_option linter.unusedSimpArgs false
namespace BST.Props
open Std BSTMap
open Spec (BT Conforms DropAnswer Answer TreeAnswer panicking)
open Simple (Drops)
open BSTMap (World)
variable {K V : Type} {cfg : Cfg} {cmp : K → K → Ordering}

/-! ### C59 -/

/-- The sequence of `pricklyOps` for a `BSTMap`. (`clear` comes with its own destructors.) -/
def barbedOps : List (Drops Nat String × Op Nat String) :=
  [(prickly, .insert (query (lastDigit 5)) 5 "e"),
   (prickly, .insert (query (lastDigit 105)) 105 "!"),
   (prickly, .extend (fun _ k => query (lastDigit k)) ⟨(0, none), [(108, "h"), (25, "E"), (7, "g")], false⟩),
   (prickly, .insert (query (lastDigit 2)) 2 "b"),
   (prickly, .remove (query (lastDigit 5))),
   (prickly, .getMut (query (lastDigit 2)) "B"),
   (prickly, .remove (query (lastDigit 8))),
   (prickly, .insert (query (lastDigit 101)) 101 "a"),
   (prickly, .insert (query (lastDigit 6)) 6 "f"),
   (prickly, .collect (fun _ k => query (lastDigit k)) ⟨(0, none), [(3, "c"), (2, "b"), (4, "d")], false⟩),
   (prickly, .cloned (fun _ k => query (lastDigit k)) some (fun v => if v == "b" then none else some v)),
   (prickly, .cloned (fun _ k => query (lastDigit k)) some some),
   (prickly, .iterMut .ino [.next, .next, .write 1 "C"]),
   (prickly, .insert (fun _ _ => none) 4 "d"),
   (prickly, .removeEntry (query (lastDigit 3))),
   (prickly, .clear ⟨true, fun _ => false⟩),
   (prickly, .insert (query (lastDigit 107)) 107 "!"),
   (prickly, .withCapacity 3),
   (prickly, .insert (query (lastDigit 6)) 6 "f")]

theorem barbedOps_lawful : ∀ x ∈ barbedOps, x.2.Lawful lastDigit := by
  simp only [barbedOps, List.forall_mem_cons]
  refine ⟨fun _ _ => .inr rfl, fun _ _ => .inr rfl, fun _ _ _ _ => .inr rfl, fun _ _ => .inr rfl,
    ⟨lastDigit 5, lawful_cmp lastDigit 5, fun _ _ => .inr rfl⟩,
    ⟨lastDigit 2, lawful_cmp lastDigit 2, fun _ _ => .inr rfl⟩,
    ⟨lastDigit 8, lawful_cmp lastDigit 8, fun _ _ => .inr rfl⟩, fun _ _ => .inr rfl, fun _ _ => .inr rfl,
    fun _ _ _ _ => .inr rfl, ⟨fun _ _ _ _ => .inr rfl, fun _ _ h => (Option.some.inj h).symm, fun v w h => ?_⟩,
    ⟨fun _ _ _ _ => .inr rfl, fun _ _ h => (Option.some.inj h).symm, fun _ _ h => (Option.some.inj h).symm⟩,
    trivial, fun _ _ => .inl rfl, ⟨lastDigit 3, lawful_cmp lastDigit 3, fun _ _ => .inr rfl⟩,
    fun _ => rfl, fun _ _ => .inr rfl, trivial, fun _ _ => .inr rfl, by simp⟩
  simp only at h
  split at h
  · cases h
  · exact (Option.some.inj h).symm

theorem barbedOps_drops : ∀ x ∈ barbedOps, x.2.Drops := by
  simp [barbedOps, Op.Drops]

/-- C59. The accounts. Start with an empty map and make any finite sequence of calls, whatever the
comparisons, clones and destructors do (only, `clear` finds destructors that do not panic, for
else see C27). If the process has not aborted: every key and value that the calls took
from the caller, and every clone they made, has been given back to the caller, or is in the map,
or its destructor was run, exactly once — or it was a return value and was leaked by a compiler
that does that — or it is `lost`. Only what was in a map that was being dropped can be lost, and
only if the destructor of one of its keys or values panicked then; so nothing is lost if no
destructor panics. No call has undefined behaviour or does not terminate. -/
theorem C59_ledger (ops : List (Drops K V × Op K V)) (hops : ∀ x ∈ ops, x.2.Drops) :
    ∃ os s, worldHistory cfg ops World.new = (os, s) ∧
      (∀ o ∈ os, o ≠ .ub ∧ o ≠ .diverge) ∧
      ((∀ x ∈ ops, x.1.ret = true) → s.leaked = []) ∧
      (Out.abort ∉ os → os.length = ops.length ∧
        (∃ lost rest,
          (worldLedger cfg Op.takes ops World.new ++ s.made).Perm
            (worldLedger cfg Op.gives ops World.new ++ s.map.contents ++ s.dropped ++ s.leaked.map .inr ++
              lost) ∧
          (s.cut.flatMap contents).Perm (lost ++ rest) ∧
          ((∀ x ∈ ops, x.1.Calm) → lost = [])) ∧
        ∀ m ∈ s.cut, ∃ x ∈ ops, ∃ e ∈ entriesIn .ino m, x.1.key e.1 = true ∨ x.1.value e.2 = true) := by
  haveI : DecidableEq K := fun _ _ => Classical.propDecidable _
  haveI : DecidableEq V := fun _ _ => Classical.propDecidable _
  obtain ⟨os, s, h1, h2, h3, h4, h5, _⟩ :=
    worldHistory_led (cfg := cfg) ops hops (s := World.new) World.valid_new
  refine ⟨os, s, h1, fun o ho => ?_, h4, fun h => ⟨h3.resolve_right h, ?_, fun m hm => ?_⟩⟩
  · rcases h2 o ho with ⟨r, rfl⟩ | rfl | rfl <;> simp
  · obtain ⟨_, hc, h6⟩ := h5 h
    have h7 : ∀ x, World.held x (World.new : World K V) = 0 := fun x => rfl
    have h8 : ∀ x, (World.new : World K V).made.count x = 0 := fun x => rfl
    have h9 : ∀ x, World.cutCount x (World.new : World K V) = 0 := fun x => rfl
    obtain ⟨lost, hl⟩ := perm_of_count_le (l := worldLedger cfg Op.gives ops World.new ++ s.map.contents ++
        s.dropped ++ s.leaked.map .inr) (m := worldLedger cfg Op.takes ops World.new ++ s.made) fun x => by
      have := (h6 x).2
      rw [h7, h8] at this
      simp only [World.held, List.count_append] at *
      omega
    have hl' := hl
    rw [List.perm_iff_count] at hl'
    obtain ⟨rest, hr⟩ := perm_of_count_le (l := lost) (m := s.cut.flatMap contents) fun x => by
      have := (h6 x).1
      have := hl' x
      rw [h7, h8, h9] at *
      simp only [World.held, World.cutCount, List.count_append] at *
      omega
    refine ⟨lost, rest, hl, hr, fun hcalm => ?_⟩
    have : s.cut = [] := by
      cases hcut : s.cut with
      | nil => rfl
      | cons m l =>
        rcases hc m (by rw [hcut]; simp) with h | ⟨x, hx, e, _, he⟩
        · cases h
        · rcases he with he | he
          · rw [(hcalm x hx).1] at he; cases he
          · rw [(hcalm x hx).2] at he; cases he
    rw [this] at hr
    have := hr.length_eq
    simp only [List.flatMap_nil, List.length_nil, List.length_append] at this
    exact List.length_eq_zero_iff.1 (by omega)
  · rcases (h5 h).2.1 m hm with h | h
    · cases h
    · exact h

/-- `C59_ledger` for the calls above but the last two. The tenth call drops a map of three
entries; the destructor of 101 panics and the entry `(2, "B")`, which comes after it, is lost.
(`simple_bst` would have dropped it.) -/
example : (∀ x ∈ barbedOps.take 17, x.2.Drops) ∧ (∀ x ∈ barbedOps.take 17, x.1.ret = true) ∧
    let h := worldHistory Sample.cfg (barbedOps.take 17) World.new
    h.1 = [.ok (.value none), .panic, .panic, .ok (.value none), .ok (.value (some "E")),
      .ok (.value (some "b")), .panic, .ok (.value none), .ok (.value none), .panic, .panic, .ok .unit,
      .ok (.keys [2, 3]), .panic, .ok (.entry (some (3, "C"))), .ok .unit, .ok (.value none)] ∧
    h.2.cut.map contents = [[.inl 101, .inr "a", .inl 2, .inr "B", .inl 6, .inr "f"]] ∧
    h.2.dropped = [.inl 105, .inr "e", .inl 25, .inr "!", .inl 7, .inr "g", .inl 5, .inl 108, .inr "h",
      .inl 6, .inr "f", .inl 101, .inr "a", .inl 2, .inl 3, .inr "c", .inl 3, .inr "c", .inl 2, .inr "b",
      .inl 4, .inr "d", .inr "d", .inl 4, .inl 2, .inr "b", .inl 4, .inr "d"] ∧
    h.2.made = [.inl 3, .inr "c", .inl 2, .inl 3, .inr "c", .inl 2, .inr "b", .inl 4, .inr "d"] ∧
    h.2.map.contents = [.inl 107, .inr "!"] ∧
    worldLedger Sample.cfg Op.gives (barbedOps.take 17) World.new =
      [.inr "E", .inr "b", .inr "c", .inl 3, .inr "C"] :=
  ⟨fun x hx => barbedOps_drops x (List.mem_of_mem_take hx), by decide +kernel, by decide +kernel⟩

/-- `C59_ledger`: destructors that do not panic, after which nothing is lost. -/
example :
    let d : Drops Nat String := ⟨fun _ => false, fun _ => false, true⟩
    let ops := barbedOps.map fun x => (d, x.2)
    (∀ x ∈ ops, x.1.Calm) ∧ (∀ x ∈ ops, x.2.Drops) ∧
    Out.abort ∉ (worldHistory Sample.cfg ops World.new).1 ∧ (worldHistory Sample.cfg ops World.new).2.cut = [] ∧
    (worldHistory Sample.cfg ops World.new).2.map.contents = [.inl 6, .inr "f"] :=
  ⟨fun x hx => by obtain ⟨y, _, rfl⟩ := List.mem_map.1 hx; exact ⟨fun _ => rfl, fun _ => rfl⟩,
    fun x hx => by obtain ⟨y, hy, rfl⟩ := List.mem_map.1 hx; exact barbedOps_drops y hy, by decide +kernel,
    by decide +kernel, by decide +kernel⟩

/-- C59. Even if the process aborts in the middle of the last call: nothing has been dropped
that was given away or dropped before. (What is left, `rest`, is never dropped.) -/
theorem C59_abort (ops : List (Drops K V × Op K V)) (hops : ∀ x ∈ ops, x.2.Drops) :
    ∃ os s rest, worldHistory cfg ops World.new = (os, s) ∧
      (worldLedger cfg Op.takes ops World.new ++ s.made).Perm
        (worldLedger cfg Op.gives ops World.new ++ s.dropped ++ s.leaked.map .inr ++ rest) := by
  haveI : DecidableEq K := fun _ _ => Classical.propDecidable _
  haveI : DecidableEq V := fun _ _ => Classical.propDecidable _
  obtain ⟨os, s, h1, _, _, _, _, h6⟩ :=
    worldHistory_led (cfg := cfg) ops hops (s := World.new) World.valid_new
  obtain ⟨r, hr⟩ := perm_of_count_le (l := worldLedger cfg Op.gives ops World.new ++ s.dropped ++
      s.leaked.map .inr) (m := worldLedger cfg Op.takes ops World.new ++ s.made) fun x => by
    have := h6 x
    have h7 : World.held x (World.new : World K V) = 0 := rfl
    have h8 : (World.new : World K V).made.count x = 0 := rfl
    rw [h7, h8] at this
    simp only [List.count_append]
    omega
  exact ⟨os, s, r, h1, hr⟩

/-- `C59_abort`: the calls above abort while the map with 107 and `"!"` is dropped; the last
call is not executed. A comparison and then a destructor that panic leave something behind. -/
example : (∀ x ∈ barbedOps, x.2.Drops) ∧
    Out.abort ∈ (worldHistory Sample.cfg barbedOps World.new).1 ∧
    (worldHistory Sample.cfg barbedOps World.new).1.length = 18 ∧
    let h := worldHistory Sample.cfg [(prickly, .insert (query (lastDigit 104)) 104 "d"),
      (prickly, .insert (fun _ _ => none) 103 "c")] World.new
    h.1 = [.ok (.value none), .abort] ∧ h.2.dropped = [.inr "c", .inl 103] ∧
      h.2.map.contents = [.inl 104, .inr "d"] :=
  ⟨barbedOps_drops, by decide +kernel, by decide +kernel, by decide +kernel⟩

/-- C59. Dropping the map, after any such calls. If no destructor of its entries panics, all
are dropped, once. Else the entries `l ++ [e]` are dropped, key before value, where `e` is the first one
with a destructor that panics, and no others; that ends in an abort if both the key and the value of `e`
panic. -/
theorem C59_drop {ops : List (Drops K V × Op K V)} (hops : ∀ x ∈ ops, x.2.Drops)
    {os : List (Out (Ret K V))} {s : World K V} (h : worldHistory cfg ops World.new = (os, s))
    (ha : Out.abort ∉ os) (d : Drops K V) :
    ∃ o s' l rest, World.drop cfg d s = (o, s') ∧ (entriesIn .ino s.map).Perm (l ++ rest) ∧
      (∀ e ∈ l, d.key e.1 = false ∧ d.value e.2 = false) ∧
      match rest with
      | [] => o = .ok () ∧ s'.dropped = s.dropped ++ itemsOf l
      | e :: _ => (d.key e.1 || d.value e.2) = true ∧ s'.dropped = s.dropped ++ itemsOf (l ++ [e]) ∧
          o = if d.key e.1 && d.value e.2 then .abort else .panic := by
  haveI : DecidableEq K := fun _ _ => Classical.propDecidable _
  haveI : DecidableEq V := fun _ _ => Classical.propDecidable _
  obtain ⟨os1, s1, h1, _, _, _, h5, _⟩ :=
    worldHistory_led (cfg := cfg) ops hops (s := World.new) World.valid_new
  rw [h] at h1
  cases h1
  obtain ⟨t, ht⟩ := (h5 ha).1
  exact World.drop_spec ht d

/-- `C59_drop`: of the three entries 6, 101 and 2 (in this order in memory) the last is not dropped. -/
example : Out.abort ∉ (worldHistory Sample.cfg (barbedOps.take 9) World.new).1 ∧
    let s := (worldHistory Sample.cfg (barbedOps.take 9) World.new).2
    (World.drop Sample.cfg prickly s).1 = .panic ∧
    (World.drop Sample.cfg prickly s).2.dropped = s.dropped ++ [.inl 6, .inr "f", .inl 101, .inr "a"] ∧
    (World.drop Sample.cfg ⟨(100 ≤ ·), (· == "a"), true⟩ s).1 = .abort ∧
    (World.drop Sample.cfg ⟨fun _ => false, fun _ => false, true⟩ s).1 = .ok () ∧
    (World.drop Sample.cfg ⟨fun _ => false, fun _ => false, true⟩ s).2.dropped =
      s.dropped ++ [.inl 6, .inr "f", .inl 101, .inr "a", .inl 2, .inr "B"] := by
  decide +kernel

/-- C59. The whole life of a map if no destructor panics: it is created, used in any way, and
dropped. Every key and value that was taken or cloned was given back to the caller or dropped,
exactly once; nothing is forgotten. -/
theorem C59_life (ops : List (Drops K V × Op K V)) (hops : ∀ x ∈ ops, x.2.Drops)
    (hc : ∀ x ∈ ops, x.1.Calm) {d : Drops K V} (hd : d.Calm)
    {os : List (Out (Ret K V))} {s : World K V}
    (h : worldHistory cfg ops World.new = (os, s)) (ha : Out.abort ∉ os) :
    ∃ s', World.drop cfg d s = (.ok (), s') ∧ s'.map.contents = [] ∧
      (worldLedger cfg Op.takes ops World.new ++ s.made).Perm
        (worldLedger cfg Op.gives ops World.new ++ s'.dropped ++ s.leaked.map .inr) := by
  haveI : DecidableEq K := fun _ _ => Classical.propDecidable _
  haveI : DecidableEq V := fun _ _ => Classical.propDecidable _
  obtain ⟨os1, s1, h1, _, _, h2⟩ := C59_ledger (cfg := cfg) ops hops
  rw [h] at h1
  cases h1
  obtain ⟨_, ⟨lost, _, h3, _, h4⟩, _⟩ := h2 ha
  obtain rfl := h4 hc
  obtain ⟨o, s', l, rest, g1, g2, _, g4⟩ := C59_drop hops h ha d
  cases rest with
  | cons e r =>
    obtain ⟨g4, _⟩ := g4
    rw [hd.1, hd.2] at g4
    cases g4
  | nil =>
    obtain ⟨rfl, g4⟩ := g4
    refine ⟨s', g1, ?_, ?_⟩
    · have : s'.map = BSTMap.new := by
        have := World.drop_map (cfg := cfg) (d := d) s
        rw [g1] at this
        exact this
      rw [this]; rfl
    · rw [g4]
      rw [List.perm_iff_count] at h3 ⊢
      intro x
      have h7 := h3 x
      have h8 : s.map.contents.count x = _ := itemsOf_perm g2 x
      simp only [List.count_append, List.append_nil] at *
      omega

/-- `C59_life`: the calls above with destructors that do not panic. -/
example :
    let d : Drops Nat String := ⟨fun _ => false, fun _ => false, true⟩
    let ops := barbedOps.map fun x => (d, x.2)
    let h := worldHistory Sample.cfg ops World.new
    Out.abort ∉ h.1 ∧ (World.drop Sample.cfg d h.2).2.dropped.length = h.2.dropped.length + 2 ∧
    h.2.dropped.length = 30 := by decide +kernel

/-- C59. The calls do what C48 says: as long as the process does not abort, outcomes and maps are
those of `historyDrop`. -/
theorem C59_agree (ops : List (Drops K V × Op K V)) {os : List (Out (Ret K V))} {s : World K V}
    (h : worldHistory cfg ops World.new = (os, s)) (ha : Out.abort ∉ os) :
    historyDrop cfg (ops.map fun x => (x.1.dtors, x.2)) BSTMap.new = (os, s.map) := by
  have := worldHistory_sim (cfg := cfg) ops World.new (by rw [h]; exact ha)
  rw [h] at this
  exact this

/-- C59. So they do what a textbook search tree does with the same destructors. -/
theorem C59_history [TransCmp cmp] (ops : List (Drops K V × Op K V))
    (hops : ∀ x ∈ ops, x.2.Lawful cmp) {os : List (Out (Ret K V))} {s : World K V}
    (h : worldHistory cfg ops World.new = (os, s)) (ha : Out.abort ∉ os) :
    ∃ l b, s.map.iterInorder = .ok l ∧ explore s.map = .ok b ∧
      Conforms (DropAnswer cmp (Answer cmp) id) (ops.map fun x => (x.1.dtors, x.2)) os [] l ∧
      Conforms (DropAnswer cmp (TreeAnswer cmp) BT.ino) (ops.map fun x => (x.1.dtors, x.2)) os .nil b := by
  obtain ⟨os1, m, l, b, h1, h2, h3, h4, h5⟩ := C48_history (cfg := cfg) (cmp := cmp)
    (ops.map fun x => (x.1.dtors, x.2)) (by
      intro x hx
      obtain ⟨y, hy, rfl⟩ := List.mem_map.1 hx
      exact hops y hy)
  rw [C59_agree ops h ha] at h1
  cases h1
  exact ⟨l, b, h2, h3, h4, h5⟩

/-- `C59_agree` and `C59_history` for the calls above but the last two. -/
example : (∀ x ∈ barbedOps.take 17, x.2.Lawful lastDigit) ∧
    Out.abort ∉ (worldHistory Sample.cfg (barbedOps.take 17) World.new).1 ∧
    (worldHistory Sample.cfg (barbedOps.take 12) World.new).2.map.iterInorder =
      .ok [(2, "b"), (3, "c"), (4, "d")] :=
  ⟨fun x hx => barbedOps_lawful x (List.mem_of_mem_take hx), by decide +kernel, by decide +kernel⟩

/-- C59. Why a call panics or aborts. In a map made by any sequence of calls, let a call other than
`clear` run the destructors of `ys`. If it returns, none of these panicked, and result and map
are those of the call without destructors (`op.run`, which the other properties are about). If it panics,
one of them did — or none, and the call panics also without destructors. If it aborts, two
of them panicked; or one, and the call does not return without destructors either (a panic met a
panic); or the call aborts also without destructors (the memory is full). -/
theorem C59_why {ops : List (Drops K V × Op K V)} (hops : ∀ x ∈ ops, x.2.Drops)
    {os : List (Out (Ret K V))} {s : World K V} (h : worldHistory cfg ops World.new = (os, s))
    (ha : Out.abort ∉ os) (d : Drops K V) {op : Op K V} (hop : ∀ e, op ≠ .clear e) :
    ∃ o s' ys, op.runWorld cfg d s = (o, s') ∧ s'.dropped = s.dropped ++ ys ∧
      match o with
      | .ok r => panicking d ys = 0 ∧ op.run cfg s.map = (.ok r, s'.map)
      | .panic => panicking d ys = 1 ∨ (panicking d ys = 0 ∧ op.run cfg s.map = (.panic, s'.map))
      | .abort => 2 ≤ panicking d ys ∨ (1 ≤ panicking d ys ∧ ∀ r, (op.run cfg s.map).1 ≠ .ok r) ∨
          (op.run cfg s.map).1 = .abort
      | _ => False := by
  haveI : DecidableEq K := fun _ _ => Classical.propDecidable _
  haveI : DecidableEq V := fun _ _ => Classical.propDecidable _
  obtain ⟨os1, s1, h1, _, _, _, h5, _⟩ :=
    worldHistory_led (cfg := cfg) ops hops (s := World.new) World.valid_new
  rw [h] at h1
  cases h1
  obtain ⟨ys, g1, g2⟩ := World.run_tie (d := d) op hop (h5 ha).1
  rcases hu : op.runWorld cfg d s with ⟨o, s'⟩
  rw [hu] at g1 g2
  refine ⟨o, s', ys, rfl, g1, ?_⟩
  cases o with
  | ok r => exact ⟨g2.1, g2.2.1⟩
  | panic => exact g2.1
  | abort => exact g2
  | ub => exact g2
  | diverge => exact g2

/-- `C59_why`: a call that returns; calls that panic because of a destructor, and because of a
comparison; calls that abort because of two destructors, of a comparison and a destructor, and
for lack of memory. -/
example :
    let s : World Nat String := (worldHistory Sample.cfg (barbedOps.take 9) World.new).2
    let run := fun cfg (op : Op Nat String) => ((op.runWorld cfg prickly s).1,
      (op.runWorld cfg prickly s).2.dropped.drop s.dropped.length)
    run Sample.cfg (.insert (query (lastDigit 16)) 16 "F") = (.ok (.value (some "f")), [.inl 16]) ∧
    run Sample.cfg (.insert (query (lastDigit 106)) 106 "F") = (.panic, [.inl 106, .inr "f"]) ∧
    run Sample.cfg (.insert (fun _ _ => none) 16 "F") = (.panic, [.inr "F", .inl 16]) ∧
    run Sample.cfg (.extend (fun _ k => query (lastDigit k)) ⟨(0, none), [(16, "!"), (106, "g")], false⟩) =
      (.abort, [.inl 16, .inr "f", .inl 106, .inr "!"]) ∧
    run Sample.cfg (.insert (fun _ _ => none) 105 "E") = (.abort, [.inr "E", .inl 105]) ∧
    run { Sample.cfg with allocOk := fun _ _ => false } (.withCapacity 3) = (.abort, []) := by
  decide +kernel

/-- C59. If no destructor panics, nothing changes: the calls are those of the other theorems. -/
theorem C59_calm (ops : List (Drops K V × Op K V)) (hops : ∀ x ∈ ops, x.2.Drops)
    (hc : ∀ x ∈ ops, x.1.Calm) :
    ∃ os s, worldHistory cfg ops World.new = (os, s) ∧
      os = (history cfg (ops.map (·.2)) BSTMap.new).1 ∧
      (Out.abort ∉ os → s.map = (history cfg (ops.map (·.2)) BSTMap.new).2) :=
  ⟨_, _, rfl, World.history_calm ops hops hc World.valid_new⟩

/-- `C59_calm`: the calls above with destructors that do not panic. One call (of `insert`) panics because of
its comparison, one (of `clone`) because of a clone. -/
example :
    let d : Drops Nat String := ⟨fun _ => false, fun _ => false, true⟩
    let ops := barbedOps.map fun x => (d, x.2)
    (∀ x ∈ ops, x.1.Calm) ∧ (∀ x ∈ ops, x.2.Drops) ∧ Out.abort ∉ (worldHistory Sample.cfg ops World.new).1 ∧
    (worldHistory Sample.cfg ops World.new).1.count .panic = 2 := by
  refine ⟨?_, ?_, by decide +kernel, by decide +kernel⟩
  · intro x hx
    obtain ⟨y, _, rfl⟩ := List.mem_map.1 hx
    exact ⟨fun _ => rfl, fun _ => rfl⟩
  · intro x hx
    obtain ⟨y, hy, rfl⟩ := List.mem_map.1 hx
    exact barbedOps_drops y hy

end BST.Props
