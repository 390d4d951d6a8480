import Verif.Proofs.SimpleHot
import Verif.Props.Dtors
/-!
# Destructors of keys and values in `simple_bst`

`simpleHistoryDrop cfg ops s` executes calls on a `SimpleBSTMap` with destructors
(`Verif/SimpleDiscards.lean`, `Verif/Model/SimpleDtors.lean`). Each element of `ops` is a call
together with the destructors at the time of that call: which keys and which values panic
when they are dropped. The state remembers which destructors were run (`dropped`), which
clones were made (`made`) and which return values were leaked (`leaked`).
-/
set_option linter.unusedSimpArgs false
namespace BST.Props
open Std
open Spec (BT Conforms SimpleDropAnswer fate panicking)
open Simple (World Drops Wf Link)
variable {K V : Type} {cfg : Cfg} {cmp : K → K → Ordering}

/-! ### C57 -/

/-- Keys from 100 on and the value `"!"` panic when dropped; return values are dropped. -/
def prickly : Drops Nat String := ⟨(100 ≤ ·), (· == "!"), true⟩

/-- Insert (comparing last digits) new keys and equal keys, extend with items that displace
`"!"`, remove keys that panic, replace the map although dropping it panics, clone, clear, and
let an insertion panic twice. -/
def pricklyOps : List (Drops Nat String × SimpleOp Nat String) :=
  [(prickly, .insert (query (lastDigit 5)) 5 "e"),
   (prickly, .insert (query (lastDigit 105)) 105 "!"),
   (prickly, .extend (fun _ k => query (lastDigit k)) ⟨(0, none), [(108, "h"), (25, "E"), (7, "g")], false⟩),
   (prickly, .insert (query (lastDigit 2)) 2 "b"),
   (prickly, .remove (query (lastDigit 5))),
   (prickly, .getMut (query (lastDigit 2)) "B"),
   (prickly, .remove (query (lastDigit 8))),
   (prickly, .insert (query (lastDigit 101)) 101 "a"),
   (prickly, .collect (fun _ k => query (lastDigit k)) ⟨(0, none), [(3, "c"), (2, "b"), (4, "d")], false⟩),
   (prickly, .cloned some (fun v => if v == "b" then none else some v)),
   (prickly, .cloned some some),
   (⟨fun _ => false, fun _ => false, true⟩, .clear),
   (prickly, .insert (query (lastDigit 6)) 6 "f"),
   (prickly, .insert (fun _ _ => none) 4 "d"),
   (prickly, .removeEntry (query (lastDigit 6))),
   (prickly, .insert (query (lastDigit 7)) 107 "!"),
   (prickly, .clear),
   (prickly, .insert (query (lastDigit 6)) 6 "f")]

theorem pricklyOps_lawful : ∀ x ∈ pricklyOps, x.2.Lawful lastDigit := by
  simp only [pricklyOps, List.forall_mem_cons]
  refine ⟨fun _ _ => .inr rfl, fun _ _ => .inr rfl, fun _ _ _ _ => .inr rfl, fun _ _ => .inr rfl,
    ⟨lastDigit 5, lawful_cmp lastDigit 5, fun _ _ => .inr rfl⟩,
    ⟨lastDigit 2, lawful_cmp lastDigit 2, fun _ _ => .inr rfl⟩,
    ⟨lastDigit 8, lawful_cmp lastDigit 8, fun _ _ => .inr rfl⟩, fun _ _ => .inr rfl,
    fun _ _ _ _ => .inr rfl, ⟨fun _ _ _ _ => .inr rfl, fun _ _ h => (Option.some.inj h).symm, fun v w h => ?_⟩,
    ⟨fun _ _ _ _ => .inr rfl, fun _ _ h => (Option.some.inj h).symm, fun _ _ h => (Option.some.inj h).symm⟩,
    fun _ => rfl, fun _ _ => .inr rfl, fun _ _ => .inl rfl,
    ⟨lastDigit 6, lawful_cmp lastDigit 6, fun _ _ => .inr rfl⟩, fun _ _ => .inr rfl,
    fun _ => rfl, fun _ _ => .inr rfl, by simp⟩
  simp only at h
  split at h
  · cases h
  · exact (Option.some.inj h).symm

/-- C57. Start with an empty map and make any finite sequence of calls, where the destructors
of keys and values panic in any pattern. Every call does what a textbook search tree does with
the same destructors (`Spec.SimpleDropAnswer`): `insert` and `remove` have taken full effect if
a destructor makes them panic, `extend` stops behind the item whose insertion discarded
something that panics, an assignment and `clear` have happened although dropping the old map
panics, and a second panic during unwinding aborts the process. -/
theorem C57_history [TransCmp cmp] (he : 2 ≤ cfg.esize) (ops : List (Drops K V × SimpleOp K V))
    (hops : ∀ x ∈ ops, x.2.Lawful cmp) :
    ∃ os s b, simpleHistoryDrop cfg ops World.new = (os, s) ∧
      Conforms (SimpleDropAnswer cmp) ops os .nil b ∧
      (Out.abort ∉ os → Simple.explore s.map = b ∧ s.map.len = b.size) := by
  obtain ⟨os, s, b, h1, h2, h3⟩ := Simple.history_eff he ops hops (s := World.new) (b0 := .nil)
    ⟨rfl, List.Pairwise.nil, rfl⟩
  refine ⟨os, s, b, h1, h2, fun h => ?_⟩
  obtain ⟨g1, _, rfl⟩ := h3 h
  exact ⟨Simple.explore_eq _, by rw [Simple.view_size']; exact g1⟩

/-- `C57_history` for the calls above. -/
example := C57_history (cfg := Sample.cfg) (by decide) pricklyOps pricklyOps_lawful

/-- What happens: the calls that panic have taken effect (but for the second `clone` and the
insertion whose comparison panics); the last call but one aborts. -/
example : (simpleHistoryDrop Sample.cfg pricklyOps World.new).1 =
      [.ok (.value none), .panic, .panic, .ok (.value none), .ok (.value (some "E")),
        .ok (.value (some "b")), .panic, .ok (.value none), .panic, .panic, .ok .unit, .ok .unit,
        .ok (.value none), .panic, .ok (.entry (some (6, "f"))), .ok (.value none), .abort] ∧
    Simple.explore (simpleHistoryDrop Sample.cfg (pricklyOps.take 3) World.new).2.map =
      .node .nil (5, "E") (.node .nil (108, "h") .nil) ∧
    Simple.explore (simpleHistoryDrop Sample.cfg (pricklyOps.take 7) World.new).2.map =
      .node .nil (2, "B") .nil ∧
    Simple.explore (simpleHistoryDrop Sample.cfg (pricklyOps.take 10) World.new).2.map =
      .node (.node .nil (2, "b") .nil) (3, "c") (.node .nil (4, "d") .nil) := by
  decide +kernel

/-- C57. The accounts. Whatever the comparisons, clones and destructors do: if the process has
not aborted, every key and value that the calls took from the caller, and every clone they made,
has been given back to the caller, or is in the map, or its destructor was run, exactly once —
or it was a return value and was leaked by a compiler that does that. No call has undefined
behaviour or does not terminate. -/
theorem C57_ledger (he : 2 ≤ cfg.esize) (ops : List (Drops K V × SimpleOp K V)) :
    ∃ os s, simpleHistoryDrop cfg ops World.new = (os, s) ∧
      (∀ o ∈ os, o ≠ .ub ∧ o ≠ .diverge) ∧
      ((∀ x ∈ ops, x.1.ret = true) → s.leaked = []) ∧
      (Out.abort ∉ os → os.length = ops.length ∧
        (ledger SimpleOp.takes ops os ++ s.made).Perm (ledger SimpleOp.gives ops os ++
          itemsOf (Simple.explore s.map).ino ++ s.dropped ++ s.leaked.map .inr)) := by
  haveI : DecidableEq K := fun _ _ => Classical.propDecidable _
  haveI : DecidableEq V := fun _ _ => Classical.propDecidable _
  obtain ⟨os, s, h1, h2, h3, h4, h5, _⟩ := Simple.history_led he ops (s := World.new) rfl
  refine ⟨os, s, h1, fun o ho => ?_, h4, fun h => ⟨?_, ?_⟩⟩
  · rcases h2 o ho with ⟨r, rfl⟩ | rfl | rfl <;> simp
  · exact h3.resolve_right h
  · rw [List.perm_iff_count]
    intro x
    have h6 := (h5 h).2 x
    have h7 : World.held x (World.new : World K V) = 0 := rfl
    have h8 : (World.new : World K V).made.count x = 0 := rfl
    have h9 := World.items_count s.map.root x
    rw [h7, h8] at h6
    rw [Simple.explore_eq]
    simp only [World.held, List.count_append] at *
    omega

/-- Comparisons that are inconsistent, a comparison that panics, clones of keys that differ,
and a compiler that leaks return values. -/
def wildOps : List (Drops Nat String × SimpleOp Nat String) :=
  let c : Probe Nat := fun n _ => if n == 1 then some .eq else some .gt
  let d : Drops Nat String := ⟨(100 ≤ ·), (· == "!"), false⟩
  [(d, .insert c 5 "e"), (d, .insert c 3 "c"), (d, .insert c 105 "f"),
   (d, .cloned (fun k => some (k + 100)) some),
   (prickly, .extend (fun n _ => if n == 2 then fun _ _ => none else fun _ _ => some .lt)
      ⟨(7, none), [(1, "a"), (2, "b"), (8, "h"), (9, "i")], false⟩),
   (d, .remove c)]

/-- `C57_ledger`: the values `"c"` and `"f"` were about to be returned and were leaked; the
items from 8 on were dropped by `extend`, which panicked. -/
example :
    let h := simpleHistoryDrop Sample.cfg wildOps World.new
    2 ≤ Sample.cfg.esize ∧
    h.1 = [.ok (.value none), .ok (.value none), .panic, .ok .unit, .panic, .panic] ∧
    (Simple.explore h.2.map).ino = [(2, "b"), (1, "a"), (105, "e")] ∧ h.2.leaked = ["c", "f"] ∧
    h.2.dropped = [.inl 105, .inl 5, .inr "e", .inl 3, .inr "f", .inr "h", .inl 8, .inl 9, .inr "i", .inl 103] ∧
    h.2.made = [.inl 105, .inr "e", .inl 103, .inr "f"] ∧
    ledger SimpleOp.takes wildOps h.1 = [.inl 5, .inr "e", .inl 3, .inr "c", .inl 105, .inr "f",
      .inl 1, .inr "a", .inl 2, .inr "b", .inl 8, .inr "h", .inl 9, .inr "i"] ∧
    ledger SimpleOp.gives wildOps h.1 = [] := by decide +kernel

/-- What callers got back: replaced, removed and overwritten values, and a removed key. -/
example : ledger SimpleOp.gives pricklyOps (simpleHistoryDrop Sample.cfg pricklyOps World.new).1 =
    [.inr "E", .inr "b", .inl 6, .inr "f"] := by decide +kernel

/-- C57. Even if the process aborts in the middle of the last call: nothing has been dropped
that was given away or dropped before. (What is left, `rest`, is never dropped.) -/
theorem C57_abort (he : 2 ≤ cfg.esize) (ops : List (Drops K V × SimpleOp K V)) :
    ∃ os s rest, simpleHistoryDrop cfg ops World.new = (os, s) ∧
      (ledger SimpleOp.takes ops os ++ s.made).Perm (ledger SimpleOp.gives ops os ++
        s.dropped ++ s.leaked.map .inr ++ rest) := by
  haveI : DecidableEq K := fun _ _ => Classical.propDecidable _
  haveI : DecidableEq V := fun _ _ => Classical.propDecidable _
  obtain ⟨os, s, h1, _, _, _, _, h6⟩ := Simple.history_led he ops (s := World.new) rfl
  obtain ⟨r, hr⟩ := perm_of_count_le (l := ledger SimpleOp.gives ops os ++ s.dropped ++ s.leaked.map .inr)
    (m := ledger SimpleOp.takes ops os ++ s.made) fun x => by
      have := h6 x
      have h7 : World.held x (World.new : World K V) = 0 := rfl
      have h8 : (World.new : World K V).made.count x = 0 := rfl
      rw [h7, h8] at this
      simp only [List.count_append]
      omega
  exact ⟨os, s, r, h1, hr⟩

/-- `C57_abort`: the calls above abort while `clear` drops 107 and `"!"`; only the last entry,
whose insertion was never executed, is not accounted for. A comparison and then a destructor
that panic leave something behind. -/
example : Out.abort ∈ (simpleHistoryDrop Sample.cfg pricklyOps World.new).1 ∧
    let h := simpleHistoryDrop Sample.cfg [(prickly, .insert (query (lastDigit 104)) 104 "d"),
      (prickly, .insert (fun _ _ => none) 103 "c")] World.new
    h.1 = [.ok (.value none), .abort] ∧ h.2.dropped = [.inr "c", .inl 103] ∧
      Simple.explore h.2.map = .node .nil (104, "d") .nil := by decide +kernel

/-- Three entries, of which two have destructors that panic. -/
def thorns : World Nat String :=
  (simpleHistoryDrop Sample.cfg [(prickly, .insert (query (lastDigit 5)) 5 "e"),
    (prickly, .insert (query (lastDigit 102)) 102 "b"), (prickly, .insert (query (lastDigit 7)) 7 "!")]
    World.new).2

/-- C57. `clear`, for any map and destructors: every key and value is dropped exactly once, in
preorder and the key before its value, even if one of the destructors panics; then the call
panics, and the map is empty all the same. Only a second panic (an abort) stops it. -/
theorem C57_clear (d : Drops K V) (s : World K V) :
    ∃ s', World.clear d s = (fate () (panicking d (itemsOf (Simple.explore s.map).pre)), s') ∧
      Simple.explore s'.map = .nil ∧ s'.map.len = 0 ∧
      (panicking d (itemsOf (Simple.explore s.map).pre) < 2 →
        s'.dropped = s.dropped ++ itemsOf (Simple.explore s.map).pre) := by
  obtain ⟨ys, zs, h1, h2, h3⟩ := World.Burns.link (d := d) s.map.root
    { s with map := { Simple.Map.new with allocs := s.map.allocs } }
  have hp : s.map.root.items = itemsOf (Simple.explore s.map).pre := by rw [Simple.explore_eq]; exact World.items_pre _
  rw [hp] at h1 h2 h3
  refine ⟨_, h3, by rw [Simple.explore_eq]; rfl, rfl, fun h => ?_⟩
  obtain rfl := h2 h
  rw [List.append_nil] at h1
  rw [h1]; rfl

/-- `C57_clear`: with no, one and two destructors that panic. -/
example :
    let d : Drops Nat String := ⟨(100 ≤ ·), fun _ => false, true⟩
    (World.clear ⟨fun _ => false, fun _ => false, true⟩ thorns).1 = .ok () ∧
    (World.clear d thorns).1 = .panic ∧
    (World.clear d thorns).2.dropped = [.inl 5, .inr "e", .inl 102, .inr "b", .inl 7, .inr "!"] ∧
    Simple.explore (World.clear d thorns).2.map = .nil ∧
    (World.clear prickly thorns).1 = .abort := by decide +kernel

/-- C57. Dropping the map does the same. -/
theorem C57_drop (d : Drops K V) (s : World K V) :
    ∃ s', World.drop d s = (fate () (panicking d (itemsOf (Simple.explore s.map).pre)), s') ∧
      (panicking d (itemsOf (Simple.explore s.map).pre) < 2 →
        s'.dropped = s.dropped ++ itemsOf (Simple.explore s.map).pre) := by
  obtain ⟨s', h1, _, _, h2⟩ := C57_clear d s
  exact ⟨s', h1, h2⟩

/-- `C57_drop`. -/
example : (World.drop ⟨fun _ => false, (· == "!"), true⟩ thorns).1 = .panic ∧
    (World.drop ⟨fun _ => false, (· == "!"), true⟩ thorns).2.dropped =
      [.inl 5, .inr "e", .inl 102, .inr "b", .inl 7, .inr "!"] := by decide +kernel

/-- C57. The whole life of a map: it is created, used in any way, and dropped. If the process
did not abort, every key and value that was taken or cloned was given back to the caller or
dropped (or leaked by the compiler), exactly once; nothing is forgotten. -/
theorem C57_life (he : 2 ≤ cfg.esize) (ops : List (Drops K V × SimpleOp K V)) (d : Drops K V)
    {os : List (Out (Ret K V))} {s s' : World K V} {o : Out Unit}
    (h : simpleHistoryDrop cfg ops World.new = (os, s)) (ha : Out.abort ∉ os)
    (hd : World.drop d s = (o, s')) (ho : o ≠ .abort) :
    (ledger SimpleOp.takes ops os ++ s.made).Perm (ledger SimpleOp.gives ops os ++ s'.dropped ++
      s.leaked.map .inr) := by
  haveI : DecidableEq K := fun _ _ => Classical.propDecidable _
  haveI : DecidableEq V := fun _ _ => Classical.propDecidable _
  obtain ⟨os1, s1, h1, _, _, h2⟩ := C57_ledger he ops
  rw [h] at h1
  cases h1
  obtain ⟨s2, h3, h4⟩ := C57_drop d s
  rw [hd] at h3
  cases h3
  have h5 := h4 (by
    match hn : panicking d (itemsOf (Simple.explore s.map).pre) with
    | 0 => omega
    | 1 => omega
    | n + 2 => rw [hn] at ho; exact absurd rfl ho)
  have h6 := (h2 ha).2
  rw [h5]
  rw [List.perm_iff_count] at h6 ⊢
  intro x
  have h7 := h6 x
  have h8 := World.items_count s.map.root x
  have h9 := congrArg (List.count x) (World.items_pre s.map.root)
  rw [Simple.explore_eq] at h7 ⊢
  simp only [List.count_append] at *
  omega

/-- `C57_life`: calls after which the drop panics, but every key and value is dropped. -/
example :
    let h := simpleHistoryDrop Sample.cfg wildOps World.new
    Out.abort ∉ h.1 ∧ (World.drop prickly h.2).1 = .panic ∧
    (World.drop prickly h.2).2.dropped = h.2.dropped ++
      [.inl 105, .inr "e", .inl 1, .inr "a", .inl 2, .inr "b"] := by decide +kernel

/-- C57. Why a call panics or aborts. After any history, let a call run the destructors `ys`.
If it returns, none of them panicked. If it panics, exactly one of them did, or none and other code
of the user (or an unfinished feature). If it aborts, two of them panicked, or one did and other code of
the user, or the call allocates and memory is lacking. -/
theorem C57_why (he : 2 ≤ cfg.esize) {ops : List (Drops K V × SimpleOp K V)}
    {os : List (Out (Ret K V))} {s : World K V}
    (h : simpleHistoryDrop cfg ops World.new = (os, s)) (ha : Out.abort ∉ os)
    (d : Drops K V) (op : SimpleOp K V) :
    ∃ o s' ys, op.runDrop cfg d s = (o, s') ∧ s'.dropped = s.dropped ++ ys ∧
      match o with
      | .ok _ => panicking d ys = 0
      | .panic => (¬ op.Quiet ∧ panicking d ys = 0) ∨ panicking d ys = 1
      | .abort => 2 ≤ panicking d ys ∨ (¬ op.Quiet ∧ 1 ≤ panicking d ys) ∨
          (op.Allocates ∧ ¬ ((s.map.len + (op.twin cmp).demand) * cfg.esize < usizeBound ∧
            ∀ i b, cfg.allocOk i b = true))
      | _ => False := by
  haveI : DecidableEq K := fun _ _ => Classical.propDecidable _
  haveI : DecidableEq V := fun _ _ => Classical.propDecidable _
  obtain ⟨os1, s1, h1, _, _, _, h2, _⟩ := Simple.history_led he ops (s := World.new) rfl
  rw [h] at h1
  cases h1
  have hw := (h2 ha).1
  have h3 := World.runDrop_hot (d := d) he cmp op hw
  have hl : s.map.len = s.map.root.size := hw
  rcases hu : op.runDrop cfg d s with ⟨o, s'⟩
  rw [hu] at h3
  cases o with
  | ok r => obtain ⟨ys, g1, g2⟩ := h3; exact ⟨_, _, ys, rfl, g1, g2⟩
  | panic => obtain ⟨ys, g1, g2⟩ := h3; exact ⟨_, _, ys, rfl, g1, g2⟩
  | abort =>
    obtain ⟨ys, g1, g2⟩ := h3
    refine ⟨_, _, ys, rfl, g1, ?_⟩
    rw [hl]
    rcases g2 with g2 | g2 | g2
    · exact .inr (.inr g2)
    · exact .inl g2
    · exact .inr (.inl g2)
  | ub => exact h3.elim
  | diverge => exact h3.elim

/-- `C57_why`: calls that return, that panic because of a destructor and because of a comparison,
and that abort because of two destructors, of a comparison and a destructor, and for lack of
memory. -/
example :
    let run := fun cfg (op : SimpleOp Nat String) => ((op.runDrop cfg prickly thorns).1,
      (op.runDrop cfg prickly thorns).2.dropped)
    run Sample.cfg (.insert (query (lastDigit 15)) 15 "E") = (.ok (.value (some "e")), [.inl 15]) ∧
    run Sample.cfg (.insert (query (lastDigit 105)) 105 "E") = (.panic, [.inl 105, .inr "e"]) ∧
    run Sample.cfg (.insert (fun _ _ => none) 15 "E") = (.panic, [.inr "E", .inl 15]) ∧
    run Sample.cfg (.insert (query (lastDigit 107)) 107 "E") = (.abort, [.inl 107, .inr "!"]) ∧
    run Sample.cfg (.insert (fun _ _ => none) 105 "E") = (.abort, [.inr "E", .inl 105]) ∧
    run { Sample.cfg with allocOk := fun _ _ => false } (.insert (query (lastDigit 1)) 1 "a") = (.abort, []) := by
  decide +kernel

/-- C57. If no destructor panics, nothing changes: the calls are those of the other
theorems. -/
theorem C57_calm (cfg : Cfg) (ops : List (Drops K V × SimpleOp K V)) (hd : ∀ x ∈ ops, x.1.Calm)
    (s : World K V) :
    ((simpleHistoryDrop cfg ops s).1, (simpleHistoryDrop cfg ops s).2.map) =
      simpleHistory cfg (ops.map (·.2)) s.map :=
  Simple.history_calm cfg ops hd s

/-- `C57_calm`: calls that run destructors, none of which panics. -/
example :
    let d : Drops Nat String := ⟨fun _ => false, fun _ => false, true⟩
    let ops : List (Drops Nat String × SimpleOp Nat String) := [(d, .insert (query (lastDigit 12)) 12 "B"),
      (d, .remove (query (lastDigit 5))), (d, .clear)]
    (∀ x ∈ ops, x.1.Calm) ∧
    (simpleHistoryDrop Sample.cfg ops thorns).1 = [.ok (.value (some "b")), .ok (.value (some "e")), .ok .unit] ∧
    (simpleHistoryDrop Sample.cfg ops thorns).2.dropped =
      [.inl 12, .inl 5, .inl 7, .inr "!", .inl 102, .inr "B"] :=
  ⟨by simp [Drops.Calm], by decide +kernel, by decide +kernel⟩

end BST.Props
