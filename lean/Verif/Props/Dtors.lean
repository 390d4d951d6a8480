import Verif.Proofs.Dtors
import Verif.Proofs.SetDtors
import Verif.Props.Map
/-!
# Destructors that panic while a call discards keys and values

`historyDrop cfg ops m` executes calls with destructors (`Verif/Discards.lean`,
`Verif/Model/Dtors.lean`). Each element of `ops` is a call together with the destructors at
the time of that call: which keys and which values panic when they are dropped. The
destructors that `clear` runs are those of C27; they do not panic here.
-/
set_option linter.unusedSimpArgs false
namespace BST.Props
open BSTMap Std
open Spec (BT Answer TreeAnswer DropAnswer Conforms SetAnswer SetTreeAnswer SetDropAnswer)
variable {K V T : Type} {cfg : Cfg} {cmp : K → K → Ordering} {ok : K → Probe K → Prop}
  {m : BSTMap K V}

/-- C48. Start with an empty map and make any finite sequence of calls, where the destructors
of discarded keys and values panic in any pattern. Every call does what an association list
(and a textbook search tree) does with the same destructors (`Spec.DropAnswer`): in
particular `insert` and `remove` have taken full effect if a destructor makes them panic,
`extend` stops behind the item whose insertion discarded something that panics, and an
assignment has happened although dropping the old map panics. -/
theorem C48_history [TransCmp cmp] (ops : List (Dtors K V × Op K V))
    (hops : ∀ x ∈ ops, x.2.Lawful cmp) :
    ∃ os m l b, historyDrop cfg ops BSTMap.new = (os, m) ∧ m.iterInorder = .ok l ∧
      explore m = .ok b ∧ Conforms (DropAnswer cmp (Answer cmp) id) ops os [] l ∧
      Conforms (DropAnswer cmp (TreeAnswer cmp) BT.ino) ops os .nil b := by
  obtain ⟨os, m, t, h1, h2, _, h3, h4⟩ := historyDrop_tree ops (shape_new cfg) .nil hops
  simp only [← dropAnswer_eq] at h3 h4
  exact ⟨os, m, t.kv, t.sh, h1, iterInorder_spec h2, explore_ok h2, h4, h3⟩

/-- Numbers of three digits panic when they are dropped, and so does the value `"!"`. -/
def spiky : Dtors Nat String := ⟨true, (100 ≤ ·), (· == "!")⟩

/-- Insert (comparing last digits) a new key and equal keys, extend with items that displace
`"!"`, remove a key that panics, replace the map although dropping it panics, and let an
insertion panic twice. -/
def spikyOps : List (Dtors Nat String × Op Nat String) :=
  [(spiky, .insert (query (lastDigit 5)) 5 "e"),
   (spiky, .insert (query (lastDigit 105)) 105 "!"),
   (spiky, .extend (fun _ k => query (lastDigit k)) ⟨(0, none), [(108, "h"), (25, "E"), (7, "g")], false⟩),
   (spiky, .remove (query (lastDigit 8))),
   (spiky, .insert (query (lastDigit 101)) 101 "a"),
   (spiky, .collect (fun _ k => query (lastDigit k)) ⟨(0, none), [(3, "c"), (2, "b")], false⟩),
   (spiky, .insert (fun _ _ => none) 4 "d"),
   (spiky, .insert (fun _ _ => none) 104 "d"),
   (spiky, .insert (query (lastDigit 6)) 6 "f")]

theorem spikyOps_lawful : ∀ x ∈ spikyOps, x.2.Lawful lastDigit := by
  simp only [spikyOps, List.forall_mem_cons]
  refine ⟨fun _ _ => .inr rfl, fun _ _ => .inr rfl, fun _ _ _ _ => .inr rfl,
    ⟨lastDigit 8, lawful_cmp lastDigit 8, fun _ _ => .inr rfl⟩, fun _ _ => .inr rfl,
    fun _ _ _ _ => .inr rfl, fun _ _ => .inl rfl, fun _ _ => .inl rfl, fun _ _ => .inr rfl, by simp⟩

/-- `C48_history` for these calls. -/
example := C48_history (cfg := Sample.cfg) spikyOps spikyOps_lawful

/-- What happens: the second insertion, the third call (behind its second item), the removal
and the collection panic after taking effect; the last call but one aborts. -/
example : (historyDrop Sample.cfg spikyOps BSTMap.new).1 =
      [.ok (.value none), .panic, .panic, .panic, .ok (.value none), .panic, .panic, .abort] ∧
    (historyDrop Sample.cfg (spikyOps.take 3) BSTMap.new).2.iterInorder = .ok [(5, "E"), (108, "h")] ∧
    (historyDrop Sample.cfg (spikyOps.take 4) BSTMap.new).2.iterInorder = .ok [(5, "E")] ∧
    (historyDrop Sample.cfg spikyOps BSTMap.new).2.iterInorder = .ok [(2, "b"), (3, "c")] := by
  decide +kernel

/-- C48. The same with comparisons that may be inconsistent, stateful and may panic, and
clones that may be wrong: no call has undefined behaviour and every call terminates. Nor has
dropping the map at the end, whatever destructors panic then; all memory is returned. -/
theorem C48_safe (ops : List (Dtors K V × Op K V)) (hops : ∀ x ∈ ops, x.2.Calm) :
    (∀ o ∈ (historyDrop cfg ops BSTMap.new).1, o ≠ .ub ∧ o ≠ .diverge) ∧
    ∀ d : DropInfo (InnerNode K V), ∃ o m', drop cfg d (historyDrop cfg ops BSTMap.new).2 = (o, m') ∧
      (o = .ok () ∨ o = .panic) ∧ Spec.replay m'.nodes.items.log = some [] := by
  obtain ⟨os, m, t, h1, h2, h3⟩ := historyDrop_shape ops (shape_new cfg) hops
  rw [h1]
  refine ⟨fun o ho => ?_, fun d => ?_⟩
  · have := h3 o ho
    cases o <;> simp_all [Out.Safe]
  · obtain ⟨s2, _, g2, ⟨g3, _⟩ | ⟨g3, _⟩⟩ := Slab.drop_spec (d := d) h2.slab
    · exact ⟨.ok (), { m with nodes := s2 }, by simp only [drop, onNodes, g3], .inl rfl, g2⟩
    · exact ⟨.panic, { m with nodes := s2 }, by simp only [drop, onNodes, g3], .inr rfl, g2⟩

/-- `C48_safe`: comparisons that contradict each other, and a final drop that panics. -/
example :
    let c : Probe Nat := fun i _ => if i % 2 = 0 then some .lt else some .eq
    let h := historyDrop Sample.cfg [(spiky, .insert c 105 "!"), (spiky, .insert c 3 "c"),
      (spiky, .insert c 101 "d"), (spiky, .cloned (fun _ _ => c) (fun k => some (k + 97)) some)] BSTMap.new
    h.1 = [.ok (.value none), .ok (.value none), .panic, .panic] ∧
      (drop Sample.cfg spiky.node h.2).1 = .panic := by decide +kernel

/-- C48. If there is no drop glue or no destructor panics, nothing changes: the calls are those
of the other theorems. -/
theorem C48_calm (hr : Reach cfg ok m) {d : Dtors K V}
    (hd : d.needsDrop = false ∨ (∀ k, d.key k = false) ∧ ∀ v, d.value v = false) (op : Op K V) :
    op.runDrop cfg d m = op.run cfg m := by
  obtain ⟨t, h⟩ := hr.shape
  obtain ⟨hk, hv⟩ := calm_bad hd
  exact runDrop_calm h hk hv op

/-- `C48_calm`: there are such destructors, and calls that would run them. -/
example : (Op.remove (query (lastDigit 5))).runDrop Sample.cfg ⟨true, fun _ => false, fun _ => false⟩ digits =
      (Op.remove (query (lastDigit 5))).run Sample.cfg digits ∧
    ((Op.remove (query (lastDigit 5))).run Sample.cfg digits).1 = .ok (.value (some "a")) :=
  ⟨C48_calm digits_reach (.inr ⟨fun _ => rfl, fun _ => rfl⟩) _, by decide +kernel⟩

/-- `C48_calm`: nor does anything change for types without drop glue. -/
example (f : Nat → Bool) (g : String → Bool) :
    (Op.remove (query (lastDigit 5))).runDrop Sample.cfg ⟨false, f, g⟩ digits =
      (Op.remove (query (lastDigit 5))).run Sample.cfg digits :=
  C48_calm digits_reach (.inl rfl) _

/-- C48. Inserting an equal key whose destructor panics: the call panics, but the value has
been replaced (and the stored key kept). -/
theorem C48_insert [TransCmp cmp] (hr : Reach cfg (Lawful cmp) m) {d : Dtors K V} {k k0 : K} {v v0 : V}
    (he : m.getEntry (query (cmp k)) = .ok (some (k0, v0))) (hn : d.needsDrop = true)
    (hd : d.key k = true) :
    ∃ m', insertDrop cfg d (query (cmp k)) k v m = (.panic, m') ∧
      m'.getEntry (query (cmp k)) = .ok (some (k0, v)) ∧ m'.len cfg = m.len cfg := by
  obtain ⟨t, h, hs⟩ := hr.sorted
  exact insertDrop_present h hs he (by simp [Dtors.badKey, hn, hd])

/-- `C48_insert`: the key 122 is discarded because 22 is there. -/
example : digits.getEntry (query (lastDigit 122)) = .ok (some (22, "b")) ∧ spiky.needsDrop = true ∧ spiky.key 122 = true ∧
    (insertDrop Sample.cfg spiky (query (lastDigit 122)) 122 "B" digits).1 = .panic ∧
    (insertDrop Sample.cfg spiky (query (lastDigit 122)) 122 "B" digits).2.iterInorder =
      .ok [(22, "B"), (15, "a"), (38, "c")] := by decide +kernel

/-- C48. Removing an entry whose key has a destructor that panics: the call panics, but the
entry is gone. -/
theorem C48_remove [TransCmp cmp] (hr : Reach cfg (Lawful cmp) m) {d : Dtors K V} {f : K → Ordering}
    (hf : Spec.LawfulQuery cmp f) {k0 : K} {v0 : V}
    (he : m.getEntry (query f) = .ok (some (k0, v0))) (hn : d.needsDrop = true)
    (hd : d.key k0 = true) :
    ∃ l m', removeDrop cfg d (query f) m = (.panic, m') ∧ m.iterInorder = .ok l ∧
      m'.iterInorder = .ok (l.filter fun e => f e.1 != .eq) := by
  obtain ⟨t, h, hs⟩ := hr.sorted
  obtain ⟨l, m', h1, h2, h3⟩ := removeDrop_present (d := d) h hs hf he (by simp [Dtors.badKey, hn, hd])
  exact ⟨l, m', h1, h2, h3⟩

/-- `C48_remove`: the stored key 101 is dropped. -/
example : let m := (insert Sample.cfg (query (lastDigit 101)) 101 "x" digits).2
    m.getEntry (query (lastDigit 1)) = .ok (some (101, "x")) ∧ spiky.needsDrop = true ∧ spiky.key 101 = true ∧
    (removeDrop Sample.cfg spiky (query (lastDigit 1)) m).1 = .panic ∧
    (removeDrop Sample.cfg spiky (query (lastDigit 1)) m).2.iterInorder =
      .ok [(22, "b"), (15, "a"), (38, "c")] := by decide +kernel

/-- C48 for sets. After any calls on a set: inserting an equal element whose destructor panics
panics and keeps the old element; removing an element whose destructor panics panics and
removes it. -/
theorem C48_set {cmp : T → T → Ordering} [TransCmp cmp] (ops : List (SetOp T))
    (hops : ∀ op ∈ ops, op.Lawful cmp) (d : Dtors T Unit) (hn : d.needsDrop = true) :
    let s := (setHistory cfg ops BSTSet.new).2
    (∀ t t0, s.get (query (cmp t)) = .ok (some t0) → d.key t = true →
      ∃ s', BSTSet.insertDrop cfg d (query (cmp t)) t s = (.panic, s') ∧
        s'.get (query (cmp t)) = .ok (some t0) ∧ s'.len cfg = s.len cfg) ∧
    (∀ f t0, Spec.LawfulQuery cmp f → s.get (query f) = .ok (some t0) → d.key t0 = true →
      ∃ l s', BSTSet.removeDrop cfg d (query f) s = (.panic, s') ∧ s.iterInorder = .ok l ∧
        s'.iterInorder = .ok (l.filter fun t => f t != .eq)) := by
  obtain ⟨os, s, t, h1, h2, hs, _⟩ := setHistory_tree ops (s := BSTSet.new) (shape_new cfg) .nil hops
  rw [h1]
  exact ⟨fun x x0 hx hd => setInsertDrop_present h2 hs hx (by simp [Dtors.badKey, hn, hd]),
    fun f x0 hf hx hd => setRemoveDrop_present h2 hs hf hx (by simp [Dtors.badKey, hn, hd])⟩

/-- `C48_set`. -/
example :
    let d : Dtors Nat Unit := ⟨true, (100 ≤ ·), fun _ => false⟩
    let s := (setHistory Sample.cfg [.insert (query (lastDigit 5)) 5, .insert (query (lastDigit 102)) 102]
      BSTSet.new).2
    s.get (query (lastDigit 105)) = .ok (some 5) ∧ d.key 105 = true ∧
    (BSTSet.insertDrop Sample.cfg d (query (lastDigit 105)) 105 s).1 = .panic ∧
    (BSTSet.insertDrop Sample.cfg d (query (lastDigit 105)) 105 s).2.iterInorder = .ok [102, 5] ∧
    s.get (query (lastDigit 2)) = .ok (some 102) ∧ d.key 102 = true ∧
    (BSTSet.removeDrop Sample.cfg d (query (lastDigit 2)) s).1 = .panic ∧
    (BSTSet.removeDrop Sample.cfg d (query (lastDigit 2)) s).2.iterInorder = .ok [5] := by
  decide +kernel

/-- C48 for sets. Start with an empty set and make any finite sequence of calls, where the
destructors of discarded elements panic in any pattern (the unit values have none). Every call
does what a finite set (and a textbook search tree) does with the same destructors
(`Spec.SetDropAnswer`). -/
theorem C48_set_history {cmp : T → T → Ordering} [TransCmp cmp] (ops : List (Dtors T Unit × SetOp T))
    (hops : ∀ x ∈ ops, x.2.Lawful cmp) (hv : ∀ x ∈ ops, x.1.value () = false) :
    ∃ os s l b, setHistoryDrop cfg ops BSTSet.new = (os, s) ∧ s.iterInorder = .ok l ∧
      exploreSet s = .ok b ∧ Conforms (SetDropAnswer cmp (SetAnswer cmp) id) ops os [] l ∧
      Conforms (SetDropAnswer cmp (SetTreeAnswer cmp) BT.ino) ops os .nil b := by
  obtain ⟨os, s, t, h1, h2, _, h3, h4⟩ :=
    setHistoryDrop_tree ops (s := BSTSet.new) (shape_new cfg) .nil hops hv
  exact ⟨os, s, t.elems.ino, t.elems, h1, setInorder_spec h2, exploreSet_ok h2, h4, h3⟩

/-- Numbers of three digits panic when they are dropped. -/
def spikyElems : Dtors Nat Unit := ⟨true, (100 ≤ ·), fun _ => false⟩

/-- Insert (comparing last digits) a new element and equal elements, extend with elements of
which the second is rejected, remove an element that panics, replace the set although dropping
it panics, and let an insertion panic twice. -/
def spikySetOps : List (Dtors Nat Unit × SetOp Nat) :=
  [(spikyElems, .insert (query (lastDigit 5)) 5),
   (spikyElems, .insert (query (lastDigit 15)) 15),
   (spikyElems, .insert (query (lastDigit 105)) 105),
   (spikyElems, .extend (fun _ k => query (lastDigit k)) ⟨(0, none), [108, 125, 7], false⟩),
   (spikyElems, .remove (query (lastDigit 8))),
   (spikyElems, .insert (query (lastDigit 101)) 101),
   (spikyElems, .remove (query (lastDigit 5))),
   (spikyElems, .collect (fun _ k => query (lastDigit k)) ⟨(0, none), [3, 2], false⟩),
   (spikyElems, .insert (fun _ _ => none) 4),
   (spikyElems, .insert (fun _ _ => none) 104),
   (spikyElems, .insert (query (lastDigit 6)) 6)]

theorem spikySetOps_lawful : ∀ x ∈ spikySetOps, x.2.Lawful lastDigit := by
  simp only [spikySetOps, List.forall_mem_cons]
  refine ⟨fun _ _ => .inr rfl, fun _ _ => .inr rfl, fun _ _ => .inr rfl, fun _ _ _ _ => .inr rfl,
    ⟨lastDigit 8, lawful_cmp lastDigit 8, fun _ _ => .inr rfl⟩, fun _ _ => .inr rfl,
    ⟨lastDigit 5, lawful_cmp lastDigit 5, fun _ _ => .inr rfl⟩,
    fun _ _ _ _ => .inr rfl, fun _ _ => .inl rfl, fun _ _ => .inl rfl, fun _ _ => .inr rfl, by simp⟩

/-- `C48_set_history` for these calls. -/
example := C48_set_history (cfg := Sample.cfg) spikySetOps spikySetOps_lawful
  (by simp [spikySetOps, spikyElems])

/-- What happens. -/
example : (setHistoryDrop Sample.cfg spikySetOps BSTSet.new).1 =
      [.ok (.bool true), .ok (.bool false), .panic, .panic, .panic, .ok (.bool true),
        .ok (.bool true), .panic, .panic, .abort] ∧
    (setHistoryDrop Sample.cfg (spikySetOps.take 4) BSTSet.new).2.iterInorder = .ok [5, 108] ∧
    (setHistoryDrop Sample.cfg (spikySetOps.take 5) BSTSet.new).2.iterInorder = .ok [5] ∧
    (setHistoryDrop Sample.cfg spikySetOps BSTSet.new).2.iterInorder = .ok [2, 3] := by
  decide +kernel

/-- C48 for sets, with comparisons that may be inconsistent, stateful and may panic, and clones
that may be wrong: no call has undefined behaviour and every call terminates. Nor has dropping
the set at the end, whatever destructors panic then; all memory is returned. -/
theorem C48_set_safe (ops : List (Dtors T Unit × SetOp T)) (hops : ∀ x ∈ ops, x.2.Calm) :
    (∀ o ∈ (setHistoryDrop cfg ops BSTSet.new).1, o ≠ .ub ∧ o ≠ .diverge) ∧
    ∀ d : DropInfo (InnerNode T Unit), ∃ o s',
      BSTSet.drop cfg d (setHistoryDrop cfg ops BSTSet.new).2 = (o, s') ∧
      (o = .ok () ∨ o = .panic) ∧ Spec.replay s'.items.nodes.items.log = some [] := by
  obtain ⟨os, s, t, h1, h2, h3⟩ := setHistoryDrop_shape ops (s := BSTSet.new) (shape_new cfg) hops
  rw [h1]
  refine ⟨fun o ho => ?_, fun d => ?_⟩
  · have := h3 o ho
    cases o <;> simp_all [Out.Safe]
  · obtain ⟨s2, _, g2, ⟨g3, _⟩ | ⟨g3, _⟩⟩ := Slab.drop_spec (d := d) h2.slab
    · exact ⟨.ok (), ⟨{ s.items with nodes := s2 }⟩,
        by simp only [BSTSet.drop, BSTSet.onItems, drop, onNodes, g3], .inl rfl, g2⟩
    · exact ⟨.panic, ⟨{ s.items with nodes := s2 }⟩,
        by simp only [BSTSet.drop, BSTSet.onItems, drop, onNodes, g3], .inr rfl, g2⟩

/-- `C48_set_safe`: comparisons that contradict each other, and a final drop that panics. -/
example :
    let c : Probe Nat := fun i _ => if i % 2 = 0 then some .lt else some .eq
    let h := setHistoryDrop Sample.cfg [(spikyElems, .insert c 105), (spikyElems, .insert c 3),
      (spikyElems, .insert c 101), (spikyElems, .cloned (fun _ _ => c) (fun k => some (k + 97)))] BSTSet.new
    h.1 = [.ok (.bool true), .ok (.bool true), .panic, .panic] ∧
      (BSTSet.drop Sample.cfg spikyElems.node h.2).1 = .panic := by decide +kernel

/-- C48 for sets. If there is no drop glue or no destructor panics, nothing changes: after any
calls, a call with such destructors is the call of the other theorems. -/
theorem C48_set_calm (ops : List (Dtors T Unit × SetOp T)) (hops : ∀ x ∈ ops, x.2.Calm)
    {d : Dtors T Unit} (hd : d.needsDrop = false ∨ (∀ t, d.key t = false) ∧ d.value () = false)
    (op : SetOp T) :
    op.runDrop cfg d (setHistoryDrop cfg ops BSTSet.new).2 =
      op.run cfg (setHistoryDrop cfg ops BSTSet.new).2 := by
  obtain ⟨os, s, t, h1, h2, h3⟩ := setHistoryDrop_shape ops (s := BSTSet.new) (shape_new cfg) hops
  rw [h1]
  obtain ⟨hk, hv⟩ := calm_bad (hd.imp_right fun h => ⟨h.1, fun _ => h.2⟩)
  exact SetOp.runDrop_calm h2 hk hv op

/-- `C48_set_calm`: a call that drops an element. -/
example :
    let s := (setHistoryDrop Sample.cfg (spikySetOps.take 4) BSTSet.new).2
    (SetOp.remove (query (lastDigit 8))).runDrop Sample.cfg ⟨true, fun _ => false, fun _ => false⟩ s =
      (SetOp.remove (query (lastDigit 8))).run Sample.cfg s ∧
    ((SetOp.remove (query (lastDigit 8))).run Sample.cfg s).1 = .ok (.bool true) :=
  ⟨C48_set_calm (spikySetOps.take 4) (fun x hx => by
      simp only [spikySetOps, List.take, List.mem_cons] at hx
      rcases hx with rfl | rfl | rfl | rfl | hx
      · trivial
      · trivial
      · trivial
      · trivial
      · cases hx) (.inr ⟨fun _ => rfl, rfl⟩) _, by decide +kernel⟩

end BST.Props
