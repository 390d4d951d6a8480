import Verif.Proofs.Undo
import Verif.Proofs.UndoSimple
import Verif.Proofs.SetHistory
import Verif.Proofs.SimpleSet
import Verif.Proofs.AgreeRun
import Verif.Proofs.Sample
/-!
# C83: an insertion that is undone leaves no trace in the tree
-/
namespace BST.Props
open Spec BSTMap
variable {K V T : Type} {cfg : Cfg} {ok : K → Probe K → Prop} {m m' : BSTMap K V} {c : Probe K} {k : K} {v : V}

/-- C83. Whatever the comparisons answer, if only they tell that the new key is equal to itself: inserting a
new key and removing it with the same comparisons returns the pair, and restores the tree that the map had,
with all addresses. No memory is taken or given back by the removal. -/
theorem C83_undo (hm : Reach cfg ok m) (hk : ∀ i, c i k = some .eq)
    (hi : insert cfg c k v m = (.ok none, m')) :
    ∃ b m'', exploreAt m = .ok b ∧ removeEntry cfg c m' = (.ok (some (k, v)), m'') ∧
      exploreAt m'' = .ok b ∧ m''.root = m.root ∧ m''.len cfg = m.len cfg ∧
      m''.capacity = m'.capacity ∧ m''.nodes.items.log = m'.nodes.items.log := by
  obtain ⟨t, h⟩ := hm.shape
  obtain ⟨p, m'', _, _, h1, h2, h3, h4, _⟩ := insert_undo h hk hi
  exact ⟨t.bt, m'', exploreAt_ok h, h1, exploreAt_ok h2, h2.root.trans h.root.symm,
    h2.len_ok.trans h.len_ok.symm, h3, h4⟩

/-- C83. Inserting the key once more gives the tree with the key again, at the same address, and this
cannot fail: the memory is there. -/
theorem C83_redo (hm : Reach cfg ok m) (hk : ∀ i, c i k = some .eq)
    (hi : insert cfg c k v m = (.ok none, m')) {o : Out (Option (K × V))} {m'' : BSTMap K V}
    (hr : removeEntry cfg c m' = (o, m'')) :
    ∃ b m3, exploreAt m' = .ok b ∧ insert cfg c k v m'' = (.ok none, m3) ∧ exploreAt m3 = .ok b ∧
      m3.root = m'.root ∧ m3.capacity = m'.capacity ∧ m3.nodes.items.log = m'.nodes.items.log := by
  obtain ⟨t, h⟩ := hm.shape
  obtain ⟨p, m2, h0, hf, h1, h2, h3, h4, _, h5⟩ := insert_undo h hk hi
  cases h1.symm.trans hr
  obtain ⟨m3, g1, g2, g3, g4⟩ := insert_last h2 h5 hf k v
  exact ⟨_, m3, exploreAt_ok h0, g1, exploreAt_ok g2, g2.root.trans h0.root.symm, g3.trans h3, g4.trans h4⟩

/-- Comparisons that ask for the opposite order: 55 is added below the entry 1, taken out, and added again
in the same place. -/
example :
    let c : Probe Nat := query fun x => compare x 55
    let m1 := (insert Sample.cfg c 55 "new" Sample.nine).2
    let m2 := (removeEntry Sample.cfg c m1).2
    (insert Sample.cfg c 55 "new" Sample.nine).1 = .ok none ∧
    (removeEntry Sample.cfg c m1).1 = .ok (some (55, "new")) ∧
    exploreAt m2 = exploreAt Sample.nine ∧ exploreAt m1 ≠ exploreAt Sample.nine ∧
    exploreAt (insert Sample.cfg c 55 "new" m2).2 = exploreAt m1 := by decide +kernel

/-- C83. Conversely, removing an entry whose node is a leaf, and inserting it again with the same
comparisons, restores the tree with all addresses. (The leaf is the node at the end of `path`; `hp` says that
this is the node that was removed.) -/
theorem C83_leaf (hm : Reach cfg ok m) {b : BT (Ptr × K × V)} (hb : exploreAt m = .ok b) {path : List Bool}
    {p : Ptr} (hl : b.sub path = .node .nil (p, k, v) .nil) {e : K × V}
    (hr : removeEntry cfg c m = (.ok (some e), m'))
    (hp : ∀ b', exploreAt m' = .ok b' → ∀ x ∈ b'.ino, x.1 ≠ p) :
    e = (k, v) ∧ ∃ m'', insert cfg c k v m' = (.ok none, m'') ∧ exploreAt m'' = .ok b ∧
      m''.root = m.root ∧ m''.capacity = m.capacity ∧ m''.nodes.items.log = m.nodes.items.log := by
  obtain ⟨t, h⟩ := hm.shape
  cases (exploreAt_ok h).symm.trans hb
  rw [← Tree.bt_sub] at hl
  have hl' : t.sub path = .node p .leaf k v .leaf := by
    generalize t.sub path = u at hl
    cases u with
    | leaf => cases hl
    | node q l k' v' r => cases l <;> cases r <;> cases hl; rfl
  rcases removeEntry_spec h c with ⟨_, h1⟩ | ⟨_, h1⟩ | ⟨e', m1, hf, h1, h2, _, h4, h5, _, _, h6⟩
  · cases h1.symm.trans hr
  · cases h1.symm.trans hr
  · cases h1.symm.trans hr
    obtain ⟨q, k0, v0⟩ := e'
    have hq : q = p := by
      have hmem := (Tree.del_ptrs_hit hf).mem_iff.2 (Tree.sub_root_mem hl')
      rcases List.mem_cons.1 hmem with h7 | h7
      · exact h7.symm
      · obtain ⟨x, hx, hxp⟩ := List.mem_map.1 ((Tree.ino_ptrs_perm _).mem_iff.2 h7)
        exact absurd hxp (hp _ (exploreAt_ok h2) x (by rw [Tree.bt_ino]; exact hx))
    subst hq
    obtain ⟨g1, g2, g3⟩ := Tree.del_ins_leaf h.nodup hf hl'
    obtain ⟨m'', f1, f2, f3, f4⟩ := insert_last h2 h6 g2 k v
    rw [g3] at f2
    exact ⟨g1, m'', f1, exploreAt_ok f2, f2.root.trans h.root.symm, f3.trans h4, f4.trans h5⟩

/-- The leaf 4 of the map with nine entries. The root 5 is no leaf: it comes back elsewhere. -/
example :
    let m := Sample.nine
    let rm := fun k (m : BSTMap Nat String) => (removeEntry Sample.cfg (query (Sample.cmp k)) m).2
    let ins := fun k v (m : BSTMap Nat String) => (insert Sample.cfg (query (Sample.cmp k)) k v m).2
    (match exploreAt m, exploreAt (rm 4 m) with
      | .ok b, .ok b' =>
        match b.sub [false, true, true] with
        | .node .nil (p, k, v) .nil => k == 4 && v == "d" && b'.ino.all fun x => x.1 != p
        | _ => false
      | _, _ => false) = true ∧
    exploreAt (ins 4 "d" (rm 4 m)) = exploreAt m ∧ exploreAt (rm 4 m) ≠ exploreAt m ∧
    exploreAt (ins 5 "e" (rm 5 m)) ≠ exploreAt m := by decide +kernel

/-- C83. The same for any number of insertions, if they are undone in the opposite order: all pairs come
back, and the tree is as before. -/
theorem C83_stack (hm : Reach cfg ok m) {l : List (Probe K × K × V)}
    (hl : ∀ e ∈ l, ∀ i, e.1 i e.2.1 = some .eq)
    (hi : history cfg (l.map fun e => .insert e.1 e.2.1 e.2.2) m =
      (l.map fun _ => .ok (.value none), m')) :
    ∃ b m'', exploreAt m = .ok b ∧
      history cfg (l.reverse.map fun e => .removeEntry e.1) m' =
        (l.reverse.map fun e => .ok (.entry (some e.2)), m'') ∧
      exploreAt m'' = .ok b ∧ m''.root = m.root ∧ m''.len cfg = m.len cfg ∧
      m''.capacity = m'.capacity ∧ m''.nodes.items.log = m'.nodes.items.log := by
  obtain ⟨t, h⟩ := hm.shape
  obtain ⟨m'', h1, h2, h3, h4⟩ := history_undo l hl h hi
  exact ⟨t.bt, m'', exploreAt_ok h, h1, exploreAt_ok h2, h2.root.trans h.root.symm,
    h2.len_ok.trans h.len_ok.symm, h3, h4⟩

/-- Twenty entries are added to nine (two blocks of memory more), and removed again. -/
example :
    let l := ((List.range 20).map fun i => (i * 7 % 20 + 100)).map fun k => (query (Sample.cmp k), k, "x")
    let m' := (history Sample.cfg (l.map fun e => .insert e.1 e.2.1 e.2.2) Sample.nine).2
    let m'' := (history Sample.cfg (l.reverse.map fun e => .removeEntry e.1) m').2
    m'.len Sample.cfg = .ok 29 ∧ exploreAt m'' = exploreAt Sample.nine ∧ Sample.nine.capacity = 24 ∧
    m''.capacity = 56 := by decide +kernel

/-- C83 for sets (by `C82_reach`, what a set consists of is always reachable). -/
theorem C83_set {ok : T → Probe T → Prop} {s s' : BSTSet T} (hs : Reach cfg ok s.items) {c : Probe T} {x : T}
    (hx : ∀ i, c i x = some .eq) (hi : BSTSet.insert cfg c x s = (.ok true, s')) :
    ∃ b s'', exploreSet s = .ok b ∧ BSTSet.take cfg c s' = (.ok (some x), s'') ∧
      BSTSet.remove cfg c s' = (.ok true, s'') ∧ exploreSet s'' = .ok b ∧
      exploreAt s''.items = exploreAt s.items ∧ s''.len cfg = s.len cfg ∧
      ∃ s3, BSTSet.insert cfg c x s'' = (.ok true, s3) ∧ exploreSet s3 = exploreSet s' ∧
        exploreAt s3.items = exploreAt s'.items := by
  obtain ⟨t, h⟩ := hs.shape
  have hi' : insert cfg c x () s.items = (.ok none, s'.items) := by
    unfold BSTSet.insert at hi
    rw [M.bind_apply] at hi
    unfold BSTSet.onItems at hi
    cases hr : insert cfg c x () s.items with
    | mk o m1 =>
      rw [hr] at hi
      cases o with
      | ok r => cases r <;> cases hi; rfl
      | _ => cases hi
  obtain ⟨p, m2, h0, hf, h1, h2, h3, h4, _, h5⟩ := insert_undo h hx hi'
  obtain ⟨m3, g1, g2, g3, g4⟩ := insert_last h2 h5 hf x ()
  have ht : BSTSet.take cfg c s' = (.ok (some x), ⟨m2⟩) := by
    simp [BSTSet.take, M.bind_apply, BSTSet.onItems, h1]
  refine ⟨_, ⟨m2⟩, exploreSet_ok h, ht, ?_, exploreSet_ok h2, (exploreAt_ok h2).trans (exploreAt_ok h).symm,
    h2.len_ok.trans h.len_ok.symm, ⟨m3⟩, ?_, (exploreSet_ok g2).trans (exploreSet_ok h0).symm,
    (exploreAt_ok g2).trans (exploreAt_ok h0).symm⟩
  · unfold BSTSet.remove
    rw [M.bind_ok ht]; rfl
  · simp [BSTSet.insert, M.bind_apply, BSTSet.onItems, g1]

example :
    let q := fun k => query (Sample.cmp k)
    let s := (BSTSet.insertAll Sample.cfg (fun _ k => q k) 0 [5, 2, 8, 1] BSTSet.new).2
    let s' := (BSTSet.insert Sample.cfg (q 3) 3 s).2
    (BSTSet.insert Sample.cfg (q 3) 3 s).1 = .ok true ∧ exploreSet s' ≠ exploreSet s ∧
    exploreSet (BSTSet.take Sample.cfg (q 3) s').2 = exploreSet s := by decide +kernel

/-! ### simple_bst -/

/-- C83 for `SimpleBSTMap`. The removal takes no memory, so that it cannot fail. -/
theorem C83_simple_undo {m m' : Simple.Map K V} (he : 2 ≤ cfg.esize) (ops : List (SimpleOp K V))
    (hm : (simpleHistory cfg ops Simple.Map.new).2 = m)
    (ha : Out.abort ∉ (simpleHistory cfg ops Simple.Map.new).1) (hk : ∀ i, c i k = some .eq)
    (hi : Simple.Map.insert cfg c k v m = (.ok none, m')) :
    ∃ m'', Simple.Map.removeEntry cfg c m' = (.ok (some (k, v)), m'') ∧
      Simple.explore m'' = Simple.explore m ∧ m''.len = m.len ∧ m''.allocs = m'.allocs := by
  have hw : Simple.Wf m := hm ▸ simpleHistory_wf he ops (m := Simple.Map.new) rfl rfl ha
  obtain ⟨_, _, _, h⟩ := Simple.Map.insert_undo he hw hk hi
  refine ⟨_, h m'.allocs, ?_, rfl, rfl⟩
  rw [Simple.explore_eq, Simple.explore_eq]

/-- C83 for `SimpleBSTMap`. Inserting the key once more gives the tree with the key again, unless the
allocator refuses. -/
theorem C83_simple_redo {m m' m'' : Simple.Map K V} (he : 2 ≤ cfg.esize) (ops : List (SimpleOp K V))
    (hm : (simpleHistory cfg ops Simple.Map.new).2 = m)
    (ha : Out.abort ∉ (simpleHistory cfg ops Simple.Map.new).1) (hk : ∀ i, c i k = some .eq)
    (hi : Simple.Map.insert cfg c k v m = (.ok none, m')) {o : Out (Option (K × V))}
    (hr : Simple.Map.removeEntry cfg c m' = (o, m'')) :
    Simple.Map.insert cfg c k v m'' = (.abort, m'') ∨
    ∃ m3, Simple.Map.insert cfg c k v m'' = (.ok none, m3) ∧ Simple.explore m3 = Simple.explore m' ∧
      m3.len = m'.len := by
  have hw : Simple.Wf m := hm ▸ simpleHistory_wf he ops (m := Simple.Map.new) rfl rfl ha
  obtain ⟨hw', hf, hroot, h⟩ := Simple.Map.insert_undo he hw hk hi
  cases (h m'.allocs).symm.trans hr
  rcases Simple.Map.insert_spec he c k v ⟨m.root, m.len, m'.allocs⟩ hw with ⟨h1, _⟩ | ⟨e, a, n, h1, h2, h3⟩ | ⟨_, h1, _⟩
  · cases hf.symm.trans h1
  · cases hf.symm.trans h1
    refine .inr ⟨_, h2, ?_, ?_⟩
    · rw [Simple.explore_eq, Simple.explore_eq, hroot]
    · unfold Simple.Wf at hw'
      rw [hw', hroot]; exact h3
  · exact .inl h1

/-- C83 for `SimpleBSTMap`. Conversely, if the comparisons lead along `path` to a leaf, then this leaf is
removed (which takes no memory), and inserting it again with the same comparisons restores the tree, unless
the allocator refuses. -/
theorem C83_simple_leaf {m : Simple.Map K V} (he : 2 ≤ cfg.esize) (ops : List (SimpleOp K V))
    (hm : (simpleHistory cfg ops Simple.Map.new).2 = m)
    (ha : Out.abort ∉ (simpleHistory cfg ops Simple.Map.new).1) {path : List Bool}
    (hl : (Simple.explore m).sub path = .node .nil (k, v) .nil)
    (hc : ∀ i x, i ≤ path.length → ((Simple.explore m).sub (path.take i)).label = some x →
      c i x.1 = some (match path[i]? with | none => .eq | some false => .lt | some true => .gt)) :
    ∃ m', Simple.Map.removeEntry cfg c m = (.ok (some (k, v)), m') ∧ m'.len + 1 = m.len ∧
      m'.allocs = m.allocs ∧
      (Simple.Map.insert cfg c k v m' = (.abort, m') ∨
        ∃ m'', Simple.Map.insert cfg c k v m' = (.ok none, m'') ∧ Simple.explore m'' = Simple.explore m ∧
          m''.len = m.len) := by
  have hw : Simple.Wf m := hm ▸ simpleHistory_wf he ops (m := Simple.Map.new) rfl rfl ha
  rw [Simple.explore_eq] at hl hc
  obtain ⟨h1, h2, h3, h4⟩ := Simple.Link.leaf_find (i := 0) (t := m.root) (c := c) hl
    (fun j x hj hx => by rw [Nat.zero_add]; exact hc j x hj hx)
  have hsz := Simple.Link.ins_size h3 k v
  rw [h4] at hsz
  replace hsz : m.root.size = (m.root.del c 0).size + 1 := hsz
  have hpos := Simple.Link.find_some_size h1
  have hw1 := hw
  unfold Simple.Wf at hw1
  have hw' : Simple.Wf (⟨m.root.del c 0, m.len - 1, m.allocs⟩ : Simple.Map K V) := by
    show m.len - 1 = (m.root.del c 0).size
    omega
  refine ⟨_, Simple.Map.removeEntry_leaf hw h1 h2, ?_, rfl, ?_⟩
  · show m.len - 1 + 1 = m.len
    omega
  rcases Simple.Map.insert_spec he c k v _ hw' with ⟨g1, _⟩ | ⟨e, a, n, g1, g2, g3⟩ | ⟨_, g1, _⟩
  · cases h3.symm.trans g1
  · cases h3.symm.trans g1
    refine .inr ⟨_, g2, ?_, ?_⟩
    · rw [Simple.explore_eq, Simple.explore_eq]
      exact congrArg _ h4
    · rw [hw1, ← h4]; exact g3
  · exact .inl g1

/-- The leaf 3 below 2 is removed and added; the root 5 comes back elsewhere. -/
example :
    let q := fun k : Nat => query (Sample.cmp k)
    let m := (simpleHistory Sample.cfg ([5, 2, 8, 1, 3].map fun k => .insert (q k) k "o") Simple.Map.new).2
    let m' := (Simple.Map.removeEntry Sample.cfg (q 3) m).2
    (Simple.explore m).sub [false, true] = .node .nil (3, "o") .nil ∧
    (∀ i, i ≤ 2 → (((Simple.explore m).sub ([false, true].take i)).label.map fun x => q 3 i x.1) =
      some (some (match [false, true][i]? with | none => .eq | some false => .lt | some true => .gt))) ∧
    Simple.explore m' ≠ Simple.explore m ∧
    Simple.explore (Simple.Map.insert Sample.cfg (q 3) 3 "o" m').2 = Simple.explore m ∧
    Simple.explore (Simple.Map.insert Sample.cfg (q 5) 5 "o" (Simple.Map.removeEntry Sample.cfg (q 5) m).2).2 ≠
      Simple.explore m := by decide +kernel

/-- C83 for `SimpleBSTMap`. Any number of insertions, undone in the opposite order. -/
theorem C83_simple_stack {m m' : Simple.Map K V} (he : 2 ≤ cfg.esize) (ops : List (SimpleOp K V))
    (hm : (simpleHistory cfg ops Simple.Map.new).2 = m)
    (ha : Out.abort ∉ (simpleHistory cfg ops Simple.Map.new).1) {l : List (Probe K × K × V)}
    (hl : ∀ e ∈ l, ∀ i, e.1 i e.2.1 = some .eq)
    (hi : simpleHistory cfg (l.map fun e => .insert e.1 e.2.1 e.2.2) m =
      (l.map fun _ => .ok (.value none), m')) :
    ∃ m'', simpleHistory cfg (l.reverse.map fun e => .removeEntry e.1) m' =
        (l.reverse.map fun e => .ok (.entry (some e.2)), m'') ∧
      Simple.explore m'' = Simple.explore m ∧ m''.len = m.len ∧ m''.allocs = m'.allocs := by
  have hw : Simple.Wf m := hm ▸ simpleHistory_wf he ops (m := Simple.Map.new) rfl rfl ha
  refine ⟨_, simpleHistory_undo he l hl hw hi, ?_, rfl, rfl⟩
  rw [Simple.explore_eq, Simple.explore_eq]

/-- Three entries added to four, with the usual order, and removed. -/
example :
    let q := fun k : Nat => query (Sample.cmp k)
    let m := (simpleHistory Sample.cfg ([5, 2, 8, 1].map fun k => .insert (q k) k "o") Simple.Map.new).2
    let l := [6, 3, 7].map fun k => (q k, k, "n")
    let x := simpleHistory Sample.cfg (l.map fun e => .insert e.1 e.2.1 e.2.2) m
    let y := simpleHistory Sample.cfg (l.reverse.map fun e => .removeEntry e.1) x.2
    x.1 = l.map (fun _ => .ok (.value none)) ∧ x.2.len = 7 ∧
    y.1 = [.ok (.entry (some (7, "n"))), .ok (.entry (some (3, "n"))), .ok (.entry (some (6, "n")))] ∧
    Simple.explore y.2 = Simple.explore m ∧ Simple.explore x.2 ≠ Simple.explore m := by decide +kernel

/-- C83 for `SimpleBSTSet`. -/
theorem C83_simple_set {s s' : Simple.SSet T} (he : 2 ≤ cfg.esize) (ops : List (SimpleSetOp T))
    (hs : (simpleSetHistory cfg ops Simple.SSet.new).2 = s)
    (ha : Out.abort ∉ (simpleSetHistory cfg ops Simple.SSet.new).1) {c : Probe T} {x : T}
    (hx : ∀ i, c i x = some .eq) (hi : Simple.SSet.insert cfg c x s = (.ok true, s')) :
    ∃ s'', Simple.SSet.take cfg c s' = (.ok (some x), s'') ∧ Simple.SSet.remove cfg c s' = (.ok true, s'') ∧
      s''.explore = s.explore ∧ s''.items.len = s.items.len ∧ s''.items.allocs = s'.items.allocs := by
  have hw : Simple.Wf s.items := hs ▸ simpleSetHistory_wf he ops (s := Simple.SSet.new) rfl rfl ha
  have hi' : Simple.Map.insert cfg c x () s.items = (.ok none, s'.items) := by
    unfold Simple.SSet.insert at hi
    rw [M.bind_apply] at hi
    unfold Simple.SSet.onItems at hi
    cases hr : Simple.Map.insert cfg c x () s.items with
    | mk o m1 =>
      rw [hr] at hi
      cases o with
      | ok r => cases r <;> cases hi; rfl
      | _ => cases hi
  obtain ⟨_, _, _, h⟩ := Simple.Map.insert_undo he hw hx hi'
  have h1 : Simple.Map.removeEntry cfg c s'.items = _ := h s'.items.allocs
  have ht : Simple.SSet.take cfg c s' = (.ok (some x), ⟨⟨s.items.root, s.items.len, s'.items.allocs⟩⟩) := by
    simp [Simple.SSet.take, M.bind_apply, Simple.SSet.onItems, h1]
  refine ⟨_, ht, ?_, ?_, rfl, rfl⟩
  · unfold Simple.SSet.remove
    rw [M.bind_ok ht]; rfl
  · rw [ssExplore_eq, ssExplore_eq]; rfl

example :
    let q := fun k : Nat => query (Sample.cmp k)
    let s := (simpleSetHistory Sample.cfg ([5, 2, 8, 1].map fun k => .insert (q k) k) Simple.SSet.new).2
    let s' := (Simple.SSet.insert Sample.cfg (q 3) 3 s).2
    (Simple.SSet.insert Sample.cfg (q 3) 3 s).1 = .ok true ∧ s'.explore ≠ s.explore ∧
    (Simple.SSet.take Sample.cfg (q 3) s').2.explore = s.explore := by decide +kernel

end BST.Props
