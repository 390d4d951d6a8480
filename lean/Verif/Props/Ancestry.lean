import Verif.Proofs.Ancestry
import Verif.Proofs.Aging
import Verif.Proofs.Content
import Verif.Proofs.Sample
/-!
# C84: the tree tells in which order keys were inserted, and nothing else
-/
namespace BST.Props
open Spec Std
variable {K V : Type} {cfg : Cfg} {cmp : K → K → Ordering} {o1 o2 : List (K × V)} {x y : K × V}

/-- C84. Insert different keys into a new map. Then `x` is an ancestor of `y` (or `y` itself) if and only if
no key between the two, `y` included, was inserted before `x`. -/
theorem C84_ancestors [TransCmp cmp] (hd : (o1 ++ x :: o2).Pairwise fun a b => cmp a.1 b.1 ≠ .eq)
    {os : List (Out (Ret K V))} {m : BSTMap K V}
    (hi : history cfg ((o1 ++ x :: o2).map fun e => .insert (query (cmp e.1)) e.1 e.2) BSTMap.new = (os, m))
    (hos : ∀ r ∈ os, ∃ v, r = .ok v) (hy : y ∈ o1 ++ x :: o2) :
    ∃ b, explore m = .ok b ∧ (b.Over x y ↔ ∀ z ∈ o1, ¬ Between cmp x.1 z.1 y.1) := by
  obtain ⟨t, h1, h2⟩ := history_inserts _ (shape_new cfg) hi hos
  refine ⟨t.sh, explore_ok h1, ?_⟩
  rw [h2]
  exact over_grown _ o1 o2 x y (Nat.le_refl _) hd hy

/-- 5, 2, 8, 1, 3: 2 is above 3, since only 5 was there before, and 8 is not, since 5 lies between. -/
example :
    let o := [5, 2, 8, 1, 3].map fun k => (k, "v")
    let h := history Sample.cfg (o.map fun e => .insert (query (Sample.cmp e.1)) e.1 e.2) BSTMap.new
    h.1 = o.map (fun _ => .ok (.value none)) ∧
    (match explore h.2 with
      | .ok b => decide ((b.sub [false]).label = some (2, "v") ∧ (3, "v") ∈ (b.sub [false]).ino ∧
        (b.sub [true]).label = some (8, "v") ∧ (3, "v") ∉ (b.sub [true]).ino)
      | _ => false) = true := by decide +kernel

example : (∀ z ∈ [(5, "v")], ¬ Between Sample.cmp 2 z.1 3) ∧
    ¬ ∀ z ∈ [(5, "v"), (2, "v")], ¬ Between Sample.cmp 8 z.1 3 := by
  unfold Between; decide

/-- C84. When it does not matter which of two keys that follow each other is inserted first: the trees are
the same if and only if there was already a key between the two. -/
theorem C84_swap [TransCmp cmp] (hd : (o1 ++ x :: y :: o2).Pairwise fun a b => cmp a.1 b.1 ≠ .eq)
    {os os' : List (Out (Ret K V))} {m m' : BSTMap K V}
    (hi : history cfg ((o1 ++ x :: y :: o2).map fun e => .insert (query (cmp e.1)) e.1 e.2) BSTMap.new = (os, m))
    (hos : ∀ r ∈ os, ∃ v, r = .ok v)
    (hi' : history cfg ((o1 ++ y :: x :: o2).map fun e => .insert (query (cmp e.1)) e.1 e.2) BSTMap.new = (os', m'))
    (hos' : ∀ r ∈ os', ∃ v, r = .ok v) :
    ∃ b b', explore m = .ok b ∧ explore m' = .ok b' ∧ (b = b' ↔ ∃ z ∈ o1, Between cmp x.1 z.1 y.1) := by
  obtain ⟨t, h1, h2⟩ := history_inserts _ (shape_new cfg) hi hos
  obtain ⟨t', h1', h2'⟩ := history_inserts _ (shape_new cfg) hi' hos'
  refine ⟨t.sh, t'.sh, explore_ok h1, explore_ok h1', ?_⟩
  rw [h2, h2']
  exact grown_swap_iff hd

/-- With 5 in the map, 2 and 8 may change places, but not 1 and 2. -/
example :
    let tree := fun l : List Nat =>
      explore (history Sample.cfg (l.map fun k => .insert (query (Sample.cmp k)) k "v") BSTMap.new).2
    tree [5, 2, 8, 3] = tree [5, 8, 2, 3] ∧ tree [5, 1, 2, 3] ≠ tree [5, 2, 1, 3] := by decide +kernel

/-- C84. The same for two insertions into any map, also after removals; the keys may be there already. -/
theorem C84_commute [TransCmp cmp] {m m1 m2 : BSTMap K V} (hm : Reach cfg (Lawful cmp) m)
    (hne : cmp x.1 y.1 ≠ .eq) {os1 os2 : List (Out (Ret K V))}
    (h1 : history cfg ([x, y].map fun e => .insert (query (cmp e.1)) e.1 e.2) m = (os1, m1))
    (ho1 : ∀ r ∈ os1, ∃ v, r = .ok v)
    (h2 : history cfg ([y, x].map fun e => .insert (query (cmp e.1)) e.1 e.2) m = (os2, m2))
    (ho2 : ∀ r ∈ os2, ∃ v, r = .ok v) :
    ∃ b b1 b2, explore m = .ok b ∧ explore m1 = .ok b1 ∧ explore m2 = .ok b2 ∧
      (b1 = b2 ↔ ∃ z ∈ b.ino, Between cmp x.1 z.1 y.1) := by
  obtain ⟨t, h, hs⟩ := hm.sorted
  obtain ⟨t1, g1, e1⟩ := history_inserts _ h h1 ho1
  obtain ⟨t2, g2, e2⟩ := history_inserts _ h h2 ho2
  refine ⟨t.sh, t1.sh, t2.sh, explore_ok h, explore_ok g1, explore_ok g2, ?_⟩
  rw [e1, e2]
  exact insert_commute hne (sorted_search hs)

/-- Nine entries without the root 5: 4 is there, so 3 and 20 may change places; 20 and 30 may not. -/
example :
    let q := fun k => query (Sample.cmp k)
    let m := (BSTMap.removeEntry Sample.cfg (q 5) Sample.nine).2
    let tree := fun l : List Nat => explore (history Sample.cfg (l.map fun k => .insert (q k) k "v") m).2
    tree [3, 20] = tree [20, 3] ∧ tree [20, 30] ≠ tree [30, 20] := by decide +kernel

/-- C84 for `SimpleBSTMap`. -/
theorem C84_ancestors_simple [TransCmp cmp] (he : 2 ≤ cfg.esize)
    (hd : (o1 ++ x :: o2).Pairwise fun a b => cmp a.1 b.1 ≠ .eq)
    {os : List (Out (Ret K V))} {m : Simple.Map K V}
    (hi : simpleHistory cfg ((o1 ++ x :: o2).map fun e => .insert (query (cmp e.1)) e.1 e.2) Simple.Map.new = (os, m))
    (hos : ∀ r ∈ os, ∃ v, r = .ok v) (hy : y ∈ o1 ++ x :: o2) :
    (Simple.explore m).Over x y ↔ ∀ z ∈ o1, ¬ Between cmp x.1 z.1 y.1 := by
  rw [Simple.explore_eq, simpleHistory_inserts he _ (m := Simple.Map.new) rfl hi hos]
  exact over_grown _ o1 o2 x y (Nat.le_refl _) hd hy

theorem C84_swap_simple [TransCmp cmp] (he : 2 ≤ cfg.esize)
    (hd : (o1 ++ x :: y :: o2).Pairwise fun a b => cmp a.1 b.1 ≠ .eq)
    {os os' : List (Out (Ret K V))} {m m' : Simple.Map K V}
    (hi : simpleHistory cfg ((o1 ++ x :: y :: o2).map fun e => .insert (query (cmp e.1)) e.1 e.2) Simple.Map.new =
      (os, m)) (hos : ∀ r ∈ os, ∃ v, r = .ok v)
    (hi' : simpleHistory cfg ((o1 ++ y :: x :: o2).map fun e => .insert (query (cmp e.1)) e.1 e.2) Simple.Map.new =
      (os', m')) (hos' : ∀ r ∈ os', ∃ v, r = .ok v) :
    Simple.explore m = Simple.explore m' ↔ ∃ z ∈ o1, Between cmp x.1 z.1 y.1 := by
  rw [Simple.explore_eq, Simple.explore_eq, simpleHistory_inserts he _ (m := Simple.Map.new) rfl hi hos,
    simpleHistory_inserts he _ (m := Simple.Map.new) rfl hi' hos']
  exact grown_swap_iff hd

theorem C84_commute_simple [TransCmp cmp] (he : 2 ≤ cfg.esize) {m m1 m2 : Simple.Map K V}
    (ops : List (SimpleOp K V)) (hops : ∀ op ∈ ops, op.Lawful cmp)
    (hm : (simpleHistory cfg ops Simple.Map.new).2 = m)
    (ha : Out.abort ∉ (simpleHistory cfg ops Simple.Map.new).1)
    (hne : cmp x.1 y.1 ≠ .eq) {os1 os2 : List (Out (Ret K V))}
    (h1 : simpleHistory cfg ([x, y].map fun e => .insert (query (cmp e.1)) e.1 e.2) m = (os1, m1))
    (ho1 : ∀ r ∈ os1, ∃ v, r = .ok v)
    (h2 : simpleHistory cfg ([y, x].map fun e => .insert (query (cmp e.1)) e.1 e.2) m = (os2, m2))
    (ho2 : ∀ r ∈ os2, ∃ v, r = .ok v) :
    Simple.explore m1 = Simple.explore m2 ↔ ∃ z ∈ (Simple.explore m).ino, Between cmp x.1 z.1 y.1 := by
  obtain ⟨hw, hs⟩ := simpleHistory_sorted he ops hops (m := Simple.Map.new) rfl List.Pairwise.nil ha
  rw [hm] at hw hs
  rw [Simple.explore_eq, Simple.explore_eq, Simple.explore_eq, simpleHistory_inserts he _ hw h1 ho1,
    simpleHistory_inserts he _ hw h2 ho2]
  exact insert_commute hne (search_of_sorted hs)

example :
    let run := fun l : List Nat =>
      simpleHistory Sample.cfg (l.map fun k => .insert (query (Sample.cmp k)) k "v") Simple.Map.new
    (run [5, 2, 8, 3]).1 = [5, 2, 8, 3].map (fun _ => .ok (.value none)) ∧
    Simple.explore (run [5, 2, 8, 3]).2 = Simple.explore (run [5, 8, 2, 3]).2 ∧
    Simple.explore (run [5, 1, 2, 3]).2 ≠ Simple.explore (run [5, 2, 1, 3]).2 ∧
    ((Simple.explore (run [5, 2, 8, 3]).2).sub [false]).label = some (2, "v") := by decide +kernel

end BST.Props
