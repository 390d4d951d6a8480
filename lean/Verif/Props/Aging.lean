import Verif.Proofs.Aging
import Verif.Proofs.Sample
import Verif.Props.Average
/-!
# C75: a key never becomes more expensive to find while it stays in the map

Neither crate balances its trees (README.md:103; src/map.rs:52 promises nothing), so how deep an entry
is depends on the order of the insertions. Here: it gets no deeper with age.
-/
namespace BST.Props
open BSTMap Std
open Spec (BT upTo orders mean harmonic Takes TakesSimple)
variable {K V : Type} {cfg : Cfg} {cmp : K → K → Ordering} {m m' : BSTMap K V}

/-- C75. `remove_entry` and `remove` move no entry away from the root, whatever the comparisons do
and however the map came about: in the trees with the addresses of the nodes, before and after, every
entry that is left was at least as deep before. So the tree does not get higher. -/
theorem C75_remove {ok : K → Probe K → Prop} (hr : Reach cfg ok m) {c : Probe K}
    (he : (removeEntry cfg c m).2 = m' ∨ (remove cfg c m).2 = m') :
    ∃ b b', exploreAt m = .ok b ∧ exploreAt m' = .ok b' ∧
      (∀ path e, (b'.sub path).label = some e →
        ∃ path', (b.sub path').label = some e ∧ path.length ≤ path'.length) ∧
      b'.height ≤ b.height := by
  obtain ⟨t, h⟩ := hr.shape
  have fin : ∀ {t' : Tree K V}, Shape cfg m' t' → t.bt.Rises t'.bt →
      ∃ b b', exploreAt m = .ok b ∧ exploreAt m' = .ok b' ∧
      (∀ path e, (b'.sub path).label = some e →
        ∃ path', (b.sub path').label = some e ∧ path.length ≤ path'.length) ∧
      b'.height ≤ b.height := fun h' hx =>
    ⟨_, _, exploreAt_ok h, exploreAt_ok h', hx, hx.height⟩
  rcases he with rfl | rfl
  · rcases removeEntry_cases h c with ⟨e, m1, hf, h1, h2⟩ | ⟨_, h1⟩
    · exact fin (by rw [h1]; exact h2) (t.del_rises c 0)
    · exact fin (by rw [h1]; exact h) (.refl _)
  · rcases remove_cases h c with ⟨e, m1, hf, h1, h2, _⟩ | ⟨_, h1⟩
    · exact fin (by rw [h1]; exact h2) (t.del_rises c 0)
    · exact fin (by rw [h1]; exact h) (.refl _)

/-- Removing the root 5 of nine entries: the entry 6, which was three steps below it, takes its
place. The other entries stay where they are. -/
example :
    (exploreAt Sample.nine).map (fun b => (b.sub [true, false, false]).label) = .ok (some (⟨1, 0⟩, 6, "f")) ∧
    (exploreAt (removeEntry Sample.cfg (query (compare 5)) Sample.nine).2).map (fun b =>
      ((b.sub []).label, (b.sub [true, false]).label.map (·.2))) =
        .ok (some (⟨1, 0⟩, 6, "f"), some (7, "g")) ∧
    ∃ b b', exploreAt Sample.nine = .ok b ∧
      exploreAt (removeEntry Sample.cfg (query (compare 5)) Sample.nine).2 = .ok b' ∧
      b'.height ≤ b.height := by
  refine ⟨by decide +kernel, by decide +kernel, ?_⟩
  obtain ⟨b, b', h1, h2, _, h3⟩ := C75_remove Sample.nine_reach (c := query (compare 5)) (.inl rfl)
  exact ⟨b, b', h1, h2, h3⟩

/-- For a key that is *not* in the map the cost may grow: looking for 6 in the map with 5 at the root
takes two comparisons (5 and 9), and five (9, 1, 2, 3, 4) after 5 was removed. -/
example :
    let m := Sample.build [(5, ""), (9, ""), (1, ""), (2, ""), (3, ""), (4, "")]
    let m' := (removeEntry Sample.cfg (query (compare 5)) m).2
    m.containsKey (upTo compare 6 2) = .ok false ∧ m'.containsKey (upTo compare 6 4) = .panic ∧
    m'.containsKey (upTo compare 6 5) = .ok false := by decide +kernel

/-- C75. The same for simple_bst. -/
theorem C75_remove_simple {m : Simple.Map K V} (he : 2 ≤ cfg.esize) (ops : List (SimpleOp K V))
    (hm : (simpleHistory cfg ops Simple.Map.new).2 = m)
    (ha : Out.abort ∉ (simpleHistory cfg ops Simple.Map.new).1) {c : Probe K} {m' : Simple.Map K V}
    (h : (∃ o, Simple.Map.removeEntry cfg c m = (o, m') ∧ o ≠ .abort) ∨
      ∃ o, Simple.Map.remove cfg c m = (o, m') ∧ o ≠ .abort) :
    (∀ path e, ((Simple.explore m').sub path).label = some e →
      ∃ path', ((Simple.explore m).sub path').label = some e ∧ path.length ≤ path'.length) ∧
    (Simple.explore m').height ≤ (Simple.explore m).height := by
  have hw : Simple.Wf m := hm ▸ simpleHistory_wf he ops (m := Simple.Map.new) rfl rfl ha
  have key : (Simple.explore m).Rises (Simple.explore m') := by
    rw [Simple.explore_eq, Simple.explore_eq]
    rcases Simple.Map.removeEntry_spec cfg c m hw with ⟨_, h2⟩ | ⟨_, _, _, _, h2, _⟩ | ⟨_, h2, _⟩
    · rcases h with ⟨o, h, _⟩ | ⟨o, h, _⟩
      · cases h2.symm.trans h; exact .refl _
      · unfold Simple.Map.remove at h
        rw [M.bind_panic h2] at h
        cases h; exact .refl _
    · rcases h with ⟨o, h, _⟩ | ⟨o, h, _⟩
      · cases h2.symm.trans h; exact Simple.del_rises c 0 m.root
      · unfold Simple.Map.remove at h
        rw [M.bind_ok h2] at h
        cases h; exact Simple.del_rises c 0 m.root
    · rcases h with ⟨o, h, h3⟩ | ⟨o, h, h3⟩
      · cases h2.symm.trans h; exact absurd rfl h3
      · unfold Simple.Map.remove at h
        rw [M.bind_abort h2] at h
        cases h; exact absurd rfl h3
  exact ⟨key, key.height⟩

/-- Nine insertions. -/
def nineOps : List (SimpleOp Nat String) :=
  [5, 2, 8, 1, 9, 3, 7, 4, 6].map fun k => .insert (query (compare k)) k (toString k)

theorem nineOps_lawful : ∀ op ∈ nineOps, op.Lawful compare := by
  intro op hop
  obtain ⟨k, _, rfl⟩ := List.mem_map.1 hop
  exact fun n x => .inr rfl

/-- Removing the root 5 brings 6 up, as above. -/
example :
    let m := (simpleHistory Sample.cfg nineOps Simple.Map.new).2
    let m' := (Simple.Map.removeEntry Sample.cfg (query (compare 5)) m).2
    ((Simple.explore m).sub [true, false, false]).label = some (6, "6") ∧
    ((Simple.explore m').sub []).label = some (6, "6") ∧
    ((Simple.explore m').sub [true, false]).label = some (7, "7") ∧
    (Simple.explore m').height ≤ (Simple.explore m).height := by
  refine ⟨by decide +kernel, by decide +kernel, by decide +kernel, ?_⟩
  exact (C75_remove_simple (cfg := Sample.cfg) (by decide) nineOps rfl (by decide +kernel)
    (.inl ⟨_, (Prod.eta _).symm, by decide +kernel⟩)).2

/-- C75. Make any sequence of calls on a map, other than replacing it by a newly collected one. As
long as the key `k` is in the map after each of them, finding it takes in the end at most as many
comparisons as it took in the beginning. (Calls that panic are included.) -/
theorem C75_history [TransCmp cmp] (hr : Reach cfg (Lawful cmp) m) (ops : List (Op K V))
    (hops : ∀ op ∈ ops, op.Lawful cmp ∧ op.SameMap) {k : K}
    (hk : ∀ n ≤ ops.length, (history cfg (ops.take n) m).2.containsKey (query (cmp k)) = .ok true) :
    ∃ d d', Takes cfg cmp k m d ∧ Takes cfg cmp k (history cfg ops m).2 d' ∧ d' ≤ d := by
  obtain ⟨t, h, hs⟩ := hr.sorted
  obtain ⟨os, m', t', h1, h2, h3, h4, h5⟩ := history_steps ops h hs hops hk
  rw [h1]
  exact ⟨_, _, takes h hs (has_of_contains h (hk 0 (Nat.zero_le _))), takes h2 h3 h4, h5⟩

/-- Eight calls that leave 7 in the map. -/
def agingOps : List (Op Nat String) :=
  [.remove (query (compare 5)), .insert (query (compare 10)) 10 "j", .getMut (query (compare 7)) "G",
   .removeEntry (query (compare 8)), .insert (fun _ _ => none) 0 "", .cloned (fun _ k => query (compare k)) some some,
   .extend (fun _ k => query (compare k)) ⟨(0, none), [(8, "H"), (5, "E")], false⟩, .remove (query (compare 6))]

theorem agingOps_lawful : ∀ op ∈ agingOps, op.Lawful compare ∧ op.SameMap := by
  have hq : ∀ k : Nat, ∃ f, Spec.LawfulQuery compare f ∧ Asks f (query (compare k)) :=
    fun k => ⟨compare k, lawful_cmp compare k, fun _ _ => .inr rfl⟩
  simp only [agingOps, List.forall_mem_cons]
  exact ⟨⟨hq 5, trivial⟩, ⟨fun _ _ => .inr rfl, trivial⟩, ⟨hq 7, trivial⟩, ⟨hq 8, trivial⟩,
    ⟨fun _ _ => .inl rfl, trivial⟩,
    ⟨⟨fun _ _ _ _ => .inr rfl, fun _ _ h => (Option.some.inj h).symm, fun _ _ h => (Option.some.inj h).symm⟩, trivial⟩,
    ⟨fun _ _ _ _ => .inr rfl, trivial⟩, ⟨hq 6, trivial⟩, by simp⟩

/-- Finding 7 takes three comparisons in the beginning and one in the end. -/
example :
    (∃ d d', Takes Sample.cfg compare 7 Sample.nine d ∧
      Takes Sample.cfg compare 7 (history Sample.cfg agingOps Sample.nine).2 d' ∧ d' ≤ d) ∧
    Sample.nine.get (upTo compare 7 2) = .panic ∧ Sample.nine.get (upTo compare 7 3) = .ok (some "g") ∧
    (history Sample.cfg agingOps Sample.nine).2.get (upTo compare 7 0) = .panic ∧
    (history Sample.cfg agingOps Sample.nine).2.get (upTo compare 7 1) = .ok (some "G") :=
  ⟨C75_history Sample.nine_reach agingOps agingOps_lawful (by decide +kernel), by decide +kernel⟩

/-- C75. The same for simple_bst (as long as there is memory). -/
theorem C75_history_simple [TransCmp cmp] (he : 2 ≤ cfg.esize) {m : Simple.Map K V}
    (before ops : List (SimpleOp K V)) (hb : ∀ op ∈ before, op.Lawful cmp)
    (hm : (simpleHistory cfg before Simple.Map.new).2 = m)
    (ha : Out.abort ∉ (simpleHistory cfg before Simple.Map.new).1)
    (hops : ∀ op ∈ ops, op.Lawful cmp ∧ op.SameMap) {k : K}
    (hk : ∀ n ≤ ops.length,
      (simpleHistory cfg (ops.take n) m).2.containsKey (query (cmp k)) = .ok true)
    (ha' : Out.abort ∉ (simpleHistory cfg ops m).1) :
    ∃ d d', TakesSimple cfg cmp k m d ∧ TakesSimple cfg cmp k (simpleHistory cfg ops m).2 d' ∧
      d' ≤ d := by
  obtain ⟨hw, hs⟩ := simpleHistory_sorted he before hb (m := Simple.Map.new) rfl List.Pairwise.nil ha
  rw [hm] at hw hs
  obtain ⟨os, m', h1, h2, h3, h4, h5⟩ := Simple.history_steps he ops hw hs hops hk ha'
  rw [h1]
  exact ⟨_, _, Simple.takes he hw hs (Simple.has_of_contains (hk 0 (Nat.zero_le _))),
    Simple.takes he h2 h3 h4, h5⟩

/-- Finding 7 takes three comparisons before the removals and one after them. -/
example :
    let m := (simpleHistory Sample.cfg nineOps Simple.Map.new).2
    let ops : List (SimpleOp Nat String) := [.remove (query (compare 5)), .removeEntry (query (compare 6))]
    (∃ d d', TakesSimple Sample.cfg compare 7 m d ∧
      TakesSimple Sample.cfg compare 7 (simpleHistory Sample.cfg ops m).2 d' ∧ d' ≤ d) ∧
    m.get (upTo compare 7 2) = .panic ∧ m.get (upTo compare 7 3) = .ok (some "7") ∧
    (simpleHistory Sample.cfg ops m).2.get (upTo compare 7 0) = .panic ∧
    (simpleHistory Sample.cfg ops m).2.get (upTo compare 7 1) = .ok (some "7") := by
  have hq : ∀ k : Nat, ∃ f, Spec.LawfulQuery compare f ∧ Asks f (query (compare k)) :=
    fun k => ⟨compare k, lawful_cmp compare k, fun _ _ => .inr rfl⟩
  refine ⟨C75_history_simple (by decide) nineOps _ nineOps_lawful rfl (by decide +kernel) ?_
    (by decide +kernel) (by decide +kernel), by decide +kernel⟩
  simp only [List.forall_mem_cons]
  exact ⟨⟨hq 5, trivial⟩, ⟨hq 6, trivial⟩, by simp⟩

/-- C75. Insert entries with different keys into an empty map, in any order `o`; then make any calls
`later o`, other than replacing the map by a newly collected one, that leave `k` in the map. However
they depend on the order: on average over all orders, finding `k` takes in the end at most
`H(lo+1) + H(hi+1) - 1` comparisons, where `H(i) = 1 + 1/2 + ... + 1/i` and `lo` and `hi` are how
many keys of the first entries are smaller and greater. That is at most `2 log2 n + 2`. -/
theorem C75_average [TransCmp cmp] {es : List (K × V)} (he : 0 < cfg.esize)
    (ha : ∀ id n, cfg.allocOk id n = true) (hn : (es.length + 9) * cfg.esize ≤ isizeMax)
    (hd : es.Pairwise fun a b => cmp a.1 b.1 ≠ .eq) {k : K} (hk : ∃ e ∈ es, cmp k e.1 = .eq)
    (later : List (K × V) → List (Op K V))
    (hops : ∀ o ∈ orders es, ∀ op ∈ later o, op.Lawful cmp ∧ op.SameMap)
    (hl : ∀ o ∈ orders es, ∀ m, insertAll cfg (fun _ k => query (cmp k)) 0 o BSTMap.new = (.ok (), m) →
      ∀ n ≤ (later o).length,
        (history cfg ((later o).take n) m).2.containsKey (query (cmp k)) = .ok true) :
    let lo := (es.filter fun e => cmp k e.1 == .gt).length
    let hi := (es.filter fun e => cmp k e.1 == .lt).length
    ∃ cost : List (K × V) → Nat,
      (∀ o ∈ orders es, ∃ m,
        insertAll cfg (fun _ k => query (cmp k)) 0 o BSTMap.new = (.ok (), m) ∧
        Takes cfg cmp k (history cfg (later o) m).2 (cost o)) ∧
      mean es cost ≤ harmonic (lo + 1) + harmonic (hi + 1) - 1 ∧
      mean es cost ≤ 2 * (Nat.log2 es.length : Nat) + 2 := by
  intro lo hi
  refine Spec.mean_choose (P := fun o d => ∃ m,
    insertAll cfg (fun _ k => query (cmp k)) 0 o BSTMap.new = (.ok (), m) ∧
      Takes cfg cmp k (history cfg (later o) m).2 d) hd hk fun o ho => ?_
  have hlen := (Spec.mem_orders.1 ho).length_eq
  obtain ⟨m, t, h1, h2, h3⟩ := built (cmp := cmp) he ha (o := o) (by rw [hlen]; exact hn)
  have hs : t.SortedBy cmp := by
    unfold Tree.SortedBy
    rw [← Tree.sh_ino, h3]
    exact Spec.insertList_sorted o List.Pairwise.nil
  obtain ⟨os, m', t', a1, a2, a3, a4, a5⟩ := history_steps (later o) h2 hs (hops o ho) (hl o ho m h1)
  refine ⟨_, ⟨m, h1, by rw [a1]; exact takes a2 a3 a4⟩, ?_⟩
  rw [← h3]
  exact a5

/-- Four entries in any order, then 2 is removed and 5 added: finding 3 takes at most 7/3 comparisons
on average. -/
example :
    let ops : List (Op Nat String) := [.remove (query (compare 2)), .insert (query (compare 5)) 5 "e"]
    ∃ cost : List (Nat × String) → Nat,
      (∀ o ∈ orders four, ∃ m,
        insertAll Sample.cfg (fun _ k => query (compare k)) 0 o BSTMap.new = (.ok (), m) ∧
        Takes Sample.cfg compare 3 (history Sample.cfg ops m).2 (cost o)) ∧ mean four cost ≤ 7 / 3 := by
  intro ops
  have hq : ∀ k : Nat, ∃ f, Spec.LawfulQuery compare f ∧ Asks f (query (compare k)) :=
    fun k => ⟨compare k, lawful_cmp compare k, fun _ _ => .inr rfl⟩
  obtain ⟨cost, h1, h2, _⟩ := C75_average (cfg := Sample.cfg) (cmp := compare) (es := four) (k := 3)
    (by decide) (fun _ _ => rfl) (by decide) four_apart ⟨(3, "c"), by simp [four], rfl⟩ (fun _ => ops)
    (fun _ _ => by
      simp only [ops, List.forall_mem_cons]
      exact ⟨⟨hq 2, trivial⟩, ⟨fun _ _ => .inr rfl, trivial⟩, by simp⟩)
    (by
      have : ∀ o ∈ orders four, ∀ n ≤ 2, (history Sample.cfg (ops.take n)
        (insertAll Sample.cfg (fun _ k => query (compare k)) 0 o BSTMap.new).2).2.containsKey
          (query (compare 3)) = .ok true := by decide +kernel
      intro o ho m hm n hn
      have := this o ho n hn
      rwa [hm] at this)
  exact ⟨cost, h1, Rat.le_trans h2 (by decide +kernel)⟩

/-- C75. The same for simple_bst. -/
theorem C75_average_simple [TransCmp cmp] {es : List (K × V)} (he : 2 ≤ cfg.esize)
    (ha : ∀ id n, cfg.allocOk id n = true) (hn : (es.length + 9) * cfg.esize ≤ isizeMax)
    (hd : es.Pairwise fun a b => cmp a.1 b.1 ≠ .eq) {k : K} (hk : ∃ e ∈ es, cmp k e.1 = .eq)
    (later : List (K × V) → List (SimpleOp K V))
    (hops : ∀ o ∈ orders es, ∀ op ∈ later o, op.Lawful cmp ∧ op.SameMap)
    (hl : ∀ o ∈ orders es, ∀ m,
      Simple.Map.insertAll cfg (fun _ k => query (cmp k)) 0 o Simple.Map.new = (.ok (), m) →
      Out.abort ∉ (simpleHistory cfg (later o) m).1 ∧
      ∀ n ≤ (later o).length,
        (simpleHistory cfg ((later o).take n) m).2.containsKey (query (cmp k)) = .ok true) :
    let lo := (es.filter fun e => cmp k e.1 == .gt).length
    let hi := (es.filter fun e => cmp k e.1 == .lt).length
    ∃ cost : List (K × V) → Nat,
      (∀ o ∈ orders es, ∃ m,
        Simple.Map.insertAll cfg (fun _ k => query (cmp k)) 0 o Simple.Map.new = (.ok (), m) ∧
        TakesSimple cfg cmp k (simpleHistory cfg (later o) m).2 (cost o)) ∧
      mean es cost ≤ harmonic (lo + 1) + harmonic (hi + 1) - 1 ∧
      mean es cost ≤ 2 * (Nat.log2 es.length : Nat) + 2 := by
  intro lo hi
  refine Spec.mean_choose (P := fun o d => ∃ m,
    Simple.Map.insertAll cfg (fun _ k => query (cmp k)) 0 o Simple.Map.new = (.ok (), m) ∧
      TakesSimple cfg cmp k (simpleHistory cfg (later o) m).2 d) hd hk fun o ho => ?_
  have hlen := (Spec.mem_orders.1 ho).length_eq
  obtain ⟨m, h1, h2, h3⟩ := Simple.built (cmp := cmp) he ha (o := o) (by rw [hlen]; exact hn)
  have hs : m.root.Sorted cmp := by
    unfold Simple.Link.Sorted
    rw [h3]
    exact Spec.insertList_sorted o List.Pairwise.nil
  obtain ⟨os, m', a1, a2, a3, a4, a5⟩ :=
    Simple.history_steps he (later o) h2 hs (hops o ho) (hl o ho m h1).2 (hl o ho m h1).1
  refine ⟨_, ⟨m, h1, by rw [a1]; exact Simple.takes he a2 a3 a4⟩, ?_⟩
  rw [← h3]
  exact a5

/-- Four entries in any order, then 2 is removed and 5 added: finding 3 takes at most 7/3 comparisons
on average. -/
example :
    let ops : List (SimpleOp Nat String) := [.remove (query (compare 2)), .insert (query (compare 5)) 5 "e"]
    ∃ cost : List (Nat × String) → Nat,
      (∀ o ∈ orders four, ∃ m,
        Simple.Map.insertAll Sample.cfg (fun _ k => query (compare k)) 0 o Simple.Map.new = (.ok (), m) ∧
        TakesSimple Sample.cfg compare 3 (simpleHistory Sample.cfg ops m).2 (cost o)) ∧ mean four cost ≤ 7 / 3 := by
  intro ops
  have hq : ∀ k : Nat, ∃ f, Spec.LawfulQuery compare f ∧ Asks f (query (compare k)) :=
    fun k => ⟨compare k, lawful_cmp compare k, fun _ _ => .inr rfl⟩
  obtain ⟨cost, h1, h2, _⟩ := C75_average_simple (cfg := Sample.cfg) (cmp := compare) (es := four) (k := 3)
    (by decide) (fun _ _ => rfl) (by decide) four_apart ⟨(3, "c"), by simp [four], rfl⟩ (fun _ => ops)
    (fun _ _ => by
      simp only [ops, List.forall_mem_cons]
      exact ⟨⟨hq 2, trivial⟩, ⟨fun _ _ => .inr rfl, trivial⟩, by simp⟩)
    (by
      have : ∀ o ∈ orders four,
          let m := (Simple.Map.insertAll Sample.cfg (fun _ k => query (compare k)) 0 o Simple.Map.new).2
          Out.abort ∉ (simpleHistory Sample.cfg ops m).1 ∧
          ∀ n ≤ 2, (simpleHistory Sample.cfg (ops.take n) m).2.containsKey (query (compare 3)) = .ok true := by
        decide +kernel
      intro o ho m hm
      have := this o ho
      rwa [hm] at this)
  exact ⟨cost, h1, Rat.le_trans h2 (by decide +kernel)⟩

end BST.Props
