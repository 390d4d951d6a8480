import Verif.Proofs.Search
import Verif.Proofs.Answers
import Verif.Proofs.Sample
/-!
# Comparisons: how many, and what if they panic or are inconsistent

The comparisons `c : Probe K` of a call are arbitrary: `c i x` is the answer of the `i`-th
comparison made by the call, which is with the stored key `x`; `none` is a panic.
-/
namespace BST.Props
open BSTMap Tree
open Spec (BT)
variable {K V : Type} {cfg : Cfg} {ok : K → Probe K → Prop} {m : BSTMap K V}

/-! ### C26 -/

/-- C26. A call that panics (or aborts) leaves the map exactly as it was: entries, shape,
addresses, capacity, everything. (`get`, `get_entry` and `contains_key` take the map by
shared reference and never change it; `get_mut` and `get_entry_mut` do not change it
whatever they return.) -/
theorem C26_unchanged (hm : Reach cfg ok m) (c : Probe K) :
    (∀ k v o m', insert cfg c k v m = (o, m') → (∀ r, o ≠ .ok r) → m' = m) ∧
    (∀ o m', remove cfg c m = (o, m') → (∀ r, o ≠ .ok r) → m' = m) ∧
    (∀ o m', removeEntry cfg c m = (o, m') → (∀ r, o ≠ .ok r) → m' = m) ∧
    (∀ o m', getMut c m = (o, m') → m' = m) ∧
    (∀ o m', getEntryMut c m = (o, m') → m' = m) := by
  obtain ⟨t, h⟩ := hm.shape
  refine ⟨fun k v o m' he hno => ?_, fun o m' he hno => ?_, fun o m' he hno => ?_, fun o m' he => ?_,
    fun o m' he => ?_⟩
  · rcases insert_cases h c k v with ⟨e, p, m1, _, h1, _⟩ | ⟨o1, h1, _⟩
    · cases h1.symm.trans he; exact absurd rfl (hno _)
    · cases h1.symm.trans he; rfl
  · rcases remove_cases h c with ⟨e, m1, _, h1, _⟩ | ⟨_, h1⟩
    · cases h1.symm.trans he; exact absurd rfl (hno _)
    · cases h1.symm.trans he; rfl
  · rcases removeEntry_cases h c with ⟨e, m1, _, h1, _⟩ | ⟨_, h1⟩
    · cases h1.symm.trans he; exact absurd rfl (hno _)
    · cases h1.symm.trans he; rfl
  · exact (Prod.mk.inj ((getMut_spec h c).symm.trans he)).2.symm
  · exact (Prod.mk.inj ((getEntryMut_spec h c).symm.trans he)).2.symm

/-- An insertion in the middle of which a comparison panics. -/
example :
    let c : Probe Nat := fun i x => if i = 2 then none else some (compare 10 x)
    (insert Sample.cfg c 10 "x" Sample.nine).1 = .panic ∧
      (insert Sample.cfg c 10 "x" Sample.nine).2 = Sample.nine := by decide +kernel

/-- C26. When exactly a call panics: if a comparison on the search path does
(`BT.search`), whichever it is; otherwise all but `insert` return. `insert` can in
addition fail for lack of memory, if the key is not found. -/
theorem C26_when (hm : Reach cfg ok m) (c : Probe K) :
    ∃ b, explore m = .ok b ∧
      m.getEntry c = b.search c 0 ∧
      m.get c = (do let e ← b.search c 0; pure (e.map (·.2))) ∧
      m.containsKey c = (do let e ← b.search c 0; pure e.isSome) ∧
      ((getMut c m).1 = .panic ↔ b.search c 0 = .panic) ∧
      ((getEntryMut c m).1 = .panic ↔ b.search c 0 = .panic) ∧
      (removeEntry cfg c m).1 = b.search c 0 ∧
      (remove cfg c m).1 = (do let e ← b.search c 0; pure (e.map (·.2))) ∧
      ∀ k v, (b.search c 0 = .panic → (insert cfg c k v m).1 = .panic) ∧
        ∀ e, b.search c 0 = .ok e → (insert cfg c k v m).1 = .ok (e.map (·.2)) ∨
          (e = none ∧ m.len cfg = .ok m.capacity ∧
            ((insert cfg c k v m).1 = .panic ∨ (insert cfg c k v m).1 = .abort)) := by
  obtain ⟨t, h⟩ := hm.shape
  refine ⟨t.sh, explore_ok h, ?_⟩
  rw [find_search]
  rcases t.find_ok_or_panic c 0 with hf | ⟨e, hf⟩
  · have h1 := getEntry_spec h c
    have h2 := get_spec h c
    have h3 := containsKey_spec h c
    have h4 := getMut_spec h c
    have h5 := getEntryMut_spec h c
    rw [hf] at h1 h2 h3 h4 h5 ⊢
    refine ⟨h1, h2, h3, ?_, ?_, ?_, ?_, fun k v => ⟨fun _ => ?_, fun e he => by cases he⟩⟩
    · rw [h4]; exact ⟨fun _ => rfl, fun _ => rfl⟩
    · rw [h5]; exact ⟨fun _ => rfl, fun _ => rfl⟩
    · rcases removeEntry_cases h c with ⟨e, m1, he, _⟩ | ⟨_, h6⟩
      · rw [hf] at he; cases he
      · rw [h6]; rfl
    · rcases remove_cases h c with ⟨e, m1, he, _⟩ | ⟨_, h6⟩
      · rw [hf] at he; cases he
      · rw [h6]; rfl
    · rcases insert_cases h c k v with ⟨e, p, m1, he, _⟩ | ⟨o, h6, ⟨rfl, _⟩ | ⟨_, he, _⟩⟩
      · rw [hf] at he; cases he
      · rw [h6]
      · rw [hf] at he; cases he
  · have h1 := getEntry_spec h c
    have h2 := get_spec h c
    have h3 := containsKey_spec h c
    have h4 := getMut_spec h c
    have h5 := getEntryMut_spec h c
    rw [hf] at h1 h2 h3 h4 h5 ⊢
    refine ⟨h1, ?_, ?_, ?_, ?_, ?_, ?_, fun k v => ⟨fun he => (by cases he), fun e' he => ?_⟩⟩
    · rw [h2]; cases e <;> rfl
    · rw [h3]; cases e <;> rfl
    · rw [h4]; constructor <;> (intro hh; cases hh)
    · rw [h5]; constructor <;> (intro hh; cases hh)
    · rcases removeEntry_cases h c with ⟨e', m1, he, h6, _⟩ | ⟨he, h6⟩
      · rw [hf] at he; cases he; rw [h6]; rfl
      · rw [hf] at he; cases he
    · rcases remove_cases h c with ⟨e', m1, he, h6, _⟩ | ⟨he, h6⟩
      · rw [hf] at he; cases he; rw [h6]; cases e <;> rfl
      · rw [hf] at he; cases he
    · cases he
      rcases insert_cases h c k v with ⟨e', p, m1, he, h6, _⟩ | ⟨o, h6, ⟨_, he⟩ | ⟨ho, he, hfull⟩⟩
      · rw [hf] at he; cases he
        rw [h6]
        left; cases e <;> rfl
      · rw [hf] at he; cases he
      · rw [hf] at he; cases he
        rw [h6]
        refine .inr ⟨rfl, ?_, ?_⟩
        · rw [h.len_ok]
          have := h.len_eq
          rw [hfull.1, hfull.2.1] at this
          exact congrArg _ this.symm
        · exact ho

/-- The second comparison of a lookup or an insertion panics. -/
example :
    let c : Probe Nat := fun i x => if i = 1 then none else some (compare 3 x)
    Sample.nine.get c = .panic ∧ (insert Sample.cfg c 3 "x" Sample.nine).1 = .panic ∧
      (remove Sample.cfg c Sample.nine).1 = .panic := by decide +kernel

/-! ### C30 -/

/-- C30. A call makes at most as many comparisons as the tree is high: what comparison
number `height` and later ones would answer (or whether they would panic) has no influence.
The height is at most `len()`. -/
theorem C30_height (hm : Reach cfg ok m) :
    ∃ b, explore m = .ok b ∧ m.len cfg = .ok b.size ∧ b.height ≤ b.size ∧
      ∀ c c' : Probe K, (∀ i x, i < b.height → c i x = c' i x) →
        m.get c = m.get c' ∧ m.getEntry c = m.getEntry c' ∧ m.containsKey c = m.containsKey c' ∧
        getMut c m = getMut c' m ∧ getEntryMut c m = getEntryMut c' m ∧
        (∀ k v, insert cfg c k v m = insert cfg c' k v m) ∧
        remove cfg c m = remove cfg c' m ∧ removeEntry cfg c m = removeEntry cfg c' m := by
  obtain ⟨t, h⟩ := hm.shape
  refine ⟨t.sh, explore_ok h, ?_, BT.height_le_size _, fun c c' hc => ?_⟩
  · rw [h.len_ok, sh_size]
  · have hh : t.sh.height = t.height := by rw [sh, BT.map_height, bt_height]
    rw [hh] at hc
    have hf : t.find c 0 = t.find c' 0 := find_congr fun j k _ hj => hc j k (by omega)
    have hr := removeEntry_congr h fun j x hj => hc j x hj
    refine ⟨by rw [get_spec h, get_spec h, hf], by rw [getEntry_spec h, getEntry_spec h, hf],
      by rw [containsKey_spec h, containsKey_spec h, hf], by rw [getMut_spec h, getMut_spec h, hf],
      by rw [getEntryMut_spec h, getEntryMut_spec h, hf],
      fun k v => insert_congr h k v fun j x hj => hc j x hj, ?_, hr⟩
    unfold remove
    rw [M.bind_apply, M.bind_apply, hr]

/-- `nine` has height 4: a panic of comparison number 3 (the fourth) can matter, one of number
4 cannot. -/
example :
    let c : Nat → Probe Nat := fun n i x => if i = n then none else some (compare 4 x)
    ((explore Sample.nine).bind fun b => .ok b.height) = .ok 4 ∧
      Sample.nine.get (c 3) = .panic ∧ Sample.nine.get (c 4) = .ok (some "d") := by decide +kernel

/-- The tree of ascending insertions. -/
def chain (a : Nat) : Nat → BT (Nat × Nat)
  | 0 => .nil
  | n + 1 => .node .nil (a, a) (chain (a + 1) n)

theorem chain_insert (a n : Nat) :
    (chain a n).insert compare (a + n) (a + n) = chain a (n + 1) := by
  induction n generalizing a with
  | zero => rfl
  | succ n ih =>
    have h : compare (a + (n + 1)) a = .gt := Nat.compare_eq_gt.2 (by omega)
    simp only [chain, BT.insert, h]
    have := ih (a + 1)
    rw [show a + 1 + n = a + (n + 1) by omega] at this
    rw [this]
    rfl

theorem chain_insertList (n : Nat) :
    BT.insertList compare ((List.range n).map fun k => (k, k)) .nil = chain 0 n := by
  induction n with
  | zero => rfl
  | succ n ih =>
    have h := chain_insert 0 n
    rw [Nat.zero_add] at h
    rw [List.range_succ, List.map_append, BT.insertList, List.foldl_append]
    unfold BT.insertList at ih
    rw [ih]
    exact h

theorem chain_search (n a i : Nat) :
    (chain a (n + 1)).search (fun j x => if j = i + n then none else some (compare (a + n) x)) i =
      .panic := by
  induction n generalizing a i with
  | zero => simp [chain, BT.search]
  | succ n ih =>
    have h : compare (a + (n + 1)) a = .gt := Nat.compare_eq_gt.2 (by omega)
    rw [chain, BT.search]
    simp only [show ¬ i = i + (n + 1) by omega, if_false, h]
    have := ih (a + 1) (i + 1)
    rw [show a + 1 + n = a + (n + 1) by omega, show i + 1 + n = i + (n + 1) by omega] at this
    exact this

theorem chain_size (a n : Nat) : (chain a n).size = n := by
  induction n generalizing a with
  | zero => rfl
  | succ n ih => simp [chain, BT.size, ih]; omega

/-- C30. No better bound in terms of `len()` holds: insert the keys `0, 1, ..., n` in this
order; then `get(&n)`, `insert(n, _)` and `remove(&n)` make all `n + 1` comparisons: they
panic if comparison number `n` does. So the documented `O(log n)` does not hold for trees
that are not balanced. -/
theorem C30_linear (n : Nat) {cfg : Cfg} {m : BSTMap Nat Nat}
    (hm : insertAll cfg (fun _ k => query (compare k)) 0 ((List.range (n + 1)).map fun k => (k, k))
      BSTMap.new = (.ok (), m)) :
    let c : Probe Nat := fun i x => if i = n then none else some (compare n x)
    m.len cfg = .ok (n + 1) ∧ m.get c = .panic ∧ (∀ v, (insert cfg c n v m).1 = .panic) ∧
      (remove cfg c m).1 = .panic := by
  intro c
  have hr : Reach cfg (Lawful compare) m :=
    Reach.insertAll (fun _ k => Lawful.query compare k) _ 0 Reach.new hm
  obtain ⟨o, m', w, l, h1, h2, h3, _, _, h4⟩ := insertAll_spec (cfg := cfg)
    (ok := Lawful (compare : Nat → Nat → Ordering))
    (cmps := fun _ k => query (compare k)) (fun _ k => Lawful.query compare k)
    (l := (List.range (n + 1)).map fun k => (k, k)) (n := 0) (shape_new (K := Nat) (V := Nat) cfg)
  cases h1.symm.trans hm
  rcases h4 with ⟨_, rfl⟩ | ⟨_, _, _, _, hst⟩
  · have hb : explore m = .ok (chain 0 (n + 1)) := by
      rw [explore_ok h2]
      exact congrArg _ (h3.sh.trans (chain_insertList (n + 1)))
    have hs : (chain 0 (n + 1)).search c 0 = .panic := by
      have := chain_search n 0 0
      simp only [Nat.zero_add] at this
      exact this
    obtain ⟨b, h5, _, h6, _, _, _, _, h7, h8⟩ := C26_when hr c
    rw [hb] at h5
    cases h5
    rw [hs] at h6 h7
    refine ⟨?_, h6, fun v => (h8 n v).1 hs, h7⟩
    obtain ⟨b, h5, h9, _⟩ := C30_height hr
    rw [hb] at h5
    cases h5
    rw [h9, chain_size]
  · cases hst

/-- The hypothesis of `C30_linear` can be met as long as memory suffices. -/
theorem C30_linear_possible (n : Nat) {cfg : Cfg} (he : 0 < cfg.esize)
    (ha : ∀ id n, cfg.allocOk id n = true) (hn : (n + 9) * cfg.esize ≤ isizeMax) :
    ∃ m, insertAll cfg (fun _ k => query (compare k)) 0 ((List.range (n + 1)).map fun k => (k, k))
      BSTMap.new = (.ok (), (m : BSTMap Nat Nat)) := by
  refine insertAll_moderate (cmps := fun _ k => query (compare k)) he ha
    (fun _ _ _ _ h => (by cases h)) (shape_new cfg) 0 ?_
  simp only [Tree.size, List.length_map, List.length_range]
  rw [show 0 + (n + 1) + 8 = n + 9 by omega]
  exact hn

/-- A million keys. -/
example : ∃ m : BSTMap Nat Nat, insertAll Sample.cfg (fun _ k => query (compare k)) 0
    ((List.range (999999 + 1)).map fun k => (k, k)) BSTMap.new = (.ok (), m) :=
  C30_linear_possible 999999 (by decide) (fun _ _ => rfl) (by decide)

/-! ### C47 -/

/-- C47. Whatever the comparisons answer, an `insert` that returns either replaces the value of
one entry and returns the old one, or adds one entry; the other entries, their order and
the keys stay. -/
theorem C47_insert (hm : Reach cfg ok m) {c : Probe K} {k : K} {v : V} {r : Option V}
    {m' : BSTMap K V} (hi : insert cfg c k v m = (.ok r, m')) :
    ∃ a b, (∃ k0 v0, m.iterInorder = .ok (a ++ (k0, v0) :: b) ∧
        m'.iterInorder = .ok (a ++ (k0, v) :: b) ∧ r = some v0) ∨
      (m.iterInorder = .ok (a ++ b) ∧ m'.iterInorder = .ok (a ++ (k, v) :: b) ∧ r = none) := by
  obtain ⟨t, h⟩ := hm.shape
  rcases insert_cases h c k v with ⟨e, p, m1, hf, h1, h2, _⟩ | ⟨o, h1, h2⟩
  · cases h1.symm.trans hi
    rw [iterInorder_spec h, iterInorder_spec h2]
    cases e with
    | none =>
      obtain ⟨a, b, e1, e2⟩ := ins_ino_miss (p := p) (k := k) (v := v) hf
      refine ⟨a.map (·.2), b.map (·.2), .inr ⟨?_, ?_, rfl⟩⟩
      · simp [kv, e1]
      · simp [kv, e2]
    | some e =>
      obtain ⟨q, k0, v0⟩ := e
      obtain ⟨a, b, e1, e2⟩ := ins_ino_hit (p := p) (k := k) (v := v) hf
      refine ⟨a.map (·.2), b.map (·.2), .inl ⟨k0, v0, ?_, ?_, rfl⟩⟩
      · simp [kv, e1]
      · simp [kv, e2]
  · rcases h2 with ⟨rfl, _⟩ | ⟨rfl | rfl, _⟩ <;> cases h1.symm.trans hi

/-- A comparison that says "equal" at the third node visited, whatever the keys: the value
there is replaced. -/
example :
    let c : Probe Nat := fun i _ => if i = 2 then some .eq else some .lt
    (insert Sample.cfg c 77 "x" Sample.nine).1 = .ok (some "a") ∧
    ((insert Sample.cfg c 77 "x" Sample.nine).2).iterInorder =
      .ok [(1, "x"), (2, "b"), (3, "c"), (4, "d"), (5, "e"), (6, "f"), (7, "g"), (8, "h"),
        (9, "i")] := by decide +kernel

/-- C47. Whatever the comparisons answer, a `remove_entry` that returns takes out exactly the
entry that it returns, or does nothing and returns `None`. -/
theorem C47_remove (hm : Reach cfg ok m) {c : Probe K} {r : Option (K × V)}
    {m' : BSTMap K V} (hi : removeEntry cfg c m = (.ok r, m')) :
    ∃ a b, m.iterInorder = .ok (a ++ r.toList ++ b) ∧ m'.iterInorder = .ok (a ++ b) := by
  obtain ⟨t, h⟩ := hm.shape
  rcases removeEntry_cases h c with ⟨e, m1, hf, h1, h2⟩ | ⟨_, h1⟩
  · cases h1.symm.trans hi
    rw [iterInorder_spec h, iterInorder_spec h2]
    cases e with
    | none =>
      refine ⟨t.kv, [], ?_, ?_⟩
      · simp
      · simp [del_ino_miss hf]
    | some e =>
      obtain ⟨a, b, e1, e2⟩ := del_ino_hit hf
      refine ⟨a.map (·.2), b.map (·.2), ?_, ?_⟩
      · simp [kv, e1]
      · simp [kv, e2]
  · cases h1.symm.trans hi

/-- The same for a removal: the entry of the second node visited is taken out. -/
example :
    let c : Probe Nat := fun i _ => if i = 1 then some .eq else some .gt
    (removeEntry Sample.cfg c Sample.nine).1 = .ok (some (8, "h")) ∧
    ((removeEntry Sample.cfg c Sample.nine).2).iterInorder =
      .ok [(1, "a"), (2, "b"), (3, "c"), (4, "d"), (5, "e"), (6, "f"), (7, "g"), (9, "i")] := by
  decide +kernel

/-- C47. The shape after such calls is determined by the answers too. -/
theorem C47_shape (hm : Reach cfg ok m) (c : Probe K) :
    ∃ b, explore m = .ok b ∧
      (∀ k v r m', insert cfg c k v m = (.ok r, m') → explore m' = .ok (b.insertBy c k v 0)) ∧
      (∀ r m', removeEntry cfg c m = (.ok r, m') → explore m' = .ok (b.eraseBy c 0)) ∧
      (∀ r m', remove cfg c m = (.ok r, m') → explore m' = .ok (b.eraseBy c 0)) := by
  obtain ⟨t, h⟩ := hm.shape
  refine ⟨t.sh, explore_ok h, fun k v r m' hi => ?_, fun r m' hi => ?_, fun r m' hi => ?_⟩
  · rcases insert_cases h c k v with ⟨e, p, m1, hf, h1, h2, _⟩ | ⟨o, h1, h2⟩
    · cases h1.symm.trans hi
      rw [explore_ok h2, ← ins_insertBy c p]; rfl
    · rcases h2 with ⟨rfl, _⟩ | ⟨rfl | rfl, _⟩ <;> cases h1.symm.trans hi
  · rcases removeEntry_cases h c with ⟨e, m1, hf, h1, h2⟩ | ⟨_, h1⟩
    · cases h1.symm.trans hi
      rw [explore_ok h2, ← del_eraseBy]; rfl
    · cases h1.symm.trans hi
  · rcases remove_cases h c with ⟨e, m1, hf, h1, h2, _⟩ | ⟨_, h1⟩
    · cases h1.symm.trans hi
      rw [explore_ok h2, ← del_eraseBy]; rfl
    · cases h1.symm.trans hi

/-- Inserting with comparisons that contradict the order of the keys. -/
example :
    let c : Probe Nat := fun i _ => if i = 0 then some .gt else some .lt
    ((insert Sample.cfg c 1 "x" Sample.nine).2).iterInorder =
      .ok [(1, "a"), (2, "b"), (3, "c"), (4, "d"), (5, "e"), (1, "x"), (6, "f"), (7, "g"),
        (8, "h"), (9, "i")] := by decide +kernel

end BST.Props
