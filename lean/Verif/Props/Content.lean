import Verif.Proofs.Textbook
import Verif.Proofs.Sample
/-!
# Properties of whole maps: clone, equality, extend, macros, order of insertion
-/
set_option linter.unusedSimpArgs false
namespace BST.Props
open BSTMap Tree Std
open Spec (BT hitOf lookup LawfulQuery Sorted)
variable {K V : Type} {cfg : Cfg} {cmp : K → K → Ordering} {m m' : BSTMap K V}

/-! ### C13 -/

/-- C13. If `clone()` returns, the clone shows the same tree as the original, with
every key and value replaced by its clone (`Clone` of keys must respect the order). -/
theorem C13_clone_shape [TransCmp cmp] (hm : Reach cfg (Lawful cmp) m) {cmps : Nat → K → Probe K}
    (hok : ∀ n k, Lawful cmp k (cmps n k)) {cloneK : K → Option K} {cloneV : V → Option V}
    (hcl : ∀ a b a' b', cloneK a = some a' → cloneK b = some b' → cmp a b = .lt → cmp a' b' = .lt)
    (he : clone cfg cmps cloneK cloneV m = (.ok (), m')) :
    ∃ b b', explore m = .ok b ∧ explore m' = .ok b' ∧
      b.mapM (fun e => do pure (← cloneK e.1, ← cloneV e.2)) = some b' := by
  obtain ⟨t, h, hs⟩ := hm.sorted
  obtain ⟨w, hw, _, hb⟩ := clone_shape hok hcl h hs he
  exact ⟨_, _, explore_ok h, explore_ok hw, hb⟩

/-- A `clone` that is not an exact copy: keys are shifted (which respects the order), values
doubled. The clone shows the shifted tree. -/
example : (∀ a b a' b' : Nat, some (a + 100) = some a' → some (b + 100) = some b' →
      Sample.cmp a b = .lt → Sample.cmp a' b' = .lt) ∧
    (clone Sample.cfg (fun _ k => query (Sample.cmp k)) (fun k => some (k + 100))
      (fun v => some (v ++ v)) (Sample.build [(5, "e"), (2, "b"), (8, "h")])).1 = .ok () ∧
    explore (clone Sample.cfg (fun _ k => query (Sample.cmp k)) (fun k => some (k + 100))
      (fun v => some (v ++ v)) (Sample.build [(5, "e"), (2, "b"), (8, "h")])).2 =
    .ok (.node (.node .nil (102, "bb") .nil) (105, "ee") (.node .nil (108, "hh") .nil)) := by
  refine ⟨fun a b a' b' ha hb h => ?_, by decide +kernel, by decide +kernel⟩
  cases ha; cases hb
  simp only [Sample.cmp, Nat.compare_eq_lt] at h ⊢
  omega

/-- C13. If cloning gives exact copies, the clone shows exactly the same tree, yields the
same sequences in all three orders, has the same `len()` and is `==` to the original. -/
theorem C13_clone_same [TransCmp cmp] (hm : Reach cfg (Lawful cmp) m) {cmps : Nat → K → Probe K}
    (hok : ∀ n k, Lawful cmp k (cmps n k)) (he : clone cfg cmps some some m = (.ok (), m')) :
    explore m' = explore m ∧ m'.iterPreorder = m.iterPreorder ∧ m'.iterInorder = m.iterInorder ∧
    m'.iterPostorder = m.iterPostorder ∧ m'.len cfg = m.len cfg ∧
    ∀ keq veq, (∀ k : K, keq k k = true) → (∀ v : V, veq v v = true) →
      BSTMap.eq cfg keq veq m m' = .ok true ∧ BSTMap.eq cfg keq veq m' m = .ok true := by
  obtain ⟨t, h, hs⟩ := hm.sorted
  obtain ⟨w, hw, hws, hb⟩ := clone_shape hok (by rintro a b _ _ ⟨⟩ ⟨⟩ hab; exact hab) h hs he
  have hb' : t.bt.map (·.2) = w.bt.map (·.2) := by
    have : (t.bt.map (·.2)).mapM (fun e : K × V => some e) = some (w.bt.map (·.2)) := by
      rw [← hb]; rfl
    rw [mapM_pure_id] at this
    exact Option.some.inj this
  have hkv : w.kv = t.kv := by rw [← bt_kv, ← bt_kv, hb']
  have hpre : w.pre.map (·.2) = t.pre.map (·.2) := by
    rw [← bt_pre, ← bt_pre, ← BT.map_pre, ← BT.map_pre, hb']
  have hpost : w.post.map (·.2) = t.post.map (·.2) := by
    rw [← bt_post, ← bt_post, ← BT.map_post, ← BT.map_post, hb']
  refine ⟨?_, ?_, ?_, ?_, ?_, ?_⟩
  · rw [explore_ok h, explore_ok hw, hb']
  · rw [iterPreorder_spec h, iterPreorder_spec hw, hpre]
  · rw [iterInorder_spec h, iterInorder_spec hw, hkv]
  · rw [iterPostorder_spec h, iterPostorder_spec hw, hpost]
  · rw [h.len_ok, hw.len_ok, ← kv_length, ← kv_length, hkv]
  · intro keq veq hk hv
    rw [eq_spec h hw, eq_spec hw h, hkv]
    exact ⟨congrArg _ (sameBy_refl hk hv _), congrArg _ (sameBy_refl hk hv _)⟩

/-- C13. `clone()` returns for every reachable map, whatever its size, if neither the
user's `clone` and `cmp` nor the allocator fails. -/
theorem C13_clone_returns {ok : K → Probe K → Prop} (hm : Reach cfg ok m)
    (ha : ∀ id n, cfg.allocOk id n = true) {cmps : Nat → K → Probe K}
    (hc : ∀ n k i x, cmps n k i x ≠ none) {cloneK : K → Option K} {cloneV : V → Option V}
    (hK : ∀ k, cloneK k ≠ none) (hV : ∀ v, cloneV v ≠ none) :
    ∃ m', clone cfg cmps cloneK cloneV m = (.ok (), m') := by
  obtain ⟨t, h⟩ := hm.shape
  exact clone_room ha hc hK hV h

/-- The clone of the sample map of eight entries returns and is `==` to it. -/
example : ∃ m', clone Sample.cfg (fun _ k => query (Sample.cmp k)) some some Sample.eight =
      (.ok (), m') ∧ BSTMap.eq Sample.cfg (· == ·) (· == ·) Sample.eight m' = .ok true := by
  obtain ⟨m', h⟩ := C13_clone_returns Sample.eight_reach (fun _ _ => rfl)
    (cmps := fun _ k => query (Sample.cmp k)) (by simp [query]) (cloneK := some) (cloneV := some)
    (by simp) (by simp)
  exact ⟨m', h, ((C13_clone_same Sample.eight_reach (fun _ k => Lawful.query _ k) h).2.2.2.2.2
    (· == ·) (· == ·) (by simp) (by simp)).1⟩

/-- A clone of the sample map of nine entries. -/
def Sample.cloned : BSTMap Nat String :=
  (clone Sample.cfg (fun _ k => query (Sample.cmp k)) some some Sample.eight).2

example : (clone Sample.cfg (fun _ k => query (Sample.cmp k)) some some Sample.eight).1 = .ok () ∧
    explore Sample.cloned = explore Sample.eight ∧ Sample.cloned ≠ Sample.eight ∧
    (explore Sample.cloned).bind (fun b => .ok b.size) = .ok 8 := by decide +kernel

/-! ### C14 -/

/-- C14. `a == b` exactly when every key finds equal values (or nothing) in both, for a
key equality consistent with the order. -/
theorem C14_eq_iff [TransCmp cmp] {a b : BSTMap K V} (ha : Reach cfg (Lawful cmp) a)
    (hb : Reach cfg (Lawful cmp) b) {keq : K → K → Bool}
    (hk : ∀ x y, keq x y = true ↔ cmp x y = .eq) (veq : V → V → Bool) :
    ∃ r, BSTMap.eq cfg keq veq a b = .ok r ∧
      (r = true ↔ ∀ k, ∃ x y, a.get (query (cmp k)) = .ok x ∧ b.get (query (cmp k)) = .ok y ∧
        Spec.optEq veq x y = true) := by
  obtain ⟨ta, h1, hs1⟩ := ha.sorted
  obtain ⟨tb, h2, hs2⟩ := hb.sorted
  refine ⟨_, eq_spec h1 h2, ?_⟩
  rw [sameBy_iff hk veq hs1 hs2]
  refine forall_congr' fun k => ?_
  rw [get_query h1 (lawful_cmp cmp k) hs1, get_query h2 (lawful_cmp cmp k) hs2]
  generalize (lookup (hitOf (cmp k)) ta.kv).map (·.2) = x
  generalize (lookup (hitOf (cmp k)) tb.kv).map (·.2) = y
  constructor
  · rintro (⟨rfl, rfl⟩ | ⟨v, w, rfl, rfl, hv⟩)
    · exact ⟨_, _, rfl, rfl, rfl⟩
    · exact ⟨_, _, rfl, rfl, hv⟩
  · rintro ⟨x', y', hx, hy, hv⟩
    cases hx; cases hy
    cases x with
    | none =>
      cases y with
      | none => exact Or.inl ⟨rfl, rfl⟩
      | some w => cases hv
    | some v =>
      cases y with
      | none => cases hv
      | some w => exact Or.inr ⟨v, w, rfl, rfl, hv⟩

/-- The equality of `u64` keys is consistent with their order; and a difference in one value
is seen. -/
example : (∀ x y : Nat, (x == y) = true ↔ Sample.cmp x y = .eq) ∧
    BSTMap.eq Sample.cfg (· == ·) (· == ·) (Sample.build [(5, "e"), (2, "b"), (8, "h")])
      (Sample.build [(2, "b"), (5, "e"), (8, "h")]) = .ok true ∧
    BSTMap.eq Sample.cfg (· == ·) (· == ·) (Sample.build [(5, "e"), (2, "b"), (8, "h")])
      (Sample.build [(2, "b"), (5, "f"), (8, "h")]) = .ok false :=
  ⟨fun x y => by simp [Sample.cmp, Nat.compare_eq_eq], by decide +kernel, by decide +kernel⟩

/-- C14. Equality of maps is an equivalence relation if key and value equality are
(even with an inconsistent `Ord`), and it never depends on shape, capacity or history:
it is decided by the two in-order sequences. -/
theorem C14_equivalence {ok : K → Probe K → Prop} {a b c : BSTMap K V} (ha : Reach cfg ok a)
    (hb : Reach cfg ok b) (hc : Reach cfg ok c) {keq : K → K → Bool} {veq : V → V → Bool}
    (hkr : ∀ x, keq x x = true) (hvr : ∀ x, veq x x = true)
    (hks : ∀ x y, keq x y = true → keq y x = true) (hvs : ∀ x y, veq x y = true → veq y x = true)
    (hkt : ∀ x y z, keq x y = true → keq y z = true → keq x z = true)
    (hvt : ∀ x y z, veq x y = true → veq y z = true → veq x z = true) :
    BSTMap.eq cfg keq veq a a = .ok true ∧
    (BSTMap.eq cfg keq veq a b = .ok true → BSTMap.eq cfg keq veq b a = .ok true) ∧
    (BSTMap.eq cfg keq veq a b = .ok true → BSTMap.eq cfg keq veq b c = .ok true →
      BSTMap.eq cfg keq veq a c = .ok true) := by
  obtain ⟨ta, h1⟩ := ha.shape
  obtain ⟨tb, h2⟩ := hb.shape
  obtain ⟨tc, h3⟩ := hc.shape
  rw [eq_spec h1 h1, eq_spec h1 h2, eq_spec h2 h1, eq_spec h2 h3, eq_spec h1 h3]
  exact ⟨congrArg _ (sameBy_refl hkr hvr _),
    fun h => congrArg _ (sameBy_symm hks hvs (Out.ok.inj h)),
    fun h h' => congrArg _ (sameBy_trans hkt hvt (Out.ok.inj h) (Out.ok.inj h'))⟩

/-- Three maps of different shape, pairwise equal. -/
example : BSTMap.eq Sample.cfg (· == ·) (· == ·) (Sample.build [(5, "e"), (2, "b"), (8, "h")])
      (Sample.build [(8, "h"), (2, "b"), (5, "e")]) = .ok true := by
  exact (C14_equivalence (Sample.build_reach [(5, "e"), (2, "b"), (8, "h")])
    (Sample.build_reach [(2, "b"), (5, "e"), (8, "h")])
    (Sample.build_reach [(8, "h"), (2, "b"), (5, "e")]) (keq := (· == ·)) (veq := (· == ·))
    (by simp) (by simp) (by simp +contextual) (by simp +contextual)
    (by simp +contextual) (by simp +contextual)).2.2 (by decide +kernel) (by decide +kernel)

/-- C14. `==` compares the in-order sequences and nothing else. -/
theorem C14_eq_inorder {ok : K → Probe K → Prop} {a b : BSTMap K V} (ha : Reach cfg ok a)
    (hb : Reach cfg ok b) (keq : K → K → Bool) (veq : V → V → Bool) :
    ∃ la lb, a.iterInorder = .ok la ∧ b.iterInorder = .ok lb ∧
      BSTMap.eq cfg keq veq a b = .ok (decide (la.length = lb.length) &&
        (la.zip lb).all fun e => keq e.1.1 e.2.1 && veq e.1.2 e.2.2) := by
  obtain ⟨ta, h1⟩ := ha.shape
  obtain ⟨tb, h2⟩ := hb.shape
  refine ⟨_, _, iterInorder_spec h1, iterInorder_spec h2, ?_⟩
  rw [eq_spec h1 h2]
  refine congrArg _ ?_
  generalize ta.kv = x
  generalize tb.kv = y
  induction x generalizing y with
  | nil => cases y <;> simp [Spec.sameBy]
  | cons e x ih =>
    cases y with
    | nil => simp [Spec.sameBy]
    | cons e' y =>
      simp only [Spec.sameBy, ih, List.length_cons, List.zip_cons_cons, List.all_cons,
        Nat.add_right_cancel_iff]
      cases keq e.1 e'.1 && veq e.2 e'.2 <;> simp

/-- The same contents reached with another history (another order, a removed entry):
another shape, but equal. -/
example : BSTMap.eq Sample.cfg (· == ·) (· == ·) Sample.eight
      (Sample.build [(1, "a"), (2, "b"), (3, "c"), (4, "d"), (6, "f"), (7, "x"), (8, "h"), (9, "i"),
        (7, "g")]) = .ok true ∧
    explore Sample.eight ≠ explore (Sample.build [(1, "a"), (2, "b"), (3, "c"), (4, "d"), (6, "f"),
      (7, "x"), (8, "h"), (9, "i"), (7, "g")]) ∧
    BSTMap.eq Sample.cfg (· == ·) (· == ·) Sample.eight Sample.nine = .ok false := by decide +kernel

/-! ### C19 -/

/-- C19 (what holds of it). `extend` either returns, panics or aborts; it always leaves
the map that results from inserting some of the first items, in order, into the old
tree (the last value of a repeated key wins, its first key stays); if it returns, these
are all the items. This holds for any size hint. Missing: for an enormous size hint
`extend` fails although inserting one by one would not (`C19_false_hint`). -/
theorem C19_extend_partial [TransCmp cmp] (hm : Reach cfg (Lawful cmp) m)
    {cmps : Nat → K → Probe K} (hok : ∀ n k, Lawful cmp k (cmps n k)) (src : Source K V) :
    ∃ o m' used rest b l l', extend cfg cmps src m = (o, m') ∧
      (o = .ok () ∨ o = .panic ∨ o = .abort) ∧ src.items = used ++ rest ∧
      (o = .ok () → rest = [] ∧ src.panics = false) ∧
      explore m = .ok b ∧ explore m' = .ok (b.insertList cmp used) ∧
      m.iterInorder = .ok l ∧ m'.iterInorder = .ok l' ∧
      l'.Perm (Spec.insertList cmp used l) := by
  obtain ⟨t, h, hs⟩ := hm.sorted
  obtain ⟨o, m', w, used, e1, e2, e3, _, e5, ⟨rest, e6⟩, e7⟩ := extend_spec hok src h
  refine ⟨o, m', used, rest, _, _, _, e1, ?_, e6.symm, ?_, explore_ok h, ?_, iterInorder_spec h,
    iterInorder_spec e2, (e3.kv hs).1⟩
  · cases o <;> simp_all [Out.Safe]
  · intro ho
    obtain ⟨h1, h2⟩ := e7 ho
    rw [h1] at e6
    exact ⟨List.self_eq_append_right.1 e6.symm |>.trans rfl, h2⟩
  · rw [explore_ok e2]
    exact congrArg _ e3.sh

/-- A source that panics after two items, and one whose keys repeat: the map holds what was
inserted. -/
example : (extend Sample.cfg (fun _ k => query (Sample.cmp k))
      ⟨(0, some 5), [(4, "D"), (10, "j")], true⟩ Sample.eight).1 = .panic ∧
    (extend Sample.cfg (fun _ k => query (Sample.cmp k))
      ⟨(0, some 5), [(4, "D"), (10, "j")], true⟩ Sample.eight).2.iterInorder =
    .ok [(1, "a"), (2, "b"), (3, "c"), (4, "D"), (6, "f"), (7, "g"), (8, "h"), (9, "i"),
      (10, "j")] := by decide +kernel

/-- C19 (what holds of it). The same for `collect()` / `from_iter`. -/
theorem C19_from_iter_partial [TransCmp cmp] {cmps : Nat → K → Probe K}
    (hok : ∀ n k, Lawful cmp k (cmps n k)) (src : Source K V) :
    ∃ o, (∃ m', fromIter cfg cmps src = (o, m')) ∧ (o = .ok () ∨ o = .panic ∨ o = .abort) ∧
      ∀ m', fromIter cfg cmps src = (.ok (), m') → src.panics = false ∧
        explore m' = .ok (BT.nil.insertList cmp src.items) ∧
        ∃ l, m'.iterInorder = .ok l ∧ l.Perm (Spec.insertList cmp src.items []) := by
  obtain ⟨o, m1, w, used, e1, e2, e3, _, e5, _, e7⟩ := fromIter_spec (cfg := cfg) hok src
  refine ⟨o, ⟨m1, e1⟩, ?_, ?_⟩
  · cases o <;> simp_all [Out.Safe]
  · intro m' he
    cases e1.symm.trans he
    obtain ⟨rfl, h2⟩ := e7 rfl
    refine ⟨h2, ?_, _, iterInorder_spec e2, (e3.kv List.Pairwise.nil).1⟩
    rw [explore_ok e2]
    exact congrArg _ e3.sh

/-- Repeated keys: the last value wins. -/
example : (fromIter Sample.cfg (fun _ k => query (Sample.cmp k))
      ⟨(0, some 9), [(3, "c"), (1, "x"), (2, "b"), (1, "a")], false⟩).1 = .ok () ∧
    explore (fromIter Sample.cfg (fun _ k => query (Sample.cmp k))
      ⟨(0, some 9), [(3, "c"), (1, "x"), (2, "b"), (1, "a")], false⟩).2 =
    .ok (.node (.node .nil (1, "a") (.node .nil (2, "b") .nil)) (3, "c") .nil) := by
  decide +kernel

/-- C19. With a moderate size hint (right or wrong), working user code and a working
allocator `extend` returns. -/
theorem C19_extend_returns {ok : K → Probe K → Prop} (hm : Reach cfg ok m) (he : 0 < cfg.esize)
    (ha : ∀ id n, cfg.allocOk id n = true) {cmps : Nat → K → Probe K}
    (hc : ∀ n k i x, cmps n k i x ≠ none) {src : Source K V} (hp : src.panics = false)
    (h1 : (m.capacity + src.items.length + 8) * cfg.esize ≤ isizeMax)
    (h2 : (m.capacity + src.hint.2.getD src.hint.1 + 8) * cfg.esize ≤ isizeMax) :
    ∃ m', extend cfg cmps src m = (.ok (), m') := by
  obtain ⟨t, h⟩ := hm.shape
  have hcap : m.nodes.items.len ≤ m.capacity := by
    obtain ⟨fr, hf⟩ := h.slab
    exact hf.items.lenle
  generalize hhint : src.hint.2.getD src.hint.1 = n at h2
  have hle : m.nodes.items.len + n + 8 ≤ m.capacity + n + 8 := by omega
  have hmul := Nat.mul_le_mul_right cfg.esize hle
  have hlt : m.nodes.items.len + n < usizeBound := by
    have := Nat.mul_le_mul_left (m.nodes.items.len + n + 8) he
    simp only [usizeBound, isizeMax] at *
    omega
  rcases reserve_spec cfg m n with ⟨_, hbad, _⟩ | ⟨_, hr⟩
  · omega
  · have htgt : reserveTarget m n = m.nodes.items.len + n := Nat.mod_eq_of_lt hlt
    rw [htgt] at hr
    obtain ⟨m1, e1, e2, _⟩ := grow_moderate he ha h (n := m.nodes.items.len + n) (by omega)
    obtain ⟨m2, e3⟩ := insertAll_moderate he ha hc (l := src.items) e2.shape 0 (by
      have : t.size + src.items.length + 8 ≤ m.capacity + src.items.length + 8 := by
        have := h.size_le
        omega
      have := Nat.mul_le_mul_right cfg.esize this
      omega)
    refine ⟨m2, ?_⟩
    unfold extend
    rw [hhint, M.bind_ok (hr.trans e1), M.bind_ok e3, hp]
    rfl

/-- A lower bound far above the number of items (two). -/
example : ∃ m', extend Sample.cfg (fun _ k => query (Sample.cmp k))
    ⟨(1000000, none), [(4, "D"), (10, "j")], false⟩ Sample.eight = (.ok (), m') := by
  have h : Sample.eight.capacity = 24 := by decide +kernel
  exact C19_extend_returns Sample.eight_reach (by decide) (fun _ _ => rfl) (by simp [query]) rfl
    (by rw [h]; decide) (by rw [h]; decide)

/-- C19. The same for `collect()`: with a moderate size hint (right or wrong), working
user code and a working allocator it returns. -/
theorem C19_from_iter_returns (he : 0 < cfg.esize) (ha : ∀ id n, cfg.allocOk id n = true)
    {cmps : Nat → K → Probe K} (hc : ∀ n k i x, cmps n k i x ≠ none) {src : Source K V}
    (hp : src.panics = false) (h1 : (src.items.length + 8) * cfg.esize ≤ isizeMax)
    (h2 : (src.hint.2.getD src.hint.1 + 8) * cfg.esize ≤ isizeMax) :
    ∃ m', fromIter cfg cmps src = (.ok (), m') := by
  obtain ⟨m1, e1, e2, _⟩ := grow_moderate he ha (shape_new (K := K) (V := V) cfg) h2
  obtain ⟨m2, e3⟩ := insertAll_moderate he ha hc (l := src.items) e2.shape 0 (by
    simpa [Tree.size] using h1)
  refine ⟨m2, ?_⟩
  unfold fromIter
  rw [M.bind_ok e1, M.bind_ok e3, hp]
  rfl

/-- An upper bound below the number of items (three, two of them with the same key). -/
example : ∃ m', fromIter Sample.cfg (fun _ k => query (Sample.cmp k))
    ⟨(0, some 1), [(4, "d"), (10, "j"), (4, "D")], false⟩ = (.ok (), m') :=
  C19_from_iter_returns (by decide) (fun _ _ => rfl) (by simp [query]) rfl (by decide) (by decide)

/-- C19 is false for enormous size hints: there is a source that yields nothing and
whose size hint is correct (`0` to `2^64 - 100` items; for example a filtered range) for
which `extend` fails even on an empty map with an unlimited allocator, while inserting
its items one by one does nothing. -/
theorem C19_false_hint (cfg : Cfg) (cmps : Nat → K → Probe K) :
    ∃ src : Source K V, src.items = [] ∧ src.panics = false ∧ src.hint.1 ≤ src.items.length ∧
      (∀ u, src.hint.2 = some u → src.items.length ≤ u ∧ u < 2 ^ 64) ∧
      ∀ m', extend cfg cmps src BSTMap.new ≠ (.ok (), m') := by
  refine ⟨⟨(0, some (2 ^ 64 - 100)), [], false⟩, rfl, rfl, Nat.le_refl _, by simp, ?_⟩
  intro m' hx
  have hr := reserve_spec cfg (BSTMap.new : BSTMap K V) (2 ^ 64 - 100)
  have hl : (BSTMap.new : BSTMap K V).nodes.items.len = 0 := rfl
  rw [hl] at hr
  rcases hr with ⟨_, hbad, _⟩ | ⟨_, hr⟩
  · simp [usizeBound] at hbad
  · have htgt : reserveTarget (BSTMap.new : BSTMap K V) (2 ^ 64 - 100) = 2 ^ 64 - 100 := by
      simp [reserveTarget, hl, usizeBound]
    rw [htgt] at hr
    obtain ⟨o, m1, e1, e2, _, ⟨rfl, hcap⟩ | ⟨_, ho, _⟩⟩ := grow_spec (shape_new cfg)
      (m := (BSTMap.new : BSTMap K V)) (2 ^ 64 - 100)
    · obtain ⟨fr, hf⟩ := e2.shape.slab
      have := hf.items.cap_lt
      have h3 : m1.capacity = m1.nodes.items.capacity := rfl
      omega
    · unfold extend at hx
      simp only [Option.getD_some] at hx
      rcases ho with rfl | rfl
      · rw [M.bind_panic (hr.trans e1)] at hx; cases hx
      · rw [M.bind_abort (hr.trans e1)] at hx; cases hx

/-- Wrong size hints are harmless as long as they are moderate. -/
example : (extend Sample.cfg (fun _ k => query (Sample.cmp k))
      ⟨(3, some 1), [(4, "D"), (10, "j"), (10, "J")], false⟩ Sample.eight).1 = .ok () ∧
    (extend Sample.cfg (fun _ k => query (Sample.cmp k))
      ⟨(3, some 1), [(4, "D"), (10, "j"), (10, "J")], false⟩ Sample.eight).2.iterInorder =
    .ok [(1, "a"), (2, "b"), (3, "c"), (4, "D"), (6, "f"), (7, "g"), (8, "h"), (9, "i"), (10, "J")] := by
  decide +kernel

/-! ### C31 -/

/-- C31. If `bstmap! { k => v, ... }` returns, it shows the tree obtained by inserting
the pairs in order into an empty tree. -/
theorem C31_bstmap [TransCmp cmp] {cmps : Nat → K → Probe K} (hok : ∀ n k, Lawful cmp k (cmps n k))
    {pairs : List (K × V)} (he : bstmap cfg cmps pairs = (.ok (), m)) :
    explore m = .ok (BT.nil.insertList cmp pairs) ∧
    ∃ l, m.iterInorder = .ok l ∧ l.Perm (Spec.insertList cmp pairs []) := by
  obtain ⟨o, m1, w, l', e1, e2, e3, _, _, e6⟩ := insertAll_spec (n := 0) (l := pairs) hok
    (shape_new (K := K) (V := V) cfg)
  cases e1.symm.trans he
  rcases e6 with ⟨_, rfl⟩ | ⟨k, v, l'', _, hst⟩
  · refine ⟨?_, _, iterInorder_spec e2, (e3.kv List.Pairwise.nil).1⟩
    rw [explore_ok e2]
    exact congrArg _ e3.sh
  · generalize cmps (0 + l'.length) k = c at hst
    cases hst

/-- C31. `bstmap!` with any list of moderate length returns. -/
theorem C31_bstmap_returns (he : 0 < cfg.esize) (ha : ∀ id n, cfg.allocOk id n = true)
    {cmps : Nat → K → Probe K} (hc : ∀ n k i x, cmps n k i x ≠ none) {pairs : List (K × V)}
    (hl : (pairs.length + 8) * cfg.esize ≤ isizeMax) :
    ∃ m, bstmap cfg cmps pairs = (.ok (), m) :=
  insertAll_moderate he ha hc (shape_new cfg) 0 (by simpa [Tree.size] using hl)

example : (bstmap Sample.cfg (fun _ k => query (Sample.cmp k))
      [(3, "c"), (1, "x"), (2, "b"), (1, "a")]).1 = .ok () ∧
    explore (bstmap Sample.cfg (fun _ k => query (Sample.cmp k))
      [(3, "c"), (1, "x"), (2, "b"), (1, "a")]).2 =
    .ok (.node (.node .nil (1, "a") (.node .nil (2, "b") .nil)) (3, "c") .nil) := by decide +kernel

/-! ### C38 -/

/-- C38. Inserting pairs with distinct keys in any order gives the same contents, hence
`==` maps. -/
theorem C38_insert_order [TransCmp cmp] (hm : Reach cfg (Lawful cmp) m)
    {cmps cmps' : Nat → K → Probe K} (hok : ∀ n k, Lawful cmp k (cmps n k))
    (hok' : ∀ n k, Lawful cmp k (cmps' n k)) {xs ys : List (K × V)} (hp : xs.Perm ys)
    (hd : xs.Pairwise fun a b => cmp a.1 b.1 ≠ .eq) {n n' : Nat} {m1 m2 : BSTMap K V}
    (h1 : insertAll cfg cmps n xs m = (.ok (), m1)) (h2 : insertAll cfg cmps' n' ys m = (.ok (), m2)) :
    m1.iterInorder = m2.iterInorder ∧ m1.len cfg = m2.len cfg ∧
    ∀ keq veq, (∀ k : K, keq k k = true) → (∀ v : V, veq v v = true) →
      BSTMap.eq cfg keq veq m1 m2 = .ok true := by
  obtain ⟨t, h, hs⟩ := hm.sorted
  have key : ∀ {cs : Nat → K → Probe K} (_ : ∀ n k, Lawful cmp k (cs n k)) {l : List (K × V)} {n : Nat}
      {m1 : BSTMap K V}, insertAll cfg cs n l m = (.ok (), m1) →
      ∃ w, Shape cfg m1 w ∧ w.kv.Perm (Spec.insertList cmp l t.kv) ∧ w.SortedBy cmp := by
    intro cs hcs l n m1 he
    obtain ⟨o, m', w, l', e1, e2, e3, _, _, e6⟩ := insertAll_spec (n := n) (l := l) hcs h
    cases e1.symm.trans he
    rcases e6 with ⟨_, rfl⟩ | ⟨k, v, l'', _, hst⟩
    · exact ⟨w, e2, e3.kv hs⟩
    · generalize cs (n + l'.length) k = c at hst
      cases hst
  obtain ⟨w1, s1, p1, o1⟩ := key hok h1
  obtain ⟨w2, s2, p2, o2⟩ := key hok' h2
  have : w1.kv = w2.kv := sorted_perm_eq o1 o2
    (p1.trans ((insertList_order hp t.kv hd).trans p2.symm))
  refine ⟨?_, ?_, ?_⟩
  · rw [iterInorder_spec s1, iterInorder_spec s2, this]
  · rw [s1.len_ok, s2.len_ok, ← kv_length, ← kv_length, this]
  · intro keq veq hk hv
    rw [eq_spec s1 s2, this]
    exact congrArg _ (sameBy_refl hk hv _)

/-- Two orders of the same three pairs, one of which replaces a value: different trees, equal
maps. -/
example : [(10, "j"), (0, "z"), (7, "G")].Perm [(0, "z"), (7, "G"), (10, "j")] ∧
    (insertAll Sample.cfg (fun _ k => query (Sample.cmp k)) 0 [(10, "j"), (0, "z"), (7, "G")]
      Sample.eight).2.iterInorder =
    (insertAll Sample.cfg (fun _ k => query (Sample.cmp k)) 0 [(0, "z"), (7, "G"), (10, "j")]
      Sample.eight).2.iterInorder ∧
    (insertAll Sample.cfg (fun _ k => query (Sample.cmp k)) 0 [(10, "j"), (0, "z"), (7, "G")]
      Sample.eight).2.len Sample.cfg = .ok 10 := by decide +kernel

/-- C38. Inserting a new key and removing it again hands the pair back and restores
the tree exactly. -/
theorem C38_insert_remove [TransCmp cmp] (hm : Reach cfg (Lawful cmp) m) {k : K} {v : V}
    (hi : insert cfg (query (cmp k)) k v m = (.ok none, m')) :
    ∃ m'', removeEntry cfg (query (cmp k)) m' = (.ok (some (k, v)), m'') ∧
      exploreAt m'' = exploreAt m := by
  obtain ⟨t, h, hs⟩ := hm.sorted
  have hk : ∀ i, query (cmp k) i k = some .eq := fun i => by simp [query, ReflCmp.compare_self]
  rcases insert_cases h (query (cmp k)) k v with ⟨e, p, m1, hf, hi', h', _⟩ | ⟨o, hi', ho⟩
  · cases e with
    | some e => cases hi'.symm.trans hi
    | none =>
      cases hi'.symm.trans hi
      have hf' := ins_find (p := p) (v := v) hk hf
      rcases removeEntry_cases h' (query (cmp k)) with ⟨e, m2, g1, g2, g3⟩ | ⟨g1, _⟩
      · cases hf'.symm.trans g1
        refine ⟨m2, g2, ?_⟩
        rw [ins_del hk hf] at g3
        rw [exploreAt_ok g3, exploreAt_ok h]
      · cases hf'.symm.trans g1
  · rcases ho with ⟨rfl, _⟩ | ⟨rfl | rfl, _⟩ <;> cases hi'.symm.trans hi

/-- Into the map with a free slot: the key 5 comes back, the tree is as before. -/
example : (insert Sample.cfg (query (Sample.cmp 5)) 5 "E" Sample.eight).1 = .ok none ∧
    (removeEntry Sample.cfg (query (Sample.cmp 5))
      (insert Sample.cfg (query (Sample.cmp 5)) 5 "E" Sample.eight).2).1 = .ok (some (5, "E")) ∧
    exploreAt (removeEntry Sample.cfg (query (Sample.cmp 5))
      (insert Sample.cfg (query (Sample.cmp 5)) 5 "E" Sample.eight).2).2 =
      exploreAt Sample.eight := by decide +kernel

/-- C38. Removes commute: the contents afterwards do not depend on the order. -/
theorem C38_remove_comm [TransCmp cmp] (hm : Reach cfg (Lawful cmp) m) {f g : K → Ordering}
    (hf : LawfulQuery cmp f) (hg : LawfulQuery cmp g) :
    ∃ r1 r2 r3 r4 m1 m2 m3 m4 l, removeEntry cfg (query f) m = (.ok r1, m1) ∧
      removeEntry cfg (query g) m1 = (.ok r2, m2) ∧ removeEntry cfg (query g) m = (.ok r3, m3) ∧
      removeEntry cfg (query f) m3 = (.ok r4, m4) ∧ m2.iterInorder = .ok l ∧ m4.iterInorder = .ok l := by
  obtain ⟨t, h, hs⟩ := hm.sorted
  have step : ∀ {f : K → Ordering}, LawfulQuery cmp f → ∀ {m : BSTMap K V} {t : Tree K V},
      Shape cfg m t → t.SortedBy cmp → ∃ r m' t', removeEntry cfg (query f) m = (.ok r, m') ∧
        Shape cfg m' t' ∧ t'.SortedBy cmp ∧ t'.kv = Spec.remove (hitOf f) t.kv := by
    intro f hf m t h hs
    obtain ⟨e, he, _⟩ := find_query hf hs
    rcases removeEntry_cases h (query f) with ⟨e', m2, g1, g2, g3⟩ | ⟨g1, _⟩
    · exact ⟨_, m2, _, g2, g3, del_sorted hs 0 g1, del_kv hf hs 0⟩
    · cases he.symm.trans g1
  obtain ⟨r1, m1, t1, a1, b1, c1, d1⟩ := step hf h hs
  obtain ⟨r2, m2, t2, a2, b2, _, d2⟩ := step hg b1 c1
  obtain ⟨r3, m3, t3, a3, b3, c3, d3⟩ := step hg h hs
  obtain ⟨r4, m4, t4, a4, b4, _, d4⟩ := step hf b3 c3
  refine ⟨r1, r2, r3, r4, m1, m2, m3, m4, t2.kv, a1, a2, a3, a4, iterInorder_spec b2, ?_⟩
  rw [iterInorder_spec b4, d2, d4, d1, d3, remove_comm]

/-- Removing 5 (the root, with two children) and another key in both orders. -/
example :
    let rm := fun k m => (removeEntry Sample.cfg (query (Sample.cmp k)) m).2
    (rm 6 (rm 5 Sample.nine)).iterInorder = (rm 5 (rm 6 Sample.nine)).iterInorder ∧
    (rm 8 (rm 5 Sample.nine)).len Sample.cfg = .ok 7 ∧
    (rm 8 (rm 5 Sample.nine)).iterInorder = (rm 5 (rm 8 Sample.nine)).iterInorder := by
  decide +kernel

/-- C38. Removing twice is the same as removing once: the second call finds nothing and
does not change the map at all. -/
theorem C38_remove_idem [TransCmp cmp] (hm : Reach cfg (Lawful cmp) m) {f : K → Ordering}
    (hf : LawfulQuery cmp f) :
    ∃ r m', removeEntry cfg (query f) m = (.ok r, m') ∧
      removeEntry cfg (query f) m' = (.ok none, m') := by
  obtain ⟨t, h, hs⟩ := hm.sorted
  obtain ⟨e, he, _⟩ := find_query hf hs
  rcases removeEntry_cases h (query f) with ⟨e', m2, g1, g2, g3⟩ | ⟨g1, _⟩
  · refine ⟨_, m2, g2, ?_⟩
    have hs' := del_sorted hs 0 g1
    obtain ⟨e2, he2, hl⟩ := find_query hf hs'
    have hkv : (t.del (query f) 0).kv = Spec.remove (hitOf f) t.kv := del_kv hf hs 0
    rw [hkv, lookup_remove_self] at hl
    cases e2 with
    | some e2 => cases hl
    | none =>
      rcases removeEntry_spec g3 (query f) with ⟨h1, _⟩ | ⟨_, h1⟩ | ⟨e, _, h1, _⟩
      · cases he2.symm.trans h1
      · exact h1
      · cases he2.symm.trans h1
  · cases he.symm.trans g1

example : (insert Sample.cfg (query (Sample.cmp 10)) 10 "j" Sample.eight).1 = .ok none ∧
    [(10, "j"), (0, "z"), (7, "G")].Pairwise (fun a b => Sample.cmp a.1 b.1 ≠ .eq) ∧
    (insertAll Sample.cfg (fun _ k => query (Sample.cmp k)) 0 [(10, "j"), (0, "z"), (7, "G")]
      Sample.eight).1 = .ok () ∧
    LawfulQuery Sample.cmp (Sample.cmp 3) :=
  ⟨by decide +kernel, by decide, by decide +kernel, lawful_cmp _ _⟩

/-! ### C44 -/

/-- C44. Every query with a borrowed form `q` of a key `k` does exactly what the query
with `k` does. -/
theorem C44_borrowed {Q : Type} (cmpQ : Q → Q → Ordering) [TransCmp cmpQ] (borrow : K → Q)
    (hb : ∀ a b, cmp a b = cmpQ (borrow a) (borrow b)) {q : Q} {k : K}
    (hq : cmpQ q (borrow k) = .eq) (m : BSTMap K V) :
    m.containsKey (ask cmpQ borrow q) = m.containsKey (query (cmp k)) ∧
    m.get (ask cmpQ borrow q) = m.get (query (cmp k)) ∧
    m.getEntry (ask cmpQ borrow q) = m.getEntry (query (cmp k)) ∧
    getMut (ask cmpQ borrow q) m = getMut (query (cmp k)) m ∧
    getEntryMut (ask cmpQ borrow q) m = getEntryMut (query (cmp k)) m ∧
    remove cfg (ask cmpQ borrow q) m = remove cfg (query (cmp k)) m ∧
    removeEntry cfg (ask cmpQ borrow q) m = removeEntry cfg (query (cmp k)) m := by
  have : ask cmpQ borrow q = query (cmp k) := by
    funext i x
    simp only [ask, query, hb]
    exact congrArg some (TransCmp.congr_left hq)
  simp [this]

/-- Keys `Nat × Nat` compared by their first component, which is also the borrowed form. -/
example (m : BSTMap (Nat × Nat) String) :
    m.get (ask compare (·.1) 7) = m.get (query fun x : Nat × Nat => compare 7 x.1) :=
  (C44_borrowed (cfg := Sample.cfg) (cmp := fun a b : Nat × Nat => compare a.1 b.1) compare (·.1)
    (fun _ _ => rfl) (q := 7) (k := (7, 1)) (by decide) m).2.1

/-- C44. The answer to a borrowed query is the entry whose borrowed key is equal to it,
also for queries that are not the borrowed form of any key. -/
theorem C44_answers {Q : Type} [TransCmp cmp] (cmpQ : Q → Q → Ordering) [TransCmp cmpQ]
    (borrow : K → Q) (hb : ∀ a b, cmp a b = cmpQ (borrow a) (borrow b))
    (hm : Reach cfg (Lawful cmp) m) (q : Q) :
    ∃ l, m.iterInorder = .ok l ∧
      m.getEntry (ask cmpQ borrow q) = .ok (l.find? fun e => cmpQ q (borrow e.1) == .eq) := by
  obtain ⟨t, h, hs⟩ := hm.sorted
  exact ⟨_, iterInorder_spec h, getEntry_query h (lawful_borrow cmp cmpQ borrow hb q) hs⟩

/-- Keys `Nat × Nat` ordered by their first component, borrowed as that component; both
the query 7 and the (different) key (7, 1) find the stored key (7, 0). -/
example :
    let m := (insertAll Sample.cfg (fun _ k => query fun x : Nat × Nat => compare k.1 x.1) 0
      [((5, 0), "e"), ((7, 0), "g"), ((6, 0), "f")] BSTMap.new).2
    m.getEntry (ask compare (·.1) 7) = .ok (some ((7, 0), "g")) ∧
    m.getEntry (query fun x : Nat × Nat => compare (7, 1).1 x.1) = .ok (some ((7, 0), "g")) := by
  decide +kernel

end BST.Props
