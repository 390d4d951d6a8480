import Verif.Proofs.Track
import Verif.Proofs.Sample
/-!
# Properties of the storage: clear, with_capacity, reserve, shrink_to_fit, slot reuse
-/
set_option linter.unusedSimpArgs false
namespace BST.Props
open BSTMap Tree Std
open Spec (BT Fits)
variable {K V : Type} {cfg : Cfg} {ok : K → Probe K → Prop} {cmp : K → K → Ordering}
  {m m' : BSTMap K V}

/-! ### C15 -/

/-- C15. `clear()` (destructors that do not panic) returns and leaves an empty map: `len()`
is 0, all iterators are empty, it is `==` to `BSTMap::new()`, whatever `==` of keys and
values is; `capacity()` is unchanged and no memory is taken or released. -/
theorem C15_clear (hm : Reach cfg ok m) {d : DropInfo (InnerNode K V)}
    (hd : ∀ x, d.panics x = false) :
    ∃ m', clear cfg d m = (.ok (), m') ∧ m'.len cfg = .ok 0 ∧ m'.isEmpty cfg = .ok true ∧
      m'.iterPreorder = .ok [] ∧ m'.iterInorder = .ok [] ∧ m'.iterPostorder = .ok [] ∧
      m'.iterMutInorder = .ok [] ∧ explore m' = .ok .nil ∧
      (∀ keq veq, BSTMap.eq cfg keq veq m' new = .ok true) ∧
      m'.capacity = m.capacity ∧ m'.nodes.items.log = m.nodes.items.log := by
  obtain ⟨t, h⟩ := hm.shape
  obtain ⟨m', h1, h2, h3, h4, _⟩ := clear_spec h d hd
  refine ⟨m', h1, h2.len_ok, by rw [isEmpty_spec h2]; rfl, iterPreorder_spec h2,
    iterInorder_spec h2, iterPostorder_spec h2, iterMutInorder_spec h2, explore_ok h2, ?_, h3, h4⟩
  intro keq veq
  rw [eq_spec h2 (shape_new cfg)]
  rfl

/-- A map with a freed slot, cleared. -/
example : ∃ m', clear Sample.cfg ⟨true, fun _ => false⟩ Sample.eight = (.ok (), m') ∧
    m'.len Sample.cfg = .ok 0 ∧ m'.capacity = 24 := by
  obtain ⟨m', h1, h2, -, -, -, -, -, -, -, h3, -⟩ :=
    C15_clear Sample.eight_reach (d := ⟨true, fun _ => false⟩) fun _ => rfl
  exact ⟨m', h1, h2, h3.trans (by decide +kernel)⟩

/-- C15. A cleared map can be refilled exactly like a new one: the same insertions give
the same tree. -/
theorem C15_reuse [TransCmp cmp] (hm : Reach cfg (Lawful cmp) m) {d : DropInfo (InnerNode K V)}
    (hd : ∀ x, d.panics x = false) (he : clear cfg d m = (.ok (), m')) {cmps : Nat → K → Probe K}
    (hok : ∀ n k, Lawful cmp k (cmps n k)) {l : List (K × V)} {a b : BSTMap K V}
    (ha : insertAll cfg cmps 0 l m' = (.ok (), a)) (hb : insertAll cfg cmps 0 l new = (.ok (), b)) :
    explore a = explore b := by
  obtain ⟨t, h⟩ := hm.shape
  obtain ⟨m1, h1, h2, _⟩ := clear_spec h d hd
  cases h1.symm.trans he
  have key : ∀ {x y : BSTMap K V}, Shape cfg x .leaf → insertAll cfg cmps 0 l x = (.ok (), y) →
      explore y = .ok (BT.insertList cmp l .nil) := by
    intro x y hx hy
    obtain ⟨o, m', w, l', e1, e2, e3, _, _, hcase⟩ := insertAll_spec hok (l := l) (n := 0) hx
    cases e1.symm.trans hy
    rcases hcase with ⟨_, rfl⟩ | ⟨k, v, l'', _, hst⟩
    · rw [explore_ok e2]; exact congrArg _ e3.sh
    · generalize cmps _ k = c at hst
      cases hst
  rw [key h2 ha, key (shape_new cfg) hb]

/-- Two chunks of capacity survive the `clear`. -/
example : (clear Sample.cfg ⟨true, fun _ => false⟩ Sample.eight).1 = .ok () ∧
    Sample.eight.capacity = 24 ∧
    (clear Sample.cfg ⟨true, fun _ => false⟩ Sample.eight).2.capacity = 24 := by decide +kernel

/-! ### C16 -/

/-- C16. If `with_capacity(n)` returns, the map is empty and has capacity at least `n`:
the smallest possible one. -/
theorem C16_with_capacity {n : Nat} (he : withCapacity cfg n = (.ok (), m)) :
    m.len cfg = .ok 0 ∧ n ≤ m.capacity ∧ Fits n m.capacity := by
  have ht : Track cfg (Anything : K → Probe K → Prop) m 0 n := .withCapacity he
  obtain ⟨t, h, h1, _⟩ := track_spec ht
  have := h.size_le_len
  refine ⟨by rw [h.len_ok]; congr 1; omega, ht.fits.2.1, ht.fits⟩

/-- C16. `with_capacity(0)` is `new()`: it does not allocate. -/
theorem C16_zero : withCapacity cfg 0 = (.ok (), (new : BSTMap K V)) ∧
    (new : BSTMap K V).nodes.items.log = [] ∧ (new : BSTMap K V).capacity = 0 :=
  ⟨grow_enough (Nat.zero_le _), rfl, rfl⟩

/-- Zero is special: a capacity of one already takes a chunk. -/
example : (withCapacity (K := Nat) (V := String) Sample.cfg 0).2.capacity = 0 ∧
    (withCapacity (K := Nat) (V := String) Sample.cfg 1).2.capacity = 8 ∧
    (withCapacity (K := Nat) (V := String) Sample.cfg 1).2.nodes.items.log ≠ [] := by
  decide +kernel

/-- C16. Always `len() <= capacity()`. -/
theorem C16_len_le (hm : Reach cfg ok m) : ∃ n, m.len cfg = .ok n ∧ n ≤ m.capacity := by
  obtain ⟨t, h⟩ := hm.shape
  exact ⟨_, h.len_ok, h.size_le⟩

/-- Equality occurs: a full map. -/
example : Reach Sample.cfg (Lawful Sample.cmp)
      (Sample.build ([1, 2, 3, 4, 5, 6, 7, 8].map fun k => (k, "x"))) ∧
    (Sample.build ([1, 2, 3, 4, 5, 6, 7, 8].map fun k => (k, "x"))).len Sample.cfg = .ok 8 ∧
    (Sample.build ([1, 2, 3, 4, 5, 6, 7, 8].map fun k => (k, "x"))).capacity = 8 :=
  ⟨Sample.build_reach _, by decide +kernel, by decide +kernel⟩

/-- C16. While `len() < capacity()`, an insertion whose comparisons do not panic returns,
takes no memory and leaves `capacity()` as it is, whatever the allocator would do. -/
theorem C16_insert_room (hm : Reach cfg ok m) {n : Nat} (hn : m.len cfg = .ok n)
    (hlt : n < m.capacity) {c : Probe K} (hc : ∀ i x, c i x ≠ none) (k : K) (v : V) :
    ∃ r m', insert cfg c k v m = (.ok r, m') ∧ m'.nodes.items.log = m.nodes.items.log ∧
      m'.capacity = m.capacity := by
  obtain ⟨t, h⟩ := hm.shape
  cases h.len_inj hn
  obtain ⟨e, he⟩ := find_total hc 0 t
  obtain ⟨p, m', h1, _, _, h2, h3⟩ := insert_room h hlt he k v
  exact ⟨_, m', h1, h2, h3⟩

example : (withCapacity (K := Nat) (V := String) Sample.cfg 9).1 = .ok () ∧
    (withCapacity (K := Nat) (V := String) Sample.cfg 9).2.capacity = 24 ∧ Fits 9 24 ∧
    Sample.eight.len Sample.cfg = .ok 8 ∧ 8 < Sample.eight.capacity :=
  ⟨by decide +kernel, by decide +kernel, fits_of (L := 2) rfl (by decide) (by decide),
    by decide +kernel, by decide +kernel⟩

/-! ### C17 -/

/-- C17, without overflow. If `peak + n` (the largest `len()` since the last clear plus
`n`) is a `usize` and `reserve(n)` returns, then `capacity() >= len() + n`, tree,
addresses and `len()` are unchanged, and the next `n` insertions return without taking
memory, whatever the allocator would do.

Partial: `peak + n` may overflow although `len() + n` does not; the documented panic on
overflow happens only in builds with overflow checks (`C17_overflow_checked`,
`C17_false_unchecked`). -/
theorem C17_reserve_partial {peak need n : Nat} (hm : Track cfg ok m peak need)
    (hov : peak + n < 2 ^ 64) (he : reserve cfg n m = (.ok (), m')) :
    ∃ len, m.len cfg = .ok len ∧ m'.len cfg = .ok len ∧ len + n ≤ m'.capacity ∧
      exploreAt m' = exploreAt m ∧
      ∀ (cmps : Nat → K → Probe K) (l : List (K × V)), (∀ j k i x, cmps j k i x ≠ none) →
        l.length ≤ n → ∃ m'', insertAll cfg cmps 0 l m' = (.ok (), m'') ∧
          m''.nodes.items.log = m'.nodes.items.log ∧ m''.capacity = m'.capacity := by
  obtain ⟨t, h, h1, _⟩ := track_spec hm
  obtain ⟨o, m1, h2, hk, _⟩ := reserve_kept h n
  cases h2.symm.trans he
  obtain ⟨t', h', h1', h3, _⟩ := track_spec (hm.reserve he)
  have hmod : (peak + n) % usizeBound = peak + n := Nat.mod_eq_of_lt hov
  rw [hmod] at h3
  have := h.size_le_len
  refine ⟨t.size, h.len_ok, hk.shape.len_ok, by omega, ?_, ?_⟩
  · rw [exploreAt_ok h, exploreAt_ok hk.shape]
  · intro cmps l hc hl
    obtain ⟨m'', w, e1, _, _, _, e2, e3⟩ := insertAll_room (cfg := cfg) (ok := Anything) (n := 0)
      (fun _ _ => trivial) hc hk.shape (l := l) (by omega)
    exact ⟨m'', e1, e2, e3⟩

/-- C17. `reserve(n)` never changes tree, addresses or `len()`, and never lowers
`capacity()`, whatever its outcome (return, panic or abort). -/
theorem C17_nothing_else (hm : Reach cfg ok m) (n : Nat) :
    ∃ o m', reserve cfg n m = (o, m') ∧ (o = .ok () ∨ o = .panic ∨ o = .abort) ∧
      exploreAt m' = exploreAt m ∧ m'.len cfg = m.len cfg ∧ m.capacity ≤ m'.capacity := by
  obtain ⟨t, h⟩ := hm.shape
  obtain ⟨o, m', h2, hk, hs⟩ := reserve_kept h n
  refine ⟨o, m', h2, ?_, ?_, ?_, ?_⟩
  · cases o
    · exact Or.inl rfl
    · exact Or.inr (Or.inl rfl)
    · exact Or.inr (Or.inr rfl)
    · exact hs.elim
    · exact hs.elim
  · rw [exploreAt_ok h, exploreAt_ok hk.shape]
  · rw [h.len_ok, hk.shape.len_ok]
  · rcases reserve_spec cfg m n with ⟨_, _, h4⟩ | ⟨_, h4⟩
    · cases h4.symm.trans h2; exact Nat.le_refl _
    · rw [h4] at h2
      exact (grow_trk h rfl (q := m.capacity) (by omega) h2).2.2.1

/-- A reservation that panics (its size overflows) and one that returns. -/
example : (reserve Sample.cfg (2 ^ 64 - 1) Sample.eight).1 = .panic ∧
    exploreAt (reserve Sample.cfg (2 ^ 64 - 1) Sample.eight).2 = exploreAt Sample.eight ∧
    (reserve Sample.cfg 20 Sample.eight).1 = .ok () ∧
    exploreAt (reserve Sample.cfg 20 Sample.eight).2 = exploreAt Sample.eight := by decide +kernel

/-- C17, exactly when `reserve(n)` takes memory: if `peak + n` (the largest `len()` since the
last clear plus `n`) is at most `capacity()` it does nothing; otherwise, if it returns, it has
taken memory, even if there was room for `len() + n` entries. (The remark "does nothing if
capacity is already sufficient" of src/slab.rs:271-272 holds for `peak`, not for `len()`.) -/
theorem C17_exact {peak need n : Nat} (hm : Track cfg ok m peak need) (hov : peak + n < 2 ^ 64) :
    (peak + n ≤ m.capacity → reserve cfg n m = (.ok (), m)) ∧
    (m.capacity < peak + n → ∀ m', reserve cfg n m = (.ok (), m') →
      m.capacity < m'.capacity ∧ m'.nodes.items.log ≠ m.nodes.items.log) := by
  obtain ⟨t, h, h1, _⟩ := track_spec hm
  have hr : reserve cfg n m = onNodes (Slab.onItems (Arena.growTo cfg (peak + n))) m := by
    rcases reserve_spec cfg m n with ⟨_, h3, _⟩ | ⟨_, h4⟩
    · rw [h1] at h3; exact absurd hov (Nat.not_lt.mpr h3)
    · have ht : reserveTarget m n = peak + n := by
        unfold reserveTarget; rw [h1]; exact Nat.mod_eq_of_lt hov
      rw [h4, ht]
  refine ⟨fun hle => hr.trans (grow_enough hle), fun hlt m' he => ?_⟩
  obtain ⟨o, m1, hg, hk, _, ⟨rfl, hcap⟩ | ⟨hlt', ho, _⟩⟩ := grow_spec h (peak + n)
  · cases (hr.trans hg).symm.trans he
    have hc : m.capacity < m'.capacity := by omega
    refine ⟨hc, fun hlog => ?_⟩
    obtain ⟨fr, hf⟩ := h.slab
    obtain ⟨fr', hf'⟩ := hk.shape.slab
    have e1 := hf.items.log
    have e2 := hf'.items.log
    rw [hlog, e1] at e2
    have e3 := congrArg (fun o => o.map List.length) e2
    simp only [Option.map_some, List.length_map, Option.some.injEq] at e3
    have c1 := hf.items.cap
    have c2 := hf'.items.cap
    rw [e3] at c1
    have : m.capacity = m'.capacity := by
      show m.nodes.items.capacity = m'.nodes.items.capacity
      omega
    omega
  · rw [hr.trans hg] at he
    rcases ho with rfl | rfl <;> cases he

/-- C17. With overflow checks, `reserve(n)` panics (and does nothing) if `peak + n`
overflows `usize`. -/
theorem C17_overflow_checked {peak need n : Nat} (hm : Track cfg ok m peak need)
    (hov : 2 ^ 64 ≤ peak + n) (hc : cfg.checks = true) : reserve cfg n m = (.panic, m) := by
  obtain ⟨t, h, h1, _⟩ := track_spec hm
  rcases reserve_spec cfg m n with ⟨_, _, h4⟩ | ⟨h3 | h3, h4⟩
  · exact h4
  · rw [h1] at h3; exact absurd h3 (Nat.not_lt.mpr hov)
  · rw [hc] at h3; cases h3

/-- C17 is false as documented without overflow checks (release builds): if
`peak + n` reaches `2^64`, `reserve(n)` wraps around; with `n = 2^64 - peak` it returns
without reserving anything, although `len() + n` may overflow and certainly exceeds
`capacity()` if `len() = peak`. -/
theorem C17_false_unchecked {peak need n : Nat} (hm : Track cfg ok m peak need)
    (hn : peak + n = 2 ^ 64) (hc : cfg.checks = false) :
    reserve cfg n m = (.ok (), m) ∧ (m.len cfg = .ok peak → m.capacity < peak + n) := by
  obtain ⟨t, h, h1, _⟩ := track_spec hm
  constructor
  · rcases reserve_spec cfg m n with ⟨h3, _, _⟩ | ⟨_, h4⟩
    · rw [hc] at h3; cases h3
    · rw [h4]
      refine grow_enough ?_
      unfold reserveTarget
      rw [h1, hn]
      exact Nat.le_trans (Nat.le_of_eq (Nat.mod_self _)) (Nat.zero_le _)
  · intro _
    rw [hn]
    obtain ⟨fr, hf⟩ := h.slab
    have h2 : m.capacity + 8 ≤ _ := hf.items.cap_lt
    omega

/-- Nine entries in a release build. -/
def Sample.release : BSTMap Nat String :=
  (fromIter { Sample.cfg with checks := false } (fun _ k => query (Sample.cmp k))
    ⟨(0, some 9), [5, 2, 8, 1, 9, 3, 7, 4, 6].map (fun k => (k, "")), false⟩).2

/-- A history with `peak = 9`. -/
theorem Sample.release_track : Track { Sample.cfg with checks := false } (Lawful Sample.cmp)
    Sample.release 9 (max 9 9) := by
  have h1 : (fromIter { Sample.cfg with checks := false } (fun _ k => query (Sample.cmp k))
      ⟨(0, some 9), [5, 2, 8, 1, 9, 3, 7, 4, 6].map (fun k => (k, "")), false⟩).1 = .ok () := by
    decide +kernel
  have hn : Sample.release.len { Sample.cfg with checks := false } = .ok 9 := by decide +kernel
  have he := Prod.eta (fromIter { Sample.cfg with checks := false } (fun _ k => query (Sample.cmp k))
      ⟨(0, some 9), [5, 2, 8, 1, 9, 3, 7, 4, 6].map (fun k => (k, "")), false⟩)
  rw [h1] at he
  exact Track.fromIter (fun _ k => Lawful.query _ k) he.symm hn

/-- There, `reserve(2^64 - 9)` returns. -/
example : Sample.release.len { Sample.cfg with checks := false } = .ok 9 ∧
    Sample.release.capacity = 24 ∧
    reserve { Sample.cfg with checks := false } (2 ^ 64 - 9) Sample.release =
      (.ok (), Sample.release) ∧
    (reserve { Sample.cfg with checks := false } 20 Sample.release).1 = .ok () ∧
    (reserve { Sample.cfg with checks := false } 20 Sample.release).2.capacity = 56 := by
  decide +kernel

/-- `C17_exact`: nine entries, four of them removed. There are 24 slots, five entries, room for
16 more; but `reserve(16)` takes memory, and `reserve(15)` does not. -/
example : ∃ (m : BSTMap Nat String) (need : Nat), Track { Sample.cfg with checks := false } (Lawful Sample.cmp) m 9 need ∧
    m.len { Sample.cfg with checks := false } = .ok 5 ∧ m.capacity = 24 ∧
    reserve { Sample.cfg with checks := false } 15 m = (.ok (), m) ∧
    (reserve { Sample.cfg with checks := false } 16 m).1 = .ok () ∧
    (reserve { Sample.cfg with checks := false } 16 m).2.capacity = 56 := by
  have step : ∀ (m : BSTMap Nat String) (n k : Nat),
      Track { Sample.cfg with checks := false } (Lawful Sample.cmp) m 9 n →
      Track { Sample.cfg with checks := false } (Lawful Sample.cmp)
        (removeEntry { Sample.cfg with checks := false } (query (Sample.cmp k)) m).2 9 n :=
    fun m n k h => Track.removeEntry (c := query (Sample.cmp k)) h (Prod.eta _).symm
  exact ⟨_, _, step _ _ 4 (step _ _ 3 (step _ _ 2 (step _ _ 1 Sample.release_track))),
    by decide +kernel, by decide +kernel, by decide +kernel, by decide +kernel,
    by decide +kernel⟩

/-! ### C18 -/

/-- C18. `shrink_to_fit()` returns; tree, addresses and `len()` are unchanged; the new
capacity is at least `len()` and at most the old one. -/
theorem C18_shrink (hm : Reach cfg ok m) :
    ∃ m' n, shrinkToFit cfg m = (.ok (), m') ∧ exploreAt m' = exploreAt m ∧ m.len cfg = .ok n ∧
      m'.len cfg = .ok n ∧ n ≤ m'.capacity ∧ m'.capacity ≤ m.capacity := by
  obtain ⟨t, h⟩ := hm.shape
  obtain ⟨m', h1, hk, hsh⟩ := shrinkToFit_spec h
  refine ⟨m', t.size, h1, ?_, h.len_ok, hk.shape.len_ok, hk.shape.size_le, ?_⟩
  · rw [exploreAt_ok h, exploreAt_ok hk.shape]
  · obtain ⟨fr, hf⟩ := h.slab
    have h2 := hf.items.cap
    have h3 := hsh.inv.cap
    have h4 := Nat.pow_le_pow_right (n := 2) (by omega) hsh.prefix_.length_le
    show m'.nodes.items.capacity ≤ m.nodes.items.capacity
    omega

/-- Reserved room is released: 56 slots for eight entries, 24 after shrinking (one of the
nine slots in use is free). -/
example : Reach Sample.cfg (Lawful Sample.cmp) (reserve Sample.cfg 20 Sample.eight).2 ∧
    (reserve Sample.cfg 20 Sample.eight).2.capacity = 56 ∧
    (shrinkToFit Sample.cfg (reserve Sample.cfg 20 Sample.eight).2).1 = .ok () ∧
    (shrinkToFit Sample.cfg (reserve Sample.cfg 20 Sample.eight).2).2.capacity = 24 :=
  ⟨Reach.reserve Sample.eight_reach (Prod.eta _).symm, by decide +kernel, by decide +kernel,
    by decide +kernel⟩

/-- C18. After `shrink_to_fit()` the capacity is the smallest one that holds the largest
`len()` since the last clear. -/
theorem C18_minimal {peak need : Nat} (hm : Track cfg ok m peak need)
    (he : shrinkToFit cfg m = (.ok (), m')) : Fits peak m'.capacity :=
  (hm.shrinkToFit he).fits

/-- The map `Sample.release` after a reservation: shrinking goes back to the 24 slots that
nine entries need. -/
example : ∃ m1 m2, reserve { Sample.cfg with checks := false } 20 Sample.release = (.ok (), m1) ∧
    m1.capacity = 56 ∧ shrinkToFit { Sample.cfg with checks := false } m1 = (.ok (), m2) ∧
    Fits 9 m2.capacity := by
  have h1 : (reserve { Sample.cfg with checks := false } 20 Sample.release).1 = .ok () := by
    decide +kernel
  have he := Prod.eta (reserve { Sample.cfg with checks := false } 20 Sample.release)
  rw [h1] at he
  have ht := Track.reserve Sample.release_track he.symm
  obtain ⟨m2, -, h2, -⟩ := C18_shrink ht.reach
  exact ⟨_, m2, he.symm, by decide +kernel, h2, C18_minimal ht h2⟩

/-- Not the smallest one for the present `len()`: after removals (here of all nine
entries) `shrink_to_fit` releases nothing. -/
theorem C18_not_len : ∃ (m m' : BSTMap Nat String), Reach Sample.cfg (Lawful Sample.cmp) m ∧
    m.len Sample.cfg = .ok 0 ∧ m.capacity = 24 ∧ shrinkToFit Sample.cfg m = (.ok (), m') ∧
    m'.capacity = 24 :=
  let r := fun (m : BSTMap Nat String) k => (removeEntry Sample.cfg (query (Sample.cmp k)) m).2
  ⟨[1, 2, 3, 4, 5, 6, 7, 8, 9].foldl r Sample.nine,
    (shrinkToFit Sample.cfg ([1, 2, 3, 4, 5, 6, 7, 8, 9].foldl r Sample.nine)).2,
    (((((((((Sample.nine_reach.removeEntry' _).removeEntry' _).removeEntry' _).removeEntry'
      _).removeEntry' _).removeEntry' _).removeEntry' _).removeEntry' _).removeEntry' _),
    by decide +kernel, by decide +kernel, by decide +kernel, by decide +kernel⟩

/-! ### C36 -/

/-- C36. Along every history the capacity is the smallest one that holds what was needed:
the largest `len()` and the explicit reservations; so slots freed by `remove` are used
again. -/
theorem C36_capacity {peak need : Nat} (hm : Track cfg ok m peak need) :
    Fits need m.capacity := hm.fits

/-- C36. So at most about half of the memory is unused room (by more than a constant). -/
theorem C36_overhead {peak need : Nat} (hm : Track cfg ok m peak need) :
    m.capacity < 2 * need + 8 := by
  obtain ⟨⟨i, hi⟩, _, h⟩ := C36_capacity hm
  cases i with
  | zero => simp at hi; omega
  | succ i =>
    rw [Nat.pow_succ] at hi
    have := Nat.two_pow_pos i
    by_cases hn : need ≤ 8 * (2 ^ i - 1)
    · have := h i hn
      omega
    · omega

/-- C36. Exactly `peak` slots have been in use: the present entries and the free list
make up the largest `len()` since the last clear. -/
theorem C36_slots {peak need : Nat} (hm : Track cfg ok m peak need) :
    ∃ len, m.len cfg = .ok len ∧ len + m.nodes.freeLen = peak := by
  obtain ⟨t, h, h1, _⟩ := track_spec hm
  exact ⟨_, h.len_ok, h.len_eq.symm.trans h1⟩

/-- Every reachable map has such a history. -/
theorem C36_all (hm : Reach cfg ok m) : ∃ peak need, Track cfg ok m peak need := hm.track

/-- Nine slots have been in use in the map with eight entries; its capacity is the
smallest that holds nine. -/
example : ∃ peak need, Track Sample.cfg (Lawful Sample.cmp) Sample.eight peak need ∧ peak = 9 ∧
    Fits need 24 ∧ 24 < 2 * need + 8 ∧ Sample.eight.nodes.freeLen = 1 := by
  obtain ⟨peak, need, h⟩ := C36_all Sample.eight_reach
  obtain ⟨len, h1, h2⟩ := C36_slots h
  have h3 : Sample.eight.len Sample.cfg = .ok 8 := by decide +kernel
  have h4 : Sample.eight.nodes.freeLen = 1 := by decide +kernel
  have h5 : Sample.eight.capacity = 24 := by decide +kernel
  cases h1.symm.trans h3
  exact ⟨peak, need, h, by omega, h5 ▸ C36_capacity h, h5 ▸ C36_overhead h, h4⟩

/-- C36. A slot freed by `remove` is used by the next insertion of a new key: no memory is
taken and the capacity stays. -/
theorem C36_remove_insert (hm : Reach cfg ok m) {c c' : Probe K} {e : K × V}
    (hr : removeEntry cfg c m = (.ok (some e), m')) (hc : ∀ i x, c' i x ≠ none) (k : K) (v : V) :
    ∃ r m'', insert cfg c' k v m' = (.ok r, m'') ∧ m''.nodes.items.log = m.nodes.items.log ∧
      m''.capacity = m.capacity := by
  obtain ⟨t, h⟩ := hm.shape
  rcases removeEntry_spec h c with ⟨_, h4⟩ | ⟨_, h4⟩ | ⟨e, m1, _, h4, h5, _, h6, h7, h8, h9, _⟩
  · cases h4.symm.trans hr
  · cases h4.symm.trans hr
  · cases h4.symm.trans hr
    obtain ⟨e', he'⟩ := find_total hc 0 (t.del c 0)
    have hl := h5.len_eq
    have hle : m.nodes.items.len ≤ m.capacity := by
      obtain ⟨fr, hf⟩ := h.slab
      exact hf.items.lenle
    obtain ⟨p, m'', g1, _, _, g2, g3⟩ := insert_room h5 (by omega) he' k v
    exact ⟨_, m'', g1, g2.trans h7, g3.trans h6⟩

/-- Ten rounds of removing and inserting in a full map (8 entries, capacity 8). -/
example :
    let m8 := Sample.build ([1, 2, 3, 4, 5, 6, 7, 8].map fun k => (k, "x"))
    let m := (List.range 10).foldl (fun m i =>
      (insert Sample.cfg (query (Sample.cmp (100 + i))) (100 + i) "y"
        (removeEntry Sample.cfg (fun _ _ => some .eq) m).2).2) m8
    m8.capacity = 8 ∧ m8.len Sample.cfg = .ok 8 ∧ m.capacity = 8 ∧ m.len Sample.cfg = .ok 8 := by
  decide +kernel

/-! ### C37 -/

/-- C37. If an insertion does not return, the map is exactly as before, down to every slot
of the storage. -/
theorem C37_insert (hm : Reach cfg ok m) {c : Probe K} {k : K} {v : V} {o : Out (Option V)}
    (he : insert cfg c k v m = (o, m')) (ho : ∀ r, o ≠ .ok r) : m' = m := by
  obtain ⟨t, h⟩ := hm.shape
  rcases insert_cases h c k v with ⟨e, p, m1, _, h1, _⟩ | ⟨o1, h1, _⟩
  · cases h1.symm.trans he; exact absurd rfl (ho _)
  · cases h1.symm.trans he; rfl

/-- A comparison that panics at the second node visited: the insertion panics. -/
example : (insert Sample.cfg (fun i x => if i = 1 then none else some (Sample.cmp 10 x)) 10 "j"
      Sample.eight).1 = .panic ∧
    (insert Sample.cfg (fun i x => if i = 1 then none else some (Sample.cmp 10 x)) 10 "j"
      Sample.eight).2 = Sample.eight := by decide +kernel

/-- C37. If a reservation does not return, tree, addresses, `len()`, and therefore
everything a lookup or iterator can show, are as before; capacity gained before the failure is
kept. -/
theorem C37_reserve (hm : Reach cfg ok m) {n : Nat} {o : Out Unit}
    (he : reserve cfg n m = (o, m')) : exploreAt m' = exploreAt m ∧ m'.len cfg = m.len cfg ∧
      m.capacity ≤ m'.capacity ∧ m'.nodes.dropped = m.nodes.dropped ∧
      ∀ c, m'.getEntry c = m.getEntry c := by
  obtain ⟨o', m1, h1, _, h2, h3, h4⟩ := C17_nothing_else hm n
  cases h1.symm.trans he
  obtain ⟨t, h⟩ := hm.shape
  obtain ⟨o', m1, h1, hk, _⟩ := reserve_kept h n
  cases h1.symm.trans he
  refine ⟨h2, h3, h4, hk.dropped, fun c => ?_⟩
  rw [getEntry_spec h, getEntry_spec hk.shape]

/-- An allocator that refuses the second chunk: the ninth insertion aborts, and so does a
reservation that needs three chunks. -/
def Sample.poor : Cfg := { Sample.cfg with allocOk := fun id _ => id == 0 }

example :
    let m := (insertAll Sample.poor (fun _ k => query (Sample.cmp k)) 0
      ([1, 2, 3, 4, 5, 6, 7, 8].map fun k => (k, "x")) BSTMap.new).2
    (insert Sample.poor (query (Sample.cmp 9)) 9 "x" m).1 = .abort ∧
    (reserve Sample.poor 20 m).1 = .abort ∧ m.len Sample.poor = .ok 8 := by decide +kernel

end BST.Props
