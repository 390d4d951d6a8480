import Verif.Proofs.Lookup
import Verif.Proofs.Sample
/-!
# Properties of `BSTMap`: single calls on reachable maps

`Reach cfg (Lawful cmp) m`: `m` was obtained by any finite history of API calls with
a key type ordered by `cmp` (`Verif/Client.lean`). `Reach cfg Anything m`: the same
with an arbitrary `Ord`. The contents of a map are what `iter_inorder` yields.
-/
namespace BST.Props
open BSTMap Std
open Spec (BT hitOf lookup LawfulQuery Sorted)
variable {K V : Type} {cfg : Cfg} {cmp : K → K → Ordering} {m : BSTMap K V}

/-! ### C02 -/

/-- C02. `insert(k, v)` either returns the value previously stored for `k` (`None` if
there was none), or `k` is new, the storage is full (`len() == capacity()`) and cannot
grow; in the latter case nothing changes. -/
theorem C02_insert_outcome [TransCmp cmp] (hm : Reach cfg (Lawful cmp) m) (k : K) (v : V) :
    ∃ l, m.iterInorder = .ok l ∧
      ((∃ m', insert cfg (query (cmp k)) k v m =
          (.ok ((lookup (hitOf (cmp k)) l).map (·.2)), m')) ∨
       (lookup (hitOf (cmp k)) l = none ∧ m.len cfg = .ok m.capacity ∧
        ∃ o, (o = .panic ∨ o = .abort) ∧ insert cfg (query (cmp k)) k v m = (o, m))) := by
  obtain ⟨t, h, hs⟩ := hm.sorted
  refine ⟨t.kv, iterInorder_spec h, ?_⟩
  obtain ⟨e, he, hl⟩ := find_query (lawful_cmp cmp k) hs
  rcases insert_cases h (query (cmp k)) k v with ⟨e', p, m', hf, hi, _⟩ | ⟨o, hi, ho⟩
  · left
    cases he.symm.trans hf
    refine ⟨m', ?_⟩
    rw [hi, ← hl]
    cases e <;> rfl
  · right
    rcases ho with ⟨_, hf⟩ | ⟨ho, hf, hfull⟩
    · cases he.symm.trans hf
    · cases he.symm.trans hf
      refine ⟨hl.symm, ?_, o, ho, hi⟩
      rw [h.len_ok]
      have := h.len_eq
      rw [hfull.1, hfull.2.1] at this
      exact congrArg _ this.symm

/-- `C02_insert_outcome`, second case: eight entries fill the first chunk and the allocator
refuses a second one; a new key is refused, a stored one is not. -/
example :
    let cfg := { Sample.cfg with allocOk := fun id _ => id == 0 }
    let m := (insertAll cfg (fun _ k => query (Sample.cmp k)) 0
      ([1, 2, 3, 4, 5, 6, 7, 8].map fun k => (k, "x")) BSTMap.new).2
    Reach cfg (Lawful Sample.cmp) m ∧ m.len cfg = .ok 8 ∧ m.capacity = 8 ∧
    insert cfg (query (Sample.cmp 9)) 9 "y" m = (.abort, m) ∧
    (insert cfg (query (Sample.cmp 8)) 8 "y" m).1 = .ok (some "x") :=
  ⟨Reach.insertAll (fun _ k => Lawful.query Sample.cmp k) _ 0 Reach.new (Prod.eta _).symm, by decide +kernel,
    by decide +kernel, by decide +kernel, by decide +kernel⟩

/-- C02. After `insert(k, v)` returned, the contents are those of the association
list after the same insertion. -/
theorem C02_insert_contents [TransCmp cmp] (hm : Reach cfg (Lawful cmp) m) {k : K} {v : V}
    {r : Option V} {m' : BSTMap K V} (hi : insert cfg (query (cmp k)) k v m = (.ok r, m')) :
    ∃ l l', m.iterInorder = .ok l ∧ m'.iterInorder = .ok l' ∧
      l'.Perm (Spec.insert (hitOf (cmp k)) k v l) := by
  obtain ⟨t, h, hs⟩ := hm.sorted
  rcases insert_cases h (query (cmp k)) k v with ⟨e, p, m1, hf, hi', h', _⟩ | ⟨o, hi', ho⟩
  · cases hi'.symm.trans hi
    exact ⟨t.kv, _, iterInorder_spec h, iterInorder_spec h', (ins_query hs p k v).1⟩
  · rcases ho with ⟨rfl, _⟩ | ⟨rfl | rfl, _⟩ <;> cases hi'.symm.trans hi

/-- `C02_insert_contents`: a new key. -/
example : (insert Sample.cfg (query (Sample.cmp 5)) 5 "E" Sample.eight).1 = .ok none ∧
    (insert Sample.cfg (query (Sample.cmp 5)) 5 "E" Sample.eight).2.iterInorder =
      .ok [(1, "a"), (2, "b"), (3, "c"), (4, "d"), (5, "E"), (6, "f"), (7, "g"), (8, "h"),
        (9, "i")] := by decide +kernel

/-- C02. After `insert(k, v)` returned, `get(k)` is `v`, and every query that does not
match `k` finds the same entry as before. -/
theorem C02_insert_reads [TransCmp cmp] (hm : Reach cfg (Lawful cmp) m) {k : K} {v : V}
    {r : Option V} {m' : BSTMap K V} (hi : insert cfg (query (cmp k)) k v m = (.ok r, m')) :
    m'.get (query (cmp k)) = .ok (some v) ∧
    ∀ f, LawfulQuery cmp f → f k ≠ .eq → m'.getEntry (query f) = m.getEntry (query f) := by
  obtain ⟨t, h, hs⟩ := hm.sorted
  rcases insert_cases h (query (cmp k)) k v with ⟨e, p, m1, hf, hi', h', _⟩ | ⟨o, hi', ho⟩
  · cases hi'.symm.trans hi
    obtain ⟨hp, hs'⟩ := ins_query hs p k v
    have hd := (Distinct.of_sorted hs').perm hp
    constructor
    · rw [get_query h' (lawful_cmp cmp k) hs', lookup_perm (lawful_cmp cmp k) (Distinct.of_sorted hs') hp,
        lookup_insert_self k v (Distinct.of_sorted hs)]
      rfl
    · intro f hf hk
      rw [getEntry_query h' hf hs', getEntry_query h hf hs, lookup_perm hf (Distinct.of_sorted hs') hp,
        lookup_insert_other hk (fun e _ he => lawful_miss hf hk he)]
  · rcases ho with ⟨rfl, _⟩ | ⟨rfl | rfl, _⟩ <;> cases hi'.symm.trans hi

example : insert Sample.cfg (query (Sample.cmp 3)) 3 "C" Sample.nine =
    (.ok (some "c"), (insert Sample.cfg (query (Sample.cmp 3)) 3 "C" Sample.nine).2) := by
  decide +kernel

/-! ### C03 -/

/-- C03. Inserting a key that compares equal to a stored key `k1` returns the old
value and changes nothing but that value: same stored key, same tree, same
addresses, same length. -/
theorem C03_reinsert [TransCmp cmp] (hm : Reach cfg (Lawful cmp) m) {k1 k2 : K} {v1 : V} (v : V)
    (h1 : m.getEntry (query (cmp k2)) = .ok (some (k1, v1))) :
    ∃ m' b, insert cfg (query (cmp k2)) k2 v m = (.ok (some v1), m') ∧
      m'.getEntry (query (cmp k2)) = .ok (some (k1, v)) ∧
      exploreAt m = .ok b ∧
      exploreAt m' = .ok (b.map fun e => (e.1, e.2.1, if cmp k2 e.2.1 = .eq then v else e.2.2)) ∧
      m'.len cfg = m.len cfg ∧ m'.capacity = m.capacity := by
  obtain ⟨t, h, hs⟩ := hm.sorted
  exact reinsert_spec h hs v h1

/-- Keys that compare equal without being equal: numbers by their last digit. -/
def lastDigit (a b : Nat) : Ordering := compare (a % 10) (b % 10)

instance : TransCmp lastDigit where
  eq_swap := OrientedCmp.eq_swap (cmp := (compare : Nat → Nat → Ordering))
  isLE_trans := TransCmp.isLE_trans (cmp := (compare : Nat → Nat → Ordering))

def digits : BSTMap Nat String :=
  (insertAll Sample.cfg (fun _ k => query (lastDigit k)) 0 [(15, "a"), (22, "b"), (38, "c")]
    BSTMap.new).2

theorem digits_reach : Reach Sample.cfg (Lawful lastDigit) digits :=
  Reach.insertAll (fun _ k => Lawful.query lastDigit k) _ 0 Reach.new (Prod.eta _).symm

/-- `C03_reinsert`: 92 compares equal to the stored key 22, which stays. -/
example : digits.getEntry (query (lastDigit 92)) = .ok (some (22, "b")) ∧
    (insert Sample.cfg (query (lastDigit 92)) 92 "B" digits).2.iterInorder =
      .ok [(22, "B"), (15, "a"), (38, "c")] := by decide +kernel

example := C03_reinsert digits_reach (k2 := 92) "B" (by decide +kernel :
  digits.getEntry (query (lastDigit 92)) = .ok (some (22, "b")))

/-! ### C04 -/

/-- C04. `remove_entry` (with any lawful query) returns the stored entry, or `None`, and
the in-order contents afterwards are the ones before without that entry. `remove`
does the same and returns the value. -/
theorem C04_remove [TransCmp cmp] (hm : Reach cfg (Lawful cmp) m) {f : K → Ordering}
    (hf : LawfulQuery cmp f) :
    ∃ l m', m.iterInorder = .ok l ∧
      removeEntry cfg (query f) m = (.ok (lookup (hitOf f) l), m') ∧
      remove cfg (query f) m = (.ok ((lookup (hitOf f) l).map (·.2)), m') ∧
      m'.iterInorder = .ok (Spec.remove (hitOf f) l) := by
  obtain ⟨t, h, hs⟩ := hm.sorted
  obtain ⟨e, he, hl⟩ := find_query hf hs
  rcases remove_cases h (query f) with ⟨e', m', hf', hr, h', hre⟩ | ⟨hf', _⟩
  · cases he.symm.trans hf'
    refine ⟨t.kv, m', iterInorder_spec h, ?_, ?_, ?_⟩
    · rw [hre, hl]
    · rw [hr, ← hl]; cases e <;> rfl
    · rw [iterInorder_spec h']; exact congrArg _ (Tree.del_kv hf hs 0)
  · cases he.symm.trans hf'

/-- `C04_remove`: the query 2 matches the stored key 22; the query 3 matches nothing. -/
example : (removeEntry Sample.cfg (query (lastDigit 2)) digits).1 = .ok (some (22, "b")) ∧
    (removeEntry Sample.cfg (query (lastDigit 2)) digits).2.iterInorder =
      .ok [(15, "a"), (38, "c")] ∧
    (removeEntry Sample.cfg (query (lastDigit 3)) digits).1 = .ok none := by decide +kernel

/-- C04. After removal the query finds nothing, and every query for something else
finds the same entry as before. -/
theorem C04_remove_reads [TransCmp cmp] (hm : Reach cfg (Lawful cmp) m) {f : K → Ordering}
    (hf : LawfulQuery cmp f) {r : Option (K × V)} {m' : BSTMap K V}
    (hr : removeEntry cfg (query f) m = (.ok r, m')) :
    m'.getEntry (query f) = .ok none ∧
    ∀ g, LawfulQuery cmp g → (∀ x, f x = .eq → g x ≠ .eq) →
      m'.getEntry (query g) = m.getEntry (query g) := by
  obtain ⟨t, h, hs⟩ := hm.sorted
  rcases removeEntry_cases h (query f) with ⟨e, m1, hfi, hr', h'⟩ | ⟨_, hr'⟩
  · cases hr'.symm.trans hr
    have hs' := Tree.del_sorted hs 0 hfi
    have hk : (t.del (query f) 0).kv = Spec.remove (hitOf f) t.kv := Tree.del_kv hf hs 0
    constructor
    · rw [getEntry_query h' hf hs', hk, lookup_remove_self]
    · intro g hg hd
      rw [getEntry_query h' hg hs', getEntry_query h hg hs, hk,
        lookup_remove_other (fun e _ he => hd _ he)]
  · cases hr'.symm.trans hr

example : (removeEntry Sample.cfg (query (Sample.cmp 5)) Sample.nine).1 = .ok (some (5, "e")) := by
  decide +kernel

/-! ### C05 -/

/-- C05. Whatever the comparisons `c` answer (consistent or not), the five lookups make
the same ones, so: they all panic, or they all find nothing, or they all find the same
stored entry, which is at the address handed out for writing. None changes the map. -/
theorem C05_lookups_agree {ok : K → Probe K → Prop} (hm : Reach cfg ok m) (c : Probe K) :
    (m.containsKey c = .panic ∧ m.get c = .panic ∧ m.getEntry c = .panic ∧
      getMut c m = (.panic, m) ∧ getEntryMut c m = (.panic, m)) ∨
    (m.containsKey c = .ok false ∧ m.get c = .ok none ∧ m.getEntry c = .ok none ∧
      getMut c m = (.ok none, m) ∧ getEntryMut c m = (.ok none, m)) ∨
    (∃ p k v b, exploreAt m = .ok b ∧ (p, k, v) ∈ b.ino ∧
      m.containsKey c = .ok true ∧ m.get c = .ok (some v) ∧ m.getEntry c = .ok (some (k, v)) ∧
      getMut c m = (.ok (some p), m) ∧ getEntryMut c m = (.ok (some (k, p)), m)) := by
  obtain ⟨t, h⟩ := hm.shape
  rw [containsKey_spec h, get_spec h, getEntry_spec h, getMut_spec h, getEntryMut_spec h]
  rcases t.find_ok_or_panic c 0 with hf | ⟨e, hf⟩
  · left; rw [hf]; exact ⟨rfl, rfl, rfl, rfl, rfl⟩
  · right
    rw [hf]
    cases e with
    | none => left; exact ⟨rfl, rfl, rfl, rfl, rfl⟩
    | some e =>
      right
      exact ⟨e.1, e.2.1, e.2.2, t.bt, exploreAt_ok h, by rw [Tree.bt_ino]; exact Tree.find_mem hf,
        rfl, rfl, rfl, rfl, rfl⟩

/-- `C05_lookups_agree`, all three cases; the second probe contradicts itself. -/
example : Sample.nine.get (fun i _ => if i = 1 then none else some .lt) = .panic ∧
    Sample.nine.get (fun i _ => some (if i = 1 then .gt else .lt)) = .ok none ∧
    Sample.nine.getEntry (fun i _ => some (if i = 1 then .eq else .gt)) = .ok (some (8, "h")) ∧
    (getEntryMut (fun i _ => some (if i = 1 then .eq else .gt)) Sample.nine).1 =
      .ok (some (8, ⟨0, 2⟩)) := by decide +kernel

/-- C05. With a lawful query, what they find is the entry whose key compares equal. -/
theorem C05_lookups_lawful [TransCmp cmp] (hm : Reach cfg (Lawful cmp) m) {f : K → Ordering}
    (hf : LawfulQuery cmp f) :
    ∃ l, m.iterInorder = .ok l ∧
      m.getEntry (query f) = .ok (lookup (hitOf f) l) ∧
      m.get (query f) = .ok ((lookup (hitOf f) l).map (·.2)) ∧
      m.containsKey (query f) = .ok (l.any fun e => f e.1 == .eq) := by
  obtain ⟨t, h, hs⟩ := hm.sorted
  refine ⟨t.kv, iterInorder_spec h, getEntry_query h hf hs, get_query h hf hs, ?_⟩
  rw [containsKey_query h hf hs]
  congr 1
  unfold lookup
  exact List.isSome_find?

/-- `C05_lookups_lawful`: found by an equal key that is not the stored one, and not found. -/
example : digits.get (query (lastDigit 105)) = .ok (some "a") ∧
    digits.containsKey (query (lastDigit 105)) = .ok true ∧
    digits.containsKey (query (lastDigit 104)) = .ok false := by decide +kernel

/-! ### C06, C07 -/

/-- C06. `len` is the number of stored entries, whose keys are pairwise different;
`is_empty` and `root` agree with it (in debug builds too: no assertion fires). -/
theorem C06_len [TransCmp cmp] (hm : Reach cfg (Lawful cmp) m) :
    ∃ l, m.iterInorder = .ok l ∧ m.len cfg = .ok l.length ∧
      l.Pairwise (fun a b => cmp a.1 b.1 ≠ .eq) ∧
      m.isEmpty cfg = .ok (l.length == 0) ∧
      (∃ r, m.rootNode = .ok r ∧ (r = none ↔ l.length = 0)) := by
  obtain ⟨t, h, hs⟩ := hm.sorted
  refine ⟨t.kv, iterInorder_spec h, ?_, Distinct.of_sorted hs, ?_, t.nodeOpt,
    rootNode_ok h.root h.rep, ?_⟩
  · rw [h.len_ok, Tree.kv_length]
  · rw [isEmpty_spec h, Tree.kv_length]
  · cases t <;> simp [Tree.nodeOpt]

/-- `C06_len` on a map with a freed slot: nine slots are in use, eight entries are stored. -/
example : Sample.eight.nodes.items.len = 9 ∧ Sample.eight.len Sample.cfg = .ok 8 ∧
    Sample.eight.isEmpty Sample.cfg = .ok false := by decide +kernel

/-- C06, for every `Ord`, lawful or not: `len` counts the entries that the iterators
yield, and `is_empty`, `root` agree with it. -/
theorem C06_len_any {ok : K → Probe K → Prop} (hm : Reach cfg ok m) :
    ∃ l, m.iterInorder = .ok l ∧ m.len cfg = .ok l.length ∧
      m.isEmpty cfg = .ok (l.length == 0) ∧
      (∃ r, m.rootNode = .ok r ∧ (r = none ↔ l.length = 0)) := by
  obtain ⟨t, h⟩ := hm.shape
  refine ⟨t.kv, iterInorder_spec h, ?_, ?_, t.nodeOpt, rootNode_ok h.root h.rep, ?_⟩
  · rw [h.len_ok, Tree.kv_length]
  · rw [isEmpty_spec h, Tree.kv_length]
  · cases t <;> simp [Tree.nodeOpt]

/-- `C06_len_any`: an `Ord` that always answers `Less` stores the same key three times. -/
example :
    let m := (insertAll Sample.cfg (fun _ _ _ _ => some .lt) 0 [(1, "a"), (1, "b"), (1, "c")]
      BSTMap.new).2
    Reach Sample.cfg Anything m ∧ m.len Sample.cfg = .ok 3 ∧
    m.iterInorder = .ok [(1, "c"), (1, "b"), (1, "a")] :=
  ⟨Reach.insertAll (fun _ _ => trivial) _ 0 Reach.new (Prod.eta _).symm, by decide +kernel, by decide +kernel⟩

/-- C07. In-order iteration is strictly sorted, and yields exactly the entries that
lookups find. -/
theorem C07_inorder [TransCmp cmp] (hm : Reach cfg (Lawful cmp) m) :
    ∃ l, m.iterInorder = .ok l ∧ Sorted cmp l ∧
      ∀ e, e ∈ l ↔ m.getEntry (query (cmp e.1)) = .ok (some e) := by
  obtain ⟨t, h, hs⟩ := hm.sorted
  refine ⟨t.kv, iterInorder_spec h, hs, fun e => ?_⟩
  rw [getEntry_query h (lawful_cmp cmp e.1) hs]
  constructor
  · intro he
    rw [lookup_eq_of_mem (lawful_cmp cmp e.1) (Distinct.of_sorted hs) he ReflCmp.compare_self]
  · intro he
    injection he with he
    exact (lookup_mem he).1

example : Sample.eight.iterInorder = .ok [(1, "a"), (2, "b"), (3, "c"), (4, "d"), (6, "f"),
    (7, "g"), (8, "h"), (9, "i")] := by decide +kernel

end BST.Props
