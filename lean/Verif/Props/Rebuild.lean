import Verif.Proofs.Rebuild
import Verif.Proofs.Sample
import Verif.Props.Set
import Verif.Props.Search
/-!
# C65: what `clone` does and how many comparisons it makes

`clone` (src/map.rs:79-97) inserts clones of the entries into a new map, in pre-order. The
comparisons `cmps` and the clones are arbitrary in `C65_reinsert`; `none` is a panic.
-/
namespace BST.Props
open BSTMap Tree Std
open Spec (BT reinsert budget)
variable {K V : Type} {cfg : Cfg} {ok : K → Probe K → Prop} {cmp : K → K → Ordering} {m : BSTMap K V}

/-- C65. As long as memory suffices, and whatever comparisons and clones answer: `clone` returns
if inserting the clones one by one, in pre-order, into an empty tree does, and the clone shows
the tree this gives; if one of these clones or comparisons panics, `clone` does. Nothing else can
happen. -/
theorem C65_reinsert (hm : Reach cfg ok m) (ha : ∀ id n, cfg.allocOk id n = true)
    (cmps : Nat → K → Probe K) (cloneK : K → Option K) (cloneV : V → Option V) :
    ∃ b, explore m = .ok b ∧
      ((∃ m' t, clone cfg cmps cloneK cloneV m = (.ok (), m') ∧ explore m' = .ok t ∧
          reinsert cmps cloneK cloneV 0 b.pre .nil = .ok t) ∨
        ((clone cfg cmps cloneK cloneV m).1 = .panic ∧
          reinsert cmps cloneK cloneV 0 b.pre .nil = .panic)) := by
  obtain ⟨t, h⟩ := hm.shape
  refine ⟨_, explore_ok h, ?_⟩
  rcases clone_reinsert ha cmps cloneK cloneV h with ⟨m', w, h1, h2, h3⟩ | ⟨m', h1, h2⟩
  · exact .inl ⟨m', _, h1, explore_ok h2, h3⟩
  · exact .inr ⟨by rw [h1], h2⟩

/-- Inconsistent comparisons: every key claims to be smaller than all others. The clone is a
chain to the left. -/
example : ((clone Sample.cfg (fun _ _ => query fun _ => .lt) some some Sample.nine).1 = .ok ()) ∧
    (explore (clone Sample.cfg (fun _ _ => query fun _ => .lt) some some Sample.nine).2).bind
      (fun b => .ok (b.height, b.size)) = .ok (9, 9) ∧
    (explore Sample.nine).bind
      (fun b => (reinsert (fun _ _ => query fun _ => .lt) some some 0 b.pre .nil).bind
        fun t => .ok (t.height, t.size)) = .ok (9, 9) := by
  decide +kernel

/-- C65. Under a total order, with clones that keep it: the insertion of the clone of the `i`-th
entry (in pre-order) makes exactly as many comparisons as this entry is below the root. If fewer
are allowed for one of them, `clone` panics; if as many are allowed for all, it returns a copy of
the tree. The `i`-th number is at most `i` and below the height. -/
theorem C65_count [TransCmp cmp] (hm : Reach cfg (Lawful cmp) m)
    (ha : ∀ id n, cfg.allocOk id n = true) {g : K → K} {gv : V → V}
    (hg : ∀ a b, cmp a b = .lt → cmp (g a) (g b) = .lt) :
    ∃ b, explore m = .ok b ∧ (b.depths 0).length = b.size ∧ m.len cfg = .ok b.size ∧
      (∀ (i d : Nat), (b.depths 0)[i]? = some d → d ≤ i ∧ d < b.height) ∧
      ∀ f : Nat → Nat,
        ((∀ (i d : Nat), (b.depths 0)[i]? = some d → d ≤ f i) →
          ∃ m', clone cfg (budget f cmp) (fun k => some (g k)) (fun v => some (gv v)) m =
              (.ok (), m') ∧ explore m' = .ok (b.map fun e => (g e.1, gv e.2))) ∧
        ((∃ (i d : Nat), (b.depths 0)[i]? = some d ∧ f i < d) →
          (clone cfg (budget f cmp) (fun k => some (g k)) (fun v => some (gv v)) m).1 = .panic) := by
  obtain ⟨t, h, hs⟩ := hm.sorted
  refine ⟨t.sh, explore_ok h, BT.depths_length _ _, by rw [h.len_ok, sh_size], fun i d hd => ?_,
    fun f => ?_⟩
  · have := BT.depths_bound _ 0 i d hd
    omega
  · exact clone_count ha hg h hs f

/-- `nine`: the numbers of comparisons, and what happens if the last-but-one insertion may make one
fewer. -/
example :
    let ds := [0, 1, 2, 2, 3, 1, 2, 3, 2]
    let f (i : Nat) : Nat := ds[i]?.getD 0
    (explore Sample.nine).bind (fun b => .ok (b.depths 0)) = .ok ds ∧
    (clone Sample.cfg (budget f Sample.cmp) some some Sample.nine).1 = .ok () ∧
    (clone Sample.cfg (budget (fun i => if i = 7 then f i - 1 else f i) Sample.cmp) some some
      Sample.nine).1 = .panic := by decide +kernel

/-- C65. The same for sets. -/
theorem C65_set {T : Type} {cmp : T → T → Ordering} [TransCmp cmp] (ops : List (SetOp T))
    (hops : ∀ op ∈ ops, op.Lawful cmp) (ha : ∀ id n, cfg.allocOk id n = true) {g : T → T}
    (hg : ∀ a b, cmp a b = .lt → cmp (g a) (g b) = .lt) :
    let s := (setHistory cfg ops BSTSet.new).2
    ∃ b, exploreSet s = .ok b ∧ ∀ f : Nat → Nat,
      ((∀ (i d : Nat), (b.depths 0)[i]? = some d → d ≤ f i) →
        ∃ s', BSTSet.clone cfg (budget f cmp) (fun k => some (g k)) s = (.ok (), s') ∧
          exploreSet s' = .ok (b.map g)) ∧
      ((∃ (i d : Nat), (b.depths 0)[i]? = some d ∧ f i < d) →
        (BSTSet.clone cfg (budget f cmp) (fun k => some (g k)) s).1 = .panic) := by
  obtain ⟨os, s, t, h1, h, hs, _⟩ :=
    setHistory_tree (cfg := cfg) ops (s := BSTSet.new) (shape_new cfg) .nil hops
  rw [h1]
  refine ⟨_, exploreSet_ok h, fun f => ?_⟩
  rw [Tree.elems, BT.depths_map]
  obtain ⟨h2, h3⟩ := clone_count (gv := id) ha hg h hs f
  constructor
  · intro hf
    obtain ⟨m', e1, e2⟩ := h2 hf
    rcases clone_reinsert ha (budget f cmp) (fun k => some (g k)) some h with
      ⟨m'', w, e3, e4, _⟩ | ⟨m'', e3, _⟩
    · cases e3.symm.trans e1
      refine ⟨⟨m'⟩, ?_, ?_⟩
      · unfold BSTSet.clone
        rw [e3]
      · rw [exploreSet_ok (s := ⟨m'⟩) e4, Tree.elems]
        rw [explore_ok e4] at e2
        have := Out.ok.inj e2
        rw [show w.sh = _ from this, BT.map_map, BT.map_map]
    · cases e3.symm.trans e1
  · intro hf
    have := h3 hf
    unfold BSTSet.clone
    rw [show (fun v : Unit => some (id v)) = some from rfl] at this
    cases hc : BSTMap.clone cfg (budget f cmp) (fun k => some (g k)) some s.items
    rw [hc] at this
    exact this

/-- A set of three elements; its clone makes 0 + 1 + 1 comparisons. -/
example :
    let s := (setHistory Sample.cfg [.insert (query (compare 2)) 2, .insert (query (compare 1)) 1,
      .insert (query (compare 3)) (3 : Nat)] BSTSet.new).2
    (exploreSet s).bind (fun b => .ok (b.depths 0)) = .ok [0, 1, 1] ∧
    (BSTSet.clone Sample.cfg (budget (fun _ => 1) compare) some s).1 = .ok () ∧
    (BSTSet.clone Sample.cfg (budget (fun i => if i = 2 then 0 else 1) compare) some s).1 =
      .panic := by decide +kernel

theorem chain_depths (a n d : Nat) : (chain a n).depths d = List.range' d n := by
  induction n generalizing a d with
  | zero => rfl
  | succ n ih => simp [chain, BT.depths, ih, List.range']

theorem sum_range' (n : Nat) : 2 * (List.range' 0 n).sum = n * (n - 1) := by
  induction n with
  | zero => rfl
  | succ n ih =>
    rw [List.range'_concat, List.sum_append, Nat.mul_add, ih]
    cases n with
    | zero => rfl
    | succ n => simp [Nat.mul_add, Nat.add_mul]; omega

/-- C65. So cloning can take quadratically many comparisons: after inserting `0, 1, ..., n - 1` in
this order, the `i`-th insertion of `clone` makes `i` comparisons, together `n * (n - 1) / 2`. -/
theorem C65_quadratic (n : Nat) {m : BSTMap Nat Nat} (ha : ∀ id n, cfg.allocOk id n = true)
    (hm : insertAll cfg (fun _ k => query (compare k)) 0 ((List.range n).map fun k => (k, k))
      BSTMap.new = (.ok (), m)) :
    ∃ b, explore m = .ok b ∧ b.depths 0 = List.range' 0 n ∧ 2 * (b.depths 0).sum = n * (n - 1) ∧
      ∀ f : Nat → Nat,
        ((∀ i < n, i ≤ f i) → (clone cfg (budget f compare) some some m).1 = .ok ()) ∧
        ((∃ i < n, f i < i) → (clone cfg (budget f compare) some some m).1 = .panic) := by
  have hr : Reach cfg (Lawful compare) m :=
    Reach.insertAll (fun _ k => Lawful.query compare k) _ 0 Reach.new hm
  obtain ⟨o, m', w, l, h1, h2, h3, _, _, h4⟩ := insertAll_spec (cfg := cfg)
    (ok := Lawful (compare : Nat → Nat → Ordering))
    (cmps := fun _ k => query (compare k)) (fun _ k => Lawful.query compare k)
    (l := (List.range n).map fun k => (k, k)) (n := 0) (shape_new (K := Nat) (V := Nat) cfg)
  cases h1.symm.trans hm
  rcases h4 with ⟨_, rfl⟩ | ⟨_, _, _, _, hst⟩
  · have hb : explore m = .ok (chain 0 n) := by
      rw [explore_ok h2]
      exact congrArg _ (h3.sh.trans (chain_insertList n))
    obtain ⟨b, e1, _, _, _, e2⟩ := C65_count (g := id) (gv := id) hr ha fun _ _ h => h
    rw [hb] at e1
    cases e1
    rw [chain_depths] at e2
    refine ⟨_, hb, chain_depths .., by rw [chain_depths, sum_range'], fun f => ?_⟩
    obtain ⟨e3, e4⟩ := e2 f
    have hget : ∀ i d, (List.range' 0 n)[i]? = some d ↔ i < n ∧ i = d := by
      intro i d
      rw [List.getElem?_eq_some_iff]
      simp
    constructor
    · intro hf
      obtain ⟨m', e5, _⟩ := e3 fun i d hd => by
        obtain ⟨h5, rfl⟩ := (hget i d).1 hd
        exact hf i h5
      exact congrArg Prod.fst e5
    · rintro ⟨i, hi, hfi⟩
      exact e4 ⟨i, i, (hget i i).2 ⟨hi, rfl⟩, hfi⟩
  · cases hst

/-- A million keys: about half a billion comparisons. -/
example : ∃ m : BSTMap Nat Nat, insertAll Sample.cfg (fun _ k => query (compare k)) 0
      ((List.range (999999 + 1)).map fun k => (k, k)) BSTMap.new = (.ok (), m) ∧
    (clone Sample.cfg (budget (fun i => i) compare) some some m).1 = .ok () ∧
    (clone Sample.cfg (budget (fun i => i - 1) compare) some some m).1 = .panic := by
  obtain ⟨m, hm⟩ := C30_linear_possible (cfg := Sample.cfg) 999999 (by decide) (fun _ _ => rfl)
    (by decide)
  obtain ⟨_, _, _, _, h⟩ := C65_quadratic (999999 + 1) (fun _ _ => rfl) hm
  exact ⟨m, hm, (h _).1 fun i _ => Nat.le_refl i, (h _).2 ⟨1, by decide, by decide⟩⟩

end BST.Props
