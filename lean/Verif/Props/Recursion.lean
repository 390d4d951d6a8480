import Verif.Proofs.Recursion
import Verif.Proofs.SimpleSet
import Verif.Proofs.Compare
import Verif.Props.Search
import Verif.Props.SimpleDtors
/-!
# How deep calls are nested

`Verif/Model/Recursion.lean` repeats the recursive functions of the crates with a limit `lim` on
the number of nested calls: a call beyond it overflows the machine's stack, and the process aborts.
-/
namespace BST.Props
open Std BSTMap
open Spec (BT)
open Simple (World Drops Link)
variable {K V T : Type} {cfg : Cfg} {ok : K → Probe K → Prop} {m : BSTMap K V}

/-! ### C58 -/

/-- C58. Dropping a `SimpleBSTMap` takes as many nested calls as the tree is high: with room for that
many, it does what it does with unlimited room (C57); with less the process aborts. No hypothesis: the
tree may have any shape, and destructors may panic. -/
theorem C58_drop (d : Drops K V) (s : World K V) (lim : Nat) :
    ((Simple.explore s.map).height ≤ lim → Deep.drop lim d s = World.drop d s) ∧
    (lim < (Simple.explore s.map).height → (Deep.drop lim d s).1 = .abort) := by
  rw [Simple.explore_eq]
  refine ⟨fun h => ?_, fun h => ?_⟩
  · show Deep.dropLink d lim s.map.root _ = World.dropLink d s.map.root _
    rw [Deep.dropLink_same d _ h]
  · exact Deep.dropLink_abort d _ h _

/-- C58. The same for `clear()`. -/
theorem C58_clear (d : Drops K V) (s : World K V) (lim : Nat) :
    ((Simple.explore s.map).height ≤ lim → Deep.clear lim d s = World.clear d s) ∧
    (lim < (Simple.explore s.map).height → (Deep.clear lim d s).1 = .abort) := by
  rw [Simple.explore_eq]
  refine ⟨fun h => ?_, fun h => ?_⟩
  · show Deep.dropLink d lim s.map.root _ = World.dropLink d s.map.root _
    rw [Deep.dropLink_same d _ h]
  · exact Deep.dropLink_abort d _ h _

/-- C58. The same for `clone()`, where the destructors that run because a `clone` of a key or value
panicked need no more room. With less room `clone()` does not return, and it aborts unless a `clone`
of a key or value panics first. -/
theorem C58_clone (d : Drops K V) (cloneK : K → Option K) (cloneV : V → Option V) (s : World K V)
    (lim : Nat) :
    ((Simple.explore s.map).height ≤ lim →
      Deep.clone lim cfg d cloneK cloneV s = World.clone cfg d cloneK cloneV s) ∧
    (lim < (Simple.explore s.map).height →
      (∀ m', (Deep.clone lim cfg d cloneK cloneV s).1 ≠ .ok m') ∧
      ((∀ k, cloneK k ≠ none) → (∀ v, cloneV v ≠ none) →
        (Deep.clone lim cfg d cloneK cloneV s).1 = .abort)) := by
  rw [Simple.explore_eq]
  refine ⟨fun h => ?_, fun h => ⟨fun m' => ?_, fun hk hv => ?_⟩⟩
  · unfold Deep.clone World.clone
    simp only [M.bind_apply, M.get]
    rw [Deep.cloneLink_same cfg d cloneK cloneV _ false h]
  · unfold Deep.clone
    simp only [M.bind_apply, M.get]
    rcases hc : Deep.cloneLink cfg d cloneK cloneV lim false s.map.root s with ⟨o, s'⟩
    cases o with
    | ok x =>
      have := Deep.cloneLink_height _ hc
      omega
    | _ => simp
  · unfold Deep.clone
    simp only [M.bind_apply, M.get]
    have := Deep.cloneLink_abort cfg d hk hv s.map.root false h s
    rcases hc : Deep.cloneLink cfg d cloneK cloneV lim false s.map.root s with ⟨o, s'⟩
    rw [hc] at this
    cases this
    rfl

/-- C58. `==` of two nodes of `SimpleBSTMap`s takes at most as many nested calls as the lower of the
two subtrees is high. With less room it gives the same answer or aborts; it does abort when a node is
compared with itself. -/
theorem C58_eq {m m' : Simple.Map K V} {p p' : List Bool} {a b : Simple.Ref K V}
    (ha : Simple.nodeAt p m = some a) (hb : Simple.nodeAt p' m' = some b) (keq : K → K → Bool)
    (veq : V → V → Bool) (lim : Nat) :
    let x := ((Simple.explore m).sub p).height
    let y := ((Simple.explore m').sub p').height
    (min x y ≤ lim → Deep.eqRef keq veq lim a b = .ok (a.eq keq veq b)) ∧
    (Deep.eqRef keq veq lim a b = .ok (a.eq keq veq b) ∨ Deep.eqRef keq veq lim a b = .abort) ∧
    ((∀ k, keq k k = true) → (∀ v, veq v v = true) → lim < x → Deep.eqRef keq veq lim a a = .abort) := by
  have link : ∀ {a b : Simple.Ref K V} {t u : Link K V}, t = .node a.key a.value a.left a.right →
      u = .node b.key b.value b.left b.right → Deep.eqLink keq veq lim t u = Deep.eqRef keq veq lim a b := by
    rintro a b t u rfl rfl
    cases lim <;> rfl
  rw [Simple.explore_eq, Simple.explore_eq, ← Simple.view_at, ← Simple.view_at]
  rw [← nodeEq_link ha hb, ← link (ref_of ha) (ref_of hb), ← link (ref_of ha) (ref_of ha)]
  exact ⟨Deep.eqLink_same keq veq _ _, Deep.eqLink_or keq veq _ _ lim,
    fun hk hv h => Deep.eqLink_self hk hv _ h⟩

/-- C58. `{:?}` of a `SimpleBSTMap`. -/
theorem C58_debug_simple (dk : K → String) (dv : V → String) (m : Simple.Map K V) (lim : Nat) :
    Deep.debugSimple lim dk dv m =
      if (Simple.explore m).height ≤ lim then .ok (m.debug dk dv) else .abort := by
  rw [Simple.explore_eq]
  unfold Deep.debugSimple
  split
  · rename_i h; rw [Deep.debugLink_same dk dv _ h]; rfl
  · rename_i h; rw [Deep.debugLink_abort dk dv _ (Nat.lt_of_not_le h)]; rfl

/-- C58. `{:?}` of a `SimpleBSTSet`. -/
theorem C58_debug_simple_set (dt : T → String) (s : Simple.SSet T) (lim : Nat) :
    Deep.debugSimpleSet lim dt s = if s.explore.height ≤ lim then .ok (s.debug dt) else .abort := by
  have : s.explore.height = s.items.root.view.height := by
    rw [ssExplore_eq]
    exact Spec.BT.map_height _ _
  rw [this]
  unfold Deep.debugSimpleSet
  split
  · rename_i h; rw [Deep.debugSetLink_same dt _ h]; rfl
  · rename_i h; rw [Deep.debugSetLink_abort dt _ (Nat.lt_of_not_le h)]; rfl

/-- C58. `{:?}` of a `BSTMap` is recursive too. -/
theorem C58_debug (hm : Reach cfg ok m) (dk : K → String) (dv : V → String) (lim : Nat) :
    ∃ b, explore m = .ok b ∧
      Deep.debug lim dk dv m = if b.height ≤ lim then m.debug dk dv else .abort := by
  obtain ⟨t, h⟩ := hm.shape
  refine ⟨_, explore_ok h, ?_⟩
  rw [BT.map_height, Tree.bt_height]
  unfold Deep.debug BSTMap.debug
  rw [rootNode_ok h.root h.rep, Out.ok_bind, Out.ok_bind]
  have hh := h.height_lt
  cases t with
  | leaf => rw [if_pos (by simp [Tree.height])]; rfl
  | node p l k v r =>
    simp only [Tree.nodeOpt_node]
    split
    · rename_i hl; rw [Deep.debugNode_same dk dv h.rep hl (Nat.le_of_lt hh)]
    · rename_i hl; rw [Deep.debugNode_abort dk dv h.rep (Nat.lt_of_not_le hl)]; rfl

/-- C58. `{:?}` of a `BSTSet`. -/
theorem C58_debug_set (ops : List (SetOp T)) (hops : ∀ op ∈ ops, op.Calm) (dt : T → String) (lim : Nat) :
    let s := (setHistory cfg ops BSTSet.new).2
    ∃ b, exploreSet s = .ok b ∧
      Deep.debugSet lim dt s = if b.height ≤ lim then s.debug dt else .abort := by
  obtain ⟨os, s, t, h1, h, _⟩ := setHistory_shape ops (s := BSTSet.new) (shape_new cfg) hops
  rw [h1]
  refine ⟨_, exploreSet_ok h, ?_⟩
  rw [elems_eq, BT.map_height, Tree.bt_height]
  unfold Deep.debugSet BSTSet.debug BSTSet.rootNode
  rw [rootNode_ok h.root h.rep, Out.ok_bind, Out.ok_bind]
  have hh := h.height_lt
  cases t with
  | leaf => rw [if_pos (by simp [Tree.height])]; rfl
  | node p l k v r =>
    simp only [Tree.nodeOpt_node]
    split
    · rename_i hl; rw [Deep.debugSetNode_same dt h.rep hl (Nat.le_of_lt hh)]
    · rename_i hl; rw [Deep.debugSetNode_abort dt h.rep (Nat.lt_of_not_le hl)]; rfl

theorem chain_height (a n : Nat) : (chain a n).height = n := by
  induction n generalizing a with
  | zero => rfl
  | succ n ih => simp [chain, BT.height, ih]

/-- C58. No limit is enough: insert the keys `0, 1, ..., n - 1` in this order into a `SimpleBSTMap`.
Then it has `n` entries, and with room for less than `n` nested calls it can be neither dropped nor
cleared, cloned or printed: the process aborts. -/
theorem C58_sorted (he : 2 ≤ cfg.esize) (n : Nat) (d : Drops Nat Nat) {s : World Nat Nat}
    (hs : World.insertAll cfg d (fun _ k => query (compare k)) 0 ((List.range n).map fun k => (k, k))
      World.new = (.ok (), s)) {lim : Nat} (hl : lim < n) :
    s.map.len = n ∧ (Deep.drop lim d s).1 = .abort ∧ (Deep.clear lim d s).1 = .abort ∧
      (Deep.clone lim cfg d some some s).1 = .abort ∧
      ∀ dk dv, Deep.debugSimple lim dk dv s.map = .abort := by
  have h := World.insertAll_eff (cfg := cfg) (d := d) (s := World.new) (cmp := compare) he
    (cmps := fun _ k => query (compare k)) (fun n k i x => .inr rfl)
    ((List.range n).map fun k => (k, k)) 0 (b := .nil) ⟨rfl, List.Pairwise.nil, rfl⟩
  rw [hs] at h
  obtain ⟨⟨h1, _, h2⟩, _⟩ := h
  rw [chain_insertList] at h2
  have h3 : (Simple.explore s.map).height = n := by rw [Simple.explore_eq, h2, chain_height]
  rw [← h3] at hl
  refine ⟨?_, (C58_drop d s lim).2 hl, (C58_clear d s lim).2 hl,
    ((C58_clone d some some s lim).2 hl).2 (by simp) (by simp), fun dk dv => ?_⟩
  · rw [show s.map.len = s.map.root.size from h1, ← Simple.view_size', h2, chain_size]
  · rw [C58_debug_simple, if_neg (Nat.not_le_of_lt hl)]

/-- C58. After the same insertions `{:?}` of a `BSTMap` aborts. -/
theorem C58_sorted_bst (n : Nat) {m : BSTMap Nat Nat}
    (hm : insertAll cfg (fun _ k => query (compare k)) 0 ((List.range n).map fun k => (k, k))
      BSTMap.new = (.ok (), m)) {lim : Nat} (hl : lim < n) (dk dv : Nat → String) :
    m.len cfg = .ok n ∧ Deep.debug lim dk dv m = .abort := by
  have hr : Reach cfg (Lawful compare) m :=
    Reach.insertAll (fun _ k => Lawful.query compare k) _ 0 Reach.new hm
  obtain ⟨o, m', w, l, h1, h2, h3, _, _, h4⟩ := insertAll_spec (cfg := cfg)
    (ok := Lawful (compare : Nat → Nat → Ordering))
    (cmps := fun _ k => query (compare k)) (fun _ k => Lawful.query compare k)
    (l := (List.range n).map fun k => (k, k)) (n := 0) (shape_new (K := Nat) (V := Nat) cfg)
  cases h1.symm.trans hm
  rcases h4 with ⟨_, rfl⟩ | ⟨_, _, _, _, hst⟩
  · have hb : explore m = .ok (chain 0 n) := by
      rw [explore_ok h2]
      exact congrArg _ (h3.sh.trans (chain_insertList n))
    obtain ⟨b, h5, h6, _⟩ := C30_height hr
    obtain ⟨b', h7, h8⟩ := C58_debug hr dk dv lim
    rw [hb] at h5 h7
    cases h5
    cases h7
    refine ⟨by rw [h6, chain_size], ?_⟩
    rw [h8, chain_height, if_neg (Nat.not_le_of_lt hl)]
  · cases hst

namespace DeepCase

/-- A tree of height 3 with a destructor that panics (key 7) and a value that cannot be cloned. -/
def world : World Nat String :=
  { World.new with map := { root := .node 5 "e" (.node 2 "b" .nil (.node 3 "c" .nil .nil)) (.node 7 "g" .nil .nil),
                            len := 4, allocs := 3 } }
def drops : Drops Nat String := ⟨(· == 7), fun _ => false, true⟩
def fussy (v : String) : Option String := if v == "g" then none else some v

/-- `C58_drop`, `C58_clear`: with room for three nested calls the destructor's panic comes out, with
two the process aborts. -/
example : (Simple.explore world.map).height = 3 ∧
    (Deep.drop 3 drops world).1 = .panic ∧ (Deep.drop 2 drops world).1 = .abort ∧
    (Deep.clear 3 drops world).1 = .panic ∧ (Deep.clear 2 drops world).1 = .abort ∧
    (Deep.drop 3 drops world).2.dropped.length = 8 := by decide +kernel

/-- `C58_clone`: the clone of the value `"g"` panics when there is room for three nested calls; with two
`clone()` aborts before it gets there. -/
example : (Deep.clone 3 Sample.cfg ⟨fun _ => false, fun _ => false, true⟩ some fussy world).1 = .panic ∧
    (Deep.clone 2 Sample.cfg ⟨fun _ => false, fun _ => false, true⟩ some fussy world).1 = .abort ∧
    (Deep.clone 3 Sample.cfg drops some some world).1 = .ok { world.map with allocs := 6 } ∧
    (Deep.clone 2 Sample.cfg drops some some world).1 = .abort := by decide +kernel

/-- `C58_eq`: the root and its left child; the root and itself. -/
example :
    let a : Simple.Ref Nat String :=
      ⟨[], 5, "e", .node 2 "b" .nil (.node 3 "c" .nil .nil), .node 7 "g" .nil .nil⟩
    let b : Simple.Ref Nat String := ⟨[false], 2, "b", .nil, .node 3 "c" .nil .nil⟩
    Simple.nodeAt [] world.map = some a ∧ Simple.nodeAt [false] world.map = some b ∧
    Deep.eqRef (· == ·) (· == ·) 1 a b = .ok false ∧ Deep.eqRef (· == ·) (· == ·) 3 a a = .ok true ∧
    Deep.eqRef (· == ·) (· == ·) 2 a a = .abort ∧ Deep.eqRef (· == ·) (· == ·) 0 a b = .abort := by
  decide +kernel

/-- `C58_debug_simple`, `C58_debug_simple_set`. -/
example : Deep.debugSimple 3 toString id world.map = .ok (world.map.debug toString id) ∧
    Deep.debugSimple 2 toString id world.map = .abort ∧
    Deep.debugSimpleSet 2 toString ⟨⟨.node 1 () .nil (.node 2 () .nil .nil), 2, 1⟩⟩ = .ok
      ("SimpleBSTSet { root: Some(Node { value: 1, left: None, " ++
        "right: Some(Node { value: 2, left: None, right: None }) }) }") ∧
    Deep.debugSimpleSet 1 toString ⟨⟨.node 1 () .nil (.node 2 () .nil .nil), 2, 1⟩⟩ = .abort := by
  decide +kernel

/-- `C58_debug`: `nine` has height 4. -/
example : Deep.debug 4 toString id Sample.nine = Sample.nine.debug toString id ∧
    Deep.debug 3 toString id Sample.nine = .abort := by decide +kernel

/-- `C58_debug_set`. -/
example : let s := (setHistory Sample.cfg [.insert (query (compare 2)) 2, .insert (query (compare 1)) 1]
      BSTSet.new).2
    Deep.debugSet 2 toString s = s.debug toString ∧ Deep.debugSet 1 toString s = .abort := by decide +kernel

def calm : Drops Nat Nat := ⟨fun _ => false, fun _ => false, true⟩

/-- `C58_sorted`: six keys, room for five nested calls. -/
example :
    let x := World.insertAll Sample.cfg calm (fun _ k => query (compare k)) 0
      ((List.range 6).map fun k => (k, k)) World.new
    x.1 = .ok () ∧ (Deep.drop 5 calm x.2).1 = .abort ∧ (Deep.drop 6 calm x.2).1 = .ok () := by
  decide +kernel

/-- `C58_sorted_bst`: the same for a `BSTMap`. -/
example :
    let x := insertAll Sample.cfg (fun _ k => query (compare k)) 0
      ((List.range 6).map fun k => (k, k)) BSTMap.new
    x.1 = .ok () ∧ Deep.debug 5 toString toString x.2 = .abort := by decide +kernel

end DeepCase
end BST.Props
