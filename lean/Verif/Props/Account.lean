import Verif.Proofs.Stay
import Verif.Proofs.Panic
import Verif.Proofs.Sample
import Verif.Props.Storage
/-!
# Properties of whole maps: addresses, ownership of keys and values, memory blocks
-/
set_option linter.unusedSimpArgs false
namespace BST.Props
open BSTMap Tree
open Spec (BT Order replay)

section
variable {K V : Type} {cfg : Cfg} {ok : K → Probe K → Prop} {m m' : BSTMap K V}

/-! ### C21 -/

/-- Calls that never take an entry out of the map. -/
def Keeping : Op K V → Prop
  | .withCapacity _ => False
  | .collect _ _ => False
  | .cloned _ _ _ => False
  | .remove _ => False
  | .removeEntry _ => False
  | .clear _ => False
  | _ => True

/-- C21 (map). Whatever the comparisons answer and however the call ends, an entry stays at
its address, with its key, in every call other than a removal or `clear`: insertions,
`extend`, `reserve`, `shrink_to_fit`, writes through references, look-ups, iterators. -/
theorem C21_map (hr : Reach cfg ok m) {op : Op K V} (hk : Keeping op) {o : Out (Ret K V)}
    (he : op.run cfg m = (o, m')) {b : BT (Ptr × K × V)} (hb : exploreAt m = .ok b) :
    ∃ b', exploreAt m' = .ok b' ∧
      ∀ p k v, (p, k, v) ∈ b.order .ino → ∃ v', (p, k, v') ∈ b'.order .ino := by
  obtain ⟨t, h⟩ := hr.shape
  have hc : op.Calm := by cases op <;> first | trivial | exact hk.elim
  have hs : op.Stays := by cases op <;> first | trivial | exact hk.elim
  obtain ⟨o1, m1, t', h1, h2, h3⟩ := run_stay h hc hs
  cases h1.symm.trans he
  cases (exploreAt_ok h).symm.trans hb
  have h3 : t.Stay t' := by cases op <;> first | exact h3 | exact hk.elim
  refine ⟨_, exploreAt_ok h2, fun p k v hp => ?_⟩
  rw [bt_order] at hp ⊢
  exact h3 _ hp

/-- C21 (map). `remove` and `remove_entry` take out at most the entry they return; all other
entries stay at their addresses, with key and value. -/
theorem C21_removal (hr : Reach cfg ok m) {c : Probe K} {o : Out (Option (K × V))}
    (he : removeEntry cfg c m = (o, m')) {b : BT (Ptr × K × V)} (hb : exploreAt m = .ok b) :
    ∃ b', exploreAt m' = .ok b' ∧
      ((b'.order .ino = b.order .ino ∧ (o = .panic ∨ o = .ok none)) ∨
       ∃ l e l', b.order .ino = l ++ e :: l' ∧ b'.order .ino = l ++ l' ∧ o = .ok (some e.2)) ∧
      (∀ o1 m1, remove cfg c m = (o1, m1) → m1 = m' ∧ o1 = o.map fun e => e.map (·.2)) := by
  obtain ⟨t, h⟩ := hr.shape
  cases (exploreAt_ok h).symm.trans hb
  have hrm : ∀ o1 m1, remove cfg c m = (o1, m1) → m1 = m' ∧ o1 = o.map fun e => e.map (·.2) := by
    intro o1 m1 h1
    have := M.map_eq (g := fun e : Option (K × V) => e.map (·.2)) he
    have h1 : (do let e ← removeEntry cfg c; pure (e.map (·.2)) : M (BSTMap K V) (Option V)) m =
      (o1, m1) := h1
    cases this.symm.trans h1
    exact ⟨rfl, rfl⟩
  rcases removeEntry_cases h c with ⟨e, m1, hf, h1, h2⟩ | ⟨_, h1⟩
  · cases h1.symm.trans he
    refine ⟨_, exploreAt_ok h2, ?_, hrm⟩
    cases e with
    | none =>
      rw [del_ino_miss hf]
      exact Or.inl ⟨rfl, Or.inr rfl⟩
    | some e =>
      obtain ⟨l, l', e1, e2⟩ := del_ino_hit hf
      rw [bt_order, bt_order]
      exact Or.inr ⟨l, e, l', e1, e2, rfl⟩
  · cases h1.symm.trans he
    exact ⟨_, exploreAt_ok h, Or.inl ⟨rfl, Or.inl rfl⟩, hrm⟩

/-- C21 (map, histories). Over any history without removals and `clear`, every entry stays at
its address. -/
theorem C21_history (hr : Reach cfg ok m) {ops : List (Op K V)} (hk : ∀ op ∈ ops, Keeping op)
    {os : List (Out (Ret K V))} (he : history cfg ops m = (os, m'))
    {b : BT (Ptr × K × V)} (hb : exploreAt m = .ok b) :
    ∃ b', exploreAt m' = .ok b' ∧
      ∀ p k v, (p, k, v) ∈ b.order .ino → ∃ v', (p, k, v') ∈ b'.order .ino := by
  obtain ⟨t, h⟩ := hr.shape
  cases (exploreAt_ok h).symm.trans hb
  suffices H : ∃ t', Shape cfg m' t' ∧ t.Stay t' by
    obtain ⟨t', h1, h2⟩ := H
    refine ⟨_, exploreAt_ok h1, fun p k v hp => ?_⟩
    rw [bt_order] at hp ⊢
    exact h2 _ hp
  clear hr hb
  induction ops generalizing m t os with
  | nil => cases he; exact ⟨t, h, .refl t⟩
  | cons op ops ih =>
    have hk1 := hk op (by simp)
    have hc : op.Calm := by cases op <;> first | trivial | exact hk1.elim
    have hs : op.Stays := by cases op <;> first | trivial | exact hk1.elim
    obtain ⟨o, m1, t1, h1, h2, h3⟩ := run_stay h hc hs
    have hst : t.Stay t1 := by cases op <;> first | exact h3 | exact hk1.elim
    clear h3
    have comp : ∀ {os}, history cfg ops m1 = (os, m') → ∃ t', Shape cfg m' t' ∧ t.Stay t' := by
      intro os hh
      obtain ⟨t', a, b⟩ := ih (fun x hx => hk x (by simp [hx])) hh t1 h2
      refine ⟨t', a, fun e he => ?_⟩
      obtain ⟨v, hv⟩ := hst e he
      exact b (e.1, e.2.1, v) hv
    unfold history at he
    rw [h1] at he
    cases o with
    | ok r => exact comp (os := (history cfg ops m1).1) (by cases he; rfl)
    | panic => exact comp (os := (history cfg ops m1).1) (by cases he; rfl)
    | abort => cases he; exact ⟨t1, h2, hst⟩
    | ub => cases he; exact ⟨t1, h2, hst⟩
    | diverge => cases he; exact ⟨t1, h2, hst⟩

/-! ### C24 -/

/-- C24 (map). Take any map and any history of calls on it, whatever the comparisons answer,
with panics of user code and failed allocations, that ends with dropping the map; destructors
do not panic. The values that were in the map and those moved in are, as a multiset, those
moved out by calls and those whose destructor the map ran; likewise the keys. So each is
handed out once or dropped once. -/
theorem C24_map (hr : Reach cfg ok m) {ops : List (Op K V)}
    (hops : ∀ op ∈ ops, op.Stays ∧ op.Drops) {d : DropInfo (InnerNode K V)}
    (hn : d.needsDrop = true) (hd : ∀ x, d.panics x = false) {os : List (Out (Ret K V))}
    (he : history cfg ops m = (os, m')) {b : BT (K × V)} (hb : explore m = .ok b) :
    ∃ m2 newly, drop cfg d m' = (.ok (), m2) ∧ m2.nodes.dropped = m.nodes.dropped ++ newly ∧
      (account cfg (Op.valuesIn cfg) ops m ++ (b.order .ino).map (·.2)).Perm
        (account cfg (Op.valuesOut cfg) ops m ++ newly.map (·.value)) ∧
      (account cfg (Op.keysIn cfg) ops m ++ (b.order .ino).map (·.1)).Perm
        (account cfg (Op.keysOut cfg) ops m ++ newly.map (·.key)) := by
  obtain ⟨t, h⟩ := hr.shape
  cases (explore_ok h).symm.trans hb
  obtain ⟨os1, m1, t1, gone, h1, h2, h3, h4⟩ := history_books ops h (fun op hop => by
    refine ⟨?_, hops op hop⟩
    have := (hops op hop).2
    cases op <;> first | trivial | exact this.2)
  cases h1.symm.trans he
  obtain ⟨m2, g1, _, _, g2⟩ := drop_spec h2 d hd
  rw [hn, if_pos rfl, h3, List.append_assoc] at g2
  have hkv : (BT.order .ino (t.bt.map (·.2))) = t.kv := by
    rw [BT.map_order, bt_order]; rfl
  have hp := h2.liveVals_perm
  refine ⟨m2, _, g1, g2, ?_, ?_⟩
  · rw [hkv]
    refine h4.values.trans (List.Perm.append_left _ ?_)
    rw [List.map_append]
    refine (List.perm_append_comm).trans ?_
    rw [List.map_map]
    refine List.Perm.append_left _ ?_
    have := (hp.map (·.2)).symm
    rwa [List.map_map] at this
  · rw [hkv]
    refine h4.keys.trans (List.Perm.append_left _ ?_)
    rw [List.map_append]
    refine (List.perm_append_comm).trans ?_
    rw [List.map_map]
    refine List.Perm.append_left _ ?_
    have := (hp.map (·.1)).symm
    rwa [List.map_map] at this

/-- C24 (map). From `BSTMap::new()` to the drop: everything the map ever dropped is
accounted for. -/
theorem C24_lifetime {ops : List (Op K V)} (hops : ∀ op ∈ ops, op.Stays ∧ op.Drops)
    {d : DropInfo (InnerNode K V)} (hn : d.needsDrop = true) (hd : ∀ x, d.panics x = false)
    {os : List (Out (Ret K V))} (he : history cfg ops new = (os, m')) :
    ∃ m2, drop cfg d m' = (.ok (), m2) ∧
      (account cfg (Op.valuesIn cfg) ops new).Perm
        (account cfg (Op.valuesOut cfg) ops new ++ m2.nodes.dropped.map (·.value)) ∧
      (account cfg (Op.keysIn cfg) ops new).Perm
        (account cfg (Op.keysOut cfg) ops new ++ m2.nodes.dropped.map (·.key)) := by
  obtain ⟨m2, newly, h1, h2, h3, h4⟩ := C24_map (ok := Anything) Reach.new hops hn hd he
    (explore_ok (shape_new cfg))
  have h2 : m2.nodes.dropped = newly := by simpa [new, Slab.new] using h2
  refine ⟨m2, h1, ?_, ?_⟩
  · rw [h2]; simpa [Tree.bt, BT.map, BT.order, BT.ino] using h3
  · rw [h2]; simpa [Tree.bt, BT.map, BT.order, BT.ino] using h4

/-- C24 (map). What `extend` takes in: a prefix of the items of the iterator, all of them if
it returns. -/
theorem C24_extend (hr : Reach cfg ok m) {cmps : Nat → K → Probe K} {src : Source K V}
    {o : Out Unit} (he : extend cfg cmps src m = (o, m')) :
    (extendTrace cfg cmps src m).map (·.1) <+: src.items ∧
      (o = .ok () → (extendTrace cfg cmps src m).map (·.1) = src.items) := by
  obtain ⟨t, h⟩ := hr.shape
  obtain ⟨o1, m1, t1, h1, _, _, _, h2, h3, _⟩ := extendTrace_spec (cmps := cmps) src h
  cases h1.symm.trans he
  exact ⟨h2, h3⟩

/-- C24 (map). `collect`: the keys and values taken from the iterator end up, once each, in
the map or among the displaced values; also in the partially built map if `collect` panics
(that map is dropped while unwinding: every key and value in it is dropped once). -/
theorem C24_collect {cmps : Nat → K → Probe K} {src : Source K V} {o : Out Unit}
    (he : fromIter cfg cmps src = (o, m')) {d : DropInfo (InnerNode K V)}
    (hn : d.needsDrop = true) (hd : ∀ x, d.panics x = false) :
    (collectTrace cfg cmps src).map (·.1) <+: src.items ∧
    (o = .ok () → (collectTrace cfg cmps src).map (·.1) = src.items) ∧
    ∃ b m2, explore m' = .ok b ∧ drop cfg d m' = (.ok (), m2) ∧
      (m2.nodes.dropped.map fun x => (x.key, x.value)).Perm (b.order .ino) ∧
      ((collectTrace cfg cmps src).map (·.1.2)).Perm
        ((collectTrace cfg cmps src).filterMap (·.2) ++ (b.order .ino).map (·.2)) ∧
      (((collectTrace cfg cmps src).filter fun x => x.2.isNone).map (·.1.1)).Perm
        ((b.order .ino).map (·.1)) := by
  obtain ⟨o1, m1, t, h1, h2, h3, h4, h5, h6, h7⟩ :=
    collectTrace_spec (cfg := cfg) (cmps := cmps) src
  cases h1.symm.trans he
  obtain ⟨m2, g1, _, _, g2⟩ := drop_spec h2 d hd
  have hkv : (BT.order .ino (t.bt.map (·.2))) = t.kv := by
    rw [BT.map_order, bt_order]; rfl
  refine ⟨h5, h6, _, m2, explore_ok h2, g1, ?_, ?_, ?_⟩
  · rw [hkv, g2, h4, hn, if_pos rfl]; exact h2.liveVals_perm
  · rw [hkv]; simpa [Tree.kv, Tree.ino] using h7.values
  · rw [hkv]; simpa [Tree.kv, Tree.ino] using h7.keys

/-! ### C25 -/

theorem blocks_of_shape {t : Tree K V} (h : Shape cfg m t) {b : BT (Ptr × K × V)}
    (hb : exploreAt m = .ok b) :
    (∃ blocks, replay m.nodes.items.log = some blocks ∧ (blocks.map (·.1)).Nodup ∧
      ∀ e ∈ b.order .ino, ∃ n, (e.1.block, n) ∈ blocks ∧ e.1.off < n) ∧
    ∀ d : DropInfo (InnerNode K V), ((drop cfg d m).1 = .ok () ∨ (drop cfg d m).1 = .panic) ∧
      replay (drop cfg d m).2.nodes.items.log = some [] := by
  cases (exploreAt_ok h).symm.trans hb
  refine ⟨?_, fun d => ?_⟩
  · obtain ⟨_, hf⟩ := id h.slab
    obtain ⟨bl, h1, h2, h3⟩ := blocks_of_inv hf.items
    refine ⟨bl, h1, h2, fun e he => ?_⟩
    rw [bt_order] at he
    obtain ⟨l, r, hv⟩ := h.rep.mem_ino he
    have := Slab.view_some.1 hv
    exact h3 e.1 (.value ⟨e.2.1, e.2.2, l, r⟩) (by simp [Arena.getUnchecked, this])
  · obtain ⟨s2, _, h2, ⟨h3, _⟩ | ⟨h3, _⟩⟩ := Slab.drop_spec (d := d) h.slab <;>
      simp only [drop, onNodes, h3] <;> exact ⟨by simp, h2⟩

/-- C25 (map). At any time the allocator log of the map is well-formed (every release names a
live block and its size: `replay`), every entry lies inside a live block, and dropping the map
releases all remaining blocks, each once, even if a destructor panics meanwhile. -/
theorem C25_map (hr : Reach cfg ok m) {b : BT (Ptr × K × V)} (hb : exploreAt m = .ok b) :
    (∃ blocks, replay m.nodes.items.log = some blocks ∧ (blocks.map (·.1)).Nodup ∧
      ∀ e ∈ b.order .ino, ∃ n, (e.1.block, n) ∈ blocks ∧ e.1.off < n) ∧
    ∀ d : DropInfo (InnerNode K V), ((drop cfg d m).1 = .ok () ∨ (drop cfg d m).1 = .panic) ∧
      replay (drop cfg d m).2.nodes.items.log = some [] := by
  obtain ⟨t, h⟩ := hr.shape
  exact blocks_of_shape h hb

/-- C25 (map). If building a map panics (`with_capacity`, `collect`, `clone`), dropping the
partially built map releases all blocks it took. -/
theorem C25_build (hr : Reach cfg ok m) (n : Nat) (cmps : Nat → K → Probe K) (src : Source K V)
    (cloneK : K → Option K) (cloneV : V → Option V) {r : Out Unit × BSTMap K V}
    (h : r = withCapacity cfg n ∨ r = fromIter cfg cmps src ∨ r = clone cfg cmps cloneK cloneV m)
    (d : DropInfo (InnerNode K V)) :
    ((drop cfg d r.2).1 = .ok () ∨ (drop cfg d r.2).1 = .panic) ∧
      replay (drop cfg d r.2).2.nodes.items.log = some [] := by
  rcases h with rfl | rfl | rfl
  · obtain ⟨o, m1, h1, h2, _⟩ := withCapacity_spec (K := K) (V := V) cfg n
    rw [h1]
    exact (blocks_of_shape h2 (exploreAt_ok h2)).2 d
  · obtain ⟨o, m1, t, l, h1, h2, _⟩ := fromIter_spec (cfg := cfg) (ok := Anything)
      (cmps := cmps) (fun _ _ => trivial) src
    rw [h1]
    exact (blocks_of_shape h2 (exploreAt_ok h2)).2 d
  · obtain ⟨t0, h0⟩ := hr.shape
    obtain ⟨o, m1, t, l, h1, h2, _⟩ := clone_spec (cfg := cfg) (ok := Anything)
      (cmps := cmps) (fun _ _ => trivial) cloneK cloneV h0
    rw [h1]
    exact (blocks_of_shape h2 (exploreAt_ok h2)).2 d

/-! ### C27 -/

/-- C27 is false, and not only for special maps: *whenever* a destructor panics during `clear`
of any map, and the panic is caught, then dropping the map (or clearing it again) is undefined
behaviour: the loop starts again at the first slot, and the first value it finds was dropped
already. -/
theorem C27_false (hr : Reach cfg ok m) {d d' : DropInfo (InnerNode K V)}
    (hc : clear cfg d m = (.panic, m')) (hn : d'.needsDrop = true) :
    (drop cfg d' m').1 = .ub ∧ (clear cfg d' m').1 = .ub := by
  obtain ⟨t, h⟩ := hr.shape
  have hcs : ∃ s, Slab.clear cfg d m.nodes = (.panic, s) ∧ m'.nodes = s := by
    unfold clear at hc
    cases hs : Slab.clear cfg d m.nodes with
    | mk o s =>
      have hon : onNodes (Slab.clear cfg d) m = (o, { m with nodes := s }) := by
        simp only [onNodes, hs]
      rw [M.bind_apply, hon] at hc
      cases o with
      | ok a => cases hc
      | panic => cases hc; exact ⟨s, rfl, rfl⟩
      | abort => cases hc
      | ub => cases hc
      | diverge => cases hc
  obtain ⟨s, h1, h2⟩ := hcs
  have h3 := Slab.clear_again (d' := d') h.slab h1 hn
  rw [← h2] at h3
  constructor
  · simp [drop, onNodes, Slab.drop, hn, h3]
  · simp [clear, M.bind_apply, onNodes, h3]

/-- C27 is false also for reading: whenever a destructor panics during `clear` of any map, the
root is still there, and walking through the tree with `root()`, `left()` and `right()` reaches
a node that was dropped. -/
theorem C27_false_read (hr : Reach cfg ok m) {d : DropInfo (InnerNode K V)}
    (hc : clear cfg d m = (.panic, m')) : explore m' = .ub := by
  obtain ⟨t, h⟩ := hr.shape
  unfold clear at hc
  rw [M.bind_apply] at hc
  cases hs : Slab.clear cfg d m.nodes with
  | mk o s =>
    have hon : onNodes (Slab.clear cfg d) m = (o, { m with nodes := s }) := by
      simp only [onNodes, hs]
    rw [hon] at hc
    cases o with
    | panic =>
      cases hc
      obtain ⟨h1, ⟨p, h2, h3⟩, h4⟩ := Slab.clear_panic_view h.slab hs
      have hfuel : t.height ≤ walkFuel s := by
        have := h.height_lt
        unfold walkFuel at this ⊢
        omega
      rcases exploreNode_dead (s' := s) h.rep (fun q hq => h1 q ((h.live q).2 hq)) (walkFuel s)
        hfuel with hx | hx
      · rw [← h.root] at hx
        show (((Node.newOpt s m.root).bind (exploreNode s (walkFuel s))).bind
          fun b => .ok (b.map (·.2))) = _
        rw [hx]; rfl
      · have := hx p ((h.live p).1 h2)
        rw [h3] at this
        rw [← this] at h2; cases h2
    | _ => cases hc

/-- C27, what holds. A panicking destructor while the map is *dropped* is harmless: the values
up to that one are dropped once each, in slot order, the others are leaked, all memory is
released. Missing for the full claim: panics in `clear` (see `C27_false`). -/
theorem C27_drop_partial (hr : Reach cfg ok m) (d : DropInfo (InnerNode K V))
    (hp : (drop cfg d m).1 ≠ .ok ()) {b : BT (K × V)} (hb : explore m = .ok b) :
    (drop cfg d m).1 = .panic ∧ replay (drop cfg d m).2.nodes.items.log = some [] ∧
      ∃ before x rest, (drop cfg d m).2.nodes.dropped = m.nodes.dropped ++ (before ++ [x]) ∧
        d.panics x = true ∧ (∀ y ∈ before, d.panics y = false) ∧
        ((before ++ x :: rest).map fun y => (y.key, y.value)).Perm (b.order .ino) := by
  obtain ⟨t, h⟩ := hr.shape
  cases (explore_ok h).symm.trans hb
  obtain ⟨s2, _, h2, ⟨h3, _⟩ | ⟨h3, _, h4, h5⟩⟩ := Slab.drop_spec (d := d) h.slab
  · exfalso; apply hp; simp only [drop, onNodes, h3]
  · have hd : drop cfg d m = (.panic, { m with nodes := s2 }) := by simp only [drop, onNodes, h3]
    rw [hd]
    refine ⟨rfl, h2, ?_⟩
    have hsplit : ∀ l : List (InnerNode K V), (∃ v ∈ l, d.panics v = true) →
        ∃ before x rest, l = before ++ x :: rest ∧ (Slab.dropRun d l).1 = before ++ [x] ∧
          d.panics x = true ∧ ∀ y ∈ before, d.panics y = false := by
      intro l
      induction l with
      | nil => rintro ⟨v, hv, _⟩; cases hv
      | cons a l ih =>
        rintro ⟨v, hv, hpv⟩
        unfold Slab.dropRun
        by_cases ha : d.panics a = true
        · exact ⟨[], a, l, rfl, by simp [ha], ha, by simp⟩
        · rcases List.mem_cons.1 hv with rfl | hv
          · exact absurd hpv ha
          · obtain ⟨bf, x, rest, a1, a2, a3, a4⟩ := ih ⟨v, hv, hpv⟩
            refine ⟨a :: bf, x, rest, by rw [a1]; rfl, by rw [if_neg ha]; simp [a2], a3, ?_⟩
            intro y hy
            rcases List.mem_cons.1 hy with rfl | hy
            · simpa using ha
            · exact a4 y hy
    obtain ⟨bf, x, rest, a1, a2, a3, a4⟩ := hsplit _ h4
    refine ⟨bf, x, rest, by rw [← a2]; exact h5, a3, a4, ?_⟩
    rw [← a1, BT.map_order, bt_order]
    exact h.liveVals_perm

/-- C27, what holds. If no destructor panics, `clear` and the drop are safe, in any order. -/
theorem C27_calm_partial (hr : Reach cfg ok m) {d : DropInfo (InnerNode K V)}
    (hd : ∀ x, d.panics x = false) :
    ∃ m1, clear cfg d m = (.ok (), m1) ∧ (clear cfg d m1).1 = .ok () ∧
      (drop cfg d m).1 = .ok () ∧ (drop cfg d m1).1 = .ok () := by
  obtain ⟨t, h⟩ := hr.shape
  obtain ⟨m1, h1, h2, _⟩ := clear_spec h d hd
  obtain ⟨_, h3, _⟩ := clear_spec h2 d hd
  obtain ⟨_, h4, _⟩ := drop_spec h d hd
  obtain ⟨_, h5, _⟩ := drop_spec h2 d hd
  exact ⟨m1, h1, by rw [h3], by rw [h4], by rw [h5]⟩

end

/-! ### Examples -/

namespace AccountExample
open Sample (cfg)

def q (k : Nat) : Probe Nat := query (Sample.cmp k)

def d : DropInfo (InnerNode Nat String) := ⟨true, fun _ => false⟩

/-- Insertions (one with an equal key, one whose comparison panics), removals, writes, an
`extend` that is cut short by a panic, a `clear`. -/
def ops : List (Op Nat String) :=
  [.insert (q 2) 2 "b", .insert (q 1) 1 "a", .insert (q 3) 3 "c", .insert (q 2) 2 "B",
   .insert (fun _ _ => none) 7 "lost", .remove (q 1), .getMut (q 3) "C",
   .iterMut .ino [.next, .write 0 "bb", .write 5 "no", .next, .write 0 "bbb"],
   .extend (fun i k => if i = 2 then fun _ _ => none else q k)
     ⟨(0, none), [(3, "x"), (5, "e"), (6, "f")], false⟩, .removeEntry (q 2), .clear d,
   .insert (q 9) 9 "z"]

def run := history cfg ops new

theorem ops_fine : ∀ op ∈ ops, op.Stays ∧ op.Drops := by
  simp [ops, Op.Stays, Op.Drops, d]

/-- The hypotheses of `C24_lifetime` are met, and this is the balance. -/
example : run.1 = [.ok (.value none), .ok (.value none), .ok (.value none), .ok (.value (some "b")),
      .panic, .ok (.value (some "a")), .ok (.value (some "c")), .ok (.keys [2, 3]), .panic,
      .ok (.entry (some (2, "bbb"))), .ok .unit, .ok (.value none)] ∧
    account cfg (Op.valuesIn cfg) ops new =
      ["b", "a", "c", "B", "C", "bb", "bbb", "x", "e", "z"] ∧
    account cfg (Op.valuesOut cfg) ops new = ["b", "a", "c", "B", "bb", "C", "bbb"] ∧
    (drop cfg d run.2).2.nodes.dropped.map (·.value) = ["e", "x", "z"] ∧
    account cfg (Op.keysIn cfg) ops new = [2, 1, 3, 5, 9] ∧
    account cfg (Op.keysOut cfg) ops new = [1, 2] ∧
    (drop cfg d run.2).2.nodes.dropped.map (·.key) = [5, 3, 9] := by decide +kernel

/-- `C24_map` for the same calls on a map with nine entries: all hypotheses are met. -/
example : ∃ m2 newly, drop cfg d (history cfg ops Sample.nine).2 = (.ok (), m2) ∧
    m2.nodes.dropped = Sample.nine.nodes.dropped ++ newly := by
  obtain ⟨b, hb⟩ : ∃ b, explore Sample.nine = .ok b := by
    obtain ⟨t, h⟩ := Sample.nine_reach.shape
    exact ⟨_, explore_ok h⟩
  obtain ⟨m2, newly, h1, h2, -⟩ := C24_map Sample.nine_reach ops_fine (d := d) rfl (fun _ => rfl)
    (Prod.eta (history cfg ops Sample.nine)).symm hb
  exact ⟨m2, newly, h1, h2⟩

/-- `C24_collect`: a duplicate key, then a panic of the third comparison. -/
example : fromIter cfg (fun i k => if i = 3 then fun _ _ => none else q k)
      ⟨(0, none), [(3, "x"), (5, "e"), (3, "f"), (7, "g")], false⟩ =
        (.panic, (fromIter cfg (fun _ => q) ⟨(0, none), [(3, "f"), (5, "e")], false⟩).2) ∧
    collectTrace cfg (fun i k => if i = 3 then fun _ _ => none else q k)
      ⟨(0, none), [(3, "x"), (5, "e"), (3, "f"), (7, "g")], false⟩ =
        [((3, "x"), none), ((5, "e"), none), ((3, "f"), some "x")] := by decide +kernel

/-- `C21_map`: nine entries over two chunks; a third chunk is reserved. -/
example : Reach cfg (Lawful Sample.cmp) Sample.nine ∧
    Keeping (.reserve 40 : Op Nat String) ∧
    ((Op.reserve 40).run cfg Sample.nine).1 = .ok .unit ∧
    (exploreAt Sample.nine).map (fun b => (b.order .ino).map (·.1)) =
      .ok [⟨0, 3⟩, ⟨0, 1⟩, ⟨0, 5⟩, ⟨0, 7⟩, ⟨0, 0⟩, ⟨1, 0⟩, ⟨0, 6⟩, ⟨0, 2⟩, ⟨0, 4⟩] ∧
    exploreAt ((Op.reserve 40).run cfg Sample.nine).2 = exploreAt Sample.nine :=
  ⟨Sample.nine_reach, trivial, by decide +kernel, by decide +kernel, by decide +kernel⟩

/-- `C21_removal`: the root of `nine` has two children; its entry is taken out, all others stay
where they are. -/
example : (removeEntry cfg (q 5) Sample.nine).1 = .ok (some (5, "e")) ∧
    (exploreAt (removeEntry cfg (q 5) Sample.nine).2).map (fun b => (b.order .ino).map (·.1)) =
      .ok [⟨0, 3⟩, ⟨0, 1⟩, ⟨0, 5⟩, ⟨0, 7⟩, ⟨1, 0⟩, ⟨0, 6⟩, ⟨0, 2⟩, ⟨0, 4⟩] := by decide +kernel

/-- A history without removals: a reservation, an insertion, a replaced value, an insertion
whose comparison panics, shrinking. -/
def keep : List (Op Nat String) :=
  [.reserve 40, .insert (q 10) 10 "j", .insert (q 5) 5 "E", .insert (fun _ _ => none) 11 "k",
   .shrinkToFit]

/-- `C21_history`: the nine entries stay where they are. -/
example : (∀ op ∈ keep, Keeping op) ∧
    (history cfg keep Sample.nine).1 =
      [.ok .unit, .ok (.value none), .ok (.value (some "e")), .panic, .ok .unit] ∧
    (exploreAt (history cfg keep Sample.nine).2).map (fun b => (b.order .ino).map (·.1)) =
      .ok [⟨0, 3⟩, ⟨0, 1⟩, ⟨0, 5⟩, ⟨0, 7⟩, ⟨0, 0⟩, ⟨1, 0⟩, ⟨0, 6⟩, ⟨0, 2⟩, ⟨0, 4⟩, ⟨1, 1⟩] :=
  ⟨by simp [keep, Keeping], by decide +kernel, by decide +kernel⟩

/-- `C24_extend`: the iterator panics after two items, both are in the map. -/
example : (extend cfg (fun _ => q) ⟨(0, none), [(3, "x"), (10, "j")], true⟩ Sample.nine).1 = .panic ∧
    extendTrace cfg (fun _ => q) ⟨(0, none), [(3, "x"), (10, "j")], true⟩ Sample.nine =
      [((3, "x"), some "c"), ((10, "j"), none)] := by decide +kernel

/-- `C25_map`: two blocks are live, and both are released. -/
example : replay Sample.nine.nodes.items.log = some [(0, 8), (1, 16)] ∧
    (drop cfg d Sample.nine).2.nodes.items.log =
      [.alloc 0 8, .alloc 1 16, .free 0 8, .free 1 16] := by decide +kernel

/-- `C25_build`: the clone of an entry panics; the block of the unfinished copy is released. -/
example : (clone cfg (fun _ => q) (fun k => if k = 1 then none else some k) some Sample.nine).1 =
      .panic ∧
    (drop cfg d (clone cfg (fun _ => q) (fun k => if k = 1 then none else some k) some
      Sample.nine).2).2.nodes.items.log = [.alloc 0 8, .alloc 1 16, .free 0 8, .free 1 16] := by
  decide +kernel

/-- The destructor of the entry with key 8 panics. -/
def bad : DropInfo (InnerNode Nat String) := ⟨true, fun x => x.key == 8⟩

/-- `C27_false`: `clear` panics; the map still has `len()` 9; the next use is undefined
behaviour (also a look-up). -/
example : (clear cfg bad Sample.nine).1 = .panic ∧
    (clear cfg bad Sample.nine).2.len cfg = .ok 9 ∧
    (get (q 5) (clear cfg bad Sample.nine).2) = .ub ∧
    (drop cfg bad (clear cfg bad Sample.nine).2).1 = .ub := by decide +kernel

/-- `C27_false_read`: walking through the tree is undefined behaviour as well. -/
example : explore (clear cfg bad Sample.nine).2 = .ub := by
  have h : (clear cfg bad Sample.nine).1 = .panic := by decide +kernel
  have he := Prod.eta (clear cfg bad Sample.nine)
  rw [h] at he
  exact C27_false_read Sample.nine_reach he.symm

/-- `C27_drop_partial`: during the drop, three values are dropped, six are leaked. -/
example : (drop cfg bad Sample.nine).1 = .panic ∧
    (drop cfg bad Sample.nine).2.nodes.dropped.map (·.key) = [5, 2, 8] := by decide +kernel

/-- `C27_calm_partial`: clearing twice, then dropping. -/
example : (clear cfg d (clear cfg d Sample.nine).2).1 = .ok () ∧
    (drop cfg d (clear cfg d (clear cfg d Sample.nine).2).2).1 = .ok () ∧
    (clear cfg d Sample.nine).2.nodes.dropped.length = 9 := by decide +kernel

end AccountExample
end BST.Props
