import Verif.Proofs.Steps
import Verif.Proofs.Limited
import Verif.Proofs.Sample
/-!
# Properties of the iterators

All of these hold for every `Ord`, lawful or not (`ok` is arbitrary).
-/
namespace BST.Props
open BSTMap
open Spec (BT Order)
variable {K V : Type} {cfg : Cfg} {ok : K → Probe K → Prop} {m : BSTMap K V}

/-- C08. The iterators yield the recursive traversals of the tree that `root()`,
`left()` and `right()` show. -/
theorem C08_traversals (hm : Reach cfg ok m) :
    ∃ b, explore m = .ok b ∧ m.iterPreorder = .ok b.pre ∧ m.iterInorder = .ok b.ino ∧
      m.iterPostorder = .ok b.post := by
  obtain ⟨t, h⟩ := hm.shape
  refine ⟨_, explore_ok h, ?_, ?_, ?_⟩
  · rw [iterPreorder_spec h, BT.map_pre, Tree.bt_pre]
  · rw [iterInorder_spec h, BT.map_ino, Tree.bt_ino]; rfl
  · rw [iterPostorder_spec h, BT.map_post, Tree.bt_post]

example : explore Sample.eight = .ok (.node
      (.node (.node .nil (1, "a") .nil) (2, "b") (.node .nil (3, "c") (.node .nil (4, "d") .nil)))
      (6, "f")
      (.node (.node .nil (7, "g") .nil) (8, "h") (.node .nil (9, "i") .nil))) ∧
    Sample.eight.iterPostorder = .ok [(1, "a"), (4, "d"), (3, "c"), (2, "b"), (7, "g"), (9, "i"),
      (8, "h"), (6, "f")] := by decide +kernel

/-- C09. Each of the three shared iterators can be called any number `n` of times; the
answers are the `len()` entries of the traversal, then `None` for ever. -/
theorem C09_iter (hm : Reach cfg ok m) (o : Order) :
    ∃ b st, explore m = .ok b ∧ o.iter m = .ok st ∧ m.len cfg = .ok (b.order o).length ∧
      ∀ n, ∃ st', nexts (o.next m) n st =
        .ok (((b.order o).map some ++ List.replicate n none).take n, st') := by
  obtain ⟨t, h⟩ := hm.shape
  obtain ⟨st, h1, _, h3⟩ := iter_new h o
  refine ⟨_, st, explore_ok h, h1, ?_, fun n => ?_⟩
  · rw [h.len_ok, BT.map_order, Tree.bt_order, List.length_map, Tree.order_length]
  · obtain ⟨st', e, _⟩ := nexts_spec (next_spec o m t.height) n h3
    refine ⟨st', e.trans ?_⟩
    rw [BT.map_order, Tree.bt_order, List.map_map]
    rfl

/-- Post-order, eleven calls on eight entries. -/
example : ((Order.post.iter Sample.eight).bind fun st =>
      (nexts (Order.post.next Sample.eight) 11 st).bind fun r => .ok (r.1.drop 6)) =
    .ok [some (8, "h"), some (6, "f"), none, none, none] := by decide +kernel

/-- C09 for the mutable iterators: same entries, as pairs of a key and the place of
the value. -/
theorem C09_iterMut (hm : Reach cfg ok m) (o : Order) :
    ∃ b st, exploreAt m = .ok b ∧ o.iterMut m = .ok st ∧ m.len cfg = .ok (b.order o).length ∧
      ∀ n, ∃ st', nexts (o.nextMut m) n st =
        .ok ((((b.order o).map fun e : Ptr × K × V => some (e.2.1, e.1)) ++ List.replicate n none).take n, st') := by
  obtain ⟨t, h⟩ := hm.shape
  obtain ⟨st, _, h2, h3⟩ := iter_new h o
  refine ⟨_, st, exploreAt_ok h, h2, ?_, fun n => ?_⟩
  · rw [h.len_ok, Tree.bt_order, Tree.order_length]
  · obtain ⟨st', e, _⟩ := nexts_spec (nextMut_spec o m t.height) n h3
    exact ⟨st', e.trans (by rw [Tree.bt_order])⟩

example : ∃ st, Order.ino.iter Sample.eight = .ok st ∧
    (nexts (Order.ino.next Sample.eight) 10 st).bind (fun r => .ok (r.1.drop 7)) =
      .ok [some (9, "i"), none, none] := ⟨[⟨0, 3⟩, ⟨0, 1⟩, ⟨1, 0⟩], by decide +kernel⟩

/-- C10. A client of a mutable iterator that calls `next` and writes through the
references obtained so far, in any order and any number of times. `b` is the tree
before (with the address of every value). The client never fails; it obtains the
places of the traversal, in order, pairwise distinct; and the tree afterwards is
`b` with exactly the performed writes applied to the values at those places: keys,
shape, addresses and all other values are the same. -/
theorem C10_iterMut_client (hm : Reach cfg ok m) (o : Order) (steps : List (Step V)) :
    ∃ b m', exploreAt m = .ok b ∧ ((b.order o).map (·.1)).Nodup ∧
      clientMut o steps m =
        (.ok (((b.order o).map fun e => (e.2.1, e.1)).take (obtained b.size 0 steps)), m') ∧
      exploreAt m' = .ok ((writes b.size 0 steps).foldl (fun b w =>
        b.map fun e => if ((b.order o).map (·.1))[w.1]? = some e.1 then (e.1, e.2.1, w.2) else e) b) ∧
      m'.len cfg = m.len cfg ∧ m'.capacity = m.capacity := by
  obtain ⟨t, h⟩ := hm.shape
  obtain ⟨m', t', h1, h2, h3, h4, _⟩ := clientMut_spec h o steps
  refine ⟨_, m', exploreAt_ok h, ?_, ?_, ?_, ?_, h4⟩
  · rw [Tree.bt_order]; exact Tree.order_nodup o h.nodup
  · rw [h1, Tree.bt_order, Tree.bt_size]
  · rw [exploreAt_ok h2, h3, Tree.bt_size, ← Tree.bt_order]
    congr 1
    -- the places are the same before and after each write
    have key : ∀ (ws : List (Nat × V)) (b0 b : BT (Ptr × K × V)),
        (b.order o).map (·.1) = (b0.order o).map (·.1) →
        ws.foldl (wr ((b0.order o).map (·.1))) b = ws.foldl (fun b w =>
          b.map fun e => if ((b.order o).map (·.1))[w.1]? = some e.1 then (e.1, e.2.1, w.2) else e) b := by
      intro ws
      induction ws with
      | nil => intros; rfl
      | cons w ws ih =>
        intro b0 b hb
        simp only [List.foldl_cons]
        rw [show wr ((b0.order o).map (·.1)) b w = b.map (fun e =>
          if ((b.order o).map (·.1))[w.1]? = some e.1 then (e.1, e.2.1, w.2) else e) by rw [wr, hb]]
        refine ih _ _ ?_
        rw [BT.map_order, List.map_map, ← hb]
        refine List.map_congr_left fun e _ => ?_
        simp only [Function.comp]
        split <;> rfl
    exact key _ _ _ rfl
  · rw [h2.len_ok, h.len_ok]
    have := congrArg BT.size h3
    rw [Tree.bt_size] at this
    rw [this]
    have key : ∀ (ws : List (Nat × V)) (b : BT (Ptr × K × V)),
        (ws.foldl (wr ((t.order o).map (·.1))) b).size = b.size := by
      intro ws
      induction ws with
      | nil => intros; rfl
      | cons w ws ih => intro b; rw [List.foldl_cons, ih, wr, BT.map_size]
    rw [key, Tree.bt_size]

/-- A client that holds three references, and writes through the first and the last. -/
example : (clientMut .ino [.next, .write 0 "A", .next, .next, .write 2 "C", .write 0 "AA"]
      Sample.nine).2.iterInorder =
    .ok [(1, "AA"), (2, "b"), (3, "C"), (4, "d"), (5, "e"), (6, "f"), (7, "g"), (8, "h"), (9, "i")] := by
  decide +kernel

/-- C40. After any number `n` of calls to `next` of a mutable iterator, the future of
the iterator does not depend on the nodes handed out so far: for every other memory
`m'` (of the same length) that agrees with `m` on all other places, in particular with
the handed out places changed, dead or reused, all later calls give the same answers. -/
theorem C40_never_touched_again (hm : Reach cfg ok m) (o : Order) (n : Nat) :
    ∃ st0 ans st, o.iterMut m = .ok st0 ∧ nexts (o.nextMut m) n st0 = .ok (ans, st) ∧
      ∀ m' : BSTMap K V, m'.nodes.items.len = m.nodes.items.len →
        (∀ p, (∀ k, some (k, p) ∉ ans) → m'.nodes.getUnchecked p = m.nodes.getUnchecked p) →
        ∀ j, ∃ later s s', nexts (o.nextMut m) j st = .ok (later, s) ∧
          nexts (o.nextMut m') j st = .ok (later, s') := by
  obtain ⟨t, h⟩ := hm.shape
  obtain ⟨st0, _, h2, h3⟩ := iter_new h o
  obtain ⟨st, e, hi⟩ := nexts_spec (nextMut_spec o m t.height) n h3
  refine ⟨st0, _, st, h2, e, fun m' hlen hag j => ?_⟩
  obtain ⟨s, e1, _⟩ := nexts_spec (nextMut_spec o m t.height) j hi
  have hi' : OrdInv o m'.nodes t.height st ((t.order o).drop n) := by
    refine hi.congr (fun x hx => ?_) (by simp [walkFuel, hlen])
    have hg := hag x.1 (fun k hk => ?_)
    · rw [Slab.getUnchecked_eq, Slab.getUnchecked_eq] at hg
      revert hg
      cases m'.nodes.view x.1 <;> cases m.nodes.view x.1 <;> simp
    · -- a handed out place is not among the remaining ones
      have hnd := Tree.order_nodup o h.nodup
      rw [← List.take_append_drop n (t.order o), List.map_append, List.nodup_append] at hnd
      have hk' : some (k, x.1) ∈ ((t.order o).take n).map (fun e => some (e.2.1, e.1)) ++
          List.replicate n none := by
        rw [List.take_append] at hk
        rcases List.mem_append.1 hk with hk | hk
        · rw [← List.map_take] at hk; exact List.mem_append_left _ hk
        · exact List.mem_append_right _ (List.mem_of_mem_take hk)
      rcases List.mem_append.1 hk' with hk' | hk'
      · obtain ⟨y, hy, hye⟩ := List.mem_map.1 hk'
        injection hye with hye
        injection hye with _ hye
        exact hnd.2.2 _ (List.mem_map_of_mem hy) _ (List.mem_map_of_mem hx) hye
      · have := (List.mem_replicate.1 hk').2
        cases this
  obtain ⟨s', e2, _⟩ := nexts_spec (nextMut_spec o m' t.height) j hi'
  exact ⟨_, s, s', e1, e2⟩

/-- The memory of `nine` after the first place that in-order iteration hands out (that
of key 1) has been freed: the rest of the iteration is not affected. -/
example :
    let m' := (onNodes (Slab.remove Sample.cfg ⟨0, 3⟩) Sample.nine).2
    m'.nodes.items.len = Sample.nine.nodes.items.len ∧ m'.nodes.getUnchecked ⟨0, 3⟩ = .ub ∧
    (Order.ino.iterMut Sample.nine).bind (fun st => (nexts (Order.ino.nextMut Sample.nine) 1 st).bind
      fun r => nexts (Order.ino.nextMut m') 9 r.2) =
    (Order.ino.iterMut Sample.nine).bind (fun st => (nexts (Order.ino.nextMut Sample.nine) 1 st).bind
      fun r => nexts (Order.ino.nextMut Sample.nine) 9 r.2) := by decide +kernel

/-- C41. At any point of any iteration the stack of a pre-order or in-order iterator
holds at most `height` pointers, that of a post-order iterator at most twice as many. -/
theorem C41_stack (hm : Reach cfg ok m) (o : Order) (n : Nat) :
    ∃ b st0, explore m = .ok b ∧ o.iter m = .ok st0 ∧ o.iterMut m = .ok st0 ∧
      (∃ ans st, nexts (o.next m) n st0 = .ok (ans, st) ∧
        st.length ≤ (if o = .post then 2 else 1) * b.height) ∧
      (∃ ans st, nexts (o.nextMut m) n st0 = .ok (ans, st) ∧
        st.length ≤ (if o = .post then 2 else 1) * b.height) := by
  obtain ⟨t, h⟩ := hm.shape
  obtain ⟨st0, h1, h2, h3⟩ := iter_new h o
  have hb : ∀ {st rem}, OrdInv o m.nodes t.height st rem →
      st.length ≤ (if o = .post then 2 else 1) * (t.bt.map (·.2)).height := by
    intro st rem hi
    have := hi.length
    rw [BT.map_height, Tree.bt_height]
    cases o <;> simpa [stackBound] using this
  obtain ⟨st, e, hi⟩ := nexts_spec (next_spec o m t.height) n h3
  obtain ⟨st', e', hi'⟩ := nexts_spec (nextMut_spec o m t.height) n h3
  exact ⟨_, st0, explore_ok h, h1, h2, ⟨_, st, e, hb hi⟩, ⟨_, st', e', hb hi'⟩⟩

example : (Order.post.iter Sample.nine).bind (fun st => .ok st.length) = .ok 5 := by decide +kernel

/-- C41, also inside a call. The same code with a stack that panics at any push beyond the
limit (`Limited`) creates the same iterators and gives the same answers: at no point does a
stack hold more than `height` (post-order: twice `height`) pointers. -/
theorem C41_within (hm : Reach cfg ok m) (o : Order) (n : Nat) :
    ∃ b st0, explore m = .ok b ∧ o.iter m = .ok st0 ∧ o.iterMut m = .ok st0 ∧
      let lim := (if o = .post then 2 else 1) * b.height
      Limited.iter lim o m = .ok st0 ∧
      (∃ r, nexts (o.next m) n st0 = .ok r ∧
        nexts (Limited.next lim o (fun _ x => (x.key, x.value)) m) n st0 = .ok r) ∧
      (∃ r, nexts (o.nextMut m) n st0 = .ok r ∧
        nexts (Limited.next lim o (fun p x => (x.key, p)) m) n st0 = .ok r) := by
  obtain ⟨t, h⟩ := hm.shape
  obtain ⟨st0, h1, h2, h3⟩ := iter_new h o
  have hlim : (if o = .post then 2 else 1) * (t.bt.map (·.2)).height = stackBound o t.height := by
    rw [BT.map_height, Tree.bt_height]
    cases o <;> simp [stackBound]
  refine ⟨_, st0, explore_ok h, h1, h2, ?_⟩
  dsimp only
  rw [hlim]
  refine ⟨(Limited.iter_ok h o).trans h1, ?_, ?_⟩
  · rw [Limited.plain_next]
    exact Limited.nexts_eq o _ (fun e => e.2) (fun _ _ _ _ _ => rfl) m t.height n h3
  · rw [Limited.plain_nextMut]
    exact Limited.nexts_eq o _ (fun e => (e.2.1, e.1)) (fun _ _ _ _ _ => rfl) m t.height n h3

/-- C41, `clone`. With a stack that panics at any push beyond `height` nodes, `clone` does the
same, whatever the user's `Clone` and `Ord` do (panics included). -/
theorem C41_clone (hm : Reach cfg ok m) (cmps : Nat → K → Probe K) (cloneK : K → Option K)
    (cloneV : V → Option V) :
    ∃ b, explore m = .ok b ∧
      Limited.clone b.height cfg cmps cloneK cloneV m = clone cfg cmps cloneK cloneV m := by
  obtain ⟨t, h⟩ := hm.shape
  refine ⟨_, explore_ok h, ?_⟩
  rw [BT.map_height, Tree.bt_height]
  exact Limited.clone_ok h cmps cloneK cloneV

/-- `nine` has height 4, so the limits of `C41_within` and `C41_clone` are 4, 4, 8 and 4. The
limited stack does notice what happens: this map needs 3, 3, 5 and 3, and with one less each
of the traversals panics. -/
example : ((explore Sample.nine).bind fun b => .ok b.height) = .ok 4 ∧
    ((Limited.iter 2 .pre Sample.nine).bind fun st =>
      nexts (Limited.next 2 .pre (fun _ x => x.key) Sample.nine) 9 st) = .panic ∧
    ((Limited.iter 2 .ino Sample.nine).bind fun st =>
      nexts (Limited.next 2 .ino (fun _ x => x.key) Sample.nine) 9 st) = .panic ∧
    ((Limited.iter 4 .post Sample.nine).bind fun st =>
      nexts (Limited.next 4 .post (fun _ x => x.key) Sample.nine) 9 st) = .panic ∧
    (Limited.clone 2 Sample.cfg (fun _ k => query (Sample.cmp k)) some some Sample.nine).1 = .panic ∧
    (Limited.clone 3 Sample.cfg (fun _ k => query (Sample.cmp k)) some some Sample.nine).1 = .ok () :=
  by decide +kernel

end BST.Props
