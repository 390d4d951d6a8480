import Verif.Proofs.Client
/-!
# Contents: insertion sequences, rebuilding by pre-order, equality, `Debug`
-/
set_option linter.unusedSimpArgs false
namespace BST
open BSTMap Tree
open Spec (BT)
variable {K V : Type}

/-! ### Insertion lists -/

theorem any_perm {α : Type} {p : α → Bool} {l l' : List α} (h : l.Perm l') : l.any p = l'.any p := by
  rw [Bool.eq_iff_iff, List.any_eq_true, List.any_eq_true]
  constructor
  · rintro ⟨x, hx, hp⟩; exact ⟨x, h.mem_iff.1 hx, hp⟩
  · rintro ⟨x, hx, hp⟩; exact ⟨x, h.mem_iff.2 hx, hp⟩

theorem insert_perm {hit : K → Bool} {k : K} {v : V} {l l' : List (K × V)} (h : l.Perm l') :
    (Spec.insert hit k v l).Perm (Spec.insert hit k v l') := by
  unfold Spec.insert
  rw [any_perm h]
  split
  · exact h.map _
  · exact h.cons _

theorem remove_perm {hit : K → Bool} {l l' : List (K × V)} (h : l.Perm l') :
    (Spec.remove hit l).Perm (Spec.remove hit l') := h.filter _

theorem insertList_perm {cmp : K → K → Ordering} (xs : List (K × V)) {l l' : List (K × V)}
    (h : l.Perm l') : (Spec.insertList cmp xs l).Perm (Spec.insertList cmp xs l') := by
  induction xs generalizing l l' with
  | nil => exact h
  | cons x xs ih => exact ih (insert_perm h)

theorem InsSeq.kv {cmp : K → K → Ordering} [Std.TransCmp cmp] {u w : Tree K V} {l : List (K × V)}
    (h : InsSeq (Lawful cmp) u l w) (hs : u.SortedBy cmp) :
    w.kv.Perm (Spec.insertList cmp l u.kv) ∧ w.SortedBy cmp := by
  induction h with
  | nil => exact ⟨.refl _, hs⟩
  | @cons u w k v rest c p e hc hf _ ih =>
    rw [(find_eq_of_ok hc hf).2.1] at ih
    obtain ⟨h1, h2⟩ := ins_kv hs p k v 0
    obtain ⟨h3, h4⟩ := ih h2
    exact ⟨h3.trans (insertList_perm rest h1), h4⟩

/-! ### Search trees -/

theorem bt_kv (t : Tree K V) : (t.bt.map (·.2)).ino = t.kv := by
  rw [Spec.BT.map_ino, bt_ino]; rfl

theorem sorted_search {cmp : K → K → Ordering} {t : Tree K V} (h : t.SortedBy cmp) :
    (t.bt.map (·.2)).Search cmp := by
  induction t with
  | leaf => trivial
  | node p l k v r ihl ihr =>
    obtain ⟨h1, h2, h3, h4, _⟩ := sorted_node.1 h
    refine ⟨?_, ?_, ihl h1, ihr h2⟩
    · rw [bt_kv]; exact h3
    · rw [bt_kv]; exact h4

theorem search_sorted {cmp : K → K → Ordering} [Std.TransCmp cmp] {b : BT (K × V)}
    (h : b.Search cmp) : Spec.Sorted cmp b.ino := by
  induction b with
  | nil => exact List.Pairwise.nil
  | node l a r ihl ihr =>
    obtain ⟨h1, h2, h3, h4⟩ := h
    unfold Spec.Sorted at *
    simp only [BT.ino]
    rw [List.pairwise_append]
    refine ⟨ihl h3, List.pairwise_cons.2 ⟨h2, ihr h4⟩, fun x hx y hy => ?_⟩
    rcases List.mem_cons.1 hy with rfl | hy
    · exact h1 x hx
    · exact Std.TransCmp.lt_trans (h1 x hx) (h2 y hy)

/-! ### Rebuilding a tree from its pre-order sequence -/

/-- The key `k` is routed to the hole of the context. -/
def Routes (cmp : K → K → Ordering) (k : K) : List (Frame K V) → Prop
  | [] => True
  | .L _ k' _ _ :: fs => cmp k k' = .lt ∧ Routes cmp k fs
  | .R _ _ k' _ :: fs => cmp k k' = .gt ∧ Routes cmp k fs

theorem ins_probe_index (f : K → Ordering) (p : Ptr) (k : K) (v : V) (t : Tree K V) (i j : Nat) :
    t.ins (probeOf f) p k v i = t.ins (probeOf f) p k v j := by
  induction t generalizing i j with
  | leaf => rfl
  | node q l k' v' r ihl ihr =>
    simp only [ins, probeOf]
    cases f k' with
    | lt => simp only; rw [← ihl (i + 1) (j + 1)]
    | gt => simp only; rw [← ihr (i + 1) (j + 1)]
    | eq => rfl

theorem ins_plug {cmp : K → K → Ordering} {k : K} {fs : List (Frame K V)} (h : Routes cmp k fs)
    (p : Ptr) (v : V) (t : Tree K V) :
    (plug fs t).ins (probeOf (cmp k)) p k v 0 = plug fs (t.ins (probeOf (cmp k)) p k v 0) := by
  induction fs generalizing t with
  | nil => rfl
  | cons f fs ih =>
    cases f with
    | L q k' v' r =>
      rw [plug, ih h.2, plug]
      congr 1
      simp only [Frame.fill, ins, probeOf, h.1]
      rw [← ins_probe_index (cmp k) p k v t 1 0]
    | R q l k' v' =>
      rw [plug, ih h.2, plug]
      congr 1
      simp only [Frame.fill, ins, probeOf, h.1]
      rw [← ins_probe_index (cmp k) p k v t 1 0]

theorem rebuild {cmp : K → K → Ordering} [Std.TransCmp cmp] {b : BT (K × V)} :
    ∀ {fs : List (Frame K V)} {rest : List (K × V)} {w : Tree K V}, b.Search cmp →
    (∀ e ∈ b.ino, Routes cmp e.1 fs) → InsSeq (Lawful cmp) (plug fs .leaf) (b.pre ++ rest) w →
    ∃ t', t'.bt.map (·.2) = b ∧ InsSeq (Lawful cmp) (plug fs t') rest w := by
  induction b with
  | nil => intro fs rest w _ _ h; exact ⟨.leaf, rfl, h⟩
  | node l a r ihl ihr =>
    intro fs rest w hs hr h
    obtain ⟨k, v⟩ := a
    obtain ⟨h1, h2, h3, h4⟩ := hs
    simp only [BT.pre, List.cons_append] at h
    cases h with
    | cons c p e hc hf h =>
      rw [(find_eq_of_ok hc hf).2.1, ins_plug (hr (k, v) (by simp [BT.ino]))] at h
      have h' : InsSeq (Lawful cmp) (plug (.L p k v .leaf :: fs) .leaf) (l.pre ++ (r.pre ++ rest)) w := by
        rw [← List.append_assoc]; exact h
      obtain ⟨tl, hl, h⟩ := ihl (fs := .L p k v .leaf :: fs) h3 (fun e he => ⟨h1 e he, hr e (by simp [BT.ino, he])⟩) h'
      have h' : InsSeq (Lawful cmp) (plug (.R p tl k v :: fs) .leaf) (r.pre ++ rest) w := h
      obtain ⟨tr, hrr, h⟩ := ihr (fs := .R p tl k v :: fs) h4 (fun e he =>
        ⟨Std.OrientedCmp.gt_of_lt (h2 e he), hr e (by simp [BT.ino, he])⟩) h'
      refine ⟨.node p tl k v tr, ?_, h⟩
      simp [bt, BT.map, hl, hrr]

theorem rebuild_all {cmp : K → K → Ordering} [Std.TransCmp cmp] {b : BT (K × V)} {w : Tree K V}
    (hs : b.Search cmp) (h : InsSeq (Lawful cmp) .leaf b.pre w) : w.bt.map (·.2) = b := by
  have h' : InsSeq (Lawful cmp) (plug [] .leaf) (b.pre ++ []) w := by simpa [plug] using h
  obtain ⟨t', h1, h2⟩ := rebuild (fs := []) hs (fun _ _ => trivial) h'
  cases h2
  exact h1

/-! ### Partial maps of trees -/

theorem List.mapM_append' {α β : Type} (f : α → Option β) (a b : List α) {l : List β}
    (h : (a ++ b).mapM f = some l) : ∃ x y, l = x ++ y ∧ a.mapM f = some x ∧ b.mapM f = some y := by
  rw [List.mapM_append] at h
  cases ha : a.mapM f with
  | none => simp [ha] at h
  | some x =>
    cases hb : b.mapM f with
    | none => simp [ha, hb] at h
    | some y =>
      simp [ha, hb] at h
      exact ⟨x, y, h.symm, rfl, rfl⟩

theorem bt_mapM_pre {α β : Type} (f : α → Option β) (t : BT α) {l : List β}
    (h : t.pre.mapM f = some l) : ∃ t', t.mapM f = some t' ∧ t'.pre = l := by
  induction t generalizing l with
  | nil => simp [BT.pre] at h; exact ⟨.nil, rfl, h.symm⟩
  | node a x b iha ihb =>
    simp only [BT.pre, List.mapM_cons] at h
    cases hx : f x with
    | none => simp [hx] at h
    | some y =>
      cases hm : (a.pre ++ b.pre).mapM f with
      | none => simp [hx, hm] at h
      | some l2 =>
        simp [hx, hm] at h
        obtain ⟨u, v, rfl, ha, hb⟩ := List.mapM_append' f _ _ hm
        obtain ⟨ta, h1, h2⟩ := iha ha
        obtain ⟨tb, h3, h4⟩ := ihb hb
        exact ⟨.node ta y tb, by simp [BT.mapM, hx, h1, h3], by simp [BT.pre, h2, h4, h]⟩

theorem bt_mapM_ino {α β : Type} {f : α → Option β} {t : BT α} {t' : BT β} (h : t.mapM f = some t') :
    ∀ y ∈ t'.ino, ∃ x ∈ t.ino, f x = some y := by
  induction t generalizing t' with
  | nil => simp [BT.mapM] at h; subst h; simp [BT.ino]
  | node a x b iha ihb =>
    simp only [BT.mapM] at h
    cases hx : f x with
    | none => simp [hx] at h
    | some x' =>
      cases ha : a.mapM f with
      | none => simp [hx, ha] at h
      | some a' =>
        cases hb : b.mapM f with
        | none => simp [hx, ha, hb] at h
        | some b' =>
          simp [hx, ha, hb] at h
          subst h
          intro y hy
          simp only [BT.ino, List.mem_append, List.mem_cons] at hy ⊢
          rcases hy with hy | rfl | hy
          · obtain ⟨z, h1, h2⟩ := iha ha y hy; exact ⟨z, Or.inl h1, h2⟩
          · exact ⟨x, Or.inr (Or.inl rfl), hx⟩
          · obtain ⟨z, h1, h2⟩ := ihb hb y hy; exact ⟨z, Or.inr (Or.inr h1), h2⟩

theorem bt_mapM_search {cmp : K → K → Ordering} {f : K × V → Option (K × V)}
    (hf : ∀ a b a' b', f a = some a' → f b = some b' → cmp a.1 b.1 = .lt → cmp a'.1 b'.1 = .lt)
    {t t' : BT (K × V)} (h : t.mapM f = some t') (hs : t.Search cmp) : t'.Search cmp := by
  induction t generalizing t' with
  | nil => simp [BT.mapM] at h; subst h; trivial
  | node a x b iha ihb =>
    simp only [BT.mapM] at h
    cases hx : f x with
    | none => simp [hx] at h
    | some x' =>
      cases ha : a.mapM f with
      | none => simp [hx, ha] at h
      | some a' =>
        cases hb : b.mapM f with
        | none => simp [hx, ha, hb] at h
        | some b' =>
          simp [hx, ha, hb] at h
          subst h
          obtain ⟨h1, h2, h3, h4⟩ := hs
          refine ⟨fun y hy => ?_, fun y hy => ?_, iha ha h3, ihb hb h4⟩
          · obtain ⟨z, hz, hzy⟩ := bt_mapM_ino ha y hy
            exact hf _ _ _ _ hzy hx (h1 z hz)
          · obtain ⟨z, hz, hzy⟩ := bt_mapM_ino hb y hy
            exact hf _ _ _ _ hx hzy (h2 z hz)

/-- Cloning an entry. -/
def clonePair (cloneK : K → Option K) (cloneV : V → Option V) (e : K × V) : Option (K × V) := do
  pure (← cloneK e.1, ← cloneV e.2)

theorem clone_shape {cfg : Cfg} {cmp : K → K → Ordering} [Std.TransCmp cmp]
    {cmps : Nat → K → Probe K} (hok : ∀ n k, Lawful cmp k (cmps n k)) {cloneK : K → Option K}
    {cloneV : V → Option V}
    (hcl : ∀ a b a' b', cloneK a = some a' → cloneK b = some b' → cmp a b = .lt → cmp a' b' = .lt)
    {m m' : BSTMap K V} {t : Tree K V} (h : Shape cfg m t) (hs : t.SortedBy cmp)
    (he : clone cfg cmps cloneK cloneV m = (.ok (), m')) :
    ∃ w, Shape cfg m' w ∧ w.SortedBy cmp ∧
      (t.bt.map (·.2)).mapM (clonePair cloneK cloneV) = some (w.bt.map (·.2)) := by
  obtain ⟨o, m'', w, l', h1, h2, h3, h4, h5, h6⟩ := clone_spec hok cloneK cloneV h
  cases h1.symm.trans he
  have hl := h6 rfl
  rw [← bt_pre, ← Spec.BT.map_pre] at hl
  obtain ⟨b, hb, hpre⟩ := bt_mapM_pre (clonePair cloneK cloneV) _ hl
  have hbs : b.Search cmp := by
    refine bt_mapM_search ?_ hb (sorted_search hs)
    intro x y x' y' hx hy hlt
    unfold clonePair at hx hy
    cases hx1 : cloneK x.1 <;> cases hx2 : cloneV x.2 <;> simp [hx1, hx2] at hx
    cases hy1 : cloneK y.1 <;> cases hy2 : cloneV y.2 <;> simp [hy1, hy2] at hy
    subst hx; subst hy
    exact hcl _ _ _ _ hx1 hy1 hlt
  rw [← hpre] at h3
  have := rebuild_all hbs h3
  exact ⟨w, h2, (h3.kv List.Pairwise.nil).2, by rw [hb, this]⟩

/-! ### Equality -/

/-- Pairs of entries are compared, until an answer is no. -/
def allPairs {α : Type} (same : Nat → α → α → Out Bool) : Nat → List α → List α → Out Bool
  | n, x :: xs, y :: ys => do
    let r ← same n x y
    if r then allPairs same (n + 1) xs ys else pure false
  | _, _, _ => pure true

theorem eq_loop {same : Nat → K × V → K × V → Out Bool}
    {na nb : Stack → Out (Option (K × V) × Stack)} {I J : Stack → List (Ptr × K × V) → Prop}
    (ha : IterSpec na (·.2) I) (hb : IterSpec nb (·.2) J) (i : Nat) (ra rb : List (Ptr × K × V))
    (hl : ra.length = rb.length) (sa sb : Stack) (hi : I sa ra) (hj : J sb rb) (fuel : Nat)
    (hf : ra.length < fuel) :
    loop fuel (fun (st : Nat × Stack × Stack) => (do
      let (x, sa) ← na st.2.1
      match x with
      | none => pure (.inr true)
      | some x =>
        let (y, sb) ← nb st.2.2
        match y with
        | none => pure (.inr true)
        | some y =>
          let r ← same st.1 x y
          if r then pure (.inl (st.1 + 1, sa, sb)) else pure (.inr false) :
            Out ((Nat × Stack × Stack) ⊕ Bool))) (i, sa, sb) =
      allPairs same i (ra.map (·.2)) (rb.map (·.2)) := by
  induction ra generalizing rb sa sb fuel i with
  | nil =>
    obtain ⟨n, rfl⟩ : ∃ k, fuel = k + 1 := ⟨fuel - 1, by simp at hf; omega⟩
    cases rb with
    | cons _ _ => cases hl
    | nil => exact loopO_inr (by simp only [ha.done _ hi, Out.ok_bind]; rfl)
  | cons x ra ih =>
    obtain ⟨n, rfl⟩ : ∃ k, fuel = k + 1 := ⟨fuel - 1, by simp at hf; omega⟩
    cases rb with
    | nil => cases hl
    | cons y rb =>
      obtain ⟨sa', e1, hi'⟩ := ha.step _ _ _ hi
      obtain ⟨sb', e2, hj'⟩ := hb.step _ _ _ hj
      rw [loop_succ]
      simp only [e1, e2, Out.ok_bind, List.map_cons, allPairs]
      cases hc : same i x.2 y.2 with
      | ok r =>
        cases r with
        | true =>
          simp only [Out.ok_bind, if_true]
          exact ih (i + 1) rb (by simpa using hl) sa' sb' hi' hj' n (by simp at hf; omega)
        | false => rfl
      | _ => rfl

theorem sameBy_length {keq : K → K → Bool} {veq : V → V → Bool} {a b : List (K × V)}
    (h : a.length ≠ b.length) : Spec.sameBy keq veq a b = false := by
  induction a generalizing b with
  | nil => cases b with
    | nil => exact absurd rfl h
    | cons => rfl
  | cons x a ih => cases b with
    | nil => rfl
    | cons y b => simp [Spec.sameBy, ih (b := b) (by simpa using h)]

theorem eqWith_spec {cfg : Cfg} {same : Nat → K × V → K × V → Out Bool} {a b : BSTMap K V}
    {ta tb : Tree K V} (ha : Shape cfg a ta) (hb : Shape cfg b tb) :
    BSTMap.eqWith cfg same a b =
      if ta.kv.length = tb.kv.length then allPairs same 0 ta.kv tb.kv else .ok false := by
  unfold BSTMap.eqWith
  rw [ha.len_ok, hb.len_ok, Out.ok_bind, Out.ok_bind, kv_length, kv_length]
  by_cases hl : ta.size = tb.size
  · rw [if_neg (by simpa using hl), if_pos hl]
    obtain ⟨sa, e1, hi⟩ := inoNew_ok ha
    obtain ⟨sb, e2, hj⟩ := inoNew_ok hb
    rw [e1, e2, Out.ok_bind, Out.ok_bind]
    refine (eq_loop ?_ ?_ 0 ta.ino tb.ino (by rw [ino_length, ino_length, hl]) sa sb hi hj
      _ (by rw [ino_length]; exact drainFuel_lt ha))
    · rw [inorder_eq]; exact inoNext_spec _ (·.2) (fun _ _ _ _ _ => rfl) _ _
    · rw [inorder_eq]; exact inoNext_spec _ (·.2) (fun _ _ _ _ _ => rfl) _ _
  · rw [if_pos hl, if_neg hl]
    rfl

theorem allPairs_total {keq : K → K → Bool} {veq : V → V → Bool} {a b : List (K × V)} (n : Nat)
    (hl : a.length = b.length) :
    allPairs (fun _ x y => pure (keq x.1 y.1 && veq x.2 y.2)) n a b = .ok (Spec.sameBy keq veq a b) := by
  induction a generalizing b n with
  | nil =>
    cases b with
    | nil => rfl
    | cons => cases hl
  | cons x a ih =>
    cases b with
    | nil => cases hl
    | cons y b =>
      unfold allPairs Spec.sameBy
      rw [Out.pure_eq, Out.ok_bind]
      cases keq x.1 y.1 && veq x.2 y.2 with
      | true => rw [if_pos rfl, ih (n + 1) (by simpa using hl), Bool.true_and]
      | false => rfl

theorem eq_spec {cfg : Cfg} {keq : K → K → Bool} {veq : V → V → Bool} {a b : BSTMap K V}
    {ta tb : Tree K V} (ha : Shape cfg a ta) (hb : Shape cfg b tb) :
    BSTMap.eq cfg keq veq a b = .ok (Spec.sameBy keq veq ta.kv tb.kv) := by
  unfold BSTMap.eq
  rw [eqWith_spec ha hb]
  split
  · rename_i h; exact allPairs_total 0 h
  · rename_i h; rw [sameBy_length h]

/-! ### `Debug` -/

theorem debugNode_ok {dk : K → String} {dv : V → String} {s : Nodes K V} {p : Ptr} {l : Tree K V}
    {k : K} {v : V} {r : Tree K V} (h : (node p l k v r).Rep s.view) (fuel : Nat)
    (hf : (node p l k v r).height ≤ fuel) :
    ∃ str, debugNode dk dv s fuel ⟨p, ⟨k, v, l.root, r.root⟩⟩ = .ok str ∧
      debugOption (some str) = ((node p l k v r).bt.map (·.2)).debugMap dk dv := by
  induction fuel generalizing p l k v r with
  | zero => simp [height] at hf
  | succ fuel ih =>
    have hl : Node.left s ⟨p, ⟨k, v, l.root, r.root⟩⟩ = .ok l.nodeOpt := Node.newOpt_ok h.2.1
    have hr : Node.right s ⟨p, ⟨k, v, l.root, r.root⟩⟩ = .ok r.nodeOpt := Node.newOpt_ok h.2.2
    simp only [height] at hf
    unfold debugNode
    rw [hl, hr]
    simp only [Out.ok_bind]
    cases l with
    | leaf =>
      cases r with
      | leaf => exact ⟨_, rfl, rfl⟩
      | node rp rl rk rv rr =>
        obtain ⟨sr, e3, e4⟩ := ih h.2.2 (by omega)
        simp only [nodeOpt_node, e3, Out.ok_bind]
        exact ⟨_, rfl, by rw [bt, BT.map, BT.debugMap, ← e4]; rfl⟩
    | node lp ll lk lv lr =>
      obtain ⟨sl, e1, e2⟩ := ih h.2.1 (by omega)
      cases r with
      | leaf =>
        simp only [nodeOpt_node, e1, Out.ok_bind]
        exact ⟨_, rfl, by rw [bt, BT.map, BT.debugMap, ← e2]; rfl⟩
      | node rp rl rk rv rr =>
        obtain ⟨sr, e3, e4⟩ := ih h.2.2 (by omega)
        simp only [nodeOpt_node, e1, e3, Out.ok_bind]
        exact ⟨_, rfl, by rw [bt, BT.map, BT.debugMap, ← e2, ← e4]; rfl⟩

theorem debug_spec {cfg : Cfg} {dk : K → String} {dv : V → String} {m : BSTMap K V} {t : Tree K V}
    (h : Shape cfg m t) :
    m.debug dk dv = .ok ("BSTMap { root: " ++ (t.bt.map (·.2)).debugMap dk dv ++ " }") := by
  unfold debug
  rw [rootNode_ok h.root h.rep, Out.ok_bind]
  cases t with
  | leaf => rfl
  | node p l k v r =>
    obtain ⟨str, e1, e2⟩ := debugNode_ok (dk := dk) (dv := dv) h.rep _ (Nat.le_of_lt h.height_lt)
    rw [nodeOpt_node]
    simp only [e1, Out.ok_bind]
    rw [← e2]; rfl

end BST
