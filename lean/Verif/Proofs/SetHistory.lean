import Verif.SetHistory
import Verif.Proofs.Conform
/-!
# Sets: every call is a call on the underlying map
-/
set_option linter.unusedSimpArgs false
namespace BST
open BSTMap Tree Std
open Spec (BT Order hitOf lookup Queried Failed)
variable {T : Type}

/-- The call on the map that a call on a set makes (`debug` has none). -/
def SetOp.toOp : SetOp T → Op T Unit
  | withCapacity n => .withCapacity n
  | collect cmps src => .collect cmps src.toMap
  | cloned cmps cloneT => .cloned cmps cloneT some
  | insert c t => .insert c t ()
  | remove c => .removeEntry c
  | take c => .removeEntry c
  | get c => .getEntry c
  | contains c => .containsKey c
  | node path => .node path
  | iter o n => .iter o n
  | len => .len
  | isEmpty => .isEmpty
  | capacity => .capacity
  | clear d => .clear d
  | reserve n => .reserve n
  | shrinkToFit => .shrinkToFit
  | extend cmps src => .extend cmps src.toMap
  | debug dt => .debug dt fun _ => ""

/-- What it returns. -/
def SetOp.ret : SetOp T → Ret T Unit → SetRet T
  | insert _ _, .value r => .bool r.isNone
  | remove _, .entry e => .bool e.isSome
  | _, .entry e => .elem (e.map (·.1))
  | _, .bool b => .bool b
  | _, .nat n => .nat n
  | _, .node n => .node (n.map fun n => (n.1, n.2.2.1, n.2.2.2))
  | _, .items l => .items (l.map (Option.map (·.1)))
  | _, _ => .unit

theorem onItems_eq {α : Type} {f : M (BSTMap T Unit) α} {s : BSTSet T} {o : Out α}
    {m : BSTMap T Unit} (h : f s.items = (o, m)) : BSTSet.onItems f s = (o, ⟨m⟩) := by
  unfold BSTSet.onItems; rw [h]

theorem Out.map_map {α β γ : Type} (f : α → β) (g : β → γ) (o : Out α) :
    (o.map f).map g = o.map (g ∘ f) := by cases o <;> rfl

theorem assign_sim {f : BSTMap T Unit → Out Unit × BSTMap T Unit}
    {g : BSTSet T → Out Unit × BSTSet T} {s : BSTSet T}
    (h : g s = ((f s.items).1, ⟨(f s.items).2⟩)) :
    BSTSet.assign g s = ((BSTMap.assign f s.items).1, ⟨(BSTMap.assign f s.items).2⟩) := by
  unfold BSTSet.assign BSTMap.assign
  rw [h]
  cases hf : f s.items with
  | mk o m => cases o <;> rfl

theorem goSetNode_eq (s : BSTSet T) (path : List Bool) (n : Option (Node T Unit)) :
    goSetNode s path n = goNode s.items.nodes path n := by
  induction path generalizing n with
  | nil => cases n <;> rfl
  | cons b path ih =>
    cases n with
    | none => rfl
    | some n =>
      simp only [goSetNode, goNode, ih, BSTSet.nodeRight, BSTSet.nodeLeft]

theorem nexts_of (next : Stack → Out (Option (T × Unit) × Stack)) (n : Nat) (st : Stack) :
    nexts (BSTSet.nextOf next) n st =
      (nexts next n st).map fun r => (r.1.map (Option.map (·.1)), r.2) := by
  induction n generalizing st with
  | zero => rfl
  | succ n ih =>
    simp only [nexts, BSTSet.nextOf]
    cases next st with
    | ok r =>
      obtain ⟨x, st1⟩ := r
      simp only [Out.ok_bind, Out.pure_eq]
      rw [ih]
      cases nexts next n st1 <;> rfl
    | panic => rfl
    | abort => rfl
    | ub => rfl
    | diverge => rfl

section
variable {cfg : Cfg} {s : BSTSet T}

theorem sim_map {α β γ : Type} {f : M (BSTMap T Unit) α} {g : M (BSTSet T) β} {φ : α → β}
    {a : α → Ret T Unit} {b : β → γ} {ret : Ret T Unit → γ}
    (hg : g s = ((f s.items).1.map φ, ⟨(f s.items).2⟩)) (hr : ∀ x, ret (a x) = b (φ x)) :
    (do let r ← g; pure (b r) : M (BSTSet T) γ) s =
      (((do let r ← f; pure (a r) : M (BSTMap T Unit) (Ret T Unit)) s.items).1.map ret,
        ⟨((do let r ← f; pure (a r) : M (BSTMap T Unit) (Ret T Unit)) s.items).2⟩) := by
  have e : (do let r ← f; pure (a r) : M (BSTMap T Unit) (Ret T Unit)) s.items =
      ((f s.items).1.map a, (f s.items).2) := M.map_eq rfl
  refine (M.map_eq hg).trans ?_
  rw [e]
  simp only [Out.map_map]
  congr 1
  congr 1
  funext x
  exact (hr x).symm

theorem Out.map_id' {α : Type} (o : Out α) : o.map (fun x => x) = o := by cases o <;> rfl

theorem sim_same {α γ : Type} {f : M (BSTMap T Unit) α} {g : M (BSTSet T) α}
    {a : α → Ret T Unit} {b : α → γ} {ret : Ret T Unit → γ}
    (hg : g s = ((f s.items).1, ⟨(f s.items).2⟩)) (hr : ∀ x, ret (a x) = b x) :
    (do let r ← g; pure (b r) : M (BSTSet T) γ) s =
      (((do let r ← f; pure (a r) : M (BSTMap T Unit) (Ret T Unit)) s.items).1.map ret,
        ⟨((do let r ← f; pure (a r) : M (BSTMap T Unit) (Ret T Unit)) s.items).2⟩) :=
  sim_map (φ := fun x => x) (by rw [hg, Out.map_id']) hr

/-- A call on a set does what the call on the map does. -/
theorem SetOp.sim (op : SetOp T) (hd : ∀ dt, op ≠ .debug dt) :
    op.run cfg s = ((op.toOp.run cfg s.items).1.map op.ret, ⟨(op.toOp.run cfg s.items).2⟩) := by
  cases op with
  | withCapacity n => exact sim_same (assign_sim rfl) fun _ => rfl
  | collect cmps src => exact sim_same (assign_sim rfl) fun _ => rfl
  | cloned cmps cloneT => exact sim_same (assign_sim rfl) fun _ => rfl
  | insert c t =>
    exact sim_map (φ := Option.isNone) (M.map_eq (onItems_eq rfl)) fun _ => rfl
  | remove c =>
    refine sim_map (φ := Option.isSome) ?_ fun _ => rfl
    show BSTSet.remove cfg c s = _
    unfold BSTSet.remove BSTSet.take
    have e : BSTSet.onItems (removeEntry cfg c) s =
        ((removeEntry cfg c s.items).1, ⟨(removeEntry cfg c s.items).2⟩) := onItems_eq rfl
    refine (M.map_eq (M.map_eq e)).trans ?_
    rw [Out.map_map]
    congr 1; congr 1; funext x; cases x <;> rfl
  | take c =>
    have e : BSTSet.onItems (removeEntry cfg c) s =
        ((removeEntry cfg c s.items).1, ⟨(removeEntry cfg c s.items).2⟩) := onItems_eq rfl
    exact sim_map (φ := Option.map fun e : T × Unit => e.1) (M.map_eq e) fun _ => rfl
  | get c =>
    refine sim_map (φ := Option.map (·.1)) ?_ fun _ => rfl
    show ((BSTSet.get c s), s) = _
    unfold BSTSet.get
    show _ = ((BSTMap.getEntry c s.items).map _, (⟨s.items⟩ : BSTSet T))
    cases BSTMap.getEntry c s.items <;> rfl
  | contains c => exact sim_same rfl fun _ => rfl
  | node path =>
    refine sim_same ?_ fun _ => ?_
    · show (setNodeAt path s, s) = (nodeAt path s.items, (⟨s.items⟩ : BSTSet T))
      unfold setNodeAt nodeAt BSTSet.rootNode
      congr 1; congr 1; funext n; exact goSetNode_eq s path n
    · simp only [SetOp.ret, Option.map_map]; rfl
  | iter o n =>
    simp only [SetOp.run, SetOp.toOp, Op.run, M.read_bind]
    cases o.iter s.items with
    | ok st =>
      rw [M.lift_ok_bind, M.lift_ok_bind, M.read_bind, M.read_bind, nexts_of]
      cases nexts (o.next s.items) n st <;> rfl
    | panic => rfl
    | abort => rfl
    | ub => rfl
    | diverge => rfl
  | len => exact sim_same rfl fun _ => rfl
  | isEmpty => exact sim_same rfl fun _ => rfl
  | capacity => rfl
  | clear d => exact sim_same (onItems_eq rfl) fun _ => rfl
  | reserve n => exact sim_same (onItems_eq rfl) fun _ => rfl
  | shrinkToFit => exact sim_same (onItems_eq rfl) fun _ => rfl
  | extend cmps src => exact sim_same (onItems_eq rfl) fun _ => rfl
  | debug dt => exact absurd rfl (hd dt)

end

/-! ### The `Debug` output and the node API -/

theorem setDebugNode_ok {dt : T → String} {s : Nodes T Unit} {p : Ptr} {l : Tree T Unit}
    {k : T} {v : Unit} {r : Tree T Unit} (h : (node p l k v r).Rep s.view) (fuel : Nat)
    (hf : (node p l k v r).height ≤ fuel) :
    ∃ str, BSTSet.debugNode dt s fuel ⟨p, ⟨k, v, l.root, r.root⟩⟩ = .ok str ∧
      debugOption (some str) = ((node p l k v r).bt.map (·.2.1)).debugSet dt := by
  induction fuel generalizing p l k v r with
  | zero => simp [height] at hf
  | succ fuel ih =>
    have hl : Node.left s ⟨p, ⟨k, v, l.root, r.root⟩⟩ = .ok l.nodeOpt := Node.newOpt_ok h.2.1
    have hr : Node.right s ⟨p, ⟨k, v, l.root, r.root⟩⟩ = .ok r.nodeOpt := Node.newOpt_ok h.2.2
    simp only [height] at hf
    unfold BSTSet.debugNode
    rw [hl, hr]
    simp only [Out.ok_bind]
    cases l with
    | leaf =>
      cases r with
      | leaf => exact ⟨_, rfl, rfl⟩
      | node rp rl rk rv rr =>
        obtain ⟨sr, e3, e4⟩ := ih h.2.2 (by omega)
        simp only [nodeOpt_node, e3, Out.ok_bind]
        exact ⟨_, rfl, by rw [bt, BT.map, BT.debugSet, ← e4]; rfl⟩
    | node lp ll lk lv lr =>
      obtain ⟨sl, e1, e2⟩ := ih h.2.1 (by omega)
      cases r with
      | leaf =>
        simp only [nodeOpt_node, e1, Out.ok_bind]
        exact ⟨_, rfl, by rw [bt, BT.map, BT.debugSet, ← e2]; rfl⟩
      | node rp rl rk rv rr =>
        obtain ⟨sr, e3, e4⟩ := ih h.2.2 (by omega)
        simp only [nodeOpt_node, e1, e3, Out.ok_bind]
        exact ⟨_, rfl, by rw [bt, BT.map, BT.debugSet, ← e2, ← e4]; rfl⟩

/-- The tree of elements. -/
def Tree.elems (t : Tree T Unit) : BT T := t.sh.map (·.1)

theorem elems_eq (t : Tree T Unit) : t.elems = t.bt.map (·.2.1) := by
  rw [Tree.elems, sh, Spec.BT.map_map]

theorem setDebug_spec {cfg : Cfg} {dt : T → String} {s : BSTSet T} {t : Tree T Unit}
    (h : Shape cfg s.items t) :
    s.debug dt = .ok ("BSTSet { root: " ++ t.elems.debugSet dt ++ " }") := by
  rw [elems_eq]
  unfold BSTSet.debug BSTSet.rootNode
  rw [rootNode_ok h.root h.rep, Out.ok_bind]
  cases t with
  | leaf => rfl
  | node p l k v r =>
    obtain ⟨str, e1, e2⟩ := setDebugNode_ok (dt := dt) h.rep _ (Nat.le_of_lt h.height_lt)
    rw [nodeOpt_node]
    simp only [e1, Out.ok_bind]
    rw [← e2]; rfl

theorem exploreSetNode_ok {s : BSTSet T} {t : Tree T Unit} (h : t.Rep s.items.nodes.view) (fuel : Nat)
    (hf : t.height ≤ fuel) : exploreSetNode s fuel t.nodeOpt = .ok (t.bt.map (·.2.1)) := by
  induction t generalizing fuel with
  | leaf => cases fuel <;> rfl
  | node p l k v r ihl ihr =>
    cases fuel with
    | zero => simp [height] at hf
    | succ fuel =>
      simp only [height] at hf
      have hl : Node.left s.items.nodes ⟨p, ⟨k, v, l.root, r.root⟩⟩ = .ok l.nodeOpt :=
        Node.newOpt_ok h.2.1
      have hr : Node.right s.items.nodes ⟨p, ⟨k, v, l.root, r.root⟩⟩ = .ok r.nodeOpt :=
        Node.newOpt_ok h.2.2
      simp only [nodeOpt_node, exploreSetNode, BSTSet.nodeLeft, BSTSet.nodeRight, hl, hr,
        Out.ok_bind, ihl h.2.1 fuel (by omega), ihr h.2.2 fuel (by omega), Out.pure_eq]
      rfl

theorem exploreSet_ok {cfg : Cfg} {s : BSTSet T} {t : Tree T Unit} (h : Shape cfg s.items t) :
    exploreSet s = .ok t.elems := by
  rw [elems_eq]
  unfold exploreSet BSTSet.rootNode
  rw [rootNode_ok h.root h.rep, Out.ok_bind]
  exact exploreSetNode_ok h.rep _ (Nat.le_of_lt h.height_lt)

/-! ### From entries to elements -/

section
variable {cmp : T → T → Ordering}

theorem Spec.BT.insert_elems (t : T) (b : BT (T × Unit)) :
    (b.insert cmp t ()).map (·.1) = (b.map (·.1)).add cmp t := by
  induction b with
  | nil => rfl
  | node l e r ihl ihr =>
    simp only [BT.insert, BT.map, BT.add]
    cases cmp t e.1 <;> simp only [BT.map, ihl, ihr]

theorem Spec.BT.insertList_elems (ts : List T) (b : BT (T × Unit)) :
    (BT.insertList cmp (ts.map fun t => (t, ())) b).map (·.1) = BT.addList cmp ts (b.map (·.1)) := by
  induction ts generalizing b with
  | nil => rfl
  | cons t ts ih =>
    simp only [List.map_cons, BT.insertList, List.foldl_cons, BT.addList]
    have := ih (b.insert cmp t ())
    rw [insert_elems] at this
    exact this

theorem Spec.BT.popMin_map {α β : Type} (g : α → β) (a : α) (r l : BT α) :
    BT.popMin (g a) (r.map g) (l.map g) = (g (BT.popMin a r l).1, (BT.popMin a r l).2.map g) := by
  induction l generalizing a r with
  | nil => rfl
  | node ll b lr ih _ => simp only [BT.map, BT.popMin, ih]

theorem Spec.BT.join_map {α β : Type} (g : α → β) (l r : BT α) :
    (BT.join l r).map g = BT.join (l.map g) (r.map g) := by
  cases l with
  | nil => rfl
  | node ll la lr =>
    cases r with
    | nil => rfl
    | node rl ra rr => simp only [BT.join, BT.map, popMin_map]

theorem Spec.BT.erase_elems (f : T → Ordering) (b : BT (T × Unit)) :
    (b.erase f).map (·.1) = (b.map (·.1)).discard f := by
  induction b with
  | nil => rfl
  | node l e r ihl ihr =>
    simp only [BT.erase, BT.map, BT.discard]
    cases f e.1 <;> simp only [BT.map, ihl, ihr, join_map]

theorem Spec.BT.info_elems (b : BT (T × Unit)) :
    b.info.map (fun n => (n.1, n.2.2.1, n.2.2.2)) = (b.map (·.1)).infoSet := by
  cases b with
  | nil => rfl
  | node l e r => cases l <;> cases r <;> rfl

theorem lookup_elems (hit : T → Bool) (l : List (T × Unit)) :
    (l.map (·.1)).find? hit = (lookup hit l).map (·.1) := by
  rw [lookup, List.find?_map]; rfl

theorem any_elems (hit : T → Bool) (l : List (T × Unit)) :
    (l.map (·.1)).any hit = (lookup hit l).isSome := by
  induction l with
  | nil => rfl
  | cons e l ih =>
    simp only [List.map_cons, List.any_cons, lookup, List.find?_cons]
    cases h : hit e.1
    · exact ih
    · rfl

theorem insert_elems (t : T) (l : List (T × Unit)) :
    (Spec.insert (hitOf (cmp t)) t () l).map (·.1) = Spec.add cmp t (l.map (·.1)) := by
  unfold Spec.insert Spec.add
  have : (l.any fun e => hitOf (cmp t) e.1) = (l.map (·.1)).any (hitOf (cmp t)) := by
    rw [List.any_map]; rfl
  rw [this]
  by_cases h : (l.map (·.1)).any (hitOf (cmp t)) = true
  · rw [if_pos h, if_pos h, List.map_map]
    apply List.map_congr_left
    intro e _
    simp only [Function.comp]
    split <;> rfl
  · rw [if_neg h, if_neg h]; rfl

theorem insertList_elems (ts : List T) (l : List (T × Unit)) :
    (Spec.insertList cmp (ts.map fun t => (t, ())) l).map (·.1) =
      Spec.addList cmp ts (l.map (·.1)) := by
  induction ts generalizing l with
  | nil => rfl
  | cons t ts ih =>
    simp only [List.map_cons, Spec.insertList, List.foldl_cons, Spec.addList]
    have := ih (Spec.insert (hitOf (cmp t)) t () l)
    rw [insert_elems] at this
    exact this

theorem remove_elems (hit : T → Bool) (l : List (T × Unit)) :
    (Spec.remove hit l).map (·.1) = Spec.discard hit (l.map (·.1)) := by
  unfold Spec.remove Spec.discard
  rw [List.filter_map]; rfl

theorem Queried.elems {C C' R R' : Type} {c : Probe T} {l l' : C} {o : Out R} {r : (T → Ordering) → R}
    {l1 : (T → Ordering) → C} {g : C → C'} {ret : R → R'} {r' : (T → Ordering) → R'}
    {l1' : (T → Ordering) → C'} (h : Queried cmp c l o l' r l1) (hr : ∀ f, ret (r f) = r' f)
    (hl : ∀ f, g (l1 f) = l1' f) : Queried cmp c (g l) (o.map ret) (g l') r' l1' := by
  intro f hf hc
  rcases h f hf hc with ⟨rfl, rfl⟩ | ⟨rfl, rfl, hp⟩
  · exact .inl ⟨by rw [← hr]; rfl, hl f⟩
  · exact .inr ⟨rfl, rfl, hp⟩

theorem Failed.map {R R' : Type} {o : Out R} (h : Failed o) (g : R → R') : Failed (o.map g) := by
  rcases h with rfl | rfl
  · exact .inl rfl
  · exact .inr rfl

theorem SetOp.Lawful.toOp {op : SetOp T} (h : op.Lawful cmp) : op.toOp.Lawful cmp := by
  cases op with
  | cloned cmps cloneT => exact ⟨h.1, h.2, fun _ _ e => (Option.some.inj e).symm⟩
  | _ => exact h

theorem SetOp.Calm.toOp {op : SetOp T} (h : op.Calm) : op.toOp.Calm := by
  cases op <;> exact h

theorem SetOp.Lawful.calm {op : SetOp T} (h : op.Lawful cmp) : op.Calm := by
  cases op <;> first | exact trivial | exact h

/-- From textbook trees of entries to textbook trees of elements. -/
theorem setTreeAnswer_of {b b' : BT (T × Unit)} {op : SetOp T} {o : Out (Ret T Unit)}
    (hd : ∀ dt, op ≠ .debug dt) (h : Spec.TreeAnswer cmp b o b' op.toOp) :
    Spec.SetTreeAnswer cmp (b.map (·.1)) (o.map op.ret) (b'.map (·.1)) op := by
  have hk : b' = b → b'.map (·.1) = b.map (·.1) := fun e => by rw [e]
  have hsize : (b.map (·.1)).size = b.size := Spec.BT.map_size _ _
  have hino : (b.map (·.1)).ino = b.ino.map (·.1) := Spec.BT.map_ino _ _
  cases op with
  | withCapacity n =>
    rcases h with ⟨rfl, rfl⟩ | ⟨h, rfl⟩
    · exact .inl ⟨rfl, rfl⟩
    · exact .inr ⟨Failed.map h _, rfl⟩
  | collect cmps src =>
    rcases h with ⟨rfl, rfl, hp⟩ | ⟨h, rfl⟩
    · exact .inl ⟨rfl, Spec.BT.insertList_elems _ _, hp⟩
    · exact .inr ⟨Failed.map h _, rfl⟩
  | cloned cmps cloneT =>
    rcases h with ⟨rfl, rfl⟩ | ⟨h, rfl⟩
    · exact .inl ⟨rfl, rfl⟩
    · exact .inr ⟨Failed.map h _, rfl⟩
  | insert c t =>
    have hany : ((b.map (·.1)).ino.any (hitOf (cmp t))) = (lookup (hitOf (cmp t)) b.ino).isSome := by
      rw [hino, any_elems]
    rcases h with ⟨rfl, rfl⟩ | ⟨rfl, rfl, hp⟩ | ⟨h, rfl, hn⟩
    · refine .inl ⟨?_, Spec.BT.insert_elems _ _⟩
      rw [hany]
      simp only [Out.map, SetOp.ret]
      cases lookup (hitOf (cmp t)) b.ino <;> rfl
    · exact .inr (.inl ⟨rfl, rfl, hp⟩)
    · exact .inr (.inr ⟨Failed.map h _, rfl, by rw [hany, hn]; rfl⟩)
  | remove c =>
    exact Queried.elems h (fun f => by rw [hino, any_elems]; rfl) fun f => Spec.BT.erase_elems f b
  | take c =>
    exact Queried.elems h (fun f => by rw [hino, lookup_elems]; rfl) fun f => Spec.BT.erase_elems f b
  | get c => exact Queried.elems h (fun f => by rw [hino, lookup_elems]; rfl) fun f => rfl
  | contains c => exact Queried.elems h (fun f => by rw [hino, List.any_map]; rfl) fun f => rfl
  | node path =>
    refine ⟨?_, hk h.2⟩
    rw [h.1]
    simp only [Out.map, SetOp.ret, Spec.BT.info_elems, Spec.BT.map_sub]
  | iter o n =>
    refine ⟨hk h.1, ?_⟩
    rw [h.2]
    simp only [Out.map, SetOp.ret, Spec.BT.map_order, List.map_take, List.map_append, List.map_map,
      List.map_replicate, Option.map_none]
    rfl
  | len => exact ⟨by rw [h.1, hsize]; rfl, hk h.2⟩
  | isEmpty => exact ⟨by rw [h.1, hsize]; rfl, hk h.2⟩
  | capacity =>
    obtain ⟨⟨n, h1, h2⟩, h3⟩ := h
    exact ⟨⟨n, by rw [hsize]; exact h1, by rw [h2]; rfl⟩, hk h3⟩
  | clear d => exact ⟨by rw [h.1]; rfl, by rw [h.2]; rfl⟩
  | reserve n =>
    refine ⟨?_, hk h.2⟩
    rcases h.1 with h1 | h1
    · exact .inl (by rw [h1]; rfl)
    · exact .inr (Failed.map h1 _)
  | shrinkToFit => exact ⟨by rw [h.1]; rfl, hk h.2⟩
  | extend cmps src =>
    obtain ⟨used, rest, h1, h2, h3⟩ := h
    have h1 : src.items.map (fun t => (t, ())) = used ++ rest := h1
    obtain ⟨u, r, e1, e2, e3⟩ := List.map_eq_append_iff.1 h1
    subst e2 e3
    refine ⟨u, r, e1, ?_, ?_⟩
    · rw [h2]; exact Spec.BT.insertList_elems _ _
    · rcases h3 with ⟨rfl, h4, h5⟩ | h3
      · exact .inl ⟨rfl, List.map_eq_nil_iff.1 h4, h5⟩
      · exact .inr (Failed.map h3 _)
  | debug dt => exact absurd rfl (hd dt)

/-- From association lists to lists of elements. -/
theorem setAnswer_of {l l' : List (T × Unit)} {op : SetOp T} {o : Out (Ret T Unit)}
    (hd : ∀ dt, op ≠ .debug dt) (h : Spec.Answer cmp l o l' op.toOp) :
    Spec.SetAnswer cmp (l.map (·.1)) (o.map op.ret) (l'.map (·.1)) op := by
  have hk : l' = l → l'.map (·.1) = l.map (·.1) := fun e => by rw [e]
  cases op with
  | withCapacity n =>
    rcases h with ⟨rfl, rfl⟩ | ⟨h, rfl⟩
    · exact .inl ⟨rfl, rfl⟩
    · exact .inr ⟨Failed.map h _, rfl⟩
  | collect cmps src =>
    rcases h with ⟨rfl, h, hp⟩ | ⟨h, rfl⟩
    · exact .inl ⟨rfl, (h.map _).trans (.of_eq (insertList_elems _ _)), hp⟩
    · exact .inr ⟨Failed.map h _, rfl⟩
  | cloned cmps cloneT =>
    rcases h with ⟨rfl, rfl⟩ | ⟨h, rfl⟩
    · exact .inl ⟨rfl, rfl⟩
    · exact .inr ⟨Failed.map h _, rfl⟩
  | insert c t =>
    rcases h with ⟨rfl, h⟩ | ⟨rfl, rfl, hp⟩ | ⟨h, rfl, hn⟩
    · refine .inl ⟨?_, (h.map _).trans (.of_eq (insert_elems _ _))⟩
      rw [any_elems]
      simp only [Out.map, SetOp.ret]
      cases lookup (hitOf (cmp t)) l <;> rfl
    · exact .inr (.inl ⟨rfl, rfl, hp⟩)
    · exact .inr (.inr ⟨Failed.map h _, rfl, by rw [any_elems, hn]; rfl⟩)
  | remove c => exact Queried.elems h (fun f => by rw [any_elems]; rfl) fun f => remove_elems _ _
  | take c => exact Queried.elems h (fun f => by rw [lookup_elems]; rfl) fun f => remove_elems _ _
  | get c => exact Queried.elems h (fun f => by rw [lookup_elems]; rfl) fun f => rfl
  | contains c => exact Queried.elems h (fun f => by rw [List.any_map]; rfl) fun f => rfl
  | node path =>
    obtain ⟨h1, h2⟩ := h
    refine ⟨hk h1, ?_⟩
    rcases h2 with rfl | ⟨k, v, hl, hr, hm, rfl⟩
    · exact .inl rfl
    · exact .inr ⟨k, hl, hr, List.mem_map.2 ⟨_, hm, rfl⟩, rfl⟩
  | iter o n =>
    obtain ⟨h1, xs, h2, h3, rfl⟩ := h
    refine ⟨hk h1, xs.map (·.1), h2.map _, fun e => (List.pairwise_map (f := fun e : T × Unit => e.1)).2 ?_, ?_⟩
    · exact h3 e
    simp only [Out.map, SetOp.ret, List.map_take, List.map_append, List.map_map,
      List.map_replicate, Option.map_none]
    rfl
  | len => exact ⟨by rw [h.1, List.length_map]; rfl, hk h.2⟩
  | isEmpty => exact ⟨by rw [h.1]; cases l <;> rfl, hk h.2⟩
  | capacity =>
    obtain ⟨⟨n, h1, h2⟩, h3⟩ := h
    exact ⟨⟨n, by rw [List.length_map]; exact h1, by rw [h2]; rfl⟩, hk h3⟩
  | clear d => exact ⟨by rw [h.1]; rfl, by rw [h.2]; rfl⟩
  | reserve n =>
    refine ⟨?_, hk h.2⟩
    rcases h.1 with h1 | h1
    · exact .inl (by rw [h1]; rfl)
    · exact .inr (Failed.map h1 _)
  | shrinkToFit => exact ⟨by rw [h.1]; rfl, hk h.2⟩
  | extend cmps src =>
    obtain ⟨used, rest, h1, h2, h3⟩ := h
    have h1 : src.items.map (fun t => (t, ())) = used ++ rest := h1
    obtain ⟨u, r, e1, e2, e3⟩ := List.map_eq_append_iff.1 h1
    subst e2 e3
    refine ⟨u, r, e1, (h2.map _).trans (.of_eq (insertList_elems _ _)), ?_⟩
    rcases h3 with ⟨rfl, h4, h5⟩ | h3
    · exact .inl ⟨rfl, List.map_eq_nil_iff.1 h4, h5⟩
    · exact .inr (Failed.map h3 _)
  | debug dt => exact absurd rfl (hd dt)

end

/-! ### Histories -/

theorem SetOp.run_shape {cfg : Cfg} {s : BSTSet T} {t : Tree T Unit} (h : Shape cfg s.items t)
    {op : SetOp T} (hop : op.Calm) :
    ∃ o s' t', op.run cfg s = (o, s') ∧ o.Safe ∧ Shape cfg s'.items t' := by
  by_cases hd : ∃ dt, op = .debug dt
  · obtain ⟨dt, rfl⟩ := hd
    refine ⟨_, s, t, M.map_eq (f := M.read (fun s : BSTSet T => s.debug dt)) rfl, Out.Safe.map ?_ _, h⟩
    show (s.debug dt).Safe
    rw [setDebug_spec h]
    exact trivial
  · obtain ⟨o, m', t', h1, h2, h3⟩ := BST.run_shape h hop.toOp
    exact ⟨_, _, t', by rw [SetOp.sim op (fun dt e => hd ⟨dt, e⟩), h1], h2.map _, h3⟩

theorem SetOp.run_tree {cfg : Cfg} {cmp : T → T → Ordering} [TransCmp cmp] {s : BSTSet T}
    {t : Tree T Unit} (h : Shape cfg s.items t) (hs : t.SortedBy cmp) {op : SetOp T}
    (hop : op.Lawful cmp) :
    ∃ o s' t', op.run cfg s = (o, s') ∧ Shape cfg s'.items t' ∧ t'.SortedBy cmp ∧
      Spec.SetTreeAnswer cmp t.elems o t'.elems op ∧
      Spec.SetAnswer cmp t.elems.ino o t'.elems.ino op := by
  by_cases hd : ∃ dt, op = .debug dt
  · obtain ⟨dt, rfl⟩ := hd
    refine ⟨_, s, t, M.map_eq (f := M.read (fun s : BSTSet T => s.debug dt)) rfl, h, hs, ?_, ?_⟩
    · exact ⟨congrArg (Out.map SetRet.text) (setDebug_spec h), rfl⟩
    · exact ⟨⟨_, congrArg (Out.map SetRet.text) (setDebug_spec h)⟩, rfl⟩
  · have hd' : ∀ dt, op ≠ .debug dt := fun dt e => hd ⟨dt, e⟩
    obtain ⟨o, m', t', h1, h2, h3, h4⟩ := BST.run_tree h hs hop.toOp
    refine ⟨_, _, t', by rw [SetOp.sim op hd', h1], h2, h3, setTreeAnswer_of hd' h4, ?_⟩
    have := setAnswer_of hd' (answer_of_tree hs hop.toOp h4)
    rwa [← sh_ino, ← sh_ino, ← Spec.BT.map_ino, ← Spec.BT.map_ino] at this

/-- A sequence of calls conforms to two specifications if every single call does. -/
theorem execute_conforms {S O R C D : Type} {run : O → M S R} {good : O → Prop}
    {ans : C → Out R → C → O → Prop} {ans' : D → Out R → D → O → Prop} {Ok : S → C → D → Prop}
    (hstep : ∀ s c d op, Ok s c d → good op → ∃ o s' c' d', run op s = (o, s') ∧ o.Safe ∧
      Ok s' c' d' ∧ ans c o c' op ∧ ans' d o d' op)
    (ops : List O) {s : S} {c : C} {d : D} (h : Ok s c d) (hops : ∀ op ∈ ops, good op) :
    ∃ os s' c' d', execute run ops s = (os, s') ∧ Ok s' c' d' ∧
      Spec.Conforms ans ops os c c' ∧ Spec.Conforms ans' ops os d d' ∧ ∀ o ∈ os, o.Safe := by
  induction ops generalizing s c d with
  | nil => exact ⟨[], s, c, d, rfl, h, rfl, rfl, by simp⟩
  | cons op ops ih =>
    obtain ⟨o, s1, c1, d1, h1, h2, h3, h4, h5⟩ := hstep s c d op h (hops op (by simp))
    obtain ⟨os, s', c', d', g1, g2, g3, g4, g5⟩ := ih h3 fun op hop => hops op (by simp [hop])
    cases o with
    | ok r =>
      exact ⟨.ok r :: os, s', c', d', by simp only [execute, h1, g1], g2,
        ⟨_, h4, .inr ⟨by simp, g3⟩⟩, ⟨_, h5, .inr ⟨by simp, g4⟩⟩,
        fun o ho => (List.mem_cons.1 ho).elim (fun e => e ▸ h2) (g5 o)⟩
    | panic =>
      exact ⟨.panic :: os, s', c', d', by simp only [execute, h1, g1], g2,
        ⟨_, h4, .inr ⟨by simp, g3⟩⟩, ⟨_, h5, .inr ⟨by simp, g4⟩⟩,
        fun o ho => (List.mem_cons.1 ho).elim (fun e => e ▸ h2) (g5 o)⟩
    | abort =>
      exact ⟨[.abort], s1, c1, d1, by simp only [execute, h1], h3,
        ⟨_, h4, .inl ⟨rfl, rfl, rfl⟩⟩, ⟨_, h5, .inl ⟨rfl, rfl, rfl⟩⟩,
        fun o ho => (List.mem_singleton.1 ho) ▸ h2⟩
    | ub => exact h2.elim
    | diverge => exact h2.elim

theorem setHistory_tree {cfg : Cfg} {cmp : T → T → Ordering} [TransCmp cmp] (ops : List (SetOp T))
    {s : BSTSet T} {t : Tree T Unit} (h : Shape cfg s.items t) (hs : t.SortedBy cmp)
    (hops : ∀ op ∈ ops, op.Lawful cmp) :
    ∃ os s' t', setHistory cfg ops s = (os, s') ∧ Shape cfg s'.items t' ∧ t'.SortedBy cmp ∧
      Spec.Conforms (Spec.SetTreeAnswer cmp) ops os t.elems t'.elems ∧
      Spec.Conforms (Spec.SetAnswer cmp) ops os t.elems.ino t'.elems.ino := by
  obtain ⟨os, s', c', d', h1, ⟨t', h2, h3, rfl, rfl⟩, h4, h5, _⟩ :=
    execute_conforms (run := SetOp.run cfg) (good := fun op => op.Lawful cmp)
      (ans := Spec.SetTreeAnswer cmp) (ans' := Spec.SetAnswer cmp)
      (Ok := fun s c d => ∃ t, Shape cfg s.items t ∧ t.SortedBy cmp ∧ c = t.elems ∧ d = t.elems.ino)
      (fun s c d op ⟨t, h, hs, hc, hd⟩ hop => by
        subst hc hd
        obtain ⟨o, s', t', h1, h2, h3, h4, h5⟩ := SetOp.run_tree h hs hop
        obtain ⟨o', s'', t'', g1, g2, _⟩ := SetOp.run_shape h (SetOp.Lawful.calm hop)
        cases h1.symm.trans g1
        exact ⟨o, s', _, _, h1, g2, ⟨t', h2, h3, rfl, rfl⟩, h4, h5⟩)
      ops ⟨t, h, hs, rfl, rfl⟩ hops
  exact ⟨os, s', t', h1, h2, h3, h4, h5⟩

theorem setHistory_shape {cfg : Cfg} (ops : List (SetOp T)) {s : BSTSet T} {t : Tree T Unit}
    (h : Shape cfg s.items t) (hops : ∀ op ∈ ops, op.Calm) :
    ∃ os s' t', setHistory cfg ops s = (os, s') ∧ Shape cfg s'.items t' ∧ ∀ o ∈ os, o.Safe := by
  obtain ⟨os, s', c', d', h1, ⟨t', h2⟩, _, _, h5⟩ :=
    execute_conforms (run := SetOp.run cfg) (good := SetOp.Calm)
      (ans := fun (_ : Unit) _ _ _ => True) (ans' := fun (_ : Unit) _ _ _ => True)
      (Ok := fun s _ _ => ∃ t, Shape cfg s.items t)
      (fun s c d op ⟨t, h⟩ hop => by
        obtain ⟨o, s', t', g1, g2, g3⟩ := SetOp.run_shape h hop
        exact ⟨o, s', c, d, g1, g2, ⟨t', g3⟩, trivial, trivial⟩)
      ops (c := ()) (d := ()) ⟨t, h⟩ hops
  exact ⟨os, s', t', h1, h2, h5⟩

/-! ### Iteration, equality, `bstset!` -/

theorem drain_of {next : Stack → Out (Option (T × Unit) × Stack)} (fuel : Nat) (st : Stack) :
    drain fuel (BSTSet.nextOf next) st = (drain fuel next st).map (List.map (·.1)) := by
  unfold drain
  rw [show ([] : List T) = ([] : List (T × Unit)).map (·.1) from rfl]
  generalize ([] : List (T × Unit)) = acc
  induction fuel generalizing st acc with
  | zero => rfl
  | succ fuel ih =>
    rw [loop_succ, loop_succ]
    simp only [BSTSet.nextOf]
    cases next st with
    | ok r =>
      obtain ⟨x, st1⟩ := r
      cases x with
      | none =>
        simp only [Out.ok_bind, Out.pure_eq, Option.map_none]
        rw [← List.map_reverse]; rfl
      | some e =>
        simp only [Out.ok_bind, Out.pure_eq, Option.map_some]
        exact ih st1 (e :: acc)
    | panic => rfl
    | abort => rfl
    | ub => rfl
    | diverge => rfl

theorem Out.bind_map {α β γ : Type} (o : Out α) (f : α → Out β) (g : β → γ) :
    (o >>= fun a => (f a).map g) = (o >>= f).map g := by cases o <;> rfl

theorem setInorder_spec {cfg : Cfg} {s : BSTSet T} {t : Tree T Unit} (h : Shape cfg s.items t) :
    s.iterInorder = .ok t.elems.ino := by
  have e : s.iterInorder = s.items.iterInorder.map (List.map (·.1)) := by
    unfold BSTSet.iterInorder BSTMap.iterInorder
    simp only [drain_of, Out.bind_map]
  rw [e, iterInorder_spec h, Tree.elems, Spec.BT.map_ino, sh_ino]; rfl

theorem setPreorder_spec {cfg : Cfg} {s : BSTSet T} {t : Tree T Unit} (h : Shape cfg s.items t) :
    s.iterPreorder = .ok t.elems.pre := by
  have e : s.iterPreorder = s.items.iterPreorder.map (List.map (·.1)) := by
    unfold BSTSet.iterPreorder BSTMap.iterPreorder
    simp only [drain_of, Out.bind_map]
  have h1 := Spec.BT.map_order (·.1) .pre t.sh
  rw [sh_order] at h1
  rw [e, iterPreorder_spec h]
  exact congrArg _ h1.symm

theorem setPostorder_spec {cfg : Cfg} {s : BSTSet T} {t : Tree T Unit} (h : Shape cfg s.items t) :
    s.iterPostorder = .ok t.elems.post := by
  have e : s.iterPostorder = s.items.iterPostorder.map (List.map (·.1)) := by
    unfold BSTSet.iterPostorder BSTMap.iterPostorder
    simp only [drain_of, Out.bind_map]
  have h1 := Spec.BT.map_order (·.1) .post t.sh
  rw [sh_order] at h1
  rw [e, iterPostorder_spec h]
  exact congrArg _ h1.symm

theorem sameBy_elems (teq : T → T → Bool) (la lb : List (T × Unit)) :
    Spec.sameBy teq (fun _ _ => true) la lb =
      (decide (la.length = lb.length) && (List.zipWith teq (la.map (·.1)) (lb.map (·.1))).all id) := by
  induction la generalizing lb with
  | nil => cases lb <;> simp [Spec.sameBy]
  | cons a la ih =>
    cases lb with
    | nil => simp [Spec.sameBy]
    | cons b lb =>
      simp only [Spec.sameBy, ih, List.map_cons, List.zipWith_cons_cons, List.all_cons,
        List.length_cons, Nat.add_right_cancel_iff, Bool.and_true, id]
      cases teq a.1 b.1 <;> simp

theorem setEq_spec {cfg : Cfg} {teq : T → T → Bool} {a b : BSTSet T} {ta tb : Tree T Unit}
    (ha : Shape cfg a.items ta) (hb : Shape cfg b.items tb) :
    BSTSet.eq cfg teq a b = .ok (decide (ta.elems.ino.length = tb.elems.ino.length) &&
      (List.zipWith teq ta.elems.ino tb.elems.ino).all id) := by
  unfold BSTSet.eq
  rw [eq_spec ha hb, sameBy_elems, Tree.elems, Tree.elems, Spec.BT.map_ino, Spec.BT.map_ino,
    sh_ino, sh_ino, List.length_map, List.length_map]

theorem setInsertAll_sim {cfg : Cfg} {cmps : Nat → T → Probe T} (ts : List T) : ∀ (n : Nat) (s : BSTSet T),
    BSTSet.insertAll cfg cmps n ts s =
      ((BSTMap.insertAll cfg cmps n (ts.map fun t => (t, ())) s.items).1,
        ⟨(BSTMap.insertAll cfg cmps n (ts.map fun t => (t, ())) s.items).2⟩) := by
  induction ts with
  | nil => intro n s; rfl
  | cons t ts ih =>
    intro n s
    rw [List.map_cons]
    unfold BSTSet.insertAll BSTMap.insertAll
    have e : BSTSet.insert cfg (cmps n t) t s =
        ((BSTMap.insert cfg (cmps n t) t () s.items).1.map Option.isNone,
          ⟨(BSTMap.insert cfg (cmps n t) t () s.items).2⟩) := M.map_eq (onItems_eq rfl)
    rw [M.bind_apply, M.bind_apply, e]
    cases BSTMap.insert cfg (cmps n t) t () s.items with
    | mk o m =>
      cases o with
      | ok r => exact ih (n + 1) ⟨m⟩
      | panic => rfl
      | abort => rfl
      | ub => rfl
      | diverge => rfl

theorem bstset_ok {cfg : Cfg} {cmps : Nat → T → Probe T} {ts : List T} {s : BSTSet T}
    (h : bstset cfg cmps ts = (.ok (), s)) :
    ∃ m, BSTMap.withCapacity cfg ts.length = (.ok (), m) ∧ Shape cfg m .leaf ∧
      BSTMap.insertAll cfg cmps 0 (ts.map fun t => (t, ())) m = (.ok (), s.items) := by
  obtain ⟨o, m, h1, h2, h3⟩ := withCapacity_spec (K := T) (V := Unit) cfg ts.length
  unfold bstset BSTSet.withCapacity at h
  rw [h1] at h
  cases o with
  | ok u =>
    refine ⟨m, h1, h2, ?_⟩
    have h : BSTSet.insertAll cfg cmps 0 ts ⟨m⟩ = (.ok (), s) := h
    rw [setInsertAll_sim] at h
    have e1 := congrArg Prod.fst h
    have e2 := congrArg (fun x => BSTSet.items x.2) h
    exact Prod.ext e1 e2
  | panic => cases h
  | abort => cases h
  | ub => cases h
  | diverge => cases h

end BST
