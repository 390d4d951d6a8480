import Verif.SimpleHistory
import Verif.Proofs.SimpleIter
/-!
# What the calls on a `SimpleBSTMap` do to the tree
-/
set_option linter.unusedSimpArgs false
namespace BST.Simple
variable {K V : Type}
open Spec (BT Order)

namespace Link

theorem ins_panic {c : Probe K} {k : K} {v : V} {i : Nat} {t : Link K V} (h : t.find c i = .panic) :
    t.ins c k v i = t := by
  induction t generalizing i with
  | nil => cases h
  | node k' v' l r ihl ihr =>
    unfold find at h
    unfold ins
    cases hc : c i k' with
    | none => rfl
    | some o =>
      rw [hc] at h
      cases o with
      | lt => exact congrArg (fun x => node k' v' x r) (ihl h)
      | gt => exact congrArg (fun x => node k' v' l x) (ihr h)
      | eq => cases h

theorem del_panic {c : Probe K} {i : Nat} {t : Link K V} (h : t.find c i = .panic) :
    t.del c i = t := by
  induction t generalizing i with
  | nil => cases h
  | node k' v' l r ihl ihr =>
    unfold find at h
    unfold del
    cases hc : c i k' with
    | none => rfl
    | some o =>
      rw [hc] at h
      cases o with
      | lt => exact congrArg (fun x => node k' v' x r) (ihl h)
      | gt => exact congrArg (fun x => node k' v' l x) (ihr h)
      | eq => cases h

/-- The tree with a given view. -/
def ofView : BT (K × V) → Link K V
  | .nil => nil
  | .node l e r => node e.1 e.2 (ofView l) (ofView r)

theorem ofView_view (t : Link K V) : ofView t.view = t := by
  induction t with
  | nil => rfl
  | node k v l r ihl ihr => simp [view, ofView, ihl, ihr]

theorem view_ofView (b : BT (K × V)) : (ofView b).view = b := by
  induction b with
  | nil => rfl
  | node l e r ihl ihr => simp [view, ofView, ihl, ihr]

/-- Replace the value at a place. -/
def setAt (w : V) (p : Place) (t : Link K V) : Link K V :=
  match t.at' p with
  | nil => t
  | node k _ l r => put (node k w l r) p t

theorem setAt_size (w : V) (p : Place) (t : Link K V) : (t.setAt w p).size = t.size := by
  unfold setAt
  split
  · rfl
  · rename_i k v l r h
    have := size_put p (node k w l r) t (by rw [h]; simp)
    rw [h] at this
    simp only [size] at this
    omega
end Link

/-! ### A semantics without failures of the allocator -/

def semIns (cmps : Nat → K → Probe K) : Nat → List (K × V) → Link K V → Out Unit × Link K V
  | _, [], t => (.ok (), t)
  | n, (k, v) :: rest, t =>
    match t.find (cmps n k) 0 with
    | .ok _ => semIns cmps (n + 1) rest (t.ins (cmps n k) k v 0)
    | _ => (.panic, t)

def semSrc (cmps : Nat → K → Probe K) (src : BSTMap.Source K V) (t : Link K V) :
    Out Unit × Link K V :=
  match semIns cmps 0 src.items t with
  | (.ok _, t') => (if src.panics then .panic else .ok (), t')
  | (_, t') => (.panic, t')

def sem : SimpleOp K V → Link K V → Out (Ret K V) × Link K V
  | .collect cmps src, t =>
    match semSrc cmps src .nil with
    | (.ok _, t') => (.ok .unit, t')
    | _ => (.panic, t)
  | .cloned cloneK cloneV, t =>
    match t.view.mapM (clonePair cloneK cloneV) with
    | some b => (.ok .unit, .ofView b)
    | none => (.panic, t)
  | .insert c k v, t => ((t.find c 0).map fun e => .value (e.map (·.2)), t.ins c k v 0)
  | .remove c, t => ((t.find c 0).map fun e => .value (e.map (·.2)), t.del c 0)
  | .removeEntry c, t => ((t.find c 0).map fun e => .entry e, t.del c 0)
  | .get c, t => ((t.find c 0).map fun e => .value (e.map (·.2)), t)
  | .getEntry c, t => ((t.find c 0).map fun e => .entry e, t)
  | .containsKey c, t => ((t.find c 0).map fun e => .bool e.isSome, t)
  | .getMut c w, t => ((t.find c 0).map fun e => .value (e.map (·.2)),
      match t.find c 0 with
      | .ok (some _) => t.setAt w (t.path c 0)
      | _ => t)
  | .node path, t => (.ok (.node (t.view.sub path).info), t)
  | .nodeMut path w, t => (.ok (.entry (t.view.sub path).label), t.setAt w path)
  | .iter o n, t => (.ok (.items (((t.view.order o).map some ++ List.replicate n none).take n)), t)
  | .iterMut _ n, t => (if n = 0 then .ok .unit else .panic, t)
  | .len, t => (.ok (.nat t.size), t)
  | .isEmpty, t => (.ok (.bool (t.size == 0)), t)
  | .clear, _ => (.ok .unit, .nil)
  | .extend cmps src, t => ((semSrc cmps src t).1.map fun _ => .unit, (semSrc cmps src t).2)
  | .debug dk dv, t => (.ok (.text ("SimpleBSTMap { root: " ++ t.view.debugMap dk dv ++ ", len: " ++
      toString t.size ++ " }")), t)

theorem semIns_cases (cmps : Nat → K → Probe K) (l : List (K × V)) (n : Nat) (t : Link K V) :
    ∃ o t', semIns cmps n l t = (o, t') ∧ (o = .ok () ∨ o = .panic) ∧ t'.size ≤ t.size + l.length := by
  induction l generalizing n t with
  | nil => exact ⟨_, _, rfl, .inl rfl, Nat.le_refl _⟩
  | cons e l ih =>
    obtain ⟨k, v⟩ := e
    rcases t.find_ok_or_panic (cmps n k) 0 with hf | ⟨e, hf⟩
    · refine ⟨.panic, t, ?_, .inr rfl, by omega⟩
      rw [semIns, hf]
    · obtain ⟨o, t', h1, h2, h3⟩ := ih (n + 1) (t.ins (cmps n k) k v 0)
      refine ⟨o, t', by rw [semIns, hf]; exact h1, h2, ?_⟩
      have := Link.ins_size hf k v
      rw [List.length_cons]
      split at this <;> omega

/-! ### The node API -/

theorem goRef_eq (path : List Bool) (t : Link K V) (q : Place) :
    goRef path (Ref.of q t) = Ref.of (q ++ path) (t.at' path) := by
  induction path generalizing t q with
  | nil => simp [goRef]
  | cons b path ih =>
    cases t with
    | nil => simp [goRef, Ref.of, Link.at']
    | node k v l r =>
      cases b
      · have := ih l (q ++ [false])
        simpa [goRef, Ref.of, Ref.leftRef, Link.at'] using this
      · have := ih r (q ++ [true])
        simpa [goRef, Ref.of, Ref.rightRef, Link.at'] using this

theorem view_at (path : List Bool) (t : Link K V) : (t.at' path).view = t.view.sub path := by
  induction path generalizing t with
  | nil => cases t <;> rfl
  | cons b path ih =>
    cases t with
    | nil => rfl
    | node k v l r => cases b <;> exact ih _

theorem goMut_eq (path : List Bool) (q : Place) (w : Own K V) :
    goMut path ((Ref.of q (w.root.at' q)).map (·.place)) w =
      (.ok ((Ref.of (q ++ path) (w.root.at' (q ++ path))).map (·.place)), w) := by
  induction path generalizing q with
  | nil => simp [goMut]
  | cons b path ih =>
    cases ht : w.root.at' q with
    | nil =>
      have : w.root.at' (q ++ b :: path) = .nil := by rw [Link.at_append, ht]; rfl
      rw [this]
      rfl
    | node k v l r =>
      cases b
      · have h1 := ih (q ++ [false])
        rw [Link.at_left ht, List.append_assoc] at h1
        show (Own.leftMut q >>= fun c => goMut path c) w = _
        rw [M.bind_ok (leftMut_ok ht)]
        exact h1
      · have h1 := ih (q ++ [true])
        rw [Link.at_right ht, List.append_assoc] at h1
        show (Own.rightMut q >>= fun c => goMut path c) w = _
        rw [M.bind_ok (rightMut_ok ht)]
        exact h1

theorem nodeMutAt_eq (path : List Bool) (m : Map K V) :
    nodeMutAt path m = (.ok ((Ref.of path (m.root.at' path)).map (·.place)), m) := by
  unfold nodeMutAt
  rw [M.get_bind]
  refine Map.onRoot_pure ?_
  have := goMut_eq path [] ⟨m.root, m.allocs⟩
  simpa [Map.rootMut, Map.rootRef] using this

theorem exploreRef_eq (n : Nat) (t : Link K V) (q : Place) (h : t.size < n) :
    exploreRef n (Ref.of q t) = t.view := by
  induction n generalizing t q with
  | zero => omega
  | succ n ih =>
    cases t with
    | nil => rfl
    | node k v l r =>
      simp only [Link.size] at h
      show BT.node (exploreRef n (Ref.of (q ++ [false]) l)) (k, v) (exploreRef n (Ref.of (q ++ [true]) r)) =
        .node l.view (k, v) r.view
      rw [ih l _ (by omega), ih r _ (by omega)]

theorem explore_eq (m : Map K V) : explore m = m.root.view :=
  exploreRef_eq _ _ _ (Nat.lt_succ_self _)

theorem goRef_info (t : Link K V) (q : Place) :
    ((Ref.of q t).map fun n => (n.key, n.value, n.hasLeft, n.hasRight)) = t.view.info := by
  cases t with
  | nil => rfl
  | node k v l r => cases l <;> cases r <;> rfl

/-! ### The calls -/

theorem insertAll_sem {cfg : Cfg} (he : 2 ≤ cfg.esize) (cmps : Nat → K → Probe K)
    (l : List (K × V)) (n : Nat) {m : Map K V} (hw : Wf m) :
    ∃ o m', Map.insertAll cfg cmps n l m = (o, m') ∧
      (((o, m'.root) = semIns cmps n l m.root ∧ Wf m') ∨
       (o = .abort ∧ ¬ Plenty cfg (m.root.size + l.length))) := by
  induction l generalizing n m with
  | nil => exact ⟨_, _, rfl, .inl ⟨rfl, hw⟩⟩
  | cons e l ih =>
    obtain ⟨k, v⟩ := e
    rcases Map.insert_spec he (cmps n k) k v m hw with ⟨hf, hi⟩ | ⟨e, a, len, hf, hi, hl⟩ |
      ⟨hf, hi, hp⟩
    · refine ⟨.panic, m, M.bind_panic hi, .inl ⟨?_, hw⟩⟩
      rw [semIns, hf]
    · obtain ⟨o, m', h1, h2⟩ := ih (n + 1) (m := ⟨m.root.ins (cmps n k) k v 0, len, a⟩) hl
      refine ⟨o, m', (M.bind_ok hi).trans h1, ?_⟩
      rcases h2 with ⟨h2, h3⟩ | ⟨h2, h3⟩
      · refine .inl ⟨?_, h3⟩
        rw [h2, semIns, hf]
      · refine .inr ⟨h2, fun hp => h3 (hp.mono ?_)⟩
        have := Link.ins_size hf k v
        simp only [List.length_cons]
        split at this <;> omega
    · exact ⟨.abort, m, M.bind_abort hi, .inr ⟨rfl, fun h => hp (h.mono (by omega))⟩⟩

theorem extend_sem {cfg : Cfg} (he : 2 ≤ cfg.esize) (cmps : Nat → K → Probe K)
    (src : BSTMap.Source K V) {m : Map K V} (hw : Wf m) :
    ∃ o m', Map.extend cfg cmps src m = (o, m') ∧
      (((o, m'.root) = semSrc cmps src m.root ∧ Wf m') ∨
       (o = .abort ∧ ¬ Plenty cfg (m.root.size + src.items.length))) := by
  obtain ⟨o, m', h1, ⟨h2, h3⟩ | ⟨rfl, h3⟩⟩ := insertAll_sem he cmps src.items 0 hw
  · obtain ⟨o', t', g1, g2, _⟩ := semIns_cases cmps src.items 0 m.root
    have hs := h2.trans g1
    have ho : o = o' := (Prod.mk.inj hs).1
    subst ho
    rcases g2 with rfl | rfl
    · refine ⟨if src.panics then .panic else .ok (), m', ?_, .inl ⟨?_, h3⟩⟩
      · refine (M.bind_ok h1).trans ?_
        cases src.panics <;> rfl
      · rw [semSrc, ← h2]
    · refine ⟨.panic, m', M.bind_panic h1, .inl ⟨?_, h3⟩⟩
      rw [semSrc, ← h2]
  · exact ⟨.abort, m', M.bind_abort h1, .inr ⟨rfl, h3⟩⟩

theorem assign_ok {f : Map K V → Out Unit × Map K V} {m m' : Map K V} (h : f m = (.ok (), m')) :
    assign f m = (.ok (), m') := by unfold assign; rw [h]

theorem assign_panic {f : Map K V → Out Unit × Map K V} {m m' : Map K V} (h : f m = (.panic, m')) :
    assign f m = (.panic, { m with allocs := m'.allocs }) := by unfold assign; rw [h]

theorem assign_abort {f : Map K V → Out Unit × Map K V} {m m' : Map K V} (h : f m = (.abort, m')) :
    assign f m = (.abort, { m with allocs := m'.allocs }) := by unfold assign; rw [h]

theorem get_pure {σ α : Type} (f : σ → α) (s : σ) :
    (do let s ← M.get; pure (f s) : M σ α) s = (.ok (f s), s) := rfl

theorem debug_run (cfg : Cfg) (dk : K → String) (dv : V → String) (m : Map K V) :
    (SimpleOp.debug dk dv).run cfg m = (.ok (.text (m.debug dk dv)), m) := by
  unfold SimpleOp.run
  exact get_pure (fun m => Ret.text (m.debug dk dv)) m

theorem debug_text (dk : K → String) (dv : V → String) {m : Map K V} (hw : Wf m) :
    m.debug dk dv = "SimpleBSTMap { root: " ++ m.root.view.debugMap dk dv ++ ", len: " ++
      toString m.root.size ++ " }" := by
  have e : m.debug dk dv = "SimpleBSTMap { root: " ++ Map.debugLink dk dv m.root ++ ", len: " ++
      toString m.len ++ " }" := by
    unfold Map.debug
    exact Eq.refl _
  refine e.trans ?_
  have h : m.len = m.root.size := hw
  have h2 := Map.debugLink_eq dk dv m.root
  generalize Map.debugLink dk dv m.root = x at *
  generalize m.len = y at *
  subst h h2
  exact Eq.refl _

theorem run_sem {cfg : Cfg} (he : 2 ≤ cfg.esize) (cmp : K → K → Ordering) {m : Map K V} (hw : Wf m)
    (op : SimpleOp K V) :
    ∃ o m', op.run cfg m = (o, m') ∧
      (((o, m'.root) = sem op m.root ∧ Wf m') ∨
       (o = .abort ∧ op.Allocates ∧ ¬ Plenty cfg (m.root.size + (op.twin cmp).demand))) := by
  have hw' : m.len = m.root.size := hw
  cases op with
  | collect cmps src =>
    obtain ⟨o, m', h1, h2⟩ := extend_sem he cmps src
      (m := ⟨.nil, 0, m.allocs⟩) rfl
    have h1 : Map.fromIter cfg cmps src m.allocs = (o, m') := h1
    rcases h2 with ⟨h2, h3⟩ | ⟨rfl, h3⟩
    · simp only at h2
      have hcase : o = .ok () ∨ o = .panic := by
        rw [semSrc] at h2
        split at h2
        · rw [(Prod.mk.inj h2).1]
          split
          · exact .inr rfl
          · exact .inl rfl
        · exact .inr (Prod.mk.inj h2).1
      rcases hcase with rfl | rfl
      · refine ⟨_, _, M.map_eq (assign_ok h1), .inl ⟨?_, h3⟩⟩
        rw [sem, ← h2]; rfl
      · refine ⟨_, _, M.map_eq (assign_panic (f := fun m => Map.fromIter cfg cmps src m.allocs) h1),
          .inl ⟨?_, hw⟩⟩
        rw [sem, ← h2]; rfl
    · refine ⟨_, _, M.map_eq (assign_abort (f := fun m => Map.fromIter cfg cmps src m.allocs) h1),
        .inr ⟨rfl, trivial, fun hp => h3 (hp.mono ?_)⟩⟩
      simp only [Link.size, SimpleOp.twin, Op.demand]
      omega
  | cloned cloneK cloneV =>
    rcases Map.clone_spec cfg cloneK cloneV m hw with ⟨m', h1, h2, h3⟩ | ⟨m', h1, h2⟩ | ⟨m', h1, h2⟩
    · refine ⟨_, _, M.map_eq (assign_ok h3), .inl ⟨?_, h2⟩⟩
      rw [sem, h1]; simp only [Link.ofView_view]; rfl
    · refine ⟨_, _, M.map_eq (assign_panic h2), .inl ⟨?_, hw⟩⟩
      rw [sem, h1]; rfl
    · exact ⟨_, _, M.map_eq (assign_abort h1), .inr ⟨rfl, trivial, fun hp => h2 hp.2⟩⟩
  | insert c k v =>
    rcases Map.insert_spec he c k v m hw with ⟨hf, hi⟩ | ⟨e, a, len, hf, hi, hl⟩ | ⟨hf, hi, hp⟩
    · refine ⟨_, _, M.map_eq hi, .inl ⟨?_, hw⟩⟩
      rw [sem, hf, Link.ins_panic hf]; rfl
    · refine ⟨_, _, M.map_eq hi, .inl ⟨?_, hl⟩⟩
      rw [sem, hf]; rfl
    · exact ⟨_, _, M.map_eq hi, .inr ⟨rfl, trivial, fun h => hp (h.mono (by omega))⟩⟩
  | remove c =>
    rcases Map.removeEntry_spec cfg c m hw with ⟨hf, hi⟩ | ⟨e, a, len, hf, hi, hl⟩ | ⟨m', hi, hp⟩
    · refine ⟨_, _, M.map_eq (M.map_eq hi), .inl ⟨?_, hw⟩⟩
      rw [sem, hf, Link.del_panic hf]; rfl
    · refine ⟨_, _, M.map_eq (M.map_eq hi), .inl ⟨?_, hl⟩⟩
      rw [sem, hf]; rfl
    · exact ⟨_, _, M.map_eq (M.map_eq hi), .inr ⟨rfl, trivial, fun h => hp (h.mono (by omega))⟩⟩
  | removeEntry c =>
    rcases Map.removeEntry_spec cfg c m hw with ⟨hf, hi⟩ | ⟨e, a, len, hf, hi, hl⟩ | ⟨m', hi, hp⟩
    · refine ⟨_, _, M.map_eq hi, .inl ⟨?_, hw⟩⟩
      rw [sem, hf, Link.del_panic hf]
    · refine ⟨_, _, M.map_eq hi, .inl ⟨?_, hl⟩⟩
      rw [sem, hf]
    · exact ⟨_, _, M.map_eq hi, .inr ⟨rfl, trivial, fun h => hp (h.mono (by omega))⟩⟩
  | get c =>
    refine ⟨_, _, M.map_eq (f := M.read (Map.get c)) rfl, .inl ⟨?_, hw⟩⟩
    rw [get_spec, sem]
    rcases m.root.find_ok_or_panic c 0 with hf | ⟨e, hf⟩ <;> rw [hf] <;> rfl
  | getEntry c =>
    refine ⟨_, _, M.map_eq (f := M.read (Map.getEntry c)) rfl, .inl ⟨?_, hw⟩⟩
    rw [getEntry_spec]; rfl
  | containsKey c =>
    refine ⟨_, _, M.map_eq (f := M.read (Map.containsKey c)) rfl, .inl ⟨?_, hw⟩⟩
    rw [containsKey_spec, sem]
    rcases m.root.find_ok_or_panic c 0 with hf | ⟨e, hf⟩ <;> rw [hf] <;> rfl
  | getMut c w =>
    have hg := Map.getMut_spec c m
    rcases m.root.find_ok_or_panic c 0 with hf | ⟨e, hf⟩
    · rw [hf] at hg
      refine ⟨_, _, M.bind_panic hg, .inl ⟨?_, hw⟩⟩
      rw [sem, hf]; rfl
    · rw [hf] at hg
      cases e with
      | none =>
        refine ⟨.ok (.value none), m, M.bind_ok hg, .inl ⟨?_, hw⟩⟩
        rw [sem, hf]; rfl
      | some e =>
        obtain ⟨l, r, hat⟩ := Link.find_at hf
        have h1 := Map.onRoot_ok (swapValue_ok (w := ⟨m.root, m.allocs⟩) hat w)
        refine ⟨_, _, (M.bind_ok hg).trans (M.map_eq h1), .inl ⟨?_, ?_⟩⟩
        · rw [sem, hf]; simp only [Link.setAt, hat]; rfl
        · have := Link.setAt_size w (m.root.path c 0) m.root
          simp only [Link.setAt, hat] at this
          exact hw'.trans this.symm
  | node path =>
    refine ⟨_, m, rfl, .inl ⟨?_, hw⟩⟩
    have : Simple.nodeAt path m = _ := goRef_eq path m.root []
    rw [this, goRef_info, view_at]; rfl
  | nodeMut path w =>
    have hn := nodeMutAt_eq path m
    have hv := view_at path m.root
    cases hat : m.root.at' path with
    | nil =>
      rw [hat] at hn hv
      refine ⟨.ok (.entry none), m, M.bind_ok hn, .inl ⟨?_, hw⟩⟩
      rw [sem, ← hv, Link.setAt, hat]; rfl
    | node k v l r =>
      rw [hat] at hn hv
      have h0 := Map.onRoot_pure (m := m) (deref_ok (w := ⟨m.root, m.allocs⟩) hat)
      have h1 := Map.onRoot_ok (m := m) (swapValue_ok (w := ⟨m.root, m.allocs⟩) hat w)
      refine ⟨_, _, (M.bind_ok hn).trans ((M.bind_ok h0).trans (M.map_eq h1)), .inl ⟨?_, ?_⟩⟩
      · rw [sem, ← hv]; simp only [Link.setAt, hat]; rfl
      · have := Link.setAt_size w path m.root
        simp only [Link.setAt, hat] at this
        exact hw'.trans this.symm
  | iter o n =>
    obtain ⟨st, h1⟩ := Map.nexts_eq o m n
    refine ⟨.ok (.items (((m.root.view.order o).map some ++ List.replicate n none).take n)), m, ?_,
      .inl ⟨rfl, hw⟩⟩
    show (M.get >>= _) m = _
    rw [M.get_bind, h1, M.lift_ok_bind]
    rfl
  | iterMut o n =>
    cases n with
    | zero => exact ⟨.ok .unit, m, rfl, .inl ⟨rfl, hw⟩⟩
    | succ n => exact ⟨.panic, m, rfl, .inl ⟨rfl, hw⟩⟩
  | len => exact ⟨.ok (.nat m.len), m, rfl, .inl ⟨by rw [hw']; rfl, hw⟩⟩
  | isEmpty =>
    refine ⟨.ok (.bool (m.len == 0)), m, ?_, .inl ⟨by rw [hw']; rfl, hw⟩⟩
    refine (M.map_eq (f := M.read (Map.isEmpty cfg)) (o := .ok (m.len == 0)) (s' := m) ?_)
    have h1 : (m.len != 0 || m.root.isNil) = true := by
      rw [hw']
      cases m.root with
      | nil => rfl
      | node k v l r => simp [Link.size]
    have : debugAssert cfg (m.len != 0 || m.root.isNil) = .ok () := by
      rw [h1]; unfold debugAssert; simp
    show (Map.isEmpty cfg m, m) = _
    rw [Map.isEmpty, this]; rfl
  | clear => exact ⟨.ok .unit, _, rfl, .inl ⟨rfl, rfl⟩⟩
  | extend cmps src =>
    obtain ⟨o, m', h1, ⟨h2, h3⟩ | ⟨rfl, h3⟩⟩ := extend_sem he cmps src hw
    · refine ⟨_, _, M.map_eq h1, .inl ⟨?_, h3⟩⟩
      rw [sem, ← h2]
    · refine ⟨_, _, M.map_eq h1, .inr ⟨rfl, trivial, fun h => h3 (h.mono ?_)⟩⟩
      simp only [SimpleOp.twin, Op.demand]
      omega
  | debug dk dv =>
    refine ⟨.ok (.text (m.debug dk dv)), m, debug_run cfg dk dv m, .inl ⟨?_, hw⟩⟩
    rw [sem, debug_text dk dv hw]

end BST.Simple
