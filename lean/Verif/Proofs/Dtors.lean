import Verif.Discards
import Verif.Proofs.Conform
import Verif.Proofs.AccountRun
import Verif.Proofs.SetHistory
/-!
# Calls with destructors that panic
-/
set_option linter.unusedSimpArgs false
namespace BST
open BSTMap Tree Std
open Spec (BT lookup hitOf)
variable {K V : Type}

theorem drop_out {cfg : Cfg} {m : BSTMap K V} {t : Tree K V} (h : Shape cfg m t) (d : Dtors K V) :
    (drop cfg d.node m).1 = if t.kv.any d.bad then .panic else .ok () := by
  have hp : ((m.nodes.liveVals).map fun x => (x.key, x.value)).Perm t.kv := h.liveVals_perm
  obtain ⟨s2, _, _, ⟨h3, h4, _⟩ | ⟨h3, h4, ⟨x, hx, hx'⟩, _⟩⟩ := Slab.drop_spec (d := d.node) h.slab
  · have hd : drop cfg d.node m = (.ok (), { m with nodes := s2 }) := by simp only [drop, onNodes, h3]
    rw [hd, if_neg]
    rw [List.any_eq_true]
    rintro ⟨e, he, hb⟩
    obtain ⟨x, hx, rfl⟩ := List.mem_map.1 (hp.symm.subset he)
    simp only [Dtors.bad, Bool.and_eq_true] at hb
    have := h4 hb.1 x hx
    simp only [Dtors.node] at this
    rw [this] at hb
    cases hb.2
  · have hd : drop cfg d.node m = (.panic, { m with nodes := s2 }) := by simp only [drop, onNodes, h3]
    rw [hd, if_pos]
    rw [List.any_eq_true]
    refine ⟨(x.key, x.value), hp.subset (List.mem_map.2 ⟨x, hx, rfl⟩), ?_⟩
    simp only [Dtors.bad, Bool.and_eq_true]
    exact ⟨h4, hx'⟩

/-- `f'` does what `f` does, or stops earlier; the invariant holds in any case. -/
def Stops {σ α : Type} (I : σ → Prop) (f' f : M σ α) : Prop :=
  ∀ s, I s → I (f s).2 ∧ (f' s = f s ∨ (Spec.Failed (f' s).1 ∧ I (f' s).2))

namespace Stops
variable {σ α β : Type} {I : σ → Prop}

theorem refl {f : M σ α} (h : ∀ s, I s → I (f s).2) : Stops I f f := fun s hs => ⟨h s hs, .inl rfl⟩

theorem bind {f' f : M σ α} {g' g : α → M σ β} (hf : Stops I f' f) (hg : ∀ a, Stops I (g' a) (g a)) :
    Stops I (f' >>= g') (f >>= g) := by
  intro s hs
  obtain ⟨h1, h2⟩ := hf s hs
  simp only [M.bind_apply]
  cases he : f s with
  | mk o s1 =>
    rw [he] at h1 h2
    constructor
    · cases o with
      | ok a => exact (hg a s1 h1).1
      | _ => exact h1
    · rcases h2 with h2 | ⟨h2, h3⟩
      · rw [h2]
        cases o with
        | ok a => exact (hg a s1 h1).2
        | _ => exact .inl rfl
      · right
        cases he' : f' s with
        | mk o' s' =>
          rw [he'] at h2 h3
          rcases h2 with rfl | rfl
          · exact ⟨.inl rfl, h3⟩
          · exact ⟨.inr rfl, h3⟩

theorem loop {body' body : β → M σ (β ⊕ α)} (h : ∀ b, Stops I (body' b) (body b)) :
    ∀ (n : Nat) (b : β), Stops I (BST.loop n body' b) (BST.loop n body b) := by
  intro n
  induction n with
  | zero => exact fun _ => refl fun _ hs => hs
  | succ n ih =>
    intro b
    rw [loop_succ, loop_succ]
    refine bind (h b) fun r => ?_
    cases r with
    | inl b' => exact ih b'
    | inr a => exact refl fun _ hs => hs

end Stops

section
variable {cfg : Cfg} {d : Dtors K V}

/-- The state is a valid map. -/
def Valid (cfg : Cfg) (m : BSTMap K V) : Prop := ∃ t, Shape cfg m t

theorem Valid.insert {m : BSTMap K V} (h : Valid cfg m) (c : Probe K) (k : K) (v : V) :
    Valid cfg (BSTMap.insert cfg c k v m).2 := by
  obtain ⟨t, h⟩ := h
  rcases insert_cases h c k v with ⟨e, p, m', _, h1, h2, _⟩ | ⟨o, h1, _⟩
  · rw [h1]; exact ⟨_, h2⟩
  · rw [h1]; exact ⟨_, h⟩

theorem Valid.grow {m : BSTMap K V} (h : Valid cfg m) (n : Nat) :
    Valid cfg (onNodes (Slab.onItems (Arena.growTo cfg n)) m).2 := by
  obtain ⟨t, h⟩ := h
  obtain ⟨o, m', h1, h2, _⟩ := grow_spec h n
  rw [h1]; exact ⟨_, h2.shape⟩

theorem insertDrop_stops (c : Probe K) (k : K) (v : V) :
    Stops (Valid cfg) (insertDrop cfg d c k v) (BSTMap.insert cfg c k v) := by
  intro m h
  refine ⟨h.insert c k v, ?_⟩
  have h' := h.insert c k v
  unfold insertDrop
  cases he : BSTMap.insert cfg c k v m with
  | mk o m' =>
    rw [he] at h'
    cases o with
    | ok r =>
      cases r with
      | none => exact .inl rfl
      | some old =>
        dsimp only
        split
        · exact .inr ⟨.inl rfl, h'⟩
        · exact .inl rfl
    | panic =>
      dsimp only
      split
      · exact .inr ⟨.inr rfl, h'⟩
      · exact .inl rfl
    | _ => exact .inl rfl

/-- `insert` followed by dropping the result, without destructors. -/
theorem insertStmt_stops (c : Probe K) (k : K) (v : V) :
    Stops (Valid cfg) (insertStmt cfg d c k v) (do let _ ← BSTMap.insert cfg c k v; pure ()) := by
  refine Stops.bind (insertDrop_stops c k v) fun r => ?_
  intro m h
  refine ⟨h, ?_⟩
  split
  · exact .inr ⟨.inl rfl, h⟩
  · exact .inl rfl

/-- Discarding a result at once or later is the same. -/
theorem discard_bind {σ α β : Type} (f : M σ α) (g : M σ β) (s : σ) :
    ((do let _ ← f; pure () : M σ Unit) >>= fun _ => g) s = (do let _ ← f; g) s := by
  simp only [M.bind_apply]
  cases f s with
  | mk o s' => cases o <;> rfl

theorem insertAllDrop_stops (cmps : Nat → K → Probe K) (l : List (K × V)) :
    ∀ n, Stops (Valid cfg) (insertAllDrop cfg d cmps n l) (insertAll cfg cmps n l) := by
  induction l with
  | nil => exact fun n => Stops.refl fun _ h => h
  | cons e l ih =>
    intro n m h
    have h1 := Stops.bind (insertStmt_stops (cfg := cfg) (d := d) (cmps n e.1) e.1 e.2)
      (fun _ => ih (n + 1)) m h
    rw [discard_bind] at h1
    exact h1

theorem tail_stops (b : Bool) : Stops (Valid cfg)
    (if b then M.panic else pure () : M (BSTMap K V) Unit) (if b then M.panic else pure ()) :=
  Stops.refl fun m h => by cases b <;> exact h

theorem extendDrop_stops (cmps : Nat → K → Probe K) (src : Source K V) :
    Stops (Valid cfg) (extendDrop cfg d cmps src) (extend cfg cmps src) := by
  refine Stops.bind (Stops.refl ?_) fun _ => Stops.bind (insertAllDrop_stops _ _ _) fun _ =>
    tail_stops _
  rintro m ⟨t, h⟩
  obtain ⟨o, m', h1, h2, _⟩ := reserve_kept h (src.hint.2.getD src.hint.1)
  rw [h1]; exact ⟨_, h2.shape⟩

theorem fromIterDrop_stops (cmps : Nat → K → Probe K) (src : Source K V) :
    (fromIterDrop cfg d cmps src = fromIter cfg cmps src ∨
      Spec.Failed (fromIterDrop cfg d cmps src).1) ∧ Valid cfg (fromIterDrop cfg d cmps src).2 := by
  have := Stops.bind (Stops.refl (f := onNodes (Slab.onItems (Arena.growTo cfg
      (src.hint.2.getD src.hint.1)))) fun m h => h.grow _) (fun _ =>
    Stops.bind (insertAllDrop_stops (cfg := cfg) (d := d) cmps src.items 0) fun _ =>
    tail_stops src.panics) BSTMap.new ⟨_, shape_new cfg⟩
  obtain ⟨h1, h2⟩ := this
  rcases h2 with h2 | ⟨h2, h3⟩
  · exact ⟨.inl h2, by rw [show fromIterDrop cfg d cmps src = fromIter cfg cmps src from h2]; exact h1⟩
  · exact ⟨.inr h2, h3⟩

theorem lift_stops {α : Type} (o : Out α) : Stops (Valid (K := K) (V := V) cfg) (M.lift o) (M.lift o) :=
  Stops.refl fun _ h => h

theorem cloneDrop_stops (cmps : Nat → K → Probe K) (cloneK : K → Option K) (cloneV : V → Option V)
    (m : BSTMap K V) :
    (cloneDrop cfg d cmps cloneK cloneV m = BSTMap.clone cfg cmps cloneK cloneV m ∨
      Spec.Failed (cloneDrop cfg d cmps cloneK cloneV m).1) ∧
      Valid cfg (cloneDrop cfg d cmps cloneK cloneV m).2 := by
  have : Stops (Valid cfg) (fun _ => cloneDrop cfg d cmps cloneK cloneV m)
      (fun _ => BSTMap.clone cfg cmps cloneK cloneV m) := by
    intro s hs
    refine Stops.bind (I := Valid cfg) (lift_stops (m.len cfg)) (fun n => Stops.bind (Stops.refl fun m h => h.grow _)
      fun _ => Stops.bind (lift_stops m.rootNode) fun root => Stops.loop (fun st => ?_) _ _) BSTMap.new
      ⟨_, shape_new cfg⟩
    obtain ⟨i, st⟩ := st
    cases st with
    | nil => exact Stops.refl fun _ h => h
    | cons node stack =>
      dsimp only
      cases cloneK node.key with
      | none => exact Stops.refl fun _ h => h
      | some k =>
        cases cloneV node.value with
        | none =>
          intro s h
          refine ⟨h, .inr ⟨?_, h⟩⟩
          dsimp only
          split
          · exact .inr rfl
          · exact .inl rfl
        | some v =>
          intro s h
          have h1 := Stops.bind (insertStmt_stops (cfg := cfg) (d := d) (cmps i k) k v)
            (fun _ => Stops.bind (lift_stops (node.right m.nodes)) fun r =>
              Stops.bind (lift_stops (node.left m.nodes)) fun l =>
              Stops.refl (f := pure (.inl (i + 1, l.toList ++ r.toList ++ stack) :
                (Nat × List (Node K V)) ⊕ Unit)) fun _ h => h) s h
          rw [discard_bind] at h1
          exact h1
  obtain ⟨h1, h2⟩ := this BSTMap.new ⟨_, shape_new cfg⟩
  rcases h2 with h2 | ⟨h2, h3⟩
  · dsimp only at h1 h2
    exact ⟨.inl h2, by rw [h2]; exact h1⟩
  · exact ⟨.inr h2, h3⟩

theorem assignDrop_spec {f : BSTMap K V → Out Unit × BSTMap K V} {m mf : BSTMap K V} {t : Tree K V}
    {o : Out Unit} (h : Shape cfg m t) (he : f m = (o, mf)) (hs : o.Safe) (hv : Valid cfg mf) :
    ∃ o' m', assignDrop cfg d f m = (o', m') ∧
      ((o = .ok () ∧ o' = (if t.kv.any d.bad then .panic else .ok ()) ∧ m' = mf) ∨
       (o ≠ .ok () ∧ Spec.Failed o' ∧ m' = m)) := by
  unfold assignDrop
  rw [he]
  cases o with
  | ok a => exact ⟨_, _, rfl, .inl ⟨rfl, drop_out h d, rfl⟩⟩
  | panic =>
    obtain ⟨w, hw⟩ := hv
    dsimp only
    rw [drop_out hw d]
    cases w.kv.any d.bad
    · exact ⟨_, _, rfl, .inr ⟨by simp, .inl rfl, rfl⟩⟩
    · exact ⟨_, _, rfl, .inr ⟨by simp, .inr rfl, rfl⟩⟩
  | abort => exact ⟨_, _, rfl, .inr ⟨by simp, .inr rfl, rfl⟩⟩
  | ub => exact hs.elim
  | diverge => exact hs.elim

theorem failed_safe {α : Type} {o : Out α} (h : Spec.Failed o) : o.Safe := by
  rcases h with rfl | rfl <;> trivial

theorem fromIterDrop_safe (cmps : Nat → K → Probe K) (src : Source K V) :
    (fromIterDrop cfg d cmps src).1.Safe := by
  rcases (fromIterDrop_stops (cfg := cfg) (d := d) cmps src).1 with h | h
  · rw [h]
    obtain ⟨o, m1, w, l, h1, h2, _, _, h3, _⟩ := fromIter_spec (cfg := cfg) (ok := Anything)
      (cmps := cmps) (fun _ _ => trivial) src
    rw [h1]; exact h3
  · exact failed_safe h

theorem cloneDrop_safe (cmps : Nat → K → Probe K) (cloneK : K → Option K) (cloneV : V → Option V)
    {m : BSTMap K V} {t : Tree K V} (h : Shape cfg m t) :
    (cloneDrop cfg d cmps cloneK cloneV m).1.Safe := by
  rcases (cloneDrop_stops (cfg := cfg) (d := d) cmps cloneK cloneV m).1 with h' | h'
  · rw [h']
    obtain ⟨o, m1, w, l, h1, h2, _, _, h3, _⟩ := clone_spec (cfg := cfg) (ok := Anything)
      (cmps := cmps) (fun _ _ => trivial) cloneK cloneV h
    rw [h1]; exact h3
  · exact failed_safe h'

theorem removeDrop_eq (c : Probe K) {m : BSTMap K V} {t : Tree K V} (h : Shape cfg m t) :
    (∃ e m', t.find c 0 = .ok e ∧ Shape cfg m' (t.del c 0) ∧
      remove cfg c m = (.ok (e.map (·.2.2)), m') ∧
      removeDrop cfg d c m =
        (if e.any fun x => d.badKey x.2.1 then .panic else .ok (e.map (·.2.2)), m')) ∨
    (t.find c 0 = .panic ∧ remove cfg c m = (.panic, m) ∧ removeDrop cfg d c m = (.panic, m)) := by
  unfold removeDrop
  rcases remove_cases h c with ⟨e, m', h1, h2, h3, h4⟩ | ⟨h1, h2⟩
  · refine .inl ⟨e, m', h1, h3, h2, ?_⟩
    rw [h4]
    cases e with
    | none => rfl
    | some e => cases hb : d.badKey e.2.1 <;> simp [hb]
  · refine .inr ⟨h1, h2, ?_⟩
    rcases removeEntry_cases h c with ⟨e, m', h1', _⟩ | ⟨_, h3⟩
    · cases h1.symm.trans h1'
    · rw [h3]

/-- `Spec.DropAnswer`, in the words of the model. -/
def DropAnswer0 {C : Type} (cmp : K → K → Ordering)
    (ans : C → Out (Ret K V) → C → Op K V → Prop) (ents : C → List (K × V))
    (l : C) (o : Out (Ret K V)) (l' : C) (x : Dtors K V × Op K V) : Prop :=
  match x.2 with
  | .withCapacity n =>
    -- the old map is dropped
    (o = (if (ents l).any x.1.bad then .panic else .ok .unit) ∧ ans l (.ok .unit) l' (.withCapacity n)) ∨
      (Spec.Failed o ∧ l' = l)
  | .cloned c ck cv =>
    (o = (if (ents l).any x.1.bad then .panic else .ok .unit) ∧ ans l (.ok .unit) l' (.cloned c ck cv)) ∨
      (Spec.Failed o ∧ l' = l)
  | .collect c src =>
    (o = (if (ents l).any x.1.bad then .panic else .ok .unit) ∧ ans l (.ok .unit) l' (.collect c src) ∧
      (Spec.discarded cmp src.items []).any x.1.bad = false) ∨ (Spec.Failed o ∧ l' = l)
  | .insert c k v =>
    -- the call has taken effect although it panics
    (∃ r, ans l (.ok (.value r)) l' (.insert c k v) ∧
      o = if r.isSome && x.1.badKey k then .panic else .ok (.value r)) ∨
    (ans l .panic l' (.insert c k v) ∧
      o = if x.1.badKey k || x.1.badValue v then .abort else .panic) ∨
    (ans l .abort l' (.insert c k v) ∧ o = .abort)
  | .remove c =>
    ∀ f, Spec.LawfulQuery cmp f → Asks f c →
      (∃ r, ans l (.ok r) l' (.remove c) ∧
        o = if (lookup (hitOf f) (ents l)).any fun e => x.1.badKey e.1 then .panic else .ok r) ∨
      (ans l .panic l' (.remove c) ∧ o = .panic)
  | .extend c src =>
    -- only the first items were inserted, and nothing bad was dropped before the last of them
    ∃ used rest, src.items = used ++ rest ∧
      ((o = .ok .unit ∧ rest = [] ∧ ans l (.ok .unit) l' (.extend c src) ∧
        (Spec.discarded cmp used (ents l)).any x.1.bad = false) ∨
       (Spec.Failed o ∧ ans l (.ok .unit) l' (.extend c { src with items := used, panics := false }) ∧
        (Spec.discarded cmp used.dropLast (ents l)).any x.1.bad = false))
  | op => ans l o l' op

theorem hurts_eq (d : Dtors K V) : Spec.hurts d = d.bad := by
  funext e
  simp only [Spec.hurts, Spec.hurtsKey, Spec.hurtsValue, Dtors.bad, Bool.and_or_distrib_left]

theorem dropAnswer_eq {C : Type} (cmp : K → K → Ordering)
    (ans : C → Out (Ret K V) → C → Op K V → Prop) (ents : C → List (K × V)) :
    Spec.DropAnswer cmp ans ents = DropAnswer0 cmp ans ents := by
  funext l o l' x
  unfold Spec.DropAnswer
  rw [hurts_eq]
  rfl

theorem rest_eq {op : Op K V} :
    (op.runDrop cfg d = op.run cfg ∧ ∀ (C : Type) (cmp : K → K → Ordering)
      (ans : C → Out (Ret K V) → C → Op K V → Prop) (ents : C → List (K × V)) (l l' : C)
      (o : Out (Ret K V)), ans l o l' op → DropAnswer0 cmp ans ents l o l' (d, op)) ∨
    (∃ n, op = .withCapacity n) ∨ (∃ c s, op = .collect c s) ∨ (∃ c a b, op = .cloned c a b) ∨
    (∃ c k v, op = .insert c k v) ∨ (∃ c, op = .remove c) ∨ ∃ c s, op = .extend c s := by
  cases op <;> simp [Op.runDrop, DropAnswer0]

/-- Every call on every valid map is safe and leaves a valid map, whatever destructors
panic. -/
theorem runDrop_shape {m : BSTMap K V} {t : Tree K V} (h : Shape cfg m t) {op : Op K V}
    (hop : op.Calm) : ∃ o m' t', op.runDrop cfg d m = (o, m') ∧ o.Safe ∧ Shape cfg m' t' := by
  have reb : ∀ {f : BSTMap K V → Out Unit × BSTMap K V}, (f m).1.Safe → Valid cfg (f m).2 →
      ∃ o m' t', (do assignDrop cfg d f; pure .unit : M (BSTMap K V) (Ret K V)) m = (o, m') ∧
        o.Safe ∧ Shape cfg m' t' := by
    intro f hs hv
    obtain ⟨w, hw⟩ := hv
    obtain ⟨o, m', h1, h2⟩ := assignDrop_spec (d := d) h (Prod.eta (f m)).symm hs ⟨w, hw⟩
    rcases h2 with ⟨_, rfl, rfl⟩ | ⟨_, h2, rfl⟩
    · refine ⟨_, _, w, M.map_eq h1, ?_, hw⟩
      split <;> trivial
    · exact ⟨_, _, t, M.map_eq h1, (failed_safe h2).map _, h⟩
  rcases rest_eq (cfg := cfg) (d := d) (op := op) with ⟨he, ha⟩ | ⟨n, rfl⟩ | ⟨c, s, rfl⟩ | ⟨c, a, b, rfl⟩ |
    ⟨c, k, v, rfl⟩ | ⟨c, rfl⟩ | ⟨c, s, rfl⟩
  · rw [he]; exact run_shape h hop
  · obtain ⟨o, m1, h1, h2, h3⟩ := withCapacity_spec (K := K) (V := V) cfg n
    exact reb (f := fun _ => withCapacity cfg n) (by rw [h1]; exact h3) (by rw [h1]; exact ⟨_, h2⟩)
  · exact reb (f := fun _ => fromIterDrop cfg d c s) (fromIterDrop_safe c s)
      (fromIterDrop_stops c s).2
  · exact reb (cloneDrop_safe c a b h) (cloneDrop_stops c a b m).2
  · obtain ⟨⟨w0, h0⟩, h1⟩ := insertDrop_stops (cfg := cfg) (d := d) c k v m ⟨t, h⟩
    rcases h1 with h1 | ⟨h1, w, h2⟩
    · obtain ⟨o, m', t', h2, h3, h4⟩ := run_shape h (op := .insert c k v) hop
      refine ⟨o, m', t', ?_, h3, h4⟩
      rw [← h2]
      simp only [Op.runDrop, Op.run, M.bind_apply, h1]
    · exact ⟨_, _, w, M.map_eq (Prod.eta _).symm, (failed_safe h1).map _, h2⟩
  · rcases removeDrop_eq (d := d) c h with ⟨e, m', _, h1, _, h2⟩ | ⟨_, _, h2⟩
    · refine ⟨_, _, _, M.map_eq h2, Out.Safe.map ?_ _, h1⟩
      split <;> trivial
    · exact ⟨_, _, _, M.map_eq h2, trivial, h⟩
  · obtain ⟨_, h1⟩ := extendDrop_stops (cfg := cfg) (d := d) c s m ⟨t, h⟩
    rcases h1 with h1 | ⟨h1, w, h2⟩
    · obtain ⟨o, m', t', h2, h3, h4⟩ := run_shape h (op := .extend c s) hop
      refine ⟨o, m', t', ?_, h3, h4⟩
      rw [← h2]
      simp only [Op.runDrop, Op.run, M.bind_apply, h1]
    · exact ⟨_, _, w, M.map_eq (Prod.eta _).symm, (failed_safe h1).map _, h2⟩

end

/-! ### Lawful comparisons -/

section
variable {cfg : Cfg} {d : Dtors K V} {cmp : K → K → Ordering} [TransCmp cmp]

theorem insert_tree {m : BSTMap K V} {t : Tree K V} (h : Shape cfg m t) (hs : t.SortedBy cmp)
    {c : Probe K} {k : K} (hc : Asks (cmp k) c) (v : V) :
    ∃ o m' t', BSTMap.insert cfg c k v m = (o, m') ∧ o.Safe ∧ Shape cfg m' t' ∧ t'.SortedBy cmp ∧
      Spec.TreeAnswer cmp t.sh (o.map Ret.value) t'.sh (.insert c k v) := by
  obtain ⟨o, m', t', h1, h2, h3, h4⟩ := run_tree h hs (op := .insert c k v) hc
  obtain ⟨o', m1, t1, h1', h2', _⟩ := run_shape h (op := .insert c k v) trivial
  cases h1.symm.trans h1'
  have h5 := M.map_eq (g := (Ret.value : Option V → Ret K V)) (Prod.eta (BSTMap.insert cfg c k v m)).symm
  cases h1.symm.trans h5
  refine ⟨_, _, t', (Prod.eta _).symm, ?_, h2, h3, h4⟩
  cases he : (BSTMap.insert cfg c k v m).1 with
  | ok a => trivial
  | panic => trivial
  | abort => trivial
  | ub => rw [he] at h2'; exact h2'.elim
  | diverge => rw [he] at h2'; exact h2'.elim

theorem discarded_perm (xs : List (K × V)) : ∀ {t : Tree K V} {l : List (K × V)},
    t.SortedBy cmp → t.kv.Perm l → Spec.discarded cmp xs l = Spec.discarded cmp xs t.kv := by
  induction xs with
  | nil => intros; rfl
  | cons e xs ih =>
    intro t l hs hp
    obtain ⟨w, h1, _, h3⟩ := insert_ino hs e.1 e.2
    unfold Spec.discarded
    rw [lookup_perm (lawful_cmp cmp e.1) (Distinct.of_sorted hs) hp,
      ih h1 (h3.trans (insert_perm hp)), ih h1 h3]

/-- What the statement `map.insert(k, v);` does. -/
theorem insertStmt_tree {m : BSTMap K V} {t : Tree K V} (h : Shape cfg m t) (hs : t.SortedBy cmp)
    {c : Probe K} {k : K} (hc : Asks (cmp k) c) (v : V) :
    ∃ o m' t', insertStmt cfg d c k v m = (o, m') ∧ Shape cfg m' t' ∧ t'.SortedBy cmp ∧
      ((o = .ok () ∧ t'.sh = t.sh.insert cmp k v ∧
        ((lookup (hitOf (cmp k)) t.kv).map fun e => (k, e.2)).toList.any d.bad = false) ∨
       (Spec.Failed o ∧ t'.sh = t.sh.insert cmp k v) ∨
       (Spec.Failed o ∧ t'.sh = t.sh)) := by
  obtain ⟨o, m', t', h1, hsafe, h2, h3, h4⟩ := insert_tree h hs hc v
  unfold insertStmt
  simp only [M.bind_apply, insertDrop, h1]
  have hino := sh_ino t
  cases o with
  | ok r =>
    rcases h4 with ⟨h4, h5⟩ | ⟨h4, _⟩ | ⟨h4 | h4, _⟩
    · have hr : r = (lookup (hitOf (cmp k)) t.kv).map (·.2) := by
        rw [← hino]; simpa [Out.map] using h4
      cases hl : lookup (hitOf (cmp k)) t.kv with
      | none =>
        rw [hl] at hr; subst hr
        exact ⟨_, _, t', rfl, h2, h3, .inl ⟨rfl, h5, rfl⟩⟩
      | some e =>
        rw [hl] at hr; subst hr
        dsimp only [Option.map]
        cases hb : d.badKey k with
        | true => exact ⟨_, _, t', rfl, h2, h3, .inr (.inl ⟨.inl rfl, h5⟩)⟩
        | false =>
          simp only [Bool.false_eq_true, if_false, Option.any_some]
          by_cases hb' : d.badValue e.2 = true
          · rw [if_pos hb']
            exact ⟨_, _, t', rfl, h2, h3, .inr (.inl ⟨.inl rfl, h5⟩)⟩
          · rw [if_neg hb']
            refine ⟨_, _, t', rfl, h2, h3, .inl ⟨rfl, h5, ?_⟩⟩
            simp only [Dtors.badKey, Dtors.badValue] at hb hb'
            simp only [Option.toList, List.any_cons, List.any_nil, Dtors.bad, Bool.or_false]
            cases hn : d.needsDrop <;> simp_all
    · cases h4
    · cases h4
    · cases h4
  | panic =>
    have hsame : t'.sh = t.sh := by
      rcases h4 with ⟨h4, _⟩ | ⟨_, h4, _⟩ | ⟨_, h4, _⟩
      · cases h4
      · exact h4
      · exact h4
    dsimp only
    cases d.badKey k || d.badValue v
    · exact ⟨_, _, t', rfl, h2, h3, .inr (.inr ⟨.inl rfl, hsame⟩)⟩
    · exact ⟨_, _, t', rfl, h2, h3, .inr (.inr ⟨.inr rfl, hsame⟩)⟩
  | abort =>
    have hsame : t'.sh = t.sh := by
      rcases h4 with ⟨h4, _⟩ | ⟨_, h4, _⟩ | ⟨_, h4, _⟩
      · cases h4
      · exact h4
      · exact h4
    exact ⟨_, _, t', rfl, h2, h3, .inr (.inr ⟨.inr rfl, hsame⟩)⟩
  | ub => exact hsafe.elim
  | diverge => exact hsafe.elim

theorem insertAllDrop_tree {cmps : Nat → K → Probe K} (hc : ∀ n k, Asks (cmp k) (cmps n k))
    (l : List (K × V)) : ∀ (n : Nat) {m : BSTMap K V} {t : Tree K V}, Shape cfg m t →
    t.SortedBy cmp →
    ∃ o m' t' used rest, insertAllDrop cfg d cmps n l m = (o, m') ∧ Shape cfg m' t' ∧
      t'.SortedBy cmp ∧ t'.sh = BT.insertList cmp used t.sh ∧ l = used ++ rest ∧
      ((o = .ok () ∧ rest = [] ∧ (Spec.discarded cmp used t.kv).any d.bad = false) ∨
       (Spec.Failed o ∧ (Spec.discarded cmp used.dropLast t.kv).any d.bad = false)) := by
  induction l with
  | nil => intro n m t h hs; exact ⟨_, m, t, [], [], rfl, h, hs, rfl, rfl, .inl ⟨rfl, rfl, rfl⟩⟩
  | cons e l ih =>
    intro n m t h hs
    obtain ⟨k, v⟩ := e
    obtain ⟨o, m1, t1, h1, h2, h3, h4⟩ := insertStmt_tree (d := d) h hs (hc n k) v
    unfold insertAllDrop
    rcases h4 with ⟨rfl, h4, h5⟩ | ⟨ho, h4⟩ | ⟨ho, h4⟩
    · rw [M.bind_ok h1]
      obtain ⟨o, m', t', used, rest, e1, e2, e3, e4, e5, e6⟩ := ih (n + 1) h2 h3
      have hd : Spec.discarded cmp used.dropLast (Spec.insert (hitOf (cmp k)) k v t.kv) =
            Spec.discarded cmp used.dropLast t1.kv ∧
          Spec.discarded cmp used (Spec.insert (hitOf (cmp k)) k v t.kv) =
            Spec.discarded cmp used t1.kv := by
        obtain ⟨w, w1, w2, w3⟩ := insert_ino hs k v
        have : t1.kv = w.kv := by rw [← sh_ino, ← sh_ino, h4, w2]
        rw [this]
        exact ⟨discarded_perm _ w1 w3, discarded_perm _ w1 w3⟩
      refine ⟨o, m', t', (k, v) :: used, rest, e1, e2, e3, ?_, by rw [e5]; rfl, ?_⟩
      · rw [e4, h4]; rfl
      · rcases e6 with ⟨rfl, rfl, e6⟩ | ⟨ho, e6⟩
        · refine .inl ⟨rfl, rfl, ?_⟩
          unfold Spec.discarded
          rw [List.any_append, h5, hd.2, e6]; rfl
        · refine .inr ⟨ho, ?_⟩
          cases hu : used with
          | nil => rfl
          | cons x xs =>
            rw [List.dropLast_cons_of_ne_nil (by simp), ← hu]
            unfold Spec.discarded
            rw [List.any_append, h5, hd.1, e6]; rfl
    · refine ⟨o, m1, t1, [(k, v)], l, ?_, h2, h3, h4, rfl, .inr ⟨ho, rfl⟩⟩
      rcases ho with rfl | rfl
      · rw [M.bind_panic h1]
      · rw [M.bind_abort h1]
    · refine ⟨o, m1, t1, [], (k, v) :: l, ?_, h2, h3, h4, rfl, .inr ⟨ho, rfl⟩⟩
      rcases ho with rfl | rfl
      · rw [M.bind_panic h1]
      · rw [M.bind_abort h1]

theorem tail_cases {α : Type} (b : Bool) {o : Out Unit} {m m' : α} {f : M α Unit}
    (h : f m = (o, m')) (ho : o = .ok () ∨ Spec.Failed o) :
    ∃ o', (do f; if b then M.panic else pure () : M α Unit) m = (o', m') ∧
      ((o' = .ok () ∧ o = .ok () ∧ b = false) ∨ Spec.Failed o') := by
  rcases ho with rfl | rfl | rfl
  · cases b with
    | true => exact ⟨_, M.bind_ok h, .inr (.inl rfl)⟩
    | false => exact ⟨_, M.bind_ok h, .inl ⟨rfl, rfl, rfl⟩⟩
  · exact ⟨_, M.bind_panic h, .inr (.inl rfl)⟩
  · exact ⟨_, M.bind_abort h, .inr (.inr rfl)⟩

theorem extendDrop_tree {cmps : Nat → K → Probe K} (hc : ∀ n k, Asks (cmp k) (cmps n k))
    (src : Source K V) {m : BSTMap K V} {t : Tree K V} (h : Shape cfg m t) (hs : t.SortedBy cmp) :
    ∃ o m' t' used rest, extendDrop cfg d cmps src m = (o, m') ∧ Shape cfg m' t' ∧
      t'.SortedBy cmp ∧ t'.sh = BT.insertList cmp used t.sh ∧ src.items = used ++ rest ∧
      ((o = .ok () ∧ rest = [] ∧ src.panics = false ∧
        (Spec.discarded cmp used t.kv).any d.bad = false) ∨
       (Spec.Failed o ∧ (Spec.discarded cmp used.dropLast t.kv).any d.bad = false)) := by
  obtain ⟨o, m1, h1, h2, h3⟩ := reserve_kept h (src.hint.2.getD src.hint.1)
  unfold extendDrop
  have stop : Spec.Failed o → (reserve cfg (src.hint.2.getD src.hint.1) m) = (o, m1) →
      ∃ o' m' t' used rest, (do
        reserve cfg (src.hint.2.getD src.hint.1)
        insertAllDrop cfg d cmps 0 src.items
        if src.panics then M.panic else pure () : M (BSTMap K V) Unit) m = (o', m') ∧ Shape cfg m' t' ∧
      t'.SortedBy cmp ∧ t'.sh = BT.insertList cmp used t.sh ∧ src.items = used ++ rest ∧
      ((o' = .ok () ∧ rest = [] ∧ src.panics = false ∧
        (Spec.discarded cmp used t.kv).any d.bad = false) ∨
       (Spec.Failed o' ∧ (Spec.discarded cmp used.dropLast t.kv).any d.bad = false)) := by
    intro ho h1
    refine ⟨o, m1, t, [], src.items, ?_, h2.shape, hs, rfl, rfl, .inr ⟨ho, rfl⟩⟩
    rcases ho with rfl | rfl
    · rw [M.bind_panic h1]
    · rw [M.bind_abort h1]
  cases o with
  | ok a =>
    obtain ⟨o, m', t', used, rest, e1, e2, e3, e4, e5, e6⟩ :=
      insertAllDrop_tree (cfg := cfg) (d := d) hc src.items 0 h2.shape hs
    obtain ⟨o', g1, g2⟩ := tail_cases src.panics e1 (by
      rcases e6 with ⟨rfl, _⟩ | ⟨ho, _⟩
      · exact .inl rfl
      · exact .inr ho)
    have hsub : (Spec.discarded cmp used t.kv).any d.bad = false →
        (Spec.discarded cmp used.dropLast t.kv).any d.bad = false := by
      intro hh
      have : ∀ (xs ys l : List (K × V)), ∃ r, Spec.discarded cmp (xs ++ ys) l =
          Spec.discarded cmp xs l ++ r := by
        intro xs
        induction xs with
        | nil => intro ys l; exact ⟨_, rfl⟩
        | cons x xs ih =>
          intro ys l
          obtain ⟨r, hr⟩ := ih ys (Spec.insert (hitOf (cmp x.1)) x.1 x.2 l)
          refine ⟨r, ?_⟩
          simp only [List.cons_append, Spec.discarded, hr, List.append_assoc]
      by_cases hu : used = []
      · subst hu; rfl
      · obtain ⟨r, hr⟩ := this used.dropLast [used.getLast hu] t.kv
        rw [List.dropLast_concat_getLast hu] at hr
        rw [hr, List.any_append, Bool.or_eq_false_iff] at hh
        exact hh.1
    refine ⟨o', m', t', used, rest, by rw [M.bind_ok h1]; exact g1, e2, e3, e4, e5, ?_⟩
    rcases g2 with ⟨rfl, rfl, g2⟩ | g2
    · rcases e6 with ⟨_, rfl, e6⟩ | ⟨ho, _⟩
      · exact .inl ⟨rfl, rfl, g2, e6⟩
      · rcases ho with ho | ho <;> cases ho
    · refine .inr ⟨g2, ?_⟩
      rcases e6 with ⟨_, _, e6⟩ | ⟨_, e6⟩
      · exact hsub e6
      · exact e6
  | panic => exact stop (.inl rfl) h1
  | abort => exact stop (.inr rfl) h1
  | ub => exact h3.elim
  | diverge => exact h3.elim

theorem fromIterDrop_tree {cmps : Nat → K → Probe K} (hc : ∀ n k, Asks (cmp k) (cmps n k))
    (src : Source K V) {m' : BSTMap K V} (he : fromIterDrop cfg d cmps src = (.ok (), m')) :
    ∃ t', Shape cfg m' t' ∧ t'.SortedBy cmp ∧ t'.sh = BT.insertList cmp src.items .nil ∧
      src.panics = false ∧ (Spec.discarded cmp src.items []).any d.bad = false := by
  unfold fromIterDrop at he
  dsimp only at he
  obtain ⟨o, m1, h1, h2, _, h3⟩ := grow_spec (shape_new (K := K) (V := V) cfg)
    (src.hint.2.getD src.hint.1)
  have hf : ¬ Spec.Failed o := by
    rintro (rfl | rfl)
    · rw [M.bind_panic h1] at he; cases he
    · rw [M.bind_abort h1] at he; cases he
  rcases h3 with ⟨rfl, _⟩ | ⟨_, ho, _⟩
  · rw [M.bind_ok h1] at he
    obtain ⟨o, m2, t', used, rest, e1, e2, e3, e4, e5, e6⟩ :=
      insertAllDrop_tree (cfg := cfg) (d := d) hc src.items 0 h2.shape List.Pairwise.nil
    obtain ⟨o', g1, g2⟩ := tail_cases src.panics e1 (by
      rcases e6 with ⟨rfl, _⟩ | ⟨ho, _⟩
      · exact .inl rfl
      · exact .inr ho)
    cases g1.symm.trans he
    rcases g2 with ⟨_, rfl, g2⟩ | g2
    · rcases e6 with ⟨_, rfl, e6⟩ | ⟨ho, _⟩
      · rw [List.append_nil] at e5
        subst e5
        exact ⟨t', e2, e3, e4, g2, e6⟩
      · rcases ho with ho | ho <;> cases ho
    · rcases g2 with g2 | g2 <;> cases g2
  · exact absurd ho hf

/-- Every call answers like a textbook search tree and like an association list, with the
destructors that panic taken into account. -/
theorem runDrop_tree {m : BSTMap K V} {t : Tree K V} (h : Shape cfg m t) (hs : t.SortedBy cmp)
    {op : Op K V} (hop : op.Lawful cmp) :
    ∃ o m' t', op.runDrop cfg d m = (o, m') ∧ Shape cfg m' t' ∧ t'.SortedBy cmp ∧
      DropAnswer0 cmp (Spec.TreeAnswer cmp) BT.ino t.sh o t'.sh (d, op) ∧
      DropAnswer0 cmp (Spec.Answer cmp) id t.kv o t'.kv (d, op) := by
  have hino := sh_ino t
  have base : ∀ {m1 : BSTMap K V} {o : Out (Ret K V)}, op.run cfg m = (o, m1) →
      ∃ t', Shape cfg m1 t' ∧ t'.SortedBy cmp ∧ Spec.TreeAnswer cmp t.sh o t'.sh op ∧
        Spec.Answer cmp t.kv o t'.kv op := by
    intro m1 o he
    obtain ⟨o, m', t', h1, h2, h3, h4⟩ := run_tree h hs hop
    cases h1.symm.trans he
    exact ⟨t', h2, h3, h4, answer_of_tree hs hop h4⟩
  rcases rest_eq (cfg := cfg) (d := d) (op := op) with ⟨he, ha⟩ | ⟨n, rfl⟩ | ⟨c, s, rfl⟩ | ⟨c, a, b, rfl⟩ |
    ⟨c, k, v, rfl⟩ | ⟨c, rfl⟩ | ⟨c, s, rfl⟩
  · cases hr : op.run cfg m with
    | mk o m1 =>
      obtain ⟨t', h1, h2, h3, h4⟩ := base hr
      refine ⟨o, m1, t', by rw [he, hr], h1, h2, ?_⟩
      exact ⟨ha _ _ _ _ _ _ _ h3, ha _ _ _ _ _ _ _ h4⟩
  · obtain ⟨o, m1, h1, h2, h3⟩ := withCapacity_spec (K := K) (V := V) cfg n
    obtain ⟨o', m', g1, g2⟩ := assignDrop_spec (d := d) (f := fun _ => withCapacity cfg n) h h1 h3
      ⟨_, h2⟩
    rcases g2 with ⟨rfl, rfl, rfl⟩ | ⟨_, g2, rfl⟩
    · refine ⟨_, _, .leaf, M.map_eq g1, h2, List.Pairwise.nil, .inl ⟨?_, .inl ⟨rfl, rfl⟩⟩,
        .inl ⟨?_, .inl ⟨rfl, rfl⟩⟩⟩
      · dsimp only; rw [hino]; split <;> rfl
      · dsimp only [id]; split <;> rfl
    · refine ⟨_, _, t, M.map_eq g1, h, hs, .inr ⟨?_, rfl⟩, .inr ⟨?_, rfl⟩⟩ <;>
        rcases g2 with rfl | rfl
      · exact .inl rfl
      · exact .inr rfl
      · exact .inl rfl
      · exact .inr rfl
  · obtain ⟨o', m', g1, g2⟩ := assignDrop_spec (d := d) (f := fun _ => fromIterDrop cfg d c s) h
      (Prod.eta _).symm (fromIterDrop_safe c s) (fromIterDrop_stops c s).2
    rcases g2 with ⟨g2, rfl, rfl⟩ | ⟨_, g2, rfl⟩
    · obtain ⟨t', e1, e2, e3, e4, e5⟩ := fromIterDrop_tree (d := d) hop s
        (m' := (fromIterDrop cfg d c s).2) (Prod.ext g2 rfl)
      have hta : Spec.TreeAnswer cmp t.sh (.ok .unit) t'.sh (.collect c s) := .inl ⟨rfl, e3, e4⟩
      refine ⟨_, _, t', M.map_eq g1, e1, e2, .inl ⟨?_, hta, e5⟩,
        .inl ⟨?_, answer_of_tree hs (op := .collect c s) hop hta, e5⟩⟩
      · dsimp only; rw [hino]; split <;> rfl
      · dsimp only [id]; split <;> rfl
    · refine ⟨_, _, t, M.map_eq g1, h, hs, .inr ⟨?_, rfl⟩, .inr ⟨?_, rfl⟩⟩ <;>
        rcases g2 with rfl | rfl
      · exact .inl rfl
      · exact .inr rfl
      · exact .inl rfl
      · exact .inr rfl
  · obtain ⟨o', m', g1, g2⟩ := assignDrop_spec (d := d) (f := cloneDrop cfg d c a b) h
      (Prod.eta _).symm (cloneDrop_safe c a b h) (cloneDrop_stops c a b m).2
    rcases g2 with ⟨g2, rfl, rfl⟩ | ⟨_, g2, rfl⟩
    · have hcl : cloneDrop cfg d c a b m = BSTMap.clone cfg c a b m := by
        rcases (cloneDrop_stops (cfg := cfg) (d := d) c a b m).1 with h' | h'
        · exact h'
        · rw [g2] at h'; rcases h' with h' | h' <;> cases h'
      have hr : (Op.cloned c a b).run cfg m = (.ok .unit, (cloneDrop cfg d c a b m).2) := by
        have ha : BSTMap.assign (BSTMap.clone cfg c a b) m = (.ok (), (cloneDrop cfg d c a b m).2) := by
          unfold BSTMap.assign
          rw [← hcl, ← Prod.eta (cloneDrop cfg d c a b m), g2]
        exact M.map_eq ha
      obtain ⟨t', e1, e2, e3, e4⟩ := base hr
      refine ⟨_, _, t', M.map_eq g1, e1, e2, .inl ⟨?_, e3⟩, .inl ⟨?_, e4⟩⟩
      · dsimp only; rw [hino]; split <;> rfl
      · dsimp only [id]; split <;> rfl
    · refine ⟨_, _, t, M.map_eq g1, h, hs, .inr ⟨?_, rfl⟩, .inr ⟨?_, rfl⟩⟩ <;>
        rcases g2 with rfl | rfl
      · exact .inl rfl
      · exact .inr rfl
      · exact .inl rfl
      · exact .inr rfl
  · obtain ⟨o, m1, t1, h1, hsafe, h2, h3, h4⟩ := insert_tree h hs hop v
    have h5 := answer_of_tree hs (op := .insert c k v) hop h4
    cases o with
    | ok r =>
      refine ⟨if r.isSome && d.badKey k then .panic else .ok (.value r), m1, t1, ?_, h2, h3,
        .inl ⟨r, h4, rfl⟩, .inl ⟨r, h5, rfl⟩⟩
      simp only [Op.runDrop, M.bind_apply, insertDrop, h1]
      cases r with
      | none => rfl
      | some old => cases d.badKey k <;> rfl
    | panic =>
      refine ⟨if d.badKey k || d.badValue v then .abort else .panic, m1, t1, ?_, h2, h3,
        .inr (.inl ⟨h4, rfl⟩), .inr (.inl ⟨h5, rfl⟩)⟩
      simp only [Op.runDrop, M.bind_apply, insertDrop, h1]
      cases d.badKey k || d.badValue v <;> rfl
    | abort =>
      refine ⟨.abort, m1, t1, ?_, h2, h3, .inr (.inr ⟨h4, rfl⟩), .inr (.inr ⟨h5, rfl⟩)⟩
      simp only [Op.runDrop, M.bind_apply, insertDrop, h1]
    | ub => exact hsafe.elim
    | diverge => exact hsafe.elim
  · rcases removeDrop_eq (d := d) c h with ⟨e, m', he, h1, h2, h3⟩ | ⟨he, h2, h3⟩
    · obtain ⟨t', e1, e2, e3, e4⟩ := base (M.map_eq (g := Ret.value) h2)
      have hl : ∀ f, Spec.LawfulQuery cmp f → Asks f c →
          (e.any fun x => d.badKey x.2.1) = (lookup (hitOf f) t.kv).any fun e => d.badKey e.1 := by
        intro f hf hc
        rw [← hino, find_lookup hs hf hc he]
        cases e <;> rfl
      refine ⟨if e.any fun x => d.badKey x.2.1 then .panic else .ok (.value (e.map (·.2.2))), m', t',
        ?_, e1, e2, fun f hf hc => .inl ⟨_, e3, ?_⟩, fun f hf hc => .inl ⟨_, e4, ?_⟩⟩
      · have := M.map_eq (g := (Ret.value : Option V → Ret K V)) h3
        refine Eq.trans this ?_
        split <;> rfl
      · dsimp only; rw [hino, hl f hf hc]
      · dsimp only [id]; rw [hl f hf hc]
    · obtain ⟨t', e1, e2, e3, e4⟩ := base (M.map_eq (g := Ret.value) h2)
      exact ⟨_, _, t', M.map_eq h3, e1, e2, fun f hf hc => .inr ⟨e3, rfl⟩,
        fun f hf hc => .inr ⟨e4, rfl⟩⟩
  · obtain ⟨o, m', t', used, rest, e1, e2, e3, e4, e5, e6⟩ := extendDrop_tree (d := d) hop s h hs
    have hta : Spec.TreeAnswer cmp t.sh (.ok .unit) t'.sh
        (.extend c { s with items := used, panics := false }) :=
      ⟨used, [], by simp, e4, .inl ⟨rfl, rfl, rfl⟩⟩
    have hta' := answer_of_tree hs (op := .extend c { s with items := used, panics := false }) hop hta
    rcases e6 with ⟨rfl, rfl, e6, e7⟩ | ⟨ho, e6⟩
    · have hta2 : Spec.TreeAnswer cmp t.sh (.ok .unit) t'.sh (.extend c s) :=
        ⟨used, [], e5, e4, .inl ⟨rfl, rfl, e6⟩⟩
      exact ⟨_, m', t', M.map_eq e1, e2, e3, ⟨used, [], e5, .inl ⟨rfl, rfl, hta2, by rw [hino]; exact e7⟩⟩,
        ⟨used, [], e5, .inl ⟨rfl, rfl, answer_of_tree hs (op := .extend c s) hop hta2, e7⟩⟩⟩
    · have ho' : Spec.Failed (o.map fun _ => (Ret.unit : Ret K V)) := by
        rcases ho with rfl | rfl
        · exact .inl rfl
        · exact .inr rfl
      exact ⟨_, m', t', M.map_eq e1, e2, e3,
        ⟨used, rest, e5, .inr ⟨ho', hta, by rw [hino]; exact e6⟩⟩,
        ⟨used, rest, e5, .inr ⟨ho', hta', e6⟩⟩⟩

end

section
variable {cfg : Cfg}

theorem historyDrop_shape (ops : List (Dtors K V × Op K V)) {m : BSTMap K V} {t : Tree K V}
    (h : Shape cfg m t) (hops : ∀ x ∈ ops, x.2.Calm) :
    ∃ os m' t', historyDrop cfg ops m = (os, m') ∧ Shape cfg m' t' ∧ ∀ o ∈ os, o.Safe := by
  induction ops generalizing m t with
  | nil => exact ⟨[], m, t, rfl, h, by simp⟩
  | cons x ops ih =>
    obtain ⟨o, m1, t1, h1, h2, h3⟩ := runDrop_shape (d := x.1) h (hops x (by simp))
    obtain ⟨os, m', t', h4, h5, h6⟩ := ih h3 fun op hop => hops op (by simp [hop])
    unfold historyDrop at h4 ⊢
    unfold execute
    cases o with
    | ok r =>
      refine ⟨.ok r :: os, m', t', by simp only [h1, h4], h5, ?_⟩
      intro o ho
      rcases List.mem_cons.1 ho with rfl | ho
      · trivial
      · exact h6 o ho
    | panic =>
      refine ⟨.panic :: os, m', t', by simp only [h1, h4], h5, ?_⟩
      intro o ho
      rcases List.mem_cons.1 ho with rfl | ho
      · trivial
      · exact h6 o ho
    | abort => exact ⟨[.abort], m1, t1, by simp only [h1], h3, by simp [Out.Safe]⟩
    | ub => exact h2.elim
    | diverge => exact h2.elim

theorem historyDrop_tree {cmp : K → K → Ordering} [TransCmp cmp] (ops : List (Dtors K V × Op K V))
    {m : BSTMap K V} {t : Tree K V} (h : Shape cfg m t) (hs : t.SortedBy cmp)
    (hops : ∀ x ∈ ops, x.2.Lawful cmp) :
    ∃ os m' t', historyDrop cfg ops m = (os, m') ∧ Shape cfg m' t' ∧ t'.SortedBy cmp ∧
      Spec.Conforms (DropAnswer0 cmp (Spec.TreeAnswer cmp) BT.ino) ops os t.sh t'.sh ∧
      Spec.Conforms (DropAnswer0 cmp (Spec.Answer cmp) id) ops os t.kv t'.kv := by
  induction ops generalizing m t with
  | nil => exact ⟨[], m, t, rfl, h, hs, rfl, rfl⟩
  | cons x ops ih =>
    have hop := hops x (by simp)
    obtain ⟨o, m1, t1, h1, h2, h3, h4, h4'⟩ := runDrop_tree (d := x.1) h hs hop
    obtain ⟨o', m1', t1', h1', hsafe, _⟩ := runDrop_shape (d := x.1) h hop.calm
    cases h1.symm.trans h1'
    obtain ⟨os, m', t', h5, h6, h7, h8, h9⟩ := ih h2 h3 fun op hop => hops op (by simp [hop])
    unfold historyDrop at h5 ⊢
    unfold execute
    cases o with
    | ok r =>
      exact ⟨.ok r :: os, m', t', by simp only [h1, h5], h6, h7,
        ⟨_, h4, .inr ⟨by simp, h8⟩⟩, ⟨_, h4', .inr ⟨by simp, h9⟩⟩⟩
    | panic =>
      exact ⟨.panic :: os, m', t', by simp only [h1, h5], h6, h7,
        ⟨_, h4, .inr ⟨by simp, h8⟩⟩, ⟨_, h4', .inr ⟨by simp, h9⟩⟩⟩
    | abort =>
      exact ⟨[.abort], m1, t1, by simp only [h1], h2, h3,
        ⟨_, h4, .inl ⟨rfl, rfl, rfl⟩⟩, ⟨_, h4', .inl ⟨rfl, rfl, rfl⟩⟩⟩
    | ub => exact hsafe.elim
    | diverge => exact hsafe.elim

/-! ### Destructors that do not panic -/

theorem badKey_calm {d : Dtors K V} (hk : ∀ k, d.badKey k = false) (k : K) : d.badKey k = false :=
  hk k

theorem badValue_calm {d : Dtors K V} (hv : ∀ v, d.badValue v = false) (v : V) :
    d.badValue v = false := hv v

theorem calm_bad {d : Dtors K V}
    (hd : d.needsDrop = false ∨ (∀ k, d.key k = false) ∧ ∀ v, d.value v = false) :
    (∀ k, d.badKey k = false) ∧ ∀ v, d.badValue v = false := by
  rcases hd with h | ⟨h1, h2⟩
  · exact ⟨fun _ => by simp [Dtors.badKey, h], fun _ => by simp [Dtors.badValue, h]⟩
  · exact ⟨fun _ => by simp [Dtors.badKey, h1], fun _ => by simp [Dtors.badValue, h2]⟩

theorem bad_calm {d : Dtors K V} (hk : ∀ k, d.badKey k = false) (hv : ∀ v, d.badValue v = false)
    (l : List (K × V)) : l.any d.bad = false := by
  rw [List.any_eq_false]
  intro e _
  have h1 := hk e.1
  have h2 := hv e.2
  simp only [Dtors.badKey, Dtors.badValue, Dtors.bad] at h1 h2 ⊢
  rw [Bool.and_or_distrib_left, h1, h2]
  simp

theorem insertDrop_calm {d : Dtors K V} (hk : ∀ k, d.badKey k = false) (hv : ∀ v, d.badValue v = false)
    (c : Probe K) (k : K) (v : V) : insertDrop cfg d c k v = BSTMap.insert cfg c k v := by
  funext m
  unfold insertDrop
  simp only [badKey_calm hk, badValue_calm hv]
  split
  · rename_i h; rw [h]; rfl
  · rename_i h; rw [h]; rfl
  · rfl

theorem insertStmt_calm {d : Dtors K V} (hk : ∀ k, d.badKey k = false) (hv : ∀ v, d.badValue v = false)
    (c : Probe K) (k : K) (v : V) :
    insertStmt cfg d c k v = (do let _ ← BSTMap.insert cfg c k v; pure ()) := by
  unfold insertStmt
  rw [insertDrop_calm hk hv]
  congr
  funext old
  have : old.any d.badValue = false := by cases old <;> simp [badValue_calm hv]
  rw [this]; rfl

theorem insertAllDrop_calm {d : Dtors K V} (hk : ∀ k, d.badKey k = false) (hv : ∀ v, d.badValue v = false)
    (cmps : Nat → K → Probe K) (l : List (K × V)) :
    ∀ n, insertAllDrop cfg d cmps n l = insertAll cfg cmps n l := by
  induction l with
  | nil => exact fun _ => rfl
  | cons e l ih =>
    intro n
    funext m
    unfold insertAllDrop
    rw [insertStmt_calm hk hv, ih, discard_bind]
    rfl

theorem cloneDrop_calm {d : Dtors K V} (hk : ∀ k, d.badKey k = false) (hv : ∀ v, d.badValue v = false)
    (cmps : Nat → K → Probe K) (cloneK : K → Option K) (cloneV : V → Option V) (m : BSTMap K V) :
    cloneDrop cfg d cmps cloneK cloneV m = BSTMap.clone cfg cmps cloneK cloneV m := by
  unfold cloneDrop BSTMap.clone
  refine congrFun (bind_congr fun n => bind_congr fun _ => bind_congr fun root => ?_) _
  refine congrArg (fun b => loop (walkFuel m.nodes) b (0, root.toList)) (funext fun st => ?_)
  obtain ⟨i, st⟩ := st
  cases st with
  | nil => rfl
  | cons node stack =>
    dsimp only
    cases cloneK node.key with
    | none => rfl
    | some k =>
      cases cloneV node.value with
      | none => simp only [badKey_calm hk]; rfl
      | some v =>
        dsimp only
        rw [insertStmt_calm hk hv]
        funext s
        rw [discard_bind]

theorem assignDrop_calm {d : Dtors K V} (hk : ∀ k, d.badKey k = false) (hv : ∀ v, d.badValue v = false)
    {f : BSTMap K V → Out Unit × BSTMap K V} {m : BSTMap K V} (h : Valid cfg m)
    (hf : Valid cfg (f m).2) : assignDrop cfg d f m = BSTMap.assign f m := by
  unfold assignDrop BSTMap.assign
  obtain ⟨t, h⟩ := h
  cases he : f m with
  | mk o m1 =>
    rw [he] at hf
    obtain ⟨w, hf⟩ := hf
    cases o with
    | ok a => dsimp only; rw [drop_out h, bad_calm hk hv]; rfl
    | panic => dsimp only; rw [drop_out hf, bad_calm hk hv]; rfl
    | _ => rfl

theorem runDrop_calm {m : BSTMap K V} {t : Tree K V} (h : Shape cfg m t) {d : Dtors K V}
    (hk : ∀ k, d.badKey k = false) (hv : ∀ v, d.badValue v = false) (op : Op K V) :
    op.runDrop cfg d m = op.run cfg m := by
  cases op with
  | withCapacity n =>
    obtain ⟨o, m1, h1, h2, _⟩ := withCapacity_spec (K := K) (V := V) cfg n
    simp only [Op.runDrop, Op.run, M.bind_apply]
    rw [assignDrop_calm hk hv ⟨t, h⟩ (by rw [h1]; exact ⟨_, h2⟩)]
  | collect cmps src =>
    have hv' := (fromIterDrop_stops (cfg := cfg) (d := d) cmps src).2
    have he : fromIterDrop cfg d cmps src = fromIter cfg cmps src := by
      unfold fromIterDrop fromIter
      simp only [insertAllDrop_calm hk hv]
    rw [he] at hv'
    simp only [Op.runDrop, Op.run, M.bind_apply, he]
    rw [assignDrop_calm hk hv ⟨t, h⟩ hv']
  | cloned cmps a b =>
    have hv' := (cloneDrop_stops (cfg := cfg) (d := d) cmps a b m).2
    have he : cloneDrop cfg d cmps a b = BSTMap.clone cfg cmps a b :=
      funext fun m => cloneDrop_calm hk hv cmps a b m
    rw [he] at hv'
    simp only [Op.runDrop, Op.run, M.bind_apply, he]
    rw [assignDrop_calm hk hv ⟨t, h⟩ hv']
  | insert c k v => simp only [Op.runDrop, Op.run, insertDrop_calm hk hv]
  | remove c =>
    rcases removeDrop_eq (d := d) c h with ⟨e, m', _, _, h2, h3⟩ | ⟨_, h2, h3⟩
    · have : (e.any fun x => d.badKey x.2.1) = false := by cases e <;> simp [badKey_calm hk]
      rw [this] at h3
      simp only [Op.runDrop, Op.run, M.bind_apply, h2, h3]; rfl
    · simp only [Op.runDrop, Op.run, M.bind_apply, h2, h3]
  | extend cmps src =>
    have he : extendDrop cfg d cmps src = BSTMap.extend cfg cmps src := by
      unfold extendDrop BSTMap.extend
      simp only [insertAllDrop_calm hk hv]
    simp only [Op.runDrop, Op.run, he]
  | _ => rfl

/-! ### Single calls -/

theorem insertDrop_present {cmp : K → K → Ordering} [TransCmp cmp] {m : BSTMap K V} {t : Tree K V}
    (h : Shape cfg m t) (hs : t.SortedBy cmp) {d : Dtors K V} {k k0 : K} {v v0 : V}
    (he : m.getEntry (query (cmp k)) = .ok (some (k0, v0))) (hd : d.badKey k = true) :
    ∃ m', insertDrop cfg d (query (cmp k)) k v m = (.panic, m') ∧
      m'.getEntry (query (cmp k)) = .ok (some (k0, v)) ∧ m'.len cfg = m.len cfg := by
  obtain ⟨m', b, h1, h2, _, _, h3, _⟩ := reinsert_spec h hs v he
  refine ⟨m', ?_, h2, h3⟩
  unfold insertDrop
  rw [h1]
  simp [hd]

theorem removeDrop_present {cmp : K → K → Ordering} [TransCmp cmp] {m : BSTMap K V} {t : Tree K V}
    (h : Shape cfg m t) (hs : t.SortedBy cmp) {d : Dtors K V} {f : K → Ordering}
    (hf : Spec.LawfulQuery cmp f) {k0 : K} {v0 : V}
    (he : m.getEntry (query f) = .ok (some (k0, v0))) (hd : d.badKey k0 = true) :
    ∃ l m', removeDrop cfg d (query f) m = (.panic, m') ∧ m.iterInorder = .ok l ∧
      m'.iterInorder = .ok (Spec.remove (hitOf f) l) := by
  rcases removeDrop_eq (d := d) (query f) h with ⟨e, m', h1, h2, h3, h4⟩ | ⟨h1, _⟩
  · have hg := getEntry_spec h (query f)
    rw [h1] at hg
    rw [hg] at he
    cases e with
    | none => cases he
    | some e =>
      simp only [Out.ok_bind, Out.pure_eq, Option.map_some, Out.ok.injEq, Option.some.injEq] at he
      refine ⟨t.kv, m', ?_, iterInorder_spec h, ?_⟩
      · rw [h4]; simp [he, hd]
      · rw [iterInorder_spec h2, ← Tree.del_kv hf hs 0]; rfl
  · rw [getEntry_spec h, h1] at he; cases he

theorem setGet_entry {T : Type} {s : BSTSet T} {c : Probe T} {x : T}
    (h : s.get c = .ok (some x)) : s.items.getEntry c = .ok (some (x, ())) := by
  unfold BSTSet.get at h
  cases he : s.items.getEntry c with
  | ok e =>
    rw [he] at h
    cases e with
    | none => cases h
    | some e =>
      simp only [Out.ok_bind, Out.pure_eq, Option.map_some, Out.ok.injEq, Option.some.injEq] at h
      rw [← h]
  | _ => rw [he] at h; cases h

theorem setInsertDrop_present {T : Type} {cmp : T → T → Ordering} [TransCmp cmp] {s : BSTSet T}
    {t : Tree T Unit} (h : Shape cfg s.items t) (hs : t.SortedBy cmp) {d : Dtors T Unit} {x x0 : T}
    (he : s.get (query (cmp x)) = .ok (some x0)) (hd : d.badKey x = true) :
    ∃ s', BSTSet.insertDrop cfg d (query (cmp x)) x s = (.panic, s') ∧
      s'.get (query (cmp x)) = .ok (some x0) ∧ s'.len cfg = s.len cfg := by
  obtain ⟨m', h1, h2, h3⟩ := insertDrop_present (v := ()) h hs (setGet_entry he) hd
  refine ⟨{ s with items := m' }, ?_, ?_, h3⟩
  · simp only [BSTSet.insertDrop, M.bind_apply, BSTSet.onItems, h1]
  · simp only [BSTSet.get, h2]; rfl

theorem setRemoveDrop_present {T : Type} {cmp : T → T → Ordering} [TransCmp cmp] {s : BSTSet T}
    {t : Tree T Unit} (h : Shape cfg s.items t) (hs : t.SortedBy cmp) {d : Dtors T Unit}
    {f : T → Ordering} (hf : Spec.LawfulQuery cmp f) {x0 : T}
    (he : s.get (query f) = .ok (some x0)) (hd : d.badKey x0 = true) :
    ∃ l s', BSTSet.removeDrop cfg d (query f) s = (.panic, s') ∧ s.iterInorder = .ok l ∧
      s'.iterInorder = .ok (l.filter fun t => f t != .eq) := by
  have he := setGet_entry he
  rcases removeEntry_cases h (query f) with ⟨e, m', h1, h2, h3⟩ | ⟨h1, _⟩
  · have hg := getEntry_spec h (query f)
    rw [h1] at hg
    rw [hg] at he
    cases e with
    | none => cases he
    | some e =>
      simp only [Out.ok_bind, Out.pure_eq, Option.map_some, Out.ok.injEq, Option.some.injEq] at he
      refine ⟨_, { s with items := m' }, ?_, setInorder_spec h, ?_⟩
      · simp only [BSTSet.removeDrop, BSTSet.take, M.bind_apply, BSTSet.onItems, h2]
        simp [he, hd]
      · rw [setInorder_spec (s := { s with items := m' }) h3]
        have hk : (t.del (query f) 0).kv = Spec.remove (hitOf f) t.kv := Tree.del_kv hf hs 0
        simp only [Tree.elems, Spec.BT.map_ino, Tree.sh_ino, hk, Spec.remove, List.filter_map]
        rfl
  · rw [getEntry_spec h, h1] at he; cases he

end
end BST
