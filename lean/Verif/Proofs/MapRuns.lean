import Verif.Proofs.MapWrites
import Verif.Proofs.History
set_option linter.unusedSimpArgs false
/-!
# Clearing, cloning and mutable iteration with references; all the calls
-/
namespace BST
namespace TMap
open AliasLaws BSTMap Tree
open Spec (Order)
variable {H K V : Type} [Aliasing H] [AliasLaws H] {cfg : Cfg} {α β γ δ : Type} {s s' : TMap H K V} {p q : Ptr}

/-! ### `clear` -/

theorem _root_.BST.Tagged.clear_nodrop {T : Type} {s : Tagged H T} (hg : s.Good cfg) (how : ChunkPtr) :
    ∃ t, Tagged.clear cfg how false s = (.ok (), t) ∧ t.Good cfg ∧
      Arena.clear cfg false (fun _ => false) s.arena = (.ok (), t.arena) := by
  obtain ⟨a, e, hi, hc⟩ := Tagged.clear_arena hg false
  obtain ⟨a', e', hg', _⟩ := Tagged.grow_clear hg false
  have : a' = a := by
    unfold Tagged.grow at e'
    rw [e] at e'
    have h := congrArg (fun r => (Prod.snd r).arena) e'
    have hlen : a.chunks.length = s.arena.chunks.length := by
      have := congrArg List.length hc
      simpa using this
    simp only [hg.tags, ← hlen, List.drop_length] at h
    exact h.symm
  subst this
  refine ⟨{ s with arena := a' }, ?_, hg', e⟩
  unfold Tagged.clear
  rw [M.get_bind]
  simp only [Bool.not_false, Bool.true_or, if_true]
  exact e'

theorem reset_sim (hk : OK cfg s) (how : ChunkPtr) :
    Sim cfg (TMap.resetInternalState cfg how) s
      (BSTMap.onNodes (Slab.resetInternalState cfg) s.map) (fun _ _ _ => True) := by
  obtain ⟨t, e, hg, e'⟩ := Tagged.clear_nodrop hk how
  unfold TMap.resetInternalState Slab.resetInternalState
  rw [onNodes_bind]
  refine .bindM (onItems_sim e e' hg) fun a b s1 _ hk1 _ => ?_
  exact ⟨(), { s1 with map := { s1.map with nodes := { s1.map.nodes with
    freeHead := none, freeLen := 0 } } }, rfl, rfl, hk1, trivial⟩

theorem freePointers_sim {m : BSTMap K V} (hm : s.map = m) (hk : OK cfg s) :
    Sim cfg TMap.freePointers s (m.nodes.freePointers, m) (fun a b _ => a = b) := by
  unfold TMap.freePointers Slab.freePointers
  refine .step (a := s) (s' := s) rfl ?_
  rw [hm]
  refine .loopO (I := fun a b _ => a = b) (fun st st' s1 hm1 hk1 hi => ?_) _ hm hk rfl
  subst hi
  obtain ⟨o, l⟩ := st
  cases o with
  | none => exact .pure hk1 hm1 rfl
  | some p =>
    simp only
    unfold Arena.getUnchecked
    cases hc : m.nodes.items.cell p with
    | none => exact trivial
    | some ent =>
      have hsome : (s1.items.arena.cell p).isSome := by
        show (s1.map.nodes.items.cell p).isSome
        rw [hm1, hc]; rfl
      obtain ⟨t, s2, e2, hm2, hk2, hh2, _⟩ := getRaw_ok hk1 hsome
      obtain ⟨s3, e3, hm3, hk3, _⟩ := accessRead_ok (n := ⟨p, t⟩) hk2 hh2
      have hm3' : s3.map = m := hm3.trans (hm2.trans hm1)
      refine .step e2 (.step e3 (.step (a := ent) (s' := s3) ?_ ?_))
      · rw [M.read_apply, hm3', hc]
      · cases ent with
        | free next => exact .step (a := next) (s' := s3) rfl (.pure hk3 hm3' rfl)
        | value _ => exact trivial
        | dead => exact trivial

theorem nextPtr_cell {T : Type} {a : Arena T} {it it' : Arena.Iter} {p : Ptr} {e : T}
    (h : it.nextPtr cfg a = .ok (some (p, e), it')) : a.cell p = some e := by
  unfold Arena.Iter.nextPtr at h
  split at h
  · cases hp : a.ptrAt cfg it.start with
    | ok q =>
      rw [hp] at h
      simp only [Arena.getUnchecked, Out.ok_bind] at h
      cases hc : a.cell q with
      | none =>
        rw [hc] at h
        cases h
      | some v =>
        rw [hc] at h
        cases h
        exact hc
    | _ => rw [hp] at h; cases h
  · cases h

theorem onNodes_get (k : Nodes K V → M (Nodes K V) α) (m : BSTMap K V) :
    BSTMap.onNodes (M.get >>= k) m = BSTMap.onNodes (k m.nodes) m := by
  unfold BSTMap.onNodes
  rw [M.get_bind]

theorem clearNodes_sim (hk : OK cfg s) (how : ChunkPtr) (d : DropInfo (InnerNode K V)) :
    Sim cfg (TMap.clearNodes cfg how d) s (BSTMap.onNodes (Slab.clear cfg d) s.map)
      (fun _ _ _ => True) := by
  unfold TMap.clearNodes Slab.clear
  rw [onNodes_get]
  refine .step (a := s) (s' := s) rfl ?_
  cases hb : (!d.needsDrop || s.map.nodes.items.len == s.map.nodes.freeLen) with
  | true => exact reset_sim hk how
  | false =>
    simp only [Bool.false_eq_true, if_false]
    rw [onNodes_bind]
    refine .bindM (R := fun a b _ => a = b) (freePointers_sim rfl hk) fun frees b s1 _ hk1 hf => ?_
    subst hf
    rw [onNodes_bind, onNodes_loop]
    refine .bindM (R := fun _ _ _ => True) (.loopM (I := fun a b _ => a = b) (R := fun _ _ _ => True)
      (fun it it' s2 hk2 hi => ?_) _ hk1 rfl) fun _ _ s3 _ hk3 _ => reset_sim hk3 how
    subst hi
    rw [onNodes_get]
    refine .step (a := s2) (s' := s2) rfl ?_
    rw [onNodes_bind, onNodes_lift]
    cases hn : it.nextPtr cfg s2.map.nodes.items with
    | ub => exact trivial
    | diverge => exact trivial
    | panic => exact ⟨s2, rfl, rfl, hk2⟩
    | abort => exact ⟨s2, rfl, rfl, hk2⟩
    | ok r =>
      obtain ⟨o, it'⟩ := r
      rw [M.lift_ok_bind]
      refine .step (a := (o, it')) (s' := s2) rfl ?_
      cases o with
      | none => exact .pure hk2 rfl trivial
      | some e =>
        obtain ⟨p, ent⟩ := e
        simp only
        have hc := nextPtr_cell hn
        have hsome : (s2.items.arena.cell p).isSome := by
          show (s2.map.nodes.items.cell p).isSome
          rw [hc]; rfl
        obtain ⟨t, s3, e3, hm3, hk3, hh3, _⟩ := getRawMut_ok hk2 hsome
        refine .step e3 ?_
        by_cases hmem : p ∈ frees
        · simp only [hmem, if_true]
          exact .pure hk3 hm3 rfl
        · simp only [hmem, if_false]
          obtain ⟨h', e4, hk4, _⟩ := accessWrite_ok (n := ⟨p, t⟩) hk3 hh3
          refine .step e4 ?_
          rw [onNodes_bind]
          have hm4 : s2.map = ({ s3 with heap := h' } : TMap H K V).map := hm3.symm
          rw [hm4]
          rcases hr : Slab.dropEntry d p ent s3.map.nodes with ⟨o, n⟩
          have hn : n.items = s3.map.nodes.items.poke p (some .dead) ∨
              n.items = s3.map.nodes.items := by
            unfold Slab.dropEntry at hr
            cases ent with
            | value v =>
              left
              rw [show Slab.Entry.asValue (.value v) = .ok v from rfl, M.lift_ok_bind,
                M.modify_bind] at hr
              split at hr <;> rw [← (Prod.mk.inj hr).2]
            | free _ => right; rw [← (Prod.mk.inj hr).2]
            | dead => right; rw [← (Prod.mk.inj hr).2]
          refine .bindM (onNodes_sim (s := { s3 with heap := h' }) (p := p) (o := o) (n := n) hk4
            ?_ hr hn) fun _ _ s5 _ hk5 _ => .pure hk5 rfl rfl
          show (s3.map.nodes.items.cell p).isSome
          rw [hm3]; exact hsome

theorem clear_sim (hk : OK cfg s) (how : ChunkPtr) (d : DropInfo (InnerNode K V)) :
    Sim cfg (TMap.clear cfg how d) s (BSTMap.clear cfg d s.map) (fun _ _ _ => True) := by
  unfold TMap.clear BSTMap.clear
  refine .bindM (clearNodes_sim hk how d) fun _ _ s1 _ hk1 _ => ?_
  exact ⟨(), { s1 with map := { s1.map with root := none } }, rfl, rfl, hk1, trivial⟩

theorem shrinkToFit_sim (hk : OK cfg s) {how : ChunkPtr} (hh : (view H).Sound how) :
    Sim cfg (TMap.shrinkToFit cfg how) s (BSTMap.shrinkToFit cfg s.map) (fun a b _ => a = b) := by
  rcases Tagged.shrinkToFit_keeps hk how with ⟨t, e, hkeep, _, e'⟩ | ⟨h, _⟩
  · exact (onItems_sim e e' hkeep.good).mono fun _ _ _ _ _ h => h.1
  · exact absurd hh h

theorem sourceEnd_sim (b : Bool) (hk : OK cfg s) :
    Sim cfg (if b then M.panic else Pure.pure () : M (TMap H K V) Unit) s
      ((if b then M.panic else Pure.pure () : M (BSTMap K V) Unit) s.map) (fun _ _ _ => True) := by
  cases b with
  | true => exact .panic hk rfl
  | false => exact .pure hk rfl trivial

theorem extend_sim (hk : OK cfg s) (cmps : Nat → K → Probe K) (src : BSTMap.Source K V) :
    Sim cfg (TMap.extend cfg cmps src) s (BSTMap.extend cfg cmps src s.map)
      (fun _ _ _ => True) := by
  unfold TMap.extend BSTMap.extend
  refine .bindM (reserve_sim hk _) fun _ _ s1 _ hk1 _ => ?_
  refine .bindM (insertAll_sim cmps _ 0 hk1) fun _ _ s2 _ hk2 _ => sourceEnd_sim _ hk2

theorem fromIter_sim (cmps : Nat → K → Probe K) (src : BSTMap.Source K V) :
    Sim cfg (TMap.fromIter cfg cmps src) (TMap.new : TMap H K V) (BSTMap.fromIter cfg cmps src)
      (fun _ _ _ => True) := by
  unfold TMap.fromIter BSTMap.fromIter
  refine .bindM (m := (TMap.new : TMap H K V).map) (growTo_sim .new _) fun _ _ s1 _ hk1 _ => ?_
  refine .bindM (insertAll_sim cmps _ 0 hk1) fun _ _ s2 _ hk2 _ => sourceEnd_sim _ hk2

/-! ### `clone` -/

/-- `Sim` for a function of two maps, of which the first is only read. -/
def Sim2 (cfg : Cfg) (m0 : BSTMap K V) (f : M (TMap H K V × TMap H K V) α) (s : TMap H K V × TMap H K V)
    (r : Out β × BSTMap K V) (R : α → β → TMap H K V → Prop) : Prop :=
  match r with
  | (.ok b, m) => ∃ a s1 s2, f s = (.ok a, s1, s2) ∧ s1.map = m0 ∧ OK cfg s1 ∧ s2.map = m ∧
      OK cfg s2 ∧ R a b s1
  | (.panic, _) => ∃ s1 s2, f s = (.panic, s1, s2) ∧ s1.map = m0 ∧ OK cfg s1
  | (.abort, _) => ∃ s1 s2, f s = (.abort, s1, s2) ∧ s1.map = m0 ∧ OK cfg s1
  | _ => True

section
variable {m0 : BSTMap K V} {s1 s2 : TMap H K V}

theorem Sim2.pure {a : α} {b : β} {R : α → β → TMap H K V → Prop} (hm : s1.map = m0)
    (hk1 : OK cfg s1) (hk2 : OK cfg s2) (hR : R a b s1) :
    Sim2 cfg m0 (Pure.pure a) (s1, s2) (.ok b, s2.map) R :=
  ⟨a, s1, s2, rfl, hm, hk1, rfl, hk2, hR⟩

theorem Sim2.step {f : M (TMap H K V × TMap H K V) α} {f' : α → M (TMap H K V × TMap H K V) γ}
    {r : Out β × BSTMap K V} {R : γ → β → TMap H K V → Prop} {a : α} {t t' : TMap H K V × TMap H K V}
    (e : f t = (.ok a, t')) (h : Sim2 cfg m0 (f' a) t' r R) : Sim2 cfg m0 (f >>= f') t r R := by
  unfold Sim2 at h ⊢
  rw [M.bind_ok e]
  exact h

theorem Sim2.fst {f : M (TMap H K V) α} {f' : α → M (TMap H K V × TMap H K V) γ} {o : Out β}
    {g' : β → M (BSTMap K V) δ} {R : α → β → TMap H K V → Prop} {R' : γ → δ → TMap H K V → Prop}
    (h : Sim cfg f s1 (o, m0) R)
    (h' : ∀ a b s, o = .ok b → s.map = m0 → OK cfg s → R a b s →
      Sim2 cfg m0 (f' a) (s, s2) (g' b s2.map) R') :
    Sim2 cfg m0 (onFst f >>= f') (s1, s2) ((M.lift o >>= g') s2.map) R' := by
  cases o with
  | ok b =>
    obtain ⟨a, s, e, hm, hk, hr⟩ := h
    have e' : onFst f (s1, s2) = (.ok a, s, s2) := by unfold onFst; simp only [e]
    have := h' a b s rfl hm hk hr
    rw [M.lift_ok_bind]
    unfold Sim2 at this ⊢
    rw [M.bind_ok e']
    exact this
  | panic =>
    obtain ⟨s, e, hm, hk⟩ := h
    have e' : onFst f (s1, s2) = (.panic, s, s2) := by unfold onFst; simp only [e]
    exact ⟨s, s2, M.bind_panic e', hm, hk⟩
  | abort =>
    obtain ⟨s, e, hm, hk⟩ := h
    have e' : onFst f (s1, s2) = (.abort, s, s2) := by unfold onFst; simp only [e]
    exact ⟨s, s2, M.bind_abort e', hm, hk⟩
  | ub => exact trivial
  | diverge => exact trivial

theorem Sim2.snd {f : M (TMap H K V) α} {f' : α → M (TMap H K V × TMap H K V) γ}
    {g : M (BSTMap K V) β} {m : BSTMap K V}
    {g' : β → M (BSTMap K V) δ} {R : α → β → TMap H K V → Prop} {R' : γ → δ → TMap H K V → Prop}
    (hm1 : s1.map = m0) (hk1 : OK cfg s1) (h : Sim cfg f s2 (g m) R)
    (h' : ∀ a b s, OK cfg s → R a b s → Sim2 cfg m0 (f' a) (s1, s) (g' b s.map) R') :
    Sim2 cfg m0 (onSnd f >>= f') (s1, s2) ((g >>= g') m) R' := by
  rcases hg : g m with ⟨o, m'⟩
  rw [hg] at h
  cases o with
  | ok b =>
    obtain ⟨a, s, e, rfl, hk, hr⟩ := h
    have e' : onSnd f (s1, s2) = (.ok a, s1, s) := by unfold onSnd; simp only [e]
    have := h' a b s hk hr
    rw [M.bind_ok hg]
    unfold Sim2 at this ⊢
    rw [M.bind_ok e']
    exact this
  | panic =>
    obtain ⟨s, e, hm, hk⟩ := h
    have e' : onSnd f (s1, s2) = (.panic, s1, s) := by unfold onSnd; simp only [e]
    rw [M.bind_panic hg]
    exact ⟨s1, s, M.bind_panic e', hm1, hk1⟩
  | abort =>
    obtain ⟨s, e, hm, hk⟩ := h
    have e' : onSnd f (s1, s2) = (.abort, s1, s) := by unfold onSnd; simp only [e]
    rw [M.bind_abort hg]
    exact ⟨s1, s, M.bind_abort e', hm1, hk1⟩
  | ub => rw [M.bind_apply, hg]; exact trivial
  | diverge => rw [M.bind_apply, hg]; exact trivial

theorem Sim2.bindM {f : M (TMap H K V × TMap H K V) α} {f' : α → M (TMap H K V × TMap H K V) γ}
    {g : M (BSTMap K V) β} {m : BSTMap K V} {t : TMap H K V × TMap H K V}
    {g' : β → M (BSTMap K V) δ} {R : α → β → TMap H K V → Prop} {R' : γ → δ → TMap H K V → Prop}
    (h : Sim2 cfg m0 f t (g m) R)
    (h' : ∀ a b s1 s2, s1.map = m0 → OK cfg s1 → OK cfg s2 → R a b s1 →
      Sim2 cfg m0 (f' a) (s1, s2) (g' b s2.map) R') :
    Sim2 cfg m0 (f >>= f') t ((g >>= g') m) R' := by
  rcases hg : g m with ⟨o, m'⟩
  rw [hg] at h
  cases o with
  | ok b =>
    obtain ⟨a, s1, s2, e, hm1, hk1, rfl, hk2, hr⟩ := h
    rw [M.bind_ok hg]
    exact .step e (h' a b s1 s2 hm1 hk1 hk2 hr)
  | panic =>
    obtain ⟨s1, s2, e, hm, hk⟩ := h
    rw [M.bind_panic hg]
    exact ⟨s1, s2, M.bind_panic e, hm, hk⟩
  | abort =>
    obtain ⟨s1, s2, e, hm, hk⟩ := h
    rw [M.bind_abort hg]
    exact ⟨s1, s2, M.bind_abort e, hm, hk⟩
  | ub => rw [M.bind_apply, hg]; exact trivial
  | diverge => rw [M.bind_apply, hg]; exact trivial

theorem Sim2.loop {A B : Type} {body : A → M (TMap H K V × TMap H K V) (A ⊕ α)}
    {body' : B → M (BSTMap K V) (B ⊕ β)} {I : A → B → TMap H K V → Prop}
    {R : α → β → TMap H K V → Prop}
    (h : ∀ a b s1 s2, s1.map = m0 → OK cfg s1 → OK cfg s2 → I a b s1 →
      Sim2 cfg m0 (body a) (s1, s2) (body' b s2.map) (Iterates I R))
    (n : Nat) {a : A} {b : B} (hm : s1.map = m0) (hk1 : OK cfg s1) (hk2 : OK cfg s2)
    (hi : I a b s1) :
    Sim2 cfg m0 (BST.loop n body a) (s1, s2) (BST.loop n body' b s2.map) R := by
  induction n generalizing a b s1 s2 with
  | zero => exact trivial
  | succ n ih =>
    rw [loop_succ, loop_succ]
    refine .bindM (h a b s1 s2 hm hk1 hk2 hi) fun x y s1' s2' hm' hk1' hk2' hr => ?_
    cases x with
    | inl a' =>
      cases y with
      | inl b' => exact ih hm' hk1' hk2' hr
      | inr _ => exact hr.elim
    | inr a' =>
      cases y with
      | inl _ => exact hr.elim
      | inr b' => exact .pure hm' hk1' hk2' hr

/-- The stacks of `clone`. -/
def RelS (nd : Nodes K V) (s : TMap H K V) : List NodeRef → List (Node K V) → Prop
  | [], [] => True
  | n :: l, x :: l' => RelN false nd s n x ∧ RelS nd s l l'
  | _, _ => False

theorem RelS.frame {nd : Nodes K V} {l : List NodeRef} {l' : List (Node K V)}
    (h : RelS nd s l l') (hs : Shared s s') : RelS nd s' l l' := by
  induction l generalizing l' with
  | nil => cases l' <;> exact h
  | cons n l ih =>
    cases l' with
    | nil => exact h
    | cons x l' => exact ⟨h.1.frame hs, ih h.2⟩

theorem RelS.push {nd : Nodes K V} {a : Option NodeRef} {b : Option (Node K V)}
    {l : List NodeRef} {l' : List (Node K V)} (h : RelO false nd s a b) (hl : RelS nd s l l') :
    RelS nd s (a.toList ++ l) (b.toList ++ l') := by
  match a, b, h with
  | none, none, _ => exact hl
  | some n, some x, h => exact ⟨h, hl⟩

theorem RelO.frame {nd : Nodes K V} {a : Option NodeRef} {b : Option (Node K V)}
    (h : RelO false nd s a b) (hs : Shared s s') : RelO false nd s' a b := by
  match a, b, h with
  | none, none, _ => exact trivial
  | some n, some x, h => exact RelN.frame h hs

theorem clone_sim (hm : s.map = m0) (hk : OK cfg s) (cmps : Nat → K → Probe K)
    (cloneK : K → Option K) (cloneV : V → Option V) :
    Sim2 cfg m0 (TMap.clone cfg cmps cloneK cloneV) (s, TMap.new)
      (BSTMap.clone cfg cmps cloneK cloneV m0) (fun _ _ _ => True) := by
  unfold TMap.clone BSTMap.clone
  refine .step (a := (s, TMap.new)) (t' := (s, TMap.new)) rfl ?_
  simp only [hm]
  cases hl : m0.len cfg with
  | ub => exact trivial
  | diverge => exact trivial
  | panic => exact ⟨s, TMap.new, rfl, hm, hk⟩
  | abort => exact ⟨s, TMap.new, rfl, hm, hk⟩
  | ok n =>
    rw [M.lift_ok_bind]
    refine .step (a := n) (t' := (s, TMap.new)) rfl ?_
    refine .snd (m := (TMap.new : TMap H K V).map) hm hk (growTo_sim .new n) fun _ _ s2 hk2 _ => ?_
    refine .fst (nodeOpt_sim (Sees.self m0) false hm hk _) fun a b s3 _ hm3 hk3 hr => ?_
    refine .loop (I := fun a b s => a.1 = b.1 ∧ RelS m0.nodes s a.2 b.2)
      (fun a b s1 s2 hm1 hk1 hk2 hi => ?_) _ hm3 hk3 hk2
      ⟨rfl, by simpa using RelS.push (l := []) (l' := []) hr.1 trivial⟩
    obtain ⟨i, l⟩ := a
    obtain ⟨i', l'⟩ := b
    obtain ⟨rfl, hr⟩ := hi
    simp only at hr
    match l, l', hr with
      | [], [], _ => exact .pure hm1 hk1 hk2 trivial
      | n :: l, x :: l', hr =>
        obtain ⟨s4, e4, hm4, hk4, hh4, hf4⟩ := deref_step (Sees.self m0) hm1 hk1 hr.1.2.2
          (by rw [hr.1.1]; exact hr.1.2.1)
        have e4' : onFst (deref n) (s1, s2) = (.ok x.node, s4, s2) := by
          unfold onFst; simp only [e4]
        refine .step e4' ?_
        have hr4 := hr.2.frame (hf4.shared rfl)
        have hn4 := hr.1.frame (hf4.shared rfl)
        cases hck : cloneK x.node.key with
        | none =>
          simp only [Node.key, Node.value, hck]
          exact ⟨s4, s2, rfl, hm4, hk4⟩
        | some k =>
          cases hcv : cloneV x.node.value with
          | none =>
            simp only [Node.key, Node.value, hck, hcv]
            exact ⟨s4, s2, rfl, hm4, hk4⟩
          | some v =>
            simp only [Node.key, Node.value, hck, hcv, bind_assoc, pure_bind]
            refine Sim2.snd (g := BSTMap.insert cfg (cmps i k) k v) hm4 hk4 (insert_sim hk2 _ k v)
              fun _ _ s5 hk5 _ => ?_
            refine .fst (right_sim (Sees.self m0) hm4 hk4 hn4) fun ra rb s6 _ hm6 hk6 h6 => ?_
            have sh6 := h6.2.shared rfl
            refine .fst (left_sim (Sees.self m0) hm6 hk6 (hn4.frame sh6)) fun la lb s7 _ hm7 hk7 h7 => ?_
            have sh7 := h7.2.shared rfl
            refine .pure hm7 hk7 hk5 ⟨rfl, ?_⟩
            simp only
            rw [List.append_assoc, List.append_assoc]
            exact RelS.push h7.1 (RelS.push (RelO.frame h6.1 sh7) ((hr4.frame sh6).frame sh7))
end

/-! ### Clients of mutable iterators -/

/-- The memory of a map without some of its slots. -/
theorem hide (X : List Ptr) {nd : Nodes K V} (hi : nd.items.Inv cfg)
    (hX : ∀ p ∈ X, (nd.items.cell p).isSome) :
    ∃ nd' : Nodes K V, nd'.items.Inv cfg ∧ nd'.items.len = nd.items.len ∧
      ∀ q, nd'.items.cell q = if q ∈ X then some .dead else nd.items.cell q := by
  induction X with
  | nil => exact ⟨nd, hi, rfl, fun q => by simp⟩
  | cons p X ih =>
    obtain ⟨nd', h1, h2, h3⟩ := ih fun q hq => hX q (List.mem_cons_of_mem _ hq)
    have hp : (nd'.items.cell p).isSome := by
      rw [h3]
      split
      · rfl
      · exact hX p (by simp)
    refine ⟨{ nd' with items := nd'.items.poke p (some .dead) }, h1.poke hp _, ?_, fun q => ?_⟩
    · exact (Arena.poke_len _ _ _).1.trans h2
    · show (nd'.items.poke p (some .dead)).cell q = _
      rw [h1.cell_poke' hp, h3]
      by_cases hq : q = p
      · simp [hq]
      · simp [hq]

theorem hide_sees (X : List Ptr) {m : BSTMap K V} (hi : m.nodes.items.Inv cfg)
    (hX : ∀ p ∈ X, (m.nodes.view p).isSome) :
    ∃ nd : Nodes K V, Sees X nd m ∧ ∀ q, q ∉ X → nd.view q = m.nodes.view q := by
  obtain ⟨nd, _, h2, h3⟩ := hide (nd := m.nodes) X hi fun p hp => by
    obtain ⟨v, hv⟩ := Option.isSome_iff_exists.1 (hX p hp)
    rw [Slab.view_some.1 hv]; rfl
  have hv : ∀ q, q ∉ X → nd.view q = m.nodes.view q := fun q hq => by
    unfold Slab.view
    rw [h3, if_neg hq]
  refine ⟨nd, ⟨by simp [walkFuel, h2], fun p v hp => ?_⟩, hv⟩
  by_cases hpX : p ∈ X
  · have := Slab.view_some.1 hp
    rw [h3, if_pos hpX] at this
    cases this
  · exact ⟨by rw [← hv p hpX]; exact hp, hpX⟩

theorem clientRef_spec (o : Order) (N : Nat) (steps : List (Step V)) :
    ∀ {s : TMap H K V} {t : Tree K V} {st : Stack} {dn rem : List (Ptr × K × V)}
      {refs : List (K × NodeRef)},
    Shape cfg s.map t → t.order o = dn ++ rem → OrdInv o s.map.nodes N st rem → OK cfg s →
    refs.map (fun r => (r.1, r.2.ptr)) = dn.map (fun e => (e.2.1, e.1)) →
    (∀ r ∈ refs, Held true s r.2) →
    ∃ refs' s' st', clientRef o steps refs st s = (.ok refs', s') ∧ OK cfg s' ∧
      clientRun o steps (refs.map fun r => (r.1, r.2.ptr)) st s.map =
        (.ok (refs'.map (fun r => (r.1, r.2.ptr)), st'), s'.map) ∧
      (∀ r ∈ refs', Held true s' r.2) ∧ (refs'.map (·.2.ptr)).Nodup := by
  induction steps with
  | nil =>
    intro s t st dn rem refs h ho hi hk hr hh
    have hnd := Tree.order_nodup o h.nodup
    rw [ho, List.map_append, List.nodup_append] at hnd
    have hp := congrArg (List.map (·.2)) hr
    simp only [List.map_map, Function.comp_def] at hp
    exact ⟨refs, s, st, rfl, hk, rfl, hh, hp ▸ hnd.1⟩
  | cons a steps ih =>
    intro s t st dn rem refs h ho hi hk hr hh
    have hnd := Tree.order_nodup o h.nodup
    rw [ho, List.map_append, List.nodup_append] at hnd
    have hview : ∀ e ∈ dn ++ rem, (s.map.nodes.view e.1).isSome := fun e he => by
      obtain ⟨l, r, hv⟩ := h.rep.mem_ino ((t.order_perm o).mem_iff.1 (by rw [ho]; exact he))
      have hv : s.map.nodes.view e.1 = _ := hv
      rw [hv]; rfl
    cases a with
    | next =>
      obtain ⟨nd, hS, hv⟩ := hide_sees (m := s.map) (dn.map (·.1)) hk.inv fun p hp => by
        obtain ⟨e, he, rfl⟩ := List.mem_map.1 hp
        exact hview e (List.mem_append_left _ he)
      have hX : ∀ r ∈ refs, r.2.ptr ∈ dn.map (·.1) := fun r hrm => by
        have := List.mem_map_of_mem (f := fun r : K × NodeRef => (r.1, r.2.ptr)) hrm
        rw [hr] at this
        obtain ⟨e, he, h2⟩ := List.mem_map.1 this
        exact List.mem_map.2 ⟨e, he, (Prod.mk.inj h2).2⟩
      have hi' : OrdInv o nd N st rem := hi.congr (fun e he => hv _ fun hx =>
        hnd.2.2 _ hx _ (List.mem_map_of_mem he) rfl) hS.fuel
      have sim := nextMutRef_sim (m' := { s.map with nodes := nd }) hS rfl hk o st rfl
      have sim0 := nextMutRef_sim (m' := s.map) (Sees.self s.map) rfl hk o st rfl
      cases rem with
      | nil =>
        have hn := (nextMut_spec o { s.map with nodes := nd } N).done st hi'
        have hn0 := (nextMut_spec o s.map N).done st hi
        rw [hn] at sim
        obtain ⟨⟨x, st1⟩, s1, e1, hm1, hk1, h1, h2, hf⟩ := sim
        simp only at h1 h2
        subst h1
        cases x with
        | some n => exact h2.elim
        | none =>
          obtain ⟨refs', s', st', e2, hk2, e3, hfin⟩ := ih (s := s1) (by rw [hm1]; exact h) ho
            (by rw [hm1]; exact hi) hk1 hr fun r hrm => hf.held _ (hX r hrm) (hh r hrm)
          refine ⟨refs', s', st', ?_, hk2, ?_, hfin⟩
          · unfold clientRef
            rw [M.bind_ok e1]
            exact e2
          · unfold clientRun
            rw [M.read_bind, hn0, M.lift_ok_bind]
            rw [hm1] at e3
            simpa using e3
      | cons e rem =>
        obtain ⟨st1, hn, hi1⟩ := (nextMut_spec o { s.map with nodes := nd } N).step st e rem hi'
        obtain ⟨st0, hn0, hi0⟩ := (nextMut_spec o s.map N).step st e rem hi
        rw [hn] at sim
        rw [hn0] at sim0
        obtain ⟨⟨x, st2⟩, s1, e1, hm1, hk1, h1, h2, hf⟩ := sim
        obtain ⟨a0, s0, e0, _, _, h10, _⟩ := sim0
        rw [e1] at e0
        cases e0
        simp only at h1 h2 h10
        subst h10
        subst h1
        cases x with
        | none => exact h2.elim
        | some n =>
          obtain ⟨y, hy, hey, hhn⟩ := h2
          obtain ⟨s2, e2, hm2, hk2, hh2, hf2⟩ := deref_step hS hm1 hk1 hhn hy
          have hkey : y.key = e.2.1 := (Prod.mk.inj hey).1.symm
          have hptr : n.ptr = e.1 := (Prod.mk.inj hey).2.symm
          obtain ⟨refs', s', st', e3, hk3, e4, hfin⟩ := ih (s := s2) (dn := dn ++ [e]) (rem := rem)
            (refs := refs ++ [(y.key, n)]) (by rw [hm2]; exact h) (by rw [ho]; simp)
            (by rw [hm2]; exact hi0) hk2 (by simp [hr, hkey, hptr]) (fun r hrm => by
              rcases List.mem_append.1 hrm with hrm | hrm
              · exact hf2.held _ (hX r hrm) (hf.held _ (hX r hrm) (hh r hrm))
              · cases List.mem_singleton.1 hrm; exact hh2)
          refine ⟨refs', s', st', ?_, hk3, ?_, hfin⟩
          · unfold clientRef
            rw [M.bind_ok e1]
            simp only
            rw [M.bind_ok e2]
            exact e3
          · unfold clientRun
            rw [M.read_bind, hn0, M.lift_ok_bind]
            rw [hm2] at e4
            simpa [hkey, hptr] using e4
    | write i v =>
      cases hg : refs[i]? with
      | none =>
        obtain ⟨refs', s', st', e2, hk2, e3, hfin⟩ := ih h ho hi hk hr hh
        refine ⟨refs', s', st', ?_, hk2, ?_, hfin⟩
        · unfold clientRef
          rw [hg]
          exact e2
        · unfold clientRun
          rw [List.getElem?_map, hg]
          exact e3
      | some r =>
        have hrm := List.mem_of_getElem? hg
        have hrd : ∃ e ∈ dn, e.1 = r.2.ptr := by
          have := List.mem_map_of_mem (f := fun r : K × NodeRef => (r.1, r.2.ptr)) hrm
          rw [hr] at this
          obtain ⟨e, he, h2⟩ := List.mem_map.1 this
          exact ⟨e, he, (Prod.mk.inj h2).2⟩
        obtain ⟨e, he, hep⟩ := hrd
        have hq : r.2.ptr ∈ t.ptrs := by
          rw [← hep]
          refine ptr_mem_of_ino ((t.order_perm o).mem_iff.1 ?_)
          rw [ho]; exact List.mem_append_left _ he
        obtain ⟨m1, x, hx, hw, hs, hroot, hU⟩ := writeValue_spec h hq v
        obtain ⟨s1, e1, e1', hk1, hh1⟩ := assign_ok hk (hh r hrm) hx (fun x => { x with value := v })
        have hm1 : s1.map = m1 := by
          have : BSTMap.onNodes (writeValue r.2.ptr v) s.map = (.ok (), s1.map) := e1'
          rw [this] at hw
          exact (Prod.mk.inj hw).2
        have hrem : ∀ e' ∈ rem, e'.1 ≠ r.2.ptr := fun e' hm he' =>
          hnd.2.2 _ (List.mem_map_of_mem he) _ (List.mem_map_of_mem hm) (hep.trans he'.symm)
        have ho1 : (t.setV r.2.ptr v).order o = dn.map (setE r.2.ptr v) ++ rem := by
          rw [Tree.setV_order, ho, List.map_append]
          congr 1
          conv => rhs; rw [← List.map_id rem]
          exact List.map_congr_left fun e hm => by simp [setE, hrem e hm]
        have hi1 : OrdInv o m1.nodes N st rem := by
          refine hi.congr (fun e hm => ?_) ?_
          · rw [hU.view]; exact upd_ne _ _ (hrem e hm)
          · simp [walkFuel, hU.len]
        have hmap : (dn.map (setE r.2.ptr v)).map (fun e => (e.2.1, e.1)) =
            dn.map (fun e => (e.2.1, e.1)) := by
          rw [List.map_map]; rfl
        have hrn : (refs.map (·.2.ptr)).Nodup := by
          have h1 := congrArg (List.map Prod.snd) hr
          rw [List.map_map, List.map_map] at h1
          have h2 : refs.map (·.2.ptr) = dn.map (·.1) := h1
          rw [h2]; exact hnd.1
        obtain ⟨refs', s', st', e2, hk2, e3, hfin⟩ := ih (s := s1) (by rw [hm1]; exact hs) ho1
          (by rw [hm1]; exact hi1) hk1 (hr.trans hmap.symm) fun r' hrm' => by
            by_cases hp : r'.2.ptr = r.2.ptr
            · rw [map_inj_of_nodup hrn hrm' hrm hp]; exact hh1.1
            · exact hh1.2 _ _ hp (hh r' hrm')
        refine ⟨refs', s', st', ?_, hk2, ?_, hfin⟩
        · unfold clientRef
          rw [hg]
          simp only
          rw [M.bind_ok e1]
          exact e2
        · unfold clientRun
          rw [List.getElem?_map, hg]
          simp only [Option.map_some]
          rw [M.bind_ok hw, ← hm1]
          exact e3

/-! ### All the calls -/

theorem assignNew_sim {f : M (TMap H K V) Unit} {r : Out Unit × BSTMap K V} (hk : OK cfg s)
    (h : Sim cfg f TMap.new r fun _ _ _ => True) :
    Sim cfg (TMap.assignNew f) s (BSTMap.assign (fun _ => r) s.map) (fun a b _ => a = b) := by
  obtain ⟨o, m⟩ := r
  unfold TMap.assignNew BSTMap.assign
  cases o with
  | ok a =>
    obtain ⟨b, s', e, hm, hk', _⟩ := h
    exact ⟨(), s', by simp only [e], hm, hk', rfl⟩
  | panic =>
    obtain ⟨s', e, _⟩ := h
    exact ⟨s, by simp only [e], rfl, hk⟩
  | abort =>
    obtain ⟨s', e, _⟩ := h
    exact ⟨s, by simp only [e], rfl, hk⟩
  | ub => exact trivial
  | diverge => exact trivial

theorem assignClone_sim {f : M (TMap H K V × TMap H K V) Unit}
    {g : BSTMap K V → Out Unit × BSTMap K V}
    (h : Sim2 cfg s.map f (s, TMap.new) (g s.map) fun _ _ _ => True) :
    Sim cfg (TMap.assignClone f) s (BSTMap.assign g s.map) (fun a b _ => a = b) := by
  unfold TMap.assignClone BSTMap.assign
  rcases hg : g s.map with ⟨o, m⟩
  rw [hg] at h
  cases o with
  | ok a =>
    obtain ⟨b, s1, s2, e, _, _, hm, hk', _⟩ := h
    exact ⟨(), s2, by simp only [e], hm, hk', rfl⟩
  | panic =>
    obtain ⟨s1, s2, e, hm, hk'⟩ := h
    exact ⟨s1, by simp only [e], hm, hk'⟩
  | abort =>
    obtain ⟨s1, s2, e, hm, hk'⟩ := h
    exact ⟨s1, by simp only [e], hm, hk'⟩
  | ub => exact trivial
  | diverge => exact trivial

theorem read_sim (f : BSTMap K V → Out α) (hk : OK cfg s) :
    Sim cfg (M.read fun s => f s.map) s (M.read f s.map) (fun a b _ => a = b) := by
  unfold Sim
  rw [M.read_apply, M.read_apply]
  cases f s.map with
  | ok n => exact ⟨_, s, rfl, rfl, hk, rfl⟩
  | panic => exact ⟨s, rfl, rfl, hk⟩
  | abort => exact ⟨s, rfl, rfl, hk⟩
  | ub => exact trivial
  | diverge => exact trivial

theorem runRef_sim {t : Tree K V} (h : Shape cfg s.map t) (hk : OK cfg s) {how : ChunkPtr}
    (op : Op K V) (hh : ¬ (view H).Sound how → op ≠ .shrinkToFit) :
    Sim cfg (op.runRef cfg how) s (op.run cfg s.map) (fun a b _ => a = b) := by
  cases op with
  | withCapacity n =>
    unfold Op.runRef Op.run
    refine .bindM (assignNew_sim hk ?_) fun _ _ _ _ hk' _ => .pure hk' rfl rfl
    exact (growTo_sim .new n).mono fun _ _ _ _ _ _ => trivial
  | collect cmps src =>
    unfold Op.runRef Op.run
    exact .bindM (assignNew_sim hk (fromIter_sim cmps src)) fun _ _ _ _ hk' _ => .pure hk' rfl rfl
  | cloned cmps cloneK cloneV =>
    unfold Op.runRef Op.run
    exact .bindM (assignClone_sim (clone_sim rfl hk cmps cloneK cloneV))
      fun _ _ _ _ hk' _ => .pure hk' rfl rfl
  | insert c k v =>
    unfold Op.runRef Op.run
    refine .bindM (insert_sim hk c k v) fun a b _ _ hk' hab => ?_
    subst hab; exact .pure hk' rfl rfl
  | remove c =>
    unfold Op.runRef Op.run BSTMap.remove
    simp only [bind_assoc, pure_bind]
    refine .bindM (removeEntry_sim hk c) fun a b _ _ hk' hab => ?_
    subst hab; exact .pure hk' rfl rfl
  | removeEntry c =>
    unfold Op.runRef Op.run
    refine .bindM (removeEntry_sim hk c) fun a b _ _ hk' hab => ?_
    subst hab; exact .pure hk' rfl rfl
  | get c =>
    unfold Op.runRef Op.run
    refine .bindM (R := fun a b _ => a = b) (getValue_sim rfl hk c) fun a b _ _ hk' hab => ?_
    subst hab; exact .pure hk' rfl rfl
  | getEntry c =>
    unfold Op.runRef Op.run
    refine .bindM (R := fun a b _ => a = b) (getEntry_sim rfl hk c) fun a b _ _ hk' hab => ?_
    subst hab; exact .pure hk' rfl rfl
  | containsKey c =>
    unfold Op.runRef Op.run
    refine .bindM (R := fun a b _ => a = b) (containsKey_sim rfl hk c) fun a b _ _ hk' hab => ?_
    subst hab; exact .pure hk' rfl rfl
  | getMut c w =>
    unfold Op.runRef Op.run
    refine .bindM (getMut_sim hk c) fun a b s1 _ hk1 hab => ?_
    match a, b, hab with
    | none, none, _ => exact .pure hk1 rfl rfl
    | some n, some p, hab =>
      refine .bindM (swapValue_sim hk1 hab.1 hab.2 w) fun a b _ _ hk' h => ?_
      subst h; exact .pure hk' rfl rfl
  | getEntryMut c w =>
    unfold Op.runRef Op.run
    refine .bindM (getEntryMut_sim hk c) fun a b s1 _ hk1 hab => ?_
    match a, b, hab with
    | none, none, _ => exact .pure hk1 rfl rfl
    | some n, some (k, p), hab =>
      obtain ⟨hp, hn, x, hx, hkey⟩ := hab
      simp only at hp hx hkey
      obtain ⟨s2, e2, hm2, hk2, hh2, _⟩ := deref_ok hk1 hn (v := x) (by rw [hp]; exact hx)
      refine .step e2 ?_
      rw [← hm2]
      refine .bindM (swapValue_sim hk2 hp hh2 w) fun a b _ _ hk' h => ?_
      subst h; rw [hkey]; exact .pure hk' rfl rfl
  | node path =>
    unfold Op.runRef Op.run
    refine .bindM (R := fun a b s' => RelO false s.map.nodes s' a b) (nodeRefAt_sim path rfl hk)
      fun a b s1 hg hk1 hab => ?_
    have hm1 : s1.map = s.map := ((Prod.mk.inj hg).2).symm
    match a, b, hab with
    | none, none, _ => exact .pure hk1 rfl rfl
    | some n, some x, hab =>
      obtain ⟨s2, e2, hm2, hk2, hh2, _⟩ := deref_ok hk1 hab.2.2 (v := x.node)
        (by rw [hm1, hab.1]; exact hab.2.1)
      exact .step e2 (.pure hk2 hm2 rfl)
  | nodeMut path w =>
    unfold Op.runRef Op.run
    refine .bindM (nodeMutAt_sim path hk) fun a b s1 _ hk1 hab => ?_
    match a, b, hab with
    | none, none, _ => exact .pure hk1 rfl rfl
    | some n, some x, hab =>
      simp only [NodeMut.key, NodeMut.valueMut, NodeMut.deref, onNodes_bind,
        onNodes_pure', bind_assoc, pure_bind]
      refine .derefM hk1 hab.2 hab.1 fun v s2 _ _ hk2 hh2 _ => .readM fun _ _ => ?_
      refine .bindM (swapValue_sim hk2 hab.1 hh2 w) fun a b _ _ hk' h => ?_
      subst h; exact .pure hk' rfl rfl
  | iter o n =>
    unfold Op.runRef Op.run
    refine .bindM (R := fun a b _ => a = b) (iterRef_sim rfl hk o) fun st b s1 hg hk1 hab => ?_
    subst hab
    have hm1 : s1.map = s.map := ((Prod.mk.inj hg).2).symm
    refine .bindM (β := List (Option (K × V)) × Stack)
      (R := fun a b s' => YieldsAll s1.map.nodes s' a b.1 ∧ Shared s1 s') (nextsRef_sim o n rfl hk1 st) fun refs r s2 hg2 hk2 hr => ?_
    have hm2 : s2.map = s1.map := ((Prod.mk.inj hg2).2).symm
    obtain ⟨s3, e3, hm3, hk3⟩ := readRefs_step hm2 hk2 hr.1
    exact .step e3 (.pure hk3 (hm3.trans hm2.symm) rfl)
  | iterMut o steps =>
    unfold Op.runRef Op.run
    obtain ⟨st, h1, h2, h3⟩ := iter_new h o
    have hs := iterRef_sim rfl hk o
    rw [h1] at hs
    obtain ⟨st', s1, e1, hm1, hk1, rfl⟩ := hs
    obtain ⟨refs, s2, st2, e2, hk2, e2', _⟩ := clientRef_spec o t.height steps (s := s1) (t := t)
      (dn := []) (refs := []) (rem := t.order o) (by rw [hm1]; exact h) (by simp) (by rw [hm1]; exact h3) hk1 rfl
      (fun _ h => (by cases h))
    refine .step e1 (.step e2 ?_)
    have hc : clientMut o steps s.map =
        (.ok (refs.map fun r => (r.1, r.2.ptr)), s2.map) := by
      unfold clientMut
      rw [M.read_bind, h2, M.lift_ok_bind]
      rw [hm1, List.map_nil] at e2'
      rw [M.bind_ok e2']
      rfl
    simp only
    rw [M.bind_ok hc]
    refine .pure hk2 rfl ?_
    simp
  | len =>
    unfold Op.runRef Op.run
    refine .bindM (read_sim (BSTMap.len cfg) hk) fun a b _ _ hk' hab => ?_
    subst hab; exact .pure hk' rfl rfl
  | isEmpty =>
    unfold Op.runRef Op.run
    refine .bindM (read_sim (BSTMap.isEmpty cfg) hk) fun a b _ _ hk' hab => ?_
    subst hab; exact .pure hk' rfl rfl
  | capacity => exact ⟨_, s, rfl, rfl, hk, rfl⟩
  | clear d =>
    unfold Op.runRef Op.run
    exact .bindM (clear_sim hk how d) fun _ _ _ _ hk' _ => .pure hk' rfl rfl
  | reserve n =>
    unfold Op.runRef Op.run
    exact .bindM (reserve_sim hk n) fun _ _ _ _ hk' _ => .pure hk' rfl rfl
  | shrinkToFit =>
    unfold Op.runRef Op.run
    refine .bindM (shrinkToFit_sim hk (how := how) ?_) fun _ _ _ _ hk' _ => .pure hk' rfl rfl
    exact Classical.byContradiction fun hn => hh hn rfl
  | extend cmps src =>
    unfold Op.runRef Op.run
    exact .bindM (extend_sim hk cmps src) fun _ _ _ _ hk' _ => .pure hk' rfl rfl
  | debug dk dv =>
    unfold Op.runRef Op.run
    refine .bindM (R := fun a b _ => a = b) (debug_sim dk dv rfl hk) fun a b _ _ hk' hab => ?_
    subst hab; exact .pure hk' rfl rfl

theorem history_sim {how : ChunkPtr} (ops : List (Op K V)) :
    ∀ {s : TMap H K V} {t : Tree K V}, Shape cfg s.map t → OK cfg s →
    (∀ op ∈ ops, op.Calm) → (¬ (view H).Sound how → ∀ op ∈ ops, op ≠ .shrinkToFit) →
    ∃ os s' t', execute (Op.runRef cfg how) ops s = (os, s') ∧
      history cfg ops s.map = (os, s'.map) ∧ OK cfg s' ∧ Shape cfg s'.map t' ∧
      ∀ o ∈ os, o.Safe := by
  induction ops with
  | nil => intro s t h hk _ _; exact ⟨[], s, t, rfl, rfl, hk, h, fun _ h => (by cases h)⟩
  | cons op ops ih =>
    intro s t h hk hc hh
    have sim := runRef_sim h hk (how := how) op fun he => hh he op (by simp)
    obtain ⟨o, m', t', e, hs, h'⟩ := run_shape h (hc op (by simp))
    rw [e] at sim
    have hc' : ∀ op ∈ ops, op.Calm := fun x hx => hc x (by simp [hx])
    have hh' : ¬ (view H).Sound how → ∀ op ∈ ops, op ≠ .shrinkToFit :=
      fun he x hx => hh he x (by simp [hx])
    cases o with
    | ok a =>
      obtain ⟨b, s1, e1, rfl, hk1, rfl⟩ := sim
      obtain ⟨os, s2, t2, e2, e3, hk2, h2, h3⟩ := ih h' hk1 hc' hh'
      refine ⟨.ok b :: os, s2, t2, ?_, ?_, hk2, h2, ?_⟩
      · unfold execute; rw [e1]; simp only [e2]
      · unfold history; rw [e]; simp only [e3]
      · intro o ho
        rcases List.mem_cons.1 ho with rfl | ho
        · exact hs
        · exact h3 o ho
    | panic =>
      obtain ⟨s1, e1, rfl, hk1⟩ := sim
      obtain ⟨os, s2, t2, e2, e3, hk2, h2, h3⟩ := ih h' hk1 hc' hh'
      refine ⟨.panic :: os, s2, t2, ?_, ?_, hk2, h2, ?_⟩
      · unfold execute; rw [e1]; simp only [e2]
      · unfold history; rw [e]; simp only [e3]
      · intro o ho
        rcases List.mem_cons.1 ho with rfl | ho
        · exact hs
        · exact h3 o ho
    | abort =>
      obtain ⟨s1, e1, rfl, hk1⟩ := sim
      refine ⟨[.abort], s1, t', ?_, ?_, hk1, h', ?_⟩
      · unfold execute; rw [e1]
      · unfold history; rw [e]
      · intro o ho; cases List.mem_singleton.1 ho; exact hs
    | ub => exact hs.elim
    | diverge => exact hs.elim

theorem drop_ok {t : Tree K V} (h : Shape cfg s.map t) (hk : OK cfg s) {how : ChunkPtr}
    (hh : (view H).Sound how)
    (d : DropInfo (InnerNode K V)) :
    ∃ o s', TMap.drop cfg how d s = (o, s') ∧ (o = .ok () ∨ o = .panic) ∧
      (view H).layout s'.heap = [] := by
  have last : ∀ s1 : TMap H K V, OK cfg s1 →
      ∃ s2, onItems (Tagged.drop cfg how false) s1 = (.ok (), s2) ∧
        (view H).layout s2.heap = [] := by
    intro s1 hk1
    obtain ⟨t, e, hb⟩ := Tagged.drop_ok hk1 hh false
    exact ⟨_, by unfold onItems; rw [e], hb⟩
  unfold TMap.drop
  cases hd : d.needsDrop with
  | false =>
    obtain ⟨s2, e2, hb⟩ := last s hk
    exact ⟨.ok (), s2, by simp only [Bool.not_false, if_true]; exact e2, .inl rfl, hb⟩
  | true =>
    simp only [Bool.not_true, Bool.false_eq_true, if_false]
    have sim := clearNodes_sim hk how d
    rcases Slab.clear_spec (d := d) h.slab with ⟨n, e, _⟩ | ⟨_, _, j, n, e, _⟩
    · rw [onNodes_ok e] at sim
      obtain ⟨a, s1, e1, _, hk1, _⟩ := sim
      obtain ⟨s2, e2, hb⟩ := last s1 hk1
      exact ⟨.ok (), s2, by rw [e1]; exact e2, .inl rfl, hb⟩
    · rw [onNodes_ok e] at sim
      obtain ⟨s1, e1, _, hk1⟩ := sim
      obtain ⟨s2, e2, hb⟩ := last s1 hk1
      exact ⟨.panic, s2, by rw [e1]; simp only [e2], .inr rfl, hb⟩

end TMap
end BST
