import Verif.Proofs.Aging
import Verif.Proofs.SimpleSet
/-!
# Sets: an element never becomes more expensive to find
-/
namespace BST
open Std Spec
variable {T : Type} {cmp : T → T → Ordering} {cfg : Cfg}

/-- If no call makes the cost grow, no sequence of calls does. `ab` says whether the cost is also
known after a call that ran out of memory. -/
theorem execute_mono {S O R C : Type} {run : O → M S R} {good : O → Prop} {has : S → Prop}
    {Ok : S → C → Prop} {cost : C → Nat} (ab : Prop)
    (hstep : ∀ s c op, Ok s c → good op → has s → has (run op s).2 →
      (run op s).1.Safe ∧ (ab ∨ (run op s).1 ≠ .abort → ∃ c', Ok (run op s).2 c' ∧ cost c' ≤ cost c))
    (ops : List O) {s : S} {c : C} (h : Ok s c) (hops : ∀ op ∈ ops, good op)
    (hk : ∀ n ≤ ops.length, has (execute run (ops.take n) s).2)
    (ha : ab ∨ Out.abort ∉ (execute run ops s).1) :
    ∃ c', Ok (execute run ops s).2 c' ∧ cost c' ≤ cost c := by
  induction ops generalizing s c with
  | nil => exact ⟨c, h, Nat.le_refl _⟩
  | cons op ops ih =>
    have h1 : (execute run [op] s).2 = (run op s).2 := by
      rcases hr : run op s with ⟨o, s1⟩
      cases o <;> simp only [execute, hr]
    have hk1 := hk 1 (by simp)
    rw [show (op :: ops).take 1 = [op] from rfl, h1] at hk1
    obtain ⟨h2, h3⟩ := hstep s c op h (hops op (by simp)) (hk 0 (Nat.zero_le _)) hk1
    rcases hr : run op s with ⟨o, s1⟩
    rw [hr] at h2 h3
    have next : (∀ ops', execute run (op :: ops') s =
        (o :: (execute run ops' s1).1, (execute run ops' s1).2)) → o ≠ .abort →
        ∃ c', Ok (execute run (op :: ops) s).2 c' ∧ cost c' ≤ cost c := by
      intro hh ho
      obtain ⟨c1, g1, g2⟩ := h3 (.inr ho)
      obtain ⟨c', g3, g4⟩ := ih g1 (fun op hop => hops op (by simp [hop]))
        (fun n hn => by
          have := hk (n + 1) (by simpa using hn)
          rwa [List.take_succ_cons, hh] at this)
        (ha.imp id fun hx hy => hx (by rw [hh]; exact List.mem_cons_of_mem _ hy))
      exact ⟨c', by rw [hh]; exact g3, Nat.le_trans g4 g2⟩
    cases o with
    | ok r => exact next (fun ops' => by simp only [execute, hr]) (by simp)
    | panic => exact next (fun ops' => by simp only [execute, hr]) (by simp)
    | abort =>
      have he : execute run (op :: ops) s = ([.abort], s1) := by simp only [execute, hr]
      rw [he] at ha ⊢
      exact h3 (.inl (ha.resolve_right (by simp)))
    | ub => exact h2.elim
    | diverge => exact h2.elim

/-! ### bst -/
section
open BSTMap Tree

theorem SetOp.step_steps [TransCmp cmp] {s : BSTSet T} {t : Tree T Unit} (h : Shape cfg s.items t)
    (hs : t.SortedBy cmp) {op : SetOp T} (hop : op.Lawful cmp) (hm : op.SameSet) {k : T}
    (hk : s.contains (query (cmp k)) = .ok true)
    (hk' : (op.run cfg s).2.contains (query (cmp k)) = .ok true) :
    (op.run cfg s).1.Safe ∧ ∃ t', Shape cfg (op.run cfg s).2.items t' ∧ t'.SortedBy cmp ∧
      t'.sh.steps cmp k ≤ t.sh.steps cmp k := by
  by_cases hd : ∃ dt, op = .debug dt
  · obtain ⟨dt, rfl⟩ := hd
    obtain ⟨o, s', t', h1, h2, _⟩ := SetOp.run_shape h (op := .debug dt) trivial
    have hs' : ((SetOp.debug dt).run cfg s).2 = s :=
      congrArg Prod.snd (M.map_eq (f := M.read (fun s : BSTSet T => s.debug dt)) rfl)
    exact ⟨by rw [h1]; exact h2, t, by rw [hs']; exact h, hs, Nat.le_refl _⟩
  · have hd' : ∀ dt, op ≠ .debug dt := fun dt e => hd ⟨dt, e⟩
    obtain ⟨o, m', t', h1, h2, h3, h4⟩ := BST.run_tree h hs hop.toOp
    obtain ⟨_, _, _, h1', hsafe, _⟩ := BST.run_shape h hop.toOp.calm
    cases h1.symm.trans h1'
    rw [SetOp.sim op hd', h1] at hk' ⊢
    refine ⟨hsafe.map _, t', h2, h3, ?_⟩
    refine BT.steps_answer hop.toOp ?_ h4 (by rw [sh_ino]; exact hs) (by rw [sh_ino]; exact h3)
      (has_of_contains h hk) (has_of_contains h2 hk')
    cases op <;> first | trivial | exact hm.elim

theorem setHistory_steps [TransCmp cmp] (ops : List (SetOp T)) {s : BSTSet T} {t : Tree T Unit}
    (h : Shape cfg s.items t) (hs : t.SortedBy cmp) (hops : ∀ op ∈ ops, op.Lawful cmp ∧ op.SameSet)
    {k : T} (hk : ∀ n ≤ ops.length, (setHistory cfg (ops.take n) s).2.contains (query (cmp k)) = .ok true) :
    ∃ t', Shape cfg (setHistory cfg ops s).2.items t' ∧ t'.SortedBy cmp ∧
      t'.sh.steps cmp k ≤ t.sh.steps cmp k := by
  obtain ⟨t', ⟨h1, h2⟩, h3⟩ := execute_mono (run := SetOp.run cfg)
    (good := fun op => op.Lawful cmp ∧ op.SameSet)
    (has := fun s => s.contains (query (cmp k)) = .ok true)
    (Ok := fun s (t : Tree T Unit) => Shape cfg s.items t ∧ t.SortedBy cmp)
    (cost := fun t => t.sh.steps cmp k) True
    (fun s t op h hop hk hk' => by
      obtain ⟨a1, t', a2, a3, a4⟩ := SetOp.step_steps h.1 h.2 hop.1 hop.2 hk hk'
      exact ⟨a1, fun _ => ⟨t', ⟨a2, a3⟩, a4⟩⟩) ops (s := s) (c := t) ⟨h, hs⟩ hops hk (.inl trivial)
  exact ⟨t', h1, h2, h3⟩

theorem takesSet {s : BSTSet T} {k : T} {d : Nat} (h : Takes cfg cmp k s.items d) :
    TakesSet cfg cmp k s d := by
  obtain ⟨m⟩ := s
  intro b
  refine ⟨fun hb => ?_, fun hb => ?_⟩
  · obtain ⟨_, h1, h2, _, _, h3, _, h4⟩ := (h b).1 hb
    obtain ⟨c1, c2⟩ := set_remove.2 h3
    exact ⟨h2, set_find.2 h1, c2, c1, set_insert.2 (h4 ())⟩
  · obtain ⟨e, he, _, h1, h2, _, _, _, h3, h4⟩ := (h b).2 hb
    refine ⟨e.1, he, h2, ?_, ?_, ?_, ?_⟩
    · unfold BSTSet.get
      rw [h1]; rfl
    · show (M.bind (M.bind _ _) _ _).1 = _
      unfold M.bind BSTSet.onItems
      rcases hx : BSTMap.removeEntry cfg (upTo cmp k b) m with ⟨o, m'⟩
      rw [hx] at h3
      cases h3; rfl
    · show (M.bind _ _ _).1 = _
      unfold M.bind BSTSet.onItems
      rcases hx : BSTMap.removeEntry cfg (upTo cmp k b) m with ⟨o, m'⟩
      rw [hx] at h3
      cases h3; rfl
    · show (M.bind _ _ _).1 = _
      unfold M.bind BSTSet.onItems
      have h4 := h4 ()
      rcases hx : BSTMap.insert cfg (upTo cmp k b) k () m with ⟨o, m'⟩
      rw [hx] at h4
      cases h4; rfl
end

/-! ### simple_bst -/
section
open Simple

theorem SimpleSetOp.step_steps [TransCmp cmp] (he : 2 ≤ cfg.esize) {s : SSet T} (hw : Wf s.items)
    (hs : s.items.root.Sorted cmp) {op : SimpleSetOp T} (hop : op.Lawful cmp) (hm : op.SameSet) {k : T}
    (hk : s.contains (query (cmp k)) = .ok true)
    (hk' : (op.run cfg s).2.contains (query (cmp k)) = .ok true) :
    (op.run cfg s).1.Safe ∧ ((op.run cfg s).1 ≠ .abort → Wf (op.run cfg s).2.items ∧
      (op.run cfg s).2.items.root.Sorted cmp ∧
      (op.run cfg s).2.items.root.view.steps cmp k ≤ s.items.root.view.steps cmp k) := by
  by_cases hd : ∃ dt, op = .debug dt
  · obtain ⟨dt, rfl⟩ := hd
    have hr : (SimpleSetOp.debug dt).run cfg s = _ := Simple.get_pure _ s
    rw [hr]
    exact ⟨trivial, fun _ => ⟨hw, hs, Nat.le_refl _⟩⟩
  · have hd' : ∀ dt, op ≠ .debug dt := fun dt e => hd ⟨dt, e⟩
    obtain ⟨o, m1, h1, h2⟩ := Simple.run_sem he cmp hw op.toOp
    rw [SimpleSetOp.sim cmp op hd', h1] at hk' ⊢
    rcases h2 with ⟨h2, hw1⟩ | ⟨rfl, h2, h3⟩
    · obtain ⟨h4, _⟩ := Simple.sem_cases cmp op.toOp h2.symm
      have hop' : op.toOp.Lawful cmp := by
        show (op.toOp.twin cmp).Lawful cmp
        rw [twin_toOp]
        exact SetOp.Lawful.toOp hop
      obtain ⟨hs1, _, ha⟩ := Simple.sem_tree hop' hs h2.symm
      have hno : o ≠ .abort := by rcases h4 with ⟨r, rfl⟩ | ⟨rfl, _⟩ <;> simp
      refine ⟨?_, fun _ => ⟨hw1, hs1, ?_⟩⟩
      · rcases h4 with ⟨r, rfl⟩ | ⟨rfl, _⟩ <;> trivial
      · refine Simple.steps_answer hop' ?_ ha hno hs hs1 (Simple.has_of_contains hk)
          (Simple.has_of_contains hk')
        cases op <;> first | trivial | exact hm.elim
    · exact ⟨trivial, fun h => absurd rfl h⟩

theorem simpleSetHistory_steps [TransCmp cmp] (he : 2 ≤ cfg.esize) (ops : List (SimpleSetOp T))
    {s : SSet T} (hw : Wf s.items) (hs : s.items.root.Sorted cmp)
    (hops : ∀ op ∈ ops, op.Lawful cmp ∧ op.SameSet) {k : T}
    (hk : ∀ n ≤ ops.length, (simpleSetHistory cfg (ops.take n) s).2.contains (query (cmp k)) = .ok true)
    (ha : Out.abort ∉ (simpleSetHistory cfg ops s).1) :
    Wf (simpleSetHistory cfg ops s).2.items ∧ (simpleSetHistory cfg ops s).2.items.root.Sorted cmp ∧
      (simpleSetHistory cfg ops s).2.items.root.view.steps cmp k ≤ s.items.root.view.steps cmp k := by
  obtain ⟨_, ⟨h1, h2, rfl⟩, h3⟩ := execute_mono (run := SimpleSetOp.run cfg)
    (good := fun op => op.Lawful cmp ∧ op.SameSet)
    (has := fun s => s.contains (query (cmp k)) = .ok true)
    (Ok := fun s (t : SSet T) => Wf s.items ∧ s.items.root.Sorted cmp ∧ t = s)
    (cost := fun t => t.items.root.view.steps cmp k) False
    (fun s t op h hop hk hk' => by
      obtain ⟨h1, h2, rfl⟩ := h
      obtain ⟨a1, a2⟩ := SimpleSetOp.step_steps he h1 h2 hop.1 hop.2 hk hk'
      refine ⟨a1, fun h => ?_⟩
      obtain ⟨a3, a4, a5⟩ := a2 (h.resolve_left id)
      exact ⟨_, ⟨a3, a4, rfl⟩, a5⟩) ops (s := s) (c := s) ⟨hw, hs, rfl⟩ hops hk (.inr ha)
  exact ⟨h1, h2, h3⟩

theorem simpleSetHistory_sorted [TransCmp cmp] (he : 2 ≤ cfg.esize) (ops : List (SimpleSetOp T))
    (hops : ∀ op ∈ ops, op.Lawful cmp) {s : SSet T} (hw : Wf s.items)
    (hs : s.items.root.Sorted cmp) (ha : Out.abort ∉ (simpleSetHistory cfg ops s).1) :
    Wf (simpleSetHistory cfg ops s).2.items ∧ (simpleSetHistory cfg ops s).2.items.root.Sorted cmp := by
  obtain ⟨_, ⟨h1, h2⟩, _⟩ := execute_mono (run := SimpleSetOp.run cfg)
    (good := fun op => op.Lawful cmp) (has := fun _ => True)
    (Ok := fun s (_ : Unit) => Wf s.items ∧ s.items.root.Sorted cmp) (cost := fun _ => 0) False
    (fun s t op h hop _ _ => by
      obtain ⟨o, s', a1, ⟨a2, _, a3, a4⟩ | ⟨rfl, _⟩⟩ := SimpleSetOp.step he cmp h.1 op
      · rw [a1]
        refine ⟨?_, fun _ => ⟨(), ⟨a2, (a4 inferInstance hop h.2).1⟩, Nat.le_refl _⟩⟩
        rcases a3 with ⟨r, rfl⟩ | ⟨rfl, _⟩ <;> trivial
      · rw [a1]
        exact ⟨trivial, fun h => absurd rfl (h.resolve_left id)⟩)
    ops (s := s) (c := ()) ⟨hw, hs⟩ hops (fun _ _ => trivial) (.inr ha)
  exact ⟨h1, h2⟩

theorem takesSetSimple {s : SSet T} {k : T} {d : Nat} (h : TakesSimple cfg cmp k s.items d) :
    TakesSetSimple cfg cmp k s d := by
  obtain ⟨m⟩ := s
  intro b
  refine ⟨fun hb => ?_, fun hb => ?_⟩
  · obtain ⟨_, h1, h2, _, h3, _, h4⟩ := (h b).1 hb
    obtain ⟨c1, c2⟩ := Simple.set_remove.2 h3
    exact ⟨h2, Simple.set_find.2 h1, c2, c1, Simple.set_insert.2 (h4 ())⟩
  · obtain ⟨e, he, _, h1, h2, _, _, h3, h4⟩ := (h b).2 hb
    refine ⟨e.1, he, h2, ?_, ?_, ?_, ?_⟩
    · unfold SSet.get
      rw [h1]; rfl
    · show (M.bind (M.bind _ _) _ _).1 ∈ _
      unfold M.bind SSet.onItems
      rcases hx : Map.removeEntry cfg (upTo cmp k b) m with ⟨o, m'⟩
      rw [hx] at h3
      simp only [List.mem_cons, List.not_mem_nil, or_false] at h3
      rcases h3 with h3 | h3 <;> cases h3
      · exact List.mem_cons_self
      · exact List.mem_cons_of_mem _ List.mem_cons_self
    · show (M.bind _ _ _).1 ∈ _
      unfold M.bind SSet.onItems
      rcases hx : Map.removeEntry cfg (upTo cmp k b) m with ⟨o, m'⟩
      rw [hx] at h3
      simp only [List.mem_cons, List.not_mem_nil, or_false] at h3
      rcases h3 with h3 | h3 <;> cases h3
      · exact List.mem_cons_self
      · exact List.mem_cons_of_mem _ List.mem_cons_self
    · show (M.bind _ _ _).1 = _
      unfold M.bind SSet.onItems
      have h4 := h4 ()
      rcases hx : Map.insert cfg (upTo cmp k b) k () m with ⟨o, m'⟩
      rw [hx] at h4
      cases h4; rfl
end
end BST
