import Verif.Proofs.Agree
/-!
# Histories: no failures with enough memory, and agreement with `simple_bst`
-/
set_option linter.unusedSimpArgs false
namespace BST
open BSTMap Tree
open Spec (BT Order)
open Simple (Link sem Wf Plenty)
variable {K V : Type} {cfg : Cfg}

theorem demand_cons (op : Op K V) (ops : List (Op K V)) :
    demand (op :: ops) = op.demand + demand ops := by simp [demand]

theorem history_room {D : Nat} (hR : Roomy cfg D) (ops : List (Op K V)) {m : BSTMap K V}
    {t : Tree K V} (h : Shape cfg m t) (hops : ∀ op ∈ ops, op.Calm)
    (hD : slots m + demand ops ≤ D) :
    ∃ os m', history cfg ops m = (os, m') ∧ os.length = ops.length ∧
      ∀ x ∈ ops.zip os, (∃ r, x.2 = .ok r) ∨ (x.2 = .panic ∧ ¬ x.1.Quiet) := by
  induction ops generalizing m t with
  | nil => exact ⟨[], m, rfl, rfl, by simp⟩
  | cons op ops ih =>
    rw [demand_cons] at hD
    obtain ⟨o, m1, t1, h1, h2, h3, h4⟩ := run_room hR h (hops op (by simp)) (by omega)
    obtain ⟨os, m', g1, g2, g3⟩ := ih h2 (fun op hop => hops op (by simp [hop])) (by omega)
    refine ⟨o :: os, m', ?_, by simp [g2], ?_⟩
    · rcases h4 with ⟨r, rfl⟩ | ⟨rfl, _⟩ <;> simp only [history, h1, g1]
    · intro x hx
      rw [List.zip_cons_cons] at hx
      rcases List.mem_cons.1 hx with rfl | hx
      · exact h4
      · exact g3 x hx

/-- Everything about a history of a `SimpleBSTMap` that does not depend on the order. -/
theorem simpleHistory_sem (he : 2 ≤ cfg.esize) (cmp : K → K → Ordering) (ops : List (SimpleOp K V))
    {m : Simple.Map K V} (hw : Wf m) :
    ∃ os m', simpleHistory cfg ops m = (os, m') ∧ (os.length = ops.length ∨ Out.abort ∈ os) ∧
      (∀ x ∈ ops.zip os, (∃ r, x.2 = .ok r) ∨ (x.2 = .abort ∧ x.1.Allocates) ∨
        (x.2 = .panic ∧ ¬ x.1.Quiet)) ∧
      (Plenty cfg (m.root.size + demand (ops.map (·.twin cmp))) → Out.abort ∉ os) := by
  unfold simpleHistory
  induction ops generalizing m with
  | nil => exact ⟨[], m, rfl, .inl rfl, by simp, by simp⟩
  | cons op ops ih =>
    obtain ⟨o, m1, h1, ⟨h2, hw1⟩ | ⟨rfl, h2, h3⟩⟩ := Simple.run_sem he cmp hw op
    · obtain ⟨h4, h5⟩ := Simple.sem_cases cmp op h2.symm
      obtain ⟨os, m', g1, g2, g3, g4⟩ := ih hw1
      refine ⟨o :: os, m', ?_, ?_, ?_, ?_⟩
      · rcases h4 with ⟨r, rfl⟩ | ⟨rfl, _⟩ <;> simp only [execute, h1, g1]
      · rcases g2 with g2 | g2
        · exact .inl (by simp [g2])
        · exact .inr (List.mem_cons_of_mem _ g2)
      · intro x hx
        rw [List.zip_cons_cons] at hx
        rcases List.mem_cons.1 hx with rfl | hx
        · exact h4.imp_right .inr
        · exact g3 x hx
      · intro hp hm
        rcases List.mem_cons.1 hm with rfl | hm
        · rcases h4 with ⟨r, hr⟩ | ⟨hr, _⟩ <;> cases hr
        · refine g4 (hp.mono ?_) hm
          rw [List.map_cons, demand_cons]
          omega
    · refine ⟨[.abort], m1, by simp only [execute, h1], .inr (by simp), ?_, ?_⟩
      · intro x hx
        cases ops <;> simp [List.zip_cons_cons] at hx <;> exact .inr (.inl (hx ▸ ⟨rfl, h2⟩))
      · intro hp
        exact absurd (hp.mono (by rw [List.map_cons, demand_cons]; omega)) h3

theorem simpleHistory_tree (he : 2 ≤ cfg.esize) {cmp : K → K → Ordering} [Std.TransCmp cmp]
    (ops : List (SimpleOp K V)) (hops : ∀ op ∈ ops, op.Lawful cmp) {m : Simple.Map K V} (hw : Wf m)
    (hs : m.root.Sorted cmp) :
    ∃ os m' b, simpleHistory cfg ops m = (os, m') ∧
      Spec.Conforms (Spec.SimpleAnswer cmp) ops os m.root.view b ∧
      (Out.abort ∉ os → Wf m' ∧ m'.root.view = b) := by
  unfold simpleHistory
  induction ops generalizing m with
  | nil => exact ⟨[], m, _, rfl, rfl, fun _ => ⟨hw, rfl⟩⟩
  | cons op ops ih =>
    obtain ⟨o, m1, h1, ⟨h2, hw1⟩ | ⟨rfl, h2, h3⟩⟩ := Simple.run_sem he cmp hw op
    · obtain ⟨h4, _⟩ := Simple.sem_cases cmp op h2.symm
      obtain ⟨hs1, _, ha⟩ := Simple.sem_tree (hops op (by simp)) hs h2.symm
      obtain ⟨os, m', b, g1, g2, g3⟩ := ih (fun op hop => hops op (by simp [hop])) hw1 hs1
      refine ⟨o :: os, m', b, ?_, ⟨_, ha, .inr ⟨?_, g2⟩⟩, ?_⟩
      · rcases h4 with ⟨r, rfl⟩ | ⟨rfl, _⟩ <;> simp only [execute, h1, g1]
      · rcases h4 with ⟨r, rfl⟩ | ⟨rfl, _⟩ <;> simp
      · exact fun hm => g3 fun hh => hm (List.mem_cons_of_mem _ hh)
    · refine ⟨[.abort], m1, m.root.view, by simp only [execute, h1],
        ⟨m.root.view, ?_, .inl ⟨rfl, rfl, rfl⟩⟩, by simp⟩
      cases op <;> first | exact .inl ⟨rfl, h2⟩ | exact h2.elim

theorem simpleHistory_wf (he : 2 ≤ cfg.esize) (ops : List (SimpleOp K V)) {m m' : Simple.Map K V}
    (hw : Wf m) {os : List (Out (Ret K V))} (h : simpleHistory cfg ops m = (os, m'))
    (ha : Out.abort ∉ os) : Wf m' := by
  unfold simpleHistory at h
  induction ops generalizing m os with
  | nil => cases h; exact hw
  | cons op ops ih =>
    obtain ⟨o, m1, h1, ⟨h2, hw1⟩ | ⟨rfl, h2, h3⟩⟩ := Simple.run_sem he (fun _ _ => .eq) hw op
    · obtain ⟨h4, _⟩ := Simple.sem_cases (fun _ _ => .eq) op h2.symm
      rcases hr : execute (SimpleOp.run cfg) ops m1 with ⟨os1, m2⟩
      have : os = o :: os1 ∧ m' = m2 := by
        rcases h4 with ⟨r, rfl⟩ | ⟨rfl, _⟩ <;> simp only [execute, h1, hr] at h <;> cases h <;>
          exact ⟨rfl, rfl⟩
      obtain ⟨rfl, rfl⟩ := this
      exact ih hw1 hr fun hm => ha (List.mem_cons_of_mem _ hm)
    · simp only [execute, h1] at h
      cases h
      simp at ha

theorem agree_run {cfg' : Cfg} {D : Nat} (hR : Roomy cfg D) (he : 2 ≤ cfg'.esize)
    (hP : Plenty cfg' D) {cmp : K → K → Ordering} [Std.TransCmp cmp]
    (ops : List (SimpleOp K V)) (hsh : ∀ op ∈ ops, op.Shared) (hops : ∀ op ∈ ops, op.Lawful cmp)
    {m : BSTMap K V} {t : Tree K V} (h : Shape cfg m t) (hs : t.SortedBy cmp)
    {n : Simple.Map K V} (hw : Wf n) (hn : n.root = t.link)
    (hD : slots m + demand (ops.map (·.twin cmp)) ≤ D) :
    ∃ os m' t' n', history cfg (ops.map (·.twin cmp)) m = (os, m') ∧ simpleHistory cfg' ops n = (os, n') ∧
      Shape cfg m' t' ∧ n'.root = t'.link ∧ Wf n' := by
  unfold simpleHistory
  induction ops generalizing m t n with
  | nil => exact ⟨[], m, t, n, rfl, rfl, h, hn, hw⟩
  | cons op ops ih =>
    rw [List.map_cons, demand_cons] at hD
    obtain ⟨o, m1, t1, h1, h2, h3, h4⟩ := twin_exact hR h hs (hsh op (by simp)) (hops op (by simp))
      (by omega)
    have hsz : t.size ≤ slots m := h.size_le_len
    obtain ⟨o', n1, k1, ⟨k2, hw1⟩ | ⟨rfl, _, k3⟩⟩ := Simple.run_sem he cmp hw op
    · rw [hn, ← h4] at k2
      obtain ⟨ho, hn1⟩ := Prod.mk.inj k2
      subst ho
      obtain ⟨hs1, _, _⟩ := Simple.sem_tree (hops op (by simp)) (Link.tree_sorted.2 hs) h4.symm
      obtain ⟨os, m', t', n', g1, g2, g3, g4, g5⟩ := ih (fun op hop => hsh op (by simp [hop]))
        (fun op hop => hops op (by simp [hop])) h2 (Link.tree_sorted.1 hs1) hw1 hn1 (by omega)
      obtain ⟨h5, _⟩ := Simple.sem_cases cmp op h4.symm
      refine ⟨o' :: os, m', t', n', ?_, ?_, g3, g4, g5⟩
      · rcases h5 with ⟨r, rfl⟩ | ⟨rfl, _⟩ <;> simp only [List.map_cons, history, h1, g1]
      · rcases h5 with ⟨r, rfl⟩ | ⟨rfl, _⟩ <;> simp only [execute, k1, g2]
    · refine absurd (hP.mono ?_) k3
      rw [hn, Tree.link_size]
      omega

theorem sameBy_zip (keq : K → K → Bool) (veq : V → V → Bool) (l l' : List (K × V)) :
    Spec.sameBy keq veq l l' = (l.length == l'.length &&
      (l.zip l').all fun (x, y) => keq x.1 y.1 && veq x.2 y.2) := by
  induction l generalizing l' with
  | nil => cases l' <;> simp [Spec.sameBy]
  | cons a l ih =>
    cases l' with
    | nil => simp [Spec.sameBy]
    | cons b l' =>
      rw [Spec.sameBy, ih, List.zip_cons_cons, List.all_cons, List.length_cons, List.length_cons]
      have : (l.length + 1 == l'.length + 1) = (l.length == l'.length) := by
        rw [Bool.eq_iff_iff]; simp
      rw [this]
      cases (l.length == l'.length) <;> simp

theorem link_eq_spec {keq : K → K → Bool} {veq : V → V → Bool} {a b : Simple.Map K V}
    {ta tb : Tree K V} (ha : Wf a) (hb : Wf b) (ea : a.root = ta.link) (eb : b.root = tb.link) :
    Simple.Map.eq keq veq a b = .ok (Spec.sameBy keq veq ta.kv tb.kv) := by
  rw [Simple.Map.eq_spec keq veq ha hb, ea, eb, Tree.link_size, Tree.link_size, Tree.link_view,
    Tree.link_view, Tree.sh_ino, Tree.sh_ino, sameBy_zip, kv_length, kv_length]

end BST
