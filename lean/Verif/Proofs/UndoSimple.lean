import Verif.Proofs.SimpleRemove
import Verif.Proofs.SimpleSem
import Verif.SimpleHistory
/-!
# Insertions undone by removals, simple_bst
-/
namespace BST.Simple
variable {K V : Type}

namespace Link
variable {c : Probe K} {k : K} {v : V} {i : Nat} {t : Link K V}

theorem ins_find (hk : ∀ i, c i k = some .eq) (h : t.find c i = .ok none) :
    (t.ins c k v i).find c i = .ok (some (k, v)) ∧ (t.ins c k v i).del c i = t ∧
      (t.ins c k v i).at' ((t.ins c k v i).path c i) = node k v nil nil := by
  induction t generalizing i with
  | nil => simp [ins, find, del, path, hk, join]
  | node k' v' l r ihl ihr =>
    unfold find at h
    unfold ins
    cases hc : c i k' with
    | none => rw [hc] at h; cases h
    | some o =>
      rw [hc] at h
      cases o with
      | lt =>
        obtain ⟨h1, h2, h3⟩ := ihl h
        simp only [find, del, path, hc, at', h1, h2, h3, and_self]
      | gt =>
        obtain ⟨h1, h2, h3⟩ := ihr h
        simp only [find, del, path, hc, at', h1, h2, h3, and_self]
      | eq => cases h

/-- Comparisons that lead to a leaf. -/
theorem leaf_find {p : List Bool} (hl : t.view.sub p = .node .nil (k, v) .nil)
    (hc : ∀ j x, j ≤ p.length → (t.view.sub (p.take j)).label = some x →
      c (i + j) x.1 = some (match p[j]? with | none => .eq | some false => .lt | some true => .gt)) :
    t.find c i = .ok (some (k, v)) ∧ t.at' (t.path c i) = node k v nil nil ∧
      (t.del c i).find c i = .ok none ∧ (t.del c i).ins c k v i = t := by
  induction p generalizing t i with
  | nil =>
    cases t with
    | nil => cases hl
    | node k' v' l r =>
      cases l <;> cases r <;> cases hl
      have h0 : c i k = some .eq := hc 0 (k, v) (Nat.le_refl _) rfl
      simp [find, path, del, h0, join, ins]
  | cons b p ih =>
    cases t with
    | nil => cases hl
    | node k' v' l r =>
      have h0 := hc 0 (k', v') (Nat.zero_le _) rfl
      have hc' : ∀ u : Link K V, (∀ q, (node k' v' l r).view.sub (b :: q) = u.view.sub q) →
          ∀ j x, j ≤ p.length → (u.view.sub (p.take j)).label = some x →
            c (i + 1 + j) x.1 = some (match p[j]? with | none => .eq | some false => .lt | some true => .gt) := by
        intro u hu j x hj hx
        have := hc (j + 1) x (Nat.succ_le_succ hj) (by rw [List.take_succ_cons, hu]; exact hx)
        rw [show i + (j + 1) = i + 1 + j by omega] at this
        simpa using this
      cases b with
      | false =>
        have h0 : c i k' = some .lt := h0
        obtain ⟨h1, h2, h3, h4⟩ := ih (t := l) (i := i + 1) hl (hc' l fun _ => rfl)
        simp only [find, del, path, h0, at', ins, h1, h2, h3, h4, and_self]
      | true =>
        have h0 : c i k' = some .gt := h0
        obtain ⟨h1, h2, h3, h4⟩ := ih (t := r) (i := i + 1) hl (hc' r fun _ => rfl)
        simp only [find, del, path, h0, at', ins, h1, h2, h3, h4, and_self]

end Link

namespace Map
variable {cfg : Cfg} {m m' : Map K V} {c : Probe K} {k : K} {v : V}

theorem replaceLeft_none {w : Own K V} {p : Place} {l r : Link K V} (h : w.root.at' p = .node k v l r) :
    Own.replaceLeft cfg p .nil w = (.ok l, ⟨Link.put (.node k v .nil r) p w.root, w.allocs⟩) := by
  unfold Own.replaceLeft
  rw [M.bind_ok (deref_ok h)]
  rfl

theorem replaceRight_none {w : Own K V} {p : Place} {l r : Link K V} (h : w.root.at' p = .node k v l r) :
    Own.replaceRight cfg p .nil w = (.ok r, ⟨Link.put (.node k v l .nil) p w.root, w.allocs⟩) := by
  unfold Own.replaceRight
  rw [M.bind_ok (deref_ok h)]
  rfl

/-- The removal of a leaf takes no memory, so it does not fail. -/
theorem removeEntry_leaf (hw : Wf m) (hf : m.root.find c 0 = .ok (some (k, v)))
    (hat : m.root.at' (m.root.path c 0) = .node k v .nil .nil) :
    removeEntry cfg c m = (.ok (some (k, v)), ⟨m.root.del c 0, m.len - 1, m.allocs⟩) := by
  unfold Wf at hw
  have hpos := Link.find_some_size hf
  have hdel := Link.del_hit hf hat
  have hne : m.root.at' (m.root.path c 0) ≠ .nil := by rw [hat]; simp
  unfold removeEntry
  rw [M.get_bind]
  rcases find_loop c m m.root none [] 0 m.fuel (Nat.lt_succ_self _) (by simp) (.inl ⟨rfl, rfl⟩) with
    ⟨hf', _⟩ | ⟨e, par, hf', h1, hpar⟩
  · cases hf.symm.trans hf'
  cases hf.symm.trans hf'
  rw [M.bind_ok (m := findWithParent c m) h1]
  replace hpar := hpar rfl
  rw [hdel]
  generalize m.root.path c 0 = p at *
  simp only [Option.map_some, List.nil_append] at hpar ⊢
  suffices h : takeOut cfg par p m = (.ok (k, v), ⟨Link.put (Link.join .nil .nil) p m.root, m.len - 1, m.allocs⟩) by
    rw [M.bind_ok h]; rfl
  unfold takeOut
  rw [M.bind_ok (onRoot_pure (deref_ok (w := ⟨m.root, m.allocs⟩) hat))]
  have h2 : subLen cfg m = (.ok (), { m with len := m.len - 1 }) := by
    simp [subLen, subU_ok cfg (show 1 ≤ m.len by omega)]
  rw [M.bind_ok h2]
  have h3 := onRoot_ok (m := { m with len := m.len - 1 })
    (takeLeft_ok (w := ⟨m.root, m.allocs⟩) hat)
  rw [M.bind_ok h3]
  have h4 := onRoot_ok
    (m := ⟨Link.put (.node k v .nil .nil) p m.root, m.len - 1, m.allocs⟩)
    (takeRight_ok (w := ⟨Link.put (.node k v .nil .nil) p m.root, m.allocs⟩) (Link.at_put hne _))
  rw [M.bind_ok h4]
  dsimp only
  rw [Link.put_put, M.bind_ok (show replacement cfg .nil .nil _ = (.ok .nil, _) from rfl)]
  have hself : Link.put (.node k v .nil .nil) p m.root = m.root := by rw [← hat, Link.put_self]
  rw [hself]
  rcases hpar with ⟨rfl, rfl⟩ | ⟨pp, b, rfl, rfl⟩
  · simp only [Link.put_nil]
    rw [Link.at_nil] at hat
    simp only [unlink, M.get_bind, M.modify_bind, hat]
    rfl
  · have hb : ∃ pk pv pl pr, m.root.at' pp = .node pk pv pl pr := by
      cases h : m.root.at' pp with
      | nil => exact absurd (by rw [Link.at_append, h]; rfl) hne
      | node pk pv pl pr => exact ⟨_, _, _, _, rfl⟩
    obtain ⟨pk, pv, pl, pr, hpp⟩ := hb
    cases b with
    | false =>
      have hl := (Link.at_left hpp).symm.trans hat
      subst hl
      rw [Link.put_left hpp]
      unfold unlink
      dsimp only
      rw [M.bind_ok (onRoot_pure (m := ⟨m.root, m.len - 1, m.allocs⟩) (deref_ok (w := ⟨_, m.allocs⟩) hpp)),
        if_pos (by simp [Ref.leftRef, Ref.of])]
      exact M.bind_ok (onRoot_ok (m := ⟨m.root, m.len - 1, m.allocs⟩)
        (replaceLeft_none (w := ⟨m.root, m.allocs⟩) hpp))
    | true =>
      have hl := (Link.at_right hpp).symm.trans hat
      subst hl
      rw [Link.put_right hpp]
      unfold unlink
      dsimp only
      rw [M.bind_ok (onRoot_pure (m := ⟨m.root, m.len - 1, m.allocs⟩) (deref_ok (w := ⟨_, m.allocs⟩) hpp)),
        if_neg (by cases pl <;> simp [Ref.leftRef, Ref.of])]
      exact M.bind_ok (onRoot_ok (m := ⟨m.root, m.len - 1, m.allocs⟩)
        (replaceRight_none (w := ⟨m.root, m.allocs⟩) hpp))

theorem insert_undo (he : 2 ≤ cfg.esize) (hw : Wf m) (hk : ∀ i, c i k = some .eq)
    (hi : insert cfg c k v m = (.ok none, m')) :
    Wf m' ∧ m.root.find c 0 = .ok none ∧ m'.root = m.root.ins c k v 0 ∧
      ∀ a, removeEntry cfg c ⟨m'.root, m'.len, a⟩ = (.ok (some (k, v)), ⟨m.root, m.len, a⟩) := by
  rcases insert_spec he c k v m hw with ⟨_, h⟩ | ⟨e, a, n, h1, h2, h3⟩ | ⟨_, h, _⟩
  · cases h.symm.trans hi
  · cases e with
    | some e => cases h2.symm.trans hi
    | none =>
      cases h2.symm.trans hi
      obtain ⟨g1, g2, g3⟩ := Link.ins_find (v := v) hk h1
      refine ⟨h3, h1, rfl, fun a => ?_⟩
      rw [removeEntry_leaf (m := ⟨m.root.ins c k v 0, n, a⟩) h3 g1 g3]
      unfold Wf at hw
      have := Link.ins_size h1 k v
      simp only [g2, h3, this, hw]
      rfl
  · cases h.symm.trans hi

end Map
end BST.Simple

namespace BST
open Simple (Wf)
variable {K V : Type}

theorem execute_append {S O R : Type} (run : O → M S R) (ops ops' : List O) (s : S)
    (h : ∀ o ∈ (execute run ops s).1, ∃ r, o = .ok r) :
    execute run (ops ++ ops') s = ((execute run ops s).1 ++ (execute run ops' (execute run ops s).2).1,
      (execute run ops' (execute run ops s).2).2) := by
  induction ops generalizing s with
  | nil => rfl
  | cons op ops ih =>
    simp only [List.cons_append, execute] at h ⊢
    cases hr : run op s with
    | mk o m1 =>
      rw [hr] at h
      cases o with
      | ok r =>
        simp only at h ⊢
        rw [ih m1 fun o ho => h o (List.mem_cons_of_mem _ ho)]
        rfl
      | panic => obtain ⟨r, hr⟩ := h .panic (List.mem_cons_self ..); cases hr
      | abort => obtain ⟨r, hr⟩ := h .abort (List.mem_cons_self ..); cases hr
      | ub => obtain ⟨r, hr⟩ := h .ub (List.mem_cons_self ..); cases hr
      | diverge => obtain ⟨r, hr⟩ := h .diverge (List.mem_cons_self ..); cases hr

theorem simpleHistory_undo {cfg : Cfg} (he : 2 ≤ cfg.esize) (l : List (Probe K × K × V))
    (hl : ∀ e ∈ l, ∀ i, e.1 i e.2.1 = some .eq) {m m1 : Simple.Map K V} (hw : Wf m)
    (hi : simpleHistory cfg (l.map fun e => .insert e.1 e.2.1 e.2.2) m =
      (l.map fun _ => .ok (.value none), m1)) :
    simpleHistory cfg (l.reverse.map fun e => .removeEntry e.1) m1 =
      (l.reverse.map fun e => .ok (.entry (some e.2)), ⟨m.root, m.len, m1.allocs⟩) := by
  unfold simpleHistory at hi ⊢
  induction l generalizing m with
  | nil => cases hi; rfl
  | cons e l ih =>
    obtain ⟨c, k, v⟩ := e
    have hk : ∀ i, c i k = some .eq := hl _ (List.mem_cons_self ..)
    obtain ⟨m', h1, h2⟩ : ∃ m', Simple.Map.insert cfg c k v m = (.ok none, m') ∧
        execute (SimpleOp.run cfg) (l.map fun e => .insert e.1 e.2.1 e.2.2) m' =
          (l.map fun _ => .ok (.value none), m1) := by
      simp only [List.map_cons, execute, SimpleOp.run] at hi
      cases hr : Simple.Map.insert cfg c k v m with
      | mk o m' =>
        rw [M.bind_apply, hr] at hi
        cases o with
        | ok r =>
          simp only [M.pure_apply, Prod.mk.injEq, List.cons.injEq, Out.ok.injEq, Ret.value.injEq] at hi
          obtain ⟨⟨rfl, h1⟩, h2⟩ := hi
          exact ⟨m', rfl, Prod.ext h1 h2⟩
        | _ => simp at hi
    obtain ⟨hw', _, _, h3⟩ := Simple.Map.insert_undo he hw hk h1
    have g := ih (fun e he => hl e (List.mem_cons_of_mem _ he)) hw' h2
    rw [List.reverse_cons, List.map_append, execute_append, g]
    · have h4 : SimpleOp.run cfg (.removeEntry c : SimpleOp K V) ⟨m'.root, m'.len, m1.allocs⟩ =
          (.ok (.entry (some (k, v))), ⟨m.root, m.len, m1.allocs⟩) := by
        show (Simple.Map.removeEntry cfg c >>= _) _ = _
        rw [M.bind_ok (h3 m1.allocs)]; rfl
      simp [execute, h4]
    · rw [g]
      intro o ho
      obtain ⟨e, _, rfl⟩ := List.mem_map.1 ho
      exact ⟨_, rfl⟩

end BST
