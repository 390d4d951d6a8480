import Verif.Proofs.SimpleOps
/-! Helper lemmas for C76: how often `SimpleBSTMap::insert` calls the allocator. -/
namespace BST.Simple
open Map
variable {K V : Type} {cfg : Cfg}

/-- What a round of the loop of `insert` that starts at a node does to the number of boxes. -/
def StepCost (m : Map K V) : Out ((Nat × Option Place) ⊕ Option V) × Map K V → Prop
  | (.ok (.inl st), m') => st.2 ≠ none ∧ m' = m
  | (.ok (.inr none), m') => m'.allocs = m.allocs + 1
  | (.ok (.inr (some _)), m') => m'.allocs = m.allocs
  | _ => True

theorem addLen_allocs {m m' : Map K V} {o : Out Unit} (h : addLen cfg m = (o, m')) : m'.allocs = m.allocs := by
  unfold addLen at h
  rw [M.get_bind] at h
  cases ha : addU cfg m.len 1 with
  | ok n => rw [ha, M.lift_ok_bind] at h; cases h; rfl
  | panic => rw [ha] at h; cases h; rfl
  | abort => rw [ha] at h; cases h; rfl
  | ub => rw [ha] at h; cases h; rfl
  | diverge => rw [ha] at h; cases h; rfl

theorem setLeft_cost {p : Place} {w : Own K V} {k : K} {v : V} {r : Link K V}
    (h : w.root.at' p = .node k v .nil r) (new : Link K V) :
    (∃ w', Own.setLeft cfg p new w = (.ok (), w') ∧ w'.allocs = w.allocs + 1) ∨
    Own.setLeft cfg p new w = (.abort, w) := by
  unfold Own.setLeft
  rw [M.bind_ok (deref_ok h)]
  simp only [Link.isNil, debugAssert_true, M.lift_ok_bind]
  rcases box_cases cfg new w with ⟨h1, h2⟩ | ⟨h1, h2⟩
  · exact .inl ⟨_, (M.bind_ok h1).trans rfl, rfl⟩
  · exact .inr (M.bind_abort h1)

theorem setRight_cost {p : Place} {w : Own K V} {k : K} {v : V} {l : Link K V}
    (h : w.root.at' p = .node k v l .nil) (new : Link K V) :
    (∃ w', Own.setRight cfg p new w = (.ok (), w') ∧ w'.allocs = w.allocs + 1) ∨
    Own.setRight cfg p new w = (.abort, w) := by
  unfold Own.setRight
  rw [M.bind_ok (deref_ok h)]
  simp only [Link.isNil, debugAssert_true, M.lift_ok_bind]
  rcases box_cases cfg new w with ⟨h1, h2⟩ | ⟨h1, h2⟩
  · exact .inl ⟨_, (M.bind_ok h1).trans rfl, rfl⟩
  · exact .inr (M.bind_abort h1)

theorem insertStep_cost (c : Probe K) (k : K) (v : V) (i : Nat) (p : Place) (m : Map K V) :
    StepCost m (insertStep cfg c k v (i, some p) m) := by
  have hadd : ∀ (m1 : Map K V) , m1.allocs = m.allocs + 1 →
      StepCost m ((do addLen cfg; pure (.inr none) : M (Map K V) ((Nat × Option Place) ⊕ Option V)) m1) := by
    intro m1 h1
    rcases ha : addLen cfg m1 with ⟨o, m2⟩
    have h2 := addLen_allocs ha
    cases o with
    | ok _ => rw [M.bind_ok ha]; exact h2.trans h1
    | panic => rw [M.bind_panic ha]; trivial
    | abort => rw [M.bind_abort ha]; trivial
    | ub => rw [M.bind_apply]; show StepCost m (M.bind _ _ _); unfold M.bind; rw [ha]; trivial
    | diverge => rw [M.bind_apply]; show StepCost m (M.bind _ _ _); unfold M.bind; rw [ha]; trivial
  cases hq : m.root.at' p with
  | nil =>
    have : onRoot (Own.deref p) m = ((.ub : Out (Ref K V)), m) := by
      simp [onRoot, Own.deref, M.read, hq, Ref.of]
    dsimp only [insertStep]
    rw [M.bind_apply]; show StepCost m (M.bind _ _ _); unfold M.bind; rw [this]; trivial
  | node k' v' l r =>
    have hd := onRoot_pure (m := m) (deref_ok (w := ⟨m.root, m.allocs⟩) hq)
    dsimp only [insertStep]
    rw [M.bind_ok hd]
    dsimp only
    cases c i k' with
    | none => trivial
    | some o =>
      cases o with
      | lt =>
        cases l with
        | nil =>
          simp only [Ref.hasLeft, Link.isNil, Bool.not_true, Bool.not_false, if_true]
          rcases setLeft_cost (cfg := cfg) (w := ⟨m.root, m.allocs⟩) hq (.node k v .nil .nil) with
            ⟨w', h1, h2⟩ | h1
          · rw [M.bind_ok (onRoot_ok h1)]; exact hadd _ h2
          · rw [M.bind_abort (onRoot_pure h1)]; trivial
        | node lk lv ll lr =>
          simp only [Ref.hasLeft, Link.isNil, Bool.not_false, Bool.not_true]
          rw [if_neg (by simp), M.bind_ok (onRoot_pure (leftMut_ok (w := ⟨m.root, m.allocs⟩) hq))]
          exact ⟨by simp [Ref.of], rfl⟩
      | gt =>
        cases r with
        | nil =>
          simp only [Ref.hasRight, Link.isNil, Bool.not_true, Bool.not_false, if_true]
          rcases setRight_cost (cfg := cfg) (w := ⟨m.root, m.allocs⟩) hq (.node k v .nil .nil) with
            ⟨w', h1, h2⟩ | h1
          · rw [M.bind_ok (onRoot_ok h1)]; exact hadd _ h2
          · rw [M.bind_abort (onRoot_pure h1)]; trivial
        | node lk lv ll lr =>
          simp only [Ref.hasRight, Link.isNil, Bool.not_false, Bool.not_true]
          rw [if_neg (by simp), M.bind_ok (onRoot_pure (rightMut_ok (w := ⟨m.root, m.allocs⟩) hq))]
          exact ⟨by simp [Ref.of], rfl⟩
      | eq =>
        dsimp only
        rw [M.bind_ok (onRoot_ok (swapValue_ok (w := ⟨m.root, m.allocs⟩) hq v))]
        rfl

/-- `insert` into a map with entries. -/
theorem insert_cost {c : Probe K} {k : K} {v : V} {m m' : Map K V} {r : Option V} (hne : m.root ≠ .nil)
    (he : Map.insert cfg c k v m = (.ok r, m')) :
    m'.allocs = m.allocs + if r.isNone then 1 else 0 := by
  have key : ∀ (n i : Nat) (p : Place), loop n (insertStep cfg c k v) (i, some p) m = (.ok r, m') →
      m'.allocs = m.allocs + if r.isNone then 1 else 0 := by
    intro n
    induction n with
    | zero => intro i p h; cases h
    | succ n ih =>
      intro i p h
      have hs := insertStep_cost (cfg := cfg) c k v i p m
      rcases hx : insertStep cfg c k v (i, some p) m with ⟨o, m1⟩
      rw [hx] at hs
      cases o with
      | ok x =>
        cases x with
        | inl st =>
          obtain ⟨h1, h2⟩ := hs
          obtain ⟨i', q⟩ := st
          cases q with
          | none => exact absurd rfl h1
          | some q =>
            rw [loopM_inl hx, h2] at h
            exact ih _ _ h
        | inr x =>
          rw [loopM_inr hx] at h
          cases h
          cases r <;> simpa [StepCost] using hs
      | panic => rw [loopM_panic hx] at h; cases h
      | abort => rw [loopM_abort hx] at h; cases h
      | ub => rw [loop_succ, M.bind_apply, hx] at h; cases h
      | diverge => rw [loop_succ, M.bind_apply, hx] at h; cases h
  unfold Map.insert at he
  rw [M.get_bind] at he
  cases hr : m.root with
  | nil => exact absurd hr hne
  | node a b l r =>
    have h1 : m.rootMut = some [] := by simp [rootMut, rootRef, hr, Ref.of]
    rw [h1] at he
    exact key _ _ _ he

end BST.Simple
