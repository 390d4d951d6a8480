import Verif.Proofs.Simple
/-!
# The methods of `SimpleBSTMap`
-/
set_option linter.unusedSimpArgs false
namespace BST.Simple
variable {K V : Type}
open Spec (BT)

/-- The field `len` is right. -/
def Wf (m : Map K V) : Prop := m.len = m.root.size

/-- Boxes for `n` nodes are to be had. -/
def Plenty (cfg : Cfg) (n : Nat) : Prop :=
  n * cfg.esize < usizeBound ∧ ∀ i b, cfg.allocOk i b = true

theorem Plenty.mono {cfg : Cfg} {n n' : Nat} (h : Plenty cfg n) (hn : n' ≤ n) : Plenty cfg n' :=
  ⟨Nat.lt_of_le_of_lt (Nat.mul_le_mul_right _ hn) h.1, h.2⟩

/-! ### Lookups -/

/-- The body shared by the lookups. -/
def lookBody {α : Type} (c : Probe K) (hit : Ref K V → α) (miss : α) (st : Nat × Option (Ref K V)) :
    Out ((Nat × Option (Ref K V)) ⊕ α) :=
  match st.2 with
  | none => pure (.inr miss)
  | some node =>
    match c st.1 node.key with
    | none => .panic
    | some .lt => pure (.inl (st.1 + 1, node.leftRef))
    | some .gt => pure (.inl (st.1 + 1, node.rightRef))
    | some .eq => pure (.inr (hit node))

theorem look_loop {α : Type} {c : Probe K} {hit : Ref K V → α} {g : K × V → α} {miss : α}
    (hg : ∀ n, hit n = g (n.key, n.value)) (t : Link K V) (q : Place) (i n : Nat) (hn : t.size < n) :
    loop n (lookBody c hit miss) (i, Ref.of q t) =
      (t.find c i).map fun e => match e with | none => miss | some e => g e := by
  induction t generalizing q i n with
  | nil =>
    obtain ⟨n, rfl⟩ : ∃ k, n = k + 1 := ⟨n - 1, by omega⟩
    rfl
  | node k v l r ihl ihr =>
    simp only [Link.size] at hn
    obtain ⟨n, rfl⟩ : ∃ k, n = k + 1 := ⟨n - 1, by omega⟩
    unfold Link.find
    cases hc : c i k with
    | none => rw [loopO_panic]; rfl; simp [lookBody, Ref.of, hc]
    | some o =>
      cases o with
      | lt =>
        rw [loopO_inl (b' := (i + 1, Ref.of (q ++ [false]) l)), ihl _ _ _ (by omega)]
        simp [lookBody, Ref.of, hc, Ref.leftRef]
      | gt =>
        rw [loopO_inl (b' := (i + 1, Ref.of (q ++ [true]) r)), ihr _ _ _ (by omega)]
        simp [lookBody, Ref.of, hc, Ref.rightRef]
      | eq =>
        rw [loopO_inr (a := g (k, v))]; rfl
        simp [lookBody, Ref.of, hc, hg]

theorem containsKey_spec (c : Probe K) (m : Map K V) :
    m.containsKey c = (m.root.find c 0).map Option.isSome := by
  have h : m.containsKey c = loop m.fuel (lookBody c (fun _ => true) false) (0, m.rootRef) := rfl
  rw [h, Map.rootRef, look_loop (g := fun _ => true) (fun _ => rfl) _ _ _ m.fuel (Nat.lt_succ_self _)]
  congr 1; funext e; cases e <;> rfl

theorem get_spec (c : Probe K) (m : Map K V) :
    m.get c = (m.root.find c 0).map (Option.map (·.2)) := by
  have h : m.get c = loop m.fuel (lookBody c (fun n => some n.value) none) (0, m.rootRef) := rfl
  rw [h, Map.rootRef, look_loop (g := fun e : K × V => some e.2) (fun _ => rfl) _ _ _ m.fuel
    (Nat.lt_succ_self _)]
  congr 1; funext e; cases e <;> rfl

theorem getEntry_spec (c : Probe K) (m : Map K V) : m.getEntry c = m.root.find c 0 := by
  have h : m.getEntry c = loop m.fuel (lookBody c (fun n => some (n.key, n.value)) none)
    (0, m.rootRef) := rfl
  rw [h, Map.rootRef, look_loop (g := fun e : K × V => some e) (fun _ => rfl) _ _ _ m.fuel
    (Nat.lt_succ_self _)]
  cases m.root.find c 0 with
  | ok e => cases e <;> rfl
  | _ => rfl

/-! ### Nodes by mutable reference -/

section
variable {p : Place} {w : Own K V} {k : K} {v : V} {l r : Link K V}

theorem deref_ok (h : w.root.at' p = .node k v l r) :
    Own.deref p w = (.ok ⟨p, k, v, l, r⟩, w) := by simp [Own.deref, h, Ref.of]

theorem leftMut_ok (h : w.root.at' p = .node k v l r) :
    Own.leftMut p w = (.ok ((Ref.of (p ++ [false]) l).map (·.place)), w) :=
  M.bind_ok (deref_ok h)

theorem rightMut_ok (h : w.root.at' p = .node k v l r) :
    Own.rightMut p w = (.ok ((Ref.of (p ++ [true]) r).map (·.place)), w) :=
  M.bind_ok (deref_ok h)

theorem takeLeft_ok (h : w.root.at' p = .node k v l r) :
    Own.takeLeft p w = (.ok l, { w with root := Link.put (.node k v .nil r) p w.root }) :=
  M.bind_ok (deref_ok h)

theorem takeRight_ok (h : w.root.at' p = .node k v l r) :
    Own.takeRight p w = (.ok r, { w with root := Link.put (.node k v l .nil) p w.root }) :=
  M.bind_ok (deref_ok h)

theorem swapValue_ok (h : w.root.at' p = .node k v l r) (x : V) :
    Own.swapValue p x w = (.ok v, { w with root := Link.put (.node k x l r) p w.root }) :=
  M.bind_ok (deref_ok h)

theorem box_cases (cfg : Cfg) (new : Link K V) (w : Own K V) :
    (Own.box cfg new w = (.ok (), { w with allocs := w.allocs + 1 }) ∧
      (w.root.size + new.size - 1) * cfg.esize < usizeBound) ∨
    (Own.box cfg new w = (.abort, w) ∧ ¬ Plenty cfg (w.root.size + new.size - 1)) := by
  unfold Own.box
  by_cases h : (w.root.size + new.size - 1) * cfg.esize < usizeBound ∧
      cfg.allocOk w.allocs cfg.esize = true
  · exact .inl ⟨if_pos h, h.1⟩
  · exact .inr ⟨if_neg h, fun hp => h ⟨hp.1, hp.2 _ _⟩⟩

theorem boxOpt_cases (cfg : Cfg) (new : Link K V) (w : Own K V) :
    (∃ a, Own.boxOpt cfg new w = (.ok (), { w with allocs := a })) ∨
    (Own.boxOpt cfg new w = (.abort, w) ∧ ¬ Plenty cfg (w.root.size + new.size - 1)) := by
  unfold Own.boxOpt
  split
  · exact .inl ⟨w.allocs, rfl⟩
  · rcases box_cases cfg new w with ⟨h, _⟩ | h
    · exact .inl ⟨_, h⟩
    · exact .inr h

theorem setLeft_cases (cfg : Cfg) (h : w.root.at' p = .node k v .nil r) (new : Link K V) :
    (∃ a, Own.setLeft cfg p new w = (.ok (), ⟨Link.put (.node k v new r) p w.root, a⟩) ∧
      (w.root.size + new.size - 1) * cfg.esize < usizeBound) ∨
    (Own.setLeft cfg p new w = (.abort, w) ∧ ¬ Plenty cfg (w.root.size + new.size - 1)) := by
  unfold Own.setLeft
  rw [M.bind_ok (deref_ok h)]
  simp only [Link.isNil, debugAssert_true, M.lift_ok_bind]
  rcases box_cases cfg new w with ⟨h1, h2⟩ | ⟨h1, h2⟩
  · exact .inl ⟨w.allocs + 1, (M.bind_ok h1).trans rfl, h2⟩
  · exact .inr ⟨M.bind_abort h1, h2⟩

theorem setRight_cases (cfg : Cfg) (h : w.root.at' p = .node k v l .nil) (new : Link K V) :
    (∃ a, Own.setRight cfg p new w = (.ok (), ⟨Link.put (.node k v l new) p w.root, a⟩) ∧
      (w.root.size + new.size - 1) * cfg.esize < usizeBound) ∨
    (Own.setRight cfg p new w = (.abort, w) ∧ ¬ Plenty cfg (w.root.size + new.size - 1)) := by
  unfold Own.setRight
  rw [M.bind_ok (deref_ok h)]
  simp only [Link.isNil, debugAssert_true, M.lift_ok_bind]
  rcases box_cases cfg new w with ⟨h1, h2⟩ | ⟨h1, h2⟩
  · exact .inl ⟨w.allocs + 1, (M.bind_ok h1).trans rfl, h2⟩
  · exact .inr ⟨M.bind_abort h1, h2⟩

theorem replaceLeft_cases (cfg : Cfg) (h : w.root.at' p = .node k v l r) (new : Link K V) :
    (∃ a, Own.replaceLeft cfg p new w = (.ok l, ⟨Link.put (.node k v new r) p w.root, a⟩)) ∨
    (Own.replaceLeft cfg p new w = (.abort, w) ∧ ¬ Plenty cfg (w.root.size + new.size - 1)) := by
  unfold Own.replaceLeft
  rw [M.bind_ok (deref_ok h)]
  rcases boxOpt_cases cfg new w with ⟨a, h1⟩ | ⟨h1, h2⟩
  · exact .inl ⟨a, (M.bind_ok h1).trans rfl⟩
  · exact .inr ⟨M.bind_abort h1, h2⟩

theorem replaceRight_cases (cfg : Cfg) (h : w.root.at' p = .node k v l r) (new : Link K V) :
    (∃ a, Own.replaceRight cfg p new w = (.ok r, ⟨Link.put (.node k v l new) p w.root, a⟩)) ∨
    (Own.replaceRight cfg p new w = (.abort, w) ∧ ¬ Plenty cfg (w.root.size + new.size - 1)) := by
  unfold Own.replaceRight
  rw [M.bind_ok (deref_ok h)]
  rcases boxOpt_cases cfg new w with ⟨a, h1⟩ | ⟨h1, h2⟩
  · exact .inl ⟨a, (M.bind_ok h1).trans rfl⟩
  · exact .inr ⟨M.bind_abort h1, h2⟩
end

namespace Map

theorem onRoot_ok {α : Type} {f : M (Own K V) α} {m : Map K V} {o : Out α} {w : Own K V}
    (h : f ⟨m.root, m.allocs⟩ = (o, w)) :
    onRoot f m = (o, { m with root := w.root, allocs := w.allocs }) := by
  unfold onRoot; rw [h]

theorem onRoot_pure {α : Type} {f : M (Own K V) α} {m : Map K V} {o : Out α}
    (h : f ⟨m.root, m.allocs⟩ = (o, ⟨m.root, m.allocs⟩)) : onRoot f m = (o, m) := onRoot_ok h

theorem onLocal_ok {α : Type} {f : M (Own K V) α} {m : Map K V} {x : Link K V} {a : α} {w : Own K V}
    (h : f ⟨x, m.allocs⟩ = (.ok a, w)) :
    onLocal x f m = (.ok (a, w.root), { m with allocs := w.allocs }) := by
  unfold onLocal; rw [h]

theorem onLocal_abort {α : Type} {f : M (Own K V) α} {m : Map K V} {x : Link K V} {w : Own K V}
    (h : f ⟨x, m.allocs⟩ = (.abort, w)) :
    onLocal x f m = (.abort, { m with allocs := w.allocs }) := by
  unfold onLocal; rw [h]

/-! ### `get_mut` -/

theorem getMut_spec (c : Probe K) (m : Map K V) :
    Map.getMut c m = ((m.root.find c 0).map (Option.map fun _ => m.root.path c 0), m) := by
  have key : ∀ (t : Link K V) (q : Place) (i n : Nat), t.size < n → m.root.at' q = t →
      loop n (getMutStep c) (i, (Ref.of q t).map (·.place)) m =
      ((t.find c i).map (Option.map fun _ => q ++ t.path c i), m) := by
    intro t
    induction t with
    | nil =>
      intro q i n hn _
      obtain ⟨n, rfl⟩ : ∃ k, n = k + 1 := ⟨n - 1, by omega⟩
      exact loopM_inr rfl
    | node k v l r ihl ihr =>
      intro q i n hn hq
      simp only [Link.size] at hn
      obtain ⟨n, rfl⟩ : ∃ k, n = k + 1 := ⟨n - 1, by omega⟩
      have hd := onRoot_pure (m := m) (deref_ok (w := ⟨m.root, m.allocs⟩) hq)
      unfold Link.find Link.path
      cases hc : c i k with
      | none =>
        refine loopM_panic ?_
        dsimp only [getMutStep, Ref.of, Option.map_some]
        rw [M.bind_ok hd]
        simp [hc]
      | some o =>
        cases o with
        | lt =>
          rw [loopM_inl (b' := (i + 1, (Ref.of (q ++ [false]) l).map (·.place))) (s' := m),
            ihl _ _ _ (by omega) (Link.at_left hq)]
          · simp
          · dsimp only [getMutStep, Ref.of, Option.map_some]
            rw [M.bind_ok hd]
            simp only [hc]
            exact M.bind_ok (onRoot_pure (leftMut_ok (w := ⟨m.root, m.allocs⟩) hq))
        | gt =>
          rw [loopM_inl (b' := (i + 1, (Ref.of (q ++ [true]) r).map (·.place))) (s' := m),
            ihr _ _ _ (by omega) (Link.at_right hq)]
          · simp
          · dsimp only [getMutStep, Ref.of, Option.map_some]
            rw [M.bind_ok hd]
            simp only [hc]
            exact M.bind_ok (onRoot_pure (rightMut_ok (w := ⟨m.root, m.allocs⟩) hq))
        | eq =>
          refine (loopM_inr (a := some q) (s' := m) ?_).trans (by simp [Out.map])
          dsimp only [getMutStep, Ref.of, Option.map_some]
          rw [M.bind_ok hd]
          simp [hc]
  have := key m.root [] 0 m.fuel (Nat.lt_succ_self _) (by simp)
  simpa [getMut, rootMut, rootRef] using this

/-! ### `insert` -/

theorem addLen_ok {cfg : Cfg} {m : Map K V} (h : m.len + 1 < usizeBound) :
    addLen cfg m = (.ok (), { m with len := m.len + 1 }) := by
  simp [addLen, addU_ok cfg h]

theorem box_len {cfg : Cfg} {n : Nat} (he : 2 ≤ cfg.esize) (h : n * cfg.esize < usizeBound) :
    n + 1 < usizeBound := by
  have := Nat.mul_le_mul_left n he
  unfold usizeBound at *
  omega

theorem insert_spec {cfg : Cfg} (he : 2 ≤ cfg.esize) (c : Probe K) (k : K) (v : V) (m : Map K V)
    (hw : Wf m) :
    (m.root.find c 0 = .panic ∧ Map.insert cfg c k v m = (.panic, m)) ∨
    (∃ e a n, m.root.find c 0 = .ok e ∧
      Map.insert cfg c k v m = (.ok (e.map (·.2)), ⟨m.root.ins c k v 0, n, a⟩) ∧
      n = (m.root.ins c k v 0).size) ∨
    (m.root.find c 0 = .ok none ∧ Map.insert cfg c k v m = (.abort, m) ∧
      ¬ Plenty cfg m.root.size) := by
  unfold Wf at hw
  by_cases hnil : m.root = .nil
  · refine .inr (.inl ⟨none, m.allocs, 1, by rw [hnil]; rfl, ?_, by rw [hnil]; rfl⟩)
    unfold insert
    rw [M.get_bind]
    have h1 : m.rootMut = none := by simp [rootMut, rootRef, hnil, Ref.of]
    rw [h1]
    have h2 : m.len = 0 := by rw [hw, hnil]; rfl
    simp only [M.modify_bind, M.get_bind, h2, beq_self_eq_true, debugAssert_true, M.lift_ok_bind, hnil,
      Link.ins]
    rfl
  have key : ∀ (t : Link K V) (q : Place) (i n : Nat), t.size < n → m.root.at' q = t → t ≠ .nil →
      ∀ x, x = loop n (insertStep cfg c k v) (i, some q) m →
      (t.find c i = .panic ∧ x = (.panic, m)) ∨
      (∃ e a n, t.find c i = .ok e ∧
        x = (.ok (e.map (·.2)), ⟨Link.put (t.ins c k v i) q m.root, n, a⟩) ∧
        n = (Link.put (t.ins c k v i) q m.root).size) ∨
      (t.find c i = .ok none ∧ x = (.abort, m) ∧ ¬ Plenty cfg m.root.size) := by
    intro t
    induction t with
    | nil => exact fun q i n _ _ h => absurd rfl h
    | node k' v' l r ihl ihr =>
      intro q i n hn hq _ x hx
      simp only [Link.size] at hn
      obtain ⟨n, rfl⟩ : ∃ k, n = k + 1 := ⟨n - 1, by omega⟩
      have hd := onRoot_pure (m := m) (deref_ok (w := ⟨m.root, m.allocs⟩) hq)
      unfold Link.find Link.ins
      cases hc : c i k' with
      | none =>
        refine .inl ⟨rfl, hx.trans (loopM_panic ?_)⟩
        dsimp only [insertStep]
        rw [M.bind_ok hd]
        simp [hc]
      | some o =>
        cases o with
        | lt =>
          cases hl : l with
          | nil =>
            subst hl
            rcases setLeft_cases cfg (w := ⟨m.root, m.allocs⟩) hq (.node k v .nil .nil) with
              ⟨a, h1, h2⟩ | ⟨h1, h2⟩
            · have h3 : m.len + 1 < usizeBound := by
                rw [hw]; exact box_len he (by simpa [Link.size] using h2)
              refine .inr (.inl ⟨none, a, m.len + 1, rfl, hx.trans (loopM_inr ?_), ?_⟩)
              · dsimp only [insertStep]
                rw [M.bind_ok hd]
                simp only [hc, Ref.hasLeft, Link.isNil, Bool.not_true, Bool.not_false, if_true]
                rw [M.bind_ok (onRoot_ok h1)]
                exact M.bind_ok (addLen_ok h3)
              · have := Link.size_put q (.node k' v' (.node k v .nil .nil) r) m.root (by rw [hq]; simp)
                rw [hq] at this
                simp only [Link.size, Link.ins] at this ⊢
                omega
            · refine .inr (.inr ⟨rfl, hx.trans (loopM_abort ?_), by simpa [Link.size] using h2⟩)
              dsimp only [insertStep]
              rw [M.bind_ok hd]
              simp only [hc, Ref.hasLeft, Link.isNil, Bool.not_true, Bool.not_false, if_true]
              exact M.bind_abort (onRoot_pure h1)
          | node lk lv ll lr =>
            rw [← hl]
            have hl' : l ≠ .nil := by rw [hl]; simp
            have h1 := ihl (q ++ [false]) (i + 1) n (by omega) (Link.at_left hq) hl' x (by
              rw [hx]
              refine loopM_inl ?_
              dsimp only [insertStep]
              rw [M.bind_ok hd]
              simp only [hc, hl, Ref.hasLeft, Link.isNil, Bool.not_false, Bool.not_true]
              exact M.bind_ok (onRoot_pure (leftMut_ok (w := ⟨m.root, m.allocs⟩) (hl ▸ hq))))
            simpa only [Link.put_left hq] using h1
        | gt =>
          cases hl : r with
          | nil =>
            subst hl
            rcases setRight_cases cfg (w := ⟨m.root, m.allocs⟩) hq (.node k v .nil .nil) with
              ⟨a, h1, h2⟩ | ⟨h1, h2⟩
            · have h3 : m.len + 1 < usizeBound := by
                rw [hw]; exact box_len he (by simpa [Link.size] using h2)
              refine .inr (.inl ⟨none, a, m.len + 1, rfl, hx.trans (loopM_inr ?_), ?_⟩)
              · dsimp only [insertStep]
                rw [M.bind_ok hd]
                simp only [hc, Ref.hasRight, Link.isNil, Bool.not_true, Bool.not_false, if_true]
                rw [M.bind_ok (onRoot_ok h1)]
                exact M.bind_ok (addLen_ok h3)
              · have := Link.size_put q (.node k' v' l (.node k v .nil .nil)) m.root (by rw [hq]; simp)
                rw [hq] at this
                simp only [Link.size, Link.ins] at this ⊢
                omega
            · refine .inr (.inr ⟨rfl, hx.trans (loopM_abort ?_), by simpa [Link.size] using h2⟩)
              dsimp only [insertStep]
              rw [M.bind_ok hd]
              simp only [hc, Ref.hasRight, Link.isNil, Bool.not_true, Bool.not_false, if_true]
              exact M.bind_abort (onRoot_pure h1)
          | node lk lv ll lr =>
            rw [← hl]
            have hl' : r ≠ .nil := by rw [hl]; simp
            have h1 := ihr (q ++ [true]) (i + 1) n (by omega) (Link.at_right hq) hl' x (by
              rw [hx]
              refine loopM_inl ?_
              dsimp only [insertStep]
              rw [M.bind_ok hd]
              simp only [hc, hl, Ref.hasRight, Link.isNil, Bool.not_false, Bool.not_true]
              exact M.bind_ok (onRoot_pure (rightMut_ok (w := ⟨m.root, m.allocs⟩) (hl ▸ hq))))
            simpa only [Link.put_right hq] using h1
        | eq =>
          refine .inr (.inl ⟨some (k', v'), m.allocs, m.len, rfl, hx.trans (loopM_inr ?_), ?_⟩)
          · dsimp only [insertStep]
            rw [M.bind_ok hd]
            simp only [hc]
            exact M.bind_ok (onRoot_ok (swapValue_ok (w := ⟨m.root, m.allocs⟩) hq v))
          · have := Link.size_put q (.node k' v l r) m.root (by rw [hq]; simp)
            rw [hq] at this
            simp only [Link.size] at this ⊢
            omega
  have h1 : m.rootMut = some [] := by
    cases hr : m.root with
    | nil => exact absurd hr hnil
    | node k' v' l r => simp [rootMut, rootRef, hr, Ref.of]
  have := key m.root [] 0 m.fuel (Nat.lt_succ_self _) (by simp) hnil (Map.insert cfg c k v m) (by
    unfold insert
    rw [M.get_bind, h1])
  simpa using this

end Map
end BST.Simple
