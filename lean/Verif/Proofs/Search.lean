import Verif.Search
import Verif.Proofs.Textbook
/-!
# Lemmas about arbitrary comparisons
-/
set_option linter.unusedSimpArgs false
namespace BST
open BSTMap Tree
open Spec (BT)
variable {K V : Type}

theorem find_search (c : Probe K) (i : Nat) (t : Tree K V) :
    t.sh.search c i = (do let e ← t.find c i; pure (e.map (·.2))) := by
  induction t generalizing i with
  | leaf => rfl
  | node p l k v r ihl ihr =>
    simp only [sh_node, BT.search, find]
    cases c i k with
    | none => rfl
    | some o => cases o <;> first | rfl | exact ihl _ | exact ihr _

theorem ins_insertBy (c : Probe K) (p : Ptr) (k : K) (v : V) (i : Nat) (t : Tree K V) :
    (t.ins c p k v i).sh = t.sh.insertBy c k v i := by
  induction t generalizing i with
  | leaf => rfl
  | node q l k' v' r ihl ihr =>
    simp only [sh_node, BT.insertBy, ins]
    cases c i k' with
    | none => rfl
    | some o => cases o <;> simp [ihl, ihr]

theorem del_eraseBy (c : Probe K) (i : Nat) (t : Tree K V) :
    (t.del c i).sh = t.sh.eraseBy c i := by
  induction t generalizing i with
  | leaf => rfl
  | node q l k' v' r ihl ihr =>
    simp only [sh_node, BT.eraseBy, del]
    cases c i k' with
    | none => rfl
    | some o => cases o <;> simp [ihl, ihr, join_sh]

/-! ### Only the comparisons up to the height matter -/

section
variable {c c' : Probe K}

theorem insert_loop_congr {cfg : Cfg} {key : K} {value : V} {m : BSTMap K V} {t : Tree K V}
    (ht : t ≠ .leaf) (hr : t.Rep m.nodes.view) (i fuel : Nat) (hf : t.height < fuel)
    (hc : ∀ j x, i ≤ j → j < i + t.height → c j x = c' j x) :
    loop fuel (insertBody cfg c key value) (i, t.mutOpt) m =
      loop fuel (insertBody cfg c' key value) (i, t.mutOpt) m := by
  induction t generalizing i fuel with
  | leaf => exact absurd rfl ht
  | node p l k v r ihl ihr =>
    obtain ⟨fuel, rfl⟩ : ∃ k, fuel = k + 1 := ⟨fuel - 1, by omega⟩
    simp only [Tree.height] at hf hc
    have h0 : c i k = c' i k := hc i k (Nat.le_refl _) (by omega)
    have hbody : ∀ c : Probe K, insertBody cfg c key value (i, (Tree.node p l k v r).mutOpt) m =
        (match c i k with
        | none => M.panic
        | some .lt => do
          if !(← onNodes (NodeMut.hasLeft ⟨p⟩)) then
            let _ ← onNodes (NodeMut.pushLeft cfg ⟨p⟩ key value)
            pure (.inr none)
          else
            let n ← onNodes (NodeMut.left ⟨p⟩)
            pure (.inl (i + 1, n))
        | some .gt => do
          if !(← onNodes (NodeMut.hasRight ⟨p⟩)) then
            let _ ← onNodes (NodeMut.pushRight cfg ⟨p⟩ key value)
            pure (.inr none)
          else
            let n ← onNodes (NodeMut.right ⟨p⟩)
            pure (.inl (i + 1, n))
        | some .eq => do
          let prev ← onNodes (NodeMut.replaceValue ⟨p⟩ value)
          pure (.inr (some prev)) : M (BSTMap K V) ((Nat × Option NodeMut) ⊕ Option V)) m := by
      intro c
      show (onNodes (NodeMut.key ⟨p⟩) >>= _) m = _
      rw [M.bind_ok (onNodes_pure (key_ok hr))]
      rfl
    have same : insertBody cfg c key value (i, (Tree.node p l k v r).mutOpt) m =
        insertBody cfg c' key value (i, (Tree.node p l k v r).mutOpt) m := by
      rw [hbody c, hbody c', h0]
    have stop : ∀ {o : Out (((Nat × Option NodeMut)) ⊕ Option V)} {m'},
        insertBody cfg c key value (i, (Tree.node p l k v r).mutOpt) m = (o, m') →
        (∀ b, o ≠ .ok (.inl b)) →
        loop (fuel + 1) (insertBody cfg c key value) (i, (Tree.node p l k v r).mutOpt) m =
          loop (fuel + 1) (insertBody cfg c' key value) (i, (Tree.node p l k v r).mutOpt) m := by
      intro o m' h hno
      rw [loop_succ, loop_succ, M.bind_apply, M.bind_apply, ← same, h]
      cases o with
      | ok a =>
        cases a with
        | inl b => exact absurd rfl (hno b)
        | inr a => rfl
      | _ => rfl
    have down : ∀ {u : Tree K V}, u ≠ .leaf → u.Rep m.nodes.view → u.height ≤ max l.height r.height →
        insertBody cfg c key value (i, (Tree.node p l k v r).mutOpt) m =
          (.ok (.inl (i + 1, u.mutOpt)), m) →
        (∀ (i fuel : Nat), u.height < fuel →
          (∀ j x, i ≤ j → j < i + u.height → c j x = c' j x) →
          loop fuel (insertBody cfg c key value) (i, u.mutOpt) m =
            loop fuel (insertBody cfg c' key value) (i, u.mutOpt) m) →
        loop (fuel + 1) (insertBody cfg c key value) (i, (Tree.node p l k v r).mutOpt) m =
          loop (fuel + 1) (insertBody cfg c' key value) (i, (Tree.node p l k v r).mutOpt) m := by
      intro u _ _ hh hb ih
      rw [loopM_inl hb, loopM_inl (same ▸ hb)]
      exact ih (i + 1) fuel (by omega) fun j x h1 h2 => hc j x (by omega) (by omega)
    have hb := hbody c
    cases hck : c i k with
    | none =>
      rw [hck] at hb
      exact stop hb (by simp)
    | some o =>
      rw [hck] at hb
      cases o with
      | eq =>
        refine stop (hb.trans (Prod.eta _).symm) fun b hcon => ?_
        dsimp only at hcon
        rw [M.bind_apply] at hcon
        cases ho : onNodes (NodeMut.replaceValue ⟨p⟩ value) m with
        | mk o' m' => rw [ho] at hcon; cases o' <;> cases hcon
      | lt =>
        dsimp only at hb
        rw [M.bind_ok (onNodes_pure (hasLeft_ok hr))] at hb
        by_cases hl : l = .leaf
        · subst hl
          simp only [Tree.root_leaf, Option.isSome_none, Bool.not_false, if_true] at hb
          refine stop (hb.trans (Prod.eta _).symm) fun b hcon => ?_
          rw [M.bind_apply] at hcon
          cases ho : onNodes (NodeMut.pushLeft cfg ⟨p⟩ key value) m with
          | mk o' m' => rw [ho] at hcon; cases o' <;> cases hcon
        · have hsome : l.root.isSome := by
            cases l with
            | leaf => exact absurd rfl hl
            | node => rfl
          rw [hsome] at hb
          simp only [Bool.not_true, Bool.false_eq_true, if_false] at hb
          rw [M.bind_ok (onNodes_pure (left_ok hr))] at hb
          exact down hl hr.2.1 (by omega) hb (ihl hl hr.2.1)
      | gt =>
        dsimp only at hb
        rw [M.bind_ok (onNodes_pure (hasRight_ok hr))] at hb
        by_cases hl : r = .leaf
        · subst hl
          simp only [Tree.root_leaf, Option.isSome_none, Bool.not_false, if_true] at hb
          refine stop (hb.trans (Prod.eta _).symm) fun b hcon => ?_
          rw [M.bind_apply] at hcon
          cases ho : onNodes (NodeMut.pushRight cfg ⟨p⟩ key value) m with
          | mk o' m' => rw [ho] at hcon; cases o' <;> cases hcon
        · have hsome : r.root.isSome := by
            cases r with
            | leaf => exact absurd rfl hl
            | node => rfl
          rw [hsome] at hb
          simp only [Bool.not_true, Bool.false_eq_true, if_false] at hb
          rw [M.bind_ok (onNodes_pure (right_ok hr))] at hb
          exact down hl hr.2.2 (by omega) hb (ihr hl hr.2.2)

theorem insert_congr {cfg : Cfg} {m : BSTMap K V} {t : Tree K V} (h : Shape cfg m t) (k : K) (v : V)
    (hc : ∀ j x, j < t.height → c j x = c' j x) : insert cfg c k v m = insert cfg c' k v m := by
  have hroot := rootMut_ok h.root h.rep
  show (M.get >>= _) m = (M.get >>= _) m
  rw [M.get_bind, M.get_bind, M.bind_ok hroot, M.bind_ok hroot]
  cases t with
  | leaf => rfl
  | node p l k' v' r =>
    exact insert_loop_congr (by simp) h.rep 0 _ h.height_lt fun j x _ hj => hc j x (by omega)

theorem findWithParent_congr {cfg : Cfg} {m : BSTMap K V} {t : Tree K V} (h : Shape cfg m t)
    (hc : ∀ j x, j < t.height → c j x = c' j x) : findWithParent c m = findWithParent c' m := by
  suffices H : ∀ (t : Tree K V), t.Rep m.nodes.view → ∀ (par : Option Ptr) (i fuel : Nat),
      t.height < fuel → (∀ j x, i ≤ j → j < i + t.height → c j x = c' j x) →
      loop fuel (fun (st : Nat × Option Ptr × Option Ptr) =>
      match st with
      | (_, parent, none) => pure (.inr (parent, none))
      | (i, parent, some p) => do
        let node ← m.nodes.getUnchecked p
        match c i node.key with
        | none => .panic
        | some .lt => pure (.inl (i + 1, some p, node.left))
        | some .gt => pure (.inl (i + 1, some p, node.right))
        | some .eq => pure (.inr (parent, some p)) : _ → Out (_ ⊕ Option Ptr × Option Ptr))
        (i, par, t.root) =
      loop fuel (fun (st : Nat × Option Ptr × Option Ptr) =>
      match st with
      | (_, parent, none) => pure (.inr (parent, none))
      | (i, parent, some p) => do
        let node ← m.nodes.getUnchecked p
        match c' i node.key with
        | none => .panic
        | some .lt => pure (.inl (i + 1, some p, node.left))
        | some .gt => pure (.inl (i + 1, some p, node.right))
        | some .eq => pure (.inr (parent, some p)) : _ → Out (_ ⊕ Option Ptr × Option Ptr))
        (i, par, t.root) by
    unfold findWithParent
    rw [h.root]
    exact H t h.rep none 0 _ h.height_lt fun j x _ hj => hc j x (by omega)
  intro t hr
  induction t with
  | leaf =>
    intro par i fuel hf _
    obtain ⟨fuel, rfl⟩ : ∃ k, fuel = k + 1 := ⟨fuel - 1, by omega⟩
    rfl
  | node p l k v r ihl ihr =>
    intro par i fuel hf hc
    obtain ⟨fuel, rfl⟩ : ∃ k, fuel = k + 1 := ⟨fuel - 1, by omega⟩
    simp only [Tree.height] at hf hc
    have hg := Slab.getUnchecked_ok hr.1
    have h0 : c i k = c' i k := hc i k (Nat.le_refl _) (by omega)
    cases hck : c i k with
    | none =>
      have hck' := h0 ▸ hck
      rw [loopO_panic (by simp [hg, hck]), loopO_panic (by simp [hg, hck'])]
    | some o =>
      have hck' := h0 ▸ hck
      cases o with
      | lt =>
        rw [loopO_inl (b' := (i + 1, some p, l.root)) (by simp [hg, hck]),
          loopO_inl (b' := (i + 1, some p, l.root)) (by simp [hg, hck'])]
        exact ihl hr.2.1 _ _ _ (by omega) fun j x h1 h2 => hc j x (by omega) (by omega)
      | gt =>
        rw [loopO_inl (b' := (i + 1, some p, r.root)) (by simp [hg, hck]),
          loopO_inl (b' := (i + 1, some p, r.root)) (by simp [hg, hck'])]
        exact ihr hr.2.2 _ _ _ (by omega) fun j x h1 h2 => hc j x (by omega) (by omega)
      | eq =>
        rw [loopO_inr (a := (par, some p)) (by simp [hg, hck]),
          loopO_inr (a := (par, some p)) (by simp [hg, hck'])]

theorem removeEntry_congr {cfg : Cfg} {m : BSTMap K V} {t : Tree K V} (h : Shape cfg m t)
    (hc : ∀ j x, j < t.height → c j x = c' j x) : removeEntry cfg c m = removeEntry cfg c' m := by
  show (M.read (findWithParent c) >>= _) m = (M.read (findWithParent c') >>= _) m
  rw [M.read_bind, M.read_bind, findWithParent_congr h hc]

end
end BST
