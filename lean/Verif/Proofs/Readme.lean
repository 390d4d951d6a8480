import Verif.Readme
import Verif.Proofs.Steps
import Verif.Proofs.SimpleIter
/-! # Lemmas for C78 -/
namespace BST.Readme
open Tree
open Spec (BT Order scan)
variable {K V : Type} {cfg : Cfg}

theorem scan_append {α : Type} (is : Nat → α → Option Bool) (xs ys : List α) (i : Nat) :
    scan is (xs ++ ys) i = match scan is xs i with
      | (.ok none, j) => scan is ys j
      | r => r := by
  induction xs generalizing i with
  | nil => rfl
  | cons x xs ih =>
    simp only [List.cons_append, scan]
    cases h : is i x with
    | none => rfl
    | some b => cases b <;> simp [ih]

/-- A scan ends with a result or a panic. -/
theorem scan_cases {α : Type} (is : Nat → α → Option Bool) (xs : List α) (i : Nat) :
    (∃ j, scan is xs i = (.panic, j)) ∨ (∃ j, scan is xs i = (.ok none, j)) ∨
    ∃ x j, scan is xs i = (.ok (some x), j) ∧ x ∈ xs := by
  induction xs generalizing i with
  | nil => exact .inr (.inl ⟨_, rfl⟩)
  | cons x xs ih =>
    simp only [scan]
    cases h : is i x with
    | none => exact .inl ⟨_, rfl⟩
    | some b =>
      cases b with
      | true => exact .inr (.inr ⟨x, _, rfl, by simp⟩)
      | false =>
        rcases ih (i + 1) with h1 | h1 | ⟨y, j, h1, h2⟩
        · exact .inl h1
        · exact .inr (.inl h1)
        · exact .inr (.inr ⟨y, j, h1, by simp [h2]⟩)

theorem scan_pure {α : Type} (p : α → Bool) (xs : List α) (i : Nat) :
    (scan (fun _ x => some (p x)) xs i).1 = .ok (xs.find? p) := by
  induction xs generalizing i with
  | nil => rfl
  | cons x xs ih => cases hp : p x <;> simp [scan, hp, ih]

/-- What a node shows. -/
def shows (x : Node K V) : Ptr × K × V := (x.ptr, x.key, x.value)

theorem ask_panic {is : Nat → V → Option Bool} {v : V} {i : Nat} (h : is i v = none) :
    ask is v i = (.panic, i + 1) := by simp [ask, h]
theorem ask_ok {is : Nat → V → Option Bool} {v : V} {i : Nat} {b : Bool} (h : is i v = some b) :
    ask is v i = (.ok b, i + 1) := by simp [ask, h]

theorem findScore_spec {s : Nodes K V} (is : Nat → V → Option Bool) {t : Tree K V} (h : t.Rep s.view) :
    ∀ (lim : Nat), t.height < lim → ∀ (i : Nat), ∃ o j, findScore s is lim t.nodeOpt i = (o, j) ∧
      scan (fun n (e : Ptr × K × V) => is n e.2.2) t.pre i = (o.map (Option.map shows), j) ∧
      ∀ x, o = .ok (some x) → ∃ path, goNode s path t.nodeOpt = .ok (some x) := by
  induction t with
  | leaf =>
    intro lim hl i
    obtain ⟨lim, rfl⟩ : ∃ k, lim = k + 1 := ⟨lim - 1, by omega⟩
    exact ⟨.ok none, i, rfl, rfl, fun x hx => by cases hx⟩
  | node p l k v r ihl ihr =>
    intro lim hlim i
    simp only [Tree.height] at hlim
    obtain ⟨lim, rfl⟩ : ∃ k, lim = k + 1 := ⟨lim - 1, by omega⟩
    have hl : Node.left s ⟨p, ⟨k, v, l.root, r.root⟩⟩ = .ok l.nodeOpt := Node.newOpt_ok h.2.1
    have hr : Node.right s ⟨p, ⟨k, v, l.root, r.root⟩⟩ = .ok r.nodeOpt := Node.newOpt_ok h.2.2
    simp only [nodeOpt_node, findScore, Node.value, Tree.pre, scan, scan_append]
    cases ha : is i v with
    | none => exact ⟨.panic, i + 1, M.bind_panic (ask_panic ha), rfl, fun x hx => by cases hx⟩
    | some b =>
      cases b with
      | true =>
        refine ⟨.ok (some ⟨p, ⟨k, v, l.root, r.root⟩⟩), i + 1, ?_, rfl, fun x hx => ⟨[], ?_⟩⟩
        · rw [M.bind_ok (ask_ok (v := v) ha)]; rfl
        · cases hx; rfl
      | false =>
        obtain ⟨o, j, h1, h2, h3⟩ := ihl h.2.1 lim (by omega) (i + 1)
        rw [M.bind_ok (ask_ok (v := v) ha)]
        simp only [Bool.false_eq_true, if_false, hl, M.lift_ok_bind, h2]
        cases o with
        | ok x =>
          rw [M.bind_ok h1]
          cases x with
          | some x =>
            refine ⟨.ok (some x), j, rfl, rfl, fun y hy => ?_⟩
            obtain ⟨path, hp⟩ := h3 y hy
            exact ⟨false :: path, by simp [goNode, hl, hp]⟩
          | none =>
            obtain ⟨o, j', g1, g2, g3⟩ := ihr h.2.2 lim (by omega) j
            refine ⟨o, j', ?_, g2, fun y hy => ?_⟩
            · simp only [hr, M.lift_ok_bind]; exact g1
            · obtain ⟨path, hp⟩ := g3 y hy
              exact ⟨true :: path, by simp [goNode, hr, hp]⟩
        | panic => exact ⟨.panic, j, M.bind_panic h1, rfl, fun x hx => by cases hx⟩
        | abort | ub | diverge =>
          rcases scan_cases (fun n (e : Ptr × K × V) => is n e.2.2) l.pre (i + 1) with
            ⟨_, hx⟩ | ⟨_, hx⟩ | ⟨_, _, hx, _⟩ <;> cases h2.symm.trans hx

/-- If nothing is found, all nodes are visited: this needs room for one call more than the height. -/
theorem findScore_deep {s : Nodes K V} {is : Nat → V → Option Bool} (hf : ∀ i v, is i v = some false)
    {t : Tree K V} (h : t.Rep s.view) : ∀ (lim : Nat), lim ≤ t.height → ∀ (i : Nat),
    (findScore s is lim t.nodeOpt i).1 = .abort := by
  have hscan : ∀ (xs : List (Ptr × K × V)) i, ∃ j,
      scan (fun n (e : Ptr × K × V) => is n e.2.2) xs i = (.ok none, j) := by
    intro xs
    induction xs with
    | nil => exact fun i => ⟨i, rfl⟩
    | cons x xs ih => intro i; simpa only [scan, hf] using ih (i + 1)
  induction t with
  | leaf =>
    intro lim hl i
    obtain rfl : lim = 0 := by simpa [Tree.height] using hl
    rfl
  | node p l k v r ihl ihr =>
    intro lim hlim i
    cases lim with
    | zero => rfl
    | succ lim =>
      simp only [Tree.height] at hlim
      have hl : Node.left s ⟨p, ⟨k, v, l.root, r.root⟩⟩ = .ok l.nodeOpt := Node.newOpt_ok h.2.1
      have hr : Node.right s ⟨p, ⟨k, v, l.root, r.root⟩⟩ = .ok r.nodeOpt := Node.newOpt_ok h.2.2
      simp only [nodeOpt_node, findScore, Node.value]
      rw [M.bind_ok (ask_ok (v := v) (hf i v))]
      simp only [Bool.false_eq_true, if_false, hl, M.lift_ok_bind]
      rcases hx : findScore s is lim l.nodeOpt (i + 1) with ⟨o, j⟩
      by_cases hh : lim ≤ l.height
      · have := ihl h.2.1 lim hh (i + 1)
        rw [hx] at this
        cases this
        rw [M.bind_abort hx]
      · obtain ⟨o', j', h1, h2, _⟩ := findScore_spec is h.2.1 lim (by omega) (i + 1)
        obtain ⟨j'', h3⟩ := hscan l.pre (i + 1)
        cases hx.symm.trans h1
        have h4 := h2.symm.trans h3
        cases o with
        | ok x =>
          cases x with
          | none => rw [M.bind_ok hx]; simp only [hr, M.lift_ok_bind]; exact ihr h.2.2 lim (by omega) j
          | some x => cases h4
        | _ => cases h4

/-! ### simple_bst -/
open Simple (Link Ref Place)

theorem of_node (q : Place) (k : K) (v : V) (l r : Link K V) :
    Ref.of q (.node k v l r) = some ⟨q, k, v, l, r⟩ := rfl

theorem findScoreSimple_spec (is : Nat → V → Option Bool) (t : Link K V) :
    ∀ (q : Place) (lim : Nat), t.view.height < lim → ∀ (i : Nat),
    ∃ o j, findScoreSimple is lim (Ref.of q t) i = (o, j) ∧
      scan (fun n (e : K × V) => is n e.2) t.view.pre i =
        (o.map (Option.map fun x => (x.key, x.value)), j) ∧
      ∀ x, o = .ok (some x) → ∃ q', x.place = q ++ q' ∧ Ref.of x.place (t.at' q') = some x := by
  induction t with
  | nil =>
    intro q lim hl i
    obtain ⟨lim, rfl⟩ : ∃ k, lim = k + 1 := ⟨lim - 1, by omega⟩
    exact ⟨.ok none, i, rfl, rfl, fun x hx => by cases hx⟩
  | node k v l r ihl ihr =>
    intro q lim hlim i
    simp only [Link.view, BT.height] at hlim
    obtain ⟨lim, rfl⟩ : ∃ k, lim = k + 1 := ⟨lim - 1, by omega⟩
    simp only [of_node, findScoreSimple, Link.view, BT.pre, scan, scan_append, Ref.leftRef, Ref.rightRef]
    cases ha : is i v with
    | none => exact ⟨.panic, i + 1, M.bind_panic (ask_panic ha), rfl, fun x hx => by cases hx⟩
    | some b =>
      cases b with
      | true =>
        refine ⟨.ok (some ⟨q, k, v, l, r⟩), i + 1, ?_, rfl, fun x hx => ⟨[], ?_⟩⟩
        · rw [M.bind_ok (ask_ok (v := v) ha)]; rfl
        · cases hx; exact ⟨by simp, rfl⟩
      | false =>
        obtain ⟨o, j, h1, h2, h3⟩ := ihl (q ++ [false]) lim (by omega) (i + 1)
        rw [M.bind_ok (ask_ok (v := v) ha)]
        simp only [Bool.false_eq_true, if_false, h2]
        cases o with
        | ok x =>
          rw [M.bind_ok h1]
          cases x with
          | some x =>
            refine ⟨.ok (some x), j, rfl, rfl, fun y hy => ?_⟩
            obtain ⟨path, hp, hx⟩ := h3 y hy
            exact ⟨false :: path, by simpa using hp, hx⟩
          | none =>
            obtain ⟨o, j', g1, g2, g3⟩ := ihr (q ++ [true]) lim (by omega) j
            refine ⟨o, j', g1, g2, fun y hy => ?_⟩
            obtain ⟨path, hp, hx⟩ := g3 y hy
            exact ⟨true :: path, by simpa using hp, hx⟩
        | panic => exact ⟨.panic, j, M.bind_panic h1, rfl, fun x hx => by cases hx⟩
        | abort | ub | diverge =>
          rcases scan_cases (fun n (e : K × V) => is n e.2) l.view.pre (i + 1) with
            ⟨_, hx⟩ | ⟨_, hx⟩ | ⟨_, _, hx, _⟩ <;> cases h2.symm.trans hx

theorem findScoreSimple_deep {is : Nat → V → Option Bool} (hf : ∀ i v, is i v = some false)
    (t : Link K V) : ∀ (q : Place) (lim : Nat), lim ≤ t.view.height → ∀ (i : Nat),
    (findScoreSimple is lim (Ref.of q t) i).1 = .abort := by
  have hscan : ∀ (xs : List (K × V)) i, ∃ j,
      scan (fun n (e : K × V) => is n e.2) xs i = (.ok none, j) := by
    intro xs
    induction xs with
    | nil => exact fun i => ⟨i, rfl⟩
    | cons x xs ih => intro i; simpa only [scan, hf] using ih (i + 1)
  induction t with
  | nil =>
    intro q lim hl i
    obtain rfl : lim = 0 := by simpa [Link.view, BT.height] using hl
    rfl
  | node k v l r ihl ihr =>
    intro q lim hlim i
    cases lim with
    | zero => rfl
    | succ lim =>
      simp only [Link.view, BT.height] at hlim
      simp only [of_node, findScoreSimple, Ref.leftRef, Ref.rightRef]
      rw [M.bind_ok (ask_ok (v := v) (hf i v))]
      simp only [Bool.false_eq_true, if_false]
      rcases hx : findScoreSimple is lim (Ref.of (q ++ [false]) l) (i + 1) with ⟨o, j⟩
      by_cases hh : lim ≤ l.view.height
      · have := ihl (q ++ [false]) lim hh (i + 1)
        rw [hx] at this
        cases this
        rw [M.bind_abort hx]
      · obtain ⟨o', j', h1, h2, _⟩ := findScoreSimple_spec is l (q ++ [false]) lim (by omega) (i + 1)
        obtain ⟨j'', h3⟩ := hscan l.view.pre (i + 1)
        cases hx.symm.trans h1
        have h4 := h2.symm.trans h3
        cases o with
        | ok x =>
          cases x with
          | none => rw [M.bind_ok hx]; exact ihr (q ++ [true]) lim (by omega) j
          | some x => cases h4
        | _ => cases h4

end BST.Readme
