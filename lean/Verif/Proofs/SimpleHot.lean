import Verif.Proofs.SimpleCalm
/-!
# Destructors in `simple_bst`: why a call panics or aborts
-/
set_option linter.unusedSimpArgs false
namespace BST.Simple
open Spec (BT fate panicking)
variable {K V α β : Type}

namespace World
variable {d : Drops K V} {s s' : World K V}

/-- If `f` aborts, two destructors have panicked. -/
def Twice (d : Drops K V) (f : M (World K V) Unit) : Prop :=
  ∀ s, (f s).1 = .abort → ∃ ys, (f s).2.dropped = s.dropped ++ ys ∧ 2 ≤ panicking d ys

theorem Twice.nil : Twice d (pure ()) := fun _ h => by cases h

theorem Twice.item (x : K ⊕ V) : Twice d (dropItem d x) := fun s h => by
  unfold dropItem at h
  split at h <;> cases h

/-- Dropping while a panic is under way. -/
theorem Twice.unwind {f : M (World K V) Unit} {xs : List (K ⊕ V)} (hf : Burns d f xs)
    (h2 : Twice d f) (s : World K V) :
    (∃ s', (unwind f s : Out α × World K V) = (.panic, s') ∧ s'.dropped = s.dropped ++ xs ∧
      panicking d xs = 0) ∨
    (∃ ys s', (unwind f s : Out α × World K V) = (.abort, s') ∧ s'.dropped = s.dropped ++ ys ∧
      1 ≤ panicking d ys) := by
  obtain ⟨ys, zs, h3, h4, h5⟩ := hf s
  unfold Simple.unwind
  have h6 := h2 s
  rw [h5] at h6 ⊢
  rcases fate_cases (panicking d xs) with ⟨h7, h8⟩ | ⟨h7, h8⟩ | ⟨h7, h8⟩ <;> rw [h8] at h6 ⊢
  · obtain rfl := h4 (by omega)
    rw [List.append_nil] at h3
    subst h3
    exact .inl ⟨_, rfl, rfl, h7⟩
  · obtain rfl := h4 (by omega)
    rw [List.append_nil] at h3
    subst h3
    exact .inr ⟨_, _, rfl, rfl, by omega⟩
  · obtain ⟨y, h9, h10⟩ := h6 rfl
    exact .inr ⟨y, _, rfl, h9, by omega⟩

theorem Twice.both {f g : M (World K V) Unit} {xs ys : List (K ⊕ V)} (hf : Burns d f xs)
    (hg : Burns d g ys) (tf : Twice d f) (tg : Twice d g) : Twice d (both f g) := by
  intro s h
  unfold Simple.both at h ⊢
  obtain ⟨x1, x2, h1, h2, h3⟩ := hf s
  have h6 := tf s
  rcases fate_cases (panicking d xs) with ⟨h4, h5⟩ | ⟨h4, h5⟩ | ⟨h4, h5⟩
  · obtain rfl := h2 (by omega)
    rw [h5] at h3
    have ha : onPanic f g s = (.ok (), s.lost x1) := by unfold onPanic; rw [h3]
    rw [M.bind_ok ha] at h ⊢
    obtain ⟨y, h7, h8⟩ := tg _ h
    refine ⟨x1 ++ y, by rw [h7, lost_dropped, List.append_assoc], by rw [panicking_append]; omega⟩
  · obtain rfl := h2 (by omega)
    rw [List.append_nil] at h1
    subst h1
    rw [h5] at h3
    rcases tg.unwind (α := Unit) hg (s.lost xs) with ⟨s', h7, h8, h9⟩ | ⟨y, s', h7, h8, h9⟩
    · have ha : onPanic f g s = (.panic, s') := by unfold onPanic; rw [h3]; exact h7
      rw [M.bind_panic ha] at h; cases h
    · have ha : onPanic f g s = (.abort, s') := by unfold onPanic; rw [h3]; exact h7
      rw [M.bind_abort ha]
      exact ⟨xs ++ y, by rw [h8, lost_dropped, List.append_assoc], by rw [panicking_append]; omega⟩
  · rw [h5] at h3
    have ha : onPanic f g s = (.abort, s.lost x1) := by unfold onPanic; rw [h3]
    rw [M.bind_abort ha]
    rw [h3] at h6
    exact h6 rfl

theorem Twice.link (t : Link K V) : Twice d (dropLink d t) := by
  induction t with
  | nil => exact Twice.nil
  | node k v l r ihl ihr =>
    exact Twice.both (Burns.item _) ((Burns.item _).both ((Burns.link l).both (Burns.link r))) (Twice.item _)
      (Twice.both (Burns.item _) ((Burns.link l).both (Burns.link r)) (Twice.item _)
        (Twice.both (Burns.link l) (Burns.link r) ihl ihr))

theorem Twice.items (l : List (K × V)) : Twice d (dropItems d l) := by
  induction l with
  | nil => exact Twice.nil
  | cons e l ih =>
    exact Twice.both (Burns.item _) ((Burns.item _).both (Burns.items l)) (Twice.item _)
      (Twice.both (Burns.item _) (Burns.items l) (Twice.item _) ih)

/-- Why a call ends as it does: `N` = code of the user other than destructors may panic,
`A` = memory may be lacking. -/
def Hot (d : Drops K V) (N A : Prop) (s : World K V) : Out α × World K V → Prop
  | (.ok _, s') => ∃ ys, s'.dropped = s.dropped ++ ys ∧ panicking d ys = 0
  | (.panic, s') => ∃ ys, s'.dropped = s.dropped ++ ys ∧ ((N ∧ panicking d ys = 0) ∨ panicking d ys = 1)
  | (.abort, s') => ∃ ys, s'.dropped = s.dropped ++ ys ∧
      (A ∨ 2 ≤ panicking d ys ∨ (N ∧ 1 ≤ panicking d ys))
  | _ => False

variable {N A : Prop}

theorem Hot.after {s1 : World K V} {ys : List (K ⊕ V)} (h1 : s1.dropped = s.dropped ++ ys)
    (h2 : panicking d ys = 0) {r : Out α × World K V} (h : Hot d N A s1 r) : Hot d N A s r := by
  obtain ⟨o, s2⟩ := r
  cases o with
  | ok a =>
    obtain ⟨y, h3, h4⟩ := h
    exact ⟨ys ++ y, by rw [h3, h1, List.append_assoc], by rw [panicking_append]; omega⟩
  | panic =>
    obtain ⟨y, h3, h4⟩ := h
    exact ⟨ys ++ y, by rw [h3, h1, List.append_assoc], by rw [panicking_append, h2, Nat.zero_add]; exact h4⟩
  | abort =>
    obtain ⟨y, h3, h4⟩ := h
    exact ⟨ys ++ y, by rw [h3, h1, List.append_assoc], by rw [panicking_append, h2, Nat.zero_add]; exact h4⟩
  | ub => exact h
  | diverge => exact h

theorem Hot.bind {f : M (World K V) α} {g : α → M (World K V) β} (hf : Hot d N A s (f s))
    (hg : ∀ a s1, f s = (.ok a, s1) → Hot d N A s1 (g a s1)) : Hot d N A s ((f >>= g) s) := by
  rw [M.bind_apply]
  rcases he : f s with ⟨o, s1⟩
  rw [he] at hf
  cases o with
  | ok a =>
    obtain ⟨ys, h1, h2⟩ := hf
    exact Hot.after h1 h2 (hg a s1 he)
  | panic => exact hf
  | abort => exact hf
  | ub => exact hf
  | diverge => exact hf

theorem Hot.onPanic {f : M (World K V) α} {b : M (World K V) Unit} {J : List (K ⊕ V)}
    (hf : Hot d N A s (f s)) (hb : Burns d b J) (tb : Twice d b) : Hot d N A s (onPanic f b s) := by
  unfold Simple.onPanic
  rcases he : f s with ⟨o, s1⟩
  rw [he] at hf
  cases o with
  | panic =>
    obtain ⟨ys, h1, h2⟩ := hf
    dsimp only
    rcases tb.unwind (α := α) hb s1 with ⟨s', h7, h8, h9⟩ | ⟨y, s', h7, h8, h9⟩
    · rw [h7]
      refine ⟨ys ++ J, by rw [h8, h1, List.append_assoc], ?_⟩
      rw [panicking_append, h9]; exact h2
    · rw [h7]
      refine ⟨ys ++ y, by rw [h8, h1, List.append_assoc], .inr ?_⟩
      rw [panicking_append]
      exact h2.elim (fun h => .inr ⟨h.1, by omega⟩) fun h => .inl (by omega)
  | ok a => exact hf
  | abort => exact hf
  | ub => exact hf
  | diverge => exact hf

theorem Hot.drops {f : M (World K V) Unit} {xs : List (K ⊕ V)} (hf : Burns d f xs) (tf : Twice d f) :
    Hot d N A s (f s) := by
  obtain ⟨ys, zs, h3, h4, h5⟩ := hf s
  have h6 := tf s
  rw [h5] at h6 ⊢
  rcases fate_cases (panicking d xs) with ⟨h7, h8⟩ | ⟨h7, h8⟩ | ⟨h7, h8⟩ <;> rw [h8] at h6 ⊢
  · obtain rfl := h4 (by omega)
    rw [List.append_nil] at h3
    subst h3
    exact ⟨_, rfl, h7⟩
  · obtain rfl := h4 (by omega)
    rw [List.append_nil] at h3
    subst h3
    exact ⟨_, rfl, .inr (by omega)⟩
  · obtain ⟨y, h9, h10⟩ := h6 rfl
    exact ⟨y, h9, .inr (.inl h10)⟩

theorem Hot.keep {o : Out α} {m : Map K V} {ms : List (K ⊕ V)} (h : (∃ a, o = .ok a) ∨ (o = .panic ∧ N) ∨ (o = .abort ∧ A)) :
    Hot d N A s (o, { s with map := m, made := ms }) := by
  rcases h with ⟨a, rfl⟩ | ⟨rfl, h⟩ | ⟨rfl, h⟩
  · exact ⟨[], by simp, rfl⟩
  · exact ⟨[], by simp, .inl ⟨h, rfl⟩⟩
  · exact ⟨[], by simp, .inl h⟩

theorem returning_hot (r : V) (k : K) : Hot d N A s (returning d r (dropItem d (.inl k)) s) := by
  have ha : dropItem d (.inl k) s = (if d.key k then .panic else .ok (), s.lost [.inl k]) := rfl
  unfold returning
  rw [ha]
  cases hk : d.key k with
  | false => exact ⟨[.inl k], rfl, by simp [panicking, hk]⟩
  | true =>
    have h1 : panicking d [(.inl k : K ⊕ V)] = 1 := by simp [panicking, hk]
    simp only [if_true]
    split
    · rcases (Twice.item (d := d) (.inr r : K ⊕ V)).unwind (α := Unit) (Burns.item _) (s.lost [.inl k]) with
        ⟨s', h7, h8, h9⟩ | ⟨y, s', h7, h8, h9⟩
      · rw [h7]
        exact ⟨[.inl k] ++ [.inr r], by rw [h8, lost_dropped, List.append_assoc],
          .inr (by rw [panicking_append]; omega)⟩
      · rw [h7]
        exact ⟨[.inl k] ++ y, by rw [h8, lost_dropped, List.append_assoc],
          .inr (.inl (by rw [panicking_append]; omega))⟩
    · exact ⟨[.inl k], rfl, .inr (by omega)⟩

theorem insert_hot {cfg : Cfg} (he : 2 ≤ cfg.esize) (hw : Wf s.map) (c : Probe K) (k : K) (v : V)
    (hN : Panics c → N) (hA : ¬ Plenty cfg s.map.root.size → A) : Hot d N A s (insert cfg d c k v s) := by
  unfold insert
  refine Hot.bind (Hot.onPanic ?_ ((Burns.item _).both (Burns.item _))
    (Twice.both (Burns.item _) (Burns.item _) (Twice.item _) (Twice.item _))) fun e s1 _ => ?_
  · rcases Map.insert_spec he c k v s.map hw with ⟨h1, h2⟩ | ⟨e, a, n, h1, h2, h3⟩ | ⟨h1, h2, h3⟩
    · rw [onMap_eq h2]; exact Hot.keep (.inr (.inl ⟨rfl, hN (Link.find_panics h1)⟩))
    · rw [onMap_eq h2]; exact Hot.keep (.inl ⟨_, rfl⟩)
    · rw [onMap_eq h2]; exact Hot.keep (.inr (.inr ⟨rfl, hA h3⟩))
  · cases e with
    | none => exact ⟨[], (List.append_nil _).symm, rfl⟩
    | some e =>
      refine Hot.bind (returning_hot e k) fun _ s2 _ => ⟨[], (List.append_nil _).symm, rfl⟩

theorem remove_hot {cfg : Cfg} (hw : Wf s.map) (c : Probe K)
    (hN : Panics c → N) (hA : ¬ Plenty cfg s.map.root.size → A) : Hot d N A s (remove cfg d c s) := by
  unfold remove
  refine Hot.bind ?_ fun e s1 _ => ?_
  · rcases Map.removeEntry_spec cfg c s.map hw with ⟨h1, h2⟩ | ⟨e, a, n, h1, h2, h3⟩ | ⟨m', h2, h3⟩
    · rw [onMap_eq h2]; exact Hot.keep (.inr (.inl ⟨rfl, hN (Link.find_panics h1)⟩))
    · rw [onMap_eq h2]; exact Hot.keep (.inl ⟨_, rfl⟩)
    · rw [onMap_eq h2]; exact Hot.keep (.inr (.inr ⟨rfl, hA h3⟩))
  · cases e with
    | none => exact ⟨[], (List.append_nil _).symm, rfl⟩
    | some e => exact Hot.bind (returning_hot e.2 e.1) fun _ s2 _ => ⟨[], (List.append_nil _).symm, rfl⟩

theorem insertStmt_hot {cfg : Cfg} (he : 2 ≤ cfg.esize) (hw : Wf s.map) (c : Probe K) (k : K) (v : V)
    (hN : Panics c → N) (hA : ¬ Plenty cfg s.map.root.size → A) :
    Hot d N A s (insertStmt cfg d c k v s) := by
  unfold insertStmt
  refine Hot.bind (insert_hot he hw c k v hN hA) fun e s1 _ => ?_
  cases e with
  | none => exact ⟨[], (List.append_nil _).symm, rfl⟩
  | some e => exact Hot.drops (Burns.item _) (Twice.item _)

/-- A statement `insert` that returns leaves a right `len` and at most one more node. -/
theorem insertStmt_size {cfg : Cfg} (he : 2 ≤ cfg.esize) (hw : Wf s.map) (c : Probe K) (k : K) (v : V)
    {a : Unit} (h : insertStmt cfg d c k v s = (.ok a, s')) :
    Wf s'.map ∧ s'.map.root.size ≤ s.map.root.size + 1 := by
  unfold insertStmt at h
  rcases insert_cases (d := d) he hw c k v with ⟨h1, s1, h2, h3⟩ | ⟨h1, s1, h2, h3, h4⟩ |
    ⟨e, s1, h1, h2, h3, h4⟩ | ⟨h1, h4, h5⟩
  · cases hx : d.key k || d.value v <;> rw [hx] at h3
    · rw [M.bind_panic h3] at h; cases h
    · rw [M.bind_abort h3] at h; cases h
  · rw [M.bind_ok h4] at h
    cases h
    have := Link.ins_size h1 k v
    rw [h3]
    refine ⟨h2, ?_⟩
    split at this <;> omega
  · cases hk : d.key k <;> rw [hk] at h4
    · rw [M.bind_ok h4] at h
      have hh : s' = s1.lost [.inr e.2] := (congrArg Prod.snd h).symm
      subst hh
      rw [lost_map, h3]
      refine ⟨h2, ?_⟩
      have := Link.ins_size h1 k v
      split at this <;> omega
    · cases hx : d.ret && d.value e.2 <;> rw [hx] at h4
      · rw [M.bind_panic h4] at h; cases h
      · rw [M.bind_abort h4] at h; cases h
  · rw [M.bind_abort h4] at h; cases h

theorem insertAll_hot {cfg : Cfg} (he : 2 ≤ cfg.esize) (cmps : Nat → K → Probe K) (l : List (K × V))
    (n : Nat) (hw : Wf s.map) (hN : (∃ n k, Panics (cmps n k)) → N)
    (hA : ¬ Plenty cfg (s.map.root.size + l.length) → A) :
    Hot d N A s (insertAll cfg d cmps n l s) := by
  induction l generalizing n s with
  | nil => exact ⟨[], (List.append_nil _).symm, rfl⟩
  | cons e l ih =>
    obtain ⟨k, v⟩ := e
    refine Hot.bind (Hot.onPanic (insertStmt_hot he hw (cmps n k) k v (fun h => hN ⟨n, k, h⟩)
      fun h => hA fun hp => h (hp.mono (by omega))) (Burns.items l) (Twice.items l)) fun _ s1 h1 => ?_
    have h2 : insertStmt cfg d (cmps n k) k v s = (.ok (), s1) := by
      unfold Simple.onPanic at h1
      rcases hu : insertStmt cfg d (cmps n k) k v s with ⟨o, s2⟩
      rw [hu] at h1
      cases o with
      | panic =>
        dsimp only at h1
        rcases (Twice.items (d := d) l).unwind (α := Unit) (Burns.items l) s2 with ⟨s', h7, _⟩ | ⟨y, s', h7, _⟩ <;>
          rw [h7] at h1 <;> cases h1
      | ok a => exact h1
      | abort => cases h1
      | ub => cases h1
      | diverge => cases h1
    obtain ⟨h3, h4⟩ := insertStmt_size he hw _ _ _ h2
    exact ih (n + 1) h3 fun h => hA fun hp => h (hp.mono (by rw [List.length_cons]; omega))

theorem extend_hot {cfg : Cfg} (he : 2 ≤ cfg.esize) (cmps : Nat → K → Probe K)
    (src : BSTMap.Source K V) (hw : Wf s.map) (hN : (∃ n k, Panics (cmps n k)) → N)
    (hp : src.panics = true → N) (hA : ¬ Plenty cfg (s.map.root.size + src.items.length) → A) :
    Hot d N A s (extend cfg d cmps src s) := by
  unfold extend
  refine Hot.bind (insertAll_hot he cmps src.items 0 hw hN hA) fun _ s1 _ => ?_
  split
  · rename_i h
    exact ⟨[], (List.append_nil _).symm, .inl ⟨hp h, rfl⟩⟩
  · exact ⟨[], (List.append_nil _).symm, rfl⟩

theorem building_hot {f : M (World K V) Unit} (hf : Hot d N A s.fresh (f s.fresh)) :
    Hot d N A s (building d f s) := by
  unfold building
  rw [show ({ s with map := { Map.new with allocs := s.map.allocs } } : World K V) = s.fresh from rfl]
  rcases hu : f s.fresh with ⟨o, s1⟩
  rw [hu] at hf
  dsimp only
  have hl : Hot d N A s ((M.lift (match o with
        | .ok () => .ok s1.map
        | .panic => .panic
        | .abort => .abort
        | .ub => .ub
        | .diverge => .diverge) : M (World K V) (Map K V))
        { s1 with map := { s.map with allocs := s1.map.allocs } }) := by
    cases o <;> exact hf
  cases o with
  | panic =>
    obtain ⟨ys, h1, h2⟩ := hf
    show Hot d N A s (Simple.unwind (dropLink d s1.map.root) { s1 with map := { s.map with allocs := s1.map.allocs } })
    rcases (Twice.link (d := d) s1.map.root).unwind (α := Map K V) (Burns.link _)
      { s1 with map := { s.map with allocs := s1.map.allocs } } with ⟨s', h7, h8, h9⟩ | ⟨y, s', h7, h8, h9⟩
    · rw [h7]
      refine ⟨ys ++ s1.map.root.items, ?_, ?_⟩
      · rw [h8]; show s1.dropped ++ _ = _; rw [h1, ← List.append_assoc]; rfl
      · rw [panicking_append, h9]; exact h2
    · rw [h7]
      refine ⟨ys ++ y, ?_, .inr ?_⟩
      · rw [h8]; show s1.dropped ++ _ = _; rw [h1, ← List.append_assoc]; rfl
      · rw [panicking_append]
        exact h2.elim (fun h => .inr ⟨h.1, by omega⟩) fun h => .inl (by omega)
  | ok a => exact hl
  | abort => exact hl
  | ub => exact hl
  | diverge => exact hl

theorem assign_hot {f : M (World K V) (Map K V)} (hf : Hot d N A s (f s)) : Hot d N A s (assign d f s) := by
  unfold assign
  refine hf.bind fun m s1 _ => ?_
  rw [M.get_bind, M.modify_bind]
  have := Hot.drops (N := N) (A := A) (s := { s1 with map := m }) (Burns.link (d := d) s1.map.root) (Twice.link _)
  exact Hot.after (s := s1) (ys := []) (s1 := { s1 with map := m }) (by simp) rfl this

theorem cloneLink_hot {cfg : Cfg} (ck : K → Option K) (cv : V → Option V) (t : Link K V)
    (boxed : Bool) (hk : (∃ k, ck k = none) → N) (hv : (∃ v, cv v = none) → N)
    (hA : (¬ ∀ i n, cfg.allocOk i n = true) → A) :
    Hot d N A s (cloneLink cfg d ck cv boxed t s) := by
  have hwith : ∀ {γ : Type} (f : γ → Option γ) (inj : γ → K ⊕ V) (x : γ) (s : World K V),
      ((∃ x, f x = none) → N) → Hot d N A s (cloneWith f inj x s) := by
    intro γ f inj x s h
    unfold cloneWith
    cases hx : f x with
    | none => exact ⟨[], by simp, .inl ⟨h ⟨x, hx⟩, rfl⟩⟩
    | some y => exact ⟨[], by simp, rfl⟩
  induction t generalizing boxed s with
  | nil => exact ⟨[], (List.append_nil _).symm, rfl⟩
  | node k v l r ihl ihr =>
    unfold cloneLink
    refine Hot.bind ?_ fun _ s1 _ => Hot.bind (hwith ck .inl k s1 hk) fun k' s2 _ =>
      Hot.bind (Hot.onPanic (hwith cv .inr v s2 hv) (Burns.item _) (Twice.item _)) fun v' s3 _ =>
      Hot.bind (Hot.onPanic (ihl true) ((Burns.item _).both (Burns.item _))
        (Twice.both (Burns.item _) (Burns.item _) (Twice.item _) (Twice.item _))) fun l' s4 _ =>
      Hot.bind (Hot.onPanic (ihr true) ((Burns.link _).both ((Burns.item _).both (Burns.item _)))
        (Twice.both (Burns.link _) ((Burns.item _).both (Burns.item _)) (Twice.link _)
          (Twice.both (Burns.item _) (Burns.item _) (Twice.item _) (Twice.item _)))) fun r' s5 _ =>
      ⟨[], (List.append_nil _).symm, rfl⟩
    unfold cloneBox
    rcases Map.cloneBox_cases cfg boxed s.map.allocs with ⟨b, h⟩ | ⟨h, hn⟩
    · rw [h]; exact ⟨[], by simp, rfl⟩
    · rw [h]; exact ⟨[], by simp, .inl (hA hn)⟩

theorem runDrop_hot {cfg : Cfg} (he : 2 ≤ cfg.esize) (cmp : K → K → Ordering) (op : SimpleOp K V)
    (hw : Wf s.map) :
    Hot d (¬ op.Quiet) (op.Allocates ∧ ¬ Plenty cfg (s.map.root.size + (op.twin cmp).demand)) s
      (op.runDrop cfg d s) := by
  have one : ∀ {γ : Type} {N A : Prop} (f : γ → Ret K V) (s : World K V) (a : γ),
      Hot d N A s ((pure (f a) : M (World K V) (Ret K V)) s) :=
    fun f s a => ⟨[], (List.append_nil _).symm, rfl⟩
  have other : ∀ op : SimpleOp K V, Hot d (¬ op.Quiet)
      (op.Allocates ∧ ¬ Plenty cfg (s.map.root.size + (op.twin cmp).demand)) s (onMap (op.run cfg) s) := by
    intro op
    obtain ⟨o, m1, h1, ⟨h2, hw1⟩ | ⟨rfl, h2, h3⟩⟩ := Simple.run_sem he cmp hw op
    · obtain ⟨h4, _⟩ := Simple.sem_cases cmp _ h2.symm
      rw [onMap_eq h1]
      exact Hot.keep (h4.imp id fun h => .inl h)
    · rw [onMap_eq h1]
      exact Hot.keep (.inr (.inr ⟨rfl, h2, h3⟩))
  cases op with
  | collect cmps src =>
    refine Hot.bind (assign_hot (building_hot (extend_hot he cmps src rfl ?_ ?_ ?_))) fun _ s1 _ =>
      one (fun _ => .unit) s1 ()
    · rintro ⟨n, k, h⟩ hq
      exact hq.1 n k h
    · intro h hq
      rw [hq.2] at h; cases h
    · refine fun h => ⟨trivial, fun hp => h (hp.mono ?_)⟩
      show 0 + _ ≤ _ + (_ + _)
      omega
  | cloned ck cv =>
    unfold SimpleOp.runDrop
    refine Hot.bind (assign_hot ?_) fun _ s1 _ => one (fun _ => .unit) s1 ()
    unfold clone
    rw [M.get_bind]
    refine Hot.bind (cloneLink_hot ck cv s.map.root false ?_ ?_ ?_) fun u s1 _ => ?_
    · rintro ⟨k, h⟩ hq
      exact hq.2.1 k h
    · rintro ⟨v, h⟩ hq
      exact hq.2.2 v h
    · exact fun h => ⟨trivial, fun hp => h hp.2⟩
    · exact ⟨[], (List.append_nil _).symm, rfl⟩
  | clear =>
    exact Hot.bind (f := clear d) (assign_hot ⟨[], (List.append_nil _).symm, rfl⟩)
      fun _ s1 _ => one (fun _ => .unit) s1 ()
  | extend cmps src =>
    refine Hot.bind (extend_hot he cmps src hw ?_ ?_ ?_) fun _ s1 _ => one (fun _ => .unit) s1 ()
    · rintro ⟨n, k, h⟩ hq
      exact hq.1 n k h
    · intro h hq
      rw [hq.2] at h; cases h
    · refine fun h => ⟨trivial, fun hp => h (hp.mono ?_)⟩
      show _ ≤ _ + (_ + _)
      omega
  | insert c k v =>
    refine Hot.bind (insert_hot he hw c k v (fun h hq => hq h) ?_) fun r s1 _ => one .value s1 r
    exact fun h => ⟨trivial, fun hp => h (hp.mono (Nat.le_add_right _ _))⟩
  | remove c =>
    refine Hot.bind (remove_hot hw c (fun h hq => hq h) ?_) fun r s1 _ => one .value s1 r
    exact fun h => ⟨trivial, fun hp => h (hp.mono (Nat.le_add_right _ _))⟩
  | _ => exact other _
end World
end BST.Simple

namespace BST
instance {α β : Type} [DecidableEq α] [DecidableEq β] : LawfulBEq (α ⊕ β) where
  rfl {a} := match a with
    | .inl x => beq_self_eq_true (α := α) x
    | .inr x => beq_self_eq_true (α := β) x
  eq_of_beq {a b} h := by
    cases a <;> cases b <;> first | exact congrArg _ (eq_of_beq h) | exact Bool.noConfusion h

/-- Counts that are at most those of another list. -/
theorem perm_of_count_le {α : Type} [BEq α] [LawfulBEq α] {l m : List α} (h : ∀ x, l.count x ≤ m.count x) :
    ∃ r, m.Perm (l ++ r) := by
  induction l generalizing m with
  | nil => exact ⟨m, .refl _⟩
  | cons a l ih =>
    have ha : a ∈ m := by
      have := h a
      rw [List.count_cons_self] at this
      exact List.count_pos_iff.1 (by omega)
    obtain ⟨r, hr⟩ := ih (m := m.erase a) fun x => by
      have := h x
      rw [List.count_cons] at this
      rw [List.count_erase]
      split at this <;> simp_all <;> omega
    exact ⟨r, (List.perm_cons_erase ha).trans (hr.cons a)⟩

end BST
