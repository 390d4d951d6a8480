import Verif.Proofs.MapWorld
import Verif.Proofs.SimpleHot
/-!
# Destructors in `bst`: why a call panics or aborts
-/
set_option linter.unusedSimpArgs false
namespace BST
open BSTMap Tree
open Spec (panicking)
variable {K V α β : Type}

namespace BSTMap.World
open Simple (Drops)
variable {cfg : Cfg} {d : Drops K V} {s : World K V}

theorem panicking_append (xs ys : List (K ⊕ V)) : panicking d (xs ++ ys) = panicking d xs + panicking d ys :=
  List.countP_append ..

/-- What the call `g` without destructors has to do with the result `r` of the call with them. -/
def Tie (cfg : Cfg) (d : Drops K V) (s : World K V) (g : M (BSTMap K V) α) (r : Out α × World K V) : Prop :=
  ∃ ys, r.2.dropped = s.dropped ++ ys ∧ match r.1 with
    | .ok a => panicking d ys = 0 ∧ g s.map = (.ok a, r.2.map) ∧ Valid cfg r.2.map
    | .panic => (panicking d ys = 1 ∨ panicking d ys = 0 ∧ g s.map = (.panic, r.2.map)) ∧ Valid cfg r.2.map
    | .abort => 2 ≤ panicking d ys ∨ (1 ≤ panicking d ys ∧ ∀ a, (g s.map).1 ≠ .ok a) ∨ (g s.map).1 = .abort
    | _ => False

theorem Tie.bind {f : M (World K V) α} {g : M (BSTMap K V) α} {f' : α → M (World K V) β}
    {g' : α → M (BSTMap K V) β} (h : Tie cfg d s g (f s))
    (h' : ∀ a s1, f s = (.ok a, s1) → Valid cfg s1.map → Tie cfg d s1 (g' a) (f' a s1)) :
    Tie cfg d s (g >>= g') ((f >>= f') s) := by
  rw [M.bind_apply]
  rcases he : f s with ⟨o, s1⟩
  rw [he] at h
  obtain ⟨ys, h1, h2⟩ := h
  dsimp only at h1
  cases o with
  | ok a =>
    obtain ⟨h2, h3, h4⟩ := h2
    obtain ⟨zs, g1, g2⟩ := h' a s1 he h4
    refine ⟨ys ++ zs, by dsimp only; rw [g1, h1, List.append_assoc], ?_⟩
    dsimp only at g2 h3 ⊢
    have hb : (g >>= g') s.map = g' a s1.map := M.bind_ok h3
    rw [hb, panicking_append, h2, Nat.zero_add]
    exact g2
  | panic =>
    obtain ⟨h2, h3⟩ := h2
    refine ⟨ys, h1, ?_, h3⟩
    exact h2.imp id fun h => ⟨h.1, M.bind_panic h.2⟩
  | abort =>
    refine ⟨ys, h1, ?_⟩
    dsimp only at h2 ⊢
    refine h2.imp id (Or.imp (fun h => ⟨h.1, fun b => ?_⟩) fun h => ?_)
    · rw [M.bind_apply]
      rcases hg : g s.map with ⟨o, m⟩
      rw [hg] at h
      cases o with
      | ok a => exact absurd rfl (h.2 a)
      | _ => simp
    · rw [M.bind_apply]
      rcases hg : g s.map with ⟨o, m⟩
      rw [hg] at h
      dsimp only at h
      subst h
      rfl
  | ub => exact h2.elim
  | diverge => exact h2.elim

theorem Tie.pure (hw : Valid cfg s.map) (a : α) :
    Tie cfg d s (Pure.pure a) ((Pure.pure a : M (World K V) α) s) :=
  ⟨[], by simp [M.pure_apply], rfl, rfl, hw⟩

theorem Tie.panic (hw : Valid cfg s.map) : Tie cfg d s M.panic ((M.panic : M (World K V) α) s) :=
  ⟨[], by simp [M.panic], .inr ⟨rfl, rfl⟩, hw⟩

theorem Tie.onMap {f : M (BSTMap K V) α} {o : Out α} {m : BSTMap K V} (h : f s.map = (o, m)) (ho : o.Safe)
    (hw : Valid cfg m) (hd : m.nodes.dropped = s.map.nodes.dropped) : Tie cfg d s f (onMap f s) := by
  rw [onMap_eq h, gone_nil hd]
  refine ⟨[], rfl, ?_⟩
  cases o with
  | ok a => exact ⟨rfl, h, hw⟩
  | panic => exact ⟨.inr ⟨rfl, h⟩, hw⟩
  | abort => exact .inr (.inr (by rw [h]))
  | ub => exact ho
  | diverge => exact ho

/-- `b` runs destructors. -/
def Dtor (d : Drops K V) (b : M (World K V) Unit) : Prop :=
  ∀ s, ∃ ys, (b s).2.dropped = s.dropped ++ ys ∧ (b s).2.map = s.map ∧ match (b s).1 with
    | .ok _ => panicking d ys = 0
    | .panic => panicking d ys = 1
    | .abort => 2 ≤ panicking d ys
    | _ => False

theorem Dtor.nil : Dtor d (Pure.pure ()) := fun s => ⟨[], by simp [M.pure_apply], rfl, rfl⟩

theorem Dtor.item (x : K ⊕ V) : Dtor d (dropItem d x) := by
  intro s
  refine ⟨[x], rfl, rfl, ?_⟩
  unfold dropItem
  dsimp only
  cases hx : x.elim d.key d.value <;> simp [panicking, hx]

theorem Dtor.unwind {b : M (World K V) Unit} (h : Dtor d b) (s : World K V) :
    ∃ ys, (Simple.unwind b s : Out α × World K V).2.dropped = s.dropped ++ ys ∧
      (Simple.unwind b s : Out α × World K V).2.map = s.map ∧
      ((Simple.unwind b s : Out α × World K V).1 = .panic ∧ panicking d ys = 0 ∨
       (Simple.unwind b s : Out α × World K V).1 = .abort ∧ 1 ≤ panicking d ys) := by
  obtain ⟨ys, h1, h2, h3⟩ := h s
  unfold Simple.unwind
  rcases he : b s with ⟨o, s1⟩
  rw [he] at h1 h2 h3
  cases o with
  | ok a => exact ⟨ys, h1, h2, .inl ⟨rfl, h3⟩⟩
  | panic => exact ⟨ys, h1, h2, .inr ⟨rfl, by dsimp only at h3; omega⟩⟩
  | abort => exact ⟨ys, h1, h2, .inr ⟨rfl, by dsimp only at h3; omega⟩⟩
  | ub => exact h3.elim
  | diverge => exact h3.elim

theorem Dtor.both {a b : M (World K V) Unit} (ha : Dtor d a) (hb : Dtor d b) : Dtor d (Simple.both a b) := by
  intro s
  obtain ⟨ys, h1, h2, h3⟩ := ha s
  unfold Simple.both
  rcases he : a s with ⟨o, s1⟩
  rw [he] at h1 h2 h3
  dsimp only at h1 h2
  cases o with
  | ok x =>
    rw [M.bind_ok (onPanic_other he (by simp))]
    obtain ⟨zs, g1, g2, g3⟩ := hb s1
    refine ⟨ys ++ zs, by rw [g1, h1, List.append_assoc], g2.trans h2, ?_⟩
    dsimp only at h3
    rw [panicking_append, h3, Nat.zero_add]
    exact g3
  | panic =>
    have hp := onPanic_panic (b := b) he
    obtain ⟨zs, g1, g2, g3⟩ := hb.unwind (α := Unit) s1
    dsimp only at h3
    rcases hu : (Simple.unwind b s1 : Out Unit × World K V) with ⟨o, s2⟩
    rw [hu] at g1 g2 g3 hp
    rcases g3 with ⟨g3, g4⟩ | ⟨g3, g4⟩ <;> (dsimp only at g3; subst g3)
    · rw [M.bind_panic hp]
      exact ⟨ys ++ zs, by rw [g1, h1, List.append_assoc], g2.trans h2, by dsimp only; rw [panicking_append]; omega⟩
    · rw [M.bind_abort hp]
      exact ⟨ys ++ zs, by rw [g1, h1, List.append_assoc], g2.trans h2, by dsimp only; rw [panicking_append]; omega⟩
  | abort =>
    rw [M.bind_abort (onPanic_other he (by simp))]
    exact ⟨ys, h1, h2, h3⟩
  | ub => exact h3.elim
  | diverge => exact h3.elim

theorem Dtor.items (l : List (K × V)) : Dtor d (dropItems d l) := by
  induction l with
  | nil => exact Dtor.nil
  | cons e l ih => exact (Dtor.item _).both ((Dtor.item _).both ih)

theorem Dtor.map {m : BSTMap K V} (hm : Valid cfg m) : Dtor d (dropMap cfg d m) := by
  intro s
  obtain ⟨t, h⟩ := hm
  obtain ⟨o, s', l, rest, h1, h2, _, h3, h4⟩ := dropMap_spec h d s
  have h0 : panicking d (itemsOf l) = 0 := by
    unfold panicking itemsOf
    rw [List.countP_eq_zero]
    intro x hx
    obtain ⟨e, he, hx⟩ := List.mem_flatMap.1 hx
    have := h3 e he
    rcases List.mem_cons.1 hx with rfl | hx
    · simp [this.1]
    · rw [List.mem_singleton.1 hx]; simp [this.2]
  rw [h1]
  cases rest with
  | nil =>
    obtain ⟨rfl, h4⟩ := h4
    exact ⟨itemsOf l, h4, h2, h0⟩
  | cons e rest =>
    obtain ⟨h4, h5, rfl⟩ := h4
    refine ⟨itemsOf (l ++ [e]), h5, h2, ?_⟩
    have : panicking d (itemsOf (l ++ [e])) = panicking d [.inl e.1, .inr e.2] := by
      have : itemsOf (l ++ [e]) = itemsOf l ++ [.inl e.1, .inr e.2] := by
        unfold itemsOf; rw [List.flatMap_append]; rfl
      rw [this, panicking_append, h0, Nat.zero_add]
    rw [this]
    cases hk : d.key e.1 <;> cases hv : d.value e.2 <;>
      simp [panicking, hk, hv, List.countP_cons] at h4 ⊢

theorem Tie.onPanic {f : M (World K V) α} {g : M (BSTMap K V) α} {b : M (World K V) Unit}
    (h : Tie cfg d s g (f s)) (hb : Dtor d b) : Tie cfg d s g (Simple.onPanic f b s) := by
  rcases he : f s with ⟨o, s1⟩
  rw [he] at h
  by_cases ho : o = .panic
  · subst ho
    rw [onPanic_panic he]
    obtain ⟨ys, h1, h2, h3⟩ := h
    obtain ⟨zs, g1, g2, g3⟩ := hb.unwind (α := α) s1
    rcases hu : (Simple.unwind b s1 : Out α × World K V) with ⟨o, s2⟩
    rw [hu] at g1 g2 g3
    dsimp only at *
    refine ⟨ys ++ zs, by dsimp only; rw [g1, h1, List.append_assoc], ?_⟩
    rcases g3 with ⟨rfl, g4⟩ | ⟨rfl, g4⟩ <;> dsimp only <;> rw [panicking_append]
    · rw [g4, g2, Nat.add_zero]
      exact ⟨h2, h3⟩
    · rcases h2 with h2 | ⟨h2, h4⟩
      · left; omega
      · right; left
        refine ⟨by omega, fun a => ?_⟩
        rw [h4]; simp
  · rw [onPanic_other he ho]; exact h

theorem Tie.dtor {g : M (BSTMap K V) Unit} {b : M (World K V) Unit} (hb : Dtor d b)
    (hg : g s.map = (.ok (), s.map)) (hw : Valid cfg s.map) : Tie cfg d s g (b s) := by
  obtain ⟨ys, h1, h2, h3⟩ := hb s
  refine ⟨ys, h1, ?_⟩
  rcases he : b s with ⟨o, s1⟩
  rw [he] at h2 h3
  dsimp only at h2
  cases o with
  | ok a => exact ⟨h3, by rw [hg]; exact Prod.ext rfl h2.symm, by rw [h2]; exact hw⟩
  | panic => exact ⟨.inl h3, by rw [h2]; exact hw⟩
  | abort => exact .inl h3
  | ub => exact h3
  | diverge => exact h3

theorem returning_dtor (r : V) (k : K) : Dtor d (returning d r (dropItem d (.inl k))) := by
  intro s
  have ha : dropItem d (.inl k) s = (if d.key k then .panic else .ok (),
    { s with dropped := s.dropped ++ [.inl k] }) := rfl
  unfold returning
  rw [ha]
  cases hk : d.key k with
  | false => exact ⟨[.inl k], rfl, rfl, by simp [panicking, hk]⟩
  | true =>
    have hn : panicking d [(.inl k : K ⊕ V)] = 1 := by simp [panicking, hk]
    simp only [if_true]
    split
    · obtain ⟨ys, h1, h2, h3⟩ := (Dtor.item (d := d) (.inr r)).unwind (α := Unit)
        { s with dropped := s.dropped ++ [.inl k] }
      refine ⟨[.inl k] ++ ys, by rw [h1, List.append_assoc], h2, ?_⟩
      rw [panicking_append, hn]
      rcases h3 with ⟨h3, h4⟩ | ⟨h3, h4⟩ <;> rw [h3] <;> dsimp only <;> omega
    · exact ⟨[.inl k], rfl, rfl, hn⟩

theorem insert_tie (hw : Valid cfg s.map) (c : Probe K) (k : K) (v : V) :
    Tie cfg d s (BSTMap.insert cfg c k v) (World.insert cfg d c k v s) := by
  have h1 : Tie cfg d s (BSTMap.insert cfg c k v) (Simple.onPanic (World.onMap (BSTMap.insert cfg c k v))
      (Simple.both (dropItem d (.inr v)) (dropItem d (.inl k))) s) := by
    refine Tie.onPanic ?_ ((Dtor.item _).both (Dtor.item _))
    obtain ⟨t, h⟩ := hw
    rcases BST.insert_cases h c k v with ⟨e, p, m', hf, h1, h2, h3, _⟩ | ⟨o, h1, h2⟩
    · exact Tie.onMap h1 trivial ⟨_, h2⟩ h3
    · refine Tie.onMap h1 ?_ ⟨t, h⟩ rfl
      rcases h2 with ⟨rfl, _⟩ | ⟨rfl | rfl, _⟩ <;> trivial
  have h2 := Tie.bind (f' := fun old => match old with
    | none => (Pure.pure none : M (World K V) (Option V))
    | some prev => do
      returning d prev (dropItem d (.inl k))
      Pure.pure (some prev)) (g' := fun old => Pure.pure old) h1 fun a s1 _ hw1 => by
      cases a with
      | none => exact Tie.pure hw1 none
      | some prev =>
        have := Tie.bind (g := Pure.pure ()) (g' := fun _ => Pure.pure (some prev))
          (f' := fun _ => Pure.pure (some prev)) (Tie.dtor (d := d) (returning_dtor prev k) rfl hw1)
          fun _ s2 _ hw2 => Tie.pure hw2 (some prev)
        exact this
  rw [show (BSTMap.insert cfg c k v >>= fun old => Pure.pure old) = BSTMap.insert cfg c k v from
    bind_pure _] at h2
  exact h2

theorem remove_tie (hw : Valid cfg s.map) (c : Probe K) :
    Tie cfg d s (BSTMap.remove cfg c) (World.remove cfg d c s) := by
  unfold World.remove BSTMap.remove
  refine Tie.bind ?_ fun e s1 _ hw1 => ?_
  · obtain ⟨t, h⟩ := hw
    rcases removeEntry_account h c with ⟨e, m, hf, h1, h2, h3⟩ | ⟨_, h1⟩
    · exact Tie.onMap h1 trivial ⟨_, h2⟩ h3
    · exact Tie.onMap h1 trivial ⟨_, h⟩ rfl
  · cases e with
    | none => exact Tie.pure hw1 none
    | some e =>
      have := Tie.bind (g := Pure.pure ()) (g' := fun _ => Pure.pure (some e.2))
        (f' := fun _ => Pure.pure (some e.2)) (Tie.dtor (d := d) (returning_dtor e.2 e.1) rfl hw1)
        fun _ s2 _ hw2 => Tie.pure hw2 (some e.2)
      exact this

theorem insertStmt_tie (hw : Valid cfg s.map) (c : Probe K) (k : K) (v : V) :
    Tie cfg d s (do let _ ← BSTMap.insert cfg c k v; Pure.pure ()) (World.insertStmt cfg d c k v s) := by
  unfold World.insertStmt
  refine Tie.bind (insert_tie hw c k v) fun old s1 _ hw1 => ?_
  cases old with
  | none => exact Tie.pure hw1 ()
  | some v => exact Tie.dtor (Dtor.item _) rfl hw1

theorem insertAll_tie (cmps : Nat → K → Probe K) (l : List (K × V)) (n : Nat) (hw : Valid cfg s.map) :
    Tie cfg d s (BSTMap.insertAll cfg cmps n l) (World.insertAll cfg d cmps n l s) := by
  induction l generalizing n s with
  | nil => exact Tie.pure hw ()
  | cons e l ih =>
    have := Tie.bind (f' := fun _ => World.insertAll cfg d cmps (n + 1) l)
      (g' := fun _ => BSTMap.insertAll cfg cmps (n + 1) l)
      (Tie.onPanic (insertStmt_tie (d := d) hw (cmps n e.1) e.1 e.2) (Dtor.items l))
      fun _ s1 _ hw1 => ih (n + 1) hw1
    rw [bind_assoc] at this
    exact this

theorem tail_tie (b : Bool) (hw : Valid cfg s.map) : Tie cfg d s (if b then M.panic else Pure.pure ())
    ((if b then M.panic else Pure.pure () : M (World K V) Unit) s) := by
  cases b
  · exact Tie.pure hw ()
  · exact Tie.panic hw

theorem grow_tie (n : Nat) (hw : Valid cfg s.map) :
    Tie cfg d s (BSTMap.onNodes (Slab.onItems (Arena.growTo cfg n)))
      (World.onMap (BSTMap.onNodes (Slab.onItems (Arena.growTo cfg n))) s) := by
  obtain ⟨t, h⟩ := hw
  obtain ⟨o, m, h1, h2, _, h3⟩ := grow_spec h n
  refine Tie.onMap h1 ?_ ⟨t, h2.shape⟩ h2.dropped
  rcases h3 with ⟨rfl, _⟩ | ⟨_, rfl | rfl, _⟩ <;> trivial

theorem extend_tie (cmps : Nat → K → Probe K) (src : Source K V) (hw : Valid cfg s.map) :
    Tie cfg d s (BSTMap.extend cfg cmps src) (World.extend cfg d cmps src s) := by
  refine Tie.bind (Tie.onPanic ?_ (Dtor.items src.items)) fun _ s1 _ hw1 =>
    Tie.bind (insertAll_tie cmps src.items 0 hw1) fun _ s2 _ hw2 => tail_tie src.panics hw2
  obtain ⟨t, h⟩ := hw
  obtain ⟨o, m, h1, h2, h3⟩ := reserve_kept h (src.hint.2.getD src.hint.1)
  exact Tie.onMap h1 h3 ⟨t, h2.shape⟩ h2.dropped

theorem assign_tie {f : M (World K V) Unit} {g : M (BSTMap K V) Unit} {h : BSTMap K V → Out Unit × BSTMap K V}
    (hw : Valid cfg s.map) (hh : h s.map = g BSTMap.new)
    (ht : Tie cfg d { s with map := BSTMap.new } g (f { s with map := BSTMap.new })) :
    Tie cfg d s (BSTMap.assign h) (World.assign cfg d (building cfg d f) s) := by
  have ha : BSTMap.assign h s.map = match g BSTMap.new with
      | (.ok (), m') => (.ok (), m')
      | (o, _) => (o, s.map) := by
    unfold BSTMap.assign
    rw [hh]
    rcases g BSTMap.new with ⟨o, m⟩
    cases o <;> rfl
  rcases he : f { s with map := BSTMap.new } with ⟨o, s1⟩
  rw [he] at ht
  obtain ⟨ys, h1, h2⟩ := ht
  dsimp only at h1 h2
  cases o with
  | ok a =>
    obtain ⟨h2, h3, h4⟩ := h2
    have hb' : building cfg d f s = (.ok s1.map, { s1 with map := s.map }) := by unfold building; rw [he]; rfl
    have e : World.assign cfg d (building cfg d f) s = dropMap cfg d s.map s1 := by
      unfold World.assign
      rw [M.bind_ok hb', M.get_bind, M.modify_bind]
    rw [e]
    rw [h3] at ha
    obtain ⟨zs, g1, g2, g3⟩ := Dtor.map (d := d) hw s1
    refine ⟨ys ++ zs, by rw [g1, h1, List.append_assoc], ?_⟩
    rw [panicking_append, h2, Nat.zero_add]
    rcases hu : dropMap cfg d s.map s1 with ⟨o, s2⟩
    rw [hu] at g2 g3
    dsimp only at g2
    cases o with
    | ok a => exact ⟨g3, by rw [ha, g2], by rw [g2]; exact h4⟩
    | panic => exact ⟨.inl g3, by rw [g2]; exact h4⟩
    | abort => exact .inl g3
    | ub => exact g3
    | diverge => exact g3
  | panic =>
    obtain ⟨h2, h3⟩ := h2
    obtain ⟨zs, g1, g2, g3⟩ := (Dtor.map (d := d) h3).unwind (α := BSTMap K V) { s1 with map := s.map }
    have hb' : building cfg d f s = Simple.unwind (dropMap cfg d s1.map) { s1 with map := s.map } := by unfold building; rw [he]; rfl
    rcases hu : (Simple.unwind (dropMap cfg d s1.map) { s1 with map := s.map } :
      Out (BSTMap K V) × World K V) with ⟨o, s2⟩
    rw [hu] at g1 g2 g3 hb'
    dsimp only at g1 g2 g3
    rcases g3 with ⟨rfl, g4⟩ | ⟨rfl, g4⟩
    · have e : World.assign cfg d (building cfg d f) s = (.panic, s2) := by
        unfold World.assign
        rw [M.bind_panic hb']
      rw [e]
      refine ⟨ys ++ zs, by dsimp only; rw [g1, h1, List.append_assoc], ?_⟩
      dsimp only
      rw [panicking_append, g4, Nat.add_zero, g2]
      refine ⟨h2.imp id fun h => ⟨h.1, ?_⟩, hw⟩
      rw [ha, h.2]
    · have e : World.assign cfg d (building cfg d f) s = (.abort, s2) := by
        unfold World.assign
        rw [M.bind_abort hb']
      rw [e]
      refine ⟨ys ++ zs, by dsimp only; rw [g1, h1, List.append_assoc], ?_⟩
      dsimp only
      rw [panicking_append]
      rcases h2 with h2 | ⟨h2, h4⟩
      · left; omega
      · right; left
        refine ⟨by omega, fun a => ?_⟩
        rw [ha, h4]; simp
  | abort =>
    have hb' : building cfg d f s = (.abort, { s1 with map := s.map }) := by unfold building; rw [he]; rfl
    have e : World.assign cfg d (building cfg d f) s = (.abort, { s1 with map := s.map }) := by
      unfold World.assign
      rw [M.bind_abort hb']
    rw [e]
    refine ⟨ys, h1, ?_⟩
    dsimp only
    refine h2.imp id (Or.imp (fun h => ⟨h.1, fun a => ?_⟩) fun h => ?_)
    · have h := h.2
      rw [ha]
      rcases hg : g BSTMap.new with ⟨o, m⟩
      rw [hg] at h
      cases o with
      | ok u => exact absurd rfl (h u)
      | _ => simp
    · rw [ha]
      rcases hg : g BSTMap.new with ⟨o, m⟩
      rw [hg] at h
      dsimp only at h
      subst h
      rfl
  | ub => exact h2.elim
  | diverge => exact h2.elim

theorem lift_ok {σ : Type} (a : α) : (M.lift (.ok a) : M σ α) = Pure.pure a := rfl

theorem Tie.congr {s' : World K V} {g : M (BSTMap K V) α} {r : Out α × World K V} (h : Tie cfg d s g r)
    (h1 : s.map = s'.map) (h2 : s.dropped = s'.dropped) : Tie cfg d s' g r := by
  unfold Tie at *
  rw [← h1, ← h2]
  exact h

theorem cloneBody_tie (cmps : Nat → K → Probe K) (ck : K → Option K) (cv : V → Option V)
    (hw : Valid cfg s.map) (i : Nat) (k : K) (v : V) :
    Tie cfg d s (match ck k, cv v with
        | some k, some v => do
          let _ ← BSTMap.insert cfg (cmps i k) k v
          Pure.pure ()
        | _, _ => M.panic)
      ((do
        let k ← cloneWith ck .inl k
        let v ← Simple.onPanic (cloneWith cv .inr v) (dropItem d (.inl k))
        insertStmt cfg d (cmps i k) k v : M (World K V) Unit) s) := by
  cases hk : ck k with
  | none =>
    have : cloneWith (V := V) ck .inl k s = (.panic, s) := by unfold cloneWith; rw [hk]
    rw [M.bind_panic this]
    exact ⟨[], by simp, .inr ⟨rfl, rfl⟩, hw⟩
  | some k' =>
    have : cloneWith (V := V) ck .inl k s = (.ok k', { s with made := s.made ++ [.inl k'] }) := by
      unfold cloneWith; rw [hk]
    rw [M.bind_ok this]
    cases hv : cv v with
    | none =>
      have h2 : Simple.onPanic (cloneWith (K := K) cv .inr v) (dropItem d (.inl k'))
          { s with made := s.made ++ [.inl k'] } =
          (if d.key k' then .abort else .panic,
            { s with made := s.made ++ [.inl k'], dropped := s.dropped ++ [.inl k'] }) := by
        unfold Simple.onPanic cloneWith
        rw [hv]
        cases hd : d.key k' <;> simp [Simple.unwind, dropItem, hd]
      cases hd : d.key k' with
      | true =>
        rw [hd] at h2
        rw [M.bind_abort h2]
        exact ⟨[.inl k'], rfl, .inr (.inl ⟨by simp [panicking, hd], fun a => by simp [M.panic]⟩)⟩
      | false =>
        rw [hd] at h2
        rw [M.bind_panic h2]
        exact ⟨[.inl k'], rfl, .inr ⟨by simp [panicking, hd], rfl⟩, hw⟩
    | some v' =>
      have h2 : Simple.onPanic (cloneWith (K := K) cv .inr v) (dropItem d (.inl k'))
          { s with made := s.made ++ [.inl k'] } =
          (.ok v', { s with made := s.made ++ [.inl k'] ++ [.inr v'] }) := by
        unfold Simple.onPanic cloneWith
        rw [hv]
      rw [M.bind_ok h2]
      exact (insertStmt_tie (d := d) (s := { s with made := s.made ++ [.inl k'] ++ [.inr v'] }) hw
        (cmps i k') k' v').congr rfl rfl

/-- The loop of `clone`. -/
def plainClone (cfg : Cfg) (cmps : Nat → K → Probe K) (ck : K → Option K) (cv : V → Option V)
    (m : BSTMap K V) (st : Nat × List (Node K V)) : M (BSTMap K V) ((Nat × List (Node K V)) ⊕ Unit) :=
  match st.2 with
  | [] => Pure.pure (.inr ())
  | x :: stack =>
    match ck x.key, cv x.value with
    | some k, some v => do
      let _ ← BSTMap.insert cfg (cmps st.1 k) k v
      let r ← M.lift (x.right m.nodes)
      let l ← M.lift (x.left m.nodes)
      Pure.pure (.inl (st.1 + 1, l.toList ++ r.toList ++ stack))
    | _, _ => M.panic

theorem cloneLoop_tie (cmps : Nat → K → Probe K) (ck : K → Option K) (cv : V → Option V)
    (m : BSTMap K V) (fuel : Nat) : ∀ (ts : List (Tree K V)) (i : Nat) (s : World K V),
    (∀ t ∈ ts, t.Rep m.nodes.view) → forestSize ts < fuel → Valid cfg s.map →
    Tie cfg d s (loop fuel (plainClone cfg cmps ck cv m) (i, ts.filterMap nodeOpt))
      (loop fuel (cloneBody cfg d cmps ck cv m) (i, ts.filterMap nodeOpt) s) := by
  induction fuel with
  | zero => intro ts i s _ h; omega
  | succ fuel ih =>
    intro ts i s hrep hsz hw
    rw [loop_succ, loop_succ]
    rcases forest_head ts with ⟨h1, _⟩ | ⟨p, l, k, v, r, ts', h1, _, h3, h4, h5⟩
    · rw [h1]
      exact Tie.pure hw ()
    · have hn := hrep _ h3
      have hr : Node.right m.nodes ⟨p, ⟨k, v, l.root, r.root⟩⟩ = .ok r.nodeOpt := Node.newOpt_ok hn.2.2
      have hl : Node.left m.nodes ⟨p, ⟨k, v, l.root, r.root⟩⟩ = .ok l.nodeOpt := Node.newOpt_ok hn.2.1
      have hto : l.nodeOpt.toList ++ r.nodeOpt.toList ++ ts'.filterMap nodeOpt =
          (l :: r :: ts').filterMap nodeOpt := by cases l <;> cases r <;> rfl
      have hb : cloneBody cfg d cmps ck cv m (i, ts.filterMap nodeOpt) = ((do
          let k ← cloneWith ck .inl k
          let v ← Simple.onPanic (cloneWith cv .inr v) (dropItem d (.inl k))
          insertStmt cfg d (cmps i k) k v) >>= fun _ =>
          Pure.pure (.inl (i + 1, (l :: r :: ts').filterMap nodeOpt))) := by
        rw [h1, ← hto]
        simp only [cloneBody, hr, hl, M.lift_ok_bind, bind_assoc]
        rfl
      have hp : plainClone cfg cmps ck cv m (i, ts.filterMap nodeOpt) = ((match ck k, cv v with
          | some k, some v => do
            let _ ← BSTMap.insert cfg (cmps i k) k v
            Pure.pure ()
          | _, _ => M.panic) >>= fun _ =>
          Pure.pure (.inl (i + 1, (l :: r :: ts').filterMap nodeOpt))) := by
        rw [h1, ← hto]
        unfold plainClone
        dsimp only
        rw [hr, hl, show Node.key ⟨p, ⟨k, v, l.root, r.root⟩⟩ = k from rfl,
          show Node.value ⟨p, ⟨k, v, l.root, r.root⟩⟩ = v from rfl]
        cases ck k <;> cases cv v <;> first | rfl | skip
        simp only [bind_assoc, pure_bind, lift_ok]
      rw [hb, hp]
      rw [bind_assoc, bind_assoc]
      refine Tie.bind (cloneBody_tie cmps ck cv hw i k v) fun _ s1 _ hw1 => ?_
      rw [pure_bind, pure_bind]
      refine ih (l :: r :: ts') (i + 1) s1 (fun t ht => ?_) (by omega) hw1
      rcases List.mem_cons.1 ht with rfl | ht
      · exact hn.2.1
      rcases List.mem_cons.1 ht with rfl | ht
      · exact hn.2.2
      · exact hrep _ (h4 _ ht)

theorem cloned_tie (cmps : Nat → K → Probe K) (ck : K → Option K) (cv : V → Option V) (hw : Valid cfg s.map) :
    Tie cfg d s (BSTMap.assign (BSTMap.clone cfg cmps ck cv))
      (World.assign cfg d (World.clone cfg d cmps ck cv) s) := by
  have h1 : World.assign cfg d (World.clone cfg d cmps ck cv) s = World.assign cfg d
      (building cfg d (do
        let n ← M.lift (s.map.len cfg)
        World.onMap (BSTMap.onNodes (Slab.onItems (Arena.growTo cfg n)))
        let root ← M.lift s.map.rootNode
        BST.loop (walkFuel s.map.nodes) (World.cloneBody cfg d cmps ck cv s.map) (0, root.toList))) s := by
    have e : World.clone cfg d cmps ck cv s = _ := M.get_bind _ s
    unfold World.assign
    rw [M.bind_apply, e, ← M.bind_apply]
  rw [h1]
  refine assign_tie hw (g := do
      let n ← M.lift (s.map.len cfg)
      BSTMap.onNodes (Slab.onItems (Arena.growTo cfg n))
      let root ← M.lift s.map.rootNode
      BST.loop (walkFuel s.map.nodes) (plainClone cfg cmps ck cv s.map) (0, root.toList)) rfl ?_
  obtain ⟨t, h⟩ := hw
  simp only [h.len_ok, rootNode_ok h.root h.rep, lift_ok, pure_bind]
  refine Tie.bind (grow_tie _ valid_new) fun _ s1 _ hw1 => ?_
  have : t.nodeOpt.toList = ([t].filterMap nodeOpt) := by cases t <;> rfl
  rw [this]
  exact cloneLoop_tie cmps ck cv s.map _ [t] 0 s1 (by simpa using h.rep)
    (by simpa [forestSize] using h.size_lt) hw1

/-- One call. -/
theorem run_tie [DecidableEq K] [DecidableEq V] (op : Op K V) (hop : ∀ e, op ≠ .clear e)
    (hw : Valid cfg s.map) : Tie cfg d s (op.run cfg) (op.runWorld cfg d s) := by
  have rest : ∀ op : Op K V, (∀ e, op ≠ .clear e) → op.Drops → op.Stays → op.Calm →
      Tie cfg d s (op.run cfg) (onMap (op.run cfg) s) := by
    intro op hc hd hs hg
    obtain ⟨t, h⟩ := hw
    obtain ⟨o, m', t', h1, h2, h3, g, ⟨h4, h5⟩, _⟩ := run_books h (op := op) hg hs hd
    rw [h5 hc, List.append_nil] at h4
    exact Tie.onMap h1 h2 ⟨_, h3⟩ h4
  cases op with
  | withCapacity n =>
    exact Tie.bind (assign_tie hw rfl (grow_tie n valid_new)) fun _ _ _ hw1 => Tie.pure hw1 _
  | collect cmps src =>
    refine Tie.bind (assign_tie hw rfl ?_) fun _ _ _ hw1 => Tie.pure hw1 _
    exact Tie.bind (Tie.onPanic (grow_tie _ valid_new) (Dtor.items src.items)) fun _ s1 _ hw1 =>
      Tie.bind (insertAll_tie cmps src.items 0 hw1) fun _ s2 _ hw2 => tail_tie src.panics hw2
  | cloned cmps ck cv => exact Tie.bind (cloned_tie cmps ck cv hw) fun _ _ _ hw1 => Tie.pure hw1 _
  | insert c k v => exact Tie.bind (insert_tie hw c k v) fun _ _ _ hw1 => Tie.pure hw1 _
  | remove c => exact Tie.bind (remove_tie hw c) fun _ _ _ hw1 => Tie.pure hw1 _
  | extend cmps src => exact Tie.bind (extend_tie cmps src hw) fun _ _ _ hw1 => Tie.pure hw1 _
  | clear e => exact absurd rfl (hop e)
  | _ => exact rest _ hop trivial trivial trivial

theorem panicking_calm (hd : d.Calm) (ys : List (K ⊕ V)) : panicking d ys = 0 := by
  unfold panicking
  rw [List.countP_eq_zero]
  rintro (k | v) _
  · simp [hd.1]
  · simp [hd.2]

theorem run_calm [DecidableEq K] [DecidableEq V] (op : Op K V) (hop : op.Drops) (hd : d.Calm)
    (hw : Valid cfg s.map) :
    (op.runWorld cfg d s).1 = (op.run cfg s.map).1 ∧ ((op.runWorld cfg d s).1 ≠ .abort →
      (op.runWorld cfg d s).2.map = (op.run cfg s.map).2 ∧ Valid cfg (op.runWorld cfg d s).2.map) := by
  by_cases hc : ∃ e, op = .clear e
  · obtain ⟨e, rfl⟩ := hc
    obtain ⟨o, s', h1, h2⟩ := run_led (d := d) (.clear e) hop hw
    refine ⟨rfl, fun ha => ⟨rfl, ?_⟩⟩
    rw [h1] at ha ⊢
    rcases h2 with h2 | h2
    · exact h2.2.wf
    · exact absurd h2.1 ha
  · obtain ⟨ys, _, g⟩ := run_tie (d := d) (s := s) op (fun e he => hc ⟨e, he⟩) hw
    have hp := panicking_calm hd ys
    rcases hu : op.runWorld cfg d s with ⟨o, s'⟩
    rw [hu] at g
    dsimp only at g ⊢
    cases o with
    | ok r => rw [g.2.1]; exact ⟨rfl, fun _ => ⟨rfl, g.2.2⟩⟩
    | panic =>
      rcases g with ⟨g | g, g'⟩
      · omega
      · rw [g.2]; exact ⟨rfl, fun _ => ⟨rfl, g'⟩⟩
    | abort =>
      rcases g with g | g | g
      · omega
      · omega
      · rw [g]; exact ⟨rfl, fun h => absurd rfl h⟩
    | ub => exact g.elim
    | diverge => exact g.elim

theorem history_calm {cfg : Cfg} (ops : List (Drops K V × Op K V)) (hops : ∀ x ∈ ops, x.2.Drops)
    (hc : ∀ x ∈ ops, x.1.Calm) {s : World K V} (hw : Valid cfg s.map) :
    (worldHistory cfg ops s).1 = (history cfg (ops.map (·.2)) s.map).1 ∧
      (Out.abort ∉ (worldHistory cfg ops s).1 →
        (worldHistory cfg ops s).2.map = (history cfg (ops.map (·.2)) s.map).2) := by
  haveI : DecidableEq K := fun _ _ => Classical.propDecidable _
  haveI : DecidableEq V := fun _ _ => Classical.propDecidable _
  unfold worldHistory
  induction ops generalizing s with
  | nil => exact ⟨rfl, fun _ => rfl⟩
  | cons x ops ih =>
    have h1 := run_calm x.2 (hops x (by simp)) (hc x (by simp)) hw
    rcases hx : x.2.runWorld cfg x.1 s with ⟨o, s1⟩
    rcases hy : x.2.run cfg s.map with ⟨o', m1⟩
    rw [hx, hy] at h1
    dsimp only at h1
    obtain ⟨rfl, h1⟩ := h1
    have ih := @ih (fun y hy => hops y (List.mem_cons_of_mem _ hy)) (fun y hy => hc y (List.mem_cons_of_mem _ hy))
    cases o with
    | ok r =>
      obtain ⟨rfl, h3⟩ := h1 (by simp)
      obtain ⟨ih1, ih2⟩ := ih h3
      simp only [execute, history, List.map_cons, hx, hy]
      exact ⟨by rw [ih1], fun h => ih2 fun h' => h (List.mem_cons_of_mem _ h')⟩
    | panic =>
      obtain ⟨rfl, h3⟩ := h1 (by simp)
      obtain ⟨ih1, ih2⟩ := ih h3
      simp only [execute, history, List.map_cons, hx, hy]
      exact ⟨by rw [ih1], fun h => ih2 fun h' => h (List.mem_cons_of_mem _ h')⟩
    | abort =>
      simp only [execute, history, List.map_cons, hx, hy]
      exact ⟨trivial, fun h => absurd (List.mem_singleton.2 rfl) h⟩
    | ub =>
      simp only [execute, history, List.map_cons, hx, hy]
      exact ⟨trivial, fun _ => (h1 (by simp)).1⟩
    | diverge =>
      simp only [execute, history, List.map_cons, hx, hy]
      exact ⟨trivial, fun _ => (h1 (by simp)).1⟩

end BSTMap.World
end BST
