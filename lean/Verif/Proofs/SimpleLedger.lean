import Verif.Proofs.SimpleEffect
/-!
# Destructors in `simple_bst`: every key and value is accounted for
-/
set_option linter.unusedSimpArgs false
set_option linter.unusedSectionVars false
namespace BST.Simple
open Spec (BT lookup hitOf fate panicking)
variable {K V α β : Type} [DecidableEq K] [DecidableEq V]

namespace Link

theorem count_node (x : K ⊕ V) (k : K) (v : V) (l r : Link K V) :
    (node k v l r).items.count x =
      [Sum.inl k].count x + [Sum.inr v].count x + l.items.count x + r.items.count x := by
  have h : (node k v l r).items = [.inl k] ++ [.inr v] ++ l.items ++ r.items := by simp [items]
  rw [h]
  simp only [List.count_append]

theorem count_nil (x : K ⊕ V) : (nil : Link K V).items.count x = 0 := rfl

theorem ins_new {c : Probe K} {k : K} {v : V} {i : Nat} {t : Link K V} (h : t.find c i = .ok none)
    (x : K ⊕ V) : (t.ins c k v i).items.count x =
      t.items.count x + [Sum.inl k].count x + [Sum.inr v].count x := by
  induction t generalizing i with
  | nil => rw [ins, count_node, count_nil]; omega
  | node k' v' l r ihl ihr =>
    unfold find at h
    unfold ins
    cases hc : c i k' with
    | none => rw [hc] at h; cases h
    | some o =>
      rw [hc] at h
      cases o with
      | lt => have := ihl h; simp only [count_node] at *; omega
      | gt => have := ihr h; simp only [count_node] at *; omega
      | eq => cases h

theorem ins_old {c : Probe K} {k : K} {v : V} {i : Nat} {t : Link K V} {e : K × V}
    (h : t.find c i = .ok (some e)) (x : K ⊕ V) :
    (t.ins c k v i).items.count x + [Sum.inr e.2].count x = t.items.count x + [Sum.inr v].count x := by
  induction t generalizing i with
  | nil => cases h
  | node k' v' l r ihl ihr =>
    unfold find at h
    unfold ins
    cases hc : c i k' with
    | none => rw [hc] at h; cases h
    | some o =>
      rw [hc] at h
      cases o with
      | lt => have := ihl h; simp only [count_node] at *; omega
      | gt => have := ihr h; simp only [count_node] at *; omega
      | eq => cases h; simp only [count_node]; omega

theorem popMin_count (k : K) (v : V) (r l : Link K V) (x : K ⊕ V) :
    [Sum.inl (popMin k v r l).1.1].count x + [Sum.inr (popMin k v r l).1.2].count x +
      (popMin k v r l).2.items.count x =
    [Sum.inl k].count x + [Sum.inr v].count x + l.items.count x + r.items.count x := by
  induction l generalizing k v r with
  | nil => simp only [popMin, count_nil]; omega
  | node lk lv ll lr ihl _ =>
    have := ihl lk lv lr
    simp only [popMin, count_node]
    omega

theorem join_count (l r : Link K V) (x : K ⊕ V) :
    (join l r).items.count x = l.items.count x + r.items.count x := by
  cases l with
  | nil => rw [count_nil]; simp [join]
  | node lk lv ll lr =>
    cases r with
    | nil => rw [count_nil, join, Nat.add_zero]; simp
    | node rk rv rl rr =>
      have := popMin_count rk rv rr rl x
      simp only [join, count_node]
      omega

theorem del_old {c : Probe K} {i : Nat} {t : Link K V} {e : K × V} (h : t.find c i = .ok (some e))
    (x : K ⊕ V) : (t.del c i).items.count x + [Sum.inl e.1].count x + [Sum.inr e.2].count x =
      t.items.count x := by
  induction t generalizing i with
  | nil => cases h
  | node k' v' l r ihl ihr =>
    unfold find at h
    unfold del
    cases hc : c i k' with
    | none => rw [hc] at h; cases h
    | some o =>
      rw [hc] at h
      cases o with
      | lt => have := ihl h; simp only [count_node] at *; omega
      | gt => have := ihr h; simp only [count_node] at *; omega
      | eq => cases h; simp only [count_node, join_count]; omega

theorem put_count (p : Place) (new t : Link K V) (h : t.at' p ≠ nil) (x : K ⊕ V) :
    (put new p t).items.count x + (t.at' p).items.count x = t.items.count x + new.items.count x := by
  induction p generalizing t with
  | nil => simp; omega
  | cons b p ih =>
    cases t with
    | nil => cases b <;> exact absurd rfl h
    | node k v l r =>
      cases b
      · have := ih l h; simp only [put, at', count_node] at *; omega
      · have := ih r h; simp only [put, at', count_node] at *; omega

theorem setAt_count (w : V) {p : Place} {t : Link K V} {k : K} {v : V} {l r : Link K V}
    (h : t.at' p = node k v l r) (x : K ⊕ V) :
    (t.setAt w p).items.count x + [Sum.inr v].count x = t.items.count x + [Sum.inr w].count x := by
  have := put_count p (node k w l r) t (by rw [h]; simp) x
  unfold setAt
  rw [h] at this ⊢
  simp only [count_node] at this ⊢
  omega

omit [DecidableEq K] [DecidableEq V] in
theorem setAt_none (w : V) {p : Place} {t : Link K V} (h : t.at' p = nil) : t.setAt w p = t := by
  unfold setAt; rw [h]

omit [DecidableEq K] [DecidableEq V] in
theorem find_path {c : Probe K} {i : Nat} {t : Link K V} {e : K × V} (h : t.find c i = .ok (some e)) :
    ∃ l r, t.at' (t.path c i) = node e.1 e.2 l r := by
  induction t generalizing i with
  | nil => cases h
  | node k' v' l r ihl ihr =>
    unfold find at h
    unfold path
    cases hc : c i k' with
    | none => rw [hc] at h; cases h
    | some o =>
      rw [hc] at h
      cases o with
      | lt => exact ihl h
      | gt => exact ihr h
      | eq => cases h; exact ⟨l, r, by simp⟩

end Link

namespace World
variable {d : Drops K V} {s s' : World K V} {I J : List (K ⊕ V)} {R : α → List (K ⊕ V)}

/-- How often `x` is there: in the map, dropped, or leaked. -/
def held (x : K ⊕ V) (s : World K V) : Nat :=
  s.map.root.items.count x + s.dropped.count x + (s.leaked.map Sum.inr).count x

/-- A step that took `I` and gave `R`. -/
structure Step (d : Drops K V) (s s' : World K V) (I R : List (K ⊕ V)) : Prop where
  wf : Wf s'.map
  eq : ∀ x, held x s + I.count x + s'.made.count x = held x s' + R.count x + s.made.count x
  ret : d.ret = true → s'.leaked = s.leaked

/-- A step that took `I` and aborted. -/
structure Died (d : Drops K V) (s s' : World K V) (I : List (K ⊕ V)) : Prop where
  le : ∀ x, s'.dropped.count x + (s'.leaked.map Sum.inr).count x + s.made.count x ≤
    held x s + I.count x + s'.made.count x
  ret : d.ret = true → s'.leaked = s.leaked

def Led (d : Drops K V) (s : World K V) (I : List (K ⊕ V)) (R : α → List (K ⊕ V)) :
    Out α × World K V → Prop
  | (.ok a, s') => Step d s s' I (R a)
  | (.panic, s') => Step d s s' I []
  | (.abort, s') => Died d s s' I
  | _ => False

theorem Step.trans {s1 s2 : World K V} {Q : List (K ⊕ V)} {R : List (K ⊕ V)} (h : Step d s s1 I R)
    (h' : Step d s1 s2 R Q) : Step d s s2 I Q where
  wf := h'.wf
  eq x := by have := h.eq x; have := h'.eq x; omega
  ret hd := (h'.ret hd).trans (h.ret hd)

theorem Step.died {s1 s2 : World K V} {R : List (K ⊕ V)} (h : Step d s s1 I R)
    (h' : Died d s1 s2 R) : Died d s s2 I where
  le x := by have := h.eq x; have := h'.le x; omega
  ret hd := (h'.ret hd).trans (h.ret hd)

theorem Led.bind {f : M (World K V) α} {g : α → M (World K V) β} {Q : β → List (K ⊕ V)}
    (hf : Led d s I R (f s))
    (hg : ∀ a s1, f s = (.ok a, s1) → Wf s1.map → Led d s1 (R a) Q (g a s1)) :
    Led d s I Q ((f >>= g) s) := by
  rw [M.bind_apply]
  rcases he : f s with ⟨o, s1⟩
  rw [he] at hf
  cases o with
  | ok a =>
    have h2 := hg a s1 he hf.wf
    dsimp only
    rcases hg' : g a s1 with ⟨o', s2⟩
    rw [hg'] at h2
    cases o' with
    | ok b => exact Step.trans hf h2
    | panic => exact Step.trans hf h2
    | abort => exact Step.died hf h2
    | ub => exact h2
    | diverge => exact h2
  | panic => exact hf
  | abort => exact hf
  | ub => exact hf
  | diverge => exact hf

theorem Led.same (h : ∀ x, I.count x = J.count x) {r : Out α × World K V} (hl : Led d s I R r) :
    Led d s J R r := by
  obtain ⟨o, s1⟩ := r
  cases o with
  | ok a => exact ⟨Step.wf hl, fun x => by rw [← h x]; exact Step.eq hl x, Step.ret hl⟩
  | panic => exact ⟨Step.wf hl, fun x => by rw [← h x]; exact Step.eq hl x, Step.ret hl⟩
  | abort => exact ⟨fun x => by rw [← h x]; exact Died.le hl x, Died.ret hl⟩
  | ub => exact hl
  | diverge => exact hl

theorem Led.pure (hw : Wf s.map) (a : α) : Led d s (R a) R ((Pure.pure a : M (World K V) α) s) :=
  ⟨hw, fun _ => rfl, fun _ => rfl⟩

theorem held_lost (x : K ⊕ V) (ys : List (K ⊕ V)) : held x (s.lost ys) = held x s + ys.count x := by
  simp only [held, lost_map, lost_dropped, lost_leaked, List.count_append]; omega

theorem Step.lost (hw : Wf s.map) (ys : List (K ⊕ V)) : Step d s (s.lost ys) ys [] :=
  ⟨hw, fun x => by rw [held_lost]; simp, fun _ => rfl⟩

theorem Died.lost (ys zs : List (K ⊕ V)) : Died d s (s.lost ys) (ys ++ zs) :=
  ⟨fun x => by
    simp only [lost_dropped, lost_leaked, lost_made, List.count_append, held]; omega, fun _ => rfl⟩

theorem Burns.led {f : M (World K V) Unit} {xs : List (K ⊕ V)} (h : Burns d f xs) (hw : Wf s.map) :
    Led d s xs (fun _ => []) (f s) := by
  obtain ⟨ys, zs, rfl, h2, h3⟩ := h s
  rw [h3]
  rcases fate_cases (panicking d (ys ++ zs)) with ⟨h4, h5⟩ | ⟨h4, h5⟩ | ⟨h4, h5⟩ <;> rw [h5]
  · obtain rfl := h2 (by omega)
    rw [List.append_nil]; exact Step.lost hw ys
  · obtain rfl := h2 (by omega)
    rw [List.append_nil]; exact Step.lost hw ys
  · exact Died.lost ys zs

theorem Burns.ledUnwind {f : M (World K V) Unit} {xs : List (K ⊕ V)} (h : Burns d f xs)
    (hw : Wf s.map) : Led d s xs R (Simple.unwind f s : Out α × World K V) := by
  obtain ⟨ys, zs, rfl, h2, h3⟩ := h.unwind (α := α) s
  rw [h3]
  split
  · rename_i h4
    obtain rfl := h2 h4
    rw [List.append_nil]; exact Step.lost hw ys
  · exact Died.lost ys zs

/-- `f` may also own `J`, which `b` drops if `f` panics. -/
theorem Led.onPanic {f : M (World K V) α} {b : M (World K V) Unit} (hf : Led d s I R (f s))
    (hb : Burns d b J) : Led d s (I ++ J) (fun a => R a ++ J) (onPanic f b s) := by
  unfold Simple.onPanic
  rcases he : f s with ⟨o, s1⟩
  rw [he] at hf
  cases o with
  | ok a =>
    exact ⟨Step.wf hf, fun x => by have := Step.eq hf x; simp only [List.count_append]; omega,
      Step.ret hf⟩
  | panic =>
    dsimp only
    have h2 := hb.ledUnwind (R := R) (Step.wf hf)
    rcases hu : (Simple.unwind b s1 : Out α × World K V) with ⟨o', s2⟩
    rw [hu] at h2
    have h3 : Step d s s1 (I ++ J) J :=
      ⟨Step.wf hf, fun x => by
        have := Step.eq hf x
        simp only [List.count_append, List.count_nil] at *; omega, Step.ret hf⟩
    cases o' with
    | ok a =>
      obtain ⟨ys, zs, _, _, h6⟩ := hb.unwind (α := α) s1
      rw [h6] at hu
      split at hu <;> cases hu
    | panic => exact h3.trans h2
    | abort => exact h3.died h2
    | ub => exact h2
    | diverge => exact h2
  | abort => exact ⟨fun x => by have := Died.le hf x; simp only [List.count_append]; omega, Died.ret hf⟩
  | ub => exact hf
  | diverge => exact hf

theorem Led.panic (hw : Wf s.map) : Led d s [] R ((M.panic : M (World K V) α) s) :=
  ⟨hw, fun _ => rfl, fun _ => rfl⟩

theorem returning_led (hw : Wf s.map) (r : V) (k : K) :
    Led d s [.inl k, .inr r] (fun _ => [.inr r]) (returning d r (dropItem d (.inl k)) s) := by
  have h3 : Step d s (s.lost [.inl k]) [.inl k, .inr r] [.inr r] :=
    ⟨hw, fun x => by
      rw [held_lost]; simp only [List.count_cons, List.count_nil, lost_made]; omega, fun _ => rfl⟩
  have ha : dropItem d (.inl k) s = (if d.key k then .panic else .ok (), s.lost [.inl k]) := rfl
  unfold returning
  rw [ha]
  cases hk : d.key k with
  | false => exact h3
  | true =>
    simp only [if_true]
    split
    · have h := (Burns.item (d := d) (.inr r : K ⊕ V)).ledUnwind (α := Unit) (R := fun _ => [.inr r])
        (s := s.lost [.inl k]) hw
      rcases hu : (Simple.unwind (dropItem d (.inr r)) (s.lost [.inl k]) : Out Unit × World K V) with ⟨o', s2⟩
      rw [hu] at h
      cases o' with
      | ok a => exact h3.trans h
      | panic => exact h3.trans h
      | abort => exact h3.died h
      | ub => exact h
      | diverge => exact h
    · rename_i hr
      refine ⟨hw, fun x => ?_, fun h => absurd h hr⟩
      simp only [held, List.map_append, List.count_append, List.count_cons, List.count_nil,
        List.map_cons, List.map_nil, lost_map, lost_dropped, lost_leaked, lost_made]
      omega

theorem insert_led {cfg : Cfg} (he : 2 ≤ cfg.esize) (hw : Wf s.map) (c : Probe K) (k : K) (v : V) :
    Led d s [.inl k, .inr v] (fun r => (r.map Sum.inr).toList) (insert cfg d c k v s) := by
  unfold insert
  have hb : Burns d (both (dropItem d (.inr v)) (dropItem d (.inl k))) ([.inr v] ++ [.inl k]) :=
    (Burns.item _).both (Burns.item _)
  rcases Map.insert_spec he c k v s.map hw with ⟨h1, h2⟩ | ⟨e, a, n, h1, h2, h3⟩ | ⟨h1, h2, _⟩
  · refine Led.bind (R := fun _ => ([] : List (K ⊕ V))) ?_ (fun a s1 h => ?_)
    · have hp : onPanic (onMap (Map.insert cfg c k v)) (both (dropItem d (.inr v)) (dropItem d (.inl k))) s =
          Simple.unwind (both (dropItem d (.inr v)) (dropItem d (.inl k))) s := by
        unfold Simple.onPanic; rw [onMap_eq h2]
      rw [hp]
      refine (hb.ledUnwind hw).same fun x => ?_
      simp only [List.count_append, List.count_cons, List.count_nil]; omega
    · exfalso
      unfold Simple.onPanic at h
      rw [onMap_eq h2] at h
      dsimp only at h
      obtain ⟨ys, zs, _, _, h6⟩ := hb.unwind (α := Option V) s
      rw [h6] at h
      split at h <;> cases h
  · have ha : onPanic (onMap (Map.insert cfg c k v)) (both (dropItem d (.inr v)) (dropItem d (.inl k))) s
        = (.ok (e.map (·.2)), { s with map := ⟨s.map.root.ins c k v 0, n, a⟩ }) := by
      unfold Simple.onPanic; rw [onMap_eq h2]
    rw [M.bind_ok ha]
    cases e with
    | none =>
      refine ⟨h3, fun x => ?_, fun _ => rfl⟩
      have := Link.ins_new (k := k) (v := v) h1 x
      simp only [held, this, List.count_cons, List.count_nil, Option.map_none, Option.toList_none]
      omega
    | some e =>
      have hst : Step d s { s with map := ⟨s.map.root.ins c k v 0, n, a⟩ } [.inl k, .inr v]
          [.inl k, .inr e.2] := by
        refine ⟨h3, fun x => ?_, fun _ => rfl⟩
        have := Link.ins_old (k := k) (v := v) h1 x
        simp only [held, List.count_cons, List.count_nil] at *
        omega
      have h5 := returning_led (d := d) (s := { s with map := ⟨s.map.root.ins c k v 0, n, a⟩ }) h3 e.2 k
      have h6 : Led d { s with map := ⟨s.map.root.ins c k v 0, n, a⟩ } [.inl k, .inr e.2]
          (fun r : Option V => (r.map Sum.inr).toList)
          ((returning d e.2 (dropItem d (.inl k)) >>= fun _ => Pure.pure (some e.2))
            { s with map := ⟨s.map.root.ins c k v 0, n, a⟩ }) :=
        Led.bind h5 fun _ s1 _ hw1 => Led.pure (R := fun r : Option V => (r.map Sum.inr).toList) hw1 (some e.2)
      dsimp only [Option.map_some]
      rcases hu : (returning d e.2 (dropItem d (.inl k)) >>= fun _ => Pure.pure (some e.2))
            { s with map := ⟨s.map.root.ins c k v 0, n, a⟩ } with ⟨o', s2⟩
      rw [hu] at h6
      cases o' with
      | ok a => exact hst.trans h6
      | panic => exact hst.trans h6
      | abort => exact hst.died h6
      | ub => exact h6
      | diverge => exact h6
  · have ha : onPanic (onMap (Map.insert cfg c k v)) (both (dropItem d (.inr v)) (dropItem d (.inl k))) s
        = (.abort, s) := by
      unfold Simple.onPanic; rw [onMap_eq h2]
    rw [M.bind_abort ha]
    exact ⟨fun x => by simp only [held]; omega, fun _ => rfl⟩

theorem Led.after {s1 : World K V} {R' : List (K ⊕ V)} {r : Out α × World K V} (h : Step d s s1 I R')
    (h' : Led d s1 R' R r) : Led d s I R r := by
  obtain ⟨o, s2⟩ := r
  cases o with
  | ok a => exact h.trans h'
  | panic => exact h.trans h'
  | abort => exact h.died h'
  | ub => exact h'
  | diverge => exact h'

theorem removeEntry_led {cfg : Cfg} (hw : Wf s.map) (c : Probe K) :
    Led d s [] (fun r => match r with | some e => [.inl e.1, .inr e.2] | none => [])
      (onMap (Map.removeEntry cfg c) s) := by
  rcases Map.removeEntry_spec cfg c s.map hw with ⟨h1, h2⟩ | ⟨e, a, n, h1, h2, h3⟩ | ⟨m', h2, _⟩
  · rw [onMap_eq h2]; exact ⟨hw, fun x => rfl, fun _ => rfl⟩
  · rw [onMap_eq h2]
    cases e with
    | none =>
      refine ⟨h3, fun x => ?_, fun _ => rfl⟩
      simp only [held, Link.del_miss h1]
    | some e =>
      refine ⟨h3, fun x => ?_, fun _ => rfl⟩
      have := Link.del_old h1 x
      simp only [held, List.count_cons, List.count_nil] at *
      omega
  · rw [onMap_eq h2]
    exact ⟨fun x => by simp only [held]; omega, fun _ => rfl⟩

theorem remove_led {cfg : Cfg} (hw : Wf s.map) (c : Probe K) :
    Led d s [] (fun r => (r.map Sum.inr).toList) (remove cfg d c s) := by
  unfold remove
  refine (removeEntry_led hw c).bind fun e s1 _ hw1 => ?_
  cases e with
  | none => exact Led.pure (R := fun r : Option V => (r.map Sum.inr).toList) hw1 none
  | some e =>
    exact (returning_led hw1 e.2 e.1).bind fun _ s2 _ hw2 =>
      Led.pure (R := fun r : Option V => (r.map Sum.inr).toList) hw2 (some e.2)

theorem insertStmt_led {cfg : Cfg} (he : 2 ≤ cfg.esize) (hw : Wf s.map) (c : Probe K) (k : K) (v : V) :
    Led d s [.inl k, .inr v] (fun _ => []) (insertStmt cfg d c k v s) := by
  unfold insertStmt
  refine (insert_led he hw c k v).bind fun e s1 _ hw1 => ?_
  cases e with
  | none => exact Led.pure (R := fun _ : Unit => ([] : List (K ⊕ V))) hw1 ()
  | some e => exact (Burns.item _).led hw1

omit [DecidableEq K] [DecidableEq V] in
theorem itemsOf_cons (e : K × V) (l : List (K × V)) :
    itemsOf (e :: l) = [.inl e.1, .inr e.2] ++ itemsOf l := rfl

theorem insertAll_led {cfg : Cfg} (he : 2 ≤ cfg.esize) (cmps : Nat → K → Probe K) (l : List (K × V))
    (n : Nat) (hw : Wf s.map) :
    Led d s (itemsOf l) (fun _ => []) (insertAll cfg d cmps n l s) := by
  induction l generalizing n s with
  | nil => exact Led.pure (R := fun _ : Unit => ([] : List (K ⊕ V))) hw ()
  | cons e l ih =>
    obtain ⟨k, v⟩ := e
    exact Led.bind (Led.onPanic (insertStmt_led he hw (cmps n k) k v) (Burns.items l))
      fun _ s1 _ hw1 => ih (n + 1) hw1

theorem extend_led {cfg : Cfg} (he : 2 ≤ cfg.esize) (cmps : Nat → K → Probe K)
    (src : BSTMap.Source K V) (hw : Wf s.map) :
    Led d s (itemsOf src.items) (fun _ => []) (extend cfg d cmps src s) := by
  unfold extend
  refine (insertAll_led he cmps src.items 0 hw).bind fun _ s1 _ hw1 => ?_
  split
  · exact Led.panic hw1
  · exact Led.pure (R := fun _ : Unit => ([] : List (K ⊕ V))) hw1 ()

/-- The state in which a new map is built. -/
def fresh (s : World K V) : World K V := { s with map := { Map.new with allocs := s.map.allocs } }

theorem held_fresh (x : K ⊕ V) : held x s = held x s.fresh + s.map.root.items.count x := by
  have : s.fresh.map.root.items.count x = 0 := rfl
  simp only [held, this]
  simp only [fresh]
  omega

theorem building_led {f : M (World K V) Unit} (hw : Wf s.map)
    (hf : Led d s.fresh I (fun _ => []) (f s.fresh)) :
    Led d s I (fun m => m.root.items) (building d f s) ∧
      ∀ m s', building d f s = (.ok m, s') → Wf m := by
  unfold building
  rw [show ({ s with map := { Map.new with allocs := s.map.allocs } } : World K V) = s.fresh from rfl]
  rcases hu : f s.fresh with ⟨o, s1⟩
  rw [hu] at hf
  dsimp only
  have hm : ∀ x, held x ({ s1 with map := { s.map with allocs := s1.map.allocs } } : World K V) +
      s1.map.root.items.count x = held x s1 + s.map.root.items.count x := fun x => by
    simp only [held]; omega
  cases o with
  | ok a =>
    have hf : Step d s.fresh s1 I [] := hf
    refine ⟨⟨hw, fun x => ?_, hf.ret⟩, fun m s' h => ?_⟩
    · have h1 := Step.eq hf x
      have h2 := hm x
      have h3 := held_fresh (s := s) x
      have h4 : s.fresh.made = s.made := rfl
      rw [h4] at h1
      simp only [List.count_nil] at h1
      simp only [held] at h1 h2 h3 ⊢
      omega
    · cases h; exact Step.wf hf
  | panic =>
    have hf : Step d s.fresh s1 I [] := hf
    refine ⟨?_, fun m s' h => ?_⟩
    · have hst : Step d s { s1 with map := { s.map with allocs := s1.map.allocs } } I s1.map.root.items := by
        refine ⟨hw, fun x => ?_, hf.ret⟩
        have h1 := Step.eq hf x
        have h2 := hm x
        have h3 := held_fresh (s := s) x
        have h4 : s.fresh.made = s.made := rfl
        rw [h4] at h1
        simp only [List.count_nil] at h1
        show held x s + I.count x + s1.made.count x = _ + s1.map.root.items.count x + s.made.count x
        omega
      exact Led.after hst ((Burns.link s1.map.root).ledUnwind hw)
    · exfalso
      obtain ⟨ys, zs, _, _, h6⟩ := (Burns.link (d := d) s1.map.root).unwind (α := Map K V)
        { s1 with map := { s.map with allocs := s1.map.allocs } }
      have h : (Simple.unwind (dropLink d s1.map.root) { s1 with map := { s.map with allocs := s1.map.allocs } }
        : Out (Map K V) × World K V) = _ := h
      rw [h6] at h
      split at h <;> cases h
  | abort =>
    have hf : Died d s.fresh s1 I := hf
    refine ⟨⟨fun x => ?_, hf.ret⟩, fun m s' h => by cases h⟩
    have h1 := Died.le hf x
    have h3 := held_fresh (s := s) x
    have h4 : s.fresh.made = s.made := rfl
    rw [h4] at h1
    show s1.dropped.count x + (s1.leaked.map Sum.inr).count x + s.made.count x ≤
      held x s + I.count x + s1.made.count x
    omega
  | ub => exact hf.elim
  | diverge => exact hf.elim

theorem cloneBox_led {cfg : Cfg} (hw : Wf s.map) (boxed : Bool) :
    Led d s [] (fun _ => []) (cloneBox cfg boxed s) := by
  unfold cloneBox
  rcases Map.cloneBox_cases cfg boxed s.map.allocs with ⟨b, h⟩ | ⟨h, _⟩
  · rw [h]; exact ⟨hw, fun _ => rfl, fun _ => rfl⟩
  · rw [h]; exact ⟨fun x => by simp only [held]; omega, fun _ => rfl⟩

theorem cloneWith_led {γ : Type} (hw : Wf s.map) (f : γ → Option γ) (inj : γ → K ⊕ V) (x : γ) :
    Led d s [] (fun y => [inj y]) (cloneWith f inj x s) := by
  unfold cloneWith
  cases f x with
  | none => exact ⟨hw, fun _ => rfl, fun _ => rfl⟩
  | some y =>
    refine ⟨hw, fun x => ?_, fun _ => rfl⟩
    simp only [held, List.count_append, List.count_nil]
    omega

theorem cloneLink_led {cfg : Cfg} (ck : K → Option K) (cv : V → Option V) (t : Link K V)
    (boxed : Bool) (hw : Wf s.map) :
    Led d s [] (fun l => l.items) (cloneLink cfg d ck cv boxed t s) := by
  induction t generalizing boxed s with
  | nil => exact Led.pure (R := fun l : Link K V => l.items) hw .nil
  | node k v l r ihl ihr =>
    unfold cloneLink
    refine (cloneBox_led hw boxed).bind fun _ s1 _ hw1 => ?_
    refine (cloneWith_led hw1 ck .inl k).bind fun k' s2 _ hw2 => ?_
    refine (Led.onPanic (cloneWith_led hw2 cv .inr v) (Burns.item (.inl k'))).bind fun v' s3 _ hw3 => ?_
    refine (Led.onPanic (ihl true hw3) ((Burns.item (.inr v')).both (Burns.item (.inl k')))).bind
      fun l' s4 _ hw4 => ?_
    refine (Led.onPanic (ihr true hw4)
      ((Burns.link l').both ((Burns.item (.inr v')).both (Burns.item (.inl k'))))).bind
      fun r' s5 _ hw5 => ?_
    refine (Led.pure (R := fun l : Link K V => l.items) hw5 (.node k' v' l' r')).same fun x => ?_
    simp only [Link.count_node, List.count_append]
    omega

theorem assign_led {f : M (World K V) (Map K V)} (hf : Led d s I (fun m => m.root.items) (f s))
    (hm : ∀ m s', f s = (.ok m, s') → Wf m) : Led d s I (fun _ => []) (assign d f s) := by
  unfold assign
  refine hf.bind fun m s1 h1 hw1 => ?_
  rw [M.get_bind, M.modify_bind]
  refine Led.after (s1 := { s1 with map := m }) (R' := s1.map.root.items) ?_ ((Burns.link _).led (hm m s1 h1))
  refine ⟨hm m s1 h1, fun x => ?_, fun _ => rfl⟩
  simp only [held]
  omega

theorem clone_led {cfg : Cfg} (ck : K → Option K) (cv : V → Option V) (hw : Wf s.map) :
    Led d s [] (fun m => m.root.items) (clone cfg d ck cv s) := by
  unfold clone
  rw [M.get_bind]
  refine (cloneLink_led ck cv s.map.root false hw).bind fun u s1 _ hw1 => ?_
  rw [M.get_bind]
  exact ⟨hw1, fun _ => rfl, fun _ => rfl⟩

theorem clone_wf {cfg : Cfg} (ck : K → Option K) (cv : V → Option V) (hw : Wf s.map) {m : Map K V}
    (h : clone cfg d ck cv s = (.ok m, s')) : Wf m := by
  have h1 := cloneLink_eff (cfg := cfg) (d := d) (s := s) ck cv s.map.root false ⟨rfl, rfl⟩
  unfold clone at h
  rw [M.get_bind, M.bind_apply] at h
  rcases hu : cloneLink cfg d ck cv false s.map.root s with ⟨o, s1⟩
  rw [hu] at h1 h
  cases o with
  | ok u =>
    cases h
    show s.map.len = u.size
    rw [← view_size', Map.mapM_size h1.1, view_size']; exact hw
  | panic => cases h
  | abort => cases h
  | ub => cases h
  | diverge => cases h

theorem runDrop_led {cfg : Cfg} (he : 2 ≤ cfg.esize) (op : SimpleOp K V) (hw : Wf s.map) :
    ∃ o s', op.runDrop cfg d s = (o, s') ∧
      (((∃ r, o = .ok r) ∨ o = .panic) ∧ Step d s s' (op.takes o) (op.gives o) ∨
       (o = .abort ∧ Died d s s' (op.takes o) ∧ op.gives o = [])) := by
  have unit : ∀ {f : M (World K V) Unit} {I : List (K ⊕ V)}, Led d s I (fun _ => []) (f s) →
      ∃ o s', (f >>= fun _ => (Pure.pure .unit : M (World K V) (Ret K V))) s = (o, s') ∧
      (((∃ r, o = .ok r) ∨ o = .panic) ∧ Step d s s' I [] ∨ (o = .abort ∧ Died d s s' I)) := by
    intro f I h
    rcases hu : f s with ⟨o, s1⟩
    rw [hu] at h
    cases o with
    | ok a => exact ⟨_, _, M.bind_ok hu, .inl ⟨.inl ⟨_, rfl⟩, h⟩⟩
    | panic => exact ⟨_, _, M.bind_panic hu, .inl ⟨.inr rfl, h⟩⟩
    | abort => exact ⟨_, _, M.bind_abort hu, .inr ⟨rfl, h⟩⟩
    | ub => exact h.elim
    | diverge => exact h.elim
  have value : ∀ {f : M (World K V) (Option V)} {I : List (K ⊕ V)},
      Led d s I (fun r => (r.map Sum.inr).toList) (f s) →
      ∃ o s', (f >>= fun r => (Pure.pure (.value r) : M (World K V) (Ret K V))) s = (o, s') ∧
      ((∃ r, o = .ok (.value r) ∧ Step d s s' I (r.map Sum.inr).toList) ∨
       (o = .panic ∧ Step d s s' I []) ∨ (o = .abort ∧ Died d s s' I)) := by
    intro f I h
    rcases hu : f s with ⟨o, s1⟩
    rw [hu] at h
    cases o with
    | ok a => exact ⟨_, _, M.bind_ok hu, .inl ⟨_, rfl, h⟩⟩
    | panic => exact ⟨_, _, M.bind_panic hu, .inr (.inl ⟨rfl, h⟩)⟩
    | abort => exact ⟨_, _, M.bind_abort hu, .inr (.inr ⟨rfl, h⟩)⟩
    | ub => exact h.elim
    | diverge => exact h.elim
  cases op with
  | collect cmps src =>
    have hb := building_led (d := d) hw (extend_led (s := s.fresh) he cmps src rfl)
    obtain ⟨o, s', h1, h2⟩ := unit (assign_led hb.1 hb.2)
    exact ⟨o, s', h1, h2.imp id fun h => ⟨h.1, h.2, rfl⟩⟩
  | cloned ck cv =>
    obtain ⟨o, s', h1, h2⟩ := unit (assign_led (clone_led (cfg := cfg) (d := d) ck cv hw)
      fun m s' h => clone_wf ck cv hw h)
    exact ⟨o, s', h1, h2.imp id fun h => ⟨h.1, h.2, rfl⟩⟩
  | clear =>
    obtain ⟨o, s', h1, h2⟩ := unit (f := clear d) (I := []) (assign_led
      (⟨hw, fun _ => rfl, fun _ => rfl⟩ : Step d s s [] [])
      fun m s' h => by cases h; rfl)
    exact ⟨o, s', h1, h2.imp id fun h => ⟨h.1, h.2, rfl⟩⟩
  | extend cmps src =>
    obtain ⟨o, s', h1, h2⟩ := unit (extend_led (d := d) he cmps src hw)
    exact ⟨o, s', h1, h2.imp id fun h => ⟨h.1, h.2, rfl⟩⟩
  | insert c k v =>
    obtain ⟨o, s', h1, h2⟩ := value (insert_led (d := d) he hw c k v)
    refine ⟨o, s', h1, ?_⟩
    rcases h2 with ⟨r, rfl, h2⟩ | ⟨rfl, h2⟩ | ⟨rfl, h2⟩
    · exact .inl ⟨.inl ⟨_, rfl⟩, by cases r <;> exact h2⟩
    · exact .inl ⟨.inr rfl, h2⟩
    · exact .inr ⟨rfl, h2, rfl⟩
  | remove c =>
    obtain ⟨o, s', h1, h2⟩ := value (remove_led (cfg := cfg) (d := d) hw c)
    refine ⟨o, s', h1, ?_⟩
    rcases h2 with ⟨r, rfl, h2⟩ | ⟨rfl, h2⟩ | ⟨rfl, h2⟩
    · exact .inl ⟨.inl ⟨_, rfl⟩, by cases r <;> exact h2⟩
    · exact .inl ⟨.inr rfl, h2⟩
    · exact .inr ⟨rfl, h2, rfl⟩
  | removeEntry c =>
    unfold SimpleOp.runDrop
    obtain ⟨o, m1, h1, ⟨h2, hw1⟩ | ⟨rfl, h2, h3⟩⟩ := Simple.run_sem he (fun _ _ => .eq) hw (.removeEntry c)
    · rcases s.map.root.find_ok_or_panic c 0 with hf | ⟨e, hf⟩
      · rw [sem, hf, Link.del_panic hf] at h2
        obtain ⟨rfl, hr⟩ := Prod.mk.inj h2
        exact ⟨_, _, onMap_eq h1, .inl ⟨.inr rfl, hw1, fun x => by simp only [held, hr, Out.map]; rfl, fun _ => rfl⟩⟩
      · rw [sem, hf] at h2
        obtain ⟨rfl, hr⟩ := Prod.mk.inj h2
        refine ⟨_, _, onMap_eq h1, .inl ⟨.inl ⟨_, rfl⟩, hw1, fun x => ?_, fun _ => rfl⟩⟩
        cases e with
        | none => simp only [held, hr, Link.del_miss hf]; rfl
        | some e =>
          have := Link.del_old hf x
          simp only [held, hr, SimpleOp.takes, SimpleOp.gives, Out.map, List.count_cons, List.count_nil] at *
          omega
    · refine ⟨.abort, _, onMap_eq h1, .inr ⟨rfl, ⟨fun x => ?_, fun _ => rfl⟩, rfl⟩⟩
      simp only [held]; omega
  | getMut c w =>
    unfold SimpleOp.runDrop
    obtain ⟨o, m1, h1, ⟨h2, hw1⟩ | ⟨rfl, h2, h3⟩⟩ := Simple.run_sem he (fun _ _ => .eq) hw (.getMut c w)
    · rcases s.map.root.find_ok_or_panic c 0 with hf | ⟨e, hf⟩
      · rw [sem, hf] at h2
        obtain ⟨rfl, hr⟩ := Prod.mk.inj h2
        exact ⟨_, _, onMap_eq h1, .inl ⟨.inr rfl, hw1, fun x => by simp only [held, hr, Out.map]; rfl, fun _ => rfl⟩⟩
      · rw [sem, hf] at h2
        obtain ⟨rfl, hr⟩ := Prod.mk.inj h2
        refine ⟨_, _, onMap_eq h1, .inl ⟨.inl ⟨_, rfl⟩, hw1, fun x => ?_, fun _ => rfl⟩⟩
        cases e with
        | none => simp only [held, hr]; rfl
        | some e =>
          obtain ⟨l, r, ha⟩ := Link.find_path hf
          have := Link.setAt_count w ha x
          simp only [held, hr, SimpleOp.takes, SimpleOp.gives, Out.map, Option.map_some] at *
          omega
    · exact h2.elim
  | nodeMut path w =>
    unfold SimpleOp.runDrop
    obtain ⟨o, m1, h1, ⟨h2, hw1⟩ | ⟨rfl, h2, h3⟩⟩ := Simple.run_sem he (fun _ _ => .eq) hw (.nodeMut path w)
    · rw [sem] at h2
      obtain ⟨rfl, hr⟩ := Prod.mk.inj h2
      refine ⟨_, _, onMap_eq h1, .inl ⟨.inl ⟨_, rfl⟩, hw1, fun x => ?_, fun _ => rfl⟩⟩
      rw [← view_at]
      cases ha : s.map.root.at' path with
      | nil => simp only [held, hr, Link.setAt_none w ha]; rfl
      | node k v l r =>
        have := Link.setAt_count w ha x
        simp only [held, hr, SimpleOp.takes, SimpleOp.gives, Link.view, BT.label] at *
        omega
    · exact h2.elim
  | _ =>
    unfold SimpleOp.runDrop
    obtain ⟨o, m1, h1, ⟨h2, hw1⟩ | ⟨rfl, h2, h3⟩⟩ := Simple.run_sem he (fun _ _ => .eq) hw _
    · obtain ⟨h4, _⟩ := Simple.sem_cases (fun _ _ => .eq) _ h2.symm
      refine ⟨o, _, onMap_eq h1, .inl ⟨h4.imp id fun h => h.1, hw1, fun x => ?_, fun _ => rfl⟩⟩
      have hr : m1.root = s.map.root := congrArg Prod.snd h2
      simp only [held, hr, SimpleOp.takes, SimpleOp.gives]
    · refine ⟨.abort, _, onMap_eq h1, .inr ⟨rfl, ⟨fun x => ?_, fun _ => rfl⟩, rfl⟩⟩
      simp only [held]; omega

theorem items_count (t : Link K V) (x : K ⊕ V) :
    t.items.count x = (itemsOf t.view.ino).count x := by
  induction t with
  | nil => rfl
  | node k v l r ihl ihr =>
    have h2 : itemsOf (Link.node k v l r).view.ino =
        itemsOf l.view.ino ++ ([.inl k] ++ ([.inr v] ++ itemsOf r.view.ino)) := by
      simp [itemsOf, Link.view, BT.ino]
    rw [h2, Link.count_node, ihl, ihr]
    simp only [List.count_append]
    omega

end World

open World in
/-- The accounts of a history. -/
theorem history_led {cfg : Cfg} (he : 2 ≤ cfg.esize) (ops : List (Drops K V × SimpleOp K V))
    {s : World K V} (hw : Wf s.map) :
    ∃ os s', simpleHistoryDrop cfg ops s = (os, s') ∧
      (∀ o ∈ os, (∃ r, o = .ok r) ∨ o = .panic ∨ o = .abort) ∧
      (os.length = ops.length ∨ Out.abort ∈ os) ∧
      ((∀ x ∈ ops, x.1.ret = true) → s'.leaked = s.leaked) ∧
      (Out.abort ∉ os → Wf s'.map ∧ ∀ x,
        held x s + (ledger SimpleOp.takes ops os).count x + s'.made.count x =
          held x s' + (ledger SimpleOp.gives ops os).count x + s.made.count x) ∧
      ∀ x, s'.dropped.count x + (s'.leaked.map Sum.inr).count x +
          (ledger SimpleOp.gives ops os).count x + s.made.count x ≤
        held x s + (ledger SimpleOp.takes ops os).count x + s'.made.count x := by
  unfold simpleHistoryDrop
  induction ops generalizing s with
  | nil =>
    exact ⟨[], s, rfl, by simp, .inl rfl, fun _ => rfl, fun _ => ⟨hw, fun x => rfl⟩, fun x => by
      simp only [ledger, List.zip_nil_left, List.flatMap_nil, List.count_nil, held]; omega⟩
  | cons op ops ih =>
    obtain ⟨d, op⟩ := op
    obtain ⟨o, s1, h1, ⟨h2, h3⟩ | ⟨rfl, h2, h3⟩⟩ := runDrop_led (d := d) he op hw
    · obtain ⟨os, s', g1, g2, g3, g4, g5, g6⟩ := ih h3.wf
      have hl : ∀ (f : SimpleOp K V → Out (Ret K V) → List (K ⊕ V)) x,
          (ledger f ((d, op) :: ops) (o :: os)).count x = (f op o).count x + (ledger f ops os).count x := by
        intro f x
        simp only [ledger, List.zip_cons_cons, List.flatMap_cons, List.count_append]
      refine ⟨o :: os, s', ?_, ?_, ?_, ?_, ?_, ?_⟩
      · rcases h2 with ⟨r, rfl⟩ | rfl <;> simp only [execute, h1, g1]
      · intro o' ho'
        rcases List.mem_cons.1 ho' with rfl | ho'
        · rcases h2 with h2 | h2
          · exact .inl h2
          · exact .inr (.inl h2)
        · exact g2 o' ho'
      · refine g3.imp (fun h => by rw [List.length_cons, List.length_cons, h]) fun h => List.mem_cons_of_mem _ h
      · intro h
        exact (g4 fun x hx => h x (List.mem_cons_of_mem _ hx)).trans (h3.ret (h (d, op) (by simp)))
      · intro hn
        obtain ⟨i1, i2⟩ := g5 fun h => hn (List.mem_cons_of_mem _ h)
        refine ⟨i1, fun x => ?_⟩
        have := i2 x
        have := h3.eq x
        rw [hl, hl]
        omega
      · intro x
        have := g6 x
        have := h3.eq x
        rw [hl, hl]
        omega
    · refine ⟨[.abort], s1, by simp only [execute, h1], by simp, .inr (by simp), ?_, by simp, ?_⟩
      · intro h
        exact h2.ret (h (d, op) (by simp))
      · intro x
        have hl : ∀ (f : SimpleOp K V → Out (Ret K V) → List (K ⊕ V)) x,
            (ledger f ((d, op) :: ops) [.abort]).count x = (f op .abort).count x := by
          intro f x
          simp [ledger, List.zip_cons_cons]
        have := h2.le x
        rw [hl, hl, h3]
        simp only [List.count_nil]
        omega
end BST.Simple
