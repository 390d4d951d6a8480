import Verif.MapDiscards
import Verif.Proofs.AccountRun
import Verif.Proofs.Dtors
import Verif.Proofs.SimpleHot
/-!
# Destructors in `bst`: every key and value is accounted for
-/
set_option linter.unusedSimpArgs false
set_option linter.unusedSectionVars false
namespace BST
open BSTMap Tree
variable {K V : Type}

section
variable [DecidableEq K] [DecidableEq V]

theorem itemsOf_inl (l : List (K × V)) (k : K) :
    (itemsOf l).count (.inl k) = (l.map (·.1)).count k := by
  induction l with
  | nil => rfl
  | cons e l ih =>
    have : itemsOf (e :: l) = [Sum.inl e.1] ++ ([Sum.inr e.2] ++ itemsOf l) := rfl
    rw [this, List.count_append, List.count_append, ih]
    simp only [List.map_cons, List.count_cons, List.count_nil]
    have h1 : ((Sum.inl e.1 : K ⊕ V) == Sum.inl k) = (e.1 == k) := by
      rw [Bool.eq_iff_iff]; simp
    have h2 : ((Sum.inr e.2 : K ⊕ V) == Sum.inl k) = false := by simp
    rw [h1, h2]
    simp only [Bool.false_eq_true, if_false]
    omega

theorem itemsOf_inr (l : List (K × V)) (v : V) :
    (itemsOf l).count (.inr v) = (l.map (·.2)).count v := by
  induction l with
  | nil => rfl
  | cons e l ih =>
    have : itemsOf (e :: l) = [Sum.inl e.1] ++ ([Sum.inr e.2] ++ itemsOf l) := rfl
    rw [this, List.count_append, List.count_append, ih]
    simp only [List.map_cons, List.count_cons, List.count_nil]
    have h1 : ((Sum.inr e.2 : K ⊕ V) == Sum.inr v) = (e.2 == v) := by
      rw [Bool.eq_iff_iff]; simp
    have h2 : ((Sum.inl e.1 : K ⊕ V) == Sum.inr v) = false := by simp
    rw [h1, h2]
    simp only [Bool.false_eq_true, if_false]
    omega

theorem itemsOf_perm {l l' : List (K × V)} (h : l.Perm l') (x : K ⊕ V) :
    (itemsOf l).count x = (itemsOf l').count x := by
  cases x with
  | inl k => rw [itemsOf_inl, itemsOf_inl]; exact (h.map _).count_eq _
  | inr v => rw [itemsOf_inr, itemsOf_inr]; exact (h.map _).count_eq _

theorem count_map_inl (l : List K) (x : K ⊕ V) :
    (l.map Sum.inl).count x = x.elim (fun k => l.count k) (fun _ => 0) := by
  induction l with
  | nil => cases x <;> rfl
  | cons a l ih =>
    rw [List.map_cons, List.count_cons, ih]
    cases x with
    | inl k =>
      have h1 : ((Sum.inl a : K ⊕ V) == Sum.inl k) = (a == k) := by rw [Bool.eq_iff_iff]; simp
      simp only [Sum.elim_inl, List.count_cons, h1]
    | inr v => simp

theorem count_map_inr (l : List V) (x : K ⊕ V) :
    (l.map Sum.inr).count x = x.elim (fun _ => 0) (fun v => l.count v) := by
  induction l with
  | nil => cases x <;> rfl
  | cons a l ih =>
    rw [List.map_cons, List.count_cons, ih]
    cases x with
    | inr k =>
      have h1 : ((Sum.inr a : K ⊕ V) == Sum.inr k) = (a == k) := by rw [Bool.eq_iff_iff]; simp
      simp only [Sum.elim_inr, List.count_cons, h1]
    | inl v => simp

theorem Balanced.count {t t' : Tree K V} {vi vo : List V} {ki ko : List K} {g : List (K × V)}
    (h : Balanced t t' vi vo ki ko g) (x : K ⊕ V) :
    (itemsOf t.kv).count x + (ki.map Sum.inl).count x + (vi.map Sum.inr).count x =
      (itemsOf t'.kv).count x + (ko.map Sum.inl).count x + (vo.map Sum.inr).count x +
        (itemsOf g).count x := by
  simp only [count_map_inl, count_map_inr]
  cases x with
  | inl k =>
    have := h.keys.count_eq k
    simp only [List.count_append] at this
    simp only [itemsOf_inl, Sum.elim_inl]
    omega
  | inr v =>
    have := h.values.count_eq v
    simp only [List.count_append] at this
    simp only [itemsOf_inr, Sum.elim_inr]
    omega
end

theorem contents_ok {cfg : Cfg} {m : BSTMap K V} {t : Tree K V} (h : Shape cfg m t) :
    m.contents = itemsOf t.kv := by
  unfold BSTMap.contents
  rw [entriesIn_ok h]
  rfl

theorem gone_eq {m m' : BSTMap K V} {l : List (InnerNode K V)}
    (h : m'.nodes.dropped = m.nodes.dropped ++ l) :
    World.gone m m' = itemsOf (l.map fun x => (x.key, x.value)) := by
  unfold World.gone itemsOf
  rw [h, List.drop_left, List.flatMap_map]

theorem gone_nil {m m' : BSTMap K V} (h : m'.nodes.dropped = m.nodes.dropped) :
    World.gone m m' = [] := by
  rw [gone_eq (l := []) (by rw [h, List.append_nil])]; rfl

namespace BSTMap.World
open Simple (Drops)
variable {α β : Type} [DecidableEq K] [DecidableEq V] {cfg : Cfg}
variable {d : Drops K V} {s s' : World K V} {I J : List (K ⊕ V)} {R : α → List (K ⊕ V)}

/-- How often `x` is there: in the map, dropped, or leaked. -/
def held (x : K ⊕ V) (s : World K V) : Nat :=
  s.map.contents.count x + s.dropped.count x + (s.leaked.map Sum.inr).count x

/-- How often `x` was in a map whose drop was cut short. -/
def cutCount (x : K ⊕ V) (s : World K V) : Nat := (s.cut.flatMap contents).count x

/-- The destructor of a key or value in `m` panics. -/
def Bad (d : Drops K V) (m : BSTMap K V) : Prop :=
  ∃ e ∈ entriesIn .ino m, d.key e.1 = true ∨ d.value e.2 = true

/-- A step that took `I` and gave `R`. -/
structure Step (cfg : Cfg) (d : Drops K V) (s s' : World K V) (I R : List (K ⊕ V)) : Prop where
  wf : Valid cfg s'.map
  le : ∀ x, held x s' + R.count x + s.made.count x ≤ held x s + I.count x + s'.made.count x
  ge : ∀ x, held x s + I.count x + s'.made.count x + cutCount x s ≤
    held x s' + R.count x + s.made.count x + cutCount x s'
  ret : d.ret = true → s'.leaked = s.leaked
  cut : ∀ m ∈ s'.cut, m ∈ s.cut ∨ Bad d m

/-- A step that took `I` and aborted. -/
structure Died (d : Drops K V) (s s' : World K V) (I : List (K ⊕ V)) : Prop where
  le : ∀ x, s'.dropped.count x + (s'.leaked.map Sum.inr).count x + s.made.count x ≤
    held x s + I.count x + s'.made.count x
  ret : d.ret = true → s'.leaked = s.leaked

def Led (cfg : Cfg) (d : Drops K V) (s : World K V) (I : List (K ⊕ V)) (R : α → List (K ⊕ V)) :
    Out α × World K V → Prop
  | (.ok a, s') => Step cfg d s s' I (R a)
  | (.panic, s') => Step cfg d s s' I []
  | (.abort, s') => Died d s s' I
  | _ => False

theorem Step.trans {s1 s2 : World K V} {Q : List (K ⊕ V)} {R : List (K ⊕ V)} (h : Step cfg d s s1 I R)
    (h' : Step cfg d s1 s2 R Q) : Step cfg d s s2 I Q where
  wf := h'.wf
  le x := by have := h.le x; have := h'.le x; omega
  ge x := by have := h.ge x; have := h'.ge x; omega
  ret hd := (h'.ret hd).trans (h.ret hd)
  cut m hm := (h'.cut m hm).elim (h.cut m) .inr

theorem Step.died {s1 s2 : World K V} {R : List (K ⊕ V)} (h : Step cfg d s s1 I R)
    (h' : Died d s1 s2 R) : Died d s s2 I where
  le x := by have := h.le x; have := h'.le x; omega
  ret hd := (h'.ret hd).trans (h.ret hd)

theorem Step.dies {R : List (K ⊕ V)} (h : Step cfg d s s' I R) : Died d s s' I where
  le x := by have := h.le x; simp only [held] at *; omega
  ret := h.ret

theorem Step.more {R : List (K ⊕ V)} (h : Step cfg d s s' I R) (J : List (K ⊕ V)) :
    Step cfg d s s' (I ++ J) (R ++ J) where
  wf := h.wf
  le x := by have := h.le x; simp only [List.count_append]; omega
  ge x := by have := h.ge x; simp only [List.count_append]; omega
  ret := h.ret
  cut := h.cut

theorem Step.refl (h : Valid cfg s.map) (I : List (K ⊕ V)) : Step cfg d s s I I :=
  ⟨h, fun _ => Nat.le_refl _, fun _ => Nat.le_refl _, fun _ => rfl, fun _ h => .inl h⟩

theorem Led.after {s1 : World K V} {R' : List (K ⊕ V)} {r : Out α × World K V} (h : Step cfg d s s1 I R')
    (h' : Led cfg d s1 R' R r) : Led cfg d s I R r := by
  obtain ⟨o, s2⟩ := r
  cases o with
  | ok a => exact h.trans h'
  | panic => exact h.trans h'
  | abort => exact h.died h'
  | ub => exact h'
  | diverge => exact h'

theorem Led.bind {f : M (World K V) α} {g : α → M (World K V) β} {Q : β → List (K ⊕ V)}
    (hf : Led cfg d s I R (f s))
    (hg : ∀ a s1, f s = (.ok a, s1) → Valid cfg s1.map → Led cfg d s1 (R a) Q (g a s1)) :
    Led cfg d s I Q ((f >>= g) s) := by
  rw [M.bind_apply]
  rcases he : f s with ⟨o, s1⟩
  rw [he] at hf
  cases o with
  | ok a => exact Led.after hf (hg a s1 he hf.wf)
  | panic => exact hf
  | abort => exact hf
  | ub => exact hf
  | diverge => exact hf

theorem Led.same (h : ∀ x, I.count x = J.count x) {r : Out α × World K V} (hl : Led cfg d s I R r) :
    Led cfg d s J R r := by
  obtain ⟨o, s1⟩ := r
  cases o with
  | ok a => exact ⟨Step.wf hl, fun x => by rw [← h x]; exact Step.le hl x,
      fun x => by rw [← h x]; exact Step.ge hl x, Step.ret hl, Step.cut hl⟩
  | panic => exact ⟨Step.wf hl, fun x => by rw [← h x]; exact Step.le hl x,
      fun x => by rw [← h x]; exact Step.ge hl x, Step.ret hl, Step.cut hl⟩
  | abort => exact ⟨fun x => by rw [← h x]; exact Died.le hl x, Died.ret hl⟩
  | ub => exact hl
  | diverge => exact hl

theorem Led.pure (hw : Valid cfg s.map) (a : α) :
    Led cfg d s (R a) R ((Pure.pure a : M (World K V) α) s) := Step.refl hw _

theorem Led.panic (hw : Valid cfg s.map) : Led cfg d s [] R ((M.panic : M (World K V) α) s) :=
  Step.refl hw _

/-- `f` drops `J`. -/
def Pays (cfg : Cfg) (d : Drops K V) (f : M (World K V) Unit) (J : List (K ⊕ V)) : Prop :=
  ∀ s, Valid cfg s.map → Led cfg d s J (fun _ => []) (f s)

theorem Pays.unwind {f : M (World K V) Unit} (h : Pays cfg d f J) (hw : Valid cfg s.map) :
    Led cfg d s J R (Simple.unwind f s : Out α × World K V) := by
  have h1 := h s hw
  unfold Simple.unwind
  rcases he : f s with ⟨o, s1⟩
  rw [he] at h1
  cases o with
  | ok a => exact h1
  | panic => exact Step.dies h1
  | abort => exact h1
  | ub => exact h1
  | diverge => exact h1

/-- `f` may also own `J`, which `b` drops if `f` panics. -/
theorem Led.onPanic {f : M (World K V) α} {b : M (World K V) Unit} (hf : Led cfg d s I R (f s))
    (hb : Pays cfg d b J) : Led cfg d s (I ++ J) (fun a => R a ++ J) (Simple.onPanic f b s) := by
  unfold Simple.onPanic
  rcases he : f s with ⟨o, s1⟩
  rw [he] at hf
  cases o with
  | ok a => exact Step.more hf J
  | panic => exact Led.after (Step.more hf J) (hb.unwind (Step.wf hf))
  | abort => exact ⟨fun x => by have := Died.le hf x; simp only [List.count_append]; omega, Died.ret hf⟩
  | ub => exact hf
  | diverge => exact hf

theorem Pays.both {f g : M (World K V) Unit} (hf : Pays cfg d f I) (hg : Pays cfg d g J) :
    Pays cfg d (Simple.both f g) (I ++ J) := fun s hw =>
  Led.bind (Led.onPanic (hf s hw) hg) fun _ s1 _ hw1 => hg s1 hw1

theorem Pays.nil : Pays cfg d (Pure.pure ()) [] := fun _ hw => Step.refl hw _

theorem Pays.item (x : K ⊕ V) : Pays cfg d (dropItem d x) [x] := by
  intro s hw
  have h : Step cfg d s { s with dropped := s.dropped ++ [x] } [x] [] :=
    ⟨hw, fun y => by simp only [held, List.count_append, List.count_nil]; omega,
      fun y => by simp only [held, cutCount, List.count_append, List.count_nil]; omega, fun _ => rfl, fun _ h => .inl h⟩
  unfold dropItem
  split <;> exact h

theorem Pays.items (l : List (K × V)) : Pays cfg d (dropItems d l) (itemsOf l) := by
  induction l with
  | nil => exact Pays.nil
  | cons e l ih => exact (Pays.item _).both ((Pays.item _).both ih)

/-- Dropping a map. -/
theorem Pays.map {m : BSTMap K V} (hm : Valid cfg m) : Pays cfg d (dropMap cfg d m) m.contents := by
  intro s hw
  obtain ⟨t, h⟩ := hm
  have hp : ((m.nodes.liveVals).map fun x => (x.key, x.value)).Perm t.kv := h.liveVals_perm
  unfold dropMap
  obtain ⟨s2, _, _, ⟨h3, _, h5⟩ | ⟨h3, _, hbad, h5⟩⟩ := Slab.drop_spec (d := nodeInfo d) h.slab
  · have hd : BSTMap.drop cfg (nodeInfo d) m = (.ok (), { m with nodes := s2 }) := by
      simp only [BSTMap.drop, onNodes, h3]
    rw [if_pos (show (nodeInfo d).needsDrop = true from rfl)] at h5
    have hg : World.gone m { m with nodes := s2 } = _ := gone_eq (m' := { m with nodes := s2 }) h5
    rw [hd, contents_ok h]
    dsimp only
    rw [hg]
    refine ⟨hw, fun x => ?_, fun x => ?_, fun _ => rfl, fun _ h => .inl h⟩
    all_goals
      have := itemsOf_perm hp x
      simp only [held, cutCount, List.count_append, List.count_nil]
      omega
  · have hd : BSTMap.drop cfg (nodeInfo d) m = (.panic, { m with nodes := s2 }) := by
      simp only [BSTMap.drop, onNodes, h3]
    have hg : World.gone m { m with nodes := s2 } = _ := gone_eq (m' := { m with nodes := s2 }) h5
    obtain ⟨rest, hr⟩ := Slab.dropRun_prefix (nodeInfo d) m.nodes.liveVals
    have hst : Step cfg d s
        { s with dropped := s.dropped ++ World.gone m { m with nodes := s2 }, cut := s.cut ++ [m] }
        m.contents [] := by
      rw [hg]
      have key : ∀ x, m.contents.count x =
          (itemsOf ((Slab.dropRun (nodeInfo d) m.nodes.liveVals).1.map fun x => (x.key, x.value))).count x +
            (itemsOf (rest.map fun x => (x.key, x.value))).count x := by
        intro x
        rw [contents_ok h, ← itemsOf_perm hp x, ← List.count_append]
        conv => lhs; rw [← hr]
        simp only [itemsOf, List.map_append, List.flatMap_append]
      have hbad : Bad d m := by
        obtain ⟨v, hv, hp'⟩ := hbad
        refine ⟨(v.key, v.value), ?_, by simpa [nodeInfo] using hp'⟩
        rw [entriesIn_ok h]
        exact hp.mem_iff.1 (List.mem_map_of_mem hv)
      refine ⟨hw, fun x => ?_, fun x => ?_, fun _ => rfl, fun m' hm' => (List.mem_append.1 hm').imp id fun h => by
        rw [List.mem_singleton.1 h]; exact hbad⟩
      all_goals
        have := key x
        simp only [held, cutCount, List.count_append, List.count_nil, List.flatMap_append,
          List.flatMap_cons, List.flatMap_nil, List.append_nil]
        omega
    rw [hd]
    dsimp only
    split
    · exact hst.dies
    · exact hst

omit [DecidableEq K] [DecidableEq V] in
theorem dropRun_split (l : List (InnerNode K V)) :
    ∃ a b, l = a ++ b ∧ (∀ x ∈ a, d.key x.key = false ∧ d.value x.value = false) ∧
      match b with
      | [] => (Slab.dropRun (nodeInfo d) l).1 = a
      | x :: _ => (d.key x.key || d.value x.value) = true ∧ (Slab.dropRun (nodeInfo d) l).1 = a ++ [x] := by
  induction l with
  | nil => exact ⟨[], [], rfl, by simp, rfl⟩
  | cons x l ih =>
    have hn : (nodeInfo d).panics x = (d.key x.key || d.value x.value) := rfl
    by_cases hx : (d.key x.key || d.value x.value) = true
    · exact ⟨[], x :: l, rfl, by simp, hx, by simp [Slab.dropRun, hn, hx]⟩
    · obtain ⟨a, b, h1, h2, h3⟩ := ih
      have hx' : d.key x.key = false ∧ d.value x.value = false := by simpa using hx
      refine ⟨x :: a, b, by rw [h1]; rfl, ?_, ?_⟩
      · intro y hy
        rcases List.mem_cons.1 hy with rfl | hy
        · exact hx'
        · exact h2 y hy
      · cases b with
        | nil => simpa [Slab.dropRun, hn, hx] using h3
        | cons y b => simpa [Slab.dropRun, hn, hx] using h3

omit [DecidableEq K] [DecidableEq V] in
theorem drop_map (s : World K V) : (drop cfg d s).2.map = BSTMap.new := by
  unfold drop
  rw [M.get_bind, M.modify_bind]
  unfold dropMap
  split <;> rfl

omit [DecidableEq K] [DecidableEq V] in
/-- Dropping a map. -/
theorem dropMap_spec {m : BSTMap K V} {t : Tree K V} (h : Shape cfg m t) (d : Drops K V) (s : World K V) :
    ∃ o s' l rest, dropMap cfg d m s = (o, s') ∧ s'.map = s.map ∧ (entriesIn .ino m).Perm (l ++ rest) ∧
      (∀ e ∈ l, d.key e.1 = false ∧ d.value e.2 = false) ∧
      match rest with
      | [] => o = .ok () ∧ s'.dropped = s.dropped ++ itemsOf l
      | e :: _ => (d.key e.1 || d.value e.2) = true ∧ s'.dropped = s.dropped ++ itemsOf (l ++ [e]) ∧
          o = if d.key e.1 && d.value e.2 then .abort else .panic := by
  have hp : ((m.nodes.liveVals).map fun x => (x.key, x.value)).Perm (entriesIn .ino m) := by
    rw [entriesIn_ok h]; exact h.liveVals_perm
  unfold dropMap
  obtain ⟨a, b, hab, ha, hb⟩ := dropRun_split (d := d) m.nodes.liveVals
  have hperm : (entriesIn .ino m).Perm
      ((a.map fun x => (x.key, x.value)) ++ b.map fun x => (x.key, x.value)) := by
    rw [← List.map_append, ← hab]; exact hp.symm
  have hcalm : ∀ e ∈ a.map fun x => (x.key, x.value), d.key e.1 = false ∧ d.value e.2 = false := by
    intro e he
    obtain ⟨x, hx, rfl⟩ := List.mem_map.1 he
    exact ha x hx
  obtain ⟨s2, _, _, ⟨h3, hn, h5⟩ | ⟨h3, _, hbad, h5⟩⟩ := Slab.drop_spec (d := nodeInfo d) h.slab
  · have hd : BSTMap.drop cfg (nodeInfo d) m = (.ok (), { m with nodes := s2 }) := by
      simp only [BSTMap.drop, onNodes, h3]
    rw [if_pos (show (nodeInfo d).needsDrop = true from rfl)] at h5
    have hg : World.gone m { m with nodes := s2 } = _ := gone_eq (m' := { m with nodes := s2 }) h5
    cases b with
    | cons x b =>
      have := hn rfl x (by rw [hab]; simp)
      obtain ⟨hb, _⟩ := hb
      rw [show (nodeInfo d).panics x = (d.key x.key || d.value x.value) from rfl, hb] at this
      cases this
    | nil =>
      rw [List.append_nil] at hab
      refine ⟨_, _, _, [], by rw [hd], by rfl, hperm, hcalm, rfl, ?_⟩
      dsimp only
      rw [hg, hab]
  · have hd : BSTMap.drop cfg (nodeInfo d) m = (.panic, { m with nodes := s2 }) := by
      simp only [BSTMap.drop, onNodes, h3]
    have hg : World.gone m { m with nodes := s2 } = _ := gone_eq (m' := { m with nodes := s2 }) h5
    cases b with
    | nil =>
      obtain ⟨x, hx, hx'⟩ := hbad
      rw [hab, List.append_nil] at hx
      rw [show (nodeInfo d).panics x = (d.key x.key || d.value x.value) from rfl, (ha x hx).1,
        (ha x hx).2] at hx'
      cases hx'
    | cons x b =>
      obtain ⟨hb1, hb2⟩ := hb
      rw [hb2] at hg h5
      refine ⟨_, _, _, (x.key, x.value) :: b.map fun x => (x.key, x.value), by rw [hd], by rfl, hperm, hcalm, hb1, ?_, ?_⟩
      · dsimp only
        rw [hg, List.map_append]; rfl
      · dsimp only
        rw [h5, ← List.append_assoc, List.getLast?_append]
        simp

omit [DecidableEq K] [DecidableEq V] in
/-- The map goes out of scope. -/
theorem drop_spec {t : Tree K V} (h : Shape cfg s.map t) (d : Drops K V) :
    ∃ o s' l rest, drop cfg d s = (o, s') ∧ (entriesIn .ino s.map).Perm (l ++ rest) ∧
      (∀ e ∈ l, d.key e.1 = false ∧ d.value e.2 = false) ∧
      match rest with
      | [] => o = .ok () ∧ s'.dropped = s.dropped ++ itemsOf l
      | e :: _ => (d.key e.1 || d.value e.2) = true ∧ s'.dropped = s.dropped ++ itemsOf (l ++ [e]) ∧
          o = if d.key e.1 && d.value e.2 then .abort else .panic := by
  obtain ⟨o, s', l, rest, h1, _, h2, h3, h4⟩ := dropMap_spec h d { s with map := BSTMap.new }
  exact ⟨o, s', l, rest, h1, h2, h3, h4⟩

theorem returning_led (hw : Valid cfg s.map) (r : V) (k : K) :
    Led cfg d s [.inl k, .inr r] (fun _ => [.inr r]) (returning d r (dropItem d (.inl k)) s) := by
  have h3 : Step cfg d s { s with dropped := s.dropped ++ [.inl k] } [.inl k, .inr r] [.inr r] :=
    ⟨hw, fun x => by simp only [held, List.count_append, List.count_cons, List.count_nil]; omega,
      fun x => by simp only [held, cutCount, List.count_append, List.count_cons, List.count_nil]; omega,
      fun _ => rfl, fun _ h => .inl h⟩
  have ha : dropItem d (.inl k) s = (if d.key k then .panic else .ok (),
    { s with dropped := s.dropped ++ [.inl k] }) := rfl
  unfold returning
  rw [ha]
  cases hk : d.key k with
  | false => exact h3
  | true =>
    simp only [if_true]
    split
    · exact Led.after h3 ((Pays.item (.inr r)).unwind hw)
    · rename_i hr
      refine ⟨hw, fun x => ?_, fun x => ?_, fun h => absurd h hr, fun _ h => .inl h⟩
      all_goals
        simp only [held, cutCount, List.map_append, List.count_append, List.count_cons, List.count_nil,
          List.map_cons, List.map_nil]
        omega

omit [DecidableEq K] [DecidableEq V] in
theorem onMap_eq {f : M (BSTMap K V) α} {o : Out α} {m : BSTMap K V} (h : f s.map = (o, m)) :
    onMap f s = (o, { s with map := m, dropped := s.dropped ++ gone s.map m }) := by
  unfold onMap; rw [h]

/-- A step of the map. -/
theorem Step.onMap {m : BSTMap K V} {t t' : Tree K V} {vi vo : List V} {ki ko : List K}
    {g : List (InnerNode K V)}
    (h : Shape cfg s.map t) (h' : Shape cfg m t') (hd : m.nodes.dropped = s.map.nodes.dropped ++ g)
    (hb : Balanced t t' vi vo ki ko (g.map fun x => (x.key, x.value))) :
    Step cfg d s { s with map := m, dropped := s.dropped ++ gone s.map m }
      (ki.map .inl ++ vi.map .inr) (ko.map .inl ++ vo.map .inr) := by
  rw [gone_eq hd]
  refine ⟨⟨t', h'⟩, fun x => ?_, fun x => ?_, fun _ => rfl, fun _ h => .inl h⟩
  all_goals
    have := hb.count x
    simp only [held, cutCount, contents_ok h, contents_ok h', List.count_append]
    omega

theorem onMap_quiet {m : BSTMap K V} {t : Tree K V} {f : M (BSTMap K V) α} {o : Out α}
    (h : Shape cfg s.map t) (hf : f s.map = (o, m)) (ho : o.Safe) (h' : Shape cfg m t)
    (hd : m.nodes.dropped = s.map.nodes.dropped) :
    Led cfg d s [] (fun _ => []) (onMap f s) := by
  rw [onMap_eq hf]
  have := Step.onMap (d := d) (g := []) h h' (by rw [hd, List.append_nil]) (Balanced.same t)
  cases o with
  | ok a => exact this
  | panic => exact this
  | abort => exact this.dies
  | ub => exact ho
  | diverge => exact ho

theorem insert_led (hw : Valid cfg s.map) (c : Probe K) (k : K) (v : V) :
    Led cfg d s [.inl k, .inr v] (fun r => (r.map Sum.inr).toList) (insert cfg d c k v s) := by
  obtain ⟨t, h⟩ := hw
  unfold insert
  have hb : Pays cfg d (Simple.both (dropItem d (.inr v)) (dropItem d (.inl k))) ([.inr v] ++ [.inl k]) :=
    (Pays.item _).both (Pays.item _)
  rcases BST.insert_cases h c k v with ⟨e, p, m, hf, h1, h2, h3, _⟩ | ⟨o, h1, h2⟩
  · have ha : Simple.onPanic (onMap (BSTMap.insert cfg c k v))
        (Simple.both (dropItem d (.inr v)) (dropItem d (.inl k))) s =
        (.ok (e.map (·.2.2)), { s with map := m, dropped := s.dropped ++ gone s.map m }) := by
      unfold Simple.onPanic; rw [onMap_eq h1]
    rw [M.bind_ok ha]
    have hst := Step.onMap (d := d) (g := []) h h2 (by rw [h3, List.append_nil]) (Balanced.ins p k v hf)
    cases e with
    | none => exact hst
    | some e =>
      have h4 : Step cfg d s { s with map := m, dropped := s.dropped ++ gone s.map m }
          [.inl k, .inr v] [.inl k, .inr e.2.2] := by
        refine ⟨hst.wf, fun x => ?_, fun x => ?_, fun _ => rfl, fun _ h => .inl h⟩
        · have := hst.le x
          simp only [Option.map_some, Option.toList_some, Option.isNone_some, Bool.false_eq_true, if_false,
            List.map_nil, List.map_cons, List.nil_append, List.count_cons, List.count_nil] at this ⊢
          omega
        · have := hst.ge x
          simp only [Option.map_some, Option.toList_some, Option.isNone_some, Bool.false_eq_true, if_false,
            List.map_nil, List.map_cons, List.nil_append, List.count_cons, List.count_nil] at this ⊢
          omega
      refine Led.after h4 ?_
      exact Led.bind (returning_led h4.wf e.2.2 k) fun _ s1 _ hw1 =>
        Led.pure (R := fun r : Option V => (r.map Sum.inr).toList) hw1 (some e.2.2)
  · refine Led.bind (R := fun _ => ([.inr v, .inl k] : List (K ⊕ V))) ?_ (fun a s1 he => ?_)
    · have := Led.onPanic (R := fun _ => ([] : List (K ⊕ V))) (onMap_quiet (d := d) h h1 (by
        rcases h2 with ⟨rfl, _⟩ | ⟨rfl | rfl, _⟩ <;> trivial) h rfl) hb
      refine Led.same (fun x => ?_) this
      simp only [List.count_append, List.count_cons, List.count_nil, List.nil_append]
      omega
    · exfalso
      unfold Simple.onPanic at he
      rw [onMap_eq h1] at he
      rcases h2 with ⟨rfl, _⟩ | ⟨rfl | rfl, _⟩
      · simp only [Simple.unwind] at he
        split at he <;> cases he
      · simp only [Simple.unwind] at he
        split at he <;> cases he
      · cases he

theorem remove_led (hw : Valid cfg s.map) (c : Probe K) :
    Led cfg d s [] (fun r => (r.map Sum.inr).toList) (remove cfg d c s) := by
  obtain ⟨t, h⟩ := hw
  unfold remove
  rcases removeEntry_account h c with ⟨e, m, hf, h1, h2, h3⟩ | ⟨_, h1⟩
  · rw [M.bind_ok (onMap_eq h1)]
    have hst := Step.onMap (d := d) (g := []) h h2 (by rw [h3, List.append_nil]) (Balanced.del hf)
    cases e with
    | none => exact hst
    | some e =>
      refine Led.after hst ?_
      exact Led.bind (returning_led hst.wf e.2.2 e.2.1) fun _ s1 _ hw1 =>
        Led.pure (R := fun r : Option V => (r.map Sum.inr).toList) hw1 (some e.2.2)
  · rw [M.bind_panic (onMap_eq h1)]
    exact Step.onMap (d := d) (g := []) h h (by rw [List.append_nil]) (Balanced.same t)

theorem insertStmt_led (hw : Valid cfg s.map) (c : Probe K) (k : K) (v : V) :
    Led cfg d s [.inl k, .inr v] (fun _ => []) (insertStmt cfg d c k v s) := by
  unfold insertStmt
  refine (insert_led hw c k v).bind fun e s1 _ hw1 => ?_
  cases e with
  | none => exact Led.pure (R := fun _ : Unit => ([] : List (K ⊕ V))) hw1 ()
  | some e => exact Pays.item _ s1 hw1

theorem insertAll_led (cmps : Nat → K → Probe K) (l : List (K × V))
    (n : Nat) (hw : Valid cfg s.map) :
    Led cfg d s (itemsOf l) (fun _ => []) (insertAll cfg d cmps n l s) := by
  induction l generalizing n s with
  | nil => exact Led.pure (R := fun _ : Unit => ([] : List (K ⊕ V))) hw ()
  | cons e l ih =>
    obtain ⟨k, v⟩ := e
    exact Led.bind (Led.onPanic (insertStmt_led hw (cmps n k) k v) (Pays.items l))
      fun _ s1 _ hw1 => ih (n + 1) hw1

theorem inserts_led (cmps : Nat → K → Probe K) (src : BSTMap.Source K V) (hw : Valid cfg s.map) :
    Led cfg d s (itemsOf src.items) (fun _ => [])
      ((do insertAll cfg d cmps 0 src.items; if src.panics then M.panic else pure () :
        M (World K V) Unit) s) := by
  refine (insertAll_led cmps src.items 0 hw).bind fun _ s1 _ hw1 => ?_
  split
  · exact Led.panic hw1
  · exact Led.pure (R := fun _ : Unit => ([] : List (K ⊕ V))) hw1 ()

theorem extend_led (cmps : Nat → K → Probe K) (src : BSTMap.Source K V) (hw : Valid cfg s.map) :
    Led cfg d s (itemsOf src.items) (fun _ => []) (extend cfg d cmps src s) := by
  obtain ⟨t, h⟩ := hw
  obtain ⟨o, m, h1, h2, h3⟩ := reserve_kept h (src.hint.2.getD src.hint.1)
  exact Led.bind (Led.onPanic (onMap_quiet h h1 h3 h2.shape h2.dropped) (Pays.items src.items))
    fun _ s1 _ hw1 => inserts_led cmps src hw1

theorem grow_led (n : Nat) (hw : Valid cfg s.map) :
    Led cfg d s [] (fun _ => []) (onMap (BSTMap.onNodes (Slab.onItems (Arena.growTo cfg n))) s) := by
  obtain ⟨t, h⟩ := hw
  obtain ⟨o, m, h1, h2, _, h3⟩ := grow_spec h n
  refine onMap_quiet h h1 ?_ h2.shape h2.dropped
  rcases h3 with ⟨rfl, _⟩ | ⟨_, rfl | rfl, _⟩ <;> trivial

omit [DecidableEq K] [DecidableEq V] in
theorem valid_new : Valid cfg (BSTMap.new : BSTMap K V) := ⟨_, shape_new cfg⟩

theorem contents_new (x : K ⊕ V) : (BSTMap.new : BSTMap K V).contents.count x = 0 := rfl

theorem building_led {f : M (World K V) Unit} (hw : Valid cfg s.map)
    (hf : Led cfg d { s with map := BSTMap.new } I (fun _ => []) (f { s with map := BSTMap.new })) :
    Led cfg d s I (fun m => m.contents) (building cfg d f s) ∧
      ∀ m s', building cfg d f s = (.ok m, s') → Valid cfg m := by
  unfold building
  rcases hu : f { s with map := BSTMap.new } with ⟨o, s1⟩
  rw [hu] at hf
  dsimp only
  have key : Step cfg d { s with map := BSTMap.new } s1 I [] →
      Step cfg d s { s1 with map := s.map } I s1.map.contents := fun hf => by
    refine ⟨hw, fun x => ?_, fun x => ?_, hf.ret, hf.cut⟩
    · have := hf.le x
      have := contents_new (V := V) x
      simp only [held, List.count_nil] at *
      omega
    · have := hf.ge x
      have := contents_new (V := V) x
      simp only [held, cutCount, List.count_nil] at *
      omega
  cases o with
  | ok a => exact ⟨key hf, fun m s' h => by cases h; exact Step.wf hf⟩
  | panic =>
    refine ⟨Led.after (key hf) ((Pays.map (Step.wf hf)).unwind hw), fun m s' h => ?_⟩
    simp only [Simple.onPanic, M.lift, Simple.unwind] at h
    split at h <;> cases h
  | abort =>
    have hf : Died d { s with map := BSTMap.new } s1 I := hf
    refine ⟨⟨fun x => ?_, hf.ret⟩, fun m s' h => by cases h⟩
    have := hf.le x
    have := contents_new (V := V) x
    simp only [held] at *
    omega
  | ub => exact hf.elim
  | diverge => exact hf.elim

theorem assign_led {f : M (World K V) (BSTMap K V)}
    (hf : Led cfg d s I (fun m => m.contents) (f s))
    (hm : ∀ m s', f s = (.ok m, s') → Valid cfg m) : Led cfg d s I (fun _ => []) (assign cfg d f s) := by
  unfold assign
  refine hf.bind fun m s1 h1 hw1 => ?_
  rw [M.get_bind, M.modify_bind]
  refine Led.after (s1 := { s1 with map := m }) (R' := s1.map.contents) ?_ (Pays.map hw1 _ (hm m s1 h1))
  refine ⟨hm m s1 h1, fun x => ?_, fun x => ?_, fun _ => rfl, fun _ h => .inl h⟩
  all_goals
    simp only [held, cutCount]
    omega

theorem cloneWith_led {γ : Type} (hw : Valid cfg s.map) (f : γ → Option γ) (inj : γ → K ⊕ V) (x : γ) :
    Led cfg d s [] (fun y => [inj y]) (cloneWith f inj x s) := by
  unfold cloneWith
  cases f x with
  | none => exact Step.refl hw _
  | some y =>
    refine ⟨hw, fun x => ?_, fun x => ?_, fun _ => rfl, fun _ h => .inl h⟩
    all_goals
      simp only [held, cutCount, List.count_append, List.count_nil]
      omega

theorem clone_loop (cmps : Nat → K → Probe K) (ck : K → Option K) (cv : V → Option V)
    (m : BSTMap K V) (fuel : Nat) : ∀ (ts : List (Tree K V)) (i : Nat) (s : World K V),
    (∀ t ∈ ts, t.Rep m.nodes.view) → forestSize ts < fuel → Valid cfg s.map →
    Led cfg d s [] (fun _ => []) (loop fuel (cloneBody cfg d cmps ck cv m) (i, ts.filterMap nodeOpt) s) := by
  induction fuel with
  | zero => intro ts i s _ h; omega
  | succ fuel ih =>
    intro ts i s hrep hsz hw
    rw [loop_succ]
    rcases forest_head ts with ⟨h1, _⟩ | ⟨p, l, k, v, r, ts', h1, _, h3, h4, h5⟩
    · rw [h1]
      exact Step.refl hw _
    · have hn := hrep _ h3
      have hr : Node.right m.nodes ⟨p, ⟨k, v, l.root, r.root⟩⟩ = .ok r.nodeOpt := Node.newOpt_ok hn.2.2
      have hl : Node.left m.nodes ⟨p, ⟨k, v, l.root, r.root⟩⟩ = .ok l.nodeOpt := Node.newOpt_ok hn.2.1
      have hto : l.nodeOpt.toList ++ r.nodeOpt.toList ++ ts'.filterMap nodeOpt =
          (l :: r :: ts').filterMap nodeOpt := by cases l <;> cases r <;> rfl
      have hb : cloneBody cfg d cmps ck cv m (i, ts.filterMap nodeOpt) = (do
          let k ← cloneWith ck .inl k
          let v ← Simple.onPanic (cloneWith cv .inr v) (dropItem d (.inl k))
          insertStmt cfg d (cmps i k) k v
          pure (.inl (i + 1, (l :: r :: ts').filterMap nodeOpt))) := by
        rw [h1, ← hto]
        simp only [cloneBody, hr, hl, M.lift_ok_bind]
        rfl
      rw [hb]
      simp only [bind_assoc, pure_bind]
      refine Led.bind (cloneWith_led hw ck .inl k) fun k' s1 _ hw1 => ?_
      refine Led.bind (Led.onPanic (cloneWith_led hw1 cv .inr v) (Pays.item (.inl k'))) fun v' s2 _ hw2 => ?_
      refine Led.bind (R := fun _ => ([] : List (K ⊕ V))) ?_ fun _ s3 _ hw3 => ?_
      · refine Led.same (fun x => ?_) (insertStmt_led hw2 (cmps i k') k' v')
        simp only [List.count_append, List.count_cons, List.count_nil]
        omega
      · refine ih (l :: r :: ts') (i + 1) s3 (fun t ht => ?_) (by omega) hw3
        rcases List.mem_cons.1 ht with rfl | ht
        · exact hn.2.1
        rcases List.mem_cons.1 ht with rfl | ht
        · exact hn.2.2
        · exact hrep _ (h4 _ ht)

theorem clone_led (cmps : Nat → K → Probe K) (ck : K → Option K) (cv : V → Option V)
    (hw : Valid cfg s.map) :
    Led cfg d s [] (fun m => m.contents) (clone cfg d cmps ck cv s) ∧
      ∀ m s', clone cfg d cmps ck cv s = (.ok m, s') → Valid cfg m := by
  unfold clone
  rw [M.get_bind]
  refine building_led hw ?_
  obtain ⟨t, h⟩ := hw
  rw [h.len_ok, M.lift_ok_bind, rootNode_ok h.root h.rep]
  refine Led.bind (grow_led _ valid_new) fun _ s1 _ hw1 => ?_
  rw [M.lift_ok_bind]
  have : t.nodeOpt.toList = ([t].filterMap nodeOpt) := by cases t <;> rfl
  rw [this]
  exact clone_loop cmps ck cv s.map _ [t] 0 s1 (by simpa using h.rep)
    (by simpa [forestSize] using h.size_lt) hw1

theorem run_led (op : Op K V) (hop : op.Drops) (hw : Valid cfg s.map) :
    ∃ o s', op.runWorld cfg d s = (o, s') ∧
      (((∃ r, o = .ok r) ∨ o = .panic) ∧ Step cfg d s s' (op.takes s.map o) (op.gives s.map o) ∨
       (o = .abort ∧ Died d s s' (op.takes s.map o) ∧ op.gives s.map o = [])) := by
  have unit : ∀ {f : M (World K V) Unit} {I : List (K ⊕ V)}, Led cfg d s I (fun _ => []) (f s) →
      ∃ o s', (f >>= fun _ => (Pure.pure .unit : M (World K V) (Ret K V))) s = (o, s') ∧
      (((∃ r, o = .ok r) ∨ o = .panic) ∧ Step cfg d s s' I [] ∨ (o = .abort ∧ Died d s s' I)) := by
    intro f I h
    rcases hu : f s with ⟨o, s1⟩
    rw [hu] at h
    cases o with
    | ok a => exact ⟨_, _, M.bind_ok hu, .inl ⟨.inl ⟨_, rfl⟩, h⟩⟩
    | panic => exact ⟨_, _, M.bind_panic hu, .inl ⟨.inr rfl, h⟩⟩
    | abort => exact ⟨_, _, M.bind_abort hu, .inr ⟨rfl, h⟩⟩
    | ub => exact h.elim
    | diverge => exact h.elim
  have value : ∀ {f : M (World K V) (Option V)} {I : List (K ⊕ V)},
      Led cfg d s I (fun r => (r.map Sum.inr).toList) (f s) →
      ∃ o s', (f >>= fun r => (Pure.pure (.value r) : M (World K V) (Ret K V))) s = (o, s') ∧
      ((∃ r, o = .ok (.value r) ∧ Step cfg d s s' I (r.map Sum.inr).toList) ∨
       (o = .panic ∧ Step cfg d s s' I []) ∨ (o = .abort ∧ Died d s s' I)) := by
    intro f I h
    rcases hu : f s with ⟨o, s1⟩
    rw [hu] at h
    cases o with
    | ok a => exact ⟨_, _, M.bind_ok hu, .inl ⟨_, rfl, h⟩⟩
    | panic => exact ⟨_, _, M.bind_panic hu, .inr (.inl ⟨rfl, h⟩)⟩
    | abort => exact ⟨_, _, M.bind_abort hu, .inr (.inr ⟨rfl, h⟩)⟩
    | ub => exact h.elim
    | diverge => exact h.elim
  have rest : ∀ (op : Op K V), op.Drops → op.Stays →
      ∃ o s', onMap (op.run cfg) s = (o, s') ∧
      (((∃ r, o = .ok r) ∨ o = .panic) ∧ Step cfg d s s'
          ((op.keysIn cfg s.map o).map .inl ++ (op.valuesIn cfg s.map o).map .inr)
          ((op.keysOut cfg s.map o).map .inl ++ (op.valuesOut cfg s.map o).map .inr) ∨
       (o = .abort ∧ Died d s s'
          ((op.keysIn cfg s.map o).map .inl ++ (op.valuesIn cfg s.map o).map .inr))) := by
    intro op hd hs
    obtain ⟨t, h⟩ := hw
    obtain ⟨o, m', t', h1, h2, h3, g, ⟨h4, _⟩, h5⟩ := run_books h (op := op)
      (by cases op <;> first | trivial | exact hd.2) hs hd
    have hst := Step.onMap (d := d) h h3 h4 h5
    refine ⟨o, _, onMap_eq h1, ?_⟩
    cases o with
    | ok r => exact .inl ⟨.inl ⟨r, rfl⟩, hst⟩
    | panic => exact .inl ⟨.inr rfl, hst⟩
    | abort => exact .inr ⟨rfl, hst.dies⟩
    | ub => exact h2.elim
    | diverge => exact h2.elim
  cases op with
  | withCapacity n =>
    have hb := building_led (d := d) hw (grow_led (s := { s with map := BSTMap.new }) n valid_new)
    obtain ⟨o, s', h1, h2⟩ := unit (assign_led hb.1 hb.2)
    exact ⟨o, s', h1, h2.imp id fun h => ⟨h.1, h.2, rfl⟩⟩
  | collect cmps src =>
    have hb := building_led (d := d) hw (Led.bind (Led.onPanic
      (grow_led (s := { s with map := BSTMap.new }) (src.hint.2.getD src.hint.1) valid_new)
      (Pays.items src.items)) fun _ s1 _ hw1 => inserts_led cmps src hw1)
    obtain ⟨o, s', h1, h2⟩ := unit (assign_led hb.1 hb.2)
    exact ⟨o, s', h1, h2.imp id fun h => ⟨h.1, h.2, rfl⟩⟩
  | cloned cmps ck cv =>
    have hb := clone_led (d := d) cmps ck cv hw
    obtain ⟨o, s', h1, h2⟩ := unit (assign_led hb.1 hb.2)
    exact ⟨o, s', h1, h2.imp id fun h => ⟨h.1, h.2, rfl⟩⟩
  | extend cmps src =>
    obtain ⟨o, s', h1, h2⟩ := unit (extend_led (d := d) cmps src hw)
    exact ⟨o, s', h1, h2.imp id fun h => ⟨h.1, h.2, rfl⟩⟩
  | insert c k v =>
    obtain ⟨o, s', h1, h2⟩ := value (insert_led (d := d) hw c k v)
    refine ⟨o, s', h1, ?_⟩
    rcases h2 with ⟨r, rfl, h2⟩ | ⟨rfl, h2⟩ | ⟨rfl, h2⟩
    · exact .inl ⟨.inl ⟨_, rfl⟩, by cases r <;> exact h2⟩
    · exact .inl ⟨.inr rfl, h2⟩
    · exact .inr ⟨rfl, h2, rfl⟩
  | remove c =>
    obtain ⟨o, s', h1, h2⟩ := value (remove_led (d := d) hw c)
    refine ⟨o, s', h1, ?_⟩
    rcases h2 with ⟨r, rfl, h2⟩ | ⟨rfl, h2⟩ | ⟨rfl, h2⟩
    · exact .inl ⟨.inl ⟨_, rfl⟩, by cases r <;> exact h2⟩
    · exact .inl ⟨.inr rfl, h2⟩
    · exact .inr ⟨rfl, h2, rfl⟩
  | iterMut ord steps =>
    obtain ⟨o, s', h1, h2⟩ := rest (.iterMut ord steps) hop trivial
    refine ⟨o, s', h1, ?_⟩
    rcases h2 with ⟨⟨r, rfl⟩ | rfl, h2⟩ | ⟨rfl, h2⟩
    · refine .inl ⟨.inl ⟨_, rfl⟩, ?_⟩
      simp only [Op.keysIn, Op.valuesIn, Op.keysOut, Op.valuesOut, List.map_nil, List.nil_append,
        List.map_map] at h2
      exact h2
    · exact .inl ⟨.inr rfl, h2⟩
    · exact .inr ⟨rfl, h2, rfl⟩
  | removeEntry c =>
    obtain ⟨o, s', h1, h2⟩ := rest (.removeEntry c) hop trivial
    refine ⟨o, s', h1, ?_⟩
    rcases h2 with ⟨⟨r, rfl⟩ | rfl, h2⟩ | ⟨rfl, h2⟩
    · refine .inl ⟨.inl ⟨_, rfl⟩, ?_⟩
      cases r with
      | entry e => cases e <;> exact h2
      | _ => exact h2
    · exact .inl ⟨.inr rfl, h2⟩
    · exact .inr ⟨rfl, h2, rfl⟩
  | getMut c w =>
    obtain ⟨o, s', h1, h2⟩ := rest (.getMut c w) hop trivial
    refine ⟨o, s', h1, ?_⟩
    rcases h2 with ⟨⟨r, rfl⟩ | rfl, h2⟩ | ⟨rfl, h2⟩
    · refine .inl ⟨.inl ⟨_, rfl⟩, ?_⟩
      cases r with
      | value e => cases e <;> exact h2
      | _ => exact h2
    · exact .inl ⟨.inr rfl, h2⟩
    · exact .inr ⟨rfl, h2, rfl⟩
  | getEntryMut c w =>
    obtain ⟨o, s', h1, h2⟩ := rest (.getEntryMut c w) hop trivial
    refine ⟨o, s', h1, ?_⟩
    rcases h2 with ⟨⟨r, rfl⟩ | rfl, h2⟩ | ⟨rfl, h2⟩
    · refine .inl ⟨.inl ⟨_, rfl⟩, ?_⟩
      cases r with
      | entry e => cases e <;> exact h2
      | _ => exact h2
    · exact .inl ⟨.inr rfl, h2⟩
    · exact .inr ⟨rfl, h2, rfl⟩
  | nodeMut p w =>
    obtain ⟨o, s', h1, h2⟩ := rest (.nodeMut p w) hop trivial
    refine ⟨o, s', h1, ?_⟩
    rcases h2 with ⟨⟨r, rfl⟩ | rfl, h2⟩ | ⟨rfl, h2⟩
    · refine .inl ⟨.inl ⟨_, rfl⟩, ?_⟩
      cases r with
      | entry e => cases e <;> exact h2
      | _ => exact h2
    · exact .inl ⟨.inr rfl, h2⟩
    · exact .inr ⟨rfl, h2, rfl⟩
  | _ =>
    obtain ⟨o, s', h1, h2⟩ := rest _ hop trivial
    refine ⟨o, s', h1, ?_⟩
    rcases h2 with ⟨⟨r, rfl⟩ | rfl, h2⟩ | ⟨rfl, h2⟩
    · exact .inl ⟨.inl ⟨_, rfl⟩, h2⟩
    · exact .inl ⟨.inr rfl, h2⟩
    · exact .inr ⟨rfl, h2, rfl⟩

end BSTMap.World

open BSTMap.World in
/-- The accounts of a history. -/
theorem worldHistory_led [DecidableEq K] [DecidableEq V] {cfg : Cfg}
    (ops : List (Simple.Drops K V × Op K V)) (hops : ∀ x ∈ ops, x.2.Drops)
    {s : World K V} (hw : Valid cfg s.map) :
    ∃ os s', worldHistory cfg ops s = (os, s') ∧
      (∀ o ∈ os, (∃ r, o = .ok r) ∨ o = .panic ∨ o = .abort) ∧
      (os.length = ops.length ∨ Out.abort ∈ os) ∧
      ((∀ x ∈ ops, x.1.ret = true) → s'.leaked = s.leaked) ∧
      (Out.abort ∉ os → Valid cfg s'.map ∧ (∀ m ∈ s'.cut, m ∈ s.cut ∨ ∃ x ∈ ops, Bad x.1 m) ∧ ∀ x,
        held x s + (worldLedger cfg Op.takes ops s).count x + s'.made.count x + cutCount x s ≤
          held x s' + (worldLedger cfg Op.gives ops s).count x + s.made.count x + cutCount x s' ∧
        held x s' + (worldLedger cfg Op.gives ops s).count x + s.made.count x ≤
          held x s + (worldLedger cfg Op.takes ops s).count x + s'.made.count x) ∧
      ∀ x, s'.dropped.count x + (s'.leaked.map Sum.inr).count x +
          (worldLedger cfg Op.gives ops s).count x + s.made.count x ≤
        held x s + (worldLedger cfg Op.takes ops s).count x + s'.made.count x := by
  unfold worldHistory
  induction ops generalizing s with
  | nil =>
    exact ⟨[], s, rfl, by simp, .inl rfl, fun _ => rfl,
      fun _ => ⟨hw, fun _ h => .inl h, fun x => ⟨Nat.le_refl _, Nat.le_refl _⟩⟩, fun x => by
      simp only [worldLedger, List.count_nil, held]; omega⟩
  | cons op ops ih =>
    obtain ⟨d, op⟩ := op
    obtain ⟨o, s1, h1, ⟨h2, h3⟩ | ⟨rfl, h2, h3⟩⟩ := run_led (d := d) op (hops (d, op) (by simp)) hw
    · obtain ⟨os, s', g1, g2, g3, g4, g5, g6⟩ := ih (fun x hx => hops x (List.mem_cons_of_mem _ hx)) h3.wf
      have hl : ∀ (f : BSTMap K V → Op K V → Out (Ret K V) → List (K ⊕ V)) x,
          (worldLedger cfg f ((d, op) :: ops) s).count x =
            (f s.map op o).count x + (worldLedger cfg f ops s1).count x := by
        intro f x
        rcases h2 with ⟨r, rfl⟩ | rfl <;> simp only [worldLedger, h1, List.count_append]
      refine ⟨o :: os, s', ?_, ?_, ?_, ?_, ?_, ?_⟩
      · rcases h2 with ⟨r, rfl⟩ | rfl <;> simp only [execute, h1, g1]
      · intro o' ho'
        rcases List.mem_cons.1 ho' with rfl | ho'
        · rcases h2 with h2 | h2
          · exact .inl h2
          · exact .inr (.inl h2)
        · exact g2 o' ho'
      · refine g3.imp (fun h => by rw [List.length_cons, List.length_cons, h]) fun h => List.mem_cons_of_mem _ h
      · intro h
        exact (g4 fun x hx => h x (List.mem_cons_of_mem _ hx)).trans (h3.ret (h (d, op) (by simp)))
      · intro hn
        obtain ⟨i1, i3, i2⟩ := g5 fun h => hn (List.mem_cons_of_mem _ h)
        refine ⟨i1, fun m hm => ?_, fun x => ?_⟩
        · rcases i3 m hm with hm | ⟨x, hx, hm⟩
          · exact (h3.cut m hm).imp id fun h => ⟨_, List.mem_cons_self .., h⟩
          · exact .inr ⟨x, List.mem_cons_of_mem _ hx, hm⟩
        have := i2 x
        have := h3.le x
        have := h3.ge x
        rw [hl, hl]
        omega
      · intro x
        have := g6 x
        have := h3.le x
        rw [hl, hl]
        omega
    · have hl : ∀ (f : BSTMap K V → Op K V → Out (Ret K V) → List (K ⊕ V)) x,
          (worldLedger cfg f ((d, op) :: ops) s).count x = (f s.map op .abort).count x := by
        intro f x
        simp only [worldLedger, h1]
      refine ⟨[.abort], s1, by simp only [execute, h1], by simp, .inr (by simp), ?_, by simp, ?_⟩
      · intro h
        exact h2.ret (h (d, op) (by simp))
      · intro x
        have := h2.le x
        rw [hl, hl, h3]
        simp only [List.count_nil]
        omega
end BST
