import Verif.Proofs.SimpleRemove
/-!
# `simple_bst`: iterators, clones, equality, `Debug`
-/
set_option linter.unusedSimpArgs false
namespace BST.Simple.Map
variable {K V : Type}
open Spec (BT Order)

/-! ### Pre-order -/

/-- What a pre-order stack still yields. -/
def preRem (st : Stack K V) : List (K × V) :=
  st.flatMap fun n => (n.key, n.value) :: (n.left.view.pre ++ n.right.view.pre)

theorem preRem_of (q : Place) (t : Link K V) (st : Stack K V) :
    preRem ((Ref.of q t).toList ++ st) = t.view.pre ++ preRem st := by
  cases t <;> simp [Ref.of, preRem, Link.view, BT.pre]

theorem preNext_spec : IterSpec (preNext (K := K) (V := V)) id (fun st L => preRem st = L) where
  done st hi := by
    cases st with
    | nil => rfl
    | cons n st => simp [preRem] at hi
  step st e rest hi := by
    cases st with
    | nil => simp [preRem] at hi
    | cons n st =>
      simp only [preRem, List.flatMap_cons, List.cons_append, List.cons.injEq] at hi
      obtain ⟨rfl, rfl⟩ := hi
      refine ⟨_, rfl, ?_⟩
      rw [Ref.leftRef, Ref.rightRef, preRem_of, preRem_of, List.append_assoc]; rfl

/-! ### In-order -/

/-- What an in-order stack still yields. -/
def inoRem (st : Stack K V) : List (K × V) :=
  st.flatMap fun n => (n.key, n.value) :: n.right.view.ino

theorem inoRem_push (t : Link K V) (q : Place) (st : Stack K V) :
    inoRem (pushLeftSpine q t st) = t.view.ino ++ inoRem st := by
  induction t generalizing q st with
  | nil => rfl
  | node k v l r ihl ihr =>
    rw [pushLeftSpine, ihl]
    simp [inoRem, Link.view, BT.ino]

theorem inoNext_spec : IterSpec (inoNext (K := K) (V := V)) id (fun st L => inoRem st = L) where
  done st hi := by
    cases st with
    | nil => rfl
    | cons n st => simp [inoRem] at hi
  step st e rest hi := by
    cases st with
    | nil => simp [inoRem] at hi
    | cons n st =>
      simp only [inoRem, List.flatMap_cons, List.cons_append, List.cons.injEq] at hi
      obtain ⟨rfl, rfl⟩ := hi
      exact ⟨_, rfl, inoRem_push _ _ _⟩

/-! ### Post-order -/

/-- A post-order stack and what it still yields. The places of the nodes that wait for
their right subtree get shorter towards the bottom of the stack; `b` bounds the first. -/
inductive PostInv : Nat → Stack K V → List (K × V) → Prop
  | nil {b : Nat} : PostInv b [] []
  | done {b : Nat} {n : Ref K V} {st : Stack K V} {L : List (K × V)} : n.place.length < b →
      PostInv n.place.length st L → PostInv b (n :: st) ((n.key, n.value) :: L)
  | visit {b : Nat} {n r : Ref K V} {st : Stack K V} {L : List (K × V)} : n.place.length < b →
      n.rightRef = some r → PostInv n.place.length st L →
      PostInv b (n :: r :: st) (n.right.view.post ++ (n.key, n.value) :: L)

theorem PostInv.mono {b b' : Nat} {st : Stack K V} {L : List (K × V)} (h : PostInv b st L)
    (hb : b ≤ b') : PostInv b' st L := by
  cases h with
  | nil => exact .nil
  | done h1 h2 => exact .done (by omega) h2
  | visit h1 h2 h3 => exact .visit (by omega) h2 h3

theorem PostInv.push (t : Link K V) (q : Place) {st : Stack K V} {L : List (K × V)}
    (h : PostInv q.length st L) : ∃ b, PostInv b (pushSpine q t st) (t.view.post ++ L) := by
  induction t generalizing q st L with
  | nil => exact ⟨_, h⟩
  | node k v l r ihl ihr =>
    have key : PostInv (q ++ [false]).length (⟨q, k, v, l, r⟩ ::
        ((Ref.of (q ++ [true]) r).toList ++ st)) (r.view.post ++ (k, v) :: L) := by
      rw [List.length_append]
      cases r with
      | nil => exact .done (n := ⟨q, k, v, l, .nil⟩) (by simp) h
      | node rk rv rl rr =>
        exact .visit (n := ⟨q, k, v, l, .node rk rv rl rr⟩) (by simp) rfl h
    obtain ⟨b, hb⟩ := ihl _ key
    refine ⟨b, ?_⟩
    rw [pushSpine]
    simpa [Link.view, BT.post] using hb

theorem spineFuel_push (t : Link K V) (ht : t ≠ .nil) (q : Place) (st : Stack K V) :
    spineFuel (pushSpine q t st) ≤ t.size := by
  induction t generalizing q st with
  | nil => exact absurd rfl ht
  | node k v l r ihl ihr =>
    rw [pushSpine]
    cases l with
    | nil => simp [pushSpine, spineFuel, Link.size]; omega
    | node lk lv ll lr =>
      refine Nat.le_trans (ihl (by simp) _ _) ?_
      simp [Link.size]; omega

theorem Ref.right_ne {n r : Ref K V} (h : n.rightRef = some r) :
    n.right ≠ .nil ∧ r.place = n.place ++ [true] := by
  unfold Ref.rightRef at h
  cases hr : n.right with
  | nil => rw [hr] at h; cases h
  | node k v l r' => rw [hr] at h; cases h; simp

theorem post_loop {e : K × V} {L : List (K × V)} (fuel : Nat) {b : Nat} {st : Stack K V}
    (h : PostInv b st (e :: L)) (hf : spineFuel st ≤ fuel) :
    ∃ st' b', loop fuel postStep st = .ok (some e, st') ∧ PostInv b' st' L := by
  induction fuel generalizing b st with
  | zero =>
    cases st with
    | nil => simp [spineFuel] at hf
    | cons n st => simp [spineFuel] at hf
  | succ fuel ih =>
    generalize hL : e :: L = L' at h
    cases h with
    | nil => cases hL
    | @done b n st L' h1 h2 =>
      cases hL
      refine ⟨st, _, loopO_inr ?_, h2⟩
      unfold postStep
      dsimp only
      cases hr : n.rightRef with
      | none => rfl
      | some r =>
        obtain ⟨_, hp⟩ := Ref.right_ne hr
        cases h2 with
        | nil => rfl
        | @done _ n' st' L' h3 h4 =>
          dsimp only
          rw [if_neg]; · rfl
          intro he
          have := congrArg List.length (he.trans hp)
          simp at this; omega
        | @visit _ n' r' st' L' h3 h5 h4 =>
          dsimp only
          rw [if_neg]; · rfl
          intro he
          have := congrArg List.length (he.trans hp)
          simp at this; omega
    | @visit b n r st L' h1 h2 h3 =>
      obtain ⟨hn, hp⟩ := Ref.right_ne h2
      have hd : PostInv (n.place.length + 1) (n :: st) ((n.key, n.value) :: L') :=
        .done (by omega) h3
      obtain ⟨b', hb⟩ := PostInv.push n.right r.place (st := n :: st) (by rw [hp]; simpa using hd)
      rw [← hL] at hb
      have hs := spineFuel_push n.right hn r.place (n :: st)
      obtain ⟨st', b'', h4, h5⟩ := ih hb (by simp [spineFuel] at hf; omega)
      refine ⟨st', b'', (loopO_inl ?_).trans h4, h5⟩
      unfold postStep
      dsimp only
      rw [h2]
      dsimp only
      rw [if_pos rfl]; rfl

theorem postNext_spec : IterSpec (postNext (K := K) (V := V)) id (fun st L => ∃ b, PostInv b st L) where
  done st hi := by
    obtain ⟨b, hi⟩ := hi
    generalize hL : ([] : List (K × V)) = L at hi
    cases hi with
    | nil => exact loopO_inr rfl
    | done => cases hL
    | visit => simp at hL
  step st e rest hi := by
    obtain ⟨b, hi⟩ := hi
    obtain ⟨st', b', h1, h2⟩ := post_loop (spineFuel st) hi (Nat.le_refl _)
    exact ⟨st', h1, b', h2⟩

/-! ### All three -/

def IterInv : Order → Stack K V → List (K × V) → Prop
  | .pre => fun st L => preRem st = L
  | .ino => fun st L => inoRem st = L
  | .post => fun st L => ∃ b, PostInv b st L

theorem next_spec (o : Order) : IterSpec (next (K := K) (V := V) o) id (IterInv o) := by
  cases o with
  | pre => exact preNext_spec
  | ino => exact inoNext_spec
  | post => exact postNext_spec

theorem iter_spec (o : Order) (m : Map K V) : IterInv o (iter o m) (m.root.view.order o) := by
  cases o with
  | pre =>
    have := preRem_of [] m.root []
    simp only [List.append_nil, preRem, List.flatMap_nil] at this
    exact this
  | ino =>
    have := inoRem_push m.root [] []
    simp only [List.append_nil, inoRem, List.flatMap_nil] at this
    exact this
  | post =>
    have := PostInv.push m.root [] (PostInv.nil (K := K) (V := V))
    simp only [List.append_nil] at this
    exact this

theorem view_size (t : Link K V) : t.view.size = t.size := by
  induction t with
  | nil => rfl
  | node k v l r ihl ihr => simp [Link.view, BT.size, Link.size, ihl, ihr]

theorem _root_.BST.Spec.BT.ino_length' {α : Type} (b : BT α) : b.ino.length = b.size := by
  induction b with
  | nil => rfl
  | node l a r ihl ihr => simp [BT.ino, BT.size, ihl, ihr]; omega

theorem order_length (o : Order) (t : Link K V) : (t.view.order o).length = t.size := by
  rw [(Spec.BT.order_perm o t.view).length_eq, Spec.BT.ino_length', view_size]

theorem drain_eq (o : Order) (m : Map K V) : drain o m = .ok (m.root.view.order o) := by
  have := drain_spec (next_spec o) (iter_spec o m) (fuel := m.fuel)
    (by rw [order_length, fuel]; omega)
  rwa [List.map_id] at this

theorem nexts_eq (o : Order) (m : Map K V) (n : Nat) :
    ∃ st, nexts (next o) n (iter o m) =
      .ok (((m.root.view.order o).map some ++ List.replicate n none).take n, st) := by
  obtain ⟨st, h, _⟩ := nexts_spec (next_spec o) n (iter_spec o m)
  exact ⟨st, h⟩

/-! ### Equality, `Debug` -/

theorem eqWith_spec {same : Nat → K × V → K × V → Out Bool} {a b : Map K V} (ha : Wf a) (hb : Wf b) :
    eqWith same a b = if a.root.view.ino.length = b.root.view.ino.length
      then allPairs same 0 a.root.view.ino b.root.view.ino else .ok false := by
  have h1 := order_length .ino a.root
  have h2 := order_length .ino b.root
  simp only [BT.order] at h1 h2
  unfold eqWith
  rw [ha, hb, h1, h2]
  by_cases h : a.root.size = b.root.size
  · rw [if_neg (by simp [h]), drain_eq, Out.ok_bind, drain_eq, Out.ok_bind, if_pos h]
    rfl
  · rw [if_pos h, if_neg h]

theorem allPairs_total {keq : K → K → Bool} {veq : V → V → Bool} {a b : List (K × V)} (n : Nat)
    (hl : a.length = b.length) :
    allPairs (fun _ x y => pure (keq x.1 y.1 && veq x.2 y.2)) n a b =
      .ok ((a.zip b).all fun (x, y) => keq x.1 y.1 && veq x.2 y.2) := by
  induction a generalizing b n with
  | nil =>
    cases b with
    | nil => rfl
    | cons => cases hl
  | cons x a ih =>
    cases b with
    | nil => cases hl
    | cons y b =>
      unfold allPairs
      rw [Out.pure_eq, Out.ok_bind, List.zip_cons_cons, List.all_cons]
      dsimp only
      cases keq x.1 y.1 && veq x.2 y.2 with
      | true => rw [if_pos rfl, ih (n + 1) (by simpa using hl), Bool.true_and]
      | false => rfl

theorem eq_spec (keq : K → K → Bool) (veq : V → V → Bool) {a b : Map K V} (ha : Wf a) (hb : Wf b) :
    eq keq veq a b = .ok (a.root.size == b.root.size &&
      (a.root.view.ino.zip b.root.view.ino).all fun (x, y) => keq x.1 y.1 && veq x.2 y.2) := by
  have h1 := order_length .ino a.root
  have h2 := order_length .ino b.root
  simp only [BT.order] at h1 h2
  unfold eq
  rw [eqWith_spec ha hb]
  split
  · rename_i h
    rw [allPairs_total 0 h, ← h1, ← h2, h]
    simp
  · rename_i h
    rw [h1, h2] at h
    simp [h]

theorem debugLink_eq (dk : K → String) (dv : V → String) (t : Link K V) :
    debugLink dk dv t = t.view.debugMap dk dv := by
  induction t with
  | nil => rfl
  | node k v l r ihl ihr => rw [debugLink, ihl, ihr, Link.view, BT.debugMap]

/-! ### Clones -/

theorem cloneBox_cases (cfg : Cfg) (boxed : Bool) (a : Nat) :
    (∃ b, cloneBox cfg boxed a = (.ok (), b)) ∨
    (cloneBox cfg boxed a = (.abort, a) ∧ ¬ ∀ i n, cfg.allocOk i n = true) := by
  cases boxed with
  | false => exact .inl ⟨a, rfl⟩
  | true =>
    cases h : cfg.allocOk a cfg.esize with
    | true => exact .inl ⟨a + 1, by simp [cloneBox, h]⟩
    | false => exact .inr ⟨by simp [cloneBox, h], fun hh => by simp [hh] at h⟩

theorem cloneLink_spec (cfg : Cfg) (cloneK : K → Option K) (cloneV : V → Option V) (t : Link K V)
    (boxed : Bool) (a : Nat) :
    (∃ b u, t.view.mapM (clonePair cloneK cloneV) = some u.view ∧
      cloneLink cfg cloneK cloneV boxed t a = (.ok u, b)) ∨
    (∃ b, t.view.mapM (clonePair cloneK cloneV) = none ∧
      cloneLink cfg cloneK cloneV boxed t a = (.panic, b)) ∨
    (∃ b, cloneLink cfg cloneK cloneV boxed t a = (.abort, b) ∧ ¬ ∀ i n, cfg.allocOk i n = true) := by
  induction t generalizing boxed a with
  | nil => exact .inl ⟨a, .nil, rfl, rfl⟩
  | node k v l r ihl ihr =>
    simp only [cloneLink, Link.view, BT.mapM]
    rcases cloneBox_cases cfg boxed a with ⟨a1, h1⟩ | ⟨h1, hn⟩
    · rw [M.bind_ok h1]
      cases hk : cloneK k with
      | none => exact .inr (.inl ⟨a1, by rw [clonePair, hk]; rfl, M.bind_panic (by rw [cloneWith, hk]; rfl)⟩)
      | some k' =>
        rw [M.bind_ok (show cloneWith cloneK k a1 = (.ok k', a1) by rw [cloneWith, hk]; rfl)]
        cases hv : cloneV v with
        | none => exact .inr (.inl ⟨a1, by rw [clonePair, hk, hv]; rfl, M.bind_panic (by rw [cloneWith, hv]; rfl)⟩)
        | some v' =>
          rw [M.bind_ok (show cloneWith cloneV v a1 = (.ok v', a1) by rw [cloneWith, hv]; rfl)]
          have hp : clonePair cloneK cloneV (k, v) = some (k', v') := by rw [clonePair, hk, hv]; rfl
          rcases ihl true a1 with ⟨a2, u, hu, h2⟩ | ⟨a2, hu, h2⟩ | ⟨a2, h2, hn⟩
          · rw [M.bind_ok h2]
            rcases ihr true a2 with ⟨a3, w, hw, h3⟩ | ⟨a3, hw, h3⟩ | ⟨a3, h3, hn⟩
            · rw [M.bind_ok h3]
              exact .inl ⟨a3, .node k' v' u w, by rw [hp, hu, hw]; rfl, rfl⟩
            · exact .inr (.inl ⟨a3, by rw [hp, hu, hw]; rfl, M.bind_panic h3⟩)
            · exact .inr (.inr ⟨a3, M.bind_abort h3, hn⟩)
          · exact .inr (.inl ⟨a2, by rw [hp, hu]; rfl, M.bind_panic h2⟩)
          · exact .inr (.inr ⟨a2, M.bind_abort h2, hn⟩)
    · exact .inr (.inr ⟨a, M.bind_abort h1, hn⟩)

theorem mapM_size {α β : Type} {f : α → Option β} {b : BT α} {b' : BT β} (h : b.mapM f = some b') :
    b'.size = b.size := by
  induction b generalizing b' with
  | nil => cases h; rfl
  | node l a r ihl ihr =>
    simp only [BT.mapM] at h
    cases ha : f a with
    | none => rw [ha] at h; cases h
    | some a' =>
      cases hl : l.mapM f with
      | none => rw [ha, hl] at h; cases h
      | some l' =>
        cases hr : r.mapM f with
        | none => rw [ha, hl, hr] at h; cases h
        | some r' =>
          rw [ha, hl, hr] at h
          cases h
          simp [BT.size, ihl hl, ihr hr]

theorem clone_spec (cfg : Cfg) (cloneK : K → Option K) (cloneV : V → Option V) (m : Map K V)
    (hw : Wf m) :
    (∃ m', m.root.view.mapM (clonePair cloneK cloneV) = some m'.root.view ∧ Wf m' ∧
      clone cfg cloneK cloneV m = (.ok (), m')) ∨
    (∃ m', m.root.view.mapM (clonePair cloneK cloneV) = none ∧
      clone cfg cloneK cloneV m = (.panic, m')) ∨
    (∃ m', clone cfg cloneK cloneV m = (.abort, m') ∧ ¬ ∀ i n, cfg.allocOk i n = true) := by
  unfold clone
  rcases cloneLink_spec cfg cloneK cloneV m.root false m.allocs with
    ⟨a, u, hu, h⟩ | ⟨a, hu, h⟩ | ⟨a, h, hn⟩
  · rw [h]
    refine .inl ⟨_, hu, ?_, rfl⟩
    have := mapM_size hu
    rw [view_size, view_size] at this
    rw [Wf, hw, this]
  · rw [h]; exact .inr (.inl ⟨_, hu, rfl⟩)
  · rw [h]; exact .inr (.inr ⟨_, rfl, hn⟩)
end BST.Simple.Map
