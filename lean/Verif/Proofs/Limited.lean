import Verif.Limited
import Verif.Proofs.Steps
import Verif.Proofs.Build
/-!
# Traversals on a stack of limited size

A loop that only pushes is not affected by a limit that its final stack respects.
-/
set_option linter.unusedSimpArgs false
namespace BST.Limited
open BSTMap Tree
open Spec (BT Order)
variable {K V α : Type}

theorem push_ok {β : Type} {lim : Nat} {x : β} {st : List β} (h : st.length + 1 ≤ lim) :
    push lim x st = .ok (x :: st) := by simp [push, show st.length < lim by omega]

theorem extend_ok {β : Type} {lim : Nat} {x : Option β} {st : List β}
    (h : (x.toList ++ st).length ≤ lim) : extend lim x st = .ok (x.toList ++ st) := by
  cases x with
  | none => rfl
  | some x => exact push_ok (by simpa using h)

/-- Splitting a successful loop. -/
theorem loop_cases {β γ : Type} {n : Nat} {body : β → Out (β ⊕ γ)} {b : β} {a : γ}
    (h : loop (n + 1) body b = .ok a) :
    (∃ b', body b = .ok (.inl b') ∧ loop n body b' = .ok a) ∨ body b = .ok (.inr a) := by
  rw [loop_succ] at h
  cases hb : body b with
  | ok x =>
    rw [hb] at h
    cases x with
    | inl b' => exact .inl ⟨b', rfl, h⟩
    | inr c => cases h; exact .inr rfl
  | _ => rw [hb] at h; cases h

/-- The general argument: if every step of the plain loop that can be followed by a result of
size at most `lim` is also a step of the limited loop, and sizes grow, the results agree. -/
theorem loop_within {β γ : Type} {body lbody : β → Out (β ⊕ γ)} {size : β → Nat} {fin : γ → Nat}
    {lim : Nat}
    (hl : ∀ b b', body b = .ok (.inl b') → size b ≤ size b' ∧
      (size b' ≤ lim → lbody b = .ok (.inl b')))
    (hr : ∀ b a, body b = .ok (.inr a) → size b ≤ fin a ∧
      (fin a ≤ lim → lbody b = .ok (.inr a)))
    (n : Nat) : ∀ {b : β} {a : γ}, loop n body b = .ok a →
      size b ≤ fin a ∧ (fin a ≤ lim → loop n lbody b = .ok a) := by
  induction n with
  | zero => intro b a h; cases h
  | succ n ih =>
    intro b a h
    rcases loop_cases h with ⟨b', h1, h2⟩ | h1
    · obtain ⟨i1, i2⟩ := ih h2
      obtain ⟨l1, l2⟩ := hl b b' h1
      exact ⟨Nat.le_trans l1 i1, fun hf => by rw [loopO_inl (l2 (Nat.le_trans i1 hf))]; exact i2 hf⟩
    · obtain ⟨r1, r2⟩ := hr b a h1
      exact ⟨r1, fun hf => loopO_inr (r2 hf)⟩

theorem preNext_within {lim : Nat} {g : Ptr → InnerNode K V → α} {nodes : Nodes K V} {st st' : Stack}
    {x : Option α} (h : BST.preNext g nodes st = .ok (x, st')) (hl : st'.length ≤ lim) :
    preNext lim g nodes st = .ok (x, st') := by
  cases st with
  | nil => exact h
  | cons top st =>
    unfold BST.preNext at h
    unfold preNext
    dsimp only at h ⊢
    cases hn : nodes.getUnchecked top with
    | ok node =>
      rw [hn] at h
      simp only [Out.ok_bind, Out.pure_eq, Out.ok.injEq, Prod.mk.injEq] at h ⊢
      obtain ⟨rfl, rfl⟩ := h
      rw [extend_ok (x := node.right) (by simp at hl ⊢; omega), Out.ok_bind, extend_ok hl]
      rfl
    | _ => rw [hn] at h; cases h

theorem pushLeftSpine_within {lim : Nat} {nodes : Nodes K V} {cur : Option Ptr} {st st' : Stack}
    (h : IterInorder.pushLeftSpine nodes cur st = .ok st') (hl : st'.length ≤ lim) :
    pushLeftSpine lim nodes cur st = .ok st' := by
  refine (loop_within (size := fun b : Option Ptr × Stack => b.2.length)
    (fin := fun s : Stack => s.length) ?_ ?_ _ h).2 hl
  · rintro ⟨c, s⟩ b' hb
    cases c with
    | none => cases hb
    | some p =>
      dsimp only at hb ⊢
      cases hn : nodes.getUnchecked p with
      | ok node =>
        rw [hn] at hb; cases hb
        exact ⟨by simp, fun hs => by
          simp only [Out.ok_bind, push_ok (x := p) (st := s) (by simpa using hs)]; rfl⟩
      | _ => rw [hn] at hb; cases hb
  · rintro ⟨c, s⟩ a hb
    cases c with
    | none => cases hb; exact ⟨Nat.le_refl _, fun _ => rfl⟩
    | some p =>
      dsimp only at hb ⊢
      cases hn : nodes.getUnchecked p <;> rw [hn] at hb <;> cases hb

theorem inoNext_within {lim : Nat} {g : Ptr → InnerNode K V → α} {nodes : Nodes K V} {st st' : Stack}
    {x : Option α} (h : BST.inoNext g nodes st = .ok (x, st')) (hl : st'.length ≤ lim) :
    inoNext lim g nodes st = .ok (x, st') := by
  cases st with
  | nil => exact h
  | cons top st =>
    unfold BST.inoNext at h
    unfold inoNext
    dsimp only at h ⊢
    cases hn : nodes.getUnchecked top with
    | ok node =>
      rw [hn] at h
      simp only [Out.ok_bind] at h ⊢
      cases hp : IterInorder.pushLeftSpine nodes node.right st with
      | ok s =>
        rw [hp] at h
        simp only [Out.ok_bind, Out.pure_eq, Out.ok.injEq, Prod.mk.injEq] at h
        obtain ⟨rfl, rfl⟩ := h
        rw [pushLeftSpine_within hp hl]; rfl
      | _ => rw [hp] at h; cases h
    | _ => rw [hn] at h; cases h

theorem postNew_within {lim : Nat} {nodes : Nodes K V} {root : Option Ptr} {st' : Stack}
    (h : IterPostorder.new nodes root = .ok st') (hl : st'.length ≤ lim) :
    postNew lim nodes root = .ok st' := by
  refine (loop_within (size := fun b : Option Ptr × Stack => b.2.length)
    (fin := fun s : Stack => s.length) ?_ ?_ _ h).2 hl
  · rintro ⟨c, s⟩ b' hb
    cases c with
    | none => cases hb
    | some p =>
      dsimp only at hb ⊢
      cases hn : nodes.getUnchecked p with
      | ok node =>
        rw [hn] at hb; cases hb
        refine ⟨by simp; omega, fun hs => ?_⟩
        simp only [List.length_cons] at hs
        simp only [Out.ok_bind, extend_ok (x := node.right) (st := s) (lim := lim) (by omega),
          push_ok (x := p) (st := node.right.toList ++ s) hs]
        rfl
      | _ => rw [hn] at hb; cases hb
  · rintro ⟨c, s⟩ a hb
    cases c with
    | none => cases hb; exact ⟨Nat.le_refl _, fun _ => rfl⟩
    | some p =>
      dsimp only at hb ⊢
      cases hn : nodes.getUnchecked p <;> rw [hn] at hb <;> cases hb

theorem pushSpine_within {lim : Nat} {nodes : Nodes K V} {p : Ptr} {node : InnerNode K V}
    {st st' : Stack} (h : IterPostorder.pushSpine nodes p node st = .ok st') :
    st.length + 1 ≤ st'.length ∧
      (st'.length ≤ lim → pushSpine lim nodes p node st = .ok st') := by
  refine loop_within (size := fun b : Ptr × InnerNode K V × Stack => b.2.2.length + 1)
    (fin := fun s : Stack => s.length) ?_ ?_ _ h
  · rintro ⟨c, x, s⟩ b' hb
    dsimp only at hb ⊢
    cases hx : x.left with
    | none => rw [hx] at hb; cases hb
    | some l =>
      rw [hx] at hb
      dsimp only at hb
      cases hn : nodes.getUnchecked l with
      | ok y =>
        rw [hn] at hb; cases hb
        refine ⟨by simp; omega, fun hs => ?_⟩
        simp only [List.length_cons] at hs
        simp only [extend_ok (x := x.right) (st := s) (lim := lim) (by omega), Out.ok_bind,
          push_ok (x := c) (st := x.right.toList ++ s) (lim := lim) (by omega), hn]
        rfl
      | _ => rw [hn] at hb; cases hb
  · rintro ⟨c, x, s⟩ a hb
    dsimp only at hb ⊢
    cases hx : x.left with
    | none =>
      rw [hx] at hb; cases hb
      refine ⟨by simp, fun hs => ?_⟩
      simp only [List.length_cons] at hs
      simp only [extend_ok (x := x.right) (st := s) (lim := lim) (by omega), Out.ok_bind,
        push_ok (x := c) (st := x.right.toList ++ s) (lim := lim) (by omega)]
      rfl
    | some l =>
      rw [hx] at hb
      dsimp only at hb
      cases hn : nodes.getUnchecked l <;> rw [hn] at hb <;> cases hb

theorem postNext_within {lim : Nat} {g : Ptr → InnerNode K V → α} {nodes : Nodes K V}
    {st st' : Stack} {x : Option α} (h : BST.postNext g nodes st = .ok (x, st'))
    (hl : st'.length + 1 ≤ lim) : postNext lim g nodes st = .ok (x, st') := by
  refine (loop_within (size := fun b : Stack => b.length)
    (fin := fun r : Option α × Stack => r.2.length + 1) ?_ ?_ _ h).2 hl
  · rintro s b' hb
    cases s with
    | nil => cases hb
    | cons cur s =>
      dsimp only at hb ⊢
      cases hn : nodes.getUnchecked cur with
      | ok node =>
        rw [hn] at hb
        simp only [Out.ok_bind] at hb ⊢
        cases hr : node.right with
        | none => rw [hr] at hb; cases hb
        | some r =>
          rw [hr] at hb
          cases s with
          | nil => cases hb
          | cons top rest =>
            by_cases ht : top = r
            · simp only [if_pos ht] at hb ⊢
              cases hn2 : nodes.getUnchecked r with
              | ok y =>
                rw [hn2] at hb
                simp only [Out.ok_bind] at hb ⊢
                cases hp : IterPostorder.pushSpine nodes r y (cur :: rest) with
                | ok s' =>
                  rw [hp] at hb; cases hb
                  obtain ⟨p1, p2⟩ := pushSpine_within (lim := lim) hp
                  simp only [List.length_cons] at p1 ⊢
                  refine ⟨by omega, fun hs => ?_⟩
                  rw [push_ok (by omega), Out.ok_bind, p2 hs]; rfl
                | _ => rw [hp] at hb; cases hb
              | _ => rw [hn2] at hb; cases hb
            · simp only [if_neg ht] at hb; cases hb
      | _ => rw [hn] at hb; cases hb
  · rintro s a hb
    cases s with
    | nil => cases hb; exact ⟨by simp, fun _ => rfl⟩
    | cons cur s =>
      dsimp only at hb ⊢
      cases hn : nodes.getUnchecked cur with
      | ok node =>
        rw [hn] at hb
        simp only [Out.ok_bind] at hb ⊢
        cases hr : node.right with
        | none => rw [hr] at hb; cases hb; exact ⟨by simp, fun _ => rfl⟩
        | some r =>
          rw [hr] at hb
          cases s with
          | nil => cases hb; exact ⟨by simp, fun _ => rfl⟩
          | cons top rest =>
            by_cases ht : top = r
            · simp only [if_pos ht] at hb
              cases hn2 : nodes.getUnchecked r with
              | ok y =>
                rw [hn2] at hb
                simp only [Out.ok_bind] at hb
                cases hp : IterPostorder.pushSpine nodes r y (cur :: rest) <;> rw [hp] at hb <;> cases hb
              | _ => rw [hn2] at hb; cases hb
            · simp only [if_neg ht] at hb ⊢
              cases hb; exact ⟨by simp, fun _ => rfl⟩
      | _ => rw [hn] at hb; cases hb

/-! ### The limited iterators agree with those of the model -/

/-- `next` of the model, up to what is yielded. -/
def plain (o : Order) (g : Ptr → InnerNode K V → α) (m : BSTMap K V) : Stack → Out (Option α × Stack) :=
  match o with
  | .pre => BST.preNext g m.nodes
  | .ino => BST.inoNext g m.nodes
  | .post => BST.postNext g m.nodes

theorem plain_next (o : Order) (m : BSTMap K V) :
    o.next m = plain o (fun _ x => (x.key, x.value)) m := by
  cases o with
  | pre => exact preorder_eq m.nodes
  | ino => exact inorder_eq m.nodes
  | post => exact postorder_eq m.nodes

theorem plain_nextMut (o : Order) (m : BSTMap K V) :
    o.nextMut m = plain o (fun p x => (x.key, p)) m := by
  cases o with
  | pre => exact preorderMut_eq m.nodes
  | ino => exact inorderMut_eq m.nodes
  | post => exact postorderMut_eq m.nodes

theorem next_eq (o : Order) (g : Ptr → InnerNode K V → α) (out : Ptr × K × V → α)
    (hg : ∀ p k v l r, g p ⟨k, v, l, r⟩ = out (p, k, v)) (m : BSTMap K V) (H : Nat) {st : Stack}
    {rem : List (Ptr × K × V)} (hi : OrdInv o m.nodes H st rem) :
    ∃ x st', plain o g m st = .ok (x, st') ∧ next (stackBound o H) o g m st = .ok (x, st') ∧
      OrdInv o m.nodes H st' (rem.drop 1) := by
  cases o with
  | pre =>
    have hs := preNext_spec g out hg m.nodes H
    cases rem with
    | nil => exact ⟨_, _, hs.done st hi, preNext_within (hs.done st hi) (PreInv.length hi), hi⟩
    | cons e rest =>
      obtain ⟨st', h1, h2⟩ := hs.step st e rest hi
      exact ⟨_, st', h1, preNext_within h1 (PreInv.length h2), h2⟩
  | ino =>
    have hs := inoNext_spec g out hg m.nodes H
    cases rem with
    | nil => exact ⟨_, _, hs.done st hi, inoNext_within (hs.done st hi) (InoInv.length hi.1), hi⟩
    | cons e rest =>
      obtain ⟨st', h1, h2⟩ := hs.step st e rest hi
      exact ⟨_, st', h1, inoNext_within h1 (InoInv.length h2.1), h2⟩
  | post =>
    cases rem with
    | nil =>
      have hd := (postNext_spec g out hg m.nodes H).done st hi
      refine ⟨_, _, hd, ?_, hi⟩
      obtain ⟨⟨ps, N, hi⟩, hf⟩ := hi
      generalize hr : ([] : List (Ptr × K × V)) = rem at hi
      cases hi with
      | nil =>
        show postNext _ g m.nodes [] = _
        unfold postNext walkFuel
        exact loopO_inr rfl
      | pend => simp at hr
      | last => cases hr
    | cons e rest =>
      obtain ⟨⟨ps, N, hi⟩, hf⟩ := hi
      have hN := hi.pending_le
      obtain ⟨st', ps', N', e1, e2, e3⟩ := postNext_loop g out hg m.nodes H e rest
        (by simpa using hf) (walkFuel m.nodes) st ps N hi (by omega)
      refine ⟨_, st', e1, postNext_within e1 ?_, ⟨ps', N', e2⟩, by simp at hf; simp; omega⟩
      have := e2.length
      simp only [stackBound]; omega

theorem nexts_eq (o : Order) (g : Ptr → InnerNode K V → α) (out : Ptr × K × V → α)
    (hg : ∀ p k v l r, g p ⟨k, v, l, r⟩ = out (p, k, v)) (m : BSTMap K V) (H n : Nat) :
    ∀ {st : Stack} {rem : List (Ptr × K × V)}, OrdInv o m.nodes H st rem →
    ∃ r, nexts (plain o g m) n st = .ok r ∧ nexts (next (stackBound o H) o g m) n st = .ok r := by
  induction n with
  | zero => intro st rem _; exact ⟨_, rfl, rfl⟩
  | succ n ih =>
    intro st rem hi
    obtain ⟨x, st', h1, h2, h3⟩ := next_eq o g out hg m H hi
    obtain ⟨r, h4, h5⟩ := ih h3
    exact ⟨(x :: r.1, r.2), by simp only [nexts, h1, Out.ok_bind, h4, Out.pure_eq],
      by simp only [nexts, h2, Out.ok_bind, h5, Out.pure_eq]⟩

theorem iter_ok {cfg : Cfg} {m : BSTMap K V} {t : Tree K V} (h : Shape cfg m t) (o : Order) :
    iter (stackBound o t.height) o m = o.iter m := by
  obtain ⟨st, h1, _, h3⟩ := iter_new h o
  have hl := h3.length
  rw [h1]
  cases o with
  | pre =>
    cases h1
    have := extend_ok (x := m.root) (st := []) (lim := stackBound .pre t.height) (by simpa using hl)
    simpa [iter] using this
  | ino => exact pushLeftSpine_within h1 hl
  | post => exact postNew_within h1 hl

/-! ### `clone` -/

/-- Heights of the trees on the stack: like `PreInv`, for a list of trees. -/
def Fits (H : Nat) : List (Tree K V) → Prop
  | [] => True
  | t :: ts => t.height + (ts.filterMap nodeOpt).length ≤ H ∧ Fits H ts

/-- The loop body of the limited `clone`. -/
def cloneBody (lim : Nat) (cfg : Cfg) (cmps : Nat → K → Probe K) (cloneK : K → Option K)
    (cloneV : V → Option V) (m : BSTMap K V) (st : Nat × List (Node K V)) :
    M (BSTMap K V) ((Nat × List (Node K V)) ⊕ Unit) :=
  match st.2 with
  | [] => pure (.inr ())
  | nd :: stack =>
    match cloneK nd.key, cloneV nd.value with
    | some k, some v => do
      let _ ← insert cfg (cmps st.1 k) k v
      let r ← M.lift (nd.right m.nodes)
      let stack ← M.lift (extend lim r stack)
      let l ← M.lift (nd.left m.nodes)
      let stack ← M.lift (extend lim l stack)
      pure (.inl (st.1 + 1, stack))
    | _, _ => M.panic

theorem clone_loop {H : Nat} {cfg : Cfg} {cmps : Nat → K → Probe K} {cloneK : K → Option K}
    {cloneV : V → Option V} {m : BSTMap K V} (fuel : Nat) : ∀ (ts : List (Tree K V)) (i : Nat)
    (mb : BSTMap K V), (∀ t ∈ ts, t.Rep m.nodes.view) → Fits H ts →
    loop fuel (cloneBody H cfg cmps cloneK cloneV m) (i, ts.filterMap nodeOpt) mb =
      loop fuel (BST.cloneBody cfg cmps cloneK cloneV m) (i, ts.filterMap nodeOpt) mb := by
  induction fuel with
  | zero => intros; rfl
  | succ fuel ih =>
    intro ts
    induction ts with
    | nil => intro i mb _ _; rw [loopM_inr (a := ()) (s' := mb) rfl, loopM_inr (a := ()) (s' := mb) rfl]
    | cons t ts iht =>
      intro i mb hrep hfit
      cases t with
      | leaf =>
        exact iht i mb (fun t ht => hrep t (List.mem_cons_of_mem _ ht)) hfit.2
      | node p l k v r =>
        have hn := hrep _ (List.mem_cons_self ..)
        have hf := hfit.1
        simp only [height] at hf
        have hrn : Node.right m.nodes ⟨p, ⟨k, v, l.root, r.root⟩⟩ = .ok r.nodeOpt :=
          Node.newOpt_ok hn.2.2
        have hln : Node.left m.nodes ⟨p, ⟨k, v, l.root, r.root⟩⟩ = .ok l.nodeOpt :=
          Node.newOpt_ok hn.2.1
        have hlr : l.nodeOpt.toList.length ≤ l.height ∧ r.nodeOpt.toList.length ≤ r.height := by
          constructor
          · cases l <;> simp [nodeOpt, height]
          · cases r <;> simp [nodeOpt, height]
        have hstack : (l :: r :: ts).filterMap nodeOpt =
            l.nodeOpt.toList ++ (r.nodeOpt.toList ++ ts.filterMap nodeOpt) := by
          cases l <;> cases r <;> rfl
        have hr1 : r.nodeOpt.toList.length ≤ 1 := by cases r <;> simp [nodeOpt]
        have hfit' : Fits H (l :: r :: ts) := by
          refine ⟨?_, ?_, hfit.2⟩
          · have : (r :: ts).filterMap nodeOpt = r.nodeOpt.toList ++ ts.filterMap nodeOpt := by
              cases r <;> rfl
            rw [this, List.length_append]
            omega
          · omega
        have hsz : (l.nodeOpt.toList ++ (r.nodeOpt.toList ++ ts.filterMap nodeOpt)).length ≤ H := by
          simp only [List.length_append]
          omega
        have hrep' : ∀ t ∈ l :: r :: ts, t.Rep m.nodes.view := by
          intro t ht
          rcases List.mem_cons.1 ht with rfl | ht
          · exact hn.2.1
          rcases List.mem_cons.1 ht with rfl | ht
          · exact hn.2.2
          · exact hrep _ (List.mem_cons_of_mem _ ht)
        have hhead : (node p l k v r :: ts).filterMap nodeOpt =
            (⟨p, ⟨k, v, l.root, r.root⟩⟩ : Node K V) :: ts.filterMap nodeOpt := rfl
        rw [hhead, loop_succ, loop_succ, M.bind_apply, M.bind_apply]
        have hb : cloneBody H cfg cmps cloneK cloneV m
              (i, (⟨p, ⟨k, v, l.root, r.root⟩⟩ : Node K V) :: ts.filterMap nodeOpt) mb =
            BST.cloneBody cfg cmps cloneK cloneV m
              (i, (⟨p, ⟨k, v, l.root, r.root⟩⟩ : Node K V) :: ts.filterMap nodeOpt) mb ∧
            ∀ b s, BST.cloneBody cfg cmps cloneK cloneV m
              (i, (⟨p, ⟨k, v, l.root, r.root⟩⟩ : Node K V) :: ts.filterMap nodeOpt) mb =
                (.ok (.inl b), s) → b = (i + 1, (l :: r :: ts).filterMap nodeOpt) := by
          unfold cloneBody BST.cloneBody
          simp only [Node.key, Node.value]
          cases cloneK k with
          | none => exact ⟨rfl, fun b s h => by cases h⟩
          | some k' =>
            cases cloneV v with
            | none => exact ⟨rfl, fun b s h => by cases h⟩
            | some v' =>
              dsimp only
              rw [M.bind_apply, M.bind_apply, hrn, hln]
              cases hi : insert cfg (cmps i k') k' v' mb with
              | mk o mi =>
                cases o with
                | ok u =>
                  dsimp only
                  rw [M.lift_ok_bind, M.lift_ok_bind, M.lift_ok_bind,
                    extend_ok (x := r.nodeOpt) (lim := H)
                      (by simp only [List.length_append] at hsz ⊢; omega),
                    M.lift_ok_bind, M.lift_ok_bind, extend_ok (lim := H) hsz, M.lift_ok_bind,
                    hstack, List.append_assoc]
                  exact ⟨rfl, fun b s h => by cases h; rfl⟩
                | _ => exact ⟨rfl, fun b s h => by cases h⟩
        rw [hb.1]
        cases hc : BST.cloneBody cfg cmps cloneK cloneV m
            (i, (⟨p, ⟨k, v, l.root, r.root⟩⟩ : Node K V) :: ts.filterMap nodeOpt) mb with
        | mk o s =>
          cases o with
          | ok x =>
            cases x with
            | inl b =>
              cases hb.2 b s hc
              exact ih (l :: r :: ts) (i + 1) s hrep' hfit'
            | inr u => rfl
          | _ => rfl

theorem clone_ok {cfg : Cfg} {m : BSTMap K V} {t : Tree K V} (h : Shape cfg m t)
    (cmps : Nat → K → Probe K) (cloneK : K → Option K) (cloneV : V → Option V) :
    clone t.height cfg cmps cloneK cloneV m = BSTMap.clone cfg cmps cloneK cloneV m := by
  unfold clone BSTMap.clone
  rw [h.len_ok, M.lift_ok_bind, M.lift_ok_bind, rootNode_ok h.root h.rep]
  have hroot : t.nodeOpt.toList = [t].filterMap nodeOpt := by cases t <;> rfl
  have hx : extend t.height t.nodeOpt [] = .ok t.nodeOpt.toList := by
    have := extend_ok (x := t.nodeOpt) (st := []) (lim := t.height)
      (by cases t <;> simp [nodeOpt, height])
    simpa using this
  rw [M.bind_apply, M.bind_apply]
  cases onNodes (Slab.onItems (Arena.growTo cfg t.size)) (BSTMap.new : BSTMap K V) with
  | mk o s =>
    cases o with
    | ok u =>
      dsimp only
      rw [M.lift_ok_bind, M.lift_ok_bind, hx, M.lift_ok_bind, hroot]
      exact clone_loop (walkFuel m.nodes) [t] 0 s (by simpa using h.rep) ⟨by simp, trivial⟩
    | _ => rfl

end BST.Limited
