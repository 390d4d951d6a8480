import Verif.Work
import Verif.Proofs.StackLaws
import Verif.Proofs.MapBorrows
import Verif.Proofs.Iter
set_option linter.unusedSimpArgs false
/-!
# How many references a call creates

`Within B f s R`: however `f` ends, at most `B` references exist; if it returns, `R` holds. This is
independent of the aliasing rules: where they are violated the computation just ends early.
-/
namespace BST
namespace TMap
open BSTMap Tree
open Spec (Order)
variable {K V : Type} {cfg : Cfg} {α β : Type} {s s' : TMap Borrows K V} {p q : Ptr} {B : Nat}

def Within (B : Nat) (f : M (TMap Borrows K V) α) (s : TMap Borrows K V) (R : α → TMap Borrows K V → Prop) : Prop :=
  (f s).2.heap.next ≤ B ∧ ∀ a, (f s).1 = .ok a → R a (f s).2

theorem Within.pure {a : α} {R : α → TMap Borrows K V → Prop} (h : s.heap.next ≤ B) (hr : R a s) :
    Within B (Pure.pure a) s R := ⟨h, fun _ e => by cases e; exact hr⟩

theorem Within.fail {f : M (TMap Borrows K V) α} {R : α → TMap Borrows K V → Prop} (h : s.heap.next ≤ B)
    (e : (f s).2 = s) (hn : ∀ a, (f s).1 ≠ .ok a) : Within B f s R :=
  ⟨by rw [e]; exact h, fun a ha => absurd ha (hn a)⟩

theorem Within.bind {f : M (TMap Borrows K V) α} {g : α → M (TMap Borrows K V) β} {R : α → TMap Borrows K V → Prop}
    {R' : β → TMap Borrows K V → Prop} (h : Within B f s R)
    (hg : ∀ a s', R a s' → Within B (g a) s' R') : Within B (f >>= g) s R' := by
  obtain ⟨h1, h2⟩ := h
  unfold Within
  rw [M.bind_apply]
  rcases hf : f s with ⟨o, s1⟩
  rw [hf] at h1 h2
  cases o with
  | ok a => exact hg a s1 (h2 a rfl)
  | _ => exact ⟨h1, fun _ e => by cases e⟩

theorem Within.mono {f : M (TMap Borrows K V) α} {R R' : α → TMap Borrows K V → Prop} (h : Within B f s R)
    (hr : ∀ a s', R a s' → R' a s') : Within B f s R' := ⟨h.1, fun a e => hr a _ (h.2 a e)⟩

theorem Within.upto {B' : Nat} {f : M (TMap Borrows K V) α} {R : α → TMap Borrows K V → Prop}
    (h : Within B' f s R) (hB : B' ≤ B) : Within B f s R := ⟨Nat.le_trans h.1 hB, h.2⟩

theorem Within.get {g : TMap Borrows K V → M (TMap Borrows K V) β} {R' : β → TMap Borrows K V → Prop}
    (h : Within B (g s) s R') : Within B (M.get >>= g) s R' := h

theorem Within.diverge {R : α → TMap Borrows K V → Prop} (h : s.heap.next ≤ B) :
    Within B (HasDiverge.diverge : M (TMap Borrows K V) α) s R := ⟨h, fun _ e => by cases e⟩

theorem Within.panic {R : α → TMap Borrows K V → Prop} (h : s.heap.next ≤ B) :
    Within B (M.panic : M (TMap Borrows K V) α) s R := ⟨h, fun _ e => by cases e⟩

/-! ### Primitive steps -/

theorem _root_.BST.Borrows.onRange_next (p : Ptr) (n : Nat) (f : BorrowStack → Option BorrowStack)
    (b : Borrows) : (Borrows.onRange p n f b).2.next = b.next := by
  unfold Borrows.onRange
  split
  · rfl
  · split
    · rfl
    · split <;> rfl

theorem _root_.BST.Borrows.derive_next (k : RefKind) (t : Nat) (p : Ptr) (n : Nat) (b : Borrows) :
    (Borrows.derive k t p n b).2.next ≤ b.next + 1 := by
  unfold Borrows.derive
  rw [M.get_bind, M.bind_apply]
  have h := Borrows.onRange_next p n (BorrowStack.derive k t b.next) b
  rcases he : Borrows.onRange p n (BorrowStack.derive k t b.next) b with ⟨o, b'⟩
  rw [he] at h
  replace h : b'.next = b.next := h
  cases o with
  | ok a => show b'.next + 1 ≤ _; omega
  | _ => show b'.next ≤ _; omega

/-- The same map with the same chunk pointers. -/
def Same (s s' : TMap Borrows K V) : Prop := s'.map = s.map ∧ s'.tags = s.tags

theorem Same.refl (s : TMap Borrows K V) : Same s s := ⟨rfl, rfl⟩

theorem Same.trans {s1 s2 s3 : TMap Borrows K V} (h : Same s1 s2) (h' : Same s2 s3) : Same s1 s3 :=
  ⟨h'.1.trans h.1, h'.2.trans h.2⟩

theorem access_cost (w : Bool) (t : Nat) (p : Ptr) (s : TMap Borrows K V) :
    (access w t p s).2.heap.next = s.heap.next ∧ Same s (access w t p s).2 := by
  unfold access onItems Tagged.onHeap
  have h := Borrows.onRange_next p 1 (if w then BorrowStack.write t else BorrowStack.read t) s.heap
  exact ⟨h, rfl, rfl⟩

theorem deref_cost (n : NodeRef) (s : TMap Borrows K V) : (deref n s).2.heap.next = s.heap.next := by
  unfold deref
  rw [M.bind_apply]
  have h := (access_cost false n.tag n.ptr s).1
  rcases he : access false n.tag n.ptr s with ⟨o, s1⟩
  rw [he] at h
  cases o <;> exact h

theorem deref_within {n : NodeRef} {x : InnerNode K V} (hx : s.map.nodes.view n.ptr = some x)
    (hB : s.heap.next ≤ B) : Within B (deref n) s fun y s' => y = x ∧ Same s s' ∧
      s'.heap.next = s.heap.next := by
  unfold deref
  refine .bind (R := fun _ s' => Same s s' ∧ s'.heap.next = s.heap.next) ?_ ?_
  · obtain ⟨h1, h2⟩ := access_cost false n.tag n.ptr s
    exact ⟨by omega, fun _ _ => ⟨h2, h1⟩⟩
  · rintro _ s' ⟨h1, h2⟩
    refine ⟨by show s'.heap.next ≤ B; omega, fun y hy => ⟨?_, h1, h2⟩⟩
    have hy' : s'.map.nodes.getUnchecked n.ptr = .ok y := hy
    rw [h1.1, Slab.getUnchecked_ok hx] at hy'
    cases hy'; rfl

theorem assign_cost (n : NodeRef) (f : InnerNode K V → InnerNode K V) (s : TMap Borrows K V) :
    (assign n f s).2.heap.next = s.heap.next := by
  unfold assign
  rw [M.bind_apply]
  have h := (access_cost true n.tag n.ptr s).1
  rcases he : access true n.tag n.ptr s with ⟨o, s1⟩
  rw [he] at h
  cases o <;> exact h

theorem getRaw_cost (ex : Bool) (p : Ptr) (s : TMap Borrows K V) :
    ((onItems (if ex then Tagged.getUncheckedMut p else Tagged.getUnchecked p) s).2.heap.next ≤
      s.heap.next + 1) ∧
    Same s (onItems (if ex then Tagged.getUncheckedMut p else Tagged.getUnchecked p) s).2 := by
  have h : ∀ k : RefKind, ∀ f : M (Tagged Borrows (Entry (InnerNode K V))) Nat,
      f = (do
        let _ ← M.read fun s => s.arena.getUnchecked p
        let t ← M.read fun s => s.tagOf p
        Tagged.onHeap (Aliasing.derive k t p 1)) →
      (onItems f s).2.heap.next ≤ s.heap.next + 1 ∧ Same s (onItems f s).2 := by
    rintro k f rfl
    unfold onItems
    rw [M.read_bind]
    cases s.items.arena.getUnchecked p with
    | ok v =>
      rw [M.lift_ok_bind, M.read_bind]
      cases s.items.tagOf p with
      | ok t =>
        rw [M.lift_ok_bind]
        exact ⟨Borrows.derive_next k t p 1 s.heap, rfl, rfl⟩
      | _ => exact ⟨Nat.le_succ _, rfl, rfl⟩
    | _ => exact ⟨Nat.le_succ _, rfl, rfl⟩
  cases ex with
  | false => exact h .shared _ rfl
  | true => exact h .excl _ rfl

theorem node_cost (ex : Bool) (p : Ptr) (s : TMap Borrows K V) :
    (node ex p s).2.heap.next ≤ s.heap.next + 1 ∧ Same s (node ex p s).2 ∧
      ∀ n, (node ex p s).1 = .ok n → n.ptr = p := by
  have h := getRaw_cost ex p s
  have e : (node ex p s) = (do
      let _ ← M.read fun s => s.map.nodes.getUnchecked p
      let t ← onItems (if ex then Tagged.getUncheckedMut p else Tagged.getUnchecked p)
      Pure.pure { ptr := p, tag := t } : M (TMap Borrows K V) NodeRef) s := by
    cases ex <;> simp [node, getRef, getRefMut, bind_assoc]
  rw [e, M.read_bind]
  cases s.map.nodes.getUnchecked p with
  | ok v =>
    rw [M.lift_ok_bind, M.bind_apply]
    rcases he : onItems (if ex then Tagged.getUncheckedMut p else Tagged.getUnchecked p) s with
      ⟨o, s1⟩
    rw [he] at h
    cases o with
    | ok t => exact ⟨h.1, h.2, fun n hn => by cases hn; rfl⟩
    | _ => exact ⟨h.1, h.2, fun n hn => by cases hn⟩
  | _ => exact ⟨Nat.le_succ _, .refl _, fun n hn => by cases hn⟩

theorem node_within (ex : Bool) (p : Ptr) (hB : s.heap.next + 1 ≤ B) :
    Within B (node ex p) s fun n s' => n.ptr = p ∧ Same s s' ∧ s'.heap.next ≤ s.heap.next + 1 := by
  obtain ⟨h1, h2, h3⟩ := node_cost ex p s
  exact ⟨by omega, fun n hn => ⟨h3 n hn, h2, h1⟩⟩

theorem assign_within (n : NodeRef) (f : InnerNode K V → InnerNode K V) (hB : s.heap.next ≤ B) :
    Within B (assign n f) s fun _ s' => s'.heap.next = s.heap.next := by
  have := assign_cost n f s
  exact ⟨by omega, fun _ _ => this⟩

theorem deref_within' (n : NodeRef) (hB : s.heap.next ≤ B) :
    Within B (deref n) s fun _ s' => s'.heap.next = s.heap.next := by
  have := deref_cost n s
  exact ⟨by omega, fun _ _ => this⟩

/-! ### Iterators -/

/-- Pre-order. -/
theorem nextPreorder_within (ex : Bool) {H : Nat} {st : Stack} {rem : List (Ptr × K × V)}
    (hi : PreInv s.map.nodes.view H st rem) (hB : s.heap.next + rem.length ≤ B) :
    Within B (nextPreorder ex st) s fun x s' => Same s s' ∧
      ∃ rem', PreInv s.map.nodes.view H x.2 rem' ∧ s'.heap.next + rem'.length ≤ B := by
  cases rem with
  | nil =>
    rw [hi.empty]
    exact .pure (by omega) ⟨.refl _, [], .nil, hB⟩
  | cons e rest =>
    obtain ⟨l, r, st', rem', rfl, rfl, hrep, hH, hi'⟩ := hi.split
    simp only [List.length_cons, List.length_append] at hB
    refine .bind (node_within ex e.1 (by omega)) ?_
    rintro n s1 ⟨hp, h1, h2⟩
    refine .bind (deref_within (x := ⟨e.2.1, e.2.2, l.root, r.root⟩)
      (by rw [hp, h1.1]; exact hrep.1) (by omega)) ?_
    rintro x s2 ⟨rfl, h3, h4⟩
    refine .pure (by omega) ⟨h1.trans h3, l.pre ++ (r.pre ++ rem'), .cons l hrep.2.1 ?_
      (.cons r hrep.2.2 (by omega) hi'), by simp only [List.length_append]; omega⟩
    cases r <;> simp <;> omega

/-- The left spine, in-order: every reference is paid for by an entry of the stack. -/
theorem pushLeftSpine_within {H : Nat} {t : Tree K V} (hr : t.Rep s.map.nodes.view)
    {st : Stack} {rem : List (Ptr × K × V)} (hi : InoInv s.map.nodes.view H st rem)
    (hH : t.height + st.length ≤ H) (hB : s.heap.next + t.height ≤ B) :
    Within B (pushLeftSpine t.root st) s fun st' s' => Same s s' ∧
      InoInv s.map.nodes.view H st' (t.ino ++ rem) ∧
      s'.heap.next + st.length ≤ s.heap.next + st'.length := by
  refine .get ?_
  generalize walkFuel s.map.nodes = fuel
  generalize hv : s.map.nodes.view = view at hr hi ⊢
  induction t generalizing s st rem fuel with
  | leaf =>
    cases fuel with
    | zero => exact .diverge (by omega)
    | succ fuel =>
      rw [loop_succ]
      exact .pure (by omega) ⟨.refl _, hi, Nat.le_refl _⟩
  | node p l k v r ihl _ =>
    cases fuel with
    | zero => exact .diverge (by omega)
    | succ fuel =>
      simp only [height] at hH hB
      have hc : InoInv view H (p :: st) ((p, k, v) :: (r.ino ++ rem)) :=
        .cons p k v _ r hr.1 hr.2.2 (by omega) hi
      rw [loop_succ]
      refine .bind (R := fun x s' => x = .inl (l.root, p :: st) ∧ Same s s' ∧
        s'.heap.next ≤ s.heap.next + 1) ?_ ?_
      · refine .bind (node_within false p (by omega)) ?_
        rintro n s1 ⟨hp, h1, h2⟩
        refine .bind (deref_within (x := ⟨k, v, l.root, r.root⟩)
          (by rw [hp, h1.1, hv]; exact hr.1) (by omega)) ?_
        rintro x s2 ⟨rfl, h3, h4⟩
        exact .pure (by omega) ⟨rfl, h1.trans h3, by omega⟩
      · rintro x s1 ⟨rfl, h1, h2⟩
        refine (ihl (s := s1) (by simp; omega) (by omega) fuel (by rw [h1.1]; exact hv) hr.2.1 hc).mono ?_
        rintro st' s2 ⟨h3, h4, h5⟩
        refine ⟨h1.trans h3, by simpa [ino] using h4, ?_⟩
        simp only [List.length_cons] at h5
        omega

theorem InoInv.stack_le {h : Ptr → Option (InnerNode K V)} {H : Nat} {st : Stack}
    {rem : List (Ptr × K × V)} (hi : InoInv h H st rem) : st.length ≤ rem.length := by
  induction hi with
  | nil => simp
  | cons p k v lo r h1 h2 h3 _ ih => simp; omega

theorem nextInorder_within {H : Nat} {st : Stack} {rem : List (Ptr × K × V)}
    (hi : InoInv s.map.nodes.view H st rem) (hB : s.heap.next + 2 * rem.length ≤ B + st.length) :
    Within B (nextInorder st) s fun x s' => Same s s' ∧
      ∃ rem', InoInv s.map.nodes.view H x.2 rem' ∧
        s'.heap.next + 2 * rem'.length ≤ B + x.2.length := by
  cases hi with
  | nil => exact .pure (by simpa using hB) ⟨.refl _, [], .nil, hB⟩
  | @cons st rem p k v lo r h1 h2 h3 h4 =>
    have hl := InoInv.stack_le h4
    have hh := r.height_le_size
    simp only [List.length_cons, List.length_append, ino_length] at hB
    refine .bind (node_within false p (by omega)) ?_
    rintro n s1 ⟨hp, e1, c1⟩
    refine .bind (deref_within (x := ⟨k, v, lo, r.root⟩)
      (by rw [hp, e1.1]; exact h1) (by omega)) ?_
    rintro x s2 ⟨rfl, e2, c2⟩
    have e12 := e1.trans e2
    refine .bind (pushLeftSpine_within (s := s2) (H := H) (t := r) (st := st) (rem := rem)
      (by rw [e12.1]; exact h2) (by rw [e12.1]; exact h4) (by omega) (by omega)) ?_
    rintro st' s3 ⟨e3, hi', c3⟩
    rw [e12.1] at hi'
    have hl' := InoInv.stack_le hi'
    simp only [List.length_append, ino_length] at hl'
    refine .pure (by omega) ⟨e12.trans e3, _, hi', ?_⟩
    simp only [List.length_append, ino_length]
    omega

theorem nextMutInorder_within {H : Nat} {st : Stack} {rem : List (Ptr × K × V)}
    (hi : InoInv s.map.nodes.view H st rem) (hB : s.heap.next + 3 * rem.length ≤ B + st.length) :
    Within B (nextMutInorder st) s fun x s' => Same s s' ∧
      ∃ rem', InoInv s.map.nodes.view H x.2 rem' ∧
        s'.heap.next + 3 * rem'.length ≤ B + x.2.length := by
  cases hi with
  | nil => exact .pure (by simpa using hB) ⟨.refl _, [], .nil, hB⟩
  | @cons st rem p k v lo r h1 h2 h3 h4 =>
    have hl := InoInv.stack_le h4
    have hh := r.height_le_size
    simp only [List.length_cons, List.length_append, ino_length] at hB
    refine .bind (node_within false p (by omega)) ?_
    rintro n s1 ⟨hp, e1, c1⟩
    refine .bind (deref_within (x := ⟨k, v, lo, r.root⟩)
      (by rw [hp, e1.1]; exact h1) (by omega)) ?_
    rintro x s2 ⟨rfl, e2, c2⟩
    have e12 := e1.trans e2
    refine .bind (pushLeftSpine_within (s := s2) (H := H) (t := r) (st := st) (rem := rem)
      (by rw [e12.1]; exact h2) (by rw [e12.1]; exact h4) (by omega) (by omega)) ?_
    rintro st' s3 ⟨e3, hi', c3⟩
    rw [e12.1] at hi'
    have hl' := InoInv.stack_le hi'
    simp only [List.length_append, ino_length] at hl'
    refine .bind (node_within true p (by omega)) ?_
    rintro n s4 ⟨_, e4, c4⟩
    refine .pure (by omega) ⟨(e12.trans e3).trans e4, _, hi', ?_⟩
    simp only [List.length_append, ino_length]
    omega

/-- The left spine, post-order: `b` for every node on the stack, `a` for every node that is still
pending. -/
theorem newPostorder_within {a b H : Nat} (hab : b + 1 ≤ a) {t : Tree K V}
    (hr : t.Rep s.map.nodes.view) (hn : t.ptrs.Nodup) (hH : t.height ≤ H)
    (hB : s.heap.next + a * t.size ≤ B) :
    Within B (newPostorder t.root) s fun st' s' => Same s s' ∧
      ∃ rem' ps' N', PostInv s.map.nodes.view H st' rem' ps' N' ∧
        s'.heap.next + a * N' + b * ps'.length ≤ B := by
  refine .get ?_
  generalize walkFuel s.map.nodes = fuel
  generalize hv : s.map.nodes.view = view at hr ⊢
  suffices ∀ (st : Stack) (rem : List (Ptr × K × V)) (ps : List Ptr) (N : Nat),
      PostInv view H st rem ps N → (∀ q ∈ ps, q ∉ t.ptrs) → t.height + ps.length ≤ H →
      s.heap.next + a * (t.size + N) + b * ps.length ≤ B →
      Within B (loop fuel (fun (st : Option Ptr × Stack) =>
        match st.1 with
        | none => Pure.pure (.inr st.2)
        | some p => do
          let n ← node false p
          let x ← deref n
          Pure.pure (.inl (x.left, p :: (x.right.toList ++ st.2))) :
          _ → M (TMap Borrows K V) (_ ⊕ Stack)) (t.root, st)) s
        fun st' s' => Same s s' ∧ ∃ rem' ps' N', PostInv view H st' rem' ps' N' ∧
          s'.heap.next + a * N' + b * ps'.length ≤ B from
    this [] [] [] 0 .nil (by simp) (by simpa using hH) (by simpa using hB)
  clear hB hH
  induction t generalizing s fuel with
  | leaf =>
    intro st rem ps N hi hps hH hB
    simp only [Tree.size, Nat.zero_add] at hB
    cases fuel with
    | zero => exact .diverge (by omega)
    | succ fuel =>
      rw [loop_succ]
      exact .pure (by omega) ⟨.refl _, rem, ps, N, hi, hB⟩
  | node p l k v r ihl _ =>
    intro st rem ps N hi hps hH hB
    obtain ⟨h1, h2, h3, h4⟩ := postSpine hr hn hi hps hH
    have hB' : s.heap.next + 1 + a * (l.size + (r.size + N)) + b * (ps.length + 1) ≤ B := by
      simp only [Tree.size] at hB
      have e1 : a * (l.size + 1 + r.size + N) = a * (l.size + (r.size + N)) + a := by
        rw [show l.size + 1 + r.size + N = (l.size + (r.size + N)) + 1 by omega, Nat.mul_succ]
      have e2 : b * (ps.length + 1) = b * ps.length + b := Nat.mul_succ _ _
      omega
    cases fuel with
    | zero => exact .diverge (by omega)
    | succ fuel =>
      rw [loop_succ]
      refine .bind (R := fun x s' => x = .inl (l.root, p :: (r.root.toList ++ st)) ∧ Same s s' ∧
        s'.heap.next ≤ s.heap.next + 1) ?_ ?_
      · refine .bind (node_within false p (by omega)) ?_
        rintro n s1 ⟨hp, e1, c1⟩
        refine .bind (deref_within (x := ⟨k, v, l.root, r.root⟩)
          (by rw [hp, e1.1, hv]; exact hr.1) (by omega)) ?_
        rintro x s2 ⟨rfl, e2, c2⟩
        exact .pure (by omega) ⟨rfl, e1.trans e2, by omega⟩
      · rintro x s1 ⟨rfl, e1, c1⟩
        refine (ihl (s := s1) h2 fuel (by rw [e1.1]; exact hv) hr.2.1 _ _ _ _ h1 h3 h4
          (by simp only [List.length_cons]; omega)).mono ?_
        rintro st' s2 ⟨e2, h⟩
        exact ⟨e1.trans e2, h⟩

theorem pushSpine_within {a b H : Nat} (hab : b + 1 ≤ a) {p : Ptr} {k : K} {v : V}
    {r l : Tree K V} (hr : (Tree.node p l k v r).Rep s.map.nodes.view)
    (hn : (Tree.node p l k v r).ptrs.Nodup)
    {st : Stack} {rem : List (Ptr × K × V)} {ps : List Ptr} {N : Nat}
    (hi : PostInv s.map.nodes.view H st rem ps N)
    (hps : ∀ q ∈ ps, q ∉ (Tree.node p l k v r).ptrs)
    (hH : (Tree.node p l k v r).height + ps.length ≤ H) {n : NodeRef} (hp : n.ptr = p)
    (hB : s.heap.next + a * (l.size + (r.size + N)) + b * (ps.length + 1) ≤ B) :
    Within B (pushSpine n st) s fun st' s' => Same s s' ∧
      ∃ rem' ps' N', PostInv s.map.nodes.view H st' rem' ps' N' ∧
        s'.heap.next + a * N' + b * ps'.length ≤ B := by
  refine .get ?_
  generalize walkFuel s.map.nodes = fuel
  generalize hv : s.map.nodes.view = view at hr hi ⊢
  induction l generalizing s p k v r st rem ps N fuel n with
  | leaf =>
    obtain ⟨h1, h2, h3, h4⟩ := postSpine hr hn hi hps hH
    simp only [Tree.size, Nat.zero_add] at hB
    cases fuel with
    | zero => exact .diverge (by omega)
    | succ fuel =>
      rw [loop_succ]
      refine .bind (R := fun x s' => x = .inr (p :: (r.root.toList ++ st)) ∧ Same s s' ∧
        s'.heap.next = s.heap.next) ?_ ?_
      · refine .bind (deref_within (x := ⟨k, v, none, r.root⟩)
          (by rw [hp, hv]; exact hr.1) (by omega)) ?_
        rintro x s2 ⟨rfl, e2, c2⟩
        refine .pure (by omega) ⟨?_, e2, c2⟩
        simp only [hp]
      · rintro x s1 ⟨rfl, e1, c1⟩
        exact .pure (by omega) ⟨e1, _, _, _, h1, by simp only [List.length_cons]; omega⟩
  | node q ql qk qv qr ihl _ =>
    obtain ⟨h1, h2, h3, h4⟩ := postSpine hr hn hi hps hH
    have hB' : s.heap.next + 1 + a * (ql.size + (qr.size + (r.size + N))) +
        b * (ps.length + 1 + 1) ≤ B := by
      simp only [Tree.size] at hB
      have e1 : a * (ql.size + 1 + qr.size + (r.size + N)) =
          a * (ql.size + (qr.size + (r.size + N))) + a := by
        rw [show ql.size + 1 + qr.size + (r.size + N) =
          (ql.size + (qr.size + (r.size + N))) + 1 by omega, Nat.mul_succ]
      have e2 : b * (ps.length + 1 + 1) = b * (ps.length + 1) + b := Nat.mul_succ _ _
      omega
    cases fuel with
    | zero => exact .diverge (by omega)
    | succ fuel =>
      rw [loop_succ]
      refine .bind (R := fun x s' => (∃ n : NodeRef, n.ptr = q ∧
        x = .inl (n, p :: (r.root.toList ++ st))) ∧ Same s s' ∧
        s'.heap.next ≤ s.heap.next + 1) ?_ ?_
      · refine .bind (deref_within (x := ⟨k, v, some q, r.root⟩)
          (by rw [hp, hv]; exact hr.1) (by omega)) ?_
        rintro x s2 ⟨rfl, e2, c2⟩
        refine .bind (node_within false q (by omega)) ?_
        rintro n' s1 ⟨hq, e1, c1⟩
        refine .pure (by omega) ⟨⟨n', hq, ?_⟩, e2.trans e1, by omega⟩
        simp only [hp]
      · rintro x s1 ⟨⟨n', hq, rfl⟩, e1, c1⟩
        refine (ihl (s := s1) (N := r.size + N) h2 h3 h4 hq
          (by simp only [List.length_cons]; omega) fuel (by rw [e1.1]; exact hv) hr.2.1 h1).mono ?_
        rintro st' s2 ⟨e2, h⟩
        exact ⟨e1.trans e2, h⟩

/-- The price of `ex`. -/
def extra (ex : Bool) : Nat := if ex then 2 else 1

theorem finish_within (ex : Bool) {n : NodeRef} {p : Ptr} {st : Stack}
    (hB : s.heap.next + extra ex ≤ B + 1) :
    Within B (do
      let n ← if ex then node true p else Pure.pure n
      Pure.pure (.inr (some n, st)) : M (TMap Borrows K V) (Stack ⊕ (Option NodeRef × Stack))) s
      fun x s' => Same s s' ∧ (∃ y, x = .inr (some y, st)) ∧
        s'.heap.next + 1 ≤ s.heap.next + extra ex := by
  cases ex with
  | false => exact .pure (by simp [extra] at hB; omega) ⟨.refl _, ⟨n, rfl⟩, by simp [extra]⟩
  | true =>
    simp only [extra, if_true] at hB ⊢
    refine .bind (node_within true p (by omega)) ?_
    rintro m s1 ⟨_, e1, c1⟩
    exact .pure (by omega) ⟨e1, ⟨m, rfl⟩, by omega⟩

theorem nextPostorder_within (ex : Bool) {H : Nat} {st : Stack} {rem : List (Ptr × K × V)}
    {ps : List Ptr} {N : Nat} (hi : PostInv s.map.nodes.view H st rem ps N)
    (hB : s.heap.next + (extra ex + 2) * N + extra ex * ps.length ≤ B) :
    Within B (nextPostorder ex st) s fun x s' => Same s s' ∧
      ∃ rem' ps' N', PostInv s.map.nodes.view H x.2 rem' ps' N' ∧
        s'.heap.next + (extra ex + 2) * N' + extra ex * ps'.length ≤ B := by
  refine .get ?_
  have hex : 1 ≤ extra ex := by cases ex <;> simp [extra]
  generalize walkFuel s.map.nodes = fuel
  generalize hv : s.map.nodes.view = view at hi ⊢
  induction fuel generalizing s st rem ps N with
  | zero => exact .diverge (by omega)
  | succ fuel ih =>
    rw [loop_succ]
    -- the node is yielded
    have fin : ∀ {p : Ptr} {k : K} {v : V} {lo ro : Option Ptr} {st : Stack}
        {rem : List (Ptr × K × V)} {ps : List Ptr} {N : Nat},
        view p = some ⟨k, v, lo, ro⟩ → (∀ q, st.head? = some q → ro ≠ some q) →
        PostInv view H st rem ps N →
        s.heap.next + (extra ex + 2) * N + extra ex * (ps.length + 1) ≤ B →
        Within B (do
          let n ← node false p
          let x ← deref n
          match x.right, st with
          | some right, top :: rest =>
            if top = right then
              let n ← node false right
              let stack ← pushSpine n (p :: rest)
              Pure.pure (.inl stack)
            else
              let n ← if ex then node true p else Pure.pure n
              Pure.pure (.inr (some n, top :: rest))
          | _, stack => do
            let n ← if ex then node true p else Pure.pure n
            Pure.pure (.inr (some n, stack)) : M (TMap Borrows K V) (Stack ⊕ (Option NodeRef × Stack))) s
          fun x s' => Same s s' ∧ (∃ y, x = .inr (some y, st)) ∧
            s'.heap.next + (extra ex + 2) * N + extra ex * ps.length ≤ B := by
      intro p k v lo ro st rem ps N h1 h2 h4 hB
      have e2 : extra ex * (ps.length + 1) = extra ex * ps.length + extra ex := Nat.mul_succ _ _
      refine .bind (node_within false p (by omega)) ?_
      rintro n s1 ⟨hp, e1, c1⟩
      refine .bind (deref_within (x := ⟨k, v, lo, ro⟩)
        (by rw [hp, e1.1, hv]; exact h1) (by omega)) ?_
      rintro x s2 ⟨rfl, e2, c2⟩
      have key := finish_within (s := s2) (B := B) ex (n := n) (p := p) (st := st) (by omega)
      replace key := key.mono (R' := fun x s' => Same s s' ∧ (∃ y, x = .inr (some y, st)) ∧
          s'.heap.next + (extra ex + 2) * N + extra ex * ps.length ≤ B) fun x s3 h =>
        ⟨(e1.trans e2).trans h.1, h.2.1, by omega⟩
      cases ro with
      | none => exact key
      | some q =>
        cases st with
        | nil => exact key
        | cons top rest =>
          have : top ≠ q := fun e => h2 top rfl (by rw [e])
          simp only [if_neg this]
          exact key
    cases hi with
    | nil => exact .pure (by omega) ⟨.refl _, [], [], 0, .nil, hB⟩
    | @last st rem ps N p k v lo ro h1 h2 h3 h4 =>
      refine .bind (fin h1 (fun q hq => ?_) h4 hB) fun x s' h => by
          obtain ⟨e, ⟨y, rfl⟩, c⟩ := h
          exact .pure (by omega) ⟨e, _, _, _, h4, c⟩
      rw [h4.head] at hq
      exact h2 q (List.mem_of_mem_head? hq)
    | @pend st rem ps N p k v lo r h1 h2 h3 h4 h5 h6 =>
      cases r with
      | leaf =>
        simp only [Tree.size, Nat.zero_add] at hB
        exact .bind (fin h1 (fun q hq => by simp) h6 hB) fun x s' h => by
          obtain ⟨e, ⟨y, rfl⟩, c⟩ := h
          exact .pure (by omega) ⟨e, _, _, _, h6, c⟩
      | node q ql qk qv qr =>
        obtain ⟨hpn, hqn⟩ := List.nodup_cons.1 h3
        have hlast : PostInv view H (p :: st) ((p, k, v) :: rem) (p :: ps) N := by
          refine .last p k v lo (some q) h1 ?_ (by omega) h6
          rintro x hx e
          cases e
          exact h4 q hx (by simp [ptrs])
        have hB' : s.heap.next + 2 + (extra ex + 2) * (ql.size + (qr.size + N)) +
            extra ex * (ps.length + 1 + 1) ≤ B := by
          simp only [Tree.size, List.length_cons] at hB
          have e1 : (extra ex + 2) * (ql.size + 1 + qr.size + N) =
              (extra ex + 2) * (ql.size + (qr.size + N)) + (extra ex + 2) := by
            rw [show ql.size + 1 + qr.size + N = (ql.size + (qr.size + N)) + 1 by omega,
              Nat.mul_succ]
          have e2 : extra ex * (ps.length + 1 + 1) = extra ex * (ps.length + 1) + extra ex :=
            Nat.mul_succ _ _
          omega
        refine .bind (R := fun x s' => Same s s' ∧ ∃ st', x = .inl st' ∧ ∃ rem' ps' N',
          PostInv view H st' rem' ps' N' ∧
            s'.heap.next + (extra ex + 2) * N' + extra ex * ps'.length ≤ B) ?_ ?_
        · refine .bind (node_within false p (by omega)) ?_
          rintro n s1 ⟨hp, e1, c1⟩
          refine .bind (deref_within (x := ⟨k, v, lo, some q⟩)
            (by rw [hp, e1.1, hv]; exact h1) (by omega)) ?_
          rintro x s2 ⟨rfl, e2, c2⟩
          simp only [root_node, Option.toList_some, List.cons_append, List.nil_append, if_true]
          refine .bind (node_within false q (by omega)) ?_
          rintro n' s3 ⟨hq, e3, c3⟩
          have e := (e1.trans e2).trans e3
          refine .bind (pushSpine_within (s := s3) (a := extra ex + 2) (b := extra ex) (H := H)
            (by omega) (by rw [e.1, hv]; exact h2) hqn (by rw [e.1, hv]; exact hlast) (by
              intro x hx
              rcases List.mem_cons.1 hx with rfl | hx
              · exact hpn
              · exact h4 x hx) (by simp; omega) hq (by simp only [List.length_cons]; omega)) ?_
          rintro st' s4 ⟨e4, rem', ps', N', hi', c4⟩
          rw [e.1, hv] at hi'
          exact .pure (by omega) ⟨e.trans e4, st', rfl, rem', ps', N', hi', c4⟩
        · rintro x s1 ⟨e1, st', rfl, rem', ps', N', hi', c⟩
          refine (ih (s := s1) c (by rw [e1.1]; exact hv) hi').mono ?_
          rintro y s2 ⟨e2, h⟩
          exact ⟨e1.trans e2, h⟩

/-! ### All of an iteration -/

/-- What was and what will be paid for a shared iterator. -/
def Paid (o : Order) (ex : Bool) (B : Nat) (view : Ptr → Option (InnerNode K V)) (s : TMap Borrows K V)
    (st : Stack) : Prop :=
  match o with
  | .pre => ∃ H rem, PreInv view H st rem ∧ s.heap.next + rem.length ≤ B
  | .ino => ∃ H rem, InoInv view H st rem ∧
      s.heap.next + (extra ex + 1) * rem.length ≤ B + st.length
  | .post => ∃ H rem ps N, PostInv view H st rem ps N ∧
      s.heap.next + (extra ex + 2) * N + extra ex * ps.length ≤ B

/-- The price per entry. -/
def price (o : Order) (ex : Bool) : Nat := if ex then o.priceMut else o.price

theorem iterRef_within {t : Tree K V} (h : Shape cfg s.map t) (o : Order) (ex : Bool) :
    Within (s.heap.next + price o ex * t.size) (o.iterRef : M (TMap Borrows K V) Stack) s fun st s' =>
      Same s s' ∧ Paid o ex (s.heap.next + price o ex * t.size) s.map.nodes.view s' st := by
  have hh := t.height_le_size
  cases o with
  | pre =>
    refine .get (.pure (by omega) ⟨.refl _, t.height, t.pre, ?_, ?_⟩)
    · rw [h.root]; exact (preNew_ok h).2
    · rw [pre_length]; cases ex <;> simp [price, Order.price, Order.priceMut]
  | ino =>
    have hp : t.size ≤ price .ino ex * t.size := by
      cases ex <;> simp only [price, Order.price, Order.priceMut, if_true, if_false,
        Bool.false_eq_true] <;> omega
    refine .get ?_
    rw [h.root]
    refine (pushLeftSpine_within h.rep (H := t.height) (rem := []) .nil (by simp) (by omega)).mono ?_
    rintro st s1 ⟨e1, hi, c1⟩
    refine ⟨e1, t.height, _, hi, ?_⟩
    have e : price .ino ex = extra ex + 1 := by cases ex <;> rfl
    simp only [List.append_nil, ino_length, List.length_nil, e] at *
    omega
  | post =>
    refine .get ?_
    rw [h.root]
    have e : price .post ex = extra ex + 2 := by cases ex <;> rfl
    rw [e]
    refine (newPostorder_within (a := extra ex + 2) (b := extra ex) (H := t.height) (by omega)
      h.rep h.nodup (Nat.le_refl _) (Nat.le_refl _)).mono ?_
    rintro st s1 ⟨e1, rem, ps, N, hi, c⟩
    exact ⟨e1, t.height, rem, ps, N, hi, c⟩

theorem next_within (o : Order) (ex : Bool) {st : Stack}
    (h : Paid o ex B s.map.nodes.view s st) :
    Within B (if ex then o.nextMutRef st else o.nextRef st) s fun x s' => Same s s' ∧
      Paid o ex B s.map.nodes.view s' x.2 := by
  cases o with
  | pre =>
    obtain ⟨H, rem, hi, hB⟩ := h
    cases ex <;>
    exact (nextPreorder_within _ hi hB).mono fun x s' ⟨e, rem', hi', c⟩ => ⟨e, H, rem', hi', c⟩
  | ino =>
    obtain ⟨H, rem, hi, hB⟩ := h
    cases ex with
    | false =>
      exact (nextInorder_within hi hB).mono fun x s' ⟨e, rem', hi', c⟩ => ⟨e, H, rem', hi', c⟩
    | true =>
      exact (nextMutInorder_within hi hB).mono fun x s' ⟨e, rem', hi', c⟩ => ⟨e, H, rem', hi', c⟩
  | post =>
    obtain ⟨H, rem, ps, N, hi, hB⟩ := h
    cases ex <;>
    exact (nextPostorder_within _ hi hB).mono
      fun x s' ⟨e, rem', ps', N', hi', c⟩ => ⟨e, H, rem', ps', N', hi', c⟩

theorem Paid.le {o : Order} {ex : Bool} {st : Stack} {view : Ptr → Option (InnerNode K V)}
    (h : Paid o ex B view s st) : s.heap.next ≤ B := by
  cases o with
  | pre => obtain ⟨H, rem, hi, hB⟩ := h; omega
  | ino =>
    obtain ⟨H, rem, hi, hB⟩ := h
    have := InoInv.stack_le hi
    rw [Nat.succ_mul] at hB
    omega
  | post => obtain ⟨H, rem, ps, N, hi, hB⟩ := h; omega

theorem nexts_within (o : Order) (ex : Bool) (n : Nat) {st : Stack}
    (h : Paid o ex B s.map.nodes.view s st) :
    Within B (if ex then nextsMutRef o n st else nextsRef o n st) s fun _ s' => s'.heap.next ≤ B := by
  induction n generalizing s st with
  | zero => cases ex <;> exact .pure h.le h.le
  | succ n ih =>
    have h1 := next_within o ex h
    cases ex with
    | false =>
      refine .bind h1 ?_
      rintro x s1 ⟨e1, p1⟩
      refine .bind (ih (s := s1) (st := x.2) (by rw [e1.1]; exact p1)) ?_
      exact fun _ s2 h2 => .pure h2 h2
    | true =>
      refine .bind h1 ?_
      rintro x s1 ⟨e1, p1⟩
      refine .bind (ih (s := s1) (st := x.2) (by rw [e1.1]; exact p1)) ?_
      exact fun _ s2 h2 => .pure h2 h2

theorem iterate_within {t : Tree K V} (h : Shape cfg s.map t) (o : Order) (n : Nat) :
    (iterate o n s).2.heap.next ≤ s.heap.next + o.price * t.size := by
  have h1 := iterRef_within h o false
  refine (Within.bind h1 (R' := fun _ _ => True) ?_).1
  rintro st s1 ⟨e1, p1⟩
  exact (nexts_within o false n (by rw [e1.1]; exact p1)).mono fun _ _ _ => trivial

theorem iterateMut_within {t : Tree K V} (h : Shape cfg s.map t) (o : Order) (n : Nat) :
    (iterateMut o n s).2.heap.next ≤ s.heap.next + o.priceMut * t.size := by
  have h1 := iterRef_within h o true
  refine (Within.bind h1 (R' := fun _ _ => True) ?_).1
  rintro st s1 ⟨e1, p1⟩
  exact (nexts_within o true n (by rw [e1.1]; exact p1)).mono fun _ _ _ => trivial

/-! ### Searching -/

/-- A reference to the root of `u`, if it has one. -/
def At (u : Tree K V) (n : Option NodeRef) : Prop := n.map (·.ptr) = u.root

theorem nodeOpt_within (ex : Bool) (u : Tree K V) (hB : s.heap.next + u.height ≤ B) :
    Within B (nodeOpt ex u.root) s fun n s' => At u n ∧ Same s s' ∧
      s'.heap.next + (u.height - 1) ≤ B := by
  cases u with
  | leaf => exact .pure (by omega) ⟨rfl, .refl _, by simpa [height] using hB⟩
  | node p l k v r =>
    simp only [height] at hB ⊢
    refine .bind (node_within ex p (by omega)) ?_
    rintro n s1 ⟨hp, e1, c1⟩
    exact .pure (by omega) ⟨by simp [At, hp], e1, by omega⟩

/-- The loop of the searches: at the node `n` its reference has been paid for. -/
theorem descend_within {t : Tree K V} (h : Shape cfg s.map t) (ex : Bool) (c : Probe K)
    (hB : s.heap.next + t.height ≤ B) :
    Within B (descend ex c) s fun _ s' => s'.heap.next ≤ B := by
  refine .get ?_
  rw [h.root]
  refine .bind (nodeOpt_within ex t hB) ?_
  rintro n s1 ⟨hn, e1, c1⟩
  have hr : t.Rep s1.map.nodes.view := by rw [e1.1]; exact h.rep
  clear hB h e1
  generalize walkFuel s.map.nodes = fuel
  generalize 0 = i
  induction t generalizing s1 n fuel i with
  | leaf =>
    cases fuel with
    | zero => exact .diverge (by omega)
    | succ fuel =>
      cases n with
      | none => rw [loop_succ]; exact .pure (by omega) (by omega)
      | some n => cases hn
  | node p l k v r ihl ihr =>
    cases fuel with
    | zero => exact .diverge (by omega)
    | succ fuel =>
      cases n with
      | none => cases hn
      | some n =>
        have hp : n.ptr = p := by simpa [At] using hn
        simp only [height] at c1
        rw [loop_succ]
        refine .bind (R := fun x s' => Same s1 s' ∧ ((∃ a, x = .inr a ∧ s'.heap.next ≤ B) ∨
          (∃ m, x = .inl (i + 1, m) ∧ At l m ∧ s'.heap.next + (l.height - 1) ≤ B) ∨
          (∃ m, x = .inl (i + 1, m) ∧ At r m ∧ s'.heap.next + (r.height - 1) ≤ B))) ?_ ?_
        · refine .bind (deref_within (x := ⟨k, v, l.root, r.root⟩)
            (by rw [hp]; exact hr.1) (by omega)) ?_
          rintro x s2 ⟨rfl, e2, c2⟩
          simp only
          cases c i k with
          | none => exact .panic (by omega)
          | some d =>
            cases d with
            | eq => exact .pure (by omega) ⟨e2, .inl ⟨_, rfl, by omega⟩⟩
            | lt =>
              refine .bind (R := fun m s' => At l m ∧ Same s1 s' ∧
                s'.heap.next + (l.height - 1) ≤ B) ?_ ?_
              · refine .bind (deref_within (x := ⟨k, v, l.root, r.root⟩)
                  (by rw [hp, e2.1]; exact hr.1) (by omega)) ?_
                rintro x s3 ⟨rfl, e3, c3⟩
                refine (nodeOpt_within ex l (by omega)).mono ?_
                rintro m s4 ⟨hm, e4, c4⟩
                exact ⟨hm, (e2.trans e3).trans e4, c4⟩
              · rintro m s3 ⟨hm, e3, c3⟩
                exact .pure (by omega) ⟨e3, .inr (.inl ⟨m, rfl, hm, c3⟩)⟩
            | gt =>
              refine .bind (R := fun m s' => At r m ∧ Same s1 s' ∧
                s'.heap.next + (r.height - 1) ≤ B) ?_ ?_
              · refine .bind (deref_within (x := ⟨k, v, l.root, r.root⟩)
                  (by rw [hp, e2.1]; exact hr.1) (by omega)) ?_
                rintro x s3 ⟨rfl, e3, c3⟩
                refine (nodeOpt_within ex r (by omega)).mono ?_
                rintro m s4 ⟨hm, e4, c4⟩
                exact ⟨hm, (e2.trans e3).trans e4, c4⟩
              · rintro m s3 ⟨hm, e3, c3⟩
                exact .pure (by omega) ⟨e3, .inr (.inr ⟨m, rfl, hm, c3⟩)⟩
        · rintro x s2 ⟨e2, ⟨a, rfl, c2⟩ | ⟨m, rfl, hm, c2⟩ | ⟨m, rfl, hm, c2⟩⟩
          · exact .pure c2 c2
          · exact ihl m s2 hm c2 (by rw [e2.1]; exact hr.2.1) fuel (i + 1)
          · exact ihr m s2 hm c2 (by rw [e2.1]; exact hr.2.2) fuel (i + 1)

/-! ### Inserting -/

/-- The tags belong to the chunks. -/
def Tidy (cfg : Cfg) (s : TMap Borrows K V) : Prop :=
  s.map.nodes.items.Inv cfg ∧ s.tags.length = s.map.nodes.items.chunks.length

theorem Tidy.same (h : Tidy cfg s) (e : Same s s') : Tidy cfg s' := by
  unfold Tidy; rw [e.1, e.2]; exact h

theorem _root_.BST.Tagged.adopt_next {T : Type} (l : List (Chunk T)) (s : Tagged Borrows T) :
    (Tagged.adopt s l).heap.next ≤ s.heap.next + l.length := by
  induction l generalizing s with
  | nil => exact Nat.le_refl _
  | cons c l ih =>
    have := ih (s := { s with tags := s.tags ++ [s.heap.next]
                              heap := (Borrows.allocate c.id c.slots.length s.heap).2 })
    have e : (Borrows.allocate c.id c.slots.length s.heap).2.next = s.heap.next + 1 := rfl
    simp only [e] at this
    simp only [List.length_cons]
    refine Nat.le_trans this ?_
    omega

theorem _root_.BST.Arena.alloc_chunks {T : Type} {a : Arena T} (h : a.Inv cfg) (v : T) :
    (Arena.alloc cfg v a).2.chunks.length ≤ a.chunks.length + 1 := by
  rcases Arena.alloc_spec h v with ⟨b, e, _, _, _, hb⟩ | ⟨_, ⟨e, _⟩ | ⟨e, _⟩⟩
  · rw [e]
    have hw : (b.wrote v).chunks.length = b.chunks.length := by
      have := congrArg List.length (Tagged.sized_wrote b v)
      simpa using this
    show (b.wrote v).chunks.length ≤ _
    rw [hw]
    rcases hb with ⟨rfl, _⟩ | ⟨rfl, _⟩
    · omega
    · simp [Arena.grown]
  · rw [e]; exact Nat.le_succ _
  · rw [e]; exact Nat.le_succ _

/-- `onHeap` steps of the arena. -/
theorem _root_.BST.Tagged.onHeap_next {T : Type} {f : M Borrows α} {g : α → M (Tagged Borrows T) β}
    {s : Tagged Borrows T} {a b : Nat} (hf : ∀ h, (f h).2.next ≤ h.next + a)
    (hg : ∀ x s, (g x s).2.heap.next ≤ s.heap.next + b) :
    ((Tagged.onHeap f >>= g) s).2.heap.next ≤ s.heap.next + (a + b) := by
  rw [M.bind_apply]
  unfold Tagged.onHeap
  have h1 := hf s.heap
  rcases he : f s.heap with ⟨o, h⟩
  rw [he] at h1
  replace h1 : h.next ≤ s.heap.next + a := h1
  cases o with
  | ok x =>
    have := hg x { s with heap := h }
    simp only at this ⊢
    omega
  | _ => show h.next ≤ _; omega

theorem _root_.BST.Tagged.alloc_next {T : Type} {s : Tagged Borrows T} (hi : s.arena.Inv cfg)
    (ht : s.tags.length = s.arena.chunks.length) (v : T) :
    (Tagged.alloc cfg v s).2.heap.next ≤ s.heap.next + 4 := by
  unfold Tagged.alloc
  have hg : ((Tagged.grow (Arena.alloc cfg v) s).2.heap.next) ≤ s.heap.next + 1 := by
    unfold Tagged.grow
    have := Arena.alloc_chunks hi v
    rcases he : Arena.alloc cfg v s.arena with ⟨o, a⟩
    rw [he] at this
    have h2 := Tagged.adopt_next (a.chunks.drop s.tags.length) { s with arena := a }
    simp only [List.length_drop] at h2 this ⊢
    omega
  rw [M.bind_apply]
  rcases he : Tagged.grow (Arena.alloc cfg v) s with ⟨o, s1⟩
  rw [he] at hg
  replace hg : s1.heap.next ≤ s.heap.next + 1 := hg
  cases o with
  | ok p =>
    simp only
    rw [M.read_bind]
    cases s1.tagOf p with
    | ok t =>
      rw [M.lift_ok_bind]
      have h3 : ∀ (w : Nat) (s : Tagged Borrows T), ((do
          Tagged.onHeap (Borrows.access true w p)
          Pure.pure p : M (Tagged Borrows T) Ptr) s).2.heap.next ≤ s.heap.next + 0 := fun w s =>
        Tagged.onHeap_next (a := 0) (b := 0)
          (fun h => Nat.le_of_eq (Borrows.onRange_next ..)) (fun _ s => Nat.le_refl _)
      have := Tagged.onHeap_next (s := s1) (a := 1) (b := 1 + (1 + 0))
        (fun h => Borrows.derive_next .excl t p 1 h) (fun r s =>
          Tagged.onHeap_next (s := s) (a := 1) (b := 1 + 0) (fun h => Borrows.derive_next .excl r p 1 h)
            (fun r' s => Tagged.onHeap_next (s := s) (a := 1) (b := 0)
              (fun h => Borrows.derive_next .raw r' p 1 h) h3))
      refine Nat.le_trans this ?_
      omega
    | _ => show s1.heap.next ≤ _; omega
  | _ => show s1.heap.next ≤ _; omega

theorem Within.step {f : M (TMap Borrows K V) α} {g : α → M (TMap Borrows K V) β} {n : Nat}
    (hf : (f s).2.heap.next ≤ s.heap.next + n)
    (hg : ∀ a s', s'.heap.next ≤ s.heap.next + n → Within B (g a) s' fun _ s' => s'.heap.next ≤ B)
    (hB : s.heap.next + n ≤ B) : Within B (f >>= g) s fun _ s' => s'.heap.next ≤ B :=
  .bind (R := fun _ s' => s'.heap.next ≤ s.heap.next + n)
    ⟨Nat.le_trans hf hB, fun _ _ => hf⟩ hg

theorem onNodes_cost (f : M (Nodes K V) α) (s : TMap Borrows K V) :
    (onNodes f s).2.heap.next = s.heap.next := rfl

theorem push_within (h : Tidy cfg s) (v : InnerNode K V) (hB : s.heap.next + 4 ≤ B) :
    Within B (push cfg v) s fun _ s' => s'.heap.next ≤ s.heap.next + 4 := by
  suffices (push cfg v s).2.heap.next ≤ s.heap.next + 4 from ⟨by omega, fun _ _ => this⟩
  suffices Within (s.heap.next + 4) (push cfg v) s fun _ _ => True from this.1
  refine .get ?_
  cases s.map.nodes.freeHead with
  | none =>
    exact ⟨Tagged.alloc_next (s := s.items) h.1 h.2 (.value v), fun _ _ => trivial⟩
  | some head =>
    suffices Within (s.heap.next + 4) _ s fun _ s' => s'.heap.next ≤ s.heap.next + 4 from
      this.mono fun _ _ _ => trivial
    refine .step (n := 1) (getRaw_cost true head s).1 (fun t s1 c1 => ?_) (by omega)
    refine .step (n := 0) (Nat.le_of_eq (access_cost false t head s1).1) (fun _ s2 c2 => ?_) (by omega)
    refine .step (n := 0) (Nat.le_refl _) (fun _ s3 c3 => ?_) (by omega)
    refine .step (n := 0) (Nat.le_refl _) (fun _ s4 c4 => ?_) (by omega)
    refine .step (n := 0) (Nat.le_refl _) (fun _ s5 c5 => ?_) (by omega)
    refine .step (n := 0) (Nat.le_refl _) (fun _ s6 c6 => ?_) (by omega)
    refine .step (n := 0) (Nat.le_refl _) (fun _ s7 c7 => ?_) (by omega)
    refine .step (n := 0) (Nat.le_of_eq (access_cost true t head s7).1) (fun _ s8 c8 => ?_) (by omega)
    refine .step (n := 0) (Nat.le_refl _) (fun _ s9 c9 => ?_) (by omega)
    exact .pure (by omega) (by omega)

theorem attach_within (h : Tidy cfg s) (n : NodeRef) (k : K) (v : V) (hB : s.heap.next + 4 ≤ B)
    {f : Ptr → InnerNode K V → InnerNode K V} :
    Within B (do
      let p ← push cfg (InnerNode.new k v)
      assign n (f p)
      Pure.pure p : M (TMap Borrows K V) Ptr) s fun _ s' => s'.heap.next ≤ B := by
  refine .bind (push_within h _ hB) fun p s1 c1 => ?_
  refine .bind (assign_within n (f p) (by omega)) fun _ s2 c2 => ?_
  exact .pure (by omega) (by omega)

theorem replaceValue_within (n : NodeRef) (v : V) (hB : s.heap.next ≤ B) :
    Within B (replaceValue n v : M (TMap Borrows K V) V) s fun _ s' => s'.heap.next ≤ B := by
  refine .bind (deref_within' n hB) fun x s1 c1 => ?_
  refine .bind (assign_within n _ (by omega)) fun _ s2 c2 => ?_
  exact .pure (by omega) (by omega)

theorem insert_within {t : Tree K V} (h : Shape cfg s.map t) (ht : Tidy cfg s) (c : Probe K) (k : K)
    (v : V) (hB : s.heap.next + t.height + 4 ≤ B) :
    Within B (TMap.insert cfg c k v) s fun _ s' => s'.heap.next ≤ B := by
  refine .get ?_
  rw [h.root]
  refine .bind (nodeOpt_within (B := B - 4) true t (by omega) |>.upto (by omega)) ?_
  rintro n s1 ⟨hn, e1, c1⟩
  have hr : t.Rep s1.map.nodes.view := by rw [e1.1]; exact h.rep
  have ht1 := ht.same e1
  cases n with
  | none =>
    refine .bind (push_within ht1 _ (by omega)) fun p s2 c2 => ?_
    refine .step (n := 0) (Nat.le_refl _) (fun _ s3 c3 => ?_) (by omega)
    exact .pure (by omega) (by omega)
  | some n =>
    have hB4 : 4 ≤ B := by omega
    clear hB h e1 ht
    generalize walkFuel s.map.nodes = fuel
    generalize 0 = i
    simp only
    induction t generalizing s1 n fuel i with
    | leaf => cases hn
    | node p l k1 v1 r ihl ihr =>
      cases fuel with
      | zero => exact .diverge (by omega)
      | succ fuel =>
        have hp : n.ptr = p := by simpa [At] using hn
        simp only [height] at c1
        rw [loop_succ]
        refine .bind (R := fun x s' => ((∃ a, x = .inr a ∧ s'.heap.next ≤ B) ∨ Same s1 s' ∧ (
          (∃ m, x = .inl (i + 1, some m) ∧ At l (some m) ∧ s'.heap.next + (l.height - 1) ≤ B - 4) ∨
          (∃ m, x = .inl (i + 1, some m) ∧ At r (some m) ∧ s'.heap.next + (r.height - 1) ≤ B - 4)))) ?_ ?_
        · refine .bind (deref_within (x := ⟨k1, v1, l.root, r.root⟩)
            (by rw [hp]; exact hr.1) (by omega)) ?_
          rintro x s2 ⟨rfl, e2, c2⟩
          simp only
          cases c i k1 with
          | none => exact .panic (by omega)
          | some d =>
            cases d with
            | eq =>
              exact .bind (replaceValue_within n v (by omega)) fun a s3 c3 =>
                .pure c3 (.inl ⟨_, rfl, c3⟩)
            | lt =>
              refine .bind (deref_within (x := ⟨k1, v1, l.root, r.root⟩)
                (by rw [hp, e2.1]; exact hr.1) (by omega)) ?_
              rintro x s3 ⟨rfl, e3, c3⟩
              have e23 := e2.trans e3
              cases hl : l.root with
              | none =>
                simp only [hl, Option.isSome_none, Bool.not_false, if_true]
                exact .bind (attach_within (ht1.same e23) n k v (by omega)) fun _ s4 c4 =>
                  .pure c4 (.inl ⟨_, rfl, c4⟩)
              | some lp =>
                simp only [hl, Option.isSome_some, Bool.not_true, Bool.false_eq_true, if_false]
                refine .bind (R := fun m s' => At l m ∧ Same s1 s' ∧
                  s'.heap.next + (l.height - 1) ≤ B - 4) ?_ ?_
                · refine .bind (deref_within (x := ⟨k1, v1, l.root, r.root⟩)
                    (by rw [hp, e23.1]; exact hr.1) (by omega)) ?_
                  rintro x s4 ⟨rfl, e4, c4⟩
                  refine ((nodeOpt_within (B := B - 4) true l (by omega)).upto (by omega)).mono ?_
                  rintro m s5 ⟨hm, e5, c5⟩
                  exact ⟨hm, (e23.trans e4).trans e5, c5⟩
                · rintro m s4 ⟨hm, e4, c4⟩
                  cases m with
                  | none => rw [At, hl] at hm; cases hm
                  | some m => exact .pure (by omega) (.inr ⟨e4, .inl ⟨m, rfl, hm, c4⟩⟩)
            | gt =>
              refine .bind (deref_within (x := ⟨k1, v1, l.root, r.root⟩)
                (by rw [hp, e2.1]; exact hr.1) (by omega)) ?_
              rintro x s3 ⟨rfl, e3, c3⟩
              have e23 := e2.trans e3
              cases hl : r.root with
              | none =>
                simp only [hl, Option.isSome_none, Bool.not_false, if_true]
                exact .bind (attach_within (ht1.same e23) n k v (by omega)) fun _ s4 c4 =>
                  .pure c4 (.inl ⟨_, rfl, c4⟩)
              | some lp =>
                simp only [hl, Option.isSome_some, Bool.not_true, Bool.false_eq_true, if_false]
                refine .bind (R := fun m s' => At r m ∧ Same s1 s' ∧
                  s'.heap.next + (r.height - 1) ≤ B - 4) ?_ ?_
                · refine .bind (deref_within (x := ⟨k1, v1, l.root, r.root⟩)
                    (by rw [hp, e23.1]; exact hr.1) (by omega)) ?_
                  rintro x s4 ⟨rfl, e4, c4⟩
                  refine ((nodeOpt_within (B := B - 4) true r (by omega)).upto (by omega)).mono ?_
                  rintro m s5 ⟨hm, e5, c5⟩
                  exact ⟨hm, (e23.trans e4).trans e5, c5⟩
                · rintro m s4 ⟨hm, e4, c4⟩
                  cases m with
                  | none => rw [At, hl] at hm; cases hm
                  | some m => exact .pure (by omega) (.inr ⟨e4, .inr ⟨m, rfl, hm, c4⟩⟩)
        · rintro x s2 (⟨a, rfl, c2⟩ | ⟨e2, ⟨m, rfl, hm, c2⟩ | ⟨m, rfl, hm, c2⟩⟩)
          · exact .pure c2 c2
          · exact ihl s2 c2 (by rw [e2.1]; exact hr.2.1) (ht1.same e2) m hm fuel (i + 1)
          · exact ihr s2 c2 (by rw [e2.1]; exact hr.2.2) (ht1.same e2) m hm fuel (i + 1)

/-! ### Removing -/

/-- `p` is the address of a node of height `H` with these subtrees. -/
def NodeAt (view : Ptr → Option (InnerNode K V)) (p : Ptr) (H : Nat) : Prop :=
  ∃ l r k v, (Tree.node p l k v r).Rep view ∧ (Tree.node p l k v r).height ≤ H

theorem findWithParent_within {t : Tree K V} (h : Shape cfg s.map t) (c : Probe K)
    (hB : s.heap.next + t.height ≤ B) :
    Within B (findWithParent c) s fun x s' => Same s s' ∧ s'.heap.next ≤ B ∧
      ∀ p, x.2 = some p → ∃ H, NodeAt s.map.nodes.view p H ∧ s'.heap.next + H ≤ B + 1 := by
  refine .get ?_
  rw [h.root]
  have hr := h.rep
  clear h
  generalize walkFuel s.map.nodes = fuel
  obtain ⟨i, parent, hst⟩ : ∃ i parent, ((0 : Nat), (none : Option Ptr), t.root) =
    (i, parent, t.root) := ⟨_, _, rfl⟩
  rw [hst]
  clear hst
  generalize hv : s.map.nodes.view = view at hr ⊢
  induction t generalizing s parent fuel i with
  | leaf =>
    cases fuel with
    | zero => exact .diverge (by omega)
    | succ fuel =>
      rw [loop_succ]
      exact .pure (by omega) ⟨.refl _, by omega, fun p e => by cases e⟩
  | node p l k v r ihl ihr =>
    cases fuel with
    | zero => exact .diverge (by omega)
    | succ fuel =>
      rw [loop_succ]
      have hH : (Tree.node p l k v r).height = max l.height r.height + 1 := rfl
      refine .bind (R := fun x s' => Same s s' ∧
        (x = .inr (parent, some p) ∧ s'.heap.next + (Tree.node p l k v r).height ≤ B + 1 ∨
         x = .inl (i + 1, some p, l.root) ∧ s'.heap.next + l.height ≤ B ∨
         x = .inl (i + 1, some p, r.root) ∧ s'.heap.next + r.height ≤ B)) ?_ ?_
      · refine .bind (node_within false p (by omega)) ?_
        rintro n s1 ⟨hp, e1, c1⟩
        refine .bind (deref_within (x := ⟨k, v, l.root, r.root⟩)
          (by rw [hp, e1.1, hv]; exact hr.1) (by omega)) ?_
        rintro x s2 ⟨rfl, e2, c2⟩
        simp only
        cases c i k with
        | none => exact .panic (by omega)
        | some d =>
          cases d with
          | eq => exact .pure (by omega) ⟨e1.trans e2, .inl ⟨rfl, by omega⟩⟩
          | lt => exact .pure (by omega) ⟨e1.trans e2, .inr (.inl ⟨rfl, by omega⟩)⟩
          | gt => exact .pure (by omega) ⟨e1.trans e2, .inr (.inr ⟨rfl, by omega⟩)⟩
      · rintro x s1 ⟨e1, ⟨rfl, c1⟩ | ⟨rfl, c1⟩ | ⟨rfl, c1⟩⟩
        · refine .pure (by omega) ⟨e1, by omega, fun q hq => ?_⟩
          cases hq
          exact ⟨_, ⟨l, r, k, v, hr, Nat.le_refl _⟩, c1⟩
        · refine (ihl (s := s1) c1 fuel (i + 1) (some p) (by rw [e1.1]; exact hv) hr.2.1).mono ?_
          rintro x s2 ⟨e2, h⟩
          exact ⟨e1.trans e2, h⟩
        · refine (ihr (s := s1) c1 fuel (i + 1) (some p) (by rw [e1.1]; exact hv) hr.2.2).mono ?_
          rintro x s2 ⟨e2, h⟩
          exact ⟨e1.trans e2, h⟩

theorem findSucc_within {t : Tree K V} (hr : t.Rep s.map.nodes.view) {parent succ : Ptr}
    (ht : t.root = some succ) (hB : s.heap.next + t.height ≤ B) :
    Within B (findSucc parent succ) s fun _ s' => s'.heap.next ≤ s.heap.next + t.height := by
  refine .get ?_
  generalize walkFuel s.map.nodes = fuel
  induction t generalizing s parent succ fuel with
  | leaf => cases ht
  | node p l k v r ihl _ =>
    cases ht
    cases fuel with
    | zero => exact .diverge (by omega)
    | succ fuel =>
      simp only [height] at hB ⊢
      rw [loop_succ]
      refine .bind (R := fun x s' => Same s s' ∧ s'.heap.next ≤ s.heap.next + 1 ∧
        (x = .inr (parent, p) ∨ ∃ lp, l.root = some lp ∧ x = .inl (p, lp))) ?_ ?_
      · refine .bind (node_within false p (by omega)) ?_
        rintro n s1 ⟨hp, e1, c1⟩
        refine .bind (deref_within (x := ⟨k, v, l.root, r.root⟩)
          (by rw [hp, e1.1]; exact hr.1) (by omega)) ?_
        rintro x s2 ⟨rfl, e2, c2⟩
        simp only
        cases hl : l.root with
        | none => exact .pure (by omega) ⟨e1.trans e2, by omega, .inl rfl⟩
        | some lp => exact .pure (by omega) ⟨e1.trans e2, by omega, .inr ⟨lp, rfl, rfl⟩⟩
      · rintro x s1 ⟨e1, c1, rfl | ⟨lp, hl, rfl⟩⟩
        · exact .pure (by omega) (by omega)
        · refine (ihl (s := s1) (by rw [e1.1]; exact hr.2.1) hl (by omega) fuel).mono ?_
          intro _ s2 c2
          omega

theorem replacement_within {H : Nat} (hp : NodeAt s.map.nodes.view p H)
    (hB : s.heap.next + H + 4 ≤ B) :
    Within B (replacement p) s fun _ s' => s'.heap.next ≤ s.heap.next + H + 4 := by
  obtain ⟨l, r, k, v, hr, hH⟩ := hp
  simp only [height] at hH
  refine .bind (node_within true p (by omega)) ?_
  rintro n s1 ⟨hp, e1, c1⟩
  refine .bind (deref_within (x := ⟨k, v, l.root, r.root⟩)
    (by rw [hp, e1.1]; exact hr.1) (by omega)) ?_
  rintro x s2 ⟨rfl, e2, c2⟩
  simp only
  cases hl : l.root with
  | none =>
    cases r.root <;> exact .pure (by omega) (by omega)
  | some lp =>
    cases r with
    | leaf => exact .pure (by omega) (by omega)
    | node q ql qk qv qr =>
      simp only [root_node, height] at hH ⊢
      refine .bind (node_within false q (by omega)) ?_
      rintro n s3 ⟨hq, e3, c3⟩
      have e13 := (e1.trans e2).trans e3
      refine .bind (deref_within (x := ⟨qk, qv, ql.root, qr.root⟩)
        (by rw [hq, e13.1]; exact hr.2.2.1) (by omega)) ?_
      rintro x s4 ⟨rfl, e4, c4⟩
      have e14 := e13.trans e4
      refine .bind (R := fun _ s' => s'.heap.next ≤ s.heap.next + H + 3) ?_ ?_
      · simp only
        cases hql : ql.root with
        | none => exact .pure (by omega) (by omega)
        | some ml =>
          refine .bind (findSucc_within (t := ql) (by rw [e14.1]; exact hr.2.2.2.1) hql (by omega)) ?_
          rintro ⟨sp, su⟩ s5 c5
          refine .bind (node_within true su (by omega)) ?_
          rintro n1 s6 ⟨_, _, c6⟩
          refine .bind (deref_within' n1 (by omega)) fun z s7 c7 => ?_
          refine .bind (node_within true sp (by omega)) ?_
          rintro n2 s8 ⟨_, _, c8⟩
          refine .bind (assign_within n2 _ (by omega)) fun _ s9 c9 => ?_
          refine .bind (node_within true su (by omega)) ?_
          rintro n3 s10 ⟨_, _, c10⟩
          refine .bind (assign_within n3 _ (by omega)) fun _ s11 c11 => ?_
          exact .pure (by omega) (by omega)
      · intro su s5 c5
        refine .bind (node_within true su (by omega)) ?_
        rintro n1 s6 ⟨_, _, c6⟩
        refine .bind (assign_within n1 _ (by omega)) fun _ s7 c7 => ?_
        exact .pure (by omega) (by omega)

theorem removeEntry_within {t : Tree K V} (h : Shape cfg s.map t) (c : Probe K)
    (hB : s.heap.next + t.height + 7 ≤ B) :
    Within B (TMap.removeEntry cfg c) s fun _ s' => s'.heap.next ≤ B := by
  refine .bind ((findWithParent_within (B := B - 7) h c (by omega)).upto (by omega)) ?_
  rintro ⟨parent, current⟩ s1 ⟨e1, c1, hp⟩
  cases current with
  | none => exact .pure (by omega) (by omega)
  | some p =>
    obtain ⟨H, hn, c1'⟩ := hp p rfl
    refine .bind (replacement_within (s := s1) (by rw [e1.1]; exact hn) (by omega)) fun rw s2 c2 => ?_
    have rem : ∀ s3 : TMap Borrows K V, s3.heap.next + 1 ≤ B → Within B (do
        let x ← TMap.remove cfg p
        Pure.pure (some (x.key, x.value)) : M (TMap Borrows K V) (Option (K × V))) s3
        fun _ s' => s'.heap.next ≤ B := by
      intro s3 c3
      refine .bind (R := fun _ s' => s'.heap.next ≤ B) ?_ fun x s4 c4 => .pure c4 c4
      refine .step (n := 1) (getRaw_cost true p s3).1 (fun t s4 c4 => ?_) (by omega)
      refine .step (n := 0) (Nat.le_of_eq (access_cost false t p s4).1) (fun _ s5 c5 => ?_) (by omega)
      refine .step (n := 0) (Nat.le_of_eq (access_cost true t p s5).1) (fun _ s6 c6 => ?_) (by omega)
      exact ⟨by show s6.heap.next ≤ B; omega, fun _ _ => by show s6.heap.next ≤ B; omega⟩
    cases parent with
    | none =>
      refine .step (n := 0) (Nat.le_refl _) (fun _ s3 c3 => ?_) (by omega)
      exact rem s3 (by omega)
    | some pp =>
      refine .bind (node_within true pp (by omega)) ?_
      rintro n s3 ⟨_, _, c3⟩
      refine .bind (deref_within' n (by omega)) fun y s4 c4 => ?_
      split
      · exact .bind (assign_within n _ (by omega)) fun _ s5 c5 => rem s5 (by omega)
      · exact .bind (assign_within n _ (by omega)) fun _ s5 c5 => rem s5 (by omega)

end TMap
end BST
