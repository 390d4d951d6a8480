import Verif.Proofs.Ops
import Verif.Model.Iter
/-!
# Iterators

Each iterator satisfies `IterSpec`: there is an invariant relating its stack to
the entries still to be yielded, and `next` yields them one by one. The invariants
only mention memory cells of nodes that are still to be yielded.
-/
set_option linter.unusedSimpArgs false
namespace BST
open BSTMap Tree
variable {K V : Type}

/-- What it means for `next` to yield the entries listed by the invariant. -/
structure IterSpec {α E σ : Type} (next : σ → Out (Option α × σ)) (out : E → α)
    (I : σ → List E → Prop) : Prop where
  done : ∀ st, I st [] → next st = .ok (none, st)
  step : ∀ st e rest, I st (e :: rest) → ∃ st', next st = .ok (some (out e), st') ∧ I st' rest

theorem drain_spec {α E σ : Type} {next : σ → Out (Option α × σ)} {out : E → α}
    {I : σ → List E → Prop} (h : IterSpec next out I) {st : σ} {rem : List E}
    (hi : I st rem) {fuel : Nat} (hf : rem.length < fuel) :
    drain fuel next st = .ok (rem.map out) := by
  have key : ∀ (rem : List E) (st : σ) (acc : List α) (fuel : Nat), I st rem →
      rem.length < fuel →
      loop fuel (fun (s : σ × List α) => (do
        let (o, st) ← next s.1
        match o with
        | none => pure (.inr s.2.reverse)
        | some a => pure (.inl (st, a :: s.2)) : Out (_ ⊕ List α))) (st, acc) =
        .ok (acc.reverse ++ rem.map out) := by
    intro rem
    induction rem with
    | nil =>
      intro st acc fuel hi hf
      obtain ⟨n, rfl⟩ : ∃ k, fuel = k + 1 := ⟨fuel - 1, by simp at hf; omega⟩
      rw [loopO_inr (a := acc.reverse)]
      · simp
      · simp only [h.done st hi, Out.ok_bind]; rfl
    | cons e rest ih =>
      intro st acc fuel hi hf
      obtain ⟨n, rfl⟩ : ∃ k, fuel = k + 1 := ⟨fuel - 1, by simp at hf; omega⟩
      obtain ⟨st', hn, hi'⟩ := h.step st e rest hi
      rw [loopO_inl (b' := (st', out e :: acc))]
      · rw [ih st' (out e :: acc) n hi' (by simp at hf; omega)]
        simp
      · simp only [hn, Out.ok_bind]; rfl
  exact (key rem st [] fuel hi hf).trans (by simp)

/-! ### Pre-order -/

/-- `IterPreorder::next` and `IterMutPreorder::next`, up to what is yielded. -/
def preNext {α : Type} (g : Ptr → InnerNode K V → α) (nodes : Nodes K V) :
    Stack → Out (Option α × Stack)
  | [] => .ok (none, [])
  | top :: stack => do
    let node ← nodes.getUnchecked top
    let stack := node.right.toList ++ stack
    let stack := node.left.toList ++ stack
    pure (some (g top node), stack)

theorem preorder_eq (nodes : Nodes K V) : IterPreorder.next nodes =
    preNext (fun _ x => (x.key, x.value)) nodes := by
  funext st; cases st <;> rfl
theorem preorderMut_eq (nodes : Nodes K V) : IterMutPreorder.next nodes =
    preNext (fun p x => (x.key, p)) nodes := by
  funext st; cases st <;> rfl

/-- The stack is the list of roots of a forest; `H` bounds the height of each tree
plus the number of trees below it on the stack. -/
inductive PreInv (h : Ptr → Option (InnerNode K V)) (H : Nat) :
    Stack → List (Ptr × K × V) → Prop where
  | nil : PreInv h H [] []
  | cons {st : Stack} {rem : List (Ptr × K × V)} (t : Tree K V) : t.Rep h →
      t.height + st.length ≤ H → PreInv h H st rem →
      PreInv h H (t.root.toList ++ st) (t.pre ++ rem)

theorem PreInv.congr {h h' : Ptr → Option (InnerNode K V)} {H : Nat} {st : Stack}
    {rem : List (Ptr × K × V)} (hi : PreInv h H st rem) (he : ∀ e ∈ rem, h' e.1 = h e.1) :
    PreInv h' H st rem := by
  induction hi with
  | nil => exact .nil
  | @cons st rem t h1 h2 _ ih =>
    refine .cons t (h1.congr fun p hp => ?_) h2 (ih fun e hm => he e (by simp [hm]))
    rw [← t.pre_ptrs] at hp
    obtain ⟨e, hm, rfl⟩ := List.mem_map.1 hp
    exact he e (by simp [hm])

theorem PreInv.length {h : Ptr → Option (InnerNode K V)} {H : Nat} {st : Stack}
    {rem : List (Ptr × K × V)} (hi : PreInv h H st rem) : st.length ≤ H := by
  induction hi with
  | nil => simp
  | @cons st rem t h1 h2 _ ih =>
    cases t with
    | leaf => simpa using ih
    | node p l k v r => simp [height] at h2 ⊢; omega

/-- Head of a non-empty remaining list: the top of the stack is its address. -/
theorem PreInv.split {h : Ptr → Option (InnerNode K V)} {H : Nat} {st : Stack}
    {e : Ptr × K × V} {rest : List (Ptr × K × V)} (hi : PreInv h H st (e :: rest)) :
    ∃ l r st' rem', st = e.1 :: st' ∧ rest = l.pre ++ (r.pre ++ rem') ∧
      (node e.1 l e.2.1 e.2.2 r).Rep h ∧
      max l.height r.height + 1 + st'.length ≤ H ∧ PreInv h H st' rem' := by
  generalize hr : e :: rest = rem at hi
  induction hi with
  | nil => cases hr
  | @cons st rem t h1 h2 h3 ih =>
    cases t with
    | leaf => simp only [pre, List.nil_append] at hr; exact ih hr
    | node p l k v r =>
      simp only [pre, List.cons_append, List.cons.injEq, List.append_assoc] at hr
      obtain ⟨rfl, rfl⟩ := hr
      exact ⟨l, r, st, rem, rfl, rfl, h1, h2, h3⟩

theorem PreInv.empty {h : Ptr → Option (InnerNode K V)} {H : Nat} {st : Stack}
    (hi : PreInv h H st ([] : List (Ptr × K × V))) : st = [] := by
  generalize hr : ([] : List (Ptr × K × V)) = rem at hi
  induction hi with
  | nil => rfl
  | @cons st rem t h1 h2 h3 ih =>
    cases t with
    | leaf => exact ih hr
    | node p l k v r => simp [pre] at hr

theorem preNext_spec {α : Type} (g : Ptr → InnerNode K V → α) (out : Ptr × K × V → α)
    (hg : ∀ p k v l r, g p ⟨k, v, l, r⟩ = out (p, k, v)) (nodes : Nodes K V) (H : Nat) :
    IterSpec (preNext g nodes) out (PreInv nodes.view H) where
  done st hi := by rw [hi.empty]; rfl
  step st e rest hi := by
    obtain ⟨l, r, st', rem', rfl, rfl, hrep, hH, hi'⟩ := hi.split
    refine ⟨l.root.toList ++ (r.root.toList ++ st'), ?_, ?_⟩
    · simp only [preNext, Slab.getUnchecked_ok hrep.1, Out.ok_bind, Out.pure_eq, hg]
    · refine .cons l hrep.2.1 ?_ (.cons r hrep.2.2 (by omega) hi')
      cases r <;> simp <;> omega

/-! ### In-order -/

/-- `IterInorder::next` and `IterMutInorder::next`, up to what is yielded. -/
def inoNext {α : Type} (g : Ptr → InnerNode K V → α) (nodes : Nodes K V) :
    Stack → Out (Option α × Stack)
  | [] => .ok (none, [])
  | top :: stack => do
    let node ← nodes.getUnchecked top
    let stack ← IterInorder.pushLeftSpine nodes node.right stack
    pure (some (g top node), stack)

theorem inorder_eq (nodes : Nodes K V) : IterInorder.next nodes =
    inoNext (fun _ x => (x.key, x.value)) nodes := by
  funext st; cases st <;> rfl

theorem inorderMut_eq (nodes : Nodes K V) : IterMutInorder.next nodes =
    inoNext (fun p x => (x.key, p)) nodes := by
  funext st
  cases st with
  | nil => rfl
  | cons top st =>
    unfold IterMutInorder.next inoNext
    dsimp only
    cases nodes.getUnchecked top with
    | ok x =>
      simp only [Out.ok_bind]
    | _ => rfl

/-- The stack is a list of nodes whose left subtree is done. -/
inductive InoInv (h : Ptr → Option (InnerNode K V)) (H : Nat) :
    Stack → List (Ptr × K × V) → Prop where
  | nil : InoInv h H [] []
  | cons {st : Stack} {rem : List (Ptr × K × V)} (p : Ptr) (k : K) (v : V) (lo : Option Ptr)
      (r : Tree K V) : h p = some ⟨k, v, lo, r.root⟩ → r.Rep h →
      r.height + 1 + st.length ≤ H → InoInv h H st rem →
      InoInv h H (p :: st) ((p, k, v) :: (r.ino ++ rem))

theorem mem_ptrs_of_ino {t : Tree K V} {p : Ptr} (hp : p ∈ t.ptrs) : ∃ e ∈ t.ino, e.1 = p := by
  have := (ino_ptrs_perm t).mem_iff.2 hp
  obtain ⟨e, he, rfl⟩ := List.mem_map.1 this
  exact ⟨e, he, rfl⟩

theorem InoInv.congr {h h' : Ptr → Option (InnerNode K V)} {H : Nat} {st : Stack}
    {rem : List (Ptr × K × V)} (hi : InoInv h H st rem) (he : ∀ e ∈ rem, h' e.1 = h e.1) :
    InoInv h' H st rem := by
  induction hi with
  | nil => exact .nil
  | @cons st rem p k v lo r h1 h2 h3 _ ih =>
    refine .cons p k v lo r ?_ (h2.congr fun q hq => ?_) h3 (ih fun e hm => he e (by simp [hm]))
    · rw [← h1]; exact he (p, k, v) (by simp)
    · obtain ⟨e, hm, rfl⟩ := mem_ptrs_of_ino hq
      exact he e (by simp [hm])

theorem InoInv.length {h : Ptr → Option (InnerNode K V)} {H : Nat} {st : Stack}
    {rem : List (Ptr × K × V)} (hi : InoInv h H st rem) : st.length ≤ H := by
  cases hi with
  | nil => simp
  | cons p k v lo r h1 h2 h3 h4 => simp; omega

theorem pushLeftSpine_loop {nodes : Nodes K V} {H : Nat} {t : Tree K V} (hr : t.Rep nodes.view)
    {st : Stack} {rem : List (Ptr × K × V)} (hi : InoInv nodes.view H st rem)
    (hH : t.height + st.length ≤ H) (fuel : Nat) (hf : t.height < fuel) :
    ∃ st', loop fuel (fun (st : Option Ptr × Stack) =>
      match st.1 with
      | none => pure (.inr st.2)
      | some p => do
        let node ← nodes.getUnchecked p
        pure (.inl (node.left, p :: st.2)) : _ → Out (_ ⊕ Stack)) (t.root, st) = .ok st' ∧
      InoInv nodes.view H st' (t.ino ++ rem) := by
  induction t generalizing st rem fuel with
  | leaf =>
    obtain ⟨n, rfl⟩ : ∃ k, fuel = k + 1 := ⟨fuel - 1, by omega⟩
    exact ⟨st, loopO_inr rfl, hi⟩
  | node p l k v r ihl _ =>
    obtain ⟨n, rfl⟩ : ∃ k, fuel = k + 1 := ⟨fuel - 1, by omega⟩
    simp only [height] at hH hf
    have hc : InoInv nodes.view H (p :: st) ((p, k, v) :: (r.ino ++ rem)) :=
      .cons p k v _ r hr.1 hr.2.2 (by omega) hi
    obtain ⟨st', h1, h2⟩ := ihl hr.2.1 hc (by simp; omega) n (by omega)
    refine ⟨st', ?_, ?_⟩
    · rw [loopO_inl (b' := (l.root, p :: st))]
      · exact h1
      · simp only [root_node, Slab.getUnchecked_ok hr.1, Out.ok_bind]; rfl
    · simpa [ino] using h2

/-- The in-order invariant with enough fuel for the inner loops. -/
def InoInvF (nodes : Nodes K V) (H : Nat) (st : Stack) (rem : List (Ptr × K × V)) : Prop :=
  InoInv nodes.view H st rem ∧ rem.length < walkFuel nodes

theorem inoNext_spec {α : Type} (g : Ptr → InnerNode K V → α) (out : Ptr × K × V → α)
    (hg : ∀ p k v l r, g p ⟨k, v, l, r⟩ = out (p, k, v)) (nodes : Nodes K V) (H : Nat) :
    IterSpec (inoNext g nodes) out (InoInvF nodes H) where
  done st hi := by
    obtain ⟨hi, _⟩ := hi
    cases hi; rfl
  step st e rest hi := by
    obtain ⟨hi, hf⟩ := hi
    cases hi with
    | @cons st rem p k v lo r h1 h2 h3 h4 =>
      have hrf : r.height < walkFuel nodes := by
        have := r.height_le_size
        rw [← r.ino_length] at this
        simp at hf; omega
      obtain ⟨st', e1, e2⟩ := pushLeftSpine_loop h2 h4 (by omega) (walkFuel nodes) hrf
      refine ⟨st', ?_, e2, by simp at hf ⊢; omega⟩
      have e1' : IterInorder.pushLeftSpine nodes r.root st = .ok st' := e1
      simp only [inoNext, Slab.getUnchecked_ok h1, Out.ok_bind, e1', Out.pure_eq, hg]

/-! ### Post-order -/

/-- `IterPostorder::next` and `IterMutPostorder::next`, up to what is yielded. -/
def postNext {α : Type} (g : Ptr → InnerNode K V → α) (nodes : Nodes K V) (stack : Stack) :
    Out (Option α × Stack) :=
  loop (walkFuel nodes) (fun (stack : Stack) =>
    match stack with
    | [] => pure (.inr (none, []))
    | current :: stack => do
      let node ← nodes.getUnchecked current
      match node.right, stack with
      | some right, top :: rest =>
        if top = right then
          let node ← nodes.getUnchecked right
          let stack ← IterPostorder.pushSpine nodes right node (current :: rest)
          pure (.inl stack)
        else pure (.inr (some (g current node), top :: rest))
      | _, stack => pure (.inr (some (g current node), stack))) stack

theorem postorder_eq (nodes : Nodes K V) : IterPostorder.next nodes =
    postNext (fun _ x => (x.key, x.value)) nodes := by
  funext st; rfl

/-- The stack is a list of nodes whose left subtree is done; for some (`pend`) the
right child is still pending and also on the stack, for the others the right
subtree is done or being traversed above them. The last two indices are the nodes
on the stack without the pending children, and the total size of the pending
subtrees. -/
inductive PostInv (h : Ptr → Option (InnerNode K V)) (H : Nat) :
    Stack → List (Ptr × K × V) → List Ptr → Nat → Prop where
  | nil : PostInv h H [] [] [] 0
  | pend {st : Stack} {rem : List (Ptr × K × V)} {ps : List Ptr} {N : Nat} (p : Ptr) (k : K) (v : V)
      (lo : Option Ptr) (r : Tree K V) : h p = some ⟨k, v, lo, r.root⟩ → r.Rep h →
      (p :: r.ptrs).Nodup → (∀ q ∈ ps, q ∉ r.ptrs) →
      r.height + 1 + ps.length ≤ H → PostInv h H st rem ps N →
      PostInv h H (p :: (r.root.toList ++ st)) (r.post ++ (p, k, v) :: rem) (p :: ps) (r.size + N)
  | last {st : Stack} {rem : List (Ptr × K × V)} {ps : List Ptr} {N : Nat} (p : Ptr) (k : K) (v : V)
      (lo ro : Option Ptr) : h p = some ⟨k, v, lo, ro⟩ → (∀ q ∈ ps, ro ≠ some q) →
      1 + ps.length ≤ H → PostInv h H st rem ps N →
      PostInv h H (p :: st) ((p, k, v) :: rem) (p :: ps) N

theorem mem_ptrs_of_post {t : Tree K V} {p : Ptr} (hp : p ∈ t.ptrs) : ∃ e ∈ t.post, e.1 = p := by
  obtain ⟨e, he, h⟩ := mem_ptrs_of_ino hp
  exact ⟨e, t.post_perm.mem_iff.2 he, h⟩

theorem PostInv.congr {h h' : Ptr → Option (InnerNode K V)} {H : Nat} {st : Stack}
    {rem : List (Ptr × K × V)} {ps : List Ptr} {N : Nat} (hi : PostInv h H st rem ps N)
    (he : ∀ e ∈ rem, h' e.1 = h e.1) : PostInv h' H st rem ps N := by
  induction hi with
  | nil => exact .nil
  | @pend st rem ps N p k v lo r h1 h2 h3 h4 h5 _ ih =>
    refine .pend p k v lo r ?_ (h2.congr fun q hq => ?_) h3 h4 h5
      (ih fun e hm => he e (by simp [hm]))
    · rw [← h1]; exact he (p, k, v) (by simp)
    · obtain ⟨e, hm, rfl⟩ := mem_ptrs_of_post hq
      exact he e (by simp [hm])
  | @last st rem ps N p k v lo ro h1 h2 h3 _ ih =>
    refine .last p k v lo ro ?_ h2 h3 (ih fun e hm => he e (by simp [hm]))
    rw [← h1]; exact he (p, k, v) (by simp)

theorem PostInv.head {h : Ptr → Option (InnerNode K V)} {H : Nat} {st : Stack}
    {rem : List (Ptr × K × V)} {ps : List Ptr} {N : Nat} (hi : PostInv h H st rem ps N) :
    st.head? = ps.head? := by
  cases hi <;> rfl

theorem PostInv.length {h : Ptr → Option (InnerNode K V)} {H : Nat} {st : Stack}
    {rem : List (Ptr × K × V)} {ps : List Ptr} {N : Nat} (hi : PostInv h H st rem ps N) :
    st.length ≤ 2 * ps.length ∧ ps.length ≤ H := by
  induction hi with
  | nil => simp
  | @pend st rem ps N p k v lo r h1 h2 h3 h4 h5 _ ih =>
    cases r <;> simp at * <;> omega
  | last p k v lo ro h1 h2 h3 _ ih => simp; omega

theorem PostInv.pending_le {h : Ptr → Option (InnerNode K V)} {H : Nat} {st : Stack}
    {rem : List (Ptr × K × V)} {ps : List Ptr} {N : Nat} (hi : PostInv h H st rem ps N) :
    N ≤ rem.length := by
  induction hi with
  | nil => simp
  | pend p k v lo r h1 h2 h3 h4 h5 _ ih => simp [post_length]; omega
  | last p k v lo ro h1 h2 h3 _ ih => simp; omega

/-- Pushing the left spine of `t` (the common part of `new` and of the inner loop). -/
theorem postSpine {h : Ptr → Option (InnerNode K V)} {H : Nat} {p : Ptr} {k : K} {v : V}
    {r l : Tree K V} (hr : (node p l k v r).Rep h) (hn : (node p l k v r).ptrs.Nodup)
    {st : Stack} {rem : List (Ptr × K × V)} {ps : List Ptr} {N : Nat} (hi : PostInv h H st rem ps N)
    (hps : ∀ q ∈ ps, q ∉ (node p l k v r).ptrs)
    (hH : (node p l k v r).height + ps.length ≤ H) :
    PostInv h H (p :: (r.root.toList ++ st)) (r.post ++ (p, k, v) :: rem) (p :: ps) (r.size + N) ∧
    l.ptrs.Nodup ∧ (∀ q ∈ p :: ps, q ∉ l.ptrs) ∧ l.height + (p :: ps).length ≤ H := by
  simp only [ptrs, List.nodup_cons, List.mem_append, not_or, List.nodup_append] at hn
  obtain ⟨⟨hpl, hpr⟩, hnl, hnr, hd⟩ := hn
  simp only [height] at hH
  have hps' : ∀ q ∈ ps, q ∉ l.ptrs ∧ q ∉ r.ptrs := fun q hq => by
    have := hps q hq
    simp only [ptrs, List.mem_cons, List.mem_append, not_or] at this
    exact this.2
  refine ⟨.pend p k v _ r hr.1 hr.2.2 (List.nodup_cons.2 ⟨hpr, hnr⟩) (fun q hq => (hps' q hq).2)
    (by omega) hi, hnl, ?_, by simp; omega⟩
  intro q hq
  rcases List.mem_cons.1 hq with rfl | hq
  · exact hpl
  · exact (hps' q hq).1

theorem postNew_loop {nodes : Nodes K V} {H : Nat} {t : Tree K V} (hr : t.Rep nodes.view)
    (hn : t.ptrs.Nodup) {st : Stack} {rem : List (Ptr × K × V)} {ps : List Ptr} {N : Nat}
    (hi : PostInv nodes.view H st rem ps N) (hps : ∀ q ∈ ps, q ∉ t.ptrs)
    (hH : t.height + ps.length ≤ H) (fuel : Nat) (hf : t.height < fuel) :
    ∃ st' ps' N', loop fuel (fun (st : Option Ptr × Stack) =>
      match st.1 with
      | none => pure (.inr st.2)
      | some p => do
        let node ← nodes.getUnchecked p
        pure (.inl (node.left, p :: (node.right.toList ++ st.2))) : _ → Out (_ ⊕ Stack))
        (t.root, st) = .ok st' ∧ PostInv nodes.view H st' (t.post ++ rem) ps' N' := by
  induction t generalizing st rem ps N fuel with
  | leaf =>
    obtain ⟨n, rfl⟩ : ∃ k, fuel = k + 1 := ⟨fuel - 1, by omega⟩
    exact ⟨st, ps, N, loopO_inr rfl, hi⟩
  | node p l k v r ihl _ =>
    obtain ⟨n, rfl⟩ : ∃ k, fuel = k + 1 := ⟨fuel - 1, by omega⟩
    obtain ⟨h1, h2, h3, h4⟩ := postSpine hr hn hi hps hH
    obtain ⟨st', ps', N', e1, e2⟩ := ihl hr.2.1 h2 h1 h3 h4 n (by simp only [height] at hf; omega)
    refine ⟨st', ps', N', ?_, by simpa [post] using e2⟩
    rw [loopO_inl (b' := (l.root, p :: (r.root.toList ++ st)))]
    · exact e1
    · simp only [root_node, Slab.getUnchecked_ok hr.1, Out.ok_bind]; rfl

theorem pushSpine_loop {nodes : Nodes K V} {H : Nat} {p : Ptr} {k : K} {v : V} {r l : Tree K V}
    (hr : (node p l k v r).Rep nodes.view)
    (hn : (node p l k v r).ptrs.Nodup) {st : Stack} {rem : List (Ptr × K × V)} {ps : List Ptr}
    {N : Nat}
    (hi : PostInv nodes.view H st rem ps N) (hps : ∀ q ∈ ps, q ∉ (node p l k v r).ptrs)
    (hH : (node p l k v r).height + ps.length ≤ H) (fuel : Nat) (hf : l.height < fuel) :
    ∃ st' ps' N', loop fuel (fun (st : Ptr × InnerNode K V × Stack) =>
      let (p, nd, stack) := st
      let stack := nd.right.toList ++ stack
      let stack := p :: stack
      match nd.left with
      | some l => do
        let nd ← nodes.getUnchecked l
        pure (.inl (l, nd, stack))
      | none => pure (.inr stack) : _ → Out (_ ⊕ Stack))
        (p, ⟨k, v, l.root, r.root⟩, st) = .ok st' ∧
      PostInv nodes.view H st' ((node p l k v r).post ++ rem) ps' N' ∧
      N' < N + (node p l k v r).size := by
  induction l generalizing p k v r st rem ps N fuel with
  | leaf =>
    obtain ⟨n, rfl⟩ : ∃ k, fuel = k + 1 := ⟨fuel - 1, by omega⟩
    obtain ⟨h1, h2, h3, h4⟩ := postSpine hr hn hi hps hH
    refine ⟨p :: (r.root.toList ++ st), p :: ps, r.size + N, loopO_inr rfl,
      by simpa [post] using h1, ?_⟩
    simp only [Tree.size]; omega
  | node q ql qk qv qr ihl _ =>
    obtain ⟨n, rfl⟩ : ∃ k, fuel = k + 1 := ⟨fuel - 1, by omega⟩
    obtain ⟨h1, h2, h3, h4⟩ := postSpine hr hn hi hps hH
    obtain ⟨st', ps', N', e1, e2, e3⟩ :=
      ihl hr.2.1 h2 h1 h3 h4 n (by simp only [height] at hf; omega)
    refine ⟨st', ps', N', ?_, ?_, ?_⟩
    · rw [loopO_inl (b' := (q, ⟨qk, qv, ql.root, qr.root⟩, p :: (r.root.toList ++ st)))]
      · exact e1
      · simp only [root_node, Slab.getUnchecked_ok hr.2.1.1, Out.ok_bind]; rfl
    · rw [show (node p (node q ql qk qv qr) k v r).post ++ rem =
          (node q ql qk qv qr).post ++ (r.post ++ (p, k, v) :: rem) by simp [post]]
      exact e2
    · simp only [Tree.size] at e3 ⊢; omega

/-- The loop body of `postNext`. -/
def postBody {α : Type} (g : Ptr → InnerNode K V → α) (nodes : Nodes K V) (stack : Stack) :
    Out (Stack ⊕ (Option α × Stack)) :=
  match stack with
  | [] => pure (.inr (none, []))
  | current :: stack => do
    let node ← nodes.getUnchecked current
    match node.right, stack with
    | some right, top :: rest =>
      if top = right then
        let node ← nodes.getUnchecked right
        let stack ← IterPostorder.pushSpine nodes right node (current :: rest)
        pure (.inl stack)
      else pure (.inr (some (g current node), top :: rest))
    | _, stack => pure (.inr (some (g current node), stack))

theorem postBody_none {α : Type} {g : Ptr → InnerNode K V → α} {nodes : Nodes K V} {p : Ptr}
    {st : Stack} {k : K} {v : V} {lo : Option Ptr} (h : nodes.view p = some ⟨k, v, lo, none⟩) :
    postBody g nodes (p :: st) = .ok (.inr (some (g p ⟨k, v, lo, none⟩), st)) := by
  unfold postBody
  simp only [Slab.getUnchecked_ok h, Out.ok_bind]
  rfl

theorem postBody_last {α : Type} {g : Ptr → InnerNode K V → α} {nodes : Nodes K V} {p : Ptr}
    {st : Stack} {k : K} {v : V} {lo ro : Option Ptr} (h : nodes.view p = some ⟨k, v, lo, ro⟩)
    (hne : ∀ q, st.head? = some q → ro ≠ some q) :
    postBody g nodes (p :: st) = .ok (.inr (some (g p ⟨k, v, lo, ro⟩), st)) := by
  unfold postBody
  simp only [Slab.getUnchecked_ok h, Out.ok_bind]
  cases ro with
  | none => rfl
  | some q =>
    cases st with
    | nil => rfl
    | cons top rest =>
      have : top ≠ q := fun e => hne top rfl (by rw [e])
      simp only [if_neg this]; rfl

theorem postNext_loop {α : Type} (g : Ptr → InnerNode K V → α) (out : Ptr × K × V → α)
    (hg : ∀ p k v l r, g p ⟨k, v, l, r⟩ = out (p, k, v)) (nodes : Nodes K V) (H : Nat)
    (e : Ptr × K × V) (rest : List (Ptr × K × V)) (hf : rest.length + 1 < walkFuel nodes)
    (fuel : Nat) : ∀ (st : Stack) (ps : List Ptr) (N : Nat),
      PostInv nodes.view H st (e :: rest) ps N → N < fuel →
      ∃ st' ps' N', loop fuel (postBody g nodes) st = .ok (some (out e), st') ∧
        PostInv nodes.view H st' rest ps' N' ∧ ps'.length + 1 ≤ H := by
  induction fuel with
  | zero => intro _ _ _ _ h; omega
  | succ fuel ih =>
    intro st ps N hi hN
    generalize hrem : e :: rest = rem at hi
    cases hi with
    | nil => cases hrem
    | @last st rem ps N p k v lo ro h1 h2 h3 h4 =>
      cases hrem
      refine ⟨st, ps, N, ?_, h4, by omega⟩
      refine loopO_inr ?_
      rw [postBody_last h1, hg]
      intro q hq
      rw [h4.head] at hq
      exact h2 q (List.mem_of_mem_head? hq)
    | @pend st rem ps N p k v lo r h1 h2 h3 h4 h5 h6 =>
      cases r with
      | leaf =>
        simp only [post, List.nil_append, List.cons.injEq] at hrem
        obtain ⟨rfl, rfl⟩ := hrem
        refine ⟨st, ps, N, ?_, h6, by omega⟩
        refine loopO_inr ?_
        simp only [root_leaf, Option.toList_none, List.nil_append]
        rw [postBody_none h1, hg]
      | node q ql qk qv qr =>
        obtain ⟨hpn, hqn⟩ := List.nodup_cons.1 h3
        have hlast : PostInv nodes.view H (p :: st) ((p, k, v) :: rem) (p :: ps) N := by
          refine .last p k v lo (some q) h1 ?_ (by omega) h6
          rintro x hx e
          cases e
          exact h4 q hx (by simp [ptrs])
        have hqf : ql.height < walkFuel nodes := by
          have e1 := congrArg List.length hrem
          have := ql.height_le_size
          simp [post_length, Tree.size] at e1
          omega
        obtain ⟨st', ps', N', e1, e2, e3⟩ := pushSpine_loop h2 hqn hlast (by
          intro x hx
          rcases List.mem_cons.1 hx with rfl | hx
          · exact hpn
          · exact h4 x hx) (by simp; omega) (walkFuel nodes) hqf
        rw [← hrem] at e2
        obtain ⟨st'', ps'', N'', e4, e5⟩ := ih st' ps' N' e2 (by omega)
        refine ⟨st'', ps'', N'', ?_, e5⟩
        rw [loopO_inl (b' := st')]
        · exact e4
        · have e1' : IterPostorder.pushSpine nodes q ⟨qk, qv, ql.root, qr.root⟩ (p :: st) = .ok st' := e1
          unfold postBody
          simp only [Slab.getUnchecked_ok h1, Out.ok_bind, root_node, Option.toList_some,
            List.cons_append, List.nil_append, if_true, Slab.getUnchecked_ok h2.1, e1']
          rfl

/-- The post-order invariant with enough fuel for the inner loops. -/
def PostInvF (nodes : Nodes K V) (H : Nat) (st : Stack) (rem : List (Ptr × K × V)) : Prop :=
  (∃ ps N, PostInv nodes.view H st rem ps N) ∧ rem.length < walkFuel nodes

theorem postNext_spec {α : Type} (g : Ptr → InnerNode K V → α) (out : Ptr × K × V → α)
    (hg : ∀ p k v l r, g p ⟨k, v, l, r⟩ = out (p, k, v)) (nodes : Nodes K V) (H : Nat) :
    IterSpec (postNext g nodes) out (PostInvF nodes H) where
  done st hi := by
    obtain ⟨⟨ps, N, hi⟩, hf⟩ := hi
    generalize hr : ([] : List (Ptr × K × V)) = rem at hi
    cases hi with
    | nil =>
      unfold postNext walkFuel
      exact loopO_inr rfl
    | pend => simp at hr
    | last => cases hr
  step st e rest hi := by
    obtain ⟨⟨ps, N, hi⟩, hf⟩ := hi
    have hN := hi.pending_le
    obtain ⟨st', ps', N', e1, e2, _⟩ := postNext_loop g out hg nodes H e rest (by simpa using hf)
      (walkFuel nodes) st ps N hi (by omega)
    exact ⟨st', e1, ⟨ps', N', e2⟩, by simp at hf; omega⟩

theorem loop_congr {α β : Type} {f g : β → Out (β ⊕ α)} (h : ∀ b, f b = g b) (n : Nat) (b : β) :
    loop n f b = loop n g b := by
  have : f = g := funext h
  rw [this]

theorem postorderMut_eq (nodes : Nodes K V) : IterMutPostorder.next nodes =
    postNext (fun p x => (x.key, p)) nodes := by
  funext st
  unfold IterMutPostorder.next postNext
  refine loop_congr (fun b => ?_) _ _
  cases b with
  | nil => rfl
  | cons cur st =>
    dsimp only
    cases hc : nodes.getUnchecked cur with
    | ok x =>
      simp only [Out.ok_bind]
      cases hr : x.right with
      | none => simp [hc]
      | some r =>
        cases st with
        | nil => simp [hc]
        | cons top rest =>
          by_cases ht : top = r
          · simp [ht]
          · simp [ht, hc]
    | _ => rfl

/-! ### The invariants hold initially -/

section
variable {cfg : Cfg} {m : BSTMap K V} {t : Tree K V}

theorem preNew_ok (h : Shape cfg m t) :
    IterPreorder.new m.nodes m.root = .ok t.root.toList ∧
    PreInv m.nodes.view t.height t.root.toList t.pre := by
  constructor
  · rw [h.root]; rfl
  · have := PreInv.cons (H := t.height) (rem := []) t h.rep (by simp) .nil
    simpa using this

theorem inoNew_ok (h : Shape cfg m t) :
    ∃ st, IterInorder.new m.nodes m.root = .ok st ∧ InoInvF m.nodes t.height st t.ino := by
  obtain ⟨st, h1, h2⟩ := pushLeftSpine_loop (H := t.height) h.rep (rem := []) .nil (by simp)
    (walkFuel m.nodes) h.height_lt
  refine ⟨st, ?_, by simpa using h2, by rw [ino_length]; exact h.size_lt⟩
  rw [← h.root] at h1
  exact h1

theorem postNew_ok (h : Shape cfg m t) :
    ∃ st, IterPostorder.new m.nodes m.root = .ok st ∧ PostInvF m.nodes t.height st t.post := by
  obtain ⟨st, ps, N, h1, h2⟩ := postNew_loop (H := t.height) h.rep h.nodup (rem := []) .nil
    (by simp) (by simp) (walkFuel m.nodes) h.height_lt
  refine ⟨st, ?_, ⟨ps, N, by simpa using h2⟩, by rw [post_length]; exact h.size_lt⟩
  rw [← h.root] at h1
  exact h1

theorem drainFuel_lt (h : Shape cfg m t) : t.size < m.drainFuel := h.size_lt

theorem iterPreorder_spec (h : Shape cfg m t) : m.iterPreorder = .ok (t.pre.map (·.2)) := by
  obtain ⟨h1, h2⟩ := preNew_ok h
  unfold iterPreorder
  rw [h1, Out.ok_bind, preorder_eq]
  exact drain_spec (preNext_spec _ (·.2) (fun _ _ _ _ _ => rfl) _ _) h2
    (by rw [pre_length]; exact drainFuel_lt h)

theorem iterInorder_spec (h : Shape cfg m t) : m.iterInorder = .ok t.kv := by
  obtain ⟨st, h1, h2⟩ := inoNew_ok h
  unfold iterInorder
  rw [h1, Out.ok_bind, inorder_eq]
  exact drain_spec (inoNext_spec _ (·.2) (fun _ _ _ _ _ => rfl) _ _) h2
    (by rw [ino_length]; exact drainFuel_lt h)

theorem iterPostorder_spec (h : Shape cfg m t) : m.iterPostorder = .ok (t.post.map (·.2)) := by
  obtain ⟨st, h1, h2⟩ := postNew_ok h
  unfold iterPostorder
  rw [h1, Out.ok_bind, postorder_eq]
  exact drain_spec (postNext_spec _ (·.2) (fun _ _ _ _ _ => rfl) _ _) h2
    (by rw [post_length]; exact drainFuel_lt h)

theorem iterMutPreorder_spec (h : Shape cfg m t) :
    m.iterMutPreorder = .ok (t.pre.map fun e => (e.2.1, e.1)) := by
  obtain ⟨h1, h2⟩ := preNew_ok h
  unfold iterMutPreorder
  have h1' : IterMutPreorder.new m.nodes m.root = .ok t.root.toList := h1
  rw [h1', Out.ok_bind, preorderMut_eq]
  exact drain_spec (preNext_spec _ (fun e => (e.2.1, e.1)) (fun _ _ _ _ _ => rfl) _ _) h2
    (by rw [pre_length]; exact drainFuel_lt h)

theorem iterMutInorder_spec (h : Shape cfg m t) :
    m.iterMutInorder = .ok (t.ino.map fun e => (e.2.1, e.1)) := by
  obtain ⟨st, h1, h2⟩ := inoNew_ok h
  unfold iterMutInorder
  have h1' : IterMutInorder.new m.nodes m.root = .ok st := h1
  rw [h1', Out.ok_bind, inorderMut_eq]
  exact drain_spec (inoNext_spec _ (fun e => (e.2.1, e.1)) (fun _ _ _ _ _ => rfl) _ _) h2
    (by rw [ino_length]; exact drainFuel_lt h)

theorem iterMutPostorder_spec (h : Shape cfg m t) :
    m.iterMutPostorder = .ok (t.post.map fun e => (e.2.1, e.1)) := by
  obtain ⟨st, h1, h2⟩ := postNew_ok h
  unfold iterMutPostorder
  have h1' : IterMutPostorder.new m.nodes m.root = .ok st := h1
  rw [h1', Out.ok_bind, postorderMut_eq]
  exact drain_spec (postNext_spec _ (fun e => (e.2.1, e.1)) (fun _ _ _ _ _ => rfl) _ _) h2
    (by rw [post_length]; exact drainFuel_lt h)
end

end BST
