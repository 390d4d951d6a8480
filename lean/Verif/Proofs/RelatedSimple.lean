import Verif.RelatedSimple
import Verif.Proofs.RelatedHistory
/-!
# Lemmas about related programs that use `SimpleBSTMap`
-/
namespace BST.Simple
open Spec

variable {K K' V V' α α' σ σ' : Type} {R : K → K' → Prop} {S : V → V' → Prop} {cfg : Cfg}

inductive LinkRel (R : K → K' → Prop) (S : V → V' → Prop) : Link K V → Link K' V' → Prop where
  | nil : LinkRel R S .nil .nil
  | node {k k' v v' l l' r r'} : R k k' → S v v' → LinkRel R S l l' → LinkRel R S r r' →
      LinkRel R S (.node k v l r) (.node k' v' l' r')

structure RefRel (R : K → K' → Prop) (S : V → V' → Prop) (n : Ref K V) (n' : Ref K' V') : Prop where
  place : n.place = n'.place
  key : R n.key n'.key
  value : S n.value n'.value
  left : LinkRel R S n.left n'.left
  right : LinkRel R S n.right n'.right

structure OwnRel (R : K → K' → Prop) (S : V → V' → Prop) (s : Own K V) (s' : Own K' V') : Prop where
  root : LinkRel R S s.root s'.root
  allocs : s.allocs = s'.allocs

structure SMapRel (R : K → K' → Prop) (S : V → V' → Prop) (m : Map K V) (m' : Map K' V') : Prop where
  root : LinkRel R S m.root m'.root
  len : m.len = m'.len
  allocs : m.allocs = m'.allocs

/-! ### Trees -/
section link
variable {t : Link K V} {t' : Link K' V'}

theorem isNil_rel (h : LinkRel R S t t') : t.isNil = t'.isNil := by cases h <;> rfl

theorem size_rel (h : LinkRel R S t t') : t.size = t'.size := by
  induction h with
  | nil => rfl
  | node _ _ _ _ ihl ihr => simp only [Link.size, ihl, ihr]

theorem at_rel (h : LinkRel R S t t') (p : Place) : LinkRel R S (t.at' p) (t'.at' p) := by
  induction p generalizing t t' with
  | nil => exact h
  | cons b p ih =>
    cases h with
    | nil => exact .nil
    | node hk hv hl hr =>
      cases b
      · exact ih hl
      · exact ih hr

theorem put_rel {n : Link K V} {n' : Link K' V'} (hn : LinkRel R S n n') (h : LinkRel R S t t') (p : Place) :
    LinkRel R S (Link.put n p t) (Link.put n' p t') := by
  induction p generalizing t t' with
  | nil => exact hn
  | cons b p ih =>
    cases h with
    | nil => exact .nil
    | node hk hv hl hr =>
      cases b
      · exact .node hk hv (ih hl) hr
      · exact .node hk hv hl (ih hr)

theorem of_rel (h : LinkRel R S t t') (p : Place) : OptRel (RefRel R S) (Ref.of p t) (Ref.of p t') := by
  cases h with
  | nil => exact .none
  | node hk hv hl hr => exact .some ⟨rfl, hk, hv, hl, hr⟩

theorem view_rel (h : LinkRel R S t t') : BTRel (PairRel R S) t.view t'.view := by
  induction h with
  | nil => exact .nil
  | node hk hv _ _ ihl ihr => exact .node ihl ⟨hk, hv⟩ ihr
end link

section ref
variable {n : Ref K V} {n' : Ref K' V'}

theorem leftRef_rel (h : RefRel R S n n') : OptRel (RefRel R S) n.leftRef n'.leftRef := by
  unfold Ref.leftRef; rw [h.place]; exact of_rel h.left _
theorem rightRef_rel (h : RefRel R S n n') : OptRel (RefRel R S) n.rightRef n'.rightRef := by
  unfold Ref.rightRef; rw [h.place]; exact of_rel h.right _

theorem place_rel {o : Option (Ref K V)} {o' : Option (Ref K' V')} (h : OptRel (RefRel R S) o o') :
    o.map (·.place) = o'.map (·.place) := by
  cases h with
  | none => rfl
  | some h => exact congrArg some h.place
end ref

/-! ### Owned trees -/
namespace Own

theorem deref_rel (p : Place) : MRel (OwnRel R S) (RefRel R S) (deref p) (deref p) := by
  refine .read fun s s' hs => ?_
  have := of_rel (at_rel hs.root p) p
  revert this
  generalize Ref.of p (s.root.at' p) = o, Ref.of p (s'.root.at' p) = o'
  intro h
  cases h with
  | none => exact .ub
  | some h => exact .ok h

theorem store_rel (p : Place) {n : Link K V} {n' : Link K' V'} (hn : LinkRel R S n n') :
    MRel (OwnRel R S) Eq (store p n) (store p n') :=
  .modify fun _ _ hs => ⟨put_rel hn hs.root p, hs.allocs⟩

theorem box_rel {n : Link K V} {n' : Link K' V'} (hn : LinkRel R S n n') :
    MRel (OwnRel R S) Eq (box cfg n) (box cfg n') := by
  intro s s' hs
  unfold box
  rw [size_rel hs.root, size_rel hn, hs.allocs]
  split
  · exact ⟨.ok rfl, hs.root, rfl⟩
  · exact ⟨.abort, hs⟩

theorem boxOpt_rel {n : Link K V} {n' : Link K' V'} (hn : LinkRel R S n n') :
    MRel (OwnRel R S) Eq (boxOpt cfg n) (boxOpt cfg n') := by
  unfold boxOpt
  rw [isNil_rel hn]
  split
  · exact .pure rfl
  · exact box_rel hn

theorem leftMut_rel (p : Place) : MRel (OwnRel R S) Eq (leftMut p) (leftMut p) :=
  (deref_rel p).bind fun _ _ h => .pure (place_rel (leftRef_rel h))
theorem rightMut_rel (p : Place) : MRel (OwnRel R S) Eq (rightMut p) (rightMut p) :=
  (deref_rel p).bind fun _ _ h => .pure (place_rel (rightRef_rel h))

theorem takeLeft_rel (p : Place) : MRel (OwnRel R S) (LinkRel R S) (takeLeft p) (takeLeft p) :=
  (deref_rel p).bind fun _ _ h => (store_rel p (.node h.key h.value .nil h.right)).bind fun _ _ _ => .pure h.left
theorem takeRight_rel (p : Place) : MRel (OwnRel R S) (LinkRel R S) (takeRight p) (takeRight p) :=
  (deref_rel p).bind fun _ _ h => (store_rel p (.node h.key h.value h.left .nil)).bind fun _ _ _ => .pure h.right

variable {n : Link K V} {n' : Link K' V'}

theorem setLeft_rel (p : Place) (hn : LinkRel R S n n') :
    MRel (OwnRel R S) Eq (setLeft cfg p n) (setLeft cfg p n') :=
  (deref_rel p).bind fun _ _ h => MRel.bind (.lift_eq (by rw [isNil_rel h.left])) fun _ _ _ =>
    (box_rel hn).bind fun _ _ _ => store_rel p (.node h.key h.value hn h.right)
theorem setRight_rel (p : Place) (hn : LinkRel R S n n') :
    MRel (OwnRel R S) Eq (setRight cfg p n) (setRight cfg p n') :=
  (deref_rel p).bind fun _ _ h => MRel.bind (.lift_eq (by rw [isNil_rel h.right])) fun _ _ _ =>
    (box_rel hn).bind fun _ _ _ => store_rel p (.node h.key h.value h.left hn)

theorem replaceLeft_rel (p : Place) (hn : LinkRel R S n n') :
    MRel (OwnRel R S) (LinkRel R S) (replaceLeft cfg p n) (replaceLeft cfg p n') :=
  (deref_rel p).bind fun _ _ h => (boxOpt_rel hn).bind fun _ _ _ =>
    (store_rel p (.node h.key h.value hn h.right)).bind fun _ _ _ => .pure h.left
theorem replaceRight_rel (p : Place) (hn : LinkRel R S n n') :
    MRel (OwnRel R S) (LinkRel R S) (replaceRight cfg p n) (replaceRight cfg p n') :=
  (deref_rel p).bind fun _ _ h => (boxOpt_rel hn).bind fun _ _ _ =>
    (store_rel p (.node h.key h.value h.left hn)).bind fun _ _ _ => .pure h.right

theorem swapValue_rel (p : Place) {v : V} {v' : V'} (hv : S v v') :
    MRel (OwnRel R S) S (swapValue p v) (swapValue p v') :=
  (deref_rel p).bind fun _ _ h => (store_rel p (.node h.key hv h.left h.right)).bind fun _ _ _ => .pure h.value
end Own

theorem unwrap_rel {n : Link K V} {n' : Link K' V'} (h : LinkRel R S n n') :
    OutRel (LinkRel R S) (unwrap n) (unwrap n') := by
  cases h with
  | nil => exact .panic
  | node hk hv hl hr => exact .ok (.node hk hv hl hr)

theorem intoInner_rel {n : Link K V} {n' : Link K' V'} (h : LinkRel R S n n') :
    OutRel (PairRel R S) (intoInner n) (intoInner n') := by
  cases h with
  | nil => exact .panic
  | node hk hv hl hr => exact .ok ⟨hk, hv⟩

/-! ### `SimpleBSTMap` -/
namespace Map

theorem onRoot_rel {RA : α → α' → Prop} {f : M (Own K V) α} {f' : M (Own K' V') α'}
    (h : MRel (OwnRel R S) RA f f') : MRel (SMapRel R S) RA (onRoot f) (onRoot f') := by
  intro s s' hs
  obtain ⟨h1, h2⟩ := h ⟨s.root, s.allocs⟩ ⟨s'.root, s'.allocs⟩ ⟨hs.root, hs.allocs⟩
  exact ⟨h1, h2.root, hs.len, h2.allocs⟩

theorem onLocal_rel {RA : α → α' → Prop} {x : Link K V} {x' : Link K' V'} (hx : LinkRel R S x x')
    {f : M (Own K V) α} {f' : M (Own K' V') α'} (h : MRel (OwnRel R S) RA f f') :
    MRel (SMapRel R S) (PairRel RA (LinkRel R S)) (onLocal x f) (onLocal x' f') := by
  intro s s' hs
  obtain ⟨h1, h2⟩ := h ⟨x, s.allocs⟩ ⟨x', s'.allocs⟩ ⟨hx, hs.allocs⟩
  unfold onLocal
  cases hy : f ⟨x, s.allocs⟩ with
  | mk o t =>
    cases hy' : f' ⟨x', s'.allocs⟩ with
    | mk o' t' =>
      rw [hy, hy'] at h1 h2
      cases h1 with
      | ok h => exact ⟨.ok ⟨h, h2.root⟩, hs.root, hs.len, h2.allocs⟩
      | panic => exact ⟨.panic, hs.root, hs.len, h2.allocs⟩
      | abort => exact ⟨.abort, hs.root, hs.len, h2.allocs⟩
      | ub => exact ⟨.ub, hs.root, hs.len, h2.allocs⟩
      | diverge => exact ⟨.diverge, hs.root, hs.len, h2.allocs⟩

theorem new_rel : SMapRel R S (new : Map K V) new := ⟨.nil, rfl, rfl⟩

section read
variable {m : Map K V} {m' : Map K' V'} {c : Probe K} {c' : Probe K'}

theorem isEmpty_rel (h : SMapRel R S m m') : m.isEmpty cfg = m'.isEmpty cfg := by
  unfold isEmpty; rw [h.len, isNil_rel h.root]

theorem fuel_rel (h : SMapRel R S m m') : m.fuel = m'.fuel := by unfold fuel; rw [size_rel h.root]

theorem rootRef_rel (h : SMapRel R S m m') : OptRel (RefRel R S) m.rootRef m'.rootRef := of_rel h.root _

theorem rootMut_rel (h : SMapRel R S m m') : m.rootMut = m'.rootMut := place_rel (rootRef_rel h)

/-- The loop of `contains_key`, `get` and `get_entry`. -/
theorem search_rel {RA : α → α' → Prop} (hc : ProbeRel R c c') (h : SMapRel R S m m') {a : α} {a' : α'}
    {f : Ref K V → α} {f' : Ref K' V' → α'} (ha : RA a a')
    (hf : ∀ n n', RefRel R S n n' → RA (f n) (f' n')) :
    OutRel RA
      (loop m.fuel (fun (st : Nat × Option (Ref K V)) =>
        match st.2 with
        | none => (pure (.inr a) : Out ((Nat × Option (Ref K V)) ⊕ α))
        | some node =>
          match c st.1 node.key with
          | none => .panic
          | some .lt => pure (.inl (st.1 + 1, node.leftRef))
          | some .gt => pure (.inl (st.1 + 1, node.rightRef))
          | some .eq => pure (.inr (f node))) (0, m.rootRef))
      (loop m'.fuel (fun (st : Nat × Option (Ref K' V')) =>
        match st.2 with
        | none => (pure (.inr a') : Out ((Nat × Option (Ref K' V')) ⊕ α'))
        | some node =>
          match c' st.1 node.key with
          | none => .panic
          | some .lt => pure (.inl (st.1 + 1, node.leftRef))
          | some .gt => pure (.inl (st.1 + 1, node.rightRef))
          | some .eq => pure (.inr (f' node))) (0, m'.rootRef)) := by
  rw [fuel_rel h]
  refine OutRel.loop (R := PairRel Eq (OptRel (RefRel R S))) ?_ _ ⟨rfl, rootRef_rel h⟩
  rintro ⟨i, o⟩ ⟨i', o'⟩ ⟨hi, ho⟩
  cases hi
  cases ho with
  | none => exact .pure (.inr ha)
  | @some n n' hn =>
    dsimp only
    rw [hc i _ _ hn.key]
    cases c' i n'.key with
    | none => exact .panic
    | some x =>
      cases x with
      | lt => exact .pure (.inl ⟨rfl, leftRef_rel hn⟩)
      | gt => exact .pure (.inl ⟨rfl, rightRef_rel hn⟩)
      | eq => exact .pure (.inr (hf _ _ hn))

theorem containsKey_rel (hc : ProbeRel R c c') (h : SMapRel R S m m') :
    OutRel Eq (m.containsKey c) (m'.containsKey c') :=
  search_rel hc h (f := fun _ => true) (f' := fun _ => true) rfl fun _ _ _ => rfl
theorem get_rel (hc : ProbeRel R c c') (h : SMapRel R S m m') :
    OutRel (OptRel S) (m.get c) (m'.get c') :=
  search_rel hc h (f := fun n => some n.value) (f' := fun n => some n.value) .none fun _ _ h => .some h.value
theorem getEntry_rel (hc : ProbeRel R c c') (h : SMapRel R S m m') :
    OutRel (OptRel (PairRel R S)) (m.getEntry c) (m'.getEntry c') :=
  search_rel hc h (f := fun n => some (n.key, n.value)) (f' := fun n => some (n.key, n.value)) .none
    fun _ _ h => .some ⟨h.key, h.value⟩
end read

section write
variable {c : Probe K} {c' : Probe K'} {k : K} {k' : K'} {v : V} {v' : V'}

theorem getMut_rel (hc : ProbeRel R c c') : MRel (SMapRel R S) Eq (getMut c) (getMut c') := by
  unfold getMut
  refine MRel.bind .get fun m m' hm => ?_
  rw [fuel_rel hm, rootMut_rel hm]
  refine MRel.loop (RA := Eq) ?_ _ rfl
  rintro ⟨i, o⟩ _ rfl
  cases o with
  | none => exact .pure (.inr rfl)
  | some p =>
    unfold getMutStep
    dsimp only
    refine (onRoot_rel (Own.deref_rel p)).bind fun n n' hn => ?_
    rw [hc i _ _ hn.key]
    cases c' i n'.key with
    | none => exact .panic
    | some x =>
      cases x with
      | lt => exact (onRoot_rel (Own.leftMut_rel p)).bind fun _ _ e => .pure (.inl (by rw [e]))
      | gt => exact (onRoot_rel (Own.rightMut_rel p)).bind fun _ _ e => .pure (.inl (by rw [e]))
      | eq => exact .pure (.inr rfl)

theorem addLen_rel : MRel (SMapRel R S) Eq (addLen cfg) (addLen cfg) := by
  unfold addLen
  refine MRel.bind .get fun m m' hm => MRel.bind (.lift_eq (by rw [hm.len])) ?_
  rintro n _ rfl
  exact .modify fun _ _ h => ⟨h.root, rfl, h.allocs⟩

theorem subLen_rel : MRel (SMapRel R S) Eq (subLen cfg) (subLen cfg) := by
  unfold subLen
  refine MRel.bind .get fun m m' hm => MRel.bind (.lift_eq (by rw [hm.len])) ?_
  rintro n _ rfl
  exact .modify fun _ _ h => ⟨h.root, rfl, h.allocs⟩

theorem insertStep_rel (hc : ProbeRel R c c') (hk : R k k') (hv : S v v') (st : Nat × Option Place) :
    MRel (SMapRel R S) (SumRel Eq (OptRel S)) (insertStep cfg c k v st) (insertStep cfg c' k' v' st) := by
  obtain ⟨i, o⟩ := st
  cases o with
  | none => exact .pure (.inr .none)
  | some p =>
    unfold insertStep
    dsimp only
    refine (onRoot_rel (Own.deref_rel p)).bind fun n n' hn => ?_
    rw [hc i _ _ hn.key]
    have hl : n.hasLeft = n'.hasLeft := by unfold Ref.hasLeft; rw [isNil_rel hn.left]
    have hr : n.hasRight = n'.hasRight := by unfold Ref.hasRight; rw [isNil_rel hn.right]
    rw [hl, hr]
    cases c' i n'.key with
    | none => exact .panic
    | some x =>
      cases x with
      | lt =>
        dsimp only
        split
        · exact (onRoot_rel (Own.setLeft_rel p (.node hk hv .nil .nil))).bind fun _ _ _ =>
            addLen_rel.bind fun _ _ _ => .pure (.inr .none)
        · exact (onRoot_rel (Own.leftMut_rel p)).bind fun _ _ e => .pure (.inl (by rw [e]))
      | gt =>
        dsimp only
        split
        · exact (onRoot_rel (Own.setRight_rel p (.node hk hv .nil .nil))).bind fun _ _ _ =>
            addLen_rel.bind fun _ _ _ => .pure (.inr .none)
        · exact (onRoot_rel (Own.rightMut_rel p)).bind fun _ _ e => .pure (.inl (by rw [e]))
      | eq => exact (onRoot_rel (Own.swapValue_rel p hv)).bind fun _ _ h => .pure (.inr (.some h))

theorem insert_rel (hc : ProbeRel R c c') (hk : R k k') (hv : S v v') :
    MRel (SMapRel R S) (OptRel S) (insert cfg c k v) (insert cfg c' k' v') := by
  unfold insert
  refine MRel.bind .get fun m m' hm => ?_
  rw [fuel_rel hm, rootMut_rel hm]
  cases m'.rootMut with
  | none =>
    refine MRel.bind (.modify fun _ _ h => ⟨.node hk hv .nil .nil, h.len, h.allocs⟩) fun _ _ _ => ?_
    refine MRel.bind .get fun m m' hm => MRel.bind (.lift_eq (by rw [hm.len])) fun _ _ _ => ?_
    exact MRel.bind (.modify fun _ _ h => ⟨h.root, rfl, h.allocs⟩) fun _ _ _ => .pure .none
  | some p =>
    refine MRel.loop (RA := Eq) ?_ _ rfl
    rintro st _ rfl
    exact insertStep_rel hc hk hv st

theorem findWithParent_rel (hc : ProbeRel R c c') {m : Map K V} {m' : Map K' V'} (hm : SMapRel R S m m') :
    MRel (SMapRel R S) Eq (findWithParent c m) (findWithParent c' m') := by
  unfold findWithParent
  rw [fuel_rel hm, rootMut_rel hm]
  refine MRel.loop (RA := Eq) ?_ _ rfl
  rintro ⟨i, q, o⟩ _ rfl
  cases o with
  | none => exact .pure (.inr rfl)
  | some p =>
    unfold findStep
    dsimp only
    refine (onRoot_rel (Own.deref_rel p)).bind fun n n' hn => ?_
    rw [hc i _ _ hn.key]
    cases c' i n'.key with
    | none => exact .panic
    | some x =>
      cases x with
      | lt => exact (onRoot_rel (Own.leftMut_rel p)).bind fun _ _ e => .pure (.inl (by rw [e]))
      | gt => exact (onRoot_rel (Own.rightMut_rel p)).bind fun _ _ e => .pure (.inl (by rw [e]))
      | eq => exact .pure (.inr rfl)

theorem findSucc_rel (n : Nat) (p s : Place) : MRel (OwnRel R S) Eq (findSucc n p s) (findSucc n p s) := by
  unfold findSucc
  refine MRel.loop (RA := Eq) ?_ _ rfl
  rintro st _ rfl
  unfold succStep
  refine (Own.leftMut_rel _).bind ?_
  rintro o _ rfl
  cases o with
  | none => exact .pure (.inr rfl)
  | some l => exact .pure (.inl rfl)

theorem cutSucc_rel (n : Nat) : MRel (OwnRel R S) (LinkRel R S) (cutSucc cfg n) (cutSucc cfg n) := by
  unfold cutSucc
  refine (findSucc_rel n _ _).bind ?_
  rintro x _ rfl
  refine (Own.takeRight_rel _).bind fun _ _ h => ?_
  exact (Own.replaceLeft_rel _ h).bind fun _ _ h => .lift (unwrap_rel h)

variable {x : Link K V} {x' : Link K' V'} {y : Link K V} {y' : Link K' V'}

theorem successor_rel (h : LinkRel R S x x') :
    MRel (SMapRel R S) (LinkRel R S) (successor cfg x) (successor cfg x') := by
  cases h with
  | nil => exact .pure .nil
  | node hk hv hl hr =>
    cases hl with
    | nil => exact .pure (.node hk hv .nil hr)
    | node hk1 hv1 hl1 hr1 =>
      have h := LinkRel.node hk hv (.node hk1 hv1 hl1 hr1) hr
      unfold successor
      dsimp only
      rw [size_rel h]
      refine (onLocal_rel h (cutSucc_rel _)).bind fun a a' ha => ?_
      exact (onLocal_rel ha.1 (Own.setRight_rel _ ha.2)).bind fun _ _ h => .pure h.2

theorem replacement_rel (hx : LinkRel R S x x') (hy : LinkRel R S y y') :
    MRel (SMapRel R S) (LinkRel R S) (replacement cfg x y) (replacement cfg x' y') := by
  cases hx with
  | nil =>
    cases hy with
    | nil => exact .pure .nil
    | node hk hv hl hr => exact .pure (.node hk hv hl hr)
  | node hk hv hl hr =>
    cases hy with
    | nil => exact .pure (.node hk hv hl hr)
    | node hk1 hv1 hl1 hr1 =>
      unfold replacement
      refine (successor_rel (.node hk1 hv1 hl1 hr1)).bind fun _ _ h => ?_
      exact (onLocal_rel h (Own.setLeft_rel _ (.node hk hv hl hr))).bind fun _ _ h => .pure h.2

theorem unlink_rel (q : Option Place) (p : Place) (h : LinkRel R S x x') :
    MRel (SMapRel R S) (PairRel R S) (unlink cfg q p x) (unlink cfg q p x') := by
  unfold unlink
  cases q with
  | none =>
    refine MRel.bind .get fun m m' hm => ?_
    refine MRel.bind (.modify fun _ _ hs => ⟨h, hs.len, hs.allocs⟩) fun _ _ _ => ?_
    exact .lift (intoInner_rel hm.root)
  | some q =>
    refine (onRoot_rel (Own.deref_rel q)).bind fun n n' hn => ?_
    rw [place_rel (leftRef_rel hn)]
    split
    · exact (onRoot_rel (Own.replaceLeft_rel q h)).bind fun _ _ h => .lift (intoInner_rel h)
    · exact (onRoot_rel (Own.replaceRight_rel q h)).bind fun _ _ h => .lift (intoInner_rel h)

theorem removeEntry_rel (hc : ProbeRel R c c') :
    MRel (SMapRel R S) (OptRel (PairRel R S)) (removeEntry cfg c) (removeEntry cfg c') := by
  unfold removeEntry
  refine MRel.bind .get fun m m' hm => (findWithParent_rel hc hm).bind ?_
  rintro ⟨q, o⟩ _ rfl
  cases o with
  | none => exact .pure .none
  | some p =>
    refine MRel.bind (RA := PairRel R S) ?_ fun _ _ h => .pure (.some h)
    unfold takeOut
    refine (onRoot_rel (Own.deref_rel p)).bind fun _ _ _ => subLen_rel.bind fun _ _ _ => ?_
    refine (onRoot_rel (Own.takeLeft_rel p)).bind fun _ _ hl => ?_
    refine (onRoot_rel (Own.takeRight_rel p)).bind fun _ _ hr => ?_
    exact (replacement_rel hl hr).bind fun _ _ h => unlink_rel q p h

theorem remove_rel (hc : ProbeRel R c c') :
    MRel (SMapRel R S) (OptRel S) (remove cfg c) (remove cfg c') :=
  (removeEntry_rel hc).bind fun _ _ h => .pure (h.map fun _ _ h => h.2)

theorem clear_rel : MRel (SMapRel R S) Eq (clear : M (Map K V) _) clear :=
  .modify fun _ _ h => ⟨.nil, rfl, h.allocs⟩
end write

section build
variable {c : Nat → K → Probe K} {c' : Nat → K' → Probe K'} {s : BSTMap.Source K V} {s' : BSTMap.Source K' V'}

theorem insertAll_rel (hc : ProbesRel R c c') {l : List (K × V)} {l' : List (K' × V')}
    (h : ListRel (PairRel R S) l l') (n : Nat) :
    MRel (SMapRel R S) Eq (insertAll cfg c n l) (insertAll cfg c' n l') := by
  induction h generalizing n with
  | nil => exact .pure rfl
  | @cons e e' l l' he _ ih =>
    exact (insert_rel (hc n _ _ he.1) he.1 he.2).bind fun _ _ _ => ih (n + 1)

theorem extend_rel (hc : ProbesRel R c c') (hs : SourceRel R S s s') :
    MRel (SMapRel R S) Eq (extend cfg c s) (extend cfg c' s') := by
  unfold extend
  refine (insertAll_rel hc hs.items 0).bind fun _ _ _ => ?_
  rw [hs.panics]
  split
  · exact .panic
  · exact .pure rfl

theorem fromIter_rel (hc : ProbesRel R c c') (hs : SourceRel R S s s') (n : Nat) :
    OutRel Eq (fromIter cfg c s n).1 (fromIter cfg c' s' n).1 ∧
      SMapRel R S (fromIter cfg c s n).2 (fromIter cfg c' s' n).2 :=
  extend_rel hc hs _ _ ⟨.nil, rfl, rfl⟩

theorem cloneWith_rel {RA : α → α' → Prop} {f : α → Option α} {f' : α' → Option α'}
    (hf : ∀ a a', RA a a' → OptRel RA (f a) (f' a')) {a : α} {a' : α'} (h : RA a a') :
    MRel Eq RA (cloneWith f a) (cloneWith f' a') := by
  unfold cloneWith
  have := hf a a' h
  revert this
  generalize f a = o, f' a' = o'
  intro h
  cases h with
  | none => exact .panic
  | some h => exact .pure h

variable {f : K → Option K} {f' : K' → Option K'} {g : V → Option V} {g' : V' → Option V'}

theorem cloneLink_rel (hf : ∀ k k', R k k' → OptRel R (f k) (f' k'))
    (hg : ∀ v v', S v v' → OptRel S (g v) (g' v')) {t : Link K V} {t' : Link K' V'} (h : LinkRel R S t t')
    (b : Bool) : MRel Eq (LinkRel R S) (cloneLink cfg f g b t) (cloneLink cfg f' g' b t') := by
  induction h generalizing b with
  | nil => exact .pure .nil
  | node hk hv _ _ ihl ihr =>
    unfold cloneLink
    refine MRel.bind (RA := Eq) ?_ fun _ _ _ => ?_
    · rintro n _ rfl; exact ⟨.of_eq rfl, rfl⟩
    refine (cloneWith_rel hf hk).bind fun _ _ hk => (cloneWith_rel hg hv).bind fun _ _ hv => ?_
    exact (ihl true).bind fun _ _ hl => (ihr true).bind fun _ _ hr => .pure (.node hk hv hl hr)

theorem clone_rel (hf : ∀ k k', R k k' → OptRel R (f k) (f' k'))
    (hg : ∀ v v', S v v' → OptRel S (g v) (g' v')) :
    MRel (SMapRel R S) Eq (clone cfg f g) (clone cfg f' g') := by
  intro m m' hm
  obtain ⟨h1, h2⟩ := cloneLink_rel (cfg := cfg) hf hg hm.root false m.allocs m'.allocs hm.allocs
  unfold clone
  cases hx : cloneLink cfg f g false m.root m.allocs with
  | mk o t =>
    cases hx' : cloneLink cfg f' g' false m'.root m'.allocs with
    | mk o' t' =>
      rw [hx, hx'] at h1 h2
      cases h1 with
      | ok h => exact ⟨.ok rfl, h, hm.len, h2⟩
      | panic => exact ⟨.panic, hm.root, hm.len, h2⟩
      | abort => exact ⟨.abort, hm.root, hm.len, h2⟩
      | ub => exact ⟨.ub, hm.root, hm.len, h2⟩
      | diverge => exact ⟨.diverge, hm.root, hm.len, h2⟩

theorem assign_rel {f : Map K V → Out Unit × Map K V} {f' : Map K' V' → Out Unit × Map K' V'}
    (h : MRel (SMapRel R S) Eq f f') : MRel (SMapRel R S) Eq (assign f) (assign f') := by
  intro m m' hm
  obtain ⟨h1, h2⟩ := h m m' hm
  unfold assign
  cases hx : f m with
  | mk o t =>
    cases hx' : f' m' with
    | mk o' t' =>
      rw [hx, hx'] at h1 h2
      cases h1 with
      | ok h => exact ⟨.ok rfl, h2⟩
      | panic => exact ⟨.panic, hm.root, hm.len, h2.allocs⟩
      | abort => exact ⟨.abort, hm.root, hm.len, h2.allocs⟩
      | ub => exact ⟨.ub, hm.root, hm.len, h2.allocs⟩
      | diverge => exact ⟨.diverge, hm.root, hm.len, h2.allocs⟩
end build

/-! ### `Debug` -/
section debug
variable {dk : K → String} {dk' : K' → String} {dv : V → String} {dv' : V' → String}

theorem debugLink_rel (hk : ∀ k k', R k k' → dk k = dk' k') (hv : ∀ v v', S v v' → dv v = dv' v')
    {t : Link K V} {t' : Link K' V'} (h : LinkRel R S t t') : debugLink dk dv t = debugLink dk' dv' t' := by
  induction h with
  | nil => rfl
  | node h1 h2 _ _ ihl ihr => unfold debugLink; rw [hk _ _ h1, hv _ _ h2, ihl, ihr]

theorem debug_rel (hk : ∀ k k', R k k' → dk k = dk' k') (hv : ∀ v v', S v v' → dv v = dv' v')
    {m : Map K V} {m' : Map K' V'} (h : SMapRel R S m m') : m.debug dk dv = m'.debug dk' dv' := by
  unfold debug; rw [debugLink_rel hk hv h.root, h.len]
end debug

/-! ### Iterators -/
section iter
variable {st : Stack K V} {st' : Stack K' V'}

theorem pushLeftSpine_rel {t : Link K V} {t' : Link K' V'} (h : LinkRel R S t t') (p : Place)
    (hs : ListRel (RefRel R S) st st') :
    ListRel (RefRel R S) (pushLeftSpine p t st) (pushLeftSpine p t' st') := by
  induction h generalizing p st st' with
  | nil => exact hs
  | node hk hv hl hr ihl _ => exact ihl _ (.cons ⟨rfl, hk, hv, hl, hr⟩ hs)

theorem pushSpine_rel {t : Link K V} {t' : Link K' V'} (h : LinkRel R S t t') (p : Place)
    (hs : ListRel (RefRel R S) st st') :
    ListRel (RefRel R S) (pushSpine p t st) (pushSpine p t' st') := by
  induction h generalizing p st st' with
  | nil => exact hs
  | node hk hv hl hr ihl _ =>
    exact ihl _ (.cons ⟨rfl, hk, hv, hl, hr⟩ ((of_rel hr _).toList.append hs))

theorem iter_rel {m : Map K V} {m' : Map K' V'} (h : SMapRel R S m m') (o : Order) :
    ListRel (RefRel R S) (iter o m) (iter o m') := by
  cases o with
  | pre => exact (rootRef_rel h).toList
  | ino => exact pushLeftSpine_rel h.root _ .nil
  | post => exact pushSpine_rel h.root _ .nil

theorem postStep_rel (h : ListRel (RefRel R S) st st') :
    OutRel (SumRel (ListRel (RefRel R S)) (PairRel (OptRel (PairRel R S)) (ListRel (RefRel R S))))
      (postStep st) (postStep st') := by
  cases h with
  | nil => exact .pure (.inr ⟨.none, .nil⟩)
  | @cons n n' l l' hn hl =>
    have hy : OutRel (SumRel (ListRel (RefRel R S)) (PairRel (OptRel (PairRel R S)) (ListRel (RefRel R S))))
        (pure (.inr (some (n.key, n.value), l))) (pure (.inr (some (n'.key, n'.value), l'))) :=
      .pure (.inr ⟨.some ⟨hn.key, hn.value⟩, hl⟩)
    unfold postStep
    dsimp only
    have := rightRef_rel hn
    revert this
    generalize n.rightRef = o, n'.rightRef = o'
    intro ho
    cases ho with
    | none => exact hy
    | @some r r' hr =>
      cases hl with
      | nil => exact hy
      | @cons t t' l l' ht hl =>
        dsimp only
        rw [ht.place, hr.place]
        split
        · exact .pure (.inl (pushSpine_rel hn.right _ (.cons hn hl)))
        · exact hy

theorem next_rel (o : Order) (h : ListRel (RefRel R S) st st') :
    OutRel (PairRel (OptRel (PairRel R S)) (ListRel (RefRel R S))) (next o st) (next o st') := by
  cases o with
  | pre =>
    cases h with
    | nil => exact .ok ⟨.none, .nil⟩
    | cons hn hl =>
      exact .ok ⟨.some ⟨hn.key, hn.value⟩, (leftRef_rel hn).toList.append ((rightRef_rel hn).toList.append hl)⟩
  | ino =>
    cases h with
    | nil => exact .ok ⟨.none, .nil⟩
    | @cons n n' l l' hn hl =>
      refine .ok ⟨.some ⟨hn.key, hn.value⟩, ?_⟩
      rw [hn.place]
      exact pushLeftSpine_rel hn.right _ hl
  | post =>
    show OutRel _ (postNext st) (postNext st')
    unfold postNext
    have : spineFuel st = spineFuel st' := by
      cases h with
      | nil => rfl
      | cons hn _ => exact congrArg (· + 1) (size_rel hn.right)
    rw [this]
    exact OutRel.loop (fun _ _ h => postStep_rel h) _ h

theorem nexts_rel {RA : α → α' → Prop} {RS : σ → σ' → Prop} {f : σ → Out (Option α × σ)}
    {f' : σ' → Out (Option α' × σ')}
    (hf : ∀ st st', RS st st' → OutRel (PairRel (OptRel RA) RS) (f st) (f' st')) (n : Nat) {st : σ} {st' : σ'}
    (h : RS st st') : OutRel (PairRel (ListRel (OptRel RA)) RS) (nexts f n st) (nexts f' n st') := by
  induction n generalizing st st' with
  | zero => exact .ok ⟨.nil, h⟩
  | succ n ih =>
    unfold nexts
    refine (hf _ _ h).bind ?_
    rintro ⟨o, st1⟩ ⟨o', st2⟩ ⟨ho, he⟩
    refine (ih he).bind ?_
    rintro ⟨l, st1⟩ ⟨l', st2⟩ ⟨hl, he⟩
    exact .pure ⟨.cons ho hl, he⟩
end iter

/-! ### Walking through the tree -/

theorem goRef_rel (path : List Bool) {n : Option (Ref K V)} {n' : Option (Ref K' V')}
    (h : OptRel (RefRel R S) n n') : OptRel (RefRel R S) (goRef path n) (goRef path n') := by
  induction path generalizing n n' with
  | nil => exact h
  | cons b path ih =>
    cases h with
    | none => exact .none
    | some h =>
      unfold goRef
      cases b
      · exact ih (leftRef_rel h)
      · exact ih (rightRef_rel h)

theorem goMut_rel (path : List Bool) (n : Option Place) :
    MRel (OwnRel R S) Eq (goMut path n) (goMut path n) := by
  induction path generalizing n with
  | nil => exact .pure rfl
  | cons b path ih =>
    cases n with
    | none => exact .pure rfl
    | some n =>
      unfold goMut
      dsimp only
      split
      · exact (Own.rightMut_rel n).bind fun _ _ e => by rw [e]; exact ih _
      · exact (Own.leftMut_rel n).bind fun _ _ e => by rw [e]; exact ih _

theorem nodeMutAt_rel (path : List Bool) : MRel (SMapRel R S) Eq (nodeMutAt path) (nodeMutAt path) := by
  unfold nodeMutAt
  refine MRel.bind .get fun m m' hm => ?_
  rw [rootMut_rel hm]
  exact onRoot_rel (goMut_rel path _)

theorem exploreRef_rel (fuel : Nat) {n : Option (Ref K V)} {n' : Option (Ref K' V')}
    (h : OptRel (RefRel R S) n n') : BTRel (PairRel R S) (exploreRef fuel n) (exploreRef fuel n') := by
  induction fuel generalizing n n' with
  | zero => cases h <;> exact .nil
  | succ fuel ih =>
    cases h with
    | none => exact .nil
    | some h => exact .node (ih (leftRef_rel h)) ⟨h.key, h.value⟩ (ih (rightRef_rel h))

theorem explore_rel {m : Map K V} {m' : Map K' V'} (h : SMapRel R S m m') :
    BTRel (PairRel R S) (explore m) (explore m') := by
  unfold explore; rw [fuel_rel h]; exact exploreRef_rel _ (rootRef_rel h)
end Map

/-! ### Histories -/
open Map

theorem simpleRun_rel {op : SimpleOp K V} {op' : SimpleOp K' V'} (h : SimpleOpRel R S op op') :
    MRel (SMapRel R S) (RetRel R S) (op.run cfg) (op'.run cfg) := by
  cases h with
  | collect hc hs =>
    refine (assign_rel fun m m' hm => ?_).bind fun _ _ _ => .pure .unit
    rw [hm.allocs]
    exact fromIter_rel hc hs _
  | cloned hf hg => exact (assign_rel (clone_rel hf hg)).bind fun _ _ _ => .pure .unit
  | insert hc hk hv => exact (insert_rel hc hk hv).bind fun _ _ h => .pure (.value h)
  | remove hc => exact (remove_rel hc).bind fun _ _ h => .pure (.value h)
  | removeEntry hc => exact (removeEntry_rel hc).bind fun _ _ h => .pure (.entry h)
  | get hc => exact MRel.bind (.read fun _ _ hm => get_rel hc hm) fun _ _ h => .pure (.value h)
  | getEntry hc => exact MRel.bind (.read fun _ _ hm => getEntry_rel hc hm) fun _ _ h => .pure (.entry h)
  | containsKey hc =>
    exact MRel.bind (.read fun _ _ hm => containsKey_rel hc hm) fun _ _ h => by rw [h]; exact .pure .bool
  | getMut hc hw =>
    refine (getMut_rel hc).bind ?_
    rintro r _ rfl
    cases r with
    | none => exact .pure (.value .none)
    | some p => exact (onRoot_rel (Own.swapValue_rel p hw)).bind fun _ _ h => .pure (.value (.some h))
  | node =>
    refine MRel.bind .get fun m m' hm => .pure (.node ((goRef_rel _ (rootRef_rel hm)).map ?_))
    intro a a' ha
    exact ⟨ha.key, ha.value, by unfold Ref.hasLeft Ref.hasRight; rw [isNil_rel ha.left, isNil_rel ha.right]⟩
  | nodeMut hw =>
    refine (Map.nodeMutAt_rel _).bind ?_
    rintro n _ rfl
    cases n with
    | none => exact .pure (.entry .none)
    | some p =>
      refine (onRoot_rel (Own.deref_rel p)).bind fun _ _ hn => ?_
      exact (onRoot_rel (Own.swapValue_rel p hw)).bind fun _ _ h => .pure (.entry (.some ⟨hn.key, h⟩))
  | @iter o n =>
    refine MRel.bind .get fun m m' hm => ?_
    refine MRel.bind (.lift (Map.nexts_rel (fun _ _ h => Map.next_rel o h) n (Map.iter_rel hm o))) fun _ _ h => ?_
    exact .pure (.items h.1)
  | @iterMut o n =>
    cases n with
    | zero => exact .pure .unit
    | succ n => exact MRel.bind (RA := fun _ _ => True) .panic fun _ _ _ => .pure .unit
  | len =>
    refine MRel.bind .get fun m m' h => ?_
    rw [h.len]; exact .pure .nat
  | isEmpty =>
    refine MRel.bind (RA := Eq) (.read fun _ _ hm => .of_eq (isEmpty_rel hm)) fun _ _ h => ?_
    rw [h]; exact .pure .bool
  | clear => exact clear_rel.bind fun _ _ _ => .pure .unit
  | extend hc hs => exact (extend_rel hc hs).bind fun _ _ _ => .pure .unit
  | debug hk hv =>
    refine MRel.bind .get fun m m' h => ?_
    rw [Map.debug_rel hk hv h]; exact .pure .text

theorem simpleHistory_rel {ops : List (SimpleOp K V)} {ops' : List (SimpleOp K' V')}
    (h : ListRel (SimpleOpRel R S) ops ops') {m : Map K V} {m' : Map K' V'} (hm : SMapRel R S m m') :
    ListRel (OutRel (RetRel R S)) (simpleHistory cfg ops m).1 (simpleHistory cfg ops' m').1 ∧
      SMapRel R S (simpleHistory cfg ops m).2 (simpleHistory cfg ops' m').2 := by
  unfold simpleHistory
  induction h generalizing m m' with
  | nil => exact ⟨.nil, hm⟩
  | @cons op op' l l' hop hl ih =>
    obtain ⟨h1, h2⟩ := simpleRun_rel (cfg := cfg) hop m m' hm
    unfold execute
    cases hx : op.run cfg m with
    | mk o t =>
      cases hx' : op'.run cfg m' with
      | mk o' t' =>
        rw [hx, hx'] at h1 h2
        cases h1 with
        | ok h => exact ⟨.cons (.ok h) (ih h2).1, (ih h2).2⟩
        | panic => exact ⟨.cons .panic (ih h2).1, (ih h2).2⟩
        | abort => exact ⟨.cons .abort .nil, h2⟩
        | ub => exact ⟨.cons .ub .nil, h2⟩
        | diverge => exact ⟨.cons .diverge .nil, h2⟩

theorem diag_simpleOp {P : K → Prop} {Q : V → Prop} {op : SimpleOp K V} (h : op.Only P Q) :
    SimpleOpRel (Diag P) (Diag Q) op op := by
  cases op with
  | collect c s => exact .collect (Diag.probes c) (Diag.source h)
  | cloned f g => exact .cloned (Diag.opt h.1) (Diag.opt h.2)
  | insert c k v => exact .insert (Diag.probe c) ⟨rfl, h.1⟩ ⟨rfl, h.2⟩
  | remove c => exact .remove (Diag.probe c)
  | removeEntry c => exact .removeEntry (Diag.probe c)
  | get c => exact .get (Diag.probe c)
  | getEntry c => exact .getEntry (Diag.probe c)
  | containsKey c => exact .containsKey (Diag.probe c)
  | getMut c w => exact .getMut (Diag.probe c) ⟨rfl, h⟩
  | node p => exact .node
  | nodeMut p w => exact .nodeMut ⟨rfl, h⟩
  | iter o n => exact .iter
  | iterMut o n => exact .iterMut
  | len => exact .len
  | isEmpty => exact .isEmpty
  | clear => exact .clear
  | extend c s => exact .extend (Diag.probes c) (Diag.source h)
  | debug dk dv => exact .debug (by rintro k _ ⟨rfl, _⟩; rfl) (by rintro k _ ⟨rfl, _⟩; rfl)

end BST.Simple
