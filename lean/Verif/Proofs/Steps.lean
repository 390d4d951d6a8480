import Verif.Proofs.Client
/-!
# Iterators step by step, and clients of the mutable iterators
-/
set_option linter.unusedSimpArgs false
namespace BST
open BSTMap Tree
open Spec (BT Order)
variable {K V : Type}

theorem nexts_spec {α E σ : Type} {next : σ → Out (Option α × σ)} {out : E → α}
    {I : σ → List E → Prop} (h : IterSpec next out I) (n : Nat) {st : σ} {rem : List E}
    (hi : I st rem) :
    ∃ st', nexts next n st =
        .ok (((rem.map fun e => some (out e)) ++ List.replicate n none).take n, st') ∧
      I st' (rem.drop n) := by
  induction n generalizing st rem with
  | zero => exact ⟨st, by simp [nexts], by simpa using hi⟩
  | succ n ih =>
    cases rem with
    | nil =>
      obtain ⟨st', h1, h2⟩ := ih hi
      refine ⟨st', ?_, by simpa using h2⟩
      simp only [nexts, h.done st hi, Out.ok_bind, h1, Out.pure_eq]
      simp [List.replicate_succ]
    | cons e rest =>
      obtain ⟨st1, h1, h2⟩ := h.step st e rest hi
      obtain ⟨st', h3, h4⟩ := ih h2
      refine ⟨st', ?_, by simpa using h4⟩
      simp only [nexts, h1, Out.ok_bind, h3, Out.pure_eq]
      congr 2
      simp only [List.map_cons, List.cons_append, List.take_succ_cons, List.replicate_succ']
      rw [← List.append_assoc, List.take_append_of_le_length (l₂ := [none]) (by simp)]

namespace Tree
/-- The traversal of a given kind. -/
def order : Order → Tree K V → List (Ptr × K × V)
  | .pre => pre
  | .ino => ino
  | .post => post

theorem bt_order (o : Order) (t : Tree K V) : t.bt.order o = t.order o := by
  cases o
  · exact bt_pre t
  · exact bt_ino t
  · exact bt_post t

theorem order_perm (o : Order) (t : Tree K V) : (t.order o).Perm t.ino := by
  cases o
  · exact t.pre_perm
  · exact .refl _
  · exact t.post_perm

theorem order_nodup (o : Order) {t : Tree K V} (h : t.ptrs.Nodup) :
    ((t.order o).map (·.1)).Nodup :=
  (((t.order_perm o).map _).trans t.ino_ptrs_perm).nodup_iff.2 h

theorem setV_order (o : Order) (q : Ptr) (w : V) (t : Tree K V) :
    (t.setV q w).order o = (t.order o).map (setE q w) := by
  cases o
  · exact setV_pre q w t
  · exact setV_ino q w t
  · exact setV_post q w t

theorem order_length (o : Order) (t : Tree K V) : (t.order o).length = t.size := by
  rw [(t.order_perm o).length_eq, ino_length]
end Tree

theorem Spec.BT.map_order {α β : Type} (f : α → β) (o : Order) (t : BT α) :
    (t.map f).order o = (t.order o).map f := by
  cases o
  · exact BT.map_pre f t
  · exact BT.map_ino f t
  · exact BT.map_post f t

/-- The invariant of the iterators of a given kind. -/
def OrdInv (o : Order) (nodes : Nodes K V) (H : Nat) (st : Stack) (rem : List (Ptr × K × V)) : Prop :=
  match o with
  | .pre => PreInv nodes.view H st rem
  | .ino => InoInvF nodes H st rem
  | .post => PostInvF nodes H st rem

theorem OrdInv.congr {o : Order} {n n' : Nodes K V} {H : Nat} {st : Stack}
    {rem : List (Ptr × K × V)} (h : OrdInv o n H st rem) (he : ∀ e ∈ rem, n'.view e.1 = n.view e.1)
    (hl : walkFuel n' = walkFuel n) : OrdInv o n' H st rem := by
  cases o with
  | pre => exact PreInv.congr h he
  | ino => exact ⟨InoInv.congr h.1 he, by rw [hl]; exact h.2⟩
  | post =>
    obtain ⟨⟨ps, N, hi⟩, hf⟩ := h
    exact ⟨⟨ps, N, PostInv.congr hi he⟩, by rw [hl]; exact hf⟩

/-- Bound on the number of stacked pointers. -/
def stackBound : Order → Nat → Nat
  | .pre, H => H
  | .ino, H => H
  | .post, H => 2 * H

theorem OrdInv.length {o : Order} {n : Nodes K V} {H : Nat} {st : Stack}
    {rem : List (Ptr × K × V)} (h : OrdInv o n H st rem) : st.length ≤ stackBound o H := by
  cases o with
  | pre => exact PreInv.length h
  | ino => exact InoInv.length h.1
  | post =>
    obtain ⟨⟨ps, N, hi⟩, _⟩ := h
    have := hi.length
    simp only [stackBound]; omega

section
variable {cfg : Cfg} {m : BSTMap K V} {t : Tree K V}

theorem iter_new (h : Shape cfg m t) (o : Order) :
    ∃ st, o.iter m = .ok st ∧ o.iterMut m = .ok st ∧ OrdInv o m.nodes t.height st (t.order o) := by
  cases o with
  | pre => exact ⟨_, (preNew_ok h).1, (preNew_ok h).1, (preNew_ok h).2⟩
  | ino => obtain ⟨st, h1, h2⟩ := inoNew_ok h; exact ⟨st, h1, h1, h2⟩
  | post => obtain ⟨st, h1, h2⟩ := postNew_ok h; exact ⟨st, h1, h1, h2⟩

theorem next_spec (o : Order) (m : BSTMap K V) (H : Nat) :
    IterSpec (o.next m) (fun e => e.2) (OrdInv o m.nodes H) := by
  cases o with
  | pre =>
    show IterSpec (IterPreorder.next m.nodes) _ _
    rw [preorder_eq]; exact preNext_spec _ _ (fun _ _ _ _ _ => rfl) _ _
  | ino =>
    show IterSpec (IterInorder.next m.nodes) _ _
    rw [inorder_eq]; exact inoNext_spec _ _ (fun _ _ _ _ _ => rfl) _ _
  | post =>
    show IterSpec (IterPostorder.next m.nodes) _ _
    rw [postorder_eq]; exact postNext_spec _ _ (fun _ _ _ _ _ => rfl) _ _

theorem nextMut_spec (o : Order) (m : BSTMap K V) (H : Nat) :
    IterSpec (o.nextMut m) (fun e => (e.2.1, e.1)) (OrdInv o m.nodes H) := by
  cases o with
  | pre =>
    show IterSpec (IterMutPreorder.next m.nodes) _ _
    rw [preorderMut_eq]; exact preNext_spec _ _ (fun _ _ _ _ _ => rfl) _ _
  | ino =>
    show IterSpec (IterMutInorder.next m.nodes) _ _
    rw [inorderMut_eq]; exact inoNext_spec _ _ (fun _ _ _ _ _ => rfl) _ _
  | post =>
    show IterSpec (IterMutPostorder.next m.nodes) _ _
    rw [postorderMut_eq]; exact postNext_spec _ _ (fun _ _ _ _ _ => rfl) _ _
end

/-! ### Clients of mutable iterators -/

/-- The effect of one write on the tree seen through the node API. -/
def wr (places : List Ptr) (b : BT (Ptr × K × V)) (w : Nat × V) : BT (Ptr × K × V) :=
  b.map fun e => if places[w.1]? = some e.1 then (e.1, e.2.1, w.2) else e

theorem bt_setV (q : Ptr) (w : V) (t : Tree K V) :
    (t.setV q w).bt = t.bt.map fun e => if q = e.1 then (e.1, e.2.1, w) else e := by
  induction t with
  | leaf => rfl
  | node p l k v r ihl ihr =>
    simp only [Tree.setV, Tree.bt, BT.map, ihl, ihr]
    by_cases h : p = q
    · simp [h]
    · simp [h, Ne.symm h]

theorem clientRun_spec {cfg : Cfg} (o : Order) (H : Nat) (steps : List (Step V)) :
    ∀ {m : BSTMap K V} {t : Tree K V} {st : Stack} {dn rem : List (Ptr × K × V)},
    Shape cfg m t → t.order o = dn ++ rem → OrdInv o m.nodes H st rem →
    ∃ m' t' dn' rem' st', clientRun o steps (dn.map fun e => (e.2.1, e.1)) st m =
        (.ok (dn'.map (fun e => (e.2.1, e.1)), st'), m') ∧
      Shape cfg m' t' ∧ t'.order o = dn' ++ rem' ∧ OrdInv o m'.nodes H st' rem' ∧
      dn'.length = obtained t.size dn.length steps ∧
      t'.bt = (writes t.size dn.length steps).foldl (wr ((t.order o).map (·.1))) t.bt ∧
      (t'.order o).map (fun e => (e.2.1, e.1)) = (t.order o).map (fun e => (e.2.1, e.1)) ∧
      m'.capacity = m.capacity ∧ m'.root = m.root := by
  induction steps with
  | nil =>
    intro m t st dn rem h ho hi
    exact ⟨m, t, dn, rem, st, rfl, h, ho, hi, rfl, rfl, rfl, rfl, rfl⟩
  | cons s steps ih =>
    intro m t st dn rem h ho hi
    have hlen : dn.length + rem.length = t.size := by
      rw [← t.order_length o, ho, List.length_append]
    cases s with
    | next =>
      cases rem with
      | nil =>
        have hn := (nextMut_spec o m H).done st hi
        obtain ⟨m', t', dn', rem', st', h1, h2, h3, h4, h5, h6, h7⟩ := ih h ho hi
        have hc : min (dn.length + 1) t.size = dn.length := by simp at hlen; omega
        refine ⟨m', t', dn', rem', st', ?_, h2, h3, h4, ?_, ?_, h7⟩
        · unfold clientRun
          rw [M.read_bind, hn]
          simpa using h1
        · simp only [obtained, hc]; exact h5
        · simp only [writes, hc]; exact h6
      | cons e rem =>
        obtain ⟨st1, hn, hi1⟩ := (nextMut_spec o m H).step st e rem hi
        have ho1 : t.order o = (dn ++ [e]) ++ rem := by rw [ho]; simp
        obtain ⟨m', t', dn', rem', st', h1, h2, h3, h4, h5, h6, h7⟩ := ih h ho1 hi1
        have hc : min (dn.length + 1) t.size = (dn ++ [e]).length := by simp at hlen ⊢; omega
        refine ⟨m', t', dn', rem', st', ?_, h2, h3, h4, ?_, ?_, h7⟩
        · unfold clientRun
          rw [M.read_bind, hn]
          simpa using h1
        · simp only [obtained, hc]; exact h5
        · simp only [writes, hc]; exact h6
    | write i v =>
      by_cases hlt : i < dn.length
      · have hq : dn[i].1 ∈ t.ptrs := by
          refine ptr_mem_of_ino ((t.order_perm o).mem_iff.1 ?_)
          rw [ho]; exact List.mem_append_left _ (List.getElem_mem hlt)
        obtain ⟨m1, x, hx, he, hs, hroot, hU⟩ := writeValue_spec h hq v
        have hnd := order_nodup o h.nodup
        rw [ho, List.map_append, List.nodup_append] at hnd
        have hrem : ∀ e ∈ rem, e.1 ≠ dn[i].1 := fun e hm =>
          (hnd.2.2 _ (List.mem_map_of_mem (List.getElem_mem hlt)) _ (List.mem_map_of_mem hm)).symm
        have ho1 : (t.setV dn[i].1 v).order o = dn.map (setE dn[i].1 v) ++ rem := by
          rw [setV_order, ho, List.map_append]
          congr 1
          conv => rhs; rw [← List.map_id rem]
          exact List.map_congr_left fun e hm => by simp [setE, hrem e hm]
        have hi1 : OrdInv o m1.nodes H st rem := by
          refine hi.congr (fun e hm => ?_) ?_
          · rw [hU.view]; exact upd_ne _ _ (hrem e hm)
          · simp [walkFuel, hU.len]
        obtain ⟨m', t', dn', rem', st', h1, h2, h3, h4, h5, h6, h7, h8, h9⟩ := ih hs ho1 hi1
        have hmap : (dn.map (setE dn[i].1 v)).map (fun e => (e.2.1, e.1)) =
            dn.map (fun e => (e.2.1, e.1)) := by
          rw [List.map_map]; rfl
        have hord : ((t.setV dn[i].1 v).order o).map (fun e => (e.2.1, e.1)) =
            (t.order o).map (fun e => (e.2.1, e.1)) := by
          rw [setV_order, List.map_map]; rfl
        have hordp : ((t.setV dn[i].1 v).order o).map (·.1) = (t.order o).map (·.1) := by
          rw [setV_order, List.map_map]; rfl
        refine ⟨m', t', dn', rem', st', ?_, h2, h3, h4, ?_, ?_, h7.trans hord,
          h8.trans hU.capacity, h9.trans hroot⟩
        · unfold clientRun
          have hg : (dn.map fun e => (e.2.1, e.1))[i]? = some (dn[i].2.1, dn[i].1) := by simp [hlt]
          rw [hg]
          dsimp only
          rw [M.bind_ok he]
          rw [hmap] at h1
          exact h1
        · simp only [obtained]
          rw [setV_size, List.length_map] at h5
          exact h5
        · simp only [writes, if_pos hlt, List.foldl_cons]
          rw [setV_size, List.length_map, hordp] at h6
          rw [h6]
          congr 1
          rw [bt_setV]
          unfold wr
          have hg : ((t.order o).map (·.1))[i]? = some dn[i].1 := by
            rw [ho]; simp [List.getElem?_append, hlt]
          rw [hg]
          congr 1
          funext e
          simp
      · obtain ⟨m', t', dn', rem', st', h1, h2, h3, h4, h5, h6, h7⟩ := ih h ho hi
        refine ⟨m', t', dn', rem', st', ?_, h2, h3, h4, ?_, ?_, h7⟩
        · unfold clientRun
          have hg : (dn.map fun e => (e.2.1, e.1))[i]? = none := by simp; omega
          rw [hg]
          exact h1
        · simp only [obtained]; exact h5
        · simp only [writes, if_neg hlt]; exact h6

theorem clientMut_spec {cfg : Cfg} {m : BSTMap K V} {t : Tree K V} (h : Shape cfg m t) (o : Order)
    (steps : List (Step V)) :
    ∃ m' t', clientMut o steps m = (.ok (((t.order o).map fun e => (e.2.1, e.1)).take
        (obtained t.size 0 steps)), m') ∧ Shape cfg m' t' ∧
      t'.bt = (writes t.size 0 steps).foldl (wr ((t.order o).map (·.1))) t.bt ∧
      m'.capacity = m.capacity ∧ m'.root = m.root := by
  obtain ⟨st, _, h2, h3⟩ := iter_new h o
  obtain ⟨m', t', dn', rem', st', e1, e2, e3, e4, e5, e6, e7, e8, e9⟩ :=
    clientRun_spec o t.height steps (dn := []) h (by simp) h3
  refine ⟨m', t', ?_, e2, e6, e8, e9⟩
  unfold clientMut
  rw [M.read_bind, h2]
  simp only [List.map_nil] at e1
  rw [M.lift_ok_bind, M.bind_ok e1, ← e7, e3, List.map_append]
  simp only [List.length_nil] at e5
  rw [← e5, List.take_append_of_le_length (by simp), List.take_of_length_le (by simp)]
  rfl

end BST
