import Verif.Proofs.MapBorrows
import Verif.MapBorrowing
set_option linter.unusedSimpArgs false
/-!
# The functions that only read the map, with their references
-/
namespace BST
namespace TMap
open AliasLaws BSTMap
open Spec (Order)
variable {H K V : Type} [Aliasing H] [AliasLaws H] {cfg : Cfg} {α β γ δ : Type} {s s' : TMap H K V} {p q : Ptr}

/-- `nd` is the memory of the map except for the slots `X`, which must not be touched. -/
structure Sees (X : List Ptr) (nd : Nodes K V) (m : BSTMap K V) : Prop where
  fuel : walkFuel nd = walkFuel m.nodes
  view : ∀ p v, nd.view p = some v → m.nodes.view p = some v ∧ p ∉ X

theorem Sees.self (m : BSTMap K V) : Sees [] m.nodes m := ⟨rfl, fun _ _ h => ⟨h, by simp⟩⟩

/-- The exclusive references to `X` stay usable, and so do all shared references unless the
function creates an exclusive one (`ex`). -/
structure Frame (X : List Ptr) (ex : Bool) (s s' : TMap H K V) : Prop where
  held : ∀ n, n.ptr ∈ X → Held true s n → Held true s' n
  shared : ex = false → Shared s s'

theorem Frame.refl (X : List Ptr) (ex : Bool) (s : TMap H K V) : Frame X ex s s :=
  ⟨fun _ _ h => h, fun _ _ h => h⟩
theorem Frame.trans {X : List Ptr} {ex : Bool} {s1 s2 s3 : TMap H K V} (h : Frame X ex s1 s2)
    (h' : Frame X ex s2 s3) : Frame X ex s1 s3 :=
  ⟨fun n hn hh => h'.held n hn (h.held n hn hh),
    fun he n hh => h'.shared he n (h.shared he n hh)⟩
theorem Frame.weaken {X : List Ptr} {ex : Bool} (h : Frame X false s s') : Frame X ex s s' :=
  ⟨h.held, fun _ => h.shared rfl⟩

section
variable {X : List Ptr} {nd : Nodes K V} {m : BSTMap K V} {ex : Bool}

theorem node_step (hS : Sees X nd m) (ex : Bool) (hm : s.map = m) (hk : OK cfg s)
    {v : InnerNode K V} (hp : nd.view p = some v) :
    ∃ n s', node ex p s = (.ok n, s') ∧ n.ptr = p ∧ s'.map = m ∧ OK cfg s' ∧ Held ex s' n ∧
      Frame X ex s s' := by
  obtain ⟨h1, h2⟩ := hS.view p v hp
  obtain ⟨n, s', e, hn, hm', hk', hh, ho, hs⟩ := node_ok (p := p) ex hk (v := v) (by rw [hm]; exact h1)
  exact ⟨n, s', e, hn, hm'.trans hm, hk', hh,
    ⟨fun n' hn' => ho true n' fun h => h2 (h ▸ hn'), hs⟩⟩

theorem deref_step (hS : Sees X nd m) (hm : s.map = m) (hk : OK cfg s) {n : NodeRef}
    (hn : Held ex s n) {v : InnerNode K V} (hp : nd.view n.ptr = some v) :
    ∃ s', deref n s = (.ok v, s') ∧ s'.map = m ∧ OK cfg s' ∧ Held ex s' n ∧
      Frame X false s s' := by
  obtain ⟨h1, h2⟩ := hS.view n.ptr v hp
  obtain ⟨s', e, hm', hk', hh, ho, hs⟩ := deref_ok hk hn (v := v) (by rw [hm]; exact h1)
  exact ⟨s', e, hm'.trans hm, hk', hh,
    ⟨fun n' hn' => ho true n' fun h => h2 (h ▸ hn'), fun _ => hs⟩⟩

theorem Sim.read {f : M (TMap H K V) α} {k : InnerNode K V → Out β}
    {R : α → β → TMap H K V → Prop} (h : ∀ v, nd.view p = some v → Sim cfg f s (k v, m) R) :
    Sim cfg f s (nd.getUnchecked p >>= k, m) R := by
  rw [Slab.getUnchecked_eq]
  cases hv : nd.view p with
  | none => exact trivial
  | some v => exact h v hv

/-- A handle with its reference. -/
def RelN (ex : Bool) (nd : Nodes K V) (s : TMap H K V) (n : NodeRef) (x : Node K V) : Prop :=
  n.ptr = x.ptr ∧ nd.view x.ptr = some x.node ∧ Held ex s n

def RelO (ex : Bool) (nd : Nodes K V) (s : TMap H K V) : Option NodeRef → Option (Node K V) → Prop
  | none, none => True
  | some n, some x => RelN ex nd s n x
  | _, _ => False

theorem nodeOpt_sim (hS : Sees X nd m) (ex : Bool) (hm : s.map = m) (hk : OK cfg s)
    (o : Option Ptr) : Sim cfg (nodeOpt ex o) s (Node.newOpt nd o, m)
      (fun a b s' => RelO ex nd s' a b ∧ Frame X ex s s') := by
  cases o with
  | none => exact .pure hk hm ⟨trivial, .refl ..⟩
  | some p =>
    unfold nodeOpt Node.newOpt Node.new
    simp only [bind_assoc]
    refine .read fun v hv => ?_
    obtain ⟨n, s', e, hn, hm', hk', hh, hf⟩ := node_step hS ex hm hk hv
    exact .step e (.pure hk' hm' ⟨⟨hn, hv, hh⟩, hf⟩)

theorem left_sim (hS : Sees X nd m) (hm : s.map = m) (hk : OK cfg s) {n : NodeRef}
    {x : Node K V} (hr : RelN ex nd s n x) : Sim cfg (left ex n) s (x.left nd, m)
      (fun a b s' => RelO ex nd s' a b ∧ Frame X ex s s') := by
  obtain ⟨h1, h2, h3⟩ := hr
  obtain ⟨s1, e, hm1, hk1, hh1, hf1⟩ := deref_step hS hm hk h3 (by rw [h1]; exact h2)
  unfold left Node.left
  refine .step e ((nodeOpt_sim hS ex hm1 hk1 _).mono fun a b s' _ _ h =>
    ⟨h.1, hf1.weaken.trans h.2⟩)

theorem right_sim (hS : Sees X nd m) (hm : s.map = m) (hk : OK cfg s) {n : NodeRef}
    {x : Node K V} (hr : RelN ex nd s n x) : Sim cfg (right ex n) s (x.right nd, m)
      (fun a b s' => RelO ex nd s' a b ∧ Frame X ex s s') := by
  obtain ⟨h1, h2, h3⟩ := hr
  obtain ⟨s1, e, hm1, hk1, hh1, hf1⟩ := deref_step hS hm hk h3 (by rw [h1]; exact h2)
  unfold right Node.right
  refine .step e ((nodeOpt_sim hS ex hm1 hk1 _).mono fun a b s' _ _ h =>
    ⟨h.1, hf1.weaken.trans h.2⟩)

theorem RelN.frame {n : NodeRef} {x : Node K V} (h : RelN false nd s n x) (hs : Shared s s') :
    RelN false nd s' n x := ⟨h.1, h.2.1, hs _ h.2.2⟩

/-! ### Lookups -/

/-- The three lookups by shared reference. -/
def lookupWith (fin : Option (Node K V) → β) (c : Probe K) (m : BSTMap K V) : Out β := do
  let root ← m.rootNode
  loop (walkFuel m.nodes) (fun (st : Nat × Option (Node K V)) =>
    match st.2 with
    | none => pure (.inr (fin none))
    | some node =>
      match c st.1 node.key with
      | none => .panic
      | some .lt => do let n ← node.left m.nodes; pure (.inl (st.1 + 1, n))
      | some .gt => do let n ← node.right m.nodes; pure (.inl (st.1 + 1, n))
      | some .eq => pure (.inr (fin (some node)))) (0, root)

theorem descend_sim (hm : s.map = m) (hk : OK cfg s) (c : Probe K) (fin : Option (Node K V) → β) :
    Sim cfg (descend false c) s (lookupWith fin c m, m)
      (fun a b s' => ∃ x, RelO false m.nodes s' a x ∧ b = fin x) := by
  have hS := Sees.self m
  unfold descend lookupWith rootNode
  refine .step (a := s) (s' := s) rfl ?_
  rw [hm]
  refine .bindO (nodeOpt_sim hS false hm hk _) fun a b s1 _ hm1 hk1 h1 => ?_
  refine .loopO (I := fun st st' s => st.1 = st'.1 ∧ RelO false m.nodes s st.2 st'.2)
    (fun st st' s2 hm2 hk2 hi => ?_) _ hm1 hk1 ⟨rfl, h1.1⟩
  obtain ⟨i, o⟩ := st
  obtain ⟨i', o'⟩ := st'
  obtain ⟨rfl, hr⟩ := hi
  simp only at hr
  match o, o', hr with
  | none, none, _ => exact .pure hk2 hm2 ⟨none, trivial, rfl⟩
  | some n, some x, hr =>
    obtain ⟨s3, e, hm3, hk3, hh3, _⟩ := deref_step hS hm2 hk2 hr.2.2 (by rw [hr.1]; exact hr.2.1)
    have hr3 : RelN false m.nodes s3 n x := ⟨hr.1, hr.2.1, hh3⟩
    refine .step e ?_
    show Sim cfg (match c i x.node.key with | _ => _) s3 _ _
    simp only [Node.key]
    cases hc : c i x.node.key with
    | none => exact .panic hk3 hm3
    | some ord =>
      cases ord with
      | lt =>
        exact .bindO (left_sim hS hm3 hk3 hr3) fun a b s4 _ hm4 hk4 h4 =>
          .pure hk4 hm4 ⟨rfl, h4.1⟩
      | gt =>
        exact .bindO (right_sim hS hm3 hk3 hr3) fun a b s4 _ hm4 hk4 h4 =>
          .pure hk4 hm4 ⟨rfl, h4.1⟩
      | eq => exact .pure hk3 hm3 ⟨some x, hr3, rfl⟩

theorem containsKey_sim (hm : s.map = m) (hk : OK cfg s) (c : Probe K) :
    Sim cfg (TMap.containsKey c) s (BSTMap.containsKey c m, m) (fun a b _ => a = b) := by
  have h := descend_sim hm hk c (fun x => x.isSome)
  rw [← bind_pure (BSTMap.containsKey c m)]
  refine .bindO (o := BSTMap.containsKey c m) h fun a b s1 _ hm1 hk1 ⟨x, hx, hb⟩ => .pure hk1 hm1 ?_
  match a, x, hx with
  | none, none, _ => exact hb.symm
  | some _, some _, _ => exact hb.symm

theorem getEntry_sim (hm : s.map = m) (hk : OK cfg s) (c : Probe K) :
    Sim cfg (TMap.getEntry c) s (BSTMap.getEntry c m, m) (fun a b _ => a = b) := by
  have h := descend_sim hm hk c (fun x => x.map fun x => (x.key, x.value))
  rw [← bind_pure (BSTMap.getEntry c m)]
  refine .bindO (o := BSTMap.getEntry c m) h fun a b s1 _ hm1 hk1 ⟨x, hx, hb⟩ => ?_
  match a, x, hx with
  | none, none, _ => exact .pure hk1 hm1 hb.symm
  | some n, some x, hx =>
    obtain ⟨s3, e, hm3, hk3, hh3, _⟩ := deref_step (Sees.self m) hm1 hk1 hx.2.2
      (by rw [hx.1]; exact hx.2.1)
    exact .step e (.pure hk3 hm3 hb.symm)

theorem getValue_sim (hm : s.map = m) (hk : OK cfg s) (c : Probe K) :
    Sim cfg (TMap.getValue c) s (BSTMap.get c m, m) (fun a b _ => a = b) := by
  have h := descend_sim hm hk c (fun x => x.map fun x => x.value)
  rw [← bind_pure (BSTMap.get c m)]
  unfold TMap.getValue TMap.getEntry
  simp only [bind_assoc]
  refine .bindO (o := BSTMap.get c m) h fun a b s1 _ hm1 hk1 ⟨x, hx, hb⟩ => ?_
  match a, x, hx with
  | none, none, _ => exact .pure hk1 hm1 hb.symm
  | some n, some x, hx =>
    obtain ⟨s3, e, hm3, hk3, hh3, _⟩ := deref_step (Sees.self m) hm1 hk1 hx.2.2
      (by rw [hx.1]; exact hx.2.1)
    simp only [bind_assoc]
    exact .step e (.pure hk3 hm3 hb.symm)

theorem findWithParent_sim (hm : s.map = m) (hk : OK cfg s) (c : Probe K) :
    Sim cfg (TMap.findWithParent c) s (BSTMap.findWithParent c m, m) (fun a b _ => a = b) := by
  unfold TMap.findWithParent BSTMap.findWithParent
  refine .step (a := s) (s' := s) rfl ?_
  rw [hm]
  refine .loopO (I := fun st st' _ => st = st') (fun st st' s2 hm2 hk2 hi => ?_) _ hm hk rfl
  subst hi
  obtain ⟨i, parent, o⟩ := st
  cases o with
  | none => exact .pure hk2 hm2 rfl
  | some p =>
    refine .read fun v hv => ?_
    obtain ⟨n, s3, e, hn, hm3, hk3, hh3, _⟩ := node_step (Sees.self m) false hm2 hk2 hv
    refine .step e ?_
    obtain ⟨s4, e4, hm4, hk4, _, _⟩ := deref_step (Sees.self m) hm3 hk3 hh3 (by rw [hn]; exact hv)
    refine .step e4 ?_
    cases c i v.key with
    | none => exact .panic hk4 hm4
    | some ord => cases ord <;> exact .pure hk4 hm4 rfl

theorem findSucc_sim (hm : s.map = m) (hk : OK cfg s) (parent succ : Ptr) :
    Sim cfg (TMap.findSucc parent succ) s (BSTMap.findSucc m.nodes parent succ, m)
      (fun a b _ => a = b) := by
  unfold TMap.findSucc BSTMap.findSucc
  refine .step (a := s) (s' := s) rfl ?_
  rw [hm]
  refine .loopO (I := fun st st' _ => st = st') (fun st st' s2 hm2 hk2 hi => ?_) _ hm hk rfl
  subst hi
  refine .read fun v hv => ?_
  obtain ⟨n, s3, e, hn, hm3, hk3, hh3, _⟩ := node_step (Sees.self m) false hm2 hk2 hv
  refine .step e ?_
  obtain ⟨s4, e4, hm4, hk4, _, _⟩ := deref_step (Sees.self m) hm3 hk3 hh3 (by rw [hn]; exact hv)
  refine .step e4 ?_
  cases v.left <;> exact .pure hk4 hm4 rfl

/-! ### Iterators -/

theorem pushLeftSpine_sim (hS : Sees X nd m) (hm : s.map = m) (hk : OK cfg s)
    (current : Option Ptr) (stack : Stack) :
    Sim cfg (pushLeftSpine current stack) s (IterInorder.pushLeftSpine nd current stack, m)
      (fun a b s' => a = b ∧ Frame X false s s') := by
  unfold pushLeftSpine IterInorder.pushLeftSpine
  refine .step (a := s) (s' := s) rfl ?_
  rw [hm, ← hS.fuel]
  refine .loopO (I := fun st st' s' => st = st' ∧ Frame X false s s')
    (fun st st' s2 hm2 hk2 hi => ?_) _ hm hk ⟨rfl, .refl ..⟩
  obtain ⟨rfl, hf⟩ := hi
  obtain ⟨o, stack⟩ := st
  cases o with
  | none => exact .pure hk2 hm2 ⟨rfl, hf⟩
  | some p =>
    refine .read fun v hv => ?_
    obtain ⟨n, s3, e, hn, hm3, hk3, hh3, hf3⟩ := node_step hS false hm2 hk2 hv
    refine .step e ?_
    obtain ⟨s4, e4, hm4, hk4, _, hf4⟩ := deref_step hS hm3 hk3 hh3 (by rw [hn]; exact hv)
    exact .step e4 (.pure hk4 hm4 ⟨rfl, hf.trans (hf3.trans hf4)⟩)

theorem newPostorder_sim (hm : s.map = m) (hk : OK cfg s) (root : Option Ptr) :
    Sim cfg (newPostorder root) s (IterPostorder.new m.nodes root, m) (fun a b _ => a = b) := by
  have hS := Sees.self m
  unfold newPostorder IterPostorder.new
  refine .step (a := s) (s' := s) rfl ?_
  rw [hm]
  refine .loopO (I := fun st st' _ => st = st') (fun st st' s2 hm2 hk2 hi => ?_) _ hm hk rfl
  subst hi
  obtain ⟨o, stack⟩ := st
  cases o with
  | none => exact .pure hk2 hm2 rfl
  | some p =>
    refine .read fun v hv => ?_
    obtain ⟨n, s3, e, hn, hm3, hk3, hh3, _⟩ := node_step hS false hm2 hk2 hv
    refine .step e ?_
    obtain ⟨s4, e4, hm4, hk4, _, _⟩ := deref_step hS hm3 hk3 hh3 (by rw [hn]; exact hv)
    exact .step e4 (.pure hk4 hm4 rfl)

theorem iterRef_sim (hm : s.map = m) (hk : OK cfg s) (o : Order) :
    Sim cfg o.iterRef s (o.iter m, m) (fun a b _ => a = b) := by
  cases o with
  | pre =>
    refine .step (a := s) (s' := s) rfl ?_
    rw [hm]
    exact .pure hk hm rfl
  | ino =>
    refine .step (a := s) (s' := s) rfl ?_
    rw [hm]
    exact (pushLeftSpine_sim (Sees.self m) hm hk _ _).mono fun _ _ _ _ _ h => h.1
  | post =>
    refine .step (a := s) (s' := s) rfl ?_
    rw [hm]
    exact newPostorder_sim hm hk _

/-- What a shared iterator yields. -/
def Yields (nd : Nodes K V) (s : TMap H K V) : Option NodeRef → Option (K × V) → Prop
  | none, none => True
  | some n, some e => ∃ x, nd.view n.ptr = some x ∧ e = (x.key, x.value) ∧ Held false s n
  | _, _ => False

/-- What a mutable iterator yields. -/
def YieldsMut (nd : Nodes K V) (s : TMap H K V) : Option NodeRef → Option (K × Ptr) → Prop
  | none, none => True
  | some n, some e => ∃ x, nd.view n.ptr = some x ∧ e = (x.key, n.ptr) ∧ Held true s n
  | _, _ => False

theorem nextPreorder_sim (hm : s.map = m) (hk : OK cfg s) (stack : Stack) :
    Sim cfg (nextPreorder false stack) s (IterPreorder.next m.nodes stack, m)
      (fun a b s' => a.2 = b.2 ∧ Yields m.nodes s' a.1 b.1 ∧ Frame [] false s s') := by
  have hS := Sees.self m
  cases stack with
  | nil => exact .pure hk hm ⟨rfl, trivial, .refl ..⟩
  | cons top stack =>
    unfold nextPreorder IterPreorder.next
    refine .read fun v hv => ?_
    obtain ⟨n, s3, e, hn, hm3, hk3, hh3, hf3⟩ := node_step hS false hm hk hv
    refine .step e ?_
    obtain ⟨s4, e4, hm4, hk4, hh4, hf4⟩ := deref_step hS hm3 hk3 hh3 (by rw [hn]; exact hv)
    exact .step e4 (.pure hk4 hm4 ⟨rfl, ⟨v, by rw [hn]; exact hv, rfl, hh4⟩, hf3.trans hf4⟩)

theorem nextMutPreorder_sim (hS : Sees X nd m) (hm : s.map = m) (hk : OK cfg s) (stack : Stack) :
    Sim cfg (nextPreorder true stack) s (IterMutPreorder.next nd stack, m)
      (fun a b s' => a.2 = b.2 ∧ YieldsMut nd s' a.1 b.1 ∧ Frame X true s s') := by
  cases stack with
  | nil => exact .pure hk hm ⟨rfl, trivial, .refl ..⟩
  | cons top stack =>
    unfold nextPreorder IterMutPreorder.next
    refine .read fun v hv => ?_
    obtain ⟨n, s3, e, hn, hm3, hk3, hh3, hf3⟩ := node_step hS true hm hk hv
    refine .step e ?_
    obtain ⟨s4, e4, hm4, hk4, hh4, hf4⟩ := deref_step hS hm3 hk3 hh3 (by rw [hn]; exact hv)
    exact .step e4 (.pure hk4 hm4 ⟨rfl, ⟨v, by rw [hn]; exact hv, by rw [hn], hh4⟩,
      hf3.trans hf4.weaken⟩)

theorem nextInorder_sim (hm : s.map = m) (hk : OK cfg s) (stack : Stack) :
    Sim cfg (nextInorder stack) s (IterInorder.next m.nodes stack, m)
      (fun a b s' => a.2 = b.2 ∧ Yields m.nodes s' a.1 b.1 ∧ Frame [] false s s') := by
  have hS := Sees.self m
  cases stack with
  | nil => exact .pure hk hm ⟨rfl, trivial, .refl ..⟩
  | cons top stack =>
    unfold nextInorder IterInorder.next
    refine .read fun v hv => ?_
    obtain ⟨n, s3, e, hn, hm3, hk3, hh3, hf3⟩ := node_step hS false hm hk hv
    refine .step e ?_
    obtain ⟨s4, e4, hm4, hk4, hh4, hf4⟩ := deref_step hS hm3 hk3 hh3 (by rw [hn]; exact hv)
    refine .step e4 ?_
    refine .bindO (pushLeftSpine_sim hS hm4 hk4 _ _) fun a b s5 _ hm5 hk5 h5 => ?_
    exact .pure hk5 hm5 ⟨h5.1, ⟨v, by rw [hn]; exact hv, rfl, h5.2.shared rfl _ hh4⟩,
      hf3.trans (hf4.trans h5.2)⟩

theorem nextMutInorder_sim (hS : Sees X nd m) (hm : s.map = m) (hk : OK cfg s) (stack : Stack) :
    Sim cfg (nextMutInorder stack) s (IterMutInorder.next nd stack, m)
      (fun a b s' => a.2 = b.2 ∧ YieldsMut nd s' a.1 b.1 ∧ Frame X true s s') := by
  cases stack with
  | nil => exact .pure hk hm ⟨rfl, trivial, .refl ..⟩
  | cons top stack =>
    unfold nextMutInorder IterMutInorder.next
    refine .read fun v hv => ?_
    obtain ⟨n, s3, e, hn, hm3, hk3, hh3, hf3⟩ := node_step hS false hm hk hv
    refine .step e ?_
    obtain ⟨s4, e4, hm4, hk4, hh4, hf4⟩ := deref_step hS hm3 hk3 hh3 (by rw [hn]; exact hv)
    refine .step e4 ?_
    refine .bindO (pushLeftSpine_sim hS hm4 hk4 _ _) fun a b s5 _ hm5 hk5 h5 => ?_
    refine .read fun v' hv' => ?_
    obtain ⟨n', s6, e6, hn6, hm6, hk6, hh6, hf6⟩ := node_step hS true hm5 hk5 hv'
    exact .step e6 (.pure hk6 hm6 ⟨h5.1, ⟨v', by rw [hn6]; exact hv', by rw [hn6], hh6⟩,
      (hf3.trans (hf4.trans h5.2)).weaken.trans hf6⟩)

theorem pushSpine_sim (hS : Sees X nd m) (hm : s.map = m) (hk : OK cfg s) {n : NodeRef}
    {v : InnerNode K V} (hv : nd.view n.ptr = some v) (hh : Held false s n) (stack : Stack) :
    Sim cfg (pushSpine n stack) s (IterPostorder.pushSpine nd n.ptr v stack, m)
      (fun a b s' => a = b ∧ Frame X false s s') := by
  unfold pushSpine IterPostorder.pushSpine
  refine .step (a := s) (s' := s) rfl ?_
  rw [hm, ← hS.fuel]
  refine .loopO (I := fun st st' s' => st.1.ptr = st'.1 ∧ nd.view st'.1 = some st'.2.1 ∧
    st.2 = st'.2.2 ∧ Held false s' st.1 ∧ Frame X false s s')
    (fun st st' s2 hm2 hk2 hi => ?_) _ hm hk ⟨rfl, hv, rfl, hh, .refl ..⟩
  obtain ⟨n, stack⟩ := st
  obtain ⟨p, x, stack'⟩ := st'
  obtain ⟨rfl, hx, rfl, hh, hf⟩ := hi
  simp only at hx hh hf ⊢
  obtain ⟨s4, e4, hm4, hk4, hh4, hf4⟩ := deref_step hS hm2 hk2 hh hx
  refine .step e4 ?_
  cases hl : x.left with
  | none => exact .pure hk4 hm4 ⟨rfl, hf.trans hf4⟩
  | some l =>
    simp only
    refine .read fun v hv => ?_
    obtain ⟨n', s3, e, hn, hm3, hk3, hh3, hf3⟩ := node_step hS false hm4 hk4 hv
    exact .step e (.pure hk3 hm3 ⟨hn, hv, rfl, hh3, hf.trans (hf4.trans hf3)⟩)

theorem nextPostorder_sim (hm : s.map = m) (hk : OK cfg s) (stack : Stack) :
    Sim cfg (nextPostorder false stack) s (IterPostorder.next m.nodes stack, m)
      (fun a b s' => a.2 = b.2 ∧ Yields m.nodes s' a.1 b.1 ∧ Frame [] false s s') := by
  have hS := Sees.self m
  unfold nextPostorder IterPostorder.next
  refine .step (a := s) (s' := s) rfl ?_
  rw [hm]
  refine .loopO (I := fun st st' s' => st = st' ∧ Frame [] false s s')
    (fun st st' s2 hm2 hk2 hi => ?_) _ hm hk ⟨rfl, .refl ..⟩
  obtain ⟨rfl, hf⟩ := hi
  cases st with
  | nil => exact .pure hk2 hm2 ⟨rfl, trivial, hf⟩
  | cons current stack =>
    refine .read fun v hv => ?_
    obtain ⟨n, s3, e, hn, hm3, hk3, hh3, hf3⟩ := node_step hS false hm2 hk2 hv
    refine .step e ?_
    obtain ⟨s4, e4, hm4, hk4, hh4, hf4⟩ := deref_step hS hm3 hk3 hh3 (by rw [hn]; exact hv)
    refine .step e4 ?_
    have hf' := hf.trans (hf3.trans hf4)
    have hy : Yields m.nodes s4 (some n) (some (v.key, v.value)) :=
      ⟨v, by rw [hn]; exact hv, rfl, hh4⟩
    cases v.right with
    | none => exact .pure hk4 hm4 ⟨rfl, hy, hf'⟩
    | some right =>
      cases stack with
      | nil => exact .pure hk4 hm4 ⟨rfl, hy, hf'⟩
      | cons top rest =>
        simp only
        by_cases ht : top = right
        · simp only [ht, if_true]
          refine .read fun v' hv' => ?_
          obtain ⟨n', s6, e6, hn6, hm6, hk6, hh6, hf6⟩ := node_step hS false hm4 hk4 hv'
          refine .step e6 ?_
          subst hn6
          refine .bindO (pushSpine_sim hS hm6 hk6 hv' hh6 _) fun a b s5 _ hm5 hk5 h5 => ?_
          exact .pure hk5 hm5 ⟨h5.1, hf'.trans (hf6.trans h5.2)⟩
        · simp only [ht, if_false]
          exact .pure hk4 hm4 ⟨rfl, hy, hf'⟩

theorem nextMutPostorder_sim (hS : Sees X nd m) (hm : s.map = m) (hk : OK cfg s) (stack : Stack) :
    Sim cfg (nextPostorder true stack) s (IterMutPostorder.next nd stack, m)
      (fun a b s' => a.2 = b.2 ∧ YieldsMut nd s' a.1 b.1 ∧ Frame X true s s') := by
  unfold nextPostorder IterMutPostorder.next
  refine .step (a := s) (s' := s) rfl ?_
  rw [hm, ← hS.fuel]
  refine .loopO (I := fun st st' s' => st = st' ∧ Frame X true s s')
    (fun st st' s2 hm2 hk2 hi => ?_) _ hm hk ⟨rfl, .refl ..⟩
  obtain ⟨rfl, hf⟩ := hi
  cases st with
  | nil => exact .pure hk2 hm2 ⟨rfl, trivial, hf⟩
  | cons current stack =>
    refine .read fun v hv => ?_
    obtain ⟨n, s3, e, hn, hm3, hk3, hh3, hf3⟩ := node_step hS false hm2 hk2 hv
    refine .step e ?_
    obtain ⟨s4, e4, hm4, hk4, hh4, hf4⟩ := deref_step hS hm3 hk3 hh3 (by rw [hn]; exact hv)
    refine .step e4 ?_
    have hf' := hf.trans (hf3.trans hf4).weaken
    have last : ∀ stack : Stack, Sim cfg (do
          let n ← node true current
          Pure.pure (.inr (some n, stack)) : M (TMap H K V) (Stack ⊕ Option NodeRef × Stack)) s4
        ((do
          let node ← nd.getUnchecked current
          Pure.pure (.inr (some (node.key, current), stack)) : Out (Stack ⊕ Option (K × Ptr) × Stack)), m)
        (Iterates (fun st st' s' => st = st' ∧ Frame X true s s') (fun a b s' =>
          a.2 = b.2 ∧ YieldsMut nd s' a.1 b.1 ∧ Frame X true s s')) := by
      intro stack
      refine .read fun v' hv' => ?_
      obtain ⟨n', s6, e6, hn6, hm6, hk6, hh6, hf6⟩ := node_step hS true hm4 hk4 hv'
      exact .step e6 (.pure hk6 hm6 ⟨rfl, ⟨v', by rw [hn6]; exact hv', by rw [hn6], hh6⟩,
        hf'.trans hf6⟩)
    cases v.right with
    | none => exact last _
    | some right =>
      cases stack with
      | nil => exact last _
      | cons top rest =>
        simp only
        by_cases ht : top = right
        · simp only [ht, if_true]
          refine .read fun v' hv' => ?_
          obtain ⟨n', s6, e6, hn6, hm6, hk6, hh6, hf6⟩ := node_step hS false hm4 hk4 hv'
          refine .step e6 ?_
          subst hn6
          refine .bindO (pushSpine_sim hS hm6 hk6 hv' hh6 _) fun a b s5 _ hm5 hk5 h5 => ?_
          exact .pure hk5 hm5 ⟨h5.1, hf'.trans (hf6.trans h5.2).weaken⟩
        · simp only [ht, if_false]
          exact last _

theorem nextRef_sim (hm : s.map = m) (hk : OK cfg s) (o : Order) (stack : Stack) :
    Sim cfg (o.nextRef stack) s (o.next m stack, m)
      (fun a b s' => a.2 = b.2 ∧ Yields m.nodes s' a.1 b.1 ∧ Frame [] false s s') := by
  cases o with
  | pre => exact nextPreorder_sim hm hk stack
  | ino => exact nextInorder_sim hm hk stack
  | post => exact nextPostorder_sim hm hk stack

theorem nextMutRef_sim (hS : Sees X nd m) (hm : s.map = m) (hk : OK cfg s) (o : Order)
    (stack : Stack) {m' : BSTMap K V} (hm' : m'.nodes = nd) :
    Sim cfg (o.nextMutRef stack) s (o.nextMut m' stack, m)
      (fun a b s' => a.2 = b.2 ∧ YieldsMut nd s' a.1 b.1 ∧ Frame X true s s') := by
  subst hm'
  cases o with
  | pre => exact nextMutPreorder_sim hS hm hk stack
  | ino => exact nextMutInorder_sim hS hm hk stack
  | post => exact nextMutPostorder_sim hS hm hk stack

/-- Several of them. -/
def YieldsAll (nd : Nodes K V) (s : TMap H K V) : List (Option NodeRef) → List (Option (K × V)) → Prop
  | [], [] => True
  | a :: as, b :: bs => Yields nd s a b ∧ YieldsAll nd s as bs
  | _, _ => False

theorem Yields.frame {a : Option NodeRef} {b : Option (K × V)} (h : Yields nd s a b)
    (hs : Shared s s') : Yields nd s' a b := by
  match a, b, h with
  | none, none, _ => exact trivial
  | some n, some e, ⟨x, h1, h2, h3⟩ => exact ⟨x, h1, h2, hs _ h3⟩

theorem YieldsAll.frame {as : List (Option NodeRef)} {bs : List (Option (K × V))}
    (h : YieldsAll nd s as bs) (hs : Shared s s') : YieldsAll nd s' as bs := by
  induction as generalizing bs with
  | nil =>
    cases bs with
    | nil => trivial
    | cons _ _ => exact h.elim
  | cons a as ih =>
    cases bs with
    | nil => exact h.elim
    | cons b bs => exact ⟨h.1.frame hs, ih h.2⟩

theorem nextsRef_sim (o : Order) (n : Nat) (hm : s.map = m) (hk : OK cfg s) (stack : Stack) :
    Sim cfg (nextsRef o n stack) s (nexts (o.next m) n stack, m)
      (fun a b s' => YieldsAll m.nodes s' a b.1 ∧ Shared s s') := by
  induction n generalizing s stack with
  | zero => exact .pure hk hm ⟨trivial, fun _ h => h⟩
  | succ n ih =>
    unfold nextsRef nexts
    refine .bindO (nextRef_sim hm hk o stack) fun a b s1 _ hm1 hk1 h1 => ?_
    obtain ⟨x, st⟩ := a
    obtain ⟨y, st'⟩ := b
    obtain ⟨hst, hy, hf⟩ := h1
    simp only at hst hy
    subst hst
    refine .bindO (ih hm1 hk1 st) fun xs ys s2 _ hm2 hk2 h2 => ?_
    exact .pure hk2 hm2 ⟨⟨hy.frame h2.2, h2.1⟩, fun n hn => h2.2 n (hf.shared rfl n hn)⟩

theorem readRefs_step {refs : List (Option NodeRef)} {l : List (Option (K × V))}
    (hm : s.map = m) (hk : OK cfg s) (h : YieldsAll m.nodes s refs l) :
    ∃ s', readRefs refs s = (.ok l, s') ∧ s'.map = m ∧ OK cfg s' := by
  induction refs generalizing s l with
  | nil =>
    cases l with
    | nil => exact ⟨s, rfl, hm, hk⟩
    | cons _ _ => exact h.elim
  | cons a refs ih =>
    cases l with
    | nil => exact h.elim
    | cons b l =>
      obtain ⟨h1, h2⟩ := h
      match a, b, h1 with
      | none, none, _ =>
        obtain ⟨s1, e1, hm1, hk1⟩ := ih hm hk h2
        refine ⟨s1, ?_, hm1, hk1⟩
        unfold readRefs
        rw [M.bind_ok e1]; rfl
      | some n, some e, ⟨x, hx, he, hh⟩ =>
        obtain ⟨s4, e4, hm4, hk4, hh4, hf4⟩ := deref_step (Sees.self m) hm hk hh hx
        obtain ⟨s1, e1, hm1, hk1⟩ := ih hm4 hk4 (h2.frame (hf4.shared rfl))
        refine ⟨s1, ?_, hm1, hk1⟩
        unfold readRefs
        rw [M.bind_ok e4, M.bind_ok e1, he]; rfl

theorem goRef_sim (path : List Bool) (hm : s.map = m) (hk : OK cfg s) {a : Option NodeRef}
    {b : Option (Node K V)} (hr : RelO false m.nodes s a b) :
    Sim cfg (goRef false path a) s (goNode m.nodes path b, m)
      (fun a b s' => RelO false m.nodes s' a b) := by
  induction path generalizing s a b with
  | nil =>
    unfold goRef goNode
    exact .pure hk hm hr
  | cons d path ih =>
    match a, b, hr with
    | none, none, _ =>
      unfold goRef goNode
      exact .pure hk hm trivial
    | some n, some x, hr =>
      unfold goRef goNode
      cases d with
      | true =>
        exact .bindO (right_sim (Sees.self m) hm hk hr) fun a b s1 _ hm1 hk1 h1 => ih hm1 hk1 h1.1
      | false =>
        exact .bindO (left_sim (Sees.self m) hm hk hr) fun a b s1 _ hm1 hk1 h1 => ih hm1 hk1 h1.1

theorem nodeRefAt_sim (path : List Bool) (hm : s.map = m) (hk : OK cfg s) :
    Sim cfg (nodeRefAt false path) s (nodeAt path m, m)
      (fun a b s' => RelO false m.nodes s' a b) := by
  unfold nodeRefAt nodeAt rootNode
  refine .step (a := s) (s' := s) rfl ?_
  rw [hm]
  exact .bindO (nodeOpt_sim (Sees.self m) false hm hk _) fun a b s1 _ hm1 hk1 h1 =>
    goRef_sim path hm1 hk1 h1.1

/-! ### `Debug` -/

theorem debugNode_sim (dk : K → String) (dv : V → String) (fuel : Nat) {n : NodeRef} {x : Node K V}
    (hm : s.map = m) (hk : OK cfg s) (hr : RelN false m.nodes s n x) :
    Sim cfg (TMap.debugNode dk dv fuel n) s (BSTMap.debugNode dk dv m.nodes fuel x, m)
      (fun a b s' => a = b ∧ Shared s s') := by
  induction fuel generalizing s n x with
  | zero => exact trivial
  | succ fuel ih =>
    have opt : ∀ {s1 : TMap H K V} {a : Option NodeRef} {b : Option (Node K V)}, s1.map = m →
        OK cfg s1 → RelO false m.nodes s1 a b → Sim cfg
        (match a with
          | none => Pure.pure none
          | some c => do let s ← TMap.debugNode dk dv fuel c; Pure.pure (some s) :
            M (TMap H K V) (Option String)) s1
        ((match b with
          | none => Pure.pure none
          | some c => do let s ← BSTMap.debugNode dk dv m.nodes fuel c; Pure.pure (some s) :
            Out (Option String)), m) (fun a b s' => a = b ∧ Shared s1 s') := by
      intro s1 a b hm1 hk1 hr1
      match a, b, hr1 with
      | none, none, _ => exact .pure hk1 hm1 ⟨rfl, fun _ h => h⟩
      | some c, some d, hr1 =>
        exact .bindO (ih hm1 hk1 hr1) fun a b s2 _ hm2 hk2 h2 =>
          .pure hk2 hm2 ⟨by rw [h2.1], h2.2⟩
    unfold TMap.debugNode BSTMap.debugNode
    refine .bindO (left_sim (Sees.self m) hm hk hr) fun a b s1 _ hm1 hk1 h1 => ?_
    refine .bindO (opt hm1 hk1 h1.1) fun l l' s2 _ hm2 hk2 h2 => ?_
    have hs2 : Shared s s2 := fun n hn => h2.2 n (h1.2.shared rfl n hn)
    refine .bindO (right_sim (Sees.self m) hm2 hk2 (hr.frame hs2)) fun a b s3 _ hm3 hk3 h3 => ?_
    refine .bindO (opt hm3 hk3 h3.1) fun r r' s4 _ hm4 hk4 h4 => ?_
    have hs4 : Shared s s4 := fun n hn => h4.2 n (h3.2.shared rfl n (hs2 n hn))
    obtain ⟨s5, e5, hm5, hk5, _, hf5⟩ := deref_step (Sees.self m) hm4 hk4 (hr.frame hs4).2.2
      (by rw [hr.1]; exact hr.2.1)
    refine .step e5 (.pure hk5 hm5 ⟨?_, fun n hn => hf5.shared rfl n (hs4 n hn)⟩)
    rw [h2.1, h4.1]; rfl

theorem debug_sim (dk : K → String) (dv : V → String) (hm : s.map = m) (hk : OK cfg s) :
    Sim cfg (TMap.debug dk dv) s (BSTMap.debug dk dv m, m) (fun a b _ => a = b) := by
  unfold TMap.debug BSTMap.debug rootNode
  refine .step (a := s) (s' := s) rfl ?_
  rw [hm]
  refine .bindO (nodeOpt_sim (Sees.self m) false hm hk _) fun a b s1 _ hm1 hk1 h1 => ?_
  refine .bindO (R := fun a b _ => a = b) ?_ fun a b s2 _ hm2 hk2 h2 => .pure hk2 hm2 (by rw [h2])
  match a, b, h1.1 with
  | none, none, _ => exact .pure hk1 hm1 rfl
  | some n, some x, hr =>
    exact .bindO (debugNode_sim dk dv _ hm1 hk1 hr) fun a b s2 _ hm2 hk2 h2 =>
      .pure hk2 hm2 (by rw [h2.1])

end
end TMap
end BST
