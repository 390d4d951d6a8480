import Verif.Proofs.MapReads
set_option linter.unusedSimpArgs false
/-!
# The functions that change the map, with their references
-/
namespace BST
namespace TMap
open AliasLaws BSTMap
open Spec (Order)
variable {H K V : Type} [Aliasing H] [AliasLaws H] {cfg : Cfg} {α β γ δ : Type} {s s' : TMap H K V} {p q : Ptr}

/-! ### `onNodes` and sequencing -/

theorem onNodes_bind (f : M (Nodes K V) α) (k : α → M (Nodes K V) β) :
    BSTMap.onNodes (f >>= k) = BSTMap.onNodes f >>= fun a => BSTMap.onNodes (k a) := by
  funext m
  rw [M.bind_apply]
  unfold BSTMap.onNodes
  rw [M.bind_apply]
  rcases f m.nodes with ⟨o, n⟩
  cases o <;> rfl

theorem onNodes_pure' (a : α) :
    BSTMap.onNodes (Pure.pure a : M (Nodes K V) α) = (Pure.pure a : M (BSTMap K V) α) := rfl

theorem onNodes_lift (o : Out α) :
    BSTMap.onNodes (M.lift o : M (Nodes K V) α) = (M.lift o : M (BSTMap K V) α) := rfl

theorem onNodes_loop {B : Type} (n : Nat) (body : B → M (Nodes K V) (B ⊕ α)) (b : B) :
    BSTMap.onNodes (loop n body b) = loop n (fun b => BSTMap.onNodes (body b)) b := by
  induction n generalizing b with
  | zero => rfl
  | succ n ih =>
    rw [loop_succ, loop_succ, onNodes_bind]
    refine bind_congr fun x => ?_
    cases x with
    | inl b' => exact ih b'
    | inr a => rfl

theorem Sim.readM {f : M (TMap H K V) α} {k : InnerNode K V → M (BSTMap K V) β}
    {R : α → β → TMap H K V → Prop}
    (h : ∀ v, s.map.nodes.view p = some v → Sim cfg f s (k v s.map) R) :
    Sim cfg f s ((BSTMap.onNodes (M.read fun n => n.getUnchecked p) >>= k) s.map) R := by
  rw [M.bind_apply]
  unfold BSTMap.onNodes
  rw [M.read_apply, Slab.getUnchecked_eq]
  cases hv : s.map.nodes.view p with
  | none => exact trivial
  | some v => exact h v hv

theorem Sim.assign {n : NodeRef} {f : InnerNode K V → InnerNode K V}
    {f' : Unit → M (TMap H K V) α} {k : Unit → M (BSTMap K V) β} {R : α → β → TMap H K V → Prop}
    (hk : OK cfg s) (hn : Held true s n) (hp : n.ptr = p)
    (h : ∀ s', OK cfg s' → Held true s' n ∧ Others p s s' →
      BSTMap.onNodes (Slab.updateUnchecked p f) s.map = (.ok (), s'.map) →
      Sim cfg (f' ()) s' (k () s'.map) R) :
    Sim cfg (TMap.assign n f >>= f') s ((BSTMap.onNodes (Slab.updateUnchecked p f) >>= k) s.map) R := by
  subst hp
  cases hv : s.map.nodes.view n.ptr with
  | none =>
    rw [M.bind_apply]
    have : Slab.updateUnchecked n.ptr f s.map.nodes = (.ub, s.map.nodes) := by
      unfold Slab.updateUnchecked
      rw [M.read_bind, Slab.getUnchecked_eq, hv]; rfl
    rw [onNodes_ok this]
    exact trivial
  | some v =>
    obtain ⟨s', e, e', hk', hh⟩ := assign_ok hk hn hv f
    rw [M.bind_ok e']
    exact .step e (h s' hk' hh e')

theorem Sim.assign_last {n : NodeRef} {f : InnerNode K V → InnerNode K V}
    {R : Unit → Unit → TMap H K V → Prop} (hk : OK cfg s) (hn : Held true s n) (hp : n.ptr = p)
    (h : ∀ s', Held true s' n ∧ Others p s s' → R () () s') :
    Sim cfg (TMap.assign n f) s (BSTMap.onNodes (Slab.updateUnchecked p f) s.map) R := by
  rw [← bind_pure (TMap.assign n f), ← bind_pure (BSTMap.onNodes (Slab.updateUnchecked p f))]
  exact .assign hk hn hp fun s' hk' hh _ => .pure hk' rfl (h s' hh)

/-- Functions of the arena. -/
theorem onItems_sim {f : M (Tagged H (Entry (InnerNode K V))) α}
    {g : M (Arena (Entry (InnerNode K V))) α} {o : Out α} {t : Tagged H (Entry (InnerNode K V))}
    (e : f s.items = (o, t)) (e' : g s.map.nodes.items = (o, t.arena)) (hg : t.Good cfg) :
    Sim cfg (onItems f) s (BSTMap.onNodes (Slab.onItems g) s.map)
      (fun a b s' => a = b ∧ s'.items = t) := by
  rw [onNodes_ok (Slab.onItems_ok e')]
  unfold Sim onItems
  rw [e]
  cases o with
  | ok a => exact ⟨a, _, rfl, rfl, hg, rfl, rfl⟩
  | panic => exact ⟨_, rfl, rfl, hg⟩
  | abort => exact ⟨_, rfl, rfl, hg⟩
  | ub => exact trivial
  | diverge => exact trivial

/-- Plain steps that change the contents of one slot. -/
theorem onNodes_sim {g : M (Nodes K V) α} {o : Out α} {n : Nodes K V} {e : Entry (InnerNode K V)}
    (hk : OK cfg s) (hp : (s.items.arena.cell p).isSome) (eg : g s.map.nodes = (o, n))
    (hn : n.items = s.map.nodes.items.poke p (some e) ∨ n.items = s.map.nodes.items) :
    Sim cfg (TMap.onNodes g) s (BSTMap.onNodes g s.map) (fun a b s' => a = b ∧ s'.heap = s.heap) := by
  have eg' := onNodes_ok (m := s.map) eg
  have hok : OK cfg { s with map := { s.map with nodes := n } } := by
    rcases hn with hn | hn
    · exact OK.poke hk hp e hn
    · unfold OK items
      simp only [hn]
      exact hk
  rw [eg']
  unfold Sim TMap.onNodes onMap
  rw [eg']
  cases o with
  | ok a => exact ⟨a, _, rfl, rfl, hok, rfl, rfl⟩
  | panic => exact ⟨_, rfl, rfl, hok⟩
  | abort => exact ⟨_, rfl, rfl, hok⟩
  | ub => exact trivial
  | diverge => exact trivial

/-! ### The slab -/

/-- References to live values stay usable. -/
def Lives (s s' : TMap H K V) : Prop :=
  ∀ ex n x, s.map.nodes.view n.ptr = some x → Held ex s n → Held ex s' n

theorem push_sim (hk : OK cfg s) (v : InnerNode K V) :
    Sim cfg (TMap.push cfg v) s (BSTMap.onNodes (Slab.push cfg v) s.map)
      (fun a b s' => a = b ∧ Lives s s') := by
  unfold TMap.push
  refine .step (a := s) (s' := s) rfl ?_
  cases hh : s.map.nodes.freeHead with
  | none =>
    simp only
    have hpl : BSTMap.onNodes (Slab.push cfg v) s.map =
        BSTMap.onNodes (Slab.onItems (Arena.alloc cfg (.value v))) s.map := by
      unfold BSTMap.onNodes Slab.push
      rw [M.get_bind, hh]
    rw [hpl]
    rcases Tagged.alloc_keeps hk (.value v) with ⟨p, t, e, hkeep, _, _, e'⟩ | ⟨e, e'⟩ | ⟨e, e'⟩
    · refine (onItems_sim e e' hkeep.good).mono fun a b s' _ _ h => ⟨h.1, ?_⟩
      intro ex n x hx hn
      refine Held.keep hn ?_
      have : s'.heap = t.heap := by rw [← h.2]; rfl
      rw [this]
      exact hkeep.keep n.ptr (cell_of_view hx)
    · exact (onItems_sim e e' hk).mono fun a b s' _ hb h => by
        rw [onNodes_ok (Slab.onItems_ok e')] at hb; cases hb
    · exact (onItems_sim e e' hk).mono fun a b s' _ hb h => by
        rw [onNodes_ok (Slab.onItems_ok e')] at hb; cases hb
  | some head =>
    simp only
    cases hc : s.map.nodes.items.cell head with
    | none =>
      have : Slab.push cfg v s.map.nodes = (.ub, s.map.nodes) := by
        unfold Slab.push
        rw [M.get_bind, hh]
        simp only
        rw [M.read_bind, Arena.getUnchecked, hc]; rfl
      rw [onNodes_ok this]; exact trivial
    | some ent =>
      have hsome : (s.items.arena.cell head).isSome := by
        show (s.map.nodes.items.cell head).isSome
        rw [hc]; rfl
      have hget : s.map.nodes.items.getUnchecked head = .ok ent := by
        rw [Arena.getUnchecked, hc]
      cases ent with
      | value w =>
        have : Slab.push cfg v s.map.nodes = (.ub, s.map.nodes) := by
          unfold Slab.push
          rw [M.get_bind, hh]
          simp only
          rw [M.read_bind, hget, M.lift_ok_bind]; rfl
        rw [onNodes_ok this]; exact trivial
      | dead =>
        have : Slab.push cfg v s.map.nodes = (.ub, s.map.nodes) := by
          unfold Slab.push
          rw [M.get_bind, hh]
          simp only
          rw [M.read_bind, hget, M.lift_ok_bind]; rfl
        rw [onNodes_ok this]; exact trivial
      | free next =>
        obtain ⟨t, s1, e1, hm1, hk1, hh1, ho1⟩ := getRawMut_ok hk hsome
        obtain ⟨s2, e2, hm2, hk2, hh2, ho2, _⟩ := accessRead_ok (n := ⟨head, t⟩) hk1 hh1
        have hm2' : s2.map = s.map := hm2.trans hm1
        have hlive : ∀ n : NodeRef, ∀ x, s.map.nodes.view n.ptr = some x → n.ptr ≠ head := by
          intro n x hx he
          rw [he, Slab.view, hc] at hx; cases hx
        refine .step e1 (.step e2 (.step (a := .free next) (s' := s2) ?_
          (.step (a := next) (s' := s2) rfl (.step (a := ())
            (s' := { s2 with map := { s.map with nodes := { s.map.nodes with freeHead := next } } })
            ?_ ?_))))
        · rw [M.read_apply, hm2', hget]
        · unfold TMap.onNodes onMap BSTMap.onNodes
          rw [M.modify_apply, hm2']
        -- the count of free slots
        have hpl : BSTMap.onNodes (Slab.push cfg v) s.map =
            BSTMap.onNodes (do
              let n ← M.lift (subU cfg s.map.nodes.freeLen 1)
              M.modify fun s => { s with freeLen := n }
              Slab.onItems (Arena.setUnchecked head (.value v))
              pure head) { s.map with nodes := { s.map.nodes with freeHead := next } } := by
          unfold BSTMap.onNodes Slab.push
          rw [M.get_bind, hh]
          simp only
          rw [M.read_bind, hget, M.lift_ok_bind]
          rfl
        rw [hpl]
        cases hsub : subU cfg s.map.nodes.freeLen 1 with
        | ok n =>
          obtain ⟨h', e3, hk3, _, ho3⟩ := accessWrite_ok (n := ⟨head, t⟩) hk2 hh2
          have hset : Arena.setUnchecked head (.value v) s.map.nodes.items =
              (.ok (), s.map.nodes.items.poke head (some (.value v))) :=
            Arena.setUnchecked_ok (by rw [hc]; rfl) _
          refine .step (a := n) rfl ?_
          refine .step (a := ())
            (s' := { s2 with map := { s.map with nodes := { s.map.nodes with freeHead := next, freeLen := n } } })
            rfl ?_
          refine .step (a := ())
            (s' := { s2 with map := { s.map with nodes := { s.map.nodes with freeHead := next, freeLen := n } }, heap := h' })
            ?_ ?_
          · have e3' : access true t head s2 = (.ok (), { s2 with heap := h' }) := e3
            unfold access at e3' ⊢
            unfold onItems at e3' ⊢
            have hi : ({ s2 with map := { s.map with nodes := { s.map.nodes with freeHead := next, freeLen := n } } } : TMap H K V).items = s2.items := by
              unfold items
              rw [hm2']
            rw [hi]
            rcases hx : Tagged.onHeap (Aliasing.access true t head) s2.items with ⟨o, t'⟩
            rw [hx] at e3'
            simp only [Prod.mk.injEq] at e3'
            obtain ⟨rfl, e4⟩ := e3'
            have h1 : t'.arena = s.map.nodes.items := by
              have := congrArg (fun s : TMap H K V => s.map.nodes.items) e4
              simp only at this
              rw [this, hm2']
            have h2 : t'.tags = s2.tags := congrArg TMap.tags e4
            have h3 : t'.heap = h' := congrArg TMap.heap e4
            simp only [h1, h2, h3]
          · have hon := Slab.onItems_ok (s := { s.map.nodes with freeHead := next, freeLen := n }) hset
            refine .step (a := ()) (s' := { s2 with
              map := { s.map with nodes := { s.map.nodes with
                freeHead := next, freeLen := n,
                items := s.map.nodes.items.poke head (some (.value v)) } }, heap := h' }) ?_ ?_
            · unfold TMap.onNodes onMap
              simp only
              rw [onNodes_ok hon]
            · have hres : BSTMap.onNodes (do
                  let n ← M.lift (.ok n)
                  M.modify fun s => { s with freeLen := n }
                  Slab.onItems (Arena.setUnchecked head (.value v))
                  pure head) { s.map with nodes := { s.map.nodes with freeHead := next } } =
                  (.ok head, { s.map with nodes := { s.map.nodes with
                    freeHead := next, freeLen := n,
                    items := s.map.nodes.items.poke head (some (.value v)) } }) := by
                refine onNodes_ok ?_
                rw [M.lift_ok_bind, M.modify_bind, M.bind_ok hon]; rfl
              rw [hres]
              have hsome2 : (s2.items.arena.cell head).isSome := by
                show (s2.map.nodes.items.cell head).isSome
                rw [hm2']; exact hsome
              refine .pure ?_ rfl ⟨rfl, ?_⟩
              · refine OK.poke (s := { s2 with heap := h' }) hk3 hsome2 (.value v) ?_
                simp only [hm2']
              · intro ex n' x hx hn
                have hne := hlive n' x hx
                exact Held.keep (ho2 ex n' hne (ho1 ex n' hne hn)) (ho3 _ hne)
        | panic =>
          have hk4 : OK cfg { s2 with map := { s.map with nodes := { s.map.nodes with freeHead := next } } } := by
            have := hk2
            unfold OK items at this ⊢
            rw [hm2'] at this
            exact this
          exact ⟨_, rfl, rfl, hk4⟩
        | abort =>
          have hk4 : OK cfg { s2 with map := { s.map with nodes := { s.map.nodes with freeHead := next } } } := by
            have := hk2
            unfold OK items at this ⊢
            rw [hm2'] at this
            exact this
          exact ⟨_, rfl, rfl, hk4⟩
        | ub => exact trivial
        | diverge => exact trivial

theorem remove_sim (hk : OK cfg s) (p : Ptr) :
    Sim cfg (TMap.remove cfg p) s (BSTMap.onNodes (Slab.remove cfg p) s.map)
      (fun a b _ => a = b) := by
  cases hc : s.map.nodes.items.cell p with
  | none =>
    have : Slab.remove cfg p s.map.nodes = (.ub, s.map.nodes) := by
      unfold Slab.remove
      rw [M.get_bind, M.read_bind, Arena.getUnchecked, hc]; rfl
    rw [onNodes_ok this]; exact trivial
  | some ent =>
    have hsome : (s.items.arena.cell p).isSome := by
      show (s.map.nodes.items.cell p).isSome
      rw [hc]; rfl
    have hget : s.map.nodes.items.getUnchecked p = .ok ent := by
      rw [Arena.getUnchecked, hc]
    obtain ⟨t, s1, e1, hm1, hk1, hh1, ho1⟩ := getRawMut_ok hk hsome
    obtain ⟨s2, e2, hm2, hk2, hh2, ho2, _⟩ := accessRead_ok (n := ⟨p, t⟩) hk1 hh1
    obtain ⟨h', e3, hk3, _, ho3⟩ := accessWrite_ok (n := ⟨p, t⟩) hk2 hh2
    have hm2' : s2.map = s.map := hm2.trans hm1
    unfold TMap.remove
    refine .step e1 (.step e2 (.step e3 ?_))
    have hset : Arena.setUnchecked p (.free s.map.nodes.freeHead) s.map.nodes.items =
        (.ok (), s.map.nodes.items.poke p (some (.free s.map.nodes.freeHead))) :=
      Arena.setUnchecked_ok (by rw [hc]; rfl) _
    rcases hr : Slab.remove cfg p s.map.nodes with ⟨o, n⟩
    have hn : n.items = s.map.nodes.items.poke p (some (.free s.map.nodes.freeHead)) := by
      unfold Slab.remove at hr
      rw [M.get_bind, M.read_bind, hget, M.lift_ok_bind, M.bind_ok (Slab.onItems_ok hset),
        M.modify_bind] at hr
      cases ha : addU cfg s.map.nodes.freeLen 1 with
      | ok c =>
        rw [ha, M.lift_ok_bind, M.modify_bind, M.lift_apply] at hr
        rw [← (Prod.mk.inj hr).2]
      | _ => rw [ha] at hr; rw [← (Prod.mk.inj hr).2]
    have := onNodes_sim (s := { s2 with heap := h' }) (p := p) (g := Slab.remove cfg p) (o := o)
      (n := n) hk3 (by show (s2.map.nodes.items.cell p).isSome; rw [hm2', hc]; rfl)
      (by show Slab.remove cfg p s2.map.nodes = _; rw [hm2', hr])
      (.inl (by show _ = s2.map.nodes.items.poke p _; rw [hm2']; exact hn))
    have h2 : BSTMap.onNodes (Slab.remove cfg p) s.map = BSTMap.onNodes (Slab.remove cfg p) s2.map := by
      rw [hm2']
    rw [h2]
    exact this.mono fun a b s' _ _ h => h.1

/-! ### Exclusive handles -/

def RelM (s : TMap H K V) : Option NodeRef → Option NodeMut → Prop
  | none, none => True
  | some n, some x => n.ptr = x.ptr ∧ Held true s n
  | _, _ => False

theorem Sim.derefM {ex : Bool} {n : NodeRef} {f' : InnerNode K V → M (TMap H K V) α}
    {k : InnerNode K V → M (BSTMap K V) β} {R : α → β → TMap H K V → Prop} (hk : OK cfg s)
    (hn : Held ex s n) (hp : n.ptr = p)
    (h : ∀ v s', s'.map = s.map → s'.map.nodes.view p = some v → OK cfg s' → Held ex s' n →
      Shared s s' → Sim cfg (f' v) s' (k v s'.map) R) :
    Sim cfg (deref n >>= f') s
      ((BSTMap.onNodes (M.read fun n => n.getUnchecked p) >>= k) s.map) R := by
  refine .readM fun v hv => ?_
  obtain ⟨s1, e, hm1, hk1, hh1, _, hs⟩ := deref_ok hk hn (v := v) (by rw [hp]; exact hv)
  have := h v s1 hm1 (by rw [hm1]; exact hv) hk1 hh1 hs
  rw [hm1] at this
  exact .step e this

theorem nodeOptM_sim (hk : OK cfg s) (o : Option Ptr) :
    Sim cfg (nodeOpt true o) s (BSTMap.onNodes (NodeMut.newOpt o) s.map)
      (fun a b s' => RelM s' a b ∧ s'.map = s.map) := by
  cases o with
  | none => exact .pure hk rfl ⟨trivial, rfl⟩
  | some p =>
    simp only [nodeOpt, NodeMut.newOpt, NodeMut.new, onNodes_bind, bind_assoc, pure_bind]
    refine .readM fun v hv => ?_
    obtain ⟨n, s', e, hn, hm', hk', hh, _⟩ := node_ok true hk hv
    exact .step e (.pure hk' hm' ⟨⟨hn, hh⟩, hm'⟩)

theorem rootMut_sim (hk : OK cfg s) {m : BSTMap K V} (hm : s.map = m) :
    Sim cfg (nodeOpt true s.map.root) s (BSTMap.rootMut m)
      (fun a b s' => RelM s' a b ∧ s'.map = s.map) := by
  subst hm
  unfold BSTMap.rootMut
  rw [M.get_bind]
  exact nodeOptM_sim hk _

theorem leftM_sim (hk : OK cfg s) {n : NodeRef} {x : NodeMut} (hp : n.ptr = x.ptr)
    (hn : Held true s n) : Sim cfg (left true n) s (BSTMap.onNodes x.left s.map)
      (fun a b s' => RelM s' a b ∧ s'.map = s.map) := by
  simp only [left, NodeMut.left, NodeMut.deref, onNodes_bind]
  refine .derefM hk hn hp fun v s1 hm1 _ hk1 _ _ => ?_
  exact (nodeOptM_sim hk1 _).mono fun _ _ _ _ _ h => ⟨h.1, h.2.trans hm1⟩

theorem rightM_sim (hk : OK cfg s) {n : NodeRef} {x : NodeMut} (hp : n.ptr = x.ptr)
    (hn : Held true s n) : Sim cfg (right true n) s (BSTMap.onNodes x.right s.map)
      (fun a b s' => RelM s' a b ∧ s'.map = s.map) := by
  simp only [right, NodeMut.right, NodeMut.deref, onNodes_bind]
  refine .derefM hk hn hp fun v s1 hm1 _ hk1 _ _ => ?_
  exact (nodeOptM_sim hk1 _).mono fun _ _ _ _ _ h => ⟨h.1, h.2.trans hm1⟩

theorem pushLeft_sim (hk : OK cfg s) {n : NodeRef} {x : NodeMut} (hp : n.ptr = x.ptr)
    (hn : Held true s n) {v : InnerNode K V} (hv : s.map.nodes.view x.ptr = some v) (key : K)
    (value : V) : Sim cfg (pushLeft cfg n key value) s
      (BSTMap.onNodes (x.pushLeft cfg key value) s.map) (fun _ _ _ => True) := by
  simp only [pushLeft, NodeMut.pushLeft, NodeMut.setLeft, onNodes_bind, onNodes_pure']
  refine .bindM (push_sim hk _) fun a b s1 _ hk1 h => ?_
  obtain ⟨rfl, hl⟩ := h
  exact .assign hk1 (hl true n v (by rw [hp]; exact hv) hn) hp fun s2 hk2 _ _ =>
    .pure hk2 rfl trivial

theorem pushRight_sim (hk : OK cfg s) {n : NodeRef} {x : NodeMut} (hp : n.ptr = x.ptr)
    (hn : Held true s n) {v : InnerNode K V} (hv : s.map.nodes.view x.ptr = some v) (key : K)
    (value : V) : Sim cfg (pushRight cfg n key value) s
      (BSTMap.onNodes (x.pushRight cfg key value) s.map) (fun _ _ _ => True) := by
  simp only [pushRight, NodeMut.pushRight, NodeMut.setRight, onNodes_bind, onNodes_pure']
  refine .bindM (push_sim hk _) fun a b s1 _ hk1 h => ?_
  obtain ⟨rfl, hl⟩ := h
  exact .assign hk1 (hl true n v (by rw [hp]; exact hv) hn) hp fun s2 hk2 _ _ =>
    .pure hk2 rfl trivial

theorem replaceValue_sim (hk : OK cfg s) {n : NodeRef} {x : NodeMut} (hp : n.ptr = x.ptr)
    (hn : Held true s n) (w : V) : Sim cfg (replaceValue n w) s
      (BSTMap.onNodes (x.replaceValue w) s.map) (fun a b _ => a = b) := by
  simp only [replaceValue, NodeMut.replaceValue, NodeMut.deref, onNodes_bind, onNodes_pure']
  refine .derefM hk hn hp fun v s1 hm1 _ hk1 hh1 _ => ?_
  exact .assign hk1 hh1 hp fun s2 hk2 _ _ => .pure hk2 rfl rfl

theorem swapValue_sim (hk : OK cfg s) {n : NodeRef} (hp : n.ptr = p)
    (hn : Held true s n) (w : V) : Sim cfg (replaceValue n w) s
      (BSTMap.onNodes (swapValue p w) s.map) (fun a b _ => a = b) :=
  replaceValue_sim (x := ⟨p⟩) hk hp hn w

/-! ### `insert`, `get_mut`, `get_entry_mut` -/

theorem insert_sim (hk : OK cfg s) (c : Probe K) (key : K) (value : V) :
    Sim cfg (TMap.insert cfg c key value) s (BSTMap.insert cfg c key value s.map)
      (fun a b _ => a = b) := by
  unfold TMap.insert BSTMap.insert
  rw [M.get_bind]
  refine .step (a := s) (s' := s) rfl ?_
  refine .bindM (rootMut_sim hk rfl) fun a b s1 _ hk1 h => ?_
  obtain ⟨hr, _⟩ := h
  match a, b, hr with
  | none, none, _ =>
    refine .bindM (push_sim hk1 _) fun p p' s2 _ hk2 h => ?_
    obtain ⟨rfl, _⟩ := h
    rw [M.modify_bind]
    exact .step (a := ()) (s' := { s2 with map := { s2.map with root := some p } }) rfl
      (.pure hk2 rfl rfl)
  | some n, some x, hr =>
    refine .loopM (I := fun st st' s => st.1 = st'.1 ∧ RelM s st.2 st'.2)
      (fun st st' s2 hk2 hi => ?_) _ hk1 ⟨rfl, hr⟩
    obtain ⟨i, o⟩ := st
    obtain ⟨i', o'⟩ := st'
    obtain ⟨rfl, hr⟩ := hi
    simp only at hr
    match o, o', hr with
    | none, none, _ => exact .pure hk2 rfl rfl
    | some n, some x, hr =>
      obtain ⟨hp, hh⟩ := hr
      simp only [NodeMut.key, NodeMut.hasLeft, NodeMut.hasRight, NodeMut.deref, onNodes_bind,
        onNodes_pure', bind_assoc, pure_bind]
      refine .derefM hk2 hh hp fun v s3 _ _ hk3 hh3 _ => ?_
      cases hc : c i v.key with
      | none => exact .panic hk3 rfl
      | some o =>
        cases o with
        | eq =>
          refine .bindM (replaceValue_sim hk3 hp hh3 value) fun a b s4 _ hk4 h => ?_
          subst h
          exact .pure hk4 rfl rfl
        | lt =>
          refine .derefM hk3 hh3 hp fun v s4 _ hv4 hk4 hh4 _ => ?_
          cases hl : v.left.isSome with
          | false =>
            exact .bindM (pushLeft_sim hk4 hp hh4 hv4 key value) fun a b s5 _ hk5 _ =>
              .pure hk5 rfl rfl
          | true =>
            exact .bindM (leftM_sim hk4 hp hh4) fun a b s5 _ hk5 h => .pure hk5 rfl ⟨rfl, h.1⟩
        | gt =>
          refine .derefM hk3 hh3 hp fun v s4 _ hv4 hk4 hh4 _ => ?_
          cases hl : v.right.isSome with
          | false =>
            exact .bindM (pushRight_sim hk4 hp hh4 hv4 key value) fun a b s5 _ hk5 _ =>
              .pure hk5 rfl rfl
          | true =>
            exact .bindM (rightM_sim hk4 hp hh4) fun a b s5 _ hk5 h => .pure hk5 rfl ⟨rfl, h.1⟩

/-- What `get_mut` found. -/
def RelP (s : TMap H K V) : Option NodeRef → Option Ptr → Prop
  | none, none => True
  | some n, some p => n.ptr = p ∧ Held true s n
  | _, _ => False

/-- What `get_entry_mut` found. -/
def RelE (s : TMap H K V) : Option NodeRef → Option (K × Ptr) → Prop
  | none, none => True
  | some n, some e => n.ptr = e.2 ∧ Held true s n ∧
      ∃ x, s.map.nodes.view e.2 = some x ∧ x.key = e.1
  | _, _ => False

theorem getMut_sim (hk : OK cfg s) (c : Probe K) :
    Sim cfg (TMap.getMut c) s (BSTMap.getMut c s.map) (fun a b s' => RelP s' a b) := by
  unfold TMap.getMut descend BSTMap.getMut
  rw [M.get_bind]
  refine .step (a := s) (s' := s) rfl ?_
  refine .bindM (rootMut_sim hk rfl) fun a b s1 _ hk1 h => ?_
  refine .loopM (I := fun st st' s => st.1 = st'.1 ∧ RelM s st.2 st'.2)
    (fun st st' s2 hk2 hi => ?_) _ hk1 ⟨rfl, h.1⟩
  obtain ⟨i, o⟩ := st
  obtain ⟨i', o'⟩ := st'
  obtain ⟨rfl, hr⟩ := hi
  simp only at hr
  match o, o', hr with
  | none, none, _ => exact .pure hk2 rfl trivial
  | some n, some x, hr =>
    obtain ⟨hp, hh⟩ := hr
    simp only [NodeMut.key, NodeMut.valueMut, NodeMut.deref, onNodes_bind,
      onNodes_pure', bind_assoc, pure_bind]
    refine .derefM hk2 hh hp fun v s3 _ _ hk3 hh3 _ => ?_
    cases hc : c i v.key with
    | none => exact .panic hk3 rfl
    | some o =>
      cases o with
      | eq => exact .readM fun v hv => .pure hk3 rfl ⟨hp, hh3⟩
      | lt => exact .bindM (leftM_sim hk3 hp hh3) fun a b s5 _ hk5 h => .pure hk5 rfl ⟨rfl, h.1⟩
      | gt => exact .bindM (rightM_sim hk3 hp hh3) fun a b s5 _ hk5 h => .pure hk5 rfl ⟨rfl, h.1⟩

theorem getEntryMut_sim (hk : OK cfg s) (c : Probe K) :
    Sim cfg (TMap.getMut c) s (BSTMap.getEntryMut c s.map) (fun a b s' => RelE s' a b) := by
  unfold TMap.getMut descend BSTMap.getEntryMut
  rw [M.get_bind]
  refine .step (a := s) (s' := s) rfl ?_
  refine .bindM (rootMut_sim hk rfl) fun a b s1 _ hk1 h => ?_
  refine .loopM (I := fun st st' s => st.1 = st'.1 ∧ RelM s st.2 st'.2)
    (fun st st' s2 hk2 hi => ?_) _ hk1 ⟨rfl, h.1⟩
  obtain ⟨i, o⟩ := st
  obtain ⟨i', o'⟩ := st'
  obtain ⟨rfl, hr⟩ := hi
  simp only at hr
  match o, o', hr with
  | none, none, _ => exact .pure hk2 rfl trivial
  | some n, some x, hr =>
    obtain ⟨hp, hh⟩ := hr
    simp only [NodeMut.key, NodeMut.intoEntryMut, NodeMut.deref, onNodes_bind,
      onNodes_pure', bind_assoc, pure_bind]
    refine .derefM hk2 hh hp fun v s3 _ _ hk3 hh3 _ => ?_
    cases hc : c i v.key with
    | none => exact .panic hk3 rfl
    | some o =>
      cases o with
      | eq => exact .readM fun v hv => .pure hk3 rfl ⟨hp, hh3, v, hv, rfl⟩
      | lt => exact .bindM (leftM_sim hk3 hp hh3) fun a b s5 _ hk5 h => .pure hk5 rfl ⟨rfl, h.1⟩
      | gt => exact .bindM (rightM_sim hk3 hp hh3) fun a b s5 _ hk5 h => .pure hk5 rfl ⟨rfl, h.1⟩

theorem goMut_sim (path : List Bool) (hk : OK cfg s) {a : Option NodeRef} {b : Option NodeMut}
    (hr : RelM s a b) : Sim cfg (goRef true path a) s (goMut path b s.map)
      (fun a b s' => RelM s' a b) := by
  induction path generalizing s a b with
  | nil => exact .pure hk rfl hr
  | cons d path ih =>
    match a, b, hr with
    | none, none, _ => exact .pure hk rfl trivial
    | some n, some x, hr =>
      cases d with
      | true =>
        simp only [goRef, goMut, if_true]
        exact .bindM (rightM_sim hk hr.1 hr.2) fun _ _ _ _ hk' h => ih hk' h.1
      | false =>
        simp only [goRef, goMut, Bool.false_eq_true, if_false]
        exact .bindM (leftM_sim hk hr.1 hr.2) fun _ _ _ _ hk' h => ih hk' h.1

theorem nodeMutAt_sim (path : List Bool) (hk : OK cfg s) :
    Sim cfg (nodeRefAt true path) s (nodeMutAt path s.map) (fun a b s' => RelM s' a b) := by
  unfold nodeRefAt nodeMutAt
  refine .step (a := s) (s' := s) rfl ?_
  exact .bindM (rootMut_sim hk rfl) fun _ _ _ _ hk' h => goMut_sim path hk' h.1

/-! ### `remove_entry` -/

theorem Sim.nodeM {ex : Bool} {f' : NodeRef → M (TMap H K V) α} {r : Out β × BSTMap K V}
    {R : α → β → TMap H K V → Prop} (hk : OK cfg s) {v : InnerNode K V}
    (hv : s.map.nodes.view p = some v)
    (h : ∀ n s', n.ptr = p → s'.map = s.map → OK cfg s' → Held ex s' n → Sim cfg (f' n) s' r R) :
    Sim cfg (node ex p >>= f') s r R := by
  obtain ⟨n, s', e, hn, hm', hk', hh, _⟩ := node_ok ex hk hv
  exact .step e (h n s' hn hm' hk' hh)

/-- A write through a new reference. -/
theorem Sim.nodeAssign {f : InnerNode K V → InnerNode K V} {f' : Unit → M (TMap H K V) α}
    {k : Unit → M (BSTMap K V) β} {R : α → β → TMap H K V → Prop} (hk : OK cfg s)
    (h : ∀ s', OK cfg s' → Sim cfg (f' ()) s' (k () s'.map) R) :
    Sim cfg (node true p >>= fun n => TMap.assign n f >>= f') s
      ((BSTMap.onNodes (Slab.updateUnchecked p f) >>= k) s.map) R := by
  cases hv : s.map.nodes.view p with
  | none =>
    rw [M.bind_apply]
    have : Slab.updateUnchecked p f s.map.nodes = (.ub, s.map.nodes) := by
      unfold Slab.updateUnchecked
      rw [M.read_bind, Slab.getUnchecked_eq, hv]; rfl
    rw [onNodes_ok this]
    exact trivial
  | some v =>
    refine .nodeM hk hv fun n s1 hn hm1 hk1 hh1 => ?_
    rw [← hm1]
    exact .assign hk1 hh1 hn fun s2 hk2 _ _ => h s2 hk2

theorem findSuccM_sim (hk : OK cfg s) (parent succ : Ptr) :
    Sim cfg (TMap.findSucc parent succ) s
      (BSTMap.onNodes (M.get >>= fun n : Nodes K V => M.lift (BSTMap.findSucc n parent succ)) s.map)
      (fun a b _ => a = b) := by
  have : BSTMap.onNodes (M.get >>= fun n : Nodes K V =>
      M.lift (BSTMap.findSucc n parent succ)) s.map =
      (BSTMap.findSucc s.map.nodes parent succ, s.map) := by
    unfold BSTMap.onNodes
    rw [M.get_bind]; rfl
  rw [this]
  exact findSucc_sim rfl hk parent succ

theorem replacement_sim (hk : OK cfg s) (p : Ptr) :
    Sim cfg (TMap.replacement p) s (BSTMap.onNodes (BSTMap.replacement p) s.map)
      (fun a b _ => a = b) := by
  unfold TMap.replacement BSTMap.replacement
  rw [onNodes_bind]
  refine .readM fun v hv => .nodeM hk hv fun n s1 hn hm1 hk1 hh1 => ?_
  obtain ⟨s2, e2, hm2, hk2, _⟩ := deref_ok hk1 hh1 (v := v) (by rw [hn, hm1]; exact hv)
  refine .step e2 ?_
  have hm2' : s2.map = s.map := hm2.trans hm1
  rw [← hm2']
  cases hl : v.left with
  | none =>
    cases v.right with
    | none => exact .pure hk2 rfl rfl
    | some _ => exact .pure hk2 rfl rfl
  | some lp =>
    cases hrt : v.right with
    | none => exact .pure hk2 rfl rfl
    | some rp =>
      simp only
      rw [onNodes_bind]
      refine .readM fun y hy => .nodeM hk2 hy fun n3 s3 hn3 hm3 hk3 hh3 => ?_
      obtain ⟨s4, e4, hm4, hk4, _⟩ := deref_ok hk3 hh3 (v := y) (by rw [hn3, hm3]; exact hy)
      refine .step e4 ?_
      have hm4' : s4.map = s2.map := hm4.trans hm3
      rw [← hm4']
      have last : ∀ (s5 : TMap H K V) (succ : Ptr), OK cfg s5 →
          Sim cfg (do
            let succNode ← node true succ
            TMap.assign succNode fun x => { x with left := some lp }
            pure (some succ)) s5
            ((do
              BSTMap.onNodes (Slab.updateUnchecked succ fun x : InnerNode K V =>
                { x with left := some lp })
              pure (some succ) : M (BSTMap K V) (Option Ptr)) s5.map) (fun a b _ => a = b) :=
        fun s5 succ hk5 => .nodeAssign hk5 fun s6 hk6 => .pure hk6 rfl rfl
      cases hyl : y.left with
      | none =>
        simp only [pure_bind, onNodes_bind]
        exact last s4 rp hk4
      | some rcl =>
        simp only [onNodes_bind, bind_assoc, pure_bind]
        have hf := findSuccM_sim hk4 rp rcl
        rw [onNodes_bind] at hf
        rw [← bind_assoc (x := BSTMap.onNodes M.get)]
        refine .bindM hf fun a b s5 _ hk5 hab => ?_
        subst hab
        obtain ⟨sp, succ⟩ := a
        simp only
        refine .readM fun z hz => .nodeM hk5 hz fun n6 s6 hn6 hm6 hk6 hh6 => ?_
        obtain ⟨s7, e7, hm7, hk7, _⟩ := deref_ok hk6 hh6 (v := z) (by rw [hn6, hm6]; exact hz)
        refine .step e7 ?_
        have hm7' : s7.map = s5.map := hm7.trans hm6
        rw [← hm7']
        exact .nodeAssign hk7 fun s8 hk8 => .nodeAssign hk8 fun s9 hk9 => last s9 succ hk9

theorem removeEntry_sim (hk : OK cfg s) (c : Probe K) :
    Sim cfg (TMap.removeEntry cfg c) s (BSTMap.removeEntry cfg c s.map) (fun a b _ => a = b) := by
  unfold TMap.removeEntry BSTMap.removeEntry
  refine .bindM (R := fun a b _ => a = b) (findWithParent_sim rfl hk c) fun a b s1 _ hk1 hab => ?_
  subst hab
  obtain ⟨parent, current⟩ := a
  simp only
  cases current with
  | none => exact .pure hk1 rfl rfl
  | some p =>
    refine .bindM (replacement_sim hk1 p) fun a b s2 _ hk2 hab => ?_
    subst hab
    have last : ∀ s3 : TMap H K V, OK cfg s3 → Sim cfg (do
        let x ← TMap.remove cfg p
        pure (some (x.key, x.value))) s3 ((do
        let x ← BSTMap.onNodes (Slab.remove cfg p)
        pure (some (x.key, x.value)) : M (BSTMap K V) (Option (K × V))) s3.map)
        (fun a b _ => a = b) := fun s3 hk3 =>
      .bindM (remove_sim hk3 p) fun a b s4 _ hk4 hab => by subst hab; exact .pure hk4 rfl rfl
    cases parent with
    | none =>
      simp only
      rw [M.modify_bind]
      exact .step (a := ()) (s' := { s2 with map := { s2.map with root := a } }) rfl
        (last { s2 with map := { s2.map with root := a } } hk2)
    | some pp =>
      simp only [bind_assoc]
      refine .readM fun y hy => .nodeM hk2 hy fun n3 s3 hn3 hm3 hk3 hh3 => ?_
      obtain ⟨s4, e4, hm4, hk4, hh4, _⟩ := deref_ok hk3 hh3 (v := y) (by rw [hn3, hm3]; exact hy)
      refine .step e4 ?_
      have hm4' : s4.map = s2.map := hm4.trans hm3
      rw [← hm4']
      by_cases hc : y.left = some p
      · simp only [hc, if_true]
        exact .assign hk4 hh4 hn3 fun s5 hk5 _ _ => last s5 hk5
      · simp only [hc, if_false]
        exact .assign hk4 hh4 hn3 fun s5 hk5 _ _ => last s5 hk5

/-! ### `extend`, `from_iter`, `reserve`, `shrink_to_fit` -/

theorem insertAll_sim (cmps : Nat → K → Probe K) (l : List (K × V)) (n : Nat) (hk : OK cfg s) :
    Sim cfg (TMap.insertAll cfg cmps n l) s (BSTMap.insertAll cfg cmps n l s.map)
      (fun _ _ _ => True) := by
  induction l generalizing s n with
  | nil => exact .pure hk rfl trivial
  | cons e l ih =>
    obtain ⟨k, v⟩ := e
    unfold TMap.insertAll BSTMap.insertAll
    exact .bindM (insert_sim hk _ k v) fun _ _ _ _ hk' _ => ih (n + 1) hk'

theorem reserve_sim (hk : OK cfg s) (n : Nat) :
    Sim cfg (TMap.reserve cfg n) s (BSTMap.reserve cfg n s.map) (fun a b _ => a = b) := by
  obtain ⟨o, t, e, hkeep, hrest⟩ := Tagged.reserve_keeps hk n
  exact (onItems_sim e hrest.2 hkeep.good).mono fun _ _ _ _ _ h => h.1

theorem growTo_sim (hk : OK cfg s) (n : Nat) :
    Sim cfg (TMap.growTo cfg n) s (BSTMap.onNodes (Slab.onItems (Arena.growTo cfg n)) s.map)
      (fun a b _ => a = b) := by
  obtain ⟨o, t, e, hkeep, e', _⟩ := Tagged.growTo_keeps hk n
  exact (onItems_sim e e' hkeep.good).mono fun _ _ _ _ _ h => h.1

end TMap
end BST
