import Verif.Rebuild
import Verif.Proofs.Room
import Verif.Proofs.Search
import Verif.Proofs.Content
/-!
# Lemmas for C65
-/
namespace BST
open BSTMap Tree
open Spec (BT reinsert budget)
variable {K V : Type}

/-! ### `clone` is `reinsert` -/

theorem clone_loop_reinsert {cfg : Cfg} {cmps : Nat → K → Probe K} {cloneK : K → Option K}
    {cloneV : V → Option V} (m : BSTMap K V) (fuel : Nat) :
    ∀ (ts : List (Tree K V)) (i : Nat) (mb : BSTMap K V) (u : Tree K V),
    (∀ t ∈ ts, t.Rep m.nodes.view) → forestSize ts < fuel → Shape cfg mb u →
    u.size + forestSize ts ≤ mb.capacity →
    (∃ m' w, loop fuel (cloneBody cfg cmps cloneK cloneV m) (i, ts.filterMap nodeOpt) mb =
        (.ok (), m') ∧ Shape cfg m' w ∧
        reinsert cmps cloneK cloneV i (forestPre ts) u.sh = .ok w.sh) ∨
    ∃ m', loop fuel (cloneBody cfg cmps cloneK cloneV m) (i, ts.filterMap nodeOpt) mb =
        (.panic, m') ∧ reinsert cmps cloneK cloneV i (forestPre ts) u.sh = .panic := by
  induction fuel with
  | zero => intro ts i mb u _ h; omega
  | succ fuel ih =>
    intro ts i mb u hrep hsz hs hroom
    rcases forest_head ts with ⟨h1, h2⟩ | ⟨p, l, k, v, r, ts', h1, h2, h3, h4, h5⟩
    · exact .inl ⟨mb, u, loopM_inr (by rw [h1]; rfl), hs, by rw [h2]; rfl⟩
    · have hn := hrep _ h3
      rw [h1, h2]
      have hpan : cloneK k = none ∨ cloneV v = none →
          ∃ m', loop (fuel + 1) (cloneBody cfg cmps cloneK cloneV m)
            (i, (⟨p, ⟨k, v, l.root, r.root⟩⟩ : Node K V) :: ts'.filterMap nodeOpt) mb = (.panic, m') ∧
          reinsert cmps cloneK cloneV i ((k, v) :: forestPre (l :: r :: ts')) u.sh = .panic := by
        intro hkv
        have hb : cloneBody cfg cmps cloneK cloneV m
            (i, (⟨p, ⟨k, v, l.root, r.root⟩⟩ : Node K V) :: ts'.filterMap nodeOpt) mb =
            (.panic, mb) := by
          rcases hkv with hk | hv
          · simp [cloneBody, Node.key, Node.value, hk, M.panic]
          · cases hk : cloneK k <;> simp [cloneBody, Node.key, Node.value, hk, hv, M.panic]
        refine ⟨mb, loopM_panic hb, ?_⟩
        rcases hkv with hk | hv
        · simp [reinsert, hk]
        · cases hk : cloneK k <;> simp [reinsert, hk, hv]
      cases hk : cloneK k with
      | none => exact .inr (hpan (.inl hk))
      | some k' =>
      cases hv : cloneV v with
      | none => exact .inr (hpan (.inr hv))
      | some v' =>
      have hbody : cloneBody cfg cmps cloneK cloneV m
            (i, (⟨p, ⟨k, v, l.root, r.root⟩⟩ : Node K V) :: ts'.filterMap nodeOpt) = (do
            let _ ← insert cfg (cmps i k') k' v'
            let rn ← M.lift (Node.right m.nodes ⟨p, ⟨k, v, l.root, r.root⟩⟩)
            let ln ← M.lift (Node.left m.nodes ⟨p, ⟨k, v, l.root, r.root⟩⟩)
            pure (.inl (i + 1, ln.toList ++ rn.toList ++ ts'.filterMap nodeOpt))) := by
          simp [cloneBody, Node.key, Node.value, hk, hv]
      rcases u.find_ok_or_panic (cmps i k') 0 with hf | ⟨e, he⟩
      · rcases insert_cases hs (cmps i k') k' v' with ⟨e, pn, m1, hf', _⟩ | ⟨o, hi, ho⟩
        · rw [hf] at hf'; cases hf'
        · have ho' : o = .panic := by
            rcases ho with ⟨h, _⟩ | ⟨_, h, _⟩
            · exact h
            · rw [hf] at h; cases h
          subst ho'
          refine .inr ⟨mb, loopM_panic ?_, ?_⟩
          · rw [hbody, M.bind_panic hi]
          · simp only [reinsert, hk, hv, find_search, hf]; rfl
      · obtain ⟨pn, m1, hi, hs1, _, _, hcap⟩ := insert_room hs (by omega) he k' v'
        have hih := ih (l :: r :: ts') (i + 1) m1 _ (by
            intro t ht
            rcases List.mem_cons.1 ht with rfl | ht
            · exact hn.2.1
            rcases List.mem_cons.1 ht with rfl | ht
            · exact hn.2.2
            · exact hrep _ (h4 _ ht)) (by omega) hs1 (by
            have := ins_size_le (p := pn) (k := k') (v := v') he
            omega)
        have hreb : reinsert cmps cloneK cloneV i ((k, v) :: forestPre (l :: r :: ts')) u.sh =
            reinsert cmps cloneK cloneV (i + 1) (forestPre (l :: r :: ts')) (u.ins (cmps i k') pn k' v' 0).sh := by
          rw [ins_insertBy]
          simp only [reinsert, hk, hv, find_search, he]
          rfl
        have hstep : ∀ o m', loop fuel (cloneBody cfg cmps cloneK cloneV m)
              (i + 1, (l :: r :: ts').filterMap nodeOpt) m1 = (o, m') →
            loop (fuel + 1) (cloneBody cfg cmps cloneK cloneV m)
              (i, (⟨p, ⟨k, v, l.root, r.root⟩⟩ : Node K V) :: ts'.filterMap nodeOpt) mb = (o, m') := by
          intro o m' e1
          rw [loopM_inl (b' := (i + 1, (l :: r :: ts').filterMap nodeOpt)) (s' := m1)]
          · exact e1
          · rw [hbody, M.bind_ok hi]
            have hr : Node.right m.nodes ⟨p, ⟨k, v, l.root, r.root⟩⟩ = .ok r.nodeOpt :=
              Node.newOpt_ok hn.2.2
            have hl : Node.left m.nodes ⟨p, ⟨k, v, l.root, r.root⟩⟩ = .ok l.nodeOpt :=
              Node.newOpt_ok hn.2.1
            rw [hr, hl, M.lift_ok_bind, M.lift_ok_bind, M.pure_apply]
            cases l <;> cases r <;> rfl
        rw [hreb]
        rcases hih with ⟨m', w, e1, e2, e3⟩ | ⟨m', e1, e2⟩
        · exact .inl ⟨m', w, hstep _ _ e1, e2, e3⟩
        · exact .inr ⟨m', hstep _ _ e1, e2⟩

theorem clone_reinsert {cfg : Cfg} (ha : ∀ id n, cfg.allocOk id n = true) (cmps : Nat → K → Probe K)
    (cloneK : K → Option K) (cloneV : V → Option V) {m : BSTMap K V} {t : Tree K V}
    (h : Shape cfg m t) :
    (∃ m' w, clone cfg cmps cloneK cloneV m = (.ok (), m') ∧ Shape cfg m' w ∧
        reinsert cmps cloneK cloneV 0 t.sh.pre .nil = .ok w.sh) ∨
    ∃ m', clone cfg cmps cloneK cloneV m = (.panic, m') ∧
        reinsert cmps cloneK cloneV 0 t.sh.pre .nil = .panic := by
  have hpre : forestPre [t] = t.sh.pre := by
    simp only [forestPre, List.flatMap_cons, List.flatMap_nil, List.append_nil, sh]
    rw [Spec.BT.map_pre, bt_pre]
  obtain ⟨o, m1, hg, hk, hgr, ⟨rfl, hcap⟩ | ⟨hlt, ho, hpc⟩⟩ :=
    grow_spec (shape_new cfg) (m := (BSTMap.new : BSTMap K V)) t.size
  · have hl := clone_loop_reinsert (cfg := cfg) (cmps := cmps) (cloneK := cloneK) (cloneV := cloneV) m
      (walkFuel m.nodes) [t] 0 m1 .leaf (by simpa using h.rep)
      (by simpa [forestSize] using h.size_lt) hk.shape (by simpa [forestSize, Tree.size] using hcap)
    rw [hpre] at hl
    have hcl : clone cfg cmps cloneK cloneV m =
        loop (walkFuel m.nodes) (cloneBody cfg cmps cloneK cloneV m) (0, [t].filterMap nodeOpt) m1 := by
      unfold clone
      rw [h.len_ok, M.lift_ok_bind, M.bind_ok hg, rootNode_ok h.root h.rep, M.lift_ok_bind]
      have : ([t].filterMap nodeOpt) = t.nodeOpt.toList := by cases t <;> rfl
      rw [this]
      rfl
    rw [hcl]
    exact hl
  · exfalso
    obtain ⟨fr, hf⟩ := h.slab
    obtain ⟨fr1, hf1⟩ := hk.shape.slab
    have hp := Arena.no_panic_below hf.items hf1.items (Nat.lt_of_lt_of_le hlt h.size_le)
    rcases ho with rfl | rfl
    · exact hp hpc
    · rw [Arena.pushChunk_eq hf1.items] at hpc
      split at hpc
      · cases hpc
      · rw [if_pos (ha _ _)] at hpc; cases hpc

/-! ### How many comparisons `reinsert` makes -/

namespace Spec.BT

/-- The number of comparisons of a search for `k`. -/
def steps (cmp : K → K → Ordering) (k : K) : BT (K × V) → Nat
  | nil => 0
  | node l e r =>
    match cmp k e.1 with
    | .lt => l.steps cmp k + 1
    | .gt => r.steps cmp k + 1
    | .eq => 1

/-- The numbers of comparisons of successive insertions. -/
def stepsList (cmp : K → K → Ordering) : List (K × V) → BT (K × V) → List Nat
  | [], _ => []
  | e :: l, t => t.steps cmp e.1 :: stepsList cmp l (t.insert cmp e.1 e.2)

theorem search_budget (cmp : K → K → Ordering) (k : K) (b j : Nat) (t : BT (K × V)) :
    if t.steps cmp k = 0 ∨ j + t.steps cmp k ≤ b then
      (∃ e, t.search (fun n x => if n < b then some (cmp k x) else none) j = .ok e) ∧
      ∀ v, t.insertBy (fun n x => if n < b then some (cmp k x) else none) k v j = t.insert cmp k v
    else t.search (fun n x => if n < b then some (cmp k x) else none) j = .panic := by
  induction t generalizing j with
  | nil => simp [steps, search, insertBy, insert]
  | node l e r ihl ihr =>
    simp only [steps, search, insertBy, insert]
    by_cases hj : j < b
    · simp only [if_pos hj]
      cases hc : cmp k e.1 with
      | lt =>
        have := ihl (j + 1)
        simp only
        by_cases hs : l.steps cmp k = 0 ∨ j + 1 + l.steps cmp k ≤ b
        · rw [if_pos hs] at this
          rw [if_pos (by omega)]
          exact ⟨this.1, fun v => by rw [this.2]⟩
        · rw [if_neg hs] at this
          rw [if_neg (by omega)]
          exact this
      | gt =>
        have := ihr (j + 1)
        simp only
        by_cases hs : r.steps cmp k = 0 ∨ j + 1 + r.steps cmp k ≤ b
        · rw [if_pos hs] at this
          rw [if_pos (by omega)]
          exact ⟨this.1, fun v => by rw [this.2]⟩
        · rw [if_neg hs] at this
          rw [if_neg (by omega)]
          exact this
      | eq => simp only; rw [if_pos (by omega)]; exact ⟨⟨_, rfl⟩, fun _ => by first | rfl | trivial⟩
    · simp only [if_neg hj]
      cases cmp k e.1 <;> simp only <;> rw [if_neg (by omega)] <;> trivial

theorem reinsert_budget (f : Nat → Nat) (cmp : K → K → Ordering) {g : K → K} {gv : V → V}
    (l : List (K × V)) (i : Nat) (t : BT (K × V)) :
    let l' := l.map fun e => (g e.1, gv e.2)
    ((∀ j d, (stepsList cmp l' t)[j]? = some d → d ≤ f (i + j)) →
      reinsert (budget f cmp) (fun k => some (g k)) (fun v => some (gv v)) i l t =
        .ok (insertList cmp l' t)) ∧
    ((∃ j d, (stepsList cmp l' t)[j]? = some d ∧ f (i + j) < d) →
      reinsert (budget f cmp) (fun k => some (g k)) (fun v => some (gv v)) i l t = .panic) := by
  induction l generalizing i t with
  | nil => simp [reinsert, insertList, stepsList]
  | cons e l ih =>
    obtain ⟨ih1, ih2⟩ := ih (i + 1) (t.insert cmp (g e.1) (gv e.2))
    have hs := search_budget cmp (g e.1) (f i) 0 t
    simp only [List.map_cons, stepsList]
    by_cases hle : t.steps cmp (g e.1) ≤ f i
    · rw [if_pos (by omega)] at hs
      obtain ⟨⟨x, hx⟩, hins⟩ := hs
      have hreb : reinsert (budget f cmp) (fun k => some (g k)) (fun v => some (gv v)) i (e :: l) t =
          reinsert (budget f cmp) (fun k => some (g k)) (fun v => some (gv v)) (i + 1) l
            (t.insert cmp (g e.1) (gv e.2)) := by
        rw [← hins]
        simp only [reinsert]
        rw [show t.search (budget f cmp i (g e.1)) 0 = _ from hx]
        rfl
      rw [hreb]
      constructor
      · intro h
        rw [ih1]
        · rfl
        · intro j d hj
          have := h (j + 1) d (by simpa using hj)
          rwa [show i + 1 + j = i + (j + 1) by omega]
      · rintro ⟨j, d, hj, hd⟩
        cases j with
        | zero => simp at hj; simp at hd; omega
        | succ j => exact ih2 ⟨j, d, by simpa using hj, by rwa [show i + 1 + j = i + (j + 1) by omega]⟩
    · rw [if_neg (by omega)] at hs
      have hreb : reinsert (budget f cmp) (fun k => some (g k)) (fun v => some (gv v)) i (e :: l) t =
          .panic := by
        simp only [reinsert]
        rw [show t.search (budget f cmp i (g e.1)) 0 = _ from hs]
      refine ⟨fun h => ?_, fun _ => hreb⟩
      have := h 0 _ rfl
      simp at this
      omega

theorem stepsList_append (cmp : K → K → Ordering) (l l' : List (K × V)) (t : BT (K × V)) :
    stepsList cmp (l ++ l') t = stepsList cmp l t ++ stepsList cmp l' (insertList cmp l t) := by
  induction l generalizing t with
  | nil => rfl
  | cons e l ih => simp only [List.cons_append, stepsList, ih]; rfl

theorem stepsList_left {cmp : K → K → Ordering} {x : K × V} (r : BT (K × V)) :
    ∀ (l : List (K × V)) (t : BT (K × V)), (∀ e ∈ l, cmp e.1 x.1 = .lt) →
    stepsList cmp l (node t x r) = (stepsList cmp l t).map (· + 1) ∧
    insertList cmp l (node t x r) = node (insertList cmp l t) x r := by
  intro l
  induction l with
  | nil => intro t _; exact ⟨rfl, rfl⟩
  | cons e l ih =>
    intro t h
    have he := h e (by simp)
    have hi : (node t x r).insert cmp e.1 e.2 = node (t.insert cmp e.1 e.2) x r := by
      simp only [insert, he]
    obtain ⟨h1, h2⟩ := ih (t.insert cmp e.1 e.2) fun e' he' => h e' (by simp [he'])
    constructor
    · simp only [stepsList, hi, h1, List.map_cons, steps, he]
    · simp only [insertList, List.foldl_cons, hi]; exact h2

theorem stepsList_right {cmp : K → K → Ordering} {x : K × V} (l' : BT (K × V)) :
    ∀ (l : List (K × V)) (t : BT (K × V)), (∀ e ∈ l, cmp e.1 x.1 = .gt) →
    stepsList cmp l (node l' x t) = (stepsList cmp l t).map (· + 1) ∧
    insertList cmp l (node l' x t) = node l' x (insertList cmp l t) := by
  intro l
  induction l with
  | nil => intro t _; exact ⟨rfl, rfl⟩
  | cons e l ih =>
    intro t h
    have he := h e (by simp)
    have hi : (node l' x t).insert cmp e.1 e.2 = node l' x (t.insert cmp e.1 e.2) := by
      simp only [insert, he]
    obtain ⟨h1, h2⟩ := ih (t.insert cmp e.1 e.2) fun e' he' => h e' (by simp [he'])
    constructor
    · simp only [stepsList, hi, h1, List.map_cons, steps, he]
    · simp only [insertList, List.foldl_cons, hi]; exact h2

theorem depths_succ {α : Type} (d : Nat) (t : BT α) : t.depths (d + 1) = (t.depths d).map (· + 1) := by
  induction t generalizing d with
  | nil => rfl
  | node l x r ihl ihr => simp [depths, ihl, ihr]

theorem mem_pre_iff {α : Type} (t : BT α) (x : α) : x ∈ t.pre ↔ x ∈ t.ino := by
  induction t with
  | nil => rfl
  | node l a r ihl ihr => simp [pre, ino, ihl, ihr]; constructor <;> intro h <;> rcases h with h | h | h <;> simp [h]

theorem stepsList_pre {cmp : K → K → Ordering} [Std.TransCmp cmp] (t : BT (K × V))
    (hs : t.Search cmp) :
    stepsList cmp t.pre nil = t.depths 0 ∧ insertList cmp t.pre nil = t := by
  induction t with
  | nil => exact ⟨rfl, rfl⟩
  | node l x r ihl ihr =>
    obtain ⟨h1, h2, h3, h4⟩ := hs
    obtain ⟨a1, a2⟩ := ihl h3
    obtain ⟨b1, b2⟩ := ihr h4
    have hl := stepsList_left (cmp := cmp) (x := x) nil l.pre nil fun e he => h1 e ((mem_pre_iff _ _).1 he)
    have hr := stepsList_right (cmp := cmp) (x := x) l r.pre nil fun e he =>
      Std.OrientedCmp.gt_of_lt (h2 e ((mem_pre_iff _ _).1 he))
    constructor
    · simp only [pre, stepsList, stepsList_append, insert, steps, depths]
      rw [hl.1, hl.2, a2, hr.1, a1, b1, depths_succ, depths_succ]
    · simp only [pre, insertList, List.foldl_cons, List.foldl_append, insert]
      have := hl.2
      simp only [insertList] at this
      rw [this]
      have := hr.2
      simp only [insertList] at this a2 b2
      rw [a2, this, b2]

theorem depths_map {α β : Type} (g : α → β) (d : Nat) (t : BT α) :
    (t.map g).depths d = t.depths d := by
  induction t generalizing d with
  | nil => rfl
  | node l x r ihl ihr => simp only [map, depths, ihl, ihr]

theorem search_map {cmp : K → K → Ordering} {g : K × V → K × V}
    (hg : ∀ a b, cmp a.1 b.1 = .lt → cmp (g a).1 (g b).1 = .lt) {t : BT (K × V)}
    (hs : t.Search cmp) : (t.map g).Search cmp := by
  induction t with
  | nil => trivial
  | node l x r ihl ihr =>
    obtain ⟨h1, h2, h3, h4⟩ := hs
    refine ⟨fun y hy => ?_, fun y hy => ?_, ihl h3, ihr h4⟩
    · rw [map_ino] at hy
      obtain ⟨z, hz, rfl⟩ := List.mem_map.1 hy
      exact hg _ _ (h1 z hz)
    · rw [map_ino] at hy
      obtain ⟨z, hz, rfl⟩ := List.mem_map.1 hy
      exact hg _ _ (h2 z hz)

theorem depths_length {α : Type} (d : Nat) (t : BT α) : (t.depths d).length = t.size := by
  induction t generalizing d with
  | nil => rfl
  | node l x r ihl ihr => simp [depths, ihl, ihr, size]; omega

theorem depths_bound {α : Type} (t : BT α) : ∀ (d i e : Nat), (t.depths d)[i]? = some e →
    e ≤ d + i ∧ e < d + t.height := by
  induction t with
  | nil => intro d i e h; simp [depths] at h
  | node l x r ihl ihr =>
    intro d i e h
    cases i with
    | zero => simp [depths] at h; simp [height]; omega
    | succ i =>
      simp only [depths, List.getElem?_cons_succ] at h
      rw [List.getElem?_append] at h
      split at h
      · have := ihl _ _ _ h
        simp only [height]
        omega
      · have := ihr _ _ _ h
        simp only [height]
        omega

end Spec.BT

theorem clone_count {cfg : Cfg} {cmp : K → K → Ordering} [Std.TransCmp cmp]
    (ha : ∀ id n, cfg.allocOk id n = true) {g : K → K} {gv : V → V}
    (hg : ∀ a b, cmp a b = .lt → cmp (g a) (g b) = .lt) {m : BSTMap K V} {t : Tree K V}
    (h : Shape cfg m t) (hs : t.SortedBy cmp) (f : Nat → Nat) :
    ((∀ (i d : Nat), (t.sh.depths 0)[i]? = some d → d ≤ f i) →
      ∃ m', clone cfg (budget f cmp) (fun k => some (g k)) (fun v => some (gv v)) m =
          (.ok (), m') ∧ explore m' = .ok (t.sh.map fun e => (g e.1, gv e.2))) ∧
    ((∃ (i d : Nat), (t.sh.depths 0)[i]? = some d ∧ f i < d) →
      (clone cfg (budget f cmp) (fun k => some (g k)) (fun v => some (gv v)) m).1 = .panic) := by
  have hsearch : (t.sh.map fun e => (g e.1, gv e.2)).Search cmp :=
    BT.search_map (fun a b hab => hg _ _ hab) (sorted_search hs)
  obtain ⟨h1, h2⟩ := BT.stepsList_pre _ hsearch
  rw [Spec.BT.map_pre] at h1 h2
  rw [BT.depths_map] at h1
  obtain ⟨r1, r2⟩ := BT.reinsert_budget (g := g) (gv := gv) f cmp t.sh.pre 0 .nil
  rw [h1] at r1 r2
  rw [h2] at r1
  simp only [Nat.zero_add] at r1 r2
  constructor
  · intro hf
    rcases clone_reinsert ha (budget f cmp) (fun k => some (g k)) (fun v => some (gv v)) h with
      ⟨m', w, e1, e2, e3⟩ | ⟨m', e1, e2⟩
    · refine ⟨m', e1, ?_⟩
      rw [r1 hf] at e3
      rw [explore_ok e2, Out.ok.inj e3]
      rfl
    · rw [r1 hf] at e2; cases e2
  · intro hf
    rcases clone_reinsert ha (budget f cmp) (fun k => some (g k)) (fun v => some (gv v)) h with
      ⟨m', w, e1, e2, e3⟩ | ⟨m', e1, e2⟩
    · rw [r2 hf] at e3; cases e3
    · rw [e1]

end BST
