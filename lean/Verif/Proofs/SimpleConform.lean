import Verif.Proofs.SimpleSem
import Verif.Proofs.SetHistory
/-!
# `SimpleBSTMap` answers like a textbook search tree
-/
set_option linter.unusedSimpArgs false
namespace BST.Simple
variable {K V : Type}
open Spec (BT Order)

namespace Link
variable {cmp : K → K → Ordering} {t : Link K V} {c : Probe K} {f : K → Ordering}

/-- The keys of the tree are in order. -/
def Sorted (cmp : K → K → Ordering) (t : Link K V) : Prop := Spec.Sorted cmp t.view.ino

theorem tree_sorted {w : Tree K V} : w.link.Sorted cmp ↔ w.SortedBy cmp := by
  unfold Sorted Tree.SortedBy
  rw [Tree.link_view, Tree.sh_ino]

theorem find_tree {w : Tree K V} {e : Option (K × V)} (h : w.link.find c 0 = .ok e) :
    ∃ e', w.find c 0 = .ok e' ∧ e = e'.map (·.2) := by
  rw [Tree.link_find] at h
  rcases w.find_ok_or_panic c 0 with hf | ⟨e', hf⟩
  · rw [hf] at h; cases h
  · rw [hf] at h; cases h; exact ⟨e', hf, rfl⟩

theorem find_panics (h : t.find c 0 = .panic) : Panics c := by
  obtain ⟨w, rfl, hn⟩ := Tree.exists_link t
  rw [Tree.link_find] at h
  rcases w.find_ok_or_panic c 0 with hf | ⟨e', hf⟩
  · exact BST.find_panics hf
  · rw [hf] at h; cases h

theorem find_lookup (hs : t.Sorted cmp) (hf : Spec.LawfulQuery cmp f) (hc : Asks f c)
    {e : Option (K × V)} (he : t.find c 0 = .ok e) : Spec.lookup (Spec.hitOf f) t.view.ino = e := by
  obtain ⟨w, rfl, hn⟩ := Tree.exists_link t
  obtain ⟨e', h1, rfl⟩ := find_tree he
  rw [Tree.link_view]
  exact BST.find_lookup (tree_sorted.1 hs) hf hc h1

theorem ins_view {k : K} (hc : Asks (cmp k) c) {e : Option (K × V)} (he : t.find c 0 = .ok e)
    (v : V) : (t.ins c k v 0).view = t.view.insert cmp k v := by
  obtain ⟨w, rfl, hn⟩ := Tree.exists_link t
  obtain ⟨e', h1, rfl⟩ := find_tree he
  rw [← Tree.link_ins c ⟨0, 0⟩, Tree.link_view, Tree.link_view]
  exact Tree.ins_sh hc h1 _ v

theorem ins_sorted [Std.TransCmp cmp] (hs : t.Sorted cmp) {k : K} (hc : Asks (cmp k) c)
    {e : Option (K × V)} (he : t.find c 0 = .ok e) (v : V) : (t.ins c k v 0).Sorted cmp := by
  obtain ⟨w, rfl, hn⟩ := Tree.exists_link t
  obtain ⟨e', h1, rfl⟩ := find_tree he
  rw [← Tree.link_ins c ⟨0, 0⟩]
  exact tree_sorted.2 ((closed_sorted cmp).ins _ v (tree_sorted.1 hs) hc h1)

theorem del_view (hc : Asks f c) {e : Option (K × V)} (he : t.find c 0 = .ok e) :
    (t.del c 0).view = t.view.erase f := by
  obtain ⟨w, rfl, hn⟩ := Tree.exists_link t
  obtain ⟨e', h1, rfl⟩ := find_tree he
  rw [← Tree.link_del, Tree.link_view, Tree.link_view]
  exact Tree.del_sh hc h1

theorem del_sorted (hs : t.Sorted cmp) {e : Option (K × V)} (he : t.find c 0 = .ok e) :
    (t.del c 0).Sorted cmp := by
  obtain ⟨w, rfl, hn⟩ := Tree.exists_link t
  obtain ⟨e', h1, rfl⟩ := find_tree he
  rw [← Tree.link_del]
  exact tree_sorted.2 (Tree.del_sorted (tree_sorted.1 hs) 0 h1)

theorem setAt_tree {w : Tree K V} (hn : w.ptrs.Nodup) {x : Ptr × K × V}
    (h : w.find c 0 = .ok (some x)) (v : V) :
    w.link.setAt v (w.link.path c 0) = (w.setV x.1 v).link := by
  have h1 : w.link.find c 0 = .ok (some x.2) := by rw [Tree.link_find, h]; rfl
  obtain ⟨l, r, hat⟩ := find_at h1
  rw [← Tree.ins_hit_eq_setV (p := ⟨0, 0⟩) (k := x.2.1) hn h, Tree.link_ins, ins_hit h1 hat]
  simp only [setAt, hat]

theorem setAt_hit (hs : t.Sorted cmp) (hf : Spec.LawfulQuery cmp f) (hc : Asks f c)
    {x : K × V} (he : t.find c 0 = .ok (some x)) (w : V) :
    (t.setAt w (t.path c 0)).view = t.view.map fun e => if Spec.hitOf f e.1 then (e.1, w) else e := by
  obtain ⟨u, rfl, hn⟩ := Tree.exists_link t
  obtain ⟨e', h1, h2⟩ := find_tree he
  cases e' with
  | none => cases h2
  | some e' =>
    rw [setAt_tree hn h1, Tree.link_view, Tree.link_view]
    exact setV_sh hn (tree_sorted.1 hs) hf hc h1 w

theorem setAt_miss (hs : t.Sorted cmp) (hf : Spec.LawfulQuery cmp f) (hc : Asks f c)
    (he : t.find c 0 = .ok none) (w : V) :
    (t.view.map fun e => if Spec.hitOf f e.1 then (e.1, w) else e) = t.view := by
  obtain ⟨u, rfl, hn⟩ := Tree.exists_link t
  obtain ⟨e', h1, h2⟩ := find_tree he
  cases e' with
  | some e' => cases h2
  | none =>
    rw [Tree.link_view]
    exact setHit_miss (tree_sorted.1 hs) hf hc h1 w

theorem setAt_view (w : V) (p : Place) (t : Link K V) : (t.setAt w p).view = t.view.setPath w p := by
  induction p generalizing t with
  | nil => cases t <;> rfl
  | cons b p ih =>
    cases t with
    | nil => rfl
    | node k v l r =>
      cases b
      · have := ih l
        unfold setAt at this ⊢
        simp only [at'] at this ⊢
        cases hl : l.at' p with
        | nil => rw [hl] at this; simp only [view, BT.setPath]; rw [← this]
        | node k' v' l' r' => rw [hl] at this; simp only [view, BT.setPath, put]; rw [← this]
      · have := ih r
        unfold setAt at this ⊢
        simp only [at'] at this ⊢
        cases hl : r.at' p with
        | nil => rw [hl] at this; simp only [view, BT.setPath]; rw [← this]
        | node k' v' l' r' => rw [hl] at this; simp only [view, BT.setPath, put]; rw [← this]

theorem setAt_keys (w : V) (p : Place) (t : Link K V) :
    (t.setAt w p).view.map (·.1) = t.view.map (·.1) := by
  rw [setAt_view]
  induction p generalizing t with
  | nil => cases t <;> rfl
  | cons b p ih =>
    cases t with
    | nil => rfl
    | node k v l r =>
      cases b
      · simp only [view, BT.setPath, BT.map]; rw [ih]
      · simp only [view, BT.setPath, BT.map]; rw [ih]

theorem setAt_sorted (hs : t.Sorted cmp) (w : V) (p : Place) : (t.setAt w p).Sorted cmp := by
  have h := congrArg BT.ino (setAt_keys w p t)
  rw [Spec.BT.map_ino, Spec.BT.map_ino] at h
  have h2 : (t.view.ino.map (·.1)).Pairwise fun a b => cmp a b = .lt := List.pairwise_map.2 hs
  rw [← h] at h2
  exact List.pairwise_map.1 h2

end Link

theorem semIns_view {cmp : K → K → Ordering} [Std.TransCmp cmp] {cmps : Nat → K → Probe K}
    (hc : ∀ n k, Asks (cmp k) (cmps n k)) (l : List (K × V)) (n : Nat) {t : Link K V}
    (hs : t.Sorted cmp) {o : Out Unit} {t' : Link K V} (he : semIns cmps n l t = (o, t')) :
    t'.Sorted cmp ∧ ∃ used rest, l = used ++ rest ∧ t'.view = t.view.insertList cmp used ∧
      (o = .ok () ∧ rest = [] ∨ o = .panic ∧ ∃ n k, Panics (cmps n k)) := by
  induction l generalizing n t with
  | nil => cases he; exact ⟨hs, [], [], rfl, rfl, .inl ⟨rfl, rfl⟩⟩
  | cons e l ih =>
    obtain ⟨k, v⟩ := e
    rcases t.find_ok_or_panic (cmps n k) 0 with hf | ⟨e, hf⟩
    · rw [semIns, hf] at he
      cases he
      exact ⟨hs, [], (k, v) :: l, rfl, rfl, .inr ⟨rfl, n, k, Link.find_panics hf⟩⟩
    · rw [semIns, hf] at he
      obtain ⟨h1, used, rest, h2, h3, h4⟩ := ih (n + 1) (Link.ins_sorted hs (hc n k) hf v) he
      refine ⟨h1, (k, v) :: used, rest, by rw [h2]; rfl, ?_, h4⟩
      rw [h3, Link.ins_view (hc n k) hf]
      rfl

theorem semSrc_view {cmp : K → K → Ordering} [Std.TransCmp cmp] {cmps : Nat → K → Probe K}
    (hc : ∀ n k, Asks (cmp k) (cmps n k)) (src : BSTMap.Source K V) {t : Link K V}
    (hs : t.Sorted cmp) {o : Out Unit} {t' : Link K V} (he : semSrc cmps src t = (o, t')) :
    t'.Sorted cmp ∧ ∃ used rest, src.items = used ++ rest ∧ t'.view = t.view.insertList cmp used ∧
      (o = .ok () ∧ rest = [] ∧ src.panics = false ∨ o = .panic) := by
  cases hi : semIns cmps 0 src.items t with
  | mk o1 t1 =>
    obtain ⟨h1, used, rest, h2, h3, h4⟩ := semIns_view hc src.items 0 hs hi
    rw [semSrc, hi] at he
    rcases h4 with ⟨rfl, rfl⟩ | ⟨rfl, _⟩
    · cases hp : src.panics with
      | true =>
        rw [hp] at he
        cases he
        exact ⟨h1, used, [], h2, h3, .inr rfl⟩
      | false =>
        rw [hp] at he
        cases he
        exact ⟨h1, used, [], h2, h3, .inl ⟨rfl, rfl, rfl⟩⟩
    · cases he
      exact ⟨h1, used, rest, h2, h3, .inr rfl⟩

/-- Lawful clones do not change anything. -/
theorem mapM_clone {cloneK : K → Option K} {cloneV : V → Option V}
    (hk : ∀ k k', cloneK k = some k' → k' = k) (hv : ∀ v v', cloneV v = some v' → v' = v)
    {b b' : BT (K × V)} (h : b.mapM (clonePair cloneK cloneV) = some b') : b' = b :=
  mapM_id_of (fun x y hxy => by
    unfold clonePair at hxy
    cases h1 : cloneK x.1 with
    | none => rw [h1] at hxy; cases hxy
    | some k' =>
      cases h2 : cloneV x.2 with
      | none => rw [h1, h2] at hxy; cases hxy
      | some v' =>
        rw [h1, h2] at hxy
        cases hxy
        rw [hk _ _ h1, hv _ _ h2]) h

theorem view_size' (t : Link K V) : t.view.size = t.size := by
  induction t with
  | nil => rfl
  | node k v l r ihl ihr => simp [Link.view, Link.size, BT.size, ihl, ihr]

theorem sem_tree {cmp : K → K → Ordering} [Std.TransCmp cmp] {op : SimpleOp K V}
    (hop : op.Lawful cmp) {t t' : Link K V} (hs : t.Sorted cmp) {o : Out (Ret K V)}
    (he : sem op t = (o, t')) :
    t'.Sorted cmp ∧ o.Safe ∧ Spec.SimpleAnswer cmp t.view o t'.view op := by
  cases op with
  | collect cmps src =>
    cases hx : semSrc cmps src .nil with
    | mk o1 t1 =>
      obtain ⟨h1, used, rest, h2, h3, h4⟩ := semSrc_view (t := .nil) hop src List.Pairwise.nil hx
      rw [sem, hx] at he
      rcases h4 with ⟨rfl, rfl, hp⟩ | rfl
      · cases he
        rw [List.append_nil] at h2
        exact ⟨h1, trivial, .inr (.inl ⟨rfl, by rw [h2]; exact h3, hp⟩)⟩
      · cases he
        exact ⟨hs, trivial, .inr (.inr ⟨.inl rfl, rfl⟩)⟩
  | cloned cloneK cloneV =>
    obtain ⟨_, hk, hv⟩ := hop
    cases hm : t.view.mapM (clonePair cloneK cloneV) with
    | none =>
      rw [sem, hm] at he
      cases he
      exact ⟨hs, trivial, .inr (.inr ⟨.inl rfl, rfl⟩)⟩
    | some b =>
      rw [sem, hm] at he
      cases he
      have := mapM_clone hk hv hm
      subst this
      rw [Link.ofView_view]
      exact ⟨hs, trivial, .inr (.inl ⟨rfl, rfl⟩)⟩
  | insert c k v =>
    have hl := lawful_cmp cmp k
    rw [sem] at he
    rcases t.find_ok_or_panic c 0 with hf | ⟨e, hf⟩
    · rw [hf, Link.ins_panic hf] at he
      cases he
      exact ⟨hs, trivial, .inr (.inr (.inl ⟨rfl, rfl, Link.find_panics hf⟩))⟩
    · rw [hf] at he
      cases he
      refine ⟨Link.ins_sorted hs hop hf v, trivial, .inr (.inl ⟨?_, Link.ins_view hop hf v⟩)⟩
      rw [Link.find_lookup hs hl hop hf]; rfl
  | remove c =>
    rw [sem] at he
    rcases t.find_ok_or_panic c 0 with hf | ⟨e, hf⟩
    · rw [hf, Link.del_panic hf] at he
      cases he
      exact ⟨hs, trivial, .inr fun f hq hc => .inr ⟨rfl, rfl, Link.find_panics hf⟩⟩
    · rw [hf] at he
      cases he
      refine ⟨Link.del_sorted hs hf, trivial, .inr fun f hq hc => .inl ⟨?_, Link.del_view hc hf⟩⟩
      dsimp only; rw [Link.find_lookup hs hq hc hf]; rfl
  | removeEntry c =>
    rw [sem] at he
    rcases t.find_ok_or_panic c 0 with hf | ⟨e, hf⟩
    · rw [hf, Link.del_panic hf] at he
      cases he
      exact ⟨hs, trivial, .inr fun f hq hc => .inr ⟨rfl, rfl, Link.find_panics hf⟩⟩
    · rw [hf] at he
      cases he
      refine ⟨Link.del_sorted hs hf, trivial, .inr fun f hq hc => .inl ⟨?_, Link.del_view hc hf⟩⟩
      dsimp only; rw [Link.find_lookup hs hq hc hf]; rfl
  | get c =>
    rw [sem] at he
    rcases t.find_ok_or_panic c 0 with hf | ⟨e, hf⟩
    · rw [hf] at he
      cases he
      exact ⟨hs, trivial, .inr fun f hq hc => .inr ⟨rfl, rfl, Link.find_panics hf⟩⟩
    · rw [hf] at he
      cases he
      refine ⟨hs, trivial, .inr fun f hq hc => .inl ⟨?_, rfl⟩⟩
      dsimp only; rw [Link.find_lookup hs hq hc hf]; rfl
  | getEntry c =>
    rw [sem] at he
    rcases t.find_ok_or_panic c 0 with hf | ⟨e, hf⟩
    · rw [hf] at he
      cases he
      exact ⟨hs, trivial, .inr fun f hq hc => .inr ⟨rfl, rfl, Link.find_panics hf⟩⟩
    · rw [hf] at he
      cases he
      refine ⟨hs, trivial, .inr fun f hq hc => .inl ⟨?_, rfl⟩⟩
      dsimp only; rw [Link.find_lookup hs hq hc hf]; rfl
  | containsKey c =>
    rw [sem] at he
    rcases t.find_ok_or_panic c 0 with hf | ⟨e, hf⟩
    · rw [hf] at he
      cases he
      exact ⟨hs, trivial, .inr fun f hq hc => .inr ⟨rfl, rfl, Link.find_panics hf⟩⟩
    · rw [hf] at he
      cases he
      refine ⟨hs, trivial, .inr fun f hq hc => .inl ⟨?_, rfl⟩⟩
      have h3 := congrArg Option.isSome (Link.find_lookup hs hq hc hf)
      unfold Spec.lookup at h3
      rw [List.isSome_find?] at h3
      dsimp only; rw [h3]; rfl
  | getMut c w =>
    rw [sem] at he
    rcases t.find_ok_or_panic c 0 with hf | ⟨e, hf⟩
    · rw [hf] at he
      cases he
      exact ⟨hs, trivial, .inr fun f hq hc => .inr ⟨rfl, rfl, Link.find_panics hf⟩⟩
    · rw [hf] at he
      cases e with
      | none =>
        cases he
        refine ⟨hs, trivial, .inr fun f hq hc => .inl ⟨?_, ?_⟩⟩
        · dsimp only; rw [Link.find_lookup hs hq hc hf]; rfl
        · dsimp only; rw [Link.setAt_miss hs hq hc hf]
      | some e =>
        cases he
        refine ⟨Link.setAt_sorted hs _ _, trivial, .inr fun f hq hc => .inl ⟨?_, ?_⟩⟩
        · dsimp only; rw [Link.find_lookup hs hq hc hf]; rfl
        · exact Link.setAt_hit hs hq hc hf w
  | node path => cases he; exact ⟨hs, trivial, .inr ⟨rfl, rfl⟩⟩
  | nodeMut path w =>
    cases he
    exact ⟨Link.setAt_sorted hs _ _, trivial, .inr ⟨rfl, Link.setAt_view _ _ _⟩⟩
  | iter ord n => cases he; exact ⟨hs, trivial, .inr ⟨rfl, rfl⟩⟩
  | iterMut ord n =>
    cases he
    refine ⟨hs, ?_, rfl, rfl⟩
    split <;> trivial
  | len => cases he; exact ⟨hs, trivial, .inr ⟨by rw [view_size'], rfl⟩⟩
  | isEmpty => cases he; exact ⟨hs, trivial, .inr ⟨by rw [view_size'], rfl⟩⟩
  | clear => cases he; exact ⟨List.Pairwise.nil, trivial, .inr ⟨rfl, rfl⟩⟩
  | extend cmps src =>
    cases hx : semSrc cmps src t with
    | mk o1 t1 =>
      obtain ⟨h1, used, rest, h2, h3, h4⟩ := semSrc_view hop src hs hx
      rw [sem, hx] at he
      cases he
      refine ⟨h1, ?_, .inr ⟨used, rest, h2, h3, ?_⟩⟩
      · rcases h4 with ⟨rfl, _⟩ | rfl <;> trivial
      · rcases h4 with ⟨rfl, h4⟩ | rfl
        · exact .inl ⟨rfl, h4⟩
        · exact .inr (.inl rfl)
  | debug dk dv =>
    have hsz := view_size' t
    rw [sem] at he
    cases he
    exact ⟨hs, trivial, by rw [Spec.SimpleAnswer, hsz]; exact ⟨Eq.refl _, Eq.refl _⟩⟩

/-! ### No panics but those of user code -/

theorem mapM_some {α β : Type} {g : α → Option β} (hg : ∀ x, g x ≠ none) (b : BT α) :
    ∃ b', b.mapM g = some b' := by
  induction b with
  | nil => exact ⟨.nil, rfl⟩
  | node l a r ihl ihr =>
    obtain ⟨l', hl⟩ := ihl
    obtain ⟨r', hr⟩ := ihr
    obtain ⟨a', ha⟩ := Option.ne_none_iff_exists'.1 (hg a)
    exact ⟨.node l' a' r', by simp [BT.mapM, ha, hl, hr]⟩

theorem semIns_panic {cmps : Nat → K → Probe K} {l : List (K × V)} {n : Nat} {t t' : Link K V}
    (he : semIns cmps n l t = (.panic, t')) : ∃ n k, Panics (cmps n k) := by
  induction l generalizing n t with
  | nil => cases he
  | cons e l ih =>
    obtain ⟨k, v⟩ := e
    rcases t.find_ok_or_panic (cmps n k) 0 with hf | ⟨e, hf⟩
    · exact ⟨n, k, Link.find_panics hf⟩
    · rw [semIns, hf] at he
      exact ih he

theorem semSrc_cases {cmps : Nat → K → Probe K} {src : BSTMap.Source K V} {t t' : Link K V}
    {o : Out Unit} (he : semSrc cmps src t = (o, t')) :
    (o = .ok () ∨ o = .panic ∧ ((∃ n k, Panics (cmps n k)) ∨ src.panics = true)) ∧
      t'.size ≤ t.size + src.items.length := by
  obtain ⟨o1, t1, h1, h2, h3⟩ := semIns_cases cmps src.items 0 t
  rw [semSrc, h1] at he
  rcases h2 with rfl | rfl
  · cases hp : src.panics with
    | true =>
      rw [hp] at he
      cases he
      exact ⟨.inr ⟨rfl, .inr rfl⟩, h3⟩
    | false =>
      rw [hp] at he
      cases he
      exact ⟨.inl rfl, h3⟩
  · cases he
    exact ⟨.inr ⟨rfl, .inl (semIns_panic h1)⟩, h3⟩

/-- Every call returns or panics; it panics only if user code does. The tree grows by no
more nodes than are inserted. -/
theorem sem_cases (cmp : K → K → Ordering) (op : SimpleOp K V) {t t' : Link K V}
    {o : Out (Ret K V)} (he : sem op t = (o, t')) :
    ((∃ r, o = .ok r) ∨ (o = .panic ∧ ¬ op.Quiet)) ∧
      t'.size ≤ t.size + (op.twin cmp).demand := by
  have hfind : ∀ (c : Probe K) (g : Option (K × V) → Ret K V),
      (∃ r, (t.find c 0).map g = .ok r) ∨ ((t.find c 0).map g = .panic ∧ ¬ ¬ Panics c) := by
    intro c g
    rcases t.find_ok_or_panic c 0 with hf | ⟨e, hf⟩
    · rw [hf]; exact .inr ⟨rfl, fun h => h (Link.find_panics hf)⟩
    · rw [hf]; exact .inl ⟨_, rfl⟩
  have hdel : ∀ c : Probe K, (t.del c 0).size ≤ t.size := by
    intro c
    rcases t.find_ok_or_panic c 0 with hf | ⟨e, hf⟩
    · rw [Link.del_panic hf]; exact Nat.le_refl _
    · have := Link.del_size hf; omega
  cases op with
  | collect cmps src =>
    cases hx : semSrc cmps src .nil with
    | mk o1 t1 =>
      obtain ⟨h1, h2⟩ := semSrc_cases hx
      rw [sem, hx] at he
      simp only [SimpleOp.twin, Op.demand]
      simp only [Link.size] at h2
      rcases h1 with rfl | ⟨rfl, h1⟩
      · cases he
        exact ⟨.inl ⟨_, rfl⟩, by omega⟩
      · cases he
        refine ⟨.inr ⟨rfl, fun hq => ?_⟩, by omega⟩
        rcases h1 with ⟨n, k, h1⟩ | h1
        · exact hq.1 n k h1
        · rw [hq.2] at h1; cases h1
  | cloned cloneK cloneV =>
    cases hm : t.view.mapM (clonePair cloneK cloneV) with
    | none =>
      rw [sem, hm] at he
      cases he
      refine ⟨.inr ⟨rfl, fun hq => ?_⟩, Nat.le_refl _⟩
      obtain ⟨b', hb⟩ := mapM_some (g := clonePair cloneK cloneV) (fun x => by
        obtain ⟨k', hk⟩ := Option.ne_none_iff_exists'.1 (hq.2.1 x.1)
        obtain ⟨v', hv⟩ := Option.ne_none_iff_exists'.1 (hq.2.2 x.2)
        rw [clonePair, hk, hv]; simp) t.view
      rw [hm] at hb; cases hb
    | some b =>
      rw [sem, hm] at he
      cases he
      refine ⟨.inl ⟨_, rfl⟩, ?_⟩
      have := Map.mapM_size hm
      rw [← view_size', Link.view_ofView, this, view_size']
      exact Nat.le_refl _
  | insert c k v =>
    rw [sem] at he
    cases he
    refine ⟨hfind c _, ?_⟩
    rcases t.find_ok_or_panic c 0 with hf | ⟨e, hf⟩
    · rw [Link.ins_panic hf]; exact Nat.le_succ _
    · have := Link.ins_size hf k v
      show _ ≤ t.size + 1
      split at this <;> omega
  | remove c => rw [sem] at he; cases he; exact ⟨hfind c _, hdel c⟩
  | removeEntry c => rw [sem] at he; cases he; exact ⟨hfind c _, hdel c⟩
  | get c => rw [sem] at he; cases he; exact ⟨hfind c _, Nat.le_refl _⟩
  | getEntry c => rw [sem] at he; cases he; exact ⟨hfind c _, Nat.le_refl _⟩
  | containsKey c => rw [sem] at he; cases he; exact ⟨hfind c _, Nat.le_refl _⟩
  | getMut c w =>
    rw [sem] at he
    cases he
    refine ⟨hfind c _, ?_⟩
    split
    · rw [Link.setAt_size]; exact Nat.le_refl _
    · exact Nat.le_refl _
  | node path => cases he; exact ⟨.inl ⟨_, rfl⟩, Nat.le_refl _⟩
  | nodeMut path w =>
    cases he; exact ⟨.inl ⟨_, rfl⟩, by rw [Link.setAt_size]; exact Nat.le_refl _⟩
  | iter ord n => cases he; exact ⟨.inl ⟨_, rfl⟩, Nat.le_refl _⟩
  | iterMut ord n =>
    cases he
    refine ⟨?_, Nat.le_refl _⟩
    split
    · exact .inl ⟨_, rfl⟩
    · rename_i h; exact .inr ⟨rfl, h⟩
  | len => cases he; exact ⟨.inl ⟨_, rfl⟩, Nat.le_refl _⟩
  | isEmpty => cases he; exact ⟨.inl ⟨_, rfl⟩, Nat.le_refl _⟩
  | clear => cases he; exact ⟨.inl ⟨_, rfl⟩, Nat.zero_le _⟩
  | extend cmps src =>
    cases hx : semSrc cmps src t with
    | mk o1 t1 =>
      obtain ⟨h1, h2⟩ := semSrc_cases hx
      rw [sem, hx] at he
      cases he
      simp only [SimpleOp.twin, Op.demand]
      refine ⟨?_, by omega⟩
      rcases h1 with rfl | ⟨rfl, h1⟩
      · exact .inl ⟨_, rfl⟩
      · refine .inr ⟨rfl, fun hq => ?_⟩
        rcases h1 with ⟨n, k, h1⟩ | h1
        · exact hq.1 n k h1
        · rw [hq.2] at h1; cases h1
  | debug dk dv => rw [sem] at he; cases he; exact ⟨.inl ⟨_, Eq.refl _⟩, Nat.le_refl _⟩

end BST.Simple
