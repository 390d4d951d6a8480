import Verif.NodeWrites
import Verif.Proofs.AgreeRun
import Verif.Proofs.Search
/-!
# `SimpleBSTMap` on arbitrary trees with an arbitrary `len`
-/
set_option linter.unusedSimpArgs false
namespace BST.Simple
variable {K V : Type}
open Spec (BT Order Book)

/-! ### The functions on trees -/

namespace Link
theorem search_view (c : Probe K) (i : Nat) (t : Link K V) : t.view.search c i = t.find c i := by
  obtain ⟨w, rfl, _⟩ := Tree.exists_link t
  rw [Tree.link_view, BST.find_search, Tree.link_find]
  rcases w.find_ok_or_panic c i with h | ⟨e, h⟩ <;> rw [h] <;> rfl

theorem insertBy_view (c : Probe K) (k : K) (v : V) (i : Nat) (t : Link K V) :
    (t.ins c k v i).view = t.view.insertBy c k v i := by
  obtain ⟨w, rfl, _⟩ := Tree.exists_link t
  rw [← Tree.link_ins c ⟨0, 0⟩, Tree.link_view, Tree.link_view, BST.ins_insertBy]

theorem eraseBy_view (c : Probe K) (i : Nat) (t : Link K V) :
    (t.del c i).view = t.view.eraseBy c i := by
  obtain ⟨w, rfl, _⟩ := Tree.exists_link t
  rw [← Tree.link_del, Tree.link_view, Tree.link_view, BST.del_eraseBy]

theorem isNil_view (t : Link K V) : t.view.isNil = t.isNil := by cases t <;> rfl

theorem graft_view (new : Link K V) (p : Place) (t : Link K V) :
    BT.graft new.view p t.view = (match t.at' p with | nil => t | node .. => put new p t).view := by
  induction p generalizing t with
  | nil => cases t <;> rfl
  | cons b p ih =>
    cases t with
    | nil => cases b <;> rfl
    | node k v l r =>
      cases b
      · simp only [view, BT.graft, at', ih]
        cases l.at' p <;> rfl
      · simp only [view, BT.graft, at', ih]
        cases r.at' p <;> rfl

theorem writeAt_view (w : V) (p : Place) (t : Link K V) :
    (t.setAt w p).view = t.view.writeAt w p := by
  induction p generalizing t with
  | nil => cases t <;> rfl
  | cons b p ih =>
    cases t with
    | nil => cases b <;> rfl
    | node k v l r =>
      cases b
      · have h := ih l
        simp only [view, BT.writeAt, ← h, setAt, at']
        cases l.at' p <;> rfl
      · have h := ih r
        simp only [view, BT.writeAt, ← h, setAt, at']
        cases r.at' p <;> rfl

theorem writeBy_hit {c : Probe K} {i : Nat} {t : Link K V} {e : K × V}
    (h : t.find c i = .ok (some e)) (w : V) :
    (t.setAt w (t.path c i)).view = t.view.writeBy c w i := by
  rw [writeAt_view]
  induction t generalizing i with
  | nil => cases h
  | node k v l r ihl ihr =>
    unfold find at h
    unfold path view BT.writeBy
    cases hc : c i k with
    | none => rw [hc] at h; cases h
    | some o =>
      rw [hc] at h
      cases o with
      | lt => simp only [hc, BT.writeAt]; rw [ihl h]
      | gt => simp only [hc, BT.writeAt]; rw [ihr h]
      | eq => simp only [hc, BT.writeAt]

theorem writeBy_miss {c : Probe K} {i : Nat} {t : Link K V}
    (h : t.find c i = .ok none ∨ t.find c i = .panic) (w : V) :
    t.view.writeBy c w i = t.view := by
  induction t generalizing i with
  | nil => rfl
  | node k v l r ihl ihr =>
    unfold find at h
    unfold view BT.writeBy
    cases hc : c i k with
    | none => simp only [hc]
    | some o =>
      rw [hc] at h
      cases o with
      | lt => simp only [hc]; rw [ihl h]
      | gt => simp only [hc]; rw [ihr h]
      | eq => rcases h with h | h <;> cases h
end Link

/-! ### The calls -/

/-- Forget the boxes. -/
def book (m : Map K V) : Book K V := ⟨m.root.view, m.len⟩

namespace Map

theorem addLen_up (cfg : Cfg) (m : Map K V) :
    (∃ n, Book.up cfg m.len = some n ∧ addLen cfg m = (.ok (), { m with len := n })) ∨
    (Book.up cfg m.len = none ∧ addLen cfg m = (.panic, m)) := by
  unfold addLen
  rw [M.get_bind]
  unfold addU Book.up usizeBound
  by_cases h : m.len + 1 < 2 ^ 64
  · rw [if_pos h, if_pos h]; exact .inl ⟨_, rfl, rfl⟩
  · rw [if_neg h, if_neg h]
    cases cfg.checks with
    | true => exact .inr ⟨rfl, rfl⟩
    | false => exact .inl ⟨_, rfl, rfl⟩

theorem subLen_down (cfg : Cfg) (m : Map K V) :
    (∃ n, Book.down cfg m.len = some n ∧ subLen cfg m = (.ok (), { m with len := n })) ∨
    (Book.down cfg m.len = none ∧ subLen cfg m = (.panic, m)) := by
  unfold subLen
  rw [M.get_bind]
  unfold subU usizeBound
  cases h : m.len with
  | succ n =>
    rw [if_pos (by omega)]
    exact .inl ⟨n, rfl, rfl⟩
  | zero =>
    rw [if_neg (by omega)]
    unfold Book.down
    cases cfg.checks with
    | true => exact .inr ⟨rfl, rfl⟩
    | false => exact .inl ⟨_, rfl, rfl⟩

theorem insert_loop (cfg : Cfg) (c : Probe K) (k : K) (v : V) (m : Map K V) :
    ∀ (t : Link K V) (q : Place) (i n : Nat), t.size < n → m.root.at' q = t → t ≠ .nil →
      ∀ x, x = loop n (insertStep cfg c k v) (i, some q) m →
      (t.find c i = .panic ∧ x = (.panic, m)) ∨
      (∃ e, t.find c i = .ok (some e) ∧
        x = (.ok (some e.2), { m with root := Link.put (t.ins c k v i) q m.root })) ∨
      (t.find c i = .ok none ∧ ∃ a n, Book.up cfg m.len = some n ∧
        x = (.ok none, ⟨Link.put (t.ins c k v i) q m.root, n, a⟩)) ∨
      (t.find c i = .ok none ∧ ∃ a, Book.up cfg m.len = none ∧
        x = (.panic, ⟨Link.put (t.ins c k v i) q m.root, m.len, a⟩)) ∨
      x = (.abort, m) := by
  intro t
  induction t with
  | nil => exact fun q i n _ _ h => absurd rfl h
  | node k' v' l r ihl ihr =>
    intro q i n hn hq _ x hx
    simp only [Link.size] at hn
    obtain ⟨n, rfl⟩ : ∃ k, n = k + 1 := ⟨n - 1, by omega⟩
    have hd := onRoot_pure (m := m) (deref_ok (w := ⟨m.root, m.allocs⟩) hq)
    unfold Link.find Link.ins
    cases hc : c i k' with
    | none =>
      refine .inl ⟨rfl, hx.trans (loopM_panic ?_)⟩
      dsimp only [insertStep]
      rw [M.bind_ok hd]
      simp [hc]
    | some o =>
      cases o with
      | lt =>
        cases hl : l with
        | nil =>
          subst hl
          rcases setLeft_cases cfg (w := ⟨m.root, m.allocs⟩) hq (.node k v .nil .nil) with
            ⟨a, h1, _⟩ | ⟨h1, _⟩
          · rcases addLen_up cfg
              ({ m with root := Link.put (.node k' v' (.node k v .nil .nil) r) q m.root, allocs := a }) with
              ⟨n', h2, h3⟩ | ⟨h2, h3⟩
            · refine .inr (.inr (.inl ⟨rfl, a, n', h2, hx.trans (loopM_inr ?_)⟩))
              dsimp only [insertStep]
              rw [M.bind_ok hd]
              simp only [hc, Ref.hasLeft, Link.isNil, Bool.not_true, Bool.not_false, if_true]
              rw [M.bind_ok (onRoot_ok h1)]
              exact M.bind_ok h3
            · refine .inr (.inr (.inr (.inl ⟨rfl, a, h2, hx.trans (loopM_panic ?_)⟩)))
              dsimp only [insertStep]
              rw [M.bind_ok hd]
              simp only [hc, Ref.hasLeft, Link.isNil, Bool.not_true, Bool.not_false, if_true]
              rw [M.bind_ok (onRoot_ok h1)]
              exact M.bind_panic h3
          · refine .inr (.inr (.inr (.inr (hx.trans (loopM_abort ?_)))))
            dsimp only [insertStep]
            rw [M.bind_ok hd]
            simp only [hc, Ref.hasLeft, Link.isNil, Bool.not_true, Bool.not_false, if_true]
            exact M.bind_abort (onRoot_pure h1)
        | node lk lv ll lr =>
          rw [← hl]
          have hl' : l ≠ .nil := by rw [hl]; simp
          have h1 := ihl (q ++ [false]) (i + 1) n (by omega) (Link.at_left hq) hl' x (by
            rw [hx]
            refine loopM_inl ?_
            dsimp only [insertStep]
            rw [M.bind_ok hd]
            simp only [hc, hl, Ref.hasLeft, Link.isNil, Bool.not_false, Bool.not_true]
            exact M.bind_ok (onRoot_pure (leftMut_ok (w := ⟨m.root, m.allocs⟩) (hl ▸ hq))))
          simpa only [Link.put_left hq] using h1
      | gt =>
        cases hl : r with
        | nil =>
          subst hl
          rcases setRight_cases cfg (w := ⟨m.root, m.allocs⟩) hq (.node k v .nil .nil) with
            ⟨a, h1, _⟩ | ⟨h1, _⟩
          · rcases addLen_up cfg
              ({ m with root := Link.put (.node k' v' l (.node k v .nil .nil)) q m.root, allocs := a }) with
              ⟨n', h2, h3⟩ | ⟨h2, h3⟩
            · refine .inr (.inr (.inl ⟨rfl, a, n', h2, hx.trans (loopM_inr ?_)⟩))
              dsimp only [insertStep]
              rw [M.bind_ok hd]
              simp only [hc, Ref.hasRight, Link.isNil, Bool.not_true, Bool.not_false, if_true]
              rw [M.bind_ok (onRoot_ok h1)]
              exact M.bind_ok h3
            · refine .inr (.inr (.inr (.inl ⟨rfl, a, h2, hx.trans (loopM_panic ?_)⟩)))
              dsimp only [insertStep]
              rw [M.bind_ok hd]
              simp only [hc, Ref.hasRight, Link.isNil, Bool.not_true, Bool.not_false, if_true]
              rw [M.bind_ok (onRoot_ok h1)]
              exact M.bind_panic h3
          · refine .inr (.inr (.inr (.inr (hx.trans (loopM_abort ?_)))))
            dsimp only [insertStep]
            rw [M.bind_ok hd]
            simp only [hc, Ref.hasRight, Link.isNil, Bool.not_true, Bool.not_false, if_true]
            exact M.bind_abort (onRoot_pure h1)
        | node lk lv ll lr =>
          rw [← hl]
          have hl' : r ≠ .nil := by rw [hl]; simp
          have h1 := ihr (q ++ [true]) (i + 1) n (by omega) (Link.at_right hq) hl' x (by
            rw [hx]
            refine loopM_inl ?_
            dsimp only [insertStep]
            rw [M.bind_ok hd]
            simp only [hc, hl, Ref.hasRight, Link.isNil, Bool.not_false, Bool.not_true]
            exact M.bind_ok (onRoot_pure (rightMut_ok (w := ⟨m.root, m.allocs⟩) (hl ▸ hq))))
          simpa only [Link.put_right hq] using h1
      | eq =>
        refine .inr (.inl ⟨(k', v'), rfl, hx.trans (loopM_inr ?_)⟩)
        dsimp only [insertStep]
        rw [M.bind_ok hd]
        simp only [hc]
        exact M.bind_ok (onRoot_ok (swapValue_ok (w := ⟨m.root, m.allocs⟩) hq v))

theorem insert_any (cfg : Cfg) (c : Probe K) (k : K) (v : V) (m : Map K V) :
    ∃ o m', insert cfg c k v m = (o, m') ∧
      ((o, book m') = Book.insert cfg c k v (book m) ∨ o = .abort) := by
  cases hr : m.root with
  | nil =>
    have h1 : m.rootMut = none := by simp [rootMut, rootRef, hr, Ref.of]
    have h2 : (book m).tree = .nil := by simp [book, hr, Link.view]
    have h3 : insert cfg c k v m = (match debugAssert cfg (m.len == 0) with
        | .ok _ => (.ok none, ⟨.node k v .nil .nil, 1, m.allocs⟩)
        | _ => (.panic, ⟨.node k v .nil .nil, m.len, m.allocs⟩)) := by
      unfold insert
      rw [M.get_bind, h1]
      simp only [M.modify_bind, M.get_bind]
      unfold debugAssert
      split <;> rfl
    unfold Book.insert
    rw [h2]
    simp only [BT.search, BT.isNil, if_true]
    rw [h3]
    have h4 : (!(m.len == 0)) = ((book m).count != 0) := rfl
    unfold debugAssert
    rw [h4]
    cases cfg.debug && (book m).count != 0 with
    | true => exact ⟨_, _, rfl, .inl rfl⟩
    | false => exact ⟨_, _, rfl, .inl rfl⟩
  | node k' v' l r =>
    have hnil : m.root ≠ .nil := by rw [hr]; simp
    have h1 : m.rootMut = some [] := by simp [rootMut, rootRef, hr, Ref.of]
    have key := insert_loop cfg c k v m m.root [] 0 m.fuel (Nat.lt_succ_self _) (by simp) hnil
      (insert cfg c k v m) (by unfold insert; rw [M.get_bind, h1])
    have h2 : (book m).tree.isNil = false := by simp [book, hr, Link.view, BT.isNil]
    unfold Book.insert
    rw [h2]
    have h3 : (book m).tree.search c 0 = m.root.find c 0 := Link.search_view c 0 m.root
    have h4 : (book m).tree.insertBy c k v 0 = (m.root.ins c k v 0).view :=
      (Link.insertBy_view c k v 0 m.root).symm
    rw [h3, h4]
    simp only [Link.put_nil] at key
    rcases key with ⟨hf, hi⟩ | ⟨e, hf, hi⟩ | ⟨hf, a, n, hu, hi⟩ | ⟨hf, a, hu, hi⟩ | hi
    · rw [hf]; exact ⟨_, _, hi, .inl rfl⟩
    · rw [hf]; exact ⟨_, _, hi, .inl rfl⟩
    · have hu' : Book.up cfg (book m).count = some n := hu
      simp only [hf, hu', Bool.false_eq_true, if_false]
      exact ⟨_, _, hi, .inl rfl⟩
    · have hu' : Book.up cfg (book m).count = none := hu
      simp only [hf, hu', Bool.false_eq_true, if_false]
      exact ⟨_, _, hi, .inl rfl⟩
    · exact ⟨_, _, hi, .inr rfl⟩

theorem takeOut_any (cfg : Cfg) {m : Map K V} {p : Place} {par : Option Place} {k : K}
    {v : V} {l r : Link K V} (hat : m.root.at' p = .node k v l r)
    (hpar : (par = none ∧ p = []) ∨ ∃ q b, par = some q ∧ p = q ++ [b]) :
    (∃ b n, Book.down cfg m.len = some n ∧
      takeOut cfg par p m = (.ok (k, v), ⟨Link.put (l.join r) p m.root, n, b⟩)) ∨
    (Book.down cfg m.len = none ∧ takeOut cfg par p m = (.panic, m)) ∨
    ∃ m', takeOut cfg par p m = (.abort, m') := by
  have hne : m.root.at' p ≠ .nil := by rw [hat]; simp
  unfold takeOut
  rw [M.bind_ok (onRoot_pure (deref_ok (w := ⟨m.root, m.allocs⟩) hat))]
  rcases subLen_down cfg m with ⟨n, hn, h2⟩ | ⟨hn, h2⟩
  · rw [M.bind_ok h2]
    have h3 := onRoot_ok (m := { m with len := n })
      (takeLeft_ok (w := ⟨m.root, m.allocs⟩) hat)
    rw [M.bind_ok h3]
    have h4 := onRoot_ok
      (m := ⟨Link.put (.node k v .nil r) p m.root, n, m.allocs⟩)
      (takeRight_ok (w := ⟨Link.put (.node k v .nil r) p m.root, m.allocs⟩) (Link.at_put hne _))
    rw [M.bind_ok h4]
    dsimp only
    rw [Link.put_put]
    rcases replacement_spec cfg l r ⟨Link.put (.node k v .nil .nil) p m.root, n, m.allocs⟩ with
      ⟨a, h5⟩ | ⟨m', h5, _⟩
    · rw [M.bind_ok h5]
      rcases unlink_spec cfg hat hpar (l.join r) n a with ⟨b, h6⟩ | ⟨m', h6, _⟩
      · exact .inl ⟨b, n, hn, h6⟩
      · exact .inr (.inr ⟨m', h6⟩)
    · exact .inr (.inr ⟨m', M.bind_abort h5⟩)
  · exact .inr (.inl ⟨hn, M.bind_panic h2⟩)

theorem removeEntry_any (cfg : Cfg) (c : Probe K) (m : Map K V) :
    ∃ o m', removeEntry cfg c m = (o, m') ∧
      ((o, book m') = Book.remove cfg c (book m) ∨ o = .abort) := by
  have h3 : (book m).tree.search c 0 = m.root.find c 0 := Link.search_view c 0 m.root
  have h4 : (book m).tree.eraseBy c 0 = (m.root.del c 0).view :=
    (Link.eraseBy_view c 0 m.root).symm
  unfold Book.remove
  rw [h3, h4]
  unfold removeEntry
  rw [M.get_bind]
  rcases find_loop c m m.root none [] 0 m.fuel (Nat.lt_succ_self _) (by simp) (.inl ⟨rfl, rfl⟩) with
    ⟨hf, h1⟩ | ⟨e, par, hf, h1, hpar⟩
  · rw [hf]
    exact ⟨_, _, M.bind_panic (m := findWithParent c m) h1, .inl rfl⟩
  rw [M.bind_ok (m := findWithParent c m) h1]
  cases e with
  | none =>
    rw [hf]
    exact ⟨_, _, rfl, .inl rfl⟩
  | some e =>
    obtain ⟨l, r, hat⟩ := Link.find_at hf
    have hdel := Link.del_hit hf hat
    replace hpar := hpar rfl
    simp only [Option.map_some, List.nil_append] at hpar ⊢
    rcases takeOut_any cfg hat hpar with ⟨b, n, hn, h2⟩ | ⟨hn, h2⟩ | ⟨m', h2⟩
    · have hn' : Book.down cfg (book m).count = some n := hn
      refine ⟨_, _, M.bind_ok h2, .inl ?_⟩
      simp only [hf, hn', hdel]
      rfl
    · have hn' : Book.down cfg (book m).count = none := hn
      refine ⟨_, _, M.bind_panic h2, .inl ?_⟩
      simp only [hf, hn']
    · exact ⟨_, _, M.bind_abort h2, .inr rfl⟩

theorem clone_any (cfg : Cfg) (cloneK : K → Option K) (cloneV : V → Option V) (m : Map K V) :
    (∃ m', m.root.view.mapM (clonePair cloneK cloneV) = some m'.root.view ∧ m'.len = m.len ∧
      clone cfg cloneK cloneV m = (.ok (), m')) ∨
    (∃ m', m.root.view.mapM (clonePair cloneK cloneV) = none ∧
      clone cfg cloneK cloneV m = (.panic, m')) ∨
    (∃ m', clone cfg cloneK cloneV m = (.abort, m')) := by
  unfold clone
  rcases cloneLink_spec cfg cloneK cloneV m.root false m.allocs with
    ⟨a, u, hu, h⟩ | ⟨a, hu, h⟩ | ⟨a, h, hn⟩
  · rw [h]; exact .inl ⟨⟨u, m.len, a⟩, hu, rfl, rfl⟩
  · rw [h]; exact .inr (.inl ⟨_, hu, rfl⟩)
  · rw [h]; exact .inr (.inr ⟨_, rfl⟩)
end Map

theorem bookInsert_cases (cfg : Cfg) (c : Probe K) (k : K) (v : V) (s : Book K V) :
    ∃ s', (∃ r, Book.insert cfg c k v s = (.ok r, s')) ∨ Book.insert cfg c k v s = (.panic, s') := by
  unfold Book.insert
  split
  · split
    · split
      · exact ⟨_, .inr rfl⟩
      · exact ⟨_, .inl ⟨_, rfl⟩⟩
    · split
      · exact ⟨_, .inl ⟨_, rfl⟩⟩
      · exact ⟨_, .inr rfl⟩
  · exact ⟨_, .inl ⟨_, rfl⟩⟩
  · exact ⟨_, .inr rfl⟩

theorem insertAll_any (cfg : Cfg) (cmps : Nat → K → Probe K) (l : List (K × V)) (n : Nat)
    (m : Map K V) :
    ∃ o m', Map.insertAll cfg cmps n l m = (o, m') ∧
      (((o, book m') = Book.insertAll cfg cmps n l (book m) ∧ (o = .ok () ∨ o = .panic)) ∨
        o = .abort) := by
  induction l generalizing n m with
  | nil => exact ⟨_, _, rfl, .inl ⟨rfl, .inl rfl⟩⟩
  | cons e l ih =>
    obtain ⟨k, v⟩ := e
    obtain ⟨o, m1, h1, h2⟩ := Map.insert_any cfg (cmps n k) k v m
    rcases h2 with h2 | rfl
    · obtain ⟨s', ⟨r, h3⟩ | h3⟩ := bookInsert_cases cfg (cmps n k) k v (book m)
      · rw [h3] at h2
        obtain ⟨rfl, hs⟩ := Prod.mk.inj h2
        obtain ⟨o, m2, h4, h5⟩ := ih (n + 1) m1
        refine ⟨o, m2, (M.bind_ok h1).trans h4, ?_⟩
        simp only [Book.insertAll, h3, ← hs]
        exact h5
      · rw [h3] at h2
        obtain ⟨rfl, hs⟩ := Prod.mk.inj h2
        refine ⟨.panic, m1, M.bind_panic h1, .inl ⟨?_, .inr rfl⟩⟩
        simp only [Book.insertAll, h3, ← hs]
    · exact ⟨.abort, m1, M.bind_abort h1, .inr rfl⟩

theorem extend_any (cfg : Cfg) (cmps : Nat → K → Probe K) (src : BSTMap.Source K V) (m : Map K V) :
    ∃ o m', Map.extend cfg cmps src m = (o, m') ∧
      (((o, book m') = Book.extend cfg cmps src (book m) ∧ (o = .ok () ∨ o = .panic)) ∨
        o = .abort) := by
  obtain ⟨o, m', h1, ⟨h2, rfl | rfl⟩ | rfl⟩ := insertAll_any cfg cmps src.items 0 m
  · unfold Book.extend
    rw [← h2]
    cases hp : src.panics with
    | true => exact ⟨.panic, m', (M.bind_ok h1).trans (by rw [hp]; rfl), .inl ⟨rfl, .inr rfl⟩⟩
    | false => exact ⟨.ok (), m', (M.bind_ok h1).trans (by rw [hp]; rfl), .inl ⟨rfl, .inl rfl⟩⟩
  · unfold Book.extend
    rw [← h2]
    exact ⟨.panic, m', M.bind_panic h1, .inl ⟨rfl, .inr rfl⟩⟩
  · exact ⟨.abort, m', M.bind_abort h1, .inr rfl⟩

theorem ask_eq {α : Type} (c : Probe K) (f : Option (K × V) → α) (m : Map K V) :
    Book.ask c f (book m) = ((m.root.find c 0).map f, book m) := by
  unfold Book.ask
  rw [show (book m).tree.search c 0 = m.root.find c 0 from Link.search_view c 0 m.root]
  rcases m.root.find_ok_or_panic c 0 with hf | ⟨e, hf⟩ <;> rw [hf] <;> rfl

theorem as_eq {α β : Type} (f : α → β) (o : Out α) (s : Book K V) :
    Book.as f (o, s) = (o.map f, s) := by cases o <;> rfl

theorem run_any (cfg : Cfg) (m : Map K V) (op : SimpleOp K V) :
    ∃ o m', op.run cfg m = (o, m') ∧
      ((o, book m') = Book.call cfg op (book m) ∨ (o = .abort ∧ op.Allocates)) := by
  cases op with
  | collect cmps src =>
    obtain ⟨o, m', h1, h2⟩ := extend_any cfg cmps src ⟨.nil, 0, m.allocs⟩
    have h1 : Map.fromIter cfg cmps src m.allocs = (o, m') := h1
    have hb : book (⟨.nil, 0, m.allocs⟩ : Map K V) = ⟨.nil, 0⟩ := rfl
    rw [hb] at h2
    rcases h2 with ⟨h2, rfl | rfl⟩ | rfl
    · refine ⟨_, _, M.map_eq (assign_ok h1), .inl ?_⟩
      rw [Book.call, ← h2]; rfl
    · refine ⟨_, _, M.map_eq (assign_panic (f := fun m => Map.fromIter cfg cmps src m.allocs) h1),
        .inl ?_⟩
      rw [Book.call, ← h2]; rfl
    · exact ⟨_, _, M.map_eq (assign_abort (f := fun m => Map.fromIter cfg cmps src m.allocs) h1),
        .inr ⟨rfl, trivial⟩⟩
  | cloned cloneK cloneV =>
    have he : (book m).tree.mapM (fun e => do pure (← cloneK e.1, ← cloneV e.2)) =
      m.root.view.mapM (clonePair cloneK cloneV) := rfl
    rcases Map.clone_any cfg cloneK cloneV m with ⟨m', h1, h2, h3⟩ | ⟨m', h1, h2⟩ | ⟨m', h1⟩
    · refine ⟨_, _, M.map_eq (assign_ok h3), .inl ?_⟩
      rw [Book.call, he, h1]
      simp only [book, h2]; rfl
    · refine ⟨_, _, M.map_eq (assign_panic h2), .inl ?_⟩
      rw [Book.call, he, h1]; rfl
    · exact ⟨_, _, M.map_eq (assign_abort h1), .inr ⟨rfl, trivial⟩⟩
  | insert c k v =>
    obtain ⟨o, m', h1, h2 | rfl⟩ := Map.insert_any cfg c k v m
    · refine ⟨_, _, M.map_eq h1, .inl ?_⟩
      rw [Book.call, ← h2, as_eq]
    · exact ⟨_, _, M.map_eq h1, .inr ⟨rfl, trivial⟩⟩
  | remove c =>
    obtain ⟨o, m', h1, h2 | rfl⟩ := Map.removeEntry_any cfg c m
    · refine ⟨_, _, M.map_eq (M.map_eq h1), .inl ?_⟩
      rw [Book.call, ← h2, as_eq]
      cases o <;> rfl
    · exact ⟨_, _, M.map_eq (M.map_eq h1), .inr ⟨rfl, trivial⟩⟩
  | removeEntry c =>
    obtain ⟨o, m', h1, h2 | rfl⟩ := Map.removeEntry_any cfg c m
    · refine ⟨_, _, M.map_eq h1, .inl ?_⟩
      rw [Book.call, ← h2, as_eq]
    · exact ⟨_, _, M.map_eq h1, .inr ⟨rfl, trivial⟩⟩
  | get c =>
    refine ⟨_, _, M.map_eq (f := M.read (Map.get c)) rfl, .inl ?_⟩
    rw [get_spec, Book.call, ask_eq]
    rcases m.root.find_ok_or_panic c 0 with hf | ⟨e, hf⟩ <;> rw [hf] <;> rfl
  | getEntry c =>
    refine ⟨_, _, M.map_eq (f := M.read (Map.getEntry c)) rfl, .inl ?_⟩
    rw [getEntry_spec, Book.call, ask_eq]
  | containsKey c =>
    refine ⟨_, _, M.map_eq (f := M.read (Map.containsKey c)) rfl, .inl ?_⟩
    rw [containsKey_spec, Book.call, ask_eq]
    rcases m.root.find_ok_or_panic c 0 with hf | ⟨e, hf⟩ <;> rw [hf] <;> rfl
  | getMut c w =>
    have hg := Map.getMut_spec c m
    have hw : (book m).tree = m.root.view := rfl
    rcases m.root.find_ok_or_panic c 0 with hf | ⟨e, hf⟩
    · rw [hf] at hg
      refine ⟨_, _, M.bind_panic hg, .inl ?_⟩
      rw [Book.call, ask_eq, hf, hw, Link.writeBy_miss (.inr hf)]; rfl
    · rw [hf] at hg
      cases e with
      | none =>
        refine ⟨.ok (.value none), m, M.bind_ok hg, .inl ?_⟩
        rw [Book.call, ask_eq, hf, hw, Link.writeBy_miss (.inl hf)]; rfl
      | some e =>
        obtain ⟨l, r, hat⟩ := Link.find_at hf
        have h1 := Map.onRoot_ok (swapValue_ok (w := ⟨m.root, m.allocs⟩) hat w)
        refine ⟨_, _, (M.bind_ok hg).trans (M.map_eq h1), .inl ?_⟩
        rw [Book.call, ask_eq, hf, hw, ← Link.writeBy_hit hf]
        simp only [Link.setAt, hat]; rfl
  | node path =>
    refine ⟨_, m, rfl, .inl ?_⟩
    have : Simple.nodeAt path m = _ := goRef_eq path m.root []
    rw [this, goRef_info, view_at]; rfl
  | nodeMut path w =>
    have hn := nodeMutAt_eq path m
    have hv : _ = (book m).tree.sub path := view_at path m.root
    have hs : _ = (book m).tree.writeAt w path := Link.writeAt_view w path m.root
    cases hat : m.root.at' path with
    | nil =>
      rw [hat] at hn hv
      refine ⟨.ok (.entry none), m, M.bind_ok hn, .inl ?_⟩
      rw [Book.call, ← hv, ← hs, Link.setAt, hat]; rfl
    | node k v l r =>
      rw [hat] at hn hv
      have h0 := Map.onRoot_pure (m := m) (deref_ok (w := ⟨m.root, m.allocs⟩) hat)
      have h1 := Map.onRoot_ok (m := m) (swapValue_ok (w := ⟨m.root, m.allocs⟩) hat w)
      refine ⟨_, _, (M.bind_ok hn).trans ((M.bind_ok h0).trans (M.map_eq h1)), .inl ?_⟩
      rw [Book.call, ← hv, ← hs]; simp only [Link.setAt, hat]; rfl
  | iter o n =>
    obtain ⟨st, h1⟩ := Map.nexts_eq o m n
    refine ⟨.ok (.items (((m.root.view.order o).map some ++ List.replicate n none).take n)), m, ?_,
      .inl rfl⟩
    show (M.get >>= _) m = _
    rw [M.get_bind, h1, M.lift_ok_bind]
    rfl
  | iterMut o n =>
    cases n with
    | zero => exact ⟨.ok .unit, m, rfl, .inl rfl⟩
    | succ n => exact ⟨.panic, m, rfl, .inl rfl⟩
  | len => exact ⟨.ok (.nat m.len), m, rfl, .inl rfl⟩
  | isEmpty =>
    refine ⟨(Map.isEmpty cfg m).map .bool, m, ?_, .inl ?_⟩
    · exact M.map_eq (f := M.read (Map.isEmpty cfg)) rfl
    · have h : Map.isEmpty cfg m = if cfg.debug && (book m).count == 0 && !(book m).tree.isNil
          then .panic else .ok ((book m).count == 0) := by
        unfold Map.isEmpty debugAssert
        rw [show (book m).tree.isNil = m.root.isNil from Link.isNil_view m.root,
          show (book m).count = m.len from rfl]
        cases cfg.debug <;> cases m.root.isNil <;> cases hl : m.len <;> rfl
      rw [h, Book.call]
      split <;> rfl
  | clear => exact ⟨.ok .unit, _, rfl, .inl rfl⟩
  | extend cmps src =>
    obtain ⟨o, m', h1, ⟨h2, _⟩ | rfl⟩ := extend_any cfg cmps src m
    · refine ⟨_, _, M.map_eq h1, .inl ?_⟩
      rw [Book.call, ← h2, as_eq]
    · exact ⟨_, _, M.map_eq h1, .inr ⟨rfl, trivial⟩⟩
  | debug dk dv =>
    refine ⟨_, _, debug_run cfg dk dv m, .inl ?_⟩
    have e : m.debug dk dv = "SimpleBSTMap { root: " ++ m.root.view.debugMap dk dv ++ ", len: " ++
        toString m.len ++ " }" := by
      unfold Map.debug
      rw [Map.debugLink_eq]
    rw [e]
    rfl

theorem node_run_any (cfg : Cfg) (m : Map K V) (op : NodeOp K V) :
    ∃ o m', op.run cfg m = (o, m') ∧
      ((o, book m') = Book.answer cfg op (book m) ∨ (o = .abort ∧ op.Allocates)) := by
  cases op with
  | call op =>
    obtain ⟨o, m', h1, h2 | ⟨rfl, h2⟩⟩ := run_any cfg m op
    · refine ⟨_, _, M.map_eq h1, .inl ?_⟩
      dsimp only [Book.answer]
      rw [← h2, as_eq]
    · exact ⟨_, _, M.map_eq h1, .inr ⟨rfl, h2⟩⟩
  | replace path k v l r =>
    have hn := nodeMutAt_eq path m
    have hv : _ = (book m).tree.sub path := view_at path m.root
    have hg : BT.graft _ path (book m).tree = _ := Link.graft_view (.node k v l r) path m.root
    cases hat : m.root.at' path with
    | nil =>
      rw [hat] at hn hv hg
      refine ⟨.ok (.old .nil), m, M.bind_ok hn, .inl ?_⟩
      dsimp only [Book.answer]
      rw [← hv, show BT.node l.view (k, v) r.view = (Link.node k v l r).view from rfl, hg]
      rfl
    | node k' v' l' r' =>
      rw [hat] at hn hv hg
      have h0 := Map.onRoot_pure (m := m) (deref_ok (w := ⟨m.root, m.allocs⟩) hat)
      refine ⟨_, _, (M.bind_ok hn).trans (M.bind_ok h0), .inl ?_⟩
      dsimp only [Book.answer]
      rw [← hv, show BT.node l.view (k, v) r.view = (Link.node k v l r).view from rfl, hg]
      rfl

/-! ### Histories -/

/-- Returns or panics. -/
def Plain {α : Type} : Out α → Prop
  | .ok _ => True
  | .panic => True
  | _ => False

theorem Plain.map {α β : Type} {o : Out α} (h : Plain o) (f : α → β) : Plain (o.map f) := by
  cases o <;> exact h

theorem bookExtend_plain (cfg : Cfg) (cmps : Nat → K → Probe K) (src : BSTMap.Source K V)
    (s : Book K V) : Plain (Book.extend cfg cmps src s).1 := by
  unfold Book.extend
  split
  · dsimp only; split <;> trivial
  · trivial

theorem call_plain (cfg : Cfg) (op : SimpleOp K V) (s : Book K V) : Plain (Book.call cfg op s).1 := by
  have hask : ∀ {α : Type} (c : Probe K) (f : Option (K × V) → α), Plain (Book.ask c f s).1 := by
    intro α c f; unfold Book.ask; split <;> trivial
  have hrem : ∀ c, Plain (Book.remove cfg c s).1 := by
    intro c
    unfold Book.remove
    split
    · trivial
    · split <;> trivial
    · trivial
  have has : ∀ {α β : Type} (f : α → β) (x : Out α × Book K V), Plain x.1 → Plain (Book.as f x).1 := by
    intro α β f x h
    rw [show x = (x.1, x.2) from rfl, as_eq]
    exact h.map f
  cases op with
  | collect cmps src => dsimp only [Book.call]; split <;> trivial
  | cloned ck cv => dsimp only [Book.call]; split <;> trivial
  | insert c k v =>
    refine has _ _ ?_
    obtain ⟨s', ⟨r, h⟩ | h⟩ := bookInsert_cases cfg c k v s <;> rw [h] <;> trivial
  | remove c => exact has _ _ (hrem c)
  | removeEntry c => exact has _ _ (hrem c)
  | get c => exact hask _ _
  | getEntry c => exact hask _ _
  | containsKey c => exact hask _ _
  | getMut c w => exact hask _ _
  | node path => trivial
  | nodeMut path w => trivial
  | iter o n => trivial
  | iterMut o n => dsimp only [Book.call]; split <;> trivial
  | len => trivial
  | isEmpty => dsimp only [Book.call]; split <;> trivial
  | clear => trivial
  | extend cmps src => exact has _ _ (bookExtend_plain cfg cmps src s)
  | debug dk dv => trivial

theorem answer_plain (cfg : Cfg) (op : NodeOp K V) (s : Book K V) : Plain (Book.answer cfg op s).1 := by
  cases op with
  | call op =>
    dsimp only [Book.answer]
    rw [show Book.call cfg op s = ((Book.call cfg op s).1, (Book.call cfg op s).2) from rfl, as_eq]
    exact (call_plain cfg op s).map _
  | replace => trivial

theorem execute_plain {S O R : Type} {run : O → M S R} {op : O} {s s' : S} {o : Out R}
    (h : run op s = (o, s')) (ho : Plain o) (ops : List O) :
    execute run (op :: ops) s = (o :: (execute run ops s').1, (execute run ops s').2) := by
  cases o with
  | ok r => simp only [execute, h]
  | panic => simp only [execute, h]
  | _ => exact ho.elim

theorem node_history (cfg : Cfg) (ops : List (NodeOp K V)) (m : Map K V) :
    ∃ os m', execute (NodeOp.run cfg) ops m = (os, m') ∧
      ((os, book m') = execute (Book.answer cfg) ops (book m) ∨
       ∃ pre op post, ops = pre ++ op :: post ∧ op.Allocates ∧
         os = (execute (Book.answer cfg) pre (book m)).1 ++ [.abort]) := by
  induction ops generalizing m with
  | nil => exact ⟨[], m, rfl, .inl rfl⟩
  | cons op ops ih =>
    obtain ⟨o, m1, h1, h2 | ⟨rfl, h2⟩⟩ := node_run_any cfg m op
    · have hp := answer_plain cfg op (book m)
      rw [← h2] at hp
      obtain ⟨os, m2, h3, h4⟩ := ih m1
      refine ⟨o :: os, m2, ?_, ?_⟩
      · rw [execute_plain h1 hp, h3]
      · rcases h4 with h4 | ⟨pre, op', post, rfl, ha, rfl⟩
        · rw [execute_plain h2.symm hp, ← h4]
          exact .inl rfl
        · refine .inr ⟨op :: pre, op', post, rfl, ha, ?_⟩
          rw [execute_plain h2.symm hp]
          rfl
    · exact ⟨[.abort], m1, by simp only [execute, h1], .inr ⟨[], op, ops, rfl, h2, rfl⟩⟩

/-- Every outcome is plain, or an abort of a call that allocates. -/
theorem node_outcomes (cfg : Cfg) (ops : List (NodeOp K V)) (m : Map K V) :
    ∀ x ∈ ops.zip (execute (NodeOp.run cfg) ops m).1,
      (∃ r, x.2 = .ok r) ∨ x.2 = .panic ∨ (x.2 = .abort ∧ x.1.Allocates) := by
  induction ops generalizing m with
  | nil => intro x hx; cases hx
  | cons op ops ih =>
    intro x hx
    obtain ⟨o, m1, h1, h2 | ⟨rfl, h2⟩⟩ := node_run_any cfg m op
    · have hp := answer_plain cfg op (book m)
      rw [← h2] at hp
      rw [execute_plain h1 hp] at hx
      rcases List.mem_cons.1 hx with rfl | hx
      · cases o with
        | ok r => exact .inl ⟨r, rfl⟩
        | panic => exact .inr (.inl rfl)
        | _ => exact hp.elim
      · exact ih m1 x hx
    · simp only [execute, h1] at hx
      rcases List.mem_cons.1 hx with rfl | hx
      · exact .inr (.inr ⟨rfl, h2⟩)
      · simp at hx

/-- Writes that leave order and size as they are. -/
theorem node_history_tree {cfg : Cfg} (he : 2 ≤ cfg.esize) {cmp : K → K → Ordering}
    [Std.TransCmp cmp] (ops : List (NodeOp K V)) (hops : ∀ op ∈ ops, op.Lawful cmp) {m : Map K V}
    (hw : Wf m) (hs : m.root.Sorted cmp)
    (hk : ∀ pre path k v l r post, ops = pre ++ .replace path k v l r :: post →
      Spec.Keeps cmp (execute (NodeOp.run cfg) pre m).2.root.view (.node l.view (k, v) r.view) path) :
    ∃ os m' b, execute (NodeOp.run cfg) ops m = (os, m') ∧
      Spec.Conforms (Spec.NodeAnswer cmp) ops os m.root.view b ∧
      (Out.abort ∉ os → Wf m' ∧ m'.root.view = b) := by
  induction ops generalizing m with
  | nil => exact ⟨[], m, _, rfl, rfl, fun _ => ⟨hw, rfl⟩⟩
  | cons op ops ih =>
    have step : ∀ o m1, op.run cfg m = (o, m1) → Plain o → Wf m1 → m1.root.Sorted cmp →
        Spec.NodeAnswer cmp m.root.view o m1.root.view op →
        ∃ os m' b, execute (NodeOp.run cfg) (op :: ops) m = (os, m') ∧
          Spec.Conforms (Spec.NodeAnswer cmp) (op :: ops) os m.root.view b ∧
          (Out.abort ∉ os → Wf m' ∧ m'.root.view = b) := by
      intro o m1 h1 hp hw1 hs1 ha
      obtain ⟨os, m', b, g1, g2, g3⟩ := ih (fun op hop => hops op (by simp [hop])) hw1 hs1
        (fun pre path k v l r post hpre => by
          have := hk (op :: pre) path k v l r post (by rw [hpre]; rfl)
          rw [execute_plain h1 hp] at this
          exact this)
      refine ⟨o :: os, m', b, by rw [execute_plain h1 hp, g1], ⟨_, ha, .inr ⟨?_, g2⟩⟩,
        fun hm => g3 fun hh => hm (List.mem_cons_of_mem _ hh)⟩
      rintro rfl
      exact hp
    cases op with
    | call op =>
      have hl : op.Lawful cmp := hops (.call op) (by simp)
      obtain ⟨o, m1, h1, ⟨h2, hw1⟩ | ⟨rfl, h2, _⟩⟩ := run_sem he cmp hw op
      · obtain ⟨h4, _⟩ := sem_cases cmp op h2.symm
        obtain ⟨hs1, _, ha⟩ := sem_tree hl hs h2.symm
        have hp : Plain o := by rcases h4 with ⟨r, rfl⟩ | ⟨rfl, _⟩ <;> trivial
        refine step (o.map .ret) m1 (M.map_eq h1) (hp.map _) hw1 hs1 ⟨o, ?_, ha⟩
        cases o <;> rfl
      · refine ⟨[.abort], m1, m.root.view, by simp only [execute, NodeOp.run, M.bind_abort h1],
          ⟨m.root.view, ⟨.abort, rfl, ?_⟩, .inl ⟨rfl, rfl, rfl⟩⟩, by simp⟩
        cases op <;> first | exact .inl ⟨rfl, h2⟩ | exact h2.elim
    | replace path k v l r =>
      obtain ⟨o, m1, h1, h2 | ⟨_, h2⟩⟩ := node_run_any cfg m (.replace path k v l r)
      · obtain ⟨rfl, hb⟩ := Prod.mk.inj h2
        have hk0 := hk [] path k v l r ops rfl
        have hr : m1.root.view = BT.graft (.node l.view (k, v) r.view) path m.root.view :=
          congrArg Book.tree hb
        have hn : m1.len = m.len := congrArg Book.count hb
        obtain ⟨k1, k2⟩ : Spec.Keeps cmp m.root.view (.node l.view (k, v) r.view) path := hk0
        rw [← hr] at k1 k2
        refine step _ m1 h1 trivial ?_ k2 ⟨rfl, hr⟩
        rw [view_size', view_size'] at k1
        unfold Wf at hw ⊢
        rw [hn, hw, k1]
      · exact h2.elim

theorem swapNodes_eq {cfg : Cfg} (p q : List Bool) (a b : Map K V) {ka kb : K} {va vb : V}
    {la ra lb rb : Link K V} (ha : a.root.at' p = .node ka va la ra)
    (hb : b.root.at' q = .node kb vb lb rb) :
    swapNodes p q (a, b) = (.ok true, ((NodeOp.run cfg (.replace p kb vb lb rb) a).2,
      (NodeOp.run cfg (.replace q ka va la ra) b).2)) := by
  have h1 := nodeMutAt_eq p a
  have h2 := nodeMutAt_eq q b
  rw [ha] at h1
  rw [hb] at h2
  have e1 := Map.onRoot_pure (m := a) (deref_ok (w := ⟨a.root, a.allocs⟩) ha)
  have e2 := Map.onRoot_pure (m := b) (deref_ok (w := ⟨b.root, b.allocs⟩) hb)
  unfold swapNodes NodeOp.run
  simp only [h1, h2, Ref.of, Option.map_some]
  rw [M.bind_ok h1, M.bind_ok h2]
  simp only [Ref.of, Option.map_some]
  rw [M.bind_ok e1, M.bind_ok e2, ha, hb]
  rfl

end BST.Simple
