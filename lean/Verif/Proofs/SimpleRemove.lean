import Verif.Proofs.SimpleOps
/-!
# `SimpleBSTMap::remove_entry`
-/
set_option linter.unusedSimpArgs false
namespace BST.Simple.Map
variable {K V : Type}
open Spec (BT)

theorem find_loop (c : Probe K) (m : Map K V) (t : Link K V) (par : Option Place) (q : Place)
    (i n : Nat) (hn : t.size < n) (hq : m.root.at' q = t)
    (hp : (par = none ∧ q = []) ∨ ∃ q' b, par = some q' ∧ q = q' ++ [b]) :
    (t.find c i = .panic ∧
      loop n (findStep c) (i, par, (Ref.of q t).map (·.place)) m = (.panic, m)) ∨
    ∃ e par', t.find c i = .ok e ∧
      loop n (findStep c) (i, par, (Ref.of q t).map (·.place)) m =
        (.ok (par', e.map fun _ => q ++ t.path c i), m) ∧
      (e.isSome → (par' = none ∧ q ++ t.path c i = []) ∨
        ∃ q' b, par' = some q' ∧ q ++ t.path c i = q' ++ [b]) := by
  induction t generalizing q par i n with
  | nil =>
    obtain ⟨n, rfl⟩ : ∃ k, n = k + 1 := ⟨n - 1, by omega⟩
    exact .inr ⟨none, par, rfl, loopM_inr rfl, nofun⟩
  | node k v l r ihl ihr =>
    simp only [Link.size] at hn
    obtain ⟨n, rfl⟩ : ∃ k, n = k + 1 := ⟨n - 1, by omega⟩
    have hd := onRoot_pure (m := m) (deref_ok (w := ⟨m.root, m.allocs⟩) hq)
    unfold Link.find Link.path
    cases hc : c i k with
    | none =>
      refine .inl ⟨rfl, loopM_panic ?_⟩
      dsimp only [findStep, Ref.of, Option.map_some]
      rw [M.bind_ok hd]
      simp [hc]
    | some o =>
      cases o with
      | lt =>
        rw [loopM_inl (b' := (i + 1, some q, (Ref.of (q ++ [false]) l).map (·.place))) (s' := m)]
        · have := ihl (some q) (q ++ [false]) (i + 1) n (by omega) (Link.at_left hq)
            (.inr ⟨q, false, rfl, rfl⟩)
          simpa using this
        · dsimp only [findStep, Ref.of, Option.map_some]
          rw [M.bind_ok hd]
          simp only [hc]
          exact M.bind_ok (onRoot_pure (leftMut_ok (w := ⟨m.root, m.allocs⟩) hq))
      | gt =>
        rw [loopM_inl (b' := (i + 1, some q, (Ref.of (q ++ [true]) r).map (·.place))) (s' := m)]
        · have := ihr (some q) (q ++ [true]) (i + 1) n (by omega) (Link.at_right hq)
            (.inr ⟨q, true, rfl, rfl⟩)
          simpa using this
        · dsimp only [findStep, Ref.of, Option.map_some]
          rw [M.bind_ok hd]
          simp only [hc]
          exact M.bind_ok (onRoot_pure (rightMut_ok (w := ⟨m.root, m.allocs⟩) hq))
      | eq =>
        refine .inr ⟨some (k, v), par, rfl, (loopM_inr (a := (par, some q)) (s' := m) ?_).trans ?_, ?_⟩
        · dsimp only [findStep, Ref.of, Option.map_some]
          rw [M.bind_ok hd]
          simp [hc]
        · simp
        · simpa using hp

theorem succ_loop (w : Own K V) (l r : Link K V) (k : K) (v : V) (q : Place) (n : Nat)
    (hl : l ≠ .nil) (hn : l.size ≤ n) (hq : w.root.at' q = .node k v l r) :
    ∃ p sk sv sr pk pv pr, loop n succStep (q, q ++ [false]) w = (.ok (p, p ++ [false]), w) ∧
      w.root.at' p = .node pk pv (.node sk sv .nil sr) pr ∧
      (Link.popMin k v r l).1 = (sk, sv) ∧
      Link.put (.node pk pv sr pr) p w.root = Link.put (Link.popMin k v r l).2 q w.root := by
  induction l generalizing k v r q n with
  | nil => exact absurd rfl hl
  | node lk lv ll lr ihl _ =>
    simp only [Link.size] at hn
    obtain ⟨n, rfl⟩ : ∃ k, n = k + 1 := ⟨n - 1, by omega⟩
    have h1 := leftMut_ok (Link.at_left hq)
    cases hll : ll with
    | nil =>
      subst hll
      refine ⟨q, lk, lv, lr, k, v, r, loopM_inr ?_, hq, rfl, rfl⟩
      unfold succStep
      rw [M.bind_ok h1]
      rfl
    | node a b x y =>
      rw [← hll]
      obtain ⟨p, sk, sv, sr, pk, pv, pr, h2, h3, h4, h5⟩ := ihl lr lk lv (q ++ [false]) n
        (by rw [hll]; simp) (by omega) (Link.at_left hq)
      refine ⟨p, sk, sv, sr, pk, pv, pr, (loopM_inl (s' := w) ?_).trans h2, h3, h4, ?_⟩
      · unfold succStep
        rw [M.bind_ok h1, hll]
        rfl
      · rw [h5, Link.put_left hq]; rfl

theorem successor_spec (cfg : Cfg) (k : K) (v : V) (l r : Link K V) (m : Map K V) :
    (∃ a, successor cfg (.node k v l r) m =
      (.ok (.node (Link.popMin k v r l).1.1 (Link.popMin k v r l).1.2 .nil (Link.popMin k v r l).2),
        { m with allocs := a })) ∨
    ∃ m', successor cfg (.node k v l r) m = (.abort, m') ∧ ¬ Plenty cfg (l.size + r.size + 1) := by
  cases hl : l with
  | nil => exact .inl ⟨m.allocs, rfl⟩
  | node lk lv ll lr =>
    have e0 : successor cfg (.node k v (.node lk lv ll lr) r) m =
      (onLocal (.node k v (.node lk lv ll lr) r)
          (cutSucc cfg (Link.node k v (.node lk lv ll lr) r).size) >>= fun x => do
        let y ← onLocal x.1 (Own.setRight cfg [] x.2)
        pure y.2) m := rfl
    rw [e0, ← hl]
    have hl' : l ≠ .nil := by rw [hl]; simp
    clear e0 hl
    obtain ⟨p, sk, sv, sr, pk, pv, pr, h1, h2, h3, h4⟩ := succ_loop ⟨.node k v l r, m.allocs⟩ l r k v
      [] (Link.node k v l r).size hl' (by simp only [Link.size]; omega) (by simp)
    have h5 := takeRight_ok (Link.at_left h2)
    dsimp only at h2 h4 h5
    rw [Link.put_left h2] at h5
    have h6 : (Link.put (.node pk pv (.node sk sv .nil .nil) pr) p (.node k v l r)).at' p =
        .node pk pv (.node sk sv .nil .nil) pr := Link.at_put (by rw [h2]; simp) _
    have hz := Link.size_put p (.node pk pv (.node sk sv .nil .nil) pr) (.node k v l r)
      (by rw [h2]; simp)
    rw [h2] at hz
    simp only [Link.size] at hz
    have hx := Link.popMin_size k v r l
    rcases replaceLeft_cases cfg (w := ⟨_, m.allocs⟩) h6 sr with ⟨a, h7⟩ | ⟨h7, h8⟩
    · have e1 : cutSucc cfg (Link.node k v l r).size ⟨.node k v l r, m.allocs⟩ =
          (.ok (.node sk sv .nil .nil), ⟨(Link.popMin k v r l).2, a⟩) := by
        unfold cutSucc
        rw [M.bind_ok (m := findSucc _ [] [false]) h1, M.bind_ok h5, M.bind_ok h7, Link.put_put, h4, Link.put_nil]
        rfl
      rw [M.bind_ok (onLocal_ok e1)]
      rcases setRight_cases cfg (w := ⟨.node sk sv .nil .nil, a⟩) (p := []) rfl
        (Link.popMin k v r l).2 with ⟨b, h9, _⟩ | ⟨h9, h10⟩
      · refine .inl ⟨b, ?_⟩
        refine (M.bind_ok (onLocal_ok (m := { m with allocs := a }) h9)).trans ?_
        rw [h3]
        simp
      · refine .inr ⟨{ m with allocs := a },
          M.bind_abort (onLocal_abort (m := { m with allocs := a }) h9), fun hp => h10 (hp.mono ?_)⟩
        simp only [Link.size]; omega
    · refine .inr ⟨m, ?_, fun hp => h8 (hp.mono (by dsimp only; omega))⟩
      refine M.bind_abort (onLocal_abort
        (w := ⟨Link.put (.node pk pv (.node sk sv .nil .nil) pr) p (.node k v l r), m.allocs⟩) ?_)
      unfold cutSucc
      rw [M.bind_ok (m := findSucc _ [] [false]) h1, M.bind_ok h5, M.bind_abort h7]

theorem replacement_spec (cfg : Cfg) (l r : Link K V) (m : Map K V) :
    (∃ a, replacement cfg l r m = (.ok (l.join r), { m with allocs := a })) ∨
    ∃ m', replacement cfg l r m = (.abort, m') ∧ ¬ Plenty cfg (l.size + r.size) := by
  cases l with
  | nil => cases r <;> exact .inl ⟨m.allocs, rfl⟩
  | node lk lv ll lr =>
    cases r with
    | nil => exact .inl ⟨m.allocs, rfl⟩
    | node rk rv rl rr =>
      unfold replacement
      dsimp only
      have hx := Link.popMin_size rk rv rr rl
      rcases successor_spec cfg rk rv rl rr m with ⟨a, h1⟩ | ⟨m', h1, h2⟩
      · rw [M.bind_ok h1]
        rcases setLeft_cases cfg (w := ⟨.node (Link.popMin rk rv rr rl).1.1
            (Link.popMin rk rv rr rl).1.2 .nil (Link.popMin rk rv rr rl).2, a⟩) (p := []) rfl
            (.node lk lv ll lr) with ⟨b, h3, _⟩ | ⟨h3, h4⟩
        · refine .inl ⟨b, ?_⟩
          refine (M.bind_ok (onLocal_ok (m := { m with allocs := a }) h3)).trans ?_
          simp [Link.join]
        · refine .inr ⟨{ m with allocs := a }, M.bind_abort (onLocal_abort (m := { m with allocs := a }) h3),
            fun hp => h4 (hp.mono ?_)⟩
          simp only [Link.size]; omega
      · exact .inr ⟨m', M.bind_abort h1, fun hp => h2 (hp.mono (by simp only [Link.size]; omega))⟩

theorem unlink_spec (cfg : Cfg) {t : Link K V} {p : Place} {par : Option Place} {k : K} {v : V}
    {l r : Link K V} (hat : t.at' p = .node k v l r)
    (hpar : (par = none ∧ p = []) ∨ ∃ q b, par = some q ∧ p = q ++ [b]) (w : Link K V) (n a : Nat) :
    (∃ b, unlink cfg par p w ⟨Link.put (.node k v .nil .nil) p t, n, a⟩ =
      (.ok (k, v), ⟨Link.put w p t, n, b⟩)) ∨
    ∃ m', unlink cfg par p w ⟨Link.put (.node k v .nil .nil) p t, n, a⟩ = (.abort, m') ∧
      ¬ Plenty cfg ((Link.put (.node k v .nil .nil) p t).size + w.size - 1) := by
  have hne : t.at' p ≠ .nil := by rw [hat]; simp
  rcases hpar with ⟨rfl, rfl⟩ | ⟨pp, b, rfl, rfl⟩
  · refine .inl ⟨a, ?_⟩
    simp only [Link.put_nil]
    rfl
  · have hb : ∃ pk pv pl pr, t.at' pp = .node pk pv pl pr := by
      cases h : t.at' pp with
      | nil => exact absurd (by rw [Link.at_append, h]; rfl) hne
      | node pk pv pl pr => exact ⟨_, _, _, _, rfl⟩
    obtain ⟨pk, pv, pl, pr, hpp⟩ := hb
    have hpne : t.at' pp ≠ .nil := by rw [hpp]; simp
    cases b with
    | false =>
      rw [Link.put_left hpp, Link.put_left hpp]
      have h7 := Link.at_put hpne (.node pk pv (.node k v .nil .nil) pr)
      unfold unlink
      dsimp only
      rw [M.bind_ok (onRoot_pure (m := ⟨_, n, a⟩) (deref_ok (w := ⟨_, a⟩) h7)),
        if_pos (by simp [Ref.leftRef, Ref.of])]
      rcases replaceLeft_cases cfg (w := ⟨_, a⟩) h7 w with ⟨b, h8⟩ | ⟨h8, h9⟩
      · rw [Link.put_put] at h8
        exact .inl ⟨b, M.bind_ok (onRoot_ok (m := ⟨_, n, a⟩) h8)⟩
      · exact .inr ⟨_, M.bind_abort (onRoot_pure (m := ⟨_, n, a⟩) h8), h9⟩
    | true =>
      rw [Link.put_right hpp, Link.put_right hpp]
      have h7 := Link.at_put hpne (.node pk pv pl (.node k v .nil .nil))
      unfold unlink
      dsimp only
      rw [M.bind_ok (onRoot_pure (m := ⟨_, n, a⟩) (deref_ok (w := ⟨_, a⟩) h7)),
        if_neg (by cases pl <;> simp [Ref.leftRef, Ref.of])]
      rcases replaceRight_cases cfg (w := ⟨_, a⟩) h7 w with ⟨b, h8⟩ | ⟨h8, h9⟩
      · rw [Link.put_put] at h8
        exact .inl ⟨b, M.bind_ok (onRoot_ok (m := ⟨_, n, a⟩) h8)⟩
      · exact .inr ⟨_, M.bind_abort (onRoot_pure (m := ⟨_, n, a⟩) h8), h9⟩

theorem takeOut_spec (cfg : Cfg) {m : Map K V} (hw : Wf m) {p : Place} {par : Option Place} {k : K}
    {v : V} {l r : Link K V} (hat : m.root.at' p = .node k v l r)
    (hpar : (par = none ∧ p = []) ∨ ∃ q b, par = some q ∧ p = q ++ [b]) :
    (∃ b, takeOut cfg par p m = (.ok (k, v), ⟨Link.put (l.join r) p m.root, m.len - 1, b⟩)) ∨
    ∃ m', takeOut cfg par p m = (.abort, m') ∧ ¬ Plenty cfg m.root.size := by
  unfold Wf at hw
  have hne : m.root.at' p ≠ .nil := by rw [hat]; simp
  have hz := Link.size_put p (.node k v .nil .nil) m.root hne
  have hpos := Link.size_at p m.root
  rw [hat] at hz hpos
  simp only [Link.size] at hz hpos
  have hjs := Link.join_size l r
  unfold takeOut
  rw [M.bind_ok (onRoot_pure (deref_ok (w := ⟨m.root, m.allocs⟩) hat))]
  have h2 : subLen cfg m = (.ok (), { m with len := m.len - 1 }) := by
    simp [subLen, subU_ok cfg (show 1 ≤ m.len by omega)]
  rw [M.bind_ok h2]
  have h3 := onRoot_ok (m := { m with len := m.len - 1 })
    (takeLeft_ok (w := ⟨m.root, m.allocs⟩) hat)
  rw [M.bind_ok h3]
  have h4 := onRoot_ok
    (m := ⟨Link.put (.node k v .nil r) p m.root, m.len - 1, m.allocs⟩)
    (takeRight_ok (w := ⟨Link.put (.node k v .nil r) p m.root, m.allocs⟩) (Link.at_put hne _))
  rw [M.bind_ok h4]
  dsimp only
  rw [Link.put_put]
  rcases replacement_spec cfg l r ⟨Link.put (.node k v .nil .nil) p m.root, m.len - 1, m.allocs⟩ with
    ⟨a, h5⟩ | ⟨m', h5, h6⟩
  · rw [M.bind_ok h5]
    rcases unlink_spec cfg hat hpar (l.join r) (m.len - 1) a with h6 | ⟨m', h6, h7⟩
    · exact .inl h6
    · exact .inr ⟨m', h6, fun hp => h7 (hp.mono (by omega))⟩
  · exact .inr ⟨m', M.bind_abort h5, fun hp => h6 (hp.mono (by omega))⟩

theorem removeEntry_spec (cfg : Cfg) (c : Probe K) (m : Map K V) (hw : Wf m) :
    (m.root.find c 0 = .panic ∧ removeEntry cfg c m = (.panic, m)) ∨
    (∃ e a n, m.root.find c 0 = .ok e ∧ removeEntry cfg c m = (.ok e, ⟨m.root.del c 0, n, a⟩) ∧
      n = (m.root.del c 0).size) ∨
    (∃ m', removeEntry cfg c m = (.abort, m') ∧ ¬ Plenty cfg m.root.size) := by
  unfold removeEntry
  rw [M.get_bind]
  rcases find_loop c m m.root none [] 0 m.fuel (Nat.lt_succ_self _) (by simp) (.inl ⟨rfl, rfl⟩) with
    ⟨hf, h1⟩ | ⟨e, par, hf, h1, hpar⟩
  · exact .inl ⟨hf, M.bind_panic (m := findWithParent c m) h1⟩
  rw [M.bind_ok (m := findWithParent c m) h1]
  cases e with
  | none =>
    refine .inr (.inl ⟨none, m.allocs, m.len, hf, ?_, ?_⟩)
    · rw [Link.del_miss hf]; rfl
    · rw [Link.del_miss hf]; exact hw
  | some e =>
    obtain ⟨l, r, hat⟩ := Link.find_at hf
    have hdel := Link.del_hit hf hat
    have hsz := Link.del_size hf
    replace hpar := hpar rfl
    simp only [Option.map_some, List.nil_append] at hpar ⊢
    rcases takeOut_spec cfg hw hat hpar with ⟨b, h2⟩ | ⟨m', h2, h3⟩
    · refine .inr (.inl ⟨some e, b, m.len - 1, hf, ?_, ?_⟩)
      · rw [M.bind_ok h2, hdel]; rfl
      · rw [hsz]; unfold Wf at hw; rw [hw]; rfl
    · exact .inr (.inr ⟨m', M.bind_abort h2, h3⟩)

end BST.Simple.Map
