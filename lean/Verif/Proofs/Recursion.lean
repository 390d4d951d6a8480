import Verif.Model.Recursion
import Verif.Proofs.SimpleEffect
import Verif.Proofs.SetHistory
/-!
# Lemmas for C58: recursion depth
-/
namespace BST.Deep
open Simple (Link Drops World Ref both onPanic unwind SSet)
open BST.Spec
variable {K V T σ α : Type}

theorem link_height (k : K) (v : V) (l r : Link K V) :
    (Link.node k v l r).view.height = max l.view.height r.view.height + 1 := rfl

/-! ### Aborting -/

theorem both_abort_left {a b : M σ Unit} {s : σ} (h : (a s).1 = .abort) : (both a b s).1 = .abort := by
  unfold both
  rw [M.bind_apply]
  unfold onPanic
  rcases ha : a s with ⟨o, s'⟩
  rw [ha] at h
  cases h
  rfl

/-- `a` returns, panics or aborts. -/
def Tame (a : M σ α) : Prop := ∀ s, (∃ x, (a s).1 = .ok x) ∨ (a s).1 = .panic ∨ (a s).1 = .abort

theorem both_abort {a b : M σ Unit} {s : σ} (ha : Tame a) (h : ∀ s, (b s).1 = .abort) :
    (both a b s).1 = .abort := by
  unfold both
  rw [M.bind_apply]
  unfold onPanic unwind
  rcases he : a s with ⟨o, s'⟩
  have h1 := ha s
  rw [he] at h1
  rcases hb : b s' with ⟨o', s''⟩
  have h2 := h s'
  rw [hb] at h2
  dsimp only at h1 h2
  subst h2
  rcases h1 with ⟨x, rfl⟩ | rfl | rfl
  · dsimp only; rw [hb]
  · dsimp only; rw [hb]
  · rfl

theorem tame_item (d : Drops K V) (x : K ⊕ V) : Tame (World.dropItem d x) := by
  intro s
  unfold World.dropItem
  dsimp only
  split
  · exact .inr (.inl rfl)
  · exact .inl ⟨(), rfl⟩

theorem tame_both {a b : M σ Unit} (ha : Tame a) (hb : Tame b) : Tame (both a b) := by
  intro s
  unfold both
  rw [M.bind_apply]
  unfold onPanic unwind
  rcases he : a s with ⟨o, s'⟩
  have h1 := ha s
  rw [he] at h1
  have h2 := hb s'
  rcases hb' : b s' with ⟨o', s''⟩
  rw [hb'] at h2
  dsimp only at h1 h2
  rcases h1 with ⟨x, rfl⟩ | rfl | rfl
  · dsimp only; rw [hb']; exact h2
  · dsimp only; rw [hb']
    rcases h2 with ⟨x, rfl⟩ | rfl | rfl <;> simp
  · exact .inr (.inr rfl)

theorem tame_dropLink (d : Drops K V) (lim : Nat) (t : Link K V) : Tame (dropLink d lim t) := by
  induction t generalizing lim with
  | nil => intro s; cases lim <;> exact .inl ⟨(), rfl⟩
  | node k v l r ihl ihr =>
    cases lim with
    | zero => intro s; exact .inr (.inr rfl)
    | succ lim =>
      exact tame_both (tame_item d _) (tame_both (tame_item d _) (tame_both (ihl lim) (ihr lim)))

/-! ### Drop glue -/

theorem dropLink_same (d : Drops K V) (t : Link K V) {lim : Nat} (h : t.view.height ≤ lim) :
    dropLink d lim t = World.dropLink d t := by
  induction t generalizing lim with
  | nil => cases lim <;> rfl
  | node k v l r ihl ihr =>
    rw [link_height] at h
    cases lim with
    | zero => omega
    | succ lim =>
      rw [dropLink, World.dropLink, ihl (by omega), ihr (by omega)]

theorem dropLink_abort (d : Drops K V) (t : Link K V) {lim : Nat} (h : lim < t.view.height)
    (s : World K V) : (dropLink d lim t s).1 = .abort := by
  induction t generalizing lim s with
  | nil => simp [Link.view, BT.height] at h
  | node k v l r ihl ihr =>
    rw [link_height] at h
    cases lim with
    | zero => rfl
    | succ lim =>
      rw [dropLink]
      refine both_abort (tame_item d _) fun s => both_abort (tame_item d _) fun s => ?_
      by_cases hl : lim < l.view.height
      · exact both_abort_left (ihl hl s)
      · exact both_abort (tame_dropLink d lim l) fun s => ihr (by omega) s

/-! ### `clone` -/

theorem M_abort_bind {β : Type} {f : M σ α} {g : α → M σ β} {s : σ} (h : (f s).1 = .abort) :
    ((f >>= g) s).1 = .abort := by
  rw [M.bind_apply]
  rcases hf : f s with ⟨o, s'⟩
  rw [hf] at h
  cases h
  rfl

theorem cloneLink_height {cfg : Cfg} {d : Drops K V} {cloneK : K → Option K} {cloneV : V → Option V}
    (t : Link K V) {lim : Nat} {boxed : Bool} {s s' : World K V} {t' : Link K V}
    (h : cloneLink cfg d cloneK cloneV lim boxed t s = (.ok t', s')) :
    t.view.height ≤ lim ∧ t'.view.height = t.view.height := by
  induction t generalizing lim boxed s s' t' with
  | nil =>
    have : cloneLink cfg d cloneK cloneV lim boxed .nil = pure .nil := by cases lim <;> rfl
    rw [this] at h
    cases h
    exact ⟨Nat.zero_le _, rfl⟩
  | node k v l r ihl ihr =>
    cases lim with
    | zero => cases h
    | succ lim =>
      rw [cloneLink, M.bind_apply] at h
      rcases h1 : World.cloneBox cfg boxed s with ⟨o1, s1⟩
      rw [h1] at h
      cases o1 <;> try cases h
      dsimp only at h
      rw [M.bind_apply] at h
      rcases h2 : World.cloneWith (V := V) cloneK .inl k s1 with ⟨o2, s2⟩
      rw [h2] at h
      cases o2 <;> try cases h
      rename_i k1
      dsimp only at h
      rw [M.bind_apply] at h
      rcases h3 : onPanic (World.cloneWith cloneV .inr v) (World.dropItem d (.inl k1)) s2 with ⟨o3, s3⟩
      rw [h3] at h
      cases o3 <;> try cases h
      rename_i v1
      dsimp only at h
      rw [M.bind_apply] at h
      have step : ∀ {t : Link K V} {b : M (World K V) Unit} {s : World K V} {t1 s1},
          onPanic (cloneLink cfg d cloneK cloneV lim true t) b s = (.ok t1, s1) →
          cloneLink cfg d cloneK cloneV lim true t s = (.ok t1, s1) := by
        intro t b s t1 s1 hh
        unfold onPanic unwind at hh
        rcases hc : cloneLink cfg d cloneK cloneV lim true t s with ⟨o, s'⟩
        rw [hc] at hh
        cases o with
        | panic =>
          dsimp only at hh
          rcases hb : b s' with ⟨o', s''⟩
          rw [hb] at hh
          cases o' <;> cases hh
        | _ => exact hh
      rcases h4 : onPanic (cloneLink cfg d cloneK cloneV lim true l)
        (both (World.dropItem d (.inr v1)) (World.dropItem d (.inl k1))) s3 with ⟨o4, s4⟩
      rw [h4] at h
      cases o4 <;> try cases h
      rename_i l1
      dsimp only at h
      rw [M.bind_apply] at h
      rcases h5 : onPanic (cloneLink cfg d cloneK cloneV lim true r)
        (both (dropLink d lim l1) (both (World.dropItem d (.inr v1)) (World.dropItem d (.inl k1)))) s4
        with ⟨o5, s5⟩
      rw [h5] at h
      cases o5 <;> try cases h
      rename_i r1
      obtain ⟨a1, a2⟩ := ihl (step h4)
      obtain ⟨b1, b2⟩ := ihr (step h5)
      rw [link_height, link_height]
      omega

theorem onPanic_congr {a : M σ α} {b b' : M σ Unit} (h : ∀ s s', a s = (.panic, s') → b s' = b' s') :
    onPanic a b = onPanic a b' := by
  funext s
  unfold onPanic
  rcases ha : a s with ⟨o, s'⟩
  cases o with
  | panic => dsimp only; unfold unwind; rw [h s s' ha]
  | _ => rfl

theorem cloneLink_same (cfg : Cfg) (d : Drops K V) (cloneK : K → Option K) (cloneV : V → Option V)
    (t : Link K V) {lim : Nat} (boxed : Bool) (h : t.view.height ≤ lim) :
    cloneLink cfg d cloneK cloneV lim boxed t = World.cloneLink cfg d cloneK cloneV boxed t := by
  induction t generalizing lim boxed with
  | nil => cases lim <;> rfl
  | node k v l r ihl ihr =>
    rw [link_height] at h
    cases lim with
    | zero => omega
    | succ lim =>
      rw [cloneLink, World.cloneLink]
      funext s
      rw [M.bind_apply, M.bind_apply]
      rcases World.cloneBox cfg boxed s with ⟨o1, s1⟩
      cases o1 <;> try rfl
      dsimp only
      rw [M.bind_apply, M.bind_apply]
      rcases World.cloneWith (V := V) cloneK .inl k s1 with ⟨o2, s2⟩
      cases o2 <;> try rfl
      rename_i k1
      dsimp only
      rw [M.bind_apply, M.bind_apply]
      rcases onPanic (World.cloneWith cloneV .inr v) (World.dropItem d (.inl k1)) s2 with ⟨o3, s3⟩
      cases o3 <;> try rfl
      rename_i v1
      dsimp only
      rw [M.bind_apply, M.bind_apply, ← ihl true (show l.view.height ≤ lim by omega)]
      rcases h4 : onPanic (cloneLink cfg d cloneK cloneV lim true l)
        (both (World.dropItem d (.inr v1)) (World.dropItem d (.inl k1))) s3 with ⟨o4, s4⟩
      cases o4 <;> try rfl
      rename_i l1
      have hl1 : l1.view.height ≤ lim := by
        unfold onPanic unwind at h4
        rcases hc : cloneLink cfg d cloneK cloneV lim true l s3 with ⟨o, s'⟩
        rw [hc] at h4
        cases o with
        | panic =>
          dsimp only at h4
          rcases hb : both (World.dropItem d (.inr v1)) (World.dropItem d (.inl k1)) s' with ⟨o', s''⟩
          rw [hb] at h4
          cases o' <;> cases h4
        | ok x =>
          cases h4
          have := cloneLink_height l hc
          omega
        | _ => cases h4
      dsimp only
      rw [M.bind_apply, M.bind_apply, dropLink_same d l1 hl1, ← ihr true (show r.view.height ≤ lim by omega)]

/-- `a` returns or aborts. -/
def Sure (a : M σ α) : Prop := ∀ s, (∃ x, (a s).1 = .ok x) ∨ (a s).1 = .abort

theorem Sure.bind {β : Type} {f : M σ α} {g : α → M σ β} (hf : Sure f) (hg : ∀ a, Sure (g a)) :
    Sure (f >>= g) := by
  intro s
  rw [M.bind_apply]
  rcases he : f s with ⟨o, s'⟩
  have := hf s
  rw [he] at this
  rcases this with ⟨x, h⟩ | h
  · cases h; exact hg x s'
  · cases h; exact .inr rfl

theorem Sure.onPanic {a : M σ α} (ha : Sure a) (b : M σ Unit) : Sure (onPanic a b) := by
  intro s
  unfold Simple.onPanic
  rcases he : a s with ⟨o, s'⟩
  have := ha s
  rw [he] at this
  rcases this with ⟨x, h⟩ | h
  · cases h; exact .inl ⟨x, rfl⟩
  · cases h; exact .inr rfl

theorem sure_cloneWith {β : Type} {f : β → Option β} (hf : ∀ x, f x ≠ none) (inj : β → K ⊕ V) (x : β) :
    Sure (World.cloneWith f inj x) := by
  intro s
  obtain ⟨y, hy⟩ := Option.ne_none_iff_exists'.1 (hf x)
  refine .inl ⟨y, ?_⟩
  unfold World.cloneWith
  rw [hy]

theorem sure_cloneBox (cfg : Cfg) (boxed : Bool) :
    Sure (World.cloneBox cfg boxed : M (World K V) Unit) := by
  intro s
  rcases h1 : World.cloneBox cfg boxed s with ⟨o1, s1⟩
  unfold World.cloneBox Simple.Map.cloneBox at h1
  split at h1
  rename_i hh
  split at hh
  · split at hh <;> (cases hh; cases h1; simp)
  · cases hh; cases h1; simp

theorem sure_cloneLink (cfg : Cfg) (d : Drops K V) {cloneK : K → Option K} {cloneV : V → Option V}
    (hk : ∀ k, cloneK k ≠ none) (hv : ∀ v, cloneV v ≠ none) (t : Link K V) (lim : Nat) (boxed : Bool) :
    Sure (cloneLink cfg d cloneK cloneV lim boxed t) := by
  induction t generalizing lim boxed with
  | nil => intro s; cases lim <;> exact .inl ⟨_, rfl⟩
  | node k v l r ihl ihr =>
    cases lim with
    | zero => intro s; exact .inr rfl
    | succ lim =>
      exact (sure_cloneBox cfg boxed).bind fun _ => (sure_cloneWith hk _ k).bind fun k1 =>
        ((sure_cloneWith hv _ v).onPanic _).bind fun v1 => ((ihl lim true).onPanic _).bind fun l1 =>
        ((ihr lim true).onPanic _).bind fun r1 s => .inl ⟨_, rfl⟩

theorem cloneLink_abort (cfg : Cfg) (d : Drops K V) {cloneK : K → Option K} {cloneV : V → Option V}
    (hk : ∀ k, cloneK k ≠ none) (hv : ∀ v, cloneV v ≠ none) (t : Link K V) {lim : Nat} (boxed : Bool)
    (h : lim < t.view.height) (s : World K V) :
    (cloneLink cfg d cloneK cloneV lim boxed t s).1 = .abort := by
  rcases sure_cloneLink cfg d hk hv t lim boxed s with ⟨x, hx⟩ | hx
  · have := cloneLink_height t (lim := lim) (Prod.ext hx rfl :
      cloneLink cfg d cloneK cloneV lim boxed t s = (.ok x, _))
    omega
  · exact hx

/-! ### `PartialEq` -/

theorem eqLink_same (keq : K → K → Bool) (veq : V → V → Bool) (a b : Link K V) {lim : Nat}
    (h : min a.view.height b.view.height ≤ lim) : eqLink keq veq lim a b = .ok (a.eq keq veq b) := by
  induction a generalizing b lim with
  | nil => cases b <;> cases lim <;> rfl
  | node k v l r ihl ihr =>
    cases b with
    | nil => cases lim <;> rfl
    | node k' v' l' r' =>
      rw [link_height, link_height] at h
      cases lim with
      | zero => omega
      | succ lim =>
        rw [eqLink, Link.eq]
        cases hkv : keq k k' && veq v v' with
        | false => rfl
        | true =>
          rw [ihl l' (by omega), if_pos rfl, Out.ok_bind]
          cases l.eq keq veq l' with
          | false => rfl
          | true =>
            rw [ihr r' (by omega)]
            rfl

theorem eqLink_self {keq : K → K → Bool} {veq : V → V → Bool} (hk : ∀ k, keq k k = true)
    (hv : ∀ v, veq v v = true) (a : Link K V) {lim : Nat} (h : lim < a.view.height) :
    eqLink keq veq lim a a = .abort := by
  induction a generalizing lim with
  | nil => simp [Link.view, BT.height] at h
  | node k v l r ihl ihr =>
    rw [link_height] at h
    cases lim with
    | zero => rfl
    | succ lim =>
      rw [eqLink, hk, hv, Bool.and_self, if_pos rfl]
      by_cases hl : lim < l.view.height
      · rw [ihl hl]; rfl
      · rw [eqLink_same keq veq l l (by omega), Out.ok_bind]
        have : l.eq keq veq l = true := by
          clear ihl ihr h hl
          induction l with
          | nil => rfl
          | node k v l r ihl ihr => simp [Link.eq, hk, hv, ihl, ihr]
        rw [this, if_pos rfl]
        exact ihr (by omega)

theorem eqLink_or (keq : K → K → Bool) (veq : V → V → Bool) (a b : Link K V) (lim : Nat) :
    eqLink keq veq lim a b = .ok (a.eq keq veq b) ∨ eqLink keq veq lim a b = .abort := by
  induction a generalizing b lim with
  | nil => left; cases b <;> cases lim <;> rfl
  | node k v l r ihl ihr =>
    cases b with
    | nil => left; cases lim <;> rfl
    | node k' v' l' r' =>
      cases lim with
      | zero => exact .inr rfl
      | succ lim =>
        rw [eqLink, Link.eq]
        cases hkv : keq k k' && veq v v' with
        | false => exact .inl rfl
        | true =>
          rw [if_pos rfl]
          rcases ihl l' lim with hl | hl
          · rw [hl, Out.ok_bind]
            cases l.eq keq veq l' with
            | false => exact .inl rfl
            | true =>
              rcases ihr r' lim with hr | hr
              · left; rw [hr]; rfl
              · right; rw [hr]; rfl
          · right; rw [hl]; rfl

/-! ### `Debug` in `simple_bst` -/

theorem debugLink_same (dk : K → String) (dv : V → String) (t : Link K V) {lim : Nat}
    (h : t.view.height ≤ lim) : debugLink dk dv lim t = .ok (Simple.Map.debugLink dk dv t) := by
  induction t generalizing lim with
  | nil => cases lim <;> rfl
  | node k v l r ihl ihr =>
    rw [link_height] at h
    cases lim with
    | zero => omega
    | succ lim => rw [debugLink, ihl (by omega), ihr (by omega)]; rfl

theorem debugLink_abort (dk : K → String) (dv : V → String) (t : Link K V) {lim : Nat}
    (h : lim < t.view.height) : debugLink dk dv lim t = .abort := by
  induction t generalizing lim with
  | nil => simp [Link.view, BT.height] at h
  | node k v l r ihl ihr =>
    rw [link_height] at h
    cases lim with
    | zero => rfl
    | succ lim =>
      rw [debugLink]
      by_cases hl : lim < l.view.height
      · rw [ihl hl]; rfl
      · rw [debugLink_same dk dv l (by omega), ihr (by omega)]; rfl

theorem debugSetLink_same (dt : T → String) (t : Link T Unit) {lim : Nat}
    (h : t.view.height ≤ lim) : debugSetLink dt lim t = .ok (SSet.debugLink dt t) := by
  induction t generalizing lim with
  | nil => cases lim <;> rfl
  | node k v l r ihl ihr =>
    rw [link_height] at h
    cases lim with
    | zero => omega
    | succ lim => rw [debugSetLink, ihl (by omega), ihr (by omega)]; rfl

theorem debugSetLink_abort (dt : T → String) (t : Link T Unit) {lim : Nat}
    (h : lim < t.view.height) : debugSetLink dt lim t = .abort := by
  induction t generalizing lim with
  | nil => simp [Link.view, BT.height] at h
  | node k v l r ihl ihr =>
    rw [link_height] at h
    cases lim with
    | zero => rfl
    | succ lim =>
      rw [debugSetLink]
      by_cases hl : lim < l.view.height
      · rw [ihl hl]; rfl
      · rw [debugSetLink_same dt l (by omega), ihr (by omega)]; rfl

/-! ### `Debug` in `bst` -/

open Tree

theorem debugNode_same (dk : K → String) (dv : V → String) {s : Nodes K V} {p : Ptr} {l : Tree K V}
    {k : K} {v : V} {r : Tree K V} (h : (node p l k v r).Rep s.view) {lim fuel : Nat}
    (hl : (node p l k v r).height ≤ lim) (hf : (node p l k v r).height ≤ fuel) :
    debugNode dk dv s lim ⟨p, ⟨k, v, l.root, r.root⟩⟩ =
      BSTMap.debugNode dk dv s fuel ⟨p, ⟨k, v, l.root, r.root⟩⟩ := by
  induction lim generalizing p l k v r fuel with
  | zero => simp [height] at hl
  | succ lim ih =>
    cases fuel with
    | zero => simp [height] at hf
    | succ fuel =>
      have h1 : Node.left s ⟨p, ⟨k, v, l.root, r.root⟩⟩ = .ok l.nodeOpt := Node.newOpt_ok h.2.1
      have h2 : Node.right s ⟨p, ⟨k, v, l.root, r.root⟩⟩ = .ok r.nodeOpt := Node.newOpt_ok h.2.2
      simp only [height] at hf hl
      unfold debugNode BSTMap.debugNode
      rw [h1, h2]
      simp only [Out.ok_bind]
      cases l with
      | leaf =>
        cases r with
        | leaf => rfl
        | node =>
          simp only [nodeOpt_node]
          rw [ih h.2.2 (fuel := fuel) (by omega) (by omega)]
          rfl
      | node =>
        cases r with
        | leaf =>
          simp only [nodeOpt_node]
          rw [ih h.2.1 (fuel := fuel) (by omega) (by omega)]
          rfl
        | node =>
          simp only [nodeOpt_node]
          rw [ih h.2.1 (fuel := fuel) (by omega) (by omega),
            ih h.2.2 (fuel := fuel) (by omega) (by omega)]

theorem debugNode_abort (dk : K → String) (dv : V → String) {s : Nodes K V} {p : Ptr} {l : Tree K V}
    {k : K} {v : V} {r : Tree K V} (h : (node p l k v r).Rep s.view) {lim : Nat}
    (hl : lim < (node p l k v r).height) :
    debugNode dk dv s lim ⟨p, ⟨k, v, l.root, r.root⟩⟩ = .abort := by
  induction lim generalizing p l k v r with
  | zero => rfl
  | succ lim ih =>
    have h1 : Node.left s ⟨p, ⟨k, v, l.root, r.root⟩⟩ = .ok l.nodeOpt := Node.newOpt_ok h.2.1
    have h2 : Node.right s ⟨p, ⟨k, v, l.root, r.root⟩⟩ = .ok r.nodeOpt := Node.newOpt_ok h.2.2
    simp only [height] at hl
    unfold debugNode
    rw [h1, h2]
    simp only [Out.ok_bind]
    by_cases hh : lim < l.height
    · cases l with
      | leaf => simp [height] at hh
      | node => simp only [nodeOpt_node]; rw [ih h.2.1 hh]; rfl
    · have hr : lim < r.height := by omega
      cases r with
      | leaf => simp [height] at hr
      | node =>
        cases l with
        | leaf => simp only [nodeOpt_node]; rw [ih h.2.2 hr]; rfl
        | node lp ll lk lv lr =>
          have hn := debugNode_same dk dv h.2.1 (lim := lim) (fuel := lim) (by omega) (by omega)
          obtain ⟨str, e, _⟩ := debugNode_ok (dk := dk) (dv := dv) h.2.1 lim (by omega)
          simp only [nodeOpt_node]
          rw [hn, e, ih h.2.2 hr]
          rfl

theorem debugSetNode_same (dt : T → String) {s : Nodes T Unit} {p : Ptr} {l : Tree T Unit}
    {k : T} {v : Unit} {r : Tree T Unit} (h : (node p l k v r).Rep s.view) {lim fuel : Nat}
    (hl : (node p l k v r).height ≤ lim) (hf : (node p l k v r).height ≤ fuel) :
    debugSetNode dt s lim ⟨p, ⟨k, v, l.root, r.root⟩⟩ =
      BSTSet.debugNode dt s fuel ⟨p, ⟨k, v, l.root, r.root⟩⟩ := by
  induction lim generalizing p l k v r fuel with
  | zero => simp [height] at hl
  | succ lim ih =>
    cases fuel with
    | zero => simp [height] at hf
    | succ fuel =>
      have h1 : Node.left s ⟨p, ⟨k, v, l.root, r.root⟩⟩ = .ok l.nodeOpt := Node.newOpt_ok h.2.1
      have h2 : Node.right s ⟨p, ⟨k, v, l.root, r.root⟩⟩ = .ok r.nodeOpt := Node.newOpt_ok h.2.2
      simp only [height] at hf hl
      unfold debugSetNode BSTSet.debugNode
      rw [h1, h2]
      simp only [Out.ok_bind]
      cases l with
      | leaf =>
        cases r with
        | leaf => rfl
        | node =>
          simp only [nodeOpt_node]
          rw [ih h.2.2 (fuel := fuel) (by omega) (by omega)]
          rfl
      | node =>
        cases r with
        | leaf =>
          simp only [nodeOpt_node]
          rw [ih h.2.1 (fuel := fuel) (by omega) (by omega)]
          rfl
        | node =>
          simp only [nodeOpt_node]
          rw [ih h.2.1 (fuel := fuel) (by omega) (by omega),
            ih h.2.2 (fuel := fuel) (by omega) (by omega)]

theorem debugSetNode_abort (dt : T → String) {s : Nodes T Unit} {p : Ptr} {l : Tree T Unit}
    {k : T} {v : Unit} {r : Tree T Unit} (h : (node p l k v r).Rep s.view) {lim : Nat}
    (hl : lim < (node p l k v r).height) :
    debugSetNode dt s lim ⟨p, ⟨k, v, l.root, r.root⟩⟩ = .abort := by
  induction lim generalizing p l k v r with
  | zero => rfl
  | succ lim ih =>
    have h1 : Node.left s ⟨p, ⟨k, v, l.root, r.root⟩⟩ = .ok l.nodeOpt := Node.newOpt_ok h.2.1
    have h2 : Node.right s ⟨p, ⟨k, v, l.root, r.root⟩⟩ = .ok r.nodeOpt := Node.newOpt_ok h.2.2
    simp only [height] at hl
    unfold debugSetNode
    rw [h1, h2]
    simp only [Out.ok_bind]
    by_cases hh : lim < l.height
    · cases l with
      | leaf => simp [height] at hh
      | node => simp only [nodeOpt_node]; rw [ih h.2.1 hh]; rfl
    · have hr : lim < r.height := by omega
      cases r with
      | leaf => simp [height] at hr
      | node =>
        cases l with
        | leaf => simp only [nodeOpt_node]; rw [ih h.2.2 hr]; rfl
        | node lp ll lk lv lr =>
          have hn := debugSetNode_same dt h.2.1 (lim := lim) (fuel := lim) (by omega) (by omega)
          obtain ⟨str, e, _⟩ := setDebugNode_ok (dt := dt) h.2.1 lim (by omega)
          simp only [nodeOpt_node]
          rw [hn, e, ih h.2.2 hr]
          rfl

end BST.Deep
