import Verif.MapReaders
import Verif.Proofs.MapKeeps
import Verif.Proofs.MapRuns
/-!
# Clients that hold many shared references at once
-/
namespace BST
variable {H K V α β : Type} [Aliasing H] [AliasLaws H] {cfg : Cfg}
open Spec (Order)
open AliasLaws (view)

namespace Reader
variable {S R P : Type}

theorem on_read (f : S → Out α) (x : Reader S R P) : on (M.read f) x = (f x.store, x) := by
  unfold on; rw [M.read_apply]

/-- Two lists that agree position by position. -/
def Pairs {A B : Type} (R : A → B → Prop) (as : List A) (bs : List B) : Prop :=
  as.length = bs.length ∧ ∀ (i : Nat) a b, as[i]? = some a → bs[i]? = some b → R a b

theorem Pairs.nil {A B : Type} {R : A → B → Prop} : Pairs R [] [] := ⟨rfl, by simp⟩

theorem Pairs.mono {A B : Type} {R R' : A → B → Prop} {as : List A} {bs : List B}
    (h : Pairs R as bs) (hR : ∀ a b, R a b → R' a b) : Pairs R' as bs :=
  ⟨h.1, fun i a b ha hb => hR a b (h.2 i a b ha hb)⟩

theorem Pairs.snoc {A B : Type} {R : A → B → Prop} {as : List A} {bs : List B} {a : A} {b : B}
    (h : Pairs R as bs) (hR : R a b) : Pairs R (as ++ [a]) (bs ++ [b]) := by
  refine ⟨by simp [h.1], fun i x y hx hy => ?_⟩
  have hl := h.1
  rw [List.getElem?_append] at hx hy
  by_cases hi : i < as.length
  · rw [if_pos hi] at hx
    rw [if_pos (hl ▸ hi)] at hy
    exact h.2 i x y hx hy
  · rw [if_neg hi] at hx
    rw [if_neg (hl ▸ hi), ← hl] at hy
    cases hj : i - as.length with
    | zero =>
      rw [hj] at hx hy
      cases hx; cases hy; exact hR
    | succ j => rw [hj] at hx; cases hx

theorem Pairs.cases {A B : Type} {R : A → B → Prop} {as : List A} {bs : List B}
    (h : Pairs R as bs) (i : Nat) :
    (as[i]? = none ∧ bs[i]? = none) ∨ ∃ a b, as[i]? = some a ∧ bs[i]? = some b ∧ R a b := by
  have hl := h.1
  by_cases hi : i < as.length
  · exact .inr ⟨_, _, List.getElem?_eq_getElem hi, List.getElem?_eq_getElem (hl ▸ hi),
      h.2 i _ _ (List.getElem?_eq_getElem hi) (List.getElem?_eq_getElem (hl ▸ hi))⟩
  · exact .inl ⟨List.getElem?_eq_none (by omega), List.getElem?_eq_none (by omega)⟩

abbrev Traced (H K V : Type) := Reader (TMap H K V) (Option NodeRef) (Option NodeRef)
abbrev Plain (K V : Type) := Reader (BSTMap K V) (Option (K × V)) (Option (Node K V))

/-- A handle and the handle with its reference. -/
def RelH (m : BSTMap K V) (s : TMap H K V) (a : Option NodeRef) (b : Option (Node K V)) : Prop :=
  TMap.RelO false m.nodes s a b ∧ ∃ u : Tree K V, u.Rep m.nodes.view ∧ b = u.nodeOpt

/-- What relates the two clients. -/
structure Inv (cfg : Cfg) (t : Tree K V) (x : Traced H K V) (y : Plain K V) : Prop where
  shape : Shape cfg y.store t
  map : x.store.map = y.store
  good : TMap.OK cfg x.store
  iters : x.iters = y.iters
  inv : ∀ e ∈ y.iters, ∃ rem, OrdInv e.1 y.store.nodes t.height e.2 rem
  refs : Pairs (TMap.Yields y.store.nodes x.store) x.refs y.refs
  nodes : Pairs (RelH y.store x.store) x.nodes y.nodes

theorem Inv.with {t : Tree K V} {x : Traced H K V} {y : Plain K V} (h : Inv cfg t x y) {s : TMap H K V}
    (hm : s.map = y.store) (hk : TMap.OK cfg s) (hs : TMap.Shared x.store s) :
    Inv cfg t { x with store := s } y where
  shape := h.shape
  map := hm
  good := hk
  iters := h.iters
  inv := h.inv
  refs := h.refs.mono fun _ _ hh => hh.frame hs
  nodes := h.nodes.mono fun a b hh => ⟨by
    match a, b, hh.1 with
    | none, none, _ => exact trivial
    | some _, some _, h => exact TMap.RelN.frame h hs, hh.2⟩

/-- A call on the map, by both clients. -/
theorem on_both {t : Tree K V} {x : Traced H K V} {y : Plain K V} (h : Inv cfg t x y)
    {f : M (TMap H K V) α} {g : BSTMap K V → Out β} {R : α → β → TMap H K V → Prop}
    (hS : TMap.Sim cfg f x.store (g y.store, y.store) R) (hK : TMap.Keeps f)
    (hg : g y.store = .panic ∨ ∃ b, g y.store = .ok b) :
    (∃ x', on f x = (.panic, x') ∧ on (M.read g) y = (.panic, y) ∧ Inv cfg t x' y) ∨
    (∃ a b s, on f x = (.ok a, { x with store := s }) ∧ on (M.read g) y = (.ok b, y) ∧
      g y.store = .ok b ∧ R a b s ∧ TMap.Shared x.store s ∧ Inv cfg t { x with store := s } y) := by
  rcases hg with hg | ⟨b, hg⟩
  · rw [hg] at hS
    obtain ⟨s, e, hm, hk⟩ := hS
    have hs := hK x.store
    rw [e] at hs
    exact .inl ⟨{ x with store := s }, by unfold on; rw [e], by rw [on_read, hg], h.with hm hk hs⟩
  · rw [hg] at hS
    obtain ⟨a, s, e, hm, hk, hr⟩ := hS
    have hs := hK x.store
    rw [e] at hs
    exact .inr ⟨a, b, s, by unfold on; rw [e], by rw [on_read, hg], hg, hr, hs, h.with hm hk hs⟩

theorem keepRef_apply (r : R) (x : Reader S R P) :
    keepRef r x = (.ok (), { x with refs := x.refs ++ [r] }) := rfl

theorem on_bind {f : M S α} {g : α → M (Reader S R P) β} {x x' : Reader S R P} {a : α}
    (h : on f x = (.ok a, x')) : (on f >>= g) x = g a x' := M.bind_ok h

theorem on_panic {f : M S α} {g : α → M (Reader S R P) β} {x x' : Reader S R P}
    (h : on f x = (.panic, x')) : (on f >>= g) x = (.panic, x') := by
  rw [M.bind_apply, h]

theorem step {t : Tree K V} {x : Traced H K V} {y : Plain K V} (h : Inv cfg t x y) (op : ReadOp K V) :
    ∃ o x' y', op.runRef x = (o, x') ∧ op.run y = (o, y') ∧ (o = .panic ∨ ∃ r, o = .ok r) ∧
      Inv cfg t x' y' := by
  cases op with
  | get c =>
    have hp : y.store.getEntry c = .panic ∨ ∃ b, y.store.getEntry c = .ok b := by
      rw [BSTMap.getEntry_spec h.shape c]
      rcases t.find_ok_or_panic c 0 with hf | ⟨e, hf⟩ <;> rw [hf]
      · exact .inl rfl
      · exact .inr ⟨_, rfl⟩
    unfold ReadOp.runRef ReadOp.run
    rcases on_both (g := BSTMap.getEntry c) h
      (TMap.descend_sim h.map h.good c fun x => x.map fun x => (x.key, x.value))
      (TMap.keeps_descend c) hp with ⟨x', e1, e2, h'⟩ | ⟨a, b, s, e1, e2, _, ⟨z, hz, hb⟩, _, h'⟩
    · exact ⟨_, _, _, on_panic e1, on_panic e2, .inl rfl, h'⟩
    · refine ⟨_, _, _, on_bind e1, on_bind e2, .inr ⟨_, rfl⟩, { h' with refs := h'.refs.snoc ?_ }⟩
      match a, z, hz with
      | none, none, _ => rw [hb]; exact trivial
      | some n, some z, hz =>
        rw [hb]
        exact ⟨z.node, by rw [hz.1]; exact hz.2.1, rfl, hz.2.2⟩
  | containsKey c =>
    have hp : y.store.containsKey c = .panic ∨ ∃ b, y.store.containsKey c = .ok b := by
      rw [BSTMap.containsKey_spec h.shape c]
      rcases t.find_ok_or_panic c 0 with hf | ⟨e, hf⟩ <;> rw [hf]
      · exact .inl rfl
      · exact .inr ⟨_, rfl⟩
    unfold ReadOp.runRef ReadOp.run
    rcases on_both (g := BSTMap.containsKey c) h (TMap.containsKey_sim h.map h.good c)
      (TMap.keeps_containsKey c) hp with ⟨x', e1, e2, h'⟩ | ⟨a, b, s, e1, e2, _, rfl, _, h'⟩
    · exact ⟨_, _, _, on_panic e1, on_panic e2, .inl rfl, h'⟩
    · exact ⟨_, _, _, on_bind e1, on_bind e2, .inr ⟨_, rfl⟩, h'⟩
  | debug dk dv =>
    unfold ReadOp.runRef ReadOp.run
    rcases on_both (g := BSTMap.debug dk dv) h (TMap.debug_sim dk dv h.map h.good)
      (TMap.keeps_debug dk dv) (.inr ⟨_, debug_spec h.shape⟩) with
      ⟨x', e1, e2, h'⟩ | ⟨a, b, s, e1, e2, _, rfl, _, h'⟩
    · exact ⟨_, _, _, on_panic e1, on_panic e2, .inl rfl, h'⟩
    · exact ⟨_, _, _, on_bind e1, on_bind e2, .inr ⟨_, rfl⟩, h'⟩
  | iter o =>
    obtain ⟨st, hi, _, ho⟩ := iter_new h.shape o
    unfold ReadOp.runRef ReadOp.run
    rcases on_both (g := o.iter) h (TMap.iterRef_sim h.map h.good o)
      (TMap.keeps_iterRef o) (.inr ⟨_, hi⟩) with
      ⟨x', e1, e2, h'⟩ | ⟨a, b, s, e1, e2, hb, rfl, _, h'⟩
    · exact ⟨_, _, _, on_panic e1, on_panic e2, .inl rfl, h'⟩
    · rw [hi] at hb
      cases hb
      refine ⟨_, _, _, on_bind e1, on_bind e2, .inr ⟨_, rfl⟩, { h' with iters := ?_, inv := ?_ }⟩
      · show x.iters ++ _ = y.iters ++ _
        rw [h.iters]
      · intro e he
        rcases List.mem_append.1 he with he | he
        · exact h.inv e he
        · rw [List.mem_singleton.1 he]; exact ⟨_, ho⟩
  | next i =>
    unfold ReadOp.runRef ReadOp.run
    simp only
    rw [M.get_bind, M.get_bind, h.iters]
    cases hi : y.iters[i]? with
    | none => exact ⟨_, _, _, rfl, rfl, .inr ⟨_, rfl⟩, h⟩
    | some e =>
      obtain ⟨o, st⟩ := e
      obtain ⟨rem, hrem⟩ := h.inv _ (List.mem_of_getElem? hi)
      simp only at hrem
      have hn : ∃ e st' rem', o.next y.store st = .ok (e, st') ∧
          OrdInv o y.store.nodes t.height st' rem' := by
        cases rem with
        | nil => exact ⟨_, _, _, (next_spec o y.store _).done st hrem, hrem⟩
        | cons e rest =>
          obtain ⟨st', h1, h2⟩ := (next_spec o y.store _).step st e rest hrem
          exact ⟨_, _, _, h1, h2⟩
      obtain ⟨e, st', rem', hn, hinv⟩ := hn
      have hS := TMap.nextRef_sim h.map h.good o st
      rw [hn] at hS
      obtain ⟨a, s, e1, hm, hk, ⟨ha, hy, hf⟩⟩ := hS
      obtain ⟨a, st''⟩ := a
      simp only at ha hy
      subst ha
      have e1' : on (o.nextRef st) x = (.ok (a, st''), { x with store := s }) := by
        unfold on; rw [e1]
      have e2' : on (M.read fun m => o.next m st) y = (.ok (e, st''), y) := by rw [on_read, hn]
      have h' := h.with hm hk (hf.shared rfl)
      refine ⟨_, _, _, on_bind e1', on_bind e2', .inr ⟨_, rfl⟩,
        { h' with iters := ?_, inv := ?_, refs := h'.refs.snoc hy }⟩
      · show x.iters.set .. = y.iters.set ..
        rw [h.iters]
      · intro e he
        rcases List.mem_or_eq_of_mem_set he with he | rfl
        · exact h.inv e he
        · exact ⟨_, hinv⟩
  | root =>
    have hp : y.store.rootNode = .ok t.nodeOpt := BSTMap.rootNode_ok h.shape.root h.shape.rep
    have hn : (nodeAt [] : BSTMap K V → _) = BSTMap.rootNode := by
      funext m; unfold nodeAt; show (m.rootNode >>= fun r => Out.ok r) = _; exact bind_pure _
    have hS := TMap.nodeRefAt_sim (cfg := cfg) [] h.map h.good
    rw [hn] at hS
    unfold ReadOp.runRef ReadOp.run
    rcases on_both (g := BSTMap.rootNode) h hS
      (.bind .get fun _ => .bind (TMap.keeps_nodeOpt _) fun _ => .pure _) (.inr ⟨_, hp⟩) with
      ⟨x', e1, e2, h'⟩ | ⟨a, b, s, e1, e2, hb, hr, _, h'⟩
    · exact ⟨_, _, _, on_panic e1, on_panic e2, .inl rfl, h'⟩
    · rw [hp] at hb
      cases hb
      exact ⟨_, _, _, on_bind e1, on_bind e2, .inr ⟨_, rfl⟩,
        { h' with nodes := h'.nodes.snoc ⟨hr, t, h.shape.rep, rfl⟩ }⟩
  | child i b =>
    unfold ReadOp.runRef ReadOp.run
    simp only
    rw [M.get_bind, M.get_bind]
    rcases h.nodes.cases i with ⟨e1, e2⟩ | ⟨a, c, e1, e2, hr, u, hu, hc⟩
    · rw [e1, e2]; exact ⟨_, _, _, rfl, rfl, .inr ⟨_, rfl⟩, h⟩
    · rw [e1, e2]
      match a, c, hr with
      | none, none, _ => exact ⟨_, _, _, rfl, rfl, .inr ⟨_, rfl⟩, h⟩
      | some n, some z, hr =>
        cases u with
        | leaf => cases hc
        | node p l k v r =>
          cases hc
          have key : ∀ (f : M (TMap H K V) (Option NodeRef)) (w : Tree K V)
              (g : BSTMap K V → Out (Option (Node K V))), w.Rep y.store.nodes.view →
              TMap.Sim cfg f x.store (g y.store, y.store)
                (fun a b s' => TMap.RelO false y.store.nodes s' a b ∧
                  TMap.Frame [] false x.store s') → TMap.Keeps f →
              g y.store = .ok w.nodeOpt →
              ∃ o x' y', (do let c ← on f; keepNode c; pure .unit : M (Traced H K V) (Ret K V)) x = (o, x') ∧
                (do let c ← on (M.read g); keepNode c; pure .unit : M (Plain K V) (Ret K V)) y =
                  (o, y') ∧ (o = .panic ∨ ∃ r, o = .ok r) ∧ Inv cfg t x' y' := by
            intro f w g hw hS hK hg
            rcases on_both h hS hK (.inr ⟨_, hg⟩) with
              ⟨x', e1, e2, h'⟩ | ⟨a, b, s, e1, e2, hb, hr, _, h'⟩
            · exact ⟨_, _, _, on_panic e1, on_panic e2, .inl rfl, h'⟩
            · rw [hg] at hb
              cases hb
              exact ⟨_, _, _, on_bind e1, on_bind e2, .inr ⟨_, rfl⟩,
                { h' with nodes := h'.nodes.snoc ⟨hr.1, w, hw, rfl⟩ }⟩
          cases b with
          | true =>
            exact key _ r (fun m => Node.right m.nodes ⟨p, ⟨k, v, l.root, r.root⟩⟩) hu.2.2
              (TMap.right_sim (TMap.Sees.self _) h.map h.good hr) (TMap.keeps_right n)
              (Node.newOpt_ok hu.2.2)
          | false =>
            exact key _ l (fun m => Node.left m.nodes ⟨p, ⟨k, v, l.root, r.root⟩⟩) hu.2.1
              (TMap.left_sim (TMap.Sees.self _) h.map h.good hr) (TMap.keeps_left n)
              (Node.newOpt_ok hu.2.1)
  | read i =>
    unfold ReadOp.runRef ReadOp.run
    simp only
    rw [M.get_bind, M.get_bind]
    rcases h.refs.cases i with ⟨e1, e2⟩ | ⟨a, b, e1, e2, hr⟩
    · rw [e1, e2]; exact ⟨_, _, _, rfl, rfl, .inr ⟨_, rfl⟩, h⟩
    · rw [e1, e2]
      match a, b, hr with
      | none, none, _ => exact ⟨_, _, _, rfl, rfl, .inr ⟨_, rfl⟩, h⟩
      | some n, some e, ⟨v, hv, he, hh⟩ =>
        obtain ⟨s, e3, hm, hk, _, hf⟩ := TMap.deref_step (TMap.Sees.self _) h.map h.good hh hv
        have e4 : on (TMap.deref n) x = (.ok v, { x with store := s }) := by unfold on; rw [e3]
        exact ⟨_, _, _, on_bind e4, by rw [he]; rfl, .inr ⟨_, rfl⟩, h.with hm hk (hf.shared rfl)⟩
  | readNode i =>
    unfold ReadOp.runRef ReadOp.run
    simp only
    rw [M.get_bind, M.get_bind]
    rcases h.nodes.cases i with ⟨e1, e2⟩ | ⟨a, c, e1, e2, hr, _⟩
    · rw [e1, e2]; exact ⟨_, _, _, rfl, rfl, .inr ⟨_, rfl⟩, h⟩
    · rw [e1, e2]
      match a, c, hr with
      | none, none, _ => exact ⟨_, _, _, rfl, rfl, .inr ⟨_, rfl⟩, h⟩
      | some n, some z, hr =>
        obtain ⟨s, e3, hm, hk, _, hf⟩ := TMap.deref_step (TMap.Sees.self _) h.map h.good hr.2.2
          (by rw [hr.1]; exact hr.2.1)
        have e4 : on (TMap.deref n) x = (.ok z.node, { x with store := s }) := by unfold on; rw [e3]
        exact ⟨_, _, _, on_bind e4, rfl, .inr ⟨_, rfl⟩, h.with hm hk (hf.shared rfl)⟩

theorem Inv.start {t : Tree K V} {s : TMap H K V} {m : BSTMap K V} (h : Shape cfg m t)
    (hm : s.map = m) (hk : TMap.OK cfg s) :
    Inv cfg t (Reader.start s : Traced H K V) (Reader.start m : Plain K V) where
  shape := h
  map := hm
  good := hk
  iters := rfl
  inv := fun _ he => by cases he
  refs := .nil
  nodes := .nil

theorem act {t : Tree K V} {x : Traced H K V} {y : Plain K V} (h : Inv cfg t x y) {how : ChunkPtr}
    (a : Act K V) (hc : ∀ op, a = .call op → op.Calm)
    (hs : ¬ (view H).Sound how → a ≠ .call .shrinkToFit) :
    ∃ o x' y' t', a.runRef cfg how x = (o, x') ∧ a.run cfg y = (o, y') ∧ o.Safe ∧
      Inv cfg t' x' y' := by
  cases a with
  | read op =>
    obtain ⟨o, x', y', e1, e2, ho, h'⟩ := step h op
    refine ⟨o, x', y', t, e1, e2, ?_, h'⟩
    rcases ho with rfl | ⟨_, rfl⟩ <;> exact trivial
  | call op =>
    obtain ⟨o, m', t', e, ho, h'⟩ := run_shape h.shape (hc op rfl)
    have hS := TMap.runRef_sim (s := x.store) (h.map.symm ▸ h.shape) h.good (how := how) op
      fun hh he => hs hh (by rw [he])
    rw [h.map, e] at hS
    have key : ∃ s', op.runRef cfg how x.store = (o, s') ∧ s'.map = m' ∧ TMap.OK cfg s' := by
      cases o with
      | ok b =>
        obtain ⟨a, s', e', hm, hk, rfl⟩ := hS
        exact ⟨s', e', hm, hk⟩
      | panic => exact hS
      | abort => exact hS
      | ub => exact ho.elim
      | diverge => exact ho.elim
    obtain ⟨s', e', hm, hk⟩ := key
    exact ⟨o, .start s', .start m', t', by simp [Act.runRef, Reader.call, e'],
      by simp [Act.run, Reader.call, e], ho, .start h' hm hk⟩

theorem acts {how : ChunkPtr} (l : List (Act K V)) {t : Tree K V} {x : Traced H K V} {y : Plain K V}
    (h : Inv cfg t x y) (hc : ∀ op, .call op ∈ l → op.Calm)
    (hs : ¬ (view H).Sound how → .call .shrinkToFit ∉ l) :
    ∃ os x' y' t', execute (Act.runRef cfg how) l x = (os, x') ∧
      execute (Act.run cfg) l y = (os, y') ∧ (∀ o ∈ os, o.Safe) ∧ Inv cfg t' x' y' := by
  induction l generalizing x y t with
  | nil => exact ⟨[], x, y, t, rfl, rfl, by simp, h⟩
  | cons a l ih =>
    obtain ⟨o, x1, y1, t1, e1, e2, ho, h1⟩ := act h (how := how) a
      (fun op he => hc op (by rw [← he]; exact List.mem_cons_self ..))
      fun hh he => hs hh (by rw [← he]; exact List.mem_cons_self ..)
    obtain ⟨os, x2, y2, t2, e3, e4, hos, h2⟩ := ih h1
      (fun op hm => hc op (List.mem_cons_of_mem _ hm)) fun hh hm => hs hh (List.mem_cons_of_mem _ hm)
    have hall : ∀ z ∈ o :: os, z.Safe := fun z hz => by
      rcases List.mem_cons.1 hz with rfl | hz
      · exact ho
      · exact hos z hz
    cases o with
    | ok r =>
      exact ⟨.ok r :: os, x2, y2, t2, by unfold execute; rw [e1]; simp only [e3],
        by unfold execute; rw [e2]; simp only [e4], hall, h2⟩
    | panic =>
      exact ⟨.panic :: os, x2, y2, t2, by unfold execute; rw [e1]; simp only [e3],
        by unfold execute; rw [e2]; simp only [e4], hall, h2⟩
    | abort =>
      exact ⟨[.abort], x1, y1, t1, by unfold execute; rw [e1],
        by unfold execute; rw [e2], by simpa using ho, h1⟩
    | ub => exact ho.elim
    | diverge => exact ho.elim

end Reader
end BST
