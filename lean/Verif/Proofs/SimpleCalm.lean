import Verif.Proofs.SimpleLedger
/-!
# Destructors in `simple_bst` that do not panic
-/
set_option linter.unusedSimpArgs false
namespace BST.Simple
open Spec (BT fate panicking)
variable {K V α β : Type}

namespace World
variable {d : Drops K V} {s s' : World K V}

theorem panicking_calm (hd : d.Calm) (xs : List (K ⊕ V)) : panicking d xs = 0 := by
  unfold panicking
  rw [List.countP_eq_zero]
  intro x _
  cases x with
  | inl k => simp [hd.1 k]
  | inr v => simp [hd.2 v]

/-- `f` does to the map what `f'` does. -/
def Sim (f : M (World K V) α) (f' : M (Map K V) α) : Prop :=
  ∀ s, ((f s).1, (f s).2.map) = f' s.map

theorem Sim.bind {f : M (World K V) α} {f' : M (Map K V) α} {g : α → M (World K V) β}
    {g' : α → M (Map K V) β} (hf : Sim f f') (hg : ∀ a, Sim (g a) (g' a)) :
    Sim (f >>= g) (f' >>= g') := by
  intro s
  have h := hf s
  rw [M.bind_apply, M.bind_apply, ← h]
  rcases f s with ⟨o, s1⟩
  cases o with
  | ok a => exact hg a s1
  | panic => rfl
  | abort => rfl
  | ub => rfl
  | diverge => rfl

theorem Sim.pure (a : α) : Sim (K := K) (V := V) (Pure.pure a) (Pure.pure a) := fun _ => rfl

theorem Sim.onMap (f : M (Map K V) α) : Sim (World.onMap f) f := by
  intro s
  unfold World.onMap
  rcases f s.map with ⟨o, m⟩
  rfl

theorem Burns.sim (hd : d.Calm) {f : M (World K V) Unit} {xs : List (K ⊕ V)} (h : Burns d f xs) :
    Sim f (Pure.pure ()) := by
  intro s
  obtain ⟨ys, zs, _, _, h⟩ := h s
  rw [h, panicking_calm hd]
  rfl

theorem Sim.onPanic (hd : d.Calm) {f : M (World K V) α} {f' : M (Map K V) α} (hf : Sim f f')
    {b : M (World K V) Unit} {xs : List (K ⊕ V)} (hb : Burns d b xs) : Sim (onPanic f b) f' := by
  intro s
  rw [← hf s]
  unfold Simple.onPanic
  rcases f s with ⟨o, s1⟩
  cases o with
  | panic =>
    obtain ⟨ys, zs, _, _, h⟩ := hb.unwind (α := α) s1
    dsimp only
    rw [h, if_pos (panicking_calm hd _)]
    rfl
  | ok a => rfl
  | abort => rfl
  | ub => rfl
  | diverge => rfl

theorem returning_sim (hd : d.Calm) (r : V) (k : K) :
    Sim (returning d r (dropItem d (.inl k))) (Pure.pure ()) := by
  intro s
  obtain ⟨s', h1, h2⟩ := returning_eff (d := d) (s := s) r k
  rw [h1, hd.1 k, h2]
  rfl

theorem insert_sim (hd : d.Calm) (cfg : Cfg) (c : Probe K) (k : K) (v : V) :
    Sim (insert cfg d c k v) (Map.insert cfg c k v) := by
  have h := Sim.bind ((Sim.onMap (Map.insert cfg c k v)).onPanic hd
    ((Burns.item (d := d) (.inr v)).both (Burns.item (.inl k))))
    (g := fun old => match old with
      | none => Pure.pure none
      | some prev => returning d prev (dropItem d (.inl k)) >>= fun _ => Pure.pure (some prev))
    (g' := Pure.pure) (fun old => by
      cases old with
      | none => exact Sim.pure none
      | some prev => exact Sim.bind (g' := fun _ => Pure.pure (some prev)) (returning_sim hd prev k) fun _ => Sim.pure _)
  rw [bind_pure] at h
  exact h

theorem remove_sim (hd : d.Calm) (cfg : Cfg) (c : Probe K) :
    Sim (remove cfg d c) (Map.remove (V := V) cfg c) := by
  refine Sim.bind (Sim.onMap _) fun e => ?_
  cases e with
  | none => exact Sim.pure none
  | some e => exact Sim.bind (g' := fun _ => Pure.pure (some e.2)) (returning_sim hd e.2 e.1) fun _ => Sim.pure _

theorem insertStmt_sim (hd : d.Calm) (cfg : Cfg) (c : Probe K) (k : K) (v : V) :
    Sim (insertStmt cfg d c k v) (Map.insert cfg c k v >>= fun _ => Pure.pure ()) := by
  refine Sim.bind (insert_sim hd cfg c k v) fun e => ?_
  cases e with
  | none => exact Sim.pure ()
  | some e => exact (Burns.item _).sim hd

theorem insertAll_sim (hd : d.Calm) (cfg : Cfg) (cmps : Nat → K → Probe K) (l : List (K × V)) (n : Nat) :
    Sim (insertAll cfg d cmps n l) (Map.insertAll cfg cmps n l) := by
  induction l generalizing n with
  | nil => exact Sim.pure ()
  | cons e l ih =>
    have h := Sim.bind ((insertStmt_sim hd cfg (cmps n e.1) e.1 e.2).onPanic hd (Burns.items l))
      fun _ => ih (n + 1)
    rw [bind_assoc] at h
    simp only [pure_bind] at h
    exact h

theorem extend_sim (hd : d.Calm) (cfg : Cfg) (cmps : Nat → K → Probe K) (src : BSTMap.Source K V) :
    Sim (extend cfg d cmps src) (Map.extend cfg cmps src) := by
  refine Sim.bind (insertAll_sim hd cfg cmps src.items 0) fun _ => ?_
  split
  · exact fun _ => rfl
  · exact Sim.pure ()

theorem collect_sim (hd : d.Calm) (cfg : Cfg) (cmps : Nat → K → Probe K) (src : BSTMap.Source K V) :
    Sim (assign d (fromIter cfg d cmps src))
      (Simple.assign (fun m => Map.fromIter cfg cmps src m.allocs)) := by
  intro s
  have h := extend_sim hd cfg cmps src s.fresh
  rcases hu : extend cfg d cmps src s.fresh with ⟨o, s1⟩
  rw [hu] at h
  have hm : (fun m : Map K V => Map.fromIter cfg cmps src m.allocs) s.map = (o, s1.map) := h.symm
  have hb : fromIter cfg d cmps src s = onPanic (M.lift (match o with
        | .ok () => .ok s1.map
        | .panic => .panic
        | .abort => .abort
        | .ub => .ub
        | .diverge => .diverge))
      (dropLink d s1.map.root) { s1 with map := { s.map with allocs := s1.map.allocs } } := by
    unfold fromIter building
    rw [show ({ s with map := { Map.new with allocs := s.map.allocs } } : World K V) = s.fresh from rfl, hu]
    rfl
  unfold assign Simple.assign
  rw [M.bind_apply, hb, hm]
  cases o with
  | ok a => exact (Burns.link (d := d) s.map.root).sim hd { s1 with map := s1.map }
  | panic =>
    obtain ⟨ys, zs, _, _, h2⟩ := (Burns.link (d := d) s1.map.root).unwind (α := Map K V)
      { s1 with map := { s.map with allocs := s1.map.allocs } }
    rw [if_pos (panicking_calm hd _)] at h2
    have h3 : onPanic (M.lift (.panic : Out (Map K V))) (dropLink d s1.map.root)
        { s1 with map := { s.map with allocs := s1.map.allocs } } = _ := h2
    rw [h3]
    rfl
  | abort => rfl
  | ub => rfl
  | diverge => rfl

theorem cloneLink_sim (hd : d.Calm) (cfg : Cfg) (ck : K → Option K) (cv : V → Option V) (t : Link K V)
    (boxed : Bool) (s : World K V) :
    Map.cloneLink cfg ck cv boxed t s.map.allocs =
        ((cloneLink cfg d ck cv boxed t s).1, (cloneLink cfg d ck cv boxed t s).2.map.allocs) ∧
      (cloneLink cfg d ck cv boxed t s).2.map =
        { s.map with allocs := (cloneLink cfg d ck cv boxed t s).2.map.allocs } := by
  -- as `Sim`, for a part of the map
  let Sim' : {γ : Type} → M (World K V) γ → M Nat γ → Prop := fun f f' =>
    ∀ s, f' s.map.allocs = ((f s).1, (f s).2.map.allocs) ∧
      (f s).2.map = { s.map with allocs := (f s).2.map.allocs }
  have hbind : ∀ {γ δ : Type} {f : M (World K V) γ} {f' : M Nat γ} {g : γ → M (World K V) δ}
      {g' : γ → M Nat δ}, Sim' f f' → (∀ a, Sim' (g a) (g' a)) → Sim' (f >>= g) (f' >>= g') := by
    intro γ δ f f' g g' hf hg s
    obtain ⟨h1, h2⟩ := hf s
    rw [M.bind_apply, M.bind_apply, h1]
    rcases hu : f s with ⟨o, s1⟩
    rw [hu] at h2
    cases o with
    | ok a =>
      obtain ⟨h3, h4⟩ := hg a s1
      refine ⟨h3, ?_⟩
      dsimp only at h2 h4 ⊢
      rw [h4, h2]
    | panic => exact ⟨rfl, h2⟩
    | abort => exact ⟨rfl, h2⟩
    | ub => exact ⟨rfl, h2⟩
    | diverge => exact ⟨rfl, h2⟩
  have hpanic : ∀ {γ : Type} {f : M (World K V) γ} {f' : M Nat γ} {b : M (World K V) Unit}
      {xs : List (K ⊕ V)}, Sim' f f' → Burns d b xs → Sim' (onPanic f b) f' := by
    intro γ f f' b xs hf hb s
    obtain ⟨h1, h2⟩ := hf s
    rw [h1]
    unfold Simple.onPanic
    rcases hu : f s with ⟨o, s1⟩
    rw [hu] at h2
    cases o with
    | panic =>
      obtain ⟨ys, zs, _, _, h⟩ := hb.unwind (α := γ) s1
      dsimp only
      rw [h, if_pos (panicking_calm hd _)]
      exact ⟨rfl, h2⟩
    | ok a => exact ⟨rfl, h2⟩
    | abort => exact ⟨rfl, h2⟩
    | ub => exact ⟨rfl, h2⟩
    | diverge => exact ⟨rfl, h2⟩
  suffices h : Sim' (cloneLink cfg d ck cv boxed t) (Map.cloneLink cfg ck cv boxed t) from h s
  have hwith : ∀ {γ : Type} (f : γ → Option γ) (inj : γ → K ⊕ V) (x : γ),
      Sim' (cloneWith f inj x) (Map.cloneWith f x) := by
    intro γ f inj x s
    unfold cloneWith Map.cloneWith
    cases f x <;> exact ⟨rfl, rfl⟩
  induction t generalizing boxed with
  | nil => exact fun s => ⟨rfl, rfl⟩
  | node k v l r ihl ihr =>
    unfold cloneLink Map.cloneLink
    refine hbind (fun s => ⟨rfl, rfl⟩) fun _ => hbind (hwith ck .inl k) fun k' =>
      hbind (hpanic (hwith cv .inr v) (Burns.item _)) fun v' =>
      hbind (hpanic (ihl true) ((Burns.item _).both (Burns.item _))) fun l' =>
      hbind (hpanic (ihr true) ((Burns.link _).both ((Burns.item _).both (Burns.item _)))) fun r' =>
      fun s => ⟨rfl, rfl⟩

theorem cloned_sim (hd : d.Calm) (cfg : Cfg) (ck : K → Option K) (cv : V → Option V) :
    Sim (assign d (clone cfg d ck cv)) (Simple.assign (Map.clone cfg ck cv)) := by
  intro s
  obtain ⟨h1, h2⟩ := cloneLink_sim hd cfg ck cv s.map.root false s
  unfold assign clone Simple.assign Map.clone
  rw [h1, M.bind_apply, M.get_bind, M.bind_apply]
  rcases hu : cloneLink cfg d ck cv false s.map.root s with ⟨o, s1⟩
  rw [hu] at h2
  cases o with
  | ok u =>
    have h3 := (Burns.link (d := d) s1.map.root).sim hd
      { s1 with map := { root := u, len := s.map.len, allocs := s1.map.allocs } }
    exact h3
  | panic => exact congrArg (Prod.mk _) h2
  | abort => exact congrArg (Prod.mk _) h2
  | ub => exact congrArg (Prod.mk _) h2
  | diverge => exact congrArg (Prod.mk _) h2

theorem runDrop_sim (hd : d.Calm) (cfg : Cfg) (op : SimpleOp K V) :
    Sim (op.runDrop cfg d) (op.run cfg) := by
  cases op with
  | collect cmps src => exact Sim.bind (collect_sim hd cfg cmps src) fun _ => Sim.pure _
  | cloned ck cv => exact Sim.bind (cloned_sim hd cfg ck cv) fun _ => Sim.pure _
  | insert c k v => exact Sim.bind (insert_sim hd cfg c k v) fun _ => Sim.pure _
  | remove c => exact Sim.bind (remove_sim hd cfg c) fun _ => Sim.pure _
  | clear =>
    refine Sim.bind (fun s => ?_) fun _ => Sim.pure _
    exact (Burns.link (d := d) s.map.root).sim hd { s with map := { Map.new with allocs := s.map.allocs } }
  | extend cmps src => exact Sim.bind (extend_sim hd cfg cmps src) fun _ => Sim.pure _
  | _ => exact Sim.onMap _

end World

open World in
theorem history_calm (cfg : Cfg) (ops : List (Drops K V × SimpleOp K V)) (hd : ∀ x ∈ ops, x.1.Calm)
    (s : World K V) :
    ((simpleHistoryDrop cfg ops s).1, (simpleHistoryDrop cfg ops s).2.map) =
      simpleHistory cfg (ops.map (·.2)) s.map := by
  unfold simpleHistoryDrop simpleHistory
  induction ops generalizing s with
  | nil => rfl
  | cons op ops ih =>
    have h := runDrop_sim (hd op (by simp)) cfg op.2 s
    simp only [List.map_cons, execute]
    rw [← h]
    rcases op.2.runDrop cfg op.1 s with ⟨o, s1⟩
    have h2 := ih (fun x hx => hd x (List.mem_cons_of_mem _ hx)) s1
    cases o <;> simp only [← h2]

open World in
theorem history_eff {cfg : Cfg} (he : 2 ≤ cfg.esize) {cmp : K → K → Ordering} [Std.TransCmp cmp]
    (ops : List (Drops K V × SimpleOp K V)) (hops : ∀ x ∈ ops, x.2.Lawful cmp) {s : World K V}
    {b0 : BT (K × V)} (hs : Is cmp b0 s) :
    ∃ os s' b, simpleHistoryDrop cfg ops s = (os, s') ∧
      Spec.Conforms (Spec.SimpleDropAnswer cmp) ops os b0 b ∧ (Out.abort ∉ os → Is cmp b s') := by
  unfold simpleHistoryDrop
  induction ops generalizing s b0 with
  | nil => exact ⟨[], s, _, rfl, rfl, fun _ => hs⟩
  | cons op ops ih =>
    obtain ⟨o, s1, b1, h1, h2, h3⟩ := runDrop_eff (d := op.1) he (hops op (by simp)) hs
    rcases h3 with rfl | ⟨h3, h4⟩
    · exact ⟨[.abort], s1, b1, by simp only [execute, h1], ⟨b1, h2, .inl ⟨rfl, rfl, rfl⟩⟩, by simp⟩
    · obtain ⟨os, s', b, g1, g2, g3⟩ := ih (fun x hx => hops x (List.mem_cons_of_mem _ hx)) h4
      refine ⟨o :: os, s', b, ?_, ⟨b1, h2, .inr ⟨?_, g2⟩⟩, fun hn => g3 fun h => hn (List.mem_cons_of_mem _ h)⟩
      · rcases h3 with ⟨r, rfl⟩ | rfl <;> simp only [execute, h1, g1]
      · rcases h3 with ⟨r, rfl⟩ | rfl <;> simp
end BST.Simple
