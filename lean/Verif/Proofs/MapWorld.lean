import Verif.Proofs.MapLedger
/-!
# The two models of destructors in `bst` agree
-/
set_option linter.unusedSimpArgs false
namespace BST
open BSTMap
variable {K V α β : Type}

namespace BSTMap.World
open Simple (Drops)
variable {cfg : Cfg} {d : Drops K V}

/-- `f` aborts or does to the map what `g` does. -/
def Sim (f : M (World K V) α) (g : M (BSTMap K V) α) : Prop :=
  ∀ s, (f s).1 = .abort ∨ g s.map = ((f s).1, (f s).2.map)

/-- `b` leaves the map alone. -/
def Still (b : M (World K V) Unit) : Prop :=
  ∀ s, ((b s).1 = .ok () ∨ (b s).1 = .panic ∨ (b s).1 = .abort) ∧ (b s).2.map = s.map

theorem Sim.bind {f : M (World K V) α} {g : M (BSTMap K V) α} {f' : α → M (World K V) β}
    {g' : α → M (BSTMap K V) β} (h : Sim f g) (h' : ∀ a, Sim (f' a) (g' a)) :
    Sim (f >>= f') (g >>= g') := by
  intro s
  rw [M.bind_apply, M.bind_apply]
  rcases h s with h | h
  · left
    rcases he : f s with ⟨o, s1⟩
    rw [he] at h
    dsimp only at h
    rw [h]
  · rw [h]
    rcases he : f s with ⟨o, s1⟩
    cases o with
    | ok a => exact h' a s1
    | panic => exact .inr rfl
    | abort => exact .inl rfl
    | ub => exact .inr rfl
    | diverge => exact .inr rfl

theorem Sim.pure (a : α) : Sim (Pure.pure a : M (World K V) α) (Pure.pure a) := fun _ => .inr rfl
theorem Sim.panic : Sim (M.panic : M (World K V) α) M.panic := fun _ => .inr rfl
theorem Sim.lift (o : Out α) : Sim (M.lift o : M (World K V) α) (M.lift o) := fun _ => .inr rfl
theorem onPanic_other {f : M (World K V) α} {b : M (World K V) Unit} {s s1 : World K V} {o : Out α}
    (h : f s = (o, s1)) (ho : o ≠ .panic) : Simple.onPanic f b s = (o, s1) := by
  unfold Simple.onPanic
  rw [h]
  cases o with
  | panic => exact absurd rfl ho
  | _ => rfl

theorem onPanic_panic {f : M (World K V) α} {b : M (World K V) Unit} {s s1 : World K V}
    (h : f s = (.panic, s1)) : Simple.onPanic f b s = Simple.unwind b s1 := by
  unfold Simple.onPanic
  rw [h]

theorem sim_onMap (f : M (BSTMap K V) α) : Sim (onMap f) f := fun _ => .inr rfl

theorem unwind_still {b : M (World K V) Unit} (hb : Still b) (s : World K V) :
    ((Simple.unwind b s : Out α × World K V).1 = .panic ∨ (Simple.unwind b s : Out α × World K V).1 = .abort) ∧
      (Simple.unwind b s : Out α × World K V).2.map = s.map := by
  obtain ⟨h1, h2⟩ := hb s
  unfold Simple.unwind
  rcases he : b s with ⟨o, s1⟩
  rw [he] at h1 h2
  rcases h1 with h1 | h1 | h1 <;> (dsimp only at h1; subst h1; simp [h2] at *; exact h2)

theorem Sim.onPanic {f : M (World K V) α} {g : M (BSTMap K V) α} {b : M (World K V) Unit}
    (h : Sim f g) (hb : Still b) : Sim (Simple.onPanic f b) g := by
  intro s
  unfold Simple.onPanic
  rcases he : f s with ⟨o, s1⟩
  rcases h s with h | h
  · rw [he] at h
    dsimp only at h
    subst h
    exact .inl rfl
  · rw [he] at h
    cases o with
    | panic =>
      obtain ⟨h1 | h1, h2⟩ := unwind_still (α := α) hb s1
      · right; rw [h]; dsimp only; rw [h1, h2]
      · left; exact h1
    | _ => exact .inr h

theorem Still.item (x : K ⊕ V) : Still (dropItem d x) := by
  intro s
  unfold dropItem
  split <;> simp

theorem Still.both {a b : M (World K V) Unit} (ha : Still a) (hb : Still b) : Still (Simple.both a b) := by
  intro s
  obtain ⟨h1, h2⟩ := ha s
  unfold Simple.both
  rcases he : a s with ⟨o, s1⟩
  rw [he] at h1 h2
  rcases h1 with h1 | h1 | h1 <;> (dsimp only at h1 h2; subst h1)
  · have : Simple.onPanic a b s = (.ok (), s1) := by unfold Simple.onPanic; rw [he]
    rw [M.bind_ok this]
    obtain ⟨g1, g2⟩ := hb s1
    exact ⟨g1, g2.trans h2⟩
  · obtain ⟨g1, g2⟩ := unwind_still (α := Unit) hb s1
    have : Simple.onPanic a b s = Simple.unwind b s1 := by unfold Simple.onPanic; rw [he]
    rcases hu : (Simple.unwind b s1 : Out Unit × World K V) with ⟨o, s2⟩
    rw [hu] at g1 g2 this
    rcases g1 with g1 | g1 <;> (dsimp only at g1; subst g1)
    · rw [M.bind_panic this]; exact ⟨.inr (.inl rfl), g2.trans h2⟩
    · rw [M.bind_abort this]; exact ⟨.inr (.inr rfl), g2.trans h2⟩
  · have : Simple.onPanic a b s = (.abort, s1) := by unfold Simple.onPanic; rw [he]
    rw [M.bind_abort this]; exact ⟨.inr (.inr rfl), h2⟩

theorem Still.items (l : List (K × V)) : Still (dropItems d l) := by
  induction l with
  | nil => exact fun s => ⟨.inl rfl, rfl⟩
  | cons e l ih => exact (Still.item _).both ((Still.item _).both ih)

/-- What `returning` does. -/
theorem returning_cases (r : V) (k : K) (s : World K V) :
    (returning d r (dropItem d (.inl k)) s).1 = .abort ∨
      (returning d r (dropItem d (.inl k)) s).1 = (if d.key k then .panic else .ok ()) ∧
      (returning d r (dropItem d (.inl k)) s).2.map = s.map := by
  have ha : dropItem d (.inl k) s = (if d.key k then .panic else .ok (),
    { s with dropped := s.dropped ++ [.inl k] }) := rfl
  unfold returning
  rw [ha]
  cases hk : d.key k with
  | false => exact .inr ⟨rfl, rfl⟩
  | true =>
    simp only [if_true]
    split
    · obtain ⟨h1 | h1, h2⟩ := unwind_still (α := Unit) (Still.item (d := d) (.inr r))
        { s with dropped := s.dropped ++ [.inl k] }
      · exact .inr ⟨h1, h2⟩
      · exact .inl h1
    · exact .inr ⟨rfl, rfl⟩

theorem sim_insert (c : Probe K) (k : K) (v : V) :
    Sim (World.insert cfg d c k v) (insertDrop cfg d.dtors c k v) := by
  intro s
  have hb : Still (Simple.both (dropItem d (.inr v)) (dropItem d (.inl k))) := (Still.item _).both (Still.item _)
  unfold World.insert insertDrop
  rcases hi : BSTMap.insert cfg c k v s.map with ⟨o, m⟩
  have hm : onMap (BSTMap.insert cfg c k v) s =
      (o, { s with map := m, dropped := s.dropped ++ gone s.map m }) := onMap_eq hi
  cases o with
  | ok r =>
    have := onPanic_other (b := Simple.both (dropItem d (.inr v)) (dropItem d (.inl k))) hm (by simp)
    rw [M.bind_ok this]
    cases r with
    | none => exact .inr rfl
    | some old =>
      dsimp only
      have h := returning_cases (d := d) old k { s with map := m, dropped := s.dropped ++ gone s.map m }
      rcases hr : returning d old (dropItem d (.inl k))
        { s with map := m, dropped := s.dropped ++ gone s.map m } with ⟨o, s1⟩
      rw [hr] at h
      rcases h with h | ⟨h, h'⟩ <;> dsimp only at h
      · subst h; left; rw [M.bind_abort hr]
      · right
        have hk : d.dtors.badKey k = d.key k := rfl
        dsimp only at h'
        rw [hk]
        cases hd : d.key k with
        | true => rw [hd] at h; subst h; rw [M.bind_panic hr]; simp [h']
        | false => rw [hd] at h; subst h; rw [M.bind_ok hr]; simp [h', M.pure_apply]
  | panic =>
    have := onPanic_panic (b := Simple.both (dropItem d (.inr v)) (dropItem d (.inl k))) hm
    have hx : (Simple.unwind (Simple.both (dropItem d (.inr v)) (dropItem d (.inl k)))
        { s with map := m, dropped := s.dropped ++ gone s.map m } : Out (Option V) × World K V) =
        (if d.key k || d.value v then .abort else .panic,
          { s with map := m, dropped := s.dropped ++ gone s.map m ++ [.inr v] ++
            (if d.value v && d.key k then [.inl k] else [.inl k]) }) := by
      have : (if d.value v && d.key k then [Sum.inl k] else [Sum.inl k] : List (K ⊕ V)) = [.inl k] := by
        split <;> rfl
      rw [this]
      cases h1 : d.value v <;> cases h2 : d.key k <;>
        simp [Simple.unwind, Simple.both, Simple.onPanic, dropItem, h1, h2, M.bind_apply]
    rw [hx] at this
    by_cases hd : (d.key k || d.value v) = true
    · left; rw [if_pos hd] at this; rw [M.bind_abort this]
    · right
      rw [if_neg hd] at this
      rw [M.bind_panic this]
      have hk : (d.dtors.badKey k || d.dtors.badValue v) = (d.key k || d.value v) := rfl
      simp only [hk, hd]
      rfl
  | abort =>
    left
    have := onPanic_other (b := Simple.both (dropItem d (.inr v)) (dropItem d (.inl k))) hm (by simp)
    rw [M.bind_abort this]
  | ub =>
    right
    have := onPanic_other (b := Simple.both (dropItem d (.inr v)) (dropItem d (.inl k))) hm (by simp)
    rw [M.bind_apply, this]
  | diverge =>
    right
    have := onPanic_other (b := Simple.both (dropItem d (.inr v)) (dropItem d (.inl k))) hm (by simp)
    rw [M.bind_apply, this]

theorem sim_remove (c : Probe K) : Sim (World.remove cfg d c) (removeDrop cfg d.dtors c) := by
  intro s
  unfold World.remove removeDrop
  rcases hi : BSTMap.removeEntry cfg c s.map with ⟨o, m⟩
  have hm : onMap (BSTMap.removeEntry cfg c) s =
      (o, { s with map := m, dropped := s.dropped ++ gone s.map m }) := onMap_eq hi
  cases o with
  | ok r =>
    rw [M.bind_ok hm]
    cases r with
    | none => exact .inr rfl
    | some e =>
      dsimp only
      have h := returning_cases (d := d) e.2 e.1 { s with map := m, dropped := s.dropped ++ gone s.map m }
      rcases hr : returning d e.2 (dropItem d (.inl e.1))
        { s with map := m, dropped := s.dropped ++ gone s.map m } with ⟨o, s1⟩
      rw [hr] at h
      rcases h with h | ⟨h, h'⟩ <;> dsimp only at h
      · subst h; left; rw [M.bind_abort hr]
      · right
        have hk : d.dtors.badKey e.1 = d.key e.1 := rfl
        dsimp only at h'
        rw [hk]
        cases hd : d.key e.1 with
        | true => rw [hd] at h; subst h; rw [M.bind_panic hr]; simp [h']
        | false => rw [hd] at h; subst h; rw [M.bind_ok hr]; simp [h', M.pure_apply]
  | panic => right; rw [M.bind_panic hm]
  | abort => left; rw [M.bind_abort hm]
  | ub => right; rw [M.bind_apply, hm]
  | diverge => right; rw [M.bind_apply, hm]

theorem sim_insertStmt (c : Probe K) (k : K) (v : V) :
    Sim (World.insertStmt cfg d c k v) (BSTMap.insertStmt cfg d.dtors c k v) := by
  unfold World.insertStmt BSTMap.insertStmt
  refine Sim.bind (sim_insert c k v) fun old => ?_
  cases old with
  | none => exact Sim.pure ()
  | some v =>
    intro s
    right
    have : (Option.any d.dtors.badValue (some v)) = d.value v := rfl
    rw [this]
    show _ = ((if d.value v then .panic else .ok () : Out Unit), s.map)
    cases d.value v <;> rfl

theorem sim_insertAll (cmps : Nat → K → Probe K) (l : List (K × V)) (n : Nat) :
    Sim (World.insertAll cfg d cmps n l) (insertAllDrop cfg d.dtors cmps n l) := by
  induction l generalizing n with
  | nil => exact Sim.pure ()
  | cons e l ih =>
    exact Sim.bind (Sim.onPanic (sim_insertStmt _ _ _) (Still.items l)) fun _ => ih (n + 1)

theorem sim_tail (b : Bool) : Sim (if b then M.panic else Pure.pure () : M (World K V) Unit)
    (if b then M.panic else Pure.pure ()) := by
  cases b
  · exact Sim.pure ()
  · exact Sim.panic

theorem sim_extend (cmps : Nat → K → Probe K) (src : Source K V) :
    Sim (World.extend cfg d cmps src) (extendDrop cfg d.dtors cmps src) :=
  Sim.bind (Sim.onPanic (sim_onMap _) (Still.items _)) fun _ =>
    Sim.bind (sim_insertAll _ _ _) fun _ => sim_tail _

theorem sim_loop {body : β → M (World K V) (β ⊕ α)} {body' : β → M (BSTMap K V) (β ⊕ α)}
    (h : ∀ b, Sim (body b) (body' b)) (n : Nat) (b : β) : Sim (BST.loop n body b) (BST.loop n body' b) := by
  induction n generalizing b with
  | zero => exact fun _ => .inr rfl
  | succ n ih =>
    rw [loop_succ, loop_succ]
    refine Sim.bind (h b) fun r => ?_
    cases r with
    | inl b' => exact ih b'
    | inr a => exact Sim.pure a

/-- Dropping a map: the outcome. -/
theorem dropMap_out (m : BSTMap K V) (s : World K V) :
    (dropMap cfg d m s).2.map = s.map ∧
      ((dropMap cfg d m s).1 = .abort ∨ (dropMap cfg d m s).1 = (BSTMap.drop cfg d.dtors.node m).1) := by
  unfold dropMap
  rw [show nodeInfo d = d.dtors.node from rfl]
  rcases hd : BSTMap.drop cfg d.dtors.node m with ⟨o, m'⟩
  cases o with
  | panic =>
    refine ⟨rfl, ?_⟩
    dsimp only
    split
    · exact .inl rfl
    · exact .inr rfl
  | _ => exact ⟨rfl, .inr rfl⟩

theorem sim_assign {f : M (World K V) Unit} {g : M (BSTMap K V) Unit} (h : Sim f g) :
    Sim (World.assign cfg d (building cfg d f)) (assignDrop cfg d.dtors fun _ => g BSTMap.new) := by
  intro s
  unfold World.assign assignDrop
  rw [M.bind_apply]
  unfold building
  dsimp only
  rcases he : f { s with map := BSTMap.new } with ⟨o, s1⟩
  have h := h { s with map := BSTMap.new }
  rw [he] at h
  dsimp only at h
  rcases h with rfl | h
  · exact .inl rfl
  · rw [h]
    cases o with
    | ok a =>
      obtain ⟨h1, h2⟩ := dropMap_out (cfg := cfg) (d := d) s.map { s1 with map := s1.map }
      rcases h2 with h2 | h2
      · exact .inl h2
      · right
        show (_, _) = ((dropMap cfg d s.map { s1 with map := s1.map }).1, _)
        rw [h2]
        exact congrArg _ h1.symm
    | panic =>
      obtain ⟨h1, h2⟩ := dropMap_out (cfg := cfg) (d := d) s1.map { s1 with map := s.map }
      dsimp only [Simple.onPanic, M.lift, Simple.unwind]
      rcases hd : dropMap cfg d s1.map { s1 with map := s.map } with ⟨o, s2⟩
      rw [hd] at h1 h2
      dsimp only at h1 h2
      rcases h2 with rfl | h2
      · exact .inl rfl
      · rw [← h2]
        cases o with
        | ok a => right; dsimp only; rw [h1]
        | panic => exact .inl rfl
        | abort => exact .inl rfl
        | ub => right; dsimp only; rw [h1]
        | diverge => right; dsimp only; rw [h1]
    | abort => exact .inl rfl
    | ub => exact .inr rfl
    | diverge => exact .inr rfl

theorem sim_cloneBody (cmps : Nat → K → Probe K) (ck : K → Option K) (cv : V → Option V) (m : BSTMap K V)
    (st : Nat × List (Node K V)) : Sim (World.cloneBody cfg d cmps ck cv m st)
      (match st.2 with
      | [] => Pure.pure (.inr ())
      | node :: stack =>
        match ck node.key, cv node.value with
        | some k, some v => do
          BSTMap.insertStmt cfg d.dtors (cmps st.1 k) k v
          let r ← M.lift (node.right m.nodes)
          let l ← M.lift (node.left m.nodes)
          Pure.pure (.inl (st.1 + 1, l.toList ++ r.toList ++ stack))
        | some k, none => M.lift (if d.dtors.badKey k then .abort else .panic)
        | none, _ => M.panic) := by
  obtain ⟨i, st⟩ := st
  cases st with
  | nil => exact Sim.pure _
  | cons node stack =>
    dsimp only
    unfold World.cloneBody
    dsimp only
    intro s
    cases hk : ck node.key with
    | none =>
      right
      have : cloneWith (V := V) ck .inl node.key s = (.panic, s) := by unfold cloneWith; rw [hk]
      rw [M.bind_panic this]; rfl
    | some k =>
      have : cloneWith (V := V) ck .inl node.key s = (.ok k, { s with made := s.made ++ [.inl k] }) := by
        unfold cloneWith; rw [hk]
      rw [M.bind_ok this]
      cases hv : cv node.value with
      | none =>
        dsimp only
        have h2 : Simple.onPanic (cloneWith (K := K) cv .inr node.value) (dropItem d (.inl k))
            { s with made := s.made ++ [.inl k] } =
            (if d.key k then .abort else .panic,
              { s with made := s.made ++ [.inl k], dropped := s.dropped ++ [.inl k] }) := by
          unfold Simple.onPanic cloneWith
          rw [hv]
          cases hd : d.key k <;> simp [Simple.unwind, dropItem, hd]
        have hb : d.dtors.badKey k = d.key k := rfl
        rw [hb]
        cases hd : d.key k with
        | true => left; rw [hd] at h2; rw [M.bind_abort h2]
        | false => right; rw [hd] at h2; rw [M.bind_panic h2]; rfl
      | some v =>
        have h2 : Simple.onPanic (cloneWith (K := K) cv .inr node.value) (dropItem d (.inl k))
            { s with made := s.made ++ [.inl k] } =
            (.ok v, { s with made := s.made ++ [.inl k] ++ [.inr v] }) := by
          unfold Simple.onPanic cloneWith
          rw [hv]
        rw [M.bind_ok h2]
        exact Sim.bind (sim_insertStmt (cfg := cfg) (d := d) (cmps i k) k v) (fun _ =>
          Sim.bind (Sim.lift (node.right m.nodes)) fun r => Sim.bind (Sim.lift (node.left m.nodes)) fun l =>
            Sim.pure _) _

theorem assignDrop_congr {f f' : BSTMap K V → Out Unit × BSTMap K V} {m : BSTMap K V} {e : Dtors K V}
    (h : f m = f' m) : assignDrop cfg e f m = assignDrop cfg e f' m := by
  unfold assignDrop
  rw [h]

theorem sim_cloned (cmps : Nat → K → Probe K) (ck : K → Option K) (cv : V → Option V) :
    Sim (World.assign cfg d (World.clone cfg d cmps ck cv))
      (assignDrop cfg d.dtors (cloneDrop cfg d.dtors cmps ck cv)) := by
  intro s
  have h := sim_assign (cfg := cfg) (d := d) (Sim.bind (Sim.lift (s.map.len cfg)) fun n =>
    Sim.bind (sim_onMap (BSTMap.onNodes (Slab.onItems (Arena.growTo cfg n)))) fun _ =>
      Sim.bind (Sim.lift s.map.rootNode) fun root =>
        sim_loop (sim_cloneBody (cfg := cfg) (d := d) cmps ck cv s.map) (walkFuel s.map.nodes)
          (0, root.toList)) s
  have h1 : World.assign cfg d (World.clone cfg d cmps ck cv) s = World.assign cfg d
      (building cfg d (do
        let n ← M.lift (s.map.len cfg)
        World.onMap (BSTMap.onNodes (Slab.onItems (Arena.growTo cfg n)))
        let root ← M.lift s.map.rootNode
        BST.loop (walkFuel s.map.nodes) (World.cloneBody cfg d cmps ck cv s.map) (0, root.toList))) s := by
    have e : World.clone cfg d cmps ck cv s = _ := M.get_bind _ s
    unfold World.assign
    rw [M.bind_apply, e, ← M.bind_apply]
  rw [h1]
  rcases h with h | h
  · exact .inl h
  · refine .inr (Eq.trans (assignDrop_congr ?_) h)
    rfl

/-- One call. -/
theorem run_sim (op : Op K V) : Sim (op.runWorld cfg d) (op.runDrop cfg d.dtors) := by
  cases op with
  | withCapacity n => exact Sim.bind (sim_assign (sim_onMap _)) fun _ => Sim.pure _
  | collect cmps src =>
    exact Sim.bind (sim_assign (Sim.bind (Sim.onPanic (sim_onMap _) (Still.items _)) fun _ =>
      Sim.bind (sim_insertAll _ _ _) fun _ => sim_tail _)) fun _ => Sim.pure _
  | cloned cmps ck cv => exact Sim.bind (sim_cloned cmps ck cv) fun _ => Sim.pure _
  | insert c k v => exact Sim.bind (sim_insert c k v) fun _ => Sim.pure _
  | remove c => exact Sim.bind (sim_remove c) fun _ => Sim.pure _
  | extend cmps src => exact Sim.bind (sim_extend cmps src) fun _ => Sim.pure _
  | _ => exact sim_onMap _

end BSTMap.World

/-- Histories. -/
theorem worldHistory_sim {cfg : Cfg} (ops : List (Simple.Drops K V × Op K V)) (s : World K V)
    (h : Out.abort ∉ (worldHistory cfg ops s).1) :
    historyDrop cfg (ops.map fun x => (x.1.dtors, x.2)) s.map =
      ((worldHistory cfg ops s).1, (worldHistory cfg ops s).2.map) := by
  unfold worldHistory historyDrop at *
  induction ops generalizing s with
  | nil => rfl
  | cons x ops ih =>
    rcases hx : x.2.runWorld cfg x.1 s with ⟨o, s1⟩
    have h1 := World.run_sim (cfg := cfg) (d := x.1) x.2 s
    rw [hx] at h1
    dsimp only at h1
    cases o with
    | ok r =>
      have h1 := h1.resolve_left (by simp)
      simp only [execute, hx, List.map_cons, h1] at h ⊢
      rw [ih s1 fun h' => h (List.mem_cons_of_mem _ h')]
    | panic =>
      have h1 := h1.resolve_left (by simp)
      simp only [execute, hx, List.map_cons, h1] at h ⊢
      rw [ih s1 fun h' => h (List.mem_cons_of_mem _ h')]
    | abort => simp [execute, hx] at h
    | ub =>
      have h1 := h1.resolve_left (by simp)
      simp only [execute, hx, List.map_cons, h1]
    | diverge =>
      have h1 := h1.resolve_left (by simp)
      simp only [execute, hx, List.map_cons, h1]

end BST
