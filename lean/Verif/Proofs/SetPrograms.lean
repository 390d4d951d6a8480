import Verif.SetPrograms
import Verif.Proofs.Programs
import Verif.Proofs.SimpleSet
import Verif.Proofs.SetLedger
/-!
# Programs over sets are programs over maps
-/
set_option linter.unusedSimpArgs false
namespace BST
variable {T R S σ τ : Type}

/-- The call on the field `items`. -/
def SetCall.toMap : SetCall T → Call T Unit
  | insert t => .insert t ()
  | remove t => .removeEntry t
  | take t => .removeEntry t
  | get t => .getEntry t
  | contains t => .containsKey t
  | len => .len
  | isEmpty => .isEmpty
  | clear => .clear
  | iter n => .iter n
  | extend items => .extend (items.map fun t => (t, ()))

/-- What the set makes of the map's answer. -/
def SetCall.answer : SetCall T → Ret T Unit → SetRet T
  | insert _, .value r => .bool r.isNone
  | remove _, .entry e => .bool e.isSome
  | _, .entry e => .elem (e.map (·.1))
  | _, .bool b => .bool b
  | _, .nat n => .nat n
  | _, .node n => .node (n.map fun n => (n.1, n.2.2.1, n.2.2.2))
  | _, .items l => .items (l.map (Option.map (·.1)))
  | _, _ => .unit

theorem SetCall.demand_toMap (c : SetCall T) : c.toMap.demand = c.demand := by
  cases c <;> simp [toMap, demand, Call.demand]

/-- The program over the fields `items`. -/
def SetProg.toMaps : SetProg T R → Prog T Unit R
  | ret r => .ret r
  | panic => .panic
  | new k => .new fun i => (k i).toMaps
  | clone i k => .clone i fun j => (k j).toMaps
  | eq i j k => .eq i j fun b => (k b).toMaps
  | call i c k => .call i c.toMap fun r => (k (c.answer r)).toMaps

/-- Sets of the kind `A` are maps of the kind `B`, seen through `f`. -/
structure SetSim (A : Sets T σ) (B : Maps T Unit τ) (f : τ → σ) : Prop where
  new : A.new = f B.new
  clone : ∀ m, A.clone (f m) = (B.clone m).map f
  eq : ∀ a b, A.eq (f a) (f b) = B.eq a b
  call : ∀ c m, A.call c (f m) = ((B.call c.toMap m).1.map c.answer, f (B.call c.toMap m).2)

variable {A : Sets T σ} {B : Maps T Unit τ} {f : τ → σ}

theorem SetSim.run (h : SetSim A B f) (p : SetProg T R) (ms : List τ) :
    p.run A (ms.map f) = ((p.toMaps.run B ms).1, (p.toMaps.run B ms).2.map f) ∧
      p.demand A (ms.map f) = p.toMaps.demand B ms := by
  induction p generalizing ms with
  | ret r => exact ⟨rfl, rfl⟩
  | panic => exact ⟨rfl, rfl⟩
  | new k ih =>
    have := ih ms.length (ms ++ [B.new])
    simp only [SetProg.run, SetProg.toMaps, Prog.run, SetProg.demand, Prog.demand, List.length_map]
    rw [h.new]
    simpa using this
  | clone i k ih =>
    simp only [SetProg.run, SetProg.toMaps, Prog.run, SetProg.demand, Prog.demand, List.length_map,
      List.getElem?_map]
    cases hm : ms[i]? with
    | none => exact ⟨rfl, rfl⟩
    | some m =>
      simp only [Option.map_some, h.clone]
      cases hc : B.clone m with
      | ok m' =>
        have := ih ms.length (ms ++ [m'])
        simpa [Out.map] using this
      | panic => exact ⟨rfl, rfl⟩
      | abort => exact ⟨rfl, rfl⟩
      | ub => exact ⟨rfl, rfl⟩
      | diverge => exact ⟨rfl, rfl⟩
  | eq i j k ih =>
    simp only [SetProg.run, SetProg.toMaps, Prog.run, SetProg.demand, Prog.demand, List.length_map,
      List.getElem?_map]
    cases hi : ms[i]? with
    | none => exact ⟨rfl, rfl⟩
    | some a =>
      cases hj : ms[j]? with
      | none => exact ⟨rfl, rfl⟩
      | some b =>
        simp only [Option.map_some, h.eq]
        cases hc : B.eq a b with
        | ok r => exact ih r ms
        | panic => exact ⟨rfl, rfl⟩
        | abort => exact ⟨rfl, rfl⟩
        | ub => exact ⟨rfl, rfl⟩
        | diverge => exact ⟨rfl, rfl⟩
  | call i c k ih =>
    simp only [SetProg.run, SetProg.toMaps, Prog.run, SetProg.demand, Prog.demand, List.length_map,
      List.getElem?_map]
    cases hi : ms[i]? with
    | none => exact ⟨rfl, rfl⟩
    | some m =>
      simp only [Option.map_some, h.call, SetCall.demand_toMap]
      rcases hc : B.call c.toMap m with ⟨o, m'⟩
      cases o with
      | ok r =>
        have := ih (c.answer r) (ms.set i m')
        rw [List.map_set] at this
        simpa [Out.map] using this
      | panic => simp [Out.map, List.map_set]
      | abort => simp [Out.map, List.map_set]
      | ub => simp [Out.map, List.map_set]
      | diverge => simp [Out.map, List.map_set]

theorem SetSim.start (h : SetSim A B f) {p : SetProg T R} {o : Out R} {ms : List τ}
    (hp : p.toMaps.run B [] = (o, ms)) : p.run A [] = (o, ms.map f) := by
  have := (h.run p []).1
  rw [hp] at this
  exact this

/-! ### The three kinds of sets -/

theorem bstSim (cfg : Cfg) (cmp : T → T → Ordering) (teq : T → T → Bool) :
    SetSim (BSTSet.sets cfg cmp teq) (BSTMap.maps cfg cmp teq fun _ _ => true) BSTSet.mk where
  new := rfl
  clone m := by
    simp only [BSTSet.sets, BSTMap.maps, BSTSet.clone]
    rcases BSTMap.clone cfg (fun _ t => query (cmp t)) some some m with ⟨o, m'⟩
    cases o <;> rfl
  eq a b := rfl
  call c m := by
    have key : ∀ (op : SetOp T), (∀ dt, op ≠ .debug dt) → c.onBST cfg cmp = op.run cfg →
        op.toOp.run cfg = c.toMap.onBST cfg cmp → op.ret = c.answer →
        c.onBST cfg cmp ⟨m⟩ = ((c.toMap.onBST cfg cmp m).1.map c.answer, ⟨(c.toMap.onBST cfg cmp m).2⟩) :=
      fun op hd h1 h2 h3 => by rw [h1, SetOp.sim op hd, h2, h3]
    cases c with
    | insert t => exact key (.insert (query (cmp t)) t) (by simp) rfl rfl (by funext r; cases r <;> rfl)
    | remove t => exact key (.remove (query (cmp t))) (by simp) rfl rfl (by funext r; cases r <;> rfl)
    | take t => exact key (.take (query (cmp t))) (by simp) rfl rfl (by funext r; cases r <;> rfl)
    | get t => exact key (.get (query (cmp t))) (by simp) rfl rfl (by funext r; cases r <;> rfl)
    | contains t => exact key (.contains (query (cmp t))) (by simp) rfl rfl (by funext r; cases r <;> rfl)
    | len => exact key .len (by simp) rfl rfl (by funext r; cases r <;> rfl)
    | isEmpty => exact key .isEmpty (by simp) rfl rfl (by funext r; cases r <;> rfl)
    | clear => exact key (.clear ⟨true, fun _ => false⟩) (by simp) rfl rfl (by funext r; cases r <;> rfl)
    | iter n => exact key (.iter .ino n) (by simp) rfl rfl (by funext r; cases r <;> rfl)
    | extend items =>
      exact key (.extend (fun _ t => query (cmp t)) ⟨(items.length, some items.length), items, false⟩)
        (by simp) rfl (by simp [SetOp.toOp, SetCall.toMap, Call.onBST, BSTSet.Source.toMap])
        (by funext r; cases r <;> rfl)

theorem simpleSim (cfg : Cfg) (cmp : T → T → Ordering) (teq : T → T → Bool) :
    SetSim (Simple.sets cfg cmp teq) (Simple.maps cfg cmp teq fun _ _ => true) Simple.SSet.mk where
  new := rfl
  clone m := by
    simp only [Simple.sets, Simple.maps, Simple.SSet.clone]
    rcases Simple.Map.clone cfg some some m with ⟨o, m'⟩
    cases o <;> rfl
  eq a b := rfl
  call c m := by
    have key : ∀ (op : SimpleSetOp T), (∀ dt, op ≠ .debug dt) → c.onSimple cfg cmp = op.run cfg →
        op.toOp.run cfg = c.toMap.onSimple cfg cmp → (op.twin cmp).ret = c.answer →
        c.onSimple cfg cmp ⟨m⟩ =
          ((c.toMap.onSimple cfg cmp m).1.map c.answer, ⟨(c.toMap.onSimple cfg cmp m).2⟩) :=
      fun op hd h1 h2 h3 => by rw [h1, SimpleSetOp.sim cmp op hd, h2, h3]
    cases c with
    | insert t => exact key (.insert (query (cmp t)) t) (by simp) rfl rfl (by funext r; cases r <;> rfl)
    | remove t => exact key (.remove (query (cmp t))) (by simp) rfl rfl (by funext r; cases r <;> rfl)
    | take t => exact key (.take (query (cmp t))) (by simp) rfl rfl (by funext r; cases r <;> rfl)
    | get t => exact key (.get (query (cmp t))) (by simp) rfl rfl (by funext r; cases r <;> rfl)
    | contains t => exact key (.contains (query (cmp t))) (by simp) rfl rfl (by funext r; cases r <;> rfl)
    | len => exact key .len (by simp) rfl rfl (by funext r; cases r <;> rfl)
    | isEmpty => exact key .isEmpty (by simp) rfl rfl (by funext r; cases r <;> rfl)
    | clear => exact key .clear (by simp) rfl rfl (by funext r; cases r <;> rfl)
    | iter n => exact key (.iter .ino n) (by simp) rfl rfl (by funext r; cases r <;> rfl)
    | extend items =>
      exact key (.extend (fun _ t => query (cmp t)) ⟨(items.length, some items.length), items, false⟩)
        (by simp) rfl (by simp [SimpleSetOp.toOp, SetCall.toMap, Call.onSimple, BSTSet.Source.toMap])
        (by funext r; cases r <;> rfl)

theorem listed_put (cmp : T → T → Ordering) (t : T) (l : List (T × Unit)) :
    ListedSet.put cmp t (l.map (·.1)) = (Listed.put cmp t () l).map (·.1) := by
  induction l with
  | nil => rfl
  | cons e l ih =>
    simp only [List.map_cons, ListedSet.put, Listed.put]
    cases cmp t e.1 <;> simp [ih]

theorem listed_find (cmp : T → T → Ordering) (t : T) (l : List (T × Unit)) :
    ListedSet.find cmp t (l.map (·.1)) = (Listed.find cmp t l).map (·.1) := by
  simp only [ListedSet.find, Listed.find, List.find?_map]
  rfl

theorem listed_erase (cmp : T → T → Ordering) (t : T) (l : List (T × Unit)) :
    ListedSet.erase cmp t (l.map (·.1)) = (Listed.erase cmp t l).map (·.1) := by
  simp only [ListedSet.erase, Listed.erase, List.filter_map]
  rfl

theorem listed_same (teq : T → T → Bool) (a b : List (T × Unit)) :
    ListedSet.same teq (a.map (·.1)) (b.map (·.1)) = Spec.sameBy teq (fun _ _ => true) a b := by
  induction a generalizing b with
  | nil => cases b <;> rfl
  | cons x a ih =>
    cases b with
    | nil => rfl
    | cons y b => simp [ListedSet.same, Spec.sameBy, ih]

theorem listed_foldl (cmp : T → T → Ordering) (items : List T) (l : List (T × Unit)) :
    items.foldl (fun l t => ListedSet.put cmp t l) (l.map (·.1)) =
      ((items.map fun t => (t, ())).foldl (fun l e => Listed.put cmp e.1 e.2 l) l).map (·.1) := by
  induction items generalizing l with
  | nil => rfl
  | cons t items ih =>
    simp only [List.foldl_cons, List.map_cons, listed_put]
    exact ih _

theorem listedSim (cmp : T → T → Ordering) (teq : T → T → Bool) :
    SetSim (ListedSet.sets cmp teq) (Listed.maps cmp teq fun _ _ => true) (List.map (·.1)) where
  new := rfl
  clone m := rfl
  eq a b := congrArg Out.ok (listed_same teq a b)
  call c m := by
    cases c with
    | insert t =>
      simp [ListedSet.sets, ListedSet.call, Listed.maps, Listed.call, SetCall.toMap, SetCall.answer, Out.map,
        listed_put, listed_find]
    | remove t =>
      simp [ListedSet.sets, ListedSet.call, Listed.maps, Listed.call, SetCall.toMap, SetCall.answer, Out.map,
        listed_erase, listed_find]
    | take t =>
      simp [ListedSet.sets, ListedSet.call, Listed.maps, Listed.call, SetCall.toMap, SetCall.answer, Out.map,
        listed_erase, listed_find]
    | get t =>
      simp [ListedSet.sets, ListedSet.call, Listed.maps, Listed.call, SetCall.toMap, SetCall.answer, Out.map,
        listed_find]
    | contains t =>
      simp [ListedSet.sets, ListedSet.call, Listed.maps, Listed.call, SetCall.toMap, SetCall.answer, Out.map,
        listed_find]
    | len => simp [ListedSet.sets, ListedSet.call, Listed.maps, Listed.call, SetCall.toMap, SetCall.answer, Out.map]
    | isEmpty =>
      simp [ListedSet.sets, ListedSet.call, Listed.maps, Listed.call, SetCall.toMap, SetCall.answer, Out.map]
    | clear => rfl
    | iter n =>
      simp [ListedSet.sets, ListedSet.call, Listed.maps, Listed.call, SetCall.toMap, SetCall.answer, Out.map,
        List.map_take, Function.comp_def]
    | extend items =>
      simp only [ListedSet.sets, ListedSet.call, Listed.maps, Listed.call, SetCall.toMap, SetCall.answer, Out.map,
        listed_foldl]

/-! ### Contents -/

theorem setIterInorder_eq (s : BSTSet T) : s.iterInorder = s.items.iterInorder.map (List.map (·.1)) := by
  unfold BSTSet.iterInorder BSTMap.iterInorder
  simp only [drain_of, Out.bind_map]

theorem exploreSet_map (s : BSTSet T) : exploreSet s = (explore s.items).map (·.map (·.1)) := by
  haveI : DecidableEq T := fun _ _ => Classical.propDecidable _
  simp only [exploreSet, explore, exploreAt, BSTSet.rootNode, BSTSet.World.exploreSetNode_eq]
  cases s.items.rootNode with
  | ok r =>
    simp only [Out.ok_bind]
    cases exploreNode s.items.nodes (BSTMap.walkFuel s.items.nodes) r with
    | ok b =>
      show Out.ok _ = Out.ok (Spec.BT.map _ (Spec.BT.map _ _))
      rw [Spec.BT.map_map]
    | _ => rfl
  | _ => rfl

theorem ssExplore_map (s : Simple.SSet T) : s.explore = (Simple.explore s.items).map (·.1) :=
  ssExploreRef_eq _ _

end BST
