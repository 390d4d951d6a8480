import Verif.Proofs.Fmt
import Verif.Proofs.SetHistory
import Verif.Proofs.Storage
import Verif.Proofs.SimpleSet

/-! # `Debug` of maps, sets, nodes and arenas -/

namespace BST

open Spec BSTMap Tree

variable {K V T : Type}

theorem shows_node {β : Type} {du : β → Fmt} (p : Bool) (row : List (String × β)) {L R : Fmt}
    {l r : Nat → Pieces β} (hl : Shows du L l) (hr : Shows du R r) :
    Shows du (Fmt.debugStruct p "Node" (row.map (fun f => (f.1, du f.2)) ++ [("left", L), ("right", R)]))
      (Spec.node p row l r) := by
  have := shows_struct (du := du) p "Node"
    (row.map (fun f => (f.1, du f.2, one (.user f.2))) ++ [("left", L, l), ("right", R, r)]) (by simp)
    (by
      intro f hf
      simp only [List.mem_append, List.mem_map, List.mem_cons, List.not_mem_nil, or_false] at hf
      rcases hf with ⟨a, _, rfl⟩ | rfl | rfl
      · exact Shows.user du a.2
      · exact hl
      · exact hr)
  simpa [Spec.node, Function.comp_def] using this

theorem shows_one {β : Type} {du : β → Fmt} (p : Bool) (name field : String) {F : Fmt}
    {x : Nat → Pieces β} (h : Shows du F x) :
    Shows du (Fmt.debugStruct p name [(field, F)]) (Spec.struct p name [(field, x)]) :=
  shows_struct (du := du) p name [(field, F, x)] (by simp) (by
    intro f hf
    simp only [List.mem_cons, List.not_mem_nil, or_false] at hf
    subst hf; exact h)

section
variable (p : Bool) (dk : K → Fmt) (dv : V → Fmt) (dn : Nat → Fmt)

/-! ### Maps -/

theorem fmtNode_ok {s : Nodes K V} {q : Ptr} {l : Tree K V} {k : K} {v : V} {r : Tree K V}
    (h : (Tree.node q l k v r).Rep s.view) (fuel : Nat) (hf : (Tree.node q l k v r).height ≤ fuel) :
    ∃ F, fmtNode p dk dv s fuel ⟨q, ⟨k, v, l.root, r.root⟩⟩ = .ok F ∧
      Shows (Shown.fmt dk dv dn) F (Spec.node p (entryRow (k, v))
        (tree p entryRow (l.bt.map (·.2))) (tree p entryRow (r.bt.map (·.2)))) := by
  have hnil : Shows (Shown.fmt dk dv dn) (Fmt.debugOption p none)
      (tree p entryRow ((Tree.leaf : Tree K V).bt.map (·.2))) := Shows.text _ _
  induction fuel generalizing q l k v r with
  | zero => simp [height] at hf
  | succ fuel ih =>
    have hl : Node.left s ⟨q, ⟨k, v, l.root, r.root⟩⟩ = .ok l.nodeOpt := Node.newOpt_ok h.2.1
    have hr : Node.right s ⟨q, ⟨k, v, l.root, r.root⟩⟩ = .ok r.nodeOpt := Node.newOpt_ok h.2.2
    simp only [height] at hf
    unfold fmtNode
    rw [hl, hr]
    simp only [Out.ok_bind]
    cases l with
    | leaf =>
      cases r with
      | leaf => exact ⟨_, rfl, shows_node p (entryRow (k, v)) hnil hnil⟩
      | node rp rl rk rv rr =>
        obtain ⟨sr, e3, e4⟩ := ih h.2.2 (by omega)
        simp only [nodeOpt_node, e3, Out.ok_bind]
        exact ⟨_, rfl, shows_node p (entryRow (k, v)) hnil (shows_some p e4)⟩
    | node lp ll lk lv lr =>
      obtain ⟨sl, e1, e2⟩ := ih h.2.1 (by omega)
      cases r with
      | leaf =>
        simp only [nodeOpt_node, e1, Out.ok_bind]
        exact ⟨_, rfl, shows_node p (entryRow (k, v)) (shows_some p e2) hnil⟩
      | node rp rl rk rv rr =>
        obtain ⟨sr, e3, e4⟩ := ih h.2.2 (by omega)
        simp only [nodeOpt_node, e1, e3, Out.ok_bind]
        exact ⟨_, rfl, shows_node p (entryRow (k, v)) (shows_some p e2) (shows_some p e4)⟩

theorem fmt_shows {cfg : Cfg} {m : BSTMap K V} {t : Tree K V} (h : Shape cfg m t) :
    ∃ F, m.fmt p dk dv = .ok F ∧
      Shows (Shown.fmt dk dv dn) F (Spec.struct p "BSTMap" [("root", tree p entryRow (t.bt.map (·.2)))]) := by
  unfold fmt
  rw [rootNode_ok h.root h.rep, Out.ok_bind]
  cases t with
  | leaf => exact ⟨_, rfl, shows_one p _ _ (Shows.text _ _)⟩
  | node q l k v r =>
    obtain ⟨F, e1, e2⟩ := fmtNode_ok p dk dv dn h.rep _ (Nat.le_of_lt h.height_lt)
    rw [nodeOpt_node]
    simp only [e1, Out.ok_bind]
    exact ⟨_, rfl, shows_one p _ _ (shows_some p e2)⟩

/-! ### The boxed tree -/

theorem fmtLink_shows (t : Simple.Link K V) :
    Shows (Shown.fmt dk dv dn) (Simple.Map.fmtLink p dk dv t) (tree p entryRow t.view) := by
  induction t with
  | nil => exact Shows.text _ _
  | node k v l r ihl ihr => exact shows_some p (shows_node p (entryRow (k, v)) ihl ihr)

theorem simpleFmt_shows (m : Simple.Map K V) :
    Shows (Shown.fmt dk dv dn) (m.fmt p dk dv dn)
      (Spec.struct p "SimpleBSTMap" [("root", tree p entryRow m.root.view), ("len", one (.user (.len m.len)))]) :=
  shows_struct (du := Shown.fmt dk dv dn) p "SimpleBSTMap"
    [("root", Simple.Map.fmtLink p dk dv m.root, tree p entryRow m.root.view),
      ("len", dn m.len, one (.user (.len m.len)))] (by simp) (by
    intro f hf
    simp only [List.mem_cons, List.not_mem_nil, or_false] at hf
    rcases hf with rfl | rfl
    · exact fmtLink_shows p dk dv dn m.root
    · exact Shows.user (Shown.fmt dk dv dn) (.len m.len))

end

/-! ### Sets -/

section
variable (p : Bool) (dt : T → Fmt)

theorem setFmtNode_ok {s : Nodes T Unit} {q : Ptr} {l : Tree T Unit} {k : T} {v : Unit} {r : Tree T Unit}
    (h : (Tree.node q l k v r).Rep s.view) (fuel : Nat) (hf : (Tree.node q l k v r).height ≤ fuel) :
    ∃ F, BSTSet.fmtNode p dt s fuel ⟨q, ⟨k, v, l.root, r.root⟩⟩ = .ok F ∧
      Shows dt F (Spec.node p (elemRow k)
        (tree p elemRow (l.bt.map (·.2.1))) (tree p elemRow (r.bt.map (·.2.1)))) := by
  have hnil : Shows dt (Fmt.debugOption p none)
      (tree p elemRow ((Tree.leaf : Tree T Unit).bt.map (·.2.1))) := Shows.text _ _
  induction fuel generalizing q l k v r with
  | zero => simp [height] at hf
  | succ fuel ih =>
    have hl : Node.left s ⟨q, ⟨k, v, l.root, r.root⟩⟩ = .ok l.nodeOpt := Node.newOpt_ok h.2.1
    have hr : Node.right s ⟨q, ⟨k, v, l.root, r.root⟩⟩ = .ok r.nodeOpt := Node.newOpt_ok h.2.2
    simp only [height] at hf
    unfold BSTSet.fmtNode
    rw [hl, hr]
    simp only [Out.ok_bind]
    cases l with
    | leaf =>
      cases r with
      | leaf => exact ⟨_, rfl, shows_node p (elemRow k) hnil hnil⟩
      | node rp rl rk rv rr =>
        obtain ⟨sr, e3, e4⟩ := ih h.2.2 (by omega)
        simp only [nodeOpt_node, e3, Out.ok_bind]
        exact ⟨_, rfl, shows_node p (elemRow k) hnil (shows_some p e4)⟩
    | node lp ll lk lv lr =>
      obtain ⟨sl, e1, e2⟩ := ih h.2.1 (by omega)
      cases r with
      | leaf =>
        simp only [nodeOpt_node, e1, Out.ok_bind]
        exact ⟨_, rfl, shows_node p (elemRow k) (shows_some p e2) hnil⟩
      | node rp rl rk rv rr =>
        obtain ⟨sr, e3, e4⟩ := ih h.2.2 (by omega)
        simp only [nodeOpt_node, e1, e3, Out.ok_bind]
        exact ⟨_, rfl, shows_node p (elemRow k) (shows_some p e2) (shows_some p e4)⟩

theorem setFmt_shows {cfg : Cfg} {s : BSTSet T} {t : Tree T Unit} (h : Shape cfg s.items t) :
    ∃ F, s.fmt p dt = .ok F ∧
      Shows dt F (Spec.struct p "BSTSet" [("root", tree p elemRow t.elems)]) := by
  rw [elems_eq]
  unfold BSTSet.fmt BSTSet.rootNode
  rw [rootNode_ok h.root h.rep, Out.ok_bind]
  cases t with
  | leaf => exact ⟨_, rfl, shows_one p _ _ (Shows.text _ _)⟩
  | node q l k v r =>
    obtain ⟨F, e1, e2⟩ := setFmtNode_ok p dt h.rep _ (Nat.le_of_lt h.height_lt)
    rw [nodeOpt_node]
    simp only [e1, Out.ok_bind]
    exact ⟨_, rfl, shows_one p _ _ (shows_some p e2)⟩

theorem setFmtLink_shows (t : Simple.Link T Unit) :
    Shows dt (Simple.SSet.fmtLink p dt t) (tree p elemRow (t.view.map (·.1))) := by
  induction t with
  | nil => exact Shows.text _ _
  | node k v l r ihl ihr => exact shows_some p (shows_node p (elemRow k) ihl ihr)

/-! ### Arenas -/

theorem fmt_loop {cfg : Cfg} {a : Arena T} : ∀ {m x : List (Ptr × T)} (acc : List Fmt)
    (fuel : Nat), a.Holds (x ++ m) → a.Inv cfg → m.length < fuel →
    loop fuel (fun (st : Arena.Iter × List Fmt) => (do
      let (x, i) ← st.1.next cfg a
      match x with
      | none => pure (.inr st.2)
      | some v => pure (.inl (i, st.2 ++ [dt v])) : Out ((Arena.Iter × List Fmt) ⊕ List Fmt)))
      (⟨x.length, x.length + m.length⟩, acc) = .ok (acc ++ m.map fun e => dt e.2) := by
  intro m
  induction m with
  | nil =>
    intro x acc fuel h hi hf
    obtain ⟨n, rfl⟩ : ∃ n, fuel = n + 1 := ⟨fuel - 1, by omega⟩
    have h1 := (Arena.Holds.next (x := x) (m := []) (y := []) (by simpa using h) hi).1
    rw [loopO_inr (a := acc)]
    · simp
    · simp only [Arena.Iter.next, List.length_nil, Nat.add_zero] at h1 ⊢
      rw [h1]
      rfl
  | cons e m ih =>
    intro x acc fuel h hi hf
    obtain ⟨n, rfl⟩ : ∃ n, fuel = n + 1 := ⟨fuel - 1, by omega⟩
    have h1 := (Arena.Holds.next (x := x) (m := e :: m) (y := []) (by simpa using h) hi).1
    have := ih (x := x ++ [e]) (acc ++ [dt e.2]) n (by simpa using h) hi (by simpa using hf)
    rw [loopO_inl (b' := (⟨(x ++ [e]).length, (x ++ [e]).length + m.length⟩, acc ++ [dt e.2])), this]
    · simp
    · simp only [Arena.Iter.next, List.length_cons] at h1 ⊢
      rw [h1]
      simp
      omega

theorem arenaFmt_ok {cfg : Cfg} {a : Arena T} {l : List (Ptr × T)} (h : a.Holds l) (hi : a.Inv cfg)
    (s : Bool) : a.fmt cfg p dt = .ok (print dt s (list p (l.map (·.2)) 0)) := by
  unfold Arena.fmt
  have := fmt_loop dt (a := a) (cfg := cfg) (m := l) (x := []) [] (a.len + 1) (by simpa using h) hi
    (by rw [h.length]; omega)
  rw [List.length_nil, Nat.zero_add, h.length, List.nil_append] at this
  refine (congrArg (fun o : Out (List Fmt) => o >>= fun items =>
    pure (Fmt.debugList p items)) this).trans ?_
  rw [← debugList_eq dt p (l.map (·.2)) s, List.map_map]
  rfl

end
end BST
