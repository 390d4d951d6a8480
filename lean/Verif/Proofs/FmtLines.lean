import Verif.Proofs.FmtMap

/-! # Reading the tree off the lines of `{:#?}` -/

namespace BST.Spec

open Fmt

variable {α β K V T : Type}

/-! ### How printing ends -/

/-- The pieces that the user's `Debug` prints. -/
def users (ps : Pieces β) : List β :=
  ps.filterMap fun x => match x.2 with
    | .text _ => none
    | .user x => some x

theorem users_append (a b : Pieces β) : users (a ++ b) = users a ++ users b := List.filterMap_append

theorem print_stop (du : β → Fmt) (s : Bool) (ps : Pieces β) :
    (print du s ps).stop = firstStop ((users ps).map fun x => (du x).stop) := by
  induction ps generalizing s with
  | nil => rfl
  | cons a ps ih =>
    obtain ⟨n, x⟩ := a
    cases x with
    | text t => rw [print_text, seq_mk_ok rfl]; exact ih _
    | user x =>
      rw [print_user]
      show _ = firstStop ((du x).stop :: (users ps).map fun x => (du x).stop)
      rw [firstStop]
      split
      · rename_i h; rw [seq_mk_ok h]; exact ih _
      · rename_i h; rw [seq_mk_stop h]

theorem users_fields (p : Bool) (n : Nat) (fs : List (String × (Nat → Pieces β))) :
    users (fields p n fs) = fs.flatMap fun f => users (f.2 (inner p n)) := by
  induction fs with
  | nil => rfl
  | cons f fs ih =>
    rw [fields, users_append, users_append, ih, List.flatMap_cons]
    have e : users (if p then [(inner p n, .text ",\n")]
        else if fs.isEmpty then [] else [(inner p n, .text ", ")] : Pieces β) = [] := by
      split
      · rfl
      · split <;> rfl
    rw [e, List.append_nil]
    rfl

theorem users_struct (p : Bool) (name : String) (fs : List (String × (Nat → Pieces β))) (n : Nat) :
    users (Spec.struct p name fs n) = fs.flatMap fun f => users (f.2 (inner p n)) := by
  rw [← users_fields p n fs]
  unfold Spec.struct
  rw [users_append]
  exact List.append_nil _

theorem users_some (p : Bool) (x : Nat → Pieces β) (n : Nat) :
    users (some_ p x n) = users (x (inner p n)) := by
  unfold some_
  rw [users_append, users_append]
  cases p <;> simp [users]

theorem users_tree (p : Bool) (row : α → List (String × β)) (t : BT α) (n : Nat) :
    users (tree p row t n) = t.pre.flatMap fun x => (row x).map (·.2) := by
  induction t generalizing n with
  | nil => rfl
  | node l x r ihl ihr =>
    rw [tree, users_some, node, users_struct, List.flatMap_append]
    simp only [List.flatMap_cons, List.flatMap_nil, List.append_nil, ihl, ihr, BT.pre,
      List.flatMap_append]
    congr 1
    rw [List.flatMap_map]
    simp only [one, users, List.filterMap_cons, List.filterMap_nil]
    rw [← List.map_eq_flatMap]

/-! ### Lines -/

/-- Indentation. -/
def ind (n : Nat) : List Char := List.replicate (4 * n) ' '

/-- Lines, each with its line break. -/
def unlines : List (List Char) → List Char
  | [] => []
  | l :: ls => l ++ '\n' :: unlines ls

theorem unlines_append (a b : List (List Char)) : unlines (a ++ b) = unlines a ++ unlines b := by
  induction a with
  | nil => rfl
  | cons l a ih => simp [unlines, ih]

theorem unlines_inj {a b : List (List Char)} (ha : ∀ l ∈ a, '\n' ∉ l) (hb : ∀ l ∈ b, '\n' ∉ l)
    (h : unlines a = unlines b) : a = b := by
  have cut : ∀ {x y u v : List Char}, '\n' ∉ x → '\n' ∉ y → x ++ '\n' :: u = y ++ '\n' :: v →
      x = y ∧ u = v := by
    intro x
    induction x with
    | nil =>
      intro y u v hx hy h
      cases y with
      | nil => simpa using h
      | cons c y => simp at h; exact absurd (h.1 ▸ List.mem_cons_self) hy
    | cons c x ih =>
      intro y u v hx hy h
      cases y with
      | nil => simp at h; exact absurd (h.1 ▸ List.mem_cons_self) hx
      | cons d y =>
        simp only [List.cons_append, List.cons.injEq] at h
        obtain ⟨rfl, h⟩ := h
        obtain ⟨rfl, rfl⟩ := ih (fun hm => hx (List.mem_cons_of_mem _ hm))
          (fun hm => hy (List.mem_cons_of_mem _ hm)) h
        exact ⟨rfl, rfl⟩
  induction a generalizing b with
  | nil =>
    cases b with
    | nil => rfl
    | cons l b => simp [unlines] at h
  | cons l a ih =>
    cases b with
    | nil => simp [unlines] at h
    | cons l' b =>
      obtain ⟨rfl, h2⟩ := cut (ha _ List.mem_cons_self) (hb _ List.mem_cons_self) h
      rw [ih (fun x hx => ha x (List.mem_cons_of_mem _ hx)) (fun x hx => hb x (List.mem_cons_of_mem _ hx)) h2]

theorem emit_line (n : Nat) (s : Bool) (cs : List Char) (h : '\n' ∉ cs) (ds : List Char) (hne : cs ≠ []) :
    emit n s (cs ++ ds) =
      ((if s then ind n else []) ++ cs ++ (emit n false ds).1, (emit n false ds).2) := by
  induction cs generalizing s with
  | nil => exact absurd rfl hne
  | cons c cs ih =>
    have hc : (c == '\n') = false := by
      simp only [beq_eq_false_iff_ne]; exact fun e => h (e ▸ List.mem_cons_self)
    rw [List.cons_append, emit, hc]
    by_cases hcs : cs = []
    · subst hcs; simp [ind]
    · rw [ih false (fun hm => h (List.mem_cons_of_mem _ hm)) hcs]; simp [ind]

theorem emit_mid (n : Nat) (cs : List Char) (h : '\n' ∉ cs) : emit n false cs = (cs, false) := by
  by_cases hne : cs = []
  · subst hne; rfl
  · have := emit_line n false cs h [] hne
    simpa [emit] using this

theorem emit_newline (n : Nat) (cs : List Char) (h : '\n' ∉ cs) :
    emit n false (cs ++ ['\n']) = (cs ++ ['\n'], true) := by
  by_cases hne : cs = []
  · subst hne; simp [emit]
  · rw [emit_line n false cs h _ hne]; simp [emit]

/-- The line of a field of the label. -/
def rowLine (du : β → Fmt) (n : Nat) (f : String × β) : List Char :=
  ind n ++ f.1.toList ++ ": ".toList ++ (du f.2).out ++ [',']

/-- The lines of a field that is a tree. -/
def treeLines (du : β → Fmt) (row : α → List (String × β)) (n : Nat) (name : String) :
    BT α → List (List Char)
  | .nil => [ind n ++ name.toList ++ ": None,".toList]
  | .node l x r =>
    (ind n ++ name.toList ++ ": Some(".toList) :: (ind (n + 1) ++ "Node {".toList) ::
      ((row x).map (rowLine du (n + 2)) ++
        (treeLines du row (n + 2) "left" l ++ (treeLines du row (n + 2) "right" r ++
          [ind (n + 1) ++ "},".toList, ind n ++ "),".toList])))

/-- Printing a prefix of the pieces that fills whole lines. -/
def Fills (du : β → Fmt) (ps : Pieces β) (ls : List (List Char)) : Prop :=
  ∀ qs, print du true (ps ++ qs) = (⟨unlines ls, .ok⟩ : Fmt).seq (print du true qs)

theorem Fills.append {du : β → Fmt} {ps qs : Pieces β} {ls ms : List (List Char)} (h : Fills du ps ls)
    (h' : Fills du qs ms) : Fills du (ps ++ qs) (ls ++ ms) := by
  intro rs
  rw [List.append_assoc, h, h', seq_mk_ok rfl, seq_mk_ok rfl, seq_mk_ok rfl, unlines_append,
    List.append_assoc]

theorem Fills.nil (du : β → Fmt) : Fills du ([] : Pieces β) [] := fun qs => by
  rw [List.nil_append, unlines, seq_mk_ok rfl]; rfl

theorem fills_text (du : β → Fmt) (n : Nat) (t : String) (cs : List Char) (ht : t.toList = cs ++ ['\n'])
    (hne : cs ≠ []) (hn : '\n' ∉ cs) : Fills du [(n, .text t)] [ind n ++ cs] := by
  intro qs
  rw [List.singleton_append, print_text, ht, emit_line n true cs hn _ hne]
  simp [emit, unlines]

theorem print_mid_text (du : β → Fmt) (n : Nat) (t : String) (h : '\n' ∉ t.toList) (ps : Pieces β) :
    print du false ((n, .text t) :: ps) = (⟨t.toList, .ok⟩ : Fmt).seq (print du false ps) := by
  rw [print_text, emit_mid n _ h]

theorem print_start (du : β → Fmt) (n : Nat) (name : String) (h : '\n' ∉ name.toList) (ps : Pieces β) :
    print du true ((n, .text (name ++ ": ")) :: ps) =
      (⟨ind n ++ name.toList ++ ": ".toList, .ok⟩ : Fmt).seq (print du false ps) := by
  rw [print_text, String.toList_append]
  have hn : '\n' ∉ name.toList ++ ": ".toList := by
    rw [List.mem_append]; rintro (hm | hm)
    · exact h hm
    · revert hm; decide
  have := emit_line n true (name.toList ++ ": ".toList) hn [] (by simp)
  rw [List.append_nil] at this
  rw [this]
  simp [emit]

theorem fills_row (du : β → Fmt) (n : Nat) (f : String × β) (hf : '\n' ∉ f.1.toList)
    (hs : (du f.2).stop = .ok) (ho : '\n' ∉ (du f.2).out) :
    Fills du ((n, .text (f.1 ++ ": ")) :: one (.user f.2) n ++ [(n, .text ",\n")]) [rowLine du n f] := by
  intro qs
  rw [List.cons_append, List.cons_append, print_start du n f.1 hf]
  simp only [one, List.cons_append, List.nil_append]
  rw [print_user, emit_mid n _ ho, print_text, show ",\n".toList = [','] ++ ['\n'] from rfl,
    emit_newline n [','] (by decide), seq_mk_ok rfl, seq_mk_ok hs, seq_mk_ok rfl, seq_mk_ok rfl]
  simp [unlines, rowLine]

/-- What is assumed of the labels: everything is printed, on one line. -/
def OneLine (du : β → Fmt) (row : α → List (String × β)) : Prop :=
  ∀ x, ∀ f ∈ row x, '\n' ∉ f.1.toList ∧ (du f.2).stop = .ok ∧ '\n' ∉ (du f.2).out

theorem fills_rows {du : β → Fmt} {n : Nat} (fs : List (String × β))
    (h : ∀ f ∈ fs, '\n' ∉ f.1.toList ∧ (du f.2).stop = .ok ∧ '\n' ∉ (du f.2).out) :
    Fills du (fields true n (fs.map fun f => (f.1, one (.user f.2)))) (fs.map (rowLine du (n + 1))) := by
  induction fs with
  | nil => exact Fills.nil du
  | cons f fs ih =>
    obtain ⟨h1, h2, h3⟩ := h f List.mem_cons_self
    rw [List.map_cons, List.map_cons, fields]
    exact Fills.append (fills_row du (n + 1) f h1 h2 h3) (ih fun f hf => h f (List.mem_cons_of_mem _ hf))

theorem fields_append (n : Nat) (a b : List (String × (Nat → Pieces β))) :
    fields true n (a ++ b) = fields true n a ++ fields true n b := by
  induction a with
  | nil => rfl
  | cons f a ih => simp [fields, ih]

theorem fills_tree {du : β → Fmt} {row : α → List (String × β)} (hr : OneLine du row) (t : BT α) (n : Nat)
    (name : String) (hn : '\n' ∉ name.toList) :
    Fills du (fields true n [(name, tree true row t)]) (treeLines du row (n + 1) name t) := by
  have e1 : ∀ (name : String) (t : BT α) (n : Nat), fields true n [(name, tree true row t)] =
      (n + 1, .text (name ++ ": ")) :: (tree true row t (n + 1) ++ [(n + 1, .text ",\n")]) := by
    intro name t n
    simp [fields, inner]
  induction t generalizing n name with
  | nil =>
    intro qs
    rw [e1]
    simp only [tree, one, List.cons_append, List.nil_append]
    rw [print_start du _ name hn, print_mid_text du _ _ (by decide), print_text,
      show ",\n".toList = [','] ++ ['\n'] from rfl, emit_newline _ [','] (by decide), seq_mk_ok rfl,
      seq_mk_ok rfl, seq_mk_ok rfl, seq_mk_ok rfl]
    simp [unlines, treeLines]
  | node l x r ihl ihr =>
    have hl := ihl (n + 2) "left" (by decide)
    have hrr := ihr (n + 2) "right" (by decide)
    have hrow := fills_rows (du := du) (n := n + 2) (row x) (hr x)
    have hmid := hrow.append (hl.append hrr)
    have hopen : Fills du [(n + 2, .text ("Node" ++ " {\n"))] [ind (n + 2) ++ "Node {".toList] :=
      fills_text du (n + 2) _ _ rfl (by decide) (by decide)
    have hclose : Fills du [(n + 2, .text "}"), (n + 2, .text ",\n")] [ind (n + 2) ++ "},".toList] := by
      intro qs
      simp only [List.cons_append, List.nil_append]
      rw [print_text, show "}".toList = ['}'] ++ [] from rfl, emit_line _ true ['}'] (by decide) [] (by decide)]
      simp only [emit]
      rw [print_text, show ",\n".toList = [','] ++ ['\n'] from rfl, emit_newline _ [','] (by decide),
        seq_mk_ok rfl, seq_mk_ok rfl, seq_mk_ok rfl]
      simp [unlines]
    have hend : Fills du [(n + 1, .text ")"), (n + 1, .text ",\n")] [ind (n + 1) ++ "),".toList] := by
      intro qs
      simp only [List.cons_append, List.nil_append]
      rw [print_text, show ")".toList = [')'] ++ [] from rfl, emit_line _ true [')'] (by decide) [] (by decide)]
      simp only [emit]
      rw [print_text, show ",\n".toList = [','] ++ ['\n'] from rfl, emit_newline _ [','] (by decide),
        seq_mk_ok rfl, seq_mk_ok rfl, seq_mk_ok rfl]
      simp [unlines]
    have hhead : Fills du [(n + 1, .text (name ++ ": ")), (n + 1, .text "Some(\n")]
        [ind (n + 1) ++ name.toList ++ ": Some(".toList] := by
      intro qs
      simp only [List.cons_append, List.nil_append]
      rw [print_start du _ name hn, print_text, show "Some(\n".toList = "Some(".toList ++ ['\n'] from rfl,
        emit_newline _ _ (by decide), seq_mk_ok rfl, seq_mk_ok rfl, seq_mk_ok rfl]
      simp [unlines]
    have hall := hhead.append (hopen.append (hmid.append (hclose.append hend)))
    have e2 : fields true n [(name, tree true row (.node l x r))] =
        [(n + 1, .text (name ++ ": ")), (n + 1, .text "Some(\n")] ++
          ([(n + 2, .text ("Node" ++ " {\n"))] ++
            ((fields true (n + 2) ((row x).map fun f => (f.1, one (.user f.2))) ++
              (fields true (n + 2) [("left", tree true row l)] ++
                fields true (n + 2) [("right", tree true row r)])) ++
              ([(n + 2, .text "}"), (n + 2, .text ",\n")] ++
                [(n + 1, .text ")"), (n + 1, .text ",\n")]))) := by
      rw [e1]
      simp only [tree, some_, node, Spec.struct, inner, if_true, fields_append]
      have e3 : fields true (n + 1 + 1) [("left", tree true row l), ("right", tree true row r)] =
          fields true (n + 2) [("left", tree true row l)] ++ fields true (n + 2) [("right", tree true row r)] :=
        fields_append (n + 2) [("left", tree true row l)] [("right", tree true row r)]
      rw [e3]
      simp only [List.cons_append, List.nil_append, List.append_assoc]
    rw [e2]
    simpa [treeLines] using hall

/-- Lines of an indented struct begin with its fields; two trees with the same lines have
the same shape and the same lines at every node. -/
theorem treeLines_inj (du du' : β → Fmt) (row : α → List (String × β)) (k : Nat)
    (hrow : ∀ x, (row x).length = k)
    (t t' : BT α) (n : Nat) (name : String) (R R' : List (List Char))
    (h : treeLines du row n name t ++ R = treeLines du' row n name t' ++ R') :
    t.map (fun x => (row x).map (rowLine du 0)) = t'.map (fun x => (row x).map (rowLine du' 0)) ∧ R = R' := by
  have hd : ∀ (n : Nat) (name : String), ind n ++ name.toList ++ ": None,".toList ≠
      ind n ++ name.toList ++ ": Some(".toList := by
    intro n name h
    have := List.append_cancel_left h
    revert this; decide
  have hline : ∀ n : Nat, ∀ f : String × β, ∀ d : β → Fmt, rowLine d n f = ind n ++ rowLine d 0 f := by
    intro n f d
    simp [rowLine, ind]
  have hrows : ∀ (n : Nat) (fs gs : List (String × β)),
      fs.map (rowLine du n) = gs.map (rowLine du' n) → fs.map (rowLine du 0) = gs.map (rowLine du' 0) := by
    intro n fs
    induction fs with
    | nil => intro gs h; cases gs with
      | nil => rfl
      | cons g gs => cases h
    | cons f fs ih =>
      intro gs h
      cases gs with
      | nil => cases h
      | cons g gs =>
        simp only [List.map_cons, List.cons.injEq] at h ⊢
        refine ⟨?_, ih gs h.2⟩
        have h1 := h.1
        rw [hline n f du, hline n g du'] at h1
        exact List.append_cancel_left h1
  induction t generalizing t' n name R R' with
  | nil =>
    cases t' with
    | nil =>
      simp only [treeLines, List.cons_append, List.nil_append, List.cons.injEq, true_and] at h
      exact ⟨rfl, h⟩
    | node l x r =>
      simp only [treeLines, List.cons_append, List.nil_append, List.cons.injEq] at h
      exact absurd h.1 (hd n name)
  | node l x r ihl ihr =>
    cases t' with
    | nil =>
      simp only [treeLines, List.cons_append, List.nil_append, List.cons.injEq] at h
      exact absurd h.1.symm (hd n name)
    | node l' x' r' =>
      simp only [treeLines, List.cons_append, List.append_assoc, List.cons.injEq, true_and] at h
      have hlen : ((row x).map (rowLine du (n + 2))).length = ((row x').map (rowLine du' (n + 2))).length := by
        simp [hrow]
      obtain ⟨h1, h2⟩ := List.append_inj h hlen
      obtain ⟨h3, h4⟩ := ihl l' (n + 2) "left" _ _ h2
      obtain ⟨h5, h6⟩ := ihr r' (n + 2) "right" _ _ h4
      refine ⟨?_, by simpa using h6⟩
      simp only [BT.map]
      rw [h3, h5, hrows _ _ _ h1]

theorem treeLines_clean {du : β → Fmt} {row : α → List (String × β)} (hr : OneLine du row) (t : BT α)
    (n : Nat) (name : String) (hn : '\n' ∉ name.toList) : ∀ l ∈ treeLines du row n name t, '\n' ∉ l := by
  have hi : ∀ n, '\n' ∉ ind n := by
    intro n hm
    have := List.eq_of_mem_replicate hm
    revert this; decide
  induction t generalizing n name with
  | nil =>
    intro l hl
    simp only [treeLines, List.mem_cons, List.not_mem_nil, or_false] at hl
    subst hl
    simp only [List.mem_append, not_or]
    exact ⟨⟨hi n, hn⟩, by decide⟩
  | node l x r ihl ihr =>
    intro y hy
    simp only [treeLines, List.mem_cons, List.mem_append, List.mem_map, List.not_mem_nil, or_false] at hy
    rcases hy with rfl | rfl | ⟨f, hf, rfl⟩ | hy | hy | rfl | rfl
    · simp only [List.mem_append, not_or]; exact ⟨⟨hi _, hn⟩, by decide⟩
    · simp only [List.mem_append, not_or]; exact ⟨hi _, by decide⟩
    · obtain ⟨h1, _, h3⟩ := hr x f hf
      simp only [rowLine, List.mem_append, not_or]
      exact ⟨⟨⟨⟨hi _, h1⟩, by decide⟩, h3⟩, by decide⟩
    · exact ihl _ _ (by decide) y hy
    · exact ihr _ _ (by decide) y hy
    · simp only [List.mem_append, not_or]; exact ⟨hi _, by decide⟩
    · simp only [List.mem_append, not_or]; exact ⟨hi _, by decide⟩

/-- The lines of a whole struct around one tree. -/
theorem print_lines {du : β → Fmt} {row : α → List (String × β)} (hr : OneLine du row) (t : BT α)
    (name : String) :
    print du true (Spec.struct true name [("root", tree true row t)] 0) =
      ⟨name.toList ++ " {\n".toList ++ unlines (treeLines du row 1 "root" t) ++ ['}'], .ok⟩ := by
  unfold Spec.struct
  rw [List.cons_append, Shows.text0]
  have : after true (name ++ if true = true then " {\n" else " { ").toList = true := by
    rw [if_pos rfl, String.toList_append, show " {\n".toList = [' ', '{'] ++ ['\n'] from rfl,
      ← List.append_assoc, after_newline]
  rw [this, fills_tree hr t 0 "root" (by decide), print_text0, seq_mk_ok rfl, seq_ok rfl]
  simp [Fmt.text]

theorem print_inj {du du' : β → Fmt} {row : α → List (String × β)} (hr : OneLine du row)
    (hr' : OneLine du' row) (k : Nat) (hrow : ∀ x, (row x).length = k) {t t' : BT α} {name : String}
    (h : print du true (Spec.struct true name [("root", tree true row t)] 0) =
      print du' true (Spec.struct true name [("root", tree true row t')] 0)) :
    t.map (fun x => (row x).map (rowLine du 0)) = t'.map (fun x => (row x).map (rowLine du' 0)) := by
  rw [print_lines hr, print_lines hr'] at h
  have h := (Fmt.mk.injEq _ _ _ _).mp h |>.1
  have h := List.append_cancel_left (List.append_cancel_right h)
  have h := unlines_inj (treeLines_clean hr t 1 "root" (by decide))
    (treeLines_clean hr' t' 1 "root" (by decide)) h
  exact (treeLines_inj du du' row k hrow t t' 1 "root" [] [] (by simpa using h)).1

theorem treeLines_congr (du du' : β → Fmt) (row : α → List (String × β)) (t t' : BT α)
    (h : t.map (fun x => (row x).map (rowLine du 0)) = t'.map (fun x => (row x).map (rowLine du' 0)))
    (n : Nat) (name : String) : treeLines du row n name t = treeLines du' row n name t' := by
  have hline : ∀ n : Nat, ∀ d : β → Fmt, rowLine d n = fun f => ind n ++ rowLine d 0 f := by
    intro n d; funext f; simp [rowLine, ind]
  induction t generalizing t' n name with
  | nil => cases t' with
    | nil => rfl
    | node l x r => cases h
  | node l x r ihl ihr =>
    cases t' with
    | nil => cases h
    | node l' x' r' =>
      simp only [BT.map, BT.node.injEq] at h
      simp only [treeLines]
      rw [ihl _ h.1, ihr _ h.2.2]
      have e : (row x).map (rowLine du (n + 2)) = (row x').map (rowLine du' (n + 2)) := by
        rw [hline _ du, hline _ du']
        have := congrArg (List.map (ind (n + 2) ++ ·)) h.2.1
        simpa [Function.comp_def] using this
      rw [e]

theorem print_iff {du du' : β → Fmt} {row : α → List (String × β)} (hr : OneLine du row)
    (hr' : OneLine du' row) (k : Nat) (hrow : ∀ x, (row x).length = k) {t t' : BT α} {name : String} :
    print du true (Spec.struct true name [("root", tree true row t)] 0) =
      print du' true (Spec.struct true name [("root", tree true row t')] 0) ↔
    t.map (fun x => (row x).map (rowLine du 0)) = t'.map (fun x => (row x).map (rowLine du' 0)) := by
  refine ⟨print_inj hr hr' k hrow, fun h => ?_⟩
  rw [print_lines hr, print_lines hr', treeLines_congr du du' row t t' h]

/-- The text of a field, without its name. -/
def unrow (k : Nat) (l : List Char) : List Char := (l.drop k).dropLast

theorem unrow_rowLine (du : β → Fmt) (f : String × β) :
    unrow (f.1.toList.length + 2) (rowLine du 0 f) = (du f.2).out := by
  unfold unrow rowLine ind
  have : (List.replicate (4 * 0) ' ' ++ f.1.toList ++ ": ".toList ++ (du f.2).out ++ [',']) =
      (f.1.toList ++ ": ".toList) ++ ((du f.2).out ++ [',']) := by simp
  rw [this, List.drop_left' (by simp)]
  simp

theorem entry_iff {dk dk' : K → Fmt} {dv dv' : V → Fmt} {dn dn' : Nat → Fmt} {b b' : BT (K × V)} :
    b.map (fun e => (entryRow e).map (rowLine (Shown.fmt dk dv dn) 0)) =
      b'.map (fun e => (entryRow e).map (rowLine (Shown.fmt dk' dv' dn') 0)) ↔
    b.map (fun e => ((dk e.1).out, (dv e.2).out)) = b'.map (fun e => ((dk' e.1).out, (dv' e.2).out)) := by
  constructor
  · intro h
    have := congrArg (BT.map fun ls : List (List Char) =>
      (unrow ("key".toList.length + 2) (ls[0]?.getD []), unrow ("value".toList.length + 2) (ls[1]?.getD []))) h
    rw [BT.map_map, BT.map_map] at this
    have e : ∀ (dk : K → Fmt) (dv : V → Fmt) (dn : Nat → Fmt) (e : K × V),
        (unrow ("key".toList.length + 2) (((entryRow e).map (rowLine (Shown.fmt dk dv dn) 0))[0]?.getD []),
          unrow ("value".toList.length + 2) (((entryRow e).map (rowLine (Shown.fmt dk dv dn) 0))[1]?.getD [])) =
        ((dk e.1).out, (dv e.2).out) := by
      intro dk dv dn e
      have h1 := unrow_rowLine (Shown.fmt dk dv dn) ("key", .key e.1)
      have h2 := unrow_rowLine (Shown.fmt dk dv dn) ("value", .value e.2)
      exact Prod.ext h1 h2
    simpa only [Function.comp_def, e] using this
  · intro h
    have := congrArg (BT.map fun x : List Char × List Char =>
      [ind 0 ++ "key".toList ++ ": ".toList ++ x.1 ++ [','], ind 0 ++ "value".toList ++ ": ".toList ++ x.2 ++ [',']]) h
    rw [BT.map_map, BT.map_map] at this
    exact this

theorem elem_iff {dt dt' : T → Fmt} {b b' : BT T} :
    b.map (fun e => (elemRow e).map (rowLine dt 0)) = b'.map (fun e => (elemRow e).map (rowLine dt' 0)) ↔
    b.map (fun e => (dt e).out) = b'.map (fun e => (dt' e).out) := by
  constructor
  · intro h
    have := congrArg (BT.map fun ls : List (List Char) => unrow ("value".toList.length + 2) (ls[0]?.getD [])) h
    rw [BT.map_map, BT.map_map] at this
    have e : ∀ (dt : T → Fmt) (e : T), unrow ("value".toList.length + 2) (((elemRow e).map (rowLine dt 0))[0]?.getD []) = (dt e).out :=
      fun dt e => unrow_rowLine dt ("value", e)
    simpa only [Function.comp_def, e] using this
  · intro h
    have := congrArg (BT.map fun x : List Char => [ind 0 ++ "value".toList ++ ": ".toList ++ x ++ [',']]) h
    rw [BT.map_map, BT.map_map] at this
    exact this

/-! ### Agreement with the text of C42 -/

theorem shows_debugMap (dk : K → String) (dv : V → String) (dn : Nat → Fmt) (b : BT (K × V)) :
    Shows (Shown.fmt (fun k => .text (dk k)) (fun v => .text (dv v)) dn) (Fmt.text (b.debugMap dk dv))
      (tree false entryRow b) := by
  induction b with
  | nil => exact Shows.text _ _
  | node l e r ihl ihr =>
    have := shows_some false (shows_node false (entryRow e) ihl ihr)
    have e2 : Fmt.text ((BT.node l e r).debugMap dk dv) = Fmt.debugTuple1 false "Some"
        (Fmt.debugStruct false "Node" ((entryRow e).map (fun f => (f.1,
          Shown.fmt (fun k => .text (dk k)) (fun v => .text (dv v)) dn f.2)) ++
          [("left", Fmt.text (l.debugMap dk dv)), ("right", Fmt.text (r.debugMap dk dv))])) := by
      simp [BT.debugMap, Fmt.debugTuple1, Fmt.debugStruct, entryRow, Shown.fmt, Fmt.Builder.field,
        Fmt.Builder.finish, Fmt.seq, Fmt.text]
    rw [e2]
    exact this

theorem shows_debugSet (dt : T → String) (b : BT T) :
    Shows (fun t => .text (dt t)) (Fmt.text (b.debugSet dt)) (tree false elemRow b) := by
  induction b with
  | nil => exact Shows.text _ _
  | node l e r ihl ihr =>
    have := shows_some false (shows_node false (elemRow e) ihl ihr)
    have e2 : Fmt.text ((BT.node l e r).debugSet dt) = Fmt.debugTuple1 false "Some"
        (Fmt.debugStruct false "Node" ((elemRow e).map (fun f => (f.1, Fmt.text (dt f.2))) ++
          [("left", Fmt.text (l.debugSet dt)), ("right", Fmt.text (r.debugSet dt))])) := by
      simp [BT.debugSet, Fmt.debugTuple1, Fmt.debugStruct, elemRow, Fmt.Builder.field,
        Fmt.Builder.finish, Fmt.seq, Fmt.text]
    rw [e2]
    exact this

end BST.Spec
