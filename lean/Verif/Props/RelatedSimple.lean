import Verif.Proofs.RelatedSimpleSet
import Verif.Proofs.Sample
import Verif.Props.Related
/-!
# C79 for `SimpleBSTMap` and `SimpleBSTSet`: they only compare and move keys, and only move values
-/
namespace BST.Props
open Spec
variable {K K' V V' : Type} {R : K → K' → Prop} {S : V → V' → Prop} {cfg : Cfg}

/-- C79 for `SimpleBSTMap`. Two histories of related calls: every call has the same outcome (also if
comparisons are inconsistent or panic, or allocations fail), and returns related keys and values and the
same numbers and texts. Afterwards the two maps show trees of the same shape with related entries, and the
allocator was called equally often. -/
theorem C79_simple_history {ops : List (SimpleOp K V)} {ops' : List (SimpleOp K' V')}
    (h : ListRel (SimpleOpRel R S) ops ops') :
    ∃ os m os' m', simpleHistory cfg ops Simple.Map.new = (os, m) ∧
      simpleHistory cfg ops' Simple.Map.new = (os', m') ∧ ListRel (OutRel (RetRel R S)) os os' ∧
      BTRel (PairRel R S) (Simple.explore m) (Simple.explore m') ∧ m.allocs = m'.allocs := by
  obtain ⟨h1, h2⟩ := Simple.simpleHistory_rel (cfg := cfg) h Simple.Map.new_rel
  exact ⟨_, _, _, _, rfl, rfl, h1, Simple.Map.explore_rel h2, h2.allocs⟩

/-- C79 for `SimpleBSTMap`. Renaming: as `C79_renaming`. -/
theorem C79_simple_renaming {f : K → K'} {g : V → V'} {ops : List (SimpleOp K V)}
    {ops' : List (SimpleOp K' V')}
    (h : ListRel (SimpleOpRel (fun k k' => k' = f k) fun v v' => v' = g v) ops ops') :
    ∃ os m m', simpleHistory cfg ops Simple.Map.new = (os, m) ∧
      simpleHistory cfg ops' Simple.Map.new = (os.map (Out.map (Ret.map f g)), m') ∧
      Simple.explore m' = (Simple.explore m).map fun e => (f e.1, g e.2) := by
  obtain ⟨os, m, os', m', h1, h2, h3, h4, _⟩ := C79_simple_history (cfg := cfg) h
  refine ⟨os, m, m', h1, ?_, ?_⟩
  · rw [h2]
    refine congrArg (·, m') (ListRel.eq_map (ListRel.mono h3 fun o o' ho => ?_))
    cases ho with
    | ok h => rw [RetRel.eq_map h]; rfl
    | _ => rfl
  · refine BTRel.eq_map (BTRel.mono h4 ?_)
    rintro ⟨a, b⟩ ⟨a', b'⟩ ⟨h1, h2⟩
    cases h1; cases h2; rfl

/-- C79 for `SimpleBSTMap`. No key and no value comes from nowhere: as `C79_only`. -/
theorem C79_simple_only {P : K → Prop} {Q : V → Prop} {ops : List (SimpleOp K V)}
    (h : ∀ op ∈ ops, op.Only P Q) :
    (∀ r, .ok r ∈ (simpleHistory cfg ops Simple.Map.new).1 → r.Only P Q) ∧
    ∀ e ∈ (Simple.explore (simpleHistory cfg ops Simple.Map.new).2).ino, P e.1 ∧ Q e.2 := by
  obtain ⟨h1, h2⟩ := Simple.simpleHistory_rel (cfg := cfg)
    (Diag.list fun op ho => Simple.diag_simpleOp (h op ho)) Simple.Map.new_rel
  refine ⟨fun r hr => ?_, fun e he => ?_⟩
  · obtain ⟨y, hy⟩ := Diag.mem h1 _ hr
    cases hy with | ok h => exact Diag.ret h
  · obtain ⟨y, hy⟩ := Diag.tree (Simple.Map.explore_rel h2) e he
    exact ⟨hy.1.2, hy.2.2⟩

/-- C79 for `SimpleBSTSet`. As `C79_set_history`. -/
theorem C79_simple_set_history {T T' : Type} {R : T → T' → Prop} {ops : List (SimpleSetOp T)}
    {ops' : List (SimpleSetOp T')} (h : ListRel (SimpleSetOpRel R) ops ops') :
    ∃ os s os' s', simpleSetHistory cfg ops Simple.SSet.new = (os, s) ∧
      simpleSetHistory cfg ops' Simple.SSet.new = (os', s') ∧ ListRel (OutRel (SetRetRel R)) os os' ∧
      BTRel R s.explore s'.explore ∧ s.items.allocs = s'.items.allocs := by
  obtain ⟨h1, h2⟩ := Simple.SSet.simpleSetHistory_rel (cfg := cfg) h (m := Simple.SSet.new)
    (m' := Simple.SSet.new) Simple.Map.new_rel
  exact ⟨_, _, _, _, rfl, rfl, h1, Simple.SSet.explore_rel h2, h2.allocs⟩

/-! ### An example: numbers, and a coding of them as integers; strings, and their lengths -/

/-- The calls of the first client; one comparison panics. -/
def plainSimpleOps : List (SimpleOp Nat String) :=
  let q (n : Nat) : Probe Nat := query (compare n)
  [.insert (q 5) 5 "five", .insert (q 2) 2 "two", .insert (q 8) 8 "eight", .insert (q 6) 6 "six",
   .extend (fun _ k => query (compare k)) ⟨(0, none), [(1, "one"), (6, "sechs")], false⟩,
   .remove (q 5), .getEntry (q 6), .get fun _ _ => none, .len, .iter .ino 6, .node [true],
   .cloned some some, .iter .pre 2, .getMut (q 8) "VIII", .iter .post 5]

/-- The calls of the second client. -/
def codedSimpleOps : List (SimpleOp Int Nat) :=
  let q (n : Nat) : Probe Int := query (compare (code n))
  [.insert (q 5) (code 5) 4, .insert (q 2) (code 2) 3, .insert (q 8) (code 8) 5, .insert (q 6) (code 6) 3,
   .extend (fun _ k => query (compare k)) ⟨(0, none), [(code 1, 3), (code 6, 5)], false⟩,
   .remove (q 5), .getEntry (q 6), .get fun _ _ => none, .len, .iter .ino 6, .node [true],
   .cloned some some, .iter .pre 2, .getMut (q 8) 4, .iter .post 5]

theorem codedSimple_related : ListRel (SimpleOpRel (fun k k' => k' = code k) fun v v' => v' = String.length v)
    plainSimpleOps codedSimpleOps := by
  have qs : ProbesRel (fun k k' => k' = code k) (fun _ k => query (compare k)) fun _ k => query (compare k) := by
    rintro n k _ rfl; exact code_probe k
  have p (n : Nat) := code_probe n
  have id1 : ∀ {α β : Type} (f : α → β) (k : α) (k' : β), k' = f k →
      OptRel (fun a a' => a' = f a) (some k) (some k') := fun _ _ _ h => .some h
  exact .cons (.insert (p 5) rfl rfl) <| .cons (.insert (p 2) rfl rfl) <| .cons (.insert (p 8) rfl rfl) <|
    .cons (.insert (p 6) rfl rfl) <|
    .cons (.extend qs ⟨rfl, .cons ⟨rfl, rfl⟩ (.cons ⟨rfl, rfl⟩ .nil), rfl⟩) <|
    .cons (.remove (p 5)) <| .cons (.getEntry (p 6)) <| .cons (.get fun _ _ _ _ => rfl) <| .cons .len <|
    .cons .iter <| .cons .node <| .cons (.cloned (id1 code) (id1 String.length)) <| .cons .iter <|
    .cons (.getMut (p 8) rfl) <| .cons .iter .nil

/-- The two clients are related, so `C79_simple_history` and `C79_simple_renaming` apply; and these are
some of the answers. -/
example :
    (∃ os m m', simpleHistory Sample.cfg plainSimpleOps Simple.Map.new = (os, m) ∧
      simpleHistory Sample.cfg codedSimpleOps Simple.Map.new =
        (os.map (Out.map (Ret.map code String.length)), m') ∧
      Simple.explore m' = (Simple.explore m).map fun e => (code e.1, e.2.length)) ∧
    (simpleHistory Sample.cfg plainSimpleOps Simple.Map.new).1[9]? =
      some (.ok (.items [some (1, "one"), some (2, "two"), some (6, "sechs"), some (8, "eight"), none, none])) ∧
    (simpleHistory Sample.cfg codedSimpleOps Simple.Map.new).1[9]? =
      some (.ok (.items [some (-7, 3), some (-4, 3), some (8, 5), some (14, 5), none, none])) ∧
    (simpleHistory Sample.cfg codedSimpleOps Simple.Map.new).1[7]? = some .panic :=
  ⟨C79_simple_renaming codedSimple_related, by decide +kernel⟩

/-- In the second client all keys leave the remainder 2 when divided by 3, and all values are below 6. -/
example : (∀ op ∈ codedSimpleOps, op.Only (fun k => k % 3 = 2) (fun v => v < 6)) ∧
    (Simple.explore (simpleHistory Sample.cfg codedSimpleOps Simple.Map.new).2).ino =
      [(-7, 3), (-4, 3), (8, 5), (14, 4)] := by
  refine ⟨?_, by decide +kernel⟩
  simp [codedSimpleOps, SimpleOp.Only, code]
  omega

/-- Related calls on sets, for `C79_simple_set_history`; one comparison panics. -/
example :
    let q (n : Nat) : Probe Nat := query (compare n)
    let q' (n : Nat) : Probe Int := query (compare (code n))
    let ops : List (SimpleSetOp Nat) := [.insert (q 5) 5, .insert (q 2) 2, .insert (q 8) 8, .remove (q 5),
      .contains fun _ _ => none, .get (q 8), .iter .ino 3, .len]
    let ops' : List (SimpleSetOp Int) := [.insert (q' 5) (code 5), .insert (q' 2) (code 2),
      .insert (q' 8) (code 8), .remove (q' 5), .contains fun _ _ => none, .get (q' 8), .iter .ino 3, .len]
    ListRel (SimpleSetOpRel fun k k' => k' = code k) ops ops' ∧
    (simpleSetHistory Sample.cfg ops' Simple.SSet.new).1 =
      [.ok (.bool true), .ok (.bool true), .ok (.bool true), .ok (.bool true), .panic,
       .ok (.elem (some 14)), .ok (.items [some (-4), some 14, none]), .ok (.nat 2)] := by
  have p (n : Nat) := code_probe n
  exact ⟨.cons (.insert (p 5) rfl) <| .cons (.insert (p 2) rfl) <| .cons (.insert (p 8) rfl) <|
    .cons (.remove (p 5)) <| .cons (.contains fun _ _ _ _ => rfl) <| .cons (.get (p 8)) <| .cons .iter <|
    .cons .len .nil, by decide +kernel⟩

end BST.Props
