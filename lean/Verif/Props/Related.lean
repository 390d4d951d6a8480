import Verif.Proofs.RelatedHistory
import Verif.Proofs.Sample
/-!
# C79: the map does nothing with keys but compare and move them, and nothing with values but move them

Two clients make the same calls, one with keys `K` and values `V`, the other with `K'` and `V'`. If the
code of the users (comparisons, clones, destructors, ..) does the same for related keys and values, then
they get the same results.
-/
namespace BST.Props
open BSTMap Spec
variable {K K' V V' : Type} {R : K → K' → Prop} {S : V → V' → Prop} {cfg : Cfg}

/-- C79. Two histories of related calls: every call has the same outcome (also if comparisons are
inconsistent or panic, allocations fail, or destructors panic), and returns related keys and values and
the same numbers and texts. Afterwards the two maps show trees of the same shape, with related entries at
the same addresses; and the allocator was called in the same way. -/
theorem C79_history {ops : List (Op K V)} {ops' : List (Op K' V')} (h : ListRel (OpRel R S) ops ops') :
    ∃ os m os' m', history cfg ops new = (os, m) ∧ history cfg ops' new = (os', m') ∧
      ListRel (OutRel (RetRel R S)) os os' ∧
      OutRel (BTRel (PairRel Eq (PairRel R S))) (exploreAt m) (exploreAt m') ∧
      m.nodes.items.log = m'.nodes.items.log := by
  obtain ⟨h1, h2⟩ := history_rel (cfg := cfg) h new_rel
  exact ⟨_, _, _, _, rfl, rfl, h1, exploreAt_rel h2, h2.nodes.items.log⟩

/-- C79. If both maps are dropped in the end: the same outcome, the destructors were run for related
entries in the same order, over the whole life of the maps, and the allocator was called in the same way. -/
theorem C79_drop {ops : List (Op K V)} {ops' : List (Op K' V')} (h : ListRel (OpRel R S) ops ops')
    {d : DropInfo (InnerNode K V)} {d' : DropInfo (InnerNode K' V')} (hd : DropRel (InnerRel R S) d d') :
    ∃ o m o' m', drop cfg d (history cfg ops new).2 = (o, m) ∧
      drop cfg d' (history cfg ops' new).2 = (o', m') ∧ OutRel Eq o o' ∧
      ListRel (InnerRel R S) m.nodes.dropped m'.nodes.dropped ∧
      m.nodes.items.log = m'.nodes.items.log := by
  obtain ⟨h1, h2⟩ := onNodes_rel (Slab.drop_rel (cfg := cfg) hd) _ _ (history_rel (cfg := cfg) h new_rel).2
  exact ⟨_, _, _, _, rfl, rfl, h1, h2.nodes.dropped, h2.nodes.items.log⟩

/-- C79. Renaming. If the second client passes `f k` wherever the first passes the key `k`, and `g v`
for the value `v`, and comparisons with `f k` answer as those with `k` do, then it gets the same
answers with keys and values renamed, and its map shows the same tree with keys and values renamed. -/
theorem C79_renaming {f : K → K'} {g : V → V'} {ops : List (Op K V)} {ops' : List (Op K' V')}
    (h : ListRel (OpRel (fun k k' => k' = f k) fun v v' => v' = g v) ops ops') :
    ∃ os m m', history cfg ops new = (os, m) ∧
      history cfg ops' new = (os.map (Out.map (Ret.map f g)), m') ∧
      explore m' = (explore m).map (BT.map fun e => (f e.1, g e.2)) := by
  obtain ⟨os, m, os', m', h1, h2, h3, h4, _⟩ := C79_history (cfg := cfg) h
  refine ⟨os, m, m', h1, ?_, ?_⟩
  · rw [h2]
    refine congrArg (·, m') (ListRel.eq_map (ListRel.mono h3 fun o o' ho => ?_))
    cases ho with
    | ok h => rw [RetRel.eq_map h]; rfl
    | _ => rfl
  · unfold explore
    revert h4
    generalize exploreAt m = b, exploreAt m' = b'
    intro h4
    cases h4 with
    | @ok t t' h =>
      show Out.ok _ = Out.ok _
      have : t' = t.map fun e => (e.1, f e.2.1, g e.2.2) := BTRel.eq_map (BTRel.mono h (by
        rintro ⟨a, b, c⟩ ⟨a', b', c'⟩ ⟨h1, h2, h3⟩
        cases h1; cases h2; cases h3; rfl))
      rw [this]
      refine congrArg _ ?_
      clear this h
      induction t with
      | nil => rfl
      | node l a r ihl ihr => simp only [BT.map, ihl, ihr]
    | _ => rfl

/-- C79. No key and no value comes from nowhere: if all keys and values that the client passed in, or that
its `Clone` implementations made of such, have the properties `P` and `Q`, then so have all that a call
returns and all that are in the map. Nothing is assumed of the comparisons, the allocator, or destructors. -/
theorem C79_only {P : K → Prop} {Q : V → Prop} {ops : List (Op K V)} (h : ∀ op ∈ ops, op.Only P Q) :
    (∀ r, .ok r ∈ (history cfg ops new).1 → r.Only P Q) ∧
    ∀ b, exploreAt (history cfg ops new).2 = .ok b → ∀ e ∈ b.ino, P e.2.1 ∧ Q e.2.2 := by
  obtain ⟨h1, h2⟩ := history_rel (cfg := cfg) (Diag.list fun op ho => Diag.op (h op ho)) new_rel
  refine ⟨fun r hr => ?_, fun b hb e he => ?_⟩
  · obtain ⟨y, hy⟩ := Diag.mem h1 _ hr
    cases hy with | ok h => exact Diag.ret h
  · have := exploreAt_rel h2
    rw [hb] at this
    cases this with
    | ok h =>
      obtain ⟨y, hy⟩ := Diag.tree h e he
      exact ⟨hy.2.1.2, hy.2.2.2⟩

/-! ### An example: numbers, and a coding of them as integers; strings, and their lengths -/

/-- `k ↦ 3 k - 10` keeps the order. -/
def code (k : Nat) : Int := 3 * k - 10

theorem code_probe (n : Nat) :
    ProbeRel (fun k k' => k' = code k) (query (compare n)) (query (compare (code n))) := by
  rintro i k _ rfl
  refine congrArg some ?_
  rcases Nat.lt_trichotomy n k with h | h | h
  · rw [Nat.compare_eq_lt.mpr h, Int.compare_eq_lt.mpr (by unfold code; omega)]
  · rw [Nat.compare_eq_eq.mpr h, Int.compare_eq_eq.mpr (by unfold code; omega)]
  · rw [Nat.compare_eq_gt.mpr h, Int.compare_eq_gt.mpr (by unfold code; omega)]

/-- The calls of the first client. -/
def plainOps : List (Op Nat String) :=
  let q (n : Nat) : Probe Nat := query (compare n)
  [.insert (q 5) 5 "five", .insert (q 2) 2 "two", .insert (q 8) 8 "eight", .insert (q 6) 6 "six",
   .extend (fun _ k => query (compare k)) ⟨(0, none), [(1, "one"), (6, "sechs")], false⟩,
   .remove (q 5), .getEntry (q 6), .get fun _ _ => none, .len, .iter .ino 6, .node [true],
   .cloned (fun _ k => query (compare k)) some some, .iter .pre 2, .reserve 20, .capacity, .getMut (q 8) "VIII",
   .iter .post 5]

/-- The calls of the second client. -/
def codedOps : List (Op Int Nat) :=
  let q (n : Nat) : Probe Int := query (compare (code n))
  [.insert (q 5) (code 5) 4, .insert (q 2) (code 2) 3, .insert (q 8) (code 8) 5, .insert (q 6) (code 6) 3,
   .extend (fun _ k => query (compare k)) ⟨(0, none), [(code 1, 3), (code 6, 5)], false⟩,
   .remove (q 5), .getEntry (q 6), .get fun _ _ => none, .len, .iter .ino 6, .node [true],
   .cloned (fun _ k => query (compare k)) some some, .iter .pre 2, .reserve 20, .capacity, .getMut (q 8) 4,
   .iter .post 5]

theorem coded_related :
    ListRel (OpRel (fun k k' => k' = code k) fun v v' => v' = String.length v) plainOps codedOps := by
  have qs : ProbesRel (fun k k' => k' = code k) (fun _ k => query (compare k)) fun _ k => query (compare k) := by
    rintro n k _ rfl; exact code_probe k
  have p (n : Nat) := code_probe n
  have id1 : ∀ {α β : Type} (f : α → β) (k : α) (k' : β), k' = f k →
      OptRel (fun a a' => a' = f a) (some k) (some k') := fun _ _ _ h => .some h
  exact .cons (.insert (p 5) rfl rfl) <| .cons (.insert (p 2) rfl rfl) <| .cons (.insert (p 8) rfl rfl) <|
    .cons (.insert (p 6) rfl rfl) <|
    .cons (.extend qs ⟨rfl, .cons ⟨rfl, rfl⟩ (.cons ⟨rfl, rfl⟩ .nil), rfl⟩) <|
    .cons (.remove (p 5)) <| .cons (.getEntry (p 6)) <| .cons (.get fun _ _ _ _ => rfl) <| .cons .len <|
    .cons .iter <| .cons .node <| .cons (.cloned qs (id1 code) (id1 String.length)) <| .cons .iter <|
    .cons .reserve <| .cons .capacity <| .cons (.getMut (p 8) rfl) <| .cons .iter .nil

/-- The two clients are related, so `C79_history` and `C79_renaming` apply; and these are some of the
answers. -/
example :
    (∃ os m m', history Sample.cfg plainOps new = (os, m) ∧
      history Sample.cfg codedOps new = (os.map (Out.map (Ret.map code String.length)), m') ∧
      explore m' = (explore m).map (BT.map fun e => (code e.1, e.2.length))) ∧
    (history Sample.cfg plainOps new).1[9]? =
      some (.ok (.items [some (1, "one"), some (2, "two"), some (6, "sechs"), some (8, "eight"), none, none])) ∧
    (history Sample.cfg codedOps new).1[9]? =
      some (.ok (.items [some (-7, 3), some (-4, 3), some (8, 5), some (14, 5), none, none])) ∧
    (history Sample.cfg codedOps new).1[7]? = some .panic :=
  ⟨C79_renaming coded_related, by decide +kernel⟩

/-- In the second client all keys leave the remainder 2 when divided by 3, and all values are below 6. -/
example : (∀ op ∈ codedOps, op.Only (fun k => k % 3 = 2) (fun v => v < 6)) ∧
    (exploreAt (history Sample.cfg codedOps new).2).map (fun b => b.ino.map (·.2)) =
      .ok [(-7, 3), (-4, 3), (8, 5), (14, 4)] := by
  refine ⟨?_, by decide +kernel⟩
  simp [codedOps, Op.Only, code]
  omega

end BST.Props
