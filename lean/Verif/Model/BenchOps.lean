import Verif.Model.Bench
import Verif.SetPrograms
/-!
# The other programs of `benches/map_comparison.rs`, and `benches/set_comparison.rs`

As in `Verif/Model/Bench.lean`: the programs are run with maps (sets) of either crate, the measuring
is not modelled, and the answers that the benchmark gives to `black_box` are collected. Positions of
keys (`i64` in the code) are numbers here: there is no list of `2^63` keys.
-/
namespace BST.Bench
variable {K V T α β : Type}

/-! ### A mix of operations on a map -/

/-- `value * 2` on `usize` in the assignment through the reference from `get_mut`. -/
def double (cfg : Cfg) (n : Nat) : Option Nat :=
  match mulU cfg n 2 with
  | .ok r => some r
  | _ => none

/-- What the calls in one step of the loop return. For the lookups only the answer of `get`; that of
`get_mut` is checked by the program itself. -/
structure StepLog (ι ν : Type) where
  inserted : List ι
  overwritten : ι
  got : List (Option ν)
  removed : List ι
  deriving DecidableEq, Repr

/-- benches/map_comparison.rs:206-216: one lookup and update. -/
def getAndDouble (cfg : Cfg) (map : Nat) (key : Int) : Prog Int Nat (Option Nat) := do
  match ← get map key with
  | none => pure none
  | some value => do
    let _ ← modify map key (fun _ => double cfg value)
    pure (some value)

/-- benches/map_comparison.rs:191-223: one step, with the `key_i` at its beginning. -/
def mapStep (cfg : Cfg) (keys : List Int) (map i keyI : Nat) : Prog Int Nat (StepLog (Option Nat) Nat) := do
  let inserted ← each (fun j : Nat => do
    let key ← keyAt keys ((keyI + j : Nat) : Int)
    let value ← lift (addU cfg i j)
    insert map key value) (List.range (i % 5 + 1))
  let last := keyI + (i % 5 + 1)
  let key ← keyAt keys ((last : Int) - 1)
  let overwritten ← insert map key 0
  let got ← each (fun j : Nat => do
    let key ← keyAt keys ((last : Int) - (j : Int))
    getAndDouble cfg map key) (List.range (3 - i % 3))
  let removed ← each (fun j : Nat => do
    let key ← keyAt keys ((last : Int) - (j : Int))
    remove map key) (List.range (2 - i % 2))
  pure ⟨inserted, overwritten, got, removed⟩

/-- benches/map_comparison.rs:190-224: the steps from `i` on. -/
def mapSteps (cfg : Cfg) (keys : List Int) (map : Nat) :
    Nat → Nat → Nat → Prog Int Nat (List (StepLog (Option Nat) Nat))
  | 0, _, _ => pure []
  | n + 1, i, keyI => do
    let a ← mapStep cfg keys map i keyI
    let as ← mapSteps cfg keys map n (i + 1) (keyI + (i % 5 + 1))
    pure (a :: as)

/-- benches/map_comparison.rs:182-227 `benchmark_map_ops`. -/
def mapOps (cfg : Cfg) (keys : List Int) (steps : Nat) : Prog Int Nat (List (StepLog (Option Nat) Nat)) := do
  let map ← .make
  mapSteps cfg keys map steps 0 0

/-! ### Several maps at once -/

/-- benches/map_comparison.rs:231 (and 244) `vec![M::default(); n]`: `n - 1` clones and then the map itself; without any, the map is
dropped (it keeps its number here). -/
def vecOf (n : Nat) : Prog K V (List Nat) := do
  let map ← .make
  let clones ← each (fun _ => .copy map) (List.range (n - 1))
  pure (if n = 0 then [] else clones ++ [map])

/-- benches/map_comparison.rs:233-237 (and 246-250): the insertions into every one of the maps. -/
def insertsMulti (keys : List Int) (maps : List Nat) (inserts : Nat) :
    Prog Int Nat (List (List (Option Nat))) :=
  each (fun i : Nat =>
    each (fun map => do let k ← keyAt keys (i : Int); insert map k i) maps) (List.range inserts)

/-- benches/map_comparison.rs:256-266 `benchmark_gets_multi`. -/
def getsMulti (keys : List Int) (maps : List Nat) (gets : Nat) :
    Prog Int Nat (List (List (Option Nat × Option Nat))) :=
  each (fun i : Nat =>
    each (fun map => do
      let k ← keyAt keys ((gets - i - 1 : Nat) : Int)
      let a ← get map k
      let b ← modify map k some
      pure (a, b)) maps) (List.range gets)

/-- benches/map_comparison.rs:243-266: `n` maps, the insertions, and then the lookups. -/
def compareMulti (keys : List Int) (inserts n : Nat) :
    Prog Int Nat (List (List (Option Nat)) × List (List (Option Nat × Option Nat))) := do
  let maps ← vecOf n
  let a ← insertsMulti keys maps inserts
  let b ← getsMulti keys maps inserts
  pure (a, b)

/-! ### Sets -/

/-- A `for` loop that collects what its body computes. -/
def sEach (f : α → SetProg T β) : List α → SetProg T (List β)
  | [] => pure []
  | a :: as => do
    let b ← f a
    let bs ← sEach f as
    pure (b :: bs)

/-- `set.insert(t)` -/
def sInsert (s : Nat) (t : T) : SetProg T Bool := do
  match ← .ask s (.insert t) with
  | .bool b => pure b
  | _ => .panic

/-- `set.remove(&t)` -/
def sRemove (s : Nat) (t : T) : SetProg T Bool := do
  match ← .ask s (.remove t) with
  | .bool b => pure b
  | _ => .panic

/-- `set.get(&t)` (copied). -/
def sGet (s : Nat) (t : T) : SetProg T (Option T) := do
  match ← .ask s (.get t) with
  | .elem x => pure x
  | _ => .panic

/-- `set.contains(&t)` -/
def sContains (s : Nat) (t : T) : SetProg T Bool := do
  match ← .ask s (.contains t) with
  | .bool b => pure b
  | _ => .panic

/-- benches/set_comparison.rs:106-110 `Values::get`. The values before they are shuffled
(lines 87-96) are those of `keysBefore`. -/
def valueAt (values : List Int) (i : Int) : SetProg Int Int :=
  match values[(max i 0).toNat]? with
  | none => .panic
  | some t => pure t

/-- benches/set_comparison.rs:121-123 (and 132-134, 154-156): the insertions. -/
def sInserts (values : List Int) (set n : Nat) : SetProg Int (List Bool) :=
  sEach (fun i : Nat => do let t ← valueAt values (i : Int); sInsert set t) (List.range n)

/-- benches/set_comparison.rs:140-148: the lookups. -/
def sGets (values : List Int) (set n : Nat) : SetProg Int (List (Option Int × Bool)) :=
  sEach (fun i : Nat => do
    let t ← valueAt values ((n - i - 1 : Nat) : Int)
    let a ← sGet set t
    let b ← sContains set t
    pure (a, b)) (List.range n)

/-- benches/set_comparison.rs:162-171: the removals. -/
def sRemoves (values : List Int) (set n : Nat) : SetProg Int (List (Bool × Bool)) :=
  sEach (fun i : Nat => do
    let t ← valueAt values ((n - i - 1 : Nat) : Int)
    let a ← sRemove set t
    let b ← sRemove set t
    pure (a, b)) (List.range n)

/-- benches/set_comparison.rs:129-171: the setup, the lookups, and then the removals as often as
they are measured (lines 274-289), all with the set that was filled once. -/
def compareSets (values : List Int) (n iters : Nat) :
    SetProg Int (List Bool × List (Option Int × Bool) × List (List (Bool × Bool))) := do
  let set ← .make
  let a ← sInserts values set n
  let b ← sGets values set n
  let c ← sEach (fun _ => sRemoves values set n) (List.range iters)
  pure (a, b, c)

/-- benches/set_comparison.rs:183-211: one step, with the `value_i` at its beginning. -/
def setStep (values : List Int) (set i valueI : Nat) : SetProg Int (StepLog Bool Int) := do
  let inserted ← sEach (fun j : Nat => do
    let t ← valueAt values ((valueI + j : Nat) : Int)
    sInsert set t) (List.range (i % 5 + 1))
  let last := valueI + (i % 5 + 1)
  let t ← valueAt values ((last : Int) - 1)
  let overwritten ← sInsert set t
  let got ← sEach (fun j : Nat => do
    let t ← valueAt values ((last : Int) - (j : Int))
    sGet set t) (List.range (3 - i % 3))
  let removed ← sEach (fun j : Nat => do
    let t ← valueAt values ((last : Int) - (j : Int))
    sRemove set t) (List.range (2 - i % 2))
  pure ⟨inserted, overwritten, got, removed⟩

/-- benches/set_comparison.rs:182-212: the steps from `i` on. -/
def setSteps (values : List Int) (set : Nat) : Nat → Nat → Nat → SetProg Int (List (StepLog Bool Int))
  | 0, _, _ => pure []
  | n + 1, i, valueI => do
    let a ← setStep values set i valueI
    let as ← setSteps values set n (i + 1) (valueI + (i % 5 + 1))
    pure (a :: as)

/-- benches/set_comparison.rs:174-215 `benchmark_set_ops`. -/
def setOps (values : List Int) (steps : Nat) : SetProg Int (List (StepLog Bool Int)) := do
  let set ← .make
  setSteps values set steps 0 0

end BST.Bench
