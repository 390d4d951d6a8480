import Verif.Model.Bench
/-!
# The inputs of the programs of `benches/`

The functions that make the inputs, for any source of random numbers. A `while` loop that only goes
on by luck is run for a number of rounds (`fuel`) and counts as not ending (`Out.diverge`) after
that. Not modelled: that `Vec::with_capacity` fails for lengths near `isize::MAX`, and overflow of
the additions in line 130 of benches/two_sum.rs and 98-104 of benches/map_comparison.rs, which
needs such lengths.
-/
namespace BST.Bench
variable {K ρ α : Type}

/-- A source of randomness with state `ρ` (`StdRng` and the functions of the crate `rand`, by their
documentation): numbers, permutations of slices, and names. -/
structure Rng (K ρ : Type) where
  next : ρ → Nat × ρ
  shuffle : List Int → ρ → List Int × ρ
  perm : ∀ l s, ((shuffle l s).1).Perm l
  name : ρ → K × ρ
  str : ρ → String × ρ

namespace Rng

/-- `rng.gen_range(lo..=hi)`; panics if the range is empty. -/
def range (G : Rng K ρ) (lo hi : Nat) : M ρ Nat := fun s =>
  if lo ≤ hi then (.ok (lo + (G.next s).1 % (hi - lo + 1)), (G.next s).2) else (.panic, s)

/-- `slice.choose(rng)`: `None` for an empty slice. -/
def choose (G : Rng K ρ) (l : List α) : M ρ (Option α) := do
  if l.isEmpty then pure none
  else do
    let i ← G.range 0 (l.length - 1)
    pure l[i]?

/-- `slice.shuffle(rng)` -/
def mix (G : Rng K ρ) (l : List Int) : M ρ (List Int) := fun s =>
  (.ok (G.shuffle l s).1, (G.shuffle l s).2)

/-- A random name or string. -/
def aName (G : Rng K ρ) : M ρ K := fun s => (.ok (G.name s).1, (G.name s).2)
def aStr (G : Rng K ρ) : M ρ String := fun s => (.ok (G.str s).1, (G.str s).2)

end Rng

/-- `x.unwrap()` -/
def unwrap : Option α → M ρ α
  | some a => pure a
  | none => M.panic

/-- The loop goes on for longer than we look. -/
def goesOn : M ρ α := fun s => (.diverge, s)

/-- The body of a `for _ in 0..n` loop that pushes one value. -/
def times (f : M ρ α) : Nat → M ρ (List α)
  | 0 => pure []
  | n + 1 => do
    let a ← f
    let as ← times f n
    pure (a :: as)

/-! ### benches/two_sum.rs -/

/-- benches/two_sum.rs:136-138: the shuffles. -/
def mixTimes (G : Rng K ρ) : Nat → List Int → M ρ (List Int)
  | 0, l => pure l
  | n + 1, l => do
    let l ← G.mix l
    mixTimes G n l

/-- benches/two_sum.rs:116-140 `generate_two_sum_input`. -/
def generateTwoSumInput (G : Rng K ρ) (len : Nat) : M ρ (List Int × Int) := do
  if len < 2 then M.panic
  else do
    let target ← G.range 32 700
    let solution ← G.range 1 (target / 2)
    let rest ← times (G.range (target + 1) (target + len)) (len - 2)
    let numbers := ((target : Int) - solution) :: (solution : Int) :: rest.map fun n : Nat => (n : Int)
    if numbers.length ≠ len then M.panic
    else do
      let numbers ← mixTimes G 5 numbers
      pure (numbers, (target : Int))

/-! ### benches/map_comparison.rs -/

/-- benches/map_comparison.rs:90-112 `Keys::generate`. -/
def generateKeys (G : Rng K ρ) (nkeys : Nat) : M ρ (List Int) := G.mix (keysBefore nkeys)

/-! ### benches/web_server.rs -/

/-- benches/web_server.rs:289-293 and 362-374: a new entry (`random_str`, `random_phone_number`). -/
def generateEntry (G : Rng K ρ) : M ρ Entry := do
  let name ← G.aStr
  let phone ← G.range 1000000000 9999999999
  let email ← G.aStr
  pure ⟨name, phone, email⟩

/-- benches/web_server.rs:309-314. -/
def generateField (G : Rng K ρ) : M ρ Field := do
  let x ← G.range 1 3
  if x = 1 then pure .name
  else if x = 2 then pure .phoneNumber
  else if x = 3 then pure .email
  else M.panic

/-- benches/web_server.rs:328-333. -/
def generateValue (G : Rng K ρ) : M ρ FieldValue := do
  let x ← G.range 1 3
  if x = 1 then do let s ← G.aStr; pure (.name s)
  else if x = 2 then do let n ← G.range 1000000000 9999999999; pure (.phoneNumber n)
  else if x = 3 then do let s ← G.aStr; pure (.email s)
  else M.panic

/-- benches/web_server.rs:282-357: the loop, from the `i`-th request on, with the ids
`existing_entries`. -/
def generateFrom (G : Rng K ρ) (reqs : Nat) : (fuel i : Nat) → List Nat → M ρ (List Request)
  | fuel, i, existing =>
    if reqs ≤ i then pure []
    else
      match fuel with
      | 0 => goesOn
      | fuel + 1 => do
        let x ← G.range 1 100
        if x ≤ 20 then do
          let entry ← generateEntry G
          let rest ← generateFrom G reqs fuel (i + 1) (existing ++ [i])
          pure (.create i entry :: rest)
        else if x ≤ 60 then do
          match ← G.choose existing with
          | none => generateFrom G reqs fuel i existing
          | some id => do
            let field ← generateField G
            let rest ← generateFrom G reqs fuel (i + 1) existing
            pure (.get id field :: rest)
        else if x ≤ 90 then do
          match ← G.choose existing with
          | none => generateFrom G reqs fuel i existing
          | some id => do
            let value ← generateValue G
            let rest ← generateFrom G reqs fuel (i + 1) existing
            pure (.update id value :: rest)
        else if x ≤ 100 then do
          match ← G.choose existing with
          | none => generateFrom G reqs fuel i existing
          | some id => do
            let index ← unwrap (existing.findIdx? (· == id))
            let rest ← generateFrom G reqs fuel (i + 1) (existing.eraseIdx index)
            pure (.delete id :: rest)
        else M.panic

/-- benches/web_server.rs:272-360 `generate_requests`. -/
def generateRequests (G : Rng K ρ) (reqs fuel : Nat) : M ρ (List Request) :=
  generateFrom G reqs fuel 0 []

/-! ### benches/name_resolution.rs -/

/-- benches/name_resolution.rs:167-182 `generate_names`. -/
def generateNames (G : Rng K ρ) (maxDepth maxNames : Nat) : M ρ (List (List K)) :=
  times (times G.aName maxNames) (maxDepth + 1)

/-- `v[i]` -/
def index (l : List α) (i : Nat) : M ρ α := unwrap l[i]?

/-- benches/name_resolution.rs:204-250: the loop over `0..nstmts`. `inner` is the recursive call, if
there is depth left. Returns the statements and the new `remaining_stmts`. -/
def generateStmts (G : Rng K ρ) (names : List (List K)) (level : Nat)
    (inner : Option (Nat → M ρ (List (Stmt K) × Nat))) : Nat → Nat → M ρ (List (Stmt K) × Nat)
  | 0, remaining => pure ([], remaining)
  | n + 1, remaining =>
    if remaining = 0 then pure ([], remaining)
    else do
      let x ← G.range 1 100
      if x ≤ 30 then do
        let here ← index names level
        let name ← unwrap (← G.choose here)
        let params ← G.range 0 3
        let r ← generateStmts G names level inner n (remaining - 1)
        pure (.funcDecl name params :: r.1, r.2)
      else if x ≤ 80 then do
        -- `names[..=current_level]` panics if it is too long
        let _ ← index names level
        let some' ← unwrap (← G.choose (names.take (level + 1)))
        let name ← unwrap (← G.choose some')
        let args ← G.range 0 3
        let r ← generateStmts G names level inner n (remaining - 1)
        pure (.call name args :: r.1, r.2)
      else if x ≤ 100 then
        match inner with
        | some block => do
          let b ← block (remaining - 1)
          let r ← generateStmts G names level inner n b.2
          pure (.block b.1 :: r.1, r.2)
        | none => generateStmts G names level inner n remaining
      else M.panic

/-- benches/name_resolution.rs:194-201: how many statements a block is to have. -/
def generateCount (G : Rng K ρ) (remaining : Nat) : M ρ Nat :=
  let maxStmts := min remaining 15
  if 3 ≤ maxStmts then G.range 3 maxStmts else pure maxStmts

/-- benches/name_resolution.rs:184-254 `generate_block`. -/
def generateBlock (G : Rng K ρ) (names : List (List K)) :
    (maxDepth level remaining : Nat) → M ρ (List (Stmt K) × Nat)
  | 0, level, remaining => do
    let nstmts ← generateCount G remaining
    generateStmts G names level none nstmts remaining
  | maxDepth + 1, level, remaining => do
    let nstmts ← generateCount G remaining
    generateStmts G names level (some fun remaining => generateBlock G names maxDepth (level + 1) remaining)
      nstmts remaining

/-- benches/name_resolution.rs:158-161: the loop. -/
def generateBlocks (G : Rng K ρ) (names : List (List K)) (maxDepth : Nat) :
    (fuel remaining : Nat) → M ρ (List (Stmt K))
  | fuel, remaining =>
    if remaining = 0 then pure []
    else
      match fuel with
      | 0 => goesOn
      | fuel + 1 => do
        let b ← generateBlock G names maxDepth 0 remaining
        let rest ← generateBlocks G names maxDepth fuel b.2
        pure (b.1 ++ rest)

/-- benches/name_resolution.rs:149-164 `generate_program`. -/
def generateProgram (G : Rng K ρ) (maxStmts maxDepth fuel : Nat) : M ρ (List (Stmt K)) := do
  let names ← generateNames G maxDepth 5
  generateBlocks G names maxDepth fuel maxStmts

/-! ### benches/movie_requests.rs -/

/-- The characters of `rand::distributions::Alphanumeric`. -/
def alphanumeric : List Char := "ABCDEFGHIJKLMNOPQRSTUVWXYZabcdefghijklmnopqrstuvwxyz0123456789".toList

/-- `rng.sample(Alphanumeric)` and `char::from`. -/
def sampleAlphanumeric (G : Rng K ρ) : M ρ Char := do unwrap (← G.choose alphanumeric)

/-- benches/movie_requests.rs:136-150 `generate_names`. -/
def generateTitles (G : Rng K ρ) (len : Nat) : M ρ (List String) :=
  times (do
    let name ← times (sampleAlphanumeric G) 8
    pure (String.ofList name)) len

/-- benches/movie_requests.rs:116-133 `generate_requests`. A request is a pair of a title and a
genre; an `Rc<str>` is the string in it. -/
def generateMovieRequests (G : Rng K ρ) (requests : Nat) : M ρ (List (String × String)) := do
  let titles ← generateTitles G 25
  let genres ← generateTitles G 8
  times (do
    let title ← unwrap (← G.choose titles)
    let genre ← unwrap (← G.choose genres)
    pure (title, genre)) requests

/-! ### The benchmark of `remove` -/

/-- benches/map_comparison.rs:334-336: the map is filled once, and then `benchmark_removes` is run
with it again and again. Returns the answers of all the runs. -/
def removeIterations (keys : List Int) (n iters : Nat) :
    Prog Int Nat (List (List (Option Nat × Option Nat))) := do
  let map ← .make
  let _ ← inserts keys map n
  each (fun _ => removes keys map n) (List.range iters)

end BST.Bench
