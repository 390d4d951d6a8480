import Verif.Programs
/-!
# The programs of `benches/`

The benchmarks are generic over a trait `Map`, whose implementations forward to the methods of the
map of the same name (e.g. benches/two_sum.rs:25-77). They are modelled as programs over maps
(`Verif/Programs.lean`), to be run with either crate. Not modelled: the random inputs (all inputs
are considered), the measuring (`criterion`, `black_box`), and the dropping of maps at the end of a
scope.
-/
namespace BST.Bench
variable {K V α β : Type}

/-! ### Arithmetic and loops -/

/-- The result of an arithmetic operation (which returns or panics) in a program. -/
def lift : Out α → Prog K V α
  | .ok a => .ret a
  | _ => .panic

/-- `n + 1` on `usize` in a function that is given to `Call.update`. -/
def inc (cfg : Cfg) (n : Nat) : Option Nat :=
  match addU cfg n 1 with
  | .ok r => some r
  | _ => none

/-- The value is one of type `i64`. -/
def IsI64 (a : Int) : Prop := -2 ^ 63 ≤ a ∧ a < 2 ^ 63

instance (a : Int) : Decidable (IsI64 a) := inferInstanceAs (Decidable (_ ∧ _))

/-- `a - b` on `i64`: panics or wraps on overflow. -/
def subI64 (cfg : Cfg) (a b : Int) : Out Int :=
  if IsI64 (a - b) then .ok (a - b)
  else if cfg.checks then .panic else .ok ((a - b).bmod (2 ^ 64))

/-- A `for` loop that collects what its body computes. -/
def each (f : α → Prog K V β) : List α → Prog K V (List β)
  | [] => pure []
  | a :: as => do
    let b ← f a
    let bs ← each f as
    pure (b :: bs)

/-- `map.get(&k)` (copied). -/
def get (m : Nat) (k : K) : Prog K V (Option V) := do
  match ← .ask m (.get k) with
  | .value v => pure v
  | _ => .panic

/-- `map.insert(k, v)` -/
def insert (m : Nat) (k : K) (v : V) : Prog K V (Option V) := do
  match ← .ask m (.insert k v) with
  | .value v => pure v
  | _ => .panic

/-- `map.remove(&k)` -/
def remove (m : Nat) (k : K) : Prog K V (Option V) := do
  match ← .ask m (.remove k) with
  | .value v => pure v
  | _ => .panic

/-- `map.contains_key(&k)` -/
def containsKey (m : Nat) (k : K) : Prog K V Bool := do
  match ← .ask m (.containsKey k) with
  | .bool b => pure b
  | _ => .panic

/-- `map.get_mut(&k)` and an assignment through the reference; returns what was there before. -/
def modify (m : Nat) (k : K) (f : V → Option V) : Prog K V (Option V) := do
  match ← .ask m (.update k f) with
  | .value v => pure v
  | _ => .panic

/-! ### benches/two_sum.rs -/

/-- benches/two_sum.rs:88-94, from index `i` on; line 96 at the end. -/
def twoSumFrom (cfg : Cfg) (seen : Nat) (target : Int) : Nat → List Int → Prog Int Nat (Nat × Nat)
  | _, [] => .panic
  | i, num :: rest => do
    let complement ← lift (subI64 cfg target num)
    match ← get seen complement with
    | some j => pure (i, j)
    | none => do
      let _ ← insert seen num i
      twoSumFrom cfg seen target (i + 1) rest

/-- benches/two_sum.rs:85-97. -/
def twoSum (cfg : Cfg) (numbers : List Int) (target : Int) : Prog Int Nat (Nat × Nat) := do
  let seen ← .make
  twoSumFrom cfg seen target 0 numbers

/-! ### benches/movie_requests.rs -/

/-- benches/movie_requests.rs:107-115. Clones of `Rc`s are equal values. -/
def incrementCounter (cfg : Cfg) (map : Nat) (name : K) : Prog K Nat Unit := do
  match ← modify map name (inc cfg) with
  | some _ => pure ()
  | none => do
    let _ ← insert map name 1
    pure ()

/-- benches/movie_requests.rs:97-102. -/
def tabulateFrom (cfg : Cfg) (titles genres : Nat) : List (K × K) → Prog K Nat Unit
  | [] => pure ()
  | (title, genre) :: reqs => do
    incrementCounter cfg titles title
    incrementCounter cfg genres genre
    tabulateFrom cfg titles genres reqs

/-- benches/movie_requests.rs:94-105. A request is a title and a genre. Returns the numbers of the
two maps. -/
def tabulateRequests (cfg : Cfg) (reqs : List (K × K)) : Prog K Nat (Nat × Nat) := do
  let titles ← .make
  let genres ← .make
  tabulateFrom cfg titles genres reqs
  pure (titles, genres)

/-! ### benches/name_resolution.rs -/

/-- benches/name_resolution.rs:125-146 `Stmt`, and the `Block` of lines 120-123 as its list. -/
inductive Stmt (K : Type) where
  | funcDecl (name : K) (params : Nat)
  | call (name : K) (args : Nat)
  | block (stmts : List (Stmt K))

/-- benches/name_resolution.rs:61-69. -/
structure Counters where
  validCalls : Nat
  unresolved : Nat
  incorrectNumArgs : Nat
  deriving DecidableEq, Repr

/-- benches/name_resolution.rs:97-110: the loop over the scopes from the innermost one on. -/
def resolveCall (cfg : Cfg) (name : K) (args : Nat) (c : Counters) : List Nat → Prog K Nat Counters
  | [] => do
    let n ← lift (addU cfg c.unresolved 1)
    pure { c with unresolved := n }
  | scope :: scopes => do
    match ← get scope name with
    | some params =>
      if args = params then do
        let n ← lift (addU cfg c.validCalls 1)
        pure { c with validCalls := n }
      else do
        let n ← lift (addU cfg c.incorrectNumArgs 1)
        pure { c with incorrectNumArgs := n }
    | none => resolveCall cfg name args c scopes

mutual
/-- benches/name_resolution.rs:90-114 and 80-118: one statement. The stack of scopes has the innermost one
first. -/
def resolveStmt (cfg : Cfg) (scopes : List Nat) (c : Counters) : Stmt K → Prog K Nat Counters
  | .funcDecl name params =>
    match scopes with
    | [] => .panic
    | top :: _ => do
      let _ ← insert top name params
      pure c
  | .call name args => resolveCall cfg name args c scopes
  | .block stmts => do
    -- lines 80-85; the `pop` of line 117 is the return to the caller's own list of scopes
    let scope ← .make
    resolveStmts cfg (scope :: scopes) c stmts
/-- benches/name_resolution.rs:87-115: the loop. -/
def resolveStmts (cfg : Cfg) (scopes : List Nat) (c : Counters) : List (Stmt K) → Prog K Nat Counters
  | [] => pure c
  | stmt :: stmts => do
    let c ← resolveStmt cfg scopes c stmt
    resolveStmts cfg scopes c stmts
end

/-- benches/name_resolution.rs:71-78. The call of `resolve_block` is the same as for an inner block. -/
def resolveProgram (cfg : Cfg) (program : List (Stmt K)) : Prog K Nat Counters :=
  resolveStmt cfg [] ⟨0, 0, 0⟩ (.block program)

/-! ### benches/web_server.rs -/

/-- benches/web_server.rs:170-175. -/
structure Entry where
  name : String
  phoneNumber : Nat
  email : String
  deriving DecidableEq, Repr

/-- benches/web_server.rs:150-155. -/
inductive Field where
  | name
  | phoneNumber
  | email
  deriving DecidableEq, Repr

/-- benches/web_server.rs:157-162. -/
inductive FieldValue where
  | name (s : String)
  | phoneNumber (n : Nat)
  | email (s : String)
  deriving DecidableEq, Repr

/-- benches/web_server.rs:95-131. -/
inductive Request where
  | create (id : Nat) (entry : Entry)
  | get (id : Nat) (field : Field)
  | update (id : Nat) (field : FieldValue)
  | delete (id : Nat)
  deriving DecidableEq, Repr

/-- benches/web_server.rs:133-148. -/
inductive Response where
  | created (id : Nat)
  | field (id : Nat) (field : FieldValue)
  | deleted (id : Nat) (entry : Entry)
  deriving DecidableEq, Repr

/-- benches/web_server.rs:164-168. -/
inductive Err where
  | notFound
  | badRequest
  deriving DecidableEq, Repr

/-- benches/web_server.rs:212-216: reading a field. -/
def Entry.read (entry : Entry) : Field → FieldValue
  | .name => .name entry.name
  | .phoneNumber => .phoneNumber entry.phoneNumber
  | .email => .email entry.email

/-- benches/web_server.rs:224-239: the assignments. -/
def Entry.write (entry : Entry) : FieldValue → Entry
  | .name name => { entry with name := name }
  | .phoneNumber n => { entry with phoneNumber := n }
  | .email email => { entry with email := email }

/-- benches/web_server.rs:193-250 `Server::handle`. -/
def handle (data : Nat) : Request → Prog Nat Entry (Except Err Response)
  | .create id entry => do
    if ← containsKey data id then pure (.error .badRequest)
    else do
      let _ ← insert data id entry
      pure (.ok (.created id))
  | .get id field => do
    match ← get data id with
    | none => pure (.error .notFound)
    | some entry => pure (.ok (.field id (entry.read field)))
  | .update id field => do
    match ← modify data id (fun entry => some (entry.write field)) with
    | none => pure (.error .notFound)
    | some _ => pure (.ok (.field id field))
  | .delete id => do
    match ← remove data id with
    | none => pure (.error .notFound)
    | some entry => pure (.ok (.deleted id entry))

/-- benches/web_server.rs:177-185. -/
structure Tally where
  successes : Nat
  notFound : Nat
  badRequests : Nat
  deriving DecidableEq, Repr

/-- benches/web_server.rs:259-265: counting a response. -/
def Tally.count (cfg : Cfg) (t : Tally) : Except Err Response → Prog Nat Entry Tally
  | .ok _ => do
    let n ← lift (addU cfg t.successes 1)
    pure { t with successes := n }
  | .error .notFound => do
    let n ← lift (addU cfg t.notFound 1)
    pure { t with notFound := n }
  | .error .badRequest => do
    let n ← lift (addU cfg t.badRequests 1)
    pure { t with badRequests := n }

/-- benches/web_server.rs:257-267. The responses, which go to `black_box`, are returned as well. -/
def runFrom (cfg : Cfg) (data : Nat) (t : Tally) :
    List Request → Prog Nat Entry (List (Except Err Response) × Tally)
  | [] => pure ([], t)
  | req :: reqs => do
    let r ← handle data req
    let t ← t.count cfg r
    let x ← runFrom cfg data t reqs
    pure (r :: x.1, x.2)

/-- benches/web_server.rs:253-270; the server is map 0. -/
def runRequests (cfg : Cfg) (reqs : List Request) :
    Prog Nat Entry (List (Except Err Response) × Tally) := do
  let server ← .make
  runFrom cfg server ⟨0, 0, 0⟩ reqs

/-! ### benches/map_comparison.rs -/

/-- benches/map_comparison.rs:95-105: the keys before they are shuffled (`(i - n/2) * 10`). -/
def keysBefore (n : Nat) : List Int := (List.range n).map fun i : Nat => ((i : Int) - (n : Int) / 2) * 10

/-- benches/map_comparison.rs:114-118 `Keys::get`. -/
def keyAt (keys : List Int) (i : Int) : Prog Int Nat Int :=
  match keys[(max i 0).toNat]? with
  | none => .panic
  | some k => pure k

/-- benches/map_comparison.rs:129-131 (and 140-142, 162-164): the insertions. Collects the answers. -/
def inserts (keys : List Int) (map n : Nat) : Prog Int Nat (List (Option Nat)) :=
  each (fun i : Nat => do let k ← keyAt keys (i : Int); insert map k i) (List.range n)

/-- benches/map_comparison.rs:148-156: the lookups. Collects the answers of `get` and `get_mut`. -/
def gets (keys : List Int) (map n : Nat) : Prog Int Nat (List (Option Nat × Option Nat)) :=
  each (fun i => do
    let k ← keyAt keys ((n - i - 1 : Nat) : Int)
    let a ← get map k
    let b ← modify map k some
    pure (a, b)) (List.range n)

/-- benches/map_comparison.rs:170-179: the removals. Collects the answers of both calls. -/
def removes (keys : List Int) (map n : Nat) : Prog Int Nat (List (Option Nat × Option Nat)) :=
  each (fun i => do
    let k ← keyAt keys ((n - i - 1 : Nat) : Int)
    let a ← remove map k
    let b ← remove map k
    pure (a, b)) (List.range n)

/-- benches/map_comparison.rs:126-179: the setup and then the lookups and the removals. -/
def compareMaps (keys : List Int) (n : Nat) :
    Prog Int Nat (List (Option Nat) × List (Option Nat × Option Nat) × List (Option Nat × Option Nat)) := do
  let map ← .make
  let a ← inserts keys map n
  let b ← gets keys map n
  let c ← removes keys map n
  pure (a, b, c)

end BST.Bench
