import Verif.Model.Bench
/-!
# What the programs of `benches/` are to compute

Said without maps: with counts, with the list of the declarations in sight, and with a function from
ids to entries. Nothing here is part of the crate.
-/
namespace BST.Bench
variable {K V R : Type}

/-- Run with maps of either crate, the program ends with `o` and with maps that have the entries
`ls`, in ascending order of the keys. -/
def Yields (cfg : Cfg) (cmp : K → K → Ordering) (p : Prog K V R) (o : Out R)
    (ls : List (List (K × V))) : Prop :=
  ∀ keq veq,
    (∃ ms, p.run (BSTMap.maps cfg cmp keq veq) [] = (o, ms) ∧ ms.map (·.iterInorder) = ls.map .ok) ∧
    ∃ ms, p.run (Simple.maps cfg cmp keq veq) [] = (o, ms) ∧
      ms.map (fun m => (Simple.explore m).ino) = ls

/-- There is memory for maps of `n` entries of the size in `cfg`. -/
structure Fits (cfg : Cfg) (n : Nat) : Prop where
  size : 2 ≤ cfg.esize
  alloc : ∀ id n, cfg.allocOk id n = true
  room : (n + 8) * cfg.esize ≤ isizeMax

/-! ### Two numbers with a given sum -/

/-- `i` and `j` are two positions, `j` before `i`, whose numbers add up to the target. -/
def Pair (numbers : List Int) (target : Int) (i j : Nat) : Prop :=
  j < i ∧ ∃ a b, numbers[i]? = some a ∧ numbers[j]? = some b ∧ a + b = target

/-- Of these pairs the one with the least `i` and, for that `i`, the greatest `j`. -/
def FirstPair (numbers : List Int) (target : Int) (i j : Nat) : Prop :=
  Pair numbers target i j ∧ ∀ i' j', Pair numbers target i' j' → i < i' ∨ (i = i' ∧ j' ≤ j)

/-! ### Scopes -/

/-- The declarations in sight after a statement, the latest one first. Those of an inner block are
not. -/
def Stmt.after (seen : List (K × Nat)) : Stmt K → List (K × Nat)
  | .funcDecl name params => (name, params) :: seen
  | .call _ _ => seen
  | .block _ => seen

mutual
/-- For each call in a statement, in order: whether the number of arguments is right, or `none` if
no declaration with that name is in sight. -/
def Stmt.verdict [BEq K] (seen : List (K × Nat)) : Stmt K → List (Option Bool)
  | .funcDecl _ _ => []
  | .call name args => [(seen.lookup name).map (· == args)]
  | .block stmts => verdicts seen stmts
/-- The same for a sequence of statements. -/
def verdicts [BEq K] (seen : List (K × Nat)) : List (Stmt K) → List (Option Bool)
  | [] => []
  | stmt :: stmts => stmt.verdict seen ++ verdicts (stmt.after seen) stmts
end

mutual
/-- The number of declarations in a statement. -/
def Stmt.decls : Stmt K → Nat
  | .funcDecl _ _ => 1
  | .call _ _ => 0
  | .block stmts => decls stmts
/-- The number of declarations in a sequence of statements. -/
def decls : List (Stmt K) → Nat
  | [] => 0
  | stmt :: stmts => stmt.decls + decls stmts
end

mutual
/-- The number of statements in a statement, itself included. -/
def Stmt.size : Stmt K → Nat
  | .funcDecl _ _ => 1
  | .call _ _ => 1
  | .block stmts => 1 + size stmts
/-- The number of statements in a sequence of statements and in the blocks in it. -/
def size : List (Stmt K) → Nat
  | [] => 0
  | stmt :: stmts => stmt.size + size stmts
end

mutual
/-- How deep blocks are nested in a statement. -/
def Stmt.depth : Stmt K → Nat
  | .funcDecl _ _ => 0
  | .call _ _ => 0
  | .block stmts => 1 + depth stmts
/-- How deep blocks are nested in a sequence of statements. -/
def depth : List (Stmt K) → Nat
  | [] => 0
  | stmt :: stmts => max stmt.depth (depth stmts)
end

/-! ### The server -/

/-- The documented response to a request (benches/web_server.rs:96-131), and the entries
afterwards, for a server with the entries `data`. -/
def respond (data : Nat → Option Entry) (req : Request) :
    Except Err Response × (Nat → Option Entry) :=
  match req with
  | .create id entry =>
    match data id with
    | some _ => (.error .badRequest, data)
    | none => (.ok (.created id), fun i => if i = id then some entry else data i)
  | .get id field =>
    match data id with
    | none => (.error .notFound, data)
    | some entry => (.ok (.field id (match field with
        | .name => .name entry.name
        | .phoneNumber => .phoneNumber entry.phoneNumber
        | .email => .email entry.email)), data)
  | .update id value =>
    match data id with
    | none => (.error .notFound, data)
    | some entry => (.ok (.field id value), fun i => if i = id then some (match value with
        | .name x => ⟨x, entry.phoneNumber, entry.email⟩
        | .phoneNumber x => ⟨entry.name, x, entry.email⟩
        | .email x => ⟨entry.name, entry.phoneNumber, x⟩) else data i)
  | .delete id =>
    match data id with
    | none => (.error .notFound, data)
    | some entry => (.ok (.deleted id entry), fun i => if i = id then none else data i)

/-- The phone number that a request brings to the server. -/
def Request.phone : Request → Option Nat
  | .create _ entry => some entry.phoneNumber
  | .update _ (.phoneNumber n) => some n
  | _ => none

/-- The three kinds of responses that are counted. -/
def isSuccess (r : Except Err Response) : Bool := r matches .ok _
def isNotFound (r : Except Err Response) : Bool := r matches .error .notFound
def isBadRequest (r : Except Err Response) : Bool := r matches .error .badRequest

/-- The responses to a sequence of requests, and the entries afterwards. -/
def serve (data : Nat → Option Entry) : List Request →
    List (Except Err Response) × (Nat → Option Entry)
  | [] => ([], data)
  | req :: reqs =>
    ((respond data req).1 :: (serve (respond data req).2 reqs).1, (serve (respond data req).2 reqs).2)

end BST.Bench
