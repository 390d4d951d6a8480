import Verif.Model.Basic
/-!
# Specification vocabulary

Small definitions that the property theorems are stated in. Nothing here refers
to slabs, chunks or tree nodes of the model.
-/
namespace BST.Spec
variable {K V : Type}

/-! ### Association lists: what a map is -/

/-- The entry whose key is hit by the query, if any. -/
def lookup (hit : K → Bool) (l : List (K × V)) : Option (K × V) := l.find? fun e => hit e.1

/-- Insertion: an entry with an equivalent key keeps its key and gets the new
value; otherwise a new entry is added. -/
def insert (hit : K → Bool) (k : K) (v : V) (l : List (K × V)) : List (K × V) :=
  if l.any fun e => hit e.1 then l.map fun e => if hit e.1 then (e.1, v) else e
  else (k, v) :: l

/-- Removal. -/
def remove (hit : K → Bool) (l : List (K × V)) : List (K × V) := l.filter fun e => !hit e.1

/-- A query function hits the keys it compares equal to. -/
def hitOf (f : K → Ordering) : K → Bool := fun k => f k == .eq

/-- Keys strictly increasing. -/
def Sorted (cmp : K → K → Ordering) (l : List (K × V)) : Prop :=
  l.Pairwise fun a b => cmp a.1 b.1 = .lt

/-- A query is lawful for the order `cmp` on the stored keys if it behaves like the
comparison with some position in that order: everything below a key that it
compares greater than is also compared greater, and so on. `ask cmpQ borrow q`
for a lawful `Borrow` is the main example (`lawful_ask`). -/
structure LawfulQuery (cmp : K → K → Ordering) (f : K → Ordering) : Prop where
  lt_of_lt : ∀ a b, cmp a b = .lt → f a = .lt → f b = .lt
  lt_of_eq : ∀ a b, cmp a b = .lt → f a = .eq → f b = .lt
  gt_of_gt : ∀ a b, cmp a b = .lt → f b = .gt → f a = .gt
  gt_of_eq : ∀ a b, cmp a b = .lt → f b = .eq → f a = .gt
  congr : ∀ a b, cmp a b = .eq → f a = f b

/-- Insertion of a list of pairs, one by one in order. -/
def insertList (cmp : K → K → Ordering) (xs : List (K × V)) (l : List (K × V)) : List (K × V) :=
  xs.foldl (fun l e => insert (hitOf (cmp e.1)) e.1 e.2 l) l

/-- Two lists of entries are pairwise equal. -/
def sameBy (keq : K → K → Bool) (veq : V → V → Bool) : List (K × V) → List (K × V) → Bool
  | [], [] => true
  | a :: as, b :: bs => keq a.1 b.1 && veq a.2 b.2 && sameBy keq veq as bs
  | _, _ => false

/-- The answer about two entries when keys and values are compared by `keq` and `veq`, which may
panic (`none`): the values are compared only if the keys are equal. The number is the position of
the entries. -/
def entryAnswer (keq : Nat → K → K → Option Bool) (veq : Nat → V → V → Option Bool) (i : Nat)
    (x y : K × V) : Option Bool :=
  if keq i x.1 y.1 = some true then veq i x.2 y.2 else keq i x.1 y.1

/-- All pairs of elements at positions below `n` are equal. -/
def AgreeBelow {α : Type} (ans : Nat → α → α → Option Bool) (la lb : List α) (n : Nat) : Prop :=
  ∀ i < n, ∀ x y, la[i]? = some x → lb[i]? = some y → ans i x y = some true

/-- How a comparison of two lists ends that compares the lengths first and then the elements,
pair by pair in order, until two are not equal or a comparison (`ans`) panics. -/
def Compared {α : Type} (ans : Nat → α → α → Option Bool) (la lb : List α) : Out Bool → Prop
  | .ok true => la.length = lb.length ∧ AgreeBelow ans la lb la.length
  | .ok false => la.length ≠ lb.length ∨ ∃ (i : Nat) (x y : α), la[i]? = some x ∧ lb[i]? = some y ∧
      AgreeBelow ans la lb i ∧ ans i x y = some false
  | .panic => la.length = lb.length ∧ ∃ (i : Nat) (x y : α), la[i]? = some x ∧ lb[i]? = some y ∧
      AgreeBelow ans la lb i ∧ ans i x y = none
  | _ => False

/-- Equality of optional values. -/
def optEq (veq : V → V → Bool) : Option V → Option V → Bool
  | none, none => true
  | some a, some b => veq a b
  | _, _ => false

/-! ### Binary trees: what a client sees through `root`, `left` and `right` -/

/-- The three traversal orders. -/
inductive Order where
  | pre | ino | post
deriving DecidableEq, Repr

inductive BT (α : Type) where
  | nil
  | node (l : BT α) (a : α) (r : BT α)
deriving DecidableEq, Repr

namespace BT
variable {α β : Type}

def map (f : α → β) : BT α → BT β
  | nil => nil
  | node l a r => node (l.map f) (f a) (r.map f)
/-- Recursive pre-order traversal. -/
def pre : BT α → List α
  | nil => []
  | node l a r => a :: (l.pre ++ r.pre)
/-- Recursive in-order traversal. -/
def ino : BT α → List α
  | nil => []
  | node l a r => l.ino ++ a :: r.ino
/-- Recursive post-order traversal. -/
def post : BT α → List α
  | nil => []
  | node l a r => l.post ++ (r.post ++ [a])
/-- The traversal of a given kind. -/
def order : Order → BT α → List α
  | .pre => pre
  | .ino => ino
  | .post => post
def size : BT α → Nat
  | nil => 0
  | node l _ r => l.size + 1 + r.size
/-- Number of nodes on the longest path from the root. -/
def height : BT α → Nat
  | nil => 0
  | node l _ r => max l.height r.height + 1
/-- The subtree reached by going left (`false`) or right (`true`) from the root. -/
def sub : List Bool → BT α → BT α
  | [], t => t
  | _ :: _, nil => nil
  | false :: path, node l _ _ => l.sub path
  | true :: path, node _ _ r => r.sub path
def label : BT α → Option α
  | nil => none
  | node _ a _ => some a
/-- Apply a partial function to every label. -/
def mapM (f : α → Option β) : BT α → Option (BT β)
  | nil => some nil
  | node l a r => do
    let a ← f a
    let l ← l.mapM f
    let r ← r.mapM f
    pure (node l a r)
/-- Nested rendering of the tree as an `Option<Node>` of a map. -/
def debugMap (dk : K → String) (dv : V → String) : BT (K × V) → String
  | nil => "None"
  | node l e r => "Some(" ++ ("Node { key: " ++ dk e.1 ++ ", value: " ++ dv e.2 ++
      ", left: " ++ l.debugMap dk dv ++ ", right: " ++ r.debugMap dk dv ++ " }") ++ ")"
/-- Nested rendering of the tree as an `Option<Node>` of a set. -/
def debugSet (dk : K → String) : BT K → String
  | nil => "None"
  | node l e r => "Some(" ++ ("Node { value: " ++ dk e ++
      ", left: " ++ l.debugSet dk ++ ", right: " ++ r.debugSet dk ++ " }") ++ ")"
/-- Everything to the left is smaller, everything to the right is greater. -/
def Search (cmp : K → K → Ordering) : BT (K × V) → Prop
  | nil => True
  | node l a r => (∀ x ∈ l.ino, cmp x.1 a.1 = .lt) ∧ (∀ x ∈ r.ino, cmp a.1 x.1 = .lt) ∧
      l.Search cmp ∧ r.Search cmp
/-- Textbook insertion into an (unbalanced) search tree. -/
def insert (cmp : K → K → Ordering) (k : K) (v : V) : BT (K × V) → BT (K × V)
  | nil => node nil (k, v) nil
  | node l e r =>
    match cmp k e.1 with
    | .lt => node (l.insert cmp k v) e r
    | .gt => node l e (r.insert cmp k v)
    | .eq => node l (e.1, v) r
/-- The leftmost label of the tree `node l a r`, and the tree without it. -/
def popMin (a : α) (r : BT α) : BT α → α × BT α
  | nil => (a, r)
  | node ll b lr => ((popMin b lr ll).1, node (popMin b lr ll).2 a r)
/-- What takes the place of a removed node with children `l` and `r`: the other child
if one is missing, otherwise the in-order successor moves up. -/
def join : BT α → BT α → BT α
  | nil, r => r
  | node ll la lr, nil => node ll la lr
  | node ll la lr, node rl ra rr =>
    node (node ll la lr) (popMin ra rr rl).1 (popMin ra rr rl).2
/-- Textbook deletion. -/
def erase (f : K → Ordering) : BT (K × V) → BT (K × V)
  | nil => nil
  | node l e r =>
    match f e.1 with
    | .lt => node (l.erase f) e r
    | .gt => node l e (r.erase f)
    | .eq => join l r
/-- Textbook insertions, one after the other. -/
def insertList (cmp : K → K → Ordering) (xs : List (K × V)) (t : BT (K × V)) : BT (K × V) :=
  xs.foldl (fun t e => t.insert cmp e.1 e.2) t
/-- `t'` is `t` with one empty place filled by a leaf `a`. -/
inductive AddLeaf (a : α) : BT α → BT α → Prop where
  | here : AddLeaf a nil (node nil a nil)
  | left {l l' r : BT α} {x : α} : AddLeaf a l l' → AddLeaf a (node l x r) (node l' x r)
  | right {l r r' : BT α} {x : α} : AddLeaf a r r' → AddLeaf a (node l x r) (node l x r')
end BT

/-! ### Capacity -/

/-- `c` is the smallest of the possible capacities 0, 8, 24, 56, ... that is at least
`n`. -/
def Fits (n c : Nat) : Prop :=
  (∃ i, c = 8 * (2 ^ i - 1)) ∧ n ≤ c ∧ ∀ i, n ≤ 8 * (2 ^ i - 1) → c ≤ 8 * (2 ^ i - 1)

/-! ### Heap discipline: what a global allocator demands -/

/-- One allocator event: an allocated block must be new; a freed block must be
live and must be freed with the size it was allocated with. The live blocks are
kept as (id, number of elements). -/
def memStep (live : List (Nat × Nat)) : MemEv → Option (List (Nat × Nat))
  | .alloc id n => if live.any (fun b => b.1 == id) then none else some (live ++ [(id, n)])
  | .free id n => if (id, n) ∈ live then some (live.erase (id, n)) else none

/-- The blocks live after a sequence of allocator events; `none` if an event
breaks the rules (double free, free of an unknown block, wrong size). -/
def replay (log : List MemEv) : Option (List (Nat × Nat)) := log.foldlM memStep []

end BST.Spec
