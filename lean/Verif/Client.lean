import Verif.Model.Set
import Verif.Spec
/-!
# Client programs

Code that a user of the crate could write with the public API; the vocabulary for
"every reachable map" and "what the node API shows". Nothing here is part of the
crate.
-/
namespace BST
variable {K V : Type}
open Spec (BT)

/-! ### Looking at the tree with `root()`, `left()`, `right()` -/

/-- Read the subtree of a `Node` recursively; a node is labelled with its address
(`node.value() as *const V`), key and value. -/
def exploreNode (nodes : Nodes K V) : Nat → Option (Node K V) → Out (BT (Ptr × K × V))
  | _, none => .ok .nil
  | 0, some _ => .diverge
  | fuel + 1, some n => do
    let l ← n.left nodes
    let l ← exploreNode nodes fuel l
    let r ← n.right nodes
    let r ← exploreNode nodes fuel r
    pure (.node l (n.ptr, n.key, n.value) r)

/-- The whole tree as the node API shows it, with addresses. -/
def exploreAt (m : BSTMap K V) : Out (BT (Ptr × K × V)) := do
  let root ← m.rootNode
  exploreNode m.nodes (BSTMap.walkFuel m.nodes) root

/-- The whole tree as the node API shows it: keys, values and shape. -/
def explore (m : BSTMap K V) : Out (BT (K × V)) := do
  let t ← exploreAt m
  pure (t.map (·.2))

/-- Follow a path (`false` = `left()`, `true` = `right()`) from a node. -/
def goNode (nodes : Nodes K V) : List Bool → Option (Node K V) → Out (Option (Node K V))
  | [], n => .ok n
  | _ :: _, none => .ok none
  | b :: path, some n => do
    let c ← if b then n.right nodes else n.left nodes
    goNode nodes path c

/-- `root()` followed by a path. -/
def nodeAt (path : List Bool) (m : BSTMap K V) : Out (Option (Node K V)) := do
  let root ← m.rootNode
  goNode m.nodes path root

/-- Follow a path with `NodeMut::into_left` / `into_right`. -/
def goMut : List Bool → Option NodeMut → M (BSTMap K V) (Option NodeMut)
  | [], n => pure n
  | _ :: _, none => pure none
  | b :: path, some n => do
    let c ← if b then BSTMap.onNodes n.right else BSTMap.onNodes n.left
    goMut path c

/-- `root_mut()` followed by a path. -/
def nodeMutAt (path : List Bool) : M (BSTMap K V) (Option NodeMut) := do
  let root ← BSTMap.rootMut
  goMut path root

/-! ### Using iterators step by step -/

namespace Spec.Order
/-- `iter_preorder()`, `iter_inorder()` or `iter_postorder()`. -/
def iter : Order → BSTMap K V → Out Stack
  | .pre, m => IterPreorder.new m.nodes m.root
  | .ino, m => IterInorder.new m.nodes m.root
  | .post, m => IterPostorder.new m.nodes m.root
/-- `next()` of the corresponding iterator over `m`. -/
def next : Order → BSTMap K V → Stack → Out (Option (K × V) × Stack)
  | .pre, m => IterPreorder.next m.nodes
  | .ino, m => IterInorder.next m.nodes
  | .post, m => IterPostorder.next m.nodes
/-- `iter_mut_preorder()`, `iter_mut_inorder()` or `iter_mut_postorder()`. -/
def iterMut : Order → BSTMap K V → Out Stack
  | .pre, m => IterMutPreorder.new m.nodes m.root
  | .ino, m => IterMutInorder.new m.nodes m.root
  | .post, m => IterMutPostorder.new m.nodes m.root
/-- `next()` of the corresponding mutable iterator; `m` is the map at that moment. -/
def nextMut : Order → BSTMap K V → Stack → Out (Option (K × Ptr) × Stack)
  | .pre, m => IterMutPreorder.next m.nodes
  | .ino, m => IterMutInorder.next m.nodes
  | .post, m => IterMutPostorder.next m.nodes
end Spec.Order

/-- `n` calls of `next`; all the answers, `None`s included. -/
def nexts {α σ : Type} (next : σ → Out (Option α × σ)) :
    Nat → σ → Out (List (Option α) × σ)
  | 0, st => .ok ([], st)
  | n + 1, st => do
    let (o, st) ← next st
    let (os, st) ← nexts next n st
    pure (o :: os, st)

/-- One step of a client of a mutable iterator. -/
inductive Step (V : Type) where
  /-- Call `next`; keep the reference, if there is one. -/
  | next
  /-- Write `v` through the `i`-th reference obtained so far (if there are that many). -/
  | write (i : Nat) (v : V)

/-- A client of a mutable iterator: the state is the map, the iterator, and the
key/reference pairs obtained so far. -/
def clientRun (o : Spec.Order) : List (Step V) → List (K × Ptr) → Stack →
    M (BSTMap K V) (List (K × Ptr) × Stack)
  | [], refs, st => pure (refs, st)
  | .next :: steps, refs, st => do
    let (x, st) ← M.read (fun m => o.nextMut m st)
    clientRun o steps (refs ++ x.toList) st
  | .write i v :: steps, refs, st => do
    match refs[i]? with
    | some r => BSTMap.onNodes (writeValue r.2 v)
    | none => pure ()
    clientRun o steps refs st

/-- Get a mutable iterator and run the client; the result is the list of pairs
obtained. -/
def clientMut (o : Spec.Order) (steps : List (Step V)) : M (BSTMap K V) (List (K × Ptr)) := do
  let st ← M.read o.iterMut
  let (refs, _) ← clientRun o steps [] st
  pure refs

/-- The writes that such a client really performs, as (number of the reference,
value), if the iterator yields `n` references in total and `c` have been obtained. -/
def writes (n : Nat) : Nat → List (Step V) → List (Nat × V)
  | _, [] => []
  | c, .next :: steps => writes n (min (c + 1) n) steps
  | c, .write i v :: steps => if i < c then (i, v) :: writes n c steps else writes n c steps

/-- How many references it obtains. -/
def obtained (n : Nat) : Nat → List (Step V) → Nat
  | c, [] => c
  | c, .next :: steps => obtained n (min (c + 1) n) steps
  | c, .write _ _ :: steps => obtained n c steps

/-! ### Reachable maps -/

/-- The `&mut V` references that a client can obtain from the map `m`, as
addresses. -/
inductive Handed (m : BSTMap K V) : Ptr → Prop where
  | getMut {c : Probe K} {p : Ptr} {m' : BSTMap K V} :
      BSTMap.getMut c m = (.ok (some p), m') → Handed m p
  | getEntryMut {c : Probe K} {k : K} {p : Ptr} {m' : BSTMap K V} :
      BSTMap.getEntryMut c m = (.ok (some (k, p)), m') → Handed m p
  | preorder {l : List (K × Ptr)} {k : K} {p : Ptr} :
      m.iterMutPreorder = .ok l → (k, p) ∈ l → Handed m p
  | inorder {l : List (K × Ptr)} {k : K} {p : Ptr} :
      m.iterMutInorder = .ok l → (k, p) ∈ l → Handed m p
  | postorder {l : List (K × Ptr)} {k : K} {p : Ptr} :
      m.iterMutPostorder = .ok l → (k, p) ∈ l → Handed m p
  | node {path : List Bool} {n : NodeMut} {p : Ptr} {m' m'' : BSTMap K V} :
      nodeMutAt path m = (.ok (some n), m') → BSTMap.onNodes n.valueMut m' = (.ok p, m'') →
      Handed m p

/-- The maps that a client can have in its hands. `ok k c` says which comparisons
`c` the key type may make when the key `k` is being inserted. Calls may return or
panic (the panic is caught); queries and removals may use any comparisons at all.
`clear` is limited to destructors that do not panic (see C27). -/
inductive Reach (cfg : Cfg) (ok : K → Probe K → Prop) : BSTMap K V → Prop where
  | new : Reach cfg ok BSTMap.new
  | withCapacity {n : Nat} {m : BSTMap K V} :
      BSTMap.withCapacity cfg n = (.ok (), m) → Reach cfg ok m
  | fromIter {cmps : Nat → K → Probe K} {src : BSTMap.Source K V} {m : BSTMap K V} :
      (∀ n k, ok k (cmps n k)) → BSTMap.fromIter cfg cmps src = (.ok (), m) → Reach cfg ok m
  | clone {cmps : Nat → K → Probe K} {cloneK : K → Option K} {cloneV : V → Option V}
      {m m' : BSTMap K V} : Reach cfg ok m → (∀ n k, ok k (cmps n k)) →
      BSTMap.clone cfg cmps cloneK cloneV m = (.ok (), m') → Reach cfg ok m'
  | insert {c : Probe K} {k : K} {v : V} {o : Out (Option V)} {m m' : BSTMap K V} :
      Reach cfg ok m → ok k c → BSTMap.insert cfg c k v m = (o, m') → Reach cfg ok m'
  | removeEntry {c : Probe K} {o : Out (Option (K × V))} {m m' : BSTMap K V} :
      Reach cfg ok m → BSTMap.removeEntry cfg c m = (o, m') → Reach cfg ok m'
  | remove {c : Probe K} {o : Out (Option V)} {m m' : BSTMap K V} :
      Reach cfg ok m → BSTMap.remove cfg c m = (o, m') → Reach cfg ok m'
  | write {p : Ptr} {v : V} {o : Out Unit} {m m' : BSTMap K V} :
      Reach cfg ok m → Handed m p → BSTMap.onNodes (writeValue p v) m = (o, m') → Reach cfg ok m'
  | clear {d : DropInfo (InnerNode K V)} {o : Out Unit} {m m' : BSTMap K V} :
      Reach cfg ok m → (∀ x, d.panics x = false) → BSTMap.clear cfg d m = (o, m') → Reach cfg ok m'
  | reserve {n : Nat} {o : Out Unit} {m m' : BSTMap K V} :
      Reach cfg ok m → BSTMap.reserve cfg n m = (o, m') → Reach cfg ok m'
  | shrinkToFit {o : Out Unit} {m m' : BSTMap K V} :
      Reach cfg ok m → BSTMap.shrinkToFit cfg m = (o, m') → Reach cfg ok m'
  | extend {cmps : Nat → K → Probe K} {src : BSTMap.Source K V} {o : Out Unit} {m m' : BSTMap K V} :
      Reach cfg ok m → (∀ n k, ok k (cmps n k)) → BSTMap.extend cfg cmps src m = (o, m') →
      Reach cfg ok m'

/-- `Track cfg ok m peak need`: the map `m` was reached (as in `Reach`), and
* `peak` is the largest `len()` since the map was created or last cleared;
* `need` is the largest capacity that was needed since the map was created or last
  shrunk: by the peak sizes, by `with_capacity`, or by a reservation (`reserve(n)` asks
  for `peak + n`, in `usize` arithmetic; a failed reservation counts as one of what it
  achieved). -/
inductive Track (cfg : Cfg) (ok : K → Probe K → Prop) : BSTMap K V → Nat → Nat → Prop where
  | new : Track cfg ok BSTMap.new 0 0
  | withCapacity {n : Nat} {m : BSTMap K V} :
      BSTMap.withCapacity cfg n = (.ok (), m) → Track cfg ok m 0 n
  | fromIter {cmps : Nat → K → Probe K} {src : BSTMap.Source K V} {m : BSTMap K V} {n : Nat} :
      (∀ n k, ok k (cmps n k)) → BSTMap.fromIter cfg cmps src = (.ok (), m) → m.len cfg = .ok n →
      Track cfg ok m n (max (src.hint.2.getD src.hint.1) n)
  | clone {cmps : Nat → K → Probe K} {cloneK : K → Option K} {cloneV : V → Option V}
      {m m' : BSTMap K V} {peak need n n' : Nat} : Track cfg ok m peak need →
      (∀ n k, ok k (cmps n k)) → BSTMap.clone cfg cmps cloneK cloneV m = (.ok (), m') →
      m.len cfg = .ok n → m'.len cfg = .ok n' → Track cfg ok m' n' (max n n')
  | insert {c : Probe K} {k : K} {v : V} {o : Out (Option V)} {m m' : BSTMap K V}
      {peak need n : Nat} : Track cfg ok m peak need → ok k c →
      BSTMap.insert cfg c k v m = (o, m') → m'.len cfg = .ok n →
      Track cfg ok m' (max peak n) (max need n)
  | removeEntry {c : Probe K} {o : Out (Option (K × V))} {m m' : BSTMap K V} {peak need : Nat} :
      Track cfg ok m peak need → BSTMap.removeEntry cfg c m = (o, m') → Track cfg ok m' peak need
  | remove {c : Probe K} {o : Out (Option V)} {m m' : BSTMap K V} {peak need : Nat} :
      Track cfg ok m peak need → BSTMap.remove cfg c m = (o, m') → Track cfg ok m' peak need
  | write {p : Ptr} {v : V} {o : Out Unit} {m m' : BSTMap K V} {peak need : Nat} :
      Track cfg ok m peak need → Handed m p → BSTMap.onNodes (writeValue p v) m = (o, m') →
      Track cfg ok m' peak need
  | clear {d : DropInfo (InnerNode K V)} {o : Out Unit} {m m' : BSTMap K V} {peak need : Nat} :
      Track cfg ok m peak need → (∀ x, d.panics x = false) → BSTMap.clear cfg d m = (o, m') →
      Track cfg ok m' 0 need
  | reserve {n : Nat} {m m' : BSTMap K V} {peak need : Nat} :
      Track cfg ok m peak need → BSTMap.reserve cfg n m = (.ok (), m') →
      Track cfg ok m' peak (max need ((peak + n) % usizeBound))
  | reserveFailed {n : Nat} {o : Out Unit} {m m' : BSTMap K V} {peak need : Nat} :
      Track cfg ok m peak need → BSTMap.reserve cfg n m = (o, m') → o ≠ .ok () →
      Track cfg ok m' peak (max need m'.capacity)
  | shrinkToFit {o : Out Unit} {m m' : BSTMap K V} {peak need : Nat} :
      Track cfg ok m peak need → BSTMap.shrinkToFit cfg m = (o, m') → Track cfg ok m' peak peak
  | extend {cmps : Nat → K → Probe K} {src : BSTMap.Source K V} {m m' : BSTMap K V}
      {peak need n : Nat} : Track cfg ok m peak need → (∀ n k, ok k (cmps n k)) →
      BSTMap.extend cfg cmps src m = (.ok (), m') → m'.len cfg = .ok n →
      Track cfg ok m' (max peak n)
        (max (max need ((peak + src.hint.2.getD src.hint.1) % usizeBound)) n)
  | extendFailed {cmps : Nat → K → Probe K} {src : BSTMap.Source K V} {o : Out Unit}
      {m m' : BSTMap K V} {peak need n : Nat} : Track cfg ok m peak need →
      (∀ n k, ok k (cmps n k)) → BSTMap.extend cfg cmps src m = (o, m') → o ≠ .ok () →
      m'.len cfg = .ok n → Track cfg ok m' (max peak n) (max need m'.capacity)

/-- The same program compiled with other settings for overflow checks and debug
assertions, on the same machine. -/
def Cfg.build (cfg : Cfg) (checks debug : Bool) : Cfg := { cfg with checks, debug }

/-- The comparisons of an inserted key agree with the order `cmp`; some of them may
panic. -/
def Lawful (cmp : K → K → Ordering) (k : K) (c : Probe K) : Prop :=
  ∀ i x, c i x = none ∨ c i x = some (cmp k x)

/-- No demand at all on the comparisons: `Ord` may be inconsistent, stateful, and
may panic. -/
def Anything (_ : K) (_ : Probe K) : Prop := True

/-- The comparisons made by a query that compares with the stored keys as `f` says
and never panics. -/
def query (f : K → Ordering) : Probe K := fun _ k => some (f k)

end BST
