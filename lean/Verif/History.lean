import Verif.Client
/-!
# Histories: sequences of calls on one map

The calls a client can make, what they return, and what an association list would
answer. Nothing here is part of the crate.
-/
namespace BST
variable {K V : Type}
open Spec (BT Order lookup hitOf LawfulQuery Sorted)

/-- `std::mem::replace(r, w)` for a reference `r: &mut V` into the map. -/
def swapValue (p : Ptr) (w : V) : M (Nodes K V) V := do
  let x ← M.read (fun s => s.getUnchecked p)
  writeValue p w
  pure x.value

/-- One call (or small client program) on a map. Queries are given by the comparisons
they make (`Probe`). -/
inductive Op (K V : Type) where
  /-- `map = BSTMap::with_capacity(n)` -/
  | withCapacity (n : Nat)
  /-- `map = src.collect()` -/
  | collect (cmps : Nat → K → Probe K) (src : BSTMap.Source K V)
  /-- `map = map.clone()` -/
  | cloned (cmps : Nat → K → Probe K) (cloneK : K → Option K) (cloneV : V → Option V)
  | insert (c : Probe K) (k : K) (v : V)
  | remove (c : Probe K)
  | removeEntry (c : Probe K)
  | get (c : Probe K)
  | getEntry (c : Probe K)
  | containsKey (c : Probe K)
  /-- `map.get_mut(q).map(|r| mem::replace(r, w))` -/
  | getMut (c : Probe K) (w : V)
  /-- `map.get_entry_mut(q).map(|(k, r)| (k, mem::replace(r, w)))` -/
  | getEntryMut (c : Probe K) (w : V)
  /-- Walk with `root()` and `left()`/`right()` along the path; read the node. -/
  | node (path : List Bool)
  /-- Walk with `root_mut()` and `into_left()`/`into_right()` along the path; replace the
  value. -/
  | nodeMut (path : List Bool) (w : V)
  /-- `n` calls of `next` on a new shared iterator -/
  | iter (o : Order) (n : Nat)
  /-- a client of a new mutable iterator -/
  | iterMut (o : Order) (steps : List (Step V))
  | len
  | isEmpty
  | capacity
  | clear (d : DropInfo (InnerNode K V))
  | reserve (n : Nat)
  | shrinkToFit
  | extend (cmps : Nat → K → Probe K) (src : BSTMap.Source K V)
  /-- `format!("{:?}", map)` -/
  | debug (dk : K → String) (dv : V → String)

/-- What a call returns. -/
inductive Ret (K V : Type) where
  | unit
  | bool (b : Bool)
  | nat (n : Nat)
  | value (v : Option V)
  | entry (e : Option (K × V))
  | node (n : Option (K × V × Bool × Bool))
  | items (l : List (Option (K × V)))
  | keys (l : List K)
  | text (s : String)
deriving DecidableEq

/-- Replace the map by a newly built one; if that fails nothing happens. -/
def BSTMap.assign (f : BSTMap K V → Out Unit × BSTMap K V) : M (BSTMap K V) Unit := fun m =>
  match f m with
  | (.ok (), m') => (.ok (), m')
  | (o, _) => (o, m)

/-- Execute a call. -/
def Op.run (cfg : Cfg) : Op K V → M (BSTMap K V) (Ret K V)
  | withCapacity n => do
    BSTMap.assign (fun _ => BSTMap.withCapacity cfg n)
    pure .unit
  | collect cmps src => do
    BSTMap.assign (fun _ => BSTMap.fromIter cfg cmps src)
    pure .unit
  | cloned cmps cloneK cloneV => do
    BSTMap.assign (BSTMap.clone cfg cmps cloneK cloneV)
    pure .unit
  | insert c k v => do
    let r ← BSTMap.insert cfg c k v
    pure (.value r)
  | remove c => do
    let r ← BSTMap.remove cfg c
    pure (.value r)
  | removeEntry c => do
    let r ← BSTMap.removeEntry cfg c
    pure (.entry r)
  | get c => do
    let r ← M.read (BSTMap.get c)
    pure (.value r)
  | getEntry c => do
    let r ← M.read (BSTMap.getEntry c)
    pure (.entry r)
  | containsKey c => do
    let r ← M.read (BSTMap.containsKey c)
    pure (.bool r)
  | getMut c w => do
    let r ← BSTMap.getMut c
    match r with
    | none => pure (.value none)
    | some p =>
      let v ← BSTMap.onNodes (swapValue p w)
      pure (.value (some v))
  | getEntryMut c w => do
    let r ← BSTMap.getEntryMut c
    match r with
    | none => pure (.entry none)
    | some (k, p) =>
      let v ← BSTMap.onNodes (swapValue p w)
      pure (.entry (some (k, v)))
  | node path => do
    let n ← M.read (nodeAt path)
    pure (.node (n.map fun n => (n.key, n.value, n.hasLeft, n.hasRight)))
  | nodeMut path w => do
    let n ← nodeMutAt path
    match n with
    | none => pure (.entry none)
    | some n =>
      let k ← BSTMap.onNodes n.key
      let p ← BSTMap.onNodes n.valueMut
      let v ← BSTMap.onNodes (swapValue p w)
      pure (.entry (some (k, v)))
  | iter o n => do
    let st ← M.read o.iter
    let r ← M.read (fun m => nexts (o.next m) n st)
    pure (.items r.1)
  | iterMut o steps => do
    let refs ← clientMut o steps
    pure (.keys (refs.map (·.1)))
  | len => do
    let n ← M.read (BSTMap.len cfg)
    pure (.nat n)
  | isEmpty => do
    let b ← M.read (BSTMap.isEmpty cfg)
    pure (.bool b)
  | capacity => do
    let m ← M.get
    pure (.nat m.capacity)
  | clear d => do
    BSTMap.clear cfg d
    pure .unit
  | reserve n => do
    BSTMap.reserve cfg n
    pure .unit
  | shrinkToFit => do
    BSTMap.shrinkToFit cfg
    pure .unit
  | extend cmps src => do
    BSTMap.extend cfg cmps src
    pure .unit
  | debug dk dv => do
    let s ← M.read (fun m => m.debug dk dv)
    pure (.text s)

/-- Execute a sequence of calls, catching panics. If the process aborts (or worse), the
rest is not executed. -/
def history (cfg : Cfg) : List (Op K V) → BSTMap K V → List (Out (Ret K V)) × BSTMap K V
  | [], m => ([], m)
  | op :: ops, m =>
    match op.run cfg m with
    | (.ok r, m') =>
      match history cfg ops m' with
      | (os, m'') => (.ok r :: os, m'')
    | (.panic, m') =>
      match history cfg ops m' with
      | (os, m'') => (.panic :: os, m'')
    | (o, m') => ([o], m')

/-- No destructor run by the call panics (see C27). -/
def Op.Calm : Op K V → Prop
  | clear d => ∀ x, d.panics x = false
  | _ => True

/-! ### What an association list answers -/

/-- The comparisons `c` are those with a query that compares with the stored keys as `f`
says; some of them may panic. -/
def Asks (f : K → Ordering) (c : Probe K) : Prop := ∀ i x, c i x = none ∨ c i x = some (f x)

/-- The comparisons `c` sometimes panic. -/
def Panics (c : Probe K) : Prop := ∃ i x, c i x = none

/-- The user code called by the operation respects the order `cmp` (it may panic). -/
def Op.Lawful (cmp : K → K → Ordering) : Op K V → Prop
  | collect cmps _ => ∀ n k, Asks (cmp k) (cmps n k)
  | cloned cmps cloneK cloneV => (∀ n k, Asks (cmp k) (cmps n k)) ∧
      (∀ k k', cloneK k = some k' → k' = k) ∧ ∀ v v', cloneV v = some v' → v' = v
  | insert c k _ => Asks (cmp k) c
  | remove c => ∃ f, LawfulQuery cmp f ∧ Asks f c
  | removeEntry c => ∃ f, LawfulQuery cmp f ∧ Asks f c
  | get c => ∃ f, LawfulQuery cmp f ∧ Asks f c
  | getEntry c => ∃ f, LawfulQuery cmp f ∧ Asks f c
  | containsKey c => ∃ f, LawfulQuery cmp f ∧ Asks f c
  | getMut c _ => ∃ f, LawfulQuery cmp f ∧ Asks f c
  | getEntryMut c _ => ∃ f, LawfulQuery cmp f ∧ Asks f c
  | clear d => ∀ x, d.panics x = false
  | extend cmps _ => ∀ n k, Asks (cmp k) (cmps n k)
  | _ => True

namespace Spec

/-- Replace the value of the `i`-th entry. -/
def setAt (l : List (K × V)) (w : Nat × V) : List (K × V) := l.modify w.1 fun e => (e.1, w.2)

/-- Replace the value of the entry that is hit. -/
def setHit (hit : K → Bool) (w : V) (l : List (K × V)) : List (K × V) :=
  l.map fun e => if hit e.1 then (e.1, w) else e

/-- A query with the comparisons `c` on the contents `l` may have the outcome `o` and leave
the contents `l'`: for whatever `f` the comparisons follow, either it returns `r f` and
leaves `l1 f`, or a comparison panicked and nothing happened. -/
def Queried {C R : Type} (cmp : K → K → Ordering) (c : Probe K) (l : C) (o : Out R)
    (l' : C) (r : (K → Ordering) → R) (l1 : (K → Ordering) → C) : Prop :=
  ∀ f, LawfulQuery cmp f → Asks f c →
    (o = .ok (r f) ∧ l' = l1 f) ∨ (o = .panic ∧ l' = l ∧ Panics c)

/-- The allocator or the size limits made the call fail. -/
def Failed {R : Type} (o : Out R) : Prop := o = .panic ∨ o = .abort

/-- An association list with the entries `l` (distinct keys, in no particular order) may
answer the call with the outcome `o`, and has the entries `l'` afterwards. -/
def Answer (cmp : K → K → Ordering) (l : List (K × V)) (o : Out (Ret K V)) (l' : List (K × V)) :
    Op K V → Prop
  | .withCapacity _ => (o = .ok .unit ∧ l' = []) ∨ (Failed o ∧ l' = l)
  | .collect _ src => (o = .ok .unit ∧ l'.Perm (insertList cmp src.items []) ∧ src.panics = false) ∨
      (Failed o ∧ l' = l)
  | .cloned _ _ _ => (o = .ok .unit ∧ l' = l) ∨ (Failed o ∧ l' = l)
  | .insert c k v =>
    (o = .ok (.value ((lookup (hitOf (cmp k)) l).map (·.2))) ∧
      l'.Perm (Spec.insert (hitOf (cmp k)) k v l)) ∨
    (o = .panic ∧ l' = l ∧ Panics c) ∨
    (Failed o ∧ l' = l ∧ lookup (hitOf (cmp k)) l = none)
  | .remove c => Queried cmp c l o l' (fun f => .value ((lookup (hitOf f) l).map (·.2)))
      (fun f => Spec.remove (hitOf f) l)
  | .removeEntry c => Queried cmp c l o l' (fun f => .entry (lookup (hitOf f) l))
      (fun f => Spec.remove (hitOf f) l)
  | .get c => Queried cmp c l o l' (fun f => .value ((lookup (hitOf f) l).map (·.2)))
      (fun _ => l)
  | .getEntry c => Queried cmp c l o l' (fun f => .entry (lookup (hitOf f) l)) (fun _ => l)
  | .containsKey c => Queried cmp c l o l' (fun f => .bool (l.any fun e => hitOf f e.1))
      (fun _ => l)
  | .getMut c w => Queried cmp c l o l' (fun f => .value ((lookup (hitOf f) l).map (·.2)))
      (fun f => setHit (hitOf f) w l)
  | .getEntryMut c w => Queried cmp c l o l' (fun f => .entry (lookup (hitOf f) l))
      (fun f => setHit (hitOf f) w l)
  | .node _ => l' = l ∧ (o = .ok (.node none) ∨
      ∃ k v hl hr, (k, v) ∈ l ∧ o = .ok (.node (some (k, v, hl, hr))))
  | .nodeMut _ w => (o = .ok (.entry none) ∧ l' = l) ∨
      ∃ k v, (k, v) ∈ l ∧ o = .ok (.entry (some (k, v))) ∧ l' = setHit (hitOf (cmp k)) w l
  | .iter ord n => l' = l ∧ ∃ xs, xs.Perm l ∧ (ord = .ino → Sorted cmp xs) ∧
      o = .ok (.items ((xs.map some ++ List.replicate n none).take n))
  | .iterMut ord steps => ∃ xs, xs.Perm l ∧ (ord = .ino → Sorted cmp xs) ∧
      o = .ok (.keys ((xs.map (·.1)).take (obtained l.length 0 steps))) ∧
      l'.Perm ((writes l.length 0 steps).foldl setAt xs)
  | .len => o = .ok (.nat l.length) ∧ l' = l
  | .isEmpty => o = .ok (.bool l.isEmpty) ∧ l' = l
  | .capacity => (∃ n, l.length ≤ n ∧ o = .ok (.nat n)) ∧ l' = l
  | .clear _ => o = .ok .unit ∧ l' = []
  | .reserve _ => (o = .ok .unit ∨ Failed o) ∧ l' = l
  | .shrinkToFit => o = .ok .unit ∧ l' = l
  | .extend _ src => ∃ used rest, src.items = used ++ rest ∧ l'.Perm (insertList cmp used l) ∧
      (o = .ok .unit ∧ rest = [] ∧ src.panics = false ∨ Failed o)
  | .debug _ _ => (∃ s, o = .ok (.text s)) ∧ l' = l

/-- Replace the value at the end of a path from the root. -/
def BT.setPath (w : V) : List Bool → BT (K × V) → BT (K × V)
  | _, .nil => .nil
  | [], .node l e r => .node l (e.1, w) r
  | false :: path, .node l e r => .node (l.setPath w path) e r
  | true :: path, .node l e r => .node l e (r.setPath w path)

/-- What a `Node` shows: key, value, and whether there are children. -/
def BT.info : BT (K × V) → Option (K × V × Bool × Bool)
  | .nil => none
  | .node l e r => some (e.1, e.2, l.label.isSome, r.label.isSome)

/-- A textbook search tree `b` may answer the call with the outcome `o`, and is `b'`
afterwards. In contrast to `Answer`, everything but the capacity and the failures of the
allocator is determined here. -/
def TreeAnswer (cmp : K → K → Ordering) (b : BT (K × V)) (o : Out (Ret K V)) (b' : BT (K × V)) :
    Op K V → Prop
  | .withCapacity _ => (o = .ok .unit ∧ b' = .nil) ∨ (Failed o ∧ b' = b)
  | .collect _ src => (o = .ok .unit ∧ b' = BT.insertList cmp src.items .nil ∧ src.panics = false) ∨
      (Failed o ∧ b' = b)
  | .cloned _ _ _ => (o = .ok .unit ∧ b' = b) ∨ (Failed o ∧ b' = b)
  | .insert c k v =>
    (o = .ok (.value ((lookup (hitOf (cmp k)) b.ino).map (·.2))) ∧ b' = b.insert cmp k v) ∨
    (o = .panic ∧ b' = b ∧ Panics c) ∨
    (Failed o ∧ b' = b ∧ lookup (hitOf (cmp k)) b.ino = none)
  | .remove c => Queried cmp c b o b' (fun f => .value ((lookup (hitOf f) b.ino).map (·.2)))
      (fun f => b.erase f)
  | .removeEntry c => Queried cmp c b o b' (fun f => .entry (lookup (hitOf f) b.ino))
      (fun f => b.erase f)
  | .get c => Queried cmp c b o b' (fun f => .value ((lookup (hitOf f) b.ino).map (·.2)))
      (fun _ => b)
  | .getEntry c => Queried cmp c b o b' (fun f => .entry (lookup (hitOf f) b.ino)) (fun _ => b)
  | .containsKey c => Queried cmp c b o b' (fun f => .bool (b.ino.any fun e => hitOf f e.1))
      (fun _ => b)
  | .getMut c w => Queried cmp c b o b' (fun f => .value ((lookup (hitOf f) b.ino).map (·.2)))
      (fun f => b.map fun e => if hitOf f e.1 then (e.1, w) else e)
  | .getEntryMut c w => Queried cmp c b o b' (fun f => .entry (lookup (hitOf f) b.ino))
      (fun f => b.map fun e => if hitOf f e.1 then (e.1, w) else e)
  | .node path => o = .ok (.node (b.sub path).info) ∧ b' = b
  | .nodeMut path w => o = .ok (.entry (b.sub path).label) ∧ b' = b.setPath w path
  | .iter ord n => b' = b ∧
      o = .ok (.items (((b.order ord).map some ++ List.replicate n none).take n))
  | .iterMut ord steps => o = .ok (.keys (((b.order ord).map (·.1)).take (obtained b.size 0 steps))) ∧
      b'.map (·.1) = b.map (·.1) ∧
      b'.order ord = (writes b.size 0 steps).foldl setAt (b.order ord)
  | .len => o = .ok (.nat b.size) ∧ b' = b
  | .isEmpty => o = .ok (.bool (b.size == 0)) ∧ b' = b
  | .capacity => (∃ n, b.size ≤ n ∧ o = .ok (.nat n)) ∧ b' = b
  | .clear _ => o = .ok .unit ∧ b' = .nil
  | .reserve _ => (o = .ok .unit ∨ Failed o) ∧ b' = b
  | .shrinkToFit => o = .ok .unit ∧ b' = b
  | .extend _ src => ∃ used rest, src.items = used ++ rest ∧ b' = BT.insertList cmp used b ∧
      (o = .ok .unit ∧ rest = [] ∧ src.panics = false ∨ Failed o)
  | .debug dk dv => o = .ok (.text ("BSTMap { root: " ++ b.debugMap dk dv ++ " }")) ∧ b' = b

/-- The outcomes `os` of a sequence of calls are those of a data structure that answers as
`ans` says, starts with the contents `l` and ends with `l'`. The process may end only with
an abort. -/
def Conforms {C P R : Type} (ans : C → Out R → C → P → Prop) :
    List P → List (Out R) → C → C → Prop
  | [], [], l, l' => l' = l
  | op :: ops, o :: os, l, l'' => ∃ l', ans l o l' op ∧
      ((o = .abort ∧ os = [] ∧ l'' = l') ∨ (o ≠ .abort ∧ Conforms ans ops os l' l''))
  | _, _, _, _ => False

end Spec
end BST
