import Verif.SimpleHistory
/-!
# Programs that use maps

A program creates maps, makes calls on them and goes on depending on what the calls return; it
knows nothing about the maps but these answers. It can be run with maps of either crate, and with
sorted lists of entries (which is what the documentation of `std::collections::BTreeMap` promises).
Nothing here is part of the crate.
-/
namespace BST
variable {K V R S σ : Type}
open Spec (sameBy)

/-- A call on a map. Queries are keys. -/
inductive Call (K V : Type) where
  | insert (k : K) (v : V)
  | remove (k : K)
  | removeEntry (k : K)
  | get (k : K)
  | getEntry (k : K)
  | containsKey (k : K)
  /-- `if let Some(r) = map.get_mut(&k) { let old = r.clone(); *r = f(old) }`, where `f` may panic
  (`none`). Returns the old value. -/
  | update (k : K) (f : V → Option V)
  | len
  | isEmpty
  | clear
  /-- `n` calls of `next` on a new `iter_inorder()` -/
  | iter (n : Nat)
  /-- `map.extend(items)` for a `Vec` of items -/
  | extend (items : List (K × V))

/-- A program over a growing list of maps that returns an `R` or panics. The functions say how it
goes on after the answer of a call. -/
inductive Prog (K V : Type) (R : Type) where
  | ret (r : R)
  | panic
  /-- A new empty map; the program goes on with its number. -/
  | new (next : Nat → Prog K V R)
  /-- A clone of map `i`; the program goes on with its number. -/
  | clone (i : Nat) (next : Nat → Prog K V R)
  /-- `maps[i] == maps[j]` -/
  | eq (i j : Nat) (next : Bool → Prog K V R)
  /-- A call on map `i`. -/
  | call (i : Nat) (c : Call K V) (next : Ret K V → Prog K V R)

/-- What can be done with a kind of maps. -/
structure Maps (K V : Type) (σ : Type) where
  new : σ
  clone : σ → Out σ
  eq : σ → σ → Out Bool
  call : Call K V → M σ (Ret K V)

namespace Prog

/-- One program after the other. -/
def bind : Prog K V R → (R → Prog K V S) → Prog K V S
  | ret r, f => f r
  | panic, _ => panic
  | new k, f => new fun i => (k i).bind f
  | clone i k, f => clone i fun j => (k j).bind f
  | eq i j k, f => eq i j fun b => (k b).bind f
  | call i c k, f => call i c fun r => (k r).bind f

instance : Monad (Prog K V) where
  pure := ret
  bind := bind

/-- `BSTMap::new()`; returns the number of the map. -/
def make : Prog K V Nat := new ret
/-- `maps[i].clone()`; returns the number of the clone. -/
def copy (i : Nat) : Prog K V Nat := clone i ret
/-- `maps[i] == maps[j]` -/
def same (i j : Nat) : Prog K V Bool := eq i j ret
/-- A call on map `i`. -/
def ask (i : Nat) (c : Call K V) : Prog K V (Ret K V) := call i c ret

/-- Run a program with a given kind of maps. A number that belongs to no map is an index out of
bounds. A call that does not return ends the program. -/
def run (A : Maps K V σ) : Prog K V R → List σ → Out R × List σ
  | ret r, ms => (.ok r, ms)
  | panic, ms => (.panic, ms)
  | new k, ms => (k ms.length).run A (ms ++ [A.new])
  | clone i k, ms =>
    match ms[i]? with
    | none => (.panic, ms)
    | some m =>
      match A.clone m with
      | .ok m' => (k ms.length).run A (ms ++ [m'])
      | .panic => (.panic, ms)
      | .abort => (.abort, ms)
      | .ub => (.ub, ms)
      | .diverge => (.diverge, ms)
  | eq i j k, ms =>
    match ms[i]?, ms[j]? with
    | some a, some b =>
      match A.eq a b with
      | .ok r => (k r).run A ms
      | .panic => (.panic, ms)
      | .abort => (.abort, ms)
      | .ub => (.ub, ms)
      | .diverge => (.diverge, ms)
    | _, _ => (.panic, ms)
  | call i c k, ms =>
    match ms[i]? with
    | none => (.panic, ms)
    | some m =>
      match A.call c m with
      | (.ok r, m') => (k r).run A (ms.set i m')
      | (.panic, m') => (.panic, ms.set i m')
      | (.abort, m') => (.abort, ms.set i m')
      | (.ub, m') => (.ub, ms.set i m')
      | (.diverge, m') => (.diverge, ms.set i m')

end Prog

/-! ### Maps of the crate `bst` -/

/-- The call on a `BSTMap` whose keys are compared by `cmp`. -/
def Call.onBST (cfg : Cfg) (cmp : K → K → Ordering) : Call K V → M (BSTMap K V) (Ret K V)
  | insert k v => (Op.insert (query (cmp k)) k v).run cfg
  | remove k => (Op.remove (query (cmp k))).run cfg
  | removeEntry k => (Op.removeEntry (query (cmp k))).run cfg
  | get k => (Op.get (query (cmp k))).run cfg
  | getEntry k => (Op.getEntry (query (cmp k))).run cfg
  | containsKey k => (Op.containsKey (query (cmp k))).run cfg
  | update k f => do
    let r ← BSTMap.getMut (query (cmp k))
    match r with
    | none => pure (.value none)
    | some p =>
      let x ← BSTMap.onNodes (M.read fun s => s.getUnchecked p)
      match f x.value with
      | none => M.panic
      | some w =>
        BSTMap.onNodes (writeValue p w)
        pure (.value (some x.value))
  | len => Op.len.run cfg
  | isEmpty => Op.isEmpty.run cfg
  | clear => (Op.clear ⟨true, fun _ => false⟩).run cfg
  | iter n => (Op.iter .ino n).run cfg
  | extend items => (Op.extend (fun _ k => query (cmp k))
      ⟨(items.length, some items.length), items, false⟩).run cfg

/-- Maps of type `BSTMap`. -/
def BSTMap.maps (cfg : Cfg) (cmp : K → K → Ordering) (keq : K → K → Bool) (veq : V → V → Bool) :
    Maps K V (BSTMap K V) where
  new := BSTMap.new
  clone := fun m =>
    match BSTMap.clone cfg (fun _ k => query (cmp k)) some some m with
    | (.ok (), m') => .ok m'
    | (.panic, _) => .panic
    | (.abort, _) => .abort
    | (.ub, _) => .ub
    | (.diverge, _) => .diverge
  eq := BSTMap.eq cfg keq veq
  call := Call.onBST cfg cmp

/-! ### Maps of the crate `simple_bst` -/

open Simple in
/-- The call on a `SimpleBSTMap` whose keys are compared by `cmp`. -/
def Call.onSimple (cfg : Cfg) (cmp : K → K → Ordering) : Call K V → M (Simple.Map K V) (Ret K V)
  | insert k v => (SimpleOp.insert (query (cmp k)) k v).run cfg
  | remove k => (SimpleOp.remove (query (cmp k))).run cfg
  | removeEntry k => (SimpleOp.removeEntry (query (cmp k))).run cfg
  | get k => (SimpleOp.get (query (cmp k))).run cfg
  | getEntry k => (SimpleOp.getEntry (query (cmp k))).run cfg
  | containsKey k => (SimpleOp.containsKey (query (cmp k))).run cfg
  | update k f => do
    let r ← Map.getMut (query (cmp k))
    match r with
    | none => pure (.value none)
    | some p =>
      let x ← Map.onRoot (Own.deref p)
      match f x.value with
      | none => M.panic
      | some w =>
        let _ ← Map.onRoot (Own.swapValue p w)
        pure (.value (some x.value))
  | len => SimpleOp.len.run cfg
  | isEmpty => SimpleOp.isEmpty.run cfg
  | clear => SimpleOp.clear.run cfg
  | iter n => (SimpleOp.iter .ino n).run cfg
  | extend items => (SimpleOp.extend (fun _ k => query (cmp k))
      ⟨(items.length, some items.length), items, false⟩).run cfg

/-- Maps of type `SimpleBSTMap`. -/
def Simple.maps (cfg : Cfg) (cmp : K → K → Ordering) (keq : K → K → Bool) (veq : V → V → Bool) :
    Maps K V (Simple.Map K V) where
  new := Simple.Map.new
  clone := fun m =>
    match Simple.Map.clone cfg some some m with
    | (.ok (), m') => .ok m'
    | (.panic, _) => .panic
    | (.abort, _) => .abort
    | (.ub, _) => .ub
    | (.diverge, _) => .diverge
  eq := Simple.Map.eq keq veq
  call := Call.onSimple cfg cmp

/-! ### Sorted lists of entries -/

namespace Listed

/-- Put an entry into a sorted list. If there is an entry with an equivalent key, it only gets the
new value. -/
def put (cmp : K → K → Ordering) (k : K) (v : V) : List (K × V) → List (K × V)
  | [] => [(k, v)]
  | e :: l =>
    match cmp k e.1 with
    | .lt => (k, v) :: e :: l
    | .eq => (e.1, v) :: l
    | .gt => e :: put cmp k v l

/-- The entry with a given key. -/
def find (cmp : K → K → Ordering) (k : K) (l : List (K × V)) : Option (K × V) :=
  l.find? fun e => cmp k e.1 == .eq

/-- Take out the entry with a given key. -/
def erase (cmp : K → K → Ordering) (k : K) (l : List (K × V)) : List (K × V) :=
  l.filter fun e => cmp k e.1 != .eq

/-- What a call returns, and the list afterwards. -/
def call (cmp : K → K → Ordering) : Call K V → M (List (K × V)) (Ret K V)
  | .insert k v => fun l => (.ok (.value ((find cmp k l).map (·.2))), put cmp k v l)
  | .remove k => fun l => (.ok (.value ((find cmp k l).map (·.2))), erase cmp k l)
  | .removeEntry k => fun l => (.ok (.entry (find cmp k l)), erase cmp k l)
  | .get k => fun l => (.ok (.value ((find cmp k l).map (·.2))), l)
  | .getEntry k => fun l => (.ok (.entry (find cmp k l)), l)
  | .containsKey k => fun l => (.ok (.bool (find cmp k l).isSome), l)
  | .update k f => fun l =>
    match find cmp k l with
    | none => (.ok (.value none), l)
    | some e =>
      match f e.2 with
      | none => (.panic, l)
      | some w => (.ok (.value (some e.2)), put cmp k w l)
  | .len => fun l => (.ok (.nat l.length), l)
  | .isEmpty => fun l => (.ok (.bool l.isEmpty), l)
  | .clear => fun _ => (.ok .unit, [])
  | .iter n => fun l => (.ok (.items ((l.map some ++ List.replicate n none).take n)), l)
  | .extend items => fun l => (.ok .unit, items.foldl (fun l e => put cmp e.1 e.2 l) l)

/-- Sorted lists as maps. -/
def maps (cmp : K → K → Ordering) (keq : K → K → Bool) (veq : V → V → Bool) :
    Maps K V (List (K × V)) where
  new := []
  clone := fun l => .ok l
  eq := fun a b => .ok (sameBy keq veq a b)
  call := call cmp

end Listed

/-! ### How much room a program needs -/

/-- How many more entries a call makes room for at most. (`extend` reserves room for its items and
may then make more.) -/
def Call.demand : Call K V → Nat
  | insert _ _ => 1
  | extend items => items.length + items.length
  | _ => 0

/-- The sum of the demands of the calls that a program makes when it runs with a given kind of
maps. -/
def Prog.demand (A : Maps K V σ) : Prog K V R → List σ → Nat
  | ret _, _ => 0
  | panic, _ => 0
  | new k, ms => (k ms.length).demand A (ms ++ [A.new])
  | clone i k, ms =>
    match ms[i]? with
    | none => 0
    | some m =>
      match A.clone m with
      | .ok m' => (k ms.length).demand A (ms ++ [m'])
      | _ => 0
  | eq i j k, ms =>
    match ms[i]?, ms[j]? with
    | some a, some b =>
      match A.eq a b with
      | .ok r => (k r).demand A ms
      | _ => 0
    | _, _ => 0
  | call i c k, ms =>
    match ms[i]? with
    | none => 0
    | some m =>
      c.demand + match A.call c m with
        | (.ok r, m') => (k r).demand A (ms.set i m')
        | _ => 0

end BST
