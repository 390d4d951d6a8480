import Verif.Programs
import Verif.SimpleSetHistory
/-!
# Programs that use sets

As `Verif/Programs.lean`: a program creates sets, makes calls on them and goes on depending on what
the calls return. It can be run with sets of either crate, and with sorted lists of elements. Nothing
here is part of the crate.
-/
namespace BST
variable {T R S σ : Type}

/-- A call on a set. Queries are elements. -/
inductive SetCall (T : Type) where
  | insert (t : T)
  | remove (t : T)
  | take (t : T)
  | get (t : T)
  | contains (t : T)
  | len
  | isEmpty
  | clear
  /-- `n` calls of `next` on a new `iter_inorder()` -/
  | iter (n : Nat)
  /-- `set.extend(items)` for a `Vec` of items -/
  | extend (items : List T)

/-- A program over a growing list of sets that returns an `R` or panics. The functions say how it
goes on after the answer of a call. -/
inductive SetProg (T : Type) (R : Type) where
  | ret (r : R)
  | panic
  /-- A new empty set; the program goes on with its number. -/
  | new (next : Nat → SetProg T R)
  /-- A clone of set `i`; the program goes on with its number. -/
  | clone (i : Nat) (next : Nat → SetProg T R)
  /-- `sets[i] == sets[j]` -/
  | eq (i j : Nat) (next : Bool → SetProg T R)
  /-- A call on set `i`. -/
  | call (i : Nat) (c : SetCall T) (next : SetRet T → SetProg T R)

/-- What can be done with a kind of sets. -/
structure Sets (T : Type) (σ : Type) where
  new : σ
  clone : σ → Out σ
  eq : σ → σ → Out Bool
  call : SetCall T → M σ (SetRet T)

namespace SetProg

/-- One program after the other. -/
def bind : SetProg T R → (R → SetProg T S) → SetProg T S
  | ret r, f => f r
  | panic, _ => panic
  | new k, f => new fun i => (k i).bind f
  | clone i k, f => clone i fun j => (k j).bind f
  | eq i j k, f => eq i j fun b => (k b).bind f
  | call i c k, f => call i c fun r => (k r).bind f

instance : Monad (SetProg T) where
  pure := ret
  bind := bind

/-- `BSTSet::new()`; returns the number of the set. -/
def make : SetProg T Nat := new ret
/-- `sets[i].clone()`; returns the number of the clone. -/
def copy (i : Nat) : SetProg T Nat := clone i ret
/-- `sets[i] == sets[j]` -/
def same (i j : Nat) : SetProg T Bool := eq i j ret
/-- A call on set `i`. -/
def ask (i : Nat) (c : SetCall T) : SetProg T (SetRet T) := call i c ret

/-- Run a program with a given kind of sets. A number that belongs to no set is an index out of
bounds. A call that does not return ends the program. -/
def run (A : Sets T σ) : SetProg T R → List σ → Out R × List σ
  | ret r, ms => (.ok r, ms)
  | panic, ms => (.panic, ms)
  | new k, ms => (k ms.length).run A (ms ++ [A.new])
  | clone i k, ms =>
    match ms[i]? with
    | none => (.panic, ms)
    | some m =>
      match A.clone m with
      | .ok m' => (k ms.length).run A (ms ++ [m'])
      | .panic => (.panic, ms)
      | .abort => (.abort, ms)
      | .ub => (.ub, ms)
      | .diverge => (.diverge, ms)
  | eq i j k, ms =>
    match ms[i]?, ms[j]? with
    | some a, some b =>
      match A.eq a b with
      | .ok r => (k r).run A ms
      | .panic => (.panic, ms)
      | .abort => (.abort, ms)
      | .ub => (.ub, ms)
      | .diverge => (.diverge, ms)
    | _, _ => (.panic, ms)
  | call i c k, ms =>
    match ms[i]? with
    | none => (.panic, ms)
    | some m =>
      match A.call c m with
      | (.ok r, m') => (k r).run A (ms.set i m')
      | (.panic, m') => (.panic, ms.set i m')
      | (.abort, m') => (.abort, ms.set i m')
      | (.ub, m') => (.ub, ms.set i m')
      | (.diverge, m') => (.diverge, ms.set i m')

end SetProg

/-! ### Sets of the crate `bst` -/

/-- The call on a `BSTSet` whose elements are compared by `cmp`. -/
def SetCall.onBST (cfg : Cfg) (cmp : T → T → Ordering) : SetCall T → M (BSTSet T) (SetRet T)
  | insert t => (SetOp.insert (query (cmp t)) t).run cfg
  | remove t => (SetOp.remove (query (cmp t))).run cfg
  | take t => (SetOp.take (query (cmp t))).run cfg
  | get t => (SetOp.get (query (cmp t))).run cfg
  | contains t => (SetOp.contains (query (cmp t))).run cfg
  | len => SetOp.len.run cfg
  | isEmpty => SetOp.isEmpty.run cfg
  | clear => (SetOp.clear ⟨true, fun _ => false⟩).run cfg
  | iter n => (SetOp.iter .ino n).run cfg
  | extend items => (SetOp.extend (fun _ t => query (cmp t))
      ⟨(items.length, some items.length), items, false⟩).run cfg

/-- Sets of type `BSTSet`. -/
def BSTSet.sets (cfg : Cfg) (cmp : T → T → Ordering) (teq : T → T → Bool) : Sets T (BSTSet T) where
  new := BSTSet.new
  clone := fun s =>
    match BSTSet.clone cfg (fun _ t => query (cmp t)) some s with
    | (.ok (), s') => .ok s'
    | (.panic, _) => .panic
    | (.abort, _) => .abort
    | (.ub, _) => .ub
    | (.diverge, _) => .diverge
  eq := BSTSet.eq cfg teq
  call := SetCall.onBST cfg cmp

/-! ### Sets of the crate `simple_bst` -/

/-- The call on a `SimpleBSTSet` whose elements are compared by `cmp`. -/
def SetCall.onSimple (cfg : Cfg) (cmp : T → T → Ordering) : SetCall T → M (Simple.SSet T) (SetRet T)
  | insert t => (SimpleSetOp.insert (query (cmp t)) t).run cfg
  | remove t => (SimpleSetOp.remove (query (cmp t))).run cfg
  | take t => (SimpleSetOp.take (query (cmp t))).run cfg
  | get t => (SimpleSetOp.get (query (cmp t))).run cfg
  | contains t => (SimpleSetOp.contains (query (cmp t))).run cfg
  | len => SimpleSetOp.len.run cfg
  | isEmpty => SimpleSetOp.isEmpty.run cfg
  | clear => SimpleSetOp.clear.run cfg
  | iter n => (SimpleSetOp.iter .ino n).run cfg
  | extend items => (SimpleSetOp.extend (fun _ t => query (cmp t))
      ⟨(items.length, some items.length), items, false⟩).run cfg

/-- Sets of type `SimpleBSTSet`. -/
def Simple.sets (cfg : Cfg) (cmp : T → T → Ordering) (teq : T → T → Bool) :
    Sets T (Simple.SSet T) where
  new := Simple.SSet.new
  clone := fun s =>
    match Simple.SSet.clone cfg some s with
    | (.ok (), s') => .ok s'
    | (.panic, _) => .panic
    | (.abort, _) => .abort
    | (.ub, _) => .ub
    | (.diverge, _) => .diverge
  eq := Simple.SSet.eq teq
  call := SetCall.onSimple cfg cmp

/-! ### Sorted lists of elements -/

namespace ListedSet

/-- Put an element into a sorted list, if there is no equivalent one. -/
def put (cmp : T → T → Ordering) (t : T) : List T → List T
  | [] => [t]
  | x :: l =>
    match cmp t x with
    | .lt => t :: x :: l
    | .eq => x :: l
    | .gt => x :: put cmp t l

/-- The element that is equivalent to a given one. -/
def find (cmp : T → T → Ordering) (t : T) (l : List T) : Option T :=
  l.find? fun x => cmp t x == .eq

/-- Take out the element that is equivalent to a given one. -/
def erase (cmp : T → T → Ordering) (t : T) (l : List T) : List T :=
  l.filter fun x => cmp t x != .eq

/-- Two lists are elementwise equal. -/
def same (teq : T → T → Bool) : List T → List T → Bool
  | [], [] => true
  | a :: as, b :: bs => teq a b && same teq as bs
  | _, _ => false

/-- What a call returns, and the list afterwards. -/
def call (cmp : T → T → Ordering) : SetCall T → M (List T) (SetRet T)
  | .insert t => fun l => (.ok (.bool (find cmp t l).isNone), put cmp t l)
  | .remove t => fun l => (.ok (.bool (find cmp t l).isSome), erase cmp t l)
  | .take t => fun l => (.ok (.elem (find cmp t l)), erase cmp t l)
  | .get t => fun l => (.ok (.elem (find cmp t l)), l)
  | .contains t => fun l => (.ok (.bool (find cmp t l).isSome), l)
  | .len => fun l => (.ok (.nat l.length), l)
  | .isEmpty => fun l => (.ok (.bool l.isEmpty), l)
  | .clear => fun _ => (.ok .unit, [])
  | .iter n => fun l => (.ok (.items ((l.map some ++ List.replicate n none).take n)), l)
  | .extend items => fun l => (.ok .unit, items.foldl (fun l t => put cmp t l) l)

/-- Sorted lists as sets. -/
def sets (cmp : T → T → Ordering) (teq : T → T → Bool) : Sets T (List T) where
  new := []
  clone := fun l => .ok l
  eq := fun a b => .ok (same teq a b)
  call := call cmp

end ListedSet

/-! ### How much room a program needs -/

/-- How many more elements a call makes room for at most. -/
def SetCall.demand : SetCall T → Nat
  | insert _ => 1
  | extend items => items.length + items.length
  | _ => 0

/-- The sum of the demands of the calls that a program makes when it runs with a given kind of
sets. -/
def SetProg.demand (A : Sets T σ) : SetProg T R → List σ → Nat
  | ret _, _ => 0
  | panic, _ => 0
  | new k, ms => (k ms.length).demand A (ms ++ [A.new])
  | clone i k, ms =>
    match ms[i]? with
    | none => 0
    | some m =>
      match A.clone m with
      | .ok m' => (k ms.length).demand A (ms ++ [m'])
      | _ => 0
  | eq i j k, ms =>
    match ms[i]?, ms[j]? with
    | some a, some b =>
      match A.eq a b with
      | .ok r => (k r).demand A ms
      | _ => 0
    | _, _ => 0
  | call i c k, ms =>
    match ms[i]? with
    | none => 0
    | some m =>
      c.demand + match A.call c m with
        | (.ok r, m') => (k r).demand A (ms.set i m')
        | _ => 0

end BST
