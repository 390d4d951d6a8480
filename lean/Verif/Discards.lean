import Verif.Model.Dtors
import Verif.History
import Verif.Storage
/-!
# Histories with destructors that panic

The calls of `Verif/History.lean`, executed with the destructors of `Verif/Model/Dtors.lean`,
and what an association list or a textbook tree would answer. Every call comes with its own
destructors: they may behave differently at every call. Nothing here is part of the crate.
-/
namespace BST
variable {K V : Type}
open Spec (BT lookup hitOf LawfulQuery)

/-- Execute a call with destructors. `clear` has its own (see C27). -/
def Op.runDrop (cfg : Cfg) (d : Dtors K V) : Op K V → M (BSTMap K V) (Ret K V)
  | withCapacity n => do
    BSTMap.assignDrop cfg d (fun _ => BSTMap.withCapacity cfg n)
    pure .unit
  | collect cmps src => do
    BSTMap.assignDrop cfg d (fun _ => BSTMap.fromIterDrop cfg d cmps src)
    pure .unit
  | cloned cmps cloneK cloneV => do
    BSTMap.assignDrop cfg d (BSTMap.cloneDrop cfg d cmps cloneK cloneV)
    pure .unit
  | insert c k v => do
    let r ← BSTMap.insertDrop cfg d c k v
    pure (.value r)
  | remove c => do
    let r ← BSTMap.removeDrop cfg d c
    pure (.value r)
  | extend cmps src => do
    BSTMap.extendDrop cfg d cmps src
    pure .unit
  | op => op.run cfg

/-- Execute a sequence of calls, each with its own destructors, catching panics. -/
def historyDrop (cfg : Cfg) (ops : List (Dtors K V × Op K V)) (m : BSTMap K V) :
    List (Out (Ret K V)) × BSTMap K V :=
  execute (fun x => x.2.runDrop cfg x.1) ops m

namespace Spec

/-- The keys and values that are dropped when the entries `xs` are inserted one after the
other into the entries `l`: the new key and the old value, whenever the key is there. -/
def discarded (cmp : K → K → Ordering) : List (K × V) → List (K × V) → List (K × V)
  | [], _ => []
  | (k, v) :: xs, l => ((lookup (hitOf (cmp k)) l).map fun e => (k, e.2)).toList ++
      discarded cmp xs (Spec.insert (hitOf (cmp k)) k v l)

/-- Dropping the key panics: it has drop glue, and the destructor panics. -/
def hurtsKey (d : Dtors K V) (k : K) : Bool := d.needsDrop && d.key k

/-- Dropping the value panics. -/
def hurtsValue (d : Dtors K V) (v : V) : Bool := d.needsDrop && d.value v

/-- Dropping the entry panics. -/
def hurts (d : Dtors K V) (e : K × V) : Bool := hurtsKey d e.1 || hurtsValue d e.2

/-- What a data structure that answers as `ans` says does when destructors are run.
`ents` are its entries. -/
def DropAnswer {C : Type} (cmp : K → K → Ordering)
    (ans : C → Out (Ret K V) → C → Op K V → Prop) (ents : C → List (K × V))
    (l : C) (o : Out (Ret K V)) (l' : C) (x : Dtors K V × Op K V) : Prop :=
  match x.2 with
  | .withCapacity n =>
    -- the old map is dropped
    (o = (if (ents l).any (hurts x.1) then .panic else .ok .unit) ∧ ans l (.ok .unit) l' (.withCapacity n)) ∨
      (Failed o ∧ l' = l)
  | .cloned c ck cv =>
    (o = (if (ents l).any (hurts x.1) then .panic else .ok .unit) ∧ ans l (.ok .unit) l' (.cloned c ck cv)) ∨
      (Failed o ∧ l' = l)
  | .collect c src =>
    (o = (if (ents l).any (hurts x.1) then .panic else .ok .unit) ∧ ans l (.ok .unit) l' (.collect c src) ∧
      (discarded cmp src.items []).any (hurts x.1) = false) ∨ (Failed o ∧ l' = l)
  | .insert c k v =>
    -- the call has taken effect although it panics
    (∃ r, ans l (.ok (.value r)) l' (.insert c k v) ∧
      o = if r.isSome && hurtsKey x.1 k then .panic else .ok (.value r)) ∨
    (ans l .panic l' (.insert c k v) ∧
      o = if hurtsKey x.1 k || hurtsValue x.1 v then .abort else .panic) ∨
    (ans l .abort l' (.insert c k v) ∧ o = .abort)
  | .remove c =>
    ∀ f, LawfulQuery cmp f → Asks f c →
      (∃ r, ans l (.ok r) l' (.remove c) ∧
        o = if (lookup (hitOf f) (ents l)).any fun e => hurtsKey x.1 e.1 then .panic else .ok r) ∨
      (ans l .panic l' (.remove c) ∧ o = .panic)
  | .extend c src =>
    -- only the first items were inserted, and nothing bad was dropped before the last of them
    ∃ used rest, src.items = used ++ rest ∧
      ((o = .ok .unit ∧ rest = [] ∧ ans l (.ok .unit) l' (.extend c src) ∧
        (discarded cmp used (ents l)).any (hurts x.1) = false) ∨
       (Failed o ∧ ans l (.ok .unit) l' (.extend c { src with items := used, panics := false }) ∧
        (discarded cmp used.dropLast (ents l)).any (hurts x.1) = false))
  | op => ans l o l' op

end Spec
end BST
