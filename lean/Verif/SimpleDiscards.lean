import Verif.Model.SimpleDtors
import Verif.SimpleHistory
/-!
# Histories of a `SimpleBSTMap` with destructors

The calls of `Verif/SimpleHistory.lean`, executed with the destructors of
`Verif/Model/SimpleDtors.lean`; what a textbook tree would do with the same destructors; and
which keys and values a call takes from its caller and gives back. Every call comes with its
own destructors: they may behave differently at every call. Nothing here is part of the crate.
-/
namespace BST
variable {K V : Type}
open Spec (BT lookup hitOf LawfulQuery)
open Simple (World Drops)

/-- No destructor panics. -/
def Simple.Drops.Calm (d : Drops K V) : Prop := (∀ k, d.key k = false) ∧ ∀ v, d.value v = false

/-- Execute a call with destructors. -/
def SimpleOp.runDrop (cfg : Cfg) (d : Drops K V) : SimpleOp K V → M (World K V) (Ret K V)
  | collect cmps src => do
    World.assign d (World.fromIter cfg d cmps src)
    pure .unit
  | cloned cloneK cloneV => do
    World.assign d (World.clone cfg d cloneK cloneV)
    pure .unit
  | insert c k v => do
    let r ← World.insert cfg d c k v
    pure (.value r)
  | remove c => do
    let r ← World.remove cfg d c
    pure (.value r)
  | clear => do
    World.clear d
    pure .unit
  | extend cmps src => do
    World.extend cfg d cmps src
    pure .unit
  | op => World.onMap (op.run cfg)

/-- Execute a sequence of calls, each with its own destructors, catching panics. -/
def simpleHistoryDrop (cfg : Cfg) (ops : List (Drops K V × SimpleOp K V)) (s : World K V) :
    List (Out (Ret K V)) × World K V :=
  execute (fun x => x.2.runDrop cfg x.1) ops s

/-- The keys and values of a list of entries. -/
def itemsOf (l : List (K × V)) : List (K ⊕ V) := l.flatMap fun e => [.inl e.1, .inr e.2]

/-- The keys and values that the call takes from its caller: arguments that are moved, items of
the iterator, values written through references. -/
def SimpleOp.takes : SimpleOp K V → Out (Ret K V) → List (K ⊕ V)
  | collect _ src, _ => itemsOf src.items
  | extend _ src, _ => itemsOf src.items
  | insert _ k v, _ => [.inl k, .inr v]
  | getMut _ w, .ok (.value (some _)) => [.inr w]
  | nodeMut _ w, .ok (.entry (some _)) => [.inr w]
  | _, _ => []

/-- The keys and values that the call gives (not just shows) to its caller. -/
def SimpleOp.gives : SimpleOp K V → Out (Ret K V) → List (K ⊕ V)
  | insert _ _ _, .ok (.value (some v)) => [.inr v]
  | remove _, .ok (.value (some v)) => [.inr v]
  | removeEntry _, .ok (.entry (some e)) => [.inl e.1, .inr e.2]
  | getMut _ _, .ok (.value (some v)) => [.inr v]
  | nodeMut _ _, .ok (.entry (some e)) => [.inr e.2]
  | _, _ => []

/-- Sum over the calls that were executed. -/
def ledger (f : SimpleOp K V → Out (Ret K V) → List (K ⊕ V)) (ops : List (Drops K V × SimpleOp K V))
    (os : List (Out (Ret K V))) : List (K ⊕ V) :=
  (ops.zip os).flatMap fun x => f x.1.2 x.2

namespace Spec

/-- How many of the destructors of the items panic. -/
def panicking (d : Drops K V) (xs : List (K ⊕ V)) : Nat := xs.countP fun x => x.elim d.key d.value

/-- What comes of running all destructors of a list of which `n` panic: the second panic
aborts. -/
def fate {R : Type} (r : R) : Nat → Out R
  | 0 => .ok r
  | 1 => .panic
  | _ => .abort

/-- The keys and values that are dropped when the entries are inserted one after the other into
a textbook tree: the new key and the old value, whenever the key is there. -/
def BT.discarded (cmp : K → K → Ordering) : List (K × V) → BT (K × V) → List (K × V)
  | [], _ => []
  | (k, v) :: xs, b => ((lookup (hitOf (cmp k)) b.ino).map fun e => (k, e.2)).toList ++
      BT.discarded cmp xs (b.insert cmp k v)

/-- A textbook tree `b` may answer the call with the outcome `o`, and is `b'` afterwards, if
destructors are run. (If the process aborts, nothing is said about `b'`.) -/
def SimpleDropAnswer (cmp : K → K → Ordering) (b : BT (K × V)) (o : Out (Ret K V)) (b' : BT (K × V))
    (x : Drops K V × SimpleOp K V) : Prop :=
  match x.2 with
  | .clear => o = fate .unit (panicking x.1 (itemsOf b.ino)) ∧ b' = .nil
  | .collect c src =>
    -- the old map is dropped; or something panicked before
    (o = fate .unit (panicking x.1 (itemsOf b.ino)) ∧ b' = BT.insertList cmp src.items .nil ∧
      src.panics = false ∧ panicking x.1 (itemsOf (BT.discarded cmp src.items .nil)) = 0) ∨
    (o = .panic ∧ b' = b ∧ (src.panics = true ∨ (∃ n k, Panics (c n k)) ∨
      panicking x.1 (itemsOf (BT.discarded cmp src.items .nil)) ≠ 0)) ∨
    o = .abort
  | .cloned ck cv =>
    (o = fate .unit (panicking x.1 (itemsOf b.ino)) ∧ b' = b) ∨
    (o = .panic ∧ b' = b ∧ ((∃ k, ck k = none) ∨ ∃ v, cv v = none)) ∨
    o = .abort
  | .insert c k v =>
    -- the call has taken effect although it panics; or a comparison panics
    (o = (match (lookup (hitOf (cmp k)) b.ino).map (·.2) with
        | none => .ok (.value none)
        | some old =>
          if x.1.key k then if x.1.ret && x.1.value old then .abort else .panic
          else .ok (.value (some old))) ∧ b' = b.insert cmp k v) ∨
    (Panics c ∧ b' = b ∧ o = if x.1.key k || x.1.value v then .abort else .panic) ∨
    (o = .abort ∧ lookup (hitOf (cmp k)) b.ino = none)
  | .remove c =>
    ∀ f, LawfulQuery cmp f → Asks f c →
      (o = (match lookup (hitOf f) b.ino with
        | none => .ok (.value none)
        | some e =>
          if x.1.key e.1 then if x.1.ret && x.1.value e.2 then .abort else .panic
          else .ok (.value (some e.2))) ∧ b' = b.erase f) ∨
      (Panics c ∧ b' = b ∧ o = .panic) ∨ o = .abort
  | .extend c src =>
    -- only the first items were inserted, and nothing that panics was dropped before the last
    ∃ used rest, src.items = used ++ rest ∧
      ((o = .ok .unit ∧ rest = [] ∧ b' = BT.insertList cmp used b ∧ src.panics = false ∧
        panicking x.1 (itemsOf (BT.discarded cmp used b)) = 0) ∨
       (o = .panic ∧ b' = BT.insertList cmp used b ∧
        panicking x.1 (itemsOf (BT.discarded cmp used.dropLast b)) = 0 ∧
        ((src.panics = true ∧ rest = []) ∨ (∃ n k, Panics (c n k)) ∨
          panicking x.1 (itemsOf (BT.discarded cmp used b)) ≠ 0)) ∨
       o = .abort)
  | op => SimpleAnswer cmp b o b' op

end Spec
end BST
