import Verif.History
/-!
# Bookkeeping: which keys and values a call takes in and hands out

Nothing here is part of the crate.
-/
namespace BST
variable {K V : Type}
open Spec (BT Order)

/-- The successful calls of `insert` made by a loop over `l`, with their results. The loop
ends with the first call that fails. -/
def insertTrace (cfg : Cfg) (cmps : Nat → K → Probe K) :
    Nat → List (K × V) → BSTMap K V → List ((K × V) × Option V)
  | _, [], _ => []
  | n, (k, v) :: l, m =>
    match BSTMap.insert cfg (cmps n k) k v m with
    | (.ok r, m') => ((k, v), r) :: insertTrace cfg cmps (n + 1) l m'
    | _ => []

/-- The successful calls of `insert` made by `extend` (which reserves first). -/
def extendTrace (cfg : Cfg) (cmps : Nat → K → Probe K) (src : BSTMap.Source K V) (m : BSTMap K V) :
    List ((K × V) × Option V) :=
  match BSTMap.reserve cfg (src.hint.2.getD src.hint.1) m with
  | (.ok (), m') => insertTrace cfg cmps 0 src.items m'
  | _ => []

/-- The successful calls of `insert` made by `collect`. -/
def collectTrace (cfg : Cfg) (cmps : Nat → K → Probe K) (src : BSTMap.Source K V) :
    List ((K × V) × Option V) :=
  match BSTMap.withCapacity cfg (src.hint.2.getD src.hint.1) with
  | (.ok (), m') => insertTrace cfg cmps 0 src.items m'
  | _ => []

/-- The values overwritten by writing to entries of a list, one after another. -/
def Spec.overwritten : List (Nat × V) → List (K × V) → List V
  | [], _ => []
  | w :: ws, l => (l[w.1]?.map (·.2)).toList ++ overwritten ws (Spec.setAt l w)

/-- The entries of a map in an order, for the bookkeeping of mutable iterators. -/
def entriesIn (o : Order) (m : BSTMap K V) : List (K × V) :=
  match explore m with
  | .ok b => b.order o
  | _ => []

/-- The values that move into the map `m` in a call with the given outcome. If a call fails,
its arguments are dropped while unwinding and never belong to the map. -/
def Op.valuesIn (cfg : Cfg) (m : BSTMap K V) : Op K V → Out (Ret K V) → List V
  | .insert _ _ v, .ok _ => [v]
  | .getMut _ w, .ok (.value (some _)) => [w]
  | .getEntryMut _ w, .ok (.entry (some _)) => [w]
  | .nodeMut _ w, .ok (.entry (some _)) => [w]
  | .iterMut o steps, .ok _ => (writes (entriesIn o m).length 0 steps).map (·.2)
  | .extend cmps src, _ => (extendTrace cfg cmps src m).map (·.1.2)
  | _, _ => []

/-- The values that move out of the map in a call with the given outcome: returned to the
caller, overwritten through a `&mut V` (then dropped by the assignment in the client), or
displaced by `extend` (then dropped by the statement `self.insert(..);`). -/
def Op.valuesOut (cfg : Cfg) (m : BSTMap K V) : Op K V → Out (Ret K V) → List V
  | .insert _ _ _, .ok (.value r) => r.toList
  | .remove _, .ok (.value r) => r.toList
  | .removeEntry _, .ok (.entry r) => (r.map (·.2)).toList
  | .getMut _ _, .ok (.value r) => r.toList
  | .getEntryMut _ _, .ok (.entry r) => (r.map (·.2)).toList
  | .nodeMut _ _, .ok (.entry r) => (r.map (·.2)).toList
  | .iterMut o steps, .ok _ =>
    Spec.overwritten (writes (entriesIn o m).length 0 steps) (entriesIn o m)
  | .extend cmps src, _ => (extendTrace cfg cmps src m).filterMap (·.2)
  | _, _ => []

/-- The keys that move into the map. If `insert` finds an equal key, its argument is dropped
when it returns and never belongs to the map. -/
def Op.keysIn (cfg : Cfg) (m : BSTMap K V) : Op K V → Out (Ret K V) → List K
  | .insert _ k _, .ok (.value none) => [k]
  | .extend cmps src, _ =>
    ((extendTrace cfg cmps src m).filter fun x => x.2.isNone).map (·.1.1)
  | _, _ => []

/-- The keys that move out of the map: returned by `remove_entry`, or dropped by `remove`,
which discards the key of the pair that `remove_entry` returns. -/
def Op.keysOut (cfg : Cfg) (m : BSTMap K V) : Op K V → Out (Ret K V) → List K
  | .removeEntry _, .ok (.entry r) => (r.map (·.1)).toList
  | .remove c, _ =>
    match (BSTMap.removeEntry cfg c m).1 with
    | .ok (some e) => [e.1]
    | _ => []
  | _, _ => []

/-- Sum over the calls of a history. -/
def account {α : Type} (cfg : Cfg) (f : BSTMap K V → Op K V → Out (Ret K V) → List α) :
    List (Op K V) → BSTMap K V → List α
  | [], _ => []
  | op :: ops, m =>
    match op.run cfg m with
    | (.ok r, m') => f m op (.ok r) ++ account cfg f ops m'
    | (.panic, m') => f m op .panic ++ account cfg f ops m'
    | (o, _) => f m op o

/-- The call works on the map itself: it does not replace it by a newly built one. -/
def Op.Stays : Op K V → Prop
  | .withCapacity _ => False
  | .collect _ _ => False
  | .cloned _ _ _ => False
  | _ => True

/-- The destructors that `clear` runs do not panic, and exist (`needs_drop`). -/
def Op.Drops : Op K V → Prop
  | .clear d => d.needsDrop = true ∧ ∀ x, d.panics x = false
  | _ => True

end BST
