import Verif.Model.Boxes
import Verif.SimpleHistory
/-!
# Histories of calls on one `SimpleBSTMap`, with addresses

As `Verif/SimpleHistory.lean`, for `Model/Boxes.lean`. Nothing here is part of the crate.
-/
namespace BST
variable {H K V : Type} [Aliasing H]
open Simple (Link)

/-- One call on a `SimpleBSTMap` of `Model/Boxes.lean`. -/
inductive BoxOp (K V : Type) where
  | insert (c : Probe K) (k : K) (v : V)
  | removeEntry (c : Probe K)
  | get (c : Probe K)
  /-- `map.get_mut(q).map(|r| mem::replace(r, w))` -/
  | getMut (c : Probe K) (w : V)
  | clear

/-- The call. -/
def BoxOp.run (cfg : Cfg) : BoxOp K V → M (Boxes.Mem H K V) (Ret K V)
  | .insert c k v => do
    let r ← Boxes.insert cfg c k v
    pure (.value r)
  | .removeEntry c => do
    let r ← Boxes.removeEntry cfg c
    pure (.entry r)
  | .get c => do
    let r ← Boxes.get c
    pure (.value r)
  | .getMut c w => do
    let r ← Boxes.getMut c w
    pure (.value r)
  | .clear => do
    Boxes.clear
    pure .unit

/-- The same call without addresses. -/
def BoxOp.plain : BoxOp K V → SimpleOp K V
  | .insert c k v => .insert c k v
  | .removeEntry c => .removeEntry c
  | .get c => .get c
  | .getMut c w => .getMut c w
  | .clear => .clear

/-- The outcomes of the calls on a new map, and the memory after them. -/
def boxHistory (H : Type) [Aliasing H] (cfg : Cfg) (ops : List (BoxOp K V)) :
    List (Out (Ret K V)) × Boxes.Mem H K V :=
  execute (BoxOp.run cfg) ops Boxes.Mem.new

/-- What one finds in memory if one follows the pointers from a box. -/
inductive Boxes.Stored (nodes : Nat → Option (Boxes.Node K V)) :
    Option Boxes.Pointer → Link K V → Prop where
  | nil : Stored nodes none .nil
  | node {p : Boxes.Pointer} {n : Boxes.Node K V} {l r : Link K V} :
      nodes p.block = some n → Stored nodes n.left l → Stored nodes n.right r →
      Stored nodes (some p) (.node n.key n.value l r)

/-- What one finds in memory from the map. -/
inductive Boxes.Holds (s : Boxes.Mem H K V) : Link K V → Prop where
  | nil : s.nodes 0 = none → Holds s .nil
  | node {n : Boxes.Node K V} {l r : Link K V} :
      s.nodes 0 = some n → Stored s.nodes n.left l → Stored s.nodes n.right r →
      Holds s (.node n.key n.value l r)

end BST
