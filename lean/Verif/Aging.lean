import Verif.SimpleHistory
import Verif.SimpleSetHistory
import Verif.Orders
/-!
# What it costs to find a key that is in the map

Nothing here is part of the crates.
-/
namespace BST.Spec
variable {K V : Type}

/-- The key `k` is in the map, and every call that looks for it makes exactly `d` comparisons:
with fewer (`upTo`) it panics, with as many it finds the entry. -/
def Takes (cfg : Cfg) (cmp : K → K → Ordering) (k : K) (m : BSTMap K V) (d : Nat) : Prop :=
  ∀ b,
    (b < d →
      m.get (upTo cmp k b) = .panic ∧ m.getEntry (upTo cmp k b) = .panic ∧
      m.containsKey (upTo cmp k b) = .panic ∧
      (BSTMap.getMut (upTo cmp k b) m).1 = .panic ∧
      (BSTMap.getEntryMut (upTo cmp k b) m).1 = .panic ∧
      (BSTMap.remove cfg (upTo cmp k b) m).1 = .panic ∧
      (BSTMap.removeEntry cfg (upTo cmp k b) m).1 = .panic ∧
      ∀ v, (BSTMap.insert cfg (upTo cmp k b) k v m).1 = .panic) ∧
    (d ≤ b → ∃ e : K × V, cmp k e.1 = .eq ∧
      m.get (upTo cmp k b) = .ok (some e.2) ∧ m.getEntry (upTo cmp k b) = .ok (some e) ∧
      m.containsKey (upTo cmp k b) = .ok true ∧
      (∃ p, (BSTMap.getMut (upTo cmp k b) m).1 = .ok (some p)) ∧
      (∃ p, (BSTMap.getEntryMut (upTo cmp k b) m).1 = .ok (some (e.1, p))) ∧
      (BSTMap.remove cfg (upTo cmp k b) m).1 = .ok (some e.2) ∧
      (BSTMap.removeEntry cfg (upTo cmp k b) m).1 = .ok (some e) ∧
      ∀ v, (BSTMap.insert cfg (upTo cmp k b) k v m).1 = .ok (some e.2))

/-- The same for a `SimpleBSTMap`, whose removals allocate and so may run out of memory. -/
def TakesSimple (cfg : Cfg) (cmp : K → K → Ordering) (k : K) (m : Simple.Map K V) (d : Nat) :
    Prop :=
  ∀ b,
    (b < d →
      m.get (upTo cmp k b) = .panic ∧ m.getEntry (upTo cmp k b) = .panic ∧
      m.containsKey (upTo cmp k b) = .panic ∧
      (Simple.Map.getMut (upTo cmp k b) m).1 = .panic ∧
      (Simple.Map.remove cfg (upTo cmp k b) m).1 = .panic ∧
      (Simple.Map.removeEntry cfg (upTo cmp k b) m).1 = .panic ∧
      ∀ v, (Simple.Map.insert cfg (upTo cmp k b) k v m).1 = .panic) ∧
    (d ≤ b → ∃ e : K × V, cmp k e.1 = .eq ∧
      m.get (upTo cmp k b) = .ok (some e.2) ∧ m.getEntry (upTo cmp k b) = .ok (some e) ∧
      m.containsKey (upTo cmp k b) = .ok true ∧
      (∃ p, (Simple.Map.getMut (upTo cmp k b) m).1 = .ok (some p)) ∧
      (Simple.Map.remove cfg (upTo cmp k b) m).1 ∈ [.ok (some e.2), .abort] ∧
      (Simple.Map.removeEntry cfg (upTo cmp k b) m).1 ∈ [.ok (some e), .abort] ∧
      ∀ v, (Simple.Map.insert cfg (upTo cmp k b) k v m).1 = .ok (some e.2))

/-- The element `k` is in the set, and every call that looks for it makes exactly `d` comparisons. -/
def TakesSet {T : Type} (cfg : Cfg) (cmp : T → T → Ordering) (k : T) (s : BSTSet T) (d : Nat) : Prop :=
  ∀ b,
    (b < d →
      s.contains (upTo cmp k b) = .panic ∧ s.get (upTo cmp k b) = .panic ∧
      (BSTSet.remove cfg (upTo cmp k b) s).1 = .panic ∧
      (BSTSet.take cfg (upTo cmp k b) s).1 = .panic ∧
      (BSTSet.insert cfg (upTo cmp k b) k s).1 = .panic) ∧
    (d ≤ b → ∃ e : T, cmp k e = .eq ∧
      s.contains (upTo cmp k b) = .ok true ∧ s.get (upTo cmp k b) = .ok (some e) ∧
      (BSTSet.remove cfg (upTo cmp k b) s).1 = .ok true ∧
      (BSTSet.take cfg (upTo cmp k b) s).1 = .ok (some e) ∧
      (BSTSet.insert cfg (upTo cmp k b) k s).1 = .ok false)

/-- The same for a `SimpleBSTSet`. -/
def TakesSetSimple {T : Type} (cfg : Cfg) (cmp : T → T → Ordering) (k : T) (s : Simple.SSet T)
    (d : Nat) : Prop :=
  ∀ b,
    (b < d →
      s.contains (upTo cmp k b) = .panic ∧ s.get (upTo cmp k b) = .panic ∧
      (Simple.SSet.remove cfg (upTo cmp k b) s).1 = .panic ∧
      (Simple.SSet.take cfg (upTo cmp k b) s).1 = .panic ∧
      (Simple.SSet.insert cfg (upTo cmp k b) k s).1 = .panic) ∧
    (d ≤ b → ∃ e : T, cmp k e = .eq ∧
      s.contains (upTo cmp k b) = .ok true ∧ s.get (upTo cmp k b) = .ok (some e) ∧
      (Simple.SSet.remove cfg (upTo cmp k b) s).1 ∈ [.ok true, .abort] ∧
      (Simple.SSet.take cfg (upTo cmp k b) s).1 ∈ [.ok (some e), .abort] ∧
      (Simple.SSet.insert cfg (upTo cmp k b) k s).1 = .ok false)

end BST.Spec

namespace BST
variable {K V : Type}

/-- The call does not replace the map by a newly built one. (`map = map.clone()` may: the clone
is built like the original.) -/
def Op.SameMap : Op K V → Prop
  | collect _ _ => False
  | _ => True

/-- The same for a `SimpleBSTMap`. -/
def SimpleOp.SameMap : SimpleOp K V → Prop
  | collect _ _ => False
  | _ => True

/-- The same for a `BSTSet`. -/
def SetOp.SameSet {T : Type} : SetOp T → Prop
  | collect _ _ => False
  | _ => True

/-- The same for a `SimpleBSTSet`. -/
def SimpleSetOp.SameSet {T : Type} : SimpleSetOp T → Prop
  | collect _ _ => False
  | _ => True

end BST
