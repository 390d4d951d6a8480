import Verif.Account
/-!
# How often the allocator is called, and where entries are stored

Specification for C76 and C77. Nothing here is part of the crate.
-/
namespace BST
variable {K V : Type}

namespace Spec

/-- Is it a request for memory? -/
def isAlloc : MemEv → Bool
  | .alloc _ _ => true
  | .free _ _ => false

/-- The number of requests for memory in a log of allocator events. -/
def allocs (log : List MemEv) : Nat := log.countP isAlloc

/-- The number of blocks given back in a log of allocator events. -/
def frees (log : List MemEv) : Nat := log.countP fun e => !isAlloc e

/-- The `j`-th slot of a list of blocks (id, number of slots), counted through all blocks in
their order. -/
def slot : List (Nat × Nat) → Nat → Option Ptr
  | [], _ => none
  | (id, n) :: bs, j => if j < n then some ⟨id, j⟩ else slot bs (j - n)

end Spec

/-- The call works with the memory the map has, unless a new entry does not fit: it neither
builds a new map nor reserves nor shrinks. -/
def Op.InPlace : Op K V → Prop
  | .withCapacity _ => False
  | .collect _ _ => False
  | .cloned _ _ _ => False
  | .reserve _ => False
  | .shrinkToFit => False
  | .extend _ _ => False
  | _ => True

/-- The call never takes an entry out of the map and does not replace the map. -/
def Op.Fills : Op K V → Prop
  | .withCapacity _ => False
  | .collect _ _ => False
  | .cloned _ _ _ => False
  | .remove _ => False
  | .removeEntry _ => False
  | .clear _ => False
  | _ => True

/-- An empty map none of whose memory is in use: new, with a capacity, or cleared. -/
inductive Blank (cfg : Cfg) (ok : K → Probe K → Prop) : BSTMap K V → Prop where
  | new : Blank cfg ok BSTMap.new
  | withCapacity {n : Nat} {m : BSTMap K V} :
      BSTMap.withCapacity cfg n = (.ok (), m) → Blank cfg ok m
  | clear {d : DropInfo (InnerNode K V)} {m m' : BSTMap K V} : Reach cfg ok m →
      BSTMap.clear cfg d m = (.ok (), m') → Blank cfg ok m'

end BST
