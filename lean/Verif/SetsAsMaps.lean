import Verif.SetHistory
import Verif.SimpleSetHistory
import Verif.Related
import Verif.Placement
/-!
# Sets as maps

Specification for C82: what a client would do who has no sets, and uses maps with the value `()`
instead. Nothing here is part of the crates.
-/
namespace BST
variable {T : Type}

/-- The same user iterator, yielding pairs. -/
def BSTSet.Source.pairs (s : BSTSet.Source T) : BSTMap.Source T Unit :=
  ⟨s.hint, s.items.map fun t => (t, ()), s.panics⟩

/-- The call that one would make on a `BSTMap<T, ()>`. -/
def SetOp.onMap : SetOp T → Op T Unit
  | withCapacity n => .withCapacity n
  | collect cmps src => .collect cmps src.pairs
  | cloned cmps cloneT => .cloned cmps cloneT some
  | insert c t => .insert c t ()
  | remove c => .remove c
  | take c => .removeEntry c
  | get c => .getEntry c
  | contains c => .containsKey c
  | node path => .node path
  | iter o n => .iter o n
  | len => .len
  | isEmpty => .isEmpty
  | capacity => .capacity
  | clear d => .clear d
  | reserve n => .reserve n
  | shrinkToFit => .shrinkToFit
  | extend cmps src => .extend cmps src.pairs
  | debug dt => .debug dt fun _ => "()"

/-- The call that one would make on a `SimpleBSTMap<T, ()>`. -/
def SimpleSetOp.onMap : SimpleSetOp T → SimpleOp T Unit
  | collect cmps src => .collect cmps src.pairs
  | cloned cloneT => .cloned cloneT some
  | insert c t => .insert c t ()
  | remove c => .remove c
  | take c => .removeEntry c
  | get c => .getEntry c
  | contains c => .containsKey c
  | node path => .node path
  | iter o n => .iter o n
  | len => .len
  | isEmpty => .isEmpty
  | clear => .clear
  | extend cmps src => .extend cmps src.pairs
  | debug dt => .debug dt fun _ => "()"

/-- The comparisons that the call makes when it inserts keys are among those that `ok` allows. -/
def Op.Allowed {K V : Type} (ok : K → Probe K → Prop) : Op K V → Prop
  | collect cmps _ => ∀ n k, ok k (cmps n k)
  | cloned cmps _ _ => ∀ n k, ok k (cmps n k)
  | insert c k _ => ok k c
  | extend cmps _ => ∀ n k, ok k (cmps n k)
  | _ => True

/-- The same for sets. -/
def SetOp.Allowed (ok : T → Probe T → Prop) : SetOp T → Prop
  | collect cmps _ => ∀ n k, ok k (cmps n k)
  | cloned cmps _ => ∀ n k, ok k (cmps n k)
  | insert c k => ok k c
  | extend cmps _ => ∀ n k, ok k (cmps n k)
  | _ => True

namespace Spec

/-- What the answer of the map says about the set: `insert` says whether there was no old value, `remove`
whether there was one, and values `()` are left out. (The texts of `Debug` differ; C66 says what they
are.) -/
inductive Tells : SetOp T → Ret T Unit → SetRet T → Prop where
  | insert {c t v} : Tells (.insert c t) (.value v) (.bool v.isNone)
  | remove {c v} : Tells (.remove c) (.value v) (.bool v.isSome)
  | take {c e} : Tells (.take c) (.entry e) (.elem (e.map (·.1)))
  | get {c e} : Tells (.get c) (.entry e) (.elem (e.map (·.1)))
  | contains {c b} : Tells (.contains c) (.bool b) (.bool b)
  | node {path n} : Tells (.node path) (.node n) (.node (n.map fun n => (n.1, n.2.2)))
  | iter {o n l} : Tells (.iter o n) (.items l) (.items (l.map (Option.map (·.1))))
  | len {n} : Tells .len (.nat n) (.nat n)
  | isEmpty {b} : Tells .isEmpty (.bool b) (.bool b)
  | capacity {n} : Tells .capacity (.nat n) (.nat n)
  | debug {dt s s'} : Tells (.debug dt) (.text s) (.text s')
  | withCapacity {n} : Tells (.withCapacity n) .unit .unit
  | collect {c s} : Tells (.collect c s) .unit .unit
  | cloned {c f} : Tells (.cloned c f) .unit .unit
  | clear {d} : Tells (.clear d) .unit .unit
  | reserve {n} : Tells (.reserve n) .unit .unit
  | shrinkToFit : Tells .shrinkToFit .unit .unit
  | extend {c s} : Tells (.extend c s) .unit .unit

/-- The answers of a sequence of calls on a map, one by one, and those on a set; both may end early,
at the same call. -/
inductive TellsAll : List (SetOp T) → List (Out (Ret T Unit)) → List (Out (SetRet T)) → Prop where
  | nil {ops} : TellsAll ops [] []
  | cons {op ops o o' os os'} : OutRel (Tells op) o o' → TellsAll ops os os' →
      TellsAll (op :: ops) (o :: os) (o' :: os')

/-! ### For C76 and C77 -/

/-- The call works with the memory the set has, unless a new element does not fit. -/
def _root_.BST.SetOp.InPlace : SetOp T → Prop
  | .withCapacity _ => False
  | .collect _ _ => False
  | .cloned _ _ => False
  | .reserve _ => False
  | .shrinkToFit => False
  | .extend _ _ => False
  | _ => True

/-- The call takes no element out and does not replace the set, and it adds at most one element (so it is
not `extend`). -/
def _root_.BST.SetOp.Fills : SetOp T → Prop
  | .withCapacity _ => False
  | .collect _ _ => False
  | .cloned _ _ => False
  | .remove _ => False
  | .take _ => False
  | .clear _ => False
  | .extend _ _ => False
  | _ => True

/-- The elements for which `insert` returned `true`, in this order. -/
def added : List (SetOp T) → List (Out (SetRet T)) → List T
  | .insert _ t :: ops, .ok (.bool true) :: os => t :: added ops os
  | _ :: ops, _ :: os => added ops os
  | _, _ => []

/-! ### For C79 -/

variable {T' : Type}

/-- Iterators with the same size hint that yield related elements. -/
structure SetSourceRel (R : T → T' → Prop) (s : BSTSet.Source T) (s' : BSTSet.Source T') : Prop where
  hint : s.hint = s'.hint
  items : ListRel R s.items s'.items
  panics : s.panics = s'.panics

/-- The same call on two sets, as `OpRel`. -/
inductive SetOpRel (R : T → T' → Prop) : SetOp T → SetOp T' → Prop where
  | withCapacity {n} : SetOpRel R (.withCapacity n) (.withCapacity n)
  | collect {c c' s s'} : ProbesRel R c c' → SetSourceRel R s s' →
      SetOpRel R (.collect c s) (.collect c' s')
  | cloned {c c' f f'} : ProbesRel R c c' → (∀ k k', R k k' → OptRel R (f k) (f' k')) →
      SetOpRel R (.cloned c f) (.cloned c' f')
  | insert {c c' k k'} : ProbeRel R c c' → R k k' → SetOpRel R (.insert c k) (.insert c' k')
  | remove {c c'} : ProbeRel R c c' → SetOpRel R (.remove c) (.remove c')
  | take {c c'} : ProbeRel R c c' → SetOpRel R (.take c) (.take c')
  | get {c c'} : ProbeRel R c c' → SetOpRel R (.get c) (.get c')
  | contains {c c'} : ProbeRel R c c' → SetOpRel R (.contains c) (.contains c')
  | node {path} : SetOpRel R (.node path) (.node path)
  | iter {o n} : SetOpRel R (.iter o n) (.iter o n)
  | len : SetOpRel R .len .len
  | isEmpty : SetOpRel R .isEmpty .isEmpty
  | capacity : SetOpRel R .capacity .capacity
  | clear {d d'} : DropRel (InnerRel R Eq) d d' → SetOpRel R (.clear d) (.clear d')
  | reserve {n} : SetOpRel R (.reserve n) (.reserve n)
  | shrinkToFit : SetOpRel R .shrinkToFit .shrinkToFit
  | extend {c c' s s'} : ProbesRel R c c' → SetSourceRel R s s' → SetOpRel R (.extend c s) (.extend c' s')
  | debug {dt dt'} : (∀ k k', R k k' → dt k = dt' k') → SetOpRel R (.debug dt) (.debug dt')

/-- The same answer: equal numbers, truth values and texts, related elements. -/
inductive SetRetRel (R : T → T' → Prop) : SetRet T → SetRet T' → Prop where
  | unit : SetRetRel R .unit .unit
  | bool {b} : SetRetRel R (.bool b) (.bool b)
  | nat {n} : SetRetRel R (.nat n) (.nat n)
  | elem {e e'} : OptRel R e e' → SetRetRel R (.elem e) (.elem e')
  | node {n n'} : OptRel (PairRel R Eq) n n' → SetRetRel R (.node n) (.node n')
  | items {l l'} : ListRel (OptRel R) l l' → SetRetRel R (.items l) (.items l')
  | text {s} : SetRetRel R (.text s) (.text s)

end Spec
end BST
