import Verif.Related
import Verif.SimpleSetHistory
import Verif.SetsAsMaps
/-!
# Related programs that use `SimpleBSTMap`

Specification for C79, as `Verif/Related.lean`, for the calls of the crate `simple_bst`. Nothing here is
part of the crate.
-/
namespace BST.Spec
variable {K K' V V' : Type}

/-- The same call, with related keys and values, comparisons that give the same answers for related
keys, and other code of the user (`Clone`, `Debug`, iterators) that does the same with related keys and
values. -/
inductive SimpleOpRel (R : K → K' → Prop) (S : V → V' → Prop) : SimpleOp K V → SimpleOp K' V' → Prop where
  | collect {c c' s s'} : ProbesRel R c c' → SourceRel R S s s' →
      SimpleOpRel R S (.collect c s) (.collect c' s')
  | cloned {f f' g g'} : (∀ k k', R k k' → OptRel R (f k) (f' k')) →
      (∀ v v', S v v' → OptRel S (g v) (g' v')) → SimpleOpRel R S (.cloned f g) (.cloned f' g')
  | insert {c c' k k' v v'} : ProbeRel R c c' → R k k' → S v v' →
      SimpleOpRel R S (.insert c k v) (.insert c' k' v')
  | remove {c c'} : ProbeRel R c c' → SimpleOpRel R S (.remove c) (.remove c')
  | removeEntry {c c'} : ProbeRel R c c' → SimpleOpRel R S (.removeEntry c) (.removeEntry c')
  | get {c c'} : ProbeRel R c c' → SimpleOpRel R S (.get c) (.get c')
  | getEntry {c c'} : ProbeRel R c c' → SimpleOpRel R S (.getEntry c) (.getEntry c')
  | containsKey {c c'} : ProbeRel R c c' → SimpleOpRel R S (.containsKey c) (.containsKey c')
  | getMut {c c' w w'} : ProbeRel R c c' → S w w' → SimpleOpRel R S (.getMut c w) (.getMut c' w')
  | node {path} : SimpleOpRel R S (.node path) (.node path)
  | nodeMut {path w w'} : S w w' → SimpleOpRel R S (.nodeMut path w) (.nodeMut path w')
  | iter {o n} : SimpleOpRel R S (.iter o n) (.iter o n)
  | iterMut {o n} : SimpleOpRel R S (.iterMut o n) (.iterMut o n)
  | len : SimpleOpRel R S .len .len
  | isEmpty : SimpleOpRel R S .isEmpty .isEmpty
  | clear : SimpleOpRel R S .clear .clear
  | extend {c c' s s'} : ProbesRel R c c' → SourceRel R S s s' →
      SimpleOpRel R S (.extend c s) (.extend c' s')
  | debug {dk dk' dv dv'} : (∀ k k', R k k' → dk k = dk' k') → (∀ v v', S v v' → dv v = dv' v') →
      SimpleOpRel R S (.debug dk dv) (.debug dk' dv')

/-- All keys and values that the call passes to the map, and all that its `Clone` implementations make of
such keys and values, have the properties `P` and `Q`. -/
def _root_.BST.SimpleOp.Only (P : K → Prop) (Q : V → Prop) : SimpleOp K V → Prop
  | .collect _ s => ∀ e ∈ s.items, P e.1 ∧ Q e.2
  | .cloned f g => (∀ k k', P k → f k = some k' → P k') ∧ ∀ v v', Q v → g v = some v' → Q v'
  | .insert _ k v => P k ∧ Q v
  | .getMut _ w => Q w
  | .nodeMut _ w => Q w
  | .extend _ s => ∀ e ∈ s.items, P e.1 ∧ Q e.2
  | _ => True

/-! ### Sets -/
variable {T T' : Type}

/-- The same call on two `SimpleBSTSet`s, as `SimpleOpRel`. -/
inductive SimpleSetOpRel (R : T → T' → Prop) : SimpleSetOp T → SimpleSetOp T' → Prop where
  | collect {c c' s s'} : ProbesRel R c c' → SetSourceRel R s s' →
      SimpleSetOpRel R (.collect c s) (.collect c' s')
  | cloned {f f'} : (∀ k k', R k k' → OptRel R (f k) (f' k')) → SimpleSetOpRel R (.cloned f) (.cloned f')
  | insert {c c' k k'} : ProbeRel R c c' → R k k' → SimpleSetOpRel R (.insert c k) (.insert c' k')
  | remove {c c'} : ProbeRel R c c' → SimpleSetOpRel R (.remove c) (.remove c')
  | take {c c'} : ProbeRel R c c' → SimpleSetOpRel R (.take c) (.take c')
  | get {c c'} : ProbeRel R c c' → SimpleSetOpRel R (.get c) (.get c')
  | contains {c c'} : ProbeRel R c c' → SimpleSetOpRel R (.contains c) (.contains c')
  | node {path} : SimpleSetOpRel R (.node path) (.node path)
  | iter {o n} : SimpleSetOpRel R (.iter o n) (.iter o n)
  | len : SimpleSetOpRel R .len .len
  | isEmpty : SimpleSetOpRel R .isEmpty .isEmpty
  | clear : SimpleSetOpRel R .clear .clear
  | extend {c c' s s'} : ProbesRel R c c' → SetSourceRel R s s' →
      SimpleSetOpRel R (.extend c s) (.extend c' s')
  | debug {dt dt'} : (∀ k k', R k k' → dt k = dt' k') → SimpleSetOpRel R (.debug dt) (.debug dt')

end BST.Spec
