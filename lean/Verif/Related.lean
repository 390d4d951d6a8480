import Verif.History
/-!
# Related programs

Specification for C79: two clients that make the same calls with different keys and values, and what
it means that they get the same results. Nothing here is part of the crate.

Everywhere `R` relates the keys of the first client to those of the second, and `S` the values.
-/
namespace BST.Spec
variable {α α' β β' K K' V V' : Type}

/-- Both absent, or both present and related. -/
inductive OptRel (R : α → α' → Prop) : Option α → Option α' → Prop where
  | none : OptRel R none none
  | some {a a'} : R a a' → OptRel R (some a) (some a')

/-- The same length, and related element by element. -/
inductive ListRel (R : α → α' → Prop) : List α → List α' → Prop where
  | nil : ListRel R [] []
  | cons {a a' l l'} : R a a' → ListRel R l l' → ListRel R (a :: l) (a' :: l')

/-- Both components are related. -/
def PairRel (R : α → α' → Prop) (S : β → β' → Prop) (x : α × β) (y : α' × β') : Prop :=
  R x.1 y.1 ∧ S x.2 y.2

/-- The same kind of outcome; if both return, what they return is related. -/
inductive OutRel (R : α → α' → Prop) : Out α → Out α' → Prop where
  | ok {a a'} : R a a' → OutRel R (.ok a) (.ok a')
  | panic : OutRel R .panic .panic
  | abort : OutRel R .abort .abort
  | ub : OutRel R .ub .ub
  | diverge : OutRel R .diverge .diverge

/-- The same shape, and the labels are related. -/
inductive BTRel (R : α → α' → Prop) : BT α → BT α' → Prop where
  | nil : BTRel R .nil .nil
  | node {l l' a a' r r'} : BTRel R l l' → R a a' → BTRel R r r' → BTRel R (.node l a r) (.node l' a' r')

/-- Comparisons that give the same answers for related keys. -/
def ProbeRel (R : K → K' → Prop) (c : Probe K) (c' : Probe K') : Prop :=
  ∀ i k k', R k k' → c i k = c' i k'

/-- The same for the comparisons of several insertions, of related keys. -/
def ProbesRel (R : K → K' → Prop) (c : Nat → K → Probe K) (c' : Nat → K' → Probe K') : Prop :=
  ∀ n k k', R k k' → ProbeRel R (c n k) (c' n k')

/-- Iterators with the same size hint that yield related pairs. -/
structure SourceRel (R : K → K' → Prop) (S : V → V' → Prop) (s : BSTMap.Source K V)
    (s' : BSTMap.Source K' V') : Prop where
  hint : s.hint = s'.hint
  items : ListRel (PairRel R S) s.items s'.items
  panics : s.panics = s'.panics

/-- Related keys and values, and the same links. -/
structure InnerRel (R : K → K' → Prop) (S : V → V' → Prop) (x : InnerNode K V) (y : InnerNode K' V') :
    Prop where
  key : R x.key y.key
  value : S x.value y.value
  left : x.left = y.left
  right : x.right = y.right

/-- Destructors that both exist or not, and panic for the same nodes. -/
structure DropRel (R : α → α' → Prop) (d : DropInfo α) (d' : DropInfo α') : Prop where
  needsDrop : d.needsDrop = d'.needsDrop
  panics : ∀ x x', R x x' → d.panics x = d'.panics x'

/-- The same step of a client of a mutable iterator; if it writes, related values. -/
inductive StepRel (S : V → V' → Prop) : Step V → Step V' → Prop where
  | next : StepRel S .next .next
  | write {i v v'} : S v v' → StepRel S (.write i v) (.write i v')

/-- The same call, with related keys and values, comparisons that give the same answers for related
keys, and other code of the user (`Clone`, `Debug`, `Drop`, iterators) that does the same with related
keys and values. -/
inductive OpRel (R : K → K' → Prop) (S : V → V' → Prop) : Op K V → Op K' V' → Prop where
  | withCapacity {n} : OpRel R S (.withCapacity n) (.withCapacity n)
  | collect {c c' s s'} : ProbesRel R c c' → SourceRel R S s s' →
      OpRel R S (.collect c s) (.collect c' s')
  | cloned {c c' f f' g g'} : ProbesRel R c c' → (∀ k k', R k k' → OptRel R (f k) (f' k')) →
      (∀ v v', S v v' → OptRel S (g v) (g' v')) → OpRel R S (.cloned c f g) (.cloned c' f' g')
  | insert {c c' k k' v v'} : ProbeRel R c c' → R k k' → S v v' →
      OpRel R S (.insert c k v) (.insert c' k' v')
  | remove {c c'} : ProbeRel R c c' → OpRel R S (.remove c) (.remove c')
  | removeEntry {c c'} : ProbeRel R c c' → OpRel R S (.removeEntry c) (.removeEntry c')
  | get {c c'} : ProbeRel R c c' → OpRel R S (.get c) (.get c')
  | getEntry {c c'} : ProbeRel R c c' → OpRel R S (.getEntry c) (.getEntry c')
  | containsKey {c c'} : ProbeRel R c c' → OpRel R S (.containsKey c) (.containsKey c')
  | getMut {c c' w w'} : ProbeRel R c c' → S w w' → OpRel R S (.getMut c w) (.getMut c' w')
  | getEntryMut {c c' w w'} : ProbeRel R c c' → S w w' → OpRel R S (.getEntryMut c w) (.getEntryMut c' w')
  | node {path} : OpRel R S (.node path) (.node path)
  | nodeMut {path w w'} : S w w' → OpRel R S (.nodeMut path w) (.nodeMut path w')
  | iter {o n} : OpRel R S (.iter o n) (.iter o n)
  | iterMut {o steps steps'} : ListRel (StepRel S) steps steps' →
      OpRel R S (.iterMut o steps) (.iterMut o steps')
  | len : OpRel R S .len .len
  | isEmpty : OpRel R S .isEmpty .isEmpty
  | capacity : OpRel R S .capacity .capacity
  | clear {d d'} : DropRel (InnerRel R S) d d' → OpRel R S (.clear d) (.clear d')
  | reserve {n} : OpRel R S (.reserve n) (.reserve n)
  | shrinkToFit : OpRel R S .shrinkToFit .shrinkToFit
  | extend {c c' s s'} : ProbesRel R c c' → SourceRel R S s s' → OpRel R S (.extend c s) (.extend c' s')
  | debug {dk dk' dv dv'} : (∀ k k', R k k' → dk k = dk' k') → (∀ v v', S v v' → dv v = dv' v') →
      OpRel R S (.debug dk dv) (.debug dk' dv')

/-- The same answer: equal numbers, truth values and texts, related keys and values. -/
inductive RetRel (R : K → K' → Prop) (S : V → V' → Prop) : Ret K V → Ret K' V' → Prop where
  | unit : RetRel R S .unit .unit
  | bool {b} : RetRel R S (.bool b) (.bool b)
  | nat {n} : RetRel R S (.nat n) (.nat n)
  | value {v v'} : OptRel S v v' → RetRel R S (.value v) (.value v')
  | entry {e e'} : OptRel (PairRel R S) e e' → RetRel R S (.entry e) (.entry e')
  | node {n n'} : OptRel (PairRel R (PairRel S Eq)) n n' → RetRel R S (.node n) (.node n')
  | items {l l'} : ListRel (OptRel (PairRel R S)) l l' → RetRel R S (.items l) (.items l')
  | keys {l l'} : ListRel R l l' → RetRel R S (.keys l) (.keys l')
  | text {s} : RetRel R S (.text s) (.text s)

/-! ### Renaming -/

/-- Replace the keys and values of an answer. -/
def _root_.BST.Ret.map (f : K → K') (g : V → V') : Ret K V → Ret K' V'
  | .unit => .unit
  | .bool b => .bool b
  | .nat n => .nat n
  | .value v => .value (v.map g)
  | .entry e => .entry (e.map fun e => (f e.1, g e.2))
  | .node n => .node (n.map fun n => (f n.1, g n.2.1, n.2.2))
  | .items l => .items (l.map (Option.map fun e => (f e.1, g e.2)))
  | .keys l => .keys (l.map f)
  | .text s => .text s

/-! ### Where keys and values come from -/

/-- All keys and values that the call passes to the map, and all that its `Clone` implementations make of
such keys and values, have the properties `P` and `Q`. -/
def _root_.BST.Op.Only (P : K → Prop) (Q : V → Prop) : Op K V → Prop
  | .collect _ s => ∀ e ∈ s.items, P e.1 ∧ Q e.2
  | .cloned _ f g => (∀ k k', P k → f k = some k' → P k') ∧ ∀ v v', Q v → g v = some v' → Q v'
  | .insert _ k v => P k ∧ Q v
  | .getMut _ w => Q w
  | .getEntryMut _ w => Q w
  | .nodeMut _ w => Q w
  | .iterMut _ steps => ∀ i w, Step.write i w ∈ steps → Q w
  | .extend _ s => ∀ e ∈ s.items, P e.1 ∧ Q e.2
  | _ => True

/-- All keys and values in the answer have the properties `P` and `Q`. -/
def _root_.BST.Ret.Only (P : K → Prop) (Q : V → Prop) : Ret K V → Prop
  | .value v => ∀ x, v = some x → Q x
  | .entry e => ∀ x, e = some x → P x.1 ∧ Q x.2
  | .node n => ∀ x, n = some x → P x.1 ∧ Q x.2.1
  | .items l => ∀ x, some x ∈ l → P x.1 ∧ Q x.2
  | .keys l => ∀ x ∈ l, P x
  | _ => True

end BST.Spec
