import Verif.Model.Slab
/-!
# Histories of calls on one arena or one slab

The crate-internal types `StableArena` and `UnsafeSlab`: the calls that can be made, what
they return, and what they ought to return. Nothing here is part of the crate.
-/
namespace BST
variable {T : Type}

/-- What a call returns. -/
inductive StoreRet (T : Type) where
  | unit
  | ptr (p : Ptr)
  | value (v : T)
  | nat (n : Nat)
  | bool (b : Bool)
  /-- for every step of an iterator: the `size_hint` before it, and the result -/
  | items (l : List ((Nat × Option Nat) × Option (Ptr × T)))
  | text (s : String)
deriving DecidableEq

/-- Execute a sequence of calls, catching panics. If the process aborts (or worse), the
rest is not executed. -/
def execute {S O R : Type} (run : O → M S R) : List O → S → List (Out R) × S
  | [], s => ([], s)
  | op :: ops, s =>
    match run op s with
    | (.ok r, s') =>
      match execute run ops s' with
      | (os, s'') => (.ok r :: os, s'')
    | (.panic, s') =>
      match execute run ops s' with
      | (os, s'') => (.panic :: os, s'')
    | (o, s') => ([o], s')

/-! ### The arena -/

/-- A call (or small client program) on a `StableArena<T>`. -/
inductive ArenaOp (T : Type) where
  | alloc (v : T)
  /-- read `*arena.get_unchecked(p)` -/
  | get (p : Ptr)
  /-- `mem::replace(arena.get_unchecked_mut(p), w)` -/
  | set (p : Ptr) (w : T)
  /-- a new shared iterator: `next_ptr` for `false`, `next_back_ptr` for `true` -/
  | iter (ends : List Bool)
  /-- a new mutable iterator: as `iter`, and replace every value obtained by its image
  under `f` -/
  | iterMut (ends : List Bool) (f : T → T)
  | len
  | isEmpty
  | capacity
  | reserve (n : Nat)
  | shrinkToFit
  | clear
  | debug (dt : T → String)

/-- Steps of a shared iterator. -/
def Arena.takes (cfg : Cfg) (a : Arena T) :
    List Bool → Arena.Iter → Out (List ((Nat × Option Nat) × Option (Ptr × T)))
  | [], _ => .ok []
  | back :: ends, it => do
    let (x, it') ← if back then it.nextBackPtr cfg a else it.nextPtr cfg a
    let r ← Arena.takes cfg a ends it'
    pure ((it.sizeHint, x) :: r)

/-- Steps of a shared iterator that is not asked for pointers. -/
def Arena.takesPlain (cfg : Cfg) (a : Arena T) :
    List Bool → Arena.Iter → Out (List ((Nat × Option Nat) × Option T))
  | [], _ => .ok []
  | back :: ends, it => do
    let (x, it') ← if back then it.nextBack cfg a else it.next cfg a
    let r ← Arena.takesPlain cfg a ends it'
    pure ((it.sizeHint, x) :: r)

/-- Steps of a mutable iterator. -/
def Arena.takesMut (cfg : Cfg) (f : T → T) :
    List Bool → Arena.Iter → M (Arena T) (List ((Nat × Option Nat) × Option (Ptr × T)))
  | [], _ => pure []
  | back :: ends, it => do
    let (x, it') ← M.read fun a => if back then it.nextBackPtr cfg a else it.nextPtr cfg a
    match x with
    | none => pure ()
    | some (p, v) => Arena.setUnchecked p (f v)
    let r ← Arena.takesMut cfg f ends it'
    pure ((it.sizeHint, x) :: r)

/-- Execute a call on an arena; `d` describes the destructor of `T`. -/
def ArenaOp.run (cfg : Cfg) (d : DropInfo T) : ArenaOp T → M (Arena T) (StoreRet T)
  | alloc v => do
    let p ← Arena.alloc cfg v
    pure (.ptr p)
  | get p => do
    let v ← M.read fun a => a.getUnchecked p
    pure (.value v)
  | set p w => do
    let v ← M.read fun a => a.getUnchecked p
    Arena.setUnchecked p w
    pure (.value v)
  | iter ends => do
    let l ← M.read fun a => a.takes cfg ends a.iter
    pure (.items l)
  | iterMut ends f => do
    let a ← M.get
    let l ← Arena.takesMut cfg f ends a.iter
    pure (.items l)
  | len => do
    let a ← M.get
    pure (.nat a.len)
  | isEmpty => do
    let a ← M.get
    pure (.bool a.isEmpty)
  | capacity => do
    let a ← M.get
    pure (.nat a.capacity)
  | reserve n => do
    Arena.reserve cfg n
    pure .unit
  | shrinkToFit => do
    Arena.shrinkToFit cfg
    pure .unit
  | clear => do
    Arena.clear cfg d.needsDrop d.panics
    pure .unit
  | debug dt => do
    let s ← M.read fun a => a.debug cfg dt
    pure (.text s)

/-- A new arena. -/
def Arena.Fresh (cfg : Cfg) (a : Arena T) : Prop :=
  a = Arena.new ∨ ∃ n, Arena.withCapacity cfg n = (.ok (), a)

/-! ### The slab -/

/-- A call on an `UnsafeSlab<T>`. -/
inductive SlabOp (T : Type) where
  | push (v : T)
  /-- read `*slab.get_unchecked(p)` -/
  | get (p : Ptr)
  /-- `mem::replace(slab.get_unchecked_mut(p), w)` -/
  | set (p : Ptr) (w : T)
  | remove (p : Ptr)
  | len
  | isEmpty
  | capacity
  | reserve (n : Nat)
  | shrinkToFit
  | clear

/-- Execute a call on a slab; `d` describes the destructor of `T`. -/
def SlabOp.run (cfg : Cfg) (d : DropInfo T) : SlabOp T → M (Slab T) (StoreRet T)
  | push v => do
    let p ← Slab.push cfg v
    pure (.ptr p)
  | get p => do
    let v ← M.read fun s => s.getUnchecked p
    pure (.value v)
  | set p w => do
    let v ← M.read fun s => s.getUnchecked p
    Slab.updateUnchecked p fun _ => w
    pure (.value v)
  | remove p => do
    let v ← Slab.remove cfg p
    pure (.value v)
  | len => do
    let n ← M.read fun s => s.len cfg
    pure (.nat n)
  | isEmpty => do
    let b ← M.read fun s => s.isEmpty cfg
    pure (.bool b)
  | capacity => do
    let s ← M.get
    pure (.nat s.capacity)
  | reserve n => do
    Slab.reserve cfg n
    pure .unit
  | shrinkToFit => do
    Slab.shrinkToFit cfg
    pure .unit
  | clear => do
    Slab.clear cfg d
    pure .unit

/-- A new slab. -/
def Slab.Fresh (cfg : Cfg) (s : Slab T) : Prop :=
  s = Slab.new ∨ ∃ n, Slab.withCapacity cfg n = (.ok (), s)

namespace Spec

/-- The allocator or the size limits made the call fail. -/
def Fails {R : Type} (o : Out R) : Prop := o = .panic ∨ o = .abort

/-- The outcomes `os` of the calls `ops` are those of a data structure that answers as
`ans` says and starts with the contents `l`, as long as every call is `valid` (meets the
safety contract of an `unsafe fn`); nothing is said from the first call on that is not. -/
def Follows {C O R : Type} (valid : C → O → Prop) (ans : C → Out R → C → O → Prop) :
    List O → List (Out R) → C → Prop
  | [], os, _ => os = []
  | op :: ops, os, l => valid l op → ∃ o os' l', os = o :: os' ∧ ans l o l' op ∧
      ((o = .abort ∧ os' = []) ∨ (o ≠ .abort ∧ Follows valid ans ops os' l'))

/-! The contents of an arena or slab are the live pointers with their values; in the case
of the arena in the order of allocation. -/

/-- Take from the front (`false`) or the back (`true`) of a list, and report the number of
remaining elements each time. -/
def takeEnds {α : Type} : List Bool → List α → List ((Nat × Option Nat) × Option α)
  | [], _ => []
  | false :: ends, l => ((l.length, some l.length), l.head?) :: takeEnds ends l.tail
  | true :: ends, l => ((l.length, some l.length), l.getLast?) :: takeEnds ends l.dropLast

/-- Apply `f` to the elements taken from the front (`false`) or the back (`true`). -/
def mapEnds {α : Type} (f : α → α) : List Bool → List α → List α
  | [], l => l
  | false :: ends, l => (l.head?.map f).toList ++ mapEnds f ends l.tail
  | true :: ends, l => mapEnds f ends l.dropLast ++ (l.getLast?.map f).toList

/-- The pointers passed to the `unsafe` methods of an arena must be live. -/
def ArenaValid (l : List (Ptr × T)) : ArenaOp T → Prop
  | .get p => p ∈ l.map (·.1)
  | .set p _ => p ∈ l.map (·.1)
  | _ => True

/-- What an arena with the contents `l` may answer, and its contents afterwards. -/
def ArenaAnswer (l : List (Ptr × T)) (o : Out (StoreRet T)) (l' : List (Ptr × T)) :
    ArenaOp T → Prop
  | .alloc v => (∃ p, o = .ok (.ptr p) ∧ p ∉ l.map (·.1) ∧ l' = l ++ [(p, v)]) ∨
      (Fails o ∧ l' = l)
  | .get p => ∃ v, (p, v) ∈ l ∧ o = .ok (.value v) ∧ l' = l
  | .set p w => ∃ x v y, l = x ++ (p, v) :: y ∧ o = .ok (.value v) ∧ l' = x ++ (p, w) :: y
  | .iter ends => o = .ok (.items (takeEnds ends l)) ∧ l' = l
  | .iterMut ends f => o = .ok (.items (takeEnds ends l)) ∧
      l' = mapEnds (fun e => (e.1, f e.2)) ends l
  | .len => o = .ok (.nat l.length) ∧ l' = l
  | .isEmpty => o = .ok (.bool l.isEmpty) ∧ l' = l
  | .capacity => (∃ n, l.length ≤ n ∧ o = .ok (.nat n)) ∧ l' = l
  | .reserve _ => (o = .ok .unit ∨ Fails o) ∧ l' = l
  | .shrinkToFit => o = .ok .unit ∧ l' = l
  | .clear => o = .ok .unit ∧ l' = []
  | .debug dt => o = .ok (.text ("[" ++ ", ".intercalate (l.map fun e => dt e.2) ++ "]")) ∧ l' = l

/-- The pointers passed to the `unsafe` methods of a slab must be live. -/
def SlabValid (l : List (Ptr × T)) : SlabOp T → Prop
  | .get p => p ∈ l.map (·.1)
  | .set p _ => p ∈ l.map (·.1)
  | .remove p => p ∈ l.map (·.1)
  | _ => True

/-- What a slab with the contents `l` (in any order) may answer, and its contents
afterwards. -/
def SlabAnswer (l : List (Ptr × T)) (o : Out (StoreRet T)) (l' : List (Ptr × T)) :
    SlabOp T → Prop
  | .push v => (∃ p, o = .ok (.ptr p) ∧ p ∉ l.map (·.1) ∧ l' = (p, v) :: l) ∨
      (Fails o ∧ l' = l)
  | .get p => ∃ v, (p, v) ∈ l ∧ o = .ok (.value v) ∧ l' = l
  | .set p w => ∃ x v y, l = x ++ (p, v) :: y ∧ o = .ok (.value v) ∧ l' = x ++ (p, w) :: y
  | .remove p => ∃ x v y, l = x ++ (p, v) :: y ∧ o = .ok (.value v) ∧ l' = x ++ y
  | .len => o = .ok (.nat l.length) ∧ l' = l
  | .isEmpty => o = .ok (.bool l.isEmpty) ∧ l' = l
  | .capacity => (∃ n, l.length ≤ n ∧ o = .ok (.nat n)) ∧ l' = l
  | .reserve _ => (o = .ok .unit ∨ Fails o) ∧ l' = l
  | .shrinkToFit => o = .ok .unit ∧ l' = l
  | .clear => o = .ok .unit ∧ l' = []

/-- The values moved into a slab by a call with the given outcome. -/
def SlabOp.valuesIn : SlabOp T → Out (StoreRet T) → List T
  | .push v, .ok _ => [v]
  | .set _ w, .ok _ => [w]
  | _, _ => []

/-- The values handed back by a call with the given outcome. -/
def SlabOp.valuesOut : SlabOp T → Out (StoreRet T) → List T
  | .set _ _, .ok (.value v) => [v]
  | .remove _, .ok (.value v) => [v]
  | _, _ => []

/-- The same for arenas. -/
def ArenaOp.valuesIn : ArenaOp T → Out (StoreRet T) → List T
  | .alloc v, .ok _ => [v]
  | .set _ w, .ok _ => [w]
  | .iterMut _ f, .ok (.items l) => (l.filterMap (·.2)).map fun e => f e.2
  | _, _ => []

/-- The same for arenas. -/
def ArenaOp.valuesOut : ArenaOp T → Out (StoreRet T) → List T
  | .set _ _, .ok (.value v) => [v]
  | .iterMut _ _, .ok (.items l) => (l.filterMap (·.2)).map (·.2)
  | _, _ => []

/-- The contents of an arena after a call with the given outcome, if they were `l`. -/
def ArenaOp.after (l : List (Ptr × T)) : ArenaOp T → Out (StoreRet T) → List (Ptr × T)
  | .alloc v, .ok (.ptr p) => l ++ [(p, v)]
  | .set p w, .ok _ => l.map fun e => if e.1 = p then (p, w) else e
  | .iterMut ends f, .ok _ => mapEnds (fun e => (e.1, f e.2)) ends l
  | .clear, .ok _ => []
  | _, _ => l

/-- The contents of a slab after a call with the given outcome, if they were `l`. -/
def SlabOp.after (l : List (Ptr × T)) : SlabOp T → Out (StoreRet T) → List (Ptr × T)
  | .push v, .ok (.ptr p) => (p, v) :: l
  | .set p w, .ok _ => l.map fun e => if e.1 = p then (p, w) else e
  | .remove p, .ok _ => l.filter fun e => e.1 ≠ p
  | .clear, .ok _ => []
  | _, _ => l

/-- The contents after a history, computed from the calls and their outcomes. For arenas
these are the values allocated since the last `clear`, in this order, with the pointers
returned by `alloc`; for slabs, the values pushed and not removed since. -/
def contents {C O R : Type} (after : C → O → R → C) (ops : List O) (os : List R) (l : C) : C :=
  (ops.zip os).foldl (fun l x => after l x.1 x.2) l

/-- The client respects the safety contract: every call is `valid` for the contents at that
moment, as computed from the calls and outcomes before. -/
def Obeys {C O R : Type} (valid : C → O → Prop) (after : C → O → R → C) :
    List O → List R → C → Prop
  | op :: ops, o :: os, l => valid l op ∧ Obeys valid after ops os (after l op o)
  | _, _, _ => True

/-- Sum over a history. -/
def total {O R α : Type} (f : O → R → List α) (ops : List O) (os : List R) : List α :=
  (ops.zip os).flatMap fun x => f x.1 x.2

end Spec
end BST
