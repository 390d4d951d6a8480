/-!
# Outcomes, state passing, machine arithmetic, loops

Conventions shared by the whole model (Rust semantics, not a particular file).
-/
namespace BST

/-- Outcome of running a piece of Rust code.
* `ok a`: returned `a`;
* `panic`: a panic started unwinding (explicit `panic!`/`assert!`/`debug_assert!`,
  arithmetic overflow with overflow checks, "capacity overflow", user code);
* `abort`: `handle_alloc_error`, the process ends;
* `ub`: undefined behaviour (invalid, freed, uninitialised or wrong-variant access);
* `diverge`: a loop ran out of fuel (see `loop`). -/
inductive Out (α : Type) where
  | ok (a : α)
  | panic
  | abort
  | ub
  | diverge
deriving DecidableEq, Repr

namespace Out
@[inline] def bind {α β} (x : Out α) (f : α → Out β) : Out β :=
  match x with
  | ok a => f a
  | panic => panic
  | abort => abort
  | ub => ub
  | diverge => diverge

instance : Monad Out where
  pure := Out.ok
  bind := Out.bind

/-- Apply a function to what was returned. -/
def map {α β : Type} (g : α → β) : Out α → Out β
  | ok a => ok (g a)
  | panic => panic
  | abort => abort
  | ub => ub
  | diverge => diverge
end Out

/-- A `&mut self` method on a state `σ`: outcome and the state *afterwards*
(also after a panic: the caller may catch it and keep using the object). -/
def M (σ α : Type) := σ → Out α × σ

namespace M
@[inline] def pure {σ α} (a : α) : M σ α := fun s => (.ok a, s)
@[inline] def bind {σ α β} (m : M σ α) (f : α → M σ β) : M σ β := fun s =>
  match m s with
  | (.ok a, s') => f a s'
  | (.panic, s') => (.panic, s')
  | (.abort, s') => (.abort, s')
  | (.ub, s') => (.ub, s')
  | (.diverge, s') => (.diverge, s')

instance {σ} : Monad (M σ) where
  pure := M.pure
  bind := M.bind

/-- A `&self` computation used inside a `&mut self` method. -/
@[inline] def read {σ α} (f : σ → Out α) : M σ α := fun s => (f s, s)
/-- A computation that does not look at the state. -/
@[inline] def lift {σ α} (o : Out α) : M σ α := fun s => (o, s)
@[inline] def get {σ} : M σ σ := fun s => (.ok s, s)
/-- Assignment to `self`. -/
@[inline] def modify {σ} (f : σ → σ) : M σ Unit := fun s => (.ok (), f s)
@[inline] def panic {σ α} : M σ α := fun s => (.panic, s)
@[inline] def ub {σ α} : M σ α := fun s => (.ub, s)
end M

/-- Monads with a "ran out of fuel" outcome. -/
class HasDiverge (m : Type → Type) where
  diverge : {α : Type} → m α

instance : HasDiverge Out := ⟨.diverge⟩
instance {σ} : HasDiverge (M σ) := ⟨fun s => (.diverge, s)⟩

/-- Rust `loop`/`while`: run `body` on the loop variables `b` until it says
`.inr result` (`break`/`return`); `.inl b'` continues with new loop variables.
`fuel` bounds the number of iterations; running out is the outcome `diverge`,
which is proved unreachable. -/
def loop {m : Type → Type} [Monad m] [HasDiverge m] {β α : Type}
    (fuel : Nat) (body : β → m (β ⊕ α)) (b : β) : m α :=
  match fuel with
  | 0 => HasDiverge.diverge
  | n + 1 => do
    match ← body b with
    | .inl b' => loop n body b'
    | .inr a => Pure.pure a

/-- Build configuration and environment.
* `checks`: `-C overflow-checks` (on in debug builds, off in release builds);
* `debug`: `debug_assertions`;
* `esize`: `size_of` the element type of the arena, in bytes;
* `allocOk id bytes`: whether the global allocator satisfies the request for the
  block with id `id` (an oracle: requests are numbered, so the answer may be
  different for every request). -/
structure Cfg where
  checks : Bool
  debug : Bool
  esize : Nat
  allocOk : Nat → Nat → Bool

/-- `usize` on a 64-bit target: naturals below `2^64` (src/arena.rs:65-66 only
supports `target_pointer_width = "64"`). -/
def usizeBound : Nat := 2 ^ 64

/-- `isize::MAX`, the limit on allocation sizes in `Vec::with_capacity`. -/
def isizeMax : Nat := 2 ^ 63 - 1

/-- `a + b` on `usize`: panics or wraps on overflow. -/
def addU (cfg : Cfg) (a b : Nat) : Out Nat :=
  if a + b < usizeBound then .ok (a + b)
  else if cfg.checks then .panic else .ok ((a + b) % usizeBound)

/-- `a - b` on `usize`: panics or wraps on underflow. -/
def subU (cfg : Cfg) (a b : Nat) : Out Nat :=
  if b ≤ a then .ok (a - b)
  else if cfg.checks then .panic else .ok ((a + usizeBound - b) % usizeBound)

/-- `a * b` on `usize`: panics or wraps on overflow. -/
def mulU (cfg : Cfg) (a b : Nat) : Out Nat :=
  if a * b < usizeBound then .ok (a * b)
  else if cfg.checks then .panic else .ok ((a * b) % usizeBound)

/-- `a << s` on `usize` with a `u32` shift amount: panics or masks the amount if
`s ≥ 64`; bits shifted out are lost. -/
def shlU (cfg : Cfg) (a s : Nat) : Out Nat :=
  if s < 64 then .ok ((a <<< s) % usizeBound)
  else if cfg.checks then .panic else .ok ((a <<< (s % 64)) % usizeBound)

/-- `a - b` on `u32`. -/
def subU32 (cfg : Cfg) (a b : Nat) : Out Nat :=
  if b ≤ a then .ok (a - b)
  else if cfg.checks then .panic else .ok ((a + 2 ^ 32 - b) % 2 ^ 32)

/-- `n as u32` (truncating cast). -/
def asU32 (n : Nat) : Nat := n % 2 ^ 32

/-- `usize::leading_zeros` of a 64-bit value. -/
def leadingZeros (x : Nat) : Nat := (BitVec.ofNat 64 x).clz.toNat

/-- `debug_assert!(b)`. -/
def debugAssert (cfg : Cfg) (b : Bool) : Out Unit :=
  if cfg.debug && !b then .panic else .ok ()

/-- Ghost log of memory management: chunk `id` of `n` elements was obtained from
/ returned to the global allocator. -/
inductive MemEv where
  | alloc (id n : Nat)
  | free (id n : Nat)
deriving DecidableEq, Repr

end BST
