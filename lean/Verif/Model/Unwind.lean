import Verif.Model.Threads
/-!
# `UnwindSafe`, `RefUnwindSafe` and `Unpin`

Three more auto traits of the types of both crates, by the same rules as `Send` and `Sync` in
`Verif/Model/Threads.lean` (which has the fields of the types); the crates have no
implementations of these by hand. The implementations for the types of the standard library
are those of `core::panic::unwind_safe` and `core::marker`.
-/
namespace BST.Threads

/-- The three auto traits. -/
inductive Auto where
  | unwindSafe
  | refUnwindSafe
  | unpin
  deriving DecidableEq

/-- The facts from which the compiler concludes that the trait holds, if the facts in `S` can
be used. `env` says which traits the parameters have. -/
def DerivesAuto (env : Auto → Nat → Prop) (S : Auto → Ty → Prop) : Auto → Ty → Prop
  | tr, .param i => env tr i
  | _, .plain => True
  -- `impl<T: RefUnwindSafe + ?Sized> UnwindSafe for &T`, the same for `*mut T` and `NonNull<T>`
  | .unwindSafe, .ref t => S .refUnwindSafe t
  | .unwindSafe, .raw t => S .refUnwindSafe t
  -- `impl<T: ?Sized> !UnwindSafe for &mut T`
  | .unwindSafe, .refMut _ => False
  -- references and pointers are `Unpin` whatever they point to, and so are boxes
  | .unpin, .ref _ => True
  | .unpin, .raw _ => True
  | .unpin, .refMut _ => True
  | .unpin, .box _ => True
  | tr, .ref t => S tr t
  | tr, .refMut t => S tr t
  | tr, .raw t => S tr t
  | tr, .vec t => S tr t
  | tr, .opt t => S tr t
  | tr, .box t => S tr t
  | tr, .phantom t => S tr t
  | tr, .manuallyDrop t => S tr t
  | tr, .maybeUninit t => S tr t
  | tr, t => ∀ f ∈ fields t, S tr f

/-- The trait holds: it is in a set of facts that support each other. -/
def HoldsAuto (env : Auto → Nat → Prop) (tr : Auto) (t : Ty) : Prop :=
  ∃ S : Auto → Ty → Prop, (∀ tr t, S tr t → DerivesAuto env S tr t) ∧ S tr t

end BST.Threads
