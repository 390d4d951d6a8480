import Verif.Model.Layout
import Verif.Model.Arena
/-!
# Memory as bytes

What an allocator promises, and the addresses of the elements of arenas. The blocks are named by
some type `β`; `live b n` says that the block `b` is allocated and has room for `n` elements.
-/
namespace BST.Spec

/-- The blocks are where an allocator may put them, for elements of layout `l`: not at the null
address, aligned, within the 64-bit address space, and without overlap. `base b` is the address of
the first byte of the block `b`. -/
structure Placed {β : Type} (l : Layout) (live : β → Nat → Prop) (base : β → Nat) : Prop where
  nonnull : ∀ b n, live b n → 0 < base b
  aligned : ∀ b n, live b n → l.align ∣ base b
  fits : ∀ b n, live b n → base b + n * l.size ≤ 2 ^ 64
  apart : ∀ b c n k, b ≠ c → live b n → live c k →
    base b + n * l.size ≤ base c ∨ base c + k * l.size ≤ base b

/-- The address that src/arena.rs:261 and 431 compute for an element: `chunk.as_ptr().add(i)`. -/
def addr (l : Layout) (base : Nat → Nat) (p : Ptr) : Nat := base p.block + p.off * l.size

end BST.Spec
