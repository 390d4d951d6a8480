/-!
# Sizes and alignments

What the language says about the sizes, alignments and fields of types, and the layouts of the
types whose values the arena stores. Elsewhere in the model an address is a block and the number
of an element in it, and the size of an element is a parameter (`Cfg.esize`).
-/
namespace BST

/-- The size and the alignment of a type, in bytes. -/
structure Layout where
  size : Nat
  align : Nat
deriving DecidableEq, Repr

namespace Layout

/-- The layouts that types can have: alignments are powers of two, and sizes are multiples of the
alignment. -/
def Ok (l : Layout) : Prop := (∃ n, l.align = 2 ^ n) ∧ l.align ∣ l.size

/-- The least multiple of `a` that is at least `n`. -/
def roundUp (n a : Nat) : Nat := (n + a - 1) / a * a

/-- A pointer. `w` is the number of bytes (8 on 64-bit machines). Also `Option<NonNull<T>>`,
`Option<Box<T>>` and with it `Option<Ptr>` (src/arena.rs:92-94 `Ptr` is `repr(transparent)`),
whose `None` is the null pointer. -/
def word (w : Nat) : Layout := ⟨w, w⟩

/-- The layout of a `#[repr(C)]` union: all fields at offset 0, the alignment is that of the most
aligned field, and the size that of the largest, rounded up. -/
def union (fs : List Layout) : Layout :=
  let align := fs.foldl (fun a f => max a f.align) 1
  ⟨roundUp (fs.foldl (fun s f => max s f.size) 0) align, align⟩

/-- `l` is a layout that the language allows for a struct with fields of layouts `fs`, with the
fields at the offsets `offs`: fields are aligned and do not overlap, the struct is at least as
aligned as its fields. (The compiler chooses among these; nothing is known about the order.) -/
structure IsStruct (l : Layout) (fs : List Layout) (offs : List Nat) : Prop where
  ok : l.Ok
  length : offs.length = fs.length
  aligned : ∀ (i : Nat) (f : Layout) (o : Nat), fs[i]? = some f → offs[i]? = some o →
    f.Ok ∧ f.align ≤ l.align ∧ f.align ∣ o ∧ o + f.size ≤ l.size
  apart : ∀ (i j : Nat) (f g : Layout) (o q : Nat), i ≠ j → fs[i]? = some f → fs[j]? = some g → offs[i]? = some o →
    offs[j]? = some q → o + f.size ≤ q ∨ q + g.size ≤ o

/-- src/slab.rs:11-15 `Entry<T>`: a union of `ManuallyDrop<T>`, which has the layout of `T`, and
`FreeEntry` (src/slab.rs:19-23), a struct with the field `Option<Ptr>`. (For a struct with a single
field the language promises only that it is at least as large and aligned as the field; here it
is the same, as it is with the compiler and as the assertion of src/slab.rs:35 tests.) -/
def entry (w : Nat) (t : Layout) : Layout := union [t, word w]

/-- src/map.rs:21-26 `InnerNode<K, V>` (and simple_bst/src/map/node.rs:4-9 `Node<K, V>`, with boxes
for `Ptr`): a struct with a key, a value and two optional pointers. -/
def IsNode (node : Layout) (w : Nat) (k v : Layout) (offs : List Nat) : Prop :=
  node.IsStruct [k, v, word w, word w] offs

end Layout
end BST
