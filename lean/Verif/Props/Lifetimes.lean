import Verif.Proofs.Lifetimes
/-!
# Subtyping and the drop check

`Sub d out t u`: by the rules of the language and the fields of the types of the crates
(`Verif/Model/Lifetimes.lean`), a value of type `t` can be used where a `u` is expected, where
`out a b` says that the lifetime `a` outlives `b`. `NeedsAlive d t x`: the lifetime or the
parameter `x` must still be alive when a value of type `t` goes out of scope. The types `k`,
`v`, `t` are arbitrary, and `d` says how `StableArena` and `UnsafeSlab` are declared;
`Decls.code` is the code as it is.
-/
namespace BST.Props
open Spec (Order)
open Lifetimes

variable {out : Life → Life → Prop} {k v k' v' t u : Ty} {a b : Life} {o : Order}

/-- C61. A `BSTMap` is covariant in its keys and its values, and a `BSTSet` in its elements,
like `Vec`: a map of longer-lived references can be used as a map of shorter-lived ones. -/
theorem C61_map :
    (Sub .code out (.map k v) (.map k' v') ↔ Sub .code out k k' ∧ Sub .code out v v') ∧
    (Sub .code out (.set t) (.set u) ↔ Sub .code out (.vec t) (.vec u)) :=
  ⟨sub_map, sub_set.trans sub_vec.symm⟩

/-- C61. The handles that give shared access are covariant in the lifetime, the keys and the
values, like shared references. -/
theorem C61_shared :
    (Sub .code out (.node a k v) (.node b k' v') ↔
      Sub .code out (.ref a k) (.ref b k') ∧ Sub .code out (.ref a v) (.ref b v')) ∧
    (Sub .code out (.iter o a k v) (.iter o b k' v') ↔
      Sub .code out (.ref a k) (.ref b k') ∧ Sub .code out (.ref a v) (.ref b v')) ∧
    (Sub .code out (.setNode a t) (.setNode b u) ↔ Sub .code out (.ref a t) (.ref b u)) ∧
    (Sub .code out (.setIter o a t) (.setIter o b u) ↔ Sub .code out (.ref a t) (.ref b u)) := by
  simp only [sub_node, sub_iter, sub_setNode, sub_setIter, sub_ref]
  exact ⟨⟨fun h => ⟨⟨h.1, h.2.1⟩, h.1, h.2.2⟩, fun h => ⟨h.1.1, h.1.2, h.2.2⟩⟩,
    ⟨fun h => ⟨⟨h.1, h.2.1⟩, h.1, h.2.2⟩, fun h => ⟨h.1.1, h.1.2, h.2.2⟩⟩, trivial, trivial⟩

/-- C61. The handles through which values can be written, `NodeMut` and the mutable iterators,
are covariant in the lifetime and invariant in the keys and the values, like exclusive
references. So nobody can use them to store a reference in a map that does not live long
enough. -/
theorem C61_mut :
    (Sub .code out (.nodeMut a k v) (.nodeMut b k' v') ↔
      Sub .code out (.refMut a k) (.refMut b k') ∧ Sub .code out (.refMut a v) (.refMut b v')) ∧
    (Sub .code out (.iterMut o a k v) (.iterMut o b k' v') ↔
      Sub .code out (.refMut a k) (.refMut b k') ∧
      Sub .code out (.refMut a v) (.refMut b v')) := by
  simp only [sub_nodeMut, sub_iterMut, sub_refMut]
  exact ⟨⟨fun h => ⟨⟨h.1, h.2.1⟩, h.1, h.2.2⟩, fun h => ⟨h.1.1, h.1.2, h.2.2⟩⟩,
    ⟨fun h => ⟨⟨h.1, h.2.1⟩, h.1, h.2.2⟩, fun h => ⟨h.1.1, h.1.2, h.2.2⟩⟩⟩

/-- C61. The crate `simple_bst`: the same for its maps, sets, nodes and iterators, although its
nodes contain nodes. Its nodes are handed out as references, shared or exclusive, and its
mutable iterators are hidden behind `impl Iterator`. -/
theorem C61_simple :
    (Sub .code out (.simpleMap k v) (.simpleMap k' v') ↔
      Sub .code out k k' ∧ Sub .code out v v') ∧
    (Sub .code out (.simpleNode k v) (.simpleNode k' v') ↔
      Sub .code out k k' ∧ Sub .code out v v') ∧
    (Sub .code out (.refMut a (.simpleNode k v)) (.refMut b (.simpleNode k' v')) ↔
      Sub .code out (.refMut a k) (.refMut b k') ∧ Sub .code out (.refMut a v) (.refMut b v')) ∧
    (Sub .code out (.simpleIter o a k v) (.simpleIter o b k' v') ↔
      Sub .code out (.ref a k) (.ref b k') ∧ Sub .code out (.ref a v) (.ref b v')) ∧
    (Sub .code out (.simpleSet t) (.simpleSet u) ↔ Sub .code out t u) ∧
    (Sub .code out (.simpleSetNode a t) (.simpleSetNode b u) ↔
      Sub .code out (.ref a t) (.ref b u)) ∧
    (Sub .code out (.simpleSetIter o a t) (.simpleSetIter o b u) ↔
      Sub .code out (.ref a t) (.ref b u)) := by
  simp only [sub_simpleMap, sub_simpleNode, sub_simpleIter, sub_simpleSet, sub_simpleSetNode,
    sub_simpleSetIter, sub_ref, sub_refMut]
  exact ⟨trivial, trivial,
    ⟨fun h => ⟨⟨h.1, h.2.1.1, h.2.2.1⟩, h.1, h.2.1.2, h.2.2.2⟩,
      fun h => ⟨h.1.1, ⟨h.1.2.1, h.2.2.1⟩, h.1.2.2, h.2.2.2⟩⟩,
    ⟨fun h => ⟨⟨h.1, h.2.1⟩, h.1, h.2.2⟩, fun h => ⟨h.1.1, h.1.2, h.2.2⟩⟩, trivial, trivial, trivial⟩

/-- C61. It does not matter whether a map, a handle or what it gives access to is used at a
supertype: whoever has a `BSTMap` or a reference to one at a supertype gets from it handles and
values that could have been had by taking them from the original one first. -/
theorem C61_access :
    (Sub .code out (.map k v) (.map k' v') → Sub .code out k k' ∧ Sub .code out v v') ∧
    (Sub .code out (.ref a (.map k v)) (.ref b (.map k' v')) →
      Sub .code out (.node a k v) (.node b k' v') ∧
      Sub .code out (.iter o a k v) (.iter o b k' v')) ∧
    (Sub .code out (.refMut a (.map k v)) (.refMut b (.map k' v')) →
      Sub .code out (.nodeMut a k v) (.nodeMut b k' v') ∧
      Sub .code out (.iterMut o a k v) (.iterMut o b k' v')) ∧
    (Sub .code out (.nodeMut a k v) (.nodeMut b k' v') →
      Sub .code out (.ref a k) (.ref b k') ∧ Sub .code out (.refMut a v) (.refMut b v')) ∧
    (Sub .code out (.iterMut o a k v) (.iterMut o b k' v') →
      Sub .code out (.ref a k) (.ref b k') ∧ Sub .code out (.refMut a v) (.refMut b v')) := by
  simp only [sub_map, sub_node, sub_iter, sub_nodeMut, sub_iterMut, sub_ref, sub_refMut]
  exact ⟨fun h => h, fun h => ⟨h, h⟩,
    fun h => ⟨⟨h.1, ⟨h.2.1.1, h.2.2.1⟩, h.2.1.2, h.2.2.2⟩,
      h.1, ⟨h.2.1.1, h.2.2.1⟩, h.2.1.2, h.2.2.2⟩,
    fun h => ⟨⟨h.1, h.2.1.1⟩, h.1, h.2.2⟩, fun h => ⟨⟨h.1, h.2.1.1⟩, h.1, h.2.2⟩⟩

/-- C61. The markers in `StableArena` and `UnsafeSlab` make no difference to subtyping, as the
comments at src/arena.rs:131 and src/slab.rs:64 say, whatever the types. -/
theorem C61_marker (d : Decls) : Sub d out t u ↔ Sub .code out t u :=
  ⟨sub_decls _ _, sub_decls _ _⟩

/-! ### The drop check -/

variable {x : Atom}

/-- C62. Everything mentioned in the types of the keys and values of a `BSTMap` must be alive
when the map goes out of scope, even if it would not be needed for dropping them; the same
for `BSTSet`. -/
theorem C62_map :
    (NeedsAlive .code (.map k v) x ↔ x ∈ mentions k ∨ x ∈ mentions v) ∧
    (NeedsAlive .code (.set t) x ↔ x ∈ mentions t) := by
  rw [needs_map, needs_set]
  refine ⟨⟨?_, fun h => .inl ⟨rfl, h⟩⟩, ⟨?_, fun h => .inl ⟨rfl, h⟩⟩⟩
  · rintro (h | ⟨_, h | h⟩)
    · exact h.2
    · exact .inl (needs_mentions h)
    · exact .inr (needs_mentions h)
  · rintro (h | h)
    · exact h.2
    · exact needs_mentions h.2

/-- C62. The maps and sets of `simple_bst` need only what is needed for dropping their
contents. -/
theorem C62_simple :
    (NeedsAlive .code (.simpleMap k v) x ↔ NeedsAlive .code k x ∨ NeedsAlive .code v x) ∧
    (NeedsAlive .code (.simpleSet t) x ↔ NeedsAlive .code t x) :=
  ⟨needs_simpleMap, needs_simpleSet⟩

/-- C62. Nodes and iterators of both crates need nothing, they can go out of scope together
with what they refer to. -/
theorem C62_handles :
    ¬ NeedsAlive .code (.node a k v) x ∧ ¬ NeedsAlive .code (.nodeMut a k v) x ∧
    ¬ NeedsAlive .code (.iter o a k v) x ∧ ¬ NeedsAlive .code (.iterMut o a k v) x ∧
    ¬ NeedsAlive .code (.setNode a t) x ∧ ¬ NeedsAlive .code (.setIter o a t) x ∧
    ¬ NeedsAlive .code (.simpleIter o a k v) x ∧ ¬ NeedsAlive .code (.simpleSetNode a t) x ∧
    ¬ NeedsAlive .code (.simpleSetIter o a t) x :=
  ⟨needs_node, needs_nodeMut, needs_iter, needs_iterMut, needs_setNode, needs_setIter,
    needs_simpleIter, needs_simpleSetNode, needs_simpleSetIter⟩

/-- C62. Dropping a map runs the destructors of its keys and values, and whatever these need is
required to be alive. This holds for the code as it is with or without the markers. If the
planned attribute `#[may_dangle]` is added, it holds with the markers, and then a map needs no
more than a map of `simple_bst`; without them it does not hold. -/
theorem C62_sound (d : Decls) :
    ((∀ k v x, NeedsAlive d k x ∨ NeedsAlive d v x → NeedsAlive d (.map k v) x) ↔
      d.marker = true ∨ d.mayDangle = false) ∧
    ((∀ k v x, NeedsAlive d (.map k v) x ↔ NeedsAlive d (.simpleMap k v) x) ↔
      d.marker = true ∧ d.mayDangle = true) := by
  simp only [needs_map, needs_simpleMap]
  constructor
  · constructor
    · intro h
      have := h (.param 0) .plain (.param 0) (.inl (.param 0))
      rcases this with h | h
      · exact .inr h.1
      · exact .inl h.1
    · rintro (h | h) k v x hx
      · exact .inr ⟨h, hx⟩
      · exact .inl ⟨h, hx.imp needs_mentions needs_mentions⟩
  · constructor
    · intro h
      have h1 := (h (.param 0) .plain (.param 0)).2 (.inl (.param 0))
      have h2 := (h (.ref 0 .plain) .plain (.life 0)).1
      have h3 : d.mayDangle = true := by
        cases hd : d.mayDangle
        · rcases h2 (.inl ⟨hd, .inl (by simp [mentions])⟩) with h | h
          · exact (needs_ref h).elim
          · exact (needs_plain h).elim
        · rfl
      exact ⟨by simpa [h3, needs_param, needs_plain] using h1, h3⟩
    · rintro ⟨h1, h2⟩ k v x
      simp [h1, h2]

/-! ### Examples -/

/-- Two lifetimes: 0 is `'static`, 1 is a shorter one `'a`. -/
abbrev sampleOut (a b : Life) : Prop := a ≤ b

/-- `&'static str` and `&'a str` -/
def staticStr : Ty := .ref 0 .plain
@[inherit_doc staticStr]
def shortStr : Ty := .ref 1 .plain

theorem static_short : Sub .code sampleOut staticStr shortStr :=
  sub_ref.2 ⟨by decide, sub_plain⟩

theorem not_short_static : ¬ Sub .code sampleOut shortStr staticStr :=
  fun h => absurd (sub_ref.1 h).1 (by decide)

-- `C61_map`, `C61_shared`, `C61_simple`: a `BSTMap<&'static str, &'static str>` is a
-- `BSTMap<&'static str, &'a str>` and not the other way round; so are its nodes and iterators.
example : Sub .code sampleOut (.map staticStr staticStr) (.map staticStr shortStr) ∧
    ¬ Sub .code sampleOut (.map staticStr shortStr) (.map staticStr staticStr) ∧
    Sub .code sampleOut (.node 0 staticStr staticStr) (.node 1 staticStr shortStr) ∧
    ¬ Sub .code sampleOut (.node 1 staticStr staticStr) (.node 0 staticStr staticStr) ∧
    Sub .code sampleOut (.simpleMap staticStr staticStr) (.simpleMap shortStr shortStr) ∧
    ¬ Sub .code sampleOut (.map staticStr staticStr) (.simpleMap staticStr staticStr) :=
  ⟨(C61_map (t := .plain) (u := .plain)).1.2 ⟨sub_refl (fun _ => Nat.le_refl _) _, static_short⟩,
    fun h => not_short_static (sub_map.1 h).2,
    sub_node.2 ⟨by decide, sub_refl (fun _ => Nat.le_refl _) _, static_short⟩,
    fun h => absurd (sub_node.1 h).1 (by decide),
    sub_simpleMap.2 ⟨static_short, static_short⟩,
    fun h => nomatch sub_head h⟩

-- `C61_mut`: the lifetime of a `NodeMut` can be shortened, those in the values not. Otherwise
-- `*node.value_mut() = &local` would put a reference to a local variable into the map.
example : Sub .code sampleOut (.nodeMut 0 staticStr staticStr) (.nodeMut 1 staticStr staticStr) ∧
    ¬ Sub .code sampleOut (.nodeMut 0 staticStr staticStr) (.nodeMut 0 staticStr shortStr) ∧
    ¬ Sub .code sampleOut (.iterMut .ino 0 staticStr staticStr)
      (.iterMut .ino 0 staticStr shortStr) ∧
    ¬ Sub .code sampleOut (.refMut 0 (.map staticStr staticStr))
      (.refMut 0 (.map staticStr shortStr)) :=
  ⟨sub_nodeMut.2 ⟨by decide, ⟨sub_refl (fun _ => Nat.le_refl _) _,
      sub_refl (fun _ => Nat.le_refl _) _⟩, sub_refl (fun _ => Nat.le_refl _) _,
      sub_refl (fun _ => Nat.le_refl _) _⟩,
    fun h => not_short_static (sub_nodeMut.1 h).2.2.2,
    fun h => not_short_static (sub_iterMut.1 h).2.2.2,
    fun h => not_short_static (sub_map.1 (sub_refMut.1 h).2.2).2⟩

-- A map whose values are cells is invariant in what the cells contain.
example : ¬ Sub .code sampleOut (.map .plain (.cell staticStr)) (.map .plain (.cell shortStr)) :=
  fun h => not_short_static (sub_cell.1 (sub_map.1 h).2).2

-- `C62_map`, `C62_simple`: a `BSTMap<i32, &'a str>` must not outlive `'a`, a
-- `SimpleBSTMap<i32, &'a str>` may go out of scope after it.
example : NeedsAlive .code (.map .plain shortStr) (.life 1) ∧
    ¬ NeedsAlive .code (.simpleMap .plain shortStr) (.life 1) ∧
    NeedsAlive .code (.simpleMap .plain (.box (.param 0))) (.param 0) := by
  simp [C62_map (t := .plain), C62_simple (t := .plain), shortStr, mentions, needs_plain, needs_ref,
    needs_box, needs_param]

-- `C62_sound`: with the attribute and without the markers, the values of a map would be dropped
-- although the compiler does not know it.
example : ¬ NeedsAlive ⟨false, true⟩ (.map .plain (.param 0)) (.param 0) ∧
    NeedsAlive ⟨true, true⟩ (.map .plain (.param 0)) (.param 0) ∧
    NeedsAlive ⟨false, false⟩ (.map .plain (.param 0)) (.param 0) := by
  simp [needs_map, mentions, needs_plain, needs_param]

end BST.Props
