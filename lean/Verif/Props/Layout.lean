import Verif.Proofs.Layout
import Verif.Proofs.Client
import Verif.Proofs.Sample
/-!
# Sizes, alignment and addresses

`Layout` is a size and an alignment, `IsNode node w k v offs` says that `node` is a layout that the
compiler may choose for `InnerNode<K, V>` with fields at the offsets `offs`, for keys and values of
layouts `k` and `v` and pointers of `w` bytes; `entry w t` is the layout of `Entry<T>`
(`Verif/Model/Layout.lean`). `Placed` is what allocators promise (`Verif/Memory.lean`).
-/
namespace BST.Props
open Spec Layout
variable {K V T : Type} {cfg : Cfg} {w : Nat}

/-! ### Sizes -/

/-- C64. An `Entry<T>` has room for a `T` and for a pointer, both aligned. -/
theorem C64_entry {t : Layout} (ht : t.Ok) (hw : ∃ n, w = 2 ^ n) :
    (entry w t).Ok ∧ t.size ≤ (entry w t).size ∧ t.align ∣ (entry w t).align ∧
    w ≤ (entry w t).size ∧ w ∣ (entry w t).align :=
  ⟨entry_ok ht hw, (entry_size_le ht).1, (entry_align_dvd ht hw).1, (entry_size_le ht).2,
    (entry_align_dvd ht hw).2⟩

/-- C64. The free list costs less than one pointer per entry ("max of 8 bytes overhead per entry",
src/slab.rs:35), one pointer if `T` is zero-sized. The exception are zero-sized types with an
alignment larger than that of a pointer: there the entry is as large as the alignment. -/
theorem C64_overhead {t : Layout} (ht : t.Ok) (hw : ∃ n, w = 2 ^ n) :
    (0 < t.size → (entry w t).size < t.size + w) ∧
    (t.size = 0 → (entry w t).size = max w t.align) :=
  ⟨fun h => (entry_overhead ht hw (.inl h)).2 h, fun h => entry_small ht hw (by omega)⟩

/-- C64. In maps and sets the free list costs nothing: an entry is as large as a node, whatever the
types of keys and values are and whatever order of fields the compiler chooses. A node takes two
pointers at least. -/
theorem C64_node {k v node : Layout} {offs : List Nat} (hn : node.IsNode w k v offs) :
    entry w node = node ∧ 2 * w ≤ node.size := ⟨hn.entry, hn.two.1⟩

/-! ### Addresses -/

/-- The blocks that a collection of maps has allocated, by the logs of their allocations. -/
def mapBlocks {ι : Type} (maps : ι → BSTMap K V) (b : ι × Nat) (n : Nat) : Prop :=
  ∃ blocks, replay (maps b.1).nodes.items.log = some blocks ∧ (b.2, n) ∈ blocks

/-- The blocks that a slab has allocated. -/
def slabBlocks (s : Slab T) (b : Unit × Nat) (n : Nat) : Prop :=
  ∃ blocks, replay s.items.log = some blocks ∧ (b.2, n) ∈ blocks

section
variable {ι : Type} {maps : ι → BSTMap K V} {ok : K → Probe K → Prop} {k v node : Layout}
  {offs : List Nat} {base : ι × Nat → Nat}

/-- C64. Any number of maps in one memory, after any calls, wherever the allocator put their
blocks: every entry `p` that the code may access, whether it is a node or free, has an address that
is not null (so that `None` is not confused with it), aligned for the node, for the free list and
for every field of the node, and lies within an allocated block; the offsets that are added to the
address of the block fit `isize`, as `ptr::add` requires. -/
theorem C64_aligned (hr : ∀ i, Reach cfg ok (maps i)) (hw : ∃ n, w = 2 ^ n)
    (hn : node.IsNode w k v offs) (hs : cfg.esize = (entry w node).size)
    (hp : Placed (entry w node) (mapBlocks maps) base)
    {i : ι} {p : Ptr} {e : Entry (InnerNode K V)}
    (he : (maps i).nodes.items.getUnchecked p = .ok e) :
    0 < addr (entry w node) (fun b => base (i, b)) p ∧
    node.align ∣ addr (entry w node) (fun b => base (i, b)) p ∧
    w ∣ addr (entry w node) (fun b => base (i, b)) p ∧
    (∀ (j : Nat) (f : Layout) (o : Nat), [k, v, word w, word w][j]? = some f → offs[j]? = some o →
      f.align ∣ addr (entry w node) (fun b => base (i, b)) p + o ∧
      o + f.size ≤ (entry w node).size) ∧
    ∃ n, mapBlocks maps (i, p.block) n ∧
      base (i, p.block) ≤ addr (entry w node) (fun b => base (i, b)) p ∧
      addr (entry w node) (fun b => base (i, b)) p + (entry w node).size ≤
        base (i, p.block) + n * (entry w node).size ∧
      n * (entry w node).size ≤ isizeMax := by
  obtain ⟨t, ht⟩ := (hr i).shape
  obtain ⟨frees, hf⟩ := ht.slab
  have hc : (maps i).nodes.items.cell p = some e := by
    unfold Arena.getUnchecked at he
    cases h : (maps i).nodes.items.cell p with
    | none => rw [h] at he; cases he
    | some x => rw [h] at he; cases he; rfl
  obtain ⟨n, h1, h2, h3, h4⟩ := hf.items.cell_block hc hf.items.log
  have hl : mapBlocks maps (i, p.block) n := ⟨_, hf.items.log, h1⟩
  obtain ⟨a1, a2, a3, a4, -⟩ := hp.inside hl h2 (entry_ok hn.ok hw)
  obtain ⟨d1, d2⟩ := entry_align_dvd hn.ok hw
  refine ⟨a1, Nat.dvd_trans d1 a2, Nat.dvd_trans d2 a2, fun j f o hj ho => ?_, n, hl, a3, a4,
    hs ▸ h3⟩
  obtain ⟨f1, f2, f3, f4⟩ := hn.aligned j f o hj ho
  rw [hn.entry] at a2 ⊢
  exact ⟨Nat.dvd_add (Nat.dvd_trans (pow_dvd_of_le f1.1 hn.ok.1 f2) a2) f3, f4⟩

/-- C64. Different entries, of one map or of two, have no byte in common. So addresses are equal
only for the same entry (which `==` of nodes, `clear` and the free list rely on), as they are in the
rest of the model. -/
theorem C64_apart (hr : ∀ i, Reach cfg ok (maps i)) (hw : 0 < w)
    (hn : node.IsNode w k v offs) (hp : Placed (entry w node) (mapBlocks maps) base)
    {i j : ι} {p q : Ptr} {e f : Entry (InnerNode K V)}
    (he : (maps i).nodes.items.getUnchecked p = .ok e)
    (hf : (maps j).nodes.items.getUnchecked q = .ok f) :
    (¬ (i = j ∧ p = q) →
      addr (entry w node) (fun b => base (i, b)) p + (entry w node).size ≤
        addr (entry w node) (fun b => base (j, b)) q ∨
      addr (entry w node) (fun b => base (j, b)) q + (entry w node).size ≤
        addr (entry w node) (fun b => base (i, b)) p) ∧
    (addr (entry w node) (fun b => base (i, b)) p = addr (entry w node) (fun b => base (j, b)) q ↔
      i = j ∧ p = q) := by
  have cell : ∀ {i p e}, (maps i).nodes.items.getUnchecked p = .ok e →
      ∃ n, mapBlocks maps (i, p.block) n ∧ p.off < n := by
    intro i p e he
    obtain ⟨t, ht⟩ := (hr i).shape
    obtain ⟨frees, hf⟩ := ht.slab
    have hc : (maps i).nodes.items.cell p = some e := by
      unfold Arena.getUnchecked at he
      cases h : (maps i).nodes.items.cell p with
      | none => rw [h] at he; cases he
      | some x => rw [h] at he; cases he; rfl
    obtain ⟨n, h1, h2, -⟩ := hf.items.cell_block hc hf.items.log
    exact ⟨n, ⟨_, hf.items.log, h1⟩, h2⟩
  obtain ⟨n, a1, a2⟩ := cell he
  obtain ⟨m, b1, b2⟩ := cell hf
  have hz := (entry_size_le (w := w) hn.ok).2
  refine ⟨hp.separate a1 b1 a2 b2, fun h => ?_, ?_⟩
  · by_cases hne : i = j ∧ p = q
    · exact hne
    · have := hp.separate a1 b1 a2 b2 hne
      omega
  · rintro ⟨rfl, rfl⟩; rfl

end

/-- C64. The same for a slab of elements of any type (`t` is its layout), after any calls that obey
the contract. -/
theorem C64_slab {s s' : Slab T} {d : DropInfo T} (hs : s.Fresh cfg) (hd : ∀ v, d.panics v = false)
    {ops : List (SlabOp T)} {os : List (Out (StoreRet T))}
    (he : execute (SlabOp.run cfg d) ops s = (os, s'))
    (hob : Obeys SlabValid Spec.SlabOp.after ops os [])
    {t : Layout} (ht : t.Ok) (hw : ∃ n, w = 2 ^ n) (hz : cfg.esize = (entry w t).size)
    {base : Unit × Nat → Nat} (hp : Placed (entry w t) (slabBlocks s') base)
    {p q : Ptr} {x y : T} (hx : s'.getUnchecked p = .ok x) (hy : s'.getUnchecked q = .ok y) :
    0 < addr (entry w t) (fun b => base ((), b)) p ∧
    t.align ∣ addr (entry w t) (fun b => base ((), b)) p ∧
    (∃ n, slabBlocks s' ((), p.block) n ∧
      base ((), p.block) ≤ addr (entry w t) (fun b => base ((), b)) p ∧
      addr (entry w t) (fun b => base ((), b)) p + t.size ≤
        base ((), p.block) + n * (entry w t).size ∧
      n * (entry w t).size ≤ isizeMax) ∧
    (p ≠ q →
      addr (entry w t) (fun b => base ((), b)) p + t.size ≤
        addr (entry w t) (fun b => base ((), b)) q ∨
      addr (entry w t) (fun b => base ((), b)) q + t.size ≤
        addr (entry w t) (fun b => base ((), b)) p) ∧
    (addr (entry w t) (fun b => base ((), b)) p = addr (entry w t) (fun b => base ((), b)) q ↔
      p = q) := by
  obtain ⟨⟨frees, hf⟩, h⟩ := Slab.history_holds hd hs.holds.1 hs.holds.2.1 ops he
    (Slab.history_safe hd hs.holds.1 hs.holds.2.1 ops he hob)
  have cell : ∀ {p x}, s'.getUnchecked p = .ok x →
      ∃ n, slabBlocks s' ((), p.block) n ∧ p.off < n ∧ n * cfg.esize ≤ isizeMax := by
    intro p x hx
    rw [Slab.getUnchecked_eq] at hx
    have hc : (s'.items.cell p).isSome := by
      refine (hf.view_isSome.1 ?_).1
      cases hv : s'.view p with
      | none => rw [hv] at hx; cases hx
      | some x => rfl
    obtain ⟨e, hc⟩ := Option.isSome_iff_exists.1 hc
    obtain ⟨n, h1, h2, h3, -⟩ := hf.items.cell_block hc hf.items.log
    exact ⟨n, ⟨_, hf.items.log, h1⟩, h2, h3⟩
  obtain ⟨n, a1, a2, a3⟩ := cell hx
  obtain ⟨m, b1, b2, -⟩ := cell hy
  obtain ⟨c1, c2, c3, c4, -⟩ := hp.inside a1 a2 (entry_ok ht hw)
  have hle := entry_size_le (w := w) ht
  have hw0 := pow_pos hw
  refine ⟨c1, Nat.dvd_trans (entry_align_dvd ht hw).1 c2, ⟨n, a1, c3, by omega, hz ▸ a3⟩, ?_, ?_⟩
  · intro hne
    have := hp.separate a1 b1 a2 b2 (by simpa using hne)
    omega
  · constructor
    · intro h
      by_cases hne : p = q
      · exact hne
      · have := hp.separate a1 b1 a2 b2 (by simpa using hne)
        omega
    · rintro rfl; rfl

/-! ### Examples -/

-- `C64_entry`, `C64_overhead`: a `u64`, a `[u8; 3]`, a `(u32, u32, u32)`, a 16-byte aligned vector of 32
-- bytes, `()`, and the exception: a zero-sized type with alignment 16 (16 bytes of overhead)
example : entry 8 ⟨8, 8⟩ = ⟨8, 8⟩ ∧ entry 8 ⟨3, 1⟩ = ⟨8, 8⟩ ∧ entry 8 ⟨12, 4⟩ = ⟨16, 8⟩ ∧
    entry 8 ⟨32, 16⟩ = ⟨32, 16⟩ ∧ entry 8 ⟨0, 1⟩ = ⟨8, 8⟩ ∧ entry 8 ⟨0, 16⟩ = ⟨16, 16⟩ := by decide

/-- A layout of `InnerNode<u32, u16>`: the pointers first, then the key and the value. -/
theorem sampleNode : (⟨24, 8⟩ : Layout).IsNode 8 ⟨4, 4⟩ ⟨2, 2⟩ [16, 20, 0, 8] where
  ok := ⟨⟨3, rfl⟩, by decide⟩
  length := rfl
  aligned := by
    intro i f o hf ho
    match i with
    | 0 => cases hf; cases ho; exact ⟨⟨⟨2, rfl⟩, by decide⟩, by decide⟩
    | 1 => cases hf; cases ho; exact ⟨⟨⟨1, rfl⟩, by decide⟩, by decide⟩
    | 2 => cases hf; cases ho; exact ⟨⟨⟨3, rfl⟩, by decide⟩, by decide⟩
    | 3 => cases hf; cases ho; exact ⟨⟨⟨3, rfl⟩, by decide⟩, by decide⟩
    | n + 4 => simp at hf
  apart := by
    intro i j f g o q hij hf hg ho hq
    match i, j with
    | 0, 0 | 1, 1 | 2, 2 | 3, 3 => exact absurd rfl hij
    | 0, 1 | 0, 2 | 0, 3 | 1, 0 | 1, 2 | 1, 3 | 2, 0 | 2, 1 | 2, 3 | 3, 0 | 3, 1 | 3, 2 =>
      cases hf; cases hg; cases ho; cases hq; decide
    | n + 4, _ => simp at hf
    | _, n + 4 => simp at hg

-- `C64_node`
example : entry 8 ⟨24, 8⟩ = ⟨24, 8⟩ := (C64_node sampleNode).1

/-- A layout of `InnerNode<u64, &str>`, the fields in the order of the declaration. -/
theorem sampleNode' : (⟨40, 8⟩ : Layout).IsNode 8 ⟨8, 8⟩ ⟨16, 8⟩ [0, 8, 24, 32] where
  ok := ⟨⟨3, rfl⟩, by decide⟩
  length := rfl
  aligned := by
    intro i f o hf ho
    match i with
    | 0 | 1 | 2 | 3 => cases hf; cases ho; exact ⟨⟨⟨3, rfl⟩, by decide⟩, by decide⟩
    | n + 4 => simp at hf
  apart := by
    intro i j f g o q hij hf hg ho hq
    match i, j with
    | 0, 0 | 1, 1 | 2, 2 | 3, 3 => exact absurd rfl hij
    | 0, 1 | 0, 2 | 0, 3 | 1, 0 | 1, 2 | 1, 3 | 2, 0 | 2, 1 | 2, 3 | 3, 0 | 3, 1 | 3, 2 =>
      cases hf; cases hg; cases ho; cases hq; decide
    | n + 4, _ => simp at hf
    | _, n + 4 => simp at hg

/-- Two maps, one with a free entry. -/
def sampleMaps : Bool → BSTMap Nat String
  | false => Sample.nine
  | true => Sample.eight

/-- Both have two chunks, in four pages in a row. -/
def sampleBase (b : Bool × Nat) : Nat := 4096 * (1 + b.2 + cond b.1 2 0)

theorem samplePlaced : Placed (entry 8 ⟨40, 8⟩) (mapBlocks sampleMaps) sampleBase := by
  have h : ∀ b n, mapBlocks sampleMaps b n → b.2 = 0 ∧ n = 8 ∨ b.2 = 1 ∧ n = 16 := by
    rintro ⟨i, j⟩ n ⟨blocks, hb, hm⟩
    have : replay (sampleMaps i).nodes.items.log = some [(0, 8), (1, 16)] := by
      cases i <;> decide +kernel
    rw [this] at hb
    cases hb
    simpa using hm
  have hz : (entry 8 ⟨40, 8⟩) = ⟨40, 8⟩ := by decide
  rw [hz]
  refine ⟨fun b n hl => ?_, fun b n hl => ?_, fun b n hl => ?_, fun b c n k hne hl hl' => ?_⟩
  · simp only [sampleBase]; omega
  · exact Nat.dvd_trans (by decide) (Nat.dvd_mul_right 4096 _)
  · have h1 := h b n hl
    obtain ⟨_ | _, j⟩ := b <;> simp only [sampleBase, cond] at * <;> omega
  · have h1 := h b n hl
    have h2 := h c k hl'
    obtain ⟨i, j⟩ := b
    obtain ⟨i', j'⟩ := c
    have hij : ¬ (i = i' ∧ j = j') := fun h => hne (by rw [h.1, h.2])
    cases i <;> cases i' <;> simp only [sampleBase, cond] at * <;> simp at hij <;> omega

-- `C64_aligned`, `C64_apart`: the ninth entry of the first map, in its second chunk, and the entry of
-- the second map that was freed (it was the first)
example : Sample.nine.nodes.items.getUnchecked ⟨1, 0⟩ = .ok (.value ⟨6, "f", none, none⟩) ∧
    addr (entry 8 ⟨40, 8⟩) (fun b => sampleBase (false, b)) ⟨1, 0⟩ = 8192 ∧
    Sample.eight.nodes.items.getUnchecked ⟨0, 0⟩ = .ok (.free none) ∧
    addr (entry 8 ⟨40, 8⟩) (fun b => sampleBase (true, b)) ⟨0, 0⟩ = 12288 ∧
    Sample.cfg.esize = (entry 8 ⟨40, 8⟩).size := by decide +kernel
example (i : Bool) : Reach Sample.cfg (Lawful compare) (sampleMaps i) := by
  cases i
  · exact Sample.nine_reach
  · exact Sample.eight_reach

/-- A slab of `[u8; 3]`s: three are pushed, one removed, one pushed in its place. -/
def sampleSlabOps : List (SlabOp Nat) :=
  [.push 1, .push 2, .push 3, .remove ⟨0, 1⟩, .push 4, .reserve 20]

-- `C64_slab`
example : (execute (SlabOp.run { Sample.cfg with esize := 8 } ⟨false, fun _ => false⟩) sampleSlabOps
      Slab.new).2.getUnchecked ⟨0, 1⟩ = .ok 4 ∧
    replay (execute (SlabOp.run { Sample.cfg with esize := 8 } ⟨false, fun _ => false⟩) sampleSlabOps
      Slab.new).2.items.log = some [(0, 8), (1, 16)] ∧
    8 = (entry 8 ⟨3, 1⟩).size ∧ addr (entry 8 ⟨3, 1⟩) (fun b => 4096 * (b + 1)) ⟨0, 1⟩ = 4104 := by
  decide +kernel

end BST.Props
