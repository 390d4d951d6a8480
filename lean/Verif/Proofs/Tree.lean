import Verif.Spec
import Verif.Model.Map
/-!
# Ghost trees

`Tree K V` is a binary tree whose nodes carry the address they live at. The heap
representation predicate `Tree.Rep` ties it to the contents of a slab. This file
is about the trees alone: searching, inserting and removing as structurally
recursive functions, and their effect on the in-order contents.
-/
set_option linter.unusedSimpArgs false
namespace BST
variable {K V : Type}

inductive Tree (K V : Type) where
  | leaf
  | node (p : Ptr) (l : Tree K V) (k : K) (v : V) (r : Tree K V)
deriving Repr

namespace Tree

def root : Tree K V → Option Ptr
  | leaf => none
  | node p _ _ _ _ => some p

@[simp] theorem root_leaf : (leaf : Tree K V).root = none := rfl
@[simp] theorem root_node (p : Ptr) (l : Tree K V) (k : K) (v : V) (r : Tree K V) :
    (node p l k v r).root = some p := rfl

theorem root_eq_none {t : Tree K V} : t.root = none ↔ t = leaf := by cases t <;> simp

def ptrs : Tree K V → List Ptr
  | leaf => []
  | node p l _ _ r => p :: (l.ptrs ++ r.ptrs)

def size : Tree K V → Nat
  | leaf => 0
  | node _ l _ _ r => l.size + 1 + r.size

def height : Tree K V → Nat
  | leaf => 0
  | node _ l _ _ r => max l.height r.height + 1

/-- In-order list of (address, key, value). -/
def ino : Tree K V → List (Ptr × K × V)
  | leaf => []
  | node p l k v r => l.ino ++ (p, k, v) :: r.ino

def pre : Tree K V → List (Ptr × K × V)
  | leaf => []
  | node p l k v r => (p, k, v) :: (l.pre ++ r.pre)

def post : Tree K V → List (Ptr × K × V)
  | leaf => []
  | node p l k v r => l.post ++ r.post ++ [(p, k, v)]

/-- In-order contents. -/
def kv (t : Tree K V) : List (K × V) := t.ino.map (·.2)

@[simp] theorem kv_leaf : (leaf : Tree K V).kv = [] := rfl
@[simp] theorem kv_node (p : Ptr) (l : Tree K V) (k : K) (v : V) (r : Tree K V) :
    (node p l k v r).kv = l.kv ++ (k, v) :: r.kv := by simp [kv, ino]

theorem ptrs_length (t : Tree K V) : t.ptrs.length = t.size := by
  induction t with
  | leaf => rfl
  | node p l k v r ihl ihr => simp only [ptrs, size, List.length_cons, List.length_append]; omega

theorem kv_length (t : Tree K V) : t.kv.length = t.size := by
  induction t with
  | leaf => rfl
  | node p l k v r ihl ihr => simp only [kv_node, size, List.length_cons, List.length_append]; omega

theorem height_le_size (t : Tree K V) : t.height ≤ t.size := by
  induction t with
  | leaf => exact Nat.le_refl _
  | node p l k v r ihl ihr => simp only [height, size]; omega

theorem pre_length (t : Tree K V) : t.pre.length = t.size := by
  induction t with
  | leaf => rfl
  | node p l k v r ihl ihr => simp only [pre, size, List.length_cons, List.length_append]; omega

theorem post_length (t : Tree K V) : t.post.length = t.size := by
  induction t with
  | leaf => rfl
  | node p l k v r ihl ihr =>
    simp only [post, size, List.length_cons, List.length_append, List.length_nil]; omega

theorem ino_length (t : Tree K V) : t.ino.length = t.size := by
  rw [← kv_length, kv, List.length_map]

theorem pre_perm (t : Tree K V) : t.pre.Perm t.ino := by
  induction t with
  | leaf => exact List.Perm.refl _
  | node p l k v r ihl ihr =>
    exact ((ihl.append ihr).cons _).trans List.perm_middle.symm

theorem post_perm (t : Tree K V) : t.post.Perm t.ino := by
  induction t with
  | leaf => exact List.Perm.refl _
  | node p l k v r ihl ihr =>
    simp only [post, ino, List.append_assoc]
    exact ihl.append ((List.perm_append_comm).trans (ihr.cons _))

theorem pre_ptrs (t : Tree K V) : t.pre.map (·.1) = t.ptrs := by
  induction t with
  | leaf => rfl
  | node p l k v r ihl ihr => simp [pre, ptrs, ihl, ihr]

theorem ino_ptrs_perm (t : Tree K V) : (t.ino.map (·.1)).Perm t.ptrs := by
  rw [← pre_ptrs]; exact (t.pre_perm.map _).symm

/-! ### Heap representation -/

def Rep (h : Ptr → Option (InnerNode K V)) : Tree K V → Prop
  | leaf => True
  | node p l k v r => h p = some ⟨k, v, l.root, r.root⟩ ∧ l.Rep h ∧ r.Rep h

theorem Rep.congr {h h' : Ptr → Option (InnerNode K V)} {t : Tree K V} (hr : t.Rep h)
    (he : ∀ p ∈ t.ptrs, h' p = h p) : t.Rep h' := by
  induction t with
  | leaf => trivial
  | node p l k v r ihl ihr =>
    obtain ⟨h1, h2, h3⟩ := hr
    refine ⟨by rw [he _ (by simp [ptrs])]; exact h1, ihl h2 fun q hq => he q ?_, ihr h3 fun q hq => he q ?_⟩
      <;> simp [ptrs, hq]

theorem Rep.isSome {h : Ptr → Option (InnerNode K V)} {t : Tree K V} (hr : t.Rep h) {p : Ptr}
    (hp : p ∈ t.ptrs) : (h p).isSome := by
  induction t with
  | leaf => simp [ptrs] at hp
  | node q l k v r ihl ihr =>
    obtain ⟨h1, h2, h3⟩ := hr
    simp only [ptrs, List.mem_cons, List.mem_append] at hp
    rcases hp with rfl | hp | hp
    · simp [h1]
    · exact ihl h2 hp
    · exact ihr h3 hp

/-- Every entry of the tree is stored at its address. -/
theorem Rep.mem_ino {h : Ptr → Option (InnerNode K V)} {t : Tree K V} (hr : t.Rep h)
    {e : Ptr × K × V} (he : e ∈ t.ino) : ∃ l r, h e.1 = some ⟨e.2.1, e.2.2, l, r⟩ := by
  induction t with
  | leaf => simp [ino] at he
  | node q l k v r ihl ihr =>
    obtain ⟨h1, h2, h3⟩ := hr
    simp only [ino, List.mem_append, List.mem_cons] at he
    rcases he with he | rfl | he
    · exact ihl h2 he
    · exact ⟨_, _, h1⟩
    · exact ihr h3 he

/-- The node handle of a tree's root. -/
def nodeOpt : Tree K V → Option (Node K V)
  | leaf => none
  | node p l k v r => some ⟨p, ⟨k, v, l.root, r.root⟩⟩

/-! ### Searching -/

/-- What a search with the comparisons `c` (numbered from `i`) finds. -/
def find (c : Probe K) : Nat → Tree K V → Out (Option (Ptr × K × V))
  | _, leaf => .ok none
  | i, node p l k v r =>
    match c i k with
    | none => .panic
    | some .lt => l.find c (i + 1)
    | some .gt => r.find c (i + 1)
    | some .eq => .ok (some (p, k, v))

theorem find_ok_or_panic (c : Probe K) (i : Nat) (t : Tree K V) :
    t.find c i = .panic ∨ ∃ e, t.find c i = .ok e := by
  induction t generalizing i with
  | leaf => exact Or.inr ⟨none, rfl⟩
  | node p l k v r ihl ihr =>
    unfold find
    split
    · exact Or.inl rfl
    · exact ihl _
    · exact ihr _
    · exact Or.inr ⟨_, rfl⟩

theorem find_mem {c : Probe K} {i : Nat} {t : Tree K V} {e : Ptr × K × V}
    (h : t.find c i = .ok (some e)) : e ∈ t.ino := by
  induction t generalizing i with
  | leaf => simp [find] at h
  | node p l k v r ihl ihr =>
    unfold find at h
    simp only [ino, List.mem_append, List.mem_cons]
    split at h
    · cases h
    · exact Or.inl (ihl h)
    · exact Or.inr (Or.inr (ihr h))
    · cases h; exact Or.inr (Or.inl rfl)

/-- A search depends on at most `height` comparisons. -/
theorem find_congr {c c' : Probe K} {i : Nat} {t : Tree K V}
    (h : ∀ j k, i ≤ j → j < i + t.height → c j k = c' j k) : t.find c i = t.find c' i := by
  induction t generalizing i with
  | leaf => rfl
  | node p l k v r ihl ihr =>
    have h0 := h i k (Nat.le_refl _) (by simp [height])
    unfold find
    rw [h0]
    have hl := ihl (i := i + 1) fun j k hj hk => h j k (by omega) (by simp only [height]; omega)
    have hr := ihr (i := i + 1) fun j k hj hk => h j k (by omega) (by simp only [height]; omega)
    rw [hl, hr]

/-! ### Insertion -/

/-- Where the insertion of `k`, `v` puts a node with address `p` — or, if the search
hits, the replacement of the value. -/
def ins (c : Probe K) (p : Ptr) (k : K) (v : V) : Nat → Tree K V → Tree K V
  | _, leaf => node p leaf k v leaf
  | i, node q l k' v' r =>
    match c i k' with
    | none => node q l k' v' r
    | some .lt => node q (l.ins c p k v (i + 1)) k' v' r
    | some .gt => node q l k' v' (r.ins c p k v (i + 1))
    | some .eq => node q l k' v r

theorem ins_root {c : Probe K} {p : Ptr} {k : K} {v : V} {i : Nat} {t : Tree K V}
    (h : t ≠ leaf) : (t.ins c p k v i).root = t.root := by
  cases t with
  | leaf => exact absurd rfl h
  | node q l k' v' r => unfold ins; split <;> rfl

/-- A hit: same addresses. -/
theorem ins_ptrs_hit {c : Probe K} {p : Ptr} {k : K} {v : V} {i : Nat} {t : Tree K V}
    {e : Ptr × K × V} (h : t.find c i = .ok (some e)) : (t.ins c p k v i).ptrs = t.ptrs := by
  induction t generalizing i with
  | leaf => simp [find] at h
  | node q l k' v' r ihl ihr =>
    unfold find at h
    unfold ins
    split at h
    · cases h
    · rename_i hc; simp [hc, ptrs, ihl h]
    · rename_i hc; simp [hc, ptrs, ihr h]
    · rename_i hc; simp [hc, ptrs]

/-- A miss: one new address. -/
theorem ins_ptrs_miss {c : Probe K} {p : Ptr} {k : K} {v : V} {i : Nat} {t : Tree K V}
    (h : t.find c i = .ok none) : (t.ins c p k v i).ptrs.Perm (p :: t.ptrs) := by
  induction t generalizing i with
  | leaf => simp [ins, ptrs]
  | node q l k' v' r ihl ihr =>
    unfold find at h
    unfold ins
    split at h
    · cases h
    · rename_i hc
      simp only [hc, ptrs]
      exact (((ihl h).append_right _).cons q).trans (List.Perm.swap _ _ _)
    · rename_i hc
      simp only [hc, ptrs]
      refine (((ihr h).append_left _).cons q).trans ?_
      refine (List.Perm.cons q List.perm_middle).trans (List.Perm.swap _ _ _)
    · cases h

/-- A hit changes exactly one value, in place. -/
theorem ins_ino_hit {c : Probe K} {p : Ptr} {k : K} {v : V} {i : Nat} {t : Tree K V}
    {q : Ptr} {k0 : K} {v0 : V} (h : t.find c i = .ok (some (q, k0, v0))) :
    ∃ a b, t.ino = a ++ (q, k0, v0) :: b ∧ (t.ins c p k v i).ino = a ++ (q, k0, v) :: b := by
  induction t generalizing i with
  | leaf => simp [find] at h
  | node q' l k' v' r ihl ihr =>
    unfold find at h
    unfold ins
    split at h
    · cases h
    · rename_i hc
      obtain ⟨a, b, h1, h2⟩ := ihl h
      exact ⟨a, b ++ (q', k', v') :: r.ino, by simp [ino, h1], by simp [hc, ino, h2]⟩
    · rename_i hc
      obtain ⟨a, b, h1, h2⟩ := ihr h
      exact ⟨l.ino ++ (q', k', v') :: a, b, by simp [ino, h1], by simp [hc, ino, h2]⟩
    · rename_i hc
      cases h
      exact ⟨l.ino, r.ino, by simp [ino], by simp [hc, ino]⟩

/-- A miss adds exactly one entry. -/
theorem ins_ino_miss {c : Probe K} {p : Ptr} {k : K} {v : V} {i : Nat} {t : Tree K V}
    (h : t.find c i = .ok none) :
    ∃ a b, t.ino = a ++ b ∧ (t.ins c p k v i).ino = a ++ (p, k, v) :: b := by
  induction t generalizing i with
  | leaf => exact ⟨[], [], rfl, rfl⟩
  | node q' l k' v' r ihl ihr =>
    unfold find at h
    unfold ins
    split at h
    · cases h
    · rename_i hc
      obtain ⟨a, b, h1, h2⟩ := ihl h
      exact ⟨a, b ++ (q', k', v') :: r.ino, by simp [ino, h1], by simp [hc, ino, h2]⟩
    · rename_i hc
      obtain ⟨a, b, h1, h2⟩ := ihr h
      exact ⟨l.ino ++ (q', k', v') :: a, b, by simp [ino, h1], by simp [hc, ino, h2]⟩
    · cases h

/-! ### Removal -/

/-- The leftmost node of `node p l k v r` and what remains. -/
def popMin (p : Ptr) (k : K) (v : V) (r : Tree K V) : Tree K V → (Ptr × K × V) × Tree K V
  | leaf => ((p, k, v), r)
  | node lp ll lk lv lr =>
    let x := popMin lp lk lv lr ll
    (x.1, node p x.2 k v r)

/-- What takes the place of a removed node with children `l`, `r`. -/
def join (l r : Tree K V) : Tree K V :=
  match l, r with
  | leaf, r => r
  | l, leaf => l
  | l, node rp rl rk rv rr =>
    let x := popMin rp rk rv rr rl
    node x.1.1 l x.1.2.1 x.1.2.2 x.2

def del (c : Probe K) : Nat → Tree K V → Tree K V
  | _, leaf => leaf
  | i, node q l k' v' r =>
    match c i k' with
    | none => node q l k' v' r
    | some .lt => node q (l.del c (i + 1)) k' v' r
    | some .gt => node q l k' v' (r.del c (i + 1))
    | some .eq => join l r

theorem popMin_ino (p : Ptr) (k : K) (v : V) (r l : Tree K V) :
    (popMin p k v r l).1 :: (popMin p k v r l).2.ino = (node p l k v r).ino := by
  induction l generalizing p k v r with
  | leaf => rfl
  | node lp ll lk lv lr ihl _ =>
    have := ihl lp lk lv lr
    unfold popMin
    simp only [ino] at this ⊢
    rw [← List.cons_append, this]

theorem join_ino (l r : Tree K V) : (join l r).ino = l.ino ++ r.ino := by
  cases l with
  | leaf => cases r <;> rfl
  | node lp ll lk lv lr =>
    cases r with
    | leaf => simp [join, ino]
    | node rp rl rk rv rr =>
      have := popMin_ino rp rk rv rr rl
      simp only [join]
      rw [ino, ← this]

theorem del_ino_miss {c : Probe K} {i : Nat} {t : Tree K V}
    (h : t.find c i = .ok none) : t.del c i = t := by
  induction t generalizing i with
  | leaf => rfl
  | node q' l k' v' r ihl ihr =>
    unfold find at h
    unfold del
    split at h
    · cases h
    · rename_i hc; simp [hc, ihl h]
    · rename_i hc; simp [hc, ihr h]
    · cases h

theorem del_ino_hit {c : Probe K} {i : Nat} {t : Tree K V} {e : Ptr × K × V}
    (h : t.find c i = .ok (some e)) :
    ∃ a b, t.ino = a ++ e :: b ∧ (t.del c i).ino = a ++ b := by
  induction t generalizing i with
  | leaf => simp [find] at h
  | node q' l k' v' r ihl ihr =>
    unfold find at h
    unfold del
    split at h
    · cases h
    · rename_i hc
      obtain ⟨a, b, h1, h2⟩ := ihl h
      exact ⟨a, b ++ (q', k', v') :: r.ino, by simp [ino, h1], by simp [hc, ino, h2]⟩
    · rename_i hc
      obtain ⟨a, b, h1, h2⟩ := ihr h
      exact ⟨l.ino ++ (q', k', v') :: a, b, by simp [ino, h1], by simp [hc, ino, h2]⟩
    · rename_i hc
      cases h
      exact ⟨l.ino, r.ino, by simp [ino], by simp [hc, join_ino]⟩

theorem popMin_ptrs (p : Ptr) (k : K) (v : V) (r l : Tree K V) :
    ((popMin p k v r l).1.1 :: (popMin p k v r l).2.ptrs).Perm (node p l k v r).ptrs := by
  have h1 := (popMin p k v r l).2.ino_ptrs_perm
  have h2 := (node p l k v r).ino_ptrs_perm
  rw [← popMin_ino] at h2
  exact (h1.cons _).symm.trans h2

theorem join_ptrs (l r : Tree K V) : (join l r).ptrs.Perm (l.ptrs ++ r.ptrs) := by
  have := (join l r).ino_ptrs_perm
  rw [join_ino, List.map_append] at this
  exact this.symm.trans (l.ino_ptrs_perm.append r.ino_ptrs_perm)

theorem del_ptrs_hit {c : Probe K} {i : Nat} {t : Tree K V} {e : Ptr × K × V}
    (h : t.find c i = .ok (some e)) : (e.1 :: (t.del c i).ptrs).Perm t.ptrs := by
  obtain ⟨a, b, h1, h2⟩ := del_ino_hit h
  have p1 := t.ino_ptrs_perm
  have p2 := (t.del c i).ino_ptrs_perm
  rw [h1] at p1
  rw [h2] at p2
  refine (p2.symm.cons _).trans (List.Perm.trans ?_ p1)
  simp only [List.map_append, List.map_cons]
  exact List.perm_middle.symm

/-! ### Contexts (a tree with a hole) -/

inductive Frame (K V : Type) where
  /-- the hole is the left child -/
  | L (p : Ptr) (k : K) (v : V) (r : Tree K V)
  /-- the hole is the right child -/
  | R (p : Ptr) (l : Tree K V) (k : K) (v : V)

namespace Frame
def ptr : Frame K V → Ptr
  | L p _ _ _ => p
  | R p _ _ _ => p
def fill : Frame K V → Tree K V → Tree K V
  | L p k v r, t => node p t k v r
  | R p l k v, t => node p l k v t
/-- The addresses of the frame. -/
def ptrs : Frame K V → List Ptr
  | L p _ _ r => p :: r.ptrs
  | R p l _ _ => p :: l.ptrs
end Frame

/-- Fill the hole; the innermost frame is the head of the list. -/
def plug : List (Frame K V) → Tree K V → Tree K V
  | [], t => t
  | f :: fs, t => plug fs (f.fill t)

def ctxPtrs : List (Frame K V) → List Ptr
  | [] => []
  | f :: fs => f.ptrs ++ ctxPtrs fs

theorem fill_ptrs (f : Frame K V) (t : Tree K V) : (f.fill t).ptrs.Perm (f.ptrs ++ t.ptrs) := by
  cases f with
  | L p k v r => exact (List.perm_append_comm (l₁ := t.ptrs) (l₂ := r.ptrs)).cons p
  | R p l k v => exact List.Perm.refl _

theorem plug_ptrs (fs : List (Frame K V)) (t : Tree K V) :
    (plug fs t).ptrs.Perm (ctxPtrs fs ++ t.ptrs) := by
  induction fs generalizing t with
  | nil => exact List.Perm.refl _
  | cons f fs ih =>
    refine (ih (f.fill t)).trans ?_
    refine ((fill_ptrs f t).append_left _).trans ?_
    simp only [ctxPtrs, List.append_assoc]
    rw [← List.append_assoc, ← List.append_assoc]
    exact List.perm_append_comm.append_right _

/-- The part of the heap representation that belongs to the context, with `o` the
pointer stored at the hole. -/
def RepFrame (h : Ptr → Option (InnerNode K V)) (o : Option Ptr) : Frame K V → Prop
  | .L p k v r => h p = some ⟨k, v, o, r.root⟩ ∧ r.Rep h
  | .R p l k v => h p = some ⟨k, v, l.root, o⟩ ∧ l.Rep h

def RepCtx (h : Ptr → Option (InnerNode K V)) (o : Option Ptr) : List (Frame K V) → Prop
  | [] => True
  | f :: fs => RepFrame h o f ∧ RepCtx h (some f.ptr) fs

theorem rep_fill {h : Ptr → Option (InnerNode K V)} {f : Frame K V} {t : Tree K V} :
    (f.fill t).Rep h ↔ RepFrame h t.root f ∧ t.Rep h := by
  cases f with
  | L p k v r => exact ⟨fun ⟨a, b, c⟩ => ⟨⟨a, c⟩, b⟩, fun ⟨⟨a, c⟩, b⟩ => ⟨a, b, c⟩⟩
  | R p l k v => exact ⟨fun ⟨a, b, c⟩ => ⟨⟨a, b⟩, c⟩, fun ⟨⟨a, b⟩, c⟩ => ⟨a, b, c⟩⟩

theorem root_fill (f : Frame K V) (t : Tree K V) : (f.fill t).root = some f.ptr := by
  cases f <;> rfl

theorem rep_plug {h : Ptr → Option (InnerNode K V)} {fs : List (Frame K V)} {t : Tree K V} :
    (plug fs t).Rep h ↔ RepCtx h t.root fs ∧ t.Rep h := by
  induction fs generalizing t with
  | nil => simp [plug, RepCtx]
  | cons f fs ih =>
    simp only [plug, RepCtx]
    rw [ih, root_fill, rep_fill]
    constructor
    · rintro ⟨a, b, c⟩; exact ⟨⟨b, a⟩, c⟩
    · rintro ⟨⟨b, a⟩, c⟩; exact ⟨a, b, c⟩

theorem RepFrame.congr {h h' : Ptr → Option (InnerNode K V)} {o : Option Ptr} {f : Frame K V}
    (hr : RepFrame h o f) (he : ∀ p ∈ f.ptrs, h' p = h p) : RepFrame h' o f := by
  cases f with
  | L p k v r =>
    exact ⟨by rw [he _ (by simp [Frame.ptrs])]; exact hr.1,
      hr.2.congr fun q hq => he q (by simp [Frame.ptrs, hq])⟩
  | R p l k v =>
    exact ⟨by rw [he _ (by simp [Frame.ptrs])]; exact hr.1,
      hr.2.congr fun q hq => he q (by simp [Frame.ptrs, hq])⟩

theorem RepCtx.congr {h h' : Ptr → Option (InnerNode K V)} {o : Option Ptr} {fs : List (Frame K V)}
    (hr : RepCtx h o fs) (he : ∀ p ∈ ctxPtrs fs, h' p = h p) : RepCtx h' o fs := by
  induction fs generalizing o with
  | nil => trivial
  | cons f fs ih =>
    exact ⟨hr.1.congr fun p hp => he p (by simp [ctxPtrs, hp]),
      ih hr.2 fun p hp => he p (by simp [ctxPtrs, hp])⟩

theorem root_plug_nonleaf (fs : List (Frame K V)) {t t' : Tree K V}
    (h : fs ≠ [] ∨ t.root = t'.root) : (plug fs t).root = (plug fs t').root := by
  induction fs generalizing t t' with
  | nil => rcases h with h | h
           · exact absurd rfl h
           · exact h
  | cons f fs ih => exact ih (Or.inr (by rw [root_fill, root_fill]))

/-- The context of a successful search. -/
def path (c : Probe K) : Nat → Tree K V → List (Frame K V) → List (Frame K V)
  | _, leaf, fs => fs
  | i, node p l k v r, fs =>
    match c i k with
    | some .lt => l.path c (i + 1) (.L p k v r :: fs)
    | some .gt => r.path c (i + 1) (.R p l k v :: fs)
    | _ => fs

theorem path_spec {c : Probe K} {i : Nat} {t : Tree K V} {p : Ptr} {k : K} {v : V}
    (fs : List (Frame K V)) (h : t.find c i = .ok (some (p, k, v))) :
    ∃ l r, plug (t.path c i fs) (node p l k v r) = plug fs t ∧
      plug (t.path c i fs) (join l r) = plug fs (t.del c i) := by
  induction t generalizing i fs with
  | leaf => simp [find] at h
  | node q l k' v' r ihl ihr =>
    unfold find at h
    unfold path del
    split at h
    · cases h
    · rename_i hc
      simp only [hc]
      exact ihl (.L q k' v' r :: fs) h
    · rename_i hc
      simp only [hc]
      exact ihr (.R q l k' v' :: fs) h
    · rename_i hc
      cases h
      simp only [hc]
      exact ⟨l, r, rfl, rfl⟩

/-! ### Lawful comparisons -/

def SortedBy (cmp : K → K → Ordering) (t : Tree K V) : Prop := Spec.Sorted cmp t.kv

theorem sorted_node {cmp : K → K → Ordering} {p : Ptr} {l : Tree K V} {k : K} {v : V}
    {r : Tree K V} : (node p l k v r).SortedBy cmp ↔
      l.SortedBy cmp ∧ r.SortedBy cmp ∧ (∀ e ∈ l.kv, cmp e.1 k = .lt) ∧
      (∀ e ∈ r.kv, cmp k e.1 = .lt) ∧ ∀ a ∈ l.kv, ∀ b ∈ r.kv, cmp a.1 b.1 = .lt := by
  unfold SortedBy Spec.Sorted
  rw [kv_node, List.pairwise_append, List.pairwise_cons]
  constructor
  · rintro ⟨h1, ⟨h2, h3⟩, h4⟩
    exact ⟨h1, h3, fun e he => h4 e he (k, v) (by simp), h2,
      fun a ha b hb => h4 a ha b (List.mem_cons_of_mem _ hb)⟩
  · rintro ⟨h1, h3, h5, h2, h4⟩
    refine ⟨h1, ⟨h2, h3⟩, fun a ha b hb => ?_⟩
    rcases List.mem_cons.1 hb with rfl | hb
    · exact h5 a ha
    · exact h4 a ha b hb

/-- The probe of a query that does not depend on the comparison number and does
not panic. -/
def probeOf (f : K → Ordering) : Probe K := fun _ k => some (f k)

theorem find_lawful {cmp : K → K → Ordering} {f : K → Ordering} (hf : Spec.LawfulQuery cmp f)
    (i : Nat) {t : Tree K V} (hs : t.SortedBy cmp) :
    t.find (probeOf f) i = .ok (t.ino.find? fun e => Spec.hitOf f e.2.1) := by
  induction t generalizing i with
  | leaf => rfl
  | node p l k v r ihl ihr =>
    obtain ⟨h1, h2, h3, h4, h5⟩ := sorted_node.1 hs
    have hkv : ∀ (t : Tree K V) (e : Ptr × K × V), e ∈ t.ino → e.2 ∈ t.kv := fun t e he =>
      List.mem_map_of_mem he
    unfold find
    simp only [probeOf, ino, List.find?_append, List.find?_cons]
    cases hc : f k with
    | lt =>
      have hr : r.ino.find? (fun e => Spec.hitOf f e.2.1) = none := by
        rw [List.find?_eq_none]
        intro e he hh
        have := hf.lt_of_lt k e.2.1 (h4 _ (hkv r e he)) hc
        simp [Spec.hitOf, this] at hh
      have hk : Spec.hitOf f k = false := by simp [Spec.hitOf, hc]
      simp only [hk, hr, Option.or_none]
      exact ihl (i + 1) h1
    | eq =>
      have hl : l.ino.find? (fun e => Spec.hitOf f e.2.1) = none := by
        rw [List.find?_eq_none]
        intro e he hh
        have := hf.gt_of_eq e.2.1 k (h3 _ (hkv l e he)) hc
        simp [Spec.hitOf, this] at hh
      have hk : Spec.hitOf f k = true := by simp [Spec.hitOf, hc]
      simp [hk, hl]
    | gt =>
      have hl : l.ino.find? (fun e => Spec.hitOf f e.2.1) = none := by
        rw [List.find?_eq_none]
        intro e he hh
        have := hf.gt_of_gt e.2.1 k (h3 _ (hkv l e he)) hc
        simp [Spec.hitOf, this] at hh
      have hk : Spec.hitOf f k = false := by simp [Spec.hitOf, hc]
      simp only [hk, hl, Option.none_or]
      exact ihr (i + 1) h2

/-- Where a lawful search that misses would insert: everything before is smaller,
everything after is greater. -/
theorem ins_lawful_miss {cmp : K → K → Ordering} {f : K → Ordering}
    (hf : Spec.LawfulQuery cmp f) {i : Nat} {t : Tree K V} (hs : t.SortedBy cmp)
    (p : Ptr) (k : K) (v : V) (h : t.find (probeOf f) i = .ok none) :
    ∃ a b, t.kv = a ++ b ∧ (t.ins (probeOf f) p k v i).kv = a ++ (k, v) :: b ∧
      (∀ e ∈ a, f e.1 = .gt) ∧ (∀ e ∈ b, f e.1 = .lt) := by
  induction t generalizing i with
  | leaf => exact ⟨[], [], rfl, rfl, by simp, by simp⟩
  | node q l k' v' r ihl ihr =>
    obtain ⟨h1, h2, h3, h4, h5⟩ := sorted_node.1 hs
    unfold find at h
    unfold ins
    rw [show probeOf f i k' = some (f k') from rfl] at h ⊢
    cases hc : f k' with
    | lt =>
      rw [hc] at h
      obtain ⟨a, b, e1, e2, e3, e4⟩ := ihl h1 h
      refine ⟨a, b ++ (k', v') :: r.kv, by simp [e1], ?_, e3, fun e he => ?_⟩
      · simp [e2]
      · rcases List.mem_append.1 he with he | he
        · exact e4 e he
        · rcases List.mem_cons.1 he with rfl | he
          · exact hc
          · exact hf.lt_of_lt _ _ (h4 e he) hc
    | eq => rw [hc] at h; cases h
    | gt =>
      rw [hc] at h
      obtain ⟨a, b, e1, e2, e3, e4⟩ := ihr h2 h
      refine ⟨l.kv ++ (k', v') :: a, b, by simp [e1], ?_, fun e he => ?_, e4⟩
      · simp [e2]
      · rcases List.mem_append.1 he with he | he
        · exact hf.gt_of_gt _ _ (h3 e he) hc
        · rcases List.mem_cons.1 he with rfl | he
          · exact hc
          · exact e3 e he

end Tree
end BST
