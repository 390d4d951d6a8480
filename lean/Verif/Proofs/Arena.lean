import Verif.Proofs.Basic
import Verif.Model.Arena
import Verif.Spec
/-!
# Arena: chunk arithmetic, invariant, memory view
-/
namespace BST

/-! ### Chunk arithmetic -/

/-- Chunk number of global index `j`. -/
def chunkOf (j : Nat) : Nat := (j / 8 + 1).log2
/-- First global index of chunk `i`. -/
def chunkBase (i : Nat) : Nat := 8 * (2 ^ i - 1)
/-- Offset of global index `j` in its chunk. -/
def offOf (j : Nat) : Nat := j - chunkBase (chunkOf j)

theorem two_pow_chunkOf_le (j : Nat) : 2 ^ chunkOf j ≤ j / 8 + 1 := Nat.log2_self_le (by omega)
theorem lt_two_pow_chunkOf (j : Nat) : j / 8 + 1 < 2 ^ (chunkOf j + 1) := Nat.lt_log2_self

theorem chunkBase_le (j : Nat) : chunkBase (chunkOf j) ≤ j := by
  have := two_pow_chunkOf_le j
  unfold chunkBase; omega
theorem offOf_lt (j : Nat) : offOf j < 8 * 2 ^ chunkOf j := by
  have h1 := two_pow_chunkOf_le j
  have h2 := lt_two_pow_chunkOf j
  rw [Nat.pow_succ] at h2
  unfold offOf chunkBase; omega
theorem base_add_off (j : Nat) : chunkBase (chunkOf j) + offOf j = j := by
  have := chunkBase_le j
  unfold offOf; omega

theorem chunkOf_unique {i o : Nat} (h : o < 8 * 2 ^ i) :
    chunkOf (chunkBase i + o) = i ∧ offOf (chunkBase i + o) = o := by
  have hp : 0 < 2 ^ i := Nat.two_pow_pos i
  have : chunkOf (chunkBase i + o) = i := by
    unfold chunkOf
    rw [Nat.log2_eq_iff (by omega)]
    unfold chunkBase
    rw [Nat.pow_succ]
    omega
  refine ⟨this, ?_⟩
  unfold offOf; rw [this]; omega

theorem chunkOf_lt {j n : Nat} (h : j + 8 < 8 * 2 ^ n) : chunkOf j < n :=
  (Nat.log2_lt (by omega)).2 (by omega)

theorem chunkLen_ok (cfg : Cfg) {i : Nat} (h : i < 61) : chunkLen cfg i = .ok (8 * 2 ^ i) := by
  have : 2 ^ i ≤ 2 ^ 60 := Nat.pow_le_pow_right (by omega) (by omega)
  unfold chunkLen
  rw [shlU_ok cfg (by omega)]
  exact mulU_ok cfg (by simp only [MULTIPLIER, usizeBound]; omega)

theorem positionFor_ok (cfg : Cfg) {j : Nat} (h : j < 2 ^ 64 - 8) :
    positionFor cfg j = .ok ⟨chunkOf j, offOf j⟩ := by
  have hx : j / 8 + 1 < 2 ^ 61 := by omega
  obtain ⟨hlz, hl⟩ := leadingZeros_eq (x := j / 8 + 1) (by omega) (by omega)
  have hc : chunkOf j < 61 := (Nat.log2_lt (by omega)).2 hx
  have hb := two_pow_chunkOf_le j
  have hp : 0 < 2 ^ chunkOf j := Nat.two_pow_pos _
  unfold positionFor
  simp only [MULTIPLIER]
  rw [addU_ok cfg (by simp only [usizeBound]; omega)]
  simp only [Out.ok_bind]
  rw [hlz, subU32_ok cfg (by omega)]
  simp only [Out.ok_bind]
  rw [subU32_ok cfg (by omega)]
  simp only [Out.ok_bind]
  have e : 64 - (63 - (j / 8 + 1).log2) - 1 = chunkOf j := by unfold chunkOf; omega
  rw [e, chunkLen_ok cfg hc]
  simp only [Out.ok_bind]
  rw [subU_ok cfg (by omega)]
  simp only [Out.ok_bind]
  rw [subU_ok cfg (by omega)]
  simp only [Out.ok_bind, Out.pure_eq, offOf, chunkBase]
  congr 2; omega

/-- The last eight indices of the address space: `chunk_len(61)` overflows. -/
theorem positionFor_top (cfg : Cfg) {j : Nat} (h1 : 2 ^ 64 - 8 ≤ j) (h2 : j < 2 ^ 64) :
    positionFor cfg j = if cfg.checks then .panic else .ok ⟨chunkOf j, offOf j⟩ := by
  have hx : j / 8 + 1 = 2 ^ 61 := by omega
  have hlz : leadingZeros (2 ^ 61) = 2 := by decide
  have hcj : chunkOf j = 61 := by unfold chunkOf; rw [hx]; decide
  unfold positionFor
  simp only [MULTIPLIER]
  rw [addU_ok cfg (by simp only [usizeBound]; omega), hx]
  simp only [Out.ok_bind]
  rw [hlz, subU32_ok cfg (by omega)]
  simp only [Out.ok_bind]
  rw [subU32_ok cfg (by omega)]
  simp only [Out.ok_bind, chunkLen]
  rw [shlU_ok cfg (by omega)]
  simp only [Out.ok_bind, MULTIPLIER]
  have hm : mulU cfg 8 (2 ^ (64 - 2 - 1)) = if cfg.checks then .panic else .ok 0 := by
    unfold mulU; rw [if_neg (by simp only [usizeBound]; omega)]; rfl
  rw [hm]
  cases hck : cfg.checks
  · have h8 : subU cfg 0 8 = .ok (2 ^ 64 - 8) := by
      unfold subU; rw [if_neg (by omega), hck]; rfl
    simp only [Bool.false_eq_true, if_false, Out.ok_bind, h8]
    rw [subU_ok cfg (by omega)]
    simp only [Out.ok_bind, Out.pure_eq, hcj, offOf, chunkBase]
  · rfl

/-! ### Invariant -/

namespace Arena
variable {T : Type}

/-- Arena invariant. -/
structure Inv (cfg : Cfg) (a : Arena T) : Prop where
  size : ∀ i < a.chunks.length, 0 < cfg.esize ∧ 8 * 2 ^ i * cfg.esize ≤ isizeMax
  slots : ∀ i c, a.chunks[i]? = some c → c.slots.length = 8 * 2 ^ i
  ids : (a.chunks.map Chunk.id).Nodup
  idlt : ∀ c ∈ a.chunks, c.id < a.nextId
  cap : a.capacity + 8 = 8 * 2 ^ a.chunks.length
  lenle : a.len ≤ a.capacity
  init : ∀ i c o, a.chunks[i]? = some c → o < 8 * 2 ^ i →
    ((c.slots[o]?).join.isSome ↔ chunkBase i + o < a.len)
  log : Spec.replay a.log = some (a.chunks.map fun c => (c.id, c.slots.length))

theorem pow_bound_of_size {cfg : Cfg} {i : Nat} (h : 0 < cfg.esize ∧ 8 * 2 ^ i * cfg.esize ≤ isizeMax) :
    i < 60 := by
  obtain ⟨h1, h2⟩ := h
  have : 8 * 2 ^ i ≤ isizeMax := Nat.le_trans (Nat.le_mul_of_pos_right _ h1) h2
  have h3 : 2 ^ i < 2 ^ 60 := by simp only [isizeMax] at this; omega
  exact (Nat.pow_lt_pow_iff_right (by omega)).1 h3

theorem Inv.length_le {cfg : Cfg} {a : Arena T} (h : a.Inv cfg) : a.chunks.length ≤ 60 := by
  rcases Nat.eq_zero_or_pos a.chunks.length with h0 | h0
  · omega
  · have := pow_bound_of_size (h.size (a.chunks.length - 1) (by omega))
    omega

theorem Inv.cap_lt {cfg : Cfg} {a : Arena T} (h : a.Inv cfg) : a.capacity + 8 ≤ 8 * 2 ^ 60 := by
  have := Nat.pow_le_pow_right (n := 2) (by omega) h.length_le
  have := h.cap
  omega

/-- Address of the item with global index `j` (the block id is meaningful for
`j < capacity`). -/
def addr (a : Arena T) (j : Nat) : Ptr :=
  ⟨((a.chunks[chunkOf j]?).map Chunk.id).getD 0, offOf j⟩

theorem Inv.chunk_exists {cfg : Cfg} {a : Arena T} (h : a.Inv cfg) {j : Nat} (hj : j < a.capacity) :
    ∃ c, a.chunks[chunkOf j]? = some c ∧ a.addr j = ⟨c.id, offOf j⟩ ∧
      c.slots.length = 8 * 2 ^ chunkOf j := by
  have hlt : chunkOf j < a.chunks.length := chunkOf_lt (by have := h.cap; omega)
  obtain ⟨c, hc⟩ : ∃ c, a.chunks[chunkOf j]? = some c := ⟨_, List.getElem?_eq_getElem hlt⟩
  exact ⟨c, hc, by simp [addr, hc], h.slots _ _ hc⟩

theorem Inv.find_chunk {cfg : Cfg} {a : Arena T} (h : a.Inv cfg) {i : Nat} {c : Chunk T}
    (hc : a.chunks[i]? = some c) : a.chunks.find? (fun d => d.id == c.id) = some c := by
  have hids := h.ids
  generalize a.chunks = l at *
  induction l generalizing i with
  | nil => simp at hc
  | cons d l ih =>
    rw [List.map_cons, List.nodup_cons] at hids
    cases i with
    | zero => simp at hc; simp [hc]
    | succ i =>
      simp at hc
      have hm : c ∈ l := List.mem_of_getElem? hc
      have hne : d.id ≠ c.id := fun e => hids.1 (e ▸ List.mem_map_of_mem hm)
      rw [List.find?_cons_of_neg (by simp [hne])]
      exact ih hc hids.2

theorem Inv.cell_of_chunk {cfg : Cfg} {a : Arena T} (h : a.Inv cfg) {i : Nat} {c : Chunk T}
    (hc : a.chunks[i]? = some c) (o : Nat) : a.cell ⟨c.id, o⟩ = (c.slots[o]?).join := by
  simp [cell, h.find_chunk hc]

theorem Inv.ptrAt_ok {cfg : Cfg} {a : Arena T} (h : a.Inv cfg) {j : Nat} (hj : j < a.capacity) :
    a.ptrAt cfg j = .ok (a.addr j) := by
  obtain ⟨c, hc, ha, hs⟩ := h.chunk_exists hj
  have hb := h.cap_lt
  unfold ptrAt
  rw [positionFor_ok cfg (by omega)]
  have hlt : chunkOf j < a.chunks.length := (List.getElem?_eq_some_iff.1 hc).1
  simp only [Out.ok_bind, hlt, decide_true, debugAssert_true, hc, ha]
  rw [if_pos (by rw [hs]; exact offOf_lt j)]

theorem Inv.addr_inj {cfg : Cfg} {a : Arena T} (h : a.Inv cfg) {j k : Nat} (hj : j < a.capacity)
    (hk : k < a.capacity) (e : a.addr j = a.addr k) : j = k := by
  obtain ⟨c, hc, ha, _⟩ := h.chunk_exists hj
  obtain ⟨d, hd, hb, _⟩ := h.chunk_exists hk
  rw [ha, hb] at e
  injection e with e1 e2
  have f1 := h.find_chunk hc
  have f2 := h.find_chunk hd
  rw [e1] at f1
  rw [f1] at f2
  injection f2 with f2
  subst f2
  have : chunkOf j = chunkOf k := by
    have := h.slots _ _ hc
    have h2 := h.slots _ _ hd
    rw [this] at h2
    exact (Nat.pow_right_inj (a := 2) (by omega)).1 (by omega)
  rw [← base_add_off j, ← base_add_off k, this, e2]

theorem Inv.cell_addr {cfg : Cfg} {a : Arena T} (h : a.Inv cfg) {j : Nat} (hj : j < a.capacity) :
    (a.cell (a.addr j)).isSome ↔ j < a.len := by
  obtain ⟨c, hc, ha, _⟩ := h.chunk_exists hj
  rw [ha, h.cell_of_chunk hc, h.init _ _ _ hc (offOf_lt j), base_add_off]

theorem Inv.cell_some {cfg : Cfg} {a : Arena T} (h : a.Inv cfg) {p : Ptr} {v : T}
    (hp : a.cell p = some v) : ∃ j < a.len, p = a.addr j := by
  unfold cell at hp
  split at hp
  · simp at hp
  · rename_i c hf
    obtain ⟨i, hi⟩ := List.getElem?_of_mem (List.mem_of_find?_eq_some hf)
    have hid : c.id = p.block := by simpa using List.find?_some hf
    have ho : p.off < 8 * 2 ^ i := by
      rw [← h.slots _ _ hi]
      rcases Nat.lt_or_ge p.off c.slots.length with h' | h'
      · exact h'
      · rw [List.getElem?_eq_none h'] at hp; simp at hp
    have hl := (h.init _ _ _ hi ho).1 (by simp [hp])
    obtain ⟨u1, u2⟩ := chunkOf_unique ho
    refine ⟨chunkBase i + p.off, hl, ?_⟩
    unfold addr
    rw [u1, u2, hi]
    simp [hid]

theorem inv_new (cfg : Cfg) : (new : Arena T).Inv cfg where
  size := by simp [new]
  slots := by simp [new]
  ids := by simp [new]
  idlt := by simp [new]
  cap := by simp [new]
  lenle := by simp [new]
  init := by simp [new]
  log := by simp [new, Spec.replay]

/-! ### `push_chunk` -/

/-- The arena after a successful `push_chunk`. -/
def grown (a : Arena T) : Arena T :=
  { a with
    chunks := a.chunks ++ [{ id := a.nextId, slots := List.replicate (8 * 2 ^ a.chunks.length) none }]
    nextId := a.nextId + 1
    log := a.log ++ [.alloc a.nextId (8 * 2 ^ a.chunks.length)]
    capacity := a.capacity + 8 * 2 ^ a.chunks.length }

theorem grown_inv {cfg : Cfg} {a : Arena T} (h : a.Inv cfg)
    (hs : 0 < cfg.esize ∧ 8 * 2 ^ a.chunks.length * cfg.esize ≤ isizeMax) : (grown a).Inv cfg where
  size i hi := by
    simp only [grown, List.length_append, List.length_singleton] at hi
    rcases Nat.lt_or_ge i a.chunks.length with h' | h'
    · exact h.size i h'
    · rw [show i = a.chunks.length by omega]; exact hs
  slots i c hc := by
    simp only [grown, List.getElem?_append] at hc
    split at hc
    · exact h.slots i c hc
    · rename_i hi
      have : i = a.chunks.length := by
        rcases Nat.lt_or_ge (i - a.chunks.length) 1 with h' | h'
        · omega
        · rw [List.getElem?_eq_none (by simpa using h')] at hc; simp at hc
      subst this
      simp at hc
      subst hc; simp
  ids := by
    simp only [grown, List.map_append, List.map_cons, List.map_nil]
    rw [List.nodup_append]
    refine ⟨h.ids, by simp, ?_⟩
    intro x hx y hy
    simp at hy hx
    obtain ⟨c, hc, rfl⟩ := hx
    have := h.idlt c hc
    omega
  idlt c hc := by
    simp only [grown, List.mem_append, List.mem_singleton] at hc ⊢
    rcases hc with hc | rfl
    · have := h.idlt c hc; omega
    · simp
  cap := by
    have := h.cap
    simp only [grown, List.length_append, List.length_singleton, Nat.pow_succ]
    omega
  lenle := by have := h.lenle; simp only [grown]; omega
  init i c o hc ho := by
    simp only [grown, List.getElem?_append] at hc
    split at hc
    · exact h.init i c o hc ho
    · rename_i hi
      have : i = a.chunks.length := by
        rcases Nat.lt_or_ge (i - a.chunks.length) 1 with h' | h'
        · omega
        · rw [List.getElem?_eq_none (by simpa using h')] at hc; simp at hc
      subst this
      simp at hc
      subst hc
      have := h.cap
      have := h.lenle
      simp only [grown, chunkBase, List.getElem?_replicate, if_pos ho]
      simp
      omega
  log := by
    have hl := h.log
    simp only [Spec.replay] at hl
    simp only [grown, Spec.replay, List.foldlM_append, hl]
    have : ¬ ∃ c ∈ a.chunks, c.id = a.nextId := by
      rintro ⟨c, hc, e⟩; have := h.idlt c hc; omega
    simp [Spec.memStep]
    intro c hc e; exact this ⟨c, hc, e⟩

/-- `push_chunk` succeeds unless the elements are zero-sized, the chunk would be
larger than `isize::MAX` bytes, or the allocator refuses. -/
theorem pushChunk_eq {cfg : Cfg} {a : Arena T} (h : a.Inv cfg) :
    pushChunk cfg a =
      if cfg.esize = 0 ∨ 8 * 2 ^ a.chunks.length * cfg.esize > isizeMax then (.panic, a)
      else if cfg.allocOk a.nextId (8 * 2 ^ a.chunks.length * cfg.esize) then (.ok (), grown a)
      else (.abort, a) := by
  have hl := h.length_le
  have hp : 2 ^ a.chunks.length ≤ 2 ^ 60 := Nat.pow_le_pow_right (by omega) hl
  have e : asU32 a.chunks.length = a.chunks.length := Nat.mod_eq_of_lt (by omega)
  unfold pushChunk
  simp only [M.get_bind, e]
  rw [chunkLen_ok cfg (by omega)]
  simp only [M.lift_ok_bind]
  unfold vecWithCapacity
  split
  · rename_i h0
    simp only [M.lift_ok_bind]
    rw [if_pos (by simp only [usizeBound]; omega), if_pos (Or.inl h0)]
    rfl
  rename_i h1
  split
  · rename_i h2
    rw [if_pos (Or.inr h2)]; rfl
  rename_i h2
  have hn : ¬(cfg.esize = 0 ∨ 8 * 2 ^ a.chunks.length * cfg.esize > isizeMax) := not_or.2 ⟨h1, h2⟩
  rw [if_neg hn]
  by_cases hok : cfg.allocOk a.nextId (8 * 2 ^ a.chunks.length * cfg.esize) = true
  · rw [if_pos hok, if_pos hok]
    have hcap := h.cap
    have hs : 0 < cfg.esize ∧ 8 * 2 ^ a.chunks.length * cfg.esize ≤ isizeMax := ⟨by omega, by omega⟩
    have := pow_bound_of_size hs
    have hp' : 2 ^ a.chunks.length ≤ 2 ^ 59 := Nat.pow_le_pow_right (by omega) (by omega)
    simp only [M.lift_ok_bind, ne_eq, not_true_eq_false, if_false, M.modify_bind]
    rw [addU_ok cfg (by simp only [usizeBound]; omega)]
    rfl
  · rw [if_neg hok, if_neg hok]; rfl

theorem pushChunk_spec {cfg : Cfg} {a : Arena T} (h : a.Inv cfg) :
    (pushChunk cfg a = (.ok (), grown a) ∧ (grown a).Inv cfg) ∨
    pushChunk cfg a = (.panic, a) ∨ pushChunk cfg a = (.abort, a) := by
  have e := pushChunk_eq h
  split at e
  · exact Or.inr (Or.inl e)
  · split at e
    · exact Or.inl ⟨e, grown_inv h (by omega)⟩
    · exact Or.inr (Or.inr e)

theorem cell_grown {a : Arena T} (p : Ptr) : (grown a).cell p = a.cell p := by
  unfold cell grown
  simp only [List.find?_append]
  cases h : a.chunks.find? (fun c => c.id == p.block) with
  | some c => simp
  | none =>
    simp only [Option.none_or, List.find?_cons, List.find?_nil]
    split <;> rename_i heq
    · rfl
    · split at heq
      · injection heq with heq
        subst heq
        simp only [List.getElem?_replicate]
        split <;> simp
      · simp at heq

theorem addr_grown {cfg : Cfg} {a : Arena T} (h : a.Inv cfg) {j : Nat} (hj : j < a.capacity) :
    (grown a).addr j = a.addr j := by
  obtain ⟨c, hc, ha, _⟩ := h.chunk_exists hj
  rw [ha]
  unfold addr
  have hlt : chunkOf j < a.chunks.length := (List.getElem?_eq_some_iff.1 hc).1
  simp only [grown, List.getElem?_append_left hlt, hc]
  rfl

/-! ### Memory writes -/

theorem poke_chunks_map (a : Arena T) (p : Ptr) (v : Option T) :
    (a.poke p v).chunks.map (fun c => (c.id, c.slots.length)) =
      a.chunks.map fun c => (c.id, c.slots.length) := by
  simp only [poke, List.map_map]
  apply List.map_congr_left
  intro d _; simp only [Function.comp]; split <;> simp

theorem poke_len (a : Arena T) (p : Ptr) (v : Option T) :
    (a.poke p v).len = a.len ∧ (a.poke p v).capacity = a.capacity ∧
    (a.poke p v).chunks.length = a.chunks.length := by simp [poke]

theorem addr_poke (a : Arena T) (p : Ptr) (v : Option T) (j : Nat) :
    (a.poke p v).addr j = a.addr j := by
  simp only [addr, poke, List.getElem?_map]
  cases a.chunks[chunkOf j]? with
  | none => rfl
  | some c => simp only [Option.map_some]; split <;> rfl

theorem Inv.cell_poke {cfg : Cfg} {a : Arena T} (h : a.Inv cfg) {j : Nat} (hj : j < a.capacity)
    (v : Option T) (q : Ptr) :
    (a.poke (a.addr j) v).cell q = if q = a.addr j then v else a.cell q := by
  obtain ⟨c, hc, ha, hs⟩ := h.chunk_exists hj
  have hlt := offOf_lt j
  rw [← hs] at hlt
  have key : ∀ (d : Chunk T), ((if d.id = (a.addr j).block then
      { d with slots := d.slots.set (a.addr j).off v } else d).id == q.block) = (d.id == q.block) := by
    intro d; split <;> rfl
  unfold cell poke
  simp only [List.find?_map]
  have : ((fun c : Chunk T => c.id == q.block) ∘ fun d : Chunk T =>
      if d.id = (a.addr j).block then { d with slots := d.slots.set (a.addr j).off v } else d) =
      fun d => d.id == q.block := by funext d; exact key d
  rw [this]
  cases hf : a.chunks.find? (fun d => d.id == q.block) with
  | none =>
    simp only [Option.map_none]
    rw [if_neg]
    rintro rfl
    have := h.find_chunk hc
    rw [ha] at hf
    rw [this] at hf
    simp at hf
  | some d =>
    have hid : d.id = q.block := by simpa using List.find?_some hf
    simp only [Option.map_some]
    by_cases hb : q.block = c.id
    · have : d = c := by
        have := h.find_chunk hc
        rw [← hb] at this
        rw [this] at hf
        exact (Option.some.inj hf).symm
      subst this
      rw [ha]
      simp only [if_true]
      rw [List.getElem?_set]
      obtain ⟨qb, qo⟩ := q
      simp only at hb ⊢
      subst hb
      by_cases ho : offOf j = qo
      · subst ho; simp [hlt]
      · simp [ho, Ne.symm ho]
    · rw [if_neg (by rw [ha, hid]; exact hb), if_neg (by rw [ha]; rintro rfl; exact hb rfl)]

theorem Inv.poke {cfg : Cfg} {a : Arena T} (h : a.Inv cfg) {p : Ptr} (hp : (a.cell p).isSome)
    (v : T) : (a.poke p (some v)).Inv cfg := by
  obtain ⟨w, hw⟩ := Option.isSome_iff_exists.1 hp
  obtain ⟨j, hj, rfl⟩ := h.cell_some hw
  obtain ⟨c, hc, ha, hs⟩ := h.chunk_exists (Nat.lt_of_lt_of_le hj h.lenle)
  refine { size := ?_, slots := ?_, ids := ?_, idlt := ?_, cap := ?_, lenle := h.lenle, init := ?_,
           log := by rw [poke_chunks_map]; exact h.log }
  · intro i hi; exact h.size i (by simpa [Arena.poke] using hi)
  · intro i d hd
    simp only [Arena.poke, List.getElem?_map, Option.map_eq_some_iff] at hd
    obtain ⟨e, he, rfl⟩ := hd
    have := h.slots i e he
    split <;> simp [this]
  · have : (a.poke (a.addr j) (some v)).chunks.map Chunk.id = a.chunks.map Chunk.id := by
      simp only [Arena.poke, List.map_map]
      apply List.map_congr_left
      intro d _; simp only [Function.comp]; split <;> rfl
    rw [this]; exact h.ids
  · intro d hd
    simp only [Arena.poke, List.mem_map] at hd
    obtain ⟨e, he, rfl⟩ := hd
    have := h.idlt e he
    split <;> simpa [Arena.poke] using this
  · have := h.cap; simpa [Arena.poke] using this
  · intro i d o hd ho
    simp only [Arena.poke, List.getElem?_map, Option.map_eq_some_iff] at hd
    obtain ⟨e, he, rfl⟩ := hd
    have := h.init i e o he ho
    show _ ↔ _ < a.len
    rw [← this]
    split
    · rename_i hid
      simp only [List.getElem?_set]
      split
      · rename_i ho'
        subst ho'
        have hlt : (a.addr j).off < e.slots.length := by rw [h.slots i e he]; exact ho
        simp only [hlt, if_true]
        have : e = c := by
          have f1 := h.find_chunk he
          have f2 := h.find_chunk hc
          rw [hid, ha] at f1
          simp only at f1
          rw [f1] at f2
          exact Option.some.inj f2
        subst this
        rw [ha, h.cell_of_chunk hc] at hw
        rw [ha]
        simp [hw]
      · exact Iff.rfl
    · exact Iff.rfl

/-! ### `alloc` -/

/-- The arena after writing a new item at index `len`. -/
def wrote (a : Arena T) (v : T) : Arena T :=
  { a.poke (a.addr a.len) (some v) with len := a.len + 1 }

theorem addr_wrote (a : Arena T) (v : T) (j : Nat) : (a.wrote v).addr j = a.addr j :=
  addr_poke a _ _ j

theorem Inv.wrote {cfg : Cfg} {a : Arena T} (h : a.Inv cfg) (hl : a.len < a.capacity) (v : T) :
    (a.wrote v).Inv cfg := by
  obtain ⟨c, hc, ha, hs⟩ := h.chunk_exists hl
  have hcp : ∀ q, (a.wrote v).cell q = if q = a.addr a.len then some v else a.cell q :=
    h.cell_poke hl (some v)
  refine { size := ?_, slots := ?_, ids := ?_, idlt := ?_, cap := ?_, lenle := ?_, init := ?_,
           log := (by
            have := poke_chunks_map a (a.addr a.len) (some v)
            show Spec.replay a.log = some ((a.poke (a.addr a.len) (some v)).chunks.map _)
            rw [this]; exact h.log) }
  · intro i hi; exact h.size i (by simpa [Arena.wrote, Arena.poke] using hi)
  · intro i d hd
    simp only [Arena.wrote, Arena.poke, List.getElem?_map, Option.map_eq_some_iff] at hd
    obtain ⟨e, he, rfl⟩ := hd
    have := h.slots i e he
    split <;> simp [this]
  · have : (a.wrote v).chunks.map Chunk.id = a.chunks.map Chunk.id := by
      simp only [Arena.wrote, Arena.poke, List.map_map]
      apply List.map_congr_left
      intro d _; simp only [Function.comp]; split <;> rfl
    rw [this]; exact h.ids
  · intro d hd
    simp only [Arena.wrote, Arena.poke, List.mem_map] at hd
    obtain ⟨e, he, rfl⟩ := hd
    have := h.idlt e he
    split <;> simpa [Arena.wrote, Arena.poke] using this
  · have := h.cap; simpa [Arena.wrote, Arena.poke] using this
  · simp only [Arena.wrote, Arena.poke]; omega
  · intro i d o hd ho
    simp only [Arena.wrote, Arena.poke, List.getElem?_map, Option.map_eq_some_iff] at hd
    obtain ⟨e, he, rfl⟩ := hd
    have hi := h.init i e o he ho
    obtain ⟨u1, u2⟩ := chunkOf_unique ho
    show _ ↔ _ < a.len + 1
    by_cases hj : chunkBase i + o = a.len
    · rw [hj] at u1 u2
      have : e = c := by rw [← u1, hc] at he; exact (Option.some.inj he).symm
      subst this
      have hlt : o < e.slots.length := by rw [h.slots i e he]; exact ho
      simp [ha, u2, hlt]
      omega
    · have : (chunkBase i + o < a.len + 1) ↔ (chunkBase i + o < a.len) := by omega
      rw [this, ← hi]
      split
      · rename_i hid
        simp only [List.getElem?_set]
        split
        · rename_i ho'
          exfalso
          have : e = c := by
            have f1 := h.find_chunk he
            have f2 := h.find_chunk hc
            rw [hid, ha] at f1
            simp only at f1
            rw [f1] at f2
            exact Option.some.inj f2
          subst this
          have s1 := h.slots _ _ he
          have s2 := h.slots _ _ hc
          rw [s1] at s2
          have : i = chunkOf a.len := (Nat.pow_right_inj (a := 2) (by omega)).1 (by omega)
          rw [ha] at ho'
          simp only at ho'
          apply hj
          rw [this, ← ho', base_add_off]
        · exact Iff.rfl
      · exact Iff.rfl

/-- What `alloc` does, in terms of the memory view. -/
theorem alloc_spec {cfg : Cfg} {a : Arena T} (h : a.Inv cfg) (v : T) :
    (∃ b : Arena T, alloc cfg v a = (.ok (b.addr a.len), b.wrote v) ∧ b.Inv cfg ∧
        b.len = a.len ∧ a.len < b.capacity ∧
        ((b = a ∧ a.len < a.capacity) ∨ (b = grown a ∧ a.len = a.capacity))) ∨
    (a.len = a.capacity ∧ (alloc cfg v a = (.panic, a) ∧ pushChunk cfg a = (.panic, a) ∨
      alloc cfg v a = (.abort, a) ∧ pushChunk cfg a = (.abort, a))) := by
  have hle := h.lenle
  have core : ∀ b : Arena T, b.Inv cfg → b.len < b.capacity →
      (do
        let a ← M.get
        M.lift (debugAssert cfg (decide (a.len < a.capacity)))
        let p ← M.read (fun a => a.ptrAt cfg a.len)
        M.modify fun a => a.poke p (some v)
        let len' ← M.lift (addU cfg a.len 1)
        M.modify fun a => { a with len := len' }
        pure p : M (Arena T) Ptr) b = (.ok (b.addr b.len), b.wrote v) := by
    intro b hb hlt
    have hcl := hb.cap_lt
    simp only [M.get_bind, hlt, decide_true, debugAssert_true, M.lift_ok_bind]
    rw [M.read_bind, hb.ptrAt_ok hlt]
    simp only [M.lift_ok_bind, M.modify_bind]
    rw [addU_ok cfg (by simp only [usizeBound]; omega)]
    rfl
  unfold alloc
  simp only [M.get_bind, hle, decide_true, debugAssert_true, M.lift_ok_bind]
  by_cases hc : a.len = a.capacity
  · rw [if_pos hc]
    rcases pushChunk_spec h with ⟨hp, hg⟩ | hp | hp
    · left
      have : (grown a).len < (grown a).capacity := by
        have := Nat.two_pow_pos a.chunks.length
        simp only [grown]; omega
      refine ⟨grown a, ?_, hg, rfl, this, Or.inr ⟨rfl, hc⟩⟩
      rw [M.bind_ok hp]
      exact core _ hg this
    · right; exact ⟨hc, Or.inl ⟨M.bind_panic hp, hp⟩⟩
    · right; exact ⟨hc, Or.inr ⟨M.bind_abort hp, hp⟩⟩
  · rw [if_neg hc]
    left
    have hlt : a.len < a.capacity := by omega
    exact ⟨a, core a h hlt, h, rfl, hlt, Or.inl ⟨rfl, hlt⟩⟩

/-! ### Growing -/

/-- `b` is `a` after some successful `push_chunk`s. -/
inductive Grows (cfg : Cfg) (a : Arena T) : Arena T → Prop where
  | refl : a.Inv cfg → Grows cfg a a
  | step {b : Arena T} : Grows cfg a b → (grown b).Inv cfg → Grows cfg a (grown b)

namespace Grows
variable {cfg : Cfg} {a b : Arena T}
theorem inv (h : Grows cfg a b) : b.Inv cfg := by cases h <;> assumption
theorem inv_left (h : Grows cfg a b) : a.Inv cfg := by induction h <;> assumption
theorem cell (h : Grows cfg a b) (p : Ptr) : b.cell p = a.cell p := by
  induction h with
  | refl => rfl
  | step _ _ ih => rw [cell_grown, ih]
theorem len (h : Grows cfg a b) : b.len = a.len := by
  induction h with
  | refl => rfl
  | step _ _ ih => exact ih
theorem dropped (h : Grows cfg a b) : b.dropped = a.dropped := by
  induction h with
  | refl => rfl
  | step _ _ ih => exact ih
theorem capacity (h : Grows cfg a b) : a.capacity ≤ b.capacity := by
  induction h with
  | refl => exact Nat.le_refl _
  | step _ _ ih => simp only [grown]; omega
theorem chunks_length (h : Grows cfg a b) : a.chunks.length ≤ b.chunks.length := by
  induction h with
  | refl => exact Nat.le_refl _
  | step _ _ ih => simp only [grown, List.length_append]; omega
theorem addr (h : Grows cfg a b) {j : Nat} (hj : j < a.capacity) : b.addr j = a.addr j := by
  induction h with
  | refl => rfl
  | step h' _ ih =>
    rw [addr_grown h'.inv (Nat.lt_of_lt_of_le hj h'.capacity), ih]
theorem trans {c : Arena T} (h : Grows cfg a b) (h' : Grows cfg b c) : Grows cfg a c := by
  induction h' with
  | refl => exact h
  | step _ hi ih => exact ih.step hi
end Grows

theorem growTo_loop {cfg : Cfg} {a : Arena T} (n fuel : Nat) (h : a.Inv cfg)
    (hf : 61 ≤ a.chunks.length + fuel) :
    ∃ b : Arena T, Grows cfg a b ∧
      ((loop fuel (fun (_ : Unit) => (do
          let a ← M.get
          if a.capacity < n then
            pushChunk cfg
            pure (.inl ())
          else pure (.inr ()) : M (Arena T) (Unit ⊕ Unit))) () a = (.ok (), b) ∧ n ≤ b.capacity) ∨
       (b.capacity < n ∧ (loop fuel (fun (_ : Unit) => (do
          let a ← M.get
          if a.capacity < n then
            pushChunk cfg
            pure (.inl ())
          else pure (.inr ()) : M (Arena T) (Unit ⊕ Unit))) () a = (.panic, b) ∧
          pushChunk cfg b = (.panic, b) ∨
        loop fuel (fun (_ : Unit) => (do
          let a ← M.get
          if a.capacity < n then
            pushChunk cfg
            pure (.inl ())
          else pure (.inr ()) : M (Arena T) (Unit ⊕ Unit))) () a = (.abort, b) ∧
          pushChunk cfg b = (.abort, b)))) := by
  induction fuel generalizing a with
  | zero => have := h.length_le; omega
  | succ fuel ih =>
    by_cases hc : a.capacity < n
    · rcases pushChunk_spec h with ⟨hp, hg⟩ | hp | hp
      · obtain ⟨b, hb, hr⟩ := ih hg (by simp only [grown, List.length_append, List.length_singleton]; omega)
        refine ⟨b, ((Grows.refl h).step hg).trans hb, ?_⟩
        rw [loopM_inl (b' := ()) (s' := grown a) (by
          simp only [M.get_bind, hc, if_true]; rw [M.bind_ok hp]; rfl)]
        exact hr
      · refine ⟨a, .refl h, Or.inr ⟨hc, Or.inl ⟨loopM_panic ?_, hp⟩⟩⟩
        simp only [M.get_bind, hc, if_true]; rw [M.bind_panic hp]
      · refine ⟨a, .refl h, Or.inr ⟨hc, Or.inr ⟨loopM_abort ?_, hp⟩⟩⟩
        simp only [M.get_bind, hc, if_true]; rw [M.bind_abort hp]
    · refine ⟨a, .refl h, Or.inl ⟨loopM_inr ?_, by omega⟩⟩
      simp only [M.get_bind, hc, if_false]; rfl

theorem growTo_spec {cfg : Cfg} {a : Arena T} (n : Nat) (h : a.Inv cfg) :
    ∃ b : Arena T, Grows cfg a b ∧
      ((growTo cfg n a = (.ok (), b) ∧ n ≤ b.capacity) ∨
       (b.capacity < n ∧ (growTo cfg n a = (.panic, b) ∧ pushChunk cfg b = (.panic, b) ∨
          growTo cfg n a = (.abort, b) ∧ pushChunk cfg b = (.abort, b)))) :=
  growTo_loop n growFuel h (by simp only [growFuel]; omega)

theorem growTo_enough {cfg : Cfg} {a : Arena T} {n : Nat} (hn : n ≤ a.capacity) :
    growTo cfg n a = (.ok (), a) := by
  unfold growTo growFuel
  rw [loopM_inr]
  simp only [M.get_bind, Nat.not_lt.2 hn, if_false]; rfl

/-! ### `clear` (elements without destructor) -/

/-- The arena after `clear`. -/
def cleared (a : Arena T) : Arena T := { a.forgetCells with len := 0 }

theorem clear_nodrop (cfg : Cfg) (dp : T → Bool) (a : Arena T) :
    clear cfg false dp a = (.ok (), a.cleared) := rfl

theorem cell_cleared (a : Arena T) (p : Ptr) : a.cleared.cell p = none := by
  unfold cell cleared forgetCells
  simp only [List.find?_map]
  split
  · rfl
  · rename_i c h
    simp only [Option.map_eq_some_iff] at h
    obtain ⟨d, _, rfl⟩ := h
    simp only [List.getElem?_map]
    cases d.slots[p.off]? <;> rfl

theorem Inv.cleared {cfg : Cfg} {a : Arena T} (h : a.Inv cfg) : a.cleared.Inv cfg where
  size i hi := h.size i (by simpa [Arena.cleared, forgetCells] using hi)
  slots i c hc := by
    simp only [Arena.cleared, forgetCells, List.getElem?_map, Option.map_eq_some_iff] at hc
    obtain ⟨d, hd, rfl⟩ := hc
    simpa using h.slots i d hd
  ids := by
    have : a.cleared.chunks.map Chunk.id = a.chunks.map Chunk.id := by
      simp only [Arena.cleared, forgetCells, List.map_map]; rfl
    rw [this]; exact h.ids
  idlt c hc := by
    simp only [Arena.cleared, forgetCells, List.mem_map] at hc
    obtain ⟨d, hd, rfl⟩ := hc
    exact h.idlt d hd
  cap := by simpa [Arena.cleared, forgetCells] using h.cap
  lenle := Nat.zero_le _
  init i c o hc ho := by
    simp only [Arena.cleared, forgetCells, List.getElem?_map, Option.map_eq_some_iff] at hc
    obtain ⟨d, hd, rfl⟩ := hc
    simp only [List.getElem?_map, Arena.cleared]
    cases d.slots[o]? <;> simp
  log := by
    have : a.cleared.chunks.map (fun c => (c.id, c.slots.length)) =
        a.chunks.map fun c => (c.id, c.slots.length) := by
      simp [Arena.cleared, forgetCells]
    rw [this]; exact h.log

/-! ### Iteration -/

theorem Inv.nextPtr_some {cfg : Cfg} {a : Arena T} (h : a.Inv cfg) {it : Iter}
    (h1 : it.start < it.stop) (h2 : it.stop ≤ a.len) :
    ∃ v, a.cell (a.addr it.start) = some v ∧
      it.nextPtr cfg a = .ok (some (a.addr it.start, v), { it with start := it.start + 1 }) := by
  have hc : it.start < a.capacity := by have := h.lenle; omega
  obtain ⟨v, hv⟩ := Option.isSome_iff_exists.1 ((h.cell_addr hc).2 (by omega))
  refine ⟨v, hv, ?_⟩
  simp [Iter.nextPtr, h1, h.ptrAt_ok hc, getUnchecked, hv]

theorem Inv.nextBackPtr_some {cfg : Cfg} {a : Arena T} (h : a.Inv cfg) {it : Iter}
    (h1 : it.start < it.stop) (h2 : it.stop ≤ a.len) :
    ∃ v, a.cell (a.addr (it.stop - 1)) = some v ∧
      it.nextBackPtr cfg a =
        .ok (some (a.addr (it.stop - 1), v), { it with stop := it.stop - 1 }) := by
  have hc : it.stop - 1 < a.capacity := by have := h.lenle; omega
  obtain ⟨v, hv⟩ := Option.isSome_iff_exists.1 ((h.cell_addr hc).2 (by omega))
  refine ⟨v, hv, ?_⟩
  simp [Iter.nextBackPtr, h1, h.ptrAt_ok hc, getUnchecked, hv]

/-! ### `shrink_to_fit` -/

/-- The arena after the last chunk was given back. -/
def popped (a : Arena T) (c : Chunk T) : Arena T :=
  { a with
    chunks := a.chunks.dropLast
    log := a.log ++ [.free c.id (8 * 2 ^ (a.chunks.length - 1))]
    capacity := a.capacity - 8 * 2 ^ (a.chunks.length - 1) }

theorem Inv.popped {cfg : Cfg} {a : Arena T} (h : a.Inv cfg) {c : Chunk T}
    (hc : a.chunks.getLast? = some c) (hl : a.len + 8 * 2 ^ (a.chunks.length - 1) ≤ a.capacity) :
    (a.popped c).Inv cfg ∧ ∀ p, (a.popped c).cell p = a.cell p := by
  obtain ⟨l, e⟩ : ∃ l, a.chunks = l ++ [c] := by
    refine ⟨a.chunks.dropLast, ?_⟩
    have hne : a.chunks ≠ [] := by intro e; simp [e] at hc
    rw [List.getLast?_eq_some_getLast hne] at hc
    injection hc with hc
    rw [← hc, List.dropLast_concat_getLast]
  have hlen : a.chunks.length = l.length + 1 := by simp [e]
  have hpc : (a.popped c).chunks = l := by simp [Arena.popped, e]
  have hget : ∀ (i : Nat) (d : Chunk T), l[i]? = some d → a.chunks[i]? = some d := by
    intro i d hd
    rw [e, List.getElem?_append_left (List.getElem?_eq_some_iff.1 hd).1]; exact hd
  have hclast : a.chunks[l.length]? = some c := by simp [e]
  have hcs := h.slots _ _ hclast
  have hcap := h.cap
  rw [hlen, Nat.pow_succ] at hcap
  rw [hlen, Nat.add_sub_cancel] at hl
  constructor
  · refine { size := ?_, slots := ?_, ids := ?_, idlt := ?_, cap := ?_, lenle := ?_, init := ?_, log := ?_ }
    · intro i hi; rw [hpc] at hi; exact h.size i (by omega)
    · intro i d hd; rw [hpc] at hd; exact h.slots i d (hget i d hd)
    · have := h.ids
      rw [e, List.map_append, List.nodup_append] at this
      rw [hpc]; exact this.1
    · intro d hd; rw [hpc] at hd; exact h.idlt d (by simp [e, hd])
    · rw [hpc]; simp only [Arena.popped, hlen, Nat.add_sub_cancel]; omega
    · simp only [Arena.popped, hlen, Nat.add_sub_cancel]; omega
    · intro i d o hd ho; rw [hpc] at hd; exact h.init i d o (hget i d hd) ho
    · have hlog := h.log
      have hids := h.ids
      rw [hpc]
      simp only [Arena.popped, Spec.replay, List.foldlM_append] at hlog ⊢
      rw [hlog]
      have hnot : (c.id, c.slots.length) ∉ l.map (fun c => (c.id, c.slots.length)) := by
        intro hm
        rw [e, List.map_append, List.nodup_append] at hids
        obtain ⟨d, hd, e'⟩ := List.mem_map.1 hm
        injection e' with e1 _
        exact hids.2.2 d.id (List.mem_map_of_mem hd) c.id (by simp) e1
      simp only [e, List.length_append, List.length_singleton, Nat.add_sub_cancel, ← hcs,
        List.map_append, List.map_cons, List.map_nil]
      simp only [bind, Option.bind, List.foldlM_cons, List.foldlM_nil, Spec.memStep]
      rw [if_pos (by simp), List.erase_append_right _ hnot]
      simp
  · intro p
    unfold cell
    rw [hpc, e, List.find?_append]
    cases hf : l.find? (fun c => c.id == p.block) with
    | some d => simp
    | none =>
      simp only [Option.none_or, List.find?_cons, List.find?_nil]
      by_cases hid : (c.id == p.block) = true
      · simp only [hid]
        cases hs : c.slots[p.off]? with
        | none => rfl
        | some w =>
          cases w with
          | none => rfl
          | some v =>
            exfalso
            have ho : p.off < 8 * 2 ^ l.length := by
              rw [← hcs]; exact (List.getElem?_eq_some_iff.1 hs).1
            have := (h.init _ _ _ hclast ho).1 (by simp [hs])
            unfold chunkBase at this
            omega
      · simp [hid]

/-- What `shrink_to_fit` leaves: `b` is `a` without some empty chunks at the end,
and the last remaining chunk is in use. -/
structure Shrunk (cfg : Cfg) (a b : Arena T) : Prop where
  inv : b.Inv cfg
  cell : ∀ p, b.cell p = a.cell p
  len : b.len = a.len
  dropped : b.dropped = a.dropped
  nextId : b.nextId = a.nextId
  prefix_ : b.chunks <+: a.chunks
  tight : b.chunks = [] ∨ 8 * (2 ^ (b.chunks.length - 1) - 1) < b.len

theorem shrinkToFit_spec {cfg : Cfg} {a : Arena T} (h : a.Inv cfg) :
    ∃ b, shrinkToFit cfg a = (.ok (), b) ∧ Shrunk cfg a b := by
  unfold shrinkToFit
  simp only [M.get_bind]
  generalize hn : a.chunks.length = n
  have hf : n + 1 = a.chunks.length + 1 := by omega
  rw [hf]
  generalize hfu : a.chunks.length + 1 = fuel
  have hfu' : a.chunks.length < fuel := by omega
  clear hf hfu
  induction fuel generalizing a n with
  | zero => omega
  | succ fuel ih =>
    cases hl : a.chunks.getLast? with
    | none =>
      refine ⟨a, loopM_inr (by simp only [M.get_bind, hl]; rfl), h, fun _ => rfl, rfl, rfl, rfl,
        List.prefix_refl _, ?_⟩
      left; simpa using hl
    | some c =>
      have hne : a.chunks ≠ [] := by intro e; simp [e] at hl
      have hpos : 0 < n := by rw [← hn]; exact List.length_pos_iff.2 hne
      have hlen := h.length_le
      have hcap := h.cap
      have hpow : 2 ^ n = 2 ^ (n - 1) * 2 := by rw [← Nat.pow_succ]; congr 1; omega
      rw [hn] at hcap
      have hu : asU32 (n - 1) = n - 1 := Nat.mod_eq_of_lt (by omega)
      have hp1 : 0 < 2 ^ (n - 1) := Nat.two_pow_pos _
      have step : ∀ (f : Nat → M (Arena T) (Nat ⊕ Unit)),
          ((do
            let i ← M.lift (subU cfg n 1)
            let chunkI := asU32 i
            let chunkLen ← M.lift (chunkLen cfg chunkI)
            let rest ← M.lift (subU cfg a.capacity chunkLen)
            if rest ≥ a.len then f chunkLen
            else pure (.inr ()) : M (Arena T) (Nat ⊕ Unit)) a) =
          if a.len + 8 * 2 ^ (n - 1) ≤ a.capacity then f (8 * 2 ^ (n - 1)) a
          else (.ok (.inr ()), a) := by
        intro f
        rw [subU_ok cfg hpos]
        simp only [M.lift_ok_bind, hu]
        rw [chunkLen_ok cfg (by omega)]
        simp only [M.lift_ok_bind]
        rw [subU_ok cfg (by omega)]
        simp only [M.lift_ok_bind]
        split
        · rw [if_pos (by omega)]
        · rw [if_neg (by omega)]; rfl
      by_cases hfit : a.len + 8 * 2 ^ (n - 1) ≤ a.capacity
      · obtain ⟨hpi, hpcell⟩ := h.popped hl (by rw [hn]; exact hfit)
        have hplen : (a.popped c).chunks.length = n - 1 := by simp [Arena.popped, hn]
        obtain ⟨b, hb, hs⟩ := ih hpi (n - 1) hplen (by omega)
        refine ⟨b, ?_, hs.inv, fun p => (hs.cell p).trans (hpcell p), hs.len, hs.dropped, hs.nextId,
          hs.prefix_.trans (List.dropLast_prefix _), hs.tight⟩
        rw [loopM_inl (b' := n - 1) (s' := a.popped c) ?_]
        · exact hb
        · simp only [M.get_bind, hl]
          refine (step _).trans ?_
          rw [if_pos hfit]
          simp only [M.modify_bind]
          rw [subU_ok cfg hpos]
          simp only [M.lift_ok_bind]
          rw [subU_ok cfg (by omega)]
          simp only [M.lift_ok_bind, M.modify_bind, Arena.popped, hn]
          rfl
      · refine ⟨a, loopM_inr ?_, h, fun _ => rfl, rfl, rfl, rfl, List.prefix_refl _, ?_⟩
        · simp only [M.get_bind, hl]
          refine (step _).trans ?_
          rw [if_neg hfit]
        · right; rw [hn]; omega

/-! ### `Drop` -/

theorem freeChunks_ok (cfg : Cfg) (l : List (Chunk T)) (k : Nat) (hk : k + l.length ≤ 60)
    (hs : ∀ i c, l[i]? = some c → c.slots.length = 8 * 2 ^ (k + i)) :
    freeChunks cfg k l = .ok (l.map fun c => .free c.id c.slots.length) := by
  induction l generalizing k with
  | nil => rfl
  | cons c l ih =>
    have hu : asU32 k = k := Nat.mod_eq_of_lt (by simp at hk; omega)
    have h0 := hs 0 c (by simp)
    unfold freeChunks
    rw [hu, chunkLen_ok cfg (by simp at hk; omega)]
    rw [ih (k + 1) (by simp at hk; omega) (by
      intro i d hd
      have := hs (i + 1) d (by simpa using hd)
      rw [this]; congr 2; omega)]
    simp [h0]

theorem replay_free (l : List (Nat × Nat)) (rest : List (Nat × Nat)) :
    (l.map fun b => MemEv.free b.1 b.2).foldlM Spec.memStep (l ++ rest) = some rest := by
  induction l with
  | nil => rfl
  | cons b l ih =>
    simp only [List.map_cons, List.foldlM_cons, Spec.memStep, List.cons_append]
    rw [if_pos (by simp)]
    simp only [List.erase_cons_head]
    exact ih

/-- `Drop` without element destructors: never fails, and afterwards every chunk
that was ever allocated has been freed exactly once with its size. -/
theorem drop_nodrop {cfg : Cfg} {a : Arena T} (h : a.Inv cfg) (dp : T → Bool) :
    ∃ b, drop cfg false dp a = (.ok (), b) ∧ b.chunks = [] ∧ b.dropped = a.dropped ∧
      Spec.replay b.log = some [] := by
  have hc := h.cleared
  have hf := freeChunks_ok cfg a.cleared.chunks 0 (by have := hc.length_le; omega)
    (by intro i c h'; simpa using hc.slots i c h')
  refine ⟨{ a.cleared with
      chunks := []
      log := a.cleared.log ++ a.cleared.chunks.map fun c => .free c.id c.slots.length },
    ?_, rfl, ?_, ?_⟩
  · unfold drop
    rw [M.bind_ok (clear_nodrop cfg dp a)]
    simp only [M.get_bind]
    rw [hf]
    rfl
  · rfl
  · have hl := hc.log
    simp only [Spec.replay] at hl
    simp only [Spec.replay, List.foldlM_append, hl]
    have := replay_free (a.cleared.chunks.map fun c => (c.id, c.slots.length)) []
    rw [List.append_nil, List.map_map] at this
    exact this

end Arena
end BST
