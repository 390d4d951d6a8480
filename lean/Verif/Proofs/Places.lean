import Verif.Proofs.Placement
/-!
# Lemmas on the places of entries
-/
set_option linter.unusedSimpArgs false
namespace BST
open BSTMap Tree
open Spec (BT Order slot replay memStep)
variable {K V : Type} {cfg : Cfg}

/-! ### Slots of a list of blocks -/

theorem slot_append {bs : List (Nat × Nat)} (cs : List (Nat × Nat)) {j : Nat} {p : Ptr}
    (h : slot bs j = some p) : slot (bs ++ cs) j = some p := by
  induction bs generalizing j with
  | nil => cases h
  | cons b bs ih =>
    obtain ⟨id, n⟩ := b
    simp only [List.cons_append, slot] at h ⊢
    split
    · rename_i hj; rw [if_pos hj] at h; exact h
    · rename_i hj; rw [if_neg hj] at h; exact ih h

theorem slot_at {bs : List (Nat × Nat)} {i o : Nat} {b : Nat × Nat} (hb : bs[i]? = some b)
    (ho : o < b.2) : slot bs (((bs.take i).map (·.2)).sum + o) = some ⟨b.1, o⟩ := by
  induction bs generalizing i with
  | nil => simp at hb
  | cons c bs ih =>
    cases i with
    | zero =>
      simp at hb
      subst hb
      simp [slot, ho]
    | succ i =>
      simp at hb
      simp only [List.take_succ_cons, List.map_cons, List.sum_cons, slot]
      rw [if_neg (by omega), show c.2 + ((bs.take i).map (·.2)).sum + o - c.2 =
        ((bs.take i).map (·.2)).sum + o by omega]
      exact ih hb

theorem slot_lt {bs : List (Nat × Nat)} {j : Nat} {p : Ptr} (h : slot bs j = some p) :
    j < (bs.map (·.2)).sum := by
  induction bs generalizing j with
  | nil => cases h
  | cons b bs ih =>
    simp only [slot] at h
    simp only [List.map_cons, List.sum_cons]
    split at h
    · omega
    · have := ih h; omega

/-- Two consecutive slots are neighbours in a block, or the second one is the first of its block. -/
theorem slot_next : ∀ {bs : List (Nat × Nat)} {i : Nat} {p q : Ptr}, slot bs i = some p →
    slot bs (i + 1) = some q →
    q = ⟨p.block, p.off + 1⟩ ∨ ∃ j < bs.length, i + 1 = ((bs.take j).map (·.2)).sum
  | [], _, _, _, h, _ => by simp [slot] at h
  | (id, n) :: bs, i, p, q, h, h' => by
    unfold slot at h h'
    split at h
    · cases h
      split at h'
      · cases h'; exact .inl rfl
      · cases bs with
        | nil => simp [slot] at h'
        | cons b bs => exact .inr ⟨1, by simp, by simp; omega⟩
    · rw [if_neg (by omega), show i + 1 - n = (i - n) + 1 by omega] at h'
      rcases slot_next h h' with h1 | ⟨j, h1, h2⟩
      · exact .inl h1
      · exact .inr ⟨j + 1, by simpa using h1, by
          simp only [List.take_succ_cons, List.map_cons, List.sum_cons]
          omega⟩

namespace Arena
variable {T : Type}

/-- The blocks of an arena. -/
def blocks (a : Arena T) : List (Nat × Nat) := a.chunks.map fun c => (c.id, c.slots.length)

theorem Inv.blocks_sum {a : Arena T} (h : a.Inv cfg) {i : Nat} (hi : i ≤ a.chunks.length) :
    ((a.blocks.take i).map (·.2)).sum = chunkBase i := by
  induction i with
  | zero => simp [chunkBase]
  | succ i ih =>
    have hlt : i < a.chunks.length := hi
    have h1 : a.blocks[i]? = some (a.chunks[i].id, a.chunks[i].slots.length) := by
      simp [blocks, hlt]
    rw [List.take_add_one, h1]
    have h2 := h.slots i _ (List.getElem?_eq_getElem hlt)
    have h3 := ih (by omega)
    simp only [Option.toList_some, List.map_append, List.sum_append, h3, List.map_cons,
      List.map_nil, List.sum_cons, List.sum_nil, h2, chunkBase, Nat.pow_succ]
    have := Nat.two_pow_pos i
    omega

theorem Inv.slot_addr {a : Arena T} (h : a.Inv cfg) {j : Nat} (hj : j < a.capacity) :
    slot a.blocks j = some (a.addr j) := by
  obtain ⟨c, hc, ha, hs⟩ := h.chunk_exists hj
  have hlt : chunkOf j < a.chunks.length := (List.getElem?_eq_some_iff.1 hc).1
  have hb : a.blocks[chunkOf j]? = some (c.id, c.slots.length) := by simp [blocks, hc]
  have := slot_at hb (o := offOf j) (by simp only [hs]; exact offOf_lt j)
  rw [h.blocks_sum (Nat.le_of_lt hlt), base_add_off] at this
  rw [this, ha]

theorem Inv.slot_prefix {a b : Arena T} (ha : a.Inv cfg) {j : Nat} (hj : j < a.capacity)
    (hp : a.blocks <+: b.blocks) : slot b.blocks j = slot a.blocks j := by
  obtain ⟨cs, hp⟩ := hp
  rw [← hp, ha.slot_addr hj]
  exact slot_append cs (ha.slot_addr hj)

theorem Inv.blocks_sizes {a : Arena T} (h : a.Inv cfg) :
    a.blocks.map (·.2) = (List.range a.chunks.length).map fun i => 8 * 2 ^ i := by
  apply List.ext_getElem?
  intro i
  simp only [blocks, List.getElem?_map, List.map_map]
  by_cases hi : i < a.chunks.length
  · have := h.slots i _ (List.getElem?_eq_getElem hi)
    rw [List.getElem?_eq_getElem hi, List.getElem?_range hi]
    simp [this]
  · rw [List.getElem?_eq_none (by omega), List.getElem?_eq_none (by simp; omega)]
    rfl
end Arena

/-! ### The map -/

theorem Shape.log {m : BSTMap K V} {t : Tree K V} (h : Shape cfg m t) :
    replay m.nodes.items.log = some m.nodes.items.blocks := h.items.log

theorem Shape.place {m : BSTMap K V} {t : Tree K V} (h : Shape cfg m t) {e : Ptr × K × V}
    (he : e ∈ t.ino) : ∃ j < m.nodes.items.len, slot m.nodes.items.blocks j = some e.1 := by
  have hp : e.1 ∈ t.ptrs := ptr_mem_of_ino he
  obtain ⟨frees, hf⟩ := h.slab
  obtain ⟨hc, _⟩ := hf.view_isSome.1 ((h.live e.1).2 hp)
  obtain ⟨x, hx⟩ := Option.isSome_iff_exists.1 hc
  obtain ⟨j, hj, hp⟩ := hf.items.cell_some hx
  exact ⟨j, hj, by rw [hp]; exact hf.items.slot_addr (Nat.lt_of_lt_of_le hj hf.items.lenle)⟩

theorem Shape.full {m : BSTMap K V} {t : Tree K V} (h : Shape cfg m t) (hfl : m.nodes.freeLen = 0)
    {j : Nat} (hj : j < m.nodes.items.len) :
    ∃ e ∈ t.ino, slot m.nodes.items.blocks j = some e.1 := by
  obtain ⟨frees, hf⟩ := h.slab
  have hcap := Nat.lt_of_lt_of_le hj hf.items.lenle
  have hfr : frees = [] := List.length_eq_zero_iff.1 (hf.flen.symm.trans hfl)
  have hv : (m.nodes.view (m.nodes.items.addr j)).isSome :=
    hf.view_isSome.2 ⟨(hf.items.cell_addr hcap).2 hj, by simp [hfr]⟩
  have hp := (h.live _).1 hv
  have hm := t.ino_ptrs_perm.mem_iff.2 hp
  obtain ⟨e, he, hep⟩ := List.mem_map.1 hm
  exact ⟨e, he, by rw [hep]; exact hf.items.slot_addr hcap⟩

/-- The keys `ks` are in the map, in this order in its memory, and nothing else is. -/
structure Laid (cfg : Cfg) (m : BSTMap K V) (t : Tree K V) (ks : List K) : Prop where
  shape : Shape cfg m t
  free : m.nodes.freeLen = 0
  len : m.nodes.items.len = ks.length
  at_ : ∀ i k, ks[i]? = some k →
    ∃ p v, slot m.nodes.items.blocks i = some p ∧ (p, k, v) ∈ t.ino

theorem Laid.same {m m' : BSTMap K V} {t t' : Tree K V} {ks : List K} (h : Laid cfg m t ks)
    (hs : Shape cfg m' t') (hf : m'.nodes.freeLen = m.nodes.freeLen)
    (hl : m'.nodes.items.len = m.nodes.items.len)
    (hb : ∀ j < m.nodes.items.len, slot m'.nodes.items.blocks j = slot m.nodes.items.blocks j)
    (hst : t.Stay t') : Laid cfg m' t' ks where
  shape := hs
  free := hf.trans h.free
  len := hl.trans h.len
  at_ i k hk := by
    obtain ⟨p, v, h1, h2⟩ := h.at_ i k hk
    obtain ⟨v', h3⟩ := hst _ h2
    have hi : i < ks.length := (List.getElem?_eq_some_iff.1 hk).1
    exact ⟨p, v', by rw [hb i (by rw [h.len]; exact hi)]; exact h1, h3⟩

theorem slots_of_log {m m' : BSTMap K V} {t t' : Tree K V} (h : Shape cfg m t) (h' : Shape cfg m' t')
    (hl : m'.nodes.items.log = m.nodes.items.log ∨
      ∃ id n, m'.nodes.items.log = m.nodes.items.log ++ [.alloc id n]) :
    ∀ j < m.nodes.items.len, slot m'.nodes.items.blocks j = slot m.nodes.items.blocks j := by
  intro j hj
  refine h.items.slot_prefix (Nat.lt_of_lt_of_le hj h.items.lenle) ?_
  have e1 := h.log
  have e2 := h'.log
  rcases hl with hl | ⟨id, n, hl⟩
  · rw [hl, e1] at e2
    exact Option.some.inj e2 ▸ List.prefix_rfl
  · rw [hl] at e2
    unfold replay at e1 e2
    rw [List.foldlM_append, e1] at e2
    have e2 : memStep m.nodes.items.blocks (.alloc id n) >>= pure = some m'.nodes.items.blocks := by
      simpa using e2
    simp only [memStep] at e2
    split at e2
    · cases e2
    · exact ⟨_, Option.some.inj e2⟩

theorem slots_of_grows {m m' : BSTMap K V} {t : Tree K V} (h : Shape cfg m t)
    (hg : Arena.Grows cfg m.nodes.items m'.nodes.items) :
    ∀ j < m.nodes.items.len, slot m'.nodes.items.blocks j = slot m.nodes.items.blocks j := by
  intro j hj
  have hj := Nat.lt_of_lt_of_le hj h.items.lenle
  rw [h.items.slot_addr hj, hg.inv.slot_addr (Nat.lt_of_lt_of_le hj hg.capacity), hg.addr hj]

theorem M.bind_ub' {σ α β : Type} {f : M σ α} {g : α → M σ β} {s s' : σ} (h : f s = (.ub, s')) :
    (f >>= g) s = (.ub, s') := by
  show M.bind f g s = _
  unfold M.bind; rw [h]

theorem M.bind_diverge' {σ α β : Type} {f : M σ α} {g : α → M σ β} {s s' : σ}
    (h : f s = (.diverge, s')) : (f >>= g) s = (.diverge, s') := by
  show M.bind f g s = _
  unfold M.bind; rw [h]

/-- The key that a call of `insert` has added. -/
def newKey (k : K) : Out (Option V) → List K
  | .ok none => [k]
  | _ => []

/-- What an insertion does to the layout. -/
theorem Laid.insert {m m' : BSTMap K V} {t : Tree K V} {ks : List K} (h : Laid cfg m t ks) {c : Probe K}
    {k : K} {v : V} {o : Out (Option V)} (he : insert cfg c k v m = (o, m')) :
    ∃ t', Laid cfg m' t' (ks ++ newKey k o) := by
  rcases insert_spec h.shape c k v with ⟨h1, h2⟩ | ⟨q, k0, v0, x, m1, h1, h2, h3, h4, h5⟩ |
    ⟨h1, pn, m1, h2, h3, h4⟩ | ⟨h1, h2, h3 | h3⟩
  · cases h2.symm.trans he
    exact ⟨t, by simpa [newKey] using h⟩
  · cases h2.symm.trans he
    refine ⟨t.ins c q k v 0, ?_⟩
    have := h.same (h4 q) h5.freeLen h5.len (slots_of_log h.shape (h4 q) (.inl h5.log)) (.ins q k v h1)
    simpa [newKey] using this
  · cases h2.symm.trans he
    refine ⟨_, h3, (h4.len h.free).2, by simp [(h4.len h.free).1, h.len, newKey], ?_⟩
    have hb := slots_of_log h.shape h3 h4.log
    have hst := Stay.ins pn k v h1
    have hl := h.len
    intro i k' hk
    simp only [newKey] at hk
    rcases Nat.lt_or_ge i ks.length with hi | hi
    · rw [List.getElem?_append_left hi] at hk
      obtain ⟨p, v', g1, g2⟩ := h.at_ i k' hk
      obtain ⟨v'', g3⟩ := hst _ g2
      exact ⟨p, v'', by rw [hb i (by omega)]; exact g1, g3⟩
    · rw [List.getElem?_append_right hi] at hk
      obtain ⟨hi', rfl⟩ : i = ks.length ∧ k = k' := by
        cases hx : i - ks.length with
        | zero => rw [hx] at hk; exact ⟨by omega, by simpa using hk⟩
        | succ n => rw [hx] at hk; simp at hk
      subst hi'
      obtain ⟨a, b, _, e2⟩ := ins_ino_miss (p := pn) (k := k) (v := v) h1
      have hmem : (pn, k, v) ∈ (t.ins c pn k v 0).ino := by rw [e2]; simp
      refine ⟨pn, v, ?_, hmem⟩
      obtain ⟨j, hj, hjp⟩ := h3.place hmem
      rw [(h4.len h.free).1, h.len] at hj
      rcases Nat.lt_or_ge j ks.length with hlt | hge
      · exfalso
        obtain ⟨e, g1, g2⟩ := h.shape.full h.free (j := j) (by omega)
        rw [hb j (by omega), g2] at hjp
        have hp := ptr_mem_of_ino g1
        have := (h.shape.live e.1).2 hp
        rw [Option.some.inj hjp, h4.fresh] at this
        cases this
      · have : j = ks.length := by omega
        rw [← this]; exact hjp
  · cases h3.symm.trans he
    exact ⟨t, by simpa [newKey] using h⟩
  · cases h3.symm.trans he
    exact ⟨t, by simpa [newKey] using h⟩

theorem Laid.insertAll {cmps : Nat → K → Probe K} {l : List (K × V)} : ∀ {n : Nat}
    {m m' : BSTMap K V} {t : Tree K V} {ks : List K} {o : Out Unit}, Laid cfg m t ks →
    insertAll cfg cmps n l m = (o, m') →
    ∃ t', Laid cfg m' t' (ks ++ ((insertTrace cfg cmps n l m).filter fun x => x.2.isNone).map (·.1.1)) := by
  induction l with
  | nil =>
    intro n m m' t ks o h he
    cases he
    exact ⟨t, by simpa [insertTrace] using h⟩
  | cons x l ih =>
    intro n m m' t ks o h he
    obtain ⟨k, v⟩ := x
    cases hi : BSTMap.insert cfg (cmps n k) k v m with
    | mk o1 m1 =>
      obtain ⟨t1, h1⟩ := h.insert hi
      unfold BSTMap.insertAll at he
      unfold insertTrace
      rw [hi]
      cases o1 with
      | ok r =>
        rw [M.bind_ok hi] at he
        obtain ⟨t2, h2⟩ := ih h1 he
        refine ⟨t2, ?_⟩
        cases r with
        | none => simpa [newKey] using h2
        | some r => simpa [newKey] using h2
      | panic => cases (M.bind_panic hi).symm.trans he; exact ⟨t1, by simpa [newKey] using h1⟩
      | abort => cases (M.bind_abort hi).symm.trans he; exact ⟨t1, by simpa [newKey] using h1⟩
      | ub => cases (M.bind_ub' hi).symm.trans he; exact ⟨t1, by simpa [newKey] using h1⟩
      | diverge => cases (M.bind_diverge' hi).symm.trans he; exact ⟨t1, by simpa [newKey] using h1⟩

theorem reserve_grows {m : BSTMap K V} {t : Tree K V} (h : Shape cfg m t) (n : Nat) :
    ∃ o m', reserve cfg n m = (o, m') ∧ Kept cfg m m' t ∧ o.Safe ∧
      Arena.Grows cfg m.nodes.items m'.nodes.items := by
  rcases reserve_spec cfg m n with ⟨_, _, hr⟩ | ⟨_, hr⟩
  · exact ⟨_, m, hr, Kept.refl h, trivial, .refl h.items⟩
  · obtain ⟨o, m', hg, hk, hgr, ⟨rfl, _⟩ | ⟨_, rfl | rfl, _⟩⟩ := grow_spec h (reserveTarget m n)
    all_goals exact ⟨_, m', hr.trans hg, hk, trivial, hgr⟩

theorem Laid.tail {cmps : Nat → K → Probe K} (src : Source K V) {m m' : BSTMap K V} {t : Tree K V}
    {ks : List K} {o : Out Unit} (h : Laid cfg m t ks)
    (he : (do
      BSTMap.insertAll cfg cmps 0 src.items
      if src.panics then M.panic else pure () : M (BSTMap K V) Unit) m = (o, m')) :
    ∃ t', Laid cfg m' t' (ks ++ ((insertTrace cfg cmps 0 src.items m).filter fun x => x.2.isNone).map (·.1.1)) := by
  cases hi : BSTMap.insertAll cfg cmps 0 src.items m with
  | mk o1 m1 =>
    obtain ⟨t1, h1⟩ := h.insertAll hi
    cases o1 with
    | ok r =>
      rw [M.bind_ok hi] at he
      cases hp : src.panics with
      | true => rw [hp] at he; cases he; exact ⟨t1, h1⟩
      | false => rw [hp] at he; cases he; exact ⟨t1, h1⟩
    | panic => cases (M.bind_panic hi).symm.trans he; exact ⟨t1, h1⟩
    | abort => cases (M.bind_abort hi).symm.trans he; exact ⟨t1, h1⟩
    | ub => cases (M.bind_ub' hi).symm.trans he; exact ⟨t1, h1⟩
    | diverge => cases (M.bind_diverge' hi).symm.trans he; exact ⟨t1, h1⟩

theorem Laid.kept {m m' : BSTMap K V} {t : Tree K V} {ks : List K} (h : Laid cfg m t ks)
    (hk : Kept cfg m m' t)
    (hb : ∀ j < m.nodes.items.len, slot m'.nodes.items.blocks j = slot m.nodes.items.blocks j) :
    Laid cfg m' t ks := h.same hk.shape hk.freeLen hk.len hb (.refl t)

theorem Laid.run {m m' : BSTMap K V} {t : Tree K V} {ks : List K} (h : Laid cfg m t ks) {op : Op K V}
    (hf : op.Fills) {o : Out (Ret K V)} (he : op.run cfg m = (o, m')) :
    ∃ t', Laid cfg m' t' (ks ++ op.keysIn cfg m o) := by
  have light : op.Light → op.keysIn cfg m o = [] → ∃ t', Laid cfg m' t' (ks ++ op.keysIn cfg m o) := by
    intro hl hk
    have hc : op.Calm := by cases op <;> first | trivial | cases hl
    have hs : op.Stays := by cases op <;> first | trivial | cases hl
    obtain ⟨o1, m1, t1, h1, h2, h3⟩ := run_stay h.shape hc hs
    cases h1.symm.trans he
    have hst : t.Stay t1 := by cases op <;> first | exact h3 | cases hl
    have hb := hl.book h.shape he
    simp only [BST.book, Prod.mk.injEq] at hb
    refine ⟨t1, ?_⟩
    rw [hk, List.append_nil]
    exact h.same h2 hb.2.2.2 hb.2.2.1 (slots_of_log h.shape h2 (.inl hb.1)) hst
  cases op with
  | withCapacity n => cases hf
  | collect cmps src => cases hf
  | cloned cmps cloneK cloneV => cases hf
  | remove c => cases hf
  | removeEntry c => cases hf
  | clear d => cases hf
  | insert c k v =>
    have he' : (BSTMap.insert cfg c k v >>= fun r => pure (Ret.value r)) m = (o, m') := he
    cases hi : BSTMap.insert cfg c k v m with
    | mk o1 m1 =>
      have e := M.map_eq (g := (Ret.value : _ → Ret K V)) hi
      cases e.symm.trans he'
      obtain ⟨t1, h1⟩ := h.insert hi
      refine ⟨t1, ?_⟩
      cases o1 with
      | ok r => cases r <;> simpa [Op.keysIn, Out.map, newKey] using h1
      | _ => simpa [Op.keysIn, Out.map, newKey] using h1
  | reserve n =>
    obtain ⟨o1, m1, h1, h2, _, h3⟩ := reserve_grows h.shape n
    cases (M.map_eq h1).symm.trans he
    exact ⟨t, by simpa [Op.keysIn] using h.kept h2 (slots_of_grows h.shape h3)⟩
  | shrinkToFit =>
    obtain ⟨m1, h1, h2, h3⟩ := shrinkToFit_spec h.shape
    cases (M.map_eq h1).symm.trans he
    refine ⟨t, ?_⟩
    simp only [Op.keysIn, List.append_nil]
    refine h.kept h2 fun j hj => ?_
    refine (h3.inv.slot_prefix ?_ ?_).symm
    · exact Nat.lt_of_lt_of_le hj (h3.len ▸ h3.inv.lenle)
    · obtain ⟨cs, hcs⟩ := h3.prefix_
      exact ⟨cs.map fun c => (c.id, c.slots.length), by
        unfold Arena.blocks; rw [← hcs, List.map_append]⟩
  | extend cmps src =>
    obtain ⟨o1, m1, h1, h2, h4, h3⟩ := reserve_grows h.shape (src.hint.2.getD src.hint.1)
    have hl1 := h.kept h2 (slots_of_grows h.shape h3)
    have he' : (BSTMap.extend cfg cmps src >>= fun _ => pure Ret.unit) m = (o, m') := he
    cases hx : BSTMap.extend cfg cmps src m with
    | mk o2 m2 =>
      have hm2 : m' = m2 := by
        have e := M.map_eq (g := fun _ => (Ret.unit : Ret K V)) hx
        cases e.symm.trans he'; rfl
      subst hm2
      unfold BSTMap.extend at hx
      show ∃ t', Laid cfg m' t' (ks ++
        ((extendTrace cfg cmps src m).filter fun x => x.2.isNone).map (·.1.1))
      rcases h4.cases with rfl | rfl | rfl
      · rw [M.bind_ok h1] at hx
        have e : extendTrace cfg cmps src m = insertTrace cfg cmps 0 src.items m1 := by
          simp only [extendTrace, h1]
        rw [e]
        exact hl1.tail src hx
      · have e : extendTrace cfg cmps src m = [] := by simp only [extendTrace, h1]
        cases (M.bind_panic h1).symm.trans hx; exact ⟨t, by simpa [e] using hl1⟩
      · have e : extendTrace cfg cmps src m = [] := by simp only [extendTrace, h1]
        cases (M.bind_abort h1).symm.trans hx; exact ⟨t, by simpa [e] using hl1⟩
  | _ => exact light trivial rfl

theorem Laid.history {ops : List (Op K V)} (hf : ∀ op ∈ ops, op.Fills) :
    ∀ {m : BSTMap K V} {t : Tree K V} {ks : List K}, Laid cfg m t ks →
    ∃ t', Laid cfg (history cfg ops m).2 t' (ks ++ account cfg (Op.keysIn cfg) ops m) := by
  induction ops with
  | nil => intro m t ks h; exact ⟨t, by simpa [BST.account, BST.history] using h⟩
  | cons op ops ih =>
    intro m t ks h
    cases he : op.run cfg m with
    | mk o m1 =>
      obtain ⟨t1, h1⟩ := h.run (hf op (by simp)) he
      unfold BST.account
      simp only [BST.history, he]
      cases o with
      | ok r =>
        obtain ⟨t2, h2⟩ := ih (fun op h => hf op (by simp [h])) h1
        exact ⟨t2, by simpa using h2⟩
      | panic =>
        obtain ⟨t2, h2⟩ := ih (fun op h => hf op (by simp [h])) h1
        exact ⟨t2, by simpa using h2⟩
      | _ => exact ⟨t1, h1⟩

theorem Laid.new : Laid cfg (BSTMap.new : BSTMap K V) .leaf [] :=
  ⟨shape_new cfg, rfl, rfl, by simp⟩

theorem Laid.withCapacity {n : Nat} {m : BSTMap K V} {o : Out Unit}
    (he : BSTMap.withCapacity cfg n = (o, m)) : Laid cfg m .leaf [] := by
  obtain ⟨o1, m1, hg, hk, hgr, _⟩ := grow_spec (shape_new cfg) (m := (BSTMap.new : BSTMap K V)) n
  cases hg.symm.trans he
  exact Laid.new.kept hk (slots_of_grows (shape_new cfg) hgr)

theorem Blank.laid {ok : K → Probe K → Prop} {m : BSTMap K V} (h : Blank cfg ok m) :
    Laid cfg m .leaf [] := by
  cases h with
  | new => exact .new
  | withCapacity he => exact .withCapacity he
  | @clear d m0 _ hr he =>
    obtain ⟨t, ht⟩ := hr.shape
    rcases Slab.clear_spec (d := d) ht.slab with ⟨s', e, hc, _, _⟩ | ⟨_, _, j, s', e, _⟩
    · unfold BSTMap.clear at he
      rw [M.bind_ok (onNodes_ok e)] at he
      cases he
      refine ⟨⟨hc.inv, rfl, trivial, List.nodup_nil, fun p => ?_⟩, hc.freeLen, hc.len, by simp⟩
      show (s'.view p).isSome ↔ _
      rw [hc.view]; simp [Tree.ptrs]
    · unfold BSTMap.clear at he
      cases (M.bind_panic (onNodes_ok e)).symm.trans he

theorem Laid.fromIter {cmps : Nat → K → Probe K} {src : Source K V} {m : BSTMap K V} {o : Out Unit}
    (he : BSTMap.fromIter cfg cmps src = (o, m)) :
    ∃ t, Laid cfg m t (((collectTrace cfg cmps src).filter fun x => x.2.isNone).map (·.1.1)) := by
  unfold BSTMap.fromIter at he
  cases hw : BSTMap.withCapacity (K := K) (V := V) cfg (src.hint.2.getD src.hint.1) with
  | mk o1 m1 =>
    have h1 := Laid.withCapacity hw
    have hg : onNodes (Slab.onItems (Arena.growTo cfg (src.hint.2.getD src.hint.1)))
      (BSTMap.new : BSTMap K V) = (o1, m1) := hw
    cases o1 with
    | ok _ =>
      have e : collectTrace cfg cmps src = insertTrace cfg cmps 0 src.items m1 := by
        simp only [collectTrace, hw]
      obtain ⟨t, h⟩ := h1.tail src ((M.bind_ok hg).symm.trans he)
      rw [e]
      exact ⟨t, by simpa using h⟩
    | panic =>
      have e : collectTrace cfg cmps src = [] := by simp only [collectTrace, hw]
      cases (M.bind_panic hg).symm.trans he; exact ⟨_, by simpa [e] using h1⟩
    | abort =>
      have e : collectTrace cfg cmps src = [] := by simp only [collectTrace, hw]
      cases (M.bind_abort hg).symm.trans he; exact ⟨_, by simpa [e] using h1⟩
    | ub =>
      have e : collectTrace cfg cmps src = [] := by simp only [collectTrace, hw]
      cases (M.bind_ub' hg).symm.trans he; exact ⟨_, by simpa [e] using h1⟩
    | diverge =>
      have e : collectTrace cfg cmps src = [] := by simp only [collectTrace, hw]
      cases (M.bind_diverge' hg).symm.trans he; exact ⟨_, by simpa [e] using h1⟩

end BST
