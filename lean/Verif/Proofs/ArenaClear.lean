import Verif.Proofs.Slab
/-!
# Contents of an arena; `clear` and `drop` of an arena whose elements have destructors
-/
set_option linter.unusedSimpArgs false
namespace BST
open Slab (dropRun)
variable {T : Type}

theorem chunkBase_succ (c : Nat) : chunkBase (c + 1) = chunkBase c + 8 * 2 ^ c := by
  have : 0 < 2 ^ c := Nat.two_pow_pos c
  simp only [chunkBase, Nat.pow_succ]; omega

namespace Arena

/-- The arena holds the values `l`, with their addresses, in order of allocation. -/
structure Holds (a : Arena T) (l : List (Ptr × T)) : Prop where
  addrs : l.map (·.1) = a.addrs
  cell : ∀ e ∈ l, a.cell e.1 = some e.2

variable {cfg : Cfg} {a : Arena T} {l : List (Ptr × T)}

theorem Holds.length (h : a.Holds l) : l.length = a.len := by
  have := congrArg List.length h.addrs
  simpa [Arena.addrs] using this

theorem Holds.get (h : a.Holds l) {j : Nat} {e : Ptr × T} (he : l[j]? = some e) :
    e.1 = a.addr j := by
  have h1 : (l.map (·.1))[j]? = some e.1 := by simp [he]
  rw [h.addrs] at h1
  have hj : j < a.len := by
    rw [← h.length]
    exact (List.getElem?_eq_some_iff.1 he).1
  simp [Arena.addrs, hj] at h1
  exact h1.symm

theorem Holds.nodup (h : a.Holds l) (hi : a.Inv cfg) : (l.map (·.1)).Nodup := by
  rw [h.addrs]; exact hi.addrs_nodup

theorem Holds.mem (h : a.Holds l) (hi : a.Inv cfg) {p : Ptr} :
    p ∈ l.map (·.1) ↔ (a.cell p).isSome := by
  rw [h.addrs]; exact hi.mem_addrs

/-- Exists for every arena. -/
theorem Inv.holds (hi : a.Inv cfg) : ∃ l, a.Holds l := by
  refine ⟨a.addrs.filterMap fun p => (a.cell p).map fun v => (p, v), ?_, ?_⟩
  · have : ∀ q : List Ptr, (∀ p ∈ q, (a.cell p).isSome) →
        (q.filterMap fun p => (a.cell p).map fun v => (p, v)).map (·.1) = q := by
      intro q hq
      induction q with
      | nil => rfl
      | cons p q ih =>
        obtain ⟨v, hv⟩ := Option.isSome_iff_exists.1 (hq p (by simp))
        simp [hv, ih fun p hp => hq p (by simp [hp])]
    exact this _ fun p hp => hi.mem_addrs.1 hp
  · intro e he
    obtain ⟨p, _, hp⟩ := List.mem_filterMap.1 he
    obtain ⟨v, hv, rfl⟩ := Option.map_eq_some_iff.1 hp
    exact hv

theorem Holds.of_cells {b : Arena T} (h : a.Holds l) (hl : b.len = a.len)
    (ha : ∀ j < a.len, b.addr j = a.addr j) (hc : ∀ p, b.cell p = a.cell p) : b.Holds l where
  addrs := by
    rw [h.addrs, Arena.addrs, Arena.addrs, hl]
    exact List.map_congr_left fun j hj => (ha j (by simpa using hj)).symm
  cell e he := by rw [hc]; exact h.cell e he

theorem Grows.holds {b : Arena T} (hg : Grows cfg a b) (h : a.Holds l) : b.Holds l :=
  h.of_cells hg.len (fun j hj => hg.addr (by have := hg.inv_left.lenle; omega)) hg.cell

theorem Shrunk.holds {b : Arena T} (hs : Shrunk cfg a b) (h : a.Holds l) :
    b.Holds l := by
  refine h.of_cells hs.len (fun j hj => ?_) hs.cell
  obtain ⟨c, h1, h2, _⟩ := hs.inv.chunk_exists (j := j) (by
    have := hs.inv.lenle; rw [hs.len] at this; omega)
  rw [h2]
  obtain ⟨x, hx⟩ := hs.prefix_
  unfold addr
  rw [← hx, List.getElem?_append_left (List.getElem?_eq_some_iff.1 h1).1, h1]
  rfl

theorem holds_new : (new : Arena T).Holds [] := ⟨rfl, by simp⟩

theorem Holds.wrote (h : a.Holds l) (hi : a.Inv cfg) (hl : a.len < a.capacity) (v : T) :
    (a.wrote v).Holds (l ++ [(a.addr a.len, v)]) := by
  have hcell := hi.cell_poke hl (some v)
  refine ⟨?_, ?_⟩
  · rw [List.map_append, h.addrs, Arena.addrs, Arena.addrs]
    show _ = (List.range (a.len + 1)).map _
    rw [List.range_succ, List.map_append]
    congr 1
    · exact List.map_congr_left fun j _ => (addr_wrote a v j).symm
    · simp [addr_wrote]
  · intro e he
    show (a.poke (a.addr a.len) (some v)).cell e.1 = _
    rw [hcell]
    rcases List.mem_append.1 he with he | he
    · rw [if_neg, h.cell e he]
      intro hc
      have := (hi.cell_addr hl).1 (by rw [← hc, h.cell e he]; rfl)
      omega
    · simp at he; subst he; simp

theorem Holds.poke {x y : List (Ptr × T)} {p : Ptr} {v w : T}
    (h : a.Holds (x ++ (p, v) :: y)) (hi : a.Inv cfg) :
    (a.poke p (some w)).Holds (x ++ (p, w) :: y) := by
  have hn := h.nodup hi
  have hp : (a.cell p).isSome := by rw [h.cell (p, v) (by simp)]; rfl
  have hcell := hi.cell_poke' hp (some w)
  refine ⟨?_, ?_⟩
  · rw [Arena.addrs, (poke_len a p (some w)).1]
    have h1 : (x ++ (p, w) :: y).map (·.1) = (x ++ (p, v) :: y).map (·.1) := by simp
    rw [h1, h.addrs]
    exact List.map_congr_left fun j _ => (addr_poke a p _ j).symm
  · intro e he
    rw [hcell]
    simp only [List.map_append, List.map_cons, List.nodup_append, List.nodup_cons] at hn
    rcases List.mem_append.1 he with he | he
    · rw [if_neg, h.cell e (by simp [he])]
      intro hc
      exact hn.2.2 e.1 (List.mem_map_of_mem he) p (by simp) hc
    · rcases List.mem_cons.1 he with rfl | he
      · simp
      · rw [if_neg, h.cell e (by simp [he])]
        intro hc
        exact hn.2.1.1 (hc ▸ List.mem_map_of_mem he)

/-! ### `clear` with destructors -/

/-- The state during `clear`: the first `n` elements are gone. -/
structure Gone (a0 : Arena T) (n : Nat) (s : Arena T) : Prop where
  len : s.len = a0.len
  cap : s.capacity = a0.capacity
  nid : s.nextId = a0.nextId
  log : s.log = a0.log
  size : s.chunks.length = a0.chunks.length
  chunk : ∀ (i : Nat) (c : Chunk T), a0.chunks[i]? = some c → ∃ c', s.chunks[i]? = some c' ∧
    c'.id = c.id ∧ c'.slots.length = c.slots.length ∧
    ∀ o, o < c.slots.length → n ≤ chunkBase i + o → c'.slots[o]? = c.slots[o]?

theorem Gone.refl (a : Arena T) : Gone a 0 a :=
  ⟨rfl, rfl, rfl, rfl, rfl, fun _ c h => ⟨c, h, rfl, rfl, fun _ _ _ => rfl⟩⟩

theorem Gone.forget {a0 s : Arena T} {n : Nat} (h : Gone a0 n s) :
    ({ s.forgetCells with len := 0 } : Arena T) = { a0.cleared with dropped := s.dropped } := by
  have hc : s.forgetCells.chunks = a0.forgetCells.chunks := by
    apply List.ext_getElem?
    intro i
    simp only [forgetCells, List.getElem?_map]
    cases hi : a0.chunks[i]? with
    | none =>
      have : a0.chunks.length ≤ i := List.getElem?_eq_none_iff.1 hi
      rw [List.getElem?_eq_none_iff.2 (by rw [h.size]; exact this)]
    | some c =>
      obtain ⟨c', h1, h2, h3, _⟩ := h.chunk i c hi
      rw [h1]
      simp only [Option.map_some, h2, Option.some.injEq, Chunk.mk.injEq, true_and]
      apply List.ext_getElem (by simp [h3])
      intro j _ _
      simp
  have h1 := h.cap
  have h2 := h.nid
  have h3 := h.log
  cases s with
  | mk ch len cap nid log dr =>
    cases a0
    simp only [forgetCells, cleared] at hc h1 h2 h3 ⊢
    subst h1 h2 h3
    rw [hc]

/-- The loop body of `clear`. -/
def clearBody (cfg : Cfg) (dp : T → Bool) (st : Nat × Nat × Nat) :
    M (Arena T) ((Nat × Nat × Nat) ⊕ Nat) := do
  let (c, i, dropped) := st
  let a ← M.get
  match a.chunks[c]? with
  | none => pure (.inr dropped)
  | some ch =>
    let chunkLen ← M.lift (chunkLen cfg (asU32 c))
    if ch.slots.length < chunkLen then M.ub
    else if i < chunkLen then
      if dropped = a.len then pure (.inr dropped)
      else
        dropItem dp c i
        pure (.inl (c, i + 1, dropped + 1))
    else pure (.inl (c + 1, 0, dropped))

theorem clear_loop (hi : a.Inv cfg) (h : a.Holds l) (nd : Bool) (dp : T → Bool) (fuel c i n : Nat)
    (s : Arena T) (hs : Gone a n s) (hn : n = chunkBase c + i) (hic : i ≤ 8 * 2 ^ c)
    (hnl : n ≤ a.len) (hfuel : (a.len - n) + (a.chunks.length - c) < fuel) :
    ∃ n' s', Gone a n' s' ∧
      s'.dropped = s.dropped ++ (dropRun ⟨nd, dp⟩ ((l.drop n).map (·.2))).1 ∧
      loop fuel (clearBody cfg dp) (c, i, n) s =
        (if (dropRun ⟨nd, dp⟩ ((l.drop n).map (·.2))).2 then .panic else .ok a.len, s') := by
  induction fuel generalizing c i n s with
  | zero => omega
  | succ fuel ih =>
    have hll := h.length
    cases hc : a.chunks[c]? with
    | none =>
      have hge : a.chunks.length ≤ c := List.getElem?_eq_none_iff.1 hc
      have h1 : a.capacity ≤ chunkBase c := by
        have := hi.cap
        have : 2 ^ a.chunks.length ≤ 2 ^ c := Nat.pow_le_pow_right (by omega) hge
        simp only [chunkBase]; omega
      have := hi.lenle
      have hnn : n = a.len := by omega
      have hd : l.drop n = [] := List.drop_eq_nil_of_le (by omega)
      refine ⟨n, s, hs, by simp [hd, dropRun], ?_⟩
      rw [hd]
      simp only [List.map_nil, dropRun]
      rw [loopM_inr (a := n) (s' := s)]
      · simp [hnn]
      · unfold clearBody
        simp only [M.get_bind]
        rw [List.getElem?_eq_none_iff.2 (by rw [hs.size]; exact hge)]
        rfl
    | some ch =>
      have hlt : c < a.chunks.length := (List.getElem?_eq_some_iff.1 hc).1
      have h60 := hi.length_le
      have hcl : chunkLen cfg (asU32 c) = .ok (8 * 2 ^ c) := by
        rw [asU32, Nat.mod_eq_of_lt (by omega)]
        exact chunkLen_ok cfg (by omega)
      obtain ⟨ch', k1, k2, k3, k4⟩ := hs.chunk c ch hc
      have hsl := hi.slots c ch hc
      by_cases hilt : i < 8 * 2 ^ c
      · by_cases hnn : n = a.len
        · have hd : l.drop n = [] := List.drop_eq_nil_of_le (by omega)
          refine ⟨n, s, hs, by simp [hd, dropRun], ?_⟩
          rw [hd]
          simp only [List.map_nil, dropRun]
          rw [loopM_inr (a := n) (s' := s)]
          · simp [hnn]
          · unfold clearBody
            simp only [M.get_bind, k1, hcl, M.lift_ok_bind]
            rw [if_neg (by rw [k3, hsl]; omega), if_pos hilt, if_pos (by rw [hs.len]; exact hnn)]
            rfl
        · have hnl' : n < l.length := by omega
          have hdrop : l.drop n = l[n] :: l.drop (n + 1) := List.drop_eq_getElem_cons hnl'
          have hge : l[n]? = some l[n] := List.getElem?_eq_getElem hnl'
          generalize l[n] = e at hdrop hge
          have hpos := chunkOf_unique (i := c) (o := i) hilt
          have haddr : e.1 = ⟨ch.id, i⟩ := by
            rw [h.get hge]
            unfold addr
            rw [hn, hpos.1, hpos.2, hc]
            rfl
          have hval : (ch.slots[i]?).join = some e.2 := by
            rw [← hi.cell_of_chunk hc, ← haddr]
            exact h.cell e (List.mem_of_getElem? hge)
          have hval' : (ch'.slots[i]?).join = some e.2 := by
            rw [k4 i (by omega) (by omega)]; exact hval
          let s1 : Arena T := { s with
            chunks := s.chunks.modify c fun ch => { ch with slots := ch.slots.set i none }
            dropped := s.dropped ++ [e.2] }
          have hs1 : Gone a (n + 1) s1 := by
            refine ⟨hs.len, hs.cap, hs.nid, hs.log, by simp [s1, hs.size], fun j d hd => ?_⟩
            obtain ⟨d', q1, q2, q3, q4⟩ := hs.chunk j d hd
            by_cases hj : c = j
            · subst hj
              refine ⟨{ d' with slots := d'.slots.set i none }, ?_, q2, by simpa using q3,
                fun o ho hno => ?_⟩
              · simp [s1, List.getElem?_modify, q1]
              · have : i ≠ o := by omega
                simp only [List.getElem?_set, this, if_false]
                exact q4 o ho (by omega)
            · refine ⟨d', ?_, q2, q3, fun o ho hno => q4 o ho (by omega)⟩
              simp [s1, List.getElem?_modify, q1, hj]
          rw [hdrop]
          have hitem : dropItem dp c i s = (if dp e.2 then .panic else .ok (), s1) := by
            unfold dropItem
            simp only [M.get_bind, k1, Option.bind_some, hval', M.modify_bind]
            by_cases hdp : dp e.2 <;> simp [hdp, s1]
          by_cases hdp : dp e.2 = true
          · refine ⟨n + 1, s1, hs1, by simp [dropRun, hdp, s1], ?_⟩
            simp only [List.map_cons, dropRun, hdp, if_true]
            apply loopM_panic
            unfold clearBody
            simp only [M.get_bind, k1, hcl, M.lift_ok_bind]
            rw [if_neg (by rw [k3, hsl]; omega), if_pos hilt, if_neg (by rw [hs.len]; exact hnn)]
            apply M.bind_panic
            rw [hitem, if_pos hdp]
          · obtain ⟨n', s', a1, a2, a3⟩ := ih c (i + 1) (n + 1) s1 hs1 (by omega) (by omega)
              (by omega) (by omega)
            refine ⟨n', s', a1, ?_, ?_⟩
            · simpa [dropRun, hdp, s1] using a2
            · rw [loopM_inl (b' := (c, i + 1, n + 1)) (s' := s1)]
              · simpa [dropRun, hdp] using a3
              · unfold clearBody
                simp only [M.get_bind, k1, hcl, M.lift_ok_bind]
                rw [if_neg (by rw [k3, hsl]; omega), if_pos hilt, if_neg (by rw [hs.len]; exact hnn)]
                rw [M.bind_ok (a := ()) (s' := s1)]
                · rfl
                · rw [hitem, if_neg hdp]
      · have hb := chunkBase_succ c
        obtain ⟨n', s', a1, a2, a3⟩ := ih (c + 1) 0 n s hs (by omega) (by omega) hnl (by omega)
        refine ⟨n', s', a1, a2, ?_⟩
        rw [loopM_inl (b' := (c + 1, 0, n)) (s' := s)]
        · exact a3
        · unfold clearBody
          simp only [M.get_bind, k1, hcl, M.lift_ok_bind]
          rw [if_neg (by rw [k3, hsl]; omega), if_neg hilt]
          rfl

/-- What `clear` runs the destructors of. -/
def toDrop (d : DropInfo T) (l : List (Ptr × T)) : List T :=
  if d.needsDrop then l.map (·.2) else []

theorem clear_spec (hi : a.Inv cfg) (h : a.Holds l) (d : DropInfo T) :
    ((dropRun d (toDrop d l)).2 = false ∧ clear cfg d.needsDrop d.panics a =
      (.ok (), { a.cleared with dropped := a.dropped ++ toDrop d l })) ∨
    ((dropRun d (toDrop d l)).2 = true ∧ d.needsDrop = true ∧
      ∃ n s', clear cfg d.needsDrop d.panics a = (.panic, s') ∧
      Gone a n s' ∧ s'.dropped = a.dropped ++ (dropRun d (toDrop d l)).1) := by
  have hfst : ∀ q : List T, (dropRun d q).2 = false → (dropRun d q).1 = q := by
    intro q
    induction q with
    | nil => intro _; rfl
    | cons v q ih =>
      intro hq
      by_cases hv : d.panics v = true
      · simp [dropRun, hv] at hq
      · simp only [dropRun, hv] at hq ⊢
        simp at hq ⊢
        exact ih hq
  unfold clear
  simp only [M.get_bind]
  by_cases hc : (!d.needsDrop || a.isEmpty) = true
  · rw [if_pos hc]
    have hnil : toDrop d l = [] := by
      unfold toDrop
      simp only [Bool.or_eq_true, Bool.not_eq_true'] at hc
      rcases hc with hc | hc
      · simp [hc]
      · have : l = [] := List.eq_nil_of_length_eq_zero (by
          rw [h.length]; simpa [isEmpty] using hc)
        simp [this]
    refine .inl ⟨by simp [hnil, dropRun], ?_⟩
    simp [hnil, cleared, forgetCells]
  · rw [if_neg hc]
    simp only [Bool.or_eq_true, Bool.not_eq_true', not_or, Bool.not_eq_false] at hc
    have htd : toDrop d l = (l.drop 0).map (·.2) := by simp [toDrop, hc.1]
    obtain ⟨n, s', h1, h2, h3⟩ := clear_loop hi h d.needsDrop d.panics
      (a.capacity + a.chunks.length + 2) 0 0 0 a (Gone.refl a) rfl (by omega) (by omega)
      (by have := hi.lenle; omega)
    rw [← htd] at h2 h3
    change s'.dropped = a.dropped ++ (dropRun d (toDrop d l)).1 at h2
    change _ = (if (dropRun d (toDrop d l)).2 = true then Out.panic else _, s') at h3
    change ((_ ∧ ((loop _ (clearBody cfg d.panics) _ >>= _ : M (Arena T) Unit) a = _)) ∨ _)
    by_cases hp : (dropRun d (toDrop d l)).2 = true
    · rw [if_pos hp] at h3
      exact .inr ⟨hp, hc.1, n, s', M.bind_panic h3, h1, h2⟩
    · rw [if_neg hp] at h3
      have hp' : (dropRun d (toDrop d l)).2 = false := by simpa using hp
      refine .inl ⟨hp', ?_⟩
      rw [M.bind_ok h3]
      simp only [M.get_bind]
      rw [debugAssert_ok cfg (by simp [h1.len]), M.lift_ok_bind, M.modify_apply, h1.forget, h2,
        hfst _ hp']

theorem drop_spec (hi : a.Inv cfg) (h : a.Holds l) (d : DropInfo T) :
    ((dropRun d (toDrop d l)).2 = false ∧ ∃ b, drop cfg d.needsDrop d.panics a = (.ok (), b) ∧
      b.chunks = [] ∧ b.dropped = a.dropped ++ toDrop d l ∧ Spec.replay b.log = some []) ∨
    ((dropRun d (toDrop d l)).2 = true ∧ ∃ s', drop cfg d.needsDrop d.panics a = (.panic, s') ∧
      s'.dropped = a.dropped ++ (dropRun d (toDrop d l)).1 ∧ s'.log = a.log) := by
  rcases clear_spec hi h d with ⟨h1, h2⟩ | ⟨h1, _, n, s', h2, h3, h4⟩
  · refine .inl ⟨h1, ?_⟩
    have hcl := hi.cleared
    obtain ⟨b, h3, h4, h5, h6⟩ := drop_nodrop hcl (fun _ => false)
    refine ⟨{ b with dropped := a.dropped ++ toDrop d l }, ?_, h4, rfl, h6⟩
    unfold drop at h3 ⊢
    rw [M.bind_ok h2]
    rw [M.bind_ok (clear_nodrop cfg _ _)] at h3
    simp only [M.get_bind] at h3 ⊢
    have hch : a.cleared.cleared.chunks = a.cleared.chunks := by
      simp [cleared, forgetCells]
    rw [hch] at h3
    cases hf : freeChunks cfg 0 a.cleared.chunks with
    | ok evs =>
      rw [hf] at h3
      rw [M.lift_ok_bind] at h3 ⊢
      rw [M.modify_apply] at h3 ⊢
      have := (Prod.mk.inj h3).2
      rw [← this]
      rfl
    | _ => rw [hf] at h3; cases h3
  · refine .inr ⟨h1, s', ?_, h4, h3.log⟩
    unfold drop
    exact M.bind_panic h2

end Arena
end BST
