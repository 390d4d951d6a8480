import Verif.Proofs.ArenaClear
import Verif.Proofs.Panic
/-!
# An arena after a panic in `clear`; arenas of zero-sized elements
-/
set_option linter.unusedSimpArgs false
namespace BST
namespace Arena
variable {T : Type} {cfg : Cfg} {a : Arena T} {l : List (Ptr × T)}

/-- The first slot of the first chunk is uninitialised. -/
def HeadGone (s : Arena T) : Prop :=
  ((s.chunks[0]?).bind fun ch => (ch.slots[0]?).join) = none

theorem headGone_dropItem {s : Arena T} (h : s.HeadGone) (dp : T → Bool) (c i : Nat) :
    (dropItem dp c i s).2.HeadGone := by
  unfold dropItem
  simp only [M.get_bind]
  cases hv : ((s.chunks[c]?).bind fun ch => (ch.slots[i]?).join) with
  | none => exact h
  | some v =>
    have key : HeadGone { s with
        chunks := s.chunks.modify c fun ch => { ch with slots := ch.slots.set i none }
        dropped := s.dropped ++ [v] } := by
      unfold HeadGone at h ⊢
      simp only [List.getElem?_modify]
      cases hc : s.chunks[0]? with
      | none => simp
      | some ch =>
        rw [hc] at h
        simp only [Option.bind_some] at h
        by_cases h0 : c = 0
        · simp only [h0, if_true, Option.map_some, Option.bind_some, List.getElem?_set]
          by_cases hi : i = 0
          · by_cases hl : 0 < ch.slots.length
            · simp [hi, hl]
            · simp [hi, hl]
          · simp [hi, h]
        · simp [h0, h]
    simp only [M.modify_bind]
    split <;> exact key

theorem headGone_body {s : Arena T} (h : s.HeadGone) (dp : T → Bool) (st : Nat × Nat × Nat) :
    (clearBody cfg dp st s).2.HeadGone := by
  obtain ⟨c, i, n⟩ := st
  unfold clearBody
  simp only [M.get_bind]
  cases s.chunks[c]? with
  | none => exact h
  | some ch =>
    dsimp only
    cases hc : chunkLen cfg (asU32 c) with
    | ok k =>
      rw [M.lift_ok_bind]
      split
      · exact h
      · split
        · split
          · exact h
          · have hk := headGone_dropItem h dp c i
            rw [M.bind_apply]
            cases hd : dropItem dp c i s with
            | mk o s' => rw [hd] at hk; cases o <;> exact hk
        · exact h
    | _ => exact h

theorem headGone_loop (dp : T → Bool) (fuel : Nat) (st : Nat × Nat × Nat) {s : Arena T}
    (h : s.HeadGone) : (loop fuel (clearBody cfg dp) st s).2.HeadGone := by
  induction fuel generalizing st s with
  | zero => exact h
  | succ fuel ih =>
    have hb := headGone_body (cfg := cfg) h dp st
    rw [loop_succ, M.bind_apply]
    cases hd : clearBody cfg dp st s with
    | mk o s' =>
      rw [hd] at hb
      cases o with
      | ok x =>
        cases x with
        | inl st' => exact ih st' hb
        | inr n => exact hb
      | _ => exact hb

theorem clear_unfold (hlen : a.len ≠ 0) (dp : T → Bool) {s : Arena T} {n : Nat}
    (hs : Gone a n s) :
    ∃ k, clear cfg true dp s = (do
      let dropped ← loop (k + 1) (clearBody cfg dp) (0, 0, 0)
      let a ← M.get
      M.lift (debugAssert cfg (decide (dropped = a.len)))
      M.modify fun a => { a.forgetCells with len := 0 } : M (Arena T) Unit) s := by
  refine ⟨s.capacity + s.chunks.length + 1, ?_⟩
  unfold clear
  simp only [M.get_bind]
  rw [if_neg (by simp [isEmpty, hs.len, hlen])]
  rfl

theorem first_step (hi : a.Inv cfg) (hlen : a.len ≠ 0) (dp : T → Bool) {s : Arena T} {n : Nat}
    (hs : Gone a n s) : clearBody cfg dp (0, 0, 0) s =
      (dropItem dp 0 0 >>= fun _ => pure (.inl (0, 1, 1)) : M (Arena T) _) s := by
  have hcap := hi.cap
  have hle := hi.lenle
  have hpos : 0 < a.chunks.length := by
    rcases Nat.eq_zero_or_pos a.chunks.length with h0 | h0
    · rw [h0] at hcap; omega
    · exact h0
  obtain ⟨c', k1, -, k3, -⟩ := hs.chunk 0 _ (List.getElem?_eq_getElem hpos)
  have hsl := hi.slots 0 _ (List.getElem?_eq_getElem hpos)
  have hcl : chunkLen cfg (asU32 0) = .ok (8 * 2 ^ 0) := by
    rw [asU32, Nat.mod_eq_of_lt (by omega)]
    exact chunkLen_ok cfg (by omega)
  unfold clearBody
  simp only [M.get_bind, k1, hcl, M.lift_ok_bind]
  rw [if_neg (by rw [k3, hsl]; omega), if_pos (by omega), if_neg (by rw [hs.len]; omega)]

/-- After a panic in `clear`, `clear` with destructors is undefined behaviour. -/
theorem clear_again (hi : a.Inv cfg) (h : a.Holds l) {d d' : DropInfo T} {s : Arena T}
    (hc : clear cfg d.needsDrop d.panics a = (.panic, s)) (hn : d'.needsDrop = true) :
    (clear cfg d'.needsDrop d'.panics s).1 = .ub ∧ s.log = a.log := by
  rcases clear_spec hi h d with ⟨-, h1⟩ | ⟨hr, hnd, n, s', h1, hg, -⟩
  · cases h1.symm.trans hc
  · cases h1.symm.trans hc
    have hlen : a.len ≠ 0 := by
      intro h0
      have hl := h.length
      rw [h0] at hl
      have : l = [] := List.eq_nil_of_length_eq_zero hl
      subst this
      simp [toDrop, hnd, Slab.dropRun] at hr
    refine ⟨?_, hg.log⟩
    have hgone : s.HeadGone := by
      obtain ⟨k, hk⟩ := clear_unfold hlen d.panics (Gone.refl a)
      rw [hnd, hk, loop_succ] at h1
      have hstep := first_step hi hlen d.panics (Gone.refl a)
      have hafter : HeadGone (dropItem d.panics 0 0 a).2 := by
        unfold dropItem
        simp only [M.get_bind]
        cases hv : ((a.chunks[0]?).bind fun ch => (ch.slots[0]?).join) with
        | none => exact hv
        | some v =>
          have key : HeadGone { a with
              chunks := a.chunks.modify 0 fun ch => { ch with slots := ch.slots.set 0 none }
              dropped := a.dropped ++ [v] } := by
            unfold HeadGone
            simp only [List.getElem?_modify]
            cases a.chunks[0]? with
            | none => simp
            | some ch => by_cases hl : 0 < ch.slots.length <;> simp [hl]
          simp only [M.modify_bind]
          split <;> exact key
      rw [M.bind_apply, M.bind_apply, hstep, M.bind_apply] at h1
      cases hd : dropItem d.panics 0 0 a with
      | mk o s1 =>
        rw [hd] at h1 hafter
        cases o with
        | ok u =>
          have hl := headGone_loop (cfg := cfg) d.panics k (0, 1, 1) hafter
          dsimp only at h1
          simp only [M.pure_apply] at h1
          cases hlp : loop k (clearBody cfg d.panics) (0, 1, 1) s1 with
          | mk o2 s2 =>
            rw [hlp] at h1 hl
            cases o2 with
            | ok dr =>
              dsimp only at h1
              simp only [M.get_bind] at h1
              cases hda : debugAssert cfg (decide (dr = s2.len)) with
              | ok u => rw [hda, M.lift_ok_bind] at h1; cases h1
              | _ =>
                rw [hda] at h1
                first
                  | (cases h1; exact hl)
                  | cases h1
            | panic => cases h1; exact hl
            | _ => cases h1
        | panic => cases h1; exact hafter
        | _ => cases h1
    obtain ⟨k, hk⟩ := clear_unfold hlen d'.panics hg
    rw [hn, hk, M.bind_apply]
    have : loop (k + 1) (clearBody cfg d'.panics) (0, 0, 0) s = (.ub, s) := by
      apply Slab.loopM_ub
      rw [first_step hi hlen d'.panics hg, M.bind_apply]
      unfold dropItem
      simp only [M.get_bind]
      unfold HeadGone at hgone
      rw [hgone]
      rfl
    rw [this]

/-- With zero-sized elements no chunk can be pushed, so nothing can be allocated. -/
theorem alloc_zst (hi : a.Inv cfg) (he : cfg.esize = 0) (v : T) : alloc cfg v a = (.panic, a) := by
  have h0 : a.chunks.length = 0 := by
    rcases Nat.eq_zero_or_pos a.chunks.length with h0 | h0
    · exact h0
    · have := (hi.size 0 h0).1; omega
  have hcap := hi.cap
  have hle := hi.lenle
  rw [h0] at hcap
  have hc : a.capacity = 0 := by omega
  have hl : a.len = 0 := by omega
  have hp : pushChunk cfg a = (.panic, a) := by
    unfold pushChunk
    simp only [M.get_bind, h0]
    have hcl : chunkLen cfg (asU32 0) = .ok (8 * 2 ^ 0) := by
      rw [asU32, Nat.mod_eq_of_lt (by omega)]
      exact chunkLen_ok cfg (by omega)
    rw [hcl, M.lift_ok_bind]
    unfold vecWithCapacity
    rw [if_pos he, M.lift_ok_bind, if_pos (by unfold usizeBound; omega)]
    rfl
  unfold alloc
  simp only [M.get_bind, hl, hc, Nat.le_refl, decide_true, debugAssert_true, M.lift_ok_bind, if_true]
  rw [M.bind_panic hp]

end Arena
end BST
