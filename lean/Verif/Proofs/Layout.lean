import Verif.Memory
import Verif.Proofs.SlabHistory
/-!
# Lemmas about layouts and addresses
-/
namespace BST
namespace Layout

theorem le_roundUp {n a : Nat} (ha : 0 < a) : n ≤ roundUp n a := by
  unfold roundUp
  have h := Nat.div_add_mod (n + a - 1) a
  have h2 := Nat.mod_lt (n + a - 1) ha
  rw [Nat.mul_comm] at h
  omega

theorem roundUp_lt {n a : Nat} (ha : 0 < a) : roundUp n a < n + a := by
  unfold roundUp
  have := Nat.div_mul_le_self (n + a - 1) a
  omega

theorem dvd_roundUp (n a : Nat) : a ∣ roundUp n a := Nat.dvd_mul_left _ _

theorem roundUp_of_dvd {n a : Nat} (ha : 0 < a) (h : a ∣ n) : roundUp n a = n := by
  obtain ⟨k, rfl⟩ := h
  unfold roundUp
  have : (a * k + a - 1) / a = k := by
    rw [Nat.div_eq_iff ha]
    constructor
    · rw [Nat.mul_comm]; omega
    · rw [Nat.mul_comm]; omega
  rw [this, Nat.mul_comm]

theorem pow_dvd_of_le {a b : Nat} (ha : ∃ n, a = 2 ^ n) (hb : ∃ n, b = 2 ^ n) (h : a ≤ b) :
    a ∣ b := by
  obtain ⟨i, rfl⟩ := ha
  obtain ⟨j, rfl⟩ := hb
  exact Nat.pow_dvd_pow 2 ((Nat.pow_le_pow_iff_right (by omega)).1 h)

theorem max_pow {a b : Nat} (ha : ∃ n, a = 2 ^ n) (hb : ∃ n, b = 2 ^ n) : ∃ n, max a b = 2 ^ n := by
  rcases Nat.le_total a b with h | h
  · rw [Nat.max_eq_right h]; exact hb
  · rw [Nat.max_eq_left h]; exact ha

theorem pow_pos {a : Nat} (ha : ∃ n, a = 2 ^ n) : 0 < a := by
  obtain ⟨n, rfl⟩ := ha
  exact Nat.two_pow_pos n

theorem entry_align {w : Nat} {t : Layout} (ht : t.Ok) : (entry w t).align = max t.align w := by
  have := pow_pos ht.1
  simp only [entry, union, word, List.foldl_cons, List.foldl_nil]
  rw [Nat.max_eq_right (show 1 ≤ t.align from this)]

theorem entry_size {w : Nat} {t : Layout} (ht : t.Ok) :
    (entry w t).size = roundUp (max t.size w) (max t.align w) := by
  have := pow_pos ht.1
  simp only [entry, union, word, List.foldl_cons, List.foldl_nil]
  rw [Nat.max_eq_right (show 1 ≤ t.align from this), Nat.max_eq_right (Nat.zero_le _)]

theorem entry_ok {w : Nat} {t : Layout} (ht : t.Ok) (hw : ∃ n, w = 2 ^ n) : (entry w t).Ok := by
  refine ⟨?_, ?_⟩
  · rw [entry_align ht]; exact max_pow ht.1 hw
  · rw [entry_align ht, entry_size ht]; exact dvd_roundUp _ _

theorem entry_align_dvd {w : Nat} {t : Layout} (ht : t.Ok) (hw : ∃ n, w = 2 ^ n) :
    t.align ∣ (entry w t).align ∧ w ∣ (entry w t).align := by
  have h := (entry_ok ht hw).1
  refine ⟨pow_dvd_of_le ht.1 h ?_, pow_dvd_of_le hw h ?_⟩ <;> rw [entry_align ht]
  · exact Nat.le_max_left _ _
  · exact Nat.le_max_right _ _

theorem entry_size_le {w : Nat} {t : Layout} (ht : t.Ok) :
    t.size ≤ (entry w t).size ∧ w ≤ (entry w t).size := by
  rw [entry_size ht]
  have h : 0 < max t.align w := Nat.lt_of_lt_of_le (pow_pos ht.1) (Nat.le_max_left _ _)
  have := le_roundUp (n := max t.size w) h
  exact ⟨Nat.le_trans (Nat.le_max_left _ _) this, Nat.le_trans (Nat.le_max_right _ _) this⟩

theorem entry_large {w : Nat} {t : Layout} (ht : t.Ok) (hs : w ≤ t.size) (ha : w ≤ t.align) :
    entry w t = t := by
  have h1 := entry_align (w := w) ht
  have h2 := entry_size (w := w) ht
  rw [Nat.max_eq_left ha] at h1 h2
  rw [Nat.max_eq_left hs, roundUp_of_dvd (pow_pos ht.1) ht.2] at h2
  cases t
  cases h : entry w _
  simp_all

theorem entry_small {w : Nat} {t : Layout} (ht : t.Ok) (hw : ∃ n, w = 2 ^ n) (hs : t.size ≤ w) :
    (entry w t).size = max w t.align := by
  rw [entry_size ht, Nat.max_eq_right hs]
  rcases Nat.le_total t.align w with h | h
  · rw [Nat.max_eq_right h, Nat.max_eq_left h]
    exact roundUp_of_dvd (pow_pos hw) (Nat.dvd_refl _)
  · rw [Nat.max_eq_left h, Nat.max_eq_right h]
    have h1 := le_roundUp (n := w) (pow_pos ht.1)
    have h2 := roundUp_lt (n := w) (pow_pos ht.1)
    have h3 := dvd_roundUp w t.align
    have hw0 := pow_pos hw
    obtain ⟨k, hk⟩ := h3
    rw [hk] at h1 h2 ⊢
    have hk2 : k < 2 := by
      apply Nat.lt_of_mul_lt_mul_left (a := t.align)
      omega
    have hk1 : k ≠ 0 := by rintro rfl; simp at h1; omega
    have : k = 1 := by omega
    rw [this, Nat.mul_one]

theorem entry_overhead {w : Nat} {t : Layout} (ht : t.Ok) (hw : ∃ n, w = 2 ^ n)
    (h0 : 0 < t.size ∨ t.align ≤ w) : (entry w t).size ≤ t.size + w ∧
      (0 < t.size → (entry w t).size < t.size + w) := by
  have hal : 0 < t.size → t.align ≤ t.size := fun h => Nat.le_of_dvd h ht.2
  have hw0 := pow_pos hw
  by_cases hs : t.size ≤ w
  · rw [entry_small ht hw hs]
    omega
  · rcases Nat.le_total t.align w with h | h
    · rw [entry_size ht, Nat.max_eq_right h, Nat.max_eq_left (by omega)]
      have := roundUp_lt (n := t.size) hw0
      omega
    · rw [entry_large ht (by omega) h]
      omega

theorem IsNode.two {w : Nat} {k v node : Layout} {offs : List Nat} (h : node.IsNode w k v offs) :
    2 * w ≤ node.size ∧ w ≤ node.align := by
  have hlen : offs.length = 4 := h.length
  have h2 : ∃ o, offs[2]? = some o := ⟨offs[2], List.getElem?_eq_getElem (by omega)⟩
  have h3 : ∃ o, offs[3]? = some o := ⟨offs[3], List.getElem?_eq_getElem (by omega)⟩
  obtain ⟨o, ho⟩ := h2
  obtain ⟨q, hq⟩ := h3
  obtain ⟨-, a1, -, a2⟩ := h.aligned 2 (word w) o rfl ho
  obtain ⟨-, -, -, a3⟩ := h.aligned 3 (word w) q rfl hq
  have := h.apart 2 3 (word w) (word w) o q (by omega) rfl rfl ho hq
  simp only [word] at *
  omega

theorem IsNode.entry {w : Nat} {k v node : Layout} {offs : List Nat} (h : node.IsNode w k v offs) :
    Layout.entry w node = node := by
  have := h.two
  exact entry_large h.ok (by omega) (by omega)

end Layout

namespace Arena
variable {T : Type} {cfg : Cfg}
open Spec

/-- A readable cell is in a live block. -/
theorem Inv.cell_block {a : Arena T} (h : a.Inv cfg) {p : Ptr} {v : T} (hp : a.cell p = some v)
    {blocks : List (Nat × Nat)} (hb : replay a.log = some blocks) :
    ∃ n, (p.block, n) ∈ blocks ∧ p.off < n ∧ n * cfg.esize ≤ isizeMax ∧ 0 < cfg.esize := by
  rw [h.log] at hb
  cases hb
  unfold cell at hp
  cases hc : a.chunks.find? (fun c => c.id == p.block) with
  | none => rw [hc] at hp; cases hp
  | some c =>
    rw [hc] at hp
    have hm := List.mem_of_find?_eq_some hc
    have hid : c.id = p.block := by simpa using List.find?_some hc
    obtain ⟨i, hi, hic⟩ := List.mem_iff_getElem.1 hm
    have hs := h.slots i c (by rw [List.getElem?_eq_getElem hi, hic])
    have hz := h.size i hi
    refine ⟨c.slots.length, List.mem_map.2 ⟨c, hm, by rw [hid]⟩, ?_, by rw [hs]; exact hz.2, hz.1⟩
    by_cases hlt : p.off < c.slots.length
    · exact hlt
    · simp only [List.getElem?_eq_none (Nat.le_of_not_lt hlt)] at hp
      cases hp

end Arena

namespace Spec
variable {ι : Type} {l : Layout} {live : ι × Nat → Nat → Prop} {base : ι × Nat → Nat}

theorem Placed.inside (h : Placed l live base) {i : ι} {p : Ptr} {n : Nat} (hl : live (i, p.block) n)
    (hn : p.off < n) (ho : l.Ok) :
    0 < addr l (fun b => base (i, b)) p ∧ l.align ∣ addr l (fun b => base (i, b)) p ∧
    base (i, p.block) ≤ addr l (fun b => base (i, b)) p ∧
    addr l (fun b => base (i, b)) p + l.size ≤ base (i, p.block) + n * l.size ∧
    addr l (fun b => base (i, b)) p + l.size ≤ 2 ^ 64 := by
  have h1 := h.nonnull _ _ hl
  have h2 := h.aligned _ _ hl
  have h3 := h.fits _ _ hl
  have h4 : (p.off + 1) * l.size ≤ n * l.size := Nat.mul_le_mul_right _ hn
  rw [Nat.add_mul, Nat.one_mul] at h4
  simp only [addr]
  exact ⟨by omega, Nat.dvd_add h2 (Nat.dvd_trans ho.2 (Nat.dvd_mul_left _ _)), by omega, by omega,
    by omega⟩

theorem Placed.separate (h : Placed l live base) {i j : ι} {p q : Ptr} {n k : Nat}
    (hl : live (i, p.block) n) (hl' : live (j, q.block) k) (hn : p.off < n) (hk : q.off < k)
    (hne : ¬ (i = j ∧ p = q)) :
    addr l (fun b => base (i, b)) p + l.size ≤ addr l (fun b => base (j, b)) q ∨
    addr l (fun b => base (j, b)) q + l.size ≤ addr l (fun b => base (i, b)) p := by
  have h4 : (p.off + 1) * l.size ≤ n * l.size := Nat.mul_le_mul_right _ hn
  have h5 : (q.off + 1) * l.size ≤ k * l.size := Nat.mul_le_mul_right _ hk
  rw [Nat.add_mul, Nat.one_mul] at h4 h5
  simp only [addr]
  by_cases hb : (i, p.block) = (j, q.block)
  · obtain ⟨rfl, hb⟩ := Prod.mk.injEq .. ▸ hb
    rw [hb]
    have hoff : p.off ≠ q.off := by
      intro ho
      apply hne
      cases p; cases q
      simp_all
    rcases Nat.lt_or_gt_of_ne hoff with ho | ho
    · left
      have : (p.off + 1) * l.size ≤ q.off * l.size := Nat.mul_le_mul_right _ ho
      rw [Nat.add_mul, Nat.one_mul] at this
      omega
    · right
      have : (q.off + 1) * l.size ≤ p.off * l.size := Nat.mul_le_mul_right _ ho
      rw [Nat.add_mul, Nat.one_mul] at this
      omega
  · rcases h.apart _ _ _ _ hb hl hl' with h6 | h6 <;> omega

end Spec
end BST
