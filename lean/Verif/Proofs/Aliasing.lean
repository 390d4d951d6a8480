import Verif.Model.Borrows
import Verif.Proofs.Basic
/-!
# What the proofs need to know about aliasing rules

The laws hold for Stacked Borrows (`Proofs/StackLaws.lean`) and Tree Borrows
(`Proofs/TreeLaws.lean`).
-/
namespace BST

/-- `q` is one of the `n` locations from `p` on. -/
def Within (q p : Ptr) (n : Nat) : Prop := q.block = p.block ∧ p.off ≤ q.off ∧ q.off < p.off + n

instance {q p : Ptr} {n : Nat} : Decidable (Within q p n) := by unfold Within; infer_instance

theorem within_one {q p : Ptr} : Within q p 1 ↔ q = p := by
  constructor
  · intro hq
    have := hq.2; cases q; cases p; simp only [Ptr.mk.injEq] at *
    exact ⟨hq.1, by omega⟩
  · rintro rfl; exact ⟨rfl, Nat.le_refl _, Nat.lt_succ_self _⟩

/-- What is known about the tags in a heap. -/
structure AliasView (H : Type) where
  /-- the allocations and their sizes -/
  layout : H → List (Nat × Nat)
  /-- the state is consistent -/
  Wf : H → Prop
  /-- the tag is the one of the allocation -/
  Owns : H → Nat → Nat → Prop
  /-- the tag may be used for anything in the allocation -/
  Whole : H → Nat → Nat → Prop
  /-- the tag may be used to write -/
  Top : H → Ptr → Nat → Prop
  /-- the tag may be used to read, now and after other reads -/
  Seen : H → Ptr → Nat → Prop
  /-- this way to get a pointer to a chunk works -/
  Sound : ChunkPtr → Prop

namespace AliasView
variable {H : Type} (a : AliasView H)

/-- What may be done at `q` may still be done. -/
def Keep (h h' : H) (q : Ptr) : Prop :=
  (∀ t, a.Top h q t → a.Top h' q t) ∧ ∀ t, a.Seen h q t → a.Seen h' q t

/-- The allocations and their tags are the same. -/
structure Step (h h' : H) : Prop where
  wf : a.Wf h'
  layout : a.layout h' = a.layout h
  owns : ∀ b t, a.Owns h b t → a.Owns h' b t

/-- `n` locations from `p` on exist. -/
def Inside (h : H) (p : Ptr) (n : Nat) : Prop :=
  ∃ m, (p.block, m) ∈ a.layout h ∧ p.off + n ≤ m

/-- The same allocations except for `id`. -/
structure Apart (id : Nat) (h h' : H) : Prop where
  wf : a.Wf h'
  owns : ∀ b t, b ≠ id → a.Owns h b t → a.Owns h' b t
  keep : ∀ q, q.block ≠ id → a.Keep h h' q

end AliasView

class AliasLaws (H : Type) [Aliasing H] extends AliasView H where
  empty_wf : Wf (Aliasing.empty : H)
  empty_layout : layout (Aliasing.empty : H) = []
  nodup : ∀ {h : H}, Wf h → ((layout h).map (·.1)).Nodup
  whole : ∀ {h : H} {b t}, Owns h b t → Whole h b t
  allocate_ok : ∀ {h : H} {id n}, Wf h → id ∉ (layout h).map (·.1) →
    ∃ t h', Aliasing.allocate id n h = (.ok t, h') ∧ toAliasView.Apart id h h' ∧
      layout h' = layout h ++ [(id, n)] ∧ Owns h' id t
  deallocate_ok : ∀ {h : H} {t id n}, Wf h → Whole h id t → (id, n) ∈ layout h → 0 < n →
    ∃ h', Aliasing.deallocate t id n h = (.ok (), h') ∧ toAliasView.Apart id h h' ∧
      layout h' = (layout h).filter (fun e => e.1 ≠ id)
  derive_excl : ∀ {h : H} {t p n}, Wf h → Whole h p.block t → toAliasView.Inside h p n → 0 < n →
    ∃ r h', Aliasing.derive .excl t p n h = (.ok r, h') ∧ toAliasView.Step h h' ∧
      (∀ q, Within q p n → Top h' q r) ∧ ∀ q, ¬ Within q p n → toAliasView.Keep h h' q
  derive_shared : ∀ {h : H} {t p}, Wf h → Whole h p.block t → toAliasView.Inside h p 1 →
    ∃ r h', Aliasing.derive .shared t p 1 h = (.ok r, h') ∧ toAliasView.Step h h' ∧
      Seen h' p r ∧ ∀ q, q ≠ p → toAliasView.Keep h h' q
  derive_top : ∀ {h : H} {k t p n}, Wf h → k ≠ .shared → 0 < n → (∀ q, Within q p n → Top h q t) →
    ∃ r h', Aliasing.derive k t p n h = (.ok r, h') ∧ toAliasView.Step h h' ∧
      (∀ q, Within q p n → Top h' q r) ∧ ∀ q, ¬ Within q p n → toAliasView.Keep h h' q
  access_top : ∀ {h : H} {w t p}, Wf h → Top h p t →
    ∃ h', Aliasing.access w t p h = (.ok (), h') ∧ toAliasView.Step h h' ∧ Top h' p t ∧
      ∀ q, q ≠ p → toAliasView.Keep h h' q
  access_seen : ∀ {h : H} {t p}, Wf h → Seen h p t →
    ∃ h', Aliasing.access false t p h = (.ok (), h') ∧ toAliasView.Step h h' ∧
      ∀ q, q ≠ p → toAliasView.Keep h h' q
  /-- However a read ends, -/
  access_keeps : ∀ (h : H) (t p q t'), Seen h q t' → Seen (Aliasing.access false t p h).2 q t'
  /-- or a derivation. -/
  derive_keeps : ∀ (h : H) (t p q t'), Seen h q t' →
    Seen (Aliasing.derive .shared t p 1 h).2 q t'
  chunk_ok : ∀ {h : H} {how t id n}, Sound how → Wf h → Owns h id t → (id, n) ∈ layout h → 0 < n →
    ∃ t' h', Tagged.chunkPtr how t id h = (.ok t', h') ∧ toAliasView.Step h h' ∧
      Whole h' id t' ∧ ∀ q, q.block ≠ id → toAliasView.Keep h h' q
  /-- An unsound way to get a pointer is good for one location only. -/
  chunk_ub : ∀ {h : H} {how id n} (t), ¬ Sound how → Wf h → 2 ≤ n →
    ((do let p ← Tagged.chunkPtr how t id; Aliasing.derive .excl p ⟨id, 0⟩ n) h).1 = .ub ∧
    ((do let p ← Tagged.chunkPtr how t id; Aliasing.deallocate p id n) h).1 = .ub

namespace AliasView
variable {H : Type} {a : AliasView H} {h h' h'' : H} {q : Ptr}

theorem Keep.refl (h : H) (q : Ptr) : a.Keep h h q := ⟨fun _ h => h, fun _ h => h⟩
theorem Keep.trans (k : a.Keep h h' q) (k' : a.Keep h' h'' q) : a.Keep h h'' q :=
  ⟨fun t ht => k'.1 t (k.1 t ht), fun t ht => k'.2 t (k.2 t ht)⟩
theorem Step.refl (hw : a.Wf h) : a.Step h h := ⟨hw, rfl, fun _ _ h => h⟩
theorem Step.trans (s : a.Step h h') (s' : a.Step h' h'') : a.Step h h'' :=
  ⟨s'.wf, s'.layout.trans s.layout, fun b t ht => s'.owns b t (s.owns b t ht)⟩
theorem Apart.of_step {id : Nat} (s : a.Step h h') (hk : ∀ q, q.block ≠ id → a.Keep h h' q) :
    a.Apart id h h' := ⟨s.wf, fun b t _ ht => s.owns b t ht, hk⟩
theorem Apart.trans {id : Nat} (s : a.Apart id h h') (s' : a.Apart id h' h'') : a.Apart id h h'' :=
  ⟨s'.wf, fun b t hb ht => s'.owns b t hb (s.owns b t hb ht),
    fun q hq => (s.keep q hq).trans (s'.keep q hq)⟩

end AliasView
end BST
