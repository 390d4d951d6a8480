import Verif.Proofs.AncestryCost
import Verif.Proofs.Content
import Verif.Proofs.Sample
/-!
# C84: what it costs to find a key is told by the order of insertion
-/
namespace BST.Props
open Spec Std
variable {K V : Type} {cfg : Cfg} {cmp : K → K → Ordering} {o : List (K × V)} {k : K}

/-- C84. Insert different keys into a new map. To find one of them takes as many comparisons as there are keys
with no earlier key between them and the one that is looked for. -/
theorem C84_cost [TransCmp cmp] (hd : o.Pairwise fun a b => cmp a.1 b.1 ≠ .eq)
    {os : List (Out (Ret K V))} {m : BSTMap K V}
    (hi : history cfg (o.map fun e => .insert (query (cmp e.1)) e.1 e.2) BSTMap.new = (os, m))
    (hos : ∀ r ∈ os, ∃ v, r = .ok v) (hk : ∃ e ∈ o, cmp k e.1 = .eq) :
    Takes cfg cmp k m (onWay cmp k [] o) := by
  obtain ⟨t, h1, h2⟩ := history_inserts _ (shape_new cfg) hi hos
  have h3 : t.sh = grown cmp o := h2
  have hs : Sorted cmp t.sh.ino := by rw [h3]; exact insertList_sorted o (b := .nil) .nil
  rw [← steps_grown k _ o (Nat.le_refl _) hd, ← h3]
  refine takes h1 (by rw [Tree.sh_ino] at hs; exact hs) ?_
  obtain ⟨e, he, hke⟩ := hk
  exact ⟨e, by rw [h3]; exact (grown_mem _ o (Nat.le_refl _) hd e).2 he, hke⟩

/-- 5, 8, 2, 1, 3, 4: on the way to 4 are 5, 2, 3 and 4 itself, but not 8 (5 lies between) and 1 (2 does). -/
example :
    let o := [5, 8, 2, 1, 3, 4].map fun k => (k, "v")
    let h := history Sample.cfg (o.map fun e => .insert (query (Sample.cmp e.1)) e.1 e.2) BSTMap.new
    h.1 = o.map (fun _ => .ok (.value none)) ∧ onWay Sample.cmp 4 [] o = 4 ∧ onWay Sample.cmp 8 [] o = 2 ∧
    h.2.get (upTo Sample.cmp 4 3) = .panic ∧ h.2.get (upTo Sample.cmp 4 4) = .ok (some "v") ∧
    h.2.get (upTo Sample.cmp 8 1) = .panic ∧ h.2.get (upTo Sample.cmp 8 2) = .ok (some "v") := by
  decide +kernel

/-- C84. The same for a key that is not in the map; `insert` needs room for one entry more. -/
theorem C84_cost_absent [TransCmp cmp] (hd : o.Pairwise fun a b => cmp a.1 b.1 ≠ .eq)
    {os : List (Out (Ret K V))} {m : BSTMap K V}
    (hi : history cfg (o.map fun e => .insert (query (cmp e.1)) e.1 e.2) BSTMap.new = (os, m))
    (hos : ∀ r ∈ os, ∃ v, r = .ok v) (hk : ∀ e ∈ o, cmp k e.1 ≠ .eq) (b : Nat) :
    (b < onWay cmp k [] o →
      m.get (upTo cmp k b) = .panic ∧ m.getEntry (upTo cmp k b) = .panic ∧
      m.containsKey (upTo cmp k b) = .panic ∧
      (BSTMap.getMut (upTo cmp k b) m).1 = .panic ∧ (BSTMap.getEntryMut (upTo cmp k b) m).1 = .panic ∧
      (BSTMap.remove cfg (upTo cmp k b) m).1 = .panic ∧
      (BSTMap.removeEntry cfg (upTo cmp k b) m).1 = .panic ∧
      ∀ v, (BSTMap.insert cfg (upTo cmp k b) k v m).1 = .panic) ∧
    (onWay cmp k [] o ≤ b →
      m.get (upTo cmp k b) = .ok none ∧ m.getEntry (upTo cmp k b) = .ok none ∧
      m.containsKey (upTo cmp k b) = .ok false ∧
      (BSTMap.getMut (upTo cmp k b) m).1 = .ok none ∧
      (BSTMap.getEntryMut (upTo cmp k b) m).1 = .ok none ∧
      (BSTMap.remove cfg (upTo cmp k b) m).1 = .ok none ∧
      (BSTMap.removeEntry cfg (upTo cmp k b) m).1 = .ok none ∧
      (0 < cfg.esize → (∀ id n, cfg.allocOk id n = true) → (o.length + 8) * cfg.esize ≤ isizeMax →
        ∀ v, (BSTMap.insert cfg (upTo cmp k b) k v m).1 = .ok none)) := by
  obtain ⟨t, h1, h2⟩ := history_inserts _ (shape_new cfg) hi hos
  have h3 : t.sh = grown cmp o := h2
  rw [← steps_grown k _ o (Nat.le_refl _) hd, ← h3]
  obtain ⟨g1, g2⟩ := search_upTo (cmp := cmp) k b t.sh
  refine ⟨fun hb => ?_, fun hb => ?_⟩
  · obtain ⟨a1, a2, a3, a4, a5⟩ := (built_find h1).2 (g2 hb)
    have hf : t.find (upTo cmp k b) 0 = .panic := by
      have hp := g2 hb
      rw [find_search] at hp
      rcases t.find_ok_or_panic (upTo cmp k b) 0 with hf | ⟨e', hf⟩
      · exact hf
      · rw [hf] at hp; cases hp
    refine ⟨a1, a2, a3, by rw [BSTMap.getMut_spec h1, hf]; rfl, by rw [BSTMap.getEntryMut_spec h1, hf]; rfl,
      a4, ?_, a5 k⟩
    rcases removeEntry_cases h1 (upTo cmp k b) with ⟨_, _, h4, _⟩ | ⟨_, h5⟩
    · rw [hf] at h4; cases h4
    · rw [h5]
  · have hf : t.find (upTo cmp k b) 0 = .ok none := by
      obtain ⟨e, he⟩ := g1 hb
      rw [find_search] at he
      rcases t.find_ok_or_panic (upTo cmp k b) 0 with hf | ⟨e', hf⟩
      · rw [hf] at he; cases he
      · cases e' with
        | none => exact hf
        | some x =>
          exfalso
          have hx : t.sh.search (upTo cmp k b) 0 = .ok (some x.2) := by rw [find_search, hf]; rfl
          obtain ⟨y, hy, hky⟩ := search_upTo_has hx
          rw [h3] at hy
          exact hk y ((grown_mem _ o (Nat.le_refl _) hd y).1 hy) hky
    refine ⟨by rw [BSTMap.get_spec h1, hf]; rfl, by rw [BSTMap.getEntry_spec h1, hf]; rfl,
      by rw [BSTMap.containsKey_spec h1, hf]; rfl, by rw [BSTMap.getMut_spec h1, hf]; rfl,
      by rw [BSTMap.getEntryMut_spec h1, hf]; rfl, ?_, ?_, fun he ha hn v => ?_⟩
    · rcases remove_cases h1 (upTo cmp k b) with ⟨_, _, h4, h5, _⟩ | ⟨h4, _⟩
      · cases h4.symm.trans hf; rw [h5]; rfl
      · rw [hf] at h4; cases h4
    · rcases removeEntry_cases h1 (upTo cmp k b) with ⟨_, _, h4, h5, _⟩ | ⟨h4, _⟩
      · cases h4.symm.trans hf; rw [h5]; rfl
      · rw [hf] at h4; cases h4
    · have hz : t.size ≤ o.length := by rw [← Tree.sh_size, h3]; exact grown_size o
      obtain ⟨x, hx⟩ := ((built_find h1).1 (g1 hb)).2.2.2.2 he ha
        (Nat.le_trans (Nat.mul_le_mul_right _ (Nat.add_le_add_right hz 8)) hn) k v
      rcases insert_cases h1 (upTo cmp k b) k v with ⟨_, _, _, h4, h5, _⟩ | ⟨r, h4, h5⟩
      · cases h4.symm.trans hf; rw [h5]; rfl
      · rw [h4] at hx
        rcases h5 with ⟨h5, _⟩ | ⟨h5 | h5, _⟩ <;> (rw [h5] at hx; cases hx)

/-- On the way to 6 in the same map are 5 and 8. -/
example :
    let o := [5, 8, 2, 1, 3, 4].map fun k => (k, "v")
    let h := history Sample.cfg (o.map fun e => .insert (query (Sample.cmp e.1)) e.1 e.2) BSTMap.new
    onWay Sample.cmp 6 [] o = 2 ∧ h.2.get (upTo Sample.cmp 6 1) = .panic ∧
    h.2.get (upTo Sample.cmp 6 2) = .ok none := by
  decide +kernel

/-- C84. The same for a `SimpleBSTMap`. -/
theorem C84_cost_simple [TransCmp cmp] (he : 2 ≤ cfg.esize)
    (hd : o.Pairwise fun a b => cmp a.1 b.1 ≠ .eq)
    {os : List (Out (Ret K V))} {m : Simple.Map K V}
    (hi : simpleHistory cfg (o.map fun e => .insert (query (cmp e.1)) e.1 e.2) Simple.Map.new = (os, m))
    (hos : ∀ r ∈ os, ∃ v, r = .ok v) (hk : ∃ e ∈ o, cmp k e.1 = .eq) :
    TakesSimple cfg cmp k m (onWay cmp k [] o) := by
  have h3 : m.root.view = grown cmp o := simpleHistory_inserts he _ (m := Simple.Map.new) rfl hi hos
  have hw := simpleHistory_inserts_sorted he hi hos
  rw [← steps_grown k _ o (Nat.le_refl _) hd, ← h3]
  refine Simple.takes he hw.1 hw.2 ?_
  obtain ⟨e, heo, hke⟩ := hk
  exact ⟨e, by rw [h3]; exact (grown_mem _ o (Nat.le_refl _) hd e).2 heo, hke⟩

theorem C84_cost_absent_simple [TransCmp cmp] (he : 2 ≤ cfg.esize)
    (hd : o.Pairwise fun a b => cmp a.1 b.1 ≠ .eq)
    {os : List (Out (Ret K V))} {m : Simple.Map K V}
    (hi : simpleHistory cfg (o.map fun e => .insert (query (cmp e.1)) e.1 e.2) Simple.Map.new = (os, m))
    (hos : ∀ r ∈ os, ∃ v, r = .ok v) (hk : ∀ e ∈ o, cmp k e.1 ≠ .eq) (b : Nat) :
    (b < onWay cmp k [] o →
      m.get (upTo cmp k b) = .panic ∧ m.getEntry (upTo cmp k b) = .panic ∧
      m.containsKey (upTo cmp k b) = .panic ∧ (Simple.Map.getMut (upTo cmp k b) m).1 = .panic ∧
      (Simple.Map.remove cfg (upTo cmp k b) m).1 = .panic ∧
      (Simple.Map.removeEntry cfg (upTo cmp k b) m).1 = .panic ∧
      ∀ v, (Simple.Map.insert cfg (upTo cmp k b) k v m).1 = .panic) ∧
    (onWay cmp k [] o ≤ b →
      m.get (upTo cmp k b) = .ok none ∧ m.getEntry (upTo cmp k b) = .ok none ∧
      m.containsKey (upTo cmp k b) = .ok false ∧ (Simple.Map.getMut (upTo cmp k b) m).1 = .ok none ∧
      ((Simple.Map.remove cfg (upTo cmp k b) m).1 = .ok none ∨
        (Simple.Map.remove cfg (upTo cmp k b) m).1 = .abort) ∧
      ((Simple.Map.removeEntry cfg (upTo cmp k b) m).1 = .ok none ∨
        (Simple.Map.removeEntry cfg (upTo cmp k b) m).1 = .abort) ∧
      ∀ v, (Simple.Map.insert cfg (upTo cmp k b) k v m).1 = .ok none ∨
        (Simple.Map.insert cfg (upTo cmp k b) k v m).1 = .abort) := by
  have hw := (simpleHistory_inserts_sorted he hi hos).1
  have h3 : m.root.view = grown cmp o := simpleHistory_inserts he _ (m := Simple.Map.new) rfl hi hos
  rw [← steps_grown k _ o (Nat.le_refl _) hd, ← h3]
  obtain ⟨g1, g2⟩ := search_upTo (cmp := cmp) k b m.root.view
  rw [Simple.view_search] at g1 g2
  refine ⟨fun hb => ?_, fun hb => ?_⟩
  · have hf := g2 hb
    refine ⟨by rw [Simple.get_spec, hf]; rfl, by rw [Simple.getEntry_spec, hf],
      by rw [Simple.containsKey_spec, hf]; rfl, by rw [Simple.Map.getMut_spec, hf]; rfl, ?_,
      by rw [Simple.removeEntry_panic cfg hf], fun v => ?_⟩
    · unfold Simple.Map.remove
      rw [M.bind_panic (Simple.removeEntry_panic cfg hf)]
    · rcases Simple.Map.insert_spec he (upTo cmp k b) k v m hw with ⟨_, h2⟩ | ⟨_, _, _, h1, _⟩ | ⟨h1, _⟩
      · rw [h2]
      · rw [hf] at h1; cases h1
      · rw [hf] at h1; cases h1
  · obtain ⟨e, hf⟩ := g1 hb
    cases e with
    | none =>
      refine ⟨by rw [Simple.get_spec, hf]; rfl, by rw [Simple.getEntry_spec, hf],
        by rw [Simple.containsKey_spec, hf]; rfl, by rw [Simple.Map.getMut_spec, hf]; rfl, ?_, ?_, fun v => ?_⟩
      · unfold Simple.Map.remove
        rcases Simple.Map.removeEntry_spec cfg (upTo cmp k b) m hw with ⟨h1, _⟩ | ⟨_, _, _, h1, h2, _⟩ | ⟨_, h2, _⟩
        · rw [hf] at h1; cases h1
        · cases h1.symm.trans hf; rw [M.bind_ok h2]; simp
        · rw [M.bind_abort h2]; simp
      · rcases Simple.Map.removeEntry_spec cfg (upTo cmp k b) m hw with ⟨h1, _⟩ | ⟨_, _, _, h1, h2, _⟩ | ⟨_, h2, _⟩
        · rw [hf] at h1; cases h1
        · cases h1.symm.trans hf; rw [h2]; simp
        · rw [h2]; simp
      · rcases Simple.Map.insert_spec he (upTo cmp k b) k v m hw with ⟨h1, _⟩ | ⟨_, _, _, h1, h2, _⟩ | ⟨h1, h2, _⟩
        · rw [hf] at h1; cases h1
        · cases h1.symm.trans hf; rw [h2]; exact .inl rfl
        · rw [h2]; exact .inr rfl
    | some x =>
      exfalso
      rw [← Simple.view_search] at hf
      obtain ⟨y, hy, hky⟩ := search_upTo_has hf
      rw [h3] at hy
      exact hk y ((grown_mem _ o (Nat.le_refl _) hd y).1 hy) hky

/-- The same for `SimpleBSTMap`: 4 is found, and 6 is not. -/
example :
    let o := [5, 8, 2, 1, 3, 4].map fun k => (k, "v")
    let h := simpleHistory Sample.cfg (o.map fun e => .insert (query (Sample.cmp e.1)) e.1 e.2) Simple.Map.new
    h.1 = o.map (fun _ => .ok (.value none)) ∧
    h.2.get (upTo Sample.cmp 4 3) = .panic ∧ h.2.get (upTo Sample.cmp 4 4) = .ok (some "v") ∧
    h.2.get (upTo Sample.cmp 6 1) = .panic ∧ h.2.get (upTo Sample.cmp 6 2) = .ok none := by
  decide +kernel

end BST.Props
