import Verif.Proofs.Client
/-!
# After a destructor panicked during `clear`
-/
set_option linter.unusedSimpArgs false
namespace BST
namespace Slab
variable {T : Type}

theorem loopM_ub {σ α β : Type} {fuel : Nat} {body : β → M σ (β ⊕ α)} {b : β} {s s' : σ}
    (h : body b s = (.ub, s')) : loop (fuel + 1) body b s = (.ub, s') := by
  rw [loop_succ, M.bind_apply]
  show M.bind _ _ _ = _
  unfold M.bind
  rw [h]

/-- A second destructor loop over a slab whose `clear` was interrupted reaches an entry that was
already dropped. -/
theorem again_loop {cfg : Cfg} {d : DropInfo T} {s0 s : Slab T} {frees fl : List Ptr}
    (h0 : InvF cfg s0 frees) (hfl : ∀ p, p ∈ fl ↔ p ∈ frees) {j k0 : Nat} (hm : Mid cfg s0 j s)
    (hk : k0 < j) (hk2 : k0 < s0.items.len) (hk3 : (s0.view (s0.items.addr k0)).isSome)
    (hmin : ∀ k, k < k0 → s0.view (s0.items.addr k) = none) (n fuel : Nat) :
    ∀ i, i + n = k0 → n < fuel →
    loop fuel (clearBody cfg d fl) ⟨i, s0.items.len⟩ s = (.ub, s) := by
  induction n generalizing fuel with
  | zero =>
    intro i hi hf
    obtain ⟨fuel, rfl⟩ : ∃ k, fuel = k + 1 := ⟨fuel - 1, by omega⟩
    have hi : i = k0 := by omega
    subst hi
    obtain ⟨e, he, hn⟩ := hm.items.nextPtr_some (it := ⟨i, s0.items.len⟩) hk2
      (by rw [hm.len]; exact Nat.le_refl _)
    simp only at he hn
    rw [hm.addr] at he hn
    rw [hm.gone i hk hk2 hk3] at he
    cases he
    apply loopM_ub
    unfold clearBody
    simp only [M.get_bind, hn, M.lift_ok_bind]
    rw [if_neg (by rw [hfl]; exact (h0.view_isSome.1 hk3).2)]
    rfl
  | succ n ih =>
    intro i hi hf
    obtain ⟨fuel, rfl⟩ : ∃ k, fuel = k + 1 := ⟨fuel - 1, by omega⟩
    have hlt : i < s0.items.len := by omega
    obtain ⟨e, he, hn⟩ := hm.items.nextPtr_some (it := ⟨i, s0.items.len⟩) hlt
      (by rw [hm.len]; exact Nat.le_refl _)
    simp only at he hn
    rw [hm.addr] at he hn
    have hv := hmin i (by omega)
    rw [hm.free i (by omega) hlt hv] at he
    have hp : s0.items.addr i ∈ frees := by
      apply Classical.byContradiction
      intro hnp
      have := h0.view_isSome.2 ⟨by rw [he]; rfl, hnp⟩
      rw [hv] at this
      cases this
    rw [loopM_inl (b' := ⟨i + 1, s0.items.len⟩) (s' := s)]
    · exact ih fuel (i + 1) (by omega) (by omega)
    · unfold clearBody
      simp only [M.get_bind, hn, M.lift_ok_bind]
      rw [if_pos ((hfl _).2 hp)]
      rfl

theorem exists_least {P : Nat → Prop} {n : Nat} (h : P n) : ∃ k, k ≤ n ∧ P k ∧ ∀ i, i < k → ¬ P i := by
  induction n using Nat.strongRecOn with
  | ind n ih =>
    by_cases hx : ∃ i, i < n ∧ P i
    · obtain ⟨i, h1, h2⟩ := hx
      obtain ⟨k, a, b, c⟩ := ih i h1 h2
      exact ⟨k, by omega, b, c⟩
    · exact ⟨n, Nat.le_refl _, h, fun i hi hp => hx ⟨i, hi, hp⟩⟩

/-- After `clear` was interrupted by a panicking destructor, another `clear` that has
destructors to run is undefined behaviour: it drops a value a second time. -/
theorem clear_again {cfg : Cfg} {d d' : DropInfo T} {s0 s : Slab T} (h : s0.Inv cfg)
    (hc : clear cfg d s0 = (.panic, s)) (hn : d'.needsDrop = true) : clear cfg d' s = (.ub, s) := by
  obtain ⟨frees, hf⟩ := id h
  rcases clear_spec (d := d) h with ⟨s', h1, _⟩ | ⟨_, _, j, s', h1, hm, ⟨k, k1, k2, k3⟩, _⟩
  · rw [hc] at h1; cases (Prod.mk.inj h1).1
  · rw [hc] at h1
    cases (Prod.mk.inj h1).2
    obtain ⟨k0, a1, a2, a3⟩ := exists_least
      (P := fun k => (s0.view (s0.items.addr k)).isSome = true) k3
    have hfree : ∀ p ∈ frees, s.items.cell p = s0.items.cell p := by
      intro p hp
      obtain ⟨n, hnx⟩ := hf.chain.mem_free hp
      have hpa := hf.items.mem_addrs.2 (by simp [hnx] : (s0.items.cell p).isSome)
      unfold Arena.addrs at hpa
      obtain ⟨i, hi, rfl⟩ := List.mem_map.1 hpa
      rw [List.mem_range] at hi
      by_cases hij : i < j
      · exact hm.free i hij hi (by simp [view, hnx])
      · exact hm.rest i (by omega) hi
    have hch : FreeChain s.items.cell s.freeHead frees := by
      rw [hm.head]; exact hf.chain.congr hfree
    have hfp := freePointers_chain hch (by rw [hm.len]; have := hf.frees_length; omega)
    have hne : s.items.len ≠ s.freeLen := by
      rw [hm.len, hm.flen]
      intro e
      rcases clear_spec (d := d) h with ⟨s', h1, _⟩ | ⟨hnd, _⟩
      · rw [hc] at h1; cases (Prod.mk.inj h1).1
      · unfold clear at hc
        simp only [M.get_bind] at hc
        rw [if_pos (by simp [e]), (reset_spec hf.items).1] at hc
        cases (Prod.mk.inj hc).1
    have hl := again_loop (d := d') hf (fl := frees.reverse) (by simp) hm (by omega) (by omega) a2
      (fun i hi => by
        have := a3 i hi
        cases hv : s0.view (s0.items.addr i) with
        | none => rfl
        | some v => rw [hv] at this; exact absurd rfl this) k0 (s.items.len + 1) 0 (by omega)
      (by rw [hm.len]; omega)
    have hunf : clear cfg d' s = (do
        loop (s.items.len + 1) (clearBody cfg d' frees.reverse) s.items.iter
        resetInternalState cfg : M (Slab T) Unit) s := by
      unfold clear
      simp only [M.get_bind]
      rw [if_neg (by simp [hn, hne])]
      rw [M.read_bind, hfp]
      rfl
    rw [hunf]
    have hiter : s.items.iter = ⟨0, s0.items.len⟩ := by rw [← hm.len]; rfl
    rw [hiter, M.bind_apply, hl]

end Slab
/-- After `clear` was interrupted, some live slot is dead, and the other slots are unchanged. -/
theorem Slab.clear_panic_view {T : Type} {cfg : Cfg} {d : DropInfo T} {s0 s : Slab T}
    (h : s0.Inv cfg) (hc : Slab.clear cfg d s0 = (.panic, s)) :
    (∀ p, (s0.view p).isSome → s.view p = s0.view p ∨ s.view p = none) ∧
      (∃ p, (s0.view p).isSome ∧ s.view p = none) ∧ s.items.len = s0.items.len := by
  obtain ⟨frees, hf⟩ := id h
  rcases Slab.clear_spec (d := d) h with ⟨s', h1, _⟩ | ⟨_, _, j, s', h1, hm, ⟨k, k1, k2, k3⟩, _⟩
  · rw [hc] at h1; cases (Prod.mk.inj h1).1
  · rw [hc] at h1
    cases (Prod.mk.inj h1).2
    have hdead : ∀ k, k < j → k < s0.items.len → (s0.view (s0.items.addr k)).isSome →
        s.view (s0.items.addr k) = none := fun k a b c => by
      simp [Slab.view, hm.gone k a b c]
    refine ⟨fun p hp => ?_, ⟨_, k3, hdead k k1 k2 k3⟩, hm.len⟩
    have hpa : p ∈ s0.items.addrs := hf.items.mem_addrs.2 (by
      cases hcell : s0.items.cell p with
      | none => simp [Slab.view, hcell] at hp
      | some e => rfl)
    unfold Arena.addrs at hpa
    obtain ⟨i, hi, rfl⟩ := List.mem_map.1 hpa
    rw [List.mem_range] at hi
    by_cases hij : i < j
    · exact .inr (hdead i hij hi hp)
    · exact .inl (by simp [Slab.view, hm.rest i (by omega) hi])

/-- Exploring a tree some of whose nodes may be dead. -/
theorem exploreNode_dead {K V : Type} {s s' : Nodes K V} {t : Tree K V} (hr : t.Rep s.view)
    (hv : ∀ p ∈ t.ptrs, s'.view p = s.view p ∨ s'.view p = none) (fuel : Nat)
    (hf : t.height ≤ fuel) :
    (Node.newOpt s' t.root).bind (exploreNode s' fuel) = .ub ∨ ∀ p ∈ t.ptrs, s'.view p = s.view p := by
  induction t generalizing fuel with
  | leaf => right; intro p hp; cases hp
  | node p l k v r ihl ihr =>
    simp only [Tree.height] at hf
    obtain ⟨fuel, rfl⟩ : ∃ k, fuel = k + 1 := ⟨fuel - 1, by omega⟩
    simp only [Tree.ptrs, List.mem_cons, List.mem_append] at hv ⊢
    rcases hv p (.inl rfl) with hp | hp
    · have hnew : Node.newOpt s' (Tree.node p l k v r).root =
          .ok (some ⟨p, ⟨k, v, l.root, r.root⟩⟩) := by
        show ((Node.new s' p).bind fun n => .ok (some n)) = _
        unfold Node.new
        rw [Slab.getUnchecked_ok (hp.trans hr.1)]; rfl
      have hunf : (Node.newOpt s' (Tree.node p l k v r).root).bind (exploreNode s' (fuel + 1)) =
          ((Node.newOpt s' l.root).bind (exploreNode s' fuel)).bind fun bl =>
            ((Node.newOpt s' r.root).bind (exploreNode s' fuel)).bind fun br =>
              .ok (.node bl (p, k, v) br) := by
        rw [hnew]
        show (Node.newOpt s' l.root).bind (fun l' => (exploreNode s' fuel l').bind fun bl =>
          (Node.newOpt s' r.root).bind fun r' => (exploreNode s' fuel r').bind fun br => _) = _
        cases Node.newOpt s' l.root with
        | ok l' =>
          simp only [Out.bind]
          cases exploreNode s' fuel l' with
          | ok bl => simp only [Out.bind]; cases Node.newOpt s' r.root <;> rfl
          | _ => rfl
        | _ => rfl
      rw [hunf]
      rcases ihl hr.2.1 (fun q hq => hv q (.inr (.inl hq))) fuel (by omega) with h | hl
      · left; rw [h]; rfl
      · have hlr : l.Rep s'.view := hr.2.1.congr hl
        have hlok : (Node.newOpt s' l.root).bind (exploreNode s' fuel) = .ok l.bt := by
          rw [Node.newOpt_ok hlr]; exact exploreNode_ok hlr fuel (by omega)
        rw [hlok]
        rcases ihr hr.2.2 (fun q hq => hv q (.inr (.inr hq))) fuel (by omega) with h | hrr
        · left; simp only [Out.bind] at h ⊢; rw [h]
        · right
          rintro q (rfl | hq | hq)
          · exact hp
          · exact hl q hq
          · exact hrr q hq
    · left
      have hnew : Node.newOpt s' (Tree.node p l k v r).root = .ub := by
        show ((Node.new s' p).bind fun n => .ok (some n)) = _
        unfold Node.new
        rw [Slab.getUnchecked_eq, hp]; rfl
      rw [hnew]; rfl

end BST
