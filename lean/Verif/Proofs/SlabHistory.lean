import Verif.Proofs.Storage
/-!
# Histories of a slab
-/
set_option linter.unusedSimpArgs false
namespace BST
open Spec
variable {T : Type} {cfg : Cfg}

namespace Slab
variable {s : Slab T} {l : List (Ptr × T)}

/-- The slab holds the values `l` with their addresses (in any order). -/
structure Holds (s : Slab T) (l : List (Ptr × T)) : Prop where
  nodup : (l.map (·.1)).Nodup
  mem : ∀ p v, (p, v) ∈ l ↔ s.view p = some v

theorem Holds.live (h : s.Holds l) (p : Ptr) : (s.view p).isSome ↔ p ∈ l.map (·.1) := by
  constructor
  · intro hp
    obtain ⟨v, hv⟩ := Option.isSome_iff_exists.1 hp
    exact List.mem_map.2 ⟨(p, v), (h.mem p v).2 hv, rfl⟩
  · intro hp
    obtain ⟨e, he, rfl⟩ := List.mem_map.1 hp
    rw [(h.mem e.1 e.2).1 he]; rfl

theorem Holds.of_view {s' : Slab T} (h : s.Holds l) (hv : s'.view = s.view) : s'.Holds l :=
  ⟨h.nodup, fun p v => by rw [hv]; exact h.mem p v⟩

theorem Holds.vals (h : s.Holds l) : (l.map (·.1)).filterMap s.view = l.map (·.2) := by
  have : ∀ q : List (Ptr × T), (∀ e ∈ q, s.view e.1 = some e.2) →
      (q.map (·.1)).filterMap s.view = q.map (·.2) := by
    intro q hq
    induction q with
    | nil => rfl
    | cons e q ih => simp [hq e (by simp), ih fun e he => hq e (by simp [he])]
  exact this l fun e he => (h.mem e.1 e.2).1 he

theorem Holds.push (h : s.Holds l) {p : Ptr} {v : T} {s' : Slab T} (hf : s.view p = none)
    (hv : s'.view = upd s.view p (some v)) : p ∉ l.map (·.1) ∧ s'.Holds ((p, v) :: l) := by
  have hp : p ∉ l.map (·.1) := by rw [← h.live]; simp [hf]
  refine ⟨hp, by simp only [List.map_cons, List.nodup_cons]; exact ⟨hp, h.nodup⟩, fun q w => ?_⟩
  rw [hv]
  by_cases hq : q = p
  · subst hq
    simp only [upd_same, List.mem_cons, Prod.mk.injEq, true_and, Option.some.injEq]
    constructor
    · rintro (rfl | hm)
      · rfl
      · exact absurd (List.mem_map.2 ⟨_, hm, rfl⟩) hp
    · rintro rfl; exact .inl rfl
  · rw [upd_ne _ _ hq, ← h.mem]
    simp [hq]

theorem Holds.set {x y : List (Ptr × T)} {p : Ptr} {v w : T} (h : s.Holds (x ++ (p, v) :: y))
    {s' : Slab T} (hv : s'.view = upd s.view p (some w)) : s'.Holds (x ++ (p, w) :: y) := by
  have hn := h.nodup
  refine ⟨by simpa using hn, fun q u => ?_⟩
  rw [hv]
  simp only [List.map_append, List.map_cons, List.nodup_append, List.nodup_cons] at hn
  have hx : ∀ u, (p, u) ∉ x := fun u hu => hn.2.2 p (List.mem_map.2 ⟨_, hu, rfl⟩) p (by simp) rfl
  have hy : ∀ u, (p, u) ∉ y := fun u hu => hn.2.1.1 (List.mem_map.2 ⟨_, hu, rfl⟩)
  by_cases hq : q = p
  · subst hq
    simp [hx, hy, eq_comm]
  · rw [upd_ne _ _ hq, ← h.mem]
    simp [hq]

theorem Holds.remove {x y : List (Ptr × T)} {p : Ptr} {v : T} (h : s.Holds (x ++ (p, v) :: y))
    {s' : Slab T} (hv : s'.view = upd s.view p none) : s'.Holds (x ++ y) := by
  have hn := h.nodup
  refine ⟨?_, fun q u => ?_⟩
  · refine hn.sublist ?_
    simp
  rw [hv]
  simp only [List.map_append, List.map_cons, List.nodup_append, List.nodup_cons] at hn
  have hx : ∀ u, (p, u) ∉ x := fun u hu => hn.2.2 p (List.mem_map.2 ⟨_, hu, rfl⟩) p (by simp) rfl
  have hy : ∀ u, (p, u) ∉ y := fun u hu => hn.2.1.1 (List.mem_map.2 ⟨_, hu, rfl⟩)
  by_cases hq : q = p
  · subst hq
    simp [hx, hy]
  · rw [upd_ne _ _ hq, ← h.mem]
    simp [hq]

/-- Growing and shrinking. -/
theorem items_step {b : Arena (Entry T)} (hi : s.Inv cfg) (hb : b.Inv cfg)
    (hc : ∀ p, b.cell p = s.items.cell p) : ({ s with items := b } : Slab T).Inv cfg ∧
      ({ s with items := b } : Slab T).view = s.view :=
  let ⟨fr, hf⟩ := hi
  ⟨⟨fr, hf.of_cells hb hc⟩, view_of_cells hc⟩

theorem reserve_step (hi : s.Inv cfg) (n : Nat) : ∃ o b, Slab.reserve cfg n s = (o, { s with items := b }) ∧
    Arena.Grows cfg s.items b ∧ (o = .ok () ∨ Fails o) := by
  have hii : s.items.Inv cfg := hi.elim fun _ h => h.items
  obtain ⟨l, hl⟩ := hii.holds
  have hgrow : ∀ n, ∃ o b, Arena.growTo cfg n s.items = (o, b) ∧ Arena.Grows cfg s.items b ∧
      (o = .ok () ∨ Fails o) := by
    intro n
    obtain ⟨b, h1, ⟨h2, _⟩ | ⟨_, ⟨h2, _⟩ | ⟨h2, _⟩⟩⟩ := Arena.growTo_spec n hii
    · exact ⟨_, b, h2, h1, .inl rfl⟩
    · exact ⟨_, b, h2, h1, .inr (.inl rfl)⟩
    · exact ⟨_, b, h2, h1, .inr (.inr rfl)⟩
  have hres : ∃ o b, Arena.reserve cfg n s.items = (o, b) ∧ Arena.Grows cfg s.items b ∧
      (o = .ok () ∨ Fails o) := by
    unfold Arena.reserve
    simp only [M.get_bind, addU]
    by_cases h1 : s.items.len + n < usizeBound
    · simp only [h1, if_true, M.lift_ok_bind]; exact hgrow _
    · by_cases h2 : cfg.checks = true
      · simp only [h1, h2, if_false, if_true, M.lift_panic_bind]
        exact ⟨_, _, rfl, .refl hii, .inr (.inl rfl)⟩
      · simp only [h1, h2, if_false, M.lift_ok_bind]; exact hgrow _
  obtain ⟨o, b, h1, h2, h3⟩ := hres
  exact ⟨o, b, onItems_ok h1, h2, h3⟩

/-- One call on a slab. -/
theorem step (hi : s.Inv cfg) (h : s.Holds l) {d : DropInfo T} (hd : ∀ v, d.panics v = false)
    (op : SlabOp T) (hv : SlabValid l op) :
    ∃ o s' l', op.run cfg d s = (o, s') ∧ s'.Inv cfg ∧ s'.Holds l' ∧ SlabAnswer l o l' op ∧
      (d.needsDrop = true → (Spec.SlabOp.valuesIn op o ++ (l.map (·.2) ++ s.dropped)).Perm
        (Spec.SlabOp.valuesOut op o ++ (l'.map (·.2) ++ s'.dropped))) := by
  have hrefl : ∀ x : List T, x.Perm x := fun x => List.Perm.refl x
  have hii : s.items.Inv cfg := hi.elim fun _ h => h.items
  cases op with
  | push v =>
    rcases push_spec hi v with ⟨p, s', h1, h2⟩ | ⟨_, _, ⟨h1, _⟩ | ⟨h1, _⟩⟩
    · obtain ⟨h3, h4⟩ := h.push h2.fresh h2.view
      refine ⟨_, s', _, M.map_eq h1, h2.inv, h4, .inl ⟨p, rfl, h3, rfl⟩, fun _ => ?_⟩
      rw [h2.dropped]
      exact hrefl _
    · exact ⟨_, s, l, M.map_eq h1, hi, h, .inr ⟨.inl rfl, rfl⟩, fun _ => hrefl _⟩
    · exact ⟨_, s, l, M.map_eq h1, hi, h, .inr ⟨.inr rfl, rfl⟩, fun _ => hrefl _⟩
  | get p =>
    obtain ⟨e, he, rfl⟩ := List.mem_map.1 hv
    have hg := getUnchecked_ok ((h.mem e.1 e.2).1 he)
    refine ⟨.ok (.value e.2), s, l, ?_, hi, h, ⟨e.2, he, rfl, rfl⟩, fun _ => hrefl _⟩
    simp only [SlabOp.run, M.read_bind]
    rw [hg]; rfl
  | set p w =>
    obtain ⟨e, he, rfl⟩ := List.mem_map.1 hv
    have hview := (h.mem e.1 e.2).1 he
    have hg := getUnchecked_ok hview
    obtain ⟨s', h1, h2⟩ := update_spec hi hview fun _ => w
    obtain ⟨x, y, rfl⟩ := List.append_of_mem he
    refine ⟨.ok (.value e.2), s', x ++ (e.1, w) :: y, ?_, h2.inv, h.set h2.view,
      ⟨x, e.2, y, rfl, rfl, rfl⟩, fun _ => ?_⟩
    · simp only [SlabOp.run, M.read_bind]
      rw [hg, M.lift_ok_bind, M.bind_ok h1]; rfl
    · simp only [Spec.SlabOp.valuesIn, Spec.SlabOp.valuesOut, List.map_append, List.map_cons]
      rw [h2.dropped, ← List.append_assoc [w], ← List.append_assoc [e.2]]
      refine List.Perm.append_right _ ?_
      exact (List.perm_middle.cons w).trans ((List.Perm.swap _ _ _).trans
        (List.perm_middle.symm.cons e.2))
  | remove p =>
    obtain ⟨e, he, rfl⟩ := List.mem_map.1 hv
    have hview := (h.mem e.1 e.2).1 he
    obtain ⟨s', h1, h2⟩ := remove_spec hi hview
    obtain ⟨x, y, rfl⟩ := List.append_of_mem he
    refine ⟨.ok (.value e.2), s', x ++ y, M.map_eq h1, h2.inv, h.remove h2.view,
      ⟨x, e.2, y, rfl, rfl, rfl⟩, fun _ => ?_⟩
    simp only [Spec.SlabOp.valuesIn, Spec.SlabOp.valuesOut, List.map_append, List.map_cons,
      List.nil_append]
    rw [h2.dropped, ← List.append_assoc [e.2]]
    refine List.Perm.append_right _ ?_
    exact List.perm_middle
  | len =>
    refine ⟨.ok (.nat l.length), s, l, ?_, hi, h, ⟨rfl, rfl⟩, fun _ => hrefl _⟩
    have hl := hi.len_ok h.nodup h.live
    rw [List.length_map] at hl
    have hr : (M.read (fun s => s.len cfg) : M (Slab T) Nat) s = (.ok l.length, s) := by
      rw [M.read_apply, hl]
    exact M.map_eq hr
  | isEmpty =>
    refine ⟨.ok (.bool l.isEmpty), s, l, ?_, hi, h, ⟨rfl, rfl⟩, fun _ => hrefl _⟩
    have hl := hi.len_ok h.nodup h.live
    rw [List.length_map] at hl
    have hr : (M.read (fun s => s.isEmpty cfg) : M (Slab T) Bool) s = (.ok l.isEmpty, s) := by
      rw [M.read_apply, Slab.isEmpty, hl]
      cases l <;> rfl
    exact M.map_eq hr
  | capacity =>
    refine ⟨_, s, l, rfl, hi, h, ⟨⟨_, ?_, rfl⟩, rfl⟩, fun _ => hrefl _⟩
    have h1 := hi.len_eq h.nodup h.live
    have h2 := hii.lenle
    rw [List.length_map] at h1
    show l.length ≤ s.items.capacity
    omega
  | reserve n =>
    obtain ⟨o, b, h1, h2, h3⟩ := reserve_step hi n
    obtain ⟨h4, h5⟩ := items_step hi h2.inv h2.cell
    refine ⟨_, _, l, M.map_eq h1, h4, h.of_view h5, ⟨?_, rfl⟩, fun _ => hrefl _⟩
    rcases h3 with rfl | rfl | rfl
    · exact .inl rfl
    · exact .inr (.inl rfl)
    · exact .inr (.inr rfl)
  | shrinkToFit =>
    obtain ⟨b, h1, h2⟩ := Arena.shrinkToFit_spec hii
    obtain ⟨h4, h5⟩ := items_step hi h2.inv h2.cell
    exact ⟨_, _, l, M.map_eq (f := Slab.shrinkToFit cfg) (onItems_ok h1), h4, h.of_view h5,
      ⟨rfl, rfl⟩, fun _ => hrefl _⟩
  | clear =>
    rcases clear_spec (d := d) hi with ⟨s', h1, h2, _, h3⟩ | ⟨_, ⟨v, _, hv⟩, _⟩
    · refine ⟨_, s', [], M.map_eq h1, h2.inv, ⟨by simp, by simp [h2.view]⟩, ⟨rfl, rfl⟩, fun hn => ?_⟩
      rw [h3, if_pos hn]
      simp only [Spec.SlabOp.valuesIn, Spec.SlabOp.valuesOut, List.nil_append, List.map_nil]
      have := hi.liveVals_perm h.nodup h.live
      rw [h.vals] at this
      exact (List.Perm.append_right _ this.symm).trans List.perm_append_comm
    · rw [hd] at hv; cases hv

/-- Calls that break the contract have undefined behaviour. -/
theorem invalid_ub (hi : s.Inv cfg) (h : s.Holds l) (d : DropInfo T) (op : SlabOp T) (hv : ¬ SlabValid l op) :
    (op.run cfg d s).1 = .ub := by
  have hub : ∀ p, p ∉ l.map (·.1) → s.getUnchecked p = .ub := by
    intro p hp
    rw [getUnchecked_eq]
    have : s.view p = none := by
      rw [← h.live] at hp
      simpa using hp
    rw [this]
  cases op with
  | get p =>
    simp only [SlabOp.run, M.read_bind, hub p hv]
    rfl
  | set p w =>
    simp only [SlabOp.run, M.read_bind, hub p hv]
    rfl
  | remove p =>
    have hg := hub p hv
    unfold getUnchecked at hg
    simp only [SlabOp.run, Slab.remove, M.get_bind, M.read_bind, bind_assoc]
    cases hc : s.items.getUnchecked p with
    | ok e =>
      rw [hc] at hg
      simp only [M.lift_ok_bind]
      have hp : (s.items.cell p).isSome := by
        unfold Arena.getUnchecked at hc
        cases hcc : s.items.cell p with
        | none => rw [hcc] at hc; cases hc
        | some x => rfl
      rw [M.bind_ok (onItems_ok (Arena.setUnchecked_ok hp _))]
      simp only [M.modify_bind]
      have hasv : (Entry.asValue e : Out T) = .ub := hg
      have hlt : s.freeLen + 1 < usizeBound := by
        obtain ⟨fr, hf⟩ := hi
        have h1 := hf.frees_length
        have h2 := hf.flen
        have h3 := hf.items.lenle
        have h4 := hf.items.cap_lt
        unfold usizeBound
        omega
      rw [addU_ok cfg hlt, M.lift_ok_bind]
      simp only [M.modify_bind]
      rw [hasv, M.bind_apply, M.lift_apply]
    | ub => rfl
    | panic => rw [hc] at hg; cases hg
    | abort => rw [hc] at hg; cases hg
    | diverge => rw [hc] at hg; cases hg
  | _ => exact absurd trivial hv

theorem answer_after {l' : List (Ptr × T)} {o : Out (StoreRet T)} {op : SlabOp T}
    (hn : (l.map (·.1)).Nodup) (h : SlabAnswer l o l' op) : l' = Spec.SlabOp.after l op o := by
  cases op with
  | push v => rcases h with ⟨p, rfl, _, rfl⟩ | ⟨rfl | rfl, rfl⟩ <;> rfl
  | get p => obtain ⟨v, _, rfl, rfl⟩ := h; rfl
  | set p w =>
    obtain ⟨x, v, y, rfl, rfl, rfl⟩ := h
    exact (map_replace hn).symm
  | remove p =>
    obtain ⟨x, v, y, rfl, rfl, rfl⟩ := h
    exact (filter_remove hn).symm
  | len => obtain ⟨rfl, rfl⟩ := h; rfl
  | isEmpty => obtain ⟨rfl, rfl⟩ := h; rfl
  | capacity => obtain ⟨⟨_, _, rfl⟩, rfl⟩ := h; rfl
  | reserve _ => obtain ⟨rfl | rfl | rfl, rfl⟩ := h <;> rfl
  | shrinkToFit => obtain ⟨rfl, rfl⟩ := h; rfl
  | clear => obtain ⟨rfl, rfl⟩ := h; rfl

theorem answer_safe {l' : List (Ptr × T)} {o : Out (StoreRet T)} {op : SlabOp T}
    (h : SlabAnswer l o l' op) : o ≠ .ub ∧ o ≠ .diverge := by
  cases op with
  | push v => rcases h with ⟨p, rfl, _⟩ | ⟨rfl | rfl, _⟩ <;> exact ⟨by simp, by simp⟩
  | get p => obtain ⟨v, _, rfl, _⟩ := h; exact ⟨by simp, by simp⟩
  | set p w => obtain ⟨x, v, y, _, rfl, _⟩ := h; exact ⟨by simp, by simp⟩
  | remove p => obtain ⟨x, v, y, _, rfl, _⟩ := h; exact ⟨by simp, by simp⟩
  | len => obtain ⟨rfl, _⟩ := h; exact ⟨by simp, by simp⟩
  | isEmpty => obtain ⟨rfl, _⟩ := h; exact ⟨by simp, by simp⟩
  | capacity => obtain ⟨⟨_, _, rfl⟩, _⟩ := h; exact ⟨by simp, by simp⟩
  | reserve _ => obtain ⟨rfl | rfl | rfl, _⟩ := h <;> exact ⟨by simp, by simp⟩
  | shrinkToFit => obtain ⟨rfl, _⟩ := h; exact ⟨by simp, by simp⟩
  | clear => obtain ⟨rfl, _⟩ := h; exact ⟨by simp, by simp⟩

theorem Fresh.holds (h : Fresh cfg s) : s.Inv cfg ∧ s.Holds [] ∧ s.dropped = [] := by
  have hnew : (new : Slab T).Holds [] := ⟨by simp, fun p v => by simp [view_new]⟩
  rcases h with rfl | ⟨n, h⟩
  · exact ⟨inv_new cfg, hnew, rfl⟩
  · obtain ⟨b, h1, h2⟩ := Arena.growTo_spec (T := Entry T) (cfg := cfg) n (Arena.inv_new cfg)
    have hb : s = { (new : Slab T) with items := b } := by
      unfold withCapacity at h
      rcases h2 with ⟨h2, _⟩ | ⟨_, ⟨h2, _⟩ | ⟨h2, _⟩⟩
      · rw [onItems_ok (s := new) h2] at h; exact (Prod.mk.inj h).2.symm
      · rw [onItems_ok (s := new) h2] at h; cases h
      · rw [onItems_ok (s := new) h2] at h; cases h
    subst hb
    obtain ⟨h3, h4⟩ := items_step (inv_new cfg) h1.inv h1.cell
    exact ⟨h3, hnew.of_view h4, rfl⟩

theorem history_follows {d : DropInfo T} (hd : ∀ v, d.panics v = false) (hi : s.Inv cfg)
    (h : s.Holds l) (ops : List (SlabOp T)) :
    Follows SlabValid SlabAnswer ops (execute (SlabOp.run cfg d) ops s).1 l := by
  refine execute_follows (Ok := fun s l => s.Inv cfg ∧ s.Holds l)
    (fun _ _ _ _ h => answer_safe h) ?_ ops s l ⟨hi, h⟩
  rintro a l op ⟨hi, h⟩ hv
  obtain ⟨o, a', l', h1, h2, h3, h4, _⟩ := step hi h hd op hv
  exact ⟨o, a', l', h1, ⟨h2, h3⟩, h4⟩

theorem history_total {d : DropInfo T} (hd : ∀ v, d.panics v = false) (hn : d.needsDrop = true)
    (hi : s.Inv cfg) (h : s.Holds l) (ops : List (SlabOp T)) {os : List (Out (StoreRet T))}
    {s' : Slab T} (he : execute (SlabOp.run cfg d) ops s = (os, s')) (hub : ∀ o ∈ os, o ≠ .ub) :
    s'.Inv cfg ∧ s'.Holds (contents Spec.SlabOp.after ops os l) ∧
      (total Spec.SlabOp.valuesIn ops os ++ (l.map (·.2) ++ s.dropped)).Perm
        (total Spec.SlabOp.valuesOut ops os ++
          ((contents Spec.SlabOp.after ops os l).map (·.2) ++ s'.dropped)) := by
  have := execute_total (run := SlabOp.run cfg d) (Ok := fun s l => s.Inv cfg ∧ s.Holds l)
    (valid := SlabValid) (vin := Spec.SlabOp.valuesIn) (vout := Spec.SlabOp.valuesOut)
    (bal := fun s l => l.map (·.2) ++ s.dropped) (after := Spec.SlabOp.after)
    (fun a l op h hv => invalid_ub h.1 h.2 d op hv) (fun a l op h hv => by
      obtain ⟨o, a', l', h1, h2, h3, h4, h5⟩ := step h.1 h.2 hd op hv
      have := answer_after h.2.nodup h4
      subst this
      exact ⟨o, a', h1, ⟨h2, h3⟩, h5 hn⟩) ops s l ⟨hi, h⟩
  rw [he] at this
  obtain ⟨⟨h1, h2⟩, h3⟩ := this hub
  exact ⟨h1, h2, h3⟩

theorem history_holds {d : DropInfo T} (hd : ∀ v, d.panics v = false)
    (hi : s.Inv cfg) (h : s.Holds l) (ops : List (SlabOp T)) {os : List (Out (StoreRet T))}
    {s' : Slab T} (he : execute (SlabOp.run cfg d) ops s = (os, s')) (hub : ∀ o ∈ os, o ≠ .ub) :
    s'.Inv cfg ∧ s'.Holds (contents Spec.SlabOp.after ops os l) := by
  have := execute_total (run := SlabOp.run cfg d) (Ok := fun s l => s.Inv cfg ∧ s.Holds l)
    (α := Unit) (valid := SlabValid) (vin := fun _ _ => []) (vout := fun _ _ => [])
    (bal := fun s l => []) (after := Spec.SlabOp.after)
    (fun a l op h hv => invalid_ub h.1 h.2 d op hv) (fun a l op h hv => by
      obtain ⟨o, a', l', h1, h2, h3, h4, h5⟩ := step h.1 h.2 hd op hv
      have := answer_after h.2.nodup h4
      subst this
      exact ⟨o, a', h1, ⟨h2, h3⟩, List.Perm.refl _⟩) ops s l ⟨hi, h⟩
  rw [he] at this
  exact (this hub).1

theorem history_safe {d : DropInfo T} (hd : ∀ v, d.panics v = false)
    (hi : s.Inv cfg) (h : s.Holds l) (ops : List (SlabOp T)) {os : List (Out (StoreRet T))}
    {s' : Slab T} (he : execute (SlabOp.run cfg d) ops s = (os, s'))
    (hob : Obeys SlabValid Spec.SlabOp.after ops os l) : ∀ o ∈ os, o ≠ .ub := by
  have := execute_obeys (run := SlabOp.run cfg d) (Ok := fun s l => s.Inv cfg ∧ s.Holds l)
    (valid := SlabValid) (after := Spec.SlabOp.after) (fun a l op h hv => by
      obtain ⟨o, a', l', h1, h2, h3, h4, h5⟩ := step h.1 h.2 hd op hv
      have h6 := answer_safe h4
      have := answer_after h.2.nodup h4
      subst this
      exact ⟨o, a', h1, ⟨h2, h3⟩, h6.1⟩) ops s l ⟨hi, h⟩
  rw [he] at this
  exact this hob

end Slab
end BST
