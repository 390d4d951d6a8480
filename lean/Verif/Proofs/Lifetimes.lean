import Verif.Model.Lifetimes
/-!
# Subtyping and the drop check: the derived facts
-/
namespace BST.Lifetimes
open Spec (Order)
variable {d : Decls} {out : Life → Life → Prop}

/-! ## Subtyping -/

theorem Arg.Rel.mono {S S' : Ty → Ty → Prop} (h : ∀ t u, S t u → S' t u) {x y : Arg}
    (hd : x.Rel out S y) : x.Rel out S' y := by
  cases x <;> cases y <;> first
    | exact hd
    | exact h _ _ hd
    | exact ⟨h _ _ hd.1, h _ _ hd.2⟩

theorem AllRel.mono {S S' : Ty → Ty → Prop} (h : ∀ t u, S t u → S' t u) :
    ∀ {xs ys : List Arg}, AllRel out S xs ys → AllRel out S' xs ys
  | [], [], _ => trivial
  | _ :: _, _ :: _, hd => ⟨hd.1.mono h, AllRel.mono h hd.2⟩

theorem Derives.mono {S S' : Ty → Ty → Prop} (h : ∀ t u, S t u → S' t u) {t u : Ty}
    (hd : Derives d out S t u) : Derives d out S' t u := ⟨hd.1, hd.2.mono h⟩

/-- The subtypings are exactly those that can be derived from subtypings. -/
theorem sub_iff (d : Decls) (out : Life → Life → Prop) (t u : Ty) :
    Sub d out t u ↔ Derives d out (Sub d out) t u := by
  have fwd : ∀ t u, Sub d out t u → Derives d out (Sub d out) t u := by
    rintro t u ⟨S, h1, h2⟩
    exact (h1 _ _ h2).mono fun t u h => ⟨S, h1, h⟩
  exact ⟨fwd t u, fun h => ⟨Derives d out (Sub d out), fun t u h => h.mono fwd, h⟩⟩

theorem AllRel.refl (ho : ∀ a, out a a) {S : Ty → Ty → Prop} (h : ∀ t, S t t) :
    ∀ xs : List Arg, AllRel out S xs xs
  | [] => trivial
  | .life a :: xs => ⟨ho a, AllRel.refl ho h xs⟩
  | .co t :: xs => ⟨h t, AllRel.refl ho h xs⟩
  | .inv t :: xs => ⟨⟨h t, h t⟩, AllRel.refl ho h xs⟩

theorem sub_refl (ho : ∀ a, out a a) (t : Ty) : Sub d out t t :=
  ⟨Eq, by rintro t _ rfl; exact ⟨rfl, AllRel.refl ho (fun _ => rfl) _⟩, rfl⟩

theorem AllRel.trans (ho : ∀ a b c, out a b → out b c → out a c) {S : Ty → Ty → Prop} :
    ∀ {xs ys zs : List Arg}, AllRel out S xs ys → AllRel out S ys zs →
      AllRel out (fun t u => ∃ w, S t w ∧ S w u) xs zs
  | [], [], [], _, _ => trivial
  | x :: _, y :: _, z :: _, h, g => by
      refine ⟨?_, AllRel.trans ho h.2 g.2⟩
      have h1 := h.1
      have g1 := g.1
      cases x <;> cases y <;> cases z <;> first
        | exact ho _ _ _ h1 g1
        | exact h1.elim
        | exact g1.elim
        | exact ⟨⟨_, h1.1, g1.1⟩, ⟨_, g1.2, h1.2⟩⟩
        | exact ⟨_, h1, g1⟩

theorem sub_trans (ho : ∀ a b c, out a b → out b c → out a c) {t u w : Ty}
    (h : Sub d out t u) (g : Sub d out u w) : Sub d out t w := by
  refine ⟨fun t u => ∃ w, Sub d out t w ∧ Sub d out w u, ?_, _, h, g⟩
  rintro t u ⟨w, h, g⟩
  have h := (sub_iff ..).1 h
  have g := (sub_iff ..).1 g
  exact ⟨h.1.trans g.1, h.2.trans ho g.2⟩

section
variable {t u k v k' v' : Ty} {a b : Life} {o : Order}

theorem sub_plain : Sub d out .plain .plain := by
  rw [sub_iff]; simp [Derives, args, fields, AllRel]
theorem sub_ptr : Sub d out .ptr .ptr := by
  rw [sub_iff]; simp only [Derives, args, fields, AllRel, List.map, Arg.Rel, and_true, true_and]
  rw [sub_iff]; simp [Derives, args, AllRel, Arg.Rel, sub_plain]
theorem sub_strategy : Sub d out .strategy .strategy := by
  rw [sub_iff]; simp [Derives, args, fields, AllRel, Arg.Rel, sub_plain]
theorem sub_ref : Sub d out (.ref a t) (.ref b u) ↔ out a b ∧ Sub d out t u := by
  rw [sub_iff]; simp [Derives, head, args, AllRel, Arg.Rel]
theorem sub_refMut :
    Sub d out (.refMut a t) (.refMut b u) ↔ out a b ∧ Sub d out t u ∧ Sub d out u t := by
  rw [sub_iff]; simp [Derives, head, args, AllRel, Arg.Rel]
theorem sub_rawMut :
    Sub d out (.rawMut t) (.rawMut u) ↔ Sub d out t u ∧ Sub d out u t := by
  rw [sub_iff]; simp [Derives, head, args, AllRel, Arg.Rel]
theorem sub_cell : Sub d out (.cell t) (.cell u) ↔ Sub d out t u ∧ Sub d out u t := by
  rw [sub_iff]; simp [Derives, head, args, AllRel, Arg.Rel]
theorem sub_nonNull : Sub d out (.nonNull t) (.nonNull u) ↔ Sub d out t u := by
  rw [sub_iff]; simp [Derives, head, args, AllRel, Arg.Rel]
theorem sub_vec : Sub d out (.vec t) (.vec u) ↔ Sub d out t u := by
  rw [sub_iff]; simp [Derives, head, args, AllRel, Arg.Rel]
theorem sub_opt : Sub d out (.opt t) (.opt u) ↔ Sub d out t u := by
  rw [sub_iff]; simp [Derives, head, args, AllRel, Arg.Rel]
theorem sub_box : Sub d out (.box t) (.box u) ↔ Sub d out t u := by
  rw [sub_iff]; simp [Derives, head, args, AllRel, Arg.Rel]
theorem sub_phantom : Sub d out (.phantom t) (.phantom u) ↔ Sub d out t u := by
  rw [sub_iff]; simp [Derives, head, args, AllRel, Arg.Rel]
theorem sub_manuallyDrop : Sub d out (.manuallyDrop t) (.manuallyDrop u) ↔ Sub d out t u := by
  rw [sub_iff]; simp [Derives, head, args, AllRel, Arg.Rel]
theorem sub_maybeUninit : Sub d out (.maybeUninit t) (.maybeUninit u) ↔ Sub d out t u := by
  rw [sub_iff]; simp [Derives, head, args, AllRel, Arg.Rel]

theorem sub_arena : Sub d out (.arena t) (.arena u) ↔ Sub d out t u := by
  rw [sub_iff]
  cases hm : d.marker <;> simp [Derives, head, args, fields, AllRel, Arg.Rel, hm, sub_vec,
    sub_nonNull, sub_maybeUninit, sub_plain, sub_strategy, sub_phantom]

theorem sub_freeEntry : Sub d out .freeEntry .freeEntry := by
  rw [sub_iff]; simp [Derives, args, fields, AllRel, Arg.Rel, sub_opt, sub_ptr]

theorem sub_entry : Sub d out (.entry t) (.entry u) ↔ Sub d out t u := by
  rw [sub_iff]
  simp [Derives, head, args, fields, AllRel, Arg.Rel, sub_manuallyDrop, sub_freeEntry]

theorem sub_slab : Sub d out (.slab t) (.slab u) ↔ Sub d out t u := by
  rw [sub_iff]
  cases hm : d.marker <;> simp [Derives, head, args, fields, AllRel, Arg.Rel, hm, sub_arena,
    sub_entry, sub_opt, sub_ptr, sub_plain, sub_phantom]

theorem sub_innerNode : Sub d out (.innerNode k v) (.innerNode k' v') ↔
    Sub d out k k' ∧ Sub d out v v' := by
  rw [sub_iff]; simp [Derives, head, args, fields, AllRel, Arg.Rel, sub_opt, sub_ptr]

theorem sub_map : Sub d out (.map k v) (.map k' v') ↔ Sub d out k k' ∧ Sub d out v v' := by
  rw [sub_iff]
  simp [Derives, head, args, fields, AllRel, Arg.Rel, sub_opt, sub_ptr, sub_slab, sub_innerNode]

theorem sub_node : Sub d out (.node a k v) (.node b k' v') ↔
    out a b ∧ Sub d out k k' ∧ Sub d out v v' := by
  rw [sub_iff]
  simp [Derives, head, args, fields, AllRel, Arg.Rel, sub_ref, sub_slab, sub_innerNode]

theorem sub_iter : Sub d out (.iter o a k v) (.iter o b k' v') ↔
    out a b ∧ Sub d out k k' ∧ Sub d out v v' := by
  rw [sub_iff]
  simp [Derives, head, args, fields, AllRel, Arg.Rel, sub_ref, sub_slab, sub_innerNode, sub_vec,
    sub_ptr]

theorem sub_nodeMut : Sub d out (.nodeMut a k v) (.nodeMut b k' v') ↔
    out a b ∧ (Sub d out k k' ∧ Sub d out k' k) ∧ Sub d out v v' ∧ Sub d out v' v := by
  rw [sub_iff]
  simp only [Derives, head, args, fields, AllRel, Arg.Rel, sub_refMut, sub_rawMut, sub_slab,
    sub_innerNode, List.map]
  exact ⟨fun ⟨_, _, ⟨h1, h2, h3⟩, _⟩ => ⟨h1, ⟨h2.1, h3.1⟩, h2.2, h3.2⟩,
    fun ⟨h1, h2, h3⟩ => ⟨trivial, ⟨⟨h2.1, h3.1⟩, h2.2, h3.2⟩, ⟨h1, ⟨h2.1, h3.1⟩, h2.2, h3.2⟩, trivial⟩⟩

theorem sub_iterMut : Sub d out (.iterMut o a k v) (.iterMut o b k' v') ↔
    out a b ∧ (Sub d out k k' ∧ Sub d out k' k) ∧ Sub d out v v' ∧ Sub d out v' v := by
  rw [sub_iff]
  simp only [Derives, head, args, fields, AllRel, Arg.Rel, sub_refMut, sub_rawMut, sub_slab,
    sub_innerNode, List.map, sub_vec, sub_phantom]
  exact ⟨fun ⟨_, _, _, ⟨h1, h2, h3⟩, _⟩ => ⟨h1, ⟨h2.1, h3.1⟩, h2.2, h3.2⟩,
    fun ⟨h1, h2, h3⟩ => ⟨trivial, ⟨⟨h2.1, h3.1⟩, h2.2, h3.2⟩, sub_ptr,
      ⟨h1, ⟨h2.1, h3.1⟩, h2.2, h3.2⟩, trivial⟩⟩

theorem sub_set : Sub d out (.set t) (.set u) ↔ Sub d out t u := by
  rw [sub_iff]; simp [Derives, head, args, fields, AllRel, Arg.Rel, sub_map, sub_plain]

theorem sub_setNode : Sub d out (.setNode a t) (.setNode b u) ↔ out a b ∧ Sub d out t u := by
  rw [sub_iff]; simp [Derives, head, args, fields, AllRel, Arg.Rel, sub_node, sub_plain]

theorem sub_setIter :
    Sub d out (.setIter o a t) (.setIter o b u) ↔ out a b ∧ Sub d out t u := by
  rw [sub_iff]; simp [Derives, head, args, fields, AllRel, Arg.Rel, sub_iter, sub_plain]

/-- Here the cycle matters: a node contains boxes of nodes. -/
theorem sub_simpleNode : Sub d out (.simpleNode k v) (.simpleNode k' v') ↔
    Sub d out k k' ∧ Sub d out v v' := by
  constructor
  · intro h
    rw [sub_iff] at h
    simp only [Derives, args, fields, AllRel, Arg.Rel, List.map] at h
    exact ⟨h.2.1, h.2.2.1⟩
  · rintro ⟨hk, hv⟩
    refine ⟨fun t u => Sub d out t u ∨ (t = .simpleNode k v ∧ u = .simpleNode k' v') ∨
      (t = .box (.simpleNode k v) ∧ u = .box (.simpleNode k' v')) ∨
      (t = .opt (.box (.simpleNode k v)) ∧ u = .opt (.box (.simpleNode k' v'))), ?_,
      .inr (.inl ⟨rfl, rfl⟩)⟩
    rintro t u (h | ⟨rfl, rfl⟩ | ⟨rfl, rfl⟩ | ⟨rfl, rfl⟩)
    · exact ((sub_iff ..).1 h).mono fun _ _ => .inl
    · exact ⟨rfl, .inl hk, .inl hv, .inr (.inr (.inr ⟨rfl, rfl⟩)),
        .inr (.inr (.inr ⟨rfl, rfl⟩)), trivial⟩
    · exact ⟨rfl, .inr (.inl ⟨rfl, rfl⟩), trivial⟩
    · exact ⟨rfl, .inr (.inr (.inl ⟨rfl, rfl⟩)), trivial⟩

theorem sub_simpleMap : Sub d out (.simpleMap k v) (.simpleMap k' v') ↔
    Sub d out k k' ∧ Sub d out v v' := by
  rw [sub_iff]
  simp [Derives, head, args, fields, AllRel, Arg.Rel, sub_opt, sub_simpleNode, sub_plain]

theorem sub_simpleIter : Sub d out (.simpleIter o a k v) (.simpleIter o b k' v') ↔
    out a b ∧ Sub d out k k' ∧ Sub d out v v' := by
  rw [sub_iff]
  simp [Derives, head, args, fields, AllRel, Arg.Rel, sub_vec, sub_ref, sub_simpleNode]

theorem sub_simpleSet : Sub d out (.simpleSet t) (.simpleSet u) ↔ Sub d out t u := by
  rw [sub_iff]; simp [Derives, head, args, fields, AllRel, Arg.Rel, sub_simpleMap, sub_plain]

theorem sub_simpleSetNode :
    Sub d out (.simpleSetNode a t) (.simpleSetNode b u) ↔ out a b ∧ Sub d out t u := by
  rw [sub_iff]
  simp [Derives, head, args, fields, AllRel, Arg.Rel, sub_ref, sub_simpleNode, sub_plain]

theorem sub_simpleSetIter :
    Sub d out (.simpleSetIter o a t) (.simpleSetIter o b u) ↔ out a b ∧ Sub d out t u := by
  rw [sub_iff]; simp [Derives, head, args, fields, AllRel, Arg.Rel, sub_simpleIter, sub_plain]

/-- A subtype has the same constructor. -/
theorem sub_head (h : Sub d out t u) : head t = head u := ((sub_iff ..).1 h).1

theorem args_decls (d d' : Decls) (t : Ty) :
    (∃ t', t = .arena t') ∨ (∃ t', t = .slab t') ∨
      (args d t = args d' t ∧ head t ≠ .arena .plain ∧ head t ≠ .slab .plain) := by
  cases t <;> simp [args, fields, head]

/-- Subtyping does not depend on the details of the declarations. -/
theorem sub_decls (d d' : Decls) (h : Sub d out t u) : Sub d' out t u := by
  refine ⟨Sub d out, ?_, h⟩
  intro t u h
  have hh := sub_head h
  rcases args_decls d d' t with ⟨t', rfl⟩ | ⟨t', rfl⟩ | ⟨ht, hn⟩
  · rcases args_decls d d' u with ⟨u', rfl⟩ | ⟨u', rfl⟩ | ⟨_, hn⟩
    · have h := sub_arena.1 h
      cases hm : d'.marker <;> simp [Derives, head, args, fields, AllRel, Arg.Rel, hm, sub_vec,
        sub_nonNull, sub_maybeUninit, sub_plain, sub_strategy, sub_phantom, h]
    · simp [head] at hh
    · exact absurd hh.symm hn.1
  · rcases args_decls d d' u with ⟨u', rfl⟩ | ⟨u', rfl⟩ | ⟨_, hn⟩
    · simp [head] at hh
    · have h := sub_slab.1 h
      cases hm : d'.marker <;> simp [Derives, head, args, fields, AllRel, Arg.Rel, hm, sub_arena,
        sub_entry, sub_opt, sub_ptr, sub_plain, sub_phantom, h]
    · exact absurd hh.symm hn.2
  · rcases args_decls d d' u with ⟨u', rfl⟩ | ⟨u', rfl⟩ | ⟨hu, _⟩
    · exact absurd hh hn.1
    · exact absurd hh hn.2
    · have h := (sub_iff ..).1 h
      exact ⟨hh, ht ▸ hu ▸ h.2⟩

end

/-! ## The drop check -/

section
variable {t u k v : Ty} {x : Atom} {a : Life} {o : Order}

theorem needs_iff : NeedsAlive d t x ↔
    (∃ i, t = .param i ∧ x = .param i) ∨
    (hasDrop t = true ∧ d.mayDangle = false ∧ x ∈ mentions t) ∨
    ∃ u ∈ owned d t, NeedsAlive d u x := by
  constructor
  · rintro (_ | ⟨_, _, h⟩ | ⟨_, _, _, h⟩)
    · exact .inl ⟨_, rfl, rfl⟩
    · exact .inr (.inl ⟨h, by assumption, by assumption⟩)
    · exact .inr (.inr ⟨_, h, by assumption⟩)
  · rintro (⟨i, rfl, rfl⟩ | ⟨h1, h2, h3⟩ | ⟨u, h1, h2⟩)
    · exact .param i
    · exact .drop t x h1 h2 h3
    · exact .owned t u x h1 h2

theorem needs_param {i : Nat} : NeedsAlive d (.param i) x ↔ x = .param i := by
  rw [needs_iff]; simp [hasDrop, owned, fields]
theorem needs_plain : ¬ NeedsAlive d .plain x := by
  rw [needs_iff]; simp [hasDrop, owned, fields]
theorem needs_ref : ¬ NeedsAlive d (.ref a t) x := by
  rw [needs_iff]; simp [hasDrop, owned, fields]
theorem needs_refMut : ¬ NeedsAlive d (.refMut a t) x := by
  rw [needs_iff]; simp [hasDrop, owned, fields]
theorem needs_rawMut : ¬ NeedsAlive d (.rawMut t) x := by
  rw [needs_iff]; simp [hasDrop, owned, fields]
theorem needs_nonNull : ¬ NeedsAlive d (.nonNull t) x := by
  rw [needs_iff]; simp [hasDrop, owned, fields]
theorem needs_manuallyDrop : ¬ NeedsAlive d (.manuallyDrop t) x := by
  rw [needs_iff]; simp [hasDrop, owned, fields]
theorem needs_vec : NeedsAlive d (.vec t) x ↔ NeedsAlive d t x := by
  rw [needs_iff]; simp [hasDrop, owned]
theorem needs_opt : NeedsAlive d (.opt t) x ↔ NeedsAlive d t x := by
  rw [needs_iff]; simp [hasDrop, owned]
theorem needs_box : NeedsAlive d (.box t) x ↔ NeedsAlive d t x := by
  rw [needs_iff]; simp [hasDrop, owned]
theorem needs_cell : NeedsAlive d (.cell t) x ↔ NeedsAlive d t x := by
  rw [needs_iff]; simp [hasDrop, owned]
theorem needs_phantom : NeedsAlive d (.phantom t) x ↔ NeedsAlive d t x := by
  rw [needs_iff]; simp [hasDrop, owned]
theorem needs_ptr : ¬ NeedsAlive d .ptr x := by
  rw [needs_iff]; simp [hasDrop, owned, fields, needs_nonNull]
theorem needs_strategy : ¬ NeedsAlive d .strategy x := by
  rw [needs_iff]; simp [hasDrop, owned, fields, needs_plain]
theorem needs_freeEntry : ¬ NeedsAlive d .freeEntry x := by
  rw [needs_iff]; simp [hasDrop, owned, fields, needs_opt, needs_ptr]
theorem needs_entry : ¬ NeedsAlive d (.entry t) x := by
  rw [needs_iff]; simp [hasDrop, owned, fields, needs_manuallyDrop, needs_freeEntry]

/-- What must be alive is mentioned. -/
theorem needs_mentions (h : NeedsAlive d t x) : x ∈ mentions t := by
  induction h with
  | param i => simp [mentions]
  | drop t x _ _ h => exact h
  | owned t u x hu _ ih =>
    cases t <;> cases hm : d.marker <;> simp [owned, fields, hm] at hu <;>
      (try rcases hu with rfl | rfl | rfl | rfl | rfl) <;>
      (try rcases hu with rfl | rfl | rfl | rfl) <;>
      (try rcases hu with rfl | rfl | rfl) <;>
      (try rcases hu with rfl | rfl) <;>
      (try subst hu) <;> simp_all [mentions] <;> try omega

theorem needs_arena : NeedsAlive d (.arena t) x ↔
    (d.mayDangle = false ∧ x ∈ mentions t) ∨ (d.marker = true ∧ NeedsAlive d t x) := by
  rw [needs_iff]
  cases hm : d.marker <;> simp [hasDrop, owned, fields, mentions, hm, needs_vec, needs_nonNull,
    needs_plain, needs_strategy, needs_phantom]

theorem needs_slab : NeedsAlive d (.slab t) x ↔
    (d.mayDangle = false ∧ x ∈ mentions t) ∨ (d.marker = true ∧ NeedsAlive d t x) := by
  rw [needs_iff]
  cases hm : d.marker <;> simp [hasDrop, owned, fields, mentions, hm, needs_arena, needs_entry,
    needs_opt, needs_ptr, needs_plain, needs_phantom]

theorem needs_innerNode :
    NeedsAlive d (.innerNode k v) x ↔ NeedsAlive d k x ∨ NeedsAlive d v x := by
  rw [needs_iff]; simp [hasDrop, owned, fields, needs_opt, needs_ptr]

theorem needs_map : NeedsAlive d (.map k v) x ↔
    (d.mayDangle = false ∧ (x ∈ mentions k ∨ x ∈ mentions v)) ∨
    (d.marker = true ∧ (NeedsAlive d k x ∨ NeedsAlive d v x)) := by
  rw [needs_iff]
  simp [hasDrop, owned, fields, mentions, needs_slab, needs_innerNode, needs_opt, needs_ptr]

theorem needs_set : NeedsAlive d (.set t) x ↔
    (d.mayDangle = false ∧ x ∈ mentions t) ∨ (d.marker = true ∧ NeedsAlive d t x) := by
  rw [needs_iff]
  simp [hasDrop, owned, fields, mentions, needs_map, needs_plain]

theorem needs_simpleNode :
    NeedsAlive d (.simpleNode k v) x ↔ NeedsAlive d k x ∨ NeedsAlive d v x := by
  constructor
  · suffices h : ∀ t, NeedsAlive d t x → (t = .simpleNode k v ∨ t = .box (.simpleNode k v) ∨
        t = .opt (.box (.simpleNode k v))) → NeedsAlive d k x ∨ NeedsAlive d v x from
      fun h' => h _ h' (.inl rfl)
    intro t h
    induction h with
    | param i => simp
    | drop t x hd _ _ => rintro (rfl | rfl | rfl) <;> simp [hasDrop] at hd
    | owned t u x hu hn ih =>
      rintro (rfl | rfl | rfl)
      · simp [owned, fields] at hu
        rcases hu with rfl | rfl | rfl
        · exact .inl hn
        · exact .inr hn
        · exact ih (.inr (.inr rfl))
      · simp [owned] at hu
        exact ih (.inl hu)
      · simp [owned] at hu
        exact ih (.inr (.inl hu))
  · rintro (h | h)
    · exact .owned _ k x (by simp [owned, fields]) h
    · exact .owned _ v x (by simp [owned, fields]) h

theorem needs_simpleMap :
    NeedsAlive d (.simpleMap k v) x ↔ NeedsAlive d k x ∨ NeedsAlive d v x := by
  rw [needs_iff]; simp [hasDrop, owned, fields, needs_opt, needs_simpleNode, needs_plain]

theorem needs_simpleSet : NeedsAlive d (.simpleSet t) x ↔ NeedsAlive d t x := by
  rw [needs_iff]; simp [hasDrop, owned, fields, needs_simpleMap, needs_plain]

theorem needs_node : ¬ NeedsAlive d (.node a k v) x := by
  rw [needs_iff]; simp [hasDrop, owned, fields, needs_ref]
theorem needs_nodeMut : ¬ NeedsAlive d (.nodeMut a k v) x := by
  rw [needs_iff]; simp [hasDrop, owned, fields, needs_refMut, needs_rawMut]
theorem needs_iter : ¬ NeedsAlive d (.iter o a k v) x := by
  rw [needs_iff]; simp [hasDrop, owned, fields, needs_ref, needs_vec, needs_ptr]
theorem needs_iterMut : ¬ NeedsAlive d (.iterMut o a k v) x := by
  rw [needs_iff]
  simp [hasDrop, owned, fields, needs_rawMut, needs_vec, needs_ptr, needs_phantom, needs_refMut]
theorem needs_setNode : ¬ NeedsAlive d (.setNode a t) x := by
  rw [needs_iff]; simp [hasDrop, owned, fields, needs_node]
theorem needs_setIter : ¬ NeedsAlive d (.setIter o a t) x := by
  rw [needs_iff]; simp [hasDrop, owned, fields, needs_iter]
theorem needs_simpleIter : ¬ NeedsAlive d (.simpleIter o a k v) x := by
  rw [needs_iff]; simp [hasDrop, owned, fields, needs_ref, needs_vec]
theorem needs_simpleSetNode : ¬ NeedsAlive d (.simpleSetNode a t) x := by
  rw [needs_iff]; simp [hasDrop, owned, fields, needs_ref]
theorem needs_simpleSetIter : ¬ NeedsAlive d (.simpleSetIter o a t) x := by
  rw [needs_iff]; simp [hasDrop, owned, fields, needs_simpleIter]
end
end BST.Lifetimes
