import Verif.Related
/-!
# Lemmas about related programs: monads, lists, arenas, slabs
-/
namespace BST
open Spec

variable {α α' β β' γ γ' σ σ' τ τ' : Type}

/-! ### Lists and options -/
namespace Spec

theorem OptRel.join {R : α → α' → Prop} {o : Option (Option α)} {o' : Option (Option α')}
    (h : OptRel (OptRel R) o o') : OptRel R o.join o'.join := by
  cases h with
  | none => exact .none
  | some h => exact h

theorem OptRel.toList {R : α → α' → Prop} {o : Option α} {o' : Option α'} (h : OptRel R o o') :
    ListRel R o.toList o'.toList := by
  cases h with
  | none => exact .nil
  | some h => exact .cons h .nil

theorem OptRel.map {R : α → α' → Prop} {S : β → β' → Prop} {f : α → β} {f' : α' → β'} {o : Option α}
    {o' : Option α'} (h : OptRel R o o') (hf : ∀ a a', R a a' → S (f a) (f' a')) :
    OptRel S (o.map f) (o'.map f') := by
  cases h with
  | none => exact .none
  | some h => exact .some (hf _ _ h)

namespace ListRel
variable {R : α → α' → Prop} {S : β → β' → Prop} {l : List α} {l' : List α'}

theorem length (h : ListRel R l l') : l.length = l'.length := by
  induction h with
  | nil => rfl
  | cons _ _ ih => simp [ih]

theorem append {k : List α} {k' : List α'} (h : ListRel R l l') (hk : ListRel R k k') :
    ListRel R (l ++ k) (l' ++ k') := by
  induction h with
  | nil => exact hk
  | cons h _ ih => exact .cons h ih

theorem map {f : α → β} {f' : α' → β'} (h : ListRel R l l') (hf : ∀ a a', R a a' → S (f a) (f' a')) :
    ListRel S (l.map f) (l'.map f') := by
  induction h with
  | nil => exact .nil
  | cons h _ ih => exact .cons (hf _ _ h) ih

theorem getElem? (h : ListRel R l l') (i : Nat) : OptRel R l[i]? l'[i]? := by
  induction h generalizing i with
  | nil => simp; exact .none
  | cons h _ ih =>
    cases i with
    | zero => simp; exact .some h
    | succ i => simp; exact ih i

theorem find? {p : α → Bool} {p' : α' → Bool} (h : ListRel R l l') (hp : ∀ a a', R a a' → p a = p' a') :
    OptRel R (l.find? p) (l'.find? p') := by
  induction h with
  | nil => exact .none
  | cons h _ ih =>
    rw [List.find?_cons, List.find?_cons, hp _ _ h]
    split
    · exact .some h
    · exact ih

theorem set {a : α} {a' : α'} (h : ListRel R l l') (ha : R a a') (i : Nat) :
    ListRel R (l.set i a) (l'.set i a') := by
  induction h generalizing i with
  | nil => exact .nil
  | cons h hl ih =>
    cases i with
    | zero => exact .cons ha hl
    | succ i => exact .cons h (ih i)

theorem dropLast (h : ListRel R l l') : ListRel R l.dropLast l'.dropLast := by
  induction h with
  | nil => exact .nil
  | cons h hl ih =>
    cases hl with
    | nil => exact .nil
    | cons h2 hl => exact .cons h ih

theorem getLast? (h : ListRel R l l') : OptRel R l.getLast? l'.getLast? := by
  rw [List.getLast?_eq_getElem?, List.getLast?_eq_getElem?, h.length]
  exact h.getElem? _

theorem replicate {a : α} {a' : α'} (ha : R a a') (n : Nat) :
    ListRel R (List.replicate n a) (List.replicate n a') := by
  induction n with
  | zero => exact .nil
  | succ n ih => exact .cons ha ih

theorem eq_iff {k : List α} : ListRel Eq l k ↔ l = k := by
  constructor
  · intro h
    induction h with
    | nil => rfl
    | cons h _ ih => rw [h, ih]
  · rintro rfl
    induction l with
    | nil => exact .nil
    | cons a l ih => exact .cons rfl ih

end ListRel

/-! ### Outcomes -/
namespace OutRel
variable {R : α → α' → Prop} {S : β → β' → Prop}

theorem of_eq {o o' : Out α} (h : o = o') : OutRel Eq o o' := by
  subst h; cases o <;> constructor; rfl

theorem bind {o : Out α} {o' : Out α'} {f : α → Out β} {f' : α' → Out β'} (h : OutRel R o o')
    (hf : ∀ a a', R a a' → OutRel S (f a) (f' a')) : OutRel S (o >>= f) (o' >>= f') := by
  cases h with
  | ok h => exact hf _ _ h
  | _ => constructor

theorem pure {a : α} {a' : α'} (h : R a a') : OutRel R (Pure.pure a) (Pure.pure a') := .ok h

end OutRel

/-- Both continue with related loop variables, or both stop with related results. -/
inductive SumRel (R : α → α' → Prop) (S : β → β' → Prop) : α ⊕ β → α' ⊕ β' → Prop where
  | inl {a a'} : R a a' → SumRel R S (.inl a) (.inl a')
  | inr {b b'} : S b b' → SumRel R S (.inr b) (.inr b')

theorem OutRel.loop {R : α → α' → Prop} {S : β → β' → Prop} {f : α → Out (α ⊕ β)} {f' : α' → Out (α' ⊕ β')}
    (hf : ∀ a a', R a a' → OutRel (SumRel R S) (f a) (f' a')) (n : Nat) :
    ∀ {a a'}, R a a' → OutRel S (BST.loop n f a) (BST.loop n f' a') := by
  induction n with
  | zero => intro _ _ _; exact .diverge
  | succ n ih =>
    intro a a' h
    unfold BST.loop
    refine (hf a a' h).bind fun x x' hx => ?_
    cases hx with
    | inl h => exact ih h
    | inr h => exact .ok h

end Spec

/-! ### Methods -/

/-- From related states, related outcomes and related states. -/
def MRel (RS : σ → σ' → Prop) (RA : α → α' → Prop) (f : M σ α) (f' : M σ' α') : Prop :=
  ∀ s s', RS s s' → OutRel RA (f s).1 (f' s').1 ∧ RS (f s).2 (f' s').2

namespace MRel
variable {RS : σ → σ' → Prop} {RA : α → α' → Prop} {RB : β → β' → Prop}

theorem pure {a : α} {a' : α'} (h : RA a a') : MRel RS RA (Pure.pure a) (Pure.pure a') :=
  fun _ _ hs => ⟨.ok h, hs⟩

theorem bind {f : M σ α} {f' : M σ' α'} {g : α → M σ β} {g' : α' → M σ' β'} (h : MRel RS RA f f')
    (hg : ∀ a a', RA a a' → MRel RS RB (g a) (g' a')) : MRel RS RB (f >>= g) (f' >>= g') := by
  intro s s' hs
  obtain ⟨h1, h2⟩ := h s s' hs
  show OutRel RB (M.bind f g s).1 (M.bind f' g' s').1 ∧ RS (M.bind f g s).2 (M.bind f' g' s').2
  unfold M.bind
  cases hx : f s with
  | mk o t =>
    cases hx' : f' s' with
    | mk o' t' =>
      rw [hx, hx'] at h1 h2
      cases h1 with
      | ok h => exact hg _ _ h t t' h2
      | panic => exact ⟨.panic, h2⟩
      | abort => exact ⟨.abort, h2⟩
      | ub => exact ⟨.ub, h2⟩
      | diverge => exact ⟨.diverge, h2⟩

theorem lift {o : Out α} {o' : Out α'} (h : OutRel RA o o') : MRel RS RA (M.lift o) (M.lift o') :=
  fun _ _ hs => ⟨h, hs⟩

theorem lift_eq {o o' : Out α} (h : o = o') : MRel RS Eq (M.lift o) (M.lift o') := lift (.of_eq h)

theorem read {f : σ → Out α} {f' : σ' → Out α'} (h : ∀ s s', RS s s' → OutRel RA (f s) (f' s')) :
    MRel RS RA (M.read f) (M.read f') :=
  fun s s' hs => ⟨h s s' hs, hs⟩

theorem get : MRel RS RS M.get M.get := fun _ _ hs => ⟨.ok hs, hs⟩

theorem modify {f : σ → σ} {f' : σ' → σ'} (h : ∀ s s', RS s s' → RS (f s) (f' s')) :
    MRel RS Eq (M.modify f) (M.modify f') :=
  fun s s' hs => ⟨.ok rfl, h s s' hs⟩

theorem panic : MRel RS RA M.panic M.panic := fun _ _ hs => ⟨.panic, hs⟩
theorem ub : MRel RS RA M.ub M.ub := fun _ _ hs => ⟨.ub, hs⟩

theorem loop {f : α → M σ (α ⊕ β)} {f' : α' → M σ' (α' ⊕ β')}
    (hf : ∀ a a', RA a a' → MRel RS (SumRel RA RB) (f a) (f' a')) (n : Nat) :
    ∀ {a a'}, RA a a' → MRel RS RB (BST.loop n f a) (BST.loop n f' a') := by
  induction n with
  | zero => intro _ _ _ s s' hs; exact ⟨.diverge, hs⟩
  | succ n ih =>
    intro a a' h
    unfold BST.loop
    refine (hf a a' h).bind fun x x' hx => ?_
    cases hx with
    | inl h => exact ih h
    | inr h => exact pure h

/-- Weaken what is known about the results. -/
theorem mono {RB : α → α' → Prop} {f : M σ α} {f' : M σ' α'} (h : MRel RS RA f f')
    (hab : ∀ a a', RA a a' → RB a a') : MRel RS RB f f' := by
  intro s s' hs
  obtain ⟨h1, h2⟩ := h s s' hs
  refine ⟨?_, h2⟩
  revert h1
  generalize (f s).1 = o, (f' s').1 = o'
  intro h1
  cases h1 with
  | ok h => exact .ok (hab _ _ h)
  | _ => constructor
end MRel

/-! ### Arenas -/

structure ChunkRel (R : τ → τ' → Prop) (c : Chunk τ) (c' : Chunk τ') : Prop where
  id : c.id = c'.id
  slots : ListRel (OptRel R) c.slots c'.slots

structure ArenaRel (R : τ → τ' → Prop) (a : Arena τ) (a' : Arena τ') : Prop where
  chunks : ListRel (ChunkRel R) a.chunks a'.chunks
  len : a.len = a'.len
  capacity : a.capacity = a'.capacity
  nextId : a.nextId = a'.nextId
  log : a.log = a'.log
  dropped : ListRel R a.dropped a'.dropped

namespace Arena
variable {R : τ → τ' → Prop} {cfg : Cfg}

theorem new_rel : ArenaRel R (new : Arena τ) new := ⟨.nil, rfl, rfl, rfl, rfl, .nil⟩

theorem pushChunk_rel : MRel (ArenaRel R) Eq (pushChunk cfg) (pushChunk cfg) := by
  unfold pushChunk
  refine MRel.bind .get fun a a' h => ?_
  dsimp only
  refine MRel.bind (.lift_eq (by rw [h.chunks.length])) ?_
  rintro n _ rfl
  refine MRel.bind (.lift_eq (by rw [h.nextId])) ?_
  rintro c _ rfl
  split
  · exact .panic
  refine MRel.bind (.modify fun b b' hb => ⟨hb.chunks.append (.cons ⟨h.nextId, .replicate .none _⟩ .nil),
    hb.len, hb.capacity, by dsimp only; rw [hb.nextId], by dsimp only; rw [hb.log, hb.nextId], hb.dropped⟩) ?_
  rintro _ _ rfl
  refine MRel.bind (.lift_eq (by rw [h.capacity])) ?_
  rintro n _ rfl
  exact .modify fun b b' hb => ⟨hb.chunks, hb.len, rfl, hb.nextId, hb.log, hb.dropped⟩

theorem growTo_rel (n : Nat) : MRel (ArenaRel R) Eq (growTo cfg n) (growTo cfg n) := by
  unfold growTo
  refine MRel.loop (RA := Eq) (fun _ _ _ => ?_) _ rfl
  refine MRel.bind .get fun a a' h => ?_
  rw [h.capacity]
  split
  · exact pushChunk_rel.bind fun _ _ _ => .pure (.inl rfl)
  · exact .pure (.inr rfl)

theorem cell_rel {a : Arena τ} {a' : Arena τ'} (h : ArenaRel R a a') (p : Ptr) :
    OptRel R (a.cell p) (a'.cell p) := by
  unfold cell
  have := h.chunks.find? (p := fun c => c.id == p.block) (p' := fun c => c.id == p.block)
    fun c c' hc => by rw [hc.id]
  revert this
  generalize List.find? _ _ = x, List.find? _ _ = y
  intro hxy
  cases hxy with
  | none => exact .none
  | some hc => exact (hc.slots.getElem? _).join

theorem getUnchecked_rel {a : Arena τ} {a' : Arena τ'} (h : ArenaRel R a a') (p : Ptr) :
    OutRel R (a.getUnchecked p) (a'.getUnchecked p) := by
  unfold getUnchecked
  have := cell_rel h p
  revert this
  generalize cell a p = x, cell a' p = y
  intro hxy
  cases hxy with
  | none => exact .ub
  | some hc => exact .ok hc

theorem poke_rel {a : Arena τ} {a' : Arena τ'} (h : ArenaRel R a a') (p : Ptr) {v : Option τ}
    {v' : Option τ'} (hv : OptRel R v v') : ArenaRel R (a.poke p v) (a'.poke p v') := by
  refine ⟨h.chunks.map fun c c' hc => ?_, h.len, h.capacity, h.nextId, h.log, h.dropped⟩
  rw [hc.id]
  split
  · exact ⟨rfl, hc.slots.set hv _⟩
  · exact hc

theorem setUnchecked_rel (p : Ptr) {v : τ} {v' : τ'} (hv : R v v') :
    MRel (ArenaRel R) Eq (setUnchecked p v) (setUnchecked p v') := by
  unfold setUnchecked
  refine MRel.bind (.read fun _ _ h => getUnchecked_rel h p) fun _ _ _ => ?_
  exact .modify fun _ _ h => poke_rel h p (.some hv)

theorem ptrAt_rel {a : Arena τ} {a' : Arena τ'} (h : ArenaRel R a a') (i : Nat) :
    a.ptrAt cfg i = a'.ptrAt cfg i := by
  unfold ptrAt
  rw [h.chunks.length]
  congr 1; funext pos
  congr 1; funext _
  have := h.chunks.getElem? pos.chunkIndex
  revert this
  generalize a.chunks[pos.chunkIndex]? = x, a'.chunks[pos.chunkIndex]? = y
  intro hxy
  cases hxy with
  | none => rfl
  | some hc => dsimp only; rw [hc.slots.length, hc.id]

theorem alloc_rel {v : τ} {v' : τ'} (hv : R v v') :
    MRel (ArenaRel R) Eq (alloc cfg v) (alloc cfg v') := by
  unfold alloc
  refine MRel.bind .get fun a a' h => ?_
  refine MRel.bind (.lift_eq (by rw [h.len, h.capacity])) fun _ _ _ => ?_
  have rest : MRel (ArenaRel R) Eq
      (do
        let a ← M.get
        M.lift (debugAssert cfg (decide (a.len < a.capacity)))
        let p ← M.read (fun a => a.ptrAt cfg a.len)
        M.modify fun a => a.poke p (some v)
        let len' ← M.lift (addU cfg a.len 1)
        M.modify fun a => { a with len := len' }
        pure p)
      (do
        let a ← M.get
        M.lift (debugAssert cfg (decide (a.len < a.capacity)))
        let p ← M.read (fun a => a.ptrAt cfg a.len)
        M.modify fun a => a.poke p (some v')
        let len' ← M.lift (addU cfg a.len 1)
        M.modify fun a => { a with len := len' }
        pure p) := by
    refine MRel.bind .get fun a a' h => ?_
    refine MRel.bind (.lift_eq (by rw [h.len, h.capacity])) fun _ _ _ => ?_
    refine MRel.bind (RA := Eq) (.read fun b b' hb => .of_eq (by rw [ptrAt_rel hb, hb.len])) ?_
    rintro p _ rfl
    refine MRel.bind (.modify fun b b' hb => poke_rel hb p (.some hv)) fun _ _ _ => ?_
    refine MRel.bind (.lift_eq (by rw [h.len])) ?_
    rintro n _ rfl
    refine MRel.bind (.modify fun b b' hb => ⟨hb.chunks, rfl, hb.capacity, hb.nextId, hb.log, hb.dropped⟩)
      fun _ _ _ => ?_
    exact .pure rfl
  rw [h.len, h.capacity]
  split
  · exact pushChunk_rel.bind fun _ _ _ => rest
  · exact rest

theorem forgetCells_rel {a : Arena τ} {a' : Arena τ'} (h : ArenaRel R a a') :
    ArenaRel R a.forgetCells a'.forgetCells :=
  ⟨h.chunks.map fun _ _ hc => ⟨hc.id, hc.slots.map fun _ _ _ => .none⟩, h.len, h.capacity, h.nextId, h.log,
    h.dropped⟩

/-- `clear` without destructors, which is all that slabs use. -/
theorem clear_rel {f : τ → Bool} {f' : τ' → Bool} :
    MRel (ArenaRel R) Eq (clear cfg false f) (clear cfg false f') := by
  unfold clear
  refine MRel.bind .get fun a a' h => ?_
  simp only [Bool.not_false, Bool.true_or, if_true]
  exact .modify fun b b' hb =>
    ⟨(forgetCells_rel hb).chunks, rfl, hb.capacity, hb.nextId, hb.log, hb.dropped⟩

theorem reserve_rel (n : Nat) : MRel (ArenaRel R) Eq (reserve cfg n) (reserve cfg n) := by
  unfold reserve
  refine MRel.bind .get fun a a' h => ?_
  refine MRel.bind (.lift_eq (by rw [h.len])) ?_
  rintro n _ rfl
  exact growTo_rel n

theorem shrinkToFit_rel : MRel (ArenaRel R) Eq (shrinkToFit cfg) (shrinkToFit cfg) := by
  unfold shrinkToFit
  refine MRel.bind .get fun a a' h => ?_
  rw [h.chunks.length]
  refine MRel.loop (RA := Eq) ?_ _ rfl
  rintro n _ rfl
  refine MRel.bind .get fun a a' h => ?_
  have := h.chunks.getLast?
  revert this
  generalize List.getLast? a.chunks = x, List.getLast? a'.chunks = y
  intro hxy
  cases hxy with
  | none => exact .pure (.inr rfl)
  | some hc =>
    refine MRel.bind (.lift_eq rfl) ?_
    rintro i _ rfl
    refine MRel.bind (.lift_eq rfl) ?_
    rintro l _ rfl
    refine MRel.bind (.lift_eq (by rw [h.capacity])) ?_
    rintro r _ rfl
    rw [h.len]
    split
    · refine MRel.bind (.modify fun b b' hb => ⟨hb.chunks.dropLast, hb.len, hb.capacity, hb.nextId,
        by dsimp only; rw [hb.log, hc.id], hb.dropped⟩) fun _ _ _ => ?_
      refine MRel.bind (.lift_eq rfl) ?_
      rintro i _ rfl
      refine MRel.bind (.lift_eq (by rw [h.capacity])) ?_
      rintro j _ rfl
      refine MRel.bind (.modify fun b b' hb => ⟨hb.chunks, hb.len, rfl, hb.nextId, hb.log, hb.dropped⟩)
        fun _ _ _ => ?_
      exact .pure (.inl rfl)
    · exact .pure (.inr rfl)

theorem nextPtr_rel {a : Arena τ} {a' : Arena τ'} (h : ArenaRel R a a') (it : Iter) :
    OutRel (PairRel (OptRel (PairRel Eq R)) Eq) (it.nextPtr cfg a) (it.nextPtr cfg a') := by
  unfold Iter.nextPtr
  split
  · rw [ptrAt_rel h]
    refine (OutRel.of_eq rfl).bind ?_
    rintro p _ rfl
    refine (getUnchecked_rel h p).bind fun v v' hv => ?_
    exact .pure ⟨.some ⟨rfl, hv⟩, rfl⟩
  · exact .ok ⟨.none, rfl⟩

theorem freeChunks_rel {l : List (Chunk τ)} {l' : List (Chunk τ')} (h : ListRel (ChunkRel R) l l') (i : Nat) :
    freeChunks cfg i l = freeChunks cfg i l' := by
  induction h generalizing i with
  | nil => rfl
  | cons h _ ih => unfold freeChunks; rw [ih, h.id]

theorem drop_rel {f : τ → Bool} {f' : τ' → Bool} :
    MRel (ArenaRel R) Eq (drop cfg false f) (drop cfg false f') := by
  unfold drop
  refine clear_rel.bind fun _ _ _ => ?_
  refine MRel.bind .get fun a a' h => ?_
  refine MRel.bind (.lift_eq (freeChunks_rel h.chunks 0)) ?_
  rintro evs _ rfl
  exact .modify fun b b' hb => ⟨.nil, hb.len, hb.capacity, hb.nextId, by dsimp only; rw [hb.log], hb.dropped⟩

end Arena

/-! ### Slabs -/

inductive EntryRel (R : τ → τ' → Prop) : Entry τ → Entry τ' → Prop where
  | value {v v'} : R v v' → EntryRel R (.value v) (.value v')
  | free {n} : EntryRel R (.free n) (.free n)
  | dead : EntryRel R .dead .dead

structure SlabRel (R : τ → τ' → Prop) (s : Slab τ) (s' : Slab τ') : Prop where
  items : ArenaRel (EntryRel R) s.items s'.items
  freeHead : s.freeHead = s'.freeHead
  freeLen : s.freeLen = s'.freeLen
  dropped : ListRel R s.dropped s'.dropped

namespace Slab
variable {R : τ → τ' → Prop} {cfg : Cfg}

theorem new_rel : SlabRel R (new : Slab τ) new := ⟨Arena.new_rel, rfl, rfl, .nil⟩

theorem onItems_rel {RA : α → α' → Prop} {f : M (Arena (Entry τ)) α} {f' : M (Arena (Entry τ')) α'}
    (h : MRel (ArenaRel (EntryRel R)) RA f f') : MRel (SlabRel R) RA (onItems f) (onItems f') := by
  intro s s' hs
  obtain ⟨h1, h2⟩ := h s.items s'.items hs.items
  exact ⟨h1, h2, hs.freeHead, hs.freeLen, hs.dropped⟩

theorem len_rel {s : Slab τ} {s' : Slab τ'} (h : SlabRel R s s') : s.len cfg = s'.len cfg := by
  unfold len; rw [h.items.len, h.freeLen]

theorem isEmpty_rel {s : Slab τ} {s' : Slab τ'} (h : SlabRel R s s') : s.isEmpty cfg = s'.isEmpty cfg := by
  unfold isEmpty; rw [len_rel h]

theorem asValue_rel {e : Entry τ} {e' : Entry τ'} (h : EntryRel R e e') :
    OutRel R (Entry.asValue e) (Entry.asValue e') := by
  cases h with
  | value h => exact .ok h
  | _ => exact .ub

theorem asFree_rel {e : Entry τ} {e' : Entry τ'} (h : EntryRel R e e') :
    Entry.asFree e = Entry.asFree e' := by
  cases h <;> rfl

theorem getUnchecked_rel {s : Slab τ} {s' : Slab τ'} (h : SlabRel R s s') (p : Ptr) :
    OutRel R (s.getUnchecked p) (s'.getUnchecked p) := by
  unfold getUnchecked
  exact (Arena.getUnchecked_rel h.items p).bind fun _ _ he => asValue_rel he

theorem read_rel (p : Ptr) : MRel (SlabRel R) R (M.read fun s => s.getUnchecked p)
    (M.read fun s => s.getUnchecked p) := .read fun _ _ h => getUnchecked_rel h p

theorem updateUnchecked_rel (p : Ptr) {f : τ → τ} {f' : τ' → τ'} (hf : ∀ x x', R x x' → R (f x) (f' x')) :
    MRel (SlabRel R) Eq (updateUnchecked p f) (updateUnchecked p f') := by
  unfold updateUnchecked
  refine (read_rel p).bind fun v v' hv => ?_
  exact onItems_rel (Arena.setUnchecked_rel p (.value (hf _ _ hv)))

theorem push_rel {v : τ} {v' : τ'} (hv : R v v') : MRel (SlabRel R) Eq (push cfg v) (push cfg v') := by
  unfold push
  refine MRel.bind .get fun s s' h => ?_
  rw [h.freeHead]
  split
  · rename_i head _
    refine MRel.bind (.read fun t t' ht => Arena.getUnchecked_rel ht.items head) fun e e' he => ?_
    refine MRel.bind (.lift_eq (asFree_rel he)) ?_
    rintro n _ rfl
    refine MRel.bind (.modify fun t t' ht => ⟨ht.items, rfl, ht.freeLen, ht.dropped⟩) fun _ _ _ => ?_
    refine MRel.bind (.lift_eq (by rw [h.freeLen])) ?_
    rintro l _ rfl
    refine MRel.bind (.modify fun t t' ht => ⟨ht.items, ht.freeHead, rfl, ht.dropped⟩) fun _ _ _ => ?_
    refine MRel.bind (onItems_rel (Arena.setUnchecked_rel head (.value hv))) fun _ _ _ => ?_
    exact .pure rfl
  · exact onItems_rel (Arena.alloc_rel (.value hv))

theorem remove_rel (p : Ptr) : MRel (SlabRel R) R (remove cfg p) (remove cfg p) := by
  unfold remove
  refine MRel.bind .get fun s s' h => ?_
  refine MRel.bind (.read fun t t' ht => Arena.getUnchecked_rel ht.items p) fun e e' he => ?_
  rw [h.freeHead]
  refine MRel.bind (onItems_rel (Arena.setUnchecked_rel p .free)) fun _ _ _ => ?_
  refine MRel.bind (.modify fun t t' ht => ⟨ht.items, rfl, ht.freeLen, ht.dropped⟩) fun _ _ _ => ?_
  refine MRel.bind (.lift_eq (by rw [h.freeLen])) ?_
  rintro l _ rfl
  refine MRel.bind (.modify fun t t' ht => ⟨ht.items, ht.freeHead, rfl, ht.dropped⟩) fun _ _ _ => ?_
  exact .lift (asValue_rel he)

theorem resetInternalState_rel :
    MRel (SlabRel R) Eq (resetInternalState cfg) (resetInternalState cfg) := by
  unfold resetInternalState
  refine (onItems_rel Arena.clear_rel).bind fun _ _ _ => ?_
  exact .modify fun t t' ht => ⟨ht.items, rfl, rfl, ht.dropped⟩

theorem freePointers_rel {s : Slab τ} {s' : Slab τ'} (h : SlabRel R s s') :
    OutRel Eq s.freePointers s'.freePointers := by
  unfold freePointers
  rw [h.items.len, h.freeHead]
  refine OutRel.loop (R := Eq) ?_ _ rfl
  rintro ⟨o, l⟩ _ rfl
  cases o with
  | none => exact .pure (.inr rfl)
  | some p =>
    refine (Arena.getUnchecked_rel h.items p).bind fun e e' he => ?_
    rw [asFree_rel he]
    refine (OutRel.of_eq rfl).bind ?_
    rintro n _ rfl
    exact .pure (.inl rfl)

theorem dropEntry_rel {d : DropInfo τ} {d' : DropInfo τ'} (hd : DropRel R d d') (p : Ptr) {e : Entry τ}
    {e' : Entry τ'} (he : EntryRel R e e') : MRel (SlabRel R) Eq (dropEntry d p e) (dropEntry d' p e') := by
  unfold dropEntry
  refine MRel.bind (.lift (asValue_rel he)) fun v v' hv => ?_
  refine MRel.bind (.modify fun t t' ht => ⟨Arena.poke_rel ht.items p (.some .dead), ht.freeHead, ht.freeLen,
    ht.dropped.append (.cons hv .nil)⟩) fun _ _ _ => ?_
  rw [hd.panics _ _ hv]
  split
  · exact .panic
  · exact .pure rfl

theorem clear_rel {d : DropInfo τ} {d' : DropInfo τ'} (hd : DropRel R d d') :
    MRel (SlabRel R) Eq (clear cfg d) (clear cfg d') := by
  unfold clear
  refine MRel.bind .get fun s s' h => ?_
  rw [hd.needsDrop, h.items.len, h.freeLen]
  split
  · exact resetInternalState_rel
  · refine MRel.bind (.read fun _ _ ht => freePointers_rel ht) ?_
    rintro frees _ rfl
    refine MRel.bind (RA := Eq) (MRel.loop (RA := Eq) ?_ _ ?_) fun _ _ _ => resetInternalState_rel
    · rintro it _ rfl
      refine MRel.bind .get fun t t' ht => ?_
      refine MRel.bind (.lift (Arena.nextPtr_rel ht.items it)) ?_
      rintro ⟨o, it1⟩ ⟨o', it2⟩ ⟨ho, hit⟩
      cases hit
      cases ho with
      | none => exact .pure (.inr rfl)
      | @some a a' hpe =>
        obtain ⟨p, e⟩ := a
        obtain ⟨p', e'⟩ := a'
        obtain ⟨hp, he⟩ := hpe
        cases hp
        dsimp only
        split
        · exact .pure (.inl rfl)
        · exact (dropEntry_rel hd p he).bind fun _ _ _ => .pure (.inl rfl)
    · unfold Arena.iter; rw [h.items.len]

theorem reserve_rel (n : Nat) : MRel (SlabRel R) Eq (reserve cfg n) (reserve cfg n) :=
  onItems_rel (Arena.reserve_rel n)

theorem shrinkToFit_rel : MRel (SlabRel R) Eq (shrinkToFit cfg) (shrinkToFit cfg) :=
  onItems_rel Arena.shrinkToFit_rel

theorem drop_rel {d : DropInfo τ} {d' : DropInfo τ'} (hd : DropRel R d d') :
    MRel (SlabRel R) Eq (drop cfg d) (drop cfg d') := by
  intro s s' hs
  unfold drop
  have items : ∀ t t', SlabRel R t t' → _ := onItems_rel (R := R) (Arena.drop_rel (R := EntryRel R) (cfg := cfg)
    (f := fun _ => false) (f' := fun _ => false))
  rw [hd.needsDrop]
  cases d'.needsDrop with
  | false => exact items s s' hs
  | true =>
    obtain ⟨h1, h2⟩ := clear_rel (cfg := cfg) hd s s' hs
    simp only [Bool.not_true, Bool.false_eq_true, if_false]
    cases hx : clear cfg d s with
    | mk o t =>
      cases hx' : clear cfg d' s' with
      | mk o' t' =>
        rw [hx, hx'] at h1 h2
        dsimp only
        cases h1 with
        | ok h => exact items t t' h2
        | panic =>
          obtain ⟨h3, h4⟩ := items t t' h2
          dsimp only
          cases hy : onItems (Arena.drop cfg false fun _ => false) t with
          | mk o u =>
            cases hy' : onItems (Arena.drop cfg false fun _ => false) t' with
            | mk o' u' =>
              rw [hy, hy'] at h3 h4
              cases h3 with
              | ok _ => exact ⟨.panic, h4⟩
              | panic => exact ⟨.panic, h4⟩
              | abort => exact ⟨.abort, h4⟩
              | ub => exact ⟨.ub, h4⟩
              | diverge => exact ⟨.diverge, h4⟩
        | abort => exact ⟨.abort, h2⟩
        | ub => exact ⟨.ub, h2⟩
        | diverge => exact ⟨.diverge, h2⟩

end Slab
end BST
