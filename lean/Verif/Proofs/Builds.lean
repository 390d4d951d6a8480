import Verif.Proofs.Track
/-!
# Debug and release builds compute the same
-/
set_option linter.unusedSimpArgs false
namespace BST
open BSTMap Tree
variable {K V : Type}

/-- From a state with `P`, `f` and `g` do the same; if they return, `Q` holds. -/
def Agree {σ α : Type} (P : σ → Prop) (f g : M σ α) (Q : α → σ → Prop) : Prop :=
  ∀ s, P s → f s = g s ∧ ∀ a s', f s = (.ok a, s') → Q a s'

namespace Agree
variable {σ α β : Type} {P : σ → Prop} {Q : α → σ → Prop} {R : β → σ → Prop}

theorem refl {f : M σ α} (h : ∀ s a s', P s → f s = (.ok a, s') → Q a s') : Agree P f f Q :=
  fun s hs => ⟨rfl, fun a s' he => h s a s' hs he⟩

theorem eq {f g : M σ α} (h : Agree P f g Q) {s : σ} (hs : P s) : f s = g s := (h s hs).1

theorem bind {f g : M σ α} {f' g' : α → M σ β} (h : Agree P f g Q)
    (h' : ∀ a, Agree (Q a) (f' a) (g' a) R) : Agree P (f >>= f') (g >>= g') R := by
  intro s hs
  obtain ⟨h1, h2⟩ := h s hs
  rw [M.bind_apply, M.bind_apply, ← h1]
  cases hf : f s with
  | mk o s' =>
    cases o with
    | ok a => exact h' a s' (h2 a s' hf)
    | _ => exact ⟨rfl, fun _ _ h => by cases h⟩

theorem pure {a : α} (h : ∀ s, P s → Q a s) : Agree P (Pure.pure a : M σ α) (Pure.pure a) Q :=
  refl fun s _ _ hs he => by cases he; exact h s hs

theorem ret {a : α} : Agree P (Pure.pure a : M σ α) (Pure.pure a) (fun _ => P) :=
  pure fun _ h => h

theorem panic : Agree P (M.panic : M σ α) M.panic Q := refl fun _ _ _ _ he => by cases he

theorem read (g : σ → Out α) : Agree P (M.read g) (M.read g) (fun _ => P) :=
  refl fun s a s' hs he => by
    have : s' = s := (congrArg Prod.snd he).symm
    rw [this]; exact hs

theorem lift (o : Out α) : Agree P (M.lift o) (M.lift o) (fun _ => P) :=
  refl fun s a s' hs he => by
    have : s' = s := (congrArg Prod.snd he).symm
    rw [this]; exact hs

theorem get : Agree P (M.get : M σ σ) M.get (fun a s => a = s ∧ P s) :=
  refl fun s a s' hs he => by cases he; exact ⟨rfl, hs⟩

theorem modify {f : σ → σ} (h : ∀ s, P s → P (f s)) :
    Agree P (M.modify f) (M.modify f) (fun _ => P) :=
  refl fun s a s' hs he => by cases he; exact h s hs

theorem mono {P' : σ → Prop} {Q' : α → σ → Prop} {f g : M σ α} (h : Agree P f g Q)
    (hP : ∀ s, P' s → P s) (hQ : ∀ a s, Q a s → Q' a s) : Agree P' f g Q' :=
  fun s hs => ⟨(h s (hP s hs)).1, fun a s' he => hQ a s' ((h s (hP s hs)).2 a s' he)⟩

theorem loop {J : β → σ → Prop} {f g : β → M σ (β ⊕ α)}
    (h : ∀ b, Agree (J b) (f b) (g b) (fun x s => x.elim (fun b' => J b' s) (fun a => Q a s)))
    (fuel : Nat) : ∀ b, Agree (J b) (BST.loop fuel f b) (BST.loop fuel g b) Q := by
  induction fuel with
  | zero => exact fun b => refl fun _ _ _ _ he => by cases he
  | succ fuel ih =>
    intro b
    unfold BST.loop
    refine bind (h b) fun x => ?_
    cases x with
    | inl b' => exact ih b'
    | inr a => exact pure fun s hs => hs
end Agree

theorem Agree.onItems {T α : Type} {P : Arena (Entry T) → Prop} {f g : M (Arena (Entry T)) α}
    {Q : α → Arena (Entry T) → Prop} (h : Agree P f g Q) :
    Agree (fun s : Slab T => P s.items) (Slab.onItems f) (Slab.onItems g) (fun a s => Q a s.items) := by
  intro s hs
  obtain ⟨h1, h2⟩ := h s.items hs
  unfold Slab.onItems
  rw [← h1]
  refine ⟨rfl, fun a s' he => ?_⟩
  cases hf : f s.items with
  | mk o b => rw [hf] at he; cases he; exact h2 _ _ hf

theorem Agree.onNodes {α : Type} {P : Nodes K V → Prop} {f g : M (Nodes K V) α}
    {Q : α → Nodes K V → Prop} (h : Agree P f g Q) :
    Agree (fun m : BSTMap K V => P m.nodes) (onNodes f) (onNodes g) (fun a m => Q a m.nodes) := by
  intro s hs
  obtain ⟨h1, h2⟩ := h s.nodes hs
  unfold BSTMap.onNodes
  rw [← h1]
  refine ⟨rfl, fun a s' he => ?_⟩
  cases hf : f s.nodes with
  | mk o b => rw [hf] at he; cases he; exact h2 _ _ hf

namespace Arena
variable {T : Type} {cfg : Cfg}

theorem Inv.build {a : Arena T} (h : a.Inv cfg) (x y : Bool) : a.Inv (cfg.build x y) :=
  ⟨h.size, h.slots, h.ids, h.idlt, h.cap, h.lenle, h.init, h.log⟩

theorem pushChunk_same (x y : Bool) :
    Agree (Inv cfg) (pushChunk cfg : M (Arena T) Unit) (pushChunk (cfg.build x y)) (fun _ => Inv cfg) := by
  intro a h
  refine ⟨by rw [pushChunk_eq h, pushChunk_eq (h.build x y)]; rfl, fun r s' he => ?_⟩
  rcases pushChunk_spec h with ⟨hp, hg⟩ | hp | hp <;> cases hp.symm.trans he
  exact hg

theorem growTo_same (n : Nat) (x y : Bool) :
    Agree (Inv cfg) (growTo cfg n : M (Arena T) Unit) (growTo (cfg.build x y) n)
      (fun _ => Inv cfg) := by
  refine Agree.loop (J := fun _ => Inv cfg) (fun _ => ?_) growFuel ()
  refine Agree.bind Agree.get fun a => ?_
  split
  · refine Agree.bind ((pushChunk_same x y).mono (fun _ h => h.2) (fun _ _ h => h)) fun _ => ?_
    exact Agree.pure fun s hs => hs
  · exact Agree.pure fun s hs => hs.2

/-- What `alloc` makes of the outcome of `push_chunk`. -/
def allocOf (v : T) : Out Unit × Arena T → Out Ptr × Arena T
  | (.ok _, b) => (.ok (b.addr b.len), b.wrote v)
  | (.panic, b) => (.panic, b)
  | (.abort, b) => (.abort, b)
  | (.ub, b) => (.ub, b)
  | (.diverge, b) => (.diverge, b)

theorem alloc_eq {a : Arena T} (h : a.Inv cfg) (v : T) : alloc cfg v a =
    if a.len = a.capacity then allocOf v (pushChunk cfg a) else (.ok (a.addr a.len), a.wrote v) := by
  by_cases hc : a.len = a.capacity
  · rw [if_pos hc]
    have hle := h.lenle
    rcases pushChunk_spec h with ⟨hp, hg⟩ | hp | hp
    · rcases alloc_spec h v with ⟨b, h1, _, hl, _, ⟨_, h2⟩ | ⟨rfl, _⟩⟩ | ⟨_, ⟨h1, h2⟩ | ⟨h1, h2⟩⟩
      · omega
      · rw [h1, hp]; rfl
      · cases h2.symm.trans hp
      · cases h2.symm.trans hp
    · rw [hp]
      unfold alloc
      simp only [M.get_bind, hle, decide_true, debugAssert_true, M.lift_ok_bind]
      rw [if_pos hc]
      exact M.bind_panic hp
    · rw [hp]
      unfold alloc
      simp only [M.get_bind, hle, decide_true, debugAssert_true, M.lift_ok_bind]
      rw [if_pos hc]
      exact M.bind_abort hp
  · rw [if_neg hc]
    rcases alloc_spec h v with ⟨b, h1, _, hl, _, ⟨rfl, h2⟩ | ⟨_, h2⟩⟩ | ⟨h2, _⟩
    · exact h1
    · exact absurd h2 hc
    · exact absurd h2 hc

theorem alloc_same (v : T) (x y : Bool) :
    Agree (Inv cfg) (alloc cfg v) (alloc (cfg.build x y) v) (fun _ => Inv cfg) := by
  intro a h
  constructor
  · rw [alloc_eq h, alloc_eq (h.build x y), (pushChunk_same x y).eq h]
  · intro p s' he
    rcases alloc_spec h v with ⟨b, h1, hb, hl, hlt, _⟩ | ⟨_, ⟨h1, _⟩ | ⟨h1, _⟩⟩ <;>
      cases h1.symm.trans he
    exact hb.wrote (by omega) v

/-- The body of the loop of `shrink_to_fit`. -/
def shrinkBody (cfg : Cfg) (chunksLen : Nat) : M (Arena T) (Nat ⊕ Unit) := do
  let a ← M.get
  match a.chunks.getLast? with
  | none => pure (.inr ())
  | some chunk =>
    let i ← M.lift (subU cfg chunksLen 1)
    let chunkI := asU32 i
    let chunkLen ← M.lift (chunkLen cfg chunkI)
    let rest ← M.lift (subU cfg a.capacity chunkLen)
    if rest ≥ a.len then
      M.modify fun a => { a with
        chunks := a.chunks.dropLast
        log := a.log ++ [.free chunk.id chunkLen] }
      let chunksLen' ← M.lift (subU cfg chunksLen 1)
      let cap ← M.lift (subU cfg a.capacity chunkLen)
      M.modify fun a => { a with capacity := cap }
      pure (.inl chunksLen')
    else pure (.inr ())

theorem shrinkBody_eq {a : Arena T} (h : a.Inv cfg) {n : Nat} (hn : a.chunks.length = n) :
    shrinkBody cfg n a = match a.chunks.getLast? with
      | none => (.ok (.inr ()), a)
      | some c => if a.len + 8 * 2 ^ (n - 1) ≤ a.capacity then (.ok (.inl (n - 1)), a.popped c)
        else (.ok (.inr ()), a) := by
  unfold shrinkBody
  simp only [M.get_bind]
  cases hl : a.chunks.getLast? with
  | none => rfl
  | some c =>
    have hne : a.chunks ≠ [] := by intro e; simp [e] at hl
    have hpos : 0 < n := by rw [← hn]; exact List.length_pos_iff.2 hne
    have hlen := h.length_le
    have hcap := h.cap
    have hpow : 2 ^ n = 2 ^ (n - 1) * 2 := by rw [← Nat.pow_succ]; congr 1; omega
    rw [hn] at hcap
    have hu : asU32 (n - 1) = n - 1 := Nat.mod_eq_of_lt (by omega)
    have hp1 : 0 < 2 ^ (n - 1) := Nat.two_pow_pos _
    simp only
    rw [subU_ok cfg hpos]
    simp only [M.lift_ok_bind, hu]
    rw [chunkLen_ok cfg (by omega)]
    simp only [M.lift_ok_bind]
    rw [subU_ok cfg (by omega)]
    simp only [M.lift_ok_bind]
    by_cases hfit : a.len + 8 * 2 ^ (n - 1) ≤ a.capacity
    · rw [if_pos (by omega), if_pos hfit]
      simp only [M.modify_bind]
      simp only [Arena.popped, hn]
      rfl
    · rw [if_neg (by omega), if_neg hfit]; rfl

theorem shrinkToFit_same (x y : Bool) :
    Agree (Inv cfg) (shrinkToFit cfg : M (Arena T) Unit) (shrinkToFit (cfg.build x y))
      (fun _ => Inv cfg) := by
  have hb : ∀ n, Agree (fun a : Arena T => a.Inv cfg ∧ a.chunks.length = n) (shrinkBody cfg n)
      (shrinkBody (cfg.build x y) n)
      (fun r s => r.elim (fun n' => s.Inv cfg ∧ s.chunks.length = n') (fun _ => s.Inv cfg)) := by
    rintro n a ⟨h, hn⟩
    refine ⟨by rw [shrinkBody_eq h hn, shrinkBody_eq (h.build x y) hn], fun r s' he => ?_⟩
    rw [shrinkBody_eq h hn] at he
    cases hl : a.chunks.getLast? with
    | none => rw [hl] at he; cases he; exact h
    | some c =>
      rw [hl] at he
      simp only at he
      split at he
      · rename_i hfit
        cases he
        exact ⟨(h.popped hl (by rw [hn]; exact hfit)).1, by simp [Arena.popped, hn]⟩
      · cases he; exact h
  intro a h
  have := Agree.loop (Q := fun (_ : Unit) s => Inv cfg s) hb (a.chunks.length + 1) a.chunks.length a
    ⟨h, rfl⟩
  exact this

theorem drop_same (x y : Bool) (dp : T → Bool) {a : Arena T} (h : a.Inv cfg) :
    drop cfg false dp a = drop (cfg.build x y) false dp a := by
  have key : ∀ c : Cfg, a.Inv c → drop c false dp a = (.ok (), { a.cleared with
      chunks := []
      log := a.cleared.log ++ a.cleared.chunks.map fun c => .free c.id c.slots.length }) := by
    intro c h
    have hc := h.cleared
    unfold drop
    rw [M.bind_ok (clear_nodrop c dp a), M.get_bind]
    have := hc.length_le
    rw [freeChunks_ok c a.cleared.chunks 0 (by omega) (by simpa using hc.slots), M.lift_ok_bind]
    rfl
  rw [key cfg h, key _ (h.build x y)]

theorem nextPtr_same {a : Arena T} (h : a.Inv cfg) {it : Iter} (h2 : it.stop ≤ a.len) (x y : Bool) :
    it.nextPtr cfg a = it.nextPtr (cfg.build x y) a := by
  by_cases h1 : it.start < it.stop
  · obtain ⟨v, hv, e⟩ := h.nextPtr_some h1 h2
    obtain ⟨v', hv', e'⟩ := (h.build x y).nextPtr_some h1 h2
    cases hv.symm.trans hv'
    rw [e, e']
  · unfold Iter.nextPtr
    rw [if_neg h1, if_neg h1]
end Arena

namespace Slab
variable {T : Type} {cfg : Cfg}

theorem Inv.build {s : Slab T} (h : s.Inv cfg) (x y : Bool) : s.Inv (cfg.build x y) := by
  obtain ⟨fr, hf⟩ := h
  exact ⟨fr, hf.items.build x y, hf.chain, hf.nodup, hf.flen, hf.tag⟩

theorem Inv.items {s : Slab T} (h : s.Inv cfg) : s.items.Inv cfg := by
  obtain ⟨fr, hf⟩ := h; exact hf.items

theorem Inv.freeLen_le {s : Slab T} (h : s.Inv cfg) : s.freeLen ≤ s.items.len := by
  obtain ⟨fr, hf⟩ := h; rw [hf.flen]; exact hf.frees_length

theorem len_same {s : Slab T} (h : s.Inv cfg) (x y : Bool) : s.len cfg = s.len (cfg.build x y) := by
  unfold len
  rw [subU_ok _ h.freeLen_le, subU_ok _ h.freeLen_le]

theorem update_same (p : Ptr) (f : T → T) :
    Agree (Inv cfg) (updateUnchecked p f) (updateUnchecked p f) (fun _ => Inv cfg) :=
  Agree.refl fun s a s' hs he => by
    cases hv : s.view p with
    | none =>
      unfold updateUnchecked at he
      rw [M.read_bind, getUnchecked_eq, hv] at he
      cases he
    | some v =>
      obtain ⟨s1, h1, h2⟩ := update_spec hs hv f
      cases h1.symm.trans he
      exact h2.inv

theorem push_same (v : T) (x y : Bool) :
    Agree (Inv cfg) (push cfg v) (push (cfg.build x y) v) (fun _ => Inv cfg) := by
  intro s h
  constructor
  · unfold push
    simp only [M.get_bind]
    obtain ⟨fr, hf⟩ := h
    cases hh : s.freeHead with
    | none =>
      simp only
      exact ((Arena.alloc_same _ x y).onItems).eq hf.items
    | some head =>
      simp only
      have h1 : 1 ≤ s.freeLen := by
        have := hf.chain
        rw [hh] at this
        cases fr with
        | nil => exact this.elim
        | cons a l => rw [hf.flen]; simp
      rw [subU_ok cfg h1, subU_ok (cfg.build x y) h1]
  · intro p s' he
    rcases push_spec h v with ⟨p, s1, h1, h2⟩ | ⟨_, _, ⟨h1, _⟩ | ⟨h1, _⟩⟩ <;>
      cases h1.symm.trans he
    exact h2.inv

theorem remove_same {s : Slab T} (h : s.Inv cfg) (p : Ptr) (x y : Bool) :
    remove cfg p s = remove (cfg.build x y) p s := by
  unfold remove
  simp only [M.get_bind]
  have h1 : s.freeLen + 1 < usizeBound := by
    have h1 := h.freeLen_le
    have h2 := h.items.lenle
    have h3 := h.items.cap_lt
    simp only [usizeBound]; omega
  rw [addU_ok cfg h1, addU_ok (cfg.build x y) h1]

theorem clearBody_same (d : DropInfo T) (fl : List Ptr) (x y : Bool) (it : Arena.Iter) :
    Agree (fun s => s.items.Inv cfg ∧ it.stop ≤ s.items.len) (clearBody cfg d fl it)
      (clearBody (cfg.build x y) d fl it)
      (fun r s => r.elim (fun it' => s.items.Inv cfg ∧ it'.stop ≤ s.items.len)
        (fun _ => s.items.Inv cfg)) := by
  rintro s ⟨h, hle⟩
  unfold clearBody
  simp only [M.get_bind]
  rw [← Arena.nextPtr_same h hle x y]
  refine ⟨rfl, fun r s' he => ?_⟩
  by_cases h1 : it.start < it.stop
  · obtain ⟨v, hv, e⟩ := h.nextPtr_some h1 hle
    rw [e, M.lift_ok_bind] at he
    simp only at he
    split at he
    · cases he; exact ⟨h, hle⟩
    · unfold dropEntry at he
      cases v with
      | value w =>
        simp only [Entry.asValue, bind_assoc, M.lift_ok_bind, M.modify_bind] at he
        split at he
        · cases he
        · cases he
          exact ⟨h.poke (by rw [hv]; rfl) _, hle⟩
      | _ => cases he
  · unfold Arena.Iter.nextPtr at he
    rw [if_neg h1, M.lift_ok_bind] at he
    cases he
    exact h

theorem clear_same (d : DropInfo T) (x y : Bool) {s : Slab T} (h : s.Inv cfg) :
    clear cfg d s = clear (cfg.build x y) d s := by
  unfold clear
  simp only [M.get_bind]
  by_cases hd : (!d.needsDrop || s.items.len == s.freeLen) = true
  · rw [if_pos hd, if_pos hd]; rfl
  · rw [if_neg hd, if_neg hd]
    rw [M.read_bind, M.read_bind]
    cases hfp : s.freePointers with
    | ok fl =>
      rw [M.lift_ok_bind, M.lift_ok_bind]
      have := Agree.loop (Q := fun (_ : Unit) (s : Slab T) => s.items.Inv cfg) (clearBody_same (cfg := cfg) d fl x y)
        (s.items.len + 1) s.items.iter
      refine (Agree.bind (R := fun _ _ => True) this fun _ => ?_).eq ⟨h.items, Nat.le_refl _⟩
      exact Agree.refl fun _ _ _ _ _ => trivial
    | _ => rfl

theorem drop_same (d : DropInfo T) (x y : Bool) {s : Slab T} (h : s.Inv cfg) :
    drop cfg d s = drop (cfg.build x y) d s := by
  have hi : ∀ {s : Slab T}, s.items.Inv cfg → onItems (Arena.drop cfg false (fun _ => false)) s =
      onItems (Arena.drop (cfg.build x y) false (fun _ => false)) s := by
    intro s h
    unfold onItems
    rw [Arena.drop_same x y _ h]
  unfold drop
  by_cases hd : (!d.needsDrop) = true
  · simp only [if_pos hd]; exact hi h.items
  · simp only [if_neg hd]
    rw [← clear_same d x y h]
    rcases clear_spec (d := d) h with ⟨s', h1, h2, _⟩ | ⟨_, _, j, s', h1, h2, _⟩
    · rw [h1]; exact hi h2.inv.items
    · rw [h1]; simp only; rw [hi h2.items]
end Slab

namespace BSTMap
variable {cfg : Cfg}

/-- The invariant of the storage alone, whatever the tree looks like. -/
abbrev Sound (cfg : Cfg) (m : BSTMap K V) : Prop := m.nodes.Inv cfg

theorem readNodes_same {α : Type} (f : Nodes K V → Out α) :
    Agree (Sound cfg) (onNodes (M.read f)) (onNodes (M.read f)) (fun _ => Sound cfg) :=
  (Agree.read (P := Slab.Inv cfg) f).onNodes

theorem pres_of {α : Type} {f : M (BSTMap K V) α}
    (h : ∀ m a m', f m = (.ok a, m') → m' = m) : Agree (Sound cfg) f f (fun _ => Sound cfg) :=
  Agree.refl fun m a m' hm he => by rw [h m a m' he]; exact hm

theorem onNodes_pres {α : Type} {f : M (Nodes K V) α}
    (h : ∀ m a m', f m = (.ok a, m') → m' = m) : Agree (Sound cfg) (onNodes f) (onNodes f)
      (fun _ => Sound cfg) :=
  (Agree.refl (P := Slab.Inv cfg) (Q := fun _ => Slab.Inv cfg)
    fun m a m' hm he => by rw [h m a m' he]; exact hm).onNodes

theorem key_same (n : NodeMut) : Agree (Sound cfg) (onNodes (n.key : M (Nodes K V) K))
    (onNodes n.key) (fun _ => Sound cfg) :=
  (Agree.bind (Agree.read (P := Slab.Inv cfg) _) fun _ => Agree.ret).onNodes

theorem hasLeft_same (n : NodeMut) : Agree (Sound cfg) (onNodes (n.hasLeft : M (Nodes K V) Bool))
    (onNodes n.hasLeft) (fun _ => Sound cfg) :=
  (Agree.bind (Agree.read (P := Slab.Inv cfg) _) fun _ => Agree.ret).onNodes

theorem hasRight_same (n : NodeMut) : Agree (Sound cfg) (onNodes (n.hasRight : M (Nodes K V) Bool))
    (onNodes n.hasRight) (fun _ => Sound cfg) :=
  (Agree.bind (Agree.read (P := Slab.Inv cfg) _) fun _ => Agree.ret).onNodes

theorem newOpt_same (o : Option Ptr) : Agree (Slab.Inv cfg) (NodeMut.newOpt o : M (Nodes K V) _)
    (NodeMut.newOpt o) (fun _ => Slab.Inv cfg) := by
  cases o with
  | none => exact Agree.pure fun _ h => h
  | some p =>
    exact Agree.bind (Q := fun _ => Slab.Inv cfg)
      (Agree.bind (Agree.read _) fun _ => Agree.pure fun _ h => h) fun _ => Agree.pure fun _ h => h

theorem left_same (n : NodeMut) : Agree (Sound cfg) (onNodes (n.left : M (Nodes K V) _))
    (onNodes n.left) (fun _ => Sound cfg) :=
  (Agree.bind (Agree.read (P := Slab.Inv cfg) _) fun _ => newOpt_same _).onNodes

theorem right_same (n : NodeMut) : Agree (Sound cfg) (onNodes (n.right : M (Nodes K V) _))
    (onNodes n.right) (fun _ => Sound cfg) :=
  (Agree.bind (Agree.read (P := Slab.Inv cfg) _) fun _ => newOpt_same _).onNodes

theorem rootMut_same : Agree (Sound cfg) (rootMut : M (BSTMap K V) _) rootMut (fun _ => Sound cfg) := by
  unfold rootMut
  refine Agree.bind Agree.get fun m => ?_
  exact (newOpt_same (cfg := cfg) m.root).onNodes.mono (fun _ h => h.2) (fun _ _ h => h)

theorem insert_same (c : Probe K) (k : K) (v : V) (x y : Bool) :
    Agree (Sound cfg) (insert cfg c k v) (insert (cfg.build x y) c k v) (fun _ => Sound cfg) := by
  have hpush : ∀ (n : NodeMut) (k : K) (v : V) (f : Ptr → InnerNode K V → InnerNode K V),
      Agree (Slab.Inv cfg) (do
          let p ← Slab.push cfg (InnerNode.new k v)
          Slab.updateUnchecked n.ptr (f p)
          pure p)
        (do
          let p ← Slab.push (cfg.build x y) (InnerNode.new k v)
          Slab.updateUnchecked n.ptr (f p)
          pure p) (fun _ => Slab.Inv cfg) := fun n k v f =>
    Agree.bind (Slab.push_same _ x y) fun _ => Agree.bind (Slab.update_same _ _) fun _ =>
      Agree.pure fun _ h => h
  unfold insert
  refine Agree.bind (Q := fun _ => Sound cfg) (Agree.get.mono (fun _ h => h) (fun _ _ h => h.2))
    fun m => ?_
  refine Agree.bind rootMut_same fun r => ?_
  cases r with
  | none =>
    refine Agree.bind (Slab.push_same _ x y).onNodes fun p => ?_
    refine Agree.bind (Agree.modify (P := Sound cfg) fun _ h => h) fun _ => Agree.pure fun _ h => h
  | some root =>
    refine Agree.loop (J := fun _ => Sound cfg) (fun st => ?_) _ _
    cases st.2 with
    | none => exact Agree.pure fun _ h => h
    | some nd =>
      simp only
      refine Agree.bind (key_same nd) fun k' => ?_
      cases c st.1 k' with
      | none => exact Agree.panic
      | some o =>
        cases o with
        | lt =>
          refine Agree.bind (hasLeft_same nd) fun b => ?_
          cases b with
          | false =>
            exact Agree.bind (hpush nd k v fun p x => { x with left := some p }).onNodes fun _ =>
              Agree.pure fun _ h => h
          | true => exact Agree.bind (left_same nd) fun _ => Agree.pure fun _ h => h
        | gt =>
          refine Agree.bind (hasRight_same nd) fun b => ?_
          cases b with
          | false =>
            exact Agree.bind (hpush nd k v fun p x => { x with right := some p }).onNodes fun _ =>
              Agree.pure fun _ h => h
          | true => exact Agree.bind (right_same nd) fun _ => Agree.pure fun _ h => h
        | eq =>
          refine Agree.bind (Q := fun _ => Sound cfg) (Agree.onNodes ?_) fun _ => Agree.pure fun _ h => h
          exact Agree.bind (Agree.read _) fun _ => Agree.bind (Slab.update_same _ _) fun _ =>
            Agree.pure fun _ h => h

theorem replacement_same (p : Ptr) : Agree (Slab.Inv cfg) (replacement p : M (Nodes K V) _)
    (replacement p) (fun _ => Slab.Inv cfg) := by
  unfold replacement
  refine Agree.bind (Agree.read _) fun nd => ?_
  split
  · exact Agree.pure fun _ h => h
  · exact Agree.pure fun _ h => h
  · exact Agree.pure fun _ h => h
  · refine Agree.bind (Agree.read _) fun rc => ?_
    refine Agree.bind (Q := fun _ => Slab.Inv cfg) ?_ fun _ =>
      Agree.bind (Slab.update_same _ _) fun _ => Agree.pure fun _ h => h
    cases rc.left with
    | none => exact Agree.pure fun _ h => h
    | some q =>
      refine Agree.bind (Q := fun _ => Slab.Inv cfg) (Agree.get.mono (fun _ h => h) (fun _ _ h => h.2))
        fun s => ?_
      refine Agree.bind (Agree.lift _) fun r => ?_
      exact Agree.bind (Agree.read _) fun _ => Agree.bind (Slab.update_same _ _) fun _ =>
        Agree.bind (Slab.update_same _ _) fun _ => Agree.pure fun _ h => h

theorem removeEntry_same (c : Probe K) (x y : Bool) {m : BSTMap K V} (h : Sound cfg m) :
    removeEntry cfg c m = removeEntry (cfg.build x y) c m := by
  have hrem : ∀ p, Agree (Sound cfg) (onNodes (Slab.remove cfg p) : M (BSTMap K V) _)
      (onNodes (Slab.remove (cfg.build x y) p)) (fun _ _ => True) := fun p m hm => by
    refine ⟨?_, fun _ _ _ => trivial⟩
    unfold onNodes
    rw [Slab.remove_same hm p x y]
  have : Agree (Sound cfg) (removeEntry cfg c : M (BSTMap K V) _) (removeEntry (cfg.build x y) c)
      (fun _ _ => True) := by
    unfold removeEntry
    refine Agree.bind (Agree.read _) fun r => ?_
    obtain ⟨parent, current⟩ := r
    cases current with
    | none => exact Agree.pure fun _ _ => trivial
    | some p =>
      simp only
      refine Agree.bind (replacement_same (cfg := cfg) p).onNodes fun rw => ?_
      have tail : Agree (Sound cfg) (do
          let nd ← onNodes (Slab.remove cfg p)
          pure (some (nd.key, nd.value)) : M (BSTMap K V) _) (do
          let nd ← onNodes (Slab.remove (cfg.build x y) p)
          pure (some (nd.key, nd.value))) (fun _ _ => True) :=
        Agree.bind (hrem p) fun _ => Agree.refl fun _ _ _ _ _ => trivial
      cases parent with
      | none => exact Agree.bind (Agree.modify fun _ h => h) fun _ => tail
      | some q =>
        refine Agree.bind (readNodes_same _) fun pn => ?_
        split
        · exact Agree.bind (Slab.update_same (cfg := cfg) _ _).onNodes fun _ => tail
        · exact Agree.bind (Slab.update_same (cfg := cfg) _ _).onNodes fun _ => tail
  exact this.eq h

theorem growTo_same (n : Nat) (x y : Bool) :
    Agree (Sound cfg) (onNodes (Slab.onItems (Arena.growTo cfg n)) : M (BSTMap K V) Unit)
      (onNodes (Slab.onItems (Arena.growTo (cfg.build x y) n))) (fun _ => Sound cfg) := by
  intro m hm
  refine ⟨?_, fun _ m' he => ?_⟩
  · unfold onNodes Slab.onItems
    rw [(Arena.growTo_same n x y).eq hm.items]
  · obtain ⟨fr, hf⟩ := hm
    obtain ⟨b, hg, hcase⟩ := Arena.growTo_spec (cfg := cfg) n hf.items
    have key : ∀ o, Arena.growTo cfg n m.nodes.items = (o, b) → Sound cfg m' := by
      intro o ho
      rw [onNodes_ok (Slab.onItems_ok ho)] at he
      cases he
      exact ⟨fr, hf.of_cells hg.inv hg.cell⟩
    rcases hcase with ⟨h, _⟩ | ⟨_, ⟨h, _⟩ | ⟨h, _⟩⟩ <;> exact key _ h

theorem insertAll_same {cmps : Nat → K → Probe K} (x y : Bool) (l : List (K × V)) : ∀ n,
    Agree (Sound cfg) (insertAll cfg cmps n l) (insertAll (cfg.build x y) cmps n l)
      (fun _ => Sound cfg) := by
  induction l with
  | nil => exact fun _ => Agree.pure fun _ h => h
  | cons e l ih =>
    intro n
    obtain ⟨k, v⟩ := e
    exact Agree.bind (insert_same _ k v x y) fun _ => ih (n + 1)

theorem source_same {cmps : Nat → K → Probe K} (x y : Bool) (src : Source K V) :
    Agree (Sound cfg) (do
      insertAll cfg cmps 0 src.items
      if src.panics then M.panic else pure () : M (BSTMap K V) Unit) (do
      insertAll (cfg.build x y) cmps 0 src.items
      if src.panics then M.panic else pure () : M (BSTMap K V) Unit) (fun _ => Sound cfg) := by
  refine Agree.bind (insertAll_same x y _ 0) fun _ => ?_
  cases src.panics
  · exact Agree.pure fun _ h => h
  · exact Agree.panic

theorem sound_new : Sound cfg (new : BSTMap K V) := Slab.inv_new cfg

theorem fromIter_same {cmps : Nat → K → Probe K} (x y : Bool) (src : Source K V) :
    fromIter cfg cmps src = fromIter (cfg.build x y) cmps src :=
  (Agree.bind (growTo_same _ x y) fun _ => source_same x y src).eq sound_new

theorem reserve_same {n : Nat} (x y : Bool) {m : BSTMap K V} (h : Sound cfg m)
    (hn : m.nodes.items.len + n < usizeBound) :
    reserve cfg n m = reserve (cfg.build x y) n m := by
  have key : ∀ c : Cfg, reserve c n m =
      onNodes (Slab.onItems (Arena.growTo c (reserveTarget m n))) m := by
    intro c
    rcases reserve_spec c m n with ⟨_, h2, _⟩ | ⟨_, h2⟩
    · omega
    · exact h2
  rw [key, key, (growTo_same _ x y).eq h]

theorem extend_same {cmps : Nat → K → Probe K} (x y : Bool) (src : Source K V) {m : BSTMap K V}
    (h : Sound cfg m) (hn : m.nodes.items.len + src.hint.2.getD src.hint.1 < usizeBound) :
    extend cfg cmps src m = extend (cfg.build x y) cmps src m := by
  have hr : Agree (fun m' => m' = m) (reserve cfg (src.hint.2.getD src.hint.1))
      (reserve (cfg.build x y) (src.hint.2.getD src.hint.1)) (fun _ => Sound cfg) := by
    rintro m' rfl
    refine ⟨reserve_same x y h hn, fun a m1 he => ?_⟩
    rcases reserve_spec cfg m' (src.hint.2.getD src.hint.1) with ⟨_, _, h2⟩ | ⟨_, h2⟩
    · cases h2.symm.trans he
    · rw [h2] at he
      exact ((growTo_same _ x y) m' h).2 _ _ he
  exact (Agree.bind hr fun _ => source_same x y src).eq rfl

theorem len_same (x y : Bool) {m : BSTMap K V} (h : Sound cfg m) :
    m.len cfg = m.len (cfg.build x y) := Slab.len_same h x y

theorem clone_same {cmps : Nat → K → Probe K} {cloneK : K → Option K} {cloneV : V → Option V}
    (x y : Bool) {m : BSTMap K V} (h : Sound cfg m) :
    clone cfg cmps cloneK cloneV m = clone (cfg.build x y) cmps cloneK cloneV m := by
  unfold clone
  rw [← len_same x y h]
  refine (Agree.bind (P := Sound cfg) (R := fun _ _ => True) (Agree.lift _) fun n =>
    Agree.bind (growTo_same n x y) fun _ => Agree.bind (Agree.lift _) fun root => ?_).eq sound_new
  refine Agree.loop (J := fun _ => Sound cfg) (fun st => ?_) _ _
  cases st.2 with
  | nil => exact Agree.pure fun _ _ => trivial
  | cons nd stack =>
    simp only
    split
    · exact Agree.bind (insert_same _ _ _ x y) fun _ => Agree.bind (Agree.lift _) fun _ =>
        Agree.bind (Agree.lift _) fun _ => Agree.pure fun _ h => h
    · exact Agree.panic

theorem isEmpty_same (x y : Bool) {m : BSTMap K V} {t : Tree K V} (h : Shape cfg m t)
    (h' : Shape (cfg.build x y) m t) : m.isEmpty cfg = m.isEmpty (cfg.build x y) := by
  rw [isEmpty_spec h, isEmpty_spec h']

theorem eq_same (x y : Bool) {keq : K → K → Bool} {veq : V → V → Bool} {a b : BSTMap K V}
    (ha : Sound cfg a) (hb : Sound cfg b) :
    BSTMap.eq cfg keq veq a b = BSTMap.eq (cfg.build x y) keq veq a b := by
  unfold BSTMap.eq BSTMap.eqWith
  rw [← len_same x y ha, ← len_same x y hb]

end BSTMap

theorem Shape.build {cfg : Cfg} {m : BSTMap K V} {t : Tree K V} (h : Shape cfg m t) (x y : Bool) :
    Shape (cfg.build x y) m t :=
  ⟨h.slab.build x y, h.root, h.rep, h.nodup, h.live⟩

end BST
