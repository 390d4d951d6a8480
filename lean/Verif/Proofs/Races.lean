import Verif.Races
import Verif.Proofs.MapReaders
/-!
# What a recording heap shows
-/
namespace BST
variable {K V α β : Type}
open Spec (Order)

namespace Trace
variable {h h' : Trace} {q : Ptr} {e : Event} {t : Nat}

theorem touches_iff : e.Touches q ↔ Within q e.first e.count := Iff.rfl

/-- From the creation of the pointer on, the element is used only through it. -/
def Only (h : Trace) (q : Ptr) (t : Nat) : Prop :=
  (∃ e, h.events[t - 1]? = some e ∧ 0 < t ∧ e.write = true ∧ e.Touches q) ∧
  ∀ e ∈ h.events.drop t, e.Touches q → e.via = t

/-- Since then, nobody has written there. -/
def Unwritten (h : Trace) (q : Ptr) (t : Nat) : Prop :=
  ∀ e ∈ h.events.drop t, e.Touches q → e.write = false

def view : AliasView Trace where
  layout h := h.blocks
  Wf h := (h.blocks.map (·.1)).Nodup
  Owns _ _ _ := True
  Whole _ _ _ := True
  Top := Only
  Seen := Unwritten
  Sound _ := True

theorem mem_drop_snoc {l : List Event} {x : Event} {n : Nat} (h : x ∈ (l ++ [e]).drop n) :
    x ∈ l.drop n ∨ x = e := by
  rw [List.drop_append] at h
  rcases List.mem_append.1 h with h | h
  · exact .inl h
  · exact .inr (List.mem_singleton.1 (List.mem_of_mem_drop h))

theorem getElem_snoc {l : List Event} {x : Event} {n : Nat} (h : l[n]? = some x) :
    (l ++ [e])[n]? = some x := by
  have hn : n < l.length := (List.getElem?_eq_some_iff.1 h).1
  rw [List.getElem?_append_left hn]; exact h

theorem Only.snoc {b : List (Nat × Nat)} (ho : Only h q t) (hv : e.Touches q → e.via = t) :
    Only { blocks := b, events := h.events ++ [e] } q t := by
  obtain ⟨⟨x, hx, h0, hw, hq⟩, hall⟩ := ho
  refine ⟨⟨x, getElem_snoc hx, h0, hw, hq⟩, fun x hx => ?_⟩
  rcases mem_drop_snoc hx with hx | rfl
  · exact hall x hx
  · exact hv

theorem Unwritten.snoc {b : List (Nat × Nat)} (ho : Unwritten h q t)
    (hv : e.Touches q → e.write = false) :
    Unwritten { blocks := b, events := h.events ++ [e] } q t := fun x hx => by
  rcases mem_drop_snoc hx with hx | rfl
  · exact ho x hx
  · exact hv

theorem keep_snoc {b : List (Nat × Nat)} (hq : ¬ e.Touches q) :
    view.Keep h { blocks := b, events := h.events ++ [e] } q :=
  ⟨fun _ ht => ht.snoc fun h => absurd h hq, fun _ ht => ht.snoc fun h => absurd h hq⟩

theorem only_new {b : List (Nat × Nat)} (hw : e.write = true) (hq : e.Touches q) :
    Only { blocks := b, events := h.events ++ [e] } q (h.events ++ [e]).length := by
  refine ⟨⟨e, ?_, by simp, hw, hq⟩, fun x hx => ?_⟩
  · simp
  · rw [List.drop_length] at hx; cases hx

theorem unwritten_new (b : List (Nat × Nat)) (l : List Event) (q : Ptr) :
    Unwritten { blocks := b, events := l } q l.length := fun x hx => by
  replace hx : x ∈ l.drop l.length := hx
  rw [List.drop_length] at hx; cases hx

theorem step_snoc (hw : view.Wf h) :
    view.Step h { blocks := h.blocks, events := h.events ++ [e] } := ⟨hw, rfl, fun _ _ h => h⟩

theorem derive_eq (k : RefKind) (t : Nat) (p : Ptr) (n : Nat) (h : Trace) :
    Aliasing.derive k t p n h =
      (.ok (h.events ++ [Event.mk (k ≠ .shared) p n t]).length,
        { blocks := h.blocks, events := h.events ++ [Event.mk (k ≠ .shared) p n t] }) := rfl

theorem access_eq (w : Bool) (t : Nat) (p : Ptr) (h : Trace) :
    Aliasing.access w t p h =
      (.ok (), { blocks := h.blocks, events := h.events ++ [⟨w, p, 1, t⟩] }) := rfl

theorem block_touch {id n : Nat} (hq : q.block ≠ id) {w : Bool} {v : Nat} :
    ¬ (Event.mk w ⟨id, 0⟩ n v).Touches q := fun h => hq h.1

instance : AliasLaws Trace where
  toAliasView := Trace.view
  empty_wf := List.nodup_nil
  empty_layout := rfl
  nodup h := h
  whole _ := trivial
  allocate_ok {h id n} hw hn := by
    refine ⟨_, _, rfl, ⟨?_, fun _ _ _ _ => trivial, fun q hq => keep_snoc (block_touch hq)⟩, rfl, trivial⟩
    show ((h.blocks ++ [(id, n)]).map (·.1)).Nodup
    rw [List.map_append, List.nodup_append]
    refine ⟨hw, by simp, fun a ha b hb hab => ?_⟩
    rw [List.mem_singleton.1 hb] at hab
    subst hab
    exact hn ha
  deallocate_ok {h t id n} hw _ _ _ := by
    refine ⟨_, rfl, ⟨?_, fun _ _ _ _ => trivial, fun q hq => keep_snoc (block_touch hq)⟩, rfl⟩
    exact List.Sublist.nodup (List.Sublist.map _ List.filter_sublist) hw
  derive_excl {h t p n} hw _ _ _ :=
    ⟨_, _, derive_eq .excl t p n h, step_snoc hw, fun _ hq => only_new (e := ⟨_, p, n, t⟩) rfl hq, fun _ hq => keep_snoc hq⟩
  derive_shared {h t p} hw _ _ :=
    ⟨_, _, derive_eq .shared t p 1 h, step_snoc hw, unwritten_new _ _ _,
      fun _ hq => keep_snoc fun hh => hq (within_one.1 hh)⟩
  derive_top {h k t p n} hw hk _ _ :=
    ⟨_, _, derive_eq k t p n h, step_snoc hw, fun _ hq =>
      only_new (e := ⟨_, p, n, t⟩) (by simpa using hk) hq,
      fun _ hq => keep_snoc hq⟩
  access_top {h w t p} hw ht :=
    ⟨_, access_eq w t p h, step_snoc hw, ht.snoc fun _ => rfl,
      fun _ hq => keep_snoc fun hh => hq (within_one.1 hh)⟩
  access_seen {h t p} hw ht :=
    ⟨_, access_eq false t p h, step_snoc hw, fun _ hq => keep_snoc fun hh => hq (within_one.1 hh)⟩
  access_keeps h t p q t' hs := by rw [access_eq]; exact hs.snoc fun _ => rfl
  derive_keeps h t p q t' hs := by rw [derive_eq]; exact hs.snoc fun _ => rfl
  chunk_ok {h how t id n} _ hw _ _ _ := by
    cases how with
    | asPtr => exact ⟨t, h, rfl, .refl hw, trivial, fun q _ => .refl h q⟩
    | asMut =>
      refine ⟨_, _, M.bind_ok (derive_eq .excl t ⟨id, 0⟩ 1 h), ?_, trivial, fun q hq => ?_⟩
      · exact (step_snoc hw).trans (step_snoc (step_snoc hw).wf)
      · exact (keep_snoc (block_touch hq)).trans (keep_snoc (block_touch hq))
  chunk_ub _ hn := absurd trivial hn

end Trace

/-! ### Calls that take `&self` -/

namespace TMap
variable {H : Type} [Aliasing H] [AliasLaws H]

theorem keeps_pushSpine (n : NodeRef) (st : Stack) : Keeps (pushSpine n st : M (TMap H K V) _) := by
  refine .bind .get fun s => .loop (fun st => ?_) _ _
  obtain ⟨n, st⟩ := st
  refine .bind (keeps_deref n) fun x => ?_
  simp only
  cases x.left with
  | none => exact .pure _
  | some l => exact .bind (keeps_node l) fun _ => .pure _

theorem keeps_nextRef (o : Order) (st : Stack) : Keeps (o.nextRef st : M (TMap H K V) _) := by
  cases o with
  | pre =>
    cases st with
    | nil => exact .pure _
    | cons p st => exact .bind (keeps_node p) fun n => .bind (keeps_deref n) fun _ => .pure _
  | ino =>
    cases st with
    | nil => exact .pure _
    | cons p st =>
      exact .bind (keeps_node p) fun n => .bind (keeps_deref n) fun _ =>
        .bind (keeps_pushLeftSpine _ _) fun _ => .pure _
  | post =>
    refine .bind .get fun s => .loop (fun st => ?_) _ _
    cases st with
    | nil => exact .pure _
    | cons p st =>
      refine .bind (keeps_node p) fun n => .bind (keeps_deref n) fun x => ?_
      have hp : ∀ st : Stack, Keeps (do
          let n ← if false = true then node true p else Pure.pure n
          Pure.pure (.inr (some n, st)) : M (TMap H K V) (Stack ⊕ Option NodeRef × Stack)) := fun st =>
        .bind (.pure _) fun _ => .pure _
      cases x.right with
      | none => exact hp _
      | some r =>
        cases st with
        | nil => exact hp _
        | cons q st =>
          simp only
          split
          · exact .bind (keeps_node r) fun n => .bind (keeps_pushSpine _ _) fun _ => .pure _
          · exact hp _
end TMap

namespace Reader
variable {S R P : Type} {rel : S → S → Prop}

/-- However this ends, the map afterwards is related to the one before. -/
def Along (rel : S → S → Prop) (f : M (Reader S R P) α) : Prop := ∀ x, rel x.store (f x).2.store

/-- A reflexive and transitive relation. -/
structure Preorder (rel : S → S → Prop) : Prop where
  refl : ∀ s, rel s s
  trans : ∀ {a b c}, rel a b → rel b c → rel a c

theorem Along.bind (hr : Preorder rel) {f : M (Reader S R P) α} {g : α → M (Reader S R P) β}
    (h : Along rel f) (h' : ∀ a, Along rel (g a)) : Along rel (f >>= g) := fun x => by
  have hs := h x
  rw [M.bind_apply]
  rcases hf : f x with ⟨o, x'⟩
  rw [hf] at hs
  cases o with
  | ok a => exact hr.trans hs (h' a x')
  | _ => exact hs

theorem Along.same (hr : Preorder rel) {f : M (Reader S R P) α} (h : ∀ x, (f x).2.store = x.store) :
    Along rel f := fun x => by rw [h]; exact hr.refl _

theorem Along.pure (hr : Preorder rel) (a : α) : Along rel (Pure.pure a : M (Reader S R P) α) :=
  .same hr fun _ => rfl

theorem Along.on {f : M S α} (h : ∀ s, rel s (f s).2) : Along (R := R) (P := P) rel (on f) :=
  fun x => by
    have := h x.store
    unfold Reader.on
    rcases hf : f x.store with ⟨o, s⟩
    rw [hf] at this
    exact this

theorem preorder_eq : Preorder (S := S) Eq := ⟨fun _ => rfl, Eq.trans⟩

/-- What both kinds of clients have in common: they call these, and otherwise only change what
they hold. -/
theorem along_run (op : ReadOp K V) :
    Along (S := BSTMap K V) (fun a b => a = b) op.run := by
  have hr := preorder_eq (S := BSTMap K V)
  have hread : ∀ {γ : Type} (f : BSTMap K V → Out γ),
      Along (R := Option (K × V)) (P := Option (Node K V)) (fun a b => a = b) (on (M.read f)) :=
    fun f => .on fun s => by rw [M.read_apply]
  have hp : ∀ {γ : Type} (a : γ), Along (R := Option (K × V)) (P := Option (Node K V))
      (S := BSTMap K V) (fun a b => a = b) (Pure.pure a) := fun a => .pure hr a
  cases op with
  | get c => exact .bind hr (hread _) fun _ => .bind hr (.same hr fun _ => rfl) fun _ => hp _
  | containsKey c => exact .bind hr (hread _) fun _ => hp _
  | debug dk dv => exact .bind hr (hread _) fun _ => hp _
  | iter o => exact .bind hr (hread _) fun _ => .bind hr (.same hr fun _ => rfl) fun _ => hp _
  | next i =>
    refine .bind hr (.same hr fun _ => rfl) fun x => ?_
    split
    · exact hp _
    · exact .bind hr (hread _) fun _ => .bind hr (.same hr fun _ => rfl) fun _ =>
        .bind hr (.same hr fun _ => rfl) fun _ => hp _
  | root => exact .bind hr (hread _) fun _ => .bind hr (.same hr fun _ => rfl) fun _ => hp _
  | child i b =>
    refine .bind hr (.same hr fun _ => rfl) fun x => ?_
    split
    · exact .bind hr (hread _) fun _ => .bind hr (.same hr fun _ => rfl) fun _ => hp _
    · exact hp _
  | read i =>
    refine .bind hr (.same hr fun _ => rfl) fun x => ?_
    split <;> exact hp _
  | readNode i =>
    refine .bind hr (.same hr fun _ => rfl) fun x => ?_
    split <;> exact hp _

variable {H : Type} [Aliasing H] [AliasLaws H]

theorem preorder_shared : Preorder (TMap.Shared (H := H) (K := K) (V := V)) :=
  ⟨.refl, .trans⟩

theorem along_runRef (op : ReadOp K V) :
    Along (S := TMap H K V) TMap.Shared op.runRef := by
  have hr := preorder_shared (H := H) (K := K) (V := V)
  have hp : ∀ {γ : Type} (a : γ), Along (R := Option NodeRef) (P := Option NodeRef)
      (S := TMap H K V) TMap.Shared (Pure.pure a) := fun a => .pure hr a
  cases op with
  | get c =>
    exact .bind hr (.on (TMap.keeps_descend c)) fun _ => .bind hr (.same hr fun _ => rfl) fun _ => hp _
  | containsKey c => exact .bind hr (.on (TMap.keeps_containsKey c)) fun _ => hp _
  | debug dk dv => exact .bind hr (.on (TMap.keeps_debug dk dv)) fun _ => hp _
  | iter o =>
    exact .bind hr (.on (TMap.keeps_iterRef o)) fun _ => .bind hr (.same hr fun _ => rfl) fun _ => hp _
  | next i =>
    refine .bind hr (.same hr fun _ => rfl) fun x => ?_
    split
    · exact hp _
    · exact .bind hr (.on (TMap.keeps_nextRef _ _)) fun _ => .bind hr (.same hr fun _ => rfl) fun _ =>
        .bind hr (.same hr fun _ => rfl) fun _ => hp _
  | root =>
    exact .bind hr (.on (TMap.Keeps.bind .get fun _ => .bind (TMap.keeps_nodeOpt _) fun _ => .pure _))
      fun _ => .bind hr (.same hr fun _ => rfl) fun _ => hp _
  | child i b =>
    refine .bind hr (.same hr fun _ => rfl) fun x => ?_
    split
    · rename_i n _
      refine .bind hr (.on (?_ : TMap.Keeps _)) fun _ => .bind hr (.same hr fun _ => rfl) fun _ => hp _
      cases b
      · exact TMap.keeps_left n
      · exact TMap.keeps_right n
    · exact hp _
  | read i =>
    refine .bind hr (.same hr fun _ => rfl) fun x => ?_
    split
    · exact hp _
    · exact hp _
    · exact .bind hr (.on (TMap.keeps_deref _)) fun _ => hp _
  | readNode i =>
    refine .bind hr (.same hr fun _ => rfl) fun x => ?_
    split
    · exact .bind hr (.on (TMap.keeps_deref _)) fun _ => hp _
    · exact hp _

theorem along_execute {O T : Type} (hr : Preorder rel) {run : O → M (Reader S R P) T}
    (h : ∀ op, Along rel (run op)) (l : List O) (x : Reader S R P) :
    rel x.store (execute run l x).2.store := by
  induction l generalizing x with
  | nil => exact hr.refl _
  | cons op l ih =>
    have hs := h op x
    unfold execute
    rcases hf : run op x with ⟨o, x'⟩
    rw [hf] at hs
    cases o with
    | ok r => exact hr.trans hs (ih x')
    | panic => exact hr.trans hs (ih x')
    | _ => exact hs

theorem reads {cfg : Cfg} (l : List (ReadOp K V)) {t : Tree K V} {x : Traced H K V} {y : Plain K V}
    (h : Inv cfg t x y) :
    ∃ os x' y', execute ReadOp.runRef l x = (os, x') ∧ execute ReadOp.run l y = (os, y') ∧
      Inv cfg t x' y' ∧ y'.store = y.store := by
  have hst := along_execute preorder_eq along_run l y
  suffices ∃ os x' y', execute ReadOp.runRef l x = (os, x') ∧ execute ReadOp.run l y = (os, y') ∧
      Inv cfg t x' y' by
    obtain ⟨os, x', y', e1, e2, hi⟩ := this
    rw [e2] at hst
    exact ⟨os, x', y', e1, e2, hi, hst.symm⟩
  clear hst
  induction l generalizing x y with
  | nil => exact ⟨[], x, y, rfl, rfl, h⟩
  | cons op l ih =>
    obtain ⟨o, x1, y1, e1, e2, ho, h1⟩ := step h op
    obtain ⟨os, x2, y2, e3, e4, h2⟩ := ih h1
    refine ⟨o :: os, x2, y2, ?_, ?_, h2⟩
    · unfold execute; rw [e1]
      rcases ho with rfl | ⟨r, rfl⟩ <;> simp only [e3]
    · unfold execute; rw [e2]
      rcases ho with rfl | ⟨r, rfl⟩ <;> simp only [e4]

end Reader

/-! ### Threads -/

namespace Team
variable {H : Type} [Aliasing H] [AliasLaws H] {cfg : Cfg}

theorem view_act {S R P : Type} {i : Nat} {f : M (Reader S R P) α} {x : Team S R P} {o : Out α}
    {r : Reader S R P} (h : f (x.view i) = (o, r)) :
    ∃ x', act i f x = (o, x') ∧ x'.store = r.store ∧ x'.view i = r ∧
      ∀ j, j ≠ i → x'.view j = { x.view j with store := r.store } := by
  refine ⟨_, by unfold act; rw [h], rfl, ?_, fun j hj => ?_⟩
  · simp [view]
  · simp [view, hj]

/-- Every thread is related to one that has the map for itself. -/
structure TInv (cfg : Cfg) (t : Tree K V) (m : BSTMap K V)
    (x : Team (TMap H K V) (Option NodeRef) (Option NodeRef)) (y : Nat → Reader.Plain K V) : Prop where
  inv : ∀ i, Reader.Inv cfg t (x.view i) (y i)
  store : ∀ i, (y i).store = m

theorem tinv_start {t : Tree K V} {s : TMap H K V} (h : Shape cfg s.map t) (hk : TMap.OK cfg s) :
    TInv cfg t s.map (Team.start s) (fun _ => .start s.map) :=
  ⟨fun _ => .start h rfl hk, fun _ => rfl⟩

theorem tinv_step {t : Tree K V} {m : BSTMap K V}
    {x : Team (TMap H K V) (Option NodeRef) (Option NodeRef)} {y : Nat → Reader.Plain K V}
    (h : TInv cfg t m x y) (i : Nat) (op : ReadOp K V) :
    ∃ o x' y', Schedule.runRef (i, op) x = (o, x') ∧ op.run (y i) = (o, y') ∧
      (o = .panic ∨ ∃ r, o = .ok r) ∧ TInv cfg t m x' fun j => if j = i then y' else y j := by
  obtain ⟨o, r, y', e1, e2, ho, hi⟩ := Reader.step (h.inv i) op
  obtain ⟨x', e3, hs, hv, hj⟩ := view_act e1
  have hsh := Reader.along_runRef op (x.view i)
  rw [e1] at hsh
  have hst : (y i).store = y'.store := by
    have := Reader.along_run op (y i)
    rw [e2] at this
    exact this
  refine ⟨o, x', y', e3, e2, ho, fun j => ?_, fun j => ?_⟩
  · by_cases hji : j = i
    · subst hji; simpa [hv] using hi
    · rw [hj j hji, if_neg hji]
      refine (h.inv j).with ?_ hi.good hsh
      rw [h.store j, ← h.store i, hst]; exact hi.map
  · by_cases hji : j = i
    · simp only [hji, if_pos, ← hst]; exact h.store i
    · simpa only [hji, if_false] using h.store j

theorem run_all (l : Schedule K V) {t : Tree K V} {m : BSTMap K V}
    {x : Team (TMap H K V) (Option NodeRef) (Option NodeRef)} {y : Nat → Reader.Plain K V}
    (h : TInv cfg t m x y) :
    ∃ os x', execute Schedule.runRef l x = (os, x') ∧ os.length = l.length ∧
      (∀ o ∈ os, o = .panic ∨ ∃ r, o = .ok r) ∧ x'.store.map = m ∧
      ∀ i, l.answers os i = (execute ReadOp.run (l.of i) (y i)).1 := by
  induction l generalizing x y with
  | nil => exact ⟨[], x, rfl, rfl, by simp, ((h.inv 0).map.trans (h.store 0)), fun i => rfl⟩
  | cons e l ih =>
    obtain ⟨i, op⟩ := e
    obtain ⟨o, x1, y1, e1, e2, ho, h1⟩ := tinv_step h i op
    obtain ⟨os, x2, e3, hl, hos, hm, ha⟩ := ih h1
    have hex : execute Schedule.runRef ((i, op) :: l) x = (o :: os, x2) := by
      unfold execute
      rw [e1]
      rcases ho with rfl | ⟨r, rfl⟩ <;> simp only [e3]
    refine ⟨o :: os, x2, hex, by simp [hl], fun z hz => ?_, hm, fun j => ?_⟩
    · rcases List.mem_cons.1 hz with rfl | hz
      · exact ho
      · exact hos z hz
    · by_cases hij : i = j
      · subst hij
        have e4 : (execute ReadOp.run (Schedule.of ((i, op) :: l) i) (y i)).1 =
            o :: (execute ReadOp.run (Schedule.of l i) y1).1 := by
          have : Schedule.of ((i, op) :: l) i = op :: Schedule.of l i := by simp [Schedule.of]
          rw [this]
          conv => lhs; unfold execute
          rw [e2]
          rcases ho with rfl | ⟨r, rfl⟩ <;> rfl
        rw [e4]
        have := ha i
        simp only [if_true] at this
        rw [← this]
        simp [Schedule.answers]
      · have := ha j
        simp only [if_neg (Ne.symm hij)] at this
        have e5 : Schedule.of ((i, op) :: l) j = Schedule.of l j := by simp [Schedule.of, hij]
        rw [e5, ← this]
        simp [Schedule.answers, hij]

end Team

/-! ### `clone` -/

namespace TMap
variable {H : Type} [Aliasing H] [AliasLaws H] {cfg : Cfg}

/-- Shared references to the first map stay usable. -/
def Keeps2 (f : M (TMap H K V × TMap H K V) α) : Prop := ∀ s, Shared s.1 (f s).2.1

theorem Keeps2.bind {f : M (TMap H K V × TMap H K V) α} {g : α → M (TMap H K V × TMap H K V) β}
    (h : Keeps2 f) (h' : ∀ a, Keeps2 (g a)) : Keeps2 (f >>= g) := fun s => by
  have hs := h s
  rw [M.bind_apply]
  rcases hf : f s with ⟨o, s'⟩
  rw [hf] at hs
  cases o with
  | ok a => exact hs.trans (h' a s')
  | _ => exact hs

theorem Keeps2.same {f : M (TMap H K V × TMap H K V) α} (h : ∀ s, (f s).2.1 = s.1) : Keeps2 f :=
  fun s => by rw [h]; exact .refl _

theorem Keeps2.fst {f : M (TMap H K V) α} (h : Keeps f) : Keeps2 (onFst f) := fun s => by
  have := h s.1
  unfold onFst
  rcases hf : f s.1 with ⟨o, s'⟩
  rw [hf] at this
  exact this

theorem Keeps2.snd (f : M (TMap H K V) α) : Keeps2 (onSnd f) := .same fun s => by
  unfold onSnd
  rcases f s.2 with ⟨o, s'⟩
  rfl

theorem Keeps2.loop {A : Type} {body : A → M (TMap H K V × TMap H K V) (A ⊕ α)}
    (h : ∀ a, Keeps2 (body a)) (n : Nat) (a : A) : Keeps2 (loop n body a) := by
  induction n generalizing a with
  | zero => exact .same fun _ => rfl
  | succ n ih =>
    rw [loop_succ]
    refine .bind (h a) fun x => ?_
    cases x with
    | inl a' => exact ih a'
    | inr b => exact .same fun _ => rfl

theorem keeps_clone (cmps : Nat → K → Probe K) (cloneK : K → Option K) (cloneV : V → Option V) :
    Keeps2 (TMap.clone cfg cmps cloneK cloneV : M (TMap H K V × TMap H K V) Unit) := by
  refine .bind (.same fun _ => rfl) fun s => .bind (.same fun s' => ?_) fun n =>
    .bind (.snd _) fun _ => .bind (.fst (keeps_nodeOpt _)) fun r => .loop (fun st => ?_) _ _
  · unfold M.lift; rfl
  · obtain ⟨i, st⟩ := st
    cases st with
    | nil => exact .same fun _ => rfl
    | cons n st =>
      refine .bind (.fst (keeps_deref n)) fun x => ?_
      split
      · exact .bind (.snd _) fun _ => .bind (.fst (keeps_right n)) fun _ =>
          .bind (.fst (keeps_left n)) fun _ => .same fun _ => rfl
      · exact .same fun _ => rfl

end TMap

/-- Reads only, if shared references stay usable. -/
theorem Trace.reads {s s' : TMap Trace K V} (h : TMap.Shared s s') {e : Event} {q : Ptr}
    (he : e ∈ s'.heap.events.drop s.heap.events.length) (hq : e.Touches q) : e.write = false :=
  h ⟨q, s.heap.events.length⟩ (Trace.unwritten_new _ _ _) e he hq

end BST
