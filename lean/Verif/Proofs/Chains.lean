import Verif.Model.StackedBorrows
import Verif.Model.TreeBorrows
import Verif.Proofs.StackLaws
import Verif.Proofs.TreeLaws
set_option linter.unusedSimpArgs false
/-!
# Pointers that are derived from each other

What the proofs about boxes (`Proofs/Boxes.lean`) need to know about aliasing rules: a chain of
pointers, each derived from the one before. Using one of them leaves those before it usable.
-/
namespace BST

/-- Laws about chains: tags, the oldest first, with `true` for those that may be used to write. -/
class ChainLaws (H : Type) [Aliasing H] where
  layout : H → List (Nat × Nat)
  Wf : H → Prop
  Chain : H → Ptr → List (Nat × Bool) → Prop
  empty_wf : Wf (Aliasing.empty : H)
  empty_layout : layout (Aliasing.empty : H) = []
  nodup : ∀ {h : H}, Wf h → ((layout h).map (·.1)).Nodup
  sub : ∀ {h : H} {q c c'}, Chain h q c → c'.Sublist c → Chain h q c'
  allocate_ok : ∀ {h : H} {id n}, Wf h → id ∉ (layout h).map (·.1) →
    ∃ t h', Aliasing.allocate id n h = (.ok t, h') ∧ Wf h' ∧ layout h' = layout h ++ [(id, n)] ∧
      (∀ i, i < n → Chain h' ⟨id, i⟩ [(t, true)]) ∧
      ∀ q c, q.block ≠ id → Chain h q c → Chain h' q c
  deallocate_ok : ∀ {h : H} {t id n}, Wf h → (id, n) ∈ layout h → 0 < n →
    (∀ i, i < n → Chain h ⟨id, i⟩ [(t, true)]) →
    ∃ h', Aliasing.deallocate t id n h = (.ok (), h') ∧ Wf h' ∧
      layout h' = (layout h).filter (fun e => e.1 ≠ id) ∧
      ∀ q c, q.block ≠ id → Chain h q c → Chain h' q c
  derive_ok : ∀ {h : H} {k t p n}, Wf h → k ≠ .shared → 0 < n →
    (∀ q, Within q p n → Chain h q [(t, true)]) →
    ∃ r h', Aliasing.derive k t p n h = (.ok r, h') ∧ Wf h' ∧ layout h' = layout h ∧
      (∀ q c, Within q p n → Chain h q (c ++ [(t, true)]) →
        Chain h' q (c ++ [(t, true), (r, true)])) ∧
      ∀ q c, ¬ Within q p n → Chain h q c → Chain h' q c
  derive_shared : ∀ {h : H} {t w p n}, Wf h → 0 < n → (∀ q, Within q p n → Chain h q [(t, w)]) →
    ∃ r h', Aliasing.derive .shared t p n h = (.ok r, h') ∧ Wf h' ∧ layout h' = layout h ∧
      (∀ q c, Within q p n → Chain h q (c ++ [(t, w)]) → Chain h' q (c ++ [(t, w), (r, false)])) ∧
      ∀ q c, ¬ Within q p n → Chain h q c → Chain h' q c
  access_ok : ∀ {h : H} {x t w p}, Wf h → Chain h p [(t, w)] → (x = true → w = true) →
    ∃ h', Aliasing.access x t p h = (.ok (), h') ∧ Wf h' ∧ layout h' = layout h ∧
      (∀ c, Chain h p (c ++ [(t, w)]) → Chain h' p (c ++ [(t, w)])) ∧
      ∀ q c, q ≠ p → Chain h q c → Chain h' q c

/-! ### Stacked Borrows -/

namespace BorrowStack
variable {s s' : BorrowStack} {t n : Nat} {w : Bool}

/-- What an item stands for in a chain. -/
def key (i : Item) : Option (Nat × Bool) :=
  match i.perm with
  | .disabled => none
  | .sharedRO => some (i.tag, false)
  | _ => some (i.tag, true)

def Chain (s : BorrowStack) (c : List (Nat × Bool)) : Prop :=
  (c.reverse.map some).Sublist (s.map key)

theorem key_grants {i : Item} {x : Bool} (h : key i = some (t, w)) (hx : x = true → w = true) :
    i.grants x t = true := by
  unfold key at h
  unfold Item.grants
  cases hp : i.perm <;> rw [hp] at h <;> simp only [Option.some.injEq, Prod.mk.injEq] at h
  · obtain ⟨rfl, rfl⟩ := h; simp
  · obtain ⟨rfl, rfl⟩ := h; simp
  · obtain ⟨rfl, rfl⟩ := h
    cases x with
    | false => simp
    | true => cases hx rfl
  · cases h

theorem sublist_skip {α : Type} {x : α} {a b l : List α} (h : (x :: l).Sublist (a ++ b))
    (hx : x ∉ a) : (x :: l).Sublist b := by
  induction a with
  | nil => exact h
  | cons y a ih =>
    rw [List.cons_append] at h
    cases h with
    | cons _ h => exact ih h fun hm => hx (List.mem_cons_of_mem _ hm)
    | cons_cons _ h => exact absurd (List.mem_cons_self ..) hx

theorem chain_snoc (s : BorrowStack) (c : List (Nat × Bool)) (e : Nat × Bool) :
    Chain s (c ++ [e]) ↔ (some e :: c.reverse.map some).Sublist (s.map key) := by
  unfold Chain; simp

/-- Where a chain ends: at the item that grants the access, or below. -/
theorem chain_cut {x : Bool} (hx : x = true → w = true) (c : List (Nat × Bool))
    (h : Chain s (c ++ [(t, w)])) :
    ∃ g below, s.dropWhile (fun i => !i.grants x t) = g :: below ∧
      s = s.takeWhile (fun i => !i.grants x t) ++ g :: below ∧
      Chain (g :: below) (c ++ [(t, w)]) := by
  rw [chain_snoc] at h
  have hs := (List.takeWhile_append_dropWhile (p := fun i : Item => !i.grants x t) (l := s)).symm
  have h' := h
  rw [hs, List.map_append] at h'
  have hk := sublist_skip h' (fun hm => by
    obtain ⟨i, hi, hki⟩ := List.mem_map.1 hm
    have := key_grants hki hx
    have hn : ∀ (l : BorrowStack), i ∈ l.takeWhile (fun i => !i.grants x t) →
        (!i.grants x t) = true := by
      intro l
      induction l with
      | nil => intro h; cases h
      | cons a l ih =>
        rw [List.takeWhile_cons]
        split
        · intro h
          rcases List.mem_cons.1 h with rfl | h
          · assumption
          · exact ih h
        · intro h; cases h
    have h0 := hn s hi
    rw [this] at h0
    cases h0)
  cases hd : s.dropWhile (fun i => !i.grants x t) with
  | nil => rw [hd] at hk; cases hk
  | cons g below =>
    rw [hd] at hk hs
    exact ⟨g, below, rfl, hs, (chain_snoc ..).2 hk⟩

theorem Chain.mono {c : List (Nat × Bool)} {a : BorrowStack} (h : Chain s c) : Chain (a ++ s) c := by
  unfold Chain at h ⊢
  rw [List.map_append]
  exact h.trans (List.sublist_append_right ..)

theorem chain_write (h : Chain s [(t, true)]) : ∃ s', s.write t = some s' ∧
    ∀ c, Chain s (c ++ [(t, true)]) → Chain s' (c ++ [(t, true)]) := by
  obtain ⟨g, below, h1, _, _⟩ := chain_cut (x := true) (w := true) (fun _ => rfl) [] h
  refine ⟨_, by unfold write; rw [h1], fun c hc => ?_⟩
  obtain ⟨g', below', h1', _, h3⟩ := chain_cut (x := true) (fun _ => rfl) c hc
  rw [h1] at h1'
  obtain ⟨rfl, rfl⟩ := List.cons.inj h1'
  exact h3.mono

theorem chain_read (h : Chain s [(t, w)]) : ∃ s', s.read t = some s' ∧
    ∀ c, Chain s (c ++ [(t, w)]) → Chain s' (c ++ [(t, w)]) := by
  obtain ⟨g, below, h1, _, _⟩ := chain_cut (x := false) (w := w) (fun h => by cases h) [] h
  refine ⟨_, by unfold read; rw [h1], fun c hc => ?_⟩
  obtain ⟨g', below', h1', _, h3⟩ := chain_cut (x := false) (fun h => by cases h) c hc
  rw [h1] at h1'
  obtain ⟨rfl, rfl⟩ := List.cons.inj h1'
  exact h3.mono

theorem chain_push {c : List (Nat × Bool)} {e e' : Nat × Bool} {i : Item} (hi : key i = some e')
    (h : Chain s (c ++ [e])) : Chain (i :: s) (c ++ [e, e']) := by
  rw [chain_snoc] at h
  have : c ++ [e, e'] = (c ++ [e]) ++ [e'] := by simp
  rw [this, chain_snoc, List.map_cons, hi]
  simpa using h

theorem chain_derive {k : RefKind} (hk : k ≠ .shared) (h : Chain s [(t, true)]) :
    ∃ s', s.derive k t n = some s' ∧
      ∀ c, Chain s (c ++ [(t, true)]) → Chain s' (c ++ [(t, true), (n, true)]) := by
  cases k with
  | shared => exact absurd rfl hk
  | excl =>
    obtain ⟨s', h1, h2⟩ := chain_write h
    exact ⟨_, by simp only [derive, h1]; rfl, fun c hc => chain_push rfl (h2 c hc)⟩
  | raw =>
    obtain ⟨g, below, h1, _, _⟩ := chain_cut (x := true) (w := true) (fun _ => rfl) [] h
    refine ⟨_, by unfold derive; simp only [h1]; rfl, fun c hc => ?_⟩
    obtain ⟨g', below', h1', _, h3⟩ := chain_cut (x := true) (fun _ => rfl) c hc
    rw [h1] at h1'
    obtain ⟨rfl, rfl⟩ := List.cons.inj h1'
    exact (chain_push (e' := (n, true)) rfl h3.mono).mono

theorem chain_shared (h : Chain s [(t, w)]) :
    ∃ s', s.derive .shared t n = some s' ∧
      ∀ c, Chain s (c ++ [(t, w)]) → Chain s' (c ++ [(t, w), (n, false)]) := by
  obtain ⟨s', h1, h2⟩ := chain_read h
  exact ⟨_, by simp only [derive, h1]; rfl, fun c hc => chain_push rfl (h2 c hc)⟩

end BorrowStack

namespace Borrows
variable {h h' : Borrows} {p q : Ptr} {n t : Nat}

def Chain (h : Borrows) (q : Ptr) (c : List (Nat × Bool)) : Prop :=
  ∃ st, h.stackAt q = some st ∧ st.Chain c

theorem Chain.of_eq {c : List (Nat × Bool)} (e : h'.stackAt q = h.stackAt q) (hc : h.Chain q c) :
    h'.Chain q c := by
  obtain ⟨st, h1, h2⟩ := hc
  exact ⟨st, e.trans h1, h2⟩

theorem derive_chain (hw : view.Wf h) {k : RefKind} (hn : 0 < n) {e e' : Nat × Bool}
    (hf : ∀ st : BorrowStack, st.Chain [e] → ∃ st', st.derive k t h.next = some st' ∧
      ∀ c, st.Chain (c ++ [e]) → st'.Chain (c ++ [e, e']))
    (hr : ∀ q, Within q p n → h.Chain q [e]) :
    ∃ h', derive k t p n h = (.ok h.next, h') ∧ view.Wf h' ∧ h'.layout = h.layout ∧
      (∀ q c, Within q p n → h.Chain q (c ++ [e]) → h'.Chain q (c ++ [e, e'])) ∧
      ∀ q c, ¬ Within q p n → h.Chain q c → h'.Chain q c := by
  have hr' : ∀ q, Within q p n → ∃ st st', h.stackAt q = some st ∧
      st.derive k t h.next = some st' := fun q hq => by
    obtain ⟨st, h1, h2⟩ := hr q hq
    obtain ⟨st', h3, _⟩ := hf st h2
    exact ⟨st, st', h1, h3⟩
  obtain ⟨h1, e1, el, _, es⟩ := derive_ok k t hw.1 hn hr'
  obtain ⟨h2, e2, hs, _, _⟩ := derive_step hw hn hr'
  rw [e1] at e2
  cases e2
  refine ⟨h1, e1, hs.wf, el, fun q c hq hc => ?_, fun q c hq hc => hc.of_eq (by rw [es, if_neg hq])⟩
  obtain ⟨st, i1, i2⟩ := hr q hq
  obtain ⟨st', i3, i4⟩ := hf st i2
  obtain ⟨st1, i5, i6⟩ := hc
  rw [i1] at i5; cases i5
  exact ⟨st', by rw [es, if_pos hq, i1]; exact i3, i4 c i6⟩

end Borrows

open Borrows in
instance : ChainLaws Borrows where
  layout := Borrows.layout
  Wf := Borrows.view.Wf
  Chain := Borrows.Chain
  empty_wf := AliasLaws.empty_wf (H := Borrows)
  empty_layout := rfl
  nodup hw := AliasLaws.nodup (H := Borrows) hw
  sub hc hs := by
    obtain ⟨st, h1, h2⟩ := hc
    exact ⟨st, h1, ((hs.reverse).map some).trans h2⟩
  allocate_ok {h id n} hw hn := by
    obtain ⟨t, h', e, ha, hl, _⟩ := AliasLaws.allocate_ok (H := Borrows) (n := n) hw hn
    have hat := stackAt_append hn (List.replicate n [({ tag := h.next, perm := .sharedRW } : Item)])
      (h.next + 1)
    cases e
    refine ⟨_, _, rfl, ha.wf, hl, fun i hi => ⟨[⟨h.next, .sharedRW⟩], ?_, ?_⟩, fun q c hq hc =>
      hc.of_eq (by rw [hat, if_neg hq])⟩
    · rw [hat, if_pos rfl, List.getElem?_replicate, if_pos hi]
    · exact List.Sublist.refl _
  deallocate_ok {h t id n} hw hl hn hc := by
    have e := deallocate_ok (t := t) hw.1 hn hl fun q st hq hst => by
      have hlt : q.off < n := by
        obtain ⟨m, hm, hlt⟩ := stackAt_layout.1 ⟨st, hst⟩
        rw [hq] at hm
        have hm' := List.mem_of_find?_eq_some hm
        obtain ⟨b, hb, hbe⟩ := List.mem_map.1 hl
        obtain ⟨b', hb', hbe'⟩ := List.mem_map.1 hm'
        injection hbe with i1 i2
        injection hbe' with i3 i4
        have := eq_of_id hw.1 hb hb' (i1.trans i3.symm)
        rw [← i2, this, i4]
        exact hlt
      obtain ⟨st', h1, h2⟩ := hc q.off hlt
      have : (⟨id, q.off⟩ : Ptr) = q := by cases q; simp only at hq; rw [hq]
      rw [this, hst] at h1; cases h1
      obtain ⟨s', h3, _⟩ := BorrowStack.chain_write h2
      exact ⟨s', h3⟩
    refine ⟨_, e, ⟨?_, fun p st hp => ?_⟩, ?_, fun q c hq hc =>
      hc.of_eq (by rw [stackAt_filter, if_neg hq])⟩
    · exact List.Nodup.sublist (List.Sublist.map _ List.filter_sublist) hw.1
    · rw [stackAt_filter] at hp
      split at hp
      · cases hp
      · exact hw.2 p st hp
    · unfold Borrows.layout
      rw [List.filter_map]
      rfl
  derive_ok {h k t p n} hw hk hn hr := by
    obtain ⟨h', hh⟩ := derive_chain (k := k) (t := t) (e' := (h.next, true)) hw hn
      (fun st hst => BorrowStack.chain_derive hk hst) hr
    exact ⟨_, h', hh⟩
  derive_shared {h t w p n} hw hn hr := by
    obtain ⟨h', hh⟩ := derive_chain (k := .shared) (t := t) (e' := (h.next, false)) hw hn
      (fun st hst => BorrowStack.chain_shared hst) hr
    exact ⟨_, h', hh⟩
  access_ok {h x t w p} hw hc hx := by
    obtain ⟨st, h1, h2⟩ := hc
    have : ∃ st', (if x = true then BorrowStack.write t else BorrowStack.read t) st = some st' ∧
        ∀ c, st.Chain (c ++ [(t, w)]) → st'.Chain (c ++ [(t, w)]) := by
      cases x with
      | false => exact BorrowStack.chain_read h2
      | true =>
        obtain rfl := hx rfl
        exact BorrowStack.chain_write h2
    obtain ⟨st', h3, h4⟩ := this
    obtain ⟨h', e, el, en, _, es⟩ := onRange_ok (p := p) (n := 1)
      (f := if x = true then BorrowStack.write t else BorrowStack.read t) hw.1 Nat.one_pos
      fun q hq => by rw [within_one.1 hq]; exact ⟨_, _, h1, h3⟩
    obtain ⟨h'', e', hs, _, _⟩ := access_step (w := x) hw h1 h3
    have : h'' = h' := by
      have e2 : access x t p h = (.ok (), h') := e
      rw [e2] at e'; cases e'; rfl
    subst this
    refine ⟨_, e, hs.wf, el, fun c hc => ?_, fun q c hq hc =>
      hc.of_eq (by rw [es, if_neg fun hw => hq (within_one.1 hw)])⟩
    obtain ⟨st1, i1, i2⟩ := hc
    rw [h1] at i1; cases i1
    exact ⟨st', by rw [es, if_pos (within_one.2 rfl), h1]; exact h3, h4 c i2⟩

/-! ### Tree Borrows -/

namespace BorrowTree
variable {l l' : BorrowTree} {t n : Nat} {w : Bool}

/-- Whatever leads to `a` leads to `b`. -/
def Le (l : BorrowTree) (a b : Nat) : Prop :=
  ∀ x y z, l.node a = some x → l.node b = some y → z ∈ l → z.leadsTo x = true → z.leadsTo y = true

def Chain (l : BorrowTree) (c : List (Nat × Bool)) : Prop :=
  (∀ e ∈ c, Usable e.2 l e.1) ∧ c.Pairwise fun a b => Le l a.1 b.1

theorem after_mine_any {p : TreePerm} {v : Bool} (h : p.allows v = true) (w : Bool) :
    (p.after true w).allows v = true := by
  cases p <;> cases w <;> cases v <;> simp_all [TreePerm.allows, TreePerm.after]

theorem Le.refl (l : BorrowTree) (a : Nat) : Le l a a := fun x y z h1 h2 _ h3 => by
  rw [h1] at h2; cases h2; exact h3

theorem chain_last {c : List (Nat × Bool)} {e : Nat × Bool} (h : Chain l (c ++ [e])) :
    ∀ a ∈ c ++ [e], Le l a.1 e.1 := fun a ha => by
  rcases List.mem_append.1 ha with ha | ha
  · exact (List.pairwise_append.1 h.2).2.2 a ha e (List.mem_singleton.2 rfl)
  · rw [List.mem_singleton.1 ha]; exact Le.refl _ _

/-- The leads-to relation does not change in an access. -/
theorem access_le {x : Bool} (h : l.access x t = some l') {a b : Nat} (hl : Le l a b) : Le l' a b := by
  obtain ⟨g, _, rfl⟩ := access_eq h
  intro x1 y1 z h1 h2 h3 h4
  rw [node_map (by intro x; rfl)] at h1 h2
  obtain ⟨x0, i1, rfl⟩ := Option.map_eq_some_iff.1 h1
  obtain ⟨y0, i2, rfl⟩ := Option.map_eq_some_iff.1 h2
  obtain ⟨z0, i3, rfl⟩ := List.mem_map.1 h3
  exact hl x0 y0 z0 i1 i2 i3 h4

theorem access_chain {x : Bool} (h : l.access x t = some l') (c : List (Nat × Bool))
    (hc : Chain l (c ++ [(t, w)])) : Chain l' (c ++ [(t, w)]) := by
  have hlast := chain_last hc
  refine ⟨fun e he => ?_, hc.2.imp fun hl => access_le h hl⟩
  obtain ⟨b, hb, rfl⟩ := access_eq h
  obtain ⟨b', h1, h2⟩ := hc.1 e he
  refine ⟨{ b' with perm := b'.perm.after (b'.leadsTo b) x }, ?_, fun y hy hl => ?_⟩
  · rw [node_map (by intro x; rfl), h1]; rfl
  · obtain ⟨z, hz, rfl⟩ := List.mem_map.1 hy
    have hl' : z.leadsTo b' = true := hl
    have hm : z.leadsTo b = true := hlast e he b' b z h1 hb hz hl'
    simp only [hm]
    exact after_mine_any (h2 z hz hl') x

theorem node_mem_old (ho : Old n l) {a : Nat} {x : TreeNode} (h : l.node a = some x) : a < n := by
  obtain ⟨h1, h2⟩ := node_some h
  have := (ho x h1).1
  omega

/-- Looking up an old tag after a pointer was added. -/
theorem node_add_old {perm : TreePerm} {a : Nat} (ha : a < n) :
    node a (l.add perm t n) = l.node a := by
  unfold add
  split
  · rfl
  · unfold node
    have : (n == a) = false := by simp; omega
    rw [List.find?_append, List.find?_cons, List.find?_nil]
    simp only [this]
    simp

theorem add_le {perm : TreePerm} (ho : Old n l) {a b : Nat} (ha : a < n) (hb : b < n)
    (hl : Le l a b) : Le (l.add perm t n) a b := by
  intro x y z h1 h2 h3 h4
  rw [node_add_old ha] at h1
  rw [node_add_old hb] at h2
  unfold add at h3
  split at h3
  · exact hl x y z h1 h2 h3 h4
  · rcases List.mem_append.1 h3 with h3 | h3
    · exact hl x y z h1 h2 h3 h4
    · rw [List.mem_singleton.1 h3] at h4
      have hx := ho x (node_some h1).1
      unfold TreeNode.leadsTo at h4
      simp only [Bool.or_eq_true, beq_iff_eq, List.contains_iff_mem] at h4
      rcases h4 with h4 | h4
      · omega
      · have := hx.2 _ h4; omega

theorem chain_lt (ho : Old n l) {c : List (Nat × Bool)} (hc : Chain l c) {e : Nat × Bool}
    (he : e ∈ c) : e.1 < n := by
  obtain ⟨b, h1, _⟩ := hc.1 e he
  exact node_mem_old ho h1

theorem add_chain {perm : TreePerm} (ho : Old n l) {c : List (Nat × Bool)} (hc : Chain l c) :
    Chain (l.add perm t n) c :=
  ⟨fun e he => add_keeps ho (hc.1 e he), by
    refine List.Pairwise.imp_of_mem (fun {a b} ha hb hl => ?_) hc.2
    exact add_le ho (chain_lt ho hc ha) (chain_lt ho hc hb) hl⟩

theorem add_chain_new {perm : TreePerm} {v : Bool} (ho : Old n l) {c : List (Nat × Bool)}
    (hp : perm.allows v = true) (hv : v = true → w = true) (hc : Chain l (c ++ [(t, w)])) :
    Chain (l.add perm t n) (c ++ [(t, w), (n, v)]) := by
  have hk := add_chain (perm := perm) (t := t) ho hc
  have hu : Usable v l t := by
    have hu := hc.1 (t, w) (by simp)
    cases v with
    | true => rw [hv rfl] at hu; exact hu
    | false =>
      cases w with
      | false => exact hu
      | true => exact hu.weaken
  have hlast := chain_last hc
  have e : c ++ [(t, w), (n, v)] = (c ++ [(t, w)]) ++ [(n, v)] := by simp
  rw [e]
  refine ⟨fun e he => ?_, List.pairwise_append.2 ⟨hk.2, List.pairwise_singleton .., fun a ha b hb => ?_⟩⟩
  · rcases List.mem_append.1 he with he | he
    · exact hk.1 e he
    · rw [List.mem_singleton.1 he]
      exact add_new ho hu hp
  · rw [List.mem_singleton.1 hb]
    obtain ⟨b0, hb0, _⟩ := hu
    intro x y z h1 h2 h3 h4
    rw [node_add_old (chain_lt ho hc ha)] at h1
    unfold add at h2 h3
    rw [hb0] at h2 h3
    rw [node_new ho rfl] at h2
    cases h2
    rcases List.mem_append.1 h3 with h3 | h3
    · have := hlast a ha x b0 z h1 hb0 h3 h4
      unfold TreeNode.leadsTo at this ⊢
      simp only [Bool.or_eq_true, beq_iff_eq, List.contains_iff_mem, List.mem_cons] at this ⊢
      exact .inr this
    · rw [List.mem_singleton.1 h3]
      unfold TreeNode.leadsTo
      simp

end BorrowTree

namespace Trees
open BorrowTree (Usable Old)
variable {h h' : Trees} {p q : Ptr} {n t id : Nat} {w : Bool}

def Chain (h : Trees) (q : Ptr) (c : List (Nat × Bool)) : Prop :=
  ∃ l, h.locAt q = some l ∧ l.Chain c

theorem Chain.of_eq {c : List (Nat × Bool)} (e : h'.locAt q = h.locAt q) (hc : h.Chain q c) :
    h'.Chain q c := by
  obtain ⟨st, h1, h2⟩ := hc
  exact ⟨st, e.trans h1, h2⟩

theorem Touched.chain_mine {x : Bool} {c : List (Nat × Bool)} (ht : Touched x t p n h h')
    (hc : h.Chain q (c ++ [(t, w)])) : h'.Chain q (c ++ [(t, w)]) := by
  obtain ⟨l, h1, h2⟩ := hc
  obtain ⟨l', e1, e2⟩ := ht.loc q l h1
  refine ⟨l', e1, ?_⟩
  split at e2
  · exact BorrowTree.access_chain e2 c h2
  · rw [e2]; exact h2

theorem Touched.chain_out {x : Bool} {c : List (Nat × Bool)} (ht : Touched x t p n h h')
    (hq : ¬ Within q p n) (hc : h.Chain q c) : h'.Chain q c := by
  obtain ⟨l, h1, h2⟩ := hc
  obtain ⟨l', e1, e2⟩ := ht.loc q l h1
  rw [if_neg hq] at e2
  exact ⟨l', e1, e2 ▸ h2⟩

theorem Added.chain {perm : TreePerm} {c : List (Nat × Bool)} (ha : Added perm t id h h')
    (hw : view.Wf h) (hc : h.Chain q c) : h'.Chain q c := by
  obtain ⟨l, h1, h2⟩ := hc
  by_cases hq : q.block = id
  · exact ⟨_, by rw [ha.loc, if_pos hq, h1]; rfl, BorrowTree.add_chain (hw.2 q l h1) h2⟩
  · exact ⟨l, by rw [ha.loc, if_neg hq]; exact h1, h2⟩

theorem Added.chain_new {perm : TreePerm} {v : Bool} {c : List (Nat × Bool)}
    (ha : Added perm t id h h') (hw : view.Wf h) (hq : q.block = id) (hp : perm.allows v = true)
    (hv : v = true → w = true) (hc : h.Chain q (c ++ [(t, w)])) :
    h'.Chain q (c ++ [(t, w), (h.next, v)]) := by
  obtain ⟨l, h1, h2⟩ := hc
  exact ⟨_, by rw [ha.loc, if_pos hq, h1]; rfl,
    BorrowTree.add_chain_new (hw.2 q l h1) hp hv h2⟩

theorem derive_chain (hw : view.Wf h) {k : RefKind} (hk : k ≠ .raw) (hn : 0 < n) {v : Bool}
    (hp : (if k = .excl then TreePerm.reserved else .frozen).allows v = true)
    (hv : v = true → w = true) (hr : ∀ q, Within q p n → h.Chain q [(t, w)]) :
    ∃ h', derive k t p n h = (.ok h.next, h') ∧ view.Wf h' ∧ h'.layout = h.layout ∧
      (∀ q c, Within q p n → h.Chain q (c ++ [(t, w)]) →
        h'.Chain q (c ++ [(t, w), (h.next, v)])) ∧
      ∀ q c, ¬ Within q p n → h.Chain q c → h'.Chain q c := by
  have hu : ∀ q, Within q p n → ∃ l, h.locAt q = some l ∧ Usable false l t := fun q hq => by
    obtain ⟨l, h1, h2⟩ := hr q hq
    have := h2.1 (t, w) (List.mem_singleton.2 rfl)
    refine ⟨l, h1, ?_⟩
    cases w with
    | false => exact this
    | true => exact BorrowTree.Usable.weaken this
  obtain ⟨h1, e1, ht⟩ := access_touched (w := false) hn hu
  obtain ⟨l, hl, _⟩ := hu p ⟨rfl, Nat.le_refl _, by omega⟩
  obtain ⟨c, hc, _⟩ := find_of_locAt hl
  obtain ⟨c1, hc1⟩ := Touched.find e1 hc
  obtain ⟨h', e2, ha⟩ := added_of hc1 (if k = .excl then .reserved else .frozen) t
  have hs := ht.step hw
  refine ⟨h', ?_, (ha.step hs.wf).wf, (ha.layout hs.wf.1).trans (ht.layout hw.1), fun q c hq hc => ?_,
    fun q c hq hc => ha.chain hs.wf (ht.chain_out hq hc)⟩
  · rw [derive_eq hk, M.bind_ok e1, e2, ht.next]
  · have := ha.chain_new hs.wf hq.1 hp hv (ht.chain_mine hc)
    rwa [ht.next] at this

end Trees

open Trees in
instance : ChainLaws Trees where
  layout := Trees.layout
  Wf := Trees.view.Wf
  Chain := Trees.Chain
  empty_wf := AliasLaws.empty_wf (H := Trees)
  empty_layout := rfl
  nodup hw := AliasLaws.nodup (H := Trees) hw
  sub hc hs := by
    obtain ⟨st, h1, h2, h3⟩ := hc
    exact ⟨st, h1, fun e he => h2 e (hs.subset he), h3.sublist hs⟩
  allocate_ok {h id n} hw hn := by
    obtain ⟨t, h', e, ha, hl, ho⟩ := AliasLaws.allocate_ok (H := Trees) (n := n) hw hn
    have hat := locAt_append hn
      (List.replicate n [({ tag := h.next, above := [], perm := .active } : TreeNode)]) (h.next + 1)
    cases e
    refine ⟨_, _, rfl, ha.wf, hl, fun i hi => ⟨[⟨h.next, [], .active⟩], ?_, fun e he => ?_, ?_⟩,
      fun q c hq hc => hc.of_eq (by rw [hat, if_neg hq])⟩
    · rw [hat, if_pos rfl, List.getElem?_replicate, if_pos hi]
    · rw [List.mem_singleton.1 he]; exact (root_new _).usable
    · exact List.pairwise_singleton ..
  deallocate_ok {h t id n} hw hl hn hc := by
    have hwh : Trees.view.Whole h id t := fun p l hp hpl => by
      have hlt : p.off < n := by
        obtain ⟨c, h1, h2⟩ := block_of_layout hw.1 hl
        rw [locAt_of_find (c := c) (by rw [hp]; exact h1)] at hpl
        rw [← h2]; exact (List.getElem?_eq_some_iff.1 hpl).1
      obtain ⟨l', h1, h2⟩ := hc p.off hlt
      have : (⟨id, p.off⟩ : Ptr) = p := by cases p; simp only at hp; rw [hp]
      rw [this, hpl] at h1; cases h1
      exact h2.1 (t, true) (List.mem_singleton.2 rfl)
    obtain ⟨h', e, ha, hlay⟩ := AliasLaws.deallocate_ok (H := Trees) hw hwh hl hn
    refine ⟨h', e, ha.wf, hlay, fun q c hq hc => ?_⟩
    obtain ⟨c0, hc0, hcl⟩ := block_of_layout hw.1 hl
    obtain ⟨h1, e1, ht⟩ := access_touched (w := true) (t := t) (p := ⟨id, 0⟩) hn fun q hq =>
      top_of_inside hw hwh ⟨n, hl, by simp⟩ hq
    have e' : Trees.deallocate t id n h =
        (.ok (), { h1 with blocks := h1.blocks.filter fun c => c.id ≠ id }) := by
      unfold Trees.deallocate
      rw [M.get_bind, hc0]
      simp only [Option.any_some, hcl, beq_self_eq_true, if_true]
      rw [M.bind_ok e1]; rfl
    have e2 : Trees.deallocate t id n h = (.ok (), h') := e
    rw [e'] at e2
    cases e2
    exact (ht.chain_out (fun hx => hq hx.1) hc).of_eq (by rw [locAt_filter, if_neg hq])
  derive_ok {h k t p n} hw hk hn hr := by
    cases k with
    | shared => exact absurd rfl hk
    | raw =>
      refine ⟨t, h, rfl, hw, rfl, fun q c hq hc => ?_, fun q c hq hc => hc⟩
      obtain ⟨l, h1, h2⟩ := hc
      refine ⟨l, h1, fun e he => h2.1 e ?_, ?_⟩
      · simp only [List.mem_append, List.mem_cons, List.not_mem_nil, or_false] at he ⊢
        rcases he with he | he | he
        · exact .inl he
        · exact .inr he
        · exact .inr he
      · have e : c ++ [(t, true), (t, true)] = (c ++ [(t, true)]) ++ [(t, true)] := by simp
        rw [e]
        exact List.pairwise_append.2 ⟨h2.2, List.pairwise_singleton .., fun a ha b hb => by
          rw [List.mem_singleton.1 hb]; exact BorrowTree.chain_last h2 a ha⟩
    | excl =>
      obtain ⟨h', hh⟩ := derive_chain (k := .excl) (t := t) (v := true) hw (by simp) hn rfl
        (fun _ => rfl) hr
      exact ⟨_, h', hh⟩
  derive_shared {h t w p n} hw hn hr := by
    obtain ⟨h', hh⟩ := derive_chain (k := .shared) (t := t) (v := false) hw (by simp) hn rfl
      (fun h => by cases h) hr
    exact ⟨_, h', hh⟩
  access_ok {h x t w p} hw hc hx := by
    obtain ⟨h', e, ht⟩ := access_touched (w := x) (t := t) (p := p) Nat.one_pos fun q hq => by
      rw [within_one.1 hq]
      obtain ⟨l, h1, h2⟩ := hc
      have := h2.1 (t, w) (List.mem_singleton.2 rfl)
      refine ⟨l, h1, ?_⟩
      cases x with
      | true => obtain rfl := hx rfl; exact this
      | false =>
        cases w with
        | false => exact this
        | true => exact BorrowTree.Usable.weaken this
    exact ⟨h', e, (ht.step hw).wf, ht.layout hw.1, fun c hc => ht.chain_mine hc, fun q c hq hc =>
      ht.chain_out (fun hx => hq (within_one.1 hx)) hc⟩

end BST
