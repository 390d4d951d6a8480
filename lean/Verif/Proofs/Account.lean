import Verif.Account
import Verif.Proofs.Conform
/-!
# Lemmas on the bookkeeping of keys and values
-/
set_option linter.unusedSimpArgs false
namespace BST
open BSTMap Tree
open Spec (BT Order overwritten setAt)
variable {K V : Type} {cfg : Cfg}

/-! ### Methods that do not touch a ghost field -/

/-- The method leaves `g` as it is, whatever happens. -/
def M.Keeps {σ α β : Type} (g : σ → β) (f : M σ α) : Prop := ∀ s, g (f s).2 = g s

namespace M.Keeps
variable {σ α α' β : Type} {g : σ → β}

theorem pure (a : α) : M.Keeps g (Pure.pure a : M σ α) := fun _ => rfl
theorem read (f : σ → Out α) : M.Keeps g (M.read f) := fun _ => rfl
theorem get : M.Keeps g (M.get : M σ σ) := fun _ => rfl
theorem lift (o : Out α) : M.Keeps g (M.lift o : M σ α) := fun _ => rfl

theorem bind {f : M σ α} {k : α → M σ α'} (hf : M.Keeps g f) (hk : ∀ a, M.Keeps g (k a)) :
    M.Keeps g (f >>= k) := by
  intro s
  have h1 := hf s
  show g (M.bind f k s).2 = g s
  unfold M.bind
  cases hr : f s with
  | mk o s' =>
    rw [hr] at h1
    cases o with
    | ok a => exact (hk a s').trans h1
    | _ => exact h1

theorem eq {f : M σ α} (hf : M.Keeps g f) {s s' : σ} {o : Out α} (h : f s = (o, s')) : g s' = g s := by
  have := hf s
  rw [h] at this
  exact this
end M.Keeps

theorem Slab.keeps_onItems {T α : Type} (f : M (Arena (Entry T)) α) :
    M.Keeps Slab.dropped (Slab.onItems f) := fun _ => rfl

theorem keeps_writeValue (p : Ptr) (w : V) :
    M.Keeps Slab.dropped (writeValue p w : M (Nodes K V) Unit) := by
  unfold writeValue Slab.updateUnchecked
  exact .bind (.read _) fun _ => Slab.keeps_onItems _

theorem keeps_swapValue (p : Ptr) (w : V) :
    M.Keeps Slab.dropped (swapValue p w : M (Nodes K V) V) := by
  unfold swapValue
  exact .bind (.read _) fun _ => .bind (keeps_writeValue p w) fun _ => .pure _

theorem keeps_onNodes {α : Type} {f : M (Nodes K V) α} (h : M.Keeps Slab.dropped f) :
    M.Keeps (fun m : BSTMap K V => m.nodes.dropped) (onNodes f) := by
  intro m
  have := h m.nodes
  unfold onNodes
  cases hr : f m.nodes with
  | mk o s => rw [hr] at this; exact this

theorem keeps_clientRun (o : Order) (steps : List (Step V)) : ∀ (refs : List (K × Ptr)) (st : Stack),
    M.Keeps (fun m : BSTMap K V => m.nodes.dropped) (clientRun o steps refs st) := by
  induction steps with
  | nil => intro refs st; exact .pure _
  | cons s steps ih =>
    intro refs st
    cases s with
    | next => exact .bind (.read _) fun _ => ih _ _
    | write i v =>
      unfold clientRun
      cases refs[i]? with
      | none => exact .bind (.pure _) fun _ => ih _ _
      | some r => exact .bind (keeps_onNodes (keeps_writeValue _ _)) fun _ => ih _ _

theorem keeps_clientMut (o : Order) (steps : List (Step V)) :
    M.Keeps (fun m : BSTMap K V => m.nodes.dropped) (clientMut (K := K) o steps) := by
  unfold clientMut
  exact .bind (.read _) fun _ => .bind (keeps_clientRun _ _ _ _) fun _ => .pure _

/-! ### Lists -/

theorem overwritten_perm (ws : List (Nat × V)) (l : List (K × V)) (h : ∀ w ∈ ws, w.1 < l.length) :
    (ws.map (·.2) ++ l.map (·.2)).Perm (overwritten ws l ++ (ws.foldl setAt l).map (·.2)) := by
  induction ws generalizing l with
  | nil => exact List.Perm.refl _
  | cons w ws ih =>
    have hw := h w (by simp)
    have hlen : (setAt l w).length = l.length := by simp [setAt]
    have := ih (setAt l w) (fun x hx => by rw [hlen]; exact h x (by simp [hx]))
    simp only [List.map_cons, overwritten, List.foldl_cons, List.getElem?_eq_getElem hw,
      Option.map_some, Option.toList_some]
    refine List.Perm.trans ?_ (List.Perm.append_left [l[w.1].2] this)
    have hl : l = l.take w.1 ++ l[w.1] :: l.drop (w.1 + 1) := by
      rw [List.getElem_cons_drop, List.take_append_drop]
    have hs : setAt l w = l.take w.1 ++ (l[w.1].1, w.2) :: l.drop (w.1 + 1) := by
      unfold setAt
      rw [List.modify_eq_take_cons_drop hw]
    rw [hs]
    conv => lhs; rw [hl]
    classical
    rw [List.perm_iff_count]
    intro a
    simp only [List.map_append, List.map_cons, List.count_append, List.count_cons, List.cons_append,
      List.nil_append]
    omega

theorem writes_lt (n : Nat) (steps : List (Step V)) : ∀ c, c ≤ n → ∀ w ∈ writes n c steps, w.1 < n := by
  induction steps with
  | nil => intro c _ w hw; cases hw
  | cons s steps ih =>
    intro c hc w hw
    cases s with
    | next => exact ih _ (by omega) w hw
    | write i v =>
      unfold writes at hw
      split at hw
      · rcases List.mem_cons.1 hw with rfl | hw
        · simp only; omega
        · exact ih c hc w hw
      · exact ih c hc w hw

/-! ### Balances -/

/-- Nothing appears or disappears: what moved in and what was there is what moved out, what is
there and what was dropped. -/
structure Balanced (t t' : Tree K V) (vin vout : List V) (kin kout : List K)
    (gone : List (K × V)) : Prop where
  values : (vin ++ t.kv.map (·.2)).Perm (vout ++ (t'.kv.map (·.2) ++ gone.map (·.2)))
  keys : (kin ++ t.kv.map (·.1)).Perm (kout ++ (t'.kv.map (·.1) ++ gone.map (·.1)))

theorem Balanced.same (t : Tree K V) : Balanced t t [] [] [] [] [] := by
  constructor <;> simp

theorem Balanced.trans {t t1 t2 : Tree K V} {vi vi' vo vo' : List V} {ki ki' ko ko' : List K}
    {g g' : List (K × V)} (h : Balanced t t1 vi vo ki ko g) (h' : Balanced t1 t2 vi' vo' ki' ko' g') :
    Balanced t t2 (vi ++ vi') (vo ++ vo') (ki ++ ki') (ko ++ ko') (g ++ g') := by
  classical
  have a1 := h.values
  have a2 := h.keys
  have b1 := h'.values
  have b2 := h'.keys
  rw [List.perm_iff_count] at a1 a2 b1 b2
  constructor <;> rw [List.perm_iff_count]
  · intro a
    have a1 := a1 a
    have b1 := b1 a
    simp only [List.map_append, List.count_append] at a1 b1 ⊢
    omega
  · intro a
    have a1 := a2 a
    have b1 := b2 a
    simp only [List.map_append, List.count_append] at a1 b1 ⊢
    omega

theorem Balanced.ins {t : Tree K V} {c : Probe K} {e : Option (Ptr × K × V)} (p : Ptr) (k : K) (v : V)
    (hf : t.find c 0 = .ok e) : Balanced t (t.ins c p k v 0) [v] (e.map (·.2.2)).toList
      (if e.isNone then [k] else []) [] [] := by
  classical
  cases e with
  | none =>
    obtain ⟨a, b, h1, h2⟩ := ins_ino_miss (p := p) (k := k) (v := v) hf
    constructor <;> rw [List.perm_iff_count] <;> intro x <;> simp only [Tree.kv, h1, h2, List.map_append,
      List.map_cons, List.map_nil, List.count_append, List.count_cons, Option.map_none,
      Option.toList_none, List.count_nil, Option.isNone_none, if_true] <;> omega
  | some e =>
    obtain ⟨q, k0, v0⟩ := e
    obtain ⟨a, b, h1, h2⟩ := ins_ino_hit (p := p) (k := k) (v := v) hf
    constructor <;> rw [List.perm_iff_count] <;> intro x <;> simp only [Tree.kv, h1, h2, List.map_append,
      List.map_cons, List.map_nil, List.count_append, List.count_cons, Option.map_some,
      Option.toList_some, List.count_nil, Option.isNone_some, Bool.false_eq_true, if_false] <;> omega

theorem Balanced.del {t : Tree K V} {c : Probe K} {e : Option (Ptr × K × V)}
    (hf : t.find c 0 = .ok e) : Balanced t (t.del c 0) [] (e.map (·.2.2)).toList []
      (e.map (·.2.1)).toList [] := by
  classical
  cases e with
  | none => rw [del_ino_miss hf]; exact .same t
  | some e =>
    obtain ⟨a, b, h1, h2⟩ := del_ino_hit hf
    constructor <;> rw [List.perm_iff_count] <;> intro x <;> simp only [Tree.kv, h1, h2, List.map_append,
      List.map_cons, List.map_nil, List.count_append, List.count_cons, Option.map_some,
      Option.toList_some, List.count_nil, Option.isNone_some, Bool.false_eq_true, if_false] <;> omega

theorem Balanced.setV {t : Tree K V} (hn : t.ptrs.Nodup) {q : Ptr} {k : K} {v : V}
    (hq : (q, k, v) ∈ t.ino) (w : V) : Balanced t (t.setV q w) [w] [v] [] [] [] := by
  classical
  obtain ⟨a, b, h1⟩ := List.append_of_mem hq
  have hnd : (t.ino.map (·.1)).Nodup := (t.ino_ptrs_perm.nodup_iff).2 hn
  have hne : ∀ e ∈ a ++ b, e.1 ≠ q := by
    intro e he e0
    rw [h1] at hnd
    simp only [List.map_append, List.map_cons] at hnd
    have := (List.perm_middle.nodup_iff).1 hnd
    rw [List.nodup_cons] at this
    apply this.1
    rw [← List.map_append, ← e0]
    exact List.mem_map.2 ⟨e, he, rfl⟩
  have hid : ∀ l : List (Ptr × K × V), (∀ e ∈ l, e.1 ≠ q) → l.map (setE q w) = l := by
    intro l hl
    conv => rhs; rw [← List.map_id l]
    exact List.map_congr_left fun e he => by simp [setE, hl e he]
  have h2 : (t.setV q w).ino = a ++ (q, k, w) :: b := by
    rw [setV_ino, h1, List.map_append, List.map_cons, hid a fun e he => hne e (by simp [he]),
      hid b fun e he => hne e (by simp [he])]
    simp [setE]
  constructor <;> rw [List.perm_iff_count] <;> intro x <;> simp only [Tree.kv, h1, h2, List.map_append,
      List.map_cons, List.map_nil, List.count_append, List.count_cons, List.count_nil] <;> omega

/-- The trace of a loop of `insert` calls is balanced. -/
theorem insertTrace_spec {cmps : Nat → K → Probe K} {l : List (K × V)} : ∀ {n : Nat}
    {m : BSTMap K V} {t : Tree K V}, Shape cfg m t →
    ∃ o m' t', insertAll cfg cmps n l m = (o, m') ∧ Shape cfg m' t' ∧ o.Safe ∧
      m'.nodes.dropped = m.nodes.dropped ∧
      ((insertTrace cfg cmps n l m).map (·.1)) <+: l ∧
      (o = .ok () → (insertTrace cfg cmps n l m).map (·.1) = l) ∧
      (∀ e ∈ t.ino, ∃ v, (e.1, e.2.1, v) ∈ t'.ino) ∧
      Balanced t t' ((insertTrace cfg cmps n l m).map (·.1.2))
        ((insertTrace cfg cmps n l m).filterMap (·.2))
        (((insertTrace cfg cmps n l m).filter fun x => x.2.isNone).map (·.1.1)) [] [] := by
  induction l with
  | nil =>
    intro n m t h
    exact ⟨.ok (), m, t, rfl, h, trivial, rfl, by simp [insertTrace], fun _ => rfl,
      fun e he => ⟨e.2.2, he⟩, .same t⟩
  | cons x l ih =>
    intro n m t h
    obtain ⟨k, v⟩ := x
    rcases insert_cases h (cmps n k) k v with ⟨e, p, m1, hf, hi, hs, hd, _⟩ | ⟨o, hi, ho⟩
    · obtain ⟨o, m', t', h1, h2, h3, h4, h5, h6, h7, h8⟩ := ih (n := n + 1) hs
      have htr : insertTrace cfg cmps n ((k, v) :: l) m =
          ((k, v), e.map (·.2.2)) :: insertTrace cfg cmps (n + 1) l m1 := by
        simp only [insertTrace, hi]
      refine ⟨o, m', t', ?_, h2, h3, h4.trans hd, ?_, ?_, ?_, ?_⟩
      · rw [insertAll, M.bind_ok hi]; exact h1
      · rw [htr]; simpa using h5
      · intro ho; rw [htr]; simpa using h6 ho
      · intro x hx
        have : ∃ v', (x.1, x.2.1, v') ∈ (t.ins (cmps n k) p k v 0).ino := by
          cases e with
          | none =>
            obtain ⟨a, b, e1, e2⟩ := ins_ino_miss (p := p) (k := k) (v := v) hf
            rw [e1] at hx
            rw [e2]
            refine ⟨x.2.2, ?_⟩
            simp only [List.mem_append, List.mem_cons] at hx ⊢
            rcases hx with hx | hx <;> simp [hx]
          | some y =>
            obtain ⟨q, k0, v0⟩ := y
            obtain ⟨a, b, e1, e2⟩ := ins_ino_hit (p := p) (k := k) (v := v) hf
            rw [e1] at hx
            rw [e2]
            simp only [List.mem_append, List.mem_cons] at hx ⊢
            rcases hx with hx | rfl | hx
            · exact ⟨x.2.2, Or.inl hx⟩
            · exact ⟨v, Or.inr (Or.inl rfl)⟩
            · exact ⟨x.2.2, Or.inr (Or.inr hx)⟩
        obtain ⟨v', hv'⟩ := this
        exact h7 (x.1, x.2.1, v') hv'
      · rw [htr]
        have := (Balanced.ins p k v hf).trans h8
        cases e <;> simpa [List.filter_cons] using this
    · have htr : insertTrace cfg cmps n ((k, v) :: l) m = [] := by
        rcases ho with ⟨rfl, _⟩ | ⟨rfl | rfl, _⟩ <;> simp only [insertTrace, hi]
      rw [htr]
      rcases ho with ⟨rfl, _⟩ | ⟨rfl | rfl, _⟩
      · exact ⟨.panic, m, t, by rw [insertAll]; exact M.bind_panic hi, h, trivial, rfl, by simp, by simp,
          fun e he => ⟨e.2.2, he⟩, .same t⟩
      · exact ⟨.panic, m, t, by rw [insertAll]; exact M.bind_panic hi, h, trivial, rfl, by simp, by simp,
          fun e he => ⟨e.2.2, he⟩, .same t⟩
      · exact ⟨.abort, m, t, by rw [insertAll]; exact M.bind_abort hi, h, trivial, rfl, by simp, by simp,
          fun e he => ⟨e.2.2, he⟩, .same t⟩

theorem Out.Safe.cases {o : Out Unit} (h : o.Safe) : o = .ok () ∨ o = .panic ∨ o = .abort := by
  cases o with
  | ok a => exact Or.inl rfl
  | panic => simp
  | abort => simp
  | ub => cases h
  | diverge => cases h

end BST
