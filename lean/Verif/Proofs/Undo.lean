import Verif.Proofs.Client
import Verif.Proofs.Room
import Verif.Proofs.Textbook
import Verif.History
/-!
# Insertions undone by removals
-/
namespace BST
variable {K V : Type}

namespace Tree
variable {p : Ptr} {k : K} {v : V} {i : Nat} {t : Tree K V}

theorem sub_root_mem {path : List Bool} {l r : Tree K V} (h : t.sub path = node p l k v r) :
    p ∈ t.ptrs := by
  induction path generalizing t with
  | nil => cases h; simp [ptrs]
  | cons b path ih =>
    cases t with
    | leaf => cases b <;> cases h
    | node q l' k' v' r' =>
      cases b
      · simp [ptrs, ih (t := l') h]
      · simp [ptrs, ih (t := r') h]

/-- Removing a leaf, and inserting it again. -/
theorem del_ins_leaf {c : Probe K} {path : List Bool} {k0 : K} {v0 : V} (hn : t.ptrs.Nodup)
    (h : t.find c i = .ok (some (p, k0, v0))) (hl : t.sub path = node p leaf k v leaf) :
    (k0, v0) = (k, v) ∧ (t.del c i).find c i = .ok none ∧ (t.del c i).ins c p k v i = t := by
  induction t generalizing i path with
  | leaf => cases h
  | node q l k' v' r ihl ihr =>
    have hm : ∀ {u : Tree K V} {j : Nat}, u.find c j = .ok (some (p, k0, v0)) → p ∈ u.ptrs := fun h =>
      ptr_mem_of_ino (find_mem h)
    simp only [ptrs, List.nodup_cons, List.mem_append, not_or, List.nodup_append] at hn
    obtain ⟨⟨hql, hqr⟩, hnl, hnr, hlr⟩ := hn
    simp only [find] at h
    cases hc : c i k' with
    | none => rw [hc] at h; cases h
    | some o =>
      rw [hc] at h
      cases o with
      | lt =>
        have hp := hm h
        cases path with
        | nil => cases hl; exact absurd hp hql
        | cons b path =>
          cases b with
          | true => exact absurd rfl (hlr p hp p (sub_root_mem hl))
          | false =>
            obtain ⟨h1, h2, h3⟩ := ihl hnl h hl
            simp only [del, hc, find, ins, h2, h3, h1, and_self]
      | gt =>
        have hp := hm h
        cases path with
        | nil => cases hl; exact absurd hp hqr
        | cons b path =>
          cases b with
          | false => exact absurd rfl (hlr p (sub_root_mem hl) p hp)
          | true =>
            obtain ⟨h1, h2, h3⟩ := ihr hnr h hl
            simp only [del, hc, find, ins, h2, h3, h1, and_self]
      | eq =>
        cases h
        cases path with
        | nil => cases hl; simp [del, hc, join, find, ins]
        | cons b path =>
          cases b with
          | false => exact absurd (sub_root_mem (t := l) hl) hql
          | true => exact absurd (sub_root_mem (t := r) hl) hqr

end Tree

namespace BSTMap
variable {cfg : Cfg} {m m' : BSTMap K V} {t : Tree K V} {c : Probe K} {k : K} {v : V}

theorem insert_undo (h : Shape cfg m t) (hk : ∀ i, c i k = some .eq)
    (hi : insert cfg c k v m = (.ok none, m')) :
    ∃ p m'', Shape cfg m' (t.ins c p k v 0) ∧ t.find c 0 = .ok none ∧
      removeEntry cfg c m' = (.ok (some (k, v)), m'') ∧ Shape cfg m'' t ∧
      m''.capacity = m'.capacity ∧ m''.nodes.items.log = m'.nodes.items.log ∧
      m''.nodes.dropped = m.nodes.dropped ∧ m''.nodes.freeHead = some p := by
  rcases insert_spec h c k v with ⟨_, hi'⟩ | ⟨q, k0, v0, x, m1, _, hi', _⟩ |
    ⟨hf, p, m1, hi', h', ha⟩ | ⟨_, _, hi' | hi'⟩
  · cases hi'.symm.trans hi
  · cases hi'.symm.trans hi
  · cases hi'.symm.trans hi
    have hf' := Tree.ins_find (p := p) (v := v) hk hf
    have hd := Tree.ins_del (p := p) (v := v) hk hf
    rcases removeEntry_spec h' c with ⟨h1, _⟩ | ⟨h1, _⟩ | ⟨e, m'', h1, h2, h3, h4, h5, h6, _, _, h7⟩
    · cases hf'.symm.trans h1
    · cases hf'.symm.trans h1
    · cases hf'.symm.trans h1
      rw [hd] at h3
      exact ⟨p, m'', h', hf, h2, h3, h5, h6, h4.trans ha.dropped, h7⟩
  · cases hi'.symm.trans hi
  · cases hi'.symm.trans hi

/-- The slot freed last is the one of the next new entry. -/
theorem insert_last (h : Shape cfg m t) {p : Ptr} (hp : m.nodes.freeHead = some p)
    (hf : t.find c 0 = .ok none) (k : K) (v : V) :
    ∃ m', insert cfg c k v m = (.ok none, m') ∧ Shape cfg m' (t.ins c p k v 0) ∧
      m'.capacity = m.capacity ∧ m'.nodes.items.log = m.nodes.items.log := by
  have hfree : m.nodes.freeLen ≠ 0 := by
    obtain ⟨fr, hf⟩ := h.slab
    have h1 := hf.chain
    have h2 := hf.flen
    rw [hp] at h1
    cases fr with
    | nil => exact h1.elim
    | cons q l => simp at h2; omega
  rcases insert_spec h c k v with ⟨h1, _⟩ | ⟨q, k0, v0, x, m1, h1, _⟩ | ⟨_, q, m1, h1, h2, h3⟩ | ⟨_, h1, _⟩
  · cases hf.symm.trans h1
  · cases hf.symm.trans h1
  · cases h3.last p hp
    obtain ⟨h4, _, h5⟩ := h3.reuse hfree
    exact ⟨m1, h1, h2, h5, h4⟩
  · exact absurd h1.1 hfree

end BSTMap

/-! ### Histories -/

theorem history_append (cfg : Cfg) (ops ops' : List (Op K V)) (m : BSTMap K V)
    (h : ∀ o ∈ (history cfg ops m).1, ∃ r, o = .ok r) :
    history cfg (ops ++ ops') m = ((history cfg ops m).1 ++ (history cfg ops' (history cfg ops m).2).1,
      (history cfg ops' (history cfg ops m).2).2) := by
  induction ops generalizing m with
  | nil => rfl
  | cons op ops ih =>
    simp only [List.cons_append, history] at h ⊢
    cases hr : op.run cfg m with
    | mk o m1 =>
      rw [hr] at h
      cases o with
      | ok r =>
        simp only at h ⊢
        rw [ih m1 fun o ho => h o (List.mem_cons_of_mem _ ho)]
        rfl
      | panic => obtain ⟨r, hr⟩ := h .panic (List.mem_cons_self ..); cases hr
      | abort => obtain ⟨r, hr⟩ := h .abort (List.mem_cons_self ..); cases hr
      | ub => obtain ⟨r, hr⟩ := h .ub (List.mem_cons_self ..); cases hr
      | diverge => obtain ⟨r, hr⟩ := h .diverge (List.mem_cons_self ..); cases hr

theorem history_ok_cons {cfg : Cfg} {op : Op K V} {ops : List (Op K V)} {m m1 : BSTMap K V} {r : Ret K V}
    (h : op.run cfg m = (.ok r, m1)) :
    history cfg (op :: ops) m = (.ok r :: (history cfg ops m1).1, (history cfg ops m1).2) := by
  simp only [history, h]

/-- Insertions of new keys, undone in the opposite order. -/
theorem history_undo {cfg : Cfg} (l : List (Probe K × K × V)) (hl : ∀ e ∈ l, ∀ i, e.1 i e.2.1 = some .eq)
    {m m1 : BSTMap K V} {t : Tree K V} (h : Shape cfg m t)
    (hi : history cfg (l.map fun e => .insert e.1 e.2.1 e.2.2) m = (l.map fun _ => .ok (.value none), m1)) :
    ∃ m2, history cfg (l.reverse.map fun e => .removeEntry e.1) m1 =
        (l.reverse.map fun e => .ok (.entry (some e.2)), m2) ∧ Shape cfg m2 t ∧
      m2.capacity = m1.capacity ∧ m2.nodes.items.log = m1.nodes.items.log := by
  induction l generalizing m t with
  | nil => cases hi; exact ⟨_, rfl, h, rfl, rfl⟩
  | cons e l ih =>
    obtain ⟨c, k, v⟩ := e
    have hk : ∀ i, c i k = some .eq := hl _ (List.mem_cons_self ..)
    obtain ⟨m', h1, h2⟩ : ∃ m', BSTMap.insert cfg c k v m = (.ok none, m') ∧
        history cfg (l.map fun e => .insert e.1 e.2.1 e.2.2) m' = (l.map fun _ => .ok (.value none), m1) := by
      simp only [List.map_cons, history, Op.run] at hi
      cases hr : BSTMap.insert cfg c k v m with
      | mk o m' =>
        rw [M.bind_apply, hr] at hi
        cases o with
        | ok r =>
          simp only [M.pure_apply, Prod.mk.injEq, List.cons.injEq, Out.ok.injEq, Ret.value.injEq] at hi
          obtain ⟨⟨rfl, h1⟩, h2⟩ := hi
          exact ⟨m', rfl, Prod.ext h1 h2⟩
        | _ => simp at hi
    obtain ⟨p, _, h', hf, _⟩ := BSTMap.insert_undo h hk h1
    obtain ⟨m2, g1, g2, g3, g4⟩ := ih (fun e he => hl e (List.mem_cons_of_mem _ he)) h' h2
    rcases BSTMap.removeEntry_spec g2 c with ⟨e1, _⟩ | ⟨e1, _⟩ | ⟨e, m3, e1, e2, e3, _, e5, e6, _⟩
    · cases (Tree.ins_find (p := p) (v := v) hk hf).symm.trans e1
    · cases (Tree.ins_find (p := p) (v := v) hk hf).symm.trans e1
    · cases (Tree.ins_find (p := p) (v := v) hk hf).symm.trans e1
      rw [Tree.ins_del hk hf] at e3
      refine ⟨m3, ?_, e3, e5.trans g3, e6.trans g4⟩
      rw [List.reverse_cons, List.map_append, history_append, g1]
      · rw [List.map_cons, List.map_nil, history_ok_cons (m1 := m3) (r := .entry (some (k, v)))]
        · simp [history]
        · show (BSTMap.removeEntry cfg c >>= _) m2 = _
          rw [M.bind_ok e2]; rfl
      · rw [g1]
        intro o ho
        obtain ⟨e, _, rfl⟩ := List.mem_map.1 ho
        exact ⟨_, rfl⟩

end BST
