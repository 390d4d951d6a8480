import Verif.Proofs.Lists
import Verif.Proofs.Room
/-!
# The model trees follow the textbook insertion and deletion
-/
set_option linter.unusedSimpArgs false
namespace BST
open BSTMap Tree
open Spec (BT)
variable {K V : Type}

namespace Tree
/-- Keys, values and shape. -/
def sh (t : Tree K V) : BT (K × V) := t.bt.map (·.2)

@[simp] theorem sh_leaf : (leaf : Tree K V).sh = .nil := rfl
@[simp] theorem sh_node (p : Ptr) (l : Tree K V) (k : K) (v : V) (r : Tree K V) :
    (node p l k v r).sh = .node l.sh (k, v) r.sh := rfl

theorem ins_sh {cmp : K → K → Ordering} {k : K} {c : Probe K} (hc : Lawful cmp k c) {t : Tree K V}
    {i : Nat} {e : Option (Ptr × K × V)} (h : t.find c i = .ok e) (p : Ptr) (v : V) :
    (t.ins c p k v i).sh = t.sh.insert cmp k v := by
  induction t generalizing i with
  | leaf => rfl
  | node q l k' v' r ihl ihr =>
    rw [find] at h
    rw [ins, sh_node, BT.insert]
    rcases hc i k' with hn | hn
    · rw [hn] at h; cases h
    · rw [hn] at h ⊢
      cases ho : cmp k k' with
      | lt => rw [ho] at h; simp only [sh_node, ihl h]
      | gt => rw [ho] at h; simp only [sh_node, ihr h]
      | eq => rfl

theorem popMin_sh (p : Ptr) (k : K) (v : V) (r l : Tree K V) :
    (popMin p k v r l).1.2 = (BT.popMin (k, v) r.sh l.sh).1 ∧
      (popMin p k v r l).2.sh = (BT.popMin (k, v) r.sh l.sh).2 := by
  induction l generalizing p k v r with
  | leaf => exact ⟨rfl, rfl⟩
  | node lp ll lk lv lr ih _ =>
    obtain ⟨h1, h2⟩ := ih lp lk lv lr
    simp only [popMin, sh_node, BT.popMin, h1, h2, and_self]

theorem join_sh (l r : Tree K V) : (join l r).sh = BT.join l.sh r.sh := by
  cases l with
  | leaf => rfl
  | node lp ll lk lv lr =>
    cases r with
    | leaf => rfl
    | node rp rl rk rv rr =>
      obtain ⟨h1, h2⟩ := popMin_sh rp rk rv rr rl
      simp only [join, sh_node, BT.join, h2, ← h1]

theorem del_sh {f : K → Ordering} {c : Probe K} (hc : ∀ i x, c i x = none ∨ c i x = some (f x))
    {t : Tree K V} {i : Nat} {e : Option (Ptr × K × V)} (h : t.find c i = .ok e) :
    (t.del c i).sh = t.sh.erase f := by
  induction t generalizing i with
  | leaf => rfl
  | node q l k' v' r ihl ihr =>
    rw [find] at h
    rw [del, sh_node, BT.erase]
    rcases hc i k' with hn | hn
    · rw [hn] at h; cases h
    · rw [hn] at h ⊢
      cases ho : f k' with
      | lt => rw [ho] at h; simp only [sh_node, ihl h]
      | gt => rw [ho] at h; simp only [sh_node, ihr h]
      | eq => exact join_sh l r

theorem ins_del {c : Probe K} {p : Ptr} {k : K} {v : V} (hk : ∀ i, c i k = some .eq) {t : Tree K V}
    {i : Nat} (h : t.find c i = .ok none) : (t.ins c p k v i).del c i = t := by
  induction t generalizing i with
  | leaf => simp [ins, del, hk, join]
  | node q l k' v' r ihl ihr =>
    rw [find] at h
    rw [ins]
    cases hc : c i k' with
    | none => rw [hc] at h; cases h
    | some o =>
      rw [hc] at h
      cases o with
      | lt => simp only [del, hc, ihl h]
      | gt => simp only [del, hc, ihr h]
      | eq => cases h

theorem ins_find {c : Probe K} {p : Ptr} {k : K} {v : V} (hk : ∀ i, c i k = some .eq) {t : Tree K V}
    {i : Nat} (h : t.find c i = .ok none) : (t.ins c p k v i).find c i = .ok (some (p, k, v)) := by
  induction t generalizing i with
  | leaf => simp [ins, find, hk]
  | node q l k' v' r ihl ihr =>
    rw [find] at h
    rw [ins]
    cases hc : c i k' with
    | none => rw [hc] at h; cases h
    | some o =>
      rw [hc] at h
      cases o with
      | lt => simp only [find, hc, ihl h]
      | gt => simp only [find, hc, ihr h]
      | eq => cases h
end Tree

theorem mapM_pure_id {α : Type} (b : BT α) : b.mapM (fun e => some e) = some b := by
  induction b with
  | nil => rfl
  | node l a r ihl ihr => simp [BT.mapM, ihl, ihr]

theorem InsSeq.sh {cmp : K → K → Ordering} {u w : Tree K V} {l : List (K × V)}
    (h : InsSeq (Lawful cmp) u l w) : w.sh = u.sh.insertList cmp l := by
  induction h with
  | nil => rfl
  | cons c p e hc hf _ ih => rw [ih, ins_sh hc hf]; rfl

theorem InsSeq.size_le {ok : K → Probe K → Prop} {u w : Tree K V} {l : List (K × V)}
    (h : InsSeq ok u l w) : w.size ≤ u.size + l.length := by
  induction h with
  | nil => simp
  | cons c p e hc hf _ ih =>
    refine Nat.le_trans ih ?_
    have := ins_size_le (p := p) (v := by assumption) (k := by assumption) hf
    rw [List.length_cons]; omega

/-- Storage that is full and cannot grow, although the allocator never refuses, is
huge. -/
theorem full_huge {T : Type} {cfg : Cfg} (he : 0 < cfg.esize) (ha : ∀ id n, cfg.allocOk id n = true)
    {a : Arena T} (h : a.Inv cfg) {o : Out Unit} (hp : Arena.pushChunk cfg a = (o, a)) :
    o = .panic ∧ isizeMax < (a.capacity + 8) * cfg.esize ∨ o = .ok () := by
  rw [Arena.pushChunk_eq h] at hp
  rw [h.cap]
  split at hp
  · next hc => cases hp; exact Or.inl ⟨rfl, by omega⟩
  · rw [if_pos (ha _ _)] at hp
    exact Or.inr (congrArg Prod.fst hp).symm

theorem Slab.Full.huge {cfg : Cfg} (he : 0 < cfg.esize) (ha : ∀ id n, cfg.allocOk id n = true)
    {m : BSTMap K V} {t : Tree K V} (h : Shape cfg m t) (hf : m.nodes.Full cfg) :
    isizeMax < (t.size + 8) * cfg.esize := by
  obtain ⟨fr, hi⟩ := h.slab
  obtain ⟨h1, h2, h3⟩ := hf
  have hl := h.len_eq
  have : t.size = m.nodes.items.capacity := by
    have : m.nodes.capacity = m.nodes.items.capacity := rfl
    omega
  rw [this]
  rcases h3 with h3 | h3
  · rcases full_huge he ha hi.items h3 with h | h
    · exact h.2
    · cases h
  · rcases full_huge he ha hi.items h3 with h | h
    · cases h.1
    · cases h

/-- Growing to a moderate capacity succeeds. -/
theorem grow_moderate {cfg : Cfg} (he : 0 < cfg.esize) (ha : ∀ id n, cfg.allocOk id n = true)
    {m : BSTMap K V} {t : Tree K V} (h : Shape cfg m t) {n : Nat}
    (hn : (n + 8) * cfg.esize ≤ isizeMax) :
    ∃ m', onNodes (Slab.onItems (Arena.growTo cfg n)) m = (.ok (), m') ∧ Kept cfg m m' t ∧
      Arena.Grows cfg m.nodes.items m'.nodes.items ∧ n ≤ m'.capacity := by
  obtain ⟨o, m1, hg, hk, hgr, ⟨rfl, hcap⟩ | ⟨hlt, ho, hpc⟩⟩ := grow_spec h n
  · exact ⟨m1, hg, hk, hgr, hcap⟩
  · exfalso
    obtain ⟨fr, hi⟩ := hk.shape.slab
    rcases full_huge he ha hi.items hpc with ⟨_, h1⟩ | rfl
    · have hle : m1.nodes.items.capacity + 8 ≤ n + 8 := by
        have : m1.capacity = m1.nodes.items.capacity := rfl
        omega
      have := Nat.mul_le_mul_right cfg.esize hle
      omega
    · rcases ho with h | h <;> cases h

/-- Insertions that keep the map of moderate size succeed. -/
theorem insertAll_moderate {cfg : Cfg} (he : 0 < cfg.esize) (ha : ∀ id n, cfg.allocOk id n = true)
    {cmps : Nat → K → Probe K} (hc : ∀ n k i x, cmps n k i x ≠ none) {l : List (K × V)}
    {m : BSTMap K V} {t : Tree K V} (h : Shape cfg m t) (n : Nat)
    (hn : (t.size + l.length + 8) * cfg.esize ≤ isizeMax) :
    ∃ m', insertAll cfg cmps n l m = (.ok (), m') := by
  obtain ⟨o, m', w, l', e1, e2, e3, _, _, e6⟩ := insertAll_spec (ok := Anything) (n := n) (l := l)
    (cmps := cmps) (fun _ _ => trivial) h
  rcases e6 with ⟨rfl, _⟩ | ⟨k, v, l'', rfl, hst⟩
  · exact ⟨m', e1⟩
  · exfalso
    have hfull : m'.nodes.Full cfg := by
      obtain ⟨e, he⟩ := find_total (hc (n + l'.length) k) 0 w
      generalize cmps (n + l'.length) k = c at hst he
      cases hst with
      | cmp hp => cases he.symm.trans hp
      | memP _ hfull => exact hfull
      | memA _ hfull => exact hfull
    have h1 := hfull.huge he ha e2
    have h2 := e3.size_le
    rw [List.length_append, List.length_cons] at hn
    have : w.size + 8 ≤ t.size + (l'.length + (l''.length + 1)) + 8 := by omega
    have := Nat.mul_le_mul_right cfg.esize this
    omega

end BST
