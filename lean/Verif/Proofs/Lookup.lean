import Verif.Proofs.Content
/-!
# Reads and writes of reachable maps in terms of the in-order list
-/
set_option linter.unusedSimpArgs false
namespace BST
open BSTMap Tree
open Spec (BT)
variable {K V : Type}

section
variable {cfg : Cfg} {cmp : K → K → Ordering} {m : BSTMap K V} {t : Tree K V} {f : K → Ordering}

theorem find_query (hf : Spec.LawfulQuery cmp f) (hs : t.SortedBy cmp) :
    ∃ e, t.find (query f) 0 = .ok e ∧ e.map (·.2) = Spec.lookup (Spec.hitOf f) t.kv :=
  find_kv hf 0 hs

theorem getEntry_query (h : Shape cfg m t) (hf : Spec.LawfulQuery cmp f) (hs : t.SortedBy cmp) :
    m.getEntry (query f) = .ok (Spec.lookup (Spec.hitOf f) t.kv) := by
  obtain ⟨e, h1, h2⟩ := find_query hf hs
  rw [getEntry_spec h, h1, ← h2]; rfl

theorem get_query (h : Shape cfg m t) (hf : Spec.LawfulQuery cmp f) (hs : t.SortedBy cmp) :
    m.get (query f) = .ok ((Spec.lookup (Spec.hitOf f) t.kv).map (·.2)) := by
  obtain ⟨e, h1, h2⟩ := find_query hf hs
  rw [get_spec h, h1, ← h2]
  cases e <;> rfl

theorem containsKey_query (h : Shape cfg m t) (hf : Spec.LawfulQuery cmp f) (hs : t.SortedBy cmp) :
    m.containsKey (query f) = .ok (Spec.lookup (Spec.hitOf f) t.kv).isSome := by
  obtain ⟨e, h1, h2⟩ := find_query hf hs
  rw [containsKey_spec h, h1, ← h2]
  cases e <;> rfl
end

theorem ins_query {cmp : K → K → Ordering} [Std.TransCmp cmp] {t : Tree K V} (hs : t.SortedBy cmp)
    (p : Ptr) (k : K) (v : V) :
    (t.ins (query (cmp k)) p k v 0).kv.Perm (Spec.insert (Spec.hitOf (cmp k)) k v t.kv) ∧
      (t.ins (query (cmp k)) p k v 0).SortedBy cmp := ins_kv hs p k v 0

/-! ### Association lists with distinct keys -/

/-- Pairwise different keys. -/
def Distinct (cmp : K → K → Ordering) (l : List (K × V)) : Prop :=
  l.Pairwise fun a b => cmp a.1 b.1 ≠ .eq

theorem Distinct.of_sorted {cmp : K → K → Ordering} {l : List (K × V)} (h : Spec.Sorted cmp l) :
    Distinct cmp l := List.Pairwise.imp (fun h => by rw [h]; simp) h

theorem Distinct.perm {cmp : K → K → Ordering} [Std.TransCmp cmp] {l l' : List (K × V)}
    (h : Distinct cmp l) (hp : l.Perm l') : Distinct cmp l' :=
  List.Pairwise.perm h hp (fun h h' => h (Std.OrientedCmp.eq_symm h'))

/-- Two keys hit by the same lawful query are equal in the order. -/
theorem hit_unique {cmp : K → K → Ordering} [Std.TransCmp cmp] {f : K → Ordering}
    (hf : Spec.LawfulQuery cmp f) {a b : K} (ha : f a = .eq) (hb : f b = .eq) : cmp a b = .eq := by
  cases h : cmp a b with
  | eq => rfl
  | lt => have := hf.lt_of_eq _ _ h ha; rw [this] at hb; cases hb
  | gt =>
    have h' : cmp b a = .lt := Std.OrientedCmp.lt_of_gt h
    have := hf.lt_of_eq _ _ h' hb; rw [this] at ha; cases ha

theorem lookup_eq_of_mem {cmp : K → K → Ordering} [Std.TransCmp cmp] {f : K → Ordering}
    (hf : Spec.LawfulQuery cmp f) {l : List (K × V)} (hd : Distinct cmp l) {e : K × V} (he : e ∈ l)
    (h : f e.1 = .eq) : Spec.lookup (Spec.hitOf f) l = some e := by
  obtain ⟨a, b, rfl⟩ := List.append_of_mem he
  refine lookup_split (fun x hx hxe => ?_) h
  have := (List.pairwise_append.1 hd).2.2 x hx e (by simp)
  exact this (hit_unique hf hxe h)

theorem lookup_perm {cmp : K → K → Ordering} [Std.TransCmp cmp] {f : K → Ordering}
    (hf : Spec.LawfulQuery cmp f) {l l' : List (K × V)} (hd : Distinct cmp l) (hp : l.Perm l') :
    Spec.lookup (Spec.hitOf f) l = Spec.lookup (Spec.hitOf f) l' := by
  cases h : Spec.lookup (Spec.hitOf f) l with
  | none =>
    rw [lookup_none_iff] at h
    exact (lookup_none_iff.2 fun e he => h e (hp.mem_iff.2 he)).symm
  | some e =>
    have h1 : e ∈ l := List.mem_of_find?_eq_some h
    have h2 : f e.1 = .eq := hitOf_iff.1 (List.find?_some (p := fun e : K × V => Spec.hitOf f e.1) h)
    exact (lookup_eq_of_mem hf (hd.perm hp) (hp.mem_iff.1 h1) h2).symm

theorem lookup_mem {f : K → Ordering} {l : List (K × V)} {e : K × V}
    (h : Spec.lookup (Spec.hitOf f) l = some e) : e ∈ l ∧ f e.1 = .eq :=
  ⟨List.mem_of_find?_eq_some h, hitOf_iff.1 (List.find?_some (p := fun e : K × V => Spec.hitOf f e.1) h)⟩

/-- What another lawful query sees after an insertion. -/
theorem lookup_insert_self {cmp : K → K → Ordering} [Std.TransCmp cmp] {l : List (K × V)} (k : K) (v : V)
    (hd : Distinct cmp l) :
    Spec.lookup (Spec.hitOf (cmp k)) (Spec.insert (Spec.hitOf (cmp k)) k v l) =
      some (((Spec.lookup (Spec.hitOf (cmp k)) l).map (·.1)).getD k, v) := by
  cases h : Spec.lookup (Spec.hitOf (cmp k)) l with
  | none =>
    rw [insert_miss (lookup_none_iff.1 h)]
    have : Spec.hitOf (cmp k) k = true := hitOf_iff.2 Std.ReflCmp.compare_self
    simp [Spec.lookup, List.find?_cons, this]
  | some e =>
    obtain ⟨he, hh⟩ := lookup_mem h
    obtain ⟨a, b, rfl⟩ := List.append_of_mem he
    have hf := lawful_cmp cmp k
    have hd' := List.pairwise_append.1 hd
    have ha : ∀ x ∈ a, cmp k x.1 ≠ .eq := fun x hx hxe =>
      hd'.2.2 x hx e (by simp) (hit_unique hf hxe hh)
    have hb : ∀ x ∈ b, cmp k x.1 ≠ .eq := fun x hx hxe =>
      (List.pairwise_cons.1 hd'.2.1).1 x hx (hit_unique hf hh hxe)
    obtain ⟨k0, v0⟩ := e
    rw [insert_hit_key (k' := k0) ⟨(k0, v0), by simp, hh⟩, map_hit_split ha hh hb]
    exact lookup_split ha hh

theorem find?_map_snd {hit g : K → Bool} {v : V} {l : List (K × V)}
    (h : ∀ e ∈ l, hit e.1 = true → g e.1 = false) :
    (l.map fun e => if hit e.1 then (e.1, v) else e).find? (fun e => g e.1) =
      l.find? fun e => g e.1 := by
  induction l with
  | nil => rfl
  | cons x l ih =>
    have ih := ih fun e he => h e (by simp [he])
    by_cases hx : hit x.1 = true
    · have hg := h x (by simp) hx
      simp only [List.map_cons, hx, if_true, List.find?_cons, hg, ih]
    · simp only [List.map_cons, hx, List.find?_cons, ih]
      rfl

theorem lookup_insert_other {f g : K → Ordering} {k : K} {v : V} {l : List (K × V)}
    (hk : g k ≠ .eq) (h : ∀ e ∈ l, f e.1 = .eq → g e.1 ≠ .eq) :
    Spec.lookup (Spec.hitOf g) (Spec.insert (Spec.hitOf f) k v l) = Spec.lookup (Spec.hitOf g) l := by
  unfold Spec.insert Spec.lookup
  split
  · refine find?_map_snd fun e he hh => ?_
    have := h e he (hitOf_iff.1 hh)
    simp [Spec.hitOf, this]
  · have : Spec.hitOf g k = false := by simp [Spec.hitOf, hk]
    simp [List.find?_cons, this]

theorem lookup_remove_self {f : K → Ordering} {l : List (K × V)} :
    Spec.lookup (Spec.hitOf f) (Spec.remove (Spec.hitOf f) l) = none := by
  rw [lookup_none_iff]
  intro e he h
  unfold Spec.remove at he
  have := (List.mem_filter.1 he).2
  rw [hitOf_iff.2 h] at this
  cases this

theorem lookup_remove_other {f g : K → Ordering} {l : List (K × V)}
    (h : ∀ e ∈ l, f e.1 = .eq → g e.1 ≠ .eq) :
    Spec.lookup (Spec.hitOf g) (Spec.remove (Spec.hitOf f) l) = Spec.lookup (Spec.hitOf g) l := by
  unfold Spec.remove Spec.lookup
  induction l with
  | nil => rfl
  | cons x l ih =>
    have ih := ih fun e he => h e (by simp [he])
    by_cases hx : f x.1 = .eq
    · have hg : Spec.hitOf g x.1 = false := by simp [Spec.hitOf, h x (by simp) hx]
      rw [List.filter_cons]
      simp [Spec.hitOf, hx, List.find?_cons, h x (by simp) hx]
      simpa [Spec.hitOf] using ih
    · have : Spec.hitOf f x.1 = false := by simp [Spec.hitOf, hx]
      rw [List.filter_cons]
      simp only [this, Bool.not_false, if_true, List.find?_cons, ih]

/-- A query that misses the key `k` also misses everything equal to it. -/
theorem lawful_miss {cmp : K → K → Ordering} {g : K → Ordering}
    (hg : Spec.LawfulQuery cmp g) {k x : K} (hk : g k ≠ .eq) (hx : cmp k x = .eq) : g x ≠ .eq := by
  rw [← hg.congr k x hx]; exact hk


/-! ### The entry that a query hits -/

theorem Tree.only_hit {cmp : K → K → Ordering} {t : Tree K V} (hn : t.ptrs.Nodup)
    (hs : t.SortedBy cmp) {f : K → Ordering} (hq : Spec.LawfulQuery cmp f) {q : Ptr} {k1 : K} {v1 : V}
    (hf : t.find (query f) 0 = .ok (some (q, k1, v1))) (hk1 : f k1 = .eq) :
    ∀ e ∈ t.ino, (e.1 = q ↔ f e.2.1 = .eq) := by
  intro e he
  obtain ⟨a, b, hab⟩ := List.append_of_mem (Tree.find_mem hf)
  have hn := (t.ino_ptrs_perm.nodup_iff).2 hn
  have hs2 : Spec.Sorted cmp t.kv := hs
  rw [hab, List.map_append, List.map_cons] at hn
  rw [Tree.kv, hab, List.map_append, List.map_cons] at hs2
  obtain ⟨ha, hb⟩ := sorted_hit_split hq hs2 hk1
  rw [List.nodup_append, List.nodup_cons] at hn
  rw [hab] at he
  rcases List.mem_append.1 he with hm1 | hm1
  · have := ha e.2 (List.mem_map_of_mem hm1)
    constructor
    · intro heq
      exact absurd heq (hn.2.2 e.1 (List.mem_map_of_mem hm1) q (by simp))
    · intro heq; rw [heq] at this; cases this
  · rcases List.mem_cons.1 hm1 with rfl | hm1
    · simp [hk1]
    · have := hb e.2 (List.mem_map_of_mem hm1)
      constructor
      · intro heq
        exact absurd (List.mem_map.2 ⟨e, hm1, heq⟩) hn.2.1.1
      · intro heq; rw [heq] at this; cases this

theorem Tree.bt_setV_hit {f : K → Ordering} {q : Ptr} (v : V) {t : Tree K V}
    (key : ∀ e ∈ t.ino, (e.1 = q ↔ f e.2.1 = .eq)) :
    (t.setV q v).bt = t.bt.map fun e => (e.1, e.2.1, if f e.2.1 = .eq then v else e.2.2) := by
  induction t with
  | leaf => rfl
  | node p l k v' r ihl ihr =>
    simp only [Tree.ino, List.mem_append, List.mem_cons] at key
    simp only [Tree.setV, Tree.bt, BT.map]
    rw [ihl (fun e he => key e (Or.inl he)), ihr (fun e he => key e (Or.inr (Or.inr he)))]
    have hk := key (p, k, v') (Or.inr (Or.inl rfl))
    by_cases hc : f k = .eq
    · rw [if_pos (hk.2 hc), if_pos hc]
    · rw [if_neg (fun h => hc (hk.1 h)), if_neg hc]

/-- Inserting a key that compares equal to a stored one. -/
theorem reinsert_spec {cfg : Cfg} {cmp : K → K → Ordering} [Std.TransCmp cmp] {m : BSTMap K V}
    {t : Tree K V} (h : Shape cfg m t) (hs : t.SortedBy cmp) {k1 k2 : K} {v1 : V} (v : V)
    (h1 : m.getEntry (query (cmp k2)) = .ok (some (k1, v1))) :
    ∃ m' b, insert cfg (query (cmp k2)) k2 v m = (.ok (some v1), m') ∧
      m'.getEntry (query (cmp k2)) = .ok (some (k1, v)) ∧
      exploreAt m = .ok b ∧
      exploreAt m' = .ok (b.map fun e => (e.1, e.2.1, if cmp k2 e.2.1 = .eq then v else e.2.2)) ∧
      m'.len cfg = m.len cfg ∧ m'.capacity = m.capacity := by
  have hq := lawful_cmp cmp k2
  have hfind : ∃ q, t.find (query (cmp k2)) 0 = .ok (some (q, k1, v1)) := by
    obtain ⟨e, he, hl⟩ := find_query hq hs
    rw [getEntry_query h hq hs, ← hl] at h1
    cases e with
    | none => cases h1
    | some e =>
      obtain ⟨q, k, v⟩ := e
      cases h1; exact ⟨q, he⟩
  obtain ⟨q, hf⟩ := hfind
  have hk1 : cmp k2 k1 = .eq := Tree.find_hit (fun _ _ => Or.inr rfl) hf
  rcases insert_spec h (query (cmp k2)) k2 v with ⟨hf', _⟩ | ⟨q', k0, v0, x, m', hf', hi, _, h', hu⟩ |
    ⟨hf', _⟩ | ⟨hf', _⟩
  · cases hf.symm.trans hf'
  · cases hf.symm.trans hf'
    have h' := h' q
    obtain ⟨hp, hs'⟩ := ins_query hs q k2 v
    refine ⟨m', t.bt, hi, ?_, exploreAt_ok h, ?_, ?_, hu.capacity⟩
    · rw [getEntry_query h' hq hs', lookup_perm hq (Distinct.of_sorted hs') hp,
        lookup_insert_self k2 v (Distinct.of_sorted hs)]
      rw [getEntry_query h hq hs] at h1
      injection h1 with h1
      rw [h1]; rfl
    · rw [exploreAt_ok h', Tree.ins_hit_eq_setV h.nodup hf]
      congr 1
      exact Tree.bt_setV_hit v (Tree.only_hit h.nodup hs hq hf hk1)
    · rw [h'.len_ok, h.len_ok, Tree.ins_hit_eq_setV h.nodup hf, Tree.setV_size]
  · cases hf.symm.trans hf'
  · cases hf.symm.trans hf'

end BST
