import Verif.Proofs.RandomMaps
import Verif.Proofs.AgreeRun
import Verif.Proofs.Bench
import Verif.Aging
/-!
# Lemmas about how deep the entries of a tree are
-/
namespace BST.Spec.BT
variable {α K V : Type} {cmp : K → K → Ordering}
open Std

/-- Every label of `b'` is in `b`, at least as deep. -/
def Rises (b b' : BT α) : Prop :=
  ∀ path e, (b'.sub path).label = some e → ∃ path', (b.sub path').label = some e ∧ path.length ≤ path'.length

theorem Rises.refl (b : BT α) : Rises b b := fun path _ h => ⟨path, h, Nat.le_refl _⟩

theorem Rises.node {l l' r r' : BT α} (a : α) (hl : Rises l l') (hr : Rises r r') :
    Rises (node l a r) (node l' a r') := by
  intro path e h
  match path with
  | [] => exact ⟨[], h, Nat.le_refl _⟩
  | false :: path =>
    obtain ⟨p, h1, h2⟩ := hl path e h
    exact ⟨false :: p, h1, by simpa using h2⟩
  | true :: path =>
    obtain ⟨p, h1, h2⟩ := hr path e h
    exact ⟨true :: p, h1, by simpa using h2⟩

theorem label_map {β : Type} (f : α → β) (path : List Bool) (b : BT α) :
    ((b.map f).sub path).label = (b.sub path).label.map f := by
  induction b generalizing path with
  | nil => cases path <;> simp [map, sub, label]
  | node l a r ihl ihr =>
    match path with
    | [] => rfl
    | false :: path => exact ihl path
    | true :: path => exact ihr path

theorem Rises.map {β : Type} {b b' : BT α} (h : Rises b b') (f : α → β) : Rises (b.map f) (b'.map f) := by
  intro path e he
  rw [label_map, Option.map_eq_some_iff] at he
  obtain ⟨x, hx, rfl⟩ := he
  obtain ⟨p, h1, h2⟩ := h path x hx
  exact ⟨p, by rw [label_map, h1]; rfl, h2⟩

theorem popMin_label (a : α) (r l : BT α) :
    ∃ path, ((BT.node l a r).sub path).label = some (popMin a r l).1 := by
  induction l generalizing a r with
  | nil => exact ⟨[], rfl⟩
  | node ll b lr ihl _ =>
    obtain ⟨path, h⟩ := ihl b lr
    exact ⟨false :: path, h⟩

theorem popMin_rises (a : α) (r l : BT α) : Rises (.node l a r) (popMin a r l).2 := by
  induction l generalizing a r with
  | nil => exact fun path e h => ⟨true :: path, h, by simp⟩
  | node ll b lr ihl _ => exact .node a (ihl b lr) (.refl r)

theorem join_rises (l r : BT α) (x : α) : Rises (.node l x r) (join l r) := by
  intro path e h
  cases l with
  | nil => exact ⟨true :: path, by simpa [join, sub] using h, by simp⟩
  | node ll la lr =>
    cases r with
    | nil => exact ⟨false :: path, by simpa [join, sub] using h, by simp⟩
    | node rl ra rr =>
      match path with
      | [] =>
        obtain ⟨p, hp⟩ := popMin_label ra rr rl
        exact ⟨true :: p, hp.trans h, by simp⟩
      | false :: path => exact ⟨false :: path, h, Nat.le_refl _⟩
      | true :: path =>
        obtain ⟨p, h1, h2⟩ := popMin_rises ra rr rl path e h
        exact ⟨true :: p, h1, by simpa using h2⟩

theorem erase_rises (f : K → Ordering) (b : BT (K × V)) : Rises b (b.erase f) := by
  induction b with
  | nil => exact .refl _
  | node l e r ihl ihr =>
    rw [erase]
    cases f e.1 with
    | lt => exact .node e ihl (.refl r)
    | gt => exact .node e (.refl l) ihr
    | eq => exact join_rises l r e

theorem eraseBy_rises (c : Probe K) (i : Nat) (b : BT (K × V)) : Rises b (b.eraseBy c i) := by
  induction b generalizing i with
  | nil => exact .refl _
  | node l e r ihl ihr =>
    rw [eraseBy]
    cases c i e.1 with
    | none => exact .refl _
    | some o =>
      cases o with
      | lt => exact .node e (ihl (i + 1)) (.refl r)
      | gt => exact .node e (.refl l) (ihr (i + 1))
      | eq => exact join_rises l r e

theorem height_path (b : BT α) :
    (∀ path e, (b.sub path).label = some e → path.length < b.height) ∧
    (∀ n, n < b.height → ∃ path e, (b.sub path).label = some e ∧ path.length = n) := by
  induction b with
  | nil =>
    refine ⟨fun path e h => ?_, fun n h => absurd h (Nat.not_lt_zero _)⟩
    cases path <;> simp [sub, label] at h
  | node l a r ihl ihr =>
    refine ⟨fun path e h => ?_, fun n h => ?_⟩
    · match path with
      | [] => simp [height]
      | false :: path => have := ihl.1 path e h; simp only [height, List.length_cons]; omega
      | true :: path => have := ihr.1 path e h; simp only [height, List.length_cons]; omega
    · cases n with
      | zero => exact ⟨[], a, rfl, rfl⟩
      | succ n =>
        rw [height] at h
        by_cases hl : n < l.height
        · obtain ⟨path, e, h1, h2⟩ := ihl.2 n hl
          exact ⟨false :: path, e, h1, by simp [h2]⟩
        · obtain ⟨path, e, h1, h2⟩ := ihr.2 n (by omega)
          exact ⟨true :: path, e, h1, by simp [h2]⟩

theorem Rises.height {b b' : BT α} (h : Rises b b') : b'.height ≤ b.height := by
  refine Nat.not_lt.1 fun hlt => ?_
  obtain ⟨path, e, h1, h2⟩ := (height_path b').2 b.height hlt
  obtain ⟨p, h3, h4⟩ := h path e h1
  have := (height_path b).1 p e h3
  omega

theorem label_mem {b : BT α} {path : List Bool} {e : α} (h : (b.sub path).label = some e) : e ∈ b.ino := by
  induction b generalizing path with
  | nil => cases path <;> simp [sub, label] at h
  | node l a r ihl ihr =>
    match path with
    | [] => simp only [sub, label, Option.some.injEq] at h; simp [ino, h]
    | false :: path => simp [ino, ihl h]
    | true :: path => simp [ino, ihr h]

theorem mem_label {b : BT α} {e : α} (h : e ∈ b.ino) : ∃ path, (b.sub path).label = some e := by
  induction b with
  | nil => simp [ino] at h
  | node l a r ihl ihr =>
    simp only [ino, List.mem_append, List.mem_cons] at h
    rcases h with h | rfl | h
    · obtain ⟨p, hp⟩ := ihl h; exact ⟨false :: p, hp⟩
    · exact ⟨[], rfl⟩
    · obtain ⟨p, hp⟩ := ihr h; exact ⟨true :: p, hp⟩

/-- The search for a key goes along the path to it. -/
theorem steps_path [TransCmp cmp] {b : BT (K × V)} (hs : Sorted cmp b.ino) {k : K} {path : List Bool}
    {e : K × V} (h : (b.sub path).label = some e) (hk : cmp k e.1 = .eq) :
    b.steps cmp k = path.length + 1 := by
  induction b generalizing path with
  | nil => cases path <;> simp [sub, label] at h
  | node l a r ihl ihr =>
    simp only [ino, Sorted, List.pairwise_append, List.pairwise_cons] at hs
    obtain ⟨h1, ⟨h2, h3⟩, h4⟩ := hs
    match path with
    | [] =>
      simp only [sub, label, Option.some.injEq] at h
      subst h
      simp [steps, hk]
    | false :: path =>
      have hm := label_mem (b := l) h
      have : cmp k a.1 = .lt := TransCmp.lt_of_eq_of_lt hk (h4 e hm a List.mem_cons_self)
      simp only [steps, this, List.length_cons]
      rw [ihl h1 h]
    | true :: path =>
      have hm := label_mem (b := r) h
      have : cmp k a.1 = .gt := OrientedCmp.gt_of_lt (TransCmp.lt_of_lt_of_eq (h2 e hm) (OrientedCmp.eq_symm hk))
      simp only [steps, this, List.length_cons]
      rw [ihr h3 h]

/-- The key is there. -/
def Has (cmp : K → K → Ordering) (k : K) (b : BT (K × V)) : Prop := ∃ e ∈ b.ino, cmp k e.1 = .eq

theorem Rises.steps [TransCmp cmp] {b b' : BT (K × V)} (h : Rises b b') (hs : Sorted cmp b.ino)
    (hs' : Sorted cmp b'.ino) {k : K} (hk : Has cmp k b') : b'.steps cmp k ≤ b.steps cmp k := by
  obtain ⟨e, he, hk⟩ := hk
  obtain ⟨path, hp⟩ := mem_label he
  obtain ⟨path', h1, h2⟩ := h path e hp
  rw [steps_path hs' hp hk, steps_path hs h1 hk]
  omega

theorem steps_keys {b b' : BT (K × V)} (h : b'.map (·.1) = b.map (·.1)) (k : K) :
    b'.steps cmp k = b.steps cmp k := by
  induction b generalizing b' with
  | nil => cases b' with
    | nil => rfl
    | node l e r => simp [map] at h
  | node l e r ihl ihr =>
    cases b' with
    | nil => simp [map] at h
    | node l' e' r' =>
      simp only [map, node.injEq] at h
      rw [steps, steps, h.2.1, ihl h.1, ihr h.2.2]

theorem steps_insert [TransCmp cmp] {b : BT (K × V)} (hs : Sorted cmp b.ino) {k : K}
    (hk : Has cmp k b) (k' : K) (v : V) : (b.insert cmp k' v).steps cmp k = b.steps cmp k := by
  induction b with
  | nil => obtain ⟨e, he, _⟩ := hk; simp [ino] at he
  | node l a r ihl ihr =>
    obtain ⟨e, he, hke⟩ := hk
    simp only [ino, Sorted, List.pairwise_append, List.pairwise_cons] at hs
    obtain ⟨h1, ⟨h2, h3⟩, h4⟩ := hs
    simp only [ino, List.mem_append, List.mem_cons] at he
    rw [insert]
    rcases he with he | rfl | he
    · have : cmp k a.1 = .lt := TransCmp.lt_of_eq_of_lt hke (h4 e he a List.mem_cons_self)
      cases cmp k' a.1 <;> simp [steps, this]
      exact ihl h1 ⟨e, he, hke⟩
    · cases cmp k' e.1 <;> simp [steps, hke]
    · have : cmp k a.1 = .gt := OrientedCmp.gt_of_lt (TransCmp.lt_of_lt_of_eq (h2 e he) (OrientedCmp.eq_symm hke))
      cases cmp k' a.1 <;> simp [steps, this]
      exact ihr h3 ⟨e, he, hke⟩

theorem Has.insert [TransCmp cmp] {b : BT (K × V)} {k : K} (hk : Has cmp k b) (k' : K) (v : V) :
    Has cmp k (b.insert cmp k' v) := by
  induction b with
  | nil => obtain ⟨e, he, _⟩ := hk; simp [ino] at he
  | node l a r ihl ihr =>
    obtain ⟨e, he, hke⟩ := hk
    simp only [ino, List.mem_append, List.mem_cons] at he
    rw [BT.insert]
    rcases he with he | rfl | he
    · cases cmp k' a.1
      · obtain ⟨e', h1, h2⟩ := ihl ⟨e, he, hke⟩
        exact ⟨e', by simp [ino, h1], h2⟩
      · exact ⟨e, by simp [ino, he], hke⟩
      · exact ⟨e, by simp [ino, he], hke⟩
    · cases cmp k' e.1
      · exact ⟨e, by simp [ino], hke⟩
      · exact ⟨(e.1, v), by simp [ino], hke⟩
      · exact ⟨e, by simp [ino], hke⟩
    · cases cmp k' a.1
      · exact ⟨e, by simp [ino, he], hke⟩
      · exact ⟨e, by simp [ino, he], hke⟩
      · obtain ⟨e', h1, h2⟩ := ihr ⟨e, he, hke⟩
        exact ⟨e', by simp [ino, h1], h2⟩

theorem steps_insertList [TransCmp cmp] (l : List (K × V)) {b : BT (K × V)} (hs : Sorted cmp b.ino)
    {k : K} (hk : Has cmp k b) : (insertList cmp l b).steps cmp k = b.steps cmp k := by
  induction l generalizing b with
  | nil => rfl
  | cons e l ih =>
    refine (ih (b := b.insert cmp e.1 e.2) ?_ (hk.insert _ _)).trans (steps_insert hs hk _ _)
    rw [BST.bt_insert_ino _ _ hs]
    exact Listed.put_sorted _ _ hs

theorem map_keys_id {f : K × V → K × V} (hf : ∀ e, (f e).1 = e.1) (b : BT (K × V)) :
    (b.map f).map (·.1) = b.map (·.1) := by
  induction b with
  | nil => rfl
  | node l e r ihl ihr => simp [map, hf, ihl, ihr]

theorem setPath_keys (w : V) (path : List Bool) (b : BT (K × V)) :
    (b.setPath w path).map (·.1) = b.map (·.1) := by
  induction b generalizing path with
  | nil => cases path <;> simp [setPath]
  | node l e r ihl ihr =>
    match path with
    | [] => simp [setPath, map]
    | false :: path => simp [setPath, map, ihl]
    | true :: path => simp [setPath, map, ihr]

theorem search_hit [TransCmp cmp] {b : BT (K × V)} (hs : Sorted cmp b.ino) {k : K}
    (hk : Has cmp k b) {n i : Nat} (hn : i + b.steps cmp k ≤ n) :
    ∃ e, b.search (upTo cmp k n) i = .ok (some e) ∧ cmp k e.1 = .eq := by
  induction b generalizing i with
  | nil => obtain ⟨e, he, _⟩ := hk; simp [ino] at he
  | node l a r ihl ihr =>
    obtain ⟨e, he, hke⟩ := hk
    simp only [ino, Sorted, List.pairwise_append, List.pairwise_cons] at hs
    obtain ⟨h1, ⟨h2, h3⟩, h4⟩ := hs
    simp only [ino, List.mem_append, List.mem_cons] at he
    have hi : i < n := by rw [steps] at hn; split at hn <;> omega
    rw [search]
    simp only [upTo, if_pos hi]
    rcases he with he | rfl | he
    · have : cmp k a.1 = .lt := TransCmp.lt_of_eq_of_lt hke (h4 e he a List.mem_cons_self)
      simp only [this, steps] at hn ⊢
      exact ihl h1 ⟨e, he, hke⟩ (by omega)
    · simp only [hke]
      exact ⟨e, rfl, hke⟩
    · have : cmp k a.1 = .gt := OrientedCmp.gt_of_lt (TransCmp.lt_of_lt_of_eq (h2 e he) (OrientedCmp.eq_symm hke))
      simp only [this, steps] at hn ⊢
      exact ihr h3 ⟨e, he, hke⟩ (by omega)

theorem search_has {b : BT (K × V)} {k : K} {e : K × V} {i : Nat}
    (h : b.search (query (cmp k)) i = .ok (some e)) : Has cmp k b := by
  induction b generalizing i with
  | nil => simp [search] at h
  | node l a r ihl ihr =>
    rw [search] at h
    simp only [query] at h
    cases hk : cmp k a.1 with
    | lt =>
      rw [hk] at h
      obtain ⟨e', h1, h2⟩ := ihl h
      exact ⟨e', by simp [ino, h1], h2⟩
    | eq => exact ⟨a, by simp [ino], hk⟩
    | gt =>
      rw [hk] at h
      obtain ⟨e', h1, h2⟩ := ihr h
      exact ⟨e', by simp [ino, h1], h2⟩

/-- One call. -/
theorem steps_answer [TransCmp cmp] {b b' : BT (K × V)} {o : Out (Ret K V)} {op : Op K V}
    (hop : op.Lawful cmp) (hm : op.SameMap) (h : TreeAnswer cmp b o b' op) (hs : Sorted cmp b.ino)
    (hs' : Sorted cmp b'.ino) {k : K} (hk : Has cmp k b) (hk' : Has cmp k b') :
    b'.steps cmp k ≤ b.steps cmp k := by
  have no : ¬ Has cmp k (.nil : BT (K × V)) := fun ⟨e, he, _⟩ => by simp [ino] at he
  have qr : ∀ {c : Probe K} {r : (K → Ordering) → Ret K V} {g : (K → Ordering) → BT (K × V)},
      (∃ f, LawfulQuery cmp f ∧ Asks f c) → Queried cmp c b o b' r g →
      (∀ f, (g f).steps cmp k = b.steps cmp k ∨ Rises b (g f)) → b'.steps cmp k ≤ b.steps cmp k := by
    intro c r g ⟨f, hf, ha⟩ hq hg
    rcases hq f hf ha with ⟨_, rfl⟩ | ⟨_, rfl, _⟩
    · rcases hg f with h | h
      · exact Nat.le_of_eq h
      · exact h.steps hs hs' hk'
    · exact Nat.le_refl _
  cases op with
  | collect cmps src => exact hm.elim
  | withCapacity n =>
    rcases h with ⟨_, rfl⟩ | ⟨_, rfl⟩
    · exact (no hk').elim
    · exact Nat.le_refl _
  | cloned cmps ck cv => rcases h with ⟨_, rfl⟩ | ⟨_, rfl⟩ <;> exact Nat.le_refl _
  | insert c k' v =>
    rcases h with ⟨_, rfl⟩ | ⟨_, rfl, _⟩ | ⟨_, rfl, _⟩
    · exact Nat.le_of_eq (steps_insert hs hk _ _)
    · exact Nat.le_refl _
    · exact Nat.le_refl _
  | remove c => exact qr hop h fun f => .inr (erase_rises f b)
  | removeEntry c => exact qr hop h fun f => .inr (erase_rises f b)
  | get c => exact qr hop h fun f => .inl rfl
  | getEntry c => exact qr hop h fun f => .inl rfl
  | containsKey c => exact qr hop h fun f => .inl rfl
  | getMut c w =>
    exact qr hop h fun f => .inl (steps_keys (map_keys_id (fun e => by split <;> rfl) b) k)
  | getEntryMut c w =>
    exact qr hop h fun f => .inl (steps_keys (map_keys_id (fun e => by split <;> rfl) b) k)
  | node path => exact Nat.le_of_eq (by rw [h.2])
  | nodeMut path w => exact Nat.le_of_eq (by rw [h.2]; exact steps_keys (setPath_keys w path b) k)
  | iter ord n => exact Nat.le_of_eq (by rw [h.1])
  | iterMut ord steps => exact Nat.le_of_eq (steps_keys h.2.1 k)
  | len => exact Nat.le_of_eq (by rw [h.2])
  | isEmpty => exact Nat.le_of_eq (by rw [h.2])
  | capacity => exact Nat.le_of_eq (by rw [h.2])
  | clear d => rw [h.2] at hk'; exact (no hk').elim
  | reserve n => exact Nat.le_of_eq (by rw [h.2])
  | shrinkToFit => exact Nat.le_of_eq (by rw [h.2])
  | extend cmps src =>
    obtain ⟨used, rest, _, rfl, _⟩ := h
    exact Nat.le_of_eq (steps_insertList used hs hk)
  | debug dk dv => exact Nat.le_of_eq (by rw [h.2])

end BST.Spec.BT

namespace BST
open Std Spec
variable {K V : Type} {cmp : K → K → Ordering}

namespace Tree
open BT

theorem popMin_bt (p : Ptr) (k : K) (v : V) (r l : Tree K V) :
    (BT.popMin (p, k, v) r.bt l.bt).1 = (popMin p k v r l).1 ∧
    (BT.popMin (p, k, v) r.bt l.bt).2 = (popMin p k v r l).2.bt := by
  induction l generalizing p k v r with
  | leaf => exact ⟨rfl, rfl⟩
  | node lp ll lk lv lr ihl _ =>
    obtain ⟨h1, h2⟩ := ihl lp lk lv lr
    exact ⟨h1, congrArg (fun x => BT.node x (p, k, v) r.bt) h2⟩

theorem join_bt (l r : Tree K V) : (join l r).bt = BT.join l.bt r.bt := by
  cases l with
  | leaf => cases r <;> rfl
  | node lp ll lk lv lr =>
    cases r with
    | leaf => rfl
    | node rp rl rk rv rr =>
      obtain ⟨h1, h2⟩ := popMin_bt rp rk rv rr rl
      simp only [join, bt, BT.join, h1, h2]

theorem del_rises (c : Probe K) (i : Nat) (t : Tree K V) : Rises t.bt (t.del c i).bt := by
  induction t generalizing i with
  | leaf => exact .refl _
  | node q l k v r ihl ihr =>
    rw [del]
    cases c i k with
    | none => exact .refl _
    | some o =>
      cases o with
      | lt => exact .node _ (ihl (i + 1)) (.refl _)
      | gt => exact .node _ (.refl _) (ihr (i + 1))
      | eq => rw [join_bt]; exact join_rises _ _ _

end Tree

section
open BSTMap Tree
variable {cfg : Cfg}

theorem takes [TransCmp cmp] {m : BSTMap K V} {t : Tree K V} (h : Shape cfg m t)
    (hs : t.SortedBy cmp) {k : K} (hk : t.sh.Has cmp k) : Takes cfg cmp k m (t.sh.steps cmp k) := by
  intro b
  have hs' : Sorted cmp t.sh.ino := by rw [sh_ino]; exact hs
  refine ⟨fun hb => ?_, fun hb => ?_⟩
  · have hp := (search_upTo k b t.sh).2 hb
    obtain ⟨a1, a2, a3, a4, a5⟩ := (built_find h).2 hp
    have hf : t.find (upTo cmp k b) 0 = .panic := by
      rw [find_search] at hp
      rcases t.find_ok_or_panic (upTo cmp k b) 0 with hf | ⟨e', hf⟩
      · exact hf
      · rw [hf] at hp; cases hp
    refine ⟨a1, a2, a3, by rw [getMut_spec h, hf]; rfl, by rw [getEntryMut_spec h, hf]; rfl, a4, ?_,
      a5 k⟩
    rcases removeEntry_cases h (upTo cmp k b) with ⟨_, _, h1, _⟩ | ⟨_, h2⟩
    · rw [hf] at h1; cases h1
    · rw [h2]
  · obtain ⟨e, he, hke⟩ := BT.search_hit hs' hk (n := b) (i := 0) (by omega)
    rw [find_search] at he
    rcases t.find_ok_or_panic (upTo cmp k b) 0 with hf | ⟨e', hf⟩
    · rw [hf] at he; cases he
    rw [hf] at he
    obtain ⟨x, rfl, rfl⟩ : ∃ x, e' = some x ∧ x.2 = e := by
      cases e' with
      | none => cases he
      | some x => exact ⟨x, rfl, by cases he; rfl⟩
    refine ⟨x.2, hke, by rw [get_spec h, hf]; rfl, by rw [getEntry_spec h, hf]; rfl,
      by rw [containsKey_spec h, hf]; rfl, ⟨x.1, by rw [getMut_spec h, hf]; rfl⟩,
      ⟨x.1, by rw [getEntryMut_spec h, hf]; rfl⟩, ?_, ?_, fun v => ?_⟩
    · rcases remove_cases h (upTo cmp k b) with ⟨_, _, h1, h2, _⟩ | ⟨h1, _⟩
      · cases h1.symm.trans hf; rw [h2]; rfl
      · rw [hf] at h1; cases h1
    · rcases removeEntry_cases h (upTo cmp k b) with ⟨_, _, h1, h2, _⟩ | ⟨h1, _⟩
      · cases h1.symm.trans hf; rw [h2]; rfl
      · rw [hf] at h1; cases h1
    · rcases insert_cases h (upTo cmp k b) k v with ⟨_, _, _, h1, h2, _⟩ | ⟨o, _, ⟨_, h1⟩ | ⟨_, h1, _⟩⟩
      · cases h1.symm.trans hf; rw [h2]; rfl
      · rw [hf] at h1; cases h1
      · rw [hf] at h1; cases h1

theorem has_of_contains {m : BSTMap K V} {t : Tree K V} (h : Shape cfg m t) {k : K}
    (hk : m.containsKey (query (cmp k)) = .ok true) : t.sh.Has cmp k := by
  rw [containsKey_spec h] at hk
  rcases t.find_ok_or_panic (query (cmp k)) 0 with hf | ⟨e', hf⟩
  · rw [hf] at hk; cases hk
  cases e' with
  | none => rw [hf] at hk; cases hk
  | some e => exact BT.search_has (by rw [find_search, hf]; rfl)

theorem history_steps [TransCmp cmp] (ops : List (Op K V)) {m : BSTMap K V} {t : Tree K V}
    (h : Shape cfg m t) (hs : t.SortedBy cmp) (hops : ∀ op ∈ ops, op.Lawful cmp ∧ op.SameMap) {k : K}
    (hk : ∀ n ≤ ops.length, (history cfg (ops.take n) m).2.containsKey (query (cmp k)) = .ok true) :
    ∃ os m' t', history cfg ops m = (os, m') ∧ Shape cfg m' t' ∧ t'.SortedBy cmp ∧
      t'.sh.Has cmp k ∧ t'.sh.steps cmp k ≤ t.sh.steps cmp k := by
  have h0 := has_of_contains h (hk 0 (Nat.zero_le _))
  induction ops generalizing m t with
  | nil => exact ⟨[], m, t, rfl, h, hs, h0, Nat.le_refl _⟩
  | cons op ops ih =>
    obtain ⟨hop, hsm⟩ := hops op (by simp)
    obtain ⟨o, m1, t1, h1, h2, h3, h4⟩ := run_tree h hs hop
    have hm1 : (history cfg [op] m).2 = m1 := by
      simp only [history, h1]
      cases o <;> rfl
    have hk1 := hk 1 (by simp)
    rw [show (op :: ops).take 1 = [op] from rfl, hm1] at hk1
    have h5 := has_of_contains h2 hk1
    have h6 := BT.steps_answer hop hsm h4 (by rw [sh_ino]; exact hs) (by rw [sh_ino]; exact h3) h0 h5
    have next : ∀ {r}, (o = .panic ∨ o = .ok r) → ∃ os m' t', history cfg ops m1 = (os, m') ∧
        Shape cfg m' t' ∧ t'.SortedBy cmp ∧ t'.sh.Has cmp k ∧ t'.sh.steps cmp k ≤ t.sh.steps cmp k := by
      intro r ho
      have hh : ∀ ops', (history cfg (op :: ops') m).2 = (history cfg ops' m1).2 := by
        intro ops'
        rcases ho with rfl | rfl <;> simp only [history, h1]
      obtain ⟨os, m', t', g1, g2, g3, g4, g5⟩ := ih h2 h3 (fun op hop => hops op (by simp [hop]))
        (fun n hn => by
          have := hk (n + 1) (by simpa using hn)
          rwa [List.take_succ_cons, hh] at this) h5
      exact ⟨os, m', t', g1, g2, g3, g4, Nat.le_trans g5 h6⟩
    cases o with
    | ok r =>
      obtain ⟨os, m', t', g1, g2⟩ := next (r := r) (.inr rfl)
      exact ⟨.ok r :: os, m', t', by simp only [history, h1, g1], g2⟩
    | panic =>
      obtain ⟨os, m', t', g1, g2⟩ := next (r := .unit) (.inl rfl)
      exact ⟨.panic :: os, m', t', by simp only [history, h1, g1], g2⟩
    | abort => exact ⟨[.abort], m1, t1, by simp only [history, h1], h2, h3, h5, h6⟩
    | ub =>
      obtain ⟨_, _, _, h1', hsafe, _⟩ := run_shape h hop.calm
      cases h1.symm.trans h1'
      exact hsafe.elim
    | diverge =>
      obtain ⟨_, _, _, h1', hsafe, _⟩ := run_shape h hop.calm
      cases h1.symm.trans h1'
      exact hsafe.elim
end

namespace Simple
open Map
variable {cfg : Cfg}

theorem removeEntry_panic (cfg : Cfg) {c : Probe K} {m : Map K V} (h : m.root.find c 0 = .panic) :
    removeEntry cfg c m = (.panic, m) := by
  unfold removeEntry
  rw [M.get_bind]
  rcases find_loop c m m.root none [] 0 m.fuel (Nat.lt_succ_self _) (by simp) (.inl ⟨rfl, rfl⟩) with
    ⟨hf, h1⟩ | ⟨e, par, hf, h1, hpar⟩
  · exact M.bind_panic (m := findWithParent c m) h1
  · rw [h] at hf; cases hf

theorem del_rises (c : Probe K) (i : Nat) (t : Link K V) : t.view.Rises (t.del c i).view := by
  obtain ⟨w, rfl, _⟩ := Tree.exists_link t
  rw [← Tree.link_del, Tree.link_view, Tree.link_view]
  exact (Tree.del_rises c i w).map _

theorem has_of_contains {m : Map K V} {k : K} (hk : m.containsKey (query (cmp k)) = .ok true) :
    m.root.view.Has cmp k := by
  rw [containsKey_spec] at hk
  rcases m.root.find_ok_or_panic (query (cmp k)) 0 with hf | ⟨e', hf⟩
  · rw [hf] at hk; cases hk
  cases e' with
  | none => rw [hf] at hk; cases hk
  | some e => exact BT.search_has (by rw [view_search, hf])

theorem steps_answer [TransCmp cmp] {b b' : BT (K × V)} {o : Out (Ret K V)} {op : SimpleOp K V}
    (hop : op.Lawful cmp) (hm : op.SameMap) (h : SimpleAnswer cmp b o b' op) (ho : o ≠ .abort)
    (hs : Spec.Sorted cmp b.ino) (hs' : Spec.Sorted cmp b'.ino) {k : K} (hk : b.Has cmp k)
    (hk' : b'.Has cmp k) : b'.steps cmp k ≤ b.steps cmp k := by
  cases op
  case debug => exact Nat.le_of_eq (by rw [h.2])
  case iterMut => exact Nat.le_of_eq (by rw [h.2])
  all_goals
    rcases h with ⟨h, _⟩ | h
    · exact absurd h ho
    · exact BT.steps_answer hop hm h hs hs' hk hk'

theorem history_steps [TransCmp cmp] (he : 2 ≤ cfg.esize) (ops : List (SimpleOp K V)) {m : Map K V}
    (hw : Wf m) (hs : m.root.Sorted cmp) (hops : ∀ op ∈ ops, op.Lawful cmp ∧ op.SameMap) {k : K}
    (hk : ∀ n ≤ ops.length, (simpleHistory cfg (ops.take n) m).2.containsKey (query (cmp k)) = .ok true)
    (ha : Out.abort ∉ (simpleHistory cfg ops m).1) :
    ∃ os m', simpleHistory cfg ops m = (os, m') ∧ Wf m' ∧ m'.root.Sorted cmp ∧
      m'.root.view.Has cmp k ∧ m'.root.view.steps cmp k ≤ m.root.view.steps cmp k := by
  have h0 := has_of_contains (hk 0 (Nat.zero_le _))
  unfold simpleHistory at *
  induction ops generalizing m with
  | nil => exact ⟨[], m, rfl, hw, hs, h0, Nat.le_refl _⟩
  | cons op ops ih =>
    obtain ⟨hop, hsm⟩ := hops op (by simp)
    obtain ⟨o, m1, h1, ⟨h2, hw1⟩ | ⟨rfl, h2, h3⟩⟩ := Simple.run_sem he cmp hw op
    · obtain ⟨h4, _⟩ := Simple.sem_cases cmp op h2.symm
      obtain ⟨hs1, _, hans⟩ := Simple.sem_tree hop hs h2.symm
      have hh : ∀ ops', execute (SimpleOp.run cfg) (op :: ops') m =
          (o :: (execute (SimpleOp.run cfg) ops' m1).1, (execute (SimpleOp.run cfg) ops' m1).2) := by
        intro ops'
        rcases h4 with ⟨r, rfl⟩ | ⟨rfl, _⟩ <;> simp only [execute, h1]
      have hk1 := hk 1 (by simp)
      rw [List.take_succ_cons, hh] at hk1
      have h5 := has_of_contains (m := m1) hk1
      have h6 := steps_answer hop hsm hans
        (by rcases h4 with ⟨r, rfl⟩ | ⟨rfl, _⟩ <;> simp) hs hs1 h0 h5
      rw [hh] at ha ⊢
      obtain ⟨os, m', g1, g2, g3, g4, g5⟩ := ih hw1 hs1 (fun op hop => hops op (by simp [hop]))
        (fun n hn => by
          have := hk (n + 1) (by simpa using hn)
          rwa [List.take_succ_cons, hh] at this) (fun hx => ha (List.mem_cons_of_mem _ hx)) h5
      exact ⟨_, m', by rw [g1], g2, g3, g4, Nat.le_trans g5 h6⟩
    · exact absurd (by simp only [execute, h1]; simp) ha

theorem takes [TransCmp cmp] (he : 2 ≤ cfg.esize) {m : Map K V} (hw : Wf m)
    (hs : m.root.Sorted cmp) {k : K} (hk : m.root.view.Has cmp k) :
    TakesSimple cfg cmp k m (m.root.view.steps cmp k) := by
  intro b
  have hs' : Sorted cmp m.root.view.ino := hs
  refine ⟨fun hb => ?_, fun hb => ?_⟩
  · have hf := (search_upTo k b m.root.view).2 hb
    rw [view_search] at hf
    refine ⟨by rw [get_spec, hf]; rfl, by rw [getEntry_spec, hf], by rw [containsKey_spec, hf]; rfl,
      by rw [getMut_spec, hf]; rfl, ?_, by rw [removeEntry_panic cfg hf], fun v => ?_⟩
    · unfold Map.remove
      rw [M.bind_panic (removeEntry_panic cfg hf)]
    · rcases insert_spec he (upTo cmp k b) k v m hw with ⟨_, h2⟩ | ⟨_, _, _, h1, _⟩ | ⟨h1, _⟩
      · rw [h2]
      · rw [hf] at h1; cases h1
      · rw [hf] at h1; cases h1
  · obtain ⟨e, hf, hke⟩ := BT.search_hit hs' hk (n := b) (i := 0) (by omega)
    rw [view_search] at hf
    refine ⟨e, hke, by rw [get_spec, hf]; rfl, by rw [getEntry_spec, hf], by rw [containsKey_spec, hf]; rfl,
      ⟨_, by rw [getMut_spec, hf]; rfl⟩, ?_, ?_, fun v => ?_⟩
    · unfold Map.remove
      rcases removeEntry_spec cfg (upTo cmp k b) m hw with ⟨h1, _⟩ | ⟨_, _, _, h1, h2, _⟩ | ⟨_, h2, _⟩
      · rw [hf] at h1; cases h1
      · cases h1.symm.trans hf; rw [M.bind_ok h2]; simp
      · rw [M.bind_abort h2]; simp
    · rcases removeEntry_spec cfg (upTo cmp k b) m hw with ⟨h1, _⟩ | ⟨_, _, _, h1, h2, _⟩ | ⟨_, h2, _⟩
      · rw [hf] at h1; cases h1
      · cases h1.symm.trans hf; rw [h2]; simp
      · rw [h2]; simp
    · rcases insert_spec he (upTo cmp k b) k v m hw with ⟨h1, _⟩ | ⟨_, _, _, h1, h2, _⟩ | ⟨h1, _⟩
      · rw [hf] at h1; cases h1
      · cases h1.symm.trans hf; rw [h2]; rfl
      · rw [hf] at h1; cases h1

end Simple
end BST

namespace BST
open Std Spec
variable {K V : Type} {cmp : K → K → Ordering} {cfg : Cfg}

theorem simpleHistory_sorted [TransCmp cmp] (he : 2 ≤ cfg.esize) (ops : List (SimpleOp K V))
    (hops : ∀ op ∈ ops, op.Lawful cmp) {m : Simple.Map K V} (hw : Simple.Wf m)
    (hs : m.root.Sorted cmp) (ha : Out.abort ∉ (simpleHistory cfg ops m).1) :
    Simple.Wf (simpleHistory cfg ops m).2 ∧ (simpleHistory cfg ops m).2.root.Sorted cmp := by
  unfold simpleHistory at *
  induction ops generalizing m with
  | nil => exact ⟨hw, hs⟩
  | cons op ops ih =>
    obtain ⟨o, m1, h1, ⟨h2, hw1⟩ | ⟨rfl, h2, h3⟩⟩ := Simple.run_sem he cmp hw op
    · obtain ⟨h4, _⟩ := Simple.sem_cases cmp op h2.symm
      obtain ⟨hs1, _, hans⟩ := Simple.sem_tree (hops op (by simp)) hs h2.symm
      have hh : execute (SimpleOp.run cfg) (op :: ops) m =
          (o :: (execute (SimpleOp.run cfg) ops m1).1, (execute (SimpleOp.run cfg) ops m1).2) := by
        rcases h4 with ⟨r, rfl⟩ | ⟨rfl, _⟩ <;> simp only [execute, h1]
      rw [hh] at ha ⊢
      exact ih (fun op hop => hops op (by simp [hop])) hw1 hs1 fun hx => ha (List.mem_cons_of_mem _ hx)
    · exact absurd (by simp only [execute, h1]; simp) ha

theorem Spec.mean_mono {α : Type} {l : List α} {f g : List α → Nat} (h : ∀ o ∈ orders l, f o ≤ g o) :
    mean l f ≤ mean l g := by
  have h1 : ((orders l).map f).sum ≤ ((orders l).map g).sum := by
    generalize orders l = os at h
    induction os with
    | nil => exact Nat.le_refl _
    | cons o os ih =>
      have := h o (by simp)
      have := ih fun o ho => h o (by simp [ho])
      simp only [List.map_cons, List.sum_cons]
      omega
  have h2 : (0 : Rat) < (orders l).length := by rw [orders_length]; exact fac_pos _
  have h3 := Rat.natCast_le_natCast.2 h1
  unfold mean
  refine Rat.le_of_mul_le_mul_right (c := ((orders l).length : Rat)) ?_ h2
  rw [Rat.div_mul_cancel (by grind), Rat.div_mul_cancel (by grind)]
  exact h3

theorem Spec.insertList_sorted [TransCmp cmp] (l : List (K × V)) {b : BT (K × V)}
    (hs : Sorted cmp b.ino) : Sorted cmp (BT.insertList cmp l b).ino := by
  induction l generalizing b with
  | nil => exact hs
  | cons e l ih =>
    refine ih (b := b.insert cmp e.1 e.2) ?_
    rw [BST.bt_insert_ino _ _ hs]
    exact Listed.put_sorted _ _ hs

open Classical in
/-- Numbers below the cost of finding a key average to at most that. -/
theorem Spec.mean_choose [TransCmp cmp] {es : List (K × V)}
    (hd : es.Pairwise fun a b => cmp a.1 b.1 ≠ .eq) {k : K} (hk : ∃ e ∈ es, cmp k e.1 = .eq)
    {P : List (K × V) → Nat → Prop}
    (hall : ∀ o ∈ orders es, ∃ d, P o d ∧ d ≤ (grown cmp o).steps cmp k) :
    ∃ cost : List (K × V) → Nat, (∀ o ∈ orders es, P o (cost o)) ∧
      mean es cost ≤ harmonic ((es.filter fun e => cmp k e.1 == .gt).length + 1) +
        harmonic ((es.filter fun e => cmp k e.1 == .lt).length + 1) - 1 ∧
      mean es cost ≤ 2 * (Nat.log2 es.length : Nat) + 2 := by
  let cost : List (K × V) → Nat := fun o =>
    if h : o ∈ orders es then Classical.choose (hall o h) else 0
  have hc : ∀ o, (h : o ∈ orders es) → P o (cost o) ∧ cost o ≤ (grown cmp o).steps cmp k := by
    intro o h
    rw [show cost o = Classical.choose (hall o h) from dif_pos h]
    exact Classical.choose_spec (hall o h)
  have hle := Spec.mean_mono fun o ho => (hc o ho).2
  refine ⟨cost, fun o ho => (hc o ho).1, ?_, ?_⟩
  · rw [Spec.mean_seek hd, Spec.seek_present hk] at hle
    exact hle
  · rw [Spec.mean_seek hd] at hle
    refine Rat.le_trans hle (Spec.seek_log hd k ?_)
    obtain ⟨e, he, _⟩ := hk
    exact List.length_pos_of_mem he

end BST
