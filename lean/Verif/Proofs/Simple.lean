import Verif.Proofs.Conform
import Verif.Model.Simple
/-!
# The boxed tree: every method computes what the ghost trees say
-/
set_option linter.unusedSimpArgs false
namespace BST.Simple
variable {K V : Type}
open Spec (BT)

namespace Link
/-! ### Searching, inserting, removing, as recursions -/

def find (c : Probe K) : Nat → Link K V → Out (Option (K × V))
  | _, nil => .ok none
  | i, node k v l r =>
    match c i k with
    | none => .panic
    | some .lt => find c (i + 1) l
    | some .gt => find c (i + 1) r
    | some .eq => .ok (some (k, v))

/-- Where the search ends. -/
def path (c : Probe K) : Nat → Link K V → Place
  | _, nil => []
  | i, node k _ l r =>
    match c i k with
    | some .lt => false :: path c (i + 1) l
    | some .gt => true :: path c (i + 1) r
    | _ => []

def ins (c : Probe K) (k : K) (v : V) : Nat → Link K V → Link K V
  | _, nil => node k v nil nil
  | i, node k' v' l r =>
    match c i k' with
    | none => node k' v' l r
    | some .lt => node k' v' (ins c k v (i + 1) l) r
    | some .gt => node k' v' l (ins c k v (i + 1) r)
    | some .eq => node k' v l r

def popMin (k : K) (v : V) (r : Link K V) : Link K V → (K × V) × Link K V
  | nil => ((k, v), r)
  | node lk lv ll lr =>
    let x := popMin lk lv lr ll
    (x.1, node k v x.2 r)

def join (l r : Link K V) : Link K V :=
  match l, r with
  | nil, r => r
  | l, nil => l
  | l, node rk rv rl rr =>
    let x := popMin rk rv rr rl
    node x.1.1 x.1.2 l x.2

def del (c : Probe K) : Nat → Link K V → Link K V
  | _, nil => nil
  | i, node k' v' l r =>
    match c i k' with
    | none => node k' v' l r
    | some .lt => node k' v' (del c (i + 1) l) r
    | some .gt => node k' v' l (del c (i + 1) r)
    | some .eq => join l r

theorem find_ok_or_panic (c : Probe K) (i : Nat) (t : Link K V) :
    t.find c i = .panic ∨ ∃ e, t.find c i = .ok e := by
  induction t generalizing i with
  | nil => exact .inr ⟨_, rfl⟩
  | node k v l r ihl ihr =>
    unfold find
    cases c i k with
    | none => exact .inl rfl
    | some o =>
      cases o with
      | lt => exact ihl _
      | gt => exact ihr _
      | eq => exact .inr ⟨_, rfl⟩

/-! ### Places -/

@[simp] theorem at_nil (t : Link K V) : t.at' [] = t := by cases t <;> rfl
@[simp] theorem put_nil (new t : Link K V) : put new [] t = new := by cases t <;> rfl

theorem at_append (p q : Place) (t : Link K V) : t.at' (p ++ q) = (t.at' p).at' q := by
  induction p generalizing t with
  | nil => simp
  | cons b p ih =>
    cases t with
    | nil => cases q <;> cases b <;> rfl
    | node k v l r => cases b <;> exact ih _

theorem at_put {p : Place} {t : Link K V} (h : t.at' p ≠ nil) (new : Link K V) :
    (put new p t).at' p = new := by
  induction p generalizing t with
  | nil => simp
  | cons b p ih =>
    cases t with
    | nil => cases b <;> exact absurd rfl h
    | node k v l r => cases b <;> exact ih h

theorem put_put (p : Place) (a b t : Link K V) : put b p (put a p t) = put b p t := by
  induction p generalizing t with
  | nil => simp
  | cons d p ih =>
    cases t with
    | nil => cases d <;> rfl
    | node k v l r => cases d <;> simp only [put] <;> rw [ih]

theorem put_append (p q : Place) (new t : Link K V) :
    put new (p ++ q) t = put (put new q (t.at' p)) p t := by
  induction p generalizing t with
  | nil => simp
  | cons d p ih =>
    cases t with
    | nil => cases d <;> rfl
    | node k v l r => cases d <;> simp only [List.cons_append, put, at'] <;> rw [ih]

theorem put_self (p : Place) (t : Link K V) : put (t.at' p) p t = t := by
  induction p generalizing t with
  | nil => simp
  | cons d p ih =>
    cases t with
    | nil => cases d <;> rfl
    | node k v l r => cases d <;> simp only [put, at'] <;> rw [ih]

theorem put_left {p : Place} {t l r : Link K V} {k : K} {v : V} (h : t.at' p = node k v l r)
    (new : Link K V) : put new (p ++ [false]) t = put (node k v new r) p t := by
  rw [put_append, h]; simp [put]

theorem put_right {p : Place} {t l r : Link K V} {k : K} {v : V} (h : t.at' p = node k v l r)
    (new : Link K V) : put new (p ++ [true]) t = put (node k v l new) p t := by
  rw [put_append, h]; simp [put]

theorem at_left {p : Place} {t l r : Link K V} {k : K} {v : V} (h : t.at' p = node k v l r) :
    t.at' (p ++ [false]) = l := by rw [at_append, h]; simp [at']

theorem at_right {p : Place} {t l r : Link K V} {k : K} {v : V} (h : t.at' p = node k v l r) :
    t.at' (p ++ [true]) = r := by rw [at_append, h]; simp [at']

theorem size_put (p : Place) (new t : Link K V) (h : t.at' p ≠ nil) :
    (put new p t).size + (t.at' p).size = t.size + new.size := by
  induction p generalizing t with
  | nil => simp [Nat.add_comm]
  | cons d p ih =>
    cases t with
    | nil => cases d <;> exact absurd rfl h
    | node k v l r =>
      cases d
      · have := ih l h; simp only [put, at', size]; omega
      · have := ih r h; simp only [put, at', size]; omega

theorem size_at (p : Place) (t : Link K V) : (t.at' p).size ≤ t.size := by
  induction p generalizing t with
  | nil => simp
  | cons d p ih =>
    cases t with
    | nil => cases d <;> exact Nat.le_refl _
    | node k v l r =>
      cases d
      · have := ih l; simp only [at', size]; omega
      · have := ih r; simp only [at', size]; omega

/-! ### The recursions and places -/

theorem find_at {c : Probe K} {i : Nat} {t : Link K V} {e : K × V} (h : t.find c i = .ok (some e)) :
    ∃ l r, t.at' (t.path c i) = node e.1 e.2 l r := by
  induction t generalizing i with
  | nil => cases h
  | node k v l r ihl ihr =>
    unfold find at h
    unfold path
    cases hc : c i k with
    | none => rw [hc] at h; cases h
    | some o =>
      rw [hc] at h
      cases o with
      | lt => exact ihl h
      | gt => exact ihr h
      | eq => cases h; exact ⟨l, r, rfl⟩

theorem ins_hit {c : Probe K} {i : Nat} {t : Link K V} {e : K × V} (h : t.find c i = .ok (some e))
    {l r : Link K V} (ha : t.at' (t.path c i) = node e.1 e.2 l r) (k : K) (v : V) :
    t.ins c k v i = put (node e.1 v l r) (t.path c i) t := by
  induction t generalizing i with
  | nil => cases h
  | node k' v' l' r' ihl ihr =>
    unfold find at h
    unfold path at ha ⊢
    unfold ins
    cases hc : c i k' with
    | none => rw [hc] at h; cases h
    | some o =>
      rw [hc] at h ha
      cases o with
      | lt => simp only [put]; rw [ihl h ha]
      | gt => simp only [put]; rw [ihr h ha]
      | eq => cases h; cases ha; rfl

theorem del_hit {c : Probe K} {i : Nat} {t : Link K V} {e : K × V} (h : t.find c i = .ok (some e))
    {l r : Link K V} (ha : t.at' (t.path c i) = node e.1 e.2 l r) :
    t.del c i = put (join l r) (t.path c i) t := by
  induction t generalizing i with
  | nil => cases h
  | node k' v' l' r' ihl ihr =>
    unfold find at h
    unfold path at ha ⊢
    unfold del
    cases hc : c i k' with
    | none => rw [hc] at h; cases h
    | some o =>
      rw [hc] at h ha
      cases o with
      | lt => simp only [put]; rw [ihl h ha]
      | gt => simp only [put]; rw [ihr h ha]
      | eq => cases h; cases ha; rfl

theorem del_miss {c : Probe K} {i : Nat} {t : Link K V} (h : t.find c i = .ok none) :
    t.del c i = t := by
  induction t generalizing i with
  | nil => rfl
  | node k' v' l' r' ihl ihr =>
    unfold find at h
    unfold del
    cases hc : c i k' with
    | none => simp [hc] at h
    | some o =>
      rw [hc] at h
      cases o with
      | lt => simp only; rw [ihl h]
      | gt => simp only; rw [ihr h]
      | eq => cases h

theorem popMin_size (k : K) (v : V) (r l : Link K V) :
    (popMin k v r l).2.size = l.size + r.size := by
  induction l generalizing k v r with
  | nil => simp [popMin, size]
  | node lk lv ll lr ihl _ => simp only [popMin, size, ihl]; omega

theorem join_size (l r : Link K V) : (join l r).size = l.size + r.size := by
  cases l with
  | nil => cases r <;> simp [join, size]
  | node lk lv ll lr =>
    cases r with
    | nil => simp [join, size]
    | node rk rv rl rr => simp only [join, size, popMin_size]; omega

theorem ins_size {c : Probe K} {i : Nat} {t : Link K V} {e : Option (K × V)}
    (h : t.find c i = .ok e) (k : K) (v : V) :
    (t.ins c k v i).size = t.size + (if e.isNone then 1 else 0) := by
  induction t generalizing i with
  | nil => cases h; rfl
  | node k' v' l' r' ihl ihr =>
    unfold find at h
    unfold ins
    cases hc : c i k' with
    | none => rw [hc] at h; cases h
    | some o =>
      rw [hc] at h
      cases o with
      | lt => simp only [size]; rw [ihl h]; omega
      | gt => simp only [size]; rw [ihr h]; omega
      | eq => cases h; rfl

theorem del_size {c : Probe K} {i : Nat} {t : Link K V} {e : Option (K × V)}
    (h : t.find c i = .ok e) : (t.del c i).size = t.size - (if e.isSome then 1 else 0) := by
  cases e with
  | none => rw [del_miss h]; rfl
  | some e =>
    obtain ⟨l, r, ha⟩ := find_at h
    rw [del_hit h ha]
    have h1 := size_put (t.path c i) (join l r) t (by rw [ha]; simp)
    rw [ha, join_size] at h1
    simp only [size] at h1
    simp
    omega

theorem find_some_size {c : Probe K} {i : Nat} {t : Link K V} {e : K × V}
    (h : t.find c i = .ok (some e)) : 0 < t.size := by
  cases t with
  | nil => cases h
  | node k v l r => simp only [size]; omega

end Link

end BST.Simple

namespace BST
open Simple (Link)
variable {K V : Type}

/-- The boxed tree of the same shape. -/
def Tree.link : Tree K V → Link K V
  | .leaf => .nil
  | .node _ l k v r => .node k v l.link r.link

theorem Tree.link_view (t : Tree K V) : t.link.view = t.sh := by
  induction t with
  | leaf => rfl
  | node p l k v r ihl ihr => simp only [link, Link.view, ihl, ihr]; simp

theorem Tree.link_size (t : Tree K V) : t.link.size = t.size := by
  induction t with
  | leaf => rfl
  | node p l k v r ihl ihr => simp only [link, Link.size, size, ihl, ihr]

theorem Tree.link_find (c : Probe K) (i : Nat) (t : Tree K V) :
    t.link.find c i = (t.find c i).map (Option.map (·.2)) := by
  induction t generalizing i with
  | leaf => rfl
  | node p l k v r ihl ihr =>
    simp only [link, Link.find, find]
    cases c i k with
    | none => rfl
    | some o => cases o <;> first | exact ihl _ | exact ihr _ | rfl

theorem Tree.link_ins (c : Probe K) (p : Ptr) (k : K) (v : V) (i : Nat) (t : Tree K V) :
    (t.ins c p k v i).link = t.link.ins c k v i := by
  induction t generalizing i with
  | leaf => rfl
  | node q l k' v' r ihl ihr =>
    simp only [link, Link.ins, ins]
    cases c i k' with
    | none => rfl
    | some o => cases o <;> simp only [link, ihl, ihr]

theorem Tree.link_popMin (p : Ptr) (k : K) (v : V) (r l : Tree K V) :
    ((popMin p k v r l).1.2, (popMin p k v r l).2.link) = Link.popMin k v r.link l.link := by
  induction l generalizing p k v r with
  | leaf => rfl
  | node lp ll lk lv lr ihl _ =>
    have := ihl lp lk lv lr
    simp only [popMin, Link.popMin, link] at this ⊢
    rw [← this]

theorem Tree.link_join (l r : Tree K V) : (join l r).link = Link.join l.link r.link := by
  cases l with
  | leaf => cases r <;> rfl
  | node lp ll lk lv lr =>
    cases r with
    | leaf => rfl
    | node rp rl rk rv rr =>
      have := link_popMin rp rk rv rr rl
      simp only [join, Link.join, link] at this ⊢
      rw [← this]

theorem Tree.link_del (c : Probe K) (i : Nat) (t : Tree K V) :
    (t.del c i).link = t.link.del c i := by
  induction t generalizing i with
  | leaf => rfl
  | node q l k' v' r ihl ihr =>
    simp only [link, Link.del, del]
    cases c i k' with
    | none => rfl
    | some o => cases o <;> simp only [link, ihl, ihr, link_join]

/-- Every boxed tree is the shape of a ghost tree with distinct addresses. -/
theorem Tree.exists_link (t : Link K V) : ∃ w : Tree K V, w.link = t ∧ w.ptrs.Nodup := by
  have key : ∀ (t : Link K V) (n : Nat), ∃ w : Tree K V, w.link = t ∧ w.ptrs.Nodup ∧
      ∀ p ∈ w.ptrs, n ≤ p.off ∧ p.off < n + t.size := by
    intro t
    induction t with
    | nil => exact fun n => ⟨.leaf, rfl, List.nodup_nil, fun p hp => by cases hp⟩
    | node k v l r ihl ihr =>
      intro n
      obtain ⟨wl, h1, h2, h3⟩ := ihl (n + 1)
      obtain ⟨wr, h4, h5, h6⟩ := ihr (n + 1 + l.size)
      refine ⟨.node ⟨0, n⟩ wl k v wr, by simp [link, h1, h4], ?_, ?_⟩
      · simp only [ptrs, List.nodup_cons, List.mem_append, not_or, List.nodup_append]
        refine ⟨⟨fun h => ?_, fun h => ?_⟩, h2, h5, fun a ha b hb e => ?_⟩
        · have := (h3 _ h).1; dsimp at this; omega
        · have := (h6 _ h).1; dsimp at this; omega
        · have := (h3 _ ha).2; have := (h6 _ hb).1; subst e; omega
      · intro p hp
        simp only [ptrs, List.mem_cons, List.mem_append] at hp
        simp only [Link.size]
        rcases hp with rfl | hp | hp
        · dsimp; omega
        · have := h3 p hp; omega
        · have := h6 p hp; omega
  obtain ⟨w, h1, h2, _⟩ := key t 0
  exact ⟨w, h1, h2⟩

end BST
