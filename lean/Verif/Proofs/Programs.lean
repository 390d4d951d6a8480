import Verif.Programs
import Verif.Proofs.AgreeRun
/-!
# Programs over maps: simulations
-/
set_option linter.unusedSimpArgs false
namespace BST
variable {K V R S σ τ : Type}
open Spec (Failed)

/-- Two lists of maps are related one by one. -/
def Related (Q : σ → τ → Prop) (as : List σ) (bs : List τ) : Prop :=
  as.length = bs.length ∧ ∀ (i : Nat) a b, as[i]? = some a → bs[i]? = some b → Q a b

namespace Related
variable {Q : σ → τ → Prop} {as : List σ} {bs : List τ}

theorem nil : Related Q [] [] := ⟨rfl, by simp⟩

theorem push (h : Related Q as bs) {a : σ} {b : τ} (hab : Q a b) :
    Related Q (as ++ [a]) (bs ++ [b]) := by
  refine ⟨by simp [h.1], fun i x y hx hy => ?_⟩
  rw [List.getElem?_append] at hx hy
  rw [h.1] at hx
  split at hx
  · rw [if_pos ‹_›] at hy
    exact h.2 i x y hx hy
  · rw [if_neg ‹_›] at hy
    cases hi : i - bs.length with
    | zero =>
      rw [hi] at hx hy
      cases hx; cases hy
      exact hab
    | succ n => rw [hi] at hx; simp at hx

theorem set (h : Related Q as bs) (i : Nat) {a : σ} {b : τ} (hab : Q a b) :
    Related Q (as.set i a) (bs.set i b) := by
  refine ⟨by simp [h.1], fun j x y hx hy => ?_⟩
  rw [List.getElem?_set] at hx hy
  split at hx
  · rw [if_pos ‹_›] at hy
    split at hx
    · split at hy
      · cases hx; cases hy
        exact hab
      · cases hy
    · cases hx
  · rw [if_neg ‹_›] at hy
    exact h.2 j x y hx hy

/-- Both have an `i`-th element, or none has. -/
theorem get (h : Related Q as bs) (i : Nat) :
    (as[i]? = none ∧ bs[i]? = none) ∨ ∃ a b, as[i]? = some a ∧ bs[i]? = some b ∧ Q a b := by
  cases ha : as[i]? with
  | none =>
    rw [List.getElem?_eq_none_iff, h.1] at ha
    exact .inl ⟨rfl, List.getElem?_eq_none_iff.2 ha⟩
  | some a =>
    cases hb : bs[i]? with
    | none =>
      rw [List.getElem?_eq_none_iff, ← h.1, ← List.getElem?_eq_none_iff, ha] at hb
      cases hb
    | some b => exact .inr ⟨a, b, rfl, rfl, h.2 i a b ha hb⟩

theorem mono {Q' : σ → τ → Prop} (h : Related Q as bs) (hQ : ∀ a b, Q a b → Q' a b) :
    Related Q' as bs := ⟨h.1, fun i a b ha hb => hQ a b (h.2 i a b ha hb)⟩

/-- Related lists have equal images. -/
theorem map_eq {ρ : Type} {f : σ → ρ} {g : τ → ρ} (h : Related Q as bs)
    (hfg : ∀ a b, Q a b → f a = g b) : as.map f = bs.map g := by
  apply List.ext_getElem?
  intro i
  rw [List.getElem?_map, List.getElem?_map]
  rcases h.get i with ⟨ha, hb⟩ | ⟨a, b, ha, hb, hab⟩
  · rw [ha, hb]; rfl
  · rw [ha, hb]; exact congrArg some (hfg a b hab)

end Related

namespace Prog
variable {A : Maps K V σ} {B : Maps K V τ} {Q : σ → τ → Prop}

/-- The process was aborted or, if `pan` says that this can happen, the call panicked. -/
def Fails (pan : Prop) (o : Out R) : Prop := o = .abort ∨ (o = .panic ∧ pan)

/-- If one kind of maps simulates the other but for failures, programs have the same results but
for failures. -/
theorem run_sim {pan : Prop} (hnew : Q A.new B.new)
    (hclone : ∀ a b, Q a b → (∃ a' b', A.clone a = .ok a' ∧ B.clone b = .ok b' ∧ Q a' b') ∨
      Fails pan (A.clone a))
    (heq : ∀ a b a' b', Q a b → Q a' b' → ∃ r, A.eq a a' = .ok r ∧ B.eq b b' = .ok r)
    (hcall : ∀ c a b, Q a b → ∃ o a', A.call c a = (o, a') ∧
      ((∃ b', B.call c b = (o, b') ∧ Q a' b') ∨ Fails pan o))
    (p : Prog K V R) {as : List σ} {bs : List τ} (h : Related Q as bs) :
    ∃ o as', p.run A as = (o, as') ∧
      ((∃ bs', p.run B bs = (o, bs') ∧ Related Q as' bs') ∨ Fails pan o) := by
  induction p generalizing as bs with
  | ret r => exact ⟨_, _, rfl, .inl ⟨_, rfl, h⟩⟩
  | panic => exact ⟨_, _, rfl, .inl ⟨_, rfl, h⟩⟩
  | new k ih =>
    obtain ⟨o, as', h1, h2⟩ := ih as.length (h.push hnew)
    refine ⟨o, as', h1, h2.imp_left ?_⟩
    rintro ⟨bs', h3, h4⟩
    refine ⟨bs', ?_, h4⟩
    show (k bs.length).run B _ = _
    rw [← h.1]
    exact h3
  | clone i k ih =>
    unfold run
    rcases h.get i with ⟨ha, hb⟩ | ⟨a, b, ha, hb, hab⟩
    · rw [ha, hb]
      exact ⟨_, _, rfl, .inl ⟨_, rfl, h⟩⟩
    · rw [ha, hb]
      rcases hclone a b hab with ⟨a', b', h1, h2, h3⟩ | h1 | ⟨h1, h2⟩
      · dsimp only
        rw [h1, h2]
        obtain ⟨o, as', h4, h5⟩ := ih as.length (h.push h3)
        refine ⟨o, as', h4, h5.imp_left ?_⟩
        rw [h.1]
        exact id
      · dsimp only
        rw [h1]
        exact ⟨_, _, rfl, .inr (.inl rfl)⟩
      · dsimp only
        rw [h1]
        exact ⟨_, _, rfl, .inr (.inr ⟨rfl, h2⟩)⟩
  | eq i j k ih =>
    unfold run
    rcases h.get i with ⟨ha, hb⟩ | ⟨a, b, ha, hb, hab⟩
    · rw [ha, hb]
      exact ⟨_, _, rfl, .inl ⟨_, rfl, h⟩⟩
    · rcases h.get j with ⟨ha', hb'⟩ | ⟨a', b', ha', hb', hab'⟩
      · rw [ha, ha', hb, hb']
        exact ⟨_, _, rfl, .inl ⟨_, rfl, h⟩⟩
      · rw [ha, ha', hb, hb']
        obtain ⟨r, h1, h2⟩ := heq a b a' b' hab hab'
        dsimp only
        rw [h1, h2]
        exact ih r h
  | call i c k ih =>
    unfold run
    rcases h.get i with ⟨ha, hb⟩ | ⟨a, b, ha, hb, hab⟩
    · rw [ha, hb]
      exact ⟨_, _, rfl, .inl ⟨_, rfl, h⟩⟩
    · rw [ha, hb]
      obtain ⟨o, a', h1, ⟨b', h2, h3⟩ | h2 | ⟨h2, h4⟩⟩ := hcall c a b hab
      · dsimp only
        rw [h1, h2]
        cases o with
        | ok r => exact ih r (h.set i h3)
        | _ => exact ⟨_, _, rfl, .inl ⟨_, rfl, h.set i h3⟩⟩
      · subst h2
        dsimp only
        rw [h1]
        exact ⟨_, _, rfl, .inr (.inl rfl)⟩
      · subst h2
        dsimp only
        rw [h1]
        exact ⟨_, _, rfl, .inr (.inr ⟨rfl, h4⟩)⟩

/-- If there is room (`w` says how much a map takes up), programs have the same results. -/
theorem run_room {D : Nat} {w : σ → Nat} (hnew : Q A.new B.new) (hw : w A.new = 0)
    (hclone : ∀ a b, Q a b → w a ≤ D →
      ∃ a' b', A.clone a = .ok a' ∧ B.clone b = .ok b' ∧ Q a' b' ∧ w a' ≤ w a)
    (heq : ∀ a b a' b', Q a b → Q a' b' → ∃ r, A.eq a a' = .ok r ∧ B.eq b b' = .ok r)
    (hcall : ∀ c a b, Q a b → w a + c.demand ≤ D → ∃ o a' b', A.call c a = (o, a') ∧
      B.call c b = (o, b') ∧ Q a' b' ∧ w a' ≤ w a + c.demand)
    (p : Prog K V R) {as : List σ} {bs : List τ} (h : Related Q as bs)
    (hD : ∀ a ∈ as, w a + p.demand B bs ≤ D) (hp : p.demand B bs ≤ D) :
    ∃ o as' bs', p.run A as = (o, as') ∧ p.run B bs = (o, bs') ∧ Related Q as' bs' := by
  induction p generalizing as bs with
  | ret r => exact ⟨_, _, _, rfl, rfl, h⟩
  | panic => exact ⟨_, _, _, rfl, rfl, h⟩
  | new k ih =>
    unfold demand at hD hp
    rw [← h.1] at hD hp
    unfold run
    rw [← h.1]
    refine ih as.length (h.push hnew) (fun a ha => ?_) hp
    rcases List.mem_append.1 ha with ha | ha
    · exact hD a ha
    · rw [List.mem_singleton.1 ha, hw, Nat.zero_add]
      exact hp
  | clone i k ih =>
    unfold demand at hD hp
    unfold run
    rcases h.get i with ⟨ha, hb⟩ | ⟨a, b, ha, hb, hab⟩
    · rw [ha, hb]
      exact ⟨_, _, _, rfl, rfl, h⟩
    · rw [hb] at hD hp
      rw [ha, hb]
      have hm := List.mem_of_getElem? ha
      obtain ⟨a', b', h1, h2, h3, h4⟩ := hclone a b hab (by have := hD a hm; omega)
      dsimp only at hD hp ⊢
      rw [h2, ← h.1] at hD hp
      rw [h1, h2, ← h.1]
      refine ih as.length (h.push h3) (fun x hx => ?_) hp
      rcases List.mem_append.1 hx with hx | hx
      · exact hD x hx
      · rw [List.mem_singleton.1 hx]
        have := hD a hm
        dsimp only at this
        omega
  | eq i j k ih =>
    unfold demand at hD hp
    unfold run
    rcases h.get i with ⟨ha, hb⟩ | ⟨a, b, ha, hb, hab⟩
    · rw [ha, hb]
      exact ⟨_, _, _, rfl, rfl, h⟩
    · rcases h.get j with ⟨ha', hb'⟩ | ⟨a', b', ha', hb', hab'⟩
      · rw [ha, ha', hb, hb']
        exact ⟨_, _, _, rfl, rfl, h⟩
      · rw [hb, hb'] at hD hp
        rw [ha, ha', hb, hb']
        obtain ⟨r, h1, h2⟩ := heq a b a' b' hab hab'
        dsimp only at hD hp ⊢
        rw [h2] at hD hp
        rw [h1, h2]
        exact ih r h hD hp
  | call i c k ih =>
    unfold demand at hD hp
    unfold run
    rcases h.get i with ⟨ha, hb⟩ | ⟨a, b, ha, hb, hab⟩
    · rw [ha, hb]
      exact ⟨_, _, _, rfl, rfl, h⟩
    · rw [hb] at hD hp
      rw [ha, hb]
      have hm := List.mem_of_getElem? ha
      dsimp only at hD hp ⊢
      obtain ⟨o, a', b', h1, h2, h3, h4⟩ := hcall c a b hab (by have := hD a hm; omega)
      rw [h2] at hD hp
      rw [h1, h2]
      cases o with
      | ok r =>
        dsimp only at hD hp ⊢
        refine ih r (h.set i h3) (fun x hx => ?_) (by omega)
        rcases List.mem_or_eq_of_mem_set hx with hx | rfl
        · have := hD x hx
          omega
        · have := hD a hm
          omega
      | _ => exact ⟨_, _, _, rfl, rfl, h.set i h3⟩

/-- An exact simulation makes the same demands. -/
theorem demand_sim (hnew : Q A.new B.new)
    (hclone : ∀ a b, Q a b → ∃ a' b', A.clone a = .ok a' ∧ B.clone b = .ok b' ∧ Q a' b')
    (heq : ∀ a b a' b', Q a b → Q a' b' → ∃ r, A.eq a a' = .ok r ∧ B.eq b b' = .ok r)
    (hcall : ∀ c a b, Q a b → ∃ o a' b', A.call c a = (o, a') ∧ B.call c b = (o, b') ∧ Q a' b')
    (p : Prog K V R) {as : List σ} {bs : List τ} (h : Related Q as bs) :
    p.demand A as = p.demand B bs := by
  induction p generalizing as bs with
  | ret r => rfl
  | panic => rfl
  | new k ih =>
    unfold demand
    rw [← h.1]
    exact ih as.length (h.push hnew)
  | clone i k ih =>
    unfold demand
    rcases h.get i with ⟨ha, hb⟩ | ⟨a, b, ha, hb, hab⟩
    · rw [ha, hb]
    · rw [ha, hb]
      obtain ⟨a', b', h1, h2, h3⟩ := hclone a b hab
      dsimp only
      rw [h1, h2, ← h.1]
      exact ih as.length (h.push h3)
  | eq i j k ih =>
    unfold demand
    rcases h.get i with ⟨ha, hb⟩ | ⟨a, b, ha, hb, hab⟩
    · rw [ha, hb]
    · rcases h.get j with ⟨ha', hb'⟩ | ⟨a', b', ha', hb', hab'⟩
      · rw [ha, ha', hb, hb']
      · rw [ha, ha', hb, hb']
        obtain ⟨r, h1, h2⟩ := heq a b a' b' hab hab'
        dsimp only
        rw [h1, h2]
        exact ih r h
  | call i c k ih =>
    unfold demand
    rcases h.get i with ⟨ha, hb⟩ | ⟨a, b, ha, hb, hab⟩
    · rw [ha, hb]
    · rw [ha, hb]
      dsimp only
      obtain ⟨o, a', b', h1, h2, h3⟩ := hcall c a b hab
      rw [h1, h2]
      cases o with
      | ok r => dsimp only; rw [ih r (h.set i h3)]
      | _ => rfl

end Prog

/-! ### The trees behind the calls -/

open BSTMap Tree Std
open Spec (BT Order Sorted setHit hitOf lookup)

/-- What a call does to the search tree. -/
def Call.tree (cmp : K → K → Ordering) : Call K V → BT (K × V) → BT (K × V)
  | insert k v, b => b.insert cmp k v
  | remove k, b => b.erase (cmp k)
  | removeEntry k, b => b.erase (cmp k)
  | update k f, b =>
    match lookup (hitOf (cmp k)) b.ino with
    | none => b
    | some e =>
      match f e.2 with
      | none => b
      | some w => b.map fun e => if hitOf (cmp k) e.1 then (e.1, w) else e
  | clear, _ => .nil
  | extend items, b => BT.insertList cmp items b
  | _, b => b

/-- Search trees as maps. -/
def treeMaps (cmp : K → K → Ordering) (keq : K → K → Bool) (veq : V → V → Bool) :
    Maps K V (BT (K × V)) where
  new := .nil
  clone := fun b => .ok b
  eq := fun a b => .ok (Spec.sameBy keq veq a.ino b.ino)
  call := fun c b => ((Listed.call cmp c b.ino).1, c.tree cmp b)

/-- The call as an operation of a history; `update` is not one. -/
def Call.op (cmp : K → K → Ordering) : Call K V → Option (SimpleOp K V)
  | insert k v => some (.insert (query (cmp k)) k v)
  | remove k => some (.remove (query (cmp k)))
  | removeEntry k => some (.removeEntry (query (cmp k)))
  | get k => some (.get (query (cmp k)))
  | getEntry k => some (.getEntry (query (cmp k)))
  | containsKey k => some (.containsKey (query (cmp k)))
  | update _ _ => none
  | len => some .len
  | isEmpty => some .isEmpty
  | clear => some .clear
  | iter n => some (.iter .ino n)
  | extend items => some (.extend (fun _ k => query (cmp k))
      ⟨(items.length, some items.length), items, false⟩)

section
variable {cmp : K → K → Ordering}

theorem asks_query (f : K → Ordering) : Asks f (query f) := fun _ _ => .inr rfl
theorem not_panics_query (f : K → Ordering) : ¬ Panics (query f) := by
  rintro ⟨i, x, h⟩; cases h

theorem find_eq_lookup (k : K) (l : List (K × V)) :
    Listed.find cmp k l = lookup (hitOf (cmp k)) l := rfl

theorem put_right [TransCmp cmp] (k : K) (v : V) {a b : List (K × V)} (h : ∀ e ∈ a, cmp k e.1 = .gt) :
    Listed.put cmp k v (a ++ b) = a ++ Listed.put cmp k v b := by
  induction a with
  | nil => rfl
  | cons e a ih =>
    show Listed.put cmp k v (e :: (a ++ b)) = _
    rw [Listed.put, h e List.mem_cons_self]
    exact congrArg _ (ih fun x hx => h x (List.mem_cons_of_mem _ hx))

theorem put_left (k : K) (v : V) {a b : List (K × V)} (h : ∀ e ∈ b.head?, cmp k e.1 = .lt) :
    Listed.put cmp k v (a ++ b) = Listed.put cmp k v a ++ b := by
  induction a with
  | nil =>
    cases b with
    | nil => rfl
    | cons e b =>
      show Listed.put cmp k v (e :: b) = _
      simp only [Listed.put, h e rfl]
      rfl
  | cons e a ih =>
    show Listed.put cmp k v (e :: (a ++ b)) = _
    rw [Listed.put, Listed.put]
    cases cmp k e.1 with
    | lt => rfl
    | eq => rfl
    | gt => exact congrArg _ ih

theorem bt_insert_ino [TransCmp cmp] (k : K) (v : V) {b : BT (K × V)} (hs : Sorted cmp b.ino) :
    (b.insert cmp k v).ino = Listed.put cmp k v b.ino := by
  induction b with
  | nil => rfl
  | node l e r ihl ihr =>
    have hs := List.pairwise_append.1 hs
    obtain ⟨h1, h2, h3⟩ := hs
    have h2 := List.pairwise_cons.1 h2
    have hl : ∀ x ∈ l.ino, cmp x.1 e.1 = .lt := fun x hx => h3 x hx e List.mem_cons_self
    rw [BT.insert]
    cases hk : cmp k e.1 with
    | lt =>
      show (l.insert cmp k v).ino ++ e :: r.ino = Listed.put cmp k v (l.ino ++ e :: r.ino)
      rw [ihl h1, put_left k v (by rintro x ⟨⟩; exact hk)]
    | eq =>
      show l.ino ++ (e.1, v) :: r.ino = Listed.put cmp k v (l.ino ++ e :: r.ino)
      rw [put_right k v (fun x hx => (lawful_cmp cmp k).gt_of_eq _ _ (hl x hx) hk), Listed.put, hk]
    | gt =>
      show l.ino ++ e :: (r.insert cmp k v).ino = Listed.put cmp k v (l.ino ++ e :: r.ino)
      rw [put_right k v (fun x hx => (lawful_cmp cmp k).gt_of_gt _ _ (hl x hx) hk), Listed.put, hk,
        ihr h2.2]

theorem bt_insertList_ino [TransCmp cmp] (xs : List (K × V)) {t : Tree K V} (hs : t.SortedBy cmp) :
    (BT.insertList cmp xs t.sh).ino = xs.foldl (fun l e => Listed.put cmp e.1 e.2 l) t.kv := by
  induction xs generalizing t with
  | nil => exact t.sh_ino
  | cons e xs ih =>
    obtain ⟨w, h1, h2, h3⟩ := insert_ino hs e.1 e.2
    have := ih h1
    rw [h2] at this
    refine this.trans ?_
    rw [← sh_ino, h2, bt_insert_ino e.1 e.2 (by rw [sh_ino]; exact hs), sh_ino]
    rfl

theorem put_hit [TransCmp cmp] {k : K} {e : K × V} (w : V) {l : List (K × V)} (hs : Sorted cmp l)
    (h : lookup (hitOf (cmp k)) l = some e) :
    Listed.put cmp k w l = l.map fun e => if hitOf (cmp k) e.1 then (e.1, w) else e := by
  induction l with
  | nil => cases h
  | cons x l ih =>
    have hs := List.pairwise_cons.1 hs
    rw [Listed.put, List.map_cons]
    cases hx : cmp k x.1 with
    | eq =>
      have : l.map (fun e => if hitOf (cmp k) e.1 then (e.1, w) else e) = l := by
        refine setHit_none fun y hy => ?_
        rw [hitOf, (lawful_cmp cmp k).lt_of_eq _ _ (hs.1 y hy) hx]
        rfl
      rw [this, hitOf, hx]
      rfl
    | lt =>
      exfalso
      have h0 : lookup (hitOf (cmp k)) (x :: l) = none := by
        refine List.find?_eq_none.2 fun y hy => ?_
        rcases List.mem_cons.1 hy with rfl | hy
        · rw [hitOf, hx]; decide
        · rw [hitOf, (lawful_cmp cmp k).lt_of_lt _ _ (hs.1 y hy) hx]; decide
      rw [h0] at h
      cases h
    | gt =>
      have h' : lookup (hitOf (cmp k)) l = some e := by
        rw [lookup, List.find?_cons, hitOf, hx] at h
        exact h
      dsimp only
      rw [ih hs.2 h', hitOf, hx]
      rfl

theorem lookup_any (hit : K → Bool) (l : List (K × V)) :
    (lookup hit l).isSome = l.any fun e => hit e.1 := by
  rw [lookup]
  induction l with
  | nil => rfl
  | cons e l ih =>
    rw [List.find?_cons, List.any_cons]
    cases hit e.1 with
    | true => rfl
    | false => exact ih

/-- A call that returns as on a search tree returns as on a sorted list. -/
theorem tree_listed [TransCmp cmp] {c : Call K V} {op : SimpleOp K V} (hop : c.op cmp = some op)
    {t : Tree K V} (hs : t.SortedBy cmp) {r : Ret K V} {b' : BT (K × V)}
    (h : Spec.TreeAnswer cmp t.sh (.ok r) b' (op.twin cmp)) :
    Listed.call cmp c t.kv = (.ok r, b'.ino) ∧ b' = c.tree cmp t.sh := by
  have hq : ∀ {k : K} {g : (K → Ordering) → Ret K V} {g' : (K → Ordering) → BT (K × V)},
      Spec.Queried cmp (query (cmp k)) t.sh (.ok r) b' g g' → r = g (cmp k) ∧ b' = g' (cmp k) := by
    intro k g g' h
    rcases h (cmp k) (lawful_cmp cmp k) (asks_query _) with ⟨h1, h2⟩ | ⟨h1, _⟩
    · cases h1; exact ⟨rfl, h2⟩
    · cases h1
  cases c with
  | insert k v =>
    cases hop
    rcases h with ⟨h1, h2⟩ | ⟨h1, _⟩ | ⟨h1 | h1, _⟩
    · cases h1
      refine ⟨?_, h2⟩
      rw [h2, bt_insert_ino k v (by rw [sh_ino]; exact hs), sh_ino]
      rfl
    · cases h1
    · cases h1
    · cases h1
  | remove k =>
    cases hop
    obtain ⟨h1, h2⟩ := hq h
    refine ⟨?_, h2⟩
    rw [h2, erase_ino hs (lawful_cmp cmp k), h1, sh_ino]
    rfl
  | removeEntry k =>
    cases hop
    obtain ⟨h1, h2⟩ := hq h
    refine ⟨?_, h2⟩
    rw [h2, erase_ino hs (lawful_cmp cmp k), h1, sh_ino]
    rfl
  | get k =>
    cases hop
    obtain ⟨h1, h2⟩ := hq h
    refine ⟨?_, h2⟩
    rw [h2, h1, sh_ino]
    rfl
  | getEntry k =>
    cases hop
    obtain ⟨h1, h2⟩ := hq h
    refine ⟨?_, h2⟩
    rw [h2, h1, sh_ino]
    rfl
  | containsKey k =>
    cases hop
    obtain ⟨h1, h2⟩ := hq h
    refine ⟨?_, h2⟩
    rw [h2, h1, sh_ino, ← lookup_any]
    rfl
  | update k f => cases hop
  | len =>
    cases hop
    obtain ⟨h1, h2⟩ := h
    cases h1
    refine ⟨?_, h2⟩
    rw [h2, ← sh_ino, ← BT.ino_length]
    rfl
  | isEmpty =>
    cases hop
    obtain ⟨h1, h2⟩ := h
    cases h1
    refine ⟨?_, h2⟩
    rw [h2, ← sh_ino, ← BT.ino_length]
    cases t.sh.ino <;> rfl
  | clear =>
    cases hop
    obtain ⟨h1, h2⟩ := h
    cases h1
    refine ⟨?_, h2⟩
    rw [h2]
    rfl
  | iter n =>
    cases hop
    obtain ⟨h1, h2⟩ := h
    cases h2
    refine ⟨?_, h1⟩
    rw [h1, ← sh_ino]
    rfl
  | extend items =>
    cases hop
    obtain ⟨used, rest, h1, h2, ⟨h3, rfl, _⟩ | h3 | h3⟩ := h
    · cases h3
      rw [List.append_nil] at h1
      have h1 : items = used := h1
      subst h1
      refine ⟨?_, h2⟩
      rw [h2, bt_insertList_ino _ hs]
      rfl
    · cases h3
    · cases h3

/-- The same for a change of a value. -/
theorem update_listed [TransCmp cmp] {k : K} {f : V → Option V} {t : Tree K V} (hs : t.SortedBy cmp) :
    Listed.call cmp (.update k f) t.kv =
      (match lookup (hitOf (cmp k)) t.sh.ino with
       | none => .ok (.value none)
       | some e => match f e.2 with
         | none => .panic
         | some _ => .ok (.value (some e.2)), ((Call.update k f).tree cmp t.sh).ino) := by
  rw [Listed.call, Call.tree]
  dsimp only
  rw [sh_ino, find_eq_lookup]
  cases hl : lookup (hitOf (cmp k)) t.kv with
  | none => dsimp only; rw [sh_ino]
  | some e =>
    dsimp only
    cases f e.2 with
    | none => dsimp only; rw [sh_ino]
    | some w => dsimp only; rw [BT.map_ino, sh_ino, put_hit w hs hl]

end


/-! ### One call -/

section
variable {cmp : K → K → Ordering} {keq : K → K → Bool} {veq : V → V → Bool}

theorem onBST_op {cfg : Cfg} {c : Call K V} {op : SimpleOp K V} (hop : c.op cmp = some op) :
    c.onBST cfg cmp = (op.twin cmp).run cfg := by
  cases c <;> cases hop <;> rfl

theorem onSimple_op {cfg : Cfg} {c : Call K V} {op : SimpleOp K V} (hop : c.op cmp = some op) :
    c.onSimple cfg cmp = op.run cfg := by
  cases c <;> cases hop <;> rfl

theorem op_demand {c : Call K V} {op : SimpleOp K V} (hop : c.op cmp = some op) :
    (op.twin cmp).demand = c.demand := by
  cases c <;> cases hop <;> rfl

theorem op_calm {c : Call K V} {op : SimpleOp K V} (hop : c.op cmp = some op) :
    (op.twin cmp).Calm := by
  cases c <;> cases hop <;> first | exact fun _ => rfl | trivial

theorem op_quiet {c : Call K V} {op : SimpleOp K V} (hop : c.op cmp = some op) :
    (op.twin cmp).Quiet ∧ op.Quiet := by
  cases c <;> cases hop <;> first
    | exact ⟨not_panics_query _, not_panics_query _⟩
    | exact ⟨⟨fun _ _ => not_panics_query _, rfl⟩, ⟨fun _ _ => not_panics_query _, rfl⟩⟩
    | exact ⟨fun _ => rfl, fun _ => rfl⟩
    | exact ⟨trivial, trivial⟩

theorem op_lawful [TransCmp cmp] {c : Call K V} {op : SimpleOp K V} (hop : c.op cmp = some op) :
    op.Lawful cmp := by
  cases c <;> cases hop <;> first
    | exact ⟨_, lawful_cmp cmp _, asks_query _⟩
    | exact asks_query _
    | exact fun _ _ => asks_query _
    | exact fun _ => rfl
    | trivial

theorem op_shared {c : Call K V} {op : SimpleOp K V} (hop : c.op cmp = some op) {b b' : BT (K × V)}
    {r : Ret K V} (h : Spec.SimpleAnswer cmp b (.ok r) b' op) :
    Spec.TreeAnswer cmp b (.ok r) b' (op.twin cmp) := by
  cases c <;> cases hop <;> exact h.resolve_left fun h => by cases h.1

theorem op_update {c : Call K V} (hop : c.op cmp = none) : ∃ k f, c = .update k f := by
  cases c with
  | update k f => exact ⟨k, f, rfl⟩
  | _ => cases hop

/-- Change of a value in a `BSTMap`. -/
theorem update_bst [TransCmp cmp] {cfg : Cfg} {m : BSTMap K V} {t : Tree K V} (h : Shape cfg m t)
    (hs : t.SortedBy cmp) (k : K) (f : V → Option V) :
    ∃ o m' t', (Call.update k f).onBST cfg cmp m = (o, m') ∧ Shape cfg m' t' ∧ t'.SortedBy cmp ∧
      slots m' = slots m ∧ (treeMaps cmp keq veq).call (.update k f) t.sh = (o, t'.sh) := by
  have hcall : (treeMaps cmp keq veq).call (.update k f) t.sh =
      ((Listed.call cmp (.update k f) t.kv).1, (Call.update k f).tree cmp t.sh) := by
    rw [← sh_ino]; rfl
  rw [hcall, update_listed hs, Call.tree]
  have hg := getMut_spec h (query (cmp k))
  have hl := lawful_cmp cmp k
  have hc := asks_query (cmp k)
  rcases t.find_ok_or_panic (query (cmp k)) 0 with hf | ⟨e, he⟩
  · exact absurd (find_panics hf) (not_panics_query _)
  · rw [he] at hg
    have hlk := find_lookup hs hl hc he
    rw [hlk]
    cases e with
    | none => exact ⟨_, _, t, M.bind_ok hg, h, hs, rfl, rfl⟩
    | some e =>
      obtain ⟨q, k', v⟩ := e
      have hq := Tree.find_mem he
      obtain ⟨l, r, hv⟩ := h.rep.mem_ino hq
      have hv : m.nodes.view q = some ⟨k', v, l, r⟩ := hv
      have hrd : BSTMap.onNodes (M.read fun s => s.getUnchecked q) m = (.ok ⟨k', v, l, r⟩, m) :=
        onNodes_pure (by rw [M.read, Slab.getUnchecked_ok hv])
      dsimp only [Option.map]
      cases hfv : f v with
      | none =>
        refine ⟨.panic, m, t, ?_, h, hs, rfl, rfl⟩
        refine (M.bind_ok hg).trans ((M.bind_ok hrd).trans ?_)
        dsimp only
        rw [hfv]
        rfl
      | some w =>
        obtain ⟨m', x, _, h1, h2, _, h3⟩ := writeValue_spec h (ptr_mem_of_ino hq) w
        refine ⟨.ok (.value (some v)), m', _, ?_, h2, setV_sorted' hs _ _, h3.len, ?_⟩
        · refine (M.bind_ok hg).trans ((M.bind_ok hrd).trans ?_)
          dsimp only
          rw [hfv]
          exact M.bind_ok h1
        · rw [setV_sh h.nodup hs hl hc he w]

theorem map_sorted {k : K} {w : V} {l : List (K × V)} (hs : Sorted cmp l) :
    Sorted cmp (l.map fun e => if hitOf (cmp k) e.1 then (e.1, w) else e) := by
  refine List.pairwise_map.2 (hs.imp fun {a b} hab => ?_)
  have : ∀ e : K × V, (if hitOf (cmp k) e.1 then (e.1, w) else e).1 = e.1 := by
    intro e; split <;> rfl
  rw [this, this]
  exact hab

/-- Search trees do as sorted lists. -/
theorem tree_call [TransCmp cmp] (c : Call K V) {b : BT (K × V)} (hs : Sorted cmp b.ino) :
    (c.tree cmp b).ino = (Listed.call cmp c b.ino).2 ∧ Sorted cmp (c.tree cmp b).ino := by
  obtain ⟨t, rfl⟩ : ∃ t : Tree K V, t.sh = b := by
    obtain ⟨w, h, _⟩ := Tree.exists_link (Simple.Link.ofView b)
    exact ⟨w, by rw [← Tree.link_view, h, Simple.Link.view_ofView]⟩
  have hs' : t.SortedBy cmp := by rw [sh_ino] at hs; exact hs
  have her : ∀ k, (t.sh.erase (cmp k)).ino = Listed.erase cmp k t.sh.ino ∧
      Sorted cmp (t.sh.erase (cmp k)).ino := by
    intro k
    have := erase_ino hs' (lawful_cmp cmp k)
    refine ⟨by rw [this, sh_ino]; rfl, ?_⟩
    rw [this]
    exact List.Pairwise.filter _ hs'
  cases c with
  | insert k v =>
    obtain ⟨w, h1, h2, _⟩ := insert_ino hs' k v
    refine ⟨bt_insert_ino k v hs, ?_⟩
    show Sorted cmp (t.sh.insert cmp k v).ino
    rw [← h2, sh_ino]
    exact h1
  | remove k => exact her k
  | removeEntry k => exact her k
  | update k f =>
    have h1 := update_listed (k := k) (f := f) hs'
    rw [← sh_ino] at h1
    refine ⟨by rw [h1], ?_⟩
    rw [Call.tree]
    split
    · exact hs
    · split
      · exact hs
      · rw [BT.map_ino]
        exact map_sorted hs
  | clear => exact ⟨rfl, List.Pairwise.nil⟩
  | extend items =>
    obtain ⟨w, h1, h2, _⟩ := insertList_ino items hs'
    refine ⟨by rw [sh_ino]; exact bt_insertList_ino items hs', ?_⟩
    show Sorted cmp (BT.insertList cmp items t.sh).ino
    rw [← h2, sh_ino]
    exact h1
  | _ => exact ⟨rfl, hs⟩

/-- A call on a `BSTMap`. -/
theorem bst_step [TransCmp cmp] {cfg : Cfg} {m : BSTMap K V} {t : Tree K V} (h : Shape cfg m t)
    (hs : t.SortedBy cmp) (c : Call K V) :
    ∃ o m' t', c.onBST cfg cmp m = (o, m') ∧ Shape cfg m' t' ∧ t'.SortedBy cmp ∧
      ((treeMaps cmp keq veq).call c t.sh = (o, t'.sh) ∨ Prog.Fails True o) := by
  cases hop : c.op cmp with
  | none =>
    obtain ⟨k, f, rfl⟩ := op_update hop
    obtain ⟨o, m', t', h1, h2, h3, _, h4⟩ := update_bst (keq := keq) (veq := veq) h hs k f
    exact ⟨o, m', t', h1, h2, h3, .inl h4⟩
  | some op =>
    rw [onBST_op hop]
    obtain ⟨o, m', t', h1, h2, h3, h4⟩ := run_tree h hs (op_lawful hop)
    refine ⟨o, m', t', h1, h2, h3, ?_⟩
    obtain ⟨o', m'', _, h5, h6, _⟩ := run_shape h (op_calm hop)
    cases h1.symm.trans h5
    cases o with
    | ok r =>
      obtain ⟨h7, h8⟩ := tree_listed hop hs h4
      refine .inl ?_
      show ((Listed.call cmp c t.sh.ino).1, c.tree cmp t.sh) = _
      rw [sh_ino, h7, ← h8]
    | panic => exact .inr (.inr ⟨rfl, trivial⟩)
    | abort => exact .inr (.inl rfl)
    | ub => exact h6.elim
    | diverge => exact h6.elim

/-- With room it does not fail. -/
theorem bst_room [TransCmp cmp] {cfg : Cfg} {D : Nat} (hR : Roomy cfg D) {m : BSTMap K V}
    {t : Tree K V} (h : Shape cfg m t) (hs : t.SortedBy cmp) (c : Call K V)
    (hD : slots m + c.demand ≤ D) :
    ∃ o m' t', c.onBST cfg cmp m = (o, m') ∧ Shape cfg m' t' ∧ t'.SortedBy cmp ∧
      (treeMaps cmp keq veq).call c t.sh = (o, t'.sh) ∧ slots m' ≤ slots m + c.demand := by
  cases hop : c.op cmp with
  | none =>
    obtain ⟨k, f, rfl⟩ := op_update hop
    obtain ⟨o, m', t', h1, h2, h3, h5, h4⟩ := update_bst (keq := keq) (veq := veq) h hs k f
    exact ⟨o, m', t', h1, h2, h3, h4, by omega⟩
  | some op =>
    obtain ⟨o, m', t', h1, h2, h3, h4⟩ := bst_step (keq := keq) (veq := veq) h hs c
    obtain ⟨o', m'', _, h5, _, h6, h7⟩ := run_room hR h (op_calm hop) (by rw [op_demand hop]; exact hD)
    rw [← onBST_op hop, h1] at h5
    cases h5
    rw [op_demand hop] at h6
    refine ⟨o, m', t', h1, h2, h3, h4.resolve_right ?_, h6⟩
    rcases h7 with ⟨r, rfl⟩ | ⟨_, h8⟩
    · rintro (h | ⟨h, _⟩) <;> cases h
    · exact absurd (op_quiet hop).1 h8


theorem update_tree {k : K} (f : V → Option V) (b : BT (K × V)) :
    (treeMaps cmp keq veq).call (.update k f) b =
      ((match lookup (hitOf (cmp k)) b.ino with
       | none => .ok (.value none)
       | some e => match f e.2 with
         | none => .panic
         | some _ => .ok (.value (some e.2))),
       match lookup (hitOf (cmp k)) b.ino with
       | none => b
       | some e => match f e.2 with
         | none => b
         | some w => b.map fun e => if hitOf (cmp k) e.1 then (e.1, w) else e) := by
  show ((Listed.call cmp (.update k f) b.ino).1, (Call.update k f).tree cmp _) = _
  rw [Call.tree, Listed.call]
  dsimp only
  rw [find_eq_lookup]
  cases lookup (hitOf (cmp k)) b.ino with
  | none => rfl
  | some e =>
    dsimp only
    cases f e.2 <;> rfl

open Simple in
/-- Change of a value in a `SimpleBSTMap`. -/
theorem update_simple [TransCmp cmp] {cfg : Cfg} {m : Simple.Map K V} (hw : Wf m)
    (hs : m.root.Sorted cmp) (k : K) (f : V → Option V) :
    ∃ o m', (Call.update k f).onSimple cfg cmp m = (o, m') ∧ Wf m' ∧ m'.root.Sorted cmp ∧
      m'.root.size = m.root.size ∧
      (treeMaps cmp keq veq).call (.update k f) m.root.view = (o, m'.root.view) := by
  have hl := lawful_cmp cmp k
  have hc := asks_query (cmp k)
  have hg := Map.getMut_spec (query (cmp k)) m
  rcases m.root.find_ok_or_panic (query (cmp k)) 0 with hf | ⟨e, he⟩
  · exact absurd (Link.find_panics hf) (not_panics_query _)
  · rw [he] at hg
    have hlk := Link.find_lookup hs hl hc he
    have hcall := update_tree (cmp := cmp) (keq := keq) (veq := veq) (k := k) f m.root.view
    rw [hlk] at hcall
    rw [hcall]
    cases e with
    | none => exact ⟨_, _, M.bind_ok hg, hw, hs, rfl, rfl⟩
    | some e =>
      obtain ⟨l, r, hat⟩ := Link.find_at he
      have h0 : Map.onRoot (Own.deref (m.root.path (query (cmp k)) 0)) m = _ :=
        Map.onRoot_pure (deref_ok (w := ⟨m.root, m.allocs⟩) hat)
      dsimp only
      cases hfv : f e.2 with
      | none =>
        refine ⟨.panic, m, ?_, hw, hs, rfl, rfl⟩
        refine (M.bind_ok hg).trans ((M.bind_ok h0).trans ?_)
        dsimp only
        rw [hfv]
        rfl
      | some w =>
        obtain ⟨m', h1, hr, hlen⟩ : ∃ m', Map.onRoot
            (Own.swapValue (m.root.path (query (cmp k)) 0) w) m = (.ok e.2, m') ∧
            m'.root = Link.put (.node e.1 w l r) (m.root.path (query (cmp k)) 0) m.root ∧
            m'.len = m.len :=
          ⟨_, Map.onRoot_ok (swapValue_ok (w := ⟨m.root, m.allocs⟩) hat w), rfl, rfl⟩
        have hsz := Link.setAt_size w (m.root.path (query (cmp k)) 0) m.root
        have hso := Link.setAt_sorted (cmp := cmp) hs w (m.root.path (query (cmp k)) 0)
        have hhit := Link.setAt_hit hs hl hc he w
        simp only [Link.setAt, hat] at hsz hso hhit
        rw [← hr] at hsz hso hhit
        refine ⟨.ok (.value (some e.2)), m', ?_, ?_, hso, hsz, ?_⟩
        · refine (M.bind_ok hg).trans ((M.bind_ok h0).trans ?_)
          dsimp only
          rw [hfv]
          exact M.bind_ok h1
        · exact hlen.trans ((show m.len = m.root.size from hw).trans hsz.symm)
        · exact congrArg _ hhit.symm

open Simple in
/-- A call on a `SimpleBSTMap`. -/
theorem simple_step [TransCmp cmp] {cfg : Cfg} (he : 2 ≤ cfg.esize) {m : Simple.Map K V} (hw : Wf m)
    (hs : m.root.Sorted cmp) (c : Call K V) :
    ∃ o m', c.onSimple cfg cmp m = (o, m') ∧
      (((treeMaps cmp keq veq).call c m.root.view = (o, m'.root.view) ∧ Wf m' ∧
        m'.root.Sorted cmp ∧ m'.root.size ≤ m.root.size + c.demand) ∨
       (o = .abort ∧ ¬ Plenty cfg (m.root.size + c.demand))) := by
  cases hop : c.op cmp with
  | none =>
    obtain ⟨k, f, rfl⟩ := op_update hop
    obtain ⟨o, m', h1, h2, h3, h4, h5⟩ := update_simple (keq := keq) (veq := veq) hw hs k f
    exact ⟨o, m', h1, .inl ⟨h5, h2, h3, by omega⟩⟩
  | some op =>
    rw [onSimple_op hop]
    obtain ⟨o, m', h1, ⟨h2, h3⟩ | ⟨h2, _, h3⟩⟩ := Simple.run_sem he cmp hw op
    · obtain ⟨h4, _, h5⟩ := sem_tree (op_lawful hop) hs h2.symm
      obtain ⟨h6, h7⟩ := sem_cases cmp op h2.symm
      rw [op_demand hop] at h7
      refine ⟨o, m', h1, .inl ⟨?_, h3, h4, h7⟩⟩
      obtain ⟨r, rfl⟩ := h6.resolve_right fun h => h.2 (op_quiet hop).2
      obtain ⟨t, ht, _⟩ := Tree.exists_link m.root
      have hv : m.root.view = t.sh := by rw [← ht, Tree.link_view]
      have hts : t.SortedBy cmp := Link.tree_sorted.1 (by rw [ht]; exact hs)
      have h8 := op_shared hop h5
      rw [hv] at h8 ⊢
      obtain ⟨h9, h10⟩ := tree_listed hop hts h8
      show ((Listed.call cmp c t.sh.ino).1, c.tree cmp t.sh) = _
      rw [sh_ino, h9, ← h10]
    · rw [op_demand hop] at h3
      exact ⟨o, m', h1, .inr ⟨h2, h3⟩⟩

/-! ### Clones and comparisons -/

theorem bst_clone_of {cfg : Cfg} {m m' : BSTMap K V} {o : Out (Ret K V)}
    (h : (Op.cloned (fun _ k => query (cmp k)) some some).run cfg m = (o, m')) :
    (BSTMap.maps cfg cmp keq veq).clone m = o.map fun _ => m' := by
  have h : ((do BSTMap.assign (BSTMap.clone cfg (fun _ k => query (cmp k)) some some)
                pure .unit : M (BSTMap K V) (Ret K V)) m) = (o, m') := h
  show (match BSTMap.clone cfg (fun _ k => query (cmp k)) some some m with
    | (.ok (), m') => .ok m'
    | (.panic, _) => .panic
    | (.abort, _) => .abort
    | (.ub, _) => .ub
    | (.diverge, _) => .diverge : Out (BSTMap K V)) = _
  cases hx : BSTMap.clone cfg (fun _ k => query (cmp k)) some some m with
  | mk o1 m1 =>
    cases o1 with
    | ok u =>
      have h0 : BSTMap.assign (BSTMap.clone cfg (fun _ k => query (cmp k)) some some) m = (.ok (), m1) := by
        unfold BSTMap.assign; rw [hx]
      rw [M.bind_ok h0] at h
      cases h
      rfl
    | panic =>
      have h0 : BSTMap.assign (BSTMap.clone cfg (fun _ k => query (cmp k)) some some) m = (.panic, m) := by
        unfold BSTMap.assign; rw [hx]
      rw [M.bind_panic h0] at h
      cases h
      rfl
    | abort =>
      have h0 : BSTMap.assign (BSTMap.clone cfg (fun _ k => query (cmp k)) some some) m = (.abort, m) := by
        unfold BSTMap.assign; rw [hx]
      rw [M.bind_abort h0] at h
      cases h
      rfl
    | ub =>
      have h0 : BSTMap.assign (BSTMap.clone cfg (fun _ k => query (cmp k)) some some) m = (.ub, m) := by
        unfold BSTMap.assign; rw [hx]
      have h0 : ((do BSTMap.assign (BSTMap.clone cfg (fun _ k => query (cmp k)) some some)
                     pure .unit : M (BSTMap K V) (Ret K V)) m) = (.ub, m) := by
        show M.bind _ _ m = _
        unfold M.bind
        rw [h0]
      cases h0.symm.trans h
      rfl
    | diverge =>
      have h0 : BSTMap.assign (BSTMap.clone cfg (fun _ k => query (cmp k)) some some) m = (.diverge, m) := by
        unfold BSTMap.assign; rw [hx]
      have h0 : ((do BSTMap.assign (BSTMap.clone cfg (fun _ k => query (cmp k)) some some)
                     pure .unit : M (BSTMap K V) (Ret K V)) m) = (.diverge, m) := by
        show M.bind _ _ m = _
        unfold M.bind
        rw [h0]
      cases h0.symm.trans h
      rfl

theorem bst_clone [TransCmp cmp] {cfg : Cfg} {m : BSTMap K V} {t : Tree K V} (h : Shape cfg m t)
    (hs : t.SortedBy cmp) :
    (∃ m' t', (BSTMap.maps cfg cmp keq veq).clone m = .ok m' ∧ Shape cfg m' t' ∧ t'.SortedBy cmp ∧
      t'.sh = t.sh) ∨ Prog.Fails True ((BSTMap.maps cfg cmp keq veq).clone m) := by
  obtain ⟨o, m', t', h1, h2, h3, h4⟩ := run_tree h hs
    (op := .cloned (fun _ k => query (cmp k)) some some)
    ⟨fun _ _ => asks_query _, fun _ _ h => by cases h; rfl, fun _ _ h => by cases h; rfl⟩
  rw [bst_clone_of h1]
  rcases h4 with ⟨rfl, h4⟩ | ⟨rfl | rfl, h4⟩
  · exact .inl ⟨m', t', rfl, h2, h3, h4⟩
  · exact .inr (.inr ⟨rfl, trivial⟩)
  · exact .inr (.inl rfl)

theorem bst_clone_room [TransCmp cmp] {cfg : Cfg} {D : Nat} (hR : Roomy cfg D) {m : BSTMap K V}
    {t : Tree K V} (h : Shape cfg m t) (hs : t.SortedBy cmp) (hD : slots m ≤ D) :
    ∃ m' t', (BSTMap.maps cfg cmp keq veq).clone m = .ok m' ∧ Shape cfg m' t' ∧ t'.SortedBy cmp ∧
      t'.sh = t.sh ∧ slots m' ≤ slots m := by
  obtain ⟨o, m', t0, h1, h2, h3, h4⟩ := BST.run_room hR h
    (op := .cloned (fun _ k => query (cmp k)) some some) trivial hD
  have hq : (Op.cloned (V := V) (fun _ k => query (cmp k)) some some).Quiet :=
    ⟨fun _ k => not_panics_query (cmp k), fun _ h => (by cases h), fun _ h => (by cases h)⟩
  obtain ⟨r, rfl⟩ := h4.resolve_right fun h => h.2 hq
  have h5 := bst_clone_of (keq := keq) (veq := veq) h1
  rcases bst_clone (cfg := cfg) (keq := keq) (veq := veq) h hs with
    ⟨m'', t', h6, h7, h8, h9⟩ | h6 | ⟨h6, _⟩
  · cases h5.symm.trans h6
    exact ⟨m', t', h5, h7, h8, h9, h3⟩
  · cases h5.symm.trans h6
  · cases h5.symm.trans h6

open Simple in
theorem simple_clone {cfg : Cfg} {m : Simple.Map K V} (hw : Wf m) :
    (∃ m', (Simple.maps cfg cmp keq veq).clone m = .ok m' ∧ Wf m' ∧ m'.root.view = m.root.view) ∨
    ((Simple.maps cfg cmp keq veq).clone m = .abort ∧ ¬ ∀ i n, cfg.allocOk i n = true) := by
  have hid : m.root.view.mapM (clonePair some some) = some m.root.view := mapM_pure_id _
  rcases Simple.Map.clone_spec cfg some some m hw with ⟨m', h1, h2, h3⟩ | ⟨m', h1, _⟩ | ⟨m', h1, h2⟩
  · refine .inl ⟨m', ?_, h2, ?_⟩
    · show (match Simple.Map.clone cfg some some m with
        | (.ok (), m') => .ok m'
        | (.panic, _) => .panic
        | (.abort, _) => .abort
        | (.ub, _) => .ub
        | (.diverge, _) => .diverge : Out (Simple.Map K V)) = _
      rw [h3]
    · rw [hid] at h1
      exact (Option.some.inj h1).symm
  · rw [hid] at h1
    cases h1
  · refine .inr ⟨?_, h2⟩
    show (match Simple.Map.clone cfg some some m with
      | (.ok (), m') => .ok m'
      | (.panic, _) => .panic
      | (.abort, _) => .abort
      | (.ub, _) => .ub
      | (.diverge, _) => .diverge : Out (Simple.Map K V)) = _
    rw [h1]

open Simple in
theorem simple_eq {a b : Simple.Map K V} (ha : Wf a) (hb : Wf b) :
    Simple.Map.eq keq veq a b = .ok (Spec.sameBy keq veq a.root.view.ino b.root.view.ino) := by
  obtain ⟨ta, ea, _⟩ := Tree.exists_link a.root
  obtain ⟨tb, eb, _⟩ := Tree.exists_link b.root
  rw [link_eq_spec ha hb ea.symm eb.symm, ← ea, ← eb, Tree.link_view, Tree.link_view, sh_ino, sh_ino]

/-! ### Programs -/

/-- A `BSTMap` with the given search tree. -/
def BSTRel (cfg : Cfg) (cmp : K → K → Ordering) (m : BSTMap K V) (b : BT (K × V)) : Prop :=
  ∃ t, Shape cfg m t ∧ t.SortedBy cmp ∧ t.sh = b

/-- A `SimpleBSTMap` with the given search tree. -/
def SimpleRel (cmp : K → K → Ordering) (m : Simple.Map K V) (b : BT (K × V)) : Prop :=
  Simple.Wf m ∧ m.root.Sorted cmp ∧ m.root.view = b

/-- A search tree with the given entries. -/
def TreeRel (cmp : K → K → Ordering) (b : BT (K × V)) (l : List (K × V)) : Prop :=
  Sorted cmp b.ino ∧ b.ino = l

/-- With sorted lists, a program returns or panics. -/
theorem Prog.listed_cases (p : Prog K V R) (ls : List (List (K × V))) :
    (p.run (Listed.maps cmp keq veq) ls).1 = .panic ∨
      ∃ r, (p.run (Listed.maps cmp keq veq) ls).1 = .ok r := by
  have hcall : ∀ (c : Call K V) l, (∃ r l', Listed.call cmp c l = (.ok r, l')) ∨
      ∃ l', Listed.call cmp c l = (.panic, l') := by
    intro c l
    cases c with
    | update k f =>
      rw [Listed.call]
      dsimp only
      split
      · exact .inl ⟨_, _, rfl⟩
      · split
        · exact .inr ⟨_, rfl⟩
        · exact .inl ⟨_, _, rfl⟩
    | _ => exact .inl ⟨_, _, rfl⟩
  induction p generalizing ls with
  | ret r => exact .inr ⟨r, rfl⟩
  | panic => exact .inl rfl
  | new k ih => exact ih _ _
  | clone i k ih =>
    unfold run
    cases ls[i]? with
    | none => exact .inl rfl
    | some l => exact ih _ _
  | eq i j k ih =>
    unfold run
    cases ls[i]? with
    | none => exact .inl rfl
    | some l =>
      cases ls[j]? with
      | none => exact .inl rfl
      | some l' => exact ih _ _
  | call i c k ih =>
    unfold run
    cases ls[i]? with
    | none => exact .inl rfl
    | some l =>
      dsimp only
      rcases hcall c l with ⟨r, l', h⟩ | ⟨l', h⟩
      · rw [show (Listed.maps cmp keq veq).call c l = _ from h]
        exact ih _ _
      · rw [show (Listed.maps cmp keq veq).call c l = _ from h]
        exact .inl rfl

theorem TreeRel.run [TransCmp cmp] (p : Prog K V R) {bs : List (BT (K × V))}
    {ls : List (List (K × V))} (h : Related (TreeRel cmp) bs ls) :
    p.demand (treeMaps cmp keq veq) bs = p.demand (Listed.maps cmp keq veq) ls ∧
    ∃ o bs' ls', p.run (treeMaps cmp keq veq) bs = (o, bs') ∧
      p.run (Listed.maps cmp keq veq) ls = (o, ls') ∧ Related (TreeRel cmp) bs' ls' := by
  have hnew : TreeRel cmp (treeMaps cmp keq veq).new (Listed.maps cmp keq veq).new :=
    ⟨List.Pairwise.nil, rfl⟩
  have hclone : ∀ (a : BT (K × V)) b, TreeRel cmp a b → ∃ a' b',
      (treeMaps cmp keq veq).clone a = .ok a' ∧ (Listed.maps cmp keq veq).clone b = .ok b' ∧
      TreeRel cmp a' b' := fun a b h => ⟨a, b, rfl, rfl, h⟩
  have heq : ∀ (a : BT (K × V)) b a' b', TreeRel cmp a b → TreeRel cmp a' b' →
      ∃ r, (treeMaps cmp keq veq).eq a a' = .ok r ∧ (Listed.maps cmp keq veq).eq b b' = .ok r := by
    rintro a _ a' _ ⟨_, rfl⟩ ⟨_, rfl⟩
    exact ⟨_, rfl, rfl⟩
  have hcall : ∀ c (a : BT (K × V)) b, TreeRel cmp a b → ∃ o a' b',
      (treeMaps cmp keq veq).call c a = (o, a') ∧ (Listed.maps cmp keq veq).call c b = (o, b') ∧
      TreeRel cmp a' b' := by
    rintro c a _ ⟨hs, rfl⟩
    obtain ⟨h1, h2⟩ := tree_call c hs
    exact ⟨_, _, _, rfl, rfl, h2, h1⟩
  refine ⟨Prog.demand_sim hnew hclone heq hcall p h, ?_⟩
  exact Prog.run_room (w := fun _ => 0) (D := p.demand (Listed.maps cmp keq veq) ls) hnew rfl
    (fun a b h _ => by
      obtain ⟨a', b', h1, h2, h3⟩ := hclone a b h
      exact ⟨a', b', h1, h2, h3, Nat.le_refl _⟩) heq
    (fun c a b h _ => by
      obtain ⟨o, a', b', h1, h2, h3⟩ := hcall c a b h
      exact ⟨o, a', b', h1, h2, h3, Nat.zero_le _⟩) p h
    (fun _ _ => by rw [Nat.zero_add]; exact Nat.le_refl _) (Nat.le_refl _)

theorem BSTRel.new {cfg : Cfg} : BSTRel cfg cmp (BSTMap.maps cfg cmp keq veq).new
    (treeMaps cmp keq veq).new := ⟨.leaf, shape_new cfg, List.Pairwise.nil, rfl⟩

theorem BSTRel.eq {cfg : Cfg} {a a' : BSTMap K V} {b b' : BT (K × V)} (h : BSTRel cfg cmp a b)
    (h' : BSTRel cfg cmp a' b') : ∃ r, (BSTMap.maps cfg cmp keq veq).eq a a' = .ok r ∧
      (treeMaps cmp keq veq).eq b b' = .ok r := by
  obtain ⟨t, h1, _, rfl⟩ := h
  obtain ⟨t', h1', _, rfl⟩ := h'
  refine ⟨_, eq_spec h1 h1', ?_⟩
  rw [← sh_ino, ← sh_ino]
  rfl

/-- Programs with `BSTMap`s. -/
theorem BSTRel.run [TransCmp cmp] {cfg : Cfg} (p : Prog K V R) {ms : List (BSTMap K V)}
    {bs : List (BT (K × V))} (h : Related (BSTRel cfg cmp) ms bs) :
    ∃ o ms', p.run (BSTMap.maps cfg cmp keq veq) ms = (o, ms') ∧
      ((∃ bs', p.run (treeMaps cmp keq veq) bs = (o, bs') ∧ Related (BSTRel cfg cmp) ms' bs') ∨
        Prog.Fails True o) := by
  refine Prog.run_sim BSTRel.new ?_ (fun a b a' b' => BSTRel.eq) ?_ p h
  · rintro m _ ⟨t, h1, h2, rfl⟩
    refine (bst_clone h1 h2).imp_left ?_
    rintro ⟨m', t', h3, h4, h5, h6⟩
    exact ⟨m', t.sh, h3, rfl, t', h4, h5, h6⟩
  · rintro c m _ ⟨t, h1, h2, rfl⟩
    obtain ⟨o, m', t', h3, h4, h5, h6⟩ := bst_step (keq := keq) (veq := veq) h1 h2 c
    refine ⟨o, m', h3, h6.imp_left fun h6 => ⟨t'.sh, h6, t', h4, h5, rfl⟩⟩

/-- Programs with `BSTMap`s and room. -/
theorem BSTRel.run_room [TransCmp cmp] {cfg : Cfg} {D : Nat} (hR : Roomy cfg D) (p : Prog K V R)
    {ms : List (BSTMap K V)} {bs : List (BT (K × V))} (h : Related (BSTRel cfg cmp) ms bs)
    (hD : ∀ m ∈ ms, slots m + p.demand (treeMaps cmp keq veq) bs ≤ D)
    (hp : p.demand (treeMaps cmp keq veq) bs ≤ D) :
    ∃ o ms' bs', p.run (BSTMap.maps cfg cmp keq veq) ms = (o, ms') ∧
      p.run (treeMaps cmp keq veq) bs = (o, bs') ∧ Related (BSTRel cfg cmp) ms' bs' := by
  refine Prog.run_room (w := slots) (D := D) BSTRel.new rfl ?_ (fun a b a' b' => BSTRel.eq) ?_ p h hD hp
  · rintro m _ ⟨t, h1, h2, rfl⟩ hD
    obtain ⟨m', t', h3, h4, h5, h6, h7⟩ := bst_clone_room (keq := keq) (veq := veq) hR h1 h2 hD
    exact ⟨m', t.sh, h3, rfl, ⟨t', h4, h5, h6⟩, h7⟩
  · rintro c m _ ⟨t, h1, h2, rfl⟩ hD
    obtain ⟨o, m', t', h3, h4, h5, h6, h7⟩ := bst_room (keq := keq) (veq := veq) hR h1 h2 c hD
    exact ⟨o, m', t'.sh, h3, h6, ⟨t', h4, h5, rfl⟩, h7⟩

theorem SimpleRel.new {cfg : Cfg} : SimpleRel cmp (Simple.maps cfg cmp keq veq).new
    (treeMaps cmp keq veq).new := ⟨rfl, List.Pairwise.nil, rfl⟩

theorem SimpleRel.eq {cfg : Cfg} {a a' : Simple.Map K V} {b b' : BT (K × V)} (h : SimpleRel cmp a b)
    (h' : SimpleRel cmp a' b') : ∃ r, (Simple.maps cfg cmp keq veq).eq a a' = .ok r ∧
      (treeMaps cmp keq veq).eq b b' = .ok r := by
  obtain ⟨h1, _, rfl⟩ := h
  obtain ⟨h1', _, rfl⟩ := h'
  exact ⟨_, simple_eq h1 h1', rfl⟩

/-- Programs with `SimpleBSTMap`s. -/
theorem SimpleRel.run [TransCmp cmp] {cfg : Cfg} (he : 2 ≤ cfg.esize) (p : Prog K V R)
    {ms : List (Simple.Map K V)} {bs : List (BT (K × V))} (h : Related (SimpleRel cmp) ms bs) :
    ∃ o ms', p.run (Simple.maps cfg cmp keq veq) ms = (o, ms') ∧
      ((∃ bs', p.run (treeMaps cmp keq veq) bs = (o, bs') ∧ Related (SimpleRel cmp) ms' bs') ∨
        Prog.Fails False o) := by
  refine Prog.run_sim SimpleRel.new ?_ (fun a b a' b' => SimpleRel.eq) ?_ p h
  · rintro m _ ⟨h1, h2, rfl⟩
    rcases simple_clone (cfg := cfg) (cmp := cmp) (keq := keq) (veq := veq) h1 with
      ⟨m', h3, h4, h5⟩ | ⟨h3, _⟩
    · exact .inl ⟨m', _, h3, rfl, h4, by unfold Simple.Link.Sorted; rw [h5]; exact h2, h5⟩
    · exact .inr (.inl h3)
  · rintro c m _ ⟨h1, h2, rfl⟩
    obtain ⟨o, m', h3, ⟨h4, h5, h6, _⟩ | ⟨h4, _⟩⟩ := simple_step (keq := keq) (veq := veq) he h1 h2 c
    · exact ⟨o, m', h3, .inl ⟨_, h4, h5, h6, rfl⟩⟩
    · exact ⟨o, m', h3, .inr (.inl h4)⟩

/-- Programs with `SimpleBSTMap`s and room. -/
theorem SimpleRel.run_room [TransCmp cmp] {cfg : Cfg} (he : 2 ≤ cfg.esize) {D : Nat}
    (hR : Simple.Plenty cfg D) (p : Prog K V R) {ms : List (Simple.Map K V)} {bs : List (BT (K × V))}
    (h : Related (SimpleRel cmp) ms bs)
    (hD : ∀ m ∈ ms, m.root.size + p.demand (treeMaps cmp keq veq) bs ≤ D)
    (hp : p.demand (treeMaps cmp keq veq) bs ≤ D) :
    ∃ o ms' bs', p.run (Simple.maps cfg cmp keq veq) ms = (o, ms') ∧
      p.run (treeMaps cmp keq veq) bs = (o, bs') ∧ Related (SimpleRel cmp) ms' bs' := by
  refine Prog.run_room (w := fun m => m.root.size) (D := D) SimpleRel.new rfl ?_
    (fun a b a' b' => SimpleRel.eq) ?_ p h hD hp
  · rintro m _ ⟨h1, h2, rfl⟩ _
    rcases simple_clone (cfg := cfg) (cmp := cmp) (keq := keq) (veq := veq) h1 with
      ⟨m', h3, h4, h5⟩ | ⟨_, h3⟩
    · refine ⟨m', _, h3, rfl, ⟨h4, by unfold Simple.Link.Sorted; rw [h5]; exact h2, h5⟩, ?_⟩
      rw [← Simple.view_size', h5, Simple.view_size']
      exact Nat.le_refl _
    · exact absurd hR.2 h3
  · rintro c m _ ⟨h1, h2, rfl⟩ hD
    obtain ⟨o, m', h3, ⟨h4, h5, h6, h7⟩ | ⟨_, h4⟩⟩ := simple_step (keq := keq) (veq := veq) he h1 h2 c
    · exact ⟨o, m', _, h3, h4, ⟨h5, h6, rfl⟩, h7⟩
    · exact absurd (hR.mono hD) h4

end

end BST
