import Verif.Proofs.SimpleDtors
/-!
# Destructors in `simple_bst`: what the calls do to the map
-/
set_option linter.unusedSimpArgs false
namespace BST.Simple
open Spec (BT lookup hitOf fate panicking)
variable {K V α β : Type}

namespace World
variable {d : Drops K V} {s s' : World K V}

theorem onMap_eq {f : M (Map K V) α} {o : Out α} {m : Map K V} (h : f s.map = (o, m)) :
    onMap f s = (o, { s with map := m }) := by unfold onMap; rw [h]

theorem returning_eff (r : V) (k : K) :
    ∃ s', returning d r (dropItem d (.inl k)) s =
      (if d.key k then if d.ret && d.value r then .abort else .panic else .ok (), s') ∧ s'.map = s.map := by
  have ha : dropItem d (.inl k) s = (if d.key k then .panic else .ok (), s.lost [.inl k]) := rfl
  unfold returning
  rw [ha]
  cases hk : d.key k with
  | false => exact ⟨_, rfl, rfl⟩
  | true =>
    simp only [if_true]
    cases hr : d.ret with
    | false => exact ⟨_, rfl, rfl⟩
    | true =>
      obtain ⟨ys, zs, _, _, h⟩ := (Burns.item (d := d) (.inr r : K ⊕ V)).unwind (α := Unit) (s.lost [.inl k])
      simp only [if_true, h, Bool.true_and]
      refine ⟨(s.lost [.inl k]).lost ys, ?_, rfl⟩
      cases hv : d.value r <;> simp [panicking, hv]

theorem insert_cases {cfg : Cfg} (he : 2 ≤ cfg.esize) (hw : Wf s.map) (c : Probe K) (k : K) (v : V) :
    (s.map.root.find c 0 = .panic ∧ ∃ s', s'.map = s.map ∧
      insert cfg d c k v s = (if d.key k || d.value v then .abort else .panic, s')) ∨
    (s.map.root.find c 0 = .ok none ∧ ∃ s', Wf s'.map ∧ s'.map.root = s.map.root.ins c k v 0 ∧
      insert cfg d c k v s = (.ok none, s')) ∨
    (∃ e s', s.map.root.find c 0 = .ok (some e) ∧ Wf s'.map ∧ s'.map.root = s.map.root.ins c k v 0 ∧
      insert cfg d c k v s = (if d.key k then if d.ret && d.value e.2 then .abort else .panic
        else .ok (some e.2), s')) ∨
    (s.map.root.find c 0 = .ok none ∧ insert cfg d c k v s = (.abort, s) ∧ ¬ Plenty cfg s.map.root.size) := by
  unfold insert
  have hb : Burns d (both (dropItem d (.inr v)) (dropItem d (.inl k))) ([.inr v] ++ [.inl k]) :=
    (Burns.item _).both (Burns.item _)
  rcases Map.insert_spec he c k v s.map hw with ⟨h1, h2⟩ | ⟨e, a, n, h1, h2, h3⟩ | ⟨h1, h2, h3⟩
  · refine .inl ⟨h1, ?_⟩
    obtain ⟨ys, zs, _, _, h6⟩ := hb.unwind (α := Option V) s
    have ha : onPanic (onMap (Map.insert cfg c k v)) (both (dropItem d (.inr v)) (dropItem d (.inl k))) s
        = (if panicking d ([.inr v] ++ [.inl k]) = 0 then .panic else .abort, s.lost ys) := by
      unfold Simple.onPanic; rw [onMap_eq h2]; exact h6
    refine ⟨s.lost ys, rfl, ?_⟩
    cases hk : d.key k <;> cases hv : d.value v <;>
      simp only [panicking, List.cons_append, List.nil_append, List.countP_cons, List.countP_nil,
        Sum.elim_inl, Sum.elim_inr, hk, hv] at ha <;>
      first
      | exact M.bind_panic ha
      | exact M.bind_abort ha
  · have ha : onPanic (onMap (Map.insert cfg c k v)) (both (dropItem d (.inr v)) (dropItem d (.inl k))) s
        = (.ok (e.map (·.2)), { s with map := ⟨s.map.root.ins c k v 0, n, a⟩ }) := by
      unfold Simple.onPanic; rw [onMap_eq h2]
    rw [M.bind_ok ha]
    cases e with
    | none => exact .inr (.inl ⟨h1, { s with map := ⟨s.map.root.ins c k v 0, n, a⟩ }, h3, rfl, rfl⟩)
    | some e =>
      refine .inr (.inr (.inl ?_))
      obtain ⟨s', h4, h5⟩ := returning_eff (d := d) (s := { s with map := ⟨s.map.root.ins c k v 0, n, a⟩ }) e.2 k
      refine ⟨e, s', h1, by rw [h5]; exact h3, by rw [h5], ?_⟩
      dsimp only [Option.map_some]
      rw [M.bind_apply, h4]
      cases d.key k with
      | false => rfl
      | true => cases d.ret && d.value e.2 <;> rfl
  · have ha : onPanic (onMap (Map.insert cfg c k v)) (both (dropItem d (.inr v)) (dropItem d (.inl k))) s
        = (.abort, s) := by
      unfold Simple.onPanic; rw [onMap_eq h2]
    exact .inr (.inr (.inr ⟨h1, M.bind_abort ha, h3⟩))

theorem remove_cases {cfg : Cfg} (hw : Wf s.map) (c : Probe K) :
    (s.map.root.find c 0 = .panic ∧ remove cfg d c s = (.panic, s)) ∨
    (∃ e s', s.map.root.find c 0 = .ok e ∧ Wf s'.map ∧ s'.map.root = s.map.root.del c 0 ∧
      remove cfg d c s = (match e with
        | none => .ok none
        | some e => if d.key e.1 then if d.ret && d.value e.2 then .abort else .panic
          else .ok (some e.2), s')) ∨
    (∃ s', remove cfg d c s = (.abort, s') ∧ ¬ Plenty cfg s.map.root.size) := by
  unfold remove
  rcases Map.removeEntry_spec cfg c s.map hw with ⟨h1, h2⟩ | ⟨e, a, n, h1, h2, h3⟩ | ⟨m', h2, h3⟩
  · exact .inl ⟨h1, M.bind_panic (onMap_eq h2)⟩
  · refine .inr (.inl ?_)
    rw [M.bind_ok (onMap_eq h2)]
    cases e with
    | none => exact ⟨none, { s with map := ⟨s.map.root.del c 0, n, a⟩ }, h1, h3, rfl, rfl⟩
    | some e =>
      obtain ⟨s', h4, h5⟩ := returning_eff (d := d) (s := { s with map := ⟨s.map.root.del c 0, n, a⟩ }) e.2 e.1
      refine ⟨some e, s', h1, by rw [h5]; exact h3, by rw [h5], ?_⟩
      dsimp only
      rw [M.bind_apply, h4]
      cases d.key e.1 with
      | false => rfl
      | true => cases d.ret && d.value e.2 <;> rfl
  · exact .inr (.inr ⟨_, M.bind_abort (onMap_eq h2), h3⟩)

/-- What holds of the result, of the state after a panic; nothing is said of an abort. -/
def Eff (Q : α → World K V → Prop) (P : World K V → Prop) : Out α × World K V → Prop
  | (.ok a, s) => Q a s
  | (.panic, s) => P s
  | (.abort, _) => True
  | _ => False

theorem Eff.bind {f : M (World K V) α} {g : α → M (World K V) β} {Q : α → World K V → Prop}
    {Q' : β → World K V → Prop} {P P' : World K V → Prop} (hf : Eff Q P (f s)) (hp : ∀ s, P s → P' s)
    (hg : ∀ a s1, Q a s1 → Eff Q' P' (g a s1)) : Eff Q' P' ((f >>= g) s) := by
  rw [M.bind_apply]
  rcases he : f s with ⟨o, s1⟩
  rw [he] at hf
  cases o with
  | ok a => exact hg a s1 hf
  | panic => exact hp s1 hf
  | abort => trivial
  | ub => exact hf
  | diverge => exact hf

theorem Eff.onPanic {f : M (World K V) α} {b : M (World K V) Unit} {J : List (K ⊕ V)}
    {Q : α → World K V → Prop} {P P' : World K V → Prop} (hf : Eff Q P (f s)) (hb : Burns d b J)
    (hp : ∀ s s', P s → s'.map = s.map → P' s') : Eff Q P' (onPanic f b s) := by
  unfold Simple.onPanic
  rcases he : f s with ⟨o, s1⟩
  rw [he] at hf
  cases o with
  | ok a => exact hf
  | panic =>
    dsimp only
    obtain ⟨ys, zs, _, _, h⟩ := hb.unwind (α := α) s1
    rw [h]
    split
    · exact hp _ _ hf (lost_map _)
    · trivial
  | abort => trivial
  | ub => exact hf
  | diverge => exact hf

/-- The state of a map that is a textbook tree. -/
def Is (cmp : K → K → Ordering) (b : BT (K × V)) (s : World K V) : Prop :=
  Wf s.map ∧ s.map.root.Sorted cmp ∧ s.map.root.view = b

theorem Is.congr {cmp : K → K → Ordering} {b : BT (K × V)} (h : Is cmp b s) (hm : s'.map = s.map) :
    Is cmp b s' := by unfold Is; rw [hm]; exact h

theorem itemsOf_append (l l' : List (K × V)) : itemsOf (l ++ l') = itemsOf l ++ itemsOf l' := by
  simp [itemsOf]

theorem insertStmt_eff {cfg : Cfg} (he : 2 ≤ cfg.esize) {cmp : K → K → Ordering} [Std.TransCmp cmp]
    {b : BT (K × V)} (hs : Is cmp b s) {c : Probe K} {k : K} (hc : Asks (cmp k) c) (v : V) :
    Eff (fun _ s' => Is cmp (b.insert cmp k v) s' ∧
        panicking d (itemsOf (((lookup (hitOf (cmp k)) b.ino).map fun e => (k, e.2)).toList)) = 0)
      (fun s' => (Is cmp b s' ∧ Panics c) ∨ (Is cmp (b.insert cmp k v) s' ∧
        panicking d (itemsOf (((lookup (hitOf (cmp k)) b.ino).map fun e => (k, e.2)).toList)) ≠ 0))
      (insertStmt cfg d c k v s) := by
  obtain ⟨hw, hso, rfl⟩ := hs
  have hq : Spec.LawfulQuery cmp (cmp k) := lawful_cmp cmp k
  unfold insertStmt
  rcases insert_cases (d := d) he hw c k v with ⟨h1, s1, h2, h3⟩ | ⟨h1, s1, h2, h3, h4⟩ |
    ⟨e, s1, h1, h2, h3, h4⟩ | ⟨h1, h4, h5⟩
  · cases hx : d.key k || d.value v with
    | false =>
      rw [hx] at h3
      rw [M.bind_panic h3]
      exact .inl ⟨Is.congr ⟨hw, hso, rfl⟩ h2, Link.find_panics h1⟩
    | true =>
      rw [hx] at h3
      rw [M.bind_abort h3]; trivial
  · rw [M.bind_ok h4]
    have hl := Link.find_lookup hso hq hc h1
    refine ⟨⟨h2, by rw [h3]; exact Link.ins_sorted hso hc h1 v, by rw [h3, Link.ins_view hc h1 v]⟩, ?_⟩
    rw [hl]; rfl
  · have hl := Link.find_lookup hso hq hc h1
    have hi : Is cmp (s.map.root.view.insert cmp k v) s1 :=
      ⟨h2, by rw [h3]; exact Link.ins_sorted hso hc h1 v, by rw [h3, Link.ins_view hc h1 v]⟩
    have hp : ∀ (e : K × V), panicking d (itemsOf (((some e).map fun e => (k, e.2)).toList)) =
        (if d.key k then 1 else 0) + (if d.value e.2 then 1 else 0) := fun e => by
      simp only [itemsOf, panicking, Option.map_some, Option.toList_some, List.flatMap_cons,
        List.flatMap_nil, List.append_nil, List.countP_cons, List.countP_nil, Sum.elim_inl, Sum.elim_inr]
      by_cases h : d.key k = true <;> by_cases h' : d.value e.2 = true <;> simp [h, h']
    rw [hl, hp e]
    cases hk : d.key k with
    | true =>
      rw [hk] at h4
      cases hx : d.ret && d.value e.2 with
      | true => rw [hx] at h4; rw [M.bind_abort h4]; trivial
      | false => rw [hx] at h4; rw [M.bind_panic h4]; exact .inr ⟨hi, by simp⟩
    | false =>
      rw [hk] at h4
      rw [M.bind_ok h4]
      show Eff _ _ (if d.value e.2 then Out.panic else .ok (), s1.lost [.inr e.2])
      cases hv : d.value e.2 with
      | true => exact .inr ⟨hi.congr rfl, by simp⟩
      | false => exact ⟨hi.congr rfl, by simp⟩
  · rw [M.bind_abort h4]; trivial

theorem insertAll_eff {cfg : Cfg} (he : 2 ≤ cfg.esize) {cmp : K → K → Ordering} [Std.TransCmp cmp]
    {cmps : Nat → K → Probe K} (hc : ∀ n k, Asks (cmp k) (cmps n k)) (l : List (K × V)) (n : Nat)
    {b : BT (K × V)} (hs : Is cmp b s) :
    Eff (fun _ s' => Is cmp (b.insertList cmp l) s' ∧
        panicking d (itemsOf (BT.discarded cmp l b)) = 0)
      (fun s' => ∃ used rest, l = used ++ rest ∧ Is cmp (b.insertList cmp used) s' ∧
        panicking d (itemsOf (BT.discarded cmp used.dropLast b)) = 0 ∧
        ((∃ n k, Panics (cmps n k)) ∨ panicking d (itemsOf (BT.discarded cmp used b)) ≠ 0))
      (insertAll cfg d cmps n l s) := by
  induction l generalizing n b s with
  | nil => exact ⟨hs, rfl⟩
  | cons e l ih =>
    obtain ⟨k, v⟩ := e
    unfold insertAll
    refine Eff.bind (Eff.onPanic (insertStmt_eff he hs (hc n k) v) (Burns.items l)
      (P' := fun s' => ∃ used rest, (k, v) :: l = used ++ rest ∧ Is cmp (b.insertList cmp used) s' ∧
        panicking d (itemsOf (BT.discarded cmp used.dropLast b)) = 0 ∧
        ((∃ n k, Panics (cmps n k)) ∨ panicking d (itemsOf (BT.discarded cmp used b)) ≠ 0)) ?_)
      (fun _ h => h) ?_
    · rintro s1 s2 (⟨h1, h2⟩ | ⟨h1, h2⟩) hm
      · exact ⟨[], (k, v) :: l, rfl, h1.congr hm, rfl, .inl ⟨n, k, h2⟩⟩
      · refine ⟨[(k, v)], l, rfl, h1.congr hm, rfl, .inr ?_⟩
        simpa only [BT.discarded, List.append_nil] using h2
    · rintro - s1 ⟨h1, h2⟩
      have h3 := ih (n + 1) h1
      rcases hu : insertAll cfg d cmps (n + 1) l s1 with ⟨o, s2⟩
      rw [hu] at h3
      cases o with
      | ok a =>
        refine ⟨h3.1, ?_⟩
        rw [BT.discarded, itemsOf_append, panicking_append, h2, h3.2]
      | panic =>
        obtain ⟨used, rest, g1, g2, g3, g4⟩ := h3
        refine ⟨(k, v) :: used, rest, by rw [g1]; rfl, g2, ?_, ?_⟩
        · cases used with
          | nil => rfl
          | cons e used =>
            rw [List.dropLast_cons_cons, BT.discarded, itemsOf_append, panicking_append, h2, g3]
        · refine g4.imp id fun g4 => ?_
          rw [BT.discarded, itemsOf_append, panicking_append]
          omega
      | abort => trivial
      | ub => exact h3
      | diverge => exact h3

theorem panicking_dropLast {cmp : K → K → Ordering} (l : List (K × V)) {b : BT (K × V)}
    (h : panicking d (itemsOf (BT.discarded cmp l b)) = 0) :
    panicking d (itemsOf (BT.discarded cmp l.dropLast b)) = 0 := by
  induction l generalizing b with
  | nil => rfl
  | cons e l ih =>
    cases l with
    | nil => rfl
    | cons e' l =>
      rw [BT.discarded, itemsOf_append, panicking_append] at h
      rw [List.dropLast_cons_cons, BT.discarded, itemsOf_append, panicking_append, ih (by omega)]
      omega

theorem extend_eff {cfg : Cfg} (he : 2 ≤ cfg.esize) {cmp : K → K → Ordering} [Std.TransCmp cmp]
    {cmps : Nat → K → Probe K} (hc : ∀ n k, Asks (cmp k) (cmps n k)) (src : BSTMap.Source K V)
    {b : BT (K × V)} (hs : Is cmp b s) :
    Eff (fun _ s' => Is cmp (b.insertList cmp src.items) s' ∧ src.panics = false ∧
        panicking d (itemsOf (BT.discarded cmp src.items b)) = 0)
      (fun s' => ∃ used rest, src.items = used ++ rest ∧ Is cmp (b.insertList cmp used) s' ∧
        panicking d (itemsOf (BT.discarded cmp used.dropLast b)) = 0 ∧
        ((src.panics = true ∧ rest = []) ∨ (∃ n k, Panics (cmps n k)) ∨
          panicking d (itemsOf (BT.discarded cmp used b)) ≠ 0))
      (extend cfg d cmps src s) := by
  unfold extend
  refine (insertAll_eff he hc src.items 0 hs).bind ?_ ?_
  · rintro s1 ⟨used, rest, h1, h2, h3, h4⟩
    exact ⟨used, rest, h1, h2, h3, .inr h4⟩
  · rintro - s1 ⟨h1, h2⟩
    cases hp : src.panics with
    | false => exact ⟨h1, rfl, h2⟩
    | true =>
      refine ⟨src.items, [], by simp, h1, panicking_dropLast _ h2, .inl ⟨rfl, rfl⟩⟩

theorem panicking_items (t : Link K V) : panicking d t.items = panicking d (itemsOf t.view.ino) := by
  induction t with
  | nil => rfl
  | node k v l r ihl ihr =>
    have h1 : (Link.node k v l r).items = [.inl k, .inr v] ++ (l.items ++ r.items) := rfl
    have h2 : itemsOf (Link.node k v l r).view.ino =
        itemsOf l.view.ino ++ ([.inl k, .inr v] ++ itemsOf r.view.ino) := by
      simp [itemsOf, Link.view, BT.ino]
    rw [h1, h2]
    simp only [panicking_append, ihl, ihr]
    omega

theorem items_pre (t : Link K V) : t.items = itemsOf t.view.pre := by
  induction t with
  | nil => rfl
  | node k v l r ihl ihr => simp [Link.items, Link.view, BT.pre, itemsOf_append, ihl, ihr, itemsOf]

theorem building_eff {cmp : K → K → Ordering} {f : M (World K V) Unit} {Q : BT (K × V) → Prop} {P : Prop}
    (hf : ∀ s0 : World K V, Is cmp .nil s0 →
      Eff (fun _ s' => ∃ b, Is cmp b s' ∧ Q b) (fun _ => P) (f s0)) :
    Eff (fun m s' => (∃ b, (Wf m ∧ m.root.Sorted cmp ∧ m.root.view = b) ∧ Q b) ∧
        s'.map.root = s.map.root ∧ s'.map.len = s.map.len)
      (fun s' => P ∧ s'.map.root = s.map.root ∧ s'.map.len = s.map.len) (building d f s) := by
  unfold building
  have h0 := hf { s with map := { Map.new with allocs := s.map.allocs } }
    ⟨rfl, by simp [Link.Sorted, Map.new, Link.view, BT.ino, Spec.Sorted], rfl⟩
  rcases hu : f { s with map := { Map.new with allocs := s.map.allocs } } with ⟨o, s1⟩
  rw [hu] at h0
  dsimp only
  cases o with
  | ok a => exact ⟨h0, rfl, rfl⟩
  | panic =>
    obtain ⟨ys, zs, _, _, h⟩ := (Burns.link (d := d) s1.map.root).unwind (α := Map K V)
      { s1 with map := { s.map with allocs := s1.map.allocs } }
    show Eff _ _ (Simple.unwind (dropLink d s1.map.root) { s1 with map := { s.map with allocs := s1.map.allocs } })
    rw [h]
    split
    · exact ⟨h0, rfl, rfl⟩
    · trivial
  | abort => trivial
  | ub => exact h0
  | diverge => exact h0

theorem cloneBox_eff {cfg : Cfg} (boxed : Bool) :
    Eff (fun _ s' => s'.map.root = s.map.root ∧ s'.map.len = s.map.len) (fun _ => False)
      (cloneBox cfg boxed s) := by
  unfold cloneBox
  rcases Map.cloneBox_cases cfg boxed s.map.allocs with ⟨b, h⟩ | ⟨h, _⟩
  · rw [h]; exact ⟨rfl, rfl⟩
  · rw [h]; trivial

theorem cloneWith_eff {γ : Type} (f : γ → Option γ) (inj : γ → K ⊕ V) (x : γ) :
    Eff (fun y s' => f x = some y ∧ s'.map = s.map) (fun s' => f x = none ∧ s'.map = s.map)
      (cloneWith f inj x s) := by
  unfold cloneWith
  cases h : f x with
  | none => exact ⟨rfl, rfl⟩
  | some y => exact ⟨rfl, rfl⟩

theorem cloneLink_eff {cfg : Cfg} (ck : K → Option K) (cv : V → Option V) (t : Link K V)
    (boxed : Bool) {a : Link K V} {n : Nat} (h0 : s.map.root = a ∧ s.map.len = n) :
    Eff (fun u s' => t.view.mapM (clonePair ck cv) = some u.view ∧ s'.map.root = a ∧ s'.map.len = n)
      (fun s' => ((∃ k, ck k = none) ∨ ∃ v, cv v = none) ∧ s'.map.root = a ∧ s'.map.len = n)
      (cloneLink cfg d ck cv boxed t s) := by
  induction t generalizing boxed s with
  | nil => exact ⟨rfl, h0⟩
  | node k v l r ihl ihr =>
    unfold cloneLink
    refine (cloneBox_eff boxed).bind (fun _ h => h.elim) fun _ s1 h1 => ?_
    have h1 : s1.map.root = a ∧ s1.map.len = n := ⟨h1.1.trans h0.1, h1.2.trans h0.2⟩
    refine (cloneWith_eff ck .inl k).bind (fun s2 h => ⟨.inl ⟨k, h.1⟩, by rw [h.2]; exact h1⟩)
      fun k' s2 h2 => ?_
    have h2' : s2.map.root = a ∧ s2.map.len = n := by rw [h2.2]; exact h1
    refine ((cloneWith_eff cv .inr v).onPanic (Burns.item (.inl k'))
      (P' := fun s' => cv v = none ∧ s'.map = s2.map) fun s s' h h' => ⟨h.1, h'.trans h.2⟩).bind
      (fun s3 h => ⟨.inr ⟨v, h.1⟩, by rw [h.2]; exact h2'⟩) fun v' s3 h3 => ?_
    have h3' : s3.map.root = a ∧ s3.map.len = n := by rw [h3.2]; exact h2'
    refine ((ihl true h3').onPanic ((Burns.item (.inr v')).both (Burns.item (.inl k')))
      (fun s s' h h' => by rw [h']; exact h)).bind (fun s4 h => h) fun l' s4 h4 => ?_
    refine ((ihr true h4.2).onPanic
      ((Burns.link l').both ((Burns.item (.inr v')).both (Burns.item (.inl k'))))
      (fun s s' h h' => by rw [h']; exact h)).bind (fun s5 h => h) fun r' s5 h5 => ?_
    refine ⟨?_, h5.2⟩
    have hp : clonePair ck cv (k, v) = some (k', v') := by rw [clonePair, h2.1, h3.1]; rfl
    simp only [Link.view, BT.mapM]
    rw [hp, h4.1, h5.1]; rfl

/-- An assignment drops the old map. -/
theorem assign_eff {f : M (World K V) (Map K V)} {G : Map K V → Prop} {P : World K V → Prop}
    (hf : Eff (fun m s' => G m ∧ s'.map.root = s.map.root) P (f s)) :
    (∃ s', assign d f s = (fate () (panicking d s.map.root.items), s') ∧ G s'.map) ∨
    (∃ s', assign d f s = (.panic, s') ∧ P s') ∨ ∃ s', assign d f s = (.abort, s') := by
  unfold assign
  rcases hu : f s with ⟨o, s1⟩
  rw [hu] at hf
  cases o with
  | ok m =>
    obtain ⟨ys, zs, _, _, h⟩ := Burns.link (d := d) s1.map.root { s1 with map := m }
    refine .inl ⟨({ s1 with map := m } : World K V).lost ys, ?_, ?_⟩
    · rw [M.bind_ok hu, M.get_bind, M.modify_bind, h, hf.2]
    · exact hf.1
  | panic => exact .inr (.inl ⟨s1, M.bind_panic hu, hf⟩)
  | abort => exact .inr (.inr ⟨s1, M.bind_abort hu⟩)
  | ub => exact hf.elim
  | diverge => exact hf.elim

theorem fromIter_eff {cfg : Cfg} (he : 2 ≤ cfg.esize) {cmp : K → K → Ordering} [Std.TransCmp cmp]
    {cmps : Nat → K → Probe K} (hc : ∀ n k, Asks (cmp k) (cmps n k)) (src : BSTMap.Source K V) :
    Eff (fun m s' => (∃ b, (Wf m ∧ m.root.Sorted cmp ∧ m.root.view = b) ∧
          (b = BT.insertList cmp src.items .nil ∧ src.panics = false ∧
            panicking d (itemsOf (BT.discarded cmp src.items .nil)) = 0)) ∧
        s'.map.root = s.map.root ∧ s'.map.len = s.map.len)
      (fun s' => (src.panics = true ∨ (∃ n k, Panics (cmps n k)) ∨
          panicking d (itemsOf (BT.discarded cmp src.items .nil)) ≠ 0) ∧
        s'.map.root = s.map.root ∧ s'.map.len = s.map.len) (fromIter cfg d cmps src s) := by
  refine building_eff (cmp := cmp) fun s0 h0 => ?_
  have h := extend_eff (d := d) he hc src h0
  rcases hu : extend cfg d cmps src s0 with ⟨o, s1⟩
  rw [hu] at h
  cases o with
  | ok a => exact ⟨_, h.1, rfl, h.2⟩
  | panic =>
    obtain ⟨used, rest, h1, h2, h3, h4⟩ := h
    rcases h4 with ⟨h4, _⟩ | h4 | h4
    · exact .inl h4
    · exact .inr (.inl h4)
    · refine .inr (.inr ?_)
      rw [h1]
      suffices h : ∀ (u r : List (K × V)) (b : BT (K × V)),
          panicking d (itemsOf (BT.discarded cmp u b)) ≠ 0 →
          panicking d (itemsOf (BT.discarded cmp (u ++ r) b)) ≠ 0 from h _ _ _ h4
      intro u r
      induction u with
      | nil => intro b h; exact absurd rfl h
      | cons e u ih =>
        intro b h
        rw [List.cons_append, BT.discarded, itemsOf_append, panicking_append]
        rw [BT.discarded, itemsOf_append, panicking_append] at h
        have := ih (b.insert cmp e.1 e.2)
        omega
  | abort => trivial
  | ub => exact h
  | diverge => exact h

theorem clone_eff {cfg : Cfg} {ck : K → Option K} {cv : V → Option V} (hw : Wf s.map)
    (hk : ∀ k k', ck k = some k' → k' = k) (hv : ∀ v v', cv v = some v' → v' = v) :
    Eff (fun m s' => (Wf m ∧ m.root.view = s.map.root.view) ∧ s'.map.root = s.map.root)
      (fun s' => ((∃ k, ck k = none) ∨ ∃ v, cv v = none) ∧ s'.map.root = s.map.root ∧
        s'.map.len = s.map.len) (clone cfg d ck cv s) := by
  unfold clone
  rw [M.get_bind]
  refine (cloneLink_eff ck cv s.map.root false ⟨rfl, rfl⟩).bind (fun _ h => h) fun u s1 h1 => ?_
  rw [M.get_bind]
  have h2 := mapM_clone hk hv h1.1
  refine ⟨⟨?_, h2⟩, h1.2.1⟩
  show s.map.len = u.size
  rw [← view_size', h2, view_size']; exact hw

theorem is_of {cmp : K → K → Ordering} {b : BT (K × V)} (h : Is cmp b s)
    (hr : s'.map.root = s.map.root) (hl : s'.map.len = s.map.len) : Is cmp b s' := by
  unfold Is Wf; rw [hr, hl]; exact h

theorem runDrop_eff {cfg : Cfg} (he : 2 ≤ cfg.esize) {cmp : K → K → Ordering} [Std.TransCmp cmp]
    {op : SimpleOp K V} (hop : op.Lawful cmp) {b : BT (K × V)} (hs : Is cmp b s) :
    ∃ o s' b', op.runDrop cfg d s = (o, s') ∧ Spec.SimpleDropAnswer cmp b o b' (d, op) ∧
      (o = .abort ∨ (((∃ r, o = .ok r) ∨ o = .panic) ∧ Is cmp b' s')) := by
  obtain ⟨hw, hso, rfl⟩ := hs
  have hpi := panicking_items (d := d) s.map.root
  have fin : ∀ {f : M (World K V) Unit} {n : Nat} {s' : World K V} {b' : BT (K × V)},
      f s = (fate () n, s') → Is cmp b' s' →
      (f >>= fun _ => (pure .unit : M (World K V) (Ret K V))) s = (fate .unit n, s') ∧
      ((fate .unit n : Out (Ret K V)) = .abort ∨
        (((∃ r, (fate .unit n : Out (Ret K V)) = .ok r) ∨ (fate .unit n : Out (Ret K V)) = .panic) ∧ Is cmp b' s')) := by
    intro f n s' b' h hi
    match n with
    | 0 => exact ⟨M.bind_ok h, .inr ⟨.inl ⟨_, rfl⟩, hi⟩⟩
    | 1 => exact ⟨M.bind_panic h, .inr ⟨.inr rfl, hi⟩⟩
    | n + 2 => exact ⟨M.bind_abort h, .inl rfl⟩
  cases op with
  | collect cmps src =>
    unfold SimpleOp.runDrop
    have h0 := fromIter_eff (s := s) (d := d) he hop src
    have h1 : Eff (fun m s' => (Wf m ∧ m.root.Sorted cmp ∧ m.root.view = BT.insertList cmp src.items .nil ∧
        src.panics = false ∧ panicking d (itemsOf (BT.discarded cmp src.items .nil)) = 0) ∧
          s'.map.root = s.map.root)
        (fun s' => (src.panics = true ∨ (∃ n k, Panics (cmps n k)) ∨
            panicking d (itemsOf (BT.discarded cmp src.items .nil)) ≠ 0) ∧
          s'.map.root = s.map.root ∧ s'.map.len = s.map.len) (fromIter cfg d cmps src s) := by
      rcases hu : fromIter cfg d cmps src s with ⟨o, s1⟩
      rw [hu] at h0
      cases o with
      | ok m =>
        obtain ⟨⟨b, ⟨g1, g2, g3⟩, g4, g5, g6⟩, g7, g8⟩ := h0
        exact ⟨⟨g1, g2, g3.trans g4, g5, g6⟩, g7⟩
      | panic => exact h0
      | abort => trivial
      | ub => exact h0
      | diverge => exact h0
    rcases assign_eff h1 with ⟨s', h2, h3⟩ | ⟨s', h2, h3⟩ | ⟨s', h2⟩
    · obtain ⟨g1, g2⟩ := fin h2 (b' := BT.insertList cmp src.items .nil) ⟨h3.1, h3.2.1, h3.2.2.1⟩
      refine ⟨_, s', _, g1, .inl ⟨by rw [hpi], rfl, h3.2.2.2⟩, g2⟩
    · exact ⟨.panic, s', _, M.bind_panic h2, .inr (.inl ⟨rfl, rfl, h3.1⟩),
        .inr ⟨.inr rfl, is_of ⟨hw, hso, rfl⟩ h3.2.1 h3.2.2⟩⟩
    · exact ⟨.abort, s', s.map.root.view, M.bind_abort h2, .inr (.inr rfl), .inl rfl⟩
  | cloned ck cv =>
    unfold SimpleOp.runDrop
    obtain ⟨_, hk, hv⟩ := hop
    rcases assign_eff (clone_eff (cfg := cfg) (d := d) hw hk hv) with ⟨s', h2, h3⟩ | ⟨s', h2, h3⟩ | ⟨s', h2⟩
    · obtain ⟨g1, g2⟩ := fin h2 (b' := s.map.root.view)
        ⟨h3.1, by unfold Link.Sorted; rw [h3.2]; exact hso, h3.2⟩
      exact ⟨_, s', _, g1, .inl ⟨by rw [hpi], rfl⟩, g2⟩
    · exact ⟨.panic, s', _, M.bind_panic h2, .inr (.inl ⟨rfl, rfl, h3.1⟩),
        .inr ⟨.inr rfl, is_of ⟨hw, hso, rfl⟩ h3.2.1 h3.2.2⟩⟩
    · exact ⟨.abort, s', s.map.root.view, M.bind_abort h2, .inr (.inr rfl), .inl rfl⟩
  | clear =>
    unfold SimpleOp.runDrop clear
    rcases assign_eff (d := d) (s := s) (f := fun s => (.ok { Map.new with allocs := s.map.allocs }, s))
      (G := fun m => Wf m ∧ m.root.Sorted cmp ∧ m.root.view = .nil) (P := fun _ => False)
      ⟨⟨rfl, List.Pairwise.nil, rfl⟩, rfl⟩ with ⟨s', h2, h3⟩ | ⟨s', h2, h3⟩ | ⟨s', h2⟩
    · obtain ⟨g1, g2⟩ := fin h2 (b' := .nil) h3
      exact ⟨_, s', _, g1, ⟨by rw [hpi], rfl⟩, g2⟩
    · exact h3.elim
    · obtain ⟨ys, zs, _, _, h⟩ := Burns.link (d := d) s.map.root
        { s with map := { Map.new with allocs := s.map.allocs } }
      have h3 : assign d (fun s => (.ok { Map.new with allocs := s.map.allocs }, s)) s = _ := h
      obtain ⟨g1, g2⟩ := fin h3 (b' := .nil) ⟨rfl, List.Pairwise.nil, rfl⟩
      exact ⟨_, _, _, g1, ⟨by rw [hpi], rfl⟩, g2⟩
  | insert c k v =>
    unfold SimpleOp.runDrop
    have hl := lawful_cmp cmp k
    rcases insert_cases (d := d) he hw c k v with ⟨h1, s1, h2, h3⟩ | ⟨h1, s1, h2, h3, h4⟩ |
      ⟨e, s1, h1, h2, h3, h4⟩ | ⟨h1, h4, h5⟩
    · refine ⟨if d.key k || d.value v then .abort else .panic, s1, s.map.root.view, ?_,
        .inr (.inl ⟨Link.find_panics h1, rfl, rfl⟩), ?_⟩
      · cases hx : d.key k || d.value v <;> rw [hx] at h3
        · exact M.bind_panic h3
        · exact M.bind_abort h3
      · cases hx : d.key k || d.value v
        · exact .inr ⟨.inr rfl, Is.congr ⟨hw, hso, rfl⟩ h2⟩
        · exact .inl rfl
    · refine ⟨_, s1, _, M.bind_ok h4, .inl ⟨?_, rfl⟩, .inr ⟨.inl ⟨_, rfl⟩, h2,
        by rw [h3]; exact Link.ins_sorted hso hop h1 v, by rw [h3, Link.ins_view hop h1 v]⟩⟩
      rw [Link.find_lookup hso hl hop h1]; rfl
    · refine ⟨if d.key k then if d.ret && d.value e.2 then .abort else .panic
          else .ok (.value (some e.2)), s1, s.map.root.view.insert cmp k v, ?_, .inl ⟨?_, rfl⟩, ?_⟩
      · cases hk : d.key k <;> rw [hk] at h4
        · exact M.bind_ok h4
        · cases hx : d.ret && d.value e.2 <;> rw [hx] at h4
          · exact M.bind_panic h4
          · exact M.bind_abort h4
      · rw [Link.find_lookup hso hl hop h1]; rfl
      · have hi : Is cmp (s.map.root.view.insert cmp k v) s1 :=
          ⟨h2, by rw [h3]; exact Link.ins_sorted hso hop h1 v, by rw [h3, Link.ins_view hop h1 v]⟩
        cases d.key k
        · exact .inr ⟨.inl ⟨_, rfl⟩, hi⟩
        · cases d.ret && d.value e.2
          · exact .inr ⟨.inr rfl, hi⟩
          · exact .inl rfl
    · exact ⟨.abort, s, s.map.root.view, M.bind_abort h4,
        .inr (.inr ⟨rfl, Link.find_lookup hso hl hop h1⟩), .inl rfl⟩
  | remove c =>
    unfold SimpleOp.runDrop
    rcases remove_cases (cfg := cfg) (d := d) hw c with ⟨h1, h2⟩ | ⟨e, s1, h1, h2, h3, h4⟩ | ⟨s1, h2, _⟩
    · exact ⟨.panic, s, s.map.root.view, M.bind_panic h2,
        fun f hq hc => .inr (.inl ⟨Link.find_panics h1, rfl, rfl⟩), .inr ⟨.inr rfl, hw, hso, rfl⟩⟩
    · have hi : Is cmp s1.map.root.view s1 :=
        ⟨h2, by rw [h3]; exact Link.del_sorted hso h1, rfl⟩
      cases e with
      | none =>
        refine ⟨_, s1, _, M.bind_ok h4, fun f hq hc => .inl ⟨?_, by rw [h3]; exact Link.del_view hc h1⟩,
          .inr ⟨.inl ⟨_, rfl⟩, hi⟩⟩
        dsimp only
        rw [Link.find_lookup hso hq hc h1]
      | some e =>
        refine ⟨if d.key e.1 then if d.ret && d.value e.2 then .abort else .panic
          else .ok (.value (some e.2)), s1, s1.map.root.view, ?_,
          fun f hq hc => .inl ⟨?_, by rw [h3]; exact Link.del_view hc h1⟩, ?_⟩
        · dsimp only at h4
          cases hk : d.key e.1 <;> rw [hk] at h4
          · exact M.bind_ok h4
          · cases hx : d.ret && d.value e.2 <;> rw [hx] at h4
            · exact M.bind_panic h4
            · exact M.bind_abort h4
        · dsimp only
          rw [Link.find_lookup hso hq hc h1]
        · cases d.key e.1
          · exact .inr ⟨.inl ⟨_, rfl⟩, hi⟩
          · cases d.ret && d.value e.2
            · exact .inr ⟨.inr rfl, hi⟩
            · exact .inl rfl
    · exact ⟨.abort, s1, s.map.root.view, M.bind_abort h2, fun f hq hc => .inr (.inr rfl), .inl rfl⟩
  | extend cmps src =>
    unfold SimpleOp.runDrop
    have h := extend_eff (d := d) he hop src (b := s.map.root.view) ⟨hw, hso, rfl⟩
    rcases hu : extend cfg d cmps src s with ⟨o, s1⟩
    rw [hu] at h
    cases o with
    | ok a =>
      exact ⟨.ok .unit, s1, _, M.bind_ok hu,
        ⟨src.items, [], by simp, .inl ⟨rfl, rfl, rfl, h.2.1, h.2.2⟩⟩, .inr ⟨.inl ⟨_, rfl⟩, h.1⟩⟩
    | panic =>
      obtain ⟨used, rest, g1, g2, g3, g4⟩ := h
      exact ⟨.panic, s1, _, M.bind_panic hu,
        ⟨used, rest, g1, .inr (.inl ⟨rfl, rfl, g3, g4⟩)⟩, .inr ⟨.inr rfl, g2⟩⟩
    | abort =>
      exact ⟨.abort, s1, s.map.root.view, M.bind_abort hu, ⟨src.items, [], by simp, .inr (.inr rfl)⟩, .inl rfl⟩
    | ub => exact h.elim
    | diverge => exact h.elim
  | _ =>
    unfold SimpleOp.runDrop
    obtain ⟨o, m1, h1, ⟨h2, hw1⟩ | ⟨rfl, h2, h3⟩⟩ := Simple.run_sem he cmp hw _
    · obtain ⟨h4, _⟩ := Simple.sem_cases cmp _ h2.symm
      obtain ⟨hs1, _, ha⟩ := Simple.sem_tree hop hso h2.symm
      refine ⟨o, _, m1.root.view, onMap_eq h1, ha, .inr ⟨h4.imp id fun h => h.1, hw1, hs1, rfl⟩⟩
    · refine ⟨.abort, _, s.map.root.view, onMap_eq h1, ?_, .inl rfl⟩
      first | exact .inl ⟨rfl, h2⟩ | exact h2.elim

end World
end BST.Simple
