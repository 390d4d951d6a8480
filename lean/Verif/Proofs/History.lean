import Verif.History
import Verif.Proofs.Textbook
import Verif.Proofs.Nodes
/-!
# Lemmas about histories
-/
set_option linter.unusedSimpArgs false
namespace BST
open BSTMap Tree
open Spec (BT Order)
variable {K V : Type}

theorem Out.Safe.map {α β : Type} {o : Out α} (h : o.Safe) (g : α → β) : (o.map g).Safe := by
  cases o <;> simp_all [Out.Safe, Out.map]

theorem M.map_eq {σ α β : Type} {f : M σ α} {g : α → β} {s s' : σ} {o : Out α}
    (h : f s = (o, s')) : (do let r ← f; pure (g r) : M σ β) s = (o.map g, s') := by
  rw [M.bind_apply, h]
  cases o <;> rfl

theorem Out.safe_find (c : Probe K) (t : Tree K V) {α : Type} (g : Option (Ptr × K × V) → α) :
    ((do let e ← t.find c 0; pure (g e) : Out α)).Safe := by
  rcases t.find_ok_or_panic c 0 with h | ⟨e, h⟩ <;> rw [h] <;> trivial

theorem assign_spec {f : BSTMap K V → Out Unit × BSTMap K V} {m m1 : BSTMap K V}
    {o : Out Unit} (he : f m = (o, m1)) (hs : o.Safe) :
    ∃ m', BSTMap.assign f m = (o, m') ∧ ((o = .ok () ∧ m' = m1) ∨ ((o = .panic ∨ o = .abort) ∧ m' = m)) := by
  unfold BSTMap.assign
  rw [he]
  cases o with
  | ok a => exact ⟨m1, rfl, .inl ⟨rfl, rfl⟩⟩
  | panic => exact ⟨m, rfl, .inr ⟨.inl rfl, rfl⟩⟩
  | abort => exact ⟨m, rfl, .inr ⟨.inr rfl, rfl⟩⟩
  | ub => exact hs.elim
  | diverge => exact hs.elim

theorem swapValue_spec {cfg : Cfg} {m : BSTMap K V} {t : Tree K V} (h : Shape cfg m t) {q : Ptr}
    {k : K} {v : V} (hq : (q, k, v) ∈ t.ino) (w : V) :
    ∃ m', onNodes (swapValue q w) m = (.ok v, m') ∧ Shape cfg m' (t.setV q w) := by
  obtain ⟨m', x, hx, he, h', _⟩ := writeValue_spec h (ptr_mem_of_ino hq) w
  obtain ⟨l, r, hv⟩ := h.rep.mem_ino hq
  have hv : m.nodes.view q = some ⟨k, v, l, r⟩ := hv
  rw [hx] at hv
  cases hv
  refine ⟨m', ?_, h'⟩
  have hw : writeValue q w m.nodes = (.ok (), m'.nodes) ∧ m'.root = m.root := by
    unfold onNodes at he
    cases hh : writeValue q w m.nodes with
    | mk o s => rw [hh] at he; cases he; exact ⟨rfl, rfl⟩
  have : swapValue q w m.nodes = (.ok v, m'.nodes) := by
    unfold swapValue
    rw [M.read_bind, Slab.getUnchecked_ok hx, M.lift_ok_bind, M.bind_ok hw.1]
    rfl
  rw [onNodes_ok this, ← hw.2]

theorem withCapacity_spec (cfg : Cfg) (n : Nat) :
    ∃ o m', withCapacity cfg n = (o, (m' : BSTMap K V)) ∧ Shape cfg m' .leaf ∧ o.Safe := by
  obtain ⟨o, m', h1, h2, _, h3⟩ := grow_spec (shape_new (K := K) (V := V) cfg) n
  refine ⟨o, m', h1, h2.shape, ?_⟩
  rcases h3 with ⟨rfl, _⟩ | ⟨_, rfl | rfl, _⟩ <;> trivial

theorem nodeMut_run {cfg : Cfg} {m : BSTMap K V} {t : Tree K V} (h : Shape cfg m t)
    (path : List Bool) (w : V) :
    ∃ o m' t', (Op.nodeMut path w).run cfg m = (o, m') ∧ o.Safe ∧ Shape cfg m' t' ∧
      ((o = .ok (.entry none) ∧ t' = t) ∨
       ∃ p k v, (p, k, v) ∈ t.ino ∧ o = .ok (.entry (some (k, v))) ∧ t' = t.setV p w) := by
  have hn := nodeMutAt_ok h path
  have hr := h.rep.sub path
  cases hs : t.sub path with
  | leaf =>
    rw [hs] at hn
    exact ⟨.ok (.entry none), m, t, M.bind_ok hn, trivial, h, .inl ⟨rfl, rfl⟩⟩
  | node p l k v r =>
    rw [hs] at hn hr
    have hmem := Tree.mem_sub_ino path hs
    obtain ⟨m', h1, h2⟩ := swapValue_spec h hmem w
    refine ⟨.ok (.entry (some (k, v))), m', _, ?_, trivial, h2, .inr ⟨p, k, v, hmem, rfl, rfl⟩⟩
    show (nodeMutAt path >>= _) m = _
    rw [M.bind_ok hn]
    show (onNodes (NodeMut.key ⟨p⟩) >>= _) m = _
    rw [M.bind_ok (onNodes_pure (key_ok hr)), M.bind_ok (onNodes_pure (valueMut_ok hr)),
      M.bind_ok h1]
    rfl

/-- Every call on every valid map is safe and leaves a valid map. -/
theorem run_shape {cfg : Cfg} {m : BSTMap K V} {t : Tree K V} (h : Shape cfg m t) {op : Op K V}
    (hop : op.Calm) : ∃ o m' t', op.run cfg m = (o, m') ∧ o.Safe ∧ Shape cfg m' t' := by
  have reb : ∀ {f : BSTMap K V → Out Unit × BSTMap K V} {o : Out Unit} {m1 : BSTMap K V}
      {w : Tree K V}, f m = (o, m1) → o.Safe → Shape cfg m1 w →
      ∃ o m' t', (do BSTMap.assign f; pure .unit : M (BSTMap K V) (Ret K V)) m = (o, m') ∧ o.Safe ∧
        Shape cfg m' t' := by
    intro f o m1 w he hs hw
    obtain ⟨m', h1, h2⟩ := assign_spec he hs
    rcases h2 with ⟨rfl, rfl⟩ | ⟨hh, rfl⟩
    · exact ⟨_, _, w, M.map_eq h1, trivial, hw⟩
    · exact ⟨_, _, t, M.map_eq h1, hs.map _, h⟩
  cases op with
  | withCapacity n =>
    obtain ⟨o, m1, h1, h2, h3⟩ := withCapacity_spec (K := K) (V := V) cfg n
    exact reb (f := fun _ => withCapacity cfg n) h1 h3 h2
  | collect cmps src =>
    obtain ⟨o, m1, w, l, h1, h2, _, _, h3, _⟩ := fromIter_spec (cfg := cfg) (ok := Anything)
      (cmps := cmps) (fun _ _ => trivial) src
    exact reb (f := fun _ => fromIter cfg cmps src) h1 h3 h2
  | cloned cmps cloneK cloneV =>
    obtain ⟨o, m1, w, l, h1, h2, _, _, h3, _⟩ := clone_spec (cfg := cfg) (ok := Anything)
      (cmps := cmps) (fun _ _ => trivial) cloneK cloneV h
    exact reb h1 h3 h2
  | insert c k v =>
    rcases insert_cases h c k v with ⟨e, p, m', _, h1, h2, _⟩ | ⟨o, h1, h2⟩
    · exact ⟨_, _, _, M.map_eq h1, trivial, h2⟩
    · refine ⟨_, _, _, M.map_eq h1, ?_, h⟩
      rcases h2 with ⟨rfl, _⟩ | ⟨rfl | rfl, _⟩ <;> trivial
  | remove c =>
    rcases remove_cases h c with ⟨e, m', _, h1, h2, _⟩ | ⟨_, h1⟩
    · exact ⟨_, _, _, M.map_eq h1, trivial, h2⟩
    · exact ⟨_, _, _, M.map_eq h1, trivial, h⟩
  | removeEntry c =>
    rcases removeEntry_cases h c with ⟨e, m', _, h1, h2⟩ | ⟨_, h1⟩
    · exact ⟨_, _, _, M.map_eq h1, trivial, h2⟩
    · exact ⟨_, _, _, M.map_eq h1, trivial, h⟩
  | get c =>
    refine ⟨_, _, _, M.map_eq (f := M.read (BSTMap.get c)) rfl, Out.Safe.map ?_ _, h⟩
    rw [get_spec h]
    exact Out.safe_find _ _ _
  | getEntry c =>
    refine ⟨_, _, _, M.map_eq (f := M.read (BSTMap.getEntry c)) rfl, Out.Safe.map ?_ _, h⟩
    rw [getEntry_spec h]
    exact Out.safe_find _ _ _
  | containsKey c =>
    refine ⟨_, _, _, M.map_eq (f := M.read (BSTMap.containsKey c)) rfl, Out.Safe.map ?_ _, h⟩
    rw [containsKey_spec h]
    exact Out.safe_find _ _ _
  | getMut c w =>
    have hg := getMut_spec h c
    rcases t.find_ok_or_panic c 0 with hf | ⟨e, hf⟩
    · rw [hf] at hg
      exact ⟨_, _, _, M.bind_panic hg, trivial, h⟩
    · rw [hf] at hg
      cases e with
      | none => exact ⟨_, _, _, M.bind_ok hg, trivial, h⟩
      | some e =>
        obtain ⟨m', h1, h2⟩ := swapValue_spec h (Tree.find_mem hf) w
        exact ⟨_, _, _, (M.bind_ok hg).trans (M.map_eq h1), trivial, h2⟩
  | getEntryMut c w =>
    have hg := getEntryMut_spec h c
    rcases t.find_ok_or_panic c 0 with hf | ⟨e, hf⟩
    · rw [hf] at hg
      exact ⟨_, _, _, M.bind_panic hg, trivial, h⟩
    · rw [hf] at hg
      cases e with
      | none => exact ⟨_, _, _, M.bind_ok hg, trivial, h⟩
      | some e =>
        obtain ⟨m', h1, h2⟩ := swapValue_spec h (Tree.find_mem hf) w
        exact ⟨_, _, _, (M.bind_ok hg).trans (M.map_eq h1), trivial, h2⟩
  | node path =>
    refine ⟨_, _, _, M.map_eq (f := M.read (nodeAt path)) rfl, Out.Safe.map ?_ _, h⟩
    rw [nodeAt_ok h]
    trivial
  | nodeMut path w =>
    obtain ⟨o, m', t', h1, h2, h3⟩ := nodeMut_run h path w
    exact ⟨o, m', t', h1, h2, h3.1⟩
  | iter o n =>
    obtain ⟨st, h1, _, h2⟩ := iter_new h o
    obtain ⟨st', h3, _⟩ := nexts_spec (next_spec o m t.height) n h2
    refine ⟨.ok (.items ((List.map (fun e : Ptr × K × V => some e.2) (order o t) ++
      List.replicate n none).take n)), m, t, ?_, trivial, h⟩
    show (M.read o.iter >>= _) m = _
    rw [M.read_bind, h1, M.lift_ok_bind, M.read_bind, h3, M.lift_ok_bind]
    rfl
  | iterMut o steps =>
    obtain ⟨m', t', h1, h2, _⟩ := clientMut_spec h o steps
    exact ⟨_, _, _, M.map_eq h1, trivial, h2⟩
  | len =>
    refine ⟨_, _, _, M.map_eq (f := M.read (BSTMap.len cfg)) rfl, Out.Safe.map ?_ _, h⟩
    rw [h.len_ok]
    trivial
  | isEmpty =>
    refine ⟨_, _, _, M.map_eq (f := M.read (BSTMap.isEmpty cfg)) rfl, Out.Safe.map ?_ _, h⟩
    rw [isEmpty_spec h]
    trivial
  | capacity => exact ⟨.ok (.nat m.capacity), m, t, rfl, trivial, h⟩
  | clear d =>
    obtain ⟨m', h1, h2, _⟩ := clear_spec h d hop
    exact ⟨_, _, _, M.map_eq h1, trivial, h2⟩
  | reserve n =>
    obtain ⟨o, m', h1, h2, h3⟩ := reserve_kept h n
    exact ⟨_, _, _, M.map_eq h1, h3.map _, h2.shape⟩
  | shrinkToFit =>
    obtain ⟨m', h1, h2, _⟩ := shrinkToFit_spec h
    exact ⟨_, _, _, M.map_eq h1, trivial, h2.shape⟩
  | extend cmps src =>
    obtain ⟨o, m1, w, l, h1, h2, _, _, h3, _⟩ := extend_spec (cfg := cfg) (ok := Anything)
      (cmps := cmps) (fun _ _ => trivial) src h
    exact ⟨_, _, _, M.map_eq h1, h3.map _, h2⟩
  | debug dk dv =>
    refine ⟨_, _, _, M.map_eq (f := M.read (fun m : BSTMap K V => m.debug dk dv)) rfl,
      Out.Safe.map ?_ _, h⟩
    show (m.debug dk dv).Safe
    rw [debug_spec h]
    trivial

end BST
