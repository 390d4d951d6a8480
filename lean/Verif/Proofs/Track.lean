import Verif.Proofs.Textbook
/-!
# Sizes of the storage along a history
-/
set_option linter.unusedSimpArgs false
namespace BST
open BSTMap Tree
variable {K V : Type}

theorem two_pow_pos (n : Nat) : 0 < 2 ^ n := Nat.pow_pos (by omega)

theorem fits_of {n c L : Nat} (hc : c + 8 = 8 * 2 ^ L) (h1 : n ≤ c) (h2 : c < 2 * n + 8) :
    Spec.Fits n c := by
  refine ⟨⟨L, by omega⟩, h1, fun i hi => ?_⟩
  refine Nat.le_of_not_lt fun hlt => ?_
  have hlt' : i < L := by
    refine Nat.lt_of_not_le fun h => ?_
    have := Nat.pow_le_pow_right (n := 2) (by omega) h
    omega
  have := Nat.pow_le_pow_right (n := 2) (by omega) hlt'
  rw [Nat.pow_succ] at this
  have := two_pow_pos i
  omega

namespace Arena
variable {T : Type}

theorem growTo_min_loop {cfg : Cfg} (n fuel : Nat) : ∀ {a : Arena T}, a.Inv cfg →
    ∀ {o : Out Unit} {b : Arena T}, loop fuel (fun (_ : Unit) => (do
          let a ← M.get
          if a.capacity < n then
            pushChunk cfg
            pure (.inl ())
          else pure (.inr ()) : M (Arena T) (Unit ⊕ Unit))) () a = (o, b) →
    b.capacity = a.capacity ∨ b.capacity < 2 * n + 8 := by
  induction fuel with
  | zero => intro a _ o b h; cases h; exact Or.inl rfl
  | succ fuel ih =>
    intro a h o b he
    by_cases hc : a.capacity < n
    · rcases pushChunk_spec h with ⟨hp, hg⟩ | hp | hp
      · rw [loopM_inl (b' := ()) (s' := grown a) (by
          simp only [M.get_bind, hc, if_true]; rw [M.bind_ok hp]; rfl)] at he
        right
        have hcap : (grown a).capacity = 2 * a.capacity + 8 := by
          have := h.cap
          show a.capacity + 8 * 2 ^ a.chunks.length = _
          omega
        rcases ih hg he with h1 | h1 <;> omega
      · rw [loopM_panic (s' := a) (by
          simp only [M.get_bind, hc, if_true]; rw [M.bind_panic hp])] at he
        cases he; exact Or.inl rfl
      · rw [loopM_abort (s' := a) (by
          simp only [M.get_bind, hc, if_true]; rw [M.bind_abort hp])] at he
        cases he; exact Or.inl rfl
    · rw [loopM_inr (a := ()) (s' := a) (by
        simp only [M.get_bind, hc, if_false]; rfl)] at he
      cases he; exact Or.inl rfl

theorem growTo_min {cfg : Cfg} {n : Nat} {a : Arena T} (h : a.Inv cfg) {o : Out Unit} {b : Arena T}
    (he : growTo cfg n a = (o, b)) : b.capacity = a.capacity ∨ b.capacity < 2 * n + 8 :=
  growTo_min_loop n growFuel h he
end Arena

theorem grow_min {cfg : Cfg} {m m' : BSTMap K V} {t : Tree K V} (h : Shape cfg m t) {n : Nat}
    {o : Out Unit} (he : onNodes (Slab.onItems (Arena.growTo cfg n)) m = (o, m')) :
    m'.capacity = m.capacity ∨ m'.capacity < 2 * n + 8 := by
  obtain ⟨fr, hf⟩ := h.slab
  cases hg : Arena.growTo cfg n m.nodes.items with
  | mk o1 b =>
    rw [onNodes_ok (Slab.onItems_ok hg)] at he
    cases he
    exact Arena.growTo_min hf.items hg

/-- The storage of `m` is as large as the peak `p` and the need `q`, both of which may
have been raised to the present size by insertions. -/
def Trk (cfg : Cfg) (p q : Nat) (m : BSTMap K V) : Prop :=
  ∃ u, Shape cfg m u ∧ m.nodes.items.len = max p u.size ∧ max q u.size ≤ m.capacity ∧
    m.capacity < 2 * max q u.size + 8

theorem insert_capacity {cfg : Cfg} {m m' : BSTMap K V} {t : Tree K V} (h : Shape cfg m t)
    {c : Probe K} {k : K} {v : V} {o : Out (Option V)} (he : insert cfg c k v m = (o, m')) :
    m'.capacity = m.capacity ∨
      (m.nodes.items.len = m.capacity ∧ m.nodes.freeLen = 0 ∧ m'.capacity = 2 * m.capacity + 8 ∧
        t.find c 0 = .ok none ∧ o = .ok none) := by
  rcases insert_spec h c k v with ⟨h1, h2⟩ | ⟨q, k0, v0, x, m', h1, h2, h3, h4, h5⟩ |
    ⟨h1, pn, m', h2, h3, h4⟩ | ⟨h1, h2, h3 | h3⟩
  · cases h2.symm.trans he; exact Or.inl rfl
  · cases h2.symm.trans he; exact Or.inl h5.capacity
  · cases h2.symm.trans he
    rcases h4.grew with g | ⟨g1, g2, g3⟩
    · exact Or.inl g
    · exact Or.inr ⟨g1, g2, g3, h1, rfl⟩
  · cases h3.symm.trans he; exact Or.inl rfl
  · cases h3.symm.trans he; exact Or.inl rfl

theorem insert_trk {cfg : Cfg} {p q : Nat} {m : BSTMap K V} (h : Trk cfg p q m) (c : Probe K)
    (k : K) (v : V) : Trk cfg p q (insert cfg c k v m).2 := by
  obtain ⟨u, hs, h1, h2, h3⟩ := h
  have hcap := insert_capacity hs (Prod.eta (insert cfg c k v m)).symm
  rcases insert_cases hs c k v with ⟨e, pn, m', hf, hi, hs', _, _, _, hlen⟩ | ⟨o, hi, _⟩
  · rw [hi] at hcap ⊢
    refine ⟨_, hs', ?_⟩
    have hl := hs.len_eq
    have hl' := hs'.len_eq
    have hsz := ins_size (p := pn) (k := k) (v := v) hf
    have hle := hs'.size_le
    rw [hsz] at hl' hle ⊢
    show m'.nodes.items.len = _ ∧ _
    simp only at hcap
    by_cases hn : e = none
    · simp only [hn, true_and, if_true] at hlen hl' hle hcap ⊢
      by_cases hfl : m.nodes.freeLen = 0
      · simp only [hfl, if_true] at hlen
        omega
      · simp only [hfl, if_false] at hlen
        omega
    · simp only [hn, false_and, if_false] at hlen hl' hle hcap ⊢
      rcases hcap with hcap | ⟨_, _, _, hx, _⟩
      · omega
      · rw [hf] at hx; exact absurd (Out.ok.inj hx) hn
  · rw [hi]; exact ⟨u, hs, h1, h2, h3⟩

/-- Whatever the outcome, `f` keeps `I` true of the state. -/
def Pres {σ α : Type} (I : σ → Prop) (f : M σ α) : Prop := ∀ s, I s → I (f s).2

namespace Pres
variable {σ α β : Type} {I : σ → Prop}

theorem pure (a : α) : Pres I (Pure.pure a : M σ α) := fun _ h => h
theorem panic : Pres I (M.panic : M σ α) := fun _ h => h
theorem lift (o : Out α) : Pres I (M.lift o : M σ α) := fun _ h => h
theorem read (g : σ → Out α) : Pres I (M.read g) := fun _ h => h
theorem get : Pres I (M.get : M σ σ) := fun _ h => h

theorem bind {f : M σ α} {g : α → M σ β} (hf : Pres I f) (hg : ∀ a, Pres I (g a)) :
    Pres I (f >>= g) := by
  intro s h
  have h1 := hf s h
  rw [M.bind_apply]
  cases hfs : f s with
  | mk o s' =>
    rw [hfs] at h1
    cases o with
    | ok a => exact hg a s' h1
    | _ => exact h1

theorem loop {body : β → M σ (β ⊕ α)} (hb : ∀ b, Pres I (body b)) (fuel : Nat) :
    ∀ b, Pres I (BST.loop fuel body b) := by
  induction fuel with
  | zero => exact fun _ _ h => h
  | succ fuel ih =>
    intro b
    unfold BST.loop
    refine bind (hb b) fun a => ?_
    cases a with
    | inl b' => exact ih b'
    | inr a => exact pure a
end Pres

theorem insertAll_pres {cfg : Cfg} {I : BSTMap K V → Prop}
    (hI : ∀ c k v, Pres I (insert cfg c k v)) {cmps : Nat → K → Probe K} (l : List (K × V)) :
    ∀ n, Pres I (insertAll cfg cmps n l) := by
  induction l with
  | nil => exact fun _ => Pres.pure ()
  | cons e l ih => exact fun n => Pres.bind (hI _ _ _) fun _ => ih (n + 1)

theorem source_pres {cfg : Cfg} {I : BSTMap K V → Prop}
    (hI : ∀ c k v, Pres I (insert cfg c k v)) {cmps : Nat → K → Probe K} (src : Source K V) :
    Pres I (do
      insertAll cfg cmps 0 src.items
      if src.panics then M.panic else pure () : M (BSTMap K V) Unit) := by
  refine Pres.bind (insertAll_pres hI _ _) fun _ => ?_
  cases src.panics
  · exact Pres.pure ()
  · exact Pres.panic

/-- What every insertion preserves, the loop of `clone` preserves. -/
theorem cloneBody_pres {cfg : Cfg} {I : BSTMap K V → Prop}
    (hI : ∀ c k v, Pres I (insert cfg c k v)) {cmps : Nat → K → Probe K} {cloneK : K → Option K}
    {cloneV : V → Option V} {m0 : BSTMap K V} (st : Nat × List (Node K V)) :
    Pres I (cloneBody cfg cmps cloneK cloneV m0 st) := by
  obtain ⟨i, _ | ⟨nd, stack⟩⟩ := st
  · exact Pres.pure _
  · unfold cloneBody
    simp only
    split
    · exact Pres.bind (hI _ _ _) fun _ => Pres.bind (Pres.lift _) fun _ =>
        Pres.bind (Pres.lift _) fun _ => Pres.pure _
    · exact Pres.panic

theorem trk_pres {cfg : Cfg} {p q : Nat} (c : Probe K) (k : K) (v : V) :
    Pres (Trk cfg p q) (insert cfg c k v) := fun _ h => insert_trk h c k v

/-- Growing the storage to `n` when the need was `q`. -/
theorem grow_trk {cfg : Cfg} {m m' : BSTMap K V} {t : Tree K V} (h : Shape cfg m t) {p q n : Nat}
    (hp : m.nodes.items.len = p) (hc : m.capacity < 2 * q + 8)
    {o : Out Unit} (he : onNodes (Slab.onItems (Arena.growTo cfg n)) m = (o, m')) :
    Shape cfg m' t ∧ m'.nodes.items.len = p ∧ m.capacity ≤ m'.capacity ∧
      (o = .ok () → n ≤ m'.capacity ∧ m'.capacity < 2 * max q n + 8) := by
  obtain ⟨o1, m1, h1, hk, hg, hcase⟩ := grow_spec h n
  cases h1.symm.trans he
  have hmin := grow_min h he
  have hle : m.capacity ≤ m'.capacity := by
    rcases hmin with h | h
    · omega
    · exact hg.capacity
  refine ⟨hk.shape, hk.len.trans hp, hle, fun ho => ?_⟩
  rcases hcase with ⟨_, h2⟩ | ⟨_, h2 | h2, _⟩
  · omega
  · rw [ho] at h2; cases h2
  · rw [ho] at h2; cases h2


theorem Shape.size_le_len {cfg : Cfg} {m : BSTMap K V} {t : Tree K V} (h : Shape cfg m t) :
    t.size ≤ m.nodes.items.len := by have := h.len_eq; omega

theorem Shape.len_inj {cfg : Cfg} {m : BSTMap K V} {t : Tree K V} (h : Shape cfg m t) {n : Nat}
    (hn : m.len cfg = .ok n) : n = t.size := Out.ok.inj (hn.symm.trans h.len_ok)

theorem Trk.finish {cfg : Cfg} {p q : Nat} {m : BSTMap K V} (h : Trk cfg p q m) {n : Nat}
    (hn : m.len cfg = .ok n) : ∃ t, Shape cfg m t ∧ m.nodes.items.len = max p n ∧
      max q n ≤ m.capacity ∧ m.capacity < 2 * max q n + 8 := by
  obtain ⟨u, hs, h1, h2, h3⟩ := h
  cases hs.len_inj hn
  exact ⟨u, hs, h1, h2, h3⟩

theorem track_spec {cfg : Cfg} {ok : K → Probe K → Prop} {m : BSTMap K V} {p q : Nat}
    (hm : Track cfg ok m p q) : ∃ t, Shape cfg m t ∧ m.nodes.items.len = p ∧ q ≤ m.capacity ∧
      m.capacity < 2 * q + 8 := by
  have hnew : Shape cfg (BSTMap.new : BSTMap K V) .leaf := shape_new cfg
  have hc0 : (BSTMap.new : BSTMap K V).capacity < 2 * 0 + 8 := by
    show 0 < 8; omega
  induction hm with
  | new => exact ⟨_, hnew, rfl, Nat.le_refl _, hc0⟩
  | withCapacity he =>
    obtain ⟨h1, h2, h3, h4⟩ := grow_trk hnew (p := 0) (q := 0) rfl hc0 he
    have := h4 rfl
    exact ⟨_, h1, h2, by omega, by omega⟩
  | @fromIter cmps src m n _ he hn =>
    unfold fromIter at he
    cases hg : onNodes (Slab.onItems (Arena.growTo cfg (src.hint.2.getD src.hint.1)))
        (BSTMap.new : BSTMap K V) with
    | mk o1 m1 =>
      obtain ⟨h1, h2, h3, h4⟩ := grow_trk hnew (p := 0) (q := 0) rfl hc0 hg
      cases o1 with
      | ok _ =>
        rw [M.bind_ok hg] at he
        obtain ⟨h5, h6⟩ := h4 rfl
        have h7 : Trk cfg 0 (src.hint.2.getD src.hint.1) m1 :=
          ⟨_, h1, by simp [h2, Tree.size], by simpa [Tree.size] using h5,
            by simpa [Tree.size] using h6⟩
        have h8 := source_pres (cmps := cmps) (trk_pres (cfg := cfg)) src m1 h7
        rw [he] at h8
        simpa using h8.finish hn
      | _ => rw [M.bind_apply, hg] at he; cases he
  | @clone cmps cloneK cloneV m m' p q n n' hm _ he hn hn' ih =>
    obtain ⟨t, hs, _⟩ := ih
    unfold clone at he
    rw [hn, M.lift_ok_bind] at he
    cases hg : onNodes (Slab.onItems (Arena.growTo cfg n)) (BSTMap.new : BSTMap K V) with
    | mk o1 m1 =>
      obtain ⟨h1, h2, h3, h4⟩ := grow_trk hnew (p := 0) (q := 0) rfl hc0 hg
      cases o1 with
      | ok _ =>
        rw [M.bind_ok hg, rootNode_ok hs.root hs.rep, M.lift_ok_bind] at he
        obtain ⟨h5, h6⟩ := h4 rfl
        have h7 : Trk cfg 0 n m1 :=
          ⟨_, h1, by simp [h2, Tree.size], by simpa [Tree.size] using h5,
            by simpa [Tree.size] using h6⟩
        have h8 := Pres.loop (cloneBody_pres (cmps := cmps) (cloneK := cloneK) (cloneV := cloneV)
          (m0 := m) (trk_pres (cfg := cfg) (p := 0) (q := n))) (walkFuel m.nodes)
          (0, t.nodeOpt.toList) m1 h7
        have he' : loop (walkFuel m.nodes) (cloneBody cfg cmps cloneK cloneV m)
          (0, t.nodeOpt.toList) m1 = (.ok (), m') := he
        rw [he'] at h8
        simpa using h8.finish hn'
      | _ => rw [M.bind_apply, hg] at he; cases he
  | @insert c k v o m m' p q n hm _ he hn ih =>
    obtain ⟨t, hs, h1, h2, h3⟩ := ih
    have := hs.size_le_len
    have := hs.size_le
    have h8 := insert_trk (p := p) (q := q) ⟨t, hs, by omega, by omega, by omega⟩ c k v
    rw [he] at h8
    exact h8.finish hn
  | @removeEntry c o m m' p q hm he ih =>
    obtain ⟨t, hs, h1, h2, h3⟩ := ih
    rcases removeEntry_spec hs c with ⟨_, h4⟩ | ⟨_, h4⟩ | ⟨e, m1, _, h4, h5, _, h6, _, h7, _⟩
    · cases h4.symm.trans he; exact ⟨t, hs, h1, h2, h3⟩
    · cases h4.symm.trans he; exact ⟨t, hs, h1, h2, h3⟩
    · cases h4.symm.trans he; exact ⟨_, h5, h7.trans h1, by omega, by omega⟩
  | @remove c o m m' p q hm he ih =>
    obtain ⟨t, hs, h1, h2, h3⟩ := ih
    rcases remove_cases hs c with ⟨e, m1, _, h4, _, h5⟩ | ⟨_, h4⟩
    · cases h4.symm.trans he
      rcases removeEntry_spec hs c with ⟨_, h4⟩ | ⟨_, h4⟩ | ⟨e, m1, _, h4, h6, _, h7, _, h8, _⟩
      · cases h4.symm.trans h5
      · cases (Prod.mk.inj (h4.symm.trans h5)).2; exact ⟨t, hs, h1, h2, h3⟩
      · cases (Prod.mk.inj (h4.symm.trans h5)).2
        exact ⟨_, h6, h8.trans h1, by omega, by omega⟩
    · cases h4.symm.trans he; exact ⟨t, hs, h1, h2, h3⟩
  | @write p v o m m' pk q hm hp he ih =>
    obtain ⟨t, hs, h1, h2, h3⟩ := ih
    obtain ⟨m1, x, _, h4, h5, _, h6⟩ := writeValue_spec hs (hp.mem hs) v
    cases h4.symm.trans he
    have hcap : m'.capacity = m.capacity := h6.capacity
    exact ⟨_, h5, h6.len.trans h1, by omega, by omega⟩
  | @clear d o m m' p q hm hd he ih =>
    obtain ⟨t, hs, h1, h2, h3⟩ := ih
    obtain ⟨m1, h4, h5, h6, _, h7, _⟩ := clear_spec hs d hd
    cases h4.symm.trans he
    exact ⟨_, h5, h7, by omega, by omega⟩
  | @reserve n m m' p q hm he ih =>
    obtain ⟨t, hs, h1, h2, h3⟩ := ih
    rcases reserve_spec cfg m n with ⟨_, _, h4⟩ | ⟨_, h4⟩
    · cases h4.symm.trans he
    · rw [h4] at he
      obtain ⟨h5, h6, h7, h8⟩ := grow_trk hs h1 h3 he
      have := h8 rfl
      have ht : reserveTarget m n = (p + n) % usizeBound := by rw [reserveTarget, h1]
      rw [← ht]
      exact ⟨_, h5, h6, by omega, by omega⟩
  | @reserveFailed n o m m' p q hm he ho ih =>
    obtain ⟨t, hs, h1, h2, h3⟩ := ih
    rcases reserve_spec cfg m n with ⟨_, _, h4⟩ | ⟨_, h4⟩
    · cases h4.symm.trans he; exact ⟨_, hs, h1, by omega, by omega⟩
    · rw [h4] at he
      obtain ⟨h5, h6, h7, h8⟩ := grow_trk hs h1 h3 he
      exact ⟨_, h5, h6, by omega, by omega⟩
  | @shrinkToFit o m m' p q hm he ih =>
    obtain ⟨t, hs, h1, h2, h3⟩ := ih
    obtain ⟨m1, h4, hk, hsh⟩ := shrinkToFit_spec hs
    cases h4.symm.trans he
    have hlen := hk.len
    have hle : m'.nodes.items.len ≤ m'.capacity := hsh.inv.lenle
    have hcap : m'.capacity + 8 = 8 * 2 ^ m'.nodes.items.chunks.length := hsh.inv.cap
    refine ⟨_, hk.shape, hlen.trans h1, by omega, ?_⟩
    rcases hsh.tight with h | h
    · rw [h] at hcap; simp at hcap; omega
    · have hne : m'.nodes.items.chunks.length ≠ 0 := by
        intro h0; rw [h0] at hcap h; simp at hcap; omega
      obtain ⟨L, hL⟩ := Nat.exists_eq_succ_of_ne_zero hne
      rw [hL] at h hcap
      simp only [Nat.succ_eq_add_one, Nat.add_sub_cancel, Nat.pow_succ] at h hcap
      omega
  | @extend cmps src m m' p q n hm _ he hn ih =>
    obtain ⟨t, hs, h1, h2, h3⟩ := ih
    unfold extend at he
    cases hr : reserve cfg (src.hint.2.getD src.hint.1) m with
    | mk o1 m1 =>
      cases o1 with
      | ok _ =>
        rw [M.bind_ok hr] at he
        rcases reserve_spec cfg m (src.hint.2.getD src.hint.1) with ⟨_, _, h4⟩ | ⟨_, h4⟩
        · cases h4.symm.trans hr
        · rw [h4] at hr
          obtain ⟨h5, h6, h7, h8⟩ := grow_trk hs h1 h3 hr
          have := h8 rfl
          have ht : reserveTarget m (src.hint.2.getD src.hint.1) =
            (p + src.hint.2.getD src.hint.1) % usizeBound := by rw [reserveTarget, h1]
          rw [← ht]
          have := h5.size_le_len
          have := h5.size_le
          have h9 : Trk cfg p (max q (reserveTarget m (src.hint.2.getD src.hint.1))) m1 :=
            ⟨_, h5, by omega, by omega, by omega⟩
          have h10 := source_pres (cmps := cmps) (trk_pres (cfg := cfg)) src m1 h9
          rw [he] at h10
          exact h10.finish hn
      | _ => rw [M.bind_apply, hr] at he; cases he
  | @extendFailed cmps src o m m' p q n hm _ he ho hn ih =>
    obtain ⟨t, hs, h1, h2, h3⟩ := ih
    unfold extend at he
    cases hr : reserve cfg (src.hint.2.getD src.hint.1) m with
    | mk o1 m1 =>
      have h4 : Shape cfg m1 t ∧ m1.nodes.items.len = p ∧ m.capacity ≤ m1.capacity := by
        rcases reserve_spec cfg m (src.hint.2.getD src.hint.1) with ⟨_, _, h4⟩ | ⟨_, h4⟩
        · cases h4.symm.trans hr; exact ⟨hs, h1, Nat.le_refl _⟩
        · rw [h4] at hr
          obtain ⟨h5, h6, h7, _⟩ := grow_trk hs h1 h3 hr
          exact ⟨h5, h6, h7⟩
      obtain ⟨h5, h6, h7⟩ := h4
      have hsz := h5.size_le_len
      have := h5.size_le
      have hfail : o1 ≠ .ok () → m' = m1 → ∃ t, Shape cfg m' t ∧
          m'.nodes.items.len = max p n ∧ max q m'.capacity ≤ m'.capacity ∧
          m'.capacity < 2 * max q m'.capacity + 8 := by
        rintro _ rfl
        cases h5.len_inj hn
        exact ⟨_, h5, by omega, by omega, by omega⟩
      cases o1 with
      | ok _ =>
        rw [M.bind_ok hr] at he
        have h9 : Trk cfg p m1.capacity m1 := ⟨_, h5, by omega, by omega, by omega⟩
        have h10 := source_pres (cmps := cmps) (trk_pres (cfg := cfg)) src m1 h9
        rw [he] at h10
        obtain ⟨w, g1, g2, g3, g4⟩ := h10.finish hn
        dsimp only at g1 g2 g3 g4
        exact ⟨w, g1, g2, by omega, by omega⟩
      | _ => rw [M.bind_apply, hr] at he; cases he; exact hfail (by simp) rfl

theorem Track.fits {cfg : Cfg} {ok : K → Probe K → Prop} {m : BSTMap K V} {p q : Nat}
    (hm : Track cfg ok m p q) : Spec.Fits q m.capacity := by
  obtain ⟨t, hs, _, h2, h3⟩ := track_spec hm
  obtain ⟨fr, hf⟩ := hs.slab
  exact fits_of hf.items.cap h2 h3

theorem Track.reach {cfg : Cfg} {ok : K → Probe K → Prop} {m : BSTMap K V} {p q : Nat}
    (hm : Track cfg ok m p q) : Reach cfg ok m := by
  induction hm with
  | new => exact .new
  | withCapacity h => exact .withCapacity h
  | fromIter h1 h2 _ => exact .fromIter h1 h2
  | clone _ h1 h2 _ _ ih => exact .clone ih h1 h2
  | insert _ h1 h2 _ ih => exact .insert ih h1 h2
  | removeEntry _ h ih => exact .removeEntry ih h
  | remove _ h ih => exact .remove ih h
  | write _ h1 h2 ih => exact .write ih h1 h2
  | clear _ h1 h2 ih => exact .clear ih h1 h2
  | reserve _ h ih => exact .reserve ih h
  | reserveFailed _ h _ ih => exact .reserve ih h
  | shrinkToFit _ h ih => exact .shrinkToFit ih h
  | extend _ h1 h2 _ ih => exact .extend ih h1 h2
  | extendFailed _ h1 h2 _ _ ih => exact .extend ih h1 h2

theorem Reach.track {cfg : Cfg} {ok : K → Probe K → Prop} {m : BSTMap K V}
    (hm : Reach cfg ok m) : ∃ p q, Track cfg ok m p q := by
  have hl : ∀ {m : BSTMap K V}, Reach cfg ok m → ∃ n, m.len cfg = .ok n := by
    intro m h
    obtain ⟨t, hs⟩ := h.shape
    exact ⟨_, hs.len_ok⟩
  induction hm with
  | new => exact ⟨_, _, .new⟩
  | withCapacity h => exact ⟨_, _, .withCapacity h⟩
  | fromIter h1 h2 =>
    obtain ⟨n, hn⟩ := hl (.fromIter h1 h2)
    exact ⟨_, _, .fromIter h1 h2 hn⟩
  | clone h0 h1 h2 ih =>
    obtain ⟨p, q, ht⟩ := ih
    obtain ⟨n, hn⟩ := hl h0
    obtain ⟨n', hn'⟩ := hl (.clone h0 h1 h2)
    exact ⟨_, _, .clone ht h1 h2 hn hn'⟩
  | insert h0 h1 h2 ih =>
    obtain ⟨p, q, ht⟩ := ih
    obtain ⟨n, hn⟩ := hl (.insert h0 h1 h2)
    exact ⟨_, _, .insert ht h1 h2 hn⟩
  | removeEntry _ h ih => obtain ⟨p, q, ht⟩ := ih; exact ⟨_, _, .removeEntry ht h⟩
  | remove _ h ih => obtain ⟨p, q, ht⟩ := ih; exact ⟨_, _, .remove ht h⟩
  | write _ h1 h2 ih => obtain ⟨p, q, ht⟩ := ih; exact ⟨_, _, .write ht h1 h2⟩
  | clear _ h1 h2 ih => obtain ⟨p, q, ht⟩ := ih; exact ⟨_, _, .clear ht h1 h2⟩
  | @reserve n o m m' _ h ih =>
    obtain ⟨p, q, ht⟩ := ih
    by_cases ho : o = .ok ()
    · subst ho; exact ⟨_, _, .reserve ht h⟩
    · exact ⟨_, _, .reserveFailed ht h ho⟩
  | shrinkToFit _ h ih => obtain ⟨p, q, ht⟩ := ih; exact ⟨_, _, .shrinkToFit ht h⟩
  | @extend cmps src o m m' h0 h1 h2 ih =>
    obtain ⟨p, q, ht⟩ := ih
    obtain ⟨n, hn⟩ := hl (.extend h0 h1 h2)
    by_cases ho : o = .ok ()
    · subst ho; exact ⟨_, _, .extend ht h1 h2 hn⟩
    · exact ⟨_, _, .extendFailed ht h1 h2 ho hn⟩

end BST
