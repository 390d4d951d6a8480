import Verif.Model.Basic
/-!
# Computation lemmas for `Out`, `M` and `loop`
-/
namespace BST

namespace Out
variable {α β : Type}
@[simp] theorem pure_eq (a : α) : (pure a : Out α) = .ok a := rfl
@[simp] theorem ok_bind (a : α) (f : α → Out β) : (Out.ok a >>= f) = f a := rfl
@[simp] theorem panic_bind (f : α → Out β) : (Out.panic >>= f) = .panic := rfl
@[simp] theorem abort_bind (f : α → Out β) : (Out.abort >>= f) = .abort := rfl
@[simp] theorem ub_bind (f : α → Out β) : (Out.ub >>= f) = .ub := rfl
@[simp] theorem diverge_bind (f : α → Out β) : (Out.diverge >>= f) = .diverge := rfl

/-- Outcomes other than a normal return, at another type. -/
def IsFail : Out α → Prop
  | .ok _ => False
  | _ => True

instance : LawfulMonad Out := LawfulMonad.mk'
  (id_map := fun x => by cases x <;> rfl)
  (pure_bind := fun _ _ => rfl)
  (bind_assoc := fun x _ _ => by cases x <;> rfl)
end Out

namespace M
variable {σ α β : Type}
@[simp] theorem pure_apply (a : α) (s : σ) : (Pure.pure a : M σ α) s = (.ok a, s) := rfl
theorem bind_apply (m : M σ α) (f : α → M σ β) (s : σ) : (m >>= f) s =
    match m s with
    | (.ok a, s') => f a s'
    | (.panic, s') => (.panic, s')
    | (.abort, s') => (.abort, s')
    | (.ub, s') => (.ub, s')
    | (.diverge, s') => (.diverge, s') := rfl
@[simp] theorem get_bind (f : σ → M σ β) (s : σ) : (M.get >>= f) s = f s s := rfl
@[simp] theorem modify_bind (g : σ → σ) (f : Unit → M σ β) (s : σ) :
    (M.modify g >>= f) s = f () (g s) := rfl
@[simp] theorem modify_apply (g : σ → σ) (s : σ) : M.modify g s = (.ok (), g s) := rfl
@[simp] theorem lift_apply (o : Out α) (s : σ) : (M.lift o : M σ α) s = (o, s) := rfl
@[simp] theorem read_apply (f : σ → Out α) (s : σ) : (M.read f : M σ α) s = (f s, s) := rfl
@[simp] theorem get_apply (s : σ) : (M.get : M σ σ) s = (.ok s, s) := rfl
@[simp] theorem panic_apply (s : σ) : (M.panic : M σ α) s = (.panic, s) := rfl
@[simp] theorem ub_apply (s : σ) : (M.ub : M σ α) s = (.ub, s) := rfl
@[simp] theorem panic_bind (f : α → M σ β) (s : σ) : (M.panic >>= f) s = (.panic, s) := rfl
@[simp] theorem ub_bind (f : α → M σ β) (s : σ) : (M.ub >>= f) s = (.ub, s) := rfl
@[simp] theorem lift_ok_bind (a : α) (f : α → M σ β) (s : σ) :
    (M.lift (.ok a) >>= f) s = f a s := rfl
@[simp] theorem lift_panic_bind (f : α → M σ β) (s : σ) :
    (M.lift .panic >>= f) s = (.panic, s) := rfl
@[simp] theorem lift_abort_bind (f : α → M σ β) (s : σ) :
    (M.lift .abort >>= f) s = (.abort, s) := rfl
theorem read_bind (g : σ → Out α) (f : α → M σ β) (s : σ) :
    (M.read g >>= f) s = (M.lift (g s) >>= f) s := rfl

theorem bind_ok {m : M σ α} {f : α → M σ β} {s s' : σ} {a : α} (h : m s = (.ok a, s')) :
    (m >>= f) s = f a s' := by rw [bind_apply, h]
theorem bind_panic {m : M σ α} {f : α → M σ β} {s s' : σ} (h : m s = (.panic, s')) :
    (m >>= f) s = (.panic, s') := by rw [bind_apply, h]
theorem bind_abort {m : M σ α} {f : α → M σ β} {s s' : σ} (h : m s = (.abort, s')) :
    (m >>= f) s = (.abort, s') := by rw [bind_apply, h]

instance : LawfulMonad (M σ) := LawfulMonad.mk'
  (id_map := fun x => by
    funext s
    show (x >>= fun a => Pure.pure a) s = x s
    rw [bind_apply]; rcases x s with ⟨o, s'⟩; cases o <;> rfl)
  (pure_bind := fun _ _ => rfl)
  (bind_assoc := fun x f g => by
    funext s
    simp only [bind_apply]; rcases x s with ⟨o, s'⟩; cases o <;> rfl)
end M

section loop
variable {β α σ : Type}

theorem loop_succ {m : Type → Type} [Monad m] [HasDiverge m]
    (n : Nat) (body : β → m (β ⊕ α)) (b : β) :
    loop (n + 1) body b = (do match ← body b with
      | .inl b' => loop n body b'
      | .inr a => Pure.pure a) := rfl

theorem loopO_inl {n : Nat} {body : β → Out (β ⊕ α)} {b b' : β} (h : body b = .ok (.inl b')) :
    loop (n + 1) body b = loop n body b' := by rw [loop_succ, h]; rfl
theorem loopO_inr {n : Nat} {body : β → Out (β ⊕ α)} {b : β} {a : α} (h : body b = .ok (.inr a)) :
    loop (n + 1) body b = .ok a := by rw [loop_succ, h]; rfl
theorem loopO_panic {n : Nat} {body : β → Out (β ⊕ α)} {b : β} (h : body b = .panic) :
    loop (n + 1) body b = .panic := by rw [loop_succ, h]; rfl

theorem loopM_inl {n : Nat} {body : β → M σ (β ⊕ α)} {b b' : β} {s s' : σ}
    (h : body b s = (.ok (.inl b'), s')) : loop (n + 1) body b s = loop n body b' s' := by
  rw [loop_succ, M.bind_ok h]
theorem loopM_inr {n : Nat} {body : β → M σ (β ⊕ α)} {b : β} {a : α} {s s' : σ}
    (h : body b s = (.ok (.inr a), s')) : loop (n + 1) body b s = (.ok a, s') := by
  rw [loop_succ, M.bind_ok h]; rfl
theorem loopM_panic {n : Nat} {body : β → M σ (β ⊕ α)} {b : β} {s s' : σ}
    (h : body b s = (.panic, s')) : loop (n + 1) body b s = (.panic, s') := by
  rw [loop_succ, M.bind_panic h]
theorem loopM_abort {n : Nat} {body : β → M σ (β ⊕ α)} {b : β} {s s' : σ}
    (h : body b s = (.abort, s')) : loop (n + 1) body b s = (.abort, s') := by
  rw [loop_succ, M.bind_abort h]

/-- More fuel does not change an outcome that is not `diverge`: the fuel is only a
device for totality. -/
theorem loopO_mono {n n' : Nat} {body : β → Out (β ⊕ α)} {b : β} (hn : n ≤ n')
    (h : loop n body b ≠ .diverge) : loop n' body b = loop n body b := by
  induction n generalizing n' b with
  | zero => exact absurd rfl h
  | succ n ih =>
    obtain ⟨k, rfl⟩ : ∃ k, n' = k + 1 := ⟨n' - 1, by omega⟩
    rw [loop_succ] at h ⊢
    rw [loop_succ]
    cases hb : body b with
    | ok r =>
      cases r with
      | inl b' =>
        rw [hb] at h
        exact ih (by omega) h
      | inr a => rfl
    | _ => rfl

theorem loopM_mono {n n' : Nat} {body : β → M σ (β ⊕ α)} {b : β} {s : σ} (hn : n ≤ n')
    (h : (loop n body b s).1 ≠ .diverge) : loop n' body b s = loop n body b s := by
  induction n generalizing n' b s with
  | zero => exact absurd rfl h
  | succ n ih =>
    obtain ⟨k, rfl⟩ : ∃ k, n' = k + 1 := ⟨n' - 1, by omega⟩
    rw [loop_succ, M.bind_apply] at h ⊢
    rw [loop_succ, M.bind_apply]
    rcases hb : body b s with ⟨o, s'⟩
    rw [hb] at h
    cases o with
    | ok r =>
      cases r with
      | inl b' => exact ih (by omega) h
      | inr a => rfl
    | _ => rfl
end loop

section arith
variable (cfg : Cfg)
theorem addU_ok {a b : Nat} (h : a + b < usizeBound) : addU cfg a b = .ok (a + b) := by
  simp [addU, h]
theorem subU_ok {a b : Nat} (h : b ≤ a) : subU cfg a b = .ok (a - b) := by simp [subU, h]
theorem mulU_ok {a b : Nat} (h : a * b < usizeBound) : mulU cfg a b = .ok (a * b) := by
  simp [mulU, h]
theorem subU32_ok {a b : Nat} (h : b ≤ a) : subU32 cfg a b = .ok (a - b) := by simp [subU32, h]
theorem shlU_ok {s : Nat} (h : s < 64) : shlU cfg 1 s = .ok (2 ^ s) := by
  have : 2 ^ s < usizeBound := Nat.pow_lt_pow_right (by omega) h
  simp [shlU, h, Nat.one_shiftLeft, Nat.mod_eq_of_lt this]
@[simp] theorem debugAssert_true : debugAssert cfg true = .ok () := by simp [debugAssert]
theorem debugAssert_ok {b : Bool} (h : b = true) : debugAssert cfg b = .ok () := by
  subst h; simp
end arith

theorem leadingZeros_eq {x : Nat} (h0 : 0 < x) (h : x < 2 ^ 64) :
    leadingZeros x = 63 - x.log2 ∧ x.log2 < 64 := by
  have hne : BitVec.ofNat 64 x ≠ 0#64 := by
    intro hc
    have := congrArg BitVec.toNat hc
    simp [Nat.mod_eq_of_lt h] at this
    omega
  have h1 := BitVec.two_pow_sub_clz_le_toNat_of_ne_zero (x := BitVec.ofNat 64 x) (by decide) hne
  have h2 := BitVec.toNat_lt_two_pow_sub_clz (x := BitVec.ofNat 64 x)
  simp only [BitVec.toNat_ofNat, Nat.mod_eq_of_lt h] at h1 h2
  have hl : x.log2 < 64 := (Nat.log2_lt (by omega)).2 h
  unfold leadingZeros
  generalize hc : (BitVec.ofNat 64 x).clz.toNat = c at *
  have a1 : 64 - 1 - c ≤ x.log2 := (Nat.le_log2 (by omega)).2 h1
  have a2 : x.log2 < 64 - c := (Nat.log2_lt (by omega)).2 h2
  omega

end BST
