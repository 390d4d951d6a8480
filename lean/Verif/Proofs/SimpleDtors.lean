import Verif.SimpleDiscards
import Verif.Proofs.SimpleConform
/-!
# Destructors in `simple_bst`: what the functions do
-/
set_option linter.unusedSimpArgs false
namespace BST.Simple
open Spec (BT lookup hitOf fate panicking)
variable {K V α : Type}

/-- The keys and values of a tree in the order in which they are dropped. -/
def Link.items : Link K V → List (K ⊕ V)
  | .nil => []
  | .node k v l r => .inl k :: .inr v :: (l.items ++ r.items)

namespace World
variable {d : Drops K V} {s s' : World K V}

/-- The state after more destructors were run. -/
def lost (s : World K V) (xs : List (K ⊕ V)) : World K V := { s with dropped := s.dropped ++ xs }

@[simp] theorem lost_nil : s.lost [] = s := by simp [lost]
@[simp] theorem lost_lost (xs ys : List (K ⊕ V)) : (s.lost xs).lost ys = s.lost (xs ++ ys) := by
  simp [lost]
@[simp] theorem lost_map (xs : List (K ⊕ V)) : (s.lost xs).map = s.map := rfl
@[simp] theorem lost_leaked (xs : List (K ⊕ V)) : (s.lost xs).leaked = s.leaked := rfl
@[simp] theorem lost_made (xs : List (K ⊕ V)) : (s.lost xs).made = s.made := rfl
@[simp] theorem lost_dropped (xs : List (K ⊕ V)) : (s.lost xs).dropped = s.dropped ++ xs := rfl

/-- `f` drops the items of the list. -/
def Burns (d : Drops K V) (f : M (World K V) Unit) (xs : List (K ⊕ V)) : Prop :=
  ∀ s, ∃ ys zs, xs = ys ++ zs ∧ (panicking d xs < 2 → zs = []) ∧
    f s = (fate () (panicking d xs), s.lost ys)

theorem fate_cases (n : Nat) : (n = 0 ∧ fate () n = .ok ()) ∨ (n = 1 ∧ fate () n = .panic) ∨
    (2 ≤ n ∧ fate () n = .abort) := by
  match n with
  | 0 => exact .inl ⟨rfl, rfl⟩
  | 1 => exact .inr (.inl ⟨rfl, rfl⟩)
  | n + 2 => exact .inr (.inr ⟨by omega, rfl⟩)

theorem panicking_append (xs ys : List (K ⊕ V)) :
    panicking d (xs ++ ys) = panicking d xs + panicking d ys := by simp [panicking]

theorem Burns.nil : Burns d (pure ()) [] := fun s => ⟨[], [], rfl, fun _ => rfl, by simp; rfl⟩

theorem Burns.item (x : K ⊕ V) : Burns d (dropItem d x) [x] := by
  intro s
  refine ⟨[x], [], rfl, fun _ => rfl, ?_⟩
  unfold dropItem panicking
  cases h : x.elim d.key d.value <;> simp [h, fate, lost]

/-- Dropping while a panic is under way. -/
theorem Burns.unwind {f : M (World K V) Unit} {xs : List (K ⊕ V)} (h : Burns d f xs) (s : World K V) :
    ∃ ys zs, xs = ys ++ zs ∧ (panicking d xs = 0 → zs = []) ∧
      (unwind f s : Out α × World K V) = (if panicking d xs = 0 then .panic else .abort, s.lost ys) := by
  obtain ⟨ys, zs, h1, h2, h3⟩ := h s
  refine ⟨ys, zs, h1, fun h => h2 (by omega), ?_⟩
  unfold Simple.unwind
  rw [h3]
  rcases fate_cases (panicking d xs) with ⟨h4, h5⟩ | ⟨h4, h5⟩ | ⟨h4, h5⟩ <;> rw [h5]
  · simp [h4]
  · simp [h4]
  · have : panicking d xs ≠ 0 := by omega
    simp [this]

theorem Burns.both {f g : M (World K V) Unit} {xs ys : List (K ⊕ V)} (hf : Burns d f xs)
    (hg : Burns d g ys) : Burns d (both f g) (xs ++ ys) := by
  intro s
  obtain ⟨x1, x2, h1, h2, h3⟩ := hf s
  rcases fate_cases (panicking d xs) with ⟨h4, h5⟩ | ⟨h4, h5⟩ | ⟨h4, h5⟩
  · obtain rfl := h2 (by omega)
    rw [List.append_nil] at h1
    subst h1
    obtain ⟨y1, y2, g1, g2, g3⟩ := hg (s.lost xs)
    refine ⟨xs ++ y1, y2, by rw [g1, List.append_assoc], ?_, ?_⟩
    · rw [panicking_append, h4, Nat.zero_add]; exact g2
    · rw [panicking_append, h4, Nat.zero_add]
      rw [h5] at h3
      have ha : onPanic f g s = (.ok (), s.lost xs) := by unfold onPanic; rw [h3]
      unfold Simple.both
      rw [M.bind_ok ha, g3, lost_lost]
  · obtain rfl := h2 (by omega)
    rw [List.append_nil] at h1
    subst h1
    obtain ⟨y1, y2, g1, g2, g3⟩ := hg.unwind (α := Unit) (s.lost xs)
    refine ⟨xs ++ y1, y2, by rw [g1, List.append_assoc], ?_, ?_⟩
    · rw [panicking_append, h4]; exact fun h => g2 (by omega)
    · rw [panicking_append, h4]
      rw [h5] at h3
      have ha : onPanic f g s = (if panicking d ys = 0 then .panic else .abort, (s.lost xs).lost y1) := by
        unfold onPanic; rw [h3]; exact g3
      unfold Simple.both
      by_cases h0 : panicking d ys = 0
      · rw [if_pos h0] at ha
        rw [M.bind_panic ha, lost_lost, h0]; rfl
      · rw [if_neg h0] at ha
        rw [M.bind_abort ha, lost_lost]
        match panicking d ys, h0 with
        | n + 1, _ => rw [Nat.add_comm]; rfl
  · refine ⟨x1, x2 ++ ys, by rw [h1, List.append_assoc], ?_, ?_⟩
    · rw [panicking_append]; omega
    · rw [panicking_append]
      rw [h5] at h3
      have ha : onPanic f g s = (.abort, s.lost x1) := by unfold onPanic; rw [h3]
      unfold Simple.both
      rw [M.bind_abort ha]
      rcases fate_cases (panicking d xs + panicking d ys) with ⟨h6, _⟩ | ⟨h6, _⟩ | ⟨h6, h7⟩
      · omega
      · omega
      · rw [h7]

theorem Burns.link (t : Link K V) : Burns d (dropLink d t) t.items := by
  induction t with
  | nil => exact Burns.nil
  | node k v l r ihl ihr => exact (Burns.item _).both ((Burns.item _).both (ihl.both ihr))

theorem Burns.items (l : List (K × V)) : Burns d (dropItems d l) (itemsOf l) := by
  induction l with
  | nil => exact Burns.nil
  | cons e l ih => exact (Burns.item _).both ((Burns.item _).both ih)

end World
end BST.Simple
