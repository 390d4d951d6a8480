import Verif.Proofs.Content
/-!
# Concrete maps for the non-vacuity examples
-/
namespace BST
variable {K V : Type}

theorem Reach.insertAll {cfg : Cfg} {ok : K → Probe K → Prop} {cmps : Nat → K → Probe K}
    (hok : ∀ n k, ok k (cmps n k)) (l : List (K × V)) (n : Nat) {m m' : BSTMap K V} {o : Out Unit}
    (hm : Reach cfg ok m) (h : BSTMap.insertAll cfg cmps n l m = (o, m')) : Reach cfg ok m' := by
  induction l generalizing m n with
  | nil => cases h; exact hm
  | cons x l ih =>
    obtain ⟨k, v⟩ := x
    rw [BSTMap.insertAll] at h
    cases hi : BSTMap.insert cfg (cmps n k) k v m with
    | mk oi mi =>
      have hr := Reach.insert hm (hok n k) hi
      cases oi with
      | ok a => rw [M.bind_ok hi] at h; exact ih _ hr h
      | panic => rw [M.bind_panic hi] at h; cases h; exact hr
      | abort => rw [M.bind_abort hi] at h; cases h; exact hr
      | ub =>
        have : ∀ (f : Option V → M (BSTMap K V) Unit), (BSTMap.insert cfg (cmps n k) k v >>= f) m =
          (.ub, mi) := fun f => by show M.bind _ _ _ = _; unfold M.bind; rw [hi]
        rw [this] at h; cases h; exact hr
      | diverge =>
        have : ∀ (f : Option V → M (BSTMap K V) Unit), (BSTMap.insert cfg (cmps n k) k v >>= f) m =
          (.diverge, mi) := fun f => by show M.bind _ _ _ = _; unfold M.bind; rw [hi]
        rw [this] at h; cases h; exact hr

theorem Reach.removeEntry' {cfg : Cfg} {ok : K → Probe K → Prop} {m : BSTMap K V}
    (hm : Reach cfg ok m) (c : Probe K) : Reach cfg ok (BSTMap.removeEntry cfg c m).2 :=
  Reach.removeEntry hm (Prod.eta _).symm

theorem Reach.insert' {cfg : Cfg} {ok : K → Probe K → Prop} {m : BSTMap K V}
    (hm : Reach cfg ok m) {c : Probe K} {k : K} (hc : ok k c) (v : V) :
    Reach cfg ok (BSTMap.insert cfg c k v m).2 :=
  Reach.insert hm hc (Prod.eta _).symm

namespace Sample

/-- A debug build on a machine whose allocator never refuses. -/
def cfg : Cfg := { checks := true, debug := true, esize := 40, allocOk := fun _ _ => true }

/-- `u64` keys with their usual order. -/
abbrev cmp : Nat → Nat → Ordering := compare

/-- Insert pairs into an empty map. -/
def build (l : List (Nat × String)) : BSTMap Nat String :=
  (BSTMap.insertAll cfg (fun _ k => query (cmp k)) 0 l BSTMap.new).2

theorem build_reach (l : List (Nat × String)) : Reach cfg (Lawful cmp) (build l) :=
  Reach.insertAll (fun _ k => Lawful.query cmp k) l 0 Reach.new rfl

/-- Nine entries (so two chunks), inserted out of order. -/
def nine : BSTMap Nat String :=
  build [(5, "e"), (2, "b"), (8, "h"), (1, "a"), (9, "i"), (3, "c"), (7, "g"), (4, "d"), (6, "f")]

theorem nine_reach : Reach cfg (Lawful cmp) nine := build_reach _

/-- `nine` after removing the root, which has two children: the free list is not empty. -/
def eight : BSTMap Nat String := (BSTMap.removeEntry cfg (query (cmp 5)) nine).2

theorem eight_reach : Reach cfg (Lawful cmp) eight := nine_reach.removeEntry' _

example : nine.iterInorder = .ok [(1, "a"), (2, "b"), (3, "c"), (4, "d"), (5, "e"), (6, "f"),
    (7, "g"), (8, "h"), (9, "i")] := by decide +kernel
example : nine.len cfg = .ok 9 ∧ eight.len cfg = .ok 8 ∧ nine.nodes.items.chunks.length = 2 ∧
    eight.nodes.freeLen = 1 := by decide +kernel

end Sample
end BST
