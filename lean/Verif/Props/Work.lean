import Verif.Proofs.Work
import Verif.Proofs.MapRuns
import Verif.Proofs.Order
import Verif.Proofs.Sample
/-!
# The work that calls and iterators do
-/
namespace BST.Props
open Spec BSTMap
variable {K V : Type} {cfg : Cfg}

/-! ### C51 -/

/-- C51. In any state of a map, for any comparison function (even one that answers inconsistently
or panics): a lookup visits at most `height` nodes, an insertion creates at most four more
references, pointers and chunks, a removal at most seven more references. -/
theorem C51_calls {how : ChunkPtr} (ops : List (Op K V)) (hc : ∀ op ∈ ops, op.Calm)
    (hs : how = .asMut → ∀ op ∈ ops, op ≠ .shrinkToFit) :
    let s := (execute (Op.runRef cfg how) ops .new).2
    ∃ b, explore s.map = .ok b ∧ ∀ c : Probe K,
      created (TMap.containsKey c) s ≤ b.height ∧ created (TMap.getValue c) s ≤ b.height ∧
      created (TMap.getEntry c) s ≤ b.height ∧ created (TMap.getMut c) s ≤ b.height ∧
      (∀ k v, created (TMap.insert cfg c k v) s ≤ b.height + 4) ∧
      created (TMap.removeEntry cfg c) s ≤ b.height + 7 := by
  obtain ⟨os, s, t, e, _, hk, h, _⟩ := TMap.history_sim (cfg := cfg) (s := (TMap.new : TMap Borrows K V)) (how := how)
    ops (shape_new cfg) .new hc fun h => hs (Borrows.asMut_of h)
  rw [e]
  refine ⟨t.sh, explore_ok h, fun c => ?_⟩
  have hh : t.sh.height = t.height := by rw [Tree.sh, BT.map_height, Tree.bt_height]
  have le : ∀ {α : Type} {f : M (TMap Borrows K V) α} {n : Nat} {R : α → TMap Borrows K V → Prop},
      TMap.Within (s.heap.next + n) f s R → created f s ≤ n := fun hw => by
    have := hw.1
    unfold created
    omega
  rw [hh]
  have hd : ∀ ex, TMap.Within (s.heap.next + t.height) (TMap.descend ex c) s
      fun _ s' => s'.heap.next ≤ s.heap.next + t.height := fun ex => TMap.descend_within h ex c (Nat.le_refl _)
  have hg : TMap.Within (s.heap.next + t.height) (TMap.getEntry c) s
      fun _ s' => s'.heap.next ≤ s.heap.next + t.height := by
    refine .bind (hd false) fun n s1 c1 => ?_
    cases n with
    | none => exact .pure c1 c1
    | some n => exact .bind (TMap.deref_within' n c1) fun x s2 c2 => .pure (by omega) (by omega)
  exact ⟨le (.bind (hd false) fun n s1 c1 => .pure (R := fun _ _ => True) c1 trivial),
    le (.bind hg fun n s1 c1 => .pure (R := fun _ _ => True) c1 trivial), le hg, le (hd true),
    fun k v => le (TMap.insert_within h ⟨hk.inv, hk.tags⟩ c k v (by omega)),
    le (TMap.removeEntry_within h c (by omega))⟩

/-- C51. However deep the tree, a complete iteration takes linear time: creating the iterator and
calling `next` as often as one likes visits every node a bounded number of times on average. -/
theorem C51_iter {how : ChunkPtr} (ops : List (Op K V)) (hc : ∀ op ∈ ops, op.Calm)
    (hs : how = .asMut → ∀ op ∈ ops, op ≠ .shrinkToFit) :
    let s := (execute (Op.runRef cfg how) ops .new).2
    ∃ n, s.map.len cfg = .ok n ∧ ∀ (o : Order) (calls : Nat),
      created (iterate o calls) s ≤ o.price * n ∧
      created (iterateMut o calls) s ≤ o.priceMut * n := by
  obtain ⟨os, s, t, e, _, hk, h, _⟩ := TMap.history_sim (cfg := cfg) (s := (TMap.new : TMap Borrows K V)) (how := how)
    ops (shape_new cfg) .new hc fun h => hs (Borrows.asMut_of h)
  rw [e]
  refine ⟨t.size, h.len_ok, fun o n => ?_⟩
  have h1 := TMap.iterate_within h o n
  have h2 := TMap.iterateMut_within h o n
  simp only [created]
  constructor <;> omega

/-! ### Concrete cases for C51 -/

namespace WorkSample

def q (k : Nat) : Probe Nat := ask compare id k

def ops (l : List Nat) : List (Op Nat Nat) :=
  [.collect (fun _ k => q k) ⟨(0, none), l.map fun k => (k, k), false⟩]

def state (l : List Nat) : TMap Borrows Nat Nat := (execute (Op.runRef Sample.cfg .asMut) (ops l) .new).2

/-- The hypotheses of the two theorems are met. -/
example (l : List Nat) : (∀ op ∈ ops l, op.Calm) ∧ ∀ op ∈ ops l, op ≠ .shrinkToFit := by
  simp [ops, Op.Calm]

/-- In a tree of height 8, a lookup visits 8 nodes, and an insertion that needs a new chunk creates
12 references, pointers and chunks. -/
example :
    let s := state [8, 7, 6, 5, 4, 3, 2, 1]
    created (TMap.getEntry (q 1)) s = 8 ∧ created (TMap.insert Sample.cfg (q 0) 0 0) s = 12 := by
  decide +kernel

/-- In a tree of height 7, the removal of a node below the root, whose successor is far below,
creates 14 references. -/
example :
    let s := state [0, 2, 1, 9, 8, 7, 6, 5]
    (explore s.map).bind (fun b => .ok b.height) = .ok 7 ∧
    created (TMap.removeEntry Sample.cfg (q 2)) s = 14 := by
  decide +kernel

/-- A path of nine nodes to the right: all but one of the bounds for iterators are reached. -/
example :
    let s := state [0, 1, 2, 3, 4, 5, 6, 7, 8]
    [Order.pre, .ino, .post].map (fun o => (created (iterate o 10) s, created (iterateMut o 10) s)) =
      [(9, 9), (18, 27), (26, 35)] := by
  decide +kernel

/-- The first `next` of a shared in-order iterator over a tree whose right subtree is a path to the
left visits all of that path; but the others make up for it. -/
example :
    let s := state [0, 8, 7, 6, 5, 4, 3, 2, 1]
    [1, 2, 3, 9, 10].map (fun n => created (iterate .ino n) s) = [10, 11, 12, 18, 18] := by
  decide +kernel

end WorkSample

end BST.Props
