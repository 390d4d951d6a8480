import Verif.Proofs.Builds
import Verif.Proofs.Sample
/-!
# Debug and release builds
-/
namespace BST.Props
open BSTMap Tree
variable {K V : Type} {cfg : Cfg} {ok : K → Probe K → Prop} {m m' : BSTMap K V}

/-- C39. On every reachable map, for every build (with or without overflow checks and
debug assertions, independently), every operation has the same outcome and leaves the
same state in every slot: hence no addition, subtraction, multiplication, shift or cast
in it overflows and no debug assertion fails. For `reserve` and `extend` see
`C39_reserve`. The operations on the map that are not listed here do no checked
arithmetic and make no assertion (the model's definitions do not take the build
configuration as an argument). -/
theorem C39_builds (hm : Reach cfg ok m) (checks debug : Bool) :
    let cfg' := cfg.build checks debug
    m.len cfg = m.len cfg' ∧ m.isEmpty cfg = m.isEmpty cfg' ∧
    (∀ c k v, insert cfg c k v m = insert cfg' c k v m) ∧
    (∀ c, removeEntry cfg c m = removeEntry cfg' c m) ∧
    (∀ c, remove cfg c m = remove cfg' c m) ∧
    (∀ d, clear cfg d m = clear cfg' d m) ∧
    (∀ d, drop cfg d m = drop cfg' d m) ∧
    shrinkToFit cfg m = shrinkToFit cfg' m ∧
    (∀ cmps cloneK cloneV, clone cfg cmps cloneK cloneV m = clone cfg' cmps cloneK cloneV m) ∧
    (∀ keq veq b, Reach cfg ok b → BSTMap.eq cfg keq veq m b = BSTMap.eq cfg' keq veq m b) := by
  obtain ⟨t, h⟩ := hm.shape
  have hr : ∀ c, removeEntry cfg c m = removeEntry (cfg.build checks debug) c m :=
    fun c => removeEntry_same c checks debug h.slab
  refine ⟨len_same _ _ h.slab, isEmpty_same _ _ h (h.build _ _),
    fun c k v => (insert_same c k v checks debug).eq h.slab, hr, fun c => ?_, fun d => ?_,
    fun d => ?_, ?_, fun cmps cloneK cloneV => clone_same _ _ h.slab, fun keq veq b hb => ?_⟩
  · unfold remove
    rw [M.bind_apply, M.bind_apply, hr c]
  · have : onNodes (Slab.clear cfg d) m = onNodes (Slab.clear (cfg.build checks debug) d) m := by
      unfold onNodes
      rw [Slab.clear_same d checks debug h.slab]
    unfold clear
    rw [M.bind_apply, M.bind_apply, this]
  · unfold drop onNodes
    rw [Slab.drop_same d checks debug h.slab]
  · unfold shrinkToFit onNodes Slab.shrinkToFit Slab.onItems
    rw [(Arena.shrinkToFit_same checks debug).eq h.slab.items]
  · obtain ⟨tb, hb⟩ := hb.shape
    exact eq_same _ _ h.slab hb.slab

/-- A release build and a debug build, inserting into and removing from the map with a free
slot. -/
example : (insert (Sample.cfg.build false false) (query (Sample.cmp 5)) 5 "E" Sample.eight).1 =
      .ok none ∧
    insert Sample.cfg (query (Sample.cmp 5)) 5 "E" Sample.eight =
      insert (Sample.cfg.build false false) (query (Sample.cmp 5)) 5 "E" Sample.eight ∧
    removeEntry Sample.cfg (query (Sample.cmp 6)) Sample.eight =
      removeEntry (Sample.cfg.build false false) (query (Sample.cmp 6)) Sample.eight :=
  ⟨by decide +kernel, (C39_builds Sample.eight_reach false false).2.2.1 _ _ _,
    (C39_builds Sample.eight_reach false false).2.2.2.1 _⟩

/-- C39. The constructors too: `with_capacity`, `from_iter`, and the macro. -/
theorem C39_constructors (checks debug : Bool) :
    let cfg' := cfg.build checks debug
    (∀ n, withCapacity (K := K) (V := V) cfg n = withCapacity cfg' n) ∧
    (∀ cmps (src : Source K V), fromIter cfg cmps src = fromIter cfg' cmps src) ∧
    (∀ cmps (l : List (K × V)), bstmap cfg cmps l = bstmap cfg' cmps l) :=
  ⟨fun n => (growTo_same n checks debug).eq sound_new,
    fun _ src => fromIter_same checks debug src,
    fun _ l => (insertAll_same checks debug l 0).eq sound_new⟩

/-- Nine entries collected, in both builds. -/
example : (fromIter (K := Nat) (V := Nat) (Sample.cfg.build false false)
      (fun _ k => query (compare k))
      ⟨(9, some 9), [5, 2, 8, 1, 9, 3, 7, 4, 6].map fun k => (k, k), false⟩).1 = .ok () ∧
    (fromIter (K := Nat) (V := Nat) Sample.cfg (fun _ k => query (compare k))
      ⟨(9, some 9), [5, 2, 8, 1, 9, 3, 7, 4, 6].map fun k => (k, k), false⟩) =
    (fromIter (Sample.cfg.build false false) (fun _ k => query (compare k))
      ⟨(9, some 9), [5, 2, 8, 1, 9, 3, 7, 4, 6].map fun k => (k, k), false⟩) :=
  ⟨by decide +kernel, (C39_constructors false false).2.1 _ _⟩

/-- C39. `reserve(n)` and `extend` (with `n` the hint of the iterator) are the same in all
builds, unless the addition of `n` to the largest `len()` since the last clear
overflows. -/
theorem C39_reserve {peak need : Nat} (hm : Track cfg ok m peak need) (checks debug : Bool) :
    let cfg' := cfg.build checks debug
    (∀ n, peak + n < 2 ^ 64 → reserve cfg n m = reserve cfg' n m) ∧
    (∀ cmps (src : Source K V), peak + src.hint.2.getD src.hint.1 < 2 ^ 64 →
      extend cfg cmps src m = extend cfg' cmps src m) := by
  obtain ⟨t, h, h1, _⟩ := track_spec hm
  exact ⟨fun n hn => reserve_same _ _ h.slab (by rw [h1]; exact hn),
    fun cmps src hn => extend_same _ _ src h.slab (by rw [h1]; exact hn)⟩

/-- The exception is real: with overflow checks `reserve(2^64 - 9)` on nine entries panics,
without it returns. -/
example : (reserve Sample.cfg (2 ^ 64 - 9) Sample.nine).1 = .panic ∧
    (reserve (Sample.cfg.build false true) (2 ^ 64 - 9) Sample.nine).1 = .ok () ∧
    (reserve Sample.cfg (2 ^ 64 - 9) Sample.nine).1 ≠
      (reserve (Sample.cfg.build false true) (2 ^ 64 - 9) Sample.nine).1 := by decide +kernel

end BST.Props
