import Verif.Model.BenchGen
import Verif.Proofs.BenchRuns
/-!
# Lemmas about the inputs of the programs of `benches/`
-/
set_option linter.unusedSimpArgs false
namespace BST.Bench
variable {K ρ α β : Type}
open Std

/-- The function does not panic; it returns something with `P`, or, if `D`, goes on for too long. -/
def Gives (D : Prop) (f : M ρ α) (P : α → Prop) : Prop :=
  ∀ s, (D ∧ (f s).1 = .diverge) ∨ ∃ a, (f s).1 = .ok a ∧ P a

namespace Gives
variable {D : Prop} {f : M ρ α} {P : α → Prop}

theorem pure {a : α} (h : P a) : Gives D (Pure.pure a : M ρ α) P := fun _ => .inr ⟨a, rfl, h⟩

theorem bind {g : α → M ρ β} {Q : β → Prop} (h : Gives D f P) (h' : ∀ a, P a → Gives D (g a) Q) :
    Gives D (f >>= g) Q := by
  intro s
  rcases hf : f s with ⟨o, s'⟩
  have hb : (f >>= g) s = M.bind f g s := rfl
  rcases h s with ⟨hd, h1⟩ | ⟨a, h1, h2⟩
  · rw [hf] at h1
    cases h1
    exact .inl ⟨hd, by rw [hb]; simp [M.bind, hf]⟩
  · rw [hf] at h1
    cases h1
    have : (f >>= g) s = g a s' := by rw [hb]; simp [M.bind, hf]
    rw [this]
    exact h' a h2 s'

theorem mono {Q : α → Prop} (h : Gives D f P) (h' : ∀ a, P a → Q a) : Gives D f Q :=
  fun s => (h s).imp id fun ⟨a, h1, h2⟩ => ⟨a, h1, h' a h2⟩

theorem imp {D' : Prop} (h : Gives D f P) (h' : D → D') : Gives D' f P :=
  fun s => (h s).imp (fun h => ⟨h' h.1, h.2⟩) id

theorem weaken (h : Gives False f P) : Gives D f P :=
  fun s => (h s).imp (fun h => h.1.elim) id

theorem goesOn (h : D) : Gives D (Bench.goesOn : M ρ α) P := fun _ => .inl ⟨h, rfl⟩

end Gives

variable {G : Rng K ρ} {D : Prop}

theorem range_gives {lo hi : Nat} (h : lo ≤ hi) :
    Gives D (G.range lo hi) (fun n => lo ≤ n ∧ n ≤ hi) := by
  intro s
  refine .inr ⟨lo + (G.next s).1 % (hi - lo + 1), by simp [Rng.range, h], by omega, ?_⟩
  have := Nat.mod_lt (G.next s).1 (show 0 < hi - lo + 1 by omega)
  omega

theorem mix_gives (l : List Int) : Gives D (G.mix l) (fun l' => l'.Perm l) :=
  fun s => .inr ⟨_, rfl, G.perm l s⟩

theorem aName_gives : Gives D G.aName (fun _ => True) := fun _ => .inr ⟨_, rfl, trivial⟩

theorem aStr_gives : Gives D G.aStr (fun _ => True) := fun _ => .inr ⟨_, rfl, trivial⟩

theorem choose_gives (l : List α) : Gives D (G.choose l) (fun o =>
    (l = [] ∧ o = none) ∨ ∃ a ∈ l, o = some a) := by
  unfold Rng.choose
  cases l with
  | nil => exact Gives.pure (.inl ⟨rfl, rfl⟩)
  | cons a l =>
    simp only [List.isEmpty_cons, Bool.false_eq_true, if_false]
    refine (range_gives (Nat.zero_le _)).bind fun i hi => Gives.pure (.inr ?_)
    have : i < (a :: l).length := by simp at hi ⊢; omega
    exact ⟨(a :: l)[i], List.getElem_mem this, List.getElem?_eq_getElem this⟩

theorem unwrap_gives {o : Option α} {a : α} (h : o = some a) :
    Gives D (unwrap o : M ρ α) (fun b => b = a) := by
  subst h; exact Gives.pure rfl

theorem times_gives {f : M ρ α} {P : α → Prop} (h : Gives D f P) (n : Nat) :
    Gives D (times f n) (fun l => l.length = n ∧ ∀ a ∈ l, P a) := by
  induction n with
  | zero => exact Gives.pure ⟨rfl, by simp⟩
  | succ n ih =>
    refine h.bind fun a ha => ih.bind fun l hl => Gives.pure ⟨by simp [hl.1], ?_⟩
    intro b hb
    rcases List.mem_cons.1 hb with rfl | hb
    · exact ha
    · exact hl.2 b hb

/-! ### `generate_two_sum_input` -/

theorem mixTimes_gives (n : Nat) (l : List Int) : Gives D (mixTimes G n l) (fun l' => l'.Perm l) := by
  induction n generalizing l with
  | zero => exact Gives.pure (.refl _)
  | succ n ih => exact (mix_gives l).bind fun l1 h1 => (ih l1).mono fun l2 h2 => h2.trans h1

theorem generateTwoSumInput_gives {len : Nat} (h : 2 ≤ len) :
    Gives False (generateTwoSumInput G len) (fun r => ∃ (target solution : Nat) (rest : List Nat),
      r.2 = target ∧ 32 ≤ target ∧ target ≤ 700 ∧ 1 ≤ solution ∧ solution ≤ target / 2 ∧
      rest.length = len - 2 ∧ (∀ n ∈ rest, target < n ∧ n ≤ target + len) ∧
      r.1.Perm (((target : Int) - solution) :: (solution : Int) :: rest.map fun n : Nat => (n : Int))) := by
  unfold generateTwoSumInput
  rw [if_neg (by omega)]
  refine (range_gives (by omega)).bind fun target ht => ?_
  refine (range_gives (by omega)).bind fun solution hs => ?_
  refine (times_gives (range_gives (by omega)) (len - 2)).bind fun rest hr => ?_
  rw [if_neg (by simp [hr.1]; omega)]
  refine (mixTimes_gives 5 _).bind fun l hl => Gives.pure ?_
  exact ⟨target, solution, rest, rfl, ht.1, ht.2, hs.1, hs.2, hr.1, fun n hn => hr.2 n hn, hl⟩

/-! ### `generate_requests` -/

def TenDigits (n : Nat) : Prop := 10 ^ 9 ≤ n ∧ n < 10 ^ 10

theorem generateEntry_gives : Gives D (generateEntry G) (fun e => TenDigits e.phoneNumber) :=
  aStr_gives.bind fun _ _ => (range_gives (by decide)).bind fun _ h => aStr_gives.bind fun _ _ =>
    Gives.pure (by simp only [TenDigits]; omega)

theorem generateField_gives : Gives D (generateField G) (fun _ => True) := by
  refine (range_gives (by decide)).bind fun x hx => ?_
  split
  · exact Gives.pure trivial
  split
  · exact Gives.pure trivial
  rw [if_pos (by omega)]
  exact Gives.pure trivial

theorem generateValue_gives : Gives D (generateValue G)
    (fun v => ∀ n, v = .phoneNumber n → TenDigits n) := by
  refine (range_gives (by decide)).bind fun x hx => ?_
  split
  · exact aStr_gives.bind fun _ _ => Gives.pure (by simp)
  split
  · refine (range_gives (by decide)).bind fun _ h => Gives.pure ?_
    rintro n ⟨⟩
    simp only [TenDigits]
    omega
  rw [if_pos (by omega)]
  exact aStr_gives.bind fun _ _ => Gives.pure (by simp)

/-- The ids in `existing` are those of the entries, and are below `i`. -/
structure Exist (data : Nat → Option Entry) (existing : List Nat) (i : Nat) : Prop where
  nodup : existing.Nodup
  mem : ∀ id, id ∈ existing ↔ (data id).isSome
  lt : ∀ id ∈ existing, id < i

/-- All requests succeed, and have phone numbers of ten digits. -/
def AllOk (data : Nat → Option Entry) (reqs : List Request) : Prop :=
  (∀ r ∈ (serve data reqs).1, ∃ x, r = .ok x) ∧ ∀ r ∈ reqs, ∀ n, r.phone = some n → TenDigits n

theorem AllOk.nil (data : Nat → Option Entry) : AllOk data [] :=
  ⟨by simp [serve], by simp⟩

theorem AllOk.cons {data : Nat → Option Entry} {req : Request} {reqs : List Request} {x : Response}
    (h : (respond data req).1 = .ok x) (hp : ∀ n, req.phone = some n → TenDigits n)
    (h' : AllOk (respond data req).2 reqs) : AllOk data (req :: reqs) := by
  refine ⟨fun r hr => ?_, fun r hr => ?_⟩
  · simp only [serve] at hr
    rcases List.mem_cons.1 hr with rfl | hr
    · exact ⟨x, h⟩
    · exact h'.1 r hr
  · rcases List.mem_cons.1 hr with rfl | hr
    · exact hp
    · exact h'.2 r hr

theorem generateFrom_gives (reqs fuel i : Nat) (existing : List Nat) (data : Nat → Option Entry)
    (h : Exist data existing i) (hi : i ≤ reqs) :
    Gives True (generateFrom G reqs fuel i existing) (fun l => l.length = reqs - i ∧ AllOk data l) := by
  induction fuel generalizing i existing data with
  | zero =>
    unfold generateFrom
    split
    · exact Gives.pure ⟨by simp; omega, .nil _⟩
    · exact Gives.goesOn trivial
  | succ fuel ih =>
    unfold generateFrom
    split
    · exact Gives.pure ⟨by simp; omega, .nil _⟩
    rename_i hlt
    refine (range_gives (by decide)).bind fun x hx => ?_
    have hfresh : data i = none := by
      cases hd : data i with
      | none => rfl
      | some e => exact absurd (h.lt i ((h.mem i).2 (by simp [hd]))) (Nat.lt_irrefl _)
    split
    · refine generateEntry_gives.bind fun e hten => ?_
      refine (ih (i + 1) (existing ++ [i]) (respond data (.create i e)).2 ?_ (by omega)).bind
        fun l hl => Gives.pure ⟨by simp [hl.1]; omega, .cons (x := .created i) (by simp [respond, hfresh])
          (by rintro n ⟨⟩; exact hten) hl.2⟩
      refine ⟨?_, fun id => ?_, fun id hid => ?_⟩
      · rw [List.nodup_append]
        refine ⟨h.nodup, by simp, fun a ha b hb => ?_⟩
        have := h.lt a ha
        simp at hb
        omega
      · simp only [respond, hfresh, List.mem_append, List.mem_singleton]
        by_cases hid : id = i
        · simp [hid]
        · simp [hid, h.mem]
      · simp only [List.mem_append, List.mem_singleton] at hid
        rcases hid with hid | hid
        · exact Nat.lt_succ_of_lt (h.lt id hid)
        · omega
    split
    · refine (choose_gives existing).bind fun o ho => ?_
      rcases ho with ⟨_, rfl⟩ | ⟨id, hid, rfl⟩
      · exact ih i existing data h hi
      · obtain ⟨e, he⟩ := Option.isSome_iff_exists.1 ((h.mem id).1 hid)
        refine generateField_gives.bind fun f _ => ?_
        have hr : (respond data (.get id f)).2 = data := by simp only [respond, he]
        refine (ih (i + 1) existing data ⟨h.nodup, h.mem, fun id hid => Nat.lt_succ_of_lt (h.lt id hid)⟩
          (by omega)).bind fun l hl => Gives.pure ⟨by simp [hl.1]; omega, ?_⟩
        exact .cons (by simp only [respond, he]; rfl) (by simp [Request.phone]) (by rw [hr]; exact hl.2)
    split
    · refine (choose_gives existing).bind fun o ho => ?_
      rcases ho with ⟨_, rfl⟩ | ⟨id, hid, rfl⟩
      · exact ih i existing data h hi
      · obtain ⟨e, he⟩ := Option.isSome_iff_exists.1 ((h.mem id).1 hid)
        refine generateValue_gives.bind fun f hten => ?_
        refine (ih (i + 1) existing (respond data (.update id f)).2
          ⟨h.nodup, fun id' => ?_, fun id hid => Nat.lt_succ_of_lt (h.lt id hid)⟩
          (by omega)).bind fun l hl => Gives.pure ⟨by simp [hl.1]; omega, ?_⟩
        · simp only [respond, he]
          by_cases hid' : id' = id
          · subst hid'; simpa using hid
          · simp [hid', h.mem]
        · exact .cons (x := .field id f) (by simp only [respond, he])
            (fun n hn => hten n (by cases f <;> simp_all [Request.phone])) hl.2
    rw [if_pos (by omega)]
    refine (choose_gives existing).bind fun o ho => ?_
    rcases ho with ⟨_, rfl⟩ | ⟨id, hid, rfl⟩
    · exact ih i existing data h hi
    · obtain ⟨e, he⟩ := Option.isSome_iff_exists.1 ((h.mem id).1 hid)
      have hidx : existing.findIdx? (· == id) = some (existing.idxOf id) := by
        rw [List.findIdx?_eq_some_iff_findIdx_eq]
        exact ⟨List.idxOf_lt_length_of_mem hid, rfl⟩
      refine (unwrap_gives hidx).bind fun n hn => ?_
      subst hn
      rw [← List.erase_eq_eraseIdx_of_idxOf rfl]
      refine (ih (i + 1) (existing.erase id) (respond data (.delete id)).2
        ⟨h.nodup.erase _, fun id' => ?_, fun id' hid' => Nat.lt_succ_of_lt (h.lt id' (List.mem_of_mem_erase hid'))⟩
        (by omega)).bind fun l hl => Gives.pure ⟨by simp [hl.1]; omega, ?_⟩
      · rw [h.nodup.mem_erase_iff]
        simp only [respond, he]
        by_cases hid' : id' = id
        · simp [hid']
        · simp [hid', h.mem]
      · exact .cons (x := .deleted id e) (by simp only [respond, he]) (by simp [Request.phone]) hl.2

/-! ### `generate_program` -/

theorem size_append (a b : List (Stmt K)) : size (a ++ b) = size a + size b := by
  induction a with
  | nil => simp [size]
  | cons x a ih => simp only [List.cons_append, size, ih]; omega

theorem depth_append (a b : List (Stmt K)) : depth (a ++ b) = max (depth a) (depth b) := by
  induction a with
  | nil => simp [depth]
  | cons x a ih => simp only [List.cons_append, depth, ih]; omega

/-- What the functions that make statements do: `remaining` is what is left of the statements. -/
def Made (d r : Nat) (x : List (Stmt K) × Nat) : Prop := size x.1 + x.2 = r ∧ depth x.1 ≤ d

theorem size_pos {l : List (Stmt K)} (h : l ≠ []) : 0 < size l := by
  cases l with
  | nil => exact absurd rfl h
  | cons x l => cases x <;> simp only [size, Stmt.size] <;> omega

theorem generateStmts_gives {names : List (List K)} {level d : Nat}
    {inner : Option (Nat → M ρ (List (Stmt K) × Nat))}
    (hl : level < names.length) (hn : ∀ l ∈ names, l ≠ [])
    (hinner : ∀ f, inner = some f → ∃ d', d = d' + 1 ∧ ∀ r, Gives D (f r) (Made d' r)) (n r : Nat) :
    Gives D (generateStmts G names level inner n r) (fun x => Made d r x ∧
      (inner.isSome → 0 < n → 0 < r → x.1 ≠ [])) := by
  induction n generalizing r with
  | zero => exact Gives.pure ⟨⟨by simp [size], by simp [depth]⟩, fun _ h => absurd h (by omega)⟩
  | succ n ih =>
    unfold generateStmts
    split
    · exact Gives.pure ⟨⟨by simp [size], by simp [depth]⟩, fun _ _ h => absurd h (by omega)⟩
    refine (range_gives (by decide)).bind fun x hx => ?_
    have hidx : names[level]? = some names[level] := List.getElem?_eq_getElem hl
    split
    · refine (unwrap_gives hidx).bind fun here hh => ?_
      refine (choose_gives here).bind fun o ho => ?_
      rcases ho with ⟨he, _⟩ | ⟨name, _, rfl⟩
      · exact absurd (hh ▸ he) (hn _ (List.getElem_mem hl))
      refine (unwrap_gives rfl).bind fun _ _ => (range_gives (by decide)).bind fun _ _ => ?_
      refine (ih (r - 1)).bind fun y hy => Gives.pure ⟨⟨?_, ?_⟩, by simp⟩
      · have := hy.1.1; simp only [size, Stmt.size]; omega
      · have := hy.1.2; simp only [depth, Stmt.depth]; omega
    split
    · refine (unwrap_gives hidx).bind fun _ _ => ?_
      refine (choose_gives _).bind fun o ho => ?_
      rcases ho with ⟨he, _⟩ | ⟨l, hl', rfl⟩
      · have := congrArg List.length he
        rw [List.length_take, List.length_nil] at this
        omega
      refine (unwrap_gives rfl).bind fun l' hl'' => ?_
      subst hl''
      refine (choose_gives l').bind fun o ho => ?_
      rcases ho with ⟨he, _⟩ | ⟨name, _, rfl⟩
      · exact absurd he (hn _ (List.mem_of_mem_take hl'))
      refine (unwrap_gives rfl).bind fun _ _ => (range_gives (by decide)).bind fun _ _ => ?_
      refine (ih (r - 1)).bind fun y hy => Gives.pure ⟨⟨?_, ?_⟩, by simp⟩
      · have := hy.1.1; simp only [size, Stmt.size]; omega
      · have := hy.1.2; simp only [depth, Stmt.depth]; omega
    rw [if_pos (by omega)]
    cases inner with
    | none => exact (ih r).mono fun x hx => ⟨hx.1, by simp⟩
    | some f =>
      obtain ⟨d', rfl, hf⟩ := hinner f rfl
      refine (hf (r - 1)).bind fun b hb => (ih b.2).bind fun y hy =>
        Gives.pure ⟨⟨?_, ?_⟩, by simp⟩
      · have := hy.1.1; have := hb.1; simp only [size, Stmt.size]; omega
      · have := hy.1.2; have := hb.2; simp only [depth, Stmt.depth]; omega

theorem generateCount_gives (r : Nat) : Gives D (generateCount G r) (fun n => 0 < r → 0 < n) := by
  unfold generateCount
  simp only
  split
  · exact (range_gives (by assumption)).mono fun _ _ => by omega
  · exact Gives.pure (by omega)

theorem generateBlock_gives {names : List (List K)} (hn : ∀ l ∈ names, l ≠ []) (d level r : Nat)
    (hl : level + d < names.length) : Gives D (generateBlock G names d level r)
      (fun x => Made d r x ∧ (0 < d → 0 < r → x.1 ≠ [])) := by
  induction d generalizing level r with
  | zero =>
    exact (generateCount_gives r).bind fun n _ =>
      (generateStmts_gives (by omega) hn (by simp) n r).mono fun x hx => ⟨hx.1, by simp⟩
  | succ d ih =>
    refine (generateCount_gives r).bind fun n hn' => (generateStmts_gives (d := d + 1) (by omega) hn ?_ n r).mono
      fun x hx => ⟨hx.1, fun _ hr => hx.2 rfl (hn' hr) hr⟩
    rintro f ⟨⟩
    exact ⟨d, rfl, fun r => (ih (level + 1) r (by omega)).mono fun x hx => hx.1⟩

theorem generateBlocks_gives {names : List (List K)} (hn : ∀ l ∈ names, l ≠ []) {d : Nat}
    (hl : d < names.length) (fuel r : Nat) :
    Gives (d = 0 ∨ fuel < r) (generateBlocks G names d fuel r) (fun l => size l = r ∧ depth l ≤ d) := by
  induction fuel generalizing r with
  | zero =>
    unfold generateBlocks
    split
    · exact Gives.pure ⟨by simp [size, *], by simp [depth]⟩
    · exact Gives.goesOn (by omega)
  | succ fuel ih =>
    unfold generateBlocks
    split
    · exact Gives.pure ⟨by simp [size, *], by simp [depth]⟩
    rename_i hr
    refine (generateBlock_gives hn d 0 r (by omega)).bind fun b hb =>
      Gives.bind (P := fun l => size l = b.2 ∧ depth l ≤ d) ?_ fun l hl => Gives.pure ⟨?_, ?_⟩
    · refine (ih b.2).imp ?_
      rintro (h | h)
      · exact .inl h
      · by_cases hd : d = 0
        · exact .inl hd
        · have := size_pos (hb.2 (by omega) (by omega))
          have := hb.1.1
          exact .inr (by omega)
    · rw [size_append, hl.1]; exact hb.1.1
    · rw [depth_append]; have := hb.1.2; have := hl.2; omega

theorem generateProgram_gives (maxStmts maxDepth fuel : Nat) :
    Gives (maxDepth = 0 ∨ fuel < maxStmts) (generateProgram G maxStmts maxDepth fuel)
      (fun l => size l = maxStmts ∧ depth l ≤ maxDepth) := by
  refine (times_gives (times_gives aName_gives 5) (maxDepth + 1)).bind fun names hn => ?_
  refine generateBlocks_gives (fun l hl => ?_) (by omega) fuel maxStmts
  intro h
  have := (hn.2 l hl).1
  simp [h] at this

/-! ### `generate_requests` of benches/movie_requests.rs -/

theorem alphanumeric_isAlphanum {c : Char} (h : c ∈ alphanumeric) : c.isAlphanum = true := by
  have : ∀ c ∈ alphanumeric, c.isAlphanum = true := by decide +kernel
  exact this c h

theorem chosen_gives {l : List α} (h : l ≠ []) :
    Gives D (do unwrap (← G.choose l) : M ρ α) (fun a => a ∈ l) :=
  (choose_gives l).bind fun o ho => by
    rcases ho with ⟨h', _⟩ | ⟨a, ha, rfl⟩
    · exact (h h').elim
    · exact (unwrap_gives rfl).mono fun _ e => e ▸ ha

theorem generateTitles_gives (len : Nat) : Gives D (generateTitles G len) (fun l => l.length = len ∧
    ∀ name ∈ l, name.length = 8 ∧ ∀ c ∈ name.toList, c.isAlphanum = true) := by
  refine times_gives ((times_gives (chosen_gives (by decide +kernel)) 8).bind fun cs h => Gives.pure ?_) len
  exact ⟨by simpa using h.1, fun c hc => alphanumeric_isAlphanum (h.2 c (by simpa using hc))⟩

theorem generateMovieRequests_gives (n : Nat) : Gives D (generateMovieRequests G n) (fun l =>
    l.length = n ∧ ∃ titles genres : List String, titles.length = 25 ∧ genres.length = 8 ∧
      (∀ name ∈ titles ++ genres, name.length = 8 ∧ ∀ c ∈ name.toList, c.isAlphanum = true) ∧
      ∀ r ∈ l, r.1 ∈ titles ∧ r.2 ∈ genres) := by
  refine (generateTitles_gives 25).bind fun titles ht => (generateTitles_gives 8).bind fun genres hg => ?_
  have h1 : titles ≠ [] := by rintro rfl; simp at ht
  have h2 : genres ≠ [] := by rintro rfl; simp at hg
  have h3 : Gives D (do
      let title ← unwrap (← G.choose titles)
      let genre ← unwrap (← G.choose genres)
      pure (title, genre)) (fun r => r.1 ∈ titles ∧ r.2 ∈ genres) := by
    refine (choose_gives titles).bind fun o ho => ?_
    rcases ho with ⟨h', _⟩ | ⟨a, ha, rfl⟩
    · exact (h1 h').elim
    refine (unwrap_gives rfl).bind fun a' e => ?_
    subst e
    refine (choose_gives genres).bind fun o ho => ?_
    rcases ho with ⟨h', _⟩ | ⟨b, hb, rfl⟩
    · exact (h2 h').elim
    refine (unwrap_gives rfl).bind fun b' e => ?_
    subst e
    exact Gives.pure ⟨ha, hb⟩
  refine (times_gives h3 n).mono fun l hl => ⟨hl.1, titles, genres, ht.1, hg.1, ?_, hl.2⟩
  intro name h
  rcases List.mem_append.1 h with h | h
  · exact ht.2 name h
  · exact hg.2 name h

theorem sum_count {α : Type} [DecidableEq α] (ks l : List α) (hn : ks.Nodup) (h : ∀ a ∈ l, a ∈ ks) :
    (ks.map fun k => l.count k).sum = l.length := by
  induction l with
  | nil =>
    simp only [List.count_nil, List.length_nil]
    clear h hn
    induction ks with
    | nil => rfl
    | cons k ks ih => simpa using ih
  | cons a l ih =>
    have ih := ih fun b hb => h b (List.mem_cons_of_mem _ hb)
    have ha := h a List.mem_cons_self
    rw [List.length_cons, ← ih]
    clear ih h
    have key : ∀ ks : List α, (ks.map fun k => (a :: l).count k).sum =
        (ks.map fun k => l.count k).sum + ks.count a := by
      intro ks
      induction ks with
      | nil => rfl
      | cons k ks ih =>
        rw [List.map_cons, List.sum_cons, ih, List.map_cons, List.sum_cons, List.count_cons,
          List.count_cons]
        have : (k == a) = (a == k) := Bool.beq_comm
        rw [this]
        omega
    rw [key, hn.count, if_pos ha]

/-- The counters are as many as there are names, and add up to the number of what was counted. -/
theorem Counts.total {cmp : α → α → Ordering} [TransCmp cmp] [LawfulEqCmp cmp] [DecidableEq α]
    {l : List (α × Nat)} {names all : List α} (hc : Counts cmp l (fun k => all.count k))
    (h : ∀ a ∈ all, a ∈ names) : l.length ≤ names.length ∧ (l.map (·.2)).sum = all.length := by
  obtain ⟨hs, hv⟩ := hc
  have hmem : ∀ k n, (k, n) ∈ l ↔ 0 < n ∧ all.count k = n := by
    intro k n
    rw [Listed.mem_iff hs, hv]
    dsimp only
    split
    · constructor
      · intro h; cases h
      · intro h; omega
    · rw [Option.some.injEq]; constructor
      · intro h; exact ⟨by omega, h⟩
      · exact fun h => h.2
  have hn : (l.map (·.1)).Nodup := by
    rw [List.Nodup, List.pairwise_map]
    refine List.Pairwise.imp ?_ hs
    intro x y h1 h2
    rw [h2, ReflCmp.compare_self (cmp := cmp)] at h1
    cases h1
  constructor
  · rw [← List.length_map (f := (·.1)) (as := l)]
    refine hn.length_le_of_subset fun k hk => h k ?_
    obtain ⟨⟨k', n⟩, hm, rfl⟩ := List.mem_map.1 hk
    have := (hmem k' n).1 hm
    dsimp only
    exact List.count_pos_iff.1 (by omega)
  · rw [← sum_count (l.map (·.1)) all hn fun a ha =>
      List.mem_map.2 ⟨(a, all.count a), (hmem a _).2 ⟨List.count_pos_iff.2 ha, rfl⟩, rfl⟩, List.map_map]
    congr 1
    refine List.map_congr_left fun e he => ?_
    exact ((hmem e.1 e.2).1 he).2.symm

/-! ### Exactly one pair -/

theorem three_le_countP {p : Int → Bool} {l : List Int} {i j k : Nat} {a b c : Int} (hij : i < j)
    (hjk : j < k) (ha : l[i]? = some a) (hb : l[j]? = some b) (hc : l[k]? = some c) (pa : p a = true)
    (pb : p b = true) (pc : p c = true) : 3 ≤ l.countP p := by
  have hj := (List.getElem?_eq_some_iff.1 hb).1
  have h1 : l.countP p = (l.take j).countP p + (l.drop j).countP p := by
    rw [← List.countP_append, List.take_append_drop]
  have h2 : 0 < (l.take j).countP p :=
    List.countP_pos_iff.2 ⟨a, List.mem_of_getElem? (i := i) (by rw [List.getElem?_take_of_lt hij, ha]), pa⟩
  have h3 : l.drop j = b :: l.drop (j + 1) := by
    rw [List.drop_eq_getElem_cons hj]
    congr 1
    rw [List.getElem?_eq_getElem hj] at hb
    exact Option.some.inj hb
  have h4 : 0 < (l.drop (j + 1)).countP p :=
    List.countP_pos_iff.2 ⟨c, List.mem_of_getElem? (i := k - (j + 1)) (by
      rw [List.getElem?_drop, show j + 1 + (k - (j + 1)) = k by omega, hc]), pc⟩
  rw [h3, List.countP_cons_of_pos pb] at h1
  omega

/-- If only two of the numbers are at most the target and all are positive, there is at most one
pair. -/
theorem pair_unique {l : List Int} {target : Int} (hpos : ∀ a ∈ l, 0 < a)
    (h2 : l.countP (fun a => decide (a ≤ target)) ≤ 2) {i j i' j' : Nat} (h : Pair l target i j)
    (h' : Pair l target i' j') : i' = i ∧ j' = j := by
  obtain ⟨h3, a, b, ha, hb, hab⟩ := h
  obtain ⟨h4, a', b', ha', hb', hab'⟩ := h'
  have p1 := hpos a (List.mem_of_getElem? ha)
  have p2 := hpos b (List.mem_of_getElem? hb)
  have p3 := hpos a' (List.mem_of_getElem? ha')
  have p4 := hpos b' (List.mem_of_getElem? hb')
  have q1 : decide (a ≤ target) = true := by simp; omega
  have q2 : decide (b ≤ target) = true := by simp; omega
  have q3 : decide (a' ≤ target) = true := by simp; omega
  have q4 : decide (b' ≤ target) = true := by simp; omega
  have key : ∀ {x y z : Nat} {u v w : Int}, x < y → y < z → l[x]? = some u → l[y]? = some v →
      l[z]? = some w → decide (u ≤ target) = true → decide (v ≤ target) = true →
      decide (w ≤ target) = true → False := by
    intro x y z u v w hxy hyz hx hy hz hu hv hw
    have := three_le_countP (p := fun a => decide (a ≤ target)) hxy hyz hx hy hz hu hv hw
    omega
  have hi : i' = i := by
    rcases Nat.lt_trichotomy i' i with h | h | h
    · exact (key h4 h hb' ha' ha q4 q3 q1).elim
    · exact h
    · exact (key h3 h hb ha ha' q2 q1 q3).elim
  subst hi
  refine ⟨rfl, ?_⟩
  rcases Nat.lt_trichotomy j' j with h | h | h
  · exact (key h h3 hb' hb ha q4 q2 q1).elim
  · exact h
  · exact (key h h4 hb hb' ha' q2 q4 q3).elim

theorem pair_exists {l rest : List Int} {x y target : Int} (hl : l.Perm (x :: y :: rest))
    (hxy : x + y = target) : ∃ i j, Pair l target i j := by
  have hx : x ∈ l := hl.symm.subset (by simp)
  obtain ⟨A, B, rfl⟩ := List.append_of_mem hx
  have h1 : (A ++ B).Perm (y :: rest) := (List.perm_middle.symm.trans hl).cons_inv
  have hy : y ∈ A ++ B := h1.symm.subset (by simp)
  have hxA : (A ++ x :: B)[A.length]? = some x := by simp
  rcases List.mem_append.1 hy with hy | hy
  · obtain ⟨k, hk⟩ := List.getElem?_of_mem hy
    have hlt := (List.getElem?_eq_some_iff.1 hk).1
    exact ⟨A.length, k, hlt, x, y, hxA, by rw [List.getElem?_append_left hlt, hk], hxy⟩
  · obtain ⟨k, hk⟩ := List.getElem?_of_mem hy
    refine ⟨A.length + 1 + k, A.length, by omega, y, x, ?_, hxA, by omega⟩
    rw [List.getElem?_append_right (by omega), show A.length + 1 + k - A.length = k + 1 by omega]
    simpa using hk

/-! ### The benchmark of `remove` -/

open Prog (Does)

theorem removeIterations_does {keys : List Int} (hk : keys.Nodup) {n : Nat} (hn : n ≤ keys.length)
    (iters : Nat) (keq : Int → Int → Bool) (veq : Nat → Nat → Bool) :
    ∃ ls, Does (Listed.maps compare keq veq) (removeIterations keys n iters) [] n
      (.ok ((List.range iters).map fun t => (List.range n).map fun i =>
        (if t = 0 then some (n - i - 1) else none, none))) ls ∧
      (iters ≠ 0 → ls = [[]]) ∧ (iters = 0 → Holds keys n ls) := by
  obtain ⟨ls1, a1, a2⟩ := inserts_does hk hn keq veq
  obtain ⟨ls2, b1, b2⟩ := each_does (A := Listed.maps compare keq veq)
    (f := fun _ => removes keys 0 n)
    (g := fun t => (List.range n).map fun i => (if t = 0 then some (n - i - 1) else none, none)) (d := 0)
    (Inv := fun t ls => (t ≠ 0 → ls = [[]]) ∧ (t = 0 → Holds keys n ls)) iters 0
    (by
      rintro t ls _ ⟨h1, h2⟩
      refine ⟨[[]], ?_, fun _ => rfl, fun h => by cases h⟩
      by_cases ht : t = 0
      · have := removes_does hk hn keq veq (h2 ht)
        simpa [ht] using this
      · have := removes_nothing hn keq veq
        rw [h1 ht]
        simpa [ht] using this)
    (ls := ls1) ⟨fun h => absurd rfl h, fun _ => a2⟩
  rw [← List.range_eq_range'] at b1
  rw [Nat.zero_add] at b2
  refine ⟨ls2, ?_, b2⟩
  have := (Does.make (A := Listed.maps compare keq veq) []).bind (f := fun map => do
      let _ ← inserts keys map n
      each (fun _ => removes keys map n) (List.range iters))
    (a1.bind (f := fun _ => each (fun _ => removes keys 0 n) (List.range iters)) b1)
  exact this.mono (by omega)

theorem serve_length (data : Nat → Option Entry) (reqs : List Request) :
    (serve data reqs).1.length = reqs.length := by
  induction reqs generalizing data with
  | nil => rfl
  | cons r reqs ih => simp [serve, ih]

end BST.Bench
