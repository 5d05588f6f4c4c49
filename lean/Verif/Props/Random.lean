import Verif.Model.RandomState
import Mathlib.Tactic.Linarith
import Mathlib.Tactic.Positivity
import Mathlib.Tactic.FieldSimp
import Mathlib.Tactic.NormNum
import Mathlib.Tactic.Ring

/-!
# C45 and C46: random numbers
-/

namespace Verif.Rng

open Outcome

/-! ## C45 -/

theorem generateInt32_zero (r : ℕ) {min : ℤ} (h : IsInt min) : generateInt32 r min 0 = ok min := by
  simp [generateInt32, generateInt, asInt, h]

theorem generateInt32_pos (r : ℕ) (min : ℤ) {range : ℤ} (h : 0 < range) :
    generateInt32 r min range = asInt (Int.tmod r range + min) := by
  have hne : range ≠ 0 := by omega
  have h0 : 0 ≤ range := by omega
  simp [generateInt32, generateInt, hne, h0]

/-- **C45**: `generateInt(min, range)` lies in `[min, min + range)`, for every value of `rand()`, as long as the interval lies in
the range of `int`. -/
theorem generateInt_range (r : ℕ) {min range : ℤ} (h0 : 0 ≤ range) (hmin : -2 ^ 31 ≤ min) (hmax : min + range ≤ 2 ^ 31)
    (h1 : min < 2 ^ 31) :
    ∃ v, generateInt32 r min range = ok v ∧ min ≤ v ∧ (0 < range → v < min + range) ∧ (range = 0 → v = min) := by
  rcases eq_or_lt_of_le h0 with rfl | hpos
  · refine ⟨min, ?_, le_refl _, fun h => absurd h (lt_irrefl _), fun _ => rfl⟩
    exact generateInt32_zero r ⟨hmin, h1⟩
  · have hne : range ≠ 0 := by omega
    have e : Int.tmod r range = (r : ℤ) % range := Int.tmod_eq_emod_of_nonneg (by positivity)
    have l := Int.emod_nonneg (r : ℤ) hne
    have u := Int.emod_lt_of_pos (r : ℤ) hpos
    refine ⟨(r : ℤ) % range + min, ?_, by omega, fun _ => by omega, fun h => absurd h hne⟩
    have hi : IsInt ((r : ℤ) % range + min) := ⟨by omega, by omega⟩
    rw [generateInt32_pos r min hpos, e, asInt, if_pos hi]

example : (0 : ℤ) ≤ 6 ∧ (-2 ^ 31 : ℤ) ≤ 1 ∧ (1 + 6 : ℤ) ≤ 2 ^ 31 ∧ (1 : ℤ) < 2 ^ 31 := by decide

/-- Every value of the interval is possible. -/
theorem generateInt_onto {min range v : ℤ} (h : min ≤ v ∧ v < min + range) (hmin : -2 ^ 31 ≤ min)
    (hmax : min + range ≤ 2 ^ 31) : generateInt32 (v - min).toNat min range = ok v := by
  have e : Int.tmod ((v - min).toNat : ℤ) range = v - min := by
    rw [Int.toNat_of_nonneg (by omega), Int.tmod_eq_of_lt (by omega) (by omega)]
  have hi : IsInt v := ⟨by omega, by omega⟩
  rw [generateInt32_pos _ _ (by omega), e, asInt, Int.sub_add_cancel, if_pos hi]

/-- **C45 is false** for intervals that do not fit into `int`: some values of `rand()` overflow. -/
theorem generateInt_overflow_ub {min range : ℤ} (h1 : IsInt min) (hr : 0 < range) (h : 2 ^ 31 < min + range) :
    ∃ r : ℕ, (r : ℤ) < range ∧ generateInt32 r min range = ub := by
  obtain ⟨h1, h2⟩ := h1
  refine ⟨(range - 1).toNat, by omega, ?_⟩
  have e : Int.tmod ((range - 1).toNat : ℤ) range = range - 1 := by
    rw [Int.toNat_of_nonneg (by omega), Int.tmod_eq_of_lt (by omega) (by omega)]
  have hi : ¬ IsInt (range - 1 + min) := fun hh => by have := hh.2; omega
  rw [generateInt32_pos _ _ hr, e, asInt, if_neg hi]

/-- **C45**: a random index of a container with less than 2^31 elements is an index of it. -/
theorem generateIndex_range (r : ℕ) {size : ℕ} (h0 : 0 < size) (h : size < 2 ^ 31) :
    ∃ v : ℕ, generateIndex32 r size = ok (v : ℤ) ∧ v < size := by
  have e : toInt size = size := by
    unfold toInt
    have : size % 2 ^ 32 = size := Nat.mod_eq_of_lt (by omega)
    rw [this, if_pos h]
  obtain ⟨v, hv, l, u, _⟩ := generateInt_range r (min := 0) (range := size) (by omega) (by norm_num) (by omega) (by norm_num)
  have := u (by omega)
  refine ⟨v.toNat, ?_, by omega⟩
  rw [generateIndex32, e, hv, Int.toNat_of_nonneg l]

/-- **C45 is false** for larger containers: the size is converted to `int`. -/
theorem generateIndex_large_fails (r : ℕ) : generateIndex32 r (2 ^ 31) = checkFailed := by
  have e : toInt (2 ^ 31) = -2 ^ 31 := by decide
  rw [generateIndex32, e]
  rfl

/-- **C45**: `generate(min, range)` lies in `[min, min + range]`. -/
theorem generate_range {K : Type} [Field K] [LinearOrder K] [IsStrictOrderedRing K] {randMax r : ℕ} (hM : 0 < randMax)
    (hr : r ≤ randMax) (min : K) {range : K} (h0 : 0 ≤ range) :
    ∃ v, generate randMax r min range = ok v ∧ min ≤ v ∧ v ≤ min + range ∧ (range = 0 → v = min) := by
  by_cases hz : range = 0
  · refine ⟨min, by simp [generate, hz], le_refl _, by simp [hz], fun _ => rfl⟩
  · have hM' : (0 : K) < randMax := by exact_mod_cast hM
    have q0 : (0 : K) ≤ (r : K) / randMax := by positivity
    have q1 : (r : K) / randMax ≤ 1 := by
      rw [div_le_one hM']
      exact_mod_cast hr
    refine ⟨_, by simp [generate, hz, h0]; rfl, ?_, ?_, fun h => absurd h hz⟩
    · have := mul_nonneg q0 h0
      linarith
    · have := mul_le_mul_of_nonneg_right q1 h0
      linarith

/-- The upper end of the interval is reached (the documentation excludes it), exactly for `rand() = RAND_MAX`. -/
theorem generate_upper {K : Type} [Field K] [LinearOrder K] [IsStrictOrderedRing K] {randMax r : ℕ} (hM : 0 < randMax)
    (min : K) {range : K} (h0 : 0 < range) :
    generate randMax r min range = ok (min + range) ↔ r = randMax := by
  have hM' : (0 : K) < randMax := by exact_mod_cast hM
  have hz : range ≠ 0 := ne_of_gt h0
  have e : generate randMax r min range = ok ((r : K) / randMax * range + min) := by simp [generate, hz, le_of_lt h0]
  rw [e, Outcome.ok.injEq]
  constructor
  · intro h
    have h1 : (r : K) / randMax * range = 1 * range := by linarith
    have h2 := mul_right_cancel₀ hz h1
    rw [div_eq_one_iff_eq (ne_of_gt hM')] at h2
    exact_mod_cast h2
  · rintro rfl
    rw [div_self (ne_of_gt hM')]
    ring

/-- **C45**: random indices are a permutation of `0, …, n - 1`, whatever permutation `std::shuffle` chooses. -/
theorem generateIndices_perm {σ : List ℤ → List ℤ} (hσ : ∀ l, (σ l).Perm l) (n : ℕ) :
    ∃ l, generateIndices σ n [] false = ok l ∧ l.Perm ((List.range n).map fun i : ℕ => (i : ℤ)) := by
  refine ⟨σ ((List.range n).map fun i : ℕ => (i : ℤ)), ?_, hσ _⟩
  simp [generateIndices]

/-- Shuffling again keeps the permutation. -/
theorem generateIndices_again {σ : List ℤ → List ℤ} (hσ : ∀ l, (σ l).Perm l) (n : ℕ) {l : List ℤ}
    (h : l.Perm ((List.range n).map fun i : ℕ => (i : ℤ))) :
    ∃ l', generateIndices σ n l true = ok l' ∧ l'.Perm ((List.range n).map fun i : ℕ => (i : ℤ)) := by
  refine ⟨σ l, ?_, (hσ l).trans h⟩
  have hl : l.length = n := by simpa using h.length_eq
  simp [generateIndices, hl]

example : ∃ σ : List ℤ → List ℤ, (∀ l, (σ l).Perm l) ∧ σ [1, 2] = [2, 1] := ⟨List.reverse, fun l => l.reverse_perm, rfl⟩

/-! ## C46 -/

/-- Calls whose random numbers come from `rand()` or from the object `g`, after `g` was seeded. -/
def Covered (g : ℕ) : Call → Prop
  | .construct => True
  | .seed h _ => h = g
  | .int _ _ _ => True
  | .real _ _ _ => True
  | .indices h _ => h = g
  | .viewShuffle _ => False

/-- Two processes that were seeded with the same number. -/
structure Same (g : ℕ) (a b : State) : Prop where
  crand : a.crand = b.crand
  ia : a.seedInitialized = true
  ib : b.seedInitialized = true
  obj : a.objects[g]? = b.objects[g]?
  ga : g < a.objects.length

theorem call_same {L : Library} {randMax t u g : ℕ} {a b : State} (h : Same g a b) {c : Call} (hc : Covered g c) :
    (call L randMax t a c).2 = (call L randMax u b c).2 ∧ Same g (call L randMax t a c).1 (call L randMax u b c).1 := by
  have gb : g < b.objects.length := by
    have := h.obj
    rw [List.getElem?_eq_getElem h.ga] at this
    exact (List.getElem?_eq_some_iff.1 this.symm).1
  cases c with
  | construct =>
    refine ⟨rfl, ⟨?_, rfl, rfl, ?_, ?_⟩⟩
    · simp [call, construct, h.ia, h.ib, h.crand]
    · simp only [call, construct]
      rw [List.getElem?_append_left h.ga, List.getElem?_append_left gb, h.obj]
    · simp only [call, construct, List.length_append]
      have := h.ga
      omega
  | seed k s =>
    cases hc
    refine ⟨rfl, ⟨rfl, h.ia, h.ib, ?_, ?_⟩⟩
    · simp [call, seed, h.ga, gb]
    · simpa [call, seed] using h.ga
  | int k min range =>
    refine ⟨by simp [call, h.crand], ?_⟩
    simp only [call]
    split
    · exact ⟨by simp [drawn, h.crand], h.ia, h.ib, h.obj, h.ga⟩
    · exact h
  | real k min range =>
    refine ⟨by simp [call, h.crand], ?_⟩
    simp only [call]
    split
    · exact ⟨by simp [drawn, h.crand], h.ia, h.ib, h.obj, h.ga⟩
    · exact h
  | indices k n =>
    cases hc
    simp only [call]
    rw [← h.obj, List.getElem?_eq_getElem h.ga]
    refine ⟨rfl, ⟨h.crand, h.ia, h.ib, ?_, ?_⟩⟩
    · simp [h.ga, gb]
    · simpa using h.ga
  | viewShuffle l => exact absurd hc (fun hh => hh)

theorem calls_same {L : Library} {randMax g : ℕ} (l : List Call) : ∀ {t u : ℕ → ℕ} {a b : State} (_ : Same g a b)
    (_ : ∀ c ∈ l, Covered g c), (calls L randMax t l a).2 = (calls L randMax u l b).2 := by
  induction l with
  | nil => intros; rfl
  | cons c l ih =>
    intro t u a b h hc
    obtain ⟨h1, h2⟩ := call_same (L := L) (randMax := randMax) (t := t 0) (u := u 0) h (hc c List.mem_cons_self)
    simp only [calls, h1]
    rw [ih h2 fun c hcl => hc c (List.mem_cons_of_mem _ hcl)]

/-- **C46 (partial)**: two programs with arbitrary histories, at arbitrary times, seed an object with the same number; from then on
they draw the same numbers from all objects and the same index permutations from the seeded object, also if further objects
are created.  Missing: index permutations of other objects (`seed_other_object_fails`), shuffles of views
(`seed_view_fails`). -/
theorem seed_reproducible_partial (L : Library) (randMax g s : ℕ) (t u t' u' : ℕ → ℕ) (ha hb : List Call) (l : List Call)
    (hga : g < (calls L randMax t ha State.initial).1.objects.length)
    (hgb : g < (calls L randMax u hb State.initial).1.objects.length)
    (hl : ∀ c ∈ l, Covered g c) :
    (calls L randMax t' (.seed g s :: l) (calls L randMax t ha State.initial).1).2 =
      (calls L randMax u' (.seed g s :: l) (calls L randMax u hb State.initial).1).2 := by
  have init : ∀ (l : List Call) (t : ℕ → ℕ) (a : State), (a.objects ≠ [] → a.seedInitialized = true) →
      (calls L randMax t l a).1.objects ≠ [] → (calls L randMax t l a).1.seedInitialized = true := by
    intro l
    induction l with
    | nil => intro t a h; exact h
    | cons c l ih =>
      intro t a h
      refine ih _ _ ?_
      intro hne
      cases c with
      | construct => rfl
      | seed k s =>
        refine h fun h0 => hne ?_
        simp [call, seed, h0]
      | int k min range =>
        simp only [call] at hne ⊢
        split <;> rename_i hr
        · rw [if_pos hr] at hne; exact h hne
        · rw [if_neg hr] at hne; exact h hne
      | real k min range =>
        simp only [call] at hne ⊢
        split <;> rename_i hr
        · rw [if_pos hr] at hne; exact h hne
        · rw [if_neg hr] at hne; exact h hne
      | indices k n =>
        simp only [call] at hne ⊢
        split <;> rename_i hr
        · rw [hr] at hne; exact h hne
        · refine h fun h0 => ?_
          rw [h0] at hr
          simp at hr
      | viewShuffle l => exact h hne
  have hia := init ha t State.initial (fun h => absurd rfl h) (fun h0 => by rw [h0] at hga; simp at hga)
  have hib := init hb u State.initial (fun h => absurd rfl h) (fun h0 => by rw [h0] at hgb; simp at hgb)
  simp only [calls]
  refine congrArg₂ List.cons rfl (calls_same (g := g) l ⟨rfl, hia, hib, ?_, ?_⟩ hl)
  · simp [call, seed, hga, hgb]
  · simpa [call, seed] using hga

/-- Two objects, the first one is seeded, both are used. -/
example (L : Library) : (0 : ℕ) < (calls L 7 (fun _ => 3) [.construct, .construct] State.initial).1.objects.length ∧
    ∀ c ∈ [Call.int 1 0 6, .construct, .indices 0 5, .real 2 0 1], Covered 0 c := by
  refine ⟨by simp [calls, call, construct, State.initial], fun c hc => ?_⟩
  simp at hc
  rcases hc with rfl | rfl | rfl | rfl <;> simp [Covered]

/-- **C46 is false** for objects that are created after seeding (as the library does in each function that needs random
indices, e.g. src/DataSetView.cpp:131, and in its optimiser): their permutations depend on the time, with every generator that
distinguishes two seeds. -/
theorem seed_other_object_fails (L : Library) {n t u : ℕ}
    (h : L.shuffle t [] ((List.range n).map fun i : ℕ => (i : ℤ)) ≠ L.shuffle u [] ((List.range n).map fun i : ℕ => (i : ℤ)))
    (randMax s : ℕ) :
    (calls L randMax (fun _ => t) [.construct, .seed 0 s, .construct, .indices 1 n] State.initial).2 ≠
      (calls L randMax (fun _ => u) [.construct, .seed 0 s, .construct, .indices 1 n] State.initial).2 := by
  intro he
  simp [calls, call, construct, seed, State.initial, generateIndices] at he
  exact h he

/-- **C46 is false** for shuffles of views: seeding does not reach the generator of the views, so the result depends on the
shuffles before seeding, with every generator that does not always give the same permutation. -/
theorem seed_view_fails (L : Library) {l : List ℤ} (h : L.shuffle defaultSeed [] l ≠ L.shuffle defaultSeed [l.length] l)
    (randMax s : ℕ) (t : ℕ → ℕ) :
    (calls L randMax t [.seed 0 s, .viewShuffle l] (calls L randMax t [.construct] State.initial).1).2 ≠
      (calls L randMax t [.seed 0 s, .viewShuffle l] (calls L randMax t [.construct, .viewShuffle l] State.initial).1).2 := by
  intro he
  simp [calls, call, construct, seed, State.initial] at he
  exact h he

/-- A generator with both properties. -/
example : ∃ (L : Library) (n t u : ℕ) (l : List ℤ),
    L.shuffle t [] ((List.range n).map fun i : ℕ => (i : ℤ)) ≠ L.shuffle u [] ((List.range n).map fun i : ℕ => (i : ℤ)) ∧
    L.shuffle defaultSeed [] l ≠ L.shuffle defaultSeed [l.length] l :=
  ⟨⟨fun a b => a + b, fun a b l => if (a + b.length) % 2 = 0 then l else l.reverse⟩, 2, 0, 1, [0, 1], by decide, by decide⟩

end Verif.Rng

namespace Verif.Rng
open Outcome

/-- The conversion of a `size_t` to `int`: the number with the same remainder modulo 2^32 in the range of `int`. -/
theorem toInt_spec (n : ℕ) : IsInt (toInt n) ∧ (2 ^ 32 : ℤ) ∣ n - toInt n := by
  unfold IsInt toInt
  have h1 : n % 2 ^ 32 < 2 ^ 32 := Nat.mod_lt _ (by norm_num)
  have h2 := Nat.div_add_mod n (2 ^ 32)
  generalize n % 2 ^ 32 = r at *
  generalize n / 2 ^ 32 = q at *
  split
  · refine ⟨by omega, q, by omega⟩
  · refine ⟨by omega, q + 1, by omega⟩

theorem ints_from (L : Library) (randMax : ℕ) : ∀ (l : List (ℕ × ℤ × ℤ)) (t : ℕ → ℕ) (s : State), (∀ q ∈ l, 0 < q.2.2) →
    (calls L randMax t (l.map fun q => .int q.1 q.2.1 q.2.2) s).2 =
      l.mapIdx fun k q => .int (generateInt32 (L.rand s.crand.1 (s.crand.2 + k)) q.2.1 q.2.2) := by
  intro l
  induction l with
  | nil => intros; rfl
  | cons q l ih =>
    intro t s h
    have h0 := h q (by simp)
    rw [List.map_cons, calls, ih _ _ fun q hq => h q (by simp [hq]), List.mapIdx_cons]
    simp only [call, if_pos h0, drawn, add_zero]
    refine congrArg (List.cons _) (congrArg (List.mapIdx · l) ?_)
    funext k q
    rw [show s.crand.2 + 1 + k = s.crand.2 + (k + 1) by omega]

/-- **C46**: after `seed(s)` the numbers are the beginning of the sequence that belongs to `s`, whatever happened before and whichever
object draws them. -/
theorem seeded_values (L : Library) (randMax g s : ℕ) (t : ℕ → ℕ) (a : State) (l : List (ℕ × ℤ × ℤ)) (h : ∀ q ∈ l, 0 < q.2.2) :
    (calls L randMax t (.seed g s :: l.map fun q => .int q.1 q.2.1 q.2.2) a).2 =
      .none :: l.mapIdx fun k q => .int (generateInt32 (L.rand s k) q.2.1 q.2.2) := by
  rw [calls, ints_from L randMax l _ _ h]
  simp [call, seed]

example : ∀ q ∈ [((0 : ℕ), (0 : ℤ), (6 : ℤ)), (1, -3, 7)], 0 < q.2.2 := by decide

end Verif.Rng
