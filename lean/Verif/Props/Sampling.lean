import Verif.Props.BatchGradient
import Verif.Props.OptimizableNet
import Verif.Props.Penalties
import Mathlib.GroupTheory.Perm.Basic
import Mathlib.Data.Fintype.Perm

/-!
# Mini-batches estimate the gradient of the whole training set: C123

Every epoch begins with a shuffle of the indices (src/MBSGD.cpp line 90, OpenANN/util/Random.h lines 101-115), and mini-batch `b`
consists of the places `b B, ..., b B + B - 1`.  The theorems are about the mean over all outcomes of the shuffle.  That
`std::shuffle` with the generator of the library makes all outcomes equally likely is an assumption.
-/

namespace Verif.Opt

open Finset

noncomputable section

/-! ## Spec -/

/-- The outcome `σ` of `std::shuffle`: place `i` of the new vector is place `σ i` of the old one. -/
def shuffleBy {N : ℕ} (σ : Equiv.Perm (Fin N)) (l : List ℕ) : List ℕ := List.ofFn fun i : Fin N => l.getD (σ i) 0

/-- Spec: the mean over all outcomes of the shuffle, all of them equally likely. -/
def expectation (N : ℕ) (X : Equiv.Perm (Fin N) → ℝ) : ℝ := (∑ σ, X σ) / (N.factorial : ℝ)

/-- Spec: the variance. -/
def variance (N : ℕ) (X : Equiv.Perm (Fin N) → ℝ) : ℝ := expectation N fun σ => (X σ - expectation N X) ^ 2

/-! ## Sums over all permutations -/

theorem expectation_add (N : ℕ) (X Y : Equiv.Perm (Fin N) → ℝ) :
    expectation N (fun σ => X σ + Y σ) = expectation N X + expectation N Y := by
  rw [expectation, sum_add_distrib, add_div]
  rfl

theorem expectation_mul (N : ℕ) (c : ℝ) (X : Equiv.Perm (Fin N) → ℝ) :
    expectation N (fun σ => c * X σ) = c * expectation N X := by
  rw [expectation, ← mul_sum, mul_div_assoc]
  rfl

theorem expectation_const (N : ℕ) (c : ℝ) : expectation N (fun _ => c) = c := by
  have : (N.factorial : ℝ) ≠ 0 := by exact_mod_cast N.factorial_ne_zero
  rw [expectation, sum_const, card_univ, Fintype.card_perm, Fintype.card_fin, nsmul_eq_mul]
  field_simp

theorem expectation_sum {ι : Type*} (N : ℕ) (s : Finset ι) (X : ι → Equiv.Perm (Fin N) → ℝ) :
    expectation N (fun σ => ∑ i ∈ s, X i σ) = ∑ i ∈ s, expectation N (X i) := by
  rw [expectation, sum_comm, sum_div]
  rfl

/-- Shuffling before does not change the distribution. -/
theorem expectation_comp (N : ℕ) (τ : Equiv.Perm (Fin N)) (X : Equiv.Perm (Fin N) → ℝ) :
    expectation N (fun σ => X (σ * τ)) = expectation N X := by
  rw [expectation, expectation]
  congr 1
  exact Equiv.sum_comp (Equiv.mulRight τ) X

theorem expectation_one {N : ℕ} (f : Fin N → ℝ) (i : Fin N) : expectation N (fun σ => f (σ i)) = (∑ n, f n) / N := by
  have hN : (N : ℝ) ≠ 0 := by
    have : 0 < N := i.pos
    exact_mod_cast this.ne'
  have hi : ∀ j : Fin N, expectation N (fun σ => f (σ j)) = expectation N fun σ => f (σ i) := by
    intro j
    rw [← expectation_comp N (Equiv.swap i j) fun σ => f (σ j)]
    simp
  have h1 : ∑ j : Fin N, expectation N (fun σ => f (σ j)) = ∑ n, f n := by
    rw [← expectation_sum]
    have : ∀ σ : Equiv.Perm (Fin N), ∑ j, f (σ j) = ∑ n, f n := fun σ => Equiv.sum_comp σ f
    simp only [this, expectation_const]
  rw [sum_congr rfl fun j _ => hi j, sum_const, card_univ, Fintype.card_fin, nsmul_eq_mul] at h1
  rw [eq_div_iff hN, mul_comm]
  exact h1

/-- There is a permutation that takes two places to two other places. -/
theorem exists_move {N : ℕ} {i j i' j' : Fin N} (h : i ≠ j) (h' : i' ≠ j') : ∃ τ : Equiv.Perm (Fin N), τ i = i' ∧ τ j = j' := by
  refine ⟨Equiv.swap (Equiv.swap i i' j) j' * Equiv.swap i i', ?_, ?_⟩
  · have hne : i' ≠ Equiv.swap i i' j := by
      intro e
      have := congrArg (Equiv.swap i i') e
      rw [Equiv.swap_apply_right, Equiv.swap_apply_self] at this
      exact h this
    rw [Equiv.Perm.mul_apply, Equiv.swap_apply_left, Equiv.swap_apply_of_ne_of_ne hne h']
  · rw [Equiv.Perm.mul_apply, Equiv.swap_apply_left]

theorem expectation_two {N : ℕ} (f : Fin N → ℝ) (hf : ∑ n, f n = 0) {i j : Fin N} (hij : i ≠ j) :
    expectation N (fun σ => f (σ i) * f (σ j)) = -(∑ n, f n ^ 2) / (N * (N - 1)) := by
  have hN1 : 1 < N := by
    have h1 := i.2
    have h2 := j.2
    have h3 : i.1 ≠ j.1 := fun e => hij (Fin.ext e)
    omega
  have hN : (N : ℝ) ≠ 0 := by
    have : 0 < N := by omega
    exact_mod_cast this.ne'
  have hN' : (N : ℝ) - 1 ≠ 0 := by
    have : (1 : ℝ) < N := by exact_mod_cast hN1
    linarith
  have hp : ∀ a b : Fin N, a ≠ b → expectation N (fun σ => f (σ a) * f (σ b)) = expectation N fun σ => f (σ i) * f (σ j) := by
    intro a b hab
    obtain ⟨τ, h1, h2⟩ := exists_move hij hab
    rw [← expectation_comp N τ fun σ => f (σ i) * f (σ j)]
    simp [h1, h2]
  -- both orders of summation of all pairs with different places
  have h1 : ∑ a : Fin N, ∑ b ∈ univ.erase a, expectation N (fun σ => f (σ a) * f (σ b)) = -∑ n, f n ^ 2 := by
    have e : ∀ σ : Equiv.Perm (Fin N), ∑ a, ∑ b ∈ univ.erase a, f (σ a) * f (σ b) = -∑ n, f n ^ 2 := by
      intro σ
      have e1 : ∀ a, ∑ b ∈ univ.erase a, f (σ a) * f (σ b) = -f (σ a) ^ 2 := by
        intro a
        rw [← mul_sum, sum_erase_eq_sub (mem_univ a), Equiv.sum_comp σ f, hf]
        ring
      rw [sum_congr rfl fun a _ => e1 a, sum_neg_distrib, Equiv.sum_comp σ fun n => f n ^ 2]
    have e2 : ∑ a : Fin N, ∑ b ∈ univ.erase a, expectation N (fun σ => f (σ a) * f (σ b)) =
        expectation N fun σ => ∑ a, ∑ b ∈ univ.erase a, f (σ a) * f (σ b) := by
      rw [expectation_sum]
      exact sum_congr rfl fun a _ => (expectation_sum _ _ _).symm
    rw [e2]
    simp only [e, expectation_const]
  have h2 : ∑ a : Fin N, ∑ b ∈ univ.erase a, expectation N (fun σ => f (σ a) * f (σ b)) =
      N * (N - 1) * expectation N fun σ => f (σ i) * f (σ j) := by
    have e : ∀ a : Fin N, ∑ b ∈ univ.erase a, expectation N (fun σ => f (σ a) * f (σ b)) =
        (N - 1) * expectation N fun σ => f (σ i) * f (σ j) := by
      intro a
      rw [sum_congr rfl fun b hb => hp a b (Finset.ne_of_mem_erase hb).symm, sum_const, card_erase_of_mem (mem_univ a), card_univ,
        Fintype.card_fin, nsmul_eq_mul, Nat.cast_sub (by omega), Nat.cast_one]
    rw [sum_congr rfl fun a _ => e a, sum_const, card_univ, Fintype.card_fin, nsmul_eq_mul]
    ring
  rw [h2] at h1
  rw [eq_div_iff (mul_ne_zero hN hN'), mul_comm]
  exact h1

/-! ## Sampling without replacement -/

/-- The mean of a sample of `B` of `N` numbers has the mean of all numbers as its expectation. -/
theorem sample_mean {N : ℕ} (f : Fin N → ℝ) (s : Finset (Fin N)) (hs : s.Nonempty) :
    expectation N (fun σ => (∑ i ∈ s, f (σ i)) / s.card) = (∑ n, f n) / N := by
  have hB : (s.card : ℝ) ≠ 0 := by exact_mod_cast hs.card_pos.ne'
  have e : (fun σ : Equiv.Perm (Fin N) => (∑ i ∈ s, f (σ i)) / s.card) = fun σ => (s.card : ℝ)⁻¹ * ∑ i ∈ s, f (σ i) := by
    funext σ
    rw [div_eq_inv_mul]
  rw [e, expectation_mul, expectation_sum, sum_congr rfl fun i _ => expectation_one f i, sum_const, nsmul_eq_mul]
  field_simp

/-- Its variance is the variance of the numbers, divided by `B`, times `(N - B) / (N - 1)`. -/
theorem sample_variance {N : ℕ} (f : Fin N → ℝ) (s : Finset (Fin N)) (hs : s.Nonempty) :
    variance N (fun σ => (∑ i ∈ s, f (σ i)) / s.card) =
      (∑ n, (f n - (∑ m, f m) / N) ^ 2) / N / s.card * ((N - s.card) / (N - 1)) := by
  have hB : (s.card : ℝ) ≠ 0 := by exact_mod_cast hs.card_pos.ne'
  obtain ⟨i0, hi0⟩ := hs
  have hN : (N : ℝ) ≠ 0 := by
    have : 0 < N := i0.pos
    exact_mod_cast this.ne'
  have hcard : s.card ≤ N := by
    have := card_le_univ s
    rwa [Fintype.card_fin] at this
  set μ := (∑ m, f m) / N with hμ
  set h : Fin N → ℝ := fun n => f n - μ with hh
  have h0 : ∑ n, h n = 0 := by
    rw [hh, sum_sub_distrib, sum_const, card_univ, Fintype.card_fin, nsmul_eq_mul, hμ]
    field_simp
    ring
  have hmean := sample_mean f s ⟨i0, hi0⟩
  rw [variance, hmean]
  have e1 : (fun σ : Equiv.Perm (Fin N) => ((∑ i ∈ s, f (σ i)) / s.card - μ) ^ 2) =
      fun σ => ((s.card : ℝ) ^ 2)⁻¹ * ∑ i ∈ s, ∑ j ∈ s, h (σ i) * h (σ j) := by
    funext σ
    have : (∑ i ∈ s, f (σ i)) / s.card - μ = (∑ i ∈ s, h (σ i)) / s.card := by
      rw [hh, sum_sub_distrib, sum_const, nsmul_eq_mul]
      field_simp
    rw [this, ← sum_mul_sum, div_pow]
    field_simp
  rw [e1, expectation_mul, expectation_sum]
  have e2 : ∀ i ∈ s, expectation N (fun σ => ∑ j ∈ s, h (σ i) * h (σ j)) =
      (∑ n, h n ^ 2) / N + (s.card - 1) * (-(∑ n, h n ^ 2) / (N * (N - 1))) := by
    intro i hi
    rw [expectation_sum, ← add_sum_erase s _ hi]
    congr 1
    · have : (fun σ : Equiv.Perm (Fin N) => h (σ i) * h (σ i)) = fun σ => (fun n => h n ^ 2) (σ i) := by
        funext σ
        exact (sq _).symm
      rw [this]
      exact expectation_one (fun n => h n ^ 2) i
    · rw [sum_congr rfl fun j hj => expectation_two h h0 (Finset.ne_of_mem_erase hj).symm, sum_const, card_erase_of_mem hi,
        nsmul_eq_mul, Nat.cast_sub (card_pos.2 ⟨i, hi⟩), Nat.cast_one]
  rw [sum_congr rfl e2, sum_const, nsmul_eq_mul]
  rcases Nat.lt_or_ge 1 N with h1 | h1
  · have hN' : (N : ℝ) - 1 ≠ 0 := by
      have : (1 : ℝ) < N := by exact_mod_cast h1
      linarith
    field_simp
    ring
  · -- a single number
    have hz : ∑ n, h n ^ 2 = 0 := by
      refine sum_eq_zero fun n _ => ?_
      have hn : ∀ m : Fin N, m = n := fun m => Fin.ext (by have := m.2; have := n.2; omega)
      have : ∑ m, h m = h n := sum_eq_single n (fun m _ hm => absurd (hn m) hm) fun hm => absurd (mem_univ n) hm
      rw [← this, h0]
      norm_num
    rw [hz]
    simp

/-! ## Mini-batches -/

/-- The number of examples in each mini-batch. -/
def batchLength (N B : ℕ) : ℕ := min B N

theorem batch_inside {N B b : ℕ} (hb : b < max (N / B) 1) : b * B + batchLength N B ≤ N := by
  unfold batchLength
  rcases Nat.lt_or_ge N B with h | h
  · rw [Nat.div_eq_of_lt h] at hb
    have : b = 0 := by simpa using hb
    rw [this, Nat.zero_mul]
    omega
  · have h1 : b + 1 ≤ max (N / B) 1 := hb
    rcases Nat.eq_zero_or_pos B with rfl | hB
    · simp
    rw [max_eq_left (Nat.div_pos h hB)] at h1
    have h2 := Nat.mul_le_mul_right B h1
    have h3 := Nat.div_mul_le_self N B
    rw [Nat.add_mul, Nat.one_mul] at h2
    rw [min_eq_left h]
    omega

/-- The places of mini-batch `b`. -/
def places {N B b : ℕ} (hb : b < max (N / B) 1) : Fin (batchLength N B) ↪ Fin N :=
  ⟨fun k => ⟨b * B + k, lt_of_lt_of_le (Nat.add_lt_add_left k.2 _) (batch_inside hb)⟩, fun k k' h => Fin.ext (by
    have := congrArg Fin.val h
    simpa using this)⟩

theorem batchOf_shuffle {N B b : ℕ} (hb : b < max (N / B) 1) (σ : Equiv.Perm (Fin N)) (l : List ℕ) :
    batchOf (shuffleBy σ l) B b = List.ofFn fun k => l.getD (σ (places hb k)) 0 := by
  have hin := batch_inside hb
  unfold batchLength at hin
  refine List.ext_getElem ?_ ?_
  · rw [batchOf, shuffleBy, List.length_take, List.length_drop, List.length_ofFn, List.length_ofFn, batchLength]
    omega
  · intro k h1 h2
    simp only [batchOf, shuffleBy, List.getElem_take, List.getElem_drop, List.getElem_ofFn]
    rfl

theorem batchOf_shuffle_length {N B b : ℕ} (hb : b < max (N / B) 1) (σ : Equiv.Perm (Fin N)) (l : List ℕ) :
    (batchOf (shuffleBy σ l) B b).length = batchLength N B := by
  rw [batchOf_shuffle hb, List.length_ofFn]

theorem batchOf_shuffle_sum {N B b : ℕ} (hb : b < max (N / B) 1) (σ : Equiv.Perm (Fin N)) (l : List ℕ) (F : ℕ → ℝ) :
    ((batchOf (shuffleBy σ l) B b).map F).sum = ∑ i ∈ univ.map (places hb), F (l.getD (σ i) 0) := by
  rw [batchOf_shuffle hb, List.map_ofFn, List.sum_ofFn, sum_map]
  rfl

theorem sum_getD {N : ℕ} {l : List ℕ} (hl : l.Perm (List.range N)) (F : ℕ → ℝ) :
    ∑ n : Fin N, F (l.getD n 0) = ∑ n ∈ range N, F n := by
  have h1 : (l.map F).sum = ∑ n ∈ range N, F n := (hl.map F).sum_eq
  have hlen : l.length = N := by rw [hl.length_eq, List.length_range]
  rw [← h1, sum_map_getD, hlen, Fin.sum_univ_eq_sum_range fun n => F (l.getD n 0)]

/-- The mean over a mini-batch. -/
def batchMean (F : ℕ → ℝ) (batch : List ℕ) : ℝ := (batch.map F).sum / batch.length

section Means

variable {N B b : ℕ} {l : List ℕ}

theorem batchMean_shuffle (hb : b < max (N / B) 1) (F : ℕ → ℝ) (σ : Equiv.Perm (Fin N)) :
    batchMean F (batchOf (shuffleBy σ l) B b) =
      (∑ i ∈ univ.map (places hb), F (l.getD (σ i) 0)) / (univ.map (places hb)).card := by
  rw [batchMean, batchOf_shuffle_sum hb, batchOf_shuffle_length hb, card_map, card_univ, Fintype.card_fin]

theorem places_nonempty (hb : b < max (N / B) 1) (hB : 0 < B) (hN : 0 < N) : (univ.map (places hb)).Nonempty := by
  rw [map_nonempty]
  exact ⟨⟨0, lt_min hB hN⟩, mem_univ _⟩

/-- The expectation of the mean over any of the mini-batches is the mean over all examples. -/
theorem expected_batchMean (hB : 0 < B) (hN : 0 < N) (hb : b < max (N / B) 1) (hl : l.Perm (List.range N)) (F : ℕ → ℝ) :
    expectation N (fun σ => batchMean F (batchOf (shuffleBy σ l) B b)) = (∑ n ∈ range N, F n) / N := by
  have e : (fun σ : Equiv.Perm (Fin N) => batchMean F (batchOf (shuffleBy σ l) B b)) = _ := funext (batchMean_shuffle hb F)
  rw [e, sample_mean (fun n => F (l.getD n 0)) _ (places_nonempty hb hB hN), sum_getD hl]

theorem variance_batchMean (hB : 0 < B) (hN : 0 < N) (hb : b < max (N / B) 1) (hl : l.Perm (List.range N)) (F : ℕ → ℝ) :
    variance N (fun σ => batchMean F (batchOf (shuffleBy σ l) B b)) =
      (∑ n ∈ range N, (F n - (∑ m ∈ range N, F m) / N) ^ 2) / N / batchLength N B *
        ((N - batchLength N B) / (N - 1)) := by
  have e : (fun σ : Equiv.Perm (Fin N) => batchMean F (batchOf (shuffleBy σ l) B b)) = _ := funext (batchMean_shuffle hb F)
  rw [e, sample_variance (fun n => F (l.getD n 0)) _ (places_nonempty hb hB hN), sum_getD hl,
    sum_getD hl fun n => (F n - (∑ m ∈ range N, F m) / N) ^ 2, card_map, card_univ, Fintype.card_fin]

end Means

theorem variance_shift (N : ℕ) (X : Equiv.Perm (Fin N) → ℝ) (c : ℝ) : variance N (fun σ => X σ + c) = variance N X := by
  rw [variance, variance, expectation_add, expectation_const]
  congr 1
  funext σ
  ring

/-- Chebyshev's inequality for shuffles. -/
theorem chebyshev (N : ℕ) (X : Equiv.Perm (Fin N) → ℝ) {e : ℝ} (he : 0 < e) :
    expectation N (fun σ => if e ≤ |X σ - expectation N X| then 1 else 0) ≤ variance N X / e ^ 2 := by
  rw [le_div_iff₀ (by positivity), mul_comm, ← expectation_mul, variance, expectation, expectation]
  refine div_le_div_of_nonneg_right (sum_le_sum fun σ _ => ?_) (Nat.cast_nonneg _)
  split
  · rename_i h
    rw [mul_one, ← sq_abs (X σ - _)]
    exact pow_le_pow_left₀ he.le h 2
  · rw [mul_zero]
    exact sq_nonneg _

/-! ## Networks -/

open NN

section Networks

variable {D : ℕ} {ks : List Kind} (ce : Bool) (hr : ∀ k ∈ ks, k.RowWise) (mem : Mem) (sc : ℕ → Scratch) (ds : TrainSet)

/-- Spec: the gradient of the penalties for the weights `w`, entry `i`. -/
def penaltyGradient (D : ℕ) (ks : List Kind) (ce : Bool) (mem : Mem) (w : Vec) (i : ℕ) : ℝ :=
  (decayGradient D ks ((buildNet D ks ce).setParameters mem ((List.range (buildNet D ks ce).P).map w))).getD i 0

include hr in
/-- The gradient of a batch in terms of gradients of single examples, with any temporary matrices. -/
theorem gradient_of_singles (k : ℕ) (w : Vec) {batch : List ℕ} (hbatch : batch ≠ []) {i : ℕ} (hi : i < (buildNet D ks ce).P) :
    ((netProblem (buildNet D ks ce) mem sc ds).errorGradient k w batch).2 i =
      batchMean (fun n => ((netProblem (buildNet D ks ce) mem sc ds).errorGradient 0 w [n]).2 i) batch -
        (1 - 1 / batch.length) * penaltyGradient D ks ce mem w i := by
  set A := (buildNet D ks ce).setParameters mem ((List.range (buildNet D ks ce).P).map w) with hA
  obtain ⟨g, p, gs, h1, h2, h3, h4⟩ := batch_gradient ce hr A (sc k) (fun _ => sc 0) ds hbatch hi
  have hlen : (batch.length : ℝ) ≠ 0 := by
    have := List.length_pos_iff.2 hbatch
    exact_mod_cast this.ne'
  have e1 : ((netProblem (buildNet D ks ce) mem sc ds).errorGradient k w batch).2 i = g := by
    show ((buildNet D ks ce).errorGradient A (sc k) ds batch).2.getD i 0 = g
    rw [List.getD, h1]
    rfl
  have e2 : penaltyGradient D ks ce mem w i = p := by
    show (decayGradient D ks A).getD i 0 = p
    rw [List.getD, h2]
    rfl
  have e3 : ∀ n, ((netProblem (buildNet D ks ce) mem sc ds).errorGradient 0 w [batch.getD n 0]).2 i = gs n := by
    intro n
    show ((buildNet D ks ce).errorGradient A (sc 0) ds [batch.getD n 0]).2.getD i 0 = gs n
    rw [List.getD, h3]
    rfl
  rw [e1, e2, batchMean, sum_map_getD, sum_congr rfl fun n _ => e3 n]
  field_simp
  linarith

variable {B b : ℕ} {l : List ℕ}

theorem batchOf_shuffle_ne {N : ℕ} (hB : 0 < B) (hN : 0 < N) (hb : b < max (N / B) 1) (σ : Equiv.Perm (Fin N)) (l : List ℕ) :
    batchOf (shuffleBy σ l) B b ≠ [] := by
  refine List.ne_nil_of_length_pos ?_
  rw [batchOf_shuffle_length hb]
  exact lt_min hB hN

include hr in
/-- **C123 (expected gradient)**: for every network whose layers treat the rows of a batch alike, all weights, every order of the
indices before the shuffle and every mini-batch of the epoch: the expectation of the gradient of the mini-batch is the gradient of
the whole training set plus `1 / B - 1 / N` times the gradient of the penalties. -/
theorem expected_gradient (hB : 0 < B) (hN : 0 < ds.samples) (hb : b < max (ds.samples / B) 1)
    (hl : l.Perm (List.range ds.samples)) (k : Equiv.Perm (Fin ds.samples) → ℕ) (k' : ℕ) (w : Vec) {i : ℕ}
    (hi : i < (buildNet D ks ce).P) :
    expectation ds.samples (fun σ => ((netProblem (buildNet D ks ce) mem sc ds).errorGradient (k σ) w
        (batchOf (shuffleBy σ l) B b)).2 i) =
      ((netProblem (buildNet D ks ce) mem sc ds).errorGradient k' w (List.range ds.samples)).2 i +
        (1 / batchLength ds.samples B - 1 / ds.samples) * penaltyGradient D ks ce mem w i := by
  set F : ℕ → ℝ := fun n => ((netProblem (buildNet D ks ce) mem sc ds).errorGradient 0 w [n]).2 i with hF
  have e : (fun σ : Equiv.Perm (Fin ds.samples) => ((netProblem (buildNet D ks ce) mem sc ds).errorGradient (k σ) w
      (batchOf (shuffleBy σ l) B b)).2 i) = fun σ => batchMean F (batchOf (shuffleBy σ l) B b) +
        -((1 - 1 / (batchLength ds.samples B : ℝ)) * penaltyGradient D ks ce mem w i) := by
    funext σ
    rw [gradient_of_singles ce hr mem sc ds (k σ) w (batchOf_shuffle_ne hB hN hb σ l) hi, batchOf_shuffle_length hb]
    ring
  have hne : List.range ds.samples ≠ [] := by
    refine List.ne_nil_of_length_pos ?_
    rwa [List.length_range]
  rw [e, expectation_add, expectation_const, expected_batchMean hB hN hb hl F,
    gradient_of_singles ce hr mem sc ds k' w hne hi, List.length_range, batchMean, List.length_range]
  have : ((List.range ds.samples).map F).sum = ∑ n ∈ range ds.samples, F n := rfl
  rw [this]
  ring

theorem penaltyGradient_zero (hp : ∀ k ∈ ks, k.NoDecay) (w : Vec) (i : ℕ) : penaltyGradient D ks ce mem w i = 0 := by
  rw [penaltyGradient, decayGradient, List.getD, List.getElem?_map]
  cases (locsFrom 1 (layersFrom D ks))[i]? with
  | none => rfl
  | some q =>
    show decayAt ks (q.1 - 1) q.2 _ = 0
    rw [decayAt]
    cases hk : ks[q.1 - 1]? with
    | none => rfl
    | some k => exact k.decay_zero (hp k (List.mem_of_getElem? hk)) _ _

include hr in
/-- **C123 (no bias)**: without penalties the expectation of the gradient of every mini-batch is the gradient of the whole
training set, also if the batch size does not divide the number of examples. -/
theorem unbiased_gradient_partial (hp : ∀ k ∈ ks, k.NoDecay) (hB : 0 < B) (hN : 0 < ds.samples)
    (hb : b < max (ds.samples / B) 1) (hl : l.Perm (List.range ds.samples)) (k : Equiv.Perm (Fin ds.samples) → ℕ) (k' : ℕ)
    (w : Vec) {i : ℕ} (hi : i < (buildNet D ks ce).P) :
    expectation ds.samples (fun σ => ((netProblem (buildNet D ks ce) mem sc ds).errorGradient (k σ) w
        (batchOf (shuffleBy σ l) B b)).2 i) =
      ((netProblem (buildNet D ks ce) mem sc ds).errorGradient k' w (List.range ds.samples)).2 i := by
  rw [expected_gradient ce hr mem sc ds hB hN hb hl k k' w hi, penaltyGradient_zero ce mem hp, mul_zero, add_zero]

include hr in
/-- **C123 (expected error)**: the expectation of the error of every mini-batch is the error of the whole training set. -/
theorem expected_error (hB : 0 < B) (hN : 0 < ds.samples) (hb : b < max (ds.samples / B) 1)
    (hl : l.Perm (List.range ds.samples)) (k : Equiv.Perm (Fin ds.samples) → ℕ) (k' : ℕ) (w : Vec) :
    expectation ds.samples (fun σ => ((netProblem (buildNet D ks ce) mem sc ds).errorGradient (k σ) w
        (batchOf (shuffleBy σ l) B b)).1) =
      ((netProblem (buildNet D ks ce) mem sc ds).errorGradient k' w (List.range ds.samples)).1 := by
  set A := (buildNet D ks ce).setParameters mem ((List.range (buildNet D ks ce).P).map w) with hA
  have hv : ∀ k batch, batch ≠ [] → ((netProblem (buildNet D ks ce) mem sc ds).errorGradient k w batch).1 =
      batchMean (fun n => (buildNet D ks ce).errorAt A ds n) batch := by
    intro k batch hne
    rw [batchMean, sum_map_getD]
    exact batch_value_mean hr A (sc k) ds hne
  have e : (fun σ : Equiv.Perm (Fin ds.samples) => ((netProblem (buildNet D ks ce) mem sc ds).errorGradient (k σ) w
      (batchOf (shuffleBy σ l) B b)).1) = fun σ => batchMean (fun n => (buildNet D ks ce).errorAt A ds n)
        (batchOf (shuffleBy σ l) B b) := by
    funext σ
    exact hv _ _ (batchOf_shuffle_ne hB hN hb σ l)
  have hne : List.range ds.samples ≠ [] := by
    refine List.ne_nil_of_length_pos ?_
    rwa [List.length_range]
  rw [e, expected_batchMean hB hN hb hl, hv k' _ hne, batchMean, List.length_range]
  rfl

/-- Spec: the mean square deviation of the gradients of single examples from their mean. -/
def spread (net : Net) (mem : Mem) (sc : ℕ → Scratch) (ds : TrainSet) (w : Vec) (i : ℕ) : ℝ :=
  (∑ n ∈ range ds.samples, (((netProblem net mem sc ds).errorGradient 0 w [n]).2 i -
    (∑ m ∈ range ds.samples, ((netProblem net mem sc ds).errorGradient 0 w [m]).2 i) / ds.samples) ^ 2) / ds.samples

include hr in
/-- **C123 (variance)**: the variance of the gradient of a mini-batch is the mean square deviation of the gradients of the
examples, divided by the batch size `B` and multiplied by `(N - B) / (N - 1)`, with and without penalties. -/
theorem gradient_variance (hB : 0 < B) (hN : 0 < ds.samples) (hb : b < max (ds.samples / B) 1)
    (hl : l.Perm (List.range ds.samples)) (k : Equiv.Perm (Fin ds.samples) → ℕ) (w : Vec) {i : ℕ}
    (hi : i < (buildNet D ks ce).P) :
    variance ds.samples (fun σ => ((netProblem (buildNet D ks ce) mem sc ds).errorGradient (k σ) w
        (batchOf (shuffleBy σ l) B b)).2 i) =
      spread (buildNet D ks ce) mem sc ds w i / batchLength ds.samples B *
        ((ds.samples - batchLength ds.samples B) / (ds.samples - 1)) := by
  set F : ℕ → ℝ := fun n => ((netProblem (buildNet D ks ce) mem sc ds).errorGradient 0 w [n]).2 i with hF
  have e : (fun σ : Equiv.Perm (Fin ds.samples) => ((netProblem (buildNet D ks ce) mem sc ds).errorGradient (k σ) w
      (batchOf (shuffleBy σ l) B b)).2 i) = fun σ => batchMean F (batchOf (shuffleBy σ l) B b) +
        -((1 - 1 / (batchLength ds.samples B : ℝ)) * penaltyGradient D ks ce mem w i) := by
    funext σ
    rw [gradient_of_singles ce hr mem sc ds (k σ) w (batchOf_shuffle_ne hB hN hb σ l) hi, batchOf_shuffle_length hb]
    ring
  rw [e, variance_shift, variance_batchMean hB hN hb hl F]
  rfl

theorem spread_nonneg (net : Net) (w : Vec) (i : ℕ) : 0 ≤ spread net mem sc ds w i :=
  div_nonneg (sum_nonneg fun _ _ => sq_nonneg _) (Nat.cast_nonneg _)

include hr in
/-- **C123 (larger batches)**: the gradient of a larger mini-batch does not vary more. -/
theorem larger_batches {B' b' : ℕ} (hB : 0 < B) (hBB : B ≤ B') (hN : 0 < ds.samples) (hb : b < max (ds.samples / B) 1)
    (hb' : b' < max (ds.samples / B') 1) (hl : l.Perm (List.range ds.samples)) (k : Equiv.Perm (Fin ds.samples) → ℕ) (w : Vec)
    {i : ℕ} (hi : i < (buildNet D ks ce).P) :
    variance ds.samples (fun σ => ((netProblem (buildNet D ks ce) mem sc ds).errorGradient (k σ) w
        (batchOf (shuffleBy σ l) B' b')).2 i) ≤
      variance ds.samples (fun σ => ((netProblem (buildNet D ks ce) mem sc ds).errorGradient (k σ) w
        (batchOf (shuffleBy σ l) B b)).2 i) := by
  rw [gradient_variance ce hr mem sc ds (lt_of_lt_of_le hB hBB) hN hb' hl k w hi,
    gradient_variance ce hr mem sc ds hB hN hb hl k w hi]
  have h0 := spread_nonneg mem sc ds (buildNet D ks ce) w i
  have h1 : batchLength ds.samples B ≤ batchLength ds.samples B' := min_le_min_right _ hBB
  have h2 : 0 < batchLength ds.samples B := lt_min hB hN
  have h3 : batchLength ds.samples B' ≤ ds.samples := min_le_right _ _
  have h4 : (1 : ℝ) ≤ ds.samples := by exact_mod_cast hN
  have h1' : (batchLength ds.samples B : ℝ) ≤ batchLength ds.samples B' := by exact_mod_cast h1
  have h2' : (0 : ℝ) < batchLength ds.samples B := by exact_mod_cast h2
  have h3' : (batchLength ds.samples B' : ℝ) ≤ ds.samples := by exact_mod_cast h3
  refine mul_le_mul (div_le_div_of_nonneg_left h0 h2' h1') (div_le_div_of_nonneg_right (by linarith) (by linarith))
    (div_nonneg (by linarith) (by linarith)) (div_nonneg h0 h2'.le)

include hr in
/-- **C123 (reliability)**: the part of the shuffles for which the gradient of the mini-batch is `e` or more away from its
expectation is at most the mean square deviation divided by `B e²`. -/
theorem gradient_reliable (hB : 0 < B) (hN : 0 < ds.samples) (hb : b < max (ds.samples / B) 1)
    (hl : l.Perm (List.range ds.samples)) (k : Equiv.Perm (Fin ds.samples) → ℕ) (k' : ℕ) (w : Vec) {i : ℕ}
    (hi : i < (buildNet D ks ce).P) {e : ℝ} (he : 0 < e) :
    expectation ds.samples (fun σ => if e ≤ |((netProblem (buildNet D ks ce) mem sc ds).errorGradient (k σ) w
        (batchOf (shuffleBy σ l) B b)).2 i -
          (((netProblem (buildNet D ks ce) mem sc ds).errorGradient k' w (List.range ds.samples)).2 i +
            (1 / batchLength ds.samples B - 1 / ds.samples) * penaltyGradient D ks ce mem w i)| then 1 else 0) ≤
      spread (buildNet D ks ce) mem sc ds w i / (batchLength ds.samples B * e ^ 2) := by
  have h := chebyshev ds.samples (fun σ => ((netProblem (buildNet D ks ce) mem sc ds).errorGradient (k σ) w
    (batchOf (shuffleBy σ l) B b)).2 i) he
  rw [expected_gradient ce hr mem sc ds hB hN hb hl k k' w hi, gradient_variance ce hr mem sc ds hB hN hb hl k w hi] at h
  refine h.trans ?_
  have h0 := spread_nonneg mem sc ds (buildNet D ks ce) w i
  have h2 : 0 < batchLength ds.samples B := lt_min hB hN
  have h3 : batchLength ds.samples B ≤ ds.samples := min_le_right _ _
  have h2' : (1 : ℝ) ≤ batchLength ds.samples B := by exact_mod_cast h2
  have h3' : (batchLength ds.samples B : ℝ) ≤ ds.samples := by exact_mod_cast h3
  rw [← div_div]
  refine div_le_div_of_nonneg_right ?_ (by positivity)
  refine mul_le_of_le_one_right (div_nonneg h0 (by linarith)) (div_le_one_of_le₀ (by linarith) (by linarith))

/-! ## The optimiser -/

/-- The optimiser `o` if the next shuffle has the outcome `σ`. -/
def MBSGD.shuffling {N : ℕ} (o : MBSGD) (σ : Equiv.Perm (Fin N)) : MBSGD :=
  { o with rng := fun k => if k = 0 then shuffleBy σ else o.rng k }

include hr in
/-- **C123 (first update)**: the expectation of the weights after the first update of an epoch is one step along the gradient of
the whole training set (plus `1 / B - 1 / N` times the gradient of the penalties), for every learning rate, with and without
(Nesterov's) momentum, unless gains are used. -/
theorem expected_update (o : MBSGD) (hg : o.minGain = 1) (hg' : o.maxGain = 1) (hB : 0 < o.batchSize) (hN : 0 < ds.samples)
    (hl : o.randomIndices.Perm (List.range ds.samples)) (w : Vec) (calls : ℕ) (log : List Event) (k' : ℕ) {i : ℕ}
    (hi : i < (buildNet D ks ce).P) :
    expectation ds.samples (fun σ => ((o.shuffling σ).reshuffle.updates
        ⟨netProblem (buildNet D ks ce) mem sc ds, w, calls, log⟩ 1).1.parameters i) =
      o.parameters i + (o.eta * o.momentum i - o.alpha *
        (((netProblem (buildNet D ks ce) mem sc ds).errorGradient k'
          (if o.nesterov then fun p => o.parameters p + o.eta * o.momentum p else w) (List.range ds.samples)).2 i +
          (1 / batchLength ds.samples o.batchSize - 1 / ds.samples) * penaltyGradient D ks ce mem
            (if o.nesterov then fun p => o.parameters p + o.eta * o.momentum p else w) i)) := by
  set A := netProblem (buildNet D ks ce) mem sc ds with hA
  set v : Vec := if o.nesterov then fun p => o.parameters p + o.eta * o.momentum p else w with hv
  have e : ∀ σ : Equiv.Perm (Fin ds.samples), ((o.shuffling σ).reshuffle.updates ⟨A, w, calls, log⟩ 1).1.parameters i =
      (o.parameters i + o.eta * o.momentum i) +
        -o.alpha * (A.errorGradient calls v (batchOf (shuffleBy σ o.randomIndices) o.batchSize 0)).2 i := by
    intro σ
    have hu : ¬(o.shuffling σ).reshuffle.useGain := by
      rintro (h | h)
      · exact h hg
      · exact h hg'
    have hl : (((o.shuffling σ).reshuffle.lookAhead ⟨A, w, calls, log⟩).result
        (batchOf (shuffleBy σ o.randomIndices) o.batchSize 0)).2 =
          (A.errorGradient calls v (batchOf (shuffleBy σ o.randomIndices) o.batchSize 0)).2 := by
      rw [hv, Obj.result, MBSGD.lookAhead]
      cases hn : o.nesterov
      · rw [if_neg (show ¬(o.shuffling σ).reshuffle.nesterov = true from by
          show ¬o.nesterov = true
          rw [hn]
          exact Bool.false_ne_true)]
        rfl
      · rw [if_pos (show (o.shuffling σ).reshuffle.nesterov = true from hn)]
        rfl
    show o.parameters i + (o.eta * o.momentum i - o.alpha * (o.shuffling σ).reshuffle.scaled
      (((o.shuffling σ).reshuffle.lookAhead ⟨A, w, calls, log⟩).result
        (batchOf (shuffleBy σ o.randomIndices) o.batchSize 0)).2 i) = _
    rw [MBSGD.scaled, if_neg hu, hl]
    ring
  simp only [e]
  rw [expectation_add, expectation_const, expectation_mul, expected_gradient ce hr mem sc ds hB hN
    (lt_of_lt_of_le Nat.zero_lt_one (le_max_right _ _)) hl (fun _ => calls) k' v hi]
  ring

end Networks

/-- **C123 (bias)**: for two examples, mini-batches of one example and an L2 penalty the gradient of the mini-batches is not the
gradient of the whole training set in expectation: the penalty counts twice. -/
theorem unbiased_gradient_fails (mem : Mem) (sc : ℕ → Scratch) {l : List ℕ} (hl : l.Perm (List.range diagonal.samples))
    {b : ℕ} (hb : b < 2) (k : Equiv.Perm (Fin diagonal.samples) → ℕ) (k' : ℕ) :
    ∃ w : Vec, expectation diagonal.samples (fun σ =>
        ((netProblem (penalNet 1 (linearKinds 1) false 0 2) mem sc diagonal).errorGradient (k σ) w
          (batchOf (shuffleBy σ l) 1 b)).2 0) ≠
      ((netProblem (penalNet 1 (linearKinds 1) false 0 2) mem sc diagonal).errorGradient k' w (List.range diagonal.samples)).2 0 := by
  refine ⟨fun _ => 1, ?_⟩
  have hP : 0 < (buildNet 1 ((linearKinds 1).map (Kind.withPenalty 0 2)) false).P := by
    have := ridge_P 1 1 2
    rw [penalNet] at this
    rw [this]
    norm_num
  have h := expected_gradient (D := 1) (ks := (linearKinds 1).map (Kind.withPenalty 0 2)) false (ridge_rowWise 1 2) mem sc diagonal
    (B := 1) (b := b) one_pos (show 0 < 2 by norm_num) hb hl k k' (fun _ => 1) hP
  have hpen : penaltyGradient 1 ((linearKinds 1).map (Kind.withPenalty 0 2)) false mem (fun _ => 1) 0 = 2 := by
    have hu := setParameters_unconstrained (net := buildNet 1 ((linearKinds 1).map (Kind.withPenalty 0 2)) false) (mem := mem)
      (θ := (List.range (buildNet 1 ((linearKinds 1).map (Kind.withPenalty 0 2)) false).P).map fun _ => 1)
      (updated_of_unconstrained (unconstrained_withPenalty (linear_unconstrained 1) 0 2))
    rw [penaltyGradient, hu]
    show (Reg.deriv ⟨0, 2, 0⟩ (1 : ℝ)) = 2
    rw [Reg.deriv]
    norm_num
  intro hc
  have h' := h.symm.trans hc
  rw [hpen] at h'
  have hlen : batchLength diagonal.samples 1 = 1 := rfl
  have hs : diagonal.samples = 2 := rfl
  rw [hlen, hs] at h'
  rw [penalNet] at h'
  norm_num at h'

/-! ## Examples -/

/-- The hypotheses of C123: five examples in some order, mini-batches of two; the second batch consists of the places 2 and 3. -/
example : [3, 1, 0, 4, 2].Perm (List.range 5) ∧ 1 < max (5 / 2) 1 ∧ batchLength 5 2 = 2 ∧
    batchOf (shuffleBy (Equiv.swap (0 : Fin 5) 3) [3, 1, 0, 4, 2]) 2 1 = [0, 3] := by
  refine ⟨by decide, by decide, rfl, ?_⟩
  rw [batchOf_shuffle (show 1 < max (5 / 2) 1 by decide)]
  decide

/-- Mini-batches of two of the numbers 0, 0, 3: the mean is 1 in expectation, the variance is a quarter of the variance 2 of the
numbers. -/
example : expectation 3 (fun σ => batchMean (fun n => if n = 2 then 3 else 0) (batchOf (shuffleBy σ [2, 0, 1]) 2 0)) = 1 ∧
    variance 3 (fun σ => batchMean (fun n => if n = 2 then 3 else 0) (batchOf (shuffleBy σ [2, 0, 1]) 2 0)) = 1 / 2 := by
  rw [expected_batchMean (by norm_num) (by norm_num) (by decide) (by decide), variance_batchMean (by norm_num) (by norm_num)
    (by decide) (by decide)]
  simp only [sum_range_succ, range_zero, sum_empty, batchLength]
  norm_num

/-- A network without penalties has no bias: three inputs, four logistic neurons, two outputs. -/
example : ∀ k ∈ [Kind.fullyConnected 4 true .logistic ⟨0, 0, 0⟩, .fullyConnected 2 true .linear ⟨0, 0, 0⟩],
    k.RowWise ∧ k.NoDecay := by
  intro k hk
  simp only [List.mem_cons, List.not_mem_nil, or_false] at hk
  rcases hk with rfl | rfl
  · exact ⟨trivial, ⟨le_rfl, le_rfl⟩, fun _ _ _ h => by cases h⟩
  · exact ⟨trivial, ⟨le_rfl, le_rfl⟩, fun _ _ _ h => by cases h⟩

end

end Verif.Opt
