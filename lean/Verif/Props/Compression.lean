import Verif.Model.Compression
import Mathlib.Algebra.BigOperators.Field

/-!
# Compression matrices: C32
-/

namespace Verif.Compression

open Finset

/-! ## What the loops compute -/

/-- The content of entry `(m, i)`, given as a value (0 where the code is undefined). -/
noncomputable def value (t : Transformation) (inputDim paramDim ratio : ℕ) (draw : ℕ → ℕ → ℝ) (m i : ℕ) : ℝ :=
  match entry t inputDim paramDim ratio draw m i 0 with
  | .ok v => v
  | _ => 0

theorem entry_ok (t : Transformation) (inputDim paramDim : ℕ) {ratio : ℕ} (hr : 0 < ratio) (draw : ℕ → ℕ → ℝ) (m i : ℕ) :
    entry t inputDim paramDim ratio draw m i 0 = .ok (value t inputDim paramDim ratio draw m i) := by
  have h0 : ratio ≠ 0 := hr.ne'
  cases t <;> simp only [value, entry, if_neg h0]

theorem fill_inner (t : Transformation) (I P : ℕ) {ratio : ℕ} (hr : 0 < ratio) (draw : ℕ → ℕ → ℝ) (i k : ℕ) (cm : Mat)
    (hk : k ≤ cm.rows) (hi : i < cm.cols) (hz : ∀ m, cm.at_ m i = 0) :
    forLoop k (fun m => fillStep t I P ratio draw i m) cm =
      .ok ⟨cm.rows, cm.cols, fun m i' => if m < k ∧ i' = i then value t I P ratio draw m i else cm.at_ m i'⟩ := by
  induction k with
  | zero =>
    rw [forLoop]
    simp
  | succ k ih =>
    rw [forLoop, ih (by omega), Outcome.ok_bind, fillStep, if_pos ⟨by show k < cm.rows; omega, hi⟩]
    have e : (if k < k ∧ i = i then value t I P ratio draw k i else cm.at_ k i) = 0 := by
      rw [if_neg (fun h => absurd h.1 (lt_irrefl k)), hz]
    show (entry t I P ratio draw k i (if k < k ∧ i = i then value t I P ratio draw k i else cm.at_ k i) >>= _) = _
    rw [e, entry_ok t I P hr, Outcome.ok_bind, Outcome.pure_eq]
    congr 1
    simp only [Mat.set]
    congr 1
    funext m i'
    by_cases h1 : m = k ∧ i' = i
    · rw [if_pos h1, if_pos ⟨by omega, h1.2⟩, h1.1]
    · rw [if_neg h1]
      refine if_congr ?_ rfl rfl
      constructor
      · rintro ⟨a, b⟩
        exact ⟨by omega, b⟩
      · rintro ⟨a, b⟩
        refine ⟨?_, b⟩
        rcases Nat.lt_succ_iff_lt_or_eq.1 a with h | h
        · exact h
        · exact absurd ⟨h, b⟩ h1

theorem fill_outer (t : Transformation) (I P : ℕ) {ratio : ℕ} (hr : 0 < ratio) (draw : ℕ → ℕ → ℝ) (k R C : ℕ)
    (hP : P ≤ R) (hk : k ≤ C) :
    forLoop k (fun i => forLoop P fun m => fillStep t I P ratio draw i m) ⟨R, C, fun _ _ => 0⟩ =
      .ok ⟨R, C, fun m i => if m < P ∧ i < k then value t I P ratio draw m i else 0⟩ := by
  induction k with
  | zero =>
    rw [forLoop]
    congr 1
    congr 1
    funext m i
    rw [if_neg (fun h => absurd h.2 (Nat.not_lt_zero i))]
  | succ k ih =>
    rw [forLoop, ih (by omega), Outcome.ok_bind,
      fill_inner t I P hr draw k P _ hP (by show k < C; omega)
        (fun m => if_neg (fun h => absurd h.2 (lt_irrefl k)))]
    congr 1
    congr 1
    funext m i
    by_cases h1 : m < P ∧ i = k
    · rw [if_pos h1, if_pos ⟨h1.1, by omega⟩, h1.2]
    · rw [if_neg h1]
      refine if_congr ?_ rfl rfl
      constructor
      · rintro ⟨a, b⟩
        exact ⟨a, by omega⟩
      · rintro ⟨a, b⟩
        refine ⟨a, ?_⟩
        rcases Nat.lt_succ_iff_lt_or_eq.1 b with h | h
        · exact h
        · exact absurd ⟨a, h⟩ h1

/-- The compressor for `d` inputs and `p` outputs, `1 ≤ p ≤ d`. -/
theorem compressor_eq {d p : ℕ} (hp : 0 < p) (hpd : p ≤ d) (t : Transformation) (draw : ℕ → ℕ → ℝ) :
    compressor d p t draw =
      .ok ⟨p, d, fun m i => if m < p ∧ i < d then value t d p (d / p) draw m i else 0⟩ := by
  have hr : 0 < d / p := Nat.div_pos hpd hp
  rw [compressor, if_neg (by omega), Factory.new, if_neg (by omega), if_neg (by omega), Outcome.ok_bind]
  have hz : Factory.resize ⟨true, t, d, p⟩ ⟨p, d, fun _ _ => 0⟩ = ⟨p, d, fun _ _ => 0⟩ := by
    rw [Factory.resize, if_neg (by simp)]
  simp only [Factory.create, Int.toNat_natCast, hz, if_true]
  rw [fill]
  show (if p = 0 then _ else _) = _
  rw [if_neg (by omega)]
  exact fill_outer t d p hr draw d p d le_rfl le_rfl

/-! ## C32 -/

theorem sum_blocks (f : ℕ → ℝ) {d p q m : ℕ} (hq : 0 < q) (hqd : p * q ≤ d) (hm : m < p) :
    ∑ i ∈ range d, (if i / q = m then f i else 0) = ∑ k ∈ range q, f (m * q + k) := by
  have hmq : m * q + q ≤ d := by
    have : (m + 1) * q ≤ p * q := Nat.mul_le_mul_right q hm
    have e : (m + 1) * q = m * q + q := by ring
    omega
  rw [← Finset.sum_filter]
  symm
  refine Finset.sum_bij (fun k _ => m * q + k) ?_ ?_ ?_ ?_
  · intro k hk
    rw [mem_range] at hk
    rw [mem_filter, mem_range]
    refine ⟨by omega, ?_⟩
    rw [Nat.add_comm, Nat.add_mul_div_right _ _ hq, Nat.div_eq_of_lt hk, Nat.zero_add]
  · intro a _ b _ h
    omega
  · intro i hi
    rw [mem_filter, mem_range] at hi
    refine ⟨i % q, mem_range.2 (Nat.mod_lt _ hq), ?_⟩
    have := Nat.div_add_mod i q
    rw [hi.2, Nat.mul_comm] at this
    exact this
  · intro k _
    rfl

/-- **C32 (average, partial)**: with at least as many inputs as outputs, the average compressor exists and output `m` is the
mean of the `m`-th block of `inputDim / outputDim` consecutive inputs.  Missing: fewer inputs than outputs
(`average_ub`). -/
theorem average_partial {d p : ℕ} (hp : 0 < p) (hpd : p ≤ d) (draw : ℕ → ℕ → ℝ) :
    ∃ cm : Mat, compressor d p .average draw = .ok cm ∧
      ∀ (x : ℕ → ℝ), ∀ m < p,
        cm.transform x m = (∑ k ∈ range (d / p), x (m * (d / p) + k)) / ((d / p : ℕ) : ℝ) := by
  have hq : 0 < d / p := Nat.div_pos hpd hp
  have hq0 : d / p ≠ 0 := hq.ne'
  refine ⟨_, compressor_eq hp hpd .average draw, fun x m hm => ?_⟩
  have hqd : p * (d / p) ≤ d := Nat.mul_div_le d p
  rw [← sum_blocks x hq hqd hm, Mat.transform, Finset.sum_div]
  refine Finset.sum_congr rfl fun i hi => ?_
  rw [mem_range] at hi
  simp only [if_pos (⟨hm, hi⟩ : m < p ∧ i < d), value, entry, if_neg hq0]
  split
  · rw [mul_one_div]
  · rw [mul_zero, zero_div]

/-- Rows of the average matrix sum to one: a constant input is mapped to itself. -/
theorem average_rows_sum {d p : ℕ} (hp : 0 < p) (hpd : p ≤ d) (draw : ℕ → ℕ → ℝ) {cm : Mat}
    (h : compressor d p .average draw = .ok cm) {m : ℕ} (hm : m < p) : ∑ i ∈ range d, cm.at_ m i = 1 := by
  obtain ⟨cm', h', hx⟩ := average_partial hp hpd draw
  rw [h] at h'
  cases h'
  have hc : cm.cols = d := by
    rw [compressor_eq hp hpd] at h
    cases h
    rfl
  have := hx (fun _ => 1) m hm
  rw [Mat.transform, hc] at this
  simp only [one_mul] at this
  rw [this, Finset.sum_const, card_range, nsmul_eq_mul, mul_one]
  have hq : 0 < d / p := Nat.div_pos hpd hp
  exact div_self (by exact_mod_cast hq.ne')

/-- Every input belongs to at most one block. -/
theorem average_one_block {d p : ℕ} (hp : 0 < p) (hpd : p ≤ d) (draw : ℕ → ℕ → ℝ) {cm : Mat}
    (h : compressor d p .average draw = .ok cm) {i m m' : ℕ} (h1 : cm.at_ m i ≠ 0) (h2 : cm.at_ m' i ≠ 0) : m = m' := by
  rw [compressor_eq hp hpd] at h
  cases h
  have hq0 : d / p ≠ 0 := (Nat.div_pos hpd hp).ne'
  have key : ∀ m, (if m < p ∧ i < d then value .average d p (d / p) draw m i else 0) ≠ 0 → i / (d / p) = m := by
    intro m hm
    by_contra hne
    refine hm ?_
    split
    · simp only [value, entry, if_neg hq0, if_neg hne]
    · rfl
  rw [← key m h1, key m' h2]

/-- Blocks have equal size: exactly `inputDim / outputDim` entries of each row are not zero. -/
theorem average_block_size {d p : ℕ} (hp : 0 < p) (hpd : p ≤ d) (draw : ℕ → ℕ → ℝ) {cm : Mat}
    (h : compressor d p .average draw = .ok cm) {m : ℕ} (hm : m < p) :
    ((range d).filter fun i => cm.at_ m i ≠ 0).card = d / p := by
  rw [compressor_eq hp hpd] at h
  cases h
  have hq : 0 < d / p := Nat.div_pos hpd hp
  have hq0 : d / p ≠ 0 := hq.ne'
  have e := sum_blocks (fun _ => 1) hq (Nat.mul_div_le d p) hm
  rw [← Finset.sum_filter, Finset.sum_const, Finset.sum_const, card_range, nsmul_eq_mul, nsmul_eq_mul, mul_one, mul_one] at e
  have e' : ((range d).filter fun i => i / (d / p) = m).card = d / p := by exact_mod_cast e
  refine Eq.trans (congrArg Finset.card ?_) e'
  refine Finset.filter_congr fun i hi => ?_
  rw [mem_range] at hi
  simp only [if_pos (⟨hm, hi⟩ : m < p ∧ i < d), value, entry, if_neg hq0]
  constructor
  · intro h
    by_contra hne
    exact h (if_neg hne)
  · intro h
    rw [if_pos h]
    have : ((d / p : ℕ) : ℝ) ≠ 0 := by exact_mod_cast hq0
    exact one_div_ne_zero this

/-- **C32 (edge, partial)**: output `m` of an edge compressor is twice the difference of the second and the first part of
block `m`, divided by the block size. -/
theorem edge_partial {d p : ℕ} (hp : 0 < p) (hpd : p ≤ d) (draw : ℕ → ℕ → ℝ) :
    ∃ cm : Mat, compressor d p .edge draw = .ok cm ∧
      ∀ (x : ℕ → ℝ), ∀ m < p, cm.transform x m =
        ∑ k ∈ range (d / p), x (m * (d / p) + k) *
          (if k < d / p / 2 then -2 / ((d / p : ℕ) : ℝ) else 2 / ((d / p : ℕ) : ℝ)) := by
  have hq : 0 < d / p := Nat.div_pos hpd hp
  have hq0 : d / p ≠ 0 := hq.ne'
  refine ⟨_, compressor_eq hp hpd .edge draw, fun x m hm => ?_⟩
  have hqd : p * (d / p) ≤ d := Nat.mul_div_le d p
  have e := sum_blocks (fun i => x i * (if i % (d / p) < d / p / 2 then -2 / ((d / p : ℕ) : ℝ) else 2 / ((d / p : ℕ) : ℝ)))
    hq hqd hm
  rw [Mat.transform]
  refine Eq.trans (Finset.sum_congr rfl fun i hi => ?_) (e.trans (Finset.sum_congr rfl fun k hk => ?_))
  · have hi' : i < d := mem_range.1 hi
    simp only [if_pos (⟨hm, hi'⟩ : m < p ∧ i < d), value, entry, if_neg hq0]
    by_cases hc : i / (d / p) = m
    · rw [if_pos hc, if_pos hc]
    · rw [if_neg hc, if_neg hc, mul_zero]
  · have hk' : k < d / p := mem_range.1 hk
    have : (m * (d / p) + k) % (d / p) = k := by
      rw [Nat.add_comm, Nat.add_mul_mod_self_right, Nat.mod_eq_of_lt hk']
    show x (m * (d / p) + k) * _ = _
    rw [this]

theorem sum_signs (q : ℕ) (c : ℝ) :
    ∑ k ∈ range q, (if k < q / 2 then -c else c) = c * ((q : ℝ) - 2 * ((q / 2 : ℕ) : ℝ)) := by
  have e : q = q / 2 + (q - q / 2) := by omega
  have hle : q / 2 ≤ q := Nat.div_le_self q 2
  conv_lhs => rw [e]
  rw [Finset.sum_range_add, ← e]
  have h1 : ∑ k ∈ range (q / 2), (if k < q / 2 then -c else c) = (q / 2 : ℕ) * -c := by
    rw [Finset.sum_congr rfl fun k hk => if_pos (mem_range.1 hk), Finset.sum_const, card_range, nsmul_eq_mul]
  have h2 : ∑ k ∈ range (q - q / 2), (if q / 2 + k < q / 2 then -c else c) = ((q : ℝ) - (q / 2 : ℕ)) * c := by
    rw [Finset.sum_congr rfl fun k _ => if_neg (by omega), Finset.sum_const, card_range, nsmul_eq_mul, Nat.cast_sub hle]
  rw [h1, h2]
  ring

/-- **C32 (edge, partial)**: with an even block size a constant input is mapped to zero. -/
theorem edge_constant_partial {d p : ℕ} (hp : 0 < p) (hpd : p ≤ d) (hev : Even (d / p)) (draw : ℕ → ℕ → ℝ) {cm : Mat}
    (h : compressor d p .edge draw = .ok cm) (c : ℝ) {m : ℕ} (hm : m < p) : cm.transform (fun _ => c) m = 0 := by
  obtain ⟨cm', h', hx⟩ := edge_partial hp hpd draw
  rw [h] at h'
  cases h'
  rw [hx _ m hm, ← Finset.mul_sum]
  simp only [neg_div]
  rw [sum_signs]
  obtain ⟨k, hk⟩ := hev
  have h2 : d / p / 2 = k := by omega
  rw [h2, hk]
  push_cast
  ring

/-- With an odd block size it is not: the response to the constant input 1 is `2 / (d / p)`. -/
theorem edge_odd {d p : ℕ} (hp : 0 < p) (hpd : p ≤ d) (hodd : Odd (d / p)) (draw : ℕ → ℕ → ℝ) {cm : Mat}
    (h : compressor d p .edge draw = .ok cm) {m : ℕ} (hm : m < p) :
    cm.transform (fun _ => 1) m = 2 / ((d / p : ℕ) : ℝ) := by
  obtain ⟨cm', h', hx⟩ := edge_partial hp hpd draw
  rw [h] at h'
  cases h'
  rw [hx _ m hm]
  simp only [neg_div, one_mul]
  rw [sum_signs]
  obtain ⟨k, hk⟩ := hodd
  have h2 : d / p / 2 = k := by omega
  rw [h2, hk]
  push_cast
  ring

theorem forLoop_ub {σ : Type} (n : ℕ) (body : ℕ → σ → Outcome σ) (s : σ) (h : body 0 s = .ub) :
    forLoop (n + 1) body s = .ub := by
  rw [forLoop_shift, h]
  rfl

/-- **C32 fails** for average and edge matrices with fewer inputs than outputs: `compressionRatio` is 0 and the first
iteration divides by it. -/
theorem average_ub {d p : ℕ} (hd : 0 < d) (hdp : d < p) {t : Transformation} (ht : t = .average ∨ t = .edge)
    (draw : ℕ → ℕ → ℝ) : compressor d p t draw = .ub := by
  rw [compressor, if_neg (by omega), Factory.new, if_neg (by omega), if_neg (by omega), Outcome.ok_bind]
  have hz : Factory.resize ⟨true, t, d, p⟩ ⟨p, d, fun _ _ => 0⟩ = ⟨p, d, fun _ _ => 0⟩ := by
    rw [Factory.resize, if_neg (by simp)]
  simp only [Factory.create, Int.toNat_natCast, hz, if_true]
  rw [fill]
  show (if p = 0 then _ else _) = _
  rw [if_neg (by omega)]
  obtain ⟨d', rfl⟩ : ∃ d', d = d' + 1 := ⟨d - 1, by omega⟩
  obtain ⟨p', rfl⟩ : ∃ p', p = p' + 1 := ⟨p - 1, by omega⟩
  refine forLoop_ub d' _ _ (forLoop_ub p' _ _ ?_)
  rw [fillStep, if_pos ⟨Nat.succ_pos _, Nat.succ_pos _⟩]
  show (entry t (d' + 1) (p' + 1) ((d' + 1) / (p' + 1)) draw 0 0 0 >>= _) = _
  rw [Nat.div_eq_of_lt hdp]
  rcases ht with rfl | rfl <;> rfl

/-- A matrix passed to `createCompressionMatrix` that is larger than necessary keeps its size, and the ratio is computed
from that size: here row 1 of an average matrix for 4 inputs and 2 outputs is zero. -/
theorem average_oversized_fails (draw : ℕ → ℕ → ℝ) :
    ∃ cm : Mat, Factory.create ⟨true, .average, 4, 2⟩ draw ⟨2, 8, fun _ _ => 0⟩ = .ok cm ∧
      ∑ i ∈ range 4, cm.at_ 1 i = 0 := by
  refine ⟨_, fill_outer .average 4 2 (ratio := 8 / 2) (by norm_num) draw 4 2 8 le_rfl (by norm_num), ?_⟩
  refine Finset.sum_eq_zero fun i hi => ?_
  have hi' : i < 4 := mem_range.1 hi
  show (if 1 < 2 ∧ i < 4 then value .average 4 2 (8 / 2) draw 1 i else 0) = 0
  rw [if_pos ⟨by norm_num, hi'⟩]
  have : i / (8 / 2) ≠ 1 := by omega
  simp only [value, entry, if_neg (show (8 / 2 : ℕ) ≠ 0 by norm_num), if_neg this]

/-- Invalid dimensions are rejected. -/
theorem factory_throws (inputDim paramDim : ℤ) (t : Transformation) :
    Factory.new inputDim paramDim t = .throws ↔ inputDim < 1 ∨ paramDim < 1 := by
  rw [Factory.new]
  by_cases h1 : inputDim < 1
  · simp [h1]
  · by_cases h2 : paramDim < 1 <;> simp [h1, h2]

/-- Three outputs for seven inputs: blocks of two, the last input is not used. -/
example (draw : ℕ → ℕ → ℝ) (x : ℕ → ℝ) : ∃ cm : Mat, compressor 7 3 .average draw = .ok cm ∧
    cm.transform x 2 = (x 4 + x 5) / 2 := by
  obtain ⟨cm, h, hx⟩ := average_partial (d := 7) (p := 3) (by norm_num) (by norm_num) draw
  refine ⟨cm, h, ?_⟩
  rw [hx x 2 (by norm_num)]
  norm_num [Finset.sum_range_succ]

example : Even (8 / 4) := by decide
example : (0 : ℕ) < 2 ∧ 2 < 3 := by decide

end Verif.Compression
