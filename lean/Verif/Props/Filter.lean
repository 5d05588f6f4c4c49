import Verif.Model.Preprocessing
import Verif.Props.Evaluation
import Mathlib.Tactic.Linarith
import Mathlib.Tactic.FieldSimp
import Mathlib.Tactic.NormNum
import Mathlib.Tactic.Ring

/-!
# C52: signal filter and downsampling
-/

namespace Verif.Pre

open Outcome Finset

noncomputable section

/-- The time `t - p`, reflected at the beginning of the signal. -/
def reflected (t p : ℕ) : ℕ := if p ≤ t then t - p else p - t

/-- The documented difference equation for a filtered signal `y` (channel `c`, time `t`). -/
def DifferenceEquation (x y : Mat) (b a : List ℝ) (c t : ℕ) : Prop :=
  a.getD 0 0 * y.val c t = ∑ p ∈ range b.length, b.getD p 0 * x.val c (reflected t p) -
    ∑ q ∈ range (a.length - 1), a.getD (q + 1) 0 * y.val c (reflected t (q + 1))

/-- The matrix with another coefficient. -/
def put (m : Mat) (i j : ℕ) (v : ℝ) : Mat := ⟨m.rows, m.cols, fun a b => if a = i ∧ b = j then v else m.val a b⟩

theorem put_self (m : Mat) (i j : ℕ) : put m i j (m.val i j) = m := by
  unfold put
  cases m with
  | mk r c v =>
    congr 1
    funext a b
    split
    · rename_i h; rw [h.1, h.2]
    · rfl

theorem put_put (m : Mat) (i j : ℕ) (v w : ℝ) : put (put m i j v) i j w = put m i j w := by
  unfold put
  congr 1
  funext a b
  by_cases h : a = i ∧ b = j
  · rw [if_pos h, if_pos h]
  · rw [if_neg h, if_neg h]
    exact if_neg h

theorem source_eq {x : Mat} {c t p : ℕ} (hc : c < x.rows) (h : reflected t p < x.cols) :
    source x c t p = ok (x.val c (reflected t p)) := by
  unfold source
  have e : (if 0 ≤ (t : ℤ) - p then (t : ℤ) - p else -((t : ℤ) - p)) = ((reflected t p : ℕ) : ℤ) := by
    unfold reflected
    split <;> split <;> omega
  rw [e, Mat.get_nat hc h]

/-- The coefficient that the program uses for the value at the time `t - p`. -/
def coefficient (b a : List ℝ) (p : ℕ) : ℝ := b.getD p 0 + if 0 < p then a.getD p 0 else 0

theorem read_getD {l : List ℝ} {i : ℕ} (h : i < l.length) : Outcome.read l i = ok (l.getD i 0) := by
  rw [Outcome.read_of_lt h, List.getD_eq_getElem?_getD, List.getElem?_eq_getElem h]
  rfl

theorem getD_ge {l : List ℝ} {i : ℕ} (h : l.length ≤ i) : l.getD i 0 = 0 := by
  rw [List.getD_eq_getElem?_getD, List.getElem?_eq_none h]
  rfl

theorem coefficients_step {x y : Mat} {b a : List ℝ} {c t p : ℕ} (hc : c < x.rows) (hyc : c < y.rows) (hyt : t < y.cols)
    (h : reflected t p < x.cols) :
    (feedForward x b c t p y >>= feedBack x a c t p) =
      ok (put y c t (y.val c t + coefficient b a p * x.val c (reflected t p))) := by
  have hf : feedForward x b c t p y = ok (put y c t (y.val c t + b.getD p 0 * x.val c (reflected t p))) := by
    unfold feedForward
    split
    · rename_i hp
      rw [source_eq hc h, ok_bind, Mat.get_nat hyc hyt, ok_bind, read_getD hp, ok_bind, Mat.set_ok hyc hyt]
      rfl
    · rename_i hp
      rw [getD_ge (not_lt.1 hp), zero_mul, add_zero, put_self]
  rw [hf, ok_bind]
  unfold feedBack coefficient
  split
  · rename_i hp
    rw [source_eq hc h, ok_bind, Mat.get_nat (m := put y c t _) hyc hyt, ok_bind, read_getD hp.2, ok_bind,
      Mat.set_ok (m := put y c t _) hyc hyt, if_pos hp.1]
    have : (put y c t (y.val c t + b.getD p 0 * x.val c (reflected t p))).val c t =
        y.val c t + b.getD p 0 * x.val c (reflected t p) := by simp [put]
    rw [this]
    have e : y.val c t + b.getD p 0 * x.val c (reflected t p) + a.getD p 0 * x.val c (reflected t p) =
      y.val c t + (b.getD p 0 + a.getD p 0) * x.val c (reflected t p) := by ring
    rw [e]
    exact congrArg ok (put_put _ _ _ _ _)
  · rename_i hp
    have : (if 0 < p then a.getD p 0 else 0) = 0 := by
      split
      · rename_i h0
        exact getD_ge (by omega)
      · rfl
    rw [this, add_zero]

theorem filterStep_eq {x y : Mat} {b a : List ℝ} {c t : ℕ} (hc : c < x.rows) (hyc : c < y.rows) (hyt : t < y.cols)
    (ht : t < x.cols) (hb : b.length ≤ x.cols) (ha : a.length ≤ x.cols) (h0 : 0 < a.length) :
    filterStep x b a c t y = ok (put y c t ((y.val c t + ∑ p ∈ range (max b.length a.length),
      coefficient b a p * x.val c (reflected t p)) / a.getD 0 0)) := by
  unfold filterStep
  have := forLoop_eq (n := max b.length a.length) (body := fun pq y => feedForward x b c t pq y >>= feedBack x a c t pq)
    (fun k => put y c t (y.val c t + ∑ p ∈ range k, coefficient b a p * x.val c (reflected t p))) (fun i hi => by
      have hr : reflected t i < x.cols := by
        have : max b.length a.length ≤ x.cols := max_le hb ha
        unfold reflected
        split <;> omega
      rw [coefficients_step (y := put y c t _) hc hyc hyt hr, put_put]
      congr 2
      simp only [put, and_self, if_true]
      rw [Finset.sum_range_succ, add_assoc])
  simp only [range_zero, sum_empty, add_zero, put_self] at this
  rw [this, ok_bind, divide, Mat.get_nat (m := put y c t _) hyc hyt, ok_bind, read_getD h0, ok_bind,
    Mat.set_ok (m := put y c t _) hyc hyt]
  have e : (put y c t (y.val c t + ∑ p ∈ range (max b.length a.length), coefficient b a p * x.val c (reflected t p))).val c t =
      y.val c t + ∑ p ∈ range (max b.length a.length), coefficient b a p * x.val c (reflected t p) := by simp [put]
  rw [e]
  exact congrArg ok (put_put _ _ _ _ _)

/-- What the program computes: all coefficients are applied to the input signal. -/
theorem filter_value (x y : Mat) (b a : List ℝ) (hr : x.rows ≤ y.rows) (hcol : x.cols ≤ y.cols) (hb : b.length ≤ x.cols)
    (ha : a.length ≤ x.cols) (h0 : 0 < a.length) :
    ∃ z, filter x y b a = ok z ∧ z.rows = y.rows ∧ z.cols = y.cols ∧ ∀ c < x.rows, ∀ t < x.cols,
      z.val c t = (∑ p ∈ range (max b.length a.length), coefficient b a p * x.val c (reflected t p)) / a.getD 0 0 := by
  have hout : ∃ out : ℕ → ℕ → ℝ, ∀ c t, out c t =
      (∑ p ∈ range (max b.length a.length), coefficient b a p * x.val c (reflected t p)) / a.getD 0 0 :=
    ⟨_, fun _ _ => rfl⟩
  obtain ⟨out, hout⟩ := hout
  refine ⟨⟨y.rows, y.cols, fun i j => if i < x.rows ∧ j < x.cols then out i j else 0⟩, ?_, rfl, rfl, ?_⟩
  · unfold filter
    have := forLoop_eq (n := x.rows) (body := fun c y => forLoop x.cols (fun t y => filterStep x b a c t y) y)
      (fun k => (⟨y.rows, y.cols, fun i j => if i < k ∧ j < x.cols then out i j else 0⟩ : Mat)) (fun c hc => by
        have := forLoop_eq (n := x.cols) (body := fun t y => filterStep x b a c t y)
          (fun k => (⟨y.rows, y.cols, fun i j => if (i < c ∧ j < x.cols) ∨ (i = c ∧ j < k) then out i j else 0⟩ : Mat))
          (fun t ht => by
            refine (filterStep_eq hc ?_ ?_ ht hb ha h0).trans ?_
            · exact lt_of_lt_of_le hc hr
            · exact lt_of_lt_of_le ht hcol
            congr 1
            unfold put
            congr 1
            funext i j
            by_cases hij : i = c ∧ j = t
            · obtain ⟨rfl, rfl⟩ := hij
              simp only [and_self, if_true, lt_irrefl, false_and, and_false, or_self, if_false, zero_add,
                Nat.lt_succ_self, or_true, hout]
            · rw [if_neg hij]
              have : ((i < c ∧ j < x.cols) ∨ (i = c ∧ j < t)) ↔ ((i < c ∧ j < x.cols) ∨ (i = c ∧ j < t + 1)) := by omega
              simp only [this])
        simp only [Nat.not_lt_zero, and_false, or_false] at this
        rw [this]
        congr 2
        funext i j
        have : ((i < c ∧ j < x.cols) ∨ (i = c ∧ j < x.cols)) ↔ (i < c + 1 ∧ j < x.cols) := by omega
        simp only [this])
    simpa using this
  · intro c hc t ht
    simp only [if_pos (And.intro hc ht), hout]

/-- **C52 (partial)**: for filters without feedback (one coefficient in `a`) the result satisfies the difference equation.
Missing: filters with feedback (`filter_feedback_fails`) and filters longer than the signal (`filter_long_ub`). -/
theorem filter_equation_partial (x y : Mat) (b : List ℝ) (a0 : ℝ) (h0 : a0 ≠ 0) (hr : x.rows ≤ y.rows) (hcol : x.cols ≤ y.cols)
    (hb : b.length ≤ x.cols) (hx : 0 < x.cols) :
    ∃ z, filter x y b [a0] = ok z ∧ ∀ c < x.rows, ∀ t < x.cols, DifferenceEquation x z b [a0] c t := by
  obtain ⟨z, hz, _, _, hv⟩ := filter_value x y b [a0] hr hcol hb hx (by simp)
  refine ⟨z, hz, fun c hc t ht => ?_⟩
  unfold DifferenceEquation
  rw [hv c hc t ht]
  simp only [List.getD_cons_zero, List.length_singleton, Nat.sub_self, range_zero, sum_empty, sub_zero]
  rw [mul_div_cancel₀ _ h0]
  have hco : ∀ p, coefficient b [a0] p = b.getD p 0 := by
    intro p
    unfold coefficient
    split
    · rw [getD_ge (l := [a0]) ‹0 < p›, add_zero]
    · rw [add_zero]
  simp only [hco]
  refine (Finset.sum_subset (Finset.range_mono (le_max_left _ _)) fun p _ hp => ?_).symm
  rw [getD_ge (by simpa using hp), zero_mul]

example : ∃ (x y : Mat) (b : List ℝ), x.rows ≤ y.rows ∧ x.cols ≤ y.cols ∧ b.length ≤ x.cols ∧ 0 < x.cols ∧ b.length = 2 :=
  ⟨⟨1, 3, fun _ j => j⟩, ⟨1, 3, fun _ _ => 0⟩, [1, 2], by simp⟩

/-- **C52 is false** for filters with feedback: the feedback coefficients are applied to the input, with the wrong sign. -/
theorem filter_feedback_fails : ∃ z, filter ⟨1, 2, fun _ t => if t = 0 then 1 else 0⟩ ⟨1, 2, fun _ _ => 0⟩ [1] [1, 1] = ok z ∧
    ¬ DifferenceEquation ⟨1, 2, fun _ t => if t = 0 then 1 else 0⟩ z [1] [1, 1] 0 1 := by
  obtain ⟨z, hz, _, _, hv⟩ := filter_value ⟨1, 2, fun _ t => if t = 0 then 1 else 0⟩ ⟨1, 2, fun _ _ => 0⟩ [1] [1, 1]
    (by simp) (by simp) (by simp) (by simp) (by simp)
  refine ⟨z, hz, ?_⟩
  have h0 := hv 0 (by simp) 0 (by simp)
  have h1 := hv 0 (by simp) 1 (by simp)
  simp [Finset.sum_range_succ, coefficient, reflected] at h0 h1
  simp [DifferenceEquation, reflected, h0, h1]
  norm_num

/-- Filters that are longer than the signal read outside of it. -/
theorem filter_long_ub (x y : Mat) (b a : List ℝ) (hrow : 0 < x.rows) (hx : 0 < x.cols) (hr : x.rows ≤ y.rows)
    (hcol : x.cols ≤ y.cols) (hb : x.cols < b.length) : filter x y b a = ub := by
  have hstep : ∀ c < x.rows, ∀ t < x.cols, ∀ (z : Mat), z.rows = y.rows → z.cols = y.cols →
      ((feedForward x b c t x.cols z = ub ∨ 0 < t) ∧ ∀ p, (feedForward x b c t p z >>= feedBack x a c t p) = ub ∨
        ∃ z', (feedForward x b c t p z >>= feedBack x a c t p) = ok z' ∧ z'.rows = y.rows ∧ z'.cols = y.cols) := by
    intro c hc t ht z hz1 hz2
    have hcz : c < z.rows := by omega
    have htz : t < z.cols := by omega
    refine ⟨?_, fun p => ?_⟩
    · rcases Nat.eq_zero_or_pos t with rfl | h
      · left
        unfold feedForward
        rw [if_pos hb]
        have : source x c 0 x.cols = ub := by
          unfold source
          rw [if_neg (by omega)]
          exact Mat.get_ub (by omega)
        rw [this]
        rfl
      · exact Or.inr h
    · by_cases hp : reflected t p < x.cols
      · exact Or.inr ⟨_, coefficients_step hc hcz htz hp, hz1, hz2⟩
      · have hs : source x c t p = ub := by
          unfold source
          refine Mat.get_ub ?_
          unfold reflected at hp
          split at hp <;> split <;> omega
        unfold feedForward feedBack
        split
        · left; rw [hs]; rfl
        · rw [ok_bind]
          split
          · left; rw [hs]; rfl
          · exact Or.inr ⟨z, rfl, hz1, hz2⟩
  -- already the first coefficient of the output is undefined
  have hloop : ∀ n, forLoop n (fun pq z => feedForward x b 0 0 pq z >>= feedBack x a 0 0 pq) ⟨y.rows, y.cols, fun _ _ => 0⟩ = ub ∨
      ∃ z', forLoop n (fun pq z => feedForward x b 0 0 pq z >>= feedBack x a 0 0 pq) ⟨y.rows, y.cols, fun _ _ => 0⟩ = ok z' ∧
        z'.rows = y.rows ∧ z'.cols = y.cols ∧ n ≤ x.cols := by
    intro n
    induction n with
    | zero => exact Or.inr ⟨_, rfl, rfl, rfl, Nat.zero_le _⟩
    | succ n ih =>
      rw [forLoop]
      rcases ih with h | ⟨z', h, h1, h2, h3⟩
      · exact Or.inl (by rw [h]; rfl)
      · rw [h, ok_bind]
        obtain ⟨hu, hs⟩ := hstep 0 hrow 0 hx z' h1 h2
        rcases Nat.lt_or_ge n x.cols with hn | hn
        · rcases hs n with h4 | ⟨z2, h4, h5, h6⟩
          · exact Or.inl h4
          · exact Or.inr ⟨z2, h4, h5, h6, hn⟩
        · have : n = x.cols := by omega
          subst this
          left
          rcases hu with hu | hu
          · rw [hu]; rfl
          · omega
  have hfirst : filterStep x b a 0 0 ⟨y.rows, y.cols, fun _ _ => 0⟩ = ub := by
    unfold filterStep
    rcases hloop (max b.length a.length) with h | ⟨z', _, _, _, h⟩
    · rw [h]; rfl
    · have := le_max_left b.length a.length
      omega
  have inner : ∀ n, 0 < n → forLoop n (fun t z => filterStep x b a 0 t z) ⟨y.rows, y.cols, fun _ _ => 0⟩ = ub := by
    intro n hn
    induction n with
    | zero => omega
    | succ n ih =>
      rw [forLoop]
      rcases Nat.eq_zero_or_pos n with rfl | h
      · rw [forLoop, ok_bind, hfirst]
      · rw [ih h]; rfl
  have outer : ∀ n, 0 < n → forLoop n (fun c z => forLoop x.cols (fun t z => filterStep x b a c t z) z)
      ⟨y.rows, y.cols, fun _ _ => 0⟩ = ub := by
    intro n hn
    induction n with
    | zero => omega
    | succ n ih =>
      rw [forLoop]
      rcases Nat.eq_zero_or_pos n with rfl | h
      · rw [forLoop, ok_bind, inner _ hx]
      · rw [ih h]; rfl
  exact outer _ hrow

/-! ## Downsampling -/

/-- **C52**: downsampling keeps exactly every `factor`-th value. -/
theorem downsample_value (y d : Mat) (factor : ℕ) (hr : y.rows ≤ d.rows)
    (hc : ∀ k < d.cols, k * factor < y.cols) :
    ∃ e, downsample y d factor = ok e ∧ e.rows = d.rows ∧ e.cols = d.cols ∧
      ∀ c < y.rows, ∀ k < d.cols, e.val c k = y.val c (k * factor) := by
  refine ⟨⟨d.rows, d.cols, fun i j => if i < y.rows ∧ j < d.cols then y.val i (j * factor) else d.val i j⟩, ?_, rfl, rfl,
    fun c hc' k hk => by simp [hc', hk]⟩
  unfold downsample
  have := forLoop_eq (n := y.rows) (body := fun c d => do
    let r ← forLoop d.cols (fun target (s : Mat × ℤ) => do
      let v ← y.get c s.2
      let d' ← s.1.set c target v
      ok (d', s.2 + factor)) (d, (0 : ℤ))
    ok r.1)
    (fun k => (⟨d.rows, d.cols, fun i j => if i < k ∧ j < d.cols then y.val i (j * factor) else d.val i j⟩ : Mat))
    (fun c hcr => by
      have := forLoop_eq (n := d.cols) (body := fun target (s : Mat × ℤ) => do
          let v ← y.get c s.2
          let d' ← s.1.set c target v
          ok (d', s.2 + factor))
        (fun k => ((⟨d.rows, d.cols, fun i j => if (i < c ∧ j < d.cols) ∨ (i = c ∧ j < k) then y.val i (j * factor)
          else d.val i j⟩ : Mat), ((k * factor : ℕ) : ℤ)))
        (fun k hk => by
          rw [Mat.get_nat hcr (hc k hk), ok_bind, Mat.set_ok (by exact lt_of_lt_of_le hcr hr) (by exact hk), ok_bind]
          refine congrArg ok (Prod.ext ?_ (by push_cast; ring))
          simp only
          congr 1
          funext i j
          by_cases hij : i = c ∧ j = k
          · obtain ⟨rfl, rfl⟩ := hij
            simp
          · rw [if_neg hij]
            have : ((i < c ∧ j < d.cols) ∨ (i = c ∧ j < k)) ↔ ((i < c ∧ j < d.cols) ∨ (i = c ∧ j < k + 1)) := by omega
            simp only [this])
      simp only [Nat.not_lt_zero, and_false, or_false, Nat.zero_mul, Nat.cast_zero] at this
      simp only
      rw [this, ok_bind]
      simp only
      congr 2
      funext i j
      have : ((i < c ∧ j < d.cols) ∨ (i = c ∧ j < d.cols)) ↔ (i < c + 1 ∧ j < d.cols) := by omega
      simp only [this])
  simpa using this

example : ∃ (y d : Mat), y.rows ≤ d.rows ∧ (∀ k < d.cols, k * 2 < y.cols) ∧ d.cols = 3 :=
  ⟨⟨1, 5, fun _ j => j⟩, ⟨1, 3, fun _ _ => 0⟩, by simp, by simp; omega, rfl⟩

end

end Verif.Pre
