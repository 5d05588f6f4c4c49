import Verif.Model.Matrix

/-!
# Loops that fill a matrix

Tools for proofs: an invariant of a loop, and matrices that are filled row by row.
-/

namespace Verif

open Outcome

theorem forLoop_inv {σ : Type} {n : ℕ} {body : ℕ → σ → Outcome σ} (P : ℕ → σ → Prop) {s : σ} (h0 : P 0 s)
    (h : ∀ i < n, ∀ s, P i s → ∃ s', body i s = ok s' ∧ P (i + 1) s') : ∃ s', forLoop n body s = ok s' ∧ P n s' := by
  induction n with
  | zero => exact ⟨s, rfl, h0⟩
  | succ n ih =>
    obtain ⟨s1, r1, p1⟩ := ih fun i hi => h i (Nat.lt_succ_of_lt hi)
    obtain ⟨s2, r2, p2⟩ := h n (Nat.lt_succ_self n) s1 p1
    exact ⟨s2, by rw [forLoop, r1, ok_bind, r2], p2⟩

/-- A matrix of size `N x D` whose coefficients before position `L` of row `n` are those of `w`. -/
structure Fill (w : ℕ → ℕ → ℝ) (N D n L : ℕ) (m : Mat) : Prop where
  rows : m.rows = N
  cols : m.cols = D
  done : ∀ i pos, (i < n ∧ pos < D) ∨ (i = n ∧ pos < L) → m.val i pos = w i pos

theorem Fill.set {w : ℕ → ℕ → ℝ} {N D n L : ℕ} {m : Mat} (h : Fill w N D n L m) (hn : n < N) (hL : L < D) {v : ℝ} (hv : v = w n L) :
    ∃ m', m.set n L v = ok m' ∧ Fill w N D n (L + 1) m' := by
  refine ⟨_, Mat.set_ok (by rw [h.rows]; exact hn) (by rw [h.cols]; exact hL) v, h.rows, h.cols, ?_⟩
  intro i pos hp
  show (if i = n ∧ pos = L then v else m.val i pos) = w i pos
  by_cases hc : i = n ∧ pos = L
  · rw [if_pos hc, hc.1, hc.2, hv]
  · rw [if_neg hc]
    refine h.done i pos ?_
    rcases hp with hp | hp
    · exact Or.inl hp
    · right
      refine ⟨hp.1, ?_⟩
      have : pos ≠ L := fun e => hc ⟨hp.1, e⟩
      omega

theorem Fill.next {w : ℕ → ℕ → ℝ} {N D n : ℕ} {m : Mat} (h : Fill w N D n D m) : Fill w N D (n + 1) 0 m :=
  ⟨h.rows, h.cols, fun i pos hp => h.done i pos (by omega)⟩

theorem Fill.get {w : ℕ → ℕ → ℝ} {N D n L : ℕ} {m : Mat} (h : Fill w N D n L m) (hn : n < N) {p : ℕ} (hp : p < L) (hL : L ≤ D) :
    m.get n p = ok (w n p) := by
  rw [Mat.get_nat (by rw [h.rows]; exact hn) (by rw [h.cols]; omega), h.done n p (Or.inr ⟨rfl, hp⟩)]

end Verif
