import Verif.Model.Float

/-!
# The sparseness penalty of the sparse auto-encoder in floating point arithmetic (src/SparseAutoEncoder.cpp)

The real-valued model of the cost and its gradient is in `Verif.Model.Unsupervised`.
-/

namespace Verif.Fp

/-- src/SparseAutoEncoder.cpp line 73, `meanActivation` of one hidden unit with the activations `z`. -/
def MeanActivation (A : Fpu) (N : ℕ) (z : ℕ → Dbl) (mean : Dbl) : Prop :=
  ∃ s, A.Sums ((List.range N).map z) s ∧ mean = A.div s (A.rnd N)

/-- src/SparseAutoEncoder.cpp lines 80-81: the summand of one hidden unit. -/
noncomputable def klTerm (A : Fpu) (rho mean : Dbl) : Dbl :=
  A.add (A.mul rho (A.flog (A.mul rho (A.div (.num 1) mean))))
    (A.mul (A.sub (.num 1) rho) (A.flog (A.mul (A.sub (.num 1) rho) (A.div (.num 1) (A.sub (.num 1) mean)))))

/-- src/SparseAutoEncoder.cpp lines 80-81 for all hidden units: `err` is the error before, `value` after the penalty was
added. -/
def WithPenalty (A : Fpu) (H : ℕ) (beta rho : Dbl) (mean : ℕ → Dbl) (err value : Dbl) : Prop :=
  ∃ s, A.Sums ((List.range H).map (fun j => klTerm A rho (mean j))) s ∧ value = A.add err (A.mul beta s)

/-- src/SparseAutoEncoder.cpp lines 109-111: what is added to the error signal of a hidden unit. -/
noncomputable def sparseSignal (A : Fpu) (beta rho mean : Dbl) : Dbl :=
  A.mul beta (A.add (A.mul (neg rho) (A.div (.num 1) mean))
    (A.mul (A.sub (.num 1) rho) (A.div (.num 1) (A.sub (.num 1) mean))))

/-- src/SparseAutoEncoder.cpp lines 108-114: `deltas1` of one hidden unit and one instance, for the logistic activation
function; `e` is the coefficient of `deltas2 * W2`. -/
noncomputable def delta1 (A : Fpu) (beta rho mean e z : Dbl) : Dbl :=
  A.mul (A.add e (sparseSignal A beta rho mean)) (logisticDerivative A z)

/-- src/SparseAutoEncoder.cpp line 115, one coefficient of `W1d`. -/
def W1d (A : Fpu) (N : ℕ) (beta rho mean lambda w : Dbl) (e z x : ℕ → Dbl) (d : Dbl) : Prop :=
  ∃ s, A.Sums ((List.range N).map (fun n => A.mul (delta1 A beta rho mean (e n) (z n)) (x n))) s ∧
    d = A.add (A.div s (A.rnd N)) (A.mul lambda w)

/-- src/SparseAutoEncoder.cpp line 116, one coefficient of `b1d`. -/
def B1d (A : Fpu) (N : ℕ) (beta rho mean : Dbl) (e z : ℕ → Dbl) (d : Dbl) : Prop :=
  ∃ s, A.Sums ((List.range N).map (fun n => delta1 A beta rho mean (e n) (z n))) s ∧ d = A.div s (A.rnd N)

end Verif.Fp
