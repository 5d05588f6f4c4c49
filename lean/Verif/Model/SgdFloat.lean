import Verif.Model.Float
import Verif.Model.Outcome

/-!
# Mini-batch stochastic gradient descent with floating point numbers (src/MBSGD.cpp)

`Model/MBSGD.lean` computes with real numbers.  Here all variables have the type `double`, so that a training may diverge to
infinities and NaN.  The problem is an arbitrary function: the gradient that the `k`-th call of `errorGradient` answers for the
parameters of the network; the mini-batches are part of it.  Builds with and without `NDEBUG` are distinguished by `checks`
(OpenANN/util/AssertionMacros.h lines 4-80).  Interrupts are left out.
-/

namespace Verif.SgdFp

open Outcome Fp

noncomputable section

abbrev Vec := ℕ → Dbl

/-- The gradients of the calls of `errorGradient`, given the parameters of the network. -/
abbrev Gradients := ℕ → Vec → Vec

/-- The constants of the optimiser, lines 20-26, and the stopping criteria. -/
structure Setup where
  P : ℕ
  batches : ℕ
  nesterov : Bool
  alphaDecay : Dbl
  minAlpha : Dbl
  etaGain : Dbl
  maxEta : Dbl
  minGain : Dbl
  maxGain : Dbl
  maximalIterations : ℤ
  minimalSearchSpaceStep : Dbl

/-- The variables of the optimiser; `w` are the parameters of the network, `calls` counts the gradients. -/
structure State where
  alpha : Dbl
  eta : Dbl
  gains : Vec
  parameters : Vec
  momentum : Vec
  w : Vec
  calls : ℕ

variable (A : Fpu) (e : Setup) (checks : Bool) (G : Gradients)

/-- `std::isnan(x) || std::isinf(x)` -/
def Broken (x : Dbl) : Prop := ∀ y, x ≠ .num y

open Classical in
/-- `std::max(a, b)`: `(a < b) ? b : a` -/
def fmax (a b : Dbl) : Dbl := if Lt a b then b else a

open Classical in
/-- `std::min(a, b)`: `(b < a) ? b : a` -/
def fmin (a b : Dbl) : Dbl := if Lt b a then b else a

/-- line 25 -/
def Setup.useGain : Prop := e.minGain ≠ .num 1 ∨ e.maxGain ≠ .num 1

open Classical in
/-- OpenANN/util/EigenWrapper.h lines 49-56, `OPENANN_CHECK_MATRIX_BROKEN` -/
def check (v : Vec) : Outcome Unit := if checks = true ∧ ∃ p < e.P, Broken (v p) then checkFailed else ok ()

open Classical in
/-- OpenANN/util/AssertionMacros.h, `OPENANN_CHECK_INF_AND_NAN` -/
def checkValue (x : Dbl) : Outcome Unit := if checks = true ∧ Broken x then checkFailed else ok ()

open Classical in
/-- lines 110-114: the new gain of one parameter -/
def newGain (momentum gradient gain : Dbl) : Dbl :=
  fmin e.maxGain (fmax e.minGain
    (if Le (.num 0) (A.mul momentum gradient) then A.add gain (A.rnd 0.05) else A.mul gain (A.rnd 0.95)))

/-- lines 98-102: the parameters for which the gradient is computed -/
def evaluated (s : State) : Vec :=
  if e.nesterov then fun p => A.add (s.parameters p) (A.mul s.eta (s.momentum p)) else s.w

open Classical in
/-- lines 106-117: the gains after the gradient `g` -/
def newGains (s : State) (g : Vec) : Vec :=
  if e.useGain then fun p => newGain A e (s.momentum p) (g p) (s.gains p) else s.gains

open Classical in
/-- lines 106-117: the scaled gradient -/
def scaled (s : State) (g : Vec) : Vec := if e.useGain then fun p => A.mul (g p) (newGains A e s g p) else g

/-- line 119 -/
def newMomentum (s : State) (g : Vec) : Vec :=
  fun p => A.sub (A.mul s.eta (s.momentum p)) (A.mul s.alpha (scaled A e s g p))

/-- line 121 -/
def newParameters (s : State) (g : Vec) : Vec := fun p => A.add (s.parameters p) (newMomentum A e s g p)

/-- lines 98-132: one mini-batch -/
def update (s : State) : Outcome State := do
  let g := G s.calls (evaluated A e s)
  check e checks g
  check e checks (newMomentum A e s g)
  check e checks (newParameters A e s g)
  let alpha := fmax (A.mul s.alpha e.alphaDecay) e.minAlpha
  checkValue checks alpha
  let eta := fmin (A.add s.eta e.etaGain) e.maxEta
  checkValue checks eta
  ok { alpha := alpha, eta := eta, gains := newGains A e s g, parameters := newParameters A e s g,
       momentum := newMomentum A e s g, w := if e.nesterov then evaluated A e s else newParameters A e s g,
       calls := s.calls + 1 }

/-- lines 96-138: mini-batches -/
def updates : ℕ → State → Outcome State
  | 0, s => ok s
  | n + 1, s => updates n s >>= update A e checks G

/-- `momentum.norm()`; the order of the summation is not known -/
def Norm (v : Vec) (x : Dbl) : Prop :=
  ∃ t, A.Sums ((List.range e.P).map fun p => A.mul (v p) (v p)) t ∧ x = A.fsqrt t

/-- lines 144-149: `run` is an answer of `step()` after `iteration` iterations -/
def Continues (iteration : ℤ) (s : State) (run : Bool) : Prop :=
  ∃ x, Norm A e s.momentum x ∧ (run = true ↔ (e.maximalIterations = -1 ∨ iteration < e.maximalIterations) ∧
    (e.minimalSearchSpaceStep = .num 0 ∨ Le e.minimalSearchSpaceStep x))

/-- lines 80-153: `step()` of an initialised optimiser that has done `iteration` iterations ends in `t` and answers `run` -/
def Step (iteration : ℤ) (s : State) (run : Bool) (t : State) : Prop :=
  updates A e checks G e.batches s = ok t ∧ Continues A e (iteration + 1) t run

/-- lines 58-78: `optimize()` ends in `t` -/
inductive Optimize : ℤ → State → State → Prop
  | last {i : ℤ} {s t : State} : Step A e checks G i s false t → Optimize i s t
  | next {i : ℤ} {s t u : State} : Step A e checks G i s true t → Optimize (i + 1) t u → Optimize i s u

end

end Verif.SgdFp
