import Verif.Model.Float
import Verif.Model.Loop

/-!
# Evaluation of learners with floating point numbers (src/Evaluation.cpp)

`Model/Evaluation.lean` computes with real numbers.  Here predictions and targets are values of the type `double`, so that
learners may predict infinities and NaN.  Measures that contain Eigen's `squaredNorm()` are relations, as its order of summation is
not known.
-/

namespace Verif.EvalFp

open Outcome Fp

noncomputable section

abbrev Learner := List Dbl → List Dbl

/-- What the functions use of a data set. -/
structure Data where
  samples : ℕ
  outputs : ℕ
  getInstance : ℕ → List Dbl
  getTarget : ℕ → List Dbl

variable (A : Fpu) (learner : Learner) (d : Data)

/-- `(a - b).squaredNorm()` of two vectors of the same size -/
def SquaredDistance (a b : List Dbl) (s : Dbl) : Prop :=
  a.length = b.length ∧ A.Sums (List.zipWith (fun x y => A.mul (A.sub x y) (A.sub x y)) a b) s

/-- lines 18-20: the loop of `sse` after `n` instances -/
def SSELoop : ℕ → Dbl → Prop
  | 0, s => s = .num 0
  | n + 1, s => ∃ t e, SSELoop n t ∧ SquaredDistance A (learner (d.getInstance n)) (d.getTarget n) e ∧ s = A.add t e

/-- lines 15-22: `s` is a value of `sse` -/
def SSE (s : Dbl) : Prop := SSELoop A learner d d.samples s

/-- lines 24-27: `s` is a value of `mse` -/
def MSE (s : Dbl) : Prop := ∃ t, SSE A learner d t ∧ s = A.div t (A.rnd d.samples)

/-- lines 29-32: `s` is a value of `rmse` -/
def RMSE (s : Dbl) : Prop := ∃ t, MSE A learner d t ∧ s = A.fsqrt t

/-- A vector as a matrix with one row, `transpose()` -/
def row (v : List Dbl) : Mtx := fun _ j => v.getD j (.num 0)

/-- lines 38-40: the loop of `ce` after `n` instances; `crossEntropy` needs vectors of the same size -/
def CELoop : ℕ → Dbl → Prop
  | 0, s => s = .num 0
  | n + 1, s => ∃ t e, CELoop n t ∧ (learner (d.getInstance n)).length = (d.getTarget n).length ∧
      CrossEntropy A 1 (d.getTarget n).length (row (learner (d.getInstance n))) (row (d.getTarget n)) e ∧ s = A.add t e

/-- lines 34-42: `s` is a value of `ce` -/
def CE (s : Dbl) : Prop := CELoop A learner d d.samples s

open Classical in
/-- Eigen's `maxCoeff(&i)`: the visitor replaces the maximum by greater coefficients only. -/
def maxLoop : List Dbl → ℕ → Dbl → ℕ → ℕ
  | [], _, _, i => i
  | x :: l, pos, m, i => if Lt m x then maxLoop l (pos + 1) x pos else maxLoop l (pos + 1) m i

/-- `target.maxCoeff(&i)`; an empty vector violates an assertion -/
def maxCoeff : List Dbl → Outcome ℕ
  | [] => ub
  | x :: l => ok (maxLoop l 1 x 0)

open Classical in
/-- lines 78-90: `oneOfCDecoding` -/
def oneOfCDecoding (v : List Dbl) : Outcome ℕ :=
  match v with
  | [x] => ok (if Le (.num (1 / 2)) x then 1 else 0)
  | v => maxCoeff v

/-- lines 50-51: the comparison in `accuracy` -/
def correct (n : ℕ) : Outcome Bool := do
  let p ← oneOfCDecoding (learner (d.getInstance n))
  let t ← oneOfCDecoding (d.getTarget n)
  ok (decide (p = t))

/-- lines 45-53: `accuracy` -/
def accuracy : Outcome Dbl := do
  let s ← forLoop d.samples (fun n s => do
    let c ← correct learner d n
    ok (A.add s (.num (if c then 1 else 0)))) (.num 0)
  ok (A.div s (A.rnd d.samples))

/-- lines 55-64: `weightedAccuracy` -/
def weightedAccuracy (weights : List Dbl) : Outcome Dbl :=
  forLoop d.samples (fun n s => do
    let c ← correct learner d n
    if c then do
      let w ← Outcome.read weights n
      ok (A.add s w)
    else ok s) (.num 0)

/-- lines 66-75: `confusionMatrix`, a matrix with `outputs()` rows and columns; writing outside violates an assertion -/
def confusionMatrix : Outcome (ℕ → ℕ → ℤ) :=
  forLoop d.samples (fun n M => do
    let t ← oneOfCDecoding (d.getTarget n)
    let p ← oneOfCDecoding (learner (d.getInstance n))
    if t < d.outputs ∧ p < d.outputs then ok (fun a b => if a = t ∧ b = p then M a b + 1 else M a b) else ub) (fun _ _ => 0)

/-- src/Evaluator.cpp lines 33-45: error, correct and wrong predictions after `n` instances -/
def EvaluateLoop : ℕ → Dbl × ℕ × ℕ → Prop
  | 0, r => r = (.num 0, 0, 0)
  | n + 1, r => ∃ q err j1 j2, EvaluateLoop n q ∧ SquaredDistance A (learner (d.getInstance n)) (d.getTarget n) err ∧
      oneOfCDecoding (d.getTarget n) = ok j1 ∧ oneOfCDecoding (learner (d.getInstance n)) = ok j2 ∧
      r = (A.add q.1 err, if j1 = j2 then (q.2.1 + 1, q.2.2) else (q.2.1, q.2.2 + 1))

/-- src/Evaluator.cpp lines 29-49: a report of `MulticlassEvaluator` (error, correct and wrong predictions) -/
def Report (r : Dbl × ℕ × ℕ) : Prop := ∃ q, EvaluateLoop A learner d d.samples q ∧ r = (A.div q.1 (A.rnd d.samples), q.2)

/-- `std::floor(x + 0.5)` and the conversion to `int`, which is undefined for infinities, NaN and large numbers -/
def rounded : List Dbl → Outcome ℤ
  | [] => ub
  | x :: _ =>
    match A.add x (.num (1 / 2)) with
    | .num y => if -2 ^ 31 ≤ ⌊y⌋ ∧ ⌊y⌋ < 2 ^ 31 then ok ⌊y⌋ else ub
    | _ => ub

/-- lines 101-114: the body of the loop of `classificationHits` -/
def hit (i : ℕ) : Outcome Bool :=
  if 2 ≤ d.outputs then do
    let klass ← maxCoeff (d.getTarget i)
    let result ← maxCoeff (learner (d.getInstance i))
    ok (decide (klass = result))
  else do
    let klass ← rounded A (d.getTarget i)
    let result ← rounded A (learner (d.getInstance i))
    ok (decide (klass = result))

/-- lines 92-119: `classificationHits` -/
def classificationHits : Outcome ℕ :=
  forLoop d.samples (fun i h => do
    let b ← hit A learner d i
    ok (if b then h + 1 else h)) 0

end

end Verif.EvalFp
