import Verif.Model.Loop
import Mathlib.Analysis.Real.Sqrt

/-!
# Evaluation of learners (src/Evaluation.cpp, src/Evaluator.cpp)

A learner is an arbitrary function on vectors, a data set gives a vector and a target for each instance.  Numbers are reals.
Vectors are lists; combining vectors of different lengths violates an Eigen assertion.
-/

namespace Verif.Eval

open Outcome

noncomputable section

abbrev Learner := List ℝ → List ℝ

/-- What the functions use of a data set. -/
structure Data where
  samples : ℕ
  outputs : ℕ
  getInstance : ℕ → List ℝ
  getTarget : ℕ → List ℝ

/-- `(a - b).squaredNorm()` -/
def squaredDistance (a b : List ℝ) : Outcome ℝ :=
  if a.length = b.length then ok ((List.zipWith (fun x y => (x - y) * (x - y)) a b).sum) else ub

/-- lines 15-22 -/
def sse (learner : Learner) (d : Data) : Outcome ℝ :=
  forLoop d.samples (fun n s => do
    let e ← squaredDistance (learner (d.getInstance n)) (d.getTarget n)
    ok (s + e)) 0

/-- lines 24-27; the result is not a number if there are no instances -/
def mse (learner : Learner) (d : Data) : Outcome ℝ := sse learner d >>= fun s => ok (s / (d.samples : ℝ))

/-- lines 29-32 -/
def rmse (learner : Learner) (d : Data) : Outcome ℝ := mse learner d >>= fun s => ok (Real.sqrt s)

/-- Eigen's `maxCoeff(&i)`: the visitor replaces the maximum by larger coefficients only. -/
def maxLoop : List ℝ → ℕ → ℝ → ℕ → ℕ
  | [], _, _, i => i
  | x :: l, pos, m, i => if m < x then maxLoop l (pos + 1) x pos else maxLoop l (pos + 1) m i

/-- `target.maxCoeff(&i)`; an empty vector violates an assertion -/
def maxCoeff : List ℝ → Outcome ℕ
  | [] => ub
  | x :: l => ok (maxLoop l 1 x 0)

/-- lines 78-90 -/
def oneOfCDecoding (v : List ℝ) : Outcome ℕ :=
  match v with
  | [x] => ok (if x ≥ 1 / 2 then 1 else 0)
  | v => maxCoeff v

/-- The comparison of lines 50-51 and 60-61. -/
def correct (learner : Learner) (d : Data) (n : ℕ) : Outcome Bool := do
  let p ← oneOfCDecoding (learner (d.getInstance n))
  let t ← oneOfCDecoding (d.getTarget n)
  ok (decide (p = t))

/-- lines 45-53; the result is not a number if there are no instances -/
def accuracy (learner : Learner) (d : Data) : Outcome ℝ := do
  let s ← forLoop d.samples (fun n s => do
    let c ← correct learner d n
    ok (s + if c then 1 else 0)) (0 : ℝ)
  ok (s / (d.samples : ℝ))

/-- lines 55-64 -/
def weightedAccuracy (learner : Learner) (d : Data) (weights : List ℝ) : Outcome ℝ :=
  forLoop d.samples (fun n s => do
    let c ← correct learner d n
    if c then do
      let w ← Outcome.read weights n
      ok (s + w)
    else ok s) (0 : ℝ)

/-- A matrix of integers with `n` rows and columns; writing outside violates an assertion. -/
def increment (n : ℕ) (M : ℕ → ℕ → ℤ) (i j : ℕ) : Outcome (ℕ → ℕ → ℤ) :=
  if i < n ∧ j < n then ok (fun a b => if a = i ∧ b = j then M a b + 1 else M a b) else ub

/-- lines 66-75 -/
def confusionMatrix (learner : Learner) (d : Data) : Outcome (ℕ → ℕ → ℤ) :=
  forLoop d.samples (fun n M => do
    let t ← oneOfCDecoding (d.getTarget n)
    let p ← oneOfCDecoding (learner (d.getInstance n))
    increment d.outputs M t p) (fun _ _ => 0)

/-- Conversion of a `double` to `int`; undefined outside of the range of `int`. -/
def doubleToInt (z : ℤ) : Outcome ℤ := if -2 ^ 31 ≤ z ∧ z < 2 ^ 31 then ok z else ub

/-- lines 110-111: the first coefficient, rounded -/
def rounded (v : List ℝ) : Outcome ℤ := Outcome.read v 0 >>= fun x => doubleToInt ⌊x + 1 / 2⌋

/-- lines 101-114 -/
def hit (learner : Learner) (d : Data) (i : ℕ) : Outcome Bool :=
  if 2 ≤ d.outputs then do
    let klass ← maxCoeff (d.getTarget i)
    let result ← maxCoeff (learner (d.getInstance i))
    ok (decide (klass = result))
  else do
    let klass ← rounded (d.getTarget i)
    let result ← rounded (learner (d.getInstance i))
    ok (decide (klass = result))

/-- lines 92-119 -/
def classificationHits (learner : Learner) (d : Data) : Outcome ℕ :=
  forLoop d.samples (fun i h => do
    let b ← hit learner d i
    ok (if b then h + 1 else h)) 0

/-- A line of the log (src/Evaluator.cpp 48-49) without the time. -/
structure Report where
  iteration : ℤ
  error : ℝ
  correct : ℤ
  wrong : ℤ

/-- src/Evaluator.cpp 37-45 -/
def evaluateInstance (learner : Learner) (d : Data) (n : ℕ) (s : ℝ × ℤ × ℤ) : Outcome (ℝ × ℤ × ℤ) := do
  let e ← squaredDistance (learner (d.getInstance n)) (d.getTarget n)
  let j1 ← oneOfCDecoding (d.getTarget n)
  let j2 ← oneOfCDecoding (learner (d.getInstance n))
  ok (s.1 + e, if j1 = j2 then (s.2.1 + 1, s.2.2) else (s.2.1, s.2.2 + 1))

/-- src/Evaluator.cpp 25-51: the new value of `iteration` and the line that is written; `%` with 0 is undefined -/
def evaluate (interval iteration : ℤ) (learner : Learner) (d : Data) : Outcome (ℤ × Option Report) :=
  if interval = 0 then ub
  else if Int.tmod (iteration + 1) interval = 0 then do
    let s ← forLoop d.samples (evaluateInstance learner d) (0, 0, 0)
    ok (iteration + 1, some ⟨iteration + 1, s.1 / (d.samples : ℝ), s.2.1, s.2.2⟩)
  else ok (iteration + 1, none)

/-- The reports of an evaluator that is called after each iteration of a training (learner and data set may change). -/
def evaluations (interval : ℤ) : List (Learner × Data) → ℤ → Outcome (List (Option Report))
  | [], _ => ok []
  | c :: l, iteration => do
    let r ← evaluate interval iteration c.1 c.2
    let rest ← evaluations interval l r.1
    ok (r.2 :: rest)

end

end Verif.Eval
