import Verif.Model.DataSet
import Verif.Model.Evaluation

/-!
# Evaluators of data sets (src/DirectStorageDataSet.cpp, src/DataSetView.cpp, OpenANN/io/WeightedDataSet.h, src/Evaluator.cpp)

After each iteration a learner tells its data sets that an iteration is finished.  Data sets live in a store (`Model/DataSet.lean`), the
evaluators of a program are numbered.  Time and the text of a report (`Model/Evaluation.lean`, `Model/Formatter.lean`) are left out.
-/

namespace Verif.Observe

open Outcome Data

noncomputable section

/-- Vectors are lists of numbers here. -/
abbrev Sets := Store (List ℝ) (List ℝ)

/-- The evaluators (src/Evaluator.cpp lines 10-17): interval, counter and what they wrote at each call (`none`: nothing). -/
structure World where
  interval : ℕ → ℤ
  iteration : ℕ → ℤ
  log : ℕ → List (Option Eval.Report)

/-- What `evaluate` sees of a `DirectStorageDataSet` with targets. -/
def content (ins outs : List (List ℝ)) : Eval.Data :=
  ⟨ins.length, (outs.headD []).length, fun n => ins.getD n [], fun n => outs.getD n []⟩

/-- src/Evaluator.cpp lines 25-51, for evaluator `e`, a learner and a data set.  Without targets `getTarget` fails (src/DirectStorageDataSet.cpp
line 29) as soon as the first instance is evaluated. -/
def evaluate (W : World) (e : ℕ) (learner : Eval.Learner) (ins : List (List ℝ)) (outs : Option (List (List ℝ))) : Outcome World := do
  check (outs ≠ none ∨ ins = [] ∨ Int.tmod (W.iteration e + 1) (W.interval e) ≠ 0)
  let r ← Eval.evaluate (W.interval e) (W.iteration e) learner (content ins (outs.getD []))
  ok { W with iteration := Function.update W.iteration e r.1, log := Function.update W.log e (W.log e ++ [r.2]) }

/-- `finishIteration(learner)` of the data set at address `a`: src/DirectStorageDataSet.cpp lines 35-39 (`ev a` is the evaluator of the data set, if
it has one), src/DataSetView.cpp lines 50-53, OpenANN/io/WeightedDataSet.h line 38. -/
def finishIteration (s : Sets) (ev : ℕ → Option ℕ) (learner : Eval.Learner) (a : ℕ) (W : World) : Outcome World :=
  match s[a]? with
  | some (.direct ins outs) =>
    match ev a with
    | none => ok W
    | some e => evaluate W e learner ins outs
  | some (.view b _) => if b < a then finishIteration s ev learner b W else ub
  | some (.weighted _ _) => ok W
  | none => ub
termination_by a

/-- The kinds of learners: `Net` overrides `finishedIteration`, the others (e.g. `RBM`, `SparseAutoEncoder`) inherit the empty one
(OpenANN/optimization/Optimizable.h line 145). -/
inductive Kind where
  | net
  | other
  deriving DecidableEq

/-- `if(set) set->finishIteration(*this)` -/
def notify (s : Sets) (ev : ℕ → Option ℕ) (learner : Eval.Learner) (set : Option ℕ) (W : World) : Outcome World :=
  match set with
  | none => ok W
  | some a => finishIteration s ev learner a W

/-- src/Net.cpp lines 452-461: `finishedIteration` of a learner with the given training and validation set -/
def finishedIteration (k : Kind) (s : Sets) (ev : ℕ → Option ℕ) (train valid : Option ℕ) (learner : Eval.Learner) (W : World) : Outcome World :=
  match k with
  | .net => do
    let W ← notify s ev learner train W
    notify s ev learner valid W
  | .other => ok W

/-- A training of `n` iterations: after iteration `i` (counted from 0) the learner computes `learner i`. -/
def training (k : Kind) (s : Sets) (ev : ℕ → Option ℕ) (train valid : Option ℕ) (learner : ℕ → Eval.Learner) (W : World) : ℕ → Outcome World
  | 0 => ok W
  | n + 1 => do
    let W ← training k s ev train valid learner W n
    finishedIteration k s ev train valid (learner n) W

end

end Verif.Observe
