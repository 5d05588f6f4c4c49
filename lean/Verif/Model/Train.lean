import Verif.Model.NetHooks

/-!
# `train` (src/Convenience.cpp lines 15-43)

An optimiser is an arbitrary program that talks to the network through the interface `Optimizable`
(OpenANN/optimization/Optimizable.h): it reads the current parameters, sets parameters, asks for errors and gradients and
announces the end of iterations, and goes on depending on the answers.  All optimisers call `setParameters` with the optimum
in `result()` (src/MBSGD.cpp lines 155-159, src/LBFGS.cpp lines 188-193, src/CG.cpp lines 109-114, src/LMA.cpp lines 113-118,
src/IPOPCMAES.cpp lines 227-234).  Programs are finite, so that a run that never ends is not described; vectors of a wrong
size are a matter of `setParameters` (C17).
-/

namespace Verif.Train

/-- What an optimiser does in `optimize()`. -/
inductive Prog where
  /-- `optimize()` returns; `result()` will set the parameters `optimum` -/
  | done (optimum : List ℝ)
  /-- an exception leaves `optimize()` -/
  | raise
  | currentParameters (next : List ℝ → Prog)
  | setParameters (θ : List ℝ) (next : Prog)
  /-- one of the functions for errors and gradients; `query` tells which and for which examples -/
  | evaluate (query : ℕ) (next : List ℝ → Prog)
  | finishedIteration (next : Prog)

/-- The parts of a network that matter; `rest` is everything that evaluations and data sets change besides (buffers, random
numbers, evaluators). -/
structure State (σ : Type) where
  /-- `parameterVector`, OpenANN/Net.h line 47 -/
  params : List ℝ
  /-- is `errorFunction` cross entropy? -/
  ce : Bool
  dropout : Bool
  /-- `initialized` -/
  initialized : Bool
  /-- optimisers that were created with `new` and not deleted -/
  live : ℕ
  rest : σ

/-- Errors and gradients of the network, and the data sets that are notified at the end of an iteration. -/
structure World (σ : Type) where
  /-- for parameters, error function (`true` is cross entropy), dropout, query -/
  eval : List ℝ → Bool → Bool → ℕ → σ → List ℝ × σ
  trainSet : Option (List ℝ → Bool → NN.Callback σ)
  validSet : Option (List ℝ → Bool → NN.Callback σ)

/-- How `optimize()` ends. -/
inductive End where
  | done (optimum : List ℝ)
  | raised

/-- An evaluation happens with these parameters, this error function and this dropout. -/
structure Seen where
  params : List ℝ
  ce : Bool
  dropout : Bool

/-- src/Net.cpp lines 452-461 with the data sets of `w`. -/
def State.finishIteration {σ : Type} (w : World σ) (s : State σ) : NN.Iter σ :=
  NN.finishedIteration (w.trainSet.map fun f => f s.params s.ce) (w.validSet.map fun f => f s.params s.ce)
    ⟨s.dropout, s.rest, false⟩

/-- `optimize()` on the network: how it ends, the network afterwards and the evaluations. -/
def run {σ : Type} (w : World σ) : Prog → State σ → End × State σ × List Seen
  | .done θ, s => (.done θ, s, [])
  | .raise, s => (.raised, s, [])
  | .currentParameters next, s => run w (next s.params) s
  | .setParameters θ next, s => run w next { s with params := θ }
  | .evaluate q next, s =>
    let a := w.eval s.params s.ce s.dropout q s.rest
    let r := run w (next a.1) { s with rest := a.2 }
    (r.1, r.2.1, ⟨s.params, s.ce, s.dropout⟩ :: r.2.2)
  | .finishedIteration next, s =>
    let i := s.finishIteration w
    if i.thrown then (.raised, { s with dropout := i.dropout, rest := i.user }, [])
    else run w next { s with dropout := i.dropout, rest := i.user }

/-- The five optimisers for the stopping criteria of the call. -/
structure Optimizers where
  mbsgd : Prog
  lma : Prog
  cg : Prog
  lbfgs : Prog
  cmaes : Prog

/-- src/Convenience.cpp lines 23-35 -/
def Optimizers.find (os : Optimizers) (algorithm : String) : Option Prog :=
  if algorithm = "MBSGD" then some os.mbsgd
  else if algorithm = "LMA" then some os.lma
  else if algorithm = "CG" then some os.cg
  else if algorithm = "LBFGS" then some os.lbfgs
  else if algorithm = "CMAES" then some os.cmaes
  else none

/-- How a call of `train` ends, with the network afterwards. -/
inductive Exit (σ : Type) where
  | returned (s : State σ)
  | thrown (s : State σ)
  /-- `OPENANN_CHECK(initialized)` in `Net::initialize` failed -/
  | checkFailed

/-- src/Convenience.cpp lines 18-21; `fresh` are the parameters that `initializeParameters` of the layers draws (src/Net.cpp
lines 507-515). -/
def prepare {σ : Type} (ce reinitialize dropout : Bool) (fresh : List ℝ) (s : State σ) : State σ :=
  { s with params := if reinitialize then fresh else s.params, ce := ce, dropout := dropout }

/-- src/Convenience.cpp lines 15-43, together with the evaluations. -/
def train {σ : Type} (w : World σ) (os : Optimizers) (algorithm : String) (ce reinitialize dropout : Bool) (fresh : List ℝ)
    (s : State σ) : Exit σ × List Seen :=
  if reinitialize && !s.initialized then (.checkFailed, [])
  else
    match os.find algorithm with
    | none => (.thrown (prepare ce reinitialize dropout fresh s), [])
    | some p =>
      let s1 := prepare ce reinitialize dropout fresh s
      let r := run w p { s1 with live := s1.live + 1 }
      match r.1 with
      | .raised => (.thrown r.2.1, r.2.2)
      | .done θ => (.returned { r.2.1 with params := θ, live := r.2.1.live - 1, dropout := false }, r.2.2)

end Verif.Train
