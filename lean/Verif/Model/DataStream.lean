import Verif.Model.Outcome
import Mathlib.Data.List.Basic
import Mathlib.Data.Int.Notation

/-!
# Data streams

Models `OpenANN/io/DataStream.h` and `src/DataStream.cpp`.  Learners and optimisers are identified by numbers.  The
model records for each learner whether its training set is the cache of the stream, and for each
optimiser which learner was handed to it by `setOptimizable`; an optimiser step is
recorded as an event together with the contents of the training set it can see.

The destructor (it deletes the cache that the learner still refers to) is not modelled.
-/

namespace Verif.DataStream

open Outcome

/-- What is seen in a call of `opt->step()`: the optimiser, its optimizable, the rows of the input matrix and (if the cache has an
output matrix) of the output matrix that the optimizable has as its training set; `none` is a row that was never
written. -/
structure Event (V : Type) where
  optimizer : ℕ
  optimizable : ℕ
  inputs : List (Option V)
  targets : Option (List (Option V))

/-- Fields of `DataStream` (OpenANN/io/DataStream.h:27-31) and the affected fields of learners and optimisers.
* `X`, `T` - rows of the matrices; `D`, `F` - their numbers of columns
* `cache`  - `none`: null pointer; `some b`: the data set was created, with `&T` if `b`
* `trains l` - the training set of learner `l` is the cache
* `optimizes o` - the argument of the last `o.setOptimizable(...)` of this stream -/
structure State (K : Type) where
  cacheSize : ℤ
  collected : ℕ
  X : List (Option (List K))
  D : ℕ
  T : List (Option (List K))
  F : ℕ
  cache : Option Bool
  opt : Option ℕ
  learner : Option ℕ
  trains : ℕ → Bool
  optimizes : ℕ → Option ℕ
  events : List (Event (List K))

variable {K : Type}

/-- Constructor (src/DataStream.cpp:12-15).  The learners and optimisers have not been used before. -/
def create (cacheSize : ℤ) : State K :=
  { cacheSize, collected := 0, X := [], D := 0, T := [], F := 0, cache := none, opt := none,
    learner := none, trains := fun _ => false, optimizes := fun _ => none, events := [] }

/-- `setLearner` (src/DataStream.cpp:23-27). -/
def setLearner (s : State K) (l : ℕ) : State K := { s with learner := some l }

/-- `setOptimizer` (src/DataStream.cpp:29-35).  The new stopping criteria ("never stop") have no effect on the model, where
a step is just recorded. -/
def setOptimizer (s : State K) (o : ℕ) : State K := { s with opt := some o }

/-- `initialize` (src/DataStream.cpp:54-71).  A negative number of rows violates an Eigen assertion.
The constructor of the data set checks that there is at least one column (src/DirectStorageDataSet.cpp:16). -/
def initStream (s : State K) (inputs outputs : ℕ) : Outcome (State K) :=
  match s.learner, s.opt with
  | some l, some o =>
    if s.cacheSize < 0 then ub else do
    let rows := s.cacheSize.toNat
    let s := { s with X := List.replicate rows none, D := inputs }
    let s := if outputs > 0 then
        { s with T := List.replicate rows none, F := outputs, cache := some true }
      else { s with cache := some false }
    check (inputs > 0)
    ok { s with
      trains := fun k => if k = l then true else s.trains k
      optimizes := fun k => if k = o then some l else s.optimizes k }
  | _, _ => checkFailed

/-- `M.row(i) = *v` for a matrix with `cols` columns: Eigen requires the row to exist and the sizes to agree. -/
def assignRow (M : List (Option (List K))) (cols : ℕ) (i : ℕ) (v : List K) :
    Outcome (List (Option (List K))) :=
  if v.length = cols then Outcome.write M i (some v) else ub

/-- `if(t) T.row(collected) = *t;` (src/DataStream.cpp:46). -/
def assignTarget (M : List (Option (List K))) (cols : ℕ) (i : ℕ) :
    Option (List K) → Outcome (List (Option (List K)))
  | some t => assignRow M cols i t
  | none => ok M

/-- `opt->step()`: an optimiser without optimizable fails the check that all optimisers make
(e.g. src/MBSGD.cpp:82); otherwise the step is recorded. If the training set of the optimizable is not the cache
the step sees no rows of the stream. -/
def step (s : State K) (o : ℕ) : Outcome (State K) :=
  match s.optimizes o with
  | none => checkFailed
  | some l =>
    let seen : Event (List K) :=
      if s.trains l then ⟨o, l, s.X, if s.cache = some true then some s.T else none⟩
      else ⟨o, l, [], none⟩
    ok { s with events := s.events ++ [seen] }

/-- `addSample` (src/DataStream.cpp:37-52). -/
def addSample (s : State K) (x : List K) (t : Option (List K)) : Outcome (State K) :=
  match s.learner, s.opt with
  | some _, some o => do
    let s ← (if s.cache = none then initStream s x.length ((t.map List.length).getD 0) else ok s)
    let X ← assignRow s.X s.D s.collected x
    let s := { s with X := X }
    let T ← assignTarget s.T s.F s.collected t
    let s := { s with T := T }
    let s := { s with collected := s.collected + 1 }
    if (s.collected : ℤ) ≥ s.cacheSize then do
      let s ← step s o
      ok { s with collected := 0 }
    else ok s
  | _, _ => checkFailed

/-- A stream of samples. -/
def addSamples (s : State K) (samples : List (List K × Option (List K))) : Outcome (State K) :=
  samples.foldlM (fun s p => addSample s p.1 p.2) s

end Verif.DataStream
