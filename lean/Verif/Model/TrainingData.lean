import Verif.Model.DataStream
import Verif.Model.Loop

/-!
# What the learners of the library see of their training set

`Learner` (OpenANN/Learner.h) keeps a pointer to the training set and the number of its instances at the time when it was set.
`Net` uses both, `RBM` and `IntrinsicPlasticity` use the pointer only, `SparseAutoEncoder` uses neither but a copy of its own.

A data set is identified by a number; `sets` gives the instances it contains at present.  Data sets can change: the matrices of a
`DirectStorageDataSet` belong to the user, views can be shuffled or subsampled, `DataSet::finishIteration` may do anything.
The lifetime of data sets is the subject of `Model/Learner.lean`.
-/

namespace Verif.TrainingData

/-- The learners: src/Net.cpp, src/RBM.cpp, src/IntrinsicPlasticity.cpp, src/SparseAutoEncoder.cpp -/
inductive Kind where
  | net | rbm | intrinsicPlasticity | sparseAutoEncoder
  deriving DecidableEq

variable {V : Type}

/-- The data sets, `trainSet` and `N` (OpenANN/Learner.h lines 21-24), and the matrix `X` of a sparse autoencoder
(OpenANN/SparseAutoEncoder.h line 26), which has no columns (`none`) before the first assignment. -/
structure World (V : Type) where
  sets : ℕ → List V
  trainSet : Option ℕ
  N : ℕ
  copy : Option (List V)

/-- src/Learner.cpp lines 7-11 -/
def World.start (sets : ℕ → List V) : World V := ⟨sets, none, 0, none⟩

inductive Op (V : Type) where
  /-- `learner.trainingSet(dataSet)` -/
  | trainingSet (k : ℕ)
  /-- `learner.trainingSet(input, output)`, for an autoencoder through a reference to `Learner`; the data set that is created
  gets the number `k` -/
  | matrices (k : ℕ)
  | removeTrainingSet
  /-- the contents of a data set change -/
  | change (k : ℕ) (rows : List V)
  /-- `learner(x)` -/
  | predict (rows : List V)
  /-- `forwardPropagate` of the learner as a layer of a network that is used -/
  | propagate (rows : List V)
  /-- `finishedIteration()`, which every optimiser calls after an iteration -/
  | finishedIteration

/-- One operation; `hook k` is what `finishIteration` of data set `k` makes of its contents. -/
def step (hook : ℕ → List V → List V) (kind : Kind) (w : World V) : Op V → World V
  | .trainingSet k =>
    match kind with
    | .sparseAutoEncoder => { w with copy := some (w.sets k) }                                -- src/SparseAutoEncoder.cpp 122-128
    | _ => { w with trainSet := some k, N := (w.sets k).length }                              -- src/Learner.cpp 32-40
  | .matrices k => { w with trainSet := some k, N := (w.sets k).length }                      -- src/Learner.cpp 21-30
  | .removeTrainingSet => { w with trainSet := none, N := 0 }                                 -- src/Learner.cpp 42-50
  | .change k rows => { w with sets := Function.update w.sets k rows }
  | .predict _ => w
  | .propagate rows =>
    match kind with
    | .sparseAutoEncoder => { w with copy := some rows }                                      -- src/SparseAutoEncoder.cpp 134
    | _ => w
  | .finishedIteration =>
    match kind, w.trainSet with
    | .net, some k => { w with sets := Function.update w.sets k (hook k (w.sets k)) }         -- src/Net.cpp 452-461
    | _, _ => w                                                                               -- OpenANN/optimization/Optimizable.h 143

def run (hook : ℕ → List V → List V) (kind : Kind) (w : World V) (ops : List (Op V)) : World V := ops.foldl (step hook kind) w

/-- `trainSet->getInstance(n)` (src/DirectStorageDataSet.cpp lines 20-25, src/DataSetView.cpp lines 38-42): a check that the index
is valid. -/
def getInstance (rows : List V) (n : ℕ) : Outcome V :=
  match rows[n]? with
  | some x => .ok x
  | none => .checkFailed

/-- The instances that the loop over `n < N` of `error()` and `gradient()` uses, in this order. -/
def visit (rows : List V) (N : ℕ) : Outcome (List V) :=
  forLoop N (fun n l => getInstance rows n >>= fun x => .ok (l ++ [x])) []

/-- The instances that `error()` and `gradient()` of the learner use.  src/Net.cpp lines 530-536 and 552-561 (`N` is that of
`Learner`; with `N = 0` the data set is not touched), src/RBM.cpp lines 80-91 and 98-105 and src/IntrinsicPlasticity.cpp lines 39-58
and 84-90 (`trainSet->samples()`; a null pointer is undefined), src/SparseAutoEncoder.cpp lines 64-83 (`X`; a matrix without columns
cannot be multiplied with the weights). -/
def seen (kind : Kind) (w : World V) : Outcome (List V) :=
  match kind with
  | .net =>
    match w.trainSet with
    | some k => visit (w.sets k) w.N
    | none => if w.N = 0 then .ok [] else .ub
  | .sparseAutoEncoder =>
    match w.copy with
    | some rows => .ok rows
    | none => .ub
  | _ =>
    match w.trainSet with
    | some k => visit (w.sets k) (w.sets k).length
    | none => .ub

/-! ## A sparse autoencoder in a data stream -/

/-- A row that is used must have been written. -/
def defined : List (Option V) → Outcome (List V)
  | [] => .ok []
  | none :: _ => .ub
  | some x :: l => defined l >>= fun l => .ok (x :: l)

/-- `addSample` (src/DataStream.cpp lines 37-52) for a stream whose learner is a sparse autoencoder: `initialize` calls
`learner->trainingSet(*cache)` (line 68), which copies the rows of `X`, before the sample is stored (line 45).  An
optimisation step evaluates the error of the autoencoder. -/
def addSample {K : Type} (p : DataStream.State K × List (Option (List K))) (x : List K) (t : Option (List K)) :
    Outcome (DataStream.State K × List (Option (List K))) :=
  (if p.1.cache = none then
    DataStream.initStream p.1 x.length ((t.map List.length).getD 0) >>= fun s => .ok s.X else .ok p.2) >>= fun copy =>
  DataStream.addSample p.1 x t >>= fun s =>
  (if p.1.events.length < s.events.length then defined copy else .ok []) >>= fun _ => .ok (s, copy)

/-- A sequence of samples. -/
def addSamples {K : Type} (p : DataStream.State K × List (Option (List K))) :
    List (List K × Option (List K)) → Outcome (DataStream.State K × List (Option (List K)))
  | [] => .ok p
  | a :: l => addSample p a.1 a.2 >>= fun p => addSamples p l

end Verif.TrainingData
