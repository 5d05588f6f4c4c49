import Verif.Model.Net

/-!
# End of an iteration and propagation of data sets (src/Net.cpp lines 202-220, 428-461)
-/

namespace Verif.NN

/-! ## `finishedIteration` -/

/-- A call of `finishIteration(*this)` of a data set: it sees the `dropout` flag of the network through its predictions and
changes a state of its own; `none` is an exception.  (The interface `Learner` that it gets has no function that changes the
flag.) -/
abbrev Callback (σ : Type) := Bool → σ → Option σ

/-- `dropout` of the network, the state of the callbacks and whether an exception was thrown. -/
structure Iter (σ : Type) where
  dropout : Bool
  user : σ
  thrown : Bool

/-- `if(set) set->finishIteration(*this)`; an exception ends the function. -/
def Iter.callback {σ : Type} (cb : Option (Callback σ)) (s : Iter σ) : Iter σ :=
  if s.thrown then s else
    match cb with
    | none => s
    | some f =>
      match f s.dropout s.user with
      | none => { s with thrown := true }
      | some u => { s with user := u }

/-- src/Net.cpp lines 452-461. -/
def finishedIteration {σ : Type} (train valid : Option (Callback σ)) (s : Iter σ) : Iter σ :=
  let s1 := Iter.callback valid (Iter.callback train { s with dropout := false })
  if s1.thrown then s1 else { s1 with dropout := s.dropout }

/-- What a user and an optimiser do. -/
inductive NetOp where
  /-- src/Net.cpp lines 428-432 -/
  | useDropout (activate : Bool)
  | finishedIteration

/-- One call. -/
def stepOp {σ : Type} (train valid : Option (Callback σ)) (s : Iter σ) : NetOp → Iter σ
  | .useDropout b => { s with dropout := b }
  | .finishedIteration => finishedIteration train valid s

/-- A sequence of calls, up to the first exception. -/
def runOps {σ : Type} (train valid : Option (Callback σ)) : List NetOp → Iter σ → Iter σ
  | [], s => s
  | op :: ops, s => if s.thrown then s else runOps train valid ops (stepOp train valid s op)

/-! ## `propagateDataSet` -/

noncomputable section

/-- src/Net.cpp lines 210-213: the loop over the layers; nothing changes `i`. -/
def propagateLoop (mem : Mem) (l i : ℤ) : ℕ → List Layer → Batch → Batch
  | _, [], y => y
  | k, layer :: ls, y => if i < l then propagateLoop mem l i (k + 1) ls (layer.forward (mem k) 1 y) else y

/-- Number of columns of `*y` after the loop. -/
def propagateCols (l i : ℤ) : List Layer → ℕ → ℕ
  | [], d => d
  | layer :: ls, d => if i < l then propagateCols l i ls layer.outputs else d

/-- Where a matrix lives. -/
inductive Storage where
  /-- on the heap -/
  | heap
  /-- on the stack of a function that has returned -/
  | deadStack
  deriving DecidableEq

/-- A `DirectStorageDataSet` (src/DirectStorageDataSet.cpp lines 9-33) holds two pointers: contents and storage of the
matrices that they point to. -/
structure MatrixData where
  samples : ℕ
  inst : Batch
  tgt : Batch
  storage : Storage

/-- src/DirectStorageDataSet.cpp lines 20-25, 27-33: reading a row through the pointer. -/
def MatrixData.getInstance (d : MatrixData) (n : ℕ) : Outcome (ℕ → ℝ) :=
  if d.storage = .heap then (if n < d.samples then .ok (d.inst n) else .checkFailed) else .ub

def MatrixData.getTarget (d : MatrixData) (n : ℕ) : Outcome (ℕ → ℝ) :=
  if d.storage = .heap then (if n < d.samples then .ok (d.tgt n) else .checkFailed) else .ub

/-- src/Net.cpp lines 202-220.  `D` is `dataSet.inputs()`, the number of columns of `X`; line 215 needs a row of as many
columns (an Eigen assertion).  `X` and `T` are local variables, the new data set gets their addresses. -/
def Net.propagateDataSet (net : Net) (mem : Mem) (ds : TrainSet) (D : ℕ) (l : ℤ) : Outcome MatrixData :=
  if 0 < ds.samples ∧ propagateCols l 0 net.layers D ≠ D then .ub
  else .ok ⟨ds.samples, fun n => propagateLoop mem l 0 0 net.layers (fun _ => ds.inst n) 0, ds.tgt, .deadStack⟩

end

end Verif.NN
