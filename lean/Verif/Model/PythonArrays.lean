import Verif.Model.Outcome
import Verif.Model.Loop
import Mathlib.Logic.Function.Basic

/-!
# Arrays and dictionaries that pass through the Python interface (python/util.pxi, dataset.pxi, net.pxi, preprocessing.pxi, optimization.pxi)

Numbers are of an arbitrary type `α`.  As in `Model/PythonObjects.lean`, `throws` is a Python exception and `checkFailed` ends the
interpreter.

The functions of python/util.pxi are C functions that return pointers and are not declared with `except`.  What an exception in such a
function does depends on Cython: up to version 2 it is printed and ignored, and the function returns 0; since version 3 it is passed on.  Both
are modelled (`Compiler`).

Simplification: a matrix with a dimension that is no `int` is undefined in the model.
-/

namespace Verif.PyArr

variable {α : Type}

inductive Compiler where
  | ignores | raises
  deriving DecidableEq

/-- An argument: `None`, an object that is no array (and not convertible to numbers), or an array with its elements; an element that is no
number is `none`. -/
inductive Arg (α : Type) where
  | none
  | other
  | array (shape : List ℕ) (get : List ℕ → Option α)

/-- `Eigen::MatrixXd`, column after column; a vector is a matrix with one column. -/
structure Mat (α : Type) where
  rows : ℕ
  cols : ℕ
  data : ℕ → α

/-- `operator()` and `coeff` of Eigen -/
def Mat.coeff (M : Mat α) (r c : ℕ) : α := M.data (M.rows * c + r)

/-- The result of an `int` computation with non-negative operands. -/
def int (n : ℕ) : Outcome ℕ := if n < 2 ^ 31 then .ok n else .ub

/-- Conversion to `int`. -/
def toInt (n : ℕ) : ℤ := if n % 2 ^ 32 < 2 ^ 31 then (n % 2 ^ 32 : ℕ) else (n % 2 ^ 32 : ℕ) - 2 ^ 32

/-- `data()[i] = v` for a matrix with `size` numbers -/
def store (size : ℕ) (data : ℕ → α) (i : ℕ) (v : α) : Outcome (ℕ → α) :=
  if i < size then .ok (Function.update data i v) else .ub

/-- An element as a number. -/
def number : Option α → Outcome α
  | some v => .ok v
  | none => .throws

/-- A C function without `except` that returns a pointer; `none` is the null pointer. -/
def cfun {β : Type} (k : Compiler) : Outcome β → Outcome (Option β)
  | .ok b => .ok (some b)
  | .throws => match k with | .ignores => .ok none | .raises => .throws
  | .checkFailed => .checkFailed
  | .ub => .ub

/-- python/util.pxi lines 1-11; `mem` is what the memory contains before. -/
def vectorToEigen (k : Compiler) (mem : ℕ → α) : Arg α → Outcome (Option (Mat α))
  | .none => .ub
  | .other => .throws
  | .array shape get => cfun k <|
    match shape with
    | [n] =>
      if toInt n < 0 then .ub
      else
        let rows := (toInt n).toNat
        forLoop rows (fun r data => number (get [r]) >>= fun v => store rows data r v) mem >>= fun data => .ok ⟨rows, 1, data⟩
    | _ => .throws

/-- python/util.pxi lines 23-36 -/
def matrixToEigen (k : Compiler) (mem : ℕ → α) : Arg α → Outcome (Option (Mat α))
  | .none => .ub
  | .other => .throws
  | .array shape get => cfun k <|
    match shape with
    | [n, m] =>
      int n >>= fun rows => int m >>= fun cols =>
      forLoop rows (fun r data => forLoop cols (fun c data =>
        number (get [r, c]) >>= fun v => int (rows * c) >>= fun p => int (p + r) >>= fun i => store (rows * cols) data i v) data) mem >>=
      fun data => .ok ⟨rows, cols, data⟩
    | _ => .throws

/-- python/util.pxi lines 13-21 -/
def vectorToNumpy (mem : ℕ → α) (x : Mat α) : Outcome (Arg α) :=
  int x.rows >>= fun rows =>
  forLoop rows (fun r out => store x.rows out r (x.data r)) mem >>= fun out =>
  .ok (.array [x.rows] fun idx => match idx with | [r] => if r < x.rows then some (out r) else none | _ => none)

/-- python/util.pxi lines 38-48 (and 50-60); the memory of the array is row after row. -/
def matrixToNumpy (mem : ℕ → α) (X : Mat α) : Outcome (Arg α) :=
  int X.rows >>= fun rows => int X.cols >>= fun cols =>
  forLoop rows (fun r out => forLoop cols (fun c out => store (X.rows * X.cols) out (X.cols * r + c) (X.coeff r c)) out) mem >>= fun out =>
  .ok (.array [X.rows, X.cols] fun idx =>
    match idx with | [r, c] => if r < X.rows ∧ c < X.cols then some (out (X.cols * r + c)) else none | _ => none)

/-- `DataSet`, python/dataset.pxi lines 1-5 -/
structure DataSet (α : Type) where
  input : Option (Mat α)
  output : Option (Mat α)
  storage : Bool

/-- `... if x is not None else NULL` -/
def optional (k : Compiler) (mem : ℕ → α) : Arg α → Outcome (Option (Mat α))
  | .none => .ok none
  | x => matrixToEigen k mem x

/-- `DataSet(input, output)`, python/dataset.pxi lines 7-19, src/DirectStorageDataSet.cpp lines 9-18 -/
def dataSet (k : Compiler) (mem : ℕ → α) (input output : Arg α) : Outcome (DataSet α) :=
  optional k mem input >>= fun X => optional k mem output >>= fun T =>
  match X with
  | none => .ok ⟨none, T, false⟩
  | some X =>
    Outcome.check (0 < X.cols) >>= fun _ =>
    Outcome.check (∀ T', T = some T' → X.rows = T'.rows) >>= fun _ => .ok ⟨some X, T, true⟩

/-- `samples()`, `inputs()`, `outputs()`: python/dataset.pxi lines 29-45, OpenANN/io/DirectStorageDataSet.h -/
def DataSet.samples (d : DataSet α) : ℕ := if d.storage then (d.input.map Mat.rows).getD 0 else 0

def DataSet.inputs (d : DataSet α) : ℕ := if d.storage then (d.input.map Mat.cols).getD 0 else 0

def DataSet.outputs (d : DataSet α) : ℕ := if d.storage then (d.output.map Mat.cols).getD 0 else 0

/-- A row as a vector. -/
def Mat.row (M : Mat α) (i : ℕ) : Mat α := ⟨M.cols, 1, fun c => M.coeff i c⟩

/-- `instance(i)`: python/dataset.pxi lines 47-51, src/DirectStorageDataSet.cpp lines 20-25; `none` is the number 0. -/
def DataSet.instance (mem : ℕ → α) (d : DataSet α) (i : ℤ) : Outcome (Option (Arg α)) :=
  match d.storage, d.input with
  | true, some X =>
    Outcome.check (0 ≤ i ∧ i ≤ (X.rows : ℤ) - 1) >>= fun _ => vectorToNumpy mem (X.row i.toNat) >>= fun v => .ok (some v)
  | true, none => .ub
  | false, _ => .ok none

/-- `target(i)`: python/dataset.pxi lines 53-57, src/DirectStorageDataSet.cpp lines 27-33 -/
def DataSet.target (mem : ℕ → α) (d : DataSet α) (i : ℤ) : Outcome (Option (Arg α)) :=
  match d.storage, d.output with
  | true, some T =>
    Outcome.check (0 ≤ i ∧ i ≤ (T.rows : ℤ) - 1) >>= fun _ => vectorToNumpy mem (T.row i.toNat) >>= fun v => .ok (some v)
  | true, none => .checkFailed
  | false, _ => .ok none

/-- `numpy.atleast_2d`; an object that is no array becomes its only element. -/
def atleast2d : Arg α → Arg α
  | .array [] get => .array [1, 1] fun idx => if idx = [0, 0] then get [] else none
  | .array [n] get => .array [1, n] fun idx => match idx with | [0, c] => get [c] | _ => none
  | .array shape get => .array shape get
  | _ => .array [1, 1] fun _ => none

/-- `predict` of python/net.pxi lines 135-141, 197-202 and 244-249, for a learner that computes `f` -/
def predict (k : Compiler) (mem : ℕ → α) (f : Mat α → Outcome (Mat α)) (x : Arg α) : Outcome (Arg α) :=
  matrixToEigen k mem (atleast2d x) >>= fun M =>
  match M with
  | none => .ub
  | some M => f M >>= matrixToNumpy mem

/-- `transform` of python/preprocessing.pxi lines 16-19, 44-47, ..., for a transformation that computes `f` -/
def transform (k : Compiler) (mem : ℕ → α) (f : Mat α → Outcome (Mat α)) (x : Arg α) : Outcome (Arg α) :=
  matrixToEigen k mem x >>= fun M =>
  match M with
  | none => .ub
  | some M => f M >>= matrixToNumpy mem

/-- `set_parameters` of python/net.pxi lines 162-165, for a network that does `f` with the vector -/
def setParameters {σ : Type} (k : Compiler) (mem : ℕ → α) (f : Mat α → Outcome σ) (x : Arg α) : Outcome σ :=
  vectorToEigen k mem x >>= fun v =>
  match v with
  | none => .ub
  | some v => f v

/-! ## Stopping criteria -/

/-- OpenANN/optimization/StoppingCriteria.h -/
structure Criteria (β : Type) where
  maximalFunctionEvaluations : β
  maximalIterations : β
  maximalRestarts : β
  minimalValue : β
  minimalValueDifferences : β
  minimalSearchSpaceStep : β

/-- python/optimization.pxi lines 13-16 -/
def availableKeys : List String :=
  ["maximal_iterations", "maximal_function_evaluations", "maximal_restarts", "minimal_value", "minimal_value_differences",
    "minimal_search_space_step"]

/-- `dict.get` -/
def get {β : Type} (stop : List (String × β)) (key : String) (default : β) : β := (stop.lookup key).getD default

/-- python/optimization.pxi lines 12-36: the keys of the warning and the criteria.  The types of the values are left out. -/
def configure {β : Type} (c : Criteria β) (stop : List (String × β)) : List String × Criteria β :=
  ((stop.map Prod.fst).filter fun k => !availableKeys.contains k,
   { maximalIterations := get stop "maximal_iterations" c.maximalIterations
     maximalFunctionEvaluations := get stop "maximal_function_evaluations" c.maximalFunctionEvaluations
     maximalRestarts := get stop "maximal_restarts" c.maximalRestarts
     minimalValue := get stop "minimal_value" c.minimalValue
     minimalValueDifferences := get stop "minimal_value_differences" c.minimalValueDifferences
     minimalSearchSpaceStep := get stop "minimal_search_space_step" c.minimalSearchSpaceStep })

end Verif.PyArr
