import Verif.Model.Outcome
import Mathlib.Data.List.Basic
import Mathlib.Data.Nat.Notation

/-!
# Ownership of data sets by learners

Models `OpenANN/Learner.h` and `src/Learner.cpp` on a heap of data sets.  `delete` of freed memory and access to
freed memory are undefined behaviour.
-/

namespace Verif.Learner

open Outcome

/-- Address of a data set: `user k` was created by the user, `own k` is the `k`-th one that was created by learners. -/
inductive Addr where
  | user (k : ℕ)
  | own (k : ℕ)
  deriving DecidableEq

/-- The heap: `userSize k` is the number of instances of `user k`, `ownSizes` those of the data sets created by
learners so far, `freed` the addresses that were freed, in this order. -/
structure Heap where
  userSize : ℕ → ℕ
  ownSizes : List ℕ
  freed : List Addr

/-- Fields of `Learner` (OpenANN/Learner.h:21-24). -/
structure Fields where
  trainSet : Option Addr
  validSet : Option Addr
  deleteTrainSet : Bool
  deleteValidSet : Bool
  N : ℕ

/-- A learner and the heap. -/
structure State where
  heap : Heap
  learner : Fields

/-- `delete p;` -/
def delete (h : Heap) (a : Addr) : Outcome Heap :=
  if a ∈ h.freed then ub else ok { h with freed := h.freed ++ [a] }

/-- `if(flag && p) delete p;` as in src/Learner.cpp:15-16 and so on. -/
def deleteIf (h : Heap) (flag : Bool) (p : Option Addr) : Outcome Heap :=
  match flag, p with
  | true, some a => delete h a
  | _, _ => ok h

/-- `new DirectStorageDataSet(&input, &output)` for matrices with `n` rows: the new heap and the address. -/
def alloc (h : Heap) (n : ℕ) : Heap × Addr :=
  ({ h with ownSizes := h.ownSizes ++ [n] }, .own h.ownSizes.length)

/-- `p->samples()`. -/
def samples (h : Heap) (p : Option Addr) : Outcome ℕ :=
  match p with
  | none => ub
  | some a => if a ∈ h.freed then ub else
    match a with
    | .user k => ok (h.userSize k)
    | .own k => Outcome.read h.ownSizes k

/-- Constructor (src/Learner.cpp:7-11). -/
def create : Fields := ⟨none, none, false, false, 0⟩

/-- `trainingSet(input, output)` (src/Learner.cpp:21-30) for matrices with `n` rows. -/
def trainingSetMatrix (s : State) (n : ℕ) : Outcome State := do
  let h ← deleteIf s.heap s.learner.deleteTrainSet s.learner.trainSet
  let (h, a) := alloc h n
  let l := { s.learner with trainSet := some a, deleteTrainSet := true }
  let N ← samples h l.trainSet
  ok ⟨h, { l with N := N }⟩

/-- `trainingSet(DataSet&)` (src/Learner.cpp:32-40). -/
def trainingSetRef (s : State) (k : ℕ) : Outcome State := do
  let h ← deleteIf s.heap s.learner.deleteTrainSet s.learner.trainSet
  let l := { s.learner with trainSet := some (.user k), deleteTrainSet := false }
  let N ← samples h l.trainSet
  ok ⟨h, { l with N := N }⟩

/-- `removeTrainingSet` (src/Learner.cpp:42-50). -/
def removeTrainingSet (s : State) : Outcome State := do
  let h ← deleteIf s.heap s.learner.deleteTrainSet s.learner.trainSet
  ok ⟨h, { s.learner with deleteTrainSet := false, trainSet := none, N := 0 }⟩

/-- `validationSet(input, output)` (src/Learner.cpp:52-60) for matrices with `n` rows. -/
def validationSetMatrix (s : State) (n : ℕ) : Outcome State := do
  let h ← deleteIf s.heap s.learner.deleteValidSet s.learner.validSet
  let (h, a) := alloc h n
  ok ⟨h, { s.learner with validSet := some a, deleteValidSet := true }⟩

/-- `validationSet(DataSet&)` (src/Learner.cpp:62-69). -/
def validationSetRef (s : State) (k : ℕ) : Outcome State := do
  let h ← deleteIf s.heap s.learner.deleteValidSet s.learner.validSet
  ok ⟨h, { s.learner with validSet := some (.user k), deleteValidSet := false }⟩

/-- `removeValidationSet` (src/Learner.cpp:71-78). -/
def removeValidationSet (s : State) : Outcome State := do
  let h ← deleteIf s.heap s.learner.deleteValidSet s.learner.validSet
  ok ⟨h, { s.learner with deleteValidSet := false, validSet := none }⟩

/-- Destructor (src/Learner.cpp:13-19): what remains is the heap. -/
def destroy (s : State) : Outcome Heap := do
  let h ← deleteIf s.heap s.learner.deleteTrainSet s.learner.trainSet
  deleteIf h s.learner.deleteValidSet s.learner.validSet

/-- A call of one of the six setters (src/Learner.cpp:21-78). -/
inductive Call where
  | trainingSetMatrix (n : ℕ)
  | trainingSetRef (k : ℕ)
  | removeTrainingSet
  | validationSetMatrix (n : ℕ)
  | validationSetRef (k : ℕ)
  | removeValidationSet

/-- One call (src/Learner.cpp:21-78). -/
def call (s : State) : Call → Outcome State
  | .trainingSetMatrix n => Learner.trainingSetMatrix s n
  | .trainingSetRef k => Learner.trainingSetRef s k
  | .removeTrainingSet => Learner.removeTrainingSet s
  | .validationSetMatrix n => Learner.validationSetMatrix s n
  | .validationSetRef k => Learner.validationSetRef s k
  | .removeValidationSet => Learner.removeValidationSet s

/-- A history of calls. -/
def run (s : State) (calls : List Call) : Outcome State := calls.foldlM call s

/-- A new learner in a heap in which nothing was freed and no learner has created anything. -/
def start (userSize : ℕ → ℕ) : State := ⟨⟨userSize, [], []⟩, create⟩

/-- What `crossValidation` (src/Evaluation.cpp:130-175) does to the training set of the learner: in fold `i` a local view
`views i` becomes the training set (line 141); the view is destroyed at the end of the loop body. -/
def crossValidationSets (s : State) (folds : ℕ) (views : ℕ → ℕ) : Outcome State :=
  (List.range folds).foldlM (fun s i => do
    let s ← trainingSetRef s (views i)
    let h ← delete s.heap (.user (views i))
    ok { s with heap := h }) s

end Verif.Learner
