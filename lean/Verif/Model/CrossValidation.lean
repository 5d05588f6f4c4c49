import Verif.Model.DataSet

/-!
# Cross-validation

Models `crossValidation` (src/Evaluation.cpp:122-178).  The learner and the optimiser are arbitrary:
what they do is given by an oracle that says, for each fold, how often `opt.step()` returned true (without
interrupt) and which numbers of classification hits were measured after each of these steps.
-/

namespace Verif.Data

open Outcome

variable {X T : Type}

/-- Construction of the training set and the test set of fold `i`
(src/Evaluation.cpp:132-139): the vector of splits is copied, element `i` is erased, the rest is merged
into an empty view; the test set is split `i`.  (The copies of the views are not modified
afterwards, the model uses the originals.)  The result is the new store, the training set and the test set. -/
def foldSets (s : Store X T) (a : ℕ) (splits : List ℕ) (i : ℕ) :
    Outcome (Store X T × ℕ × ℕ) := do
  let trainingSplits := splits.eraseIdx i
  let test ← Outcome.read splits i
  let (s1, training) := newView s a
  let s2 ← merge s1 training trainingSplits
  ok (s2, training, test)

/-- Integer division of two `int`s in C++; division by zero is undefined behaviour. -/
def intDiv (x y : ℤ) : Outcome ℤ := if y = 0 then ub else ok (Int.tdiv x y)

/-- The inner loop of a fold (src/Evaluation.cpp:146-163): `hits` lists the training and test hits
measured after each optimisation step.  The result is the last `testAccuracy` (initially 0.0),
the quotient of two `int`s (line 158). -/
def foldAccuracy (trainingSamples testSamples : ℕ) (hits : List (ℕ × ℕ)) : Outcome ℚ :=
  hits.foldlM (fun (_ : ℚ) (h : ℕ × ℕ) => do
    let _ ← intDiv h.1 trainingSamples
    let testAccuracy ← intDiv h.2 testSamples
    ok (testAccuracy : ℚ)) 0

/-- What `getInstance`/`getTarget` deliver for all instances of a data set: the part of a data set that the
learner and the optimiser can see. -/
def visible (s : Store X T) (a : ℕ) : List (Outcome X × Outcome T) :=
  (List.range (samples s a)).map (fun i : ℕ => (getInstance s a i, getTarget s a i))

/-- `crossValidation` (src/Evaluation.cpp:122-178): `split` with shuffling, the loop over the folds,
the average.  `hits i train test` is the oracle for fold `i`; it may depend on everything that can be seen of the
training set and the test set. -/
def crossValidation (σ : List ℤ → List ℤ) (s : Store X T) (a : ℕ) (folds : ℤ)
    (hits : ℕ → List (Outcome X × Outcome T) → List (Outcome X × Outcome T) → List (ℕ × ℕ)) :
    Outcome ℚ := do
  let (s1, splits) ← split σ s [] a folds true
  let (_, sum) ← (List.range folds.toNat).foldlM (fun (acc : Store X T × ℚ) (i : ℕ) => do
    let (s2, training, test) ← foldSets acc.1 a splits i
    let acc' ← foldAccuracy (samples s2 training) (samples s2 test)
      (hits i (visible s2 training) (visible s2 test))
    ok (s2, acc.2 + acc')) (s1, (0 : ℚ))
  ok (sum / (folds : ℚ))

end Verif.Data
