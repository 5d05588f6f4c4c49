import Verif.Model.DataSet
import Verif.Model.Random

/-!
# Subsampling and weighted resampling

Models `sample` (src/DataSetView.cpp:125-139) and `WeightedDataSet` (src/WeightedDataSet.cpp).
-/

namespace Verif.Data

open Outcome

variable {X T : Type}

/-- `sample` (src/DataSetView.cpp:125-139).  `rand k` is the `k`-th value of `rand()`, `σ` the effect of `std::shuffle`.

The vector `indices` is empty after `reserve(samples)`: `reserve` changes the capacity, not the size.  So the
assignment `indices[n] = ...` of line 134 goes through `write`, which is undefined behaviour
unless `n` is smaller than the size.  A negative number of samples makes `reserve` throw `std::length_error`. -/
def sample {K : Type} [Field K] [LinearOrder K] [FloorRing K]
    (σ : List ℤ → List ℤ) (rand : ℕ → ℕ) (s : Store X T) (a : ℕ) (fraction : K)
    (replacement : Bool) : Outcome (Store X T × ℕ) := do
  let samples' : ℤ := ⌈(samples s a : K) * fraction⌉
  if samples' < 0 then throws else do
  let reserved : List ℤ := []
  let indices ← (if replacement then
      (List.range samples'.toNat).foldlM (fun (v : List ℤ) (n : ℕ) => do
        let idx ← Rng.generateIndex (rand n) (samples s a)
        Outcome.write v n idx) reserved
    else Rng.generateIndices σ (samples s a) reserved false)
  let part ← slice indices 0 samples'
  ok (s ++ [.view a part], s.length)

/-- The inner loop of `WeightedDataSet::resample` (src/WeightedDataSet.cpp:54-57):
`for(; sum < p && idx < N; idx++) sum += weights(idx);`  The result is the final `idx`. -/
def scan {K : Type} [Field K] [LinearOrder K] (weights : List K) (N : ℕ) (p : K)
    (idx : ℕ) (sum : K) : Outcome ℕ :=
  if sum < p ∧ idx < N then do
    let w ← Outcome.read weights idx
    scan weights N p (idx + 1) (sum + w)
  else ok idx
termination_by N - idx

/-- The outer loop of `WeightedDataSet::resample` (src/WeightedDataSet.cpp:45-60): `p n` is the value of `p` in iteration
`n`, i.e. `(n+1)/N` or a random number. -/
def resample {K : Type} [Field K] [LinearOrder K] (weights : List K) (N : ℕ) (p : ℕ → K) :
    Outcome (List ℤ) :=
  (List.range N).mapM (fun n => do
    let idx ← scan weights N (p n) 0 0
    ok ((idx : ℤ) - 1))

/-- `p` for deterministic resampling (src/WeightedDataSet.cpp:52-53). -/
def deterministicP {K : Type} [Field K] (N : ℕ) (n : ℕ) : K := ((n + 1 : ℕ) : K) / (N : K)

/-- `p` for random resampling: `rng.generate<double>(0.0, 1.0)` with the `n`-th value of `rand()`
(src/WeightedDataSet.cpp:53, OpenANN/util/Random.h:69). -/
def randomP {K : Type} [Field K] (randMax : ℕ) (rand : ℕ → ℕ) (n : ℕ) : K :=
  (rand n : K) / (randMax : K) * 1 + 0

/-- Constructor of `WeightedDataSet` (src/WeightedDataSet.cpp:7-12). -/
def newWeighted {K : Type} [Field K] [LinearOrder K] (s : Store X T) (a : ℕ) (weights : List K)
    (p : ℕ → K) : Outcome (Store X T × ℕ) := do
  let orig ← resample weights (samples s a) p
  ok (s ++ [.weighted a orig], s.length)

end Verif.Data
