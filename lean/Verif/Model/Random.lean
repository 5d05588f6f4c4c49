import Verif.Model.Outcome
import Mathlib.Algebra.Order.Field.Basic
import Mathlib.Data.List.Basic

/-!
# Random numbers

Models `OpenANN/util/Random.h` and `src/Random.cpp`.  `rand()` returns an arbitrary integer `r` with
`0 ≤ r ≤ RAND_MAX`; `std::shuffle` is an arbitrary function on vectors.
-/

namespace Verif.Rng

open Outcome

/-- `RandomNumberGenerator::generateInt` (src/Random.cpp:24-31); `r` is the value of `rand()`. -/
def generateInt (r : ℕ) (min range : ℤ) : Outcome ℤ := do
  check (range ≥ 0)
  if range = 0 then ok min else ok (Int.tmod r range + min)

/-- `RandomNumberGenerator::generateIndex` (src/Random.cpp:33-36). -/
def generateIndex (r : ℕ) (size : ℕ) : Outcome ℤ := generateInt r 0 size

/-- `RandomNumberGenerator::generate<T>` (OpenANN/util/Random.h:62-70) for a floating point type `T`, modelled
by the field `K`; `r` is the value of `rand()`. -/
def generate {K : Type} [Field K] [LinearOrder K] (randMax r : ℕ) (min range : K) : Outcome K := do
  check (range ≥ 0)
  if range = 0 then ok min else ok ((r : K) / (randMax : K) * range + min)

/-- `RandomNumberGenerator::generateIndices` (OpenANN/util/Random.h:101-115); `σ` is `std::shuffle`.
`result` is the container passed by reference. -/
def generateIndices (σ : List ℤ → List ℤ) (n : ℕ) (result : List ℤ) (initialized : Bool) :
    Outcome (List ℤ) := do
  let r ← (if initialized = false then do
      check (result.length = 0)
      ok (result ++ (List.range n).map (fun i : ℕ => (i : ℤ)))
    else do
      check (result.length = n)
      ok result)
  ok (σ r)

end Verif.Rng
