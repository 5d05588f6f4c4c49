import Verif.Model.Random
import Mathlib.Data.Real.Basic
import Mathlib.Algebra.BigOperators.Group.Finset.Basic

/-!
# Programs that compare probabilities with random numbers

The stochastic units of src/RBM.cpp (lines 243, 254) and the masks of src/Dropout.cpp (line 32) come from comparisons with
`rng->generate<double>(0.0, 1.0)`.  A program that makes such comparisons is a tree of its possible continuations.
-/

namespace Verif

open Finset

/-- A program that returns an `α`. -/
inductive Draw (α : Type) where
  | ret (a : α)
  /-- `p > rng->generate<double>(0.0, 1.0)`, and how it goes on -/
  | compare (p : ℝ) (k : Bool → Draw α)

namespace Draw

noncomputable section

/-- sequential composition -/
def bind {α β : Type} : Draw α → (α → Draw β) → Draw β
  | ret a, f => f a
  | compare p k, f => compare p fun b => (k b).bind f

open Classical in
/-- The comparison, `r` is the value of `rand()` (OpenANN/util/Random.h lines 62-70). -/
def fires (randMax r : ℕ) (p : ℝ) : Outcome Bool := do
  let u ← Rng.generate randMax r (0 : ℝ) 1
  .ok (decide (p > u))

/-- One execution; `r 0, r 1, …` are the values of `rand()`. -/
def run {α : Type} (randMax : ℕ) : Draw α → (ℕ → ℕ) → Outcome α
  | ret a, _ => .ok a
  | compare p k, r => do
    let b ← fires randMax (r 0) p
    (k b).run randMax fun t => r (t + 1)

/-- The mean of `f` over the executions, where every value `0, …, RAND_MAX` of every call of `rand()` is equally likely and
does not depend on the other calls. -/
def average {α : Type} (randMax : ℕ) : Draw α → (α → ℝ) → ℝ
  | ret a, f => f a
  | compare p k, f => (∑ r ∈ range (randMax + 1), match fires randMax r p with
    | .ok b => (k b).average randMax f
    | _ => 0) / (randMax + 1 : ℝ)

/-- The expected value of `f` if `p > u` has probability `q p`, independent of everything before. -/
def expect {α : Type} (q : ℝ → ℝ) : Draw α → (α → ℝ) → ℝ
  | ret a, f => f a
  | compare p k, f => q p * (k true).expect q f + (1 - q p) * (k false).expect q f

/-- The number of comparisons is at most `n`. -/
def AtMost {α : Type} : ℕ → Draw α → Prop
  | _, ret _ => True
  | 0, compare _ _ => False
  | n + 1, compare _ k => ∀ b, AtMost n (k b)

/-- All probabilities are between 0 and 1. -/
def Proper {α : Type} : Draw α → Prop
  | ret _ => True
  | compare p k => 0 ≤ p ∧ p ≤ 1 ∧ ∀ b, (k b).Proper

end

end Draw

end Verif
