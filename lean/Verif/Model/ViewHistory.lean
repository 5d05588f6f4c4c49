import Verif.Model.Sampling

/-!
# Histories of view operations

A program that works with data set views performs a sequence of the operations below.  Every operation that
shuffles carries the outcome `σ` of its shuffle, so different operations may shuffle differently.
-/

namespace Verif.Data

open Outcome

variable {X T : Type}

/-- One operation of a program that works with views.  Addresses are positions in the store.
* `empty a`     - `DataSetView(a)` (OpenANN/io/DataSetView.h:40)
* `copy v`      - copy constructor (src/DataSetView.cpp:18-21)
* `shuffle σ v` - src/DataSetView.cpp:55-59
* `split`, `splitRatio`, `merge`, `sample` - src/DataSetView.cpp:61-139 -/
inductive ViewOp (K : Type) where
  | empty (a : ℕ)
  | copy (v : ℕ)
  | shuffle (σ : List ℤ → List ℤ) (v : ℕ)
  | split (σ : List ℤ → List ℤ) (a : ℕ) (k : ℤ) (shuffling : Bool)
  | splitRatio (σ : List ℤ → List ℤ) (a : ℕ) (ratio : K) (shuffling : Bool)
  | merge (m : ℕ) (groups : List ℕ)
  | sample (σ : List ℤ → List ℤ) (rand : ℕ → ℕ) (a : ℕ) (fraction : K) (replacement : Bool)

/-- `DataSetView(const DataSetView&)` (src/DataSetView.cpp:18-21). -/
def copyView (s : Store X T) (v : ℕ) : Outcome (Store X T × ℕ) :=
  match s[v]? with
  | some (.view b idx) => ok (s ++ [.view b idx], s.length)
  | _ => ub

/-- The effect of one operation on the store (src/DataSetView.cpp:18-139).  A reference to an object that does not
exist cannot be formed in C++; here it is `ub`. -/
def viewStep {K : Type} [Field K] [LinearOrder K] [FloorRing K] (s : Store X T) :
    ViewOp K → Outcome (Store X T)
  | .empty a => if a < s.length then ok (newView s a).1 else ub
  | .copy v => do let r ← copyView s v; ok r.1
  | .shuffle σ v => shuffle σ s v
  | .split σ a k sh => if a < s.length then (do let r ← split σ s [] a k sh; ok r.1) else ub
  | .splitRatio σ a ratio sh =>
      if a < s.length then (do let r ← splitRatio σ s [] a ratio sh; ok r.1) else ub
  | .merge m groups => merge s m groups
  | .sample σ rand a fraction repl =>
      if a < s.length then (do let r ← sample σ rand s a fraction repl; ok r.1) else ub

/-- A whole program. -/
def viewRun {K : Type} [Field K] [LinearOrder K] [FloorRing K] (s : Store X T)
    (ops : List (ViewOp K)) : Outcome (Store X T) := ops.foldlM viewStep s

end Verif.Data
