import Verif.Model.Matrix
import Verif.Model.Random
import Mathlib.Analysis.Real.Sqrt
import Mathlib.Algebra.BigOperators.Group.Finset.Basic

/-!
# K-means clustering

src/KMeans.cpp, OpenANN/KMeans.h.  Arithmetic on real numbers; the counters `v` do not overflow.
-/

namespace Verif.KM

open Outcome Finset

noncomputable section

/-- class `KMeans` (OpenANN/KMeans.h:24-31); the rows of `C` are the centres -/
structure KMeans where
  D : ℕ
  K : ℕ
  C : ℕ → ℕ → ℝ
  v : ℕ → ℕ
  initialized : Bool
  clusterIndices : List ℤ

/-- constructor, src/KMeans.cpp:7-10; `C` and `v` are not initialised -/
def KMeans.new (D K : ℕ) (C : ℕ → ℕ → ℝ) (v : ℕ → ℕ) : KMeans := ⟨D, K, C, v, false, []⟩

/-- `v` with another row `k` -/
def setRow {α : Type} (f : ℕ → α) (k : ℕ) (a : α) : ℕ → α := fun i => if i = k then a else f i

/-- `X.row(i)`, an assertion of Eigen if there is no such row -/
def row (X : Mat) (i : ℤ) : Outcome (ℕ → ℝ) := if 0 ≤ i ∧ i < X.rows then ok (X.val i.toNat) else ub

/-- `KMeans::initialize`, src/KMeans.cpp:41-48; `σ` is the shuffle of the random number generator -/
def KMeans.init (m : KMeans) (σ : List ℤ → List ℤ) (X : Mat) : Outcome KMeans := do
  let idx ← Rng.generateIndices σ X.rows m.clusterIndices false
  let C ← forLoop m.K (fun k C => do
    let i ← Outcome.read idx k
    let r ← row X i
    ok (setRow C k r)) m.C
  ok { m with C := C, v := fun _ => 0, initialized := true, clusterIndices := idx }

/-- `(C.row(k) - X.row(n)).squaredNorm()` -/
def sqDist (D : ℕ) (a b : ℕ → ℝ) : ℝ := ∑ d ∈ range D, (a d - b d) ^ 2

/-- src/KMeans.cpp:55-65: `cluster` and `shortedDistance` after the first `k` centres; `huge` is
`std::numeric_limits<double>::max()` -/
def findCluster (huge : ℝ) (dist : ℕ → ℝ) : ℕ → ℕ × ℝ
  | 0 => (0, huge)
  | k + 1 => if dist k < (findCluster huge dist k).2 then (k, dist k) else findCluster huge dist k

/-- `KMeans::findClusters`, src/KMeans.cpp:50-68; `fit` makes sure that `clusterIndices` has one entry per row -/
def KMeans.findClusters (m : KMeans) (huge : ℝ) (X : Mat) : KMeans :=
  { m with clusterIndices := (List.range X.rows).map fun n : ℕ =>
      ((findCluster huge (fun k => sqDist m.D (m.C k) (X.val n)) m.K).1 : ℤ) }

/-- src/KMeans.cpp:75-78 -/
def KMeans.update (m : KMeans) (X : Mat) (n : ℕ) : Outcome KMeans := do
  let cluster ← Outcome.read m.clusterIndices n
  if 0 ≤ cluster ∧ cluster < m.K then
    let k := cluster.toNat
    let eta := 1 / ((m.v k + 1 : ℕ) : ℝ)
    ok { m with v := setRow m.v k (m.v k + 1), C := setRow m.C k fun d => m.C k d + eta * (X.val n d - m.C k d) }
  else ub

/-- `KMeans::updateCenters`, src/KMeans.cpp:70-80 -/
def KMeans.updateCenters (m : KMeans) (X : Mat) : Outcome KMeans := forLoop X.rows (fun n m => m.update X n) m

/-- `KMeans::fit`, src/KMeans.cpp:12-24 -/
def KMeans.fit (huge : ℝ) (σ : List ℤ → List ℤ) (m : KMeans) (X : Mat) : Outcome KMeans := do
  check (X.cols = m.D)
  let m ← (if m.initialized then ok m else m.init σ X)
  check (X.rows = m.clusterIndices.length)
  (m.findClusters huge X).updateCenters X

/-- `KMeans::operator()`, src/KMeans.cpp:26-34; rows of different length violate an assertion of Eigen -/
def KMeans.transform (m : KMeans) (X : Mat) (junk : ℕ → ℕ → ℝ) : Outcome Mat :=
  forLoop X.rows (fun n Y => forLoop m.K (fun k Y =>
    if X.cols = m.D then Y.set n k (Real.sqrt (sqDist m.D (X.val n) (m.C k))) else ub) Y) ⟨X.rows, m.K, junk⟩

end

end Verif.KM
