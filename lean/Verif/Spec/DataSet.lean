import Verif.Model.DataSet

/-!
# What a user expects from data set views

Everything is said in terms of what `samples()`, `getInstance(i)` and `getTarget(i)` deliver.
-/

namespace Verif.Data

variable {X T : Type}

/-- The pair of results that `getInstance(i)` and `getTarget(i)` give for data set `a`. -/
def row (s : Store X T) (a : ℕ) (i : ℤ) : Outcome X × Outcome T :=
  (getInstance s a i, getTarget s a i)

/-- Reading a data set from the first to the last instance. -/
def readAll (s : Store X T) (a : ℕ) : List (Outcome X × Outcome T) :=
  (List.range (samples s a)).map (fun i : ℕ => row s a (i : ℤ))

/-- Data set `v` (in store `s'`) shows the rows of data set `a` (in store `s`) at the positions `pos`,
in this order: reading it delivers precisely these rows, inputs together with their targets. -/
def Shows (s' : Store X T) (v : ℕ) (s : Store X T) (a : ℕ) (pos : List ℕ) : Prop :=
  samples s' v = pos.length ∧ readAll s' v = pos.map (fun i : ℕ => row s a (i : ℤ))

/-- The position lists `parts` use every position `0, ..., n-1` exactly once. -/
def IsPartition (n : ℕ) (parts : List (List ℕ)) : Prop :=
  parts.flatten.Perm (List.range n)

/-- The effect of a shuffle on a vector: some reordering. -/
def IsShuffle (σ : List ℤ → List ℤ) : Prop := ∀ l, (σ l).Perm l

/-- The objects of `s` are still there, unchanged, in `s'`. -/
def Unchanged (s s' : Store X T) : Prop := s <+: s'

end Verif.Data

namespace Verif.Data

variable {X T : Type}

/-- `v` is a view of data set `b`, created after `b`. -/
def IsViewOf (s : Store X T) (v b : ℕ) : Prop := b < v ∧ ∃ idx, s[v]? = some (.view b idx)

/-- Honest `k`-fold cross-validation of a data set with `n` instances: in each fold training and test positions are disjoint and
together they are all positions, each once; over all folds each position is tested exactly once. -/
def HonestFolds (n k : ℕ) (train test : ℕ → List ℕ) : Prop :=
  (∀ i < k, (train i).Disjoint (test i) ∧ (train i ++ test i).Perm (List.range n)) ∧
  ((List.range k).flatMap test).Perm (List.range n)

/-- The documented result of cross-validation: the average over the folds of
(validation hits / validation instances). -/
def meanAccuracy (results : List (ℕ × ℕ)) : ℚ :=
  (results.map (fun r => (r.1 : ℚ) / (r.2 : ℚ))).sum / results.length

end Verif.Data
