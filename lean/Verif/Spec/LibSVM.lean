import Verif.Model.Text
import Mathlib.Data.Finset.Dedup

/-!
# What a LibSVM file means

A file is a list of lines `label index:value index:value ...` with indices that start at 1 and increase.
-/

namespace Verif.LibSVM

open Verif.Text

/-- One line of a file. -/
structure Line (K : Type) where
  label : ℤ
  features : List (ℕ × K)

/-- Indices are 1-based and increase. -/
def Line.Valid {K : Type} (l : Line K) : Prop :=
  (∀ f ∈ l.features, 1 ≤ f.1) ∧ l.features.Pairwise (fun a b => a.1 < b.1)

variable {K : Type} [IntCast K] [Zero K]

/-- One feature as text. -/
def featureText (F : NumFormat K) (f : ℕ × K) : List Char := printInt f.1 ++ ':' :: F.fmt f.2

/-- One line as text. -/
def lineText (F : NumFormat K) (l : Line K) : List Char :=
  printInt l.label ++ l.features.flatMap (fun f => ' ' :: featureText F f)

/-- The whole file as text. -/
def fileText (F : NumFormat K) (ls : List (Line K)) : List Char := ls.flatMap (fun l => lineText F l ++ ['\n'])

/-- The number that the file gives for the feature with (1-based) index `i`; absent features are 0. -/
def Line.value (F : NumFormat K) (l : Line K) (i : ℕ) : K :=
  match l.features.find? (fun f => f.1 = i) with
  | some f => F.round f.2
  | none => 0

/-- The number of columns that a line demands: its last (largest) index.  A line without any feature demands as many
columns as its label says - a peculiarity of OpenANN's reader. -/
def lineWidth (l : Line K) : ℤ :=
  match l.features.getLast? with
  | some f => f.1
  | none => l.label

/-- The number of columns of a file: all lines have enough space, and at least `cols`. -/
def fileWidth (cols : ℤ) (ls : List (Line K)) : ℤ := (ls.map lineWidth).foldl max cols

/-- The different labels of a file. -/
def fileClasses (ls : List (Line K)) : Finset ℤ := (ls.map (fun l => l.label)).toFinset

/-- The non-zero elements of a row with their 1-based indices; the first one is at index `j + 1`. -/
def nonzeros [DecidableEq K] (j : ℕ) : List K → List (ℕ × K)
  | [] => []
  | x :: xs => if x ≠ 0 then (j + 1, x) :: nonzeros (j + 1) xs else nonzeros (j + 1) xs

/-- The lines that describe a data set. -/
def datasetLines [DecidableEq K] (rows : List (List K)) (labels : List ℤ) : List (Line K) :=
  (List.zip rows labels).map (fun p => { label := p.2, features := nonzeros 0 p.1 })

end Verif.LibSVM
