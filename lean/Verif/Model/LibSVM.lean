import Verif.Model.Text
import Mathlib.Data.Finset.Card
import Mathlib.Data.Finset.Insert
import Mathlib.Order.Defs.LinearOrder

/-!
# LibSVM files (src/LibSVM.cpp)
-/

namespace Verif.LibSVM

open Verif.Text

variable {K : Type} [IntCast K] [Zero K] [One K] [LinearOrder K]

/-! ## Writer -/

/-- `v.maxCoeff(&index)`: position of the first largest element. -/
def argmaxFrom (best : K) (bestIdx i : ℕ) : List K → ℕ
  | [] => bestIdx
  | x :: xs => if best < x then argmaxFrom x i (i + 1) xs else argmaxFrom best bestIdx (i + 1) xs

/-- `v.maxCoeff(&index)`; only called for vectors with at least two elements. -/
def argmax : List K → ℕ
  | [] => 0
  | x :: xs => argmaxFrom x 0 1 xs

/-- src/LibSVM.cpp lines 136-143: the label of one line. -/
def saveLabel (F : NumFormat K) (cols : ℕ) (target : List K) : Outcome (List Char) :=
  if cols > 1 then .ok (printInt (argmax target))
  else
    match target with
    | [] => .ub
    | y :: _ => .ok (F.fmt y)

/-- src/LibSVM.cpp lines 145-149: the features of one line; `j` is the column of the first element. -/
def saveFeatures (F : NumFormat K) (j : ℕ) : List K → List Char
  | [] => []
  | x :: xs =>
    (if x ≠ 0 then ' ' :: (printInt (j + 1 : ℕ) ++ ':' :: F.fmt x) else []) ++ saveFeatures F (j + 1) xs

/-- src/LibSVM.cpp lines 134-152: the loop over the rows. -/
def saveRows (F : NumFormat K) (outCols : ℕ) : List (List K) → List (List K) → Outcome (List Char)
  | x :: xs, t :: ts => do
    let label ← saveLabel F outCols t
    let more ← saveRows F outCols xs ts
    return label ++ saveFeatures F 0 x ++ '\n' :: more
  | _, _ => .ok []

/-- src/LibSVM.cpp lines 130-153, `save`: the characters written. -/
def save (F : NumFormat K) (input output : Mat K) : Outcome (List Char) := do
  Outcome.check (input.rows.length = output.rows.length)
  saveRows F output.cols input.rows output.rows

/-! ## Reader -/

/-- src/LibSVM.cpp lines 34-38: the buffers delivered by `std::getline` while the stream is good (the text after the
last newline is delivered too, even if empty). -/
def buffers (l : List Char) : List (List Char) :=
  match _h : l.dropWhile (fun c => c ≠ '\n') with
  | [] => [l.takeWhile (fun c => c ≠ '\n')]
  | _ :: r => l.takeWhile (fun c => c ≠ '\n') :: buffers r
termination_by l.length
decreasing_by
  have := List.dropWhile_sublist (l := l) (fun c => decide (c ≠ '\n'))
  have := this.length_le
  simp only [ne_eq] at this _h
  rw [_h] at this
  simp at this
  omega

/-- src/LibSVM.cpp lines 40-45: the words of a line, `while(ss >> token)`. -/
def words (l : List Char) : List (List Char) :=
  match _h : l.dropWhile isSpace with
  | [] => []
  | c :: cs =>
    ((c :: cs).takeWhile (fun c => !isSpace c)) :: words ((c :: cs).dropWhile (fun c => !isSpace c))
termination_by l.length
decreasing_by
  have h1 := (List.dropWhile_sublist (l := l) isSpace).length_le
  rw [_h] at h1
  have hc : isSpace c = false := by
    have := List.head?_dropWhile_not isSpace l
    rw [_h] at this
    simpa using this
  simp only [List.dropWhile_cons, hc, Bool.not_false, if_true]
  have h2 := (List.dropWhile_sublist (l := cs) (fun c => !isSpace c)).length_le
  simp at h1
  omega

/-- Lines 59 and 100: `tok.substr(0, tok.find_first_of(':'))`. -/
def beforeColon (tok : List Char) : List Char := tok.takeWhile (fun c => c ≠ ':')

/-- Line 101: `tok.substr(pos + 1)`; without a colon `pos + 1` wraps around to 0. -/
def afterColon (tok : List Char) : List Char :=
  match tok.dropWhile (fun c => c ≠ ':') with
  | [] => tok
  | _ :: r => r

/-- The local variables of the first pass (src/LibSVM.cpp lines 27-31). -/
structure Pre where
  features : List (List Char) := []
  targets : List ℤ := []
  classes : Finset ℤ := ∅
  width : ℤ
  instances : ℕ := 0

/-- src/LibSVM.cpp lines 40-65: one pass of the first loop, for one line of the file. -/
def Pre.line (st : Pre) (buffer : List Char) : Pre :=
  match words buffer with
  | [] => st
  | first :: more =>
    let last := (first :: more).getLast (by simp)
    let y := atoi first
    { features := st.features ++ more ++ [[]]
      targets := st.targets ++ [y]
      classes := insert y st.classes
      width := max st.width (atoi (beforeColon last))
      instances := st.instances + 1 }

/-- src/LibSVM.cpp lines 80-90: one row of the output matrix; `out(i, y - 1) = 1` for more than two
classes, `out(i) = y` otherwise. -/
def outRow (classes : ℕ) (y : ℤ) : Outcome (List K) :=
  if classes > 2 then
    if 0 ≤ y - 1 ∧ y - 1 < classes then .ok ((List.replicate classes 0).set (y - 1).toNat 1) else .ub
  else .ok [(y : K)]

/-- Line 108: `in(row, index) = value`. -/
def writeAt (m : List (List K)) (cols : ℕ) (row : ℕ) (index : ℤ) (value : K) : Outcome (List (List K)) :=
  if row < m.length ∧ 0 ≤ index ∧ index < cols then
    .ok (m.modify row (fun r => r.set index.toNat value))
  else .ub

/-- src/LibSVM.cpp lines 93-114: the second pass.  `features` holds the tokens of all lines, each
line followed by an empty string. -/
def fill (F : NumFormat K) (classes : ℕ) (cols : ℕ) : List (List Char) → ℕ → List (List K) → Outcome (List (List K))
  | [], _, m => .ok m
  | tok :: toks, row, m =>
    if tok = [] then fill F classes cols toks (row + 1) m
    else do
      let index := atoi (beforeColon tok)
      let value := F.atof (afterColon tok)
      let index := if classes > 1 then index - 1 else index
      let m' ← writeAt m cols row index value
      fill F classes cols toks row m'

/-- src/LibSVM.cpp lines 68-118: everything after the first pass. -/
def finish (F : NumFormat K) (st : Pre) : Outcome (ℤ × Mat K × Mat K) :=
  if st.width < 0 then .ub
  else do
    let cols := st.width.toNat
    let outs ← st.targets.mapM (outRow st.classes.card)
    let ins ← fill F st.classes.card cols st.features 0 (List.replicate st.instances (List.replicate cols 0))
    return ((st.instances : ℤ), { cols := cols, rows := ins },
      { cols := if st.classes.card > 2 then st.classes.card else 1, rows := outs })

/-- src/LibSVM.cpp lines 25-119, `load`: number of instances, inputs and outputs. `cols` is the
minimal number of columns. -/
def load (F : NumFormat K) (text : List Char) (cols : ℤ) : Outcome (ℤ × Mat K × Mat K) :=
  finish F ((buffers text).foldl Pre.line { width := cols })

/-- src/LibSVM.cpp lines 15-22: a file that cannot be opened delivers no line at all. -/
def loadFile (F : NumFormat K) (file : Option (List Char)) (cols : ℤ) : Outcome (ℤ × Mat K × Mat K) :=
  match file with
  | none => finish F { width := cols }
  | some text => load F text cols

end Verif.LibSVM
