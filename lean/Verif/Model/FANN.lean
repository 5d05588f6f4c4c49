import Verif.Model.Text

/-!
# FANN files (src/FANN.cpp)
-/

namespace Verif.FANN

open Verif.Text

variable {K : Type} [IntCast K] [Zero K]

/-- src/FANN.cpp lines 49-63, `save`: the characters written to the stream. -/
def save (F : NumFormat K) (input output : Mat K) : Outcome (List Char) := do
  Outcome.check (input.rows.length = output.rows.length)
  return printInt input.rows.length ++ [' '] ++ printInt input.cols ++ [' '] ++ printInt output.cols ++ ['\n'] ++
    (List.zip input.rows output.rows).flatMap (fun r =>
      printRow (r.1.map F.fmt) ++ ['\n'] ++ printRow (r.2.map F.fmt) ++ ['\n'])

/-- src/FANN.cpp lines 31-32 and 33-34: `for d < n: stream >> m(row, d)`.  The matrix has just been resized, so an
element that is not assigned keeps an indeterminate value (`none`). -/
def loadRow (F : NumFormat K) : ℕ → IStream → List (Option K) × IStream
  | 0, s => ([], s)
  | n + 1, s =>
    let (x, s₁) := F.extract s
    let (xs, s₂) := loadRow F n s₁
    (x :: xs, s₂)

/-- src/FANN.cpp lines 29-35: the loop over the rows. -/
def loadRows (F : NumFormat K) (D O : ℕ) : ℕ → IStream → List (List (Option K)) × List (List (Option K))
  | 0, _ => ([], [])
  | n + 1, s =>
    let (r, s₁) := loadRow F D s
    let (t, s₂) := loadRow F O s₁
    let (rs, ts) := loadRows F D O n s₂
    (r :: rs, t :: ts)

/-- A resize argument: an `int` that was never assigned or is negative is not usable. -/
def size : Option ℤ → Outcome ℕ
  | none => .ub
  | some z => if z < 0 then .ub else .ok z.toNat

/-- src/FANN.cpp lines 21-38, `load` from a stream: number of instances, inputs and outputs.
`N`, `D` and `F` are not initialised (line 23). -/
def load (F : NumFormat K) (s : IStream) : Outcome (ℤ × Mat (Option K) × Mat (Option K)) := do
  let (N, s₁) := extractInt s
  let (D, s₂) := extractInt s₁
  let (O, s₃) := extractInt s₂
  let n ← size N
  let d ← size D
  let o ← size O
  let (ins, outs) := loadRows F d o n s₃
  return ((n : ℤ), { cols := d, rows := ins }, { cols := o, rows := outs })

/-- src/FANN.cpp lines 11-18, `load` from a file that may not exist. -/
def loadFile (F : NumFormat K) (file : Option (List Char)) : Outcome (ℤ × Mat (Option K) × Mat (Option K)) :=
  match file with
  | none => load F IStream.notOpened
  | some content => load F (IStream.of content)

end Verif.FANN
