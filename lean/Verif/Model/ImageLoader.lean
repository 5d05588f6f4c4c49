import Verif.Model.Matrix
import Mathlib.Data.Real.Basic

/-!
# Loaders of image files (benchmarks/mnist/IDXLoader.h, benchmarks/cifar10/CIFARLoader.h)

A file is a list of bytes.  `int` and `int32_t` arithmetic of the dimensions is modelled by unbounded numbers; the theorems assume
that the sizes are small enough.  The machine is little-endian with a signed `char` (as on all platforms of the project).
-/

namespace Verif.Img

open Outcome

abbrev Byte := Fin 256

noncomputable section

/-! ## IDX files -/

/-- The complement `255 - t` of a byte. -/
def Byte.compl (b : Byte) : Byte := ⟨255 - b.1, by omega⟩

/-- benchmarks/mnist/IDXLoader.h lines 137-145, `read` of an `unsigned char`: the variable keeps its value at the end of the file, the
complement is taken in any case. -/
def readByte (s : List Byte) (tmp : Byte) : List Byte × Byte :=
  match s with
  | [] => ([], tmp.compl)
  | b :: s => (s, b.compl)

/-- A big-endian number of four bytes as `int32_t`. -/
def int32 (b0 b1 b2 b3 : Byte) : ℤ :=
  let v : ℤ := b0 * 2 ^ 24 + b1 * 2 ^ 16 + b2 * 2 ^ 8 + b3
  if v < 2 ^ 31 then v else v - 2 ^ 32

/-- benchmarks/mnist/IDXLoader.h lines 137-145, `read` of an `int32_t` that is 0 before: missing bytes remain 0, the order of the bytes
is reversed. -/
def readInt (s : List Byte) : List Byte × ℤ :=
  (s.drop 4, int32 (s.getD 0 0) (s.getD 1 0) (s.getD 2 0) (s.getD 3 0))

/-- `stream.read(&v, 1)` of a variable with value `old`. -/
def readRaw (s : List Byte) (old : Byte) : List Byte × Byte := (s.drop 1, s.getD 0 old)

/-- benchmarks/mnist/IDXLoader.h lines 57-64 and 115-122: the first four bytes; returns the rest of the file.  The variables of
type `int8_t` start with 0 here; for the second file they start with the values of the first one, but then `dimension` is 3 and a file
that is too short fails the last check instead of an earlier one. -/
def magic (s : List Byte) (dimension : Byte) : Outcome (List Byte) := do
  let z1 := readRaw s 0
  check (z1.2 = 0)
  let z2 := readRaw z1.1 z1.2
  check (z2.2 = 0)
  let e := readRaw z2.1 0
  check (e.2 = 8)
  let d := readRaw e.1 0
  check (d.2 = dimension)
  ok d.1

/-- The file position, the variable `tmp` and the matrix. -/
structure St where
  s : List Byte
  tmp : Byte
  m : Mat

/-- benchmarks/mnist/IDXLoader.h lines 85-87: one pixel. -/
def pixel (n pos : ℕ) (st : St) : Outcome St := do
  let r := readByte st.s st.tmp
  let m ← st.m.set n pos (1 - (r.2.1 : ℝ) / 255)
  ok ⟨r.1, r.2, m⟩

/-- benchmarks/mnist/IDXLoader.h lines 92, 100: a coefficient is copied to another one. -/
def copy (n dst : ℕ) (src : ℤ) (st : St) : Outcome St := do
  let v ← st.m.get n src
  let m ← st.m.set n dst v
  ok { st with m := m }

/-- benchmarks/mnist/IDXLoader.h lines 82-93: a row of the image. -/
def imageRow (cols padToX colNumber n r : ℕ) (st : St) : Outcome St := do
  let st ← forLoop cols (fun c => pixel n (r * colNumber + c)) st
  forLoop (padToX - cols) (fun k => copy n (r * colNumber + (cols + k)) (r * colNumber + ((cols : ℤ) - 1))) st

/-- benchmarks/mnist/IDXLoader.h lines 96-102: a row below the image. -/
def padRow (rows padToX colNumber n r : ℕ) (st : St) : Outcome St :=
  forLoop padToX (fun c => copy n (r * colNumber + c) (((rows : ℤ) - 1) * colNumber + c)) st

/-- benchmarks/mnist/IDXLoader.h lines 79-102: an image. -/
def image (rows cols padToX padToY colNumber n : ℕ) (st : St) : Outcome St := do
  let st ← forLoop rows (fun r => imageRow cols padToX colNumber n r) st
  forLoop (padToY - rows) (fun k => padRow rows padToX colNumber n (rows + k)) st

/-- benchmarks/mnist/IDXLoader.h lines 130-132: the label of an instance. -/
def label (F n : ℕ) (st : St) : Outcome St := do
  let r := readByte st.s st.tmp
  let m ← forLoop F (fun c m => m.set n c (if 255 - r.2.1 = c then 1 else 0)) st.m
  ok ⟨r.1, r.2, m⟩

/-- benchmarks/mnist/IDXLoader.h lines 68-76: `N` and `D` for the numbers in the file. -/
def sizeN (images : ℤ) (maxN : ℤ) : ℤ := if 0 < maxN then maxN else images

def sizeD (rows cols : ℤ) (padToX padToY : ℕ) : ℤ := if rows * cols < padToX * padToY then padToX * padToY else rows * cols

/-- benchmarks/mnist/IDXLoader.h lines 68-103: the images.  `junk` is the content of the matrix after `resize`, which does not initialise
it; a negative size is refused by Eigen (undefined). -/
def images (padToX padToY : ℕ) (maxN images cols rows : ℤ) (s : List Byte) (junk : ℕ → ℕ → ℝ) : Outcome St :=
  if sizeN images maxN < 0 ∨ sizeD rows cols padToX padToY < 0 then ub
  else
    let N := (sizeN images maxN).toNat
    forLoop N (image rows.toNat cols.toNat padToX padToY (max padToX cols.toNat))
      ⟨s, 0, ⟨N, (sizeD rows cols padToX padToY).toNat, junk⟩⟩

/-- benchmarks/mnist/IDXLoader.h lines 127-133: the labels. -/
def labels (N : ℕ) (s : List Byte) (tmp : Byte) (junk : ℕ → ℕ → ℝ) : Outcome St :=
  forLoop N (label 10) ⟨s, tmp, ⟨N, 10, junk⟩⟩

/-- benchmarks/mnist/IDXLoader.h lines 38-134, `load`, for existing files (the program ends with `exit(1)` if a file is missing): the
input and output matrices. -/
def load (padToX padToY : ℕ) (maxN : ℤ) (imageFile labelFile : List Byte) (junk1 junk2 : ℕ → ℕ → ℝ) : Outcome (Mat × Mat) := do
  let s ← magic imageFile 3
  let n := readInt s
  let c := readInt n.1
  let r := readInt c.1
  let input ← images padToX padToY maxN n.2 c.2 r.2 r.1 junk1
  let l ← magic labelFile 1
  let i := readInt l
  check (n.2 = i.2)
  let output ← labels (sizeN n.2 maxN).toNat i.1 input.tmp junk2
  ok (input.m, output.m)

/-! ## CIFAR-10 -/

/-- The buffer `values` (its bytes are uninitialised at first), the rest of the file, its end-of-file flag and the matrices. -/
structure Cifar where
  values : List (Option Byte)
  s : List Byte
  eof : Bool
  inputs : Mat
  outputs : Mat

/-- Reading the buffer; uninitialised bytes are undefined behaviour. -/
def value (st : Cifar) (i : ℕ) : Outcome Byte := do
  let v ← Outcome.read st.values i
  match v with
  | some b => ok b
  | none => ub

/-- benchmarks/cifar10/CIFARLoader.h line 74: `file.read(values, D + 1)` overwrites as many bytes as there are; the end-of-file flag is
set if there are too few. -/
def fill (D : ℕ) (st : Cifar) : Cifar :=
  { st with
    values := (st.s.take (D + 1)).map some ++ st.values.drop (min (D + 1) st.s.length)
    s := st.s.drop (D + 1)
    eof := decide (st.s.length < D + 1) }

/-- benchmarks/cifar10/CIFARLoader.h lines 75-91: the checks and assignments for one record.  `values[0]` is a signed `char`, so bytes
from 128 on are negative; the three loops count `idx` from 0 to `D - 1`. -/
def decode (D F inst : ℕ) (st : Cifar) : Outcome Cifar := do
  let l ← value st 0
  if 128 ≤ l.1 ∨ F ≤ l.1 then throws
  else
    let out ← forLoop F (fun c m => m.set inst c 0) st.outputs
    let out ← out.set inst l.1 1
    let inp ← forLoop D (fun idx m => do
      let b ← value st (idx + 1)
      m.set inst idx ((b.1 : ℝ) / 128 - 1)) st.inputs
    ok { st with inputs := inp, outputs := out }

/-- benchmarks/cifar10/CIFARLoader.h lines 70-91: one record. -/
def record (D F inst : ℕ) (st : Cifar) : Outcome Cifar :=
  if st.eof then throws else decode D F inst (fill D st)

/-- benchmarks/cifar10/CIFARLoader.h lines 62-92: one file (`none` if it cannot be opened). -/
def loadFile (D F perFile f : ℕ) (file : Option (List Byte)) (st : Cifar) : Outcome Cifar :=
  match file with
  | none => throws
  | some s => forLoop perFile (fun n => record D F (f * perFile + n)) { st with s := s, eof := false }

/-- benchmarks/cifar10/CIFARLoader.h lines 50-53, 56-94: `load` for the matrices made by `setup` (there `D = 3072`, `F = 10`,
`perFile = 10000`). -/
def loadCifar (D F perFile : ℕ) (files : List (Option (List Byte))) (junk1 junk2 : ℕ → ℕ → ℝ) : Outcome (Mat × Mat) := do
  let st ← forLoop files.length (fun f => loadFile D F perFile f (files.getD f none))
    ⟨List.replicate (D + 1) none, [], false, ⟨files.length * perFile, D, junk1⟩, ⟨files.length * perFile, F, junk2⟩⟩
  ok (st.inputs, st.outputs)

end

end Verif.Img
