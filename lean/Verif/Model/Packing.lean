import Verif.Model.Matrix

/-!
# Packing matrices into a vector

src/EigenWrapper.cpp.  The sizes are passed through a variable argument list: the callers pass `Eigen::Index` values, the functions
read `int` values.  Formally this is undefined; the model assumes a calling convention that gives the right value for sizes that
fit into an `int`, larger sizes are undefined.
-/

namespace Verif.Pack

open Outcome

/-- `va_arg(pointers, int)` -/
def argSize (n : ℕ) : Outcome ℕ := if n < 2 ^ 31 then ok n else ub

/-- `offset += size` with `int` arithmetic -/
def advance (offset size : ℕ) : Outcome ℕ := if offset + size < 2 ^ 31 then ok (offset + size) else ub

/-- `memcpy(vec.data()+offset, p, size*sizeof(double))` -/
def copyTo (vec : List ℝ) (offset : ℕ) (p : List ℝ) : Outcome (List ℝ) :=
  if offset + p.length ≤ vec.length then ok (vec.take offset ++ p ++ vec.drop (offset + p.length)) else ub

/-- `memcpy(p, vec.data()+offset, size*sizeof(double))`: the new content of `p` -/
def copyFrom (vec : List ℝ) (offset size : ℕ) : Outcome (List ℝ) :=
  if offset + size ≤ vec.length then ok ((vec.drop offset).take size) else ub

/-- the loop of `pack`, src/EigenWrapper.cpp:9-16 -/
def packFrom : ℕ → List ℝ → List (List ℝ) → Outcome (List ℝ)
  | _, vec, [] => ok vec
  | offset, vec, p :: ps => do
    let size ← argSize p.length
    let vec ← copyTo vec offset p
    let offset ← advance offset size
    packFrom offset vec ps

/-- `pack`, src/EigenWrapper.cpp:4-19; the vector is not resized -/
def pack (vec : List ℝ) (parts : List (List ℝ)) : Outcome (List ℝ) := packFrom 0 vec parts

/-- the loop of `unpack`, src/EigenWrapper.cpp:26-33 -/
def unpackFrom (vec : List ℝ) : ℕ → List ℕ → Outcome (List (List ℝ))
  | _, [] => ok []
  | offset, n :: ns => do
    let size ← argSize n
    let p ← copyFrom vec offset size
    let offset ← advance offset size
    let ps ← unpackFrom vec offset ns
    ok (p :: ps)

/-- `unpack`, src/EigenWrapper.cpp:21-36; the sizes are the sizes of the matrices that are overwritten -/
def unpack (vec : List ℝ) (sizes : List ℕ) : Outcome (List (List ℝ)) := unpackFrom vec 0 sizes

/-- `m.data()`: Eigen stores the columns one after the other -/
def data (m : Mat) : List ℝ := (List.range (m.rows * m.cols)).map fun e => m.val (e % m.rows) (e / m.rows)

/-- a matrix with the given storage -/
def ofData (rows cols : ℕ) (l : List ℝ) : Mat := ⟨rows, cols, fun i j => l.getD (j * rows + i) 0⟩

end Verif.Pack
