import Verif.Model.Outcome
import Mathlib.Data.List.Basic
import Mathlib.Data.Int.Notation

/-!
# The shared temporary vectors of `DirectStorageDataSet`

Models `getInstance`/`getTarget` of src/DirectStorageDataSet.cpp:20-33 with the two buffers `temporaryInput` and
`temporaryOutput`: the functions return *references* to these buffers, so what a caller sees through a
reference may change later.
-/

namespace Verif.DirectStorage

open Outcome

/-- Fields of `DirectStorageDataSet` (OpenANN/io/DirectStorageDataSet.h:26-34): rows of `in` and `out` (`none`: null pointer),
and the contents of the two buffers. -/
structure State (X T : Type) where
  ins : List X
  outs : Option (List T)
  temporaryInput : X
  temporaryOutput : T

variable {X T : Type}

/-- Constructor (src/DirectStorageDataSet.cpp:9-18); `D` is the number of columns of `in`, `x0`, `t0` are the
(uninitialised) contents of the buffers. -/
def create (D : ℕ) (ins : List X) (outs : Option (List T)) (x0 : X) (t0 : T) :
    Outcome (State X T) := do
  check (D > 0)
  check (∀ o ∈ outs, ins.length = o.length)
  ok ⟨ins, outs, x0, t0⟩

/-- `getInstance(i)` (src/DirectStorageDataSet.cpp:20-25): the new state; the returned reference denotes
`temporaryInput` of whatever the current state is. -/
def getInstance (s : State X T) (i : ℤ) : Outcome (State X T) := do
  check (0 ≤ i ∧ i ≤ (s.ins.length : ℤ) - 1)
  let x ← readZ s.ins i
  ok { s with temporaryInput := x }

/-- `getTarget(i)` (src/DirectStorageDataSet.cpp:27-33). -/
def getTarget (s : State X T) (i : ℤ) : Outcome (State X T) :=
  match s.outs with
  | none => checkFailed
  | some outs => do
    check (0 ≤ i ∧ i ≤ (outs.length : ℤ) - 1)
    let t ← readZ outs i
    ok { s with temporaryOutput := t }

/-- A call of one of the access functions. -/
inductive Access where
  | instance_ (i : ℤ)
  | target (i : ℤ)
  deriving DecidableEq

/-- One access. -/
def access (s : State X T) : Access → Outcome (State X T)
  | .instance_ i => getInstance s i
  | .target i => getTarget s i

/-- A history of accesses. -/
def run (s : State X T) (h : List Access) : Outcome (State X T) := h.foldlM access s

end Verif.DirectStorage
