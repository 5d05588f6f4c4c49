import Verif.Model.Random
import Mathlib.Data.Real.Basic

/-!
# State of the random number generators

Models where the random numbers of `OpenANN/util/Random.h`, `src/Random.cpp` and `src/DataSetView.cpp` come from.  The
generators themselves (`rand` of the C library and `std::mt19937` with `std::shuffle`) are arbitrary functions of their seed
and of the calls since they were seeded.
-/

namespace Verif.Rng

open Outcome

/-- Range of `int`. -/
def IsInt (x : ℤ) : Prop := -2 ^ 31 ≤ x ∧ x < 2 ^ 31

instance (x : ℤ) : Decidable (IsInt x) := inferInstanceAs (Decidable (_ ∧ _))

/-- The result of an `int` operation: overflow is undefined behaviour. -/
def asInt (x : ℤ) : Outcome ℤ := if IsInt x then ok x else ub

/-- Conversion of a `size_t` to `int` (modulo 2^32, as all compilers do). -/
def toInt (n : ℕ) : ℤ := if n % 2 ^ 32 < 2 ^ 31 then (n % 2 ^ 32 : ℕ) else (n % 2 ^ 32 : ℕ) - 2 ^ 32

/-- `generateInt` with the range of `int` (src/Random.cpp:24-31). -/
def generateInt32 (r : ℕ) (min range : ℤ) : Outcome ℤ := generateInt r min range >>= asInt

/-- `generateIndex` with the conversion of its argument (src/Random.cpp:33-36). -/
def generateIndex32 (r : ℕ) (size : ℕ) : Outcome ℤ := generateInt32 r 0 (toInt size)

/-- The generators of the C and C++ library. -/
structure Library where
  /-- `rand()`: seed and number of calls since `srand` -/
  rand : ℕ → ℕ → ℕ
  /-- `std::shuffle` with a `std::mt19937`: seed, sizes of the shuffles since it was seeded, vector -/
  shuffle : ℕ → List ℕ → List ℤ → List ℤ

/-- A pseudo random generator: its seed and what was drawn since it was seeded. -/
structure Gen where
  seed : ℕ
  used : List ℕ

/-- The state of the process: `rand`, the static variable of the constructor, the generators of the objects
(`m_generator`) and the generator of src/DataSetView.cpp:11, which has the default seed. -/
structure State where
  crand : ℕ × ℕ
  seedInitialized : Bool
  objects : List Gen
  view : Gen

/-- `std::mt19937::default_seed` -/
def defaultSeed : ℕ := 5489

/-- Start of the process (`rand` behaves as after `srand(1)`). -/
def State.initial : State := ⟨(1, 0), false, [], ⟨defaultSeed, []⟩⟩

/-- Calls of a program.  `g` is the number of an object. -/
inductive Call where
  /-- constructor; the argument is not part of the program but the value of `std::time(0)` -/
  | construct
  | seed (g s : ℕ)
  | int (g : ℕ) (min range : ℤ)
  | real (g : ℕ) (min range : ℚ)
  /-- `generateIndices(n, …)` on a fresh container -/
  | indices (g n : ℕ)
  /-- `DataSetView::shuffle` of a view with the given indices -/
  | viewShuffle (l : List ℤ)

/-- What the program sees. -/
inductive Answer where
  | none
  | int (r : Outcome ℤ)
  | real (r : Outcome ℚ)
  | indices (l : Outcome (List ℤ))

/-- src/Random.cpp:7-16 -/
def construct (time : ℕ) (s : State) : State :=
  { s with
    crand := if s.seedInitialized then s.crand else (time, 0)
    seedInitialized := true
    objects := s.objects ++ [⟨time, []⟩] }

/-- src/Random.cpp:18-22 -/
def seed (g n : ℕ) (s : State) : State := { s with crand := (n, 0), objects := s.objects.set g ⟨n, []⟩ }

def drawn (s : State) : State := { s with crand := (s.crand.1, s.crand.2 + 1) }

/-- One call at the given time; calls on objects that do not exist do nothing. -/
def call (L : Library) (randMax time : ℕ) (s : State) : Call → State × Answer
  | .construct => (construct time s, .none)
  | .seed g n => (seed g n s, .none)
  | .int _ min range =>
    (if 0 < range then drawn s else s, .int (generateInt32 (L.rand s.crand.1 s.crand.2) min range))
  | .real _ min range =>
    (if 0 < range then drawn s else s, .real (generate randMax (L.rand s.crand.1 s.crand.2) min range))
  | .indices g n =>
    match s.objects[g]? with
    | none => (s, .none)
    | some o => ({ s with objects := s.objects.set g ⟨o.seed, o.used ++ [n]⟩ },
        .indices (generateIndices (L.shuffle o.seed o.used) n [] false))
  | .viewShuffle l =>
    ({ s with view := ⟨s.view.seed, s.view.used ++ [l.length]⟩ }, .indices (ok (L.shuffle s.view.seed s.view.used l)))

/-- A sequence of calls; `clock k` is the time of the `k`-th call. -/
def calls (L : Library) (randMax : ℕ) (clock : ℕ → ℕ) : List Call → State → State × List Answer
  | [], s => (s, [])
  | c :: l, s =>
    ((calls L randMax (fun k => clock (k + 1)) l (call L randMax (clock 0) s c).1).1,
      (call L randMax (clock 0) s c).2 :: (calls L randMax (fun k => clock (k + 1)) l (call L randMax (clock 0) s c).1).2)

end Verif.Rng
