import Verif.Model.SigmaPi
import Mathlib.Analysis.SpecialFunctions.Trigonometric.Inverse
import Mathlib.Analysis.SpecialFunctions.Trigonometric.Arctan
import Mathlib.Analysis.Real.Sqrt
import Mathlib.Algebra.Order.Archimedean.Real.Basic

/-!
# Constraints for sigma-pi layers (OpenANN/layers/SigmaPiConstraints.h)

`double` is modelled by `ℝ`, `int` by `ℤ` (the squares of the distances of an image that fits into memory do not overflow).
-/

namespace Verif.SigmaPi

open Outcome

noncomputable section

/-- OpenANN/layers/SigmaPiConstraints.h lines 25-31 (56-62): the coordinates of a position, in an image of the given size; a width of 0
is a division by zero. -/
def coordinates (width height p : ℕ) : Outcome (ℕ × ℕ) :=
  if width = 0 then ub
  else do
    check (p / width < height)
    ok (p % width, p / width)

/-- OpenANN/layers/SigmaPiConstraints.h lines 23-34, `DistanceConstraint::operator()`.  Calls with another number of positions throw
(src/SigmaPi.cpp lines 8-24). -/
def distance (width height : ℕ) : List ℕ → Outcome ℝ
  | [p1, p2] => do
    let a ← coordinates width height p1
    let b ← coordinates width height p2
    ok (((a.1 : ℝ) - b.1) * ((a.1 : ℝ) - b.1) + ((a.2 : ℝ) - b.2) * ((a.2 : ℝ) - b.2))
  | _ => throws

/-- OpenANN/layers/SigmaPiConstraints.h lines 54-65, `SlopeConstraint::operator()`. -/
def slope (width height : ℕ) : List ℕ → Outcome ℝ
  | [p1, p2] => do
    let a ← coordinates width height p1
    let b ← coordinates width height p2
    ok (if (a.1 : ℝ) = b.1 then Real.pi / 2 else Real.arctan (((b.2 : ℝ) - a.2) / ((b.1 : ℝ) - a.1)))
  | _ => throws

/-- Constraints without state. -/
def stateless (f : List ℕ → Outcome ℝ) : Constraint Unit :=
  ⟨false, fun _ ps => f ps >>= fun r => ok (r, ())⟩

/-- OpenANN/layers/SigmaPiConstraints.h lines 79-97, `AngleTuple`. -/
structure AngleTuple where
  alpha : ℝ
  beta : ℝ
  gamma : ℝ

/-- OpenANN/layers/SigmaPiConstraints.h lines 84-92, `operator<`. -/
def AngleTuple.Less (s t : AngleTuple) : Prop :=
  if |s.alpha - t.alpha| > 0.001 then s.alpha < t.alpha
  else if |s.beta - t.beta| > 0.001 then s.beta < t.beta
  else |s.gamma - t.gamma| > 0.001 ∧ s.gamma < t.gamma

/-- The keys that a `std::map` does not distinguish. -/
def AngleTuple.Equiv (s t : AngleTuple) : Prop := ¬ s.Less t ∧ ¬ t.Less s

/-- `std::map<AngleTuple, int>`: the entries; the keys are not equivalent to each other. -/
abbrev Partition := List (AngleTuple × ℕ)

open Classical in
/-- `std::map::find` -/
def lookup (p : Partition) (t : AngleTuple) : Option ℕ := (p.find? fun e => e.1.Equiv t).map Prod.snd

open Classical in
/-- `p[t] = nr` -/
def assign (p : Partition) (t : AngleTuple) (nr : ℕ) : Partition :=
  if (lookup p t).isSome then p.map fun e => if e.1.Equiv t then (e.1, nr) else e
  else p ++ [(t, nr)]

/-- The square of a distance. -/
def squared (a b : ℤ × ℤ) : ℤ := (a.1 - b.1) * (a.1 - b.1) + (a.2 - b.2) * (a.2 - b.2)

/-- OpenANN/layers/SigmaPiConstraints.h lines 137-139: `floor(acos((as - bs - cs) / (-2 * sqrt(bs * cs))) / resolution)`. -/
def discreteAngle (resolution : ℝ) (as bs cs : ℤ) : ℤ :=
  ⌊Real.arccos ((as - bs - cs : ℤ) / (-2 * Real.sqrt (bs * cs : ℤ))) / resolution⌋

/-- OpenANN/layers/SigmaPiConstraints.h lines 116-130: the corners, the second one to the right of the third one. -/
def corners (width p1 p2 p3 : ℕ) : (ℤ × ℤ) × (ℤ × ℤ) × (ℤ × ℤ) :=
  if p2 % width < p3 % width then
    (((p1 % width : ℕ), (p1 / width : ℕ)), ((p3 % width : ℕ), (p3 / width : ℕ)), ((p2 % width : ℕ), (p2 / width : ℕ)))
  else (((p1 % width : ℕ), (p1 / width : ℕ)), ((p2 % width : ℕ), (p2 / width : ℕ)), ((p3 % width : ℕ), (p3 / width : ℕ)))

/-- OpenANN/layers/SigmaPiConstraints.h lines 132-139: the discrete angles of a triangle. -/
def angles (resolution : ℝ) (q : (ℤ × ℤ) × (ℤ × ℤ) × (ℤ × ℤ)) : ℤ × ℤ × ℤ :=
  let as := squared q.2.1 q.2.2
  let bs := squared q.1 q.2.1
  let cs := squared q.1 q.2.2
  (discreteAngle resolution as bs cs, discreteAngle resolution bs cs as, discreteAngle resolution cs as bs)

/-- The doubles of a triple of integers. -/
def tuple (k : ℤ × ℤ × ℤ) : AngleTuple := ⟨k.1, k.2.1, k.2.2⟩

/-- OpenANN/layers/SigmaPiConstraints.h lines 113, 141-160: the number of a triple of angles. -/
def number (p : Partition) (k : ℤ × ℤ × ℤ) : ℕ × Partition :=
  match lookup p (tuple k) with
  | some nr => (nr, p)
  | none =>
    (p.length / 3, assign (assign (assign p (tuple k) (p.length / 3)) (tuple (k.2.1, k.2.2, k.1)) (p.length / 3))
      (tuple (k.2.2, k.1, k.2.1)) (p.length / 3))

/-- OpenANN/layers/SigmaPiConstraints.h lines 111-161, `TriangleConstraint::operator()`.  Two equal positions give angles that are not
numbers, which a `std::map` must not be asked for (undefined); so does a width of 0. -/
def triangle (width : ℕ) (resolution : ℝ) : Constraint Partition :=
  ⟨false, fun s ps =>
    match ps with
    | [p1, p2, p3] =>
      if width = 0 ∨ p1 = p2 ∨ p1 = p3 ∨ p2 = p3 then ub
      else ok (((number s (angles resolution (corners width p1 p2 p3))).1 : ℝ), (number s (angles resolution (corners width p1 p2 p3))).2)
    | _ => throws⟩

end

end Verif.SigmaPi
