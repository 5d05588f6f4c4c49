import Verif.Model.Outcome
import Mathlib.Analysis.SpecialFunctions.Trigonometric.Basic
import Mathlib.Algebra.BigOperators.Group.Finset.Basic

/-!
# The pole balancing environments (examples/polebalancing/SinglePoleBalancing.cpp, DoublePoleBalancing.cpp)

Both classes contain the same formulas for one and for two poles; they are instances of one model with `poles` poles.  Numbers
are real.  The state vector is a function of the index: position and velocity of the cart, then angle and angular velocity of
each pole; entries at and above the dimension have no meaning.  The vectors `state` and `normalizedState` have no contents
before the first call of `restart`.  The counter of steps does not overflow.
-/

namespace Verif.Poles

open Finset

noncomputable section

abbrev State := ℕ → ℝ

/-- SinglePoleBalancing.h lines 16-45, DoublePoleBalancing.h lines 16-52: the constants of an environment. -/
structure Setup where
  poles : ℕ
  gravity : ℝ
  cartMass : ℝ
  mass : ℕ → ℝ
  length : ℕ → ℝ
  mup : ℝ
  muc : ℝ
  initialAngle : ℝ
  maxCartPosition : ℝ
  maxAngle : ℝ
  maxSteps : ℕ
  maxForce : ℝ

/-- SinglePoleBalancing.cpp lines 5-18 -/
def single : Setup where
  poles := 1
  gravity := -9.8
  cartMass := 1
  mass _ := 0.1
  length _ := 0.5
  mup := 0.000002
  muc := 0.0005
  initialAngle := 0.07
  maxCartPosition := 2.4
  maxAngle := 0.62
  maxSteps := 100000
  maxForce := 10

/-- DoublePoleBalancing.cpp lines 6-22 -/
def double : Setup where
  poles := 2
  gravity := -9.8
  cartMass := 1
  mass i := if i = 0 then 0.1 else 0.01
  length i := if i = 0 then 0.5 else 0.05
  mup := 0.000002
  muc := 0.0005
  initialAngle := 0.07
  maxCartPosition := 2.4
  maxAngle := 0.62
  maxSteps := 100000
  maxForce := 10

/-- number of entries of `state` -/
def Setup.dim (e : Setup) : ℕ := 2 + 2 * e.poles

/-- `gsintheta` of pole `i` (SinglePoleBalancing.cpp line 169, DoublePoleBalancing.cpp lines 185, 188) -/
def Setup.gsin (e : Setup) (i : ℕ) (s : State) : ℝ := e.gravity * Real.sin (s (2 + 2 * i))

/-- `temp` of pole `i` (SinglePoleBalancing.cpp line 171, DoublePoleBalancing.cpp lines 190-191) -/
def Setup.temp (e : Setup) (i : ℕ) (s : State) : ℝ := e.mup * s (3 + 2 * i) / (e.mass i * e.length i)

/-- `fi` of pole `i` (SinglePoleBalancing.cpp lines 173-174, DoublePoleBalancing.cpp lines 193-196) -/
def Setup.fi (e : Setup) (i : ℕ) (s : State) : ℝ :=
  e.mass i * e.length i * s (3 + 2 * i) ^ 2 * Real.sin (s (2 + 2 * i)) +
    0.75 * e.mass i * Real.cos (s (2 + 2 * i)) * (e.temp i s + e.gsin i s)

/-- `mi` of pole `i` (SinglePoleBalancing.cpp line 176, DoublePoleBalancing.cpp lines 198-199) -/
def Setup.mi (e : Setup) (i : ℕ) (s : State) : ℝ :=
  e.mass i * (1 - 0.75 * Real.cos (s (2 + 2 * i)) * e.gsin i s)

/-- the denominator of `cartVelocityDot` -/
def Setup.effectiveMass (e : Setup) (s : State) : ℝ := ∑ i ∈ range e.poles, e.mi i s + e.cartMass

/-- `s(1) == 0.0 ? 0.0 : s(1) / std::fabs(s(1))` -/
def direction (v : ℝ) : ℝ := if v = 0 then 0 else v / |v|

/-- `cartVelocityDot` (SinglePoleBalancing.cpp lines 178-179, DoublePoleBalancing.cpp lines 201-202) -/
def Setup.cartAcc (e : Setup) (s : State) (force : ℝ) : ℝ :=
  (force - e.muc * direction (s 1) + ∑ i ∈ range e.poles, e.fi i s) / e.effectiveMass s

/-- `poleAngularVelocityDot` of pole `i` (SinglePoleBalancing.cpp line 180, DoublePoleBalancing.cpp lines 203-204) -/
def Setup.poleAcc (e : Setup) (i : ℕ) (s : State) (force : ℝ) : ℝ :=
  -0.75 * (e.cartAcc s force * Real.cos (s (2 + 2 * i)) + e.gsin i s + e.temp i s) / e.length i

/-- SinglePoleBalancing.cpp lines 165-188, DoublePoleBalancing.cpp lines 181-214: `derivative` -/
def Setup.derivative (e : Setup) (s : State) (force : ℝ) : State := fun k =>
  if k = 0 then s 1
  else if k = 1 then e.cartAcc s force
  else if e.dim ≤ k then 0
  else if k % 2 = 0 then s (k + 1)
  else e.poleAcc ((k - 3) / 2) s force

/-- `dyt(0) = yt(1); dyt(2) = yt(3); dyt(4) = yt(5);` -/
def Setup.velocities (e : Setup) (y d : State) : State := fun k => if k < e.dim ∧ k % 2 = 0 then y (k + 1) else d k

/-- `TIME_DELTA` -/
def timeDelta : ℝ := 0.01

/-- SinglePoleBalancing.cpp lines 190-216, DoublePoleBalancing.cpp lines 216-245: `rk4` -/
def Setup.rk4 (e : Setup) (s : State) (force : ℝ) (der : State) : State :=
  let hh := timeDelta * 0.5
  let h6 := timeDelta / 6
  let yt1 : State := fun k => s k + hh * der k
  let dyt1 := e.velocities yt1 (e.derivative yt1 force)
  let yt2 : State := fun k => s k + hh * dyt1 k
  let dym := e.velocities yt2 (e.derivative yt2 force)
  let yt3 : State := fun k => s k + timeDelta * dym k
  let dym2 : State := fun k => dym k + dyt1 k
  let dyt2 := e.velocities yt3 (e.derivative yt3 force)
  fun k => s k + h6 * (der k + dyt2 k + 2 * dym2 k)

/-- An environment object. -/
structure Env where
  setup : Setup
  fullyObservable : Bool
  /-- `none`: not initialised -/
  state : Option State
  normalizedState : Option State
  action : ℝ
  step : ℕ

/-- SinglePoleBalancing.cpp lines 5-38, DoublePoleBalancing.cpp lines 6-53: the constructor -/
def Env.new (e : Setup) (fullyObservable : Bool) : Env :=
  ⟨e, fullyObservable, none, none, -e.maxForce, 0⟩

/-- `stateNormalizationVector` (SinglePoleBalancing.cpp lines 33-35, DoublePoleBalancing.cpp lines 45-48) -/
def Setup.normalization (e : Setup) : State := fun k =>
  if k = 0 then 1 / e.maxCartPosition else if k = 1 then 1 / e.maxForce else if k % 2 = 0 then 1 / e.maxAngle else 1 / 5

/-- SinglePoleBalancing.cpp lines 218-228, DoublePoleBalancing.cpp lines 247-258: `normalizeState`; without velocities entry 0
is the position and entry `k > 0` the angle of pole `k - 1`. -/
def Setup.observation (e : Setup) (fullyObservable : Bool) (s : State) : State :=
  if fullyObservable then fun k => s k * e.normalization k else fun k => s (2 * k) * e.normalization (2 * k)

/-- SinglePoleBalancing.cpp lines 110-113, DoublePoleBalancing.cpp lines 125-128: `stateSpaceDimension` -/
def Env.stateSpaceDimension (v : Env) : ℕ := if v.fullyObservable then v.setup.dim else 1 + v.setup.poles

/-- SinglePoleBalancing.cpp lines 29-32: `stateSpaceUpperBound`; `stateSpaceLowerBound` has the negated entries. -/
def Env.boundsSingle (_ : Env) : List ℝ := [1, 0.1, 1, 0.5]

/-- DoublePoleBalancing.cpp lines 32-43: `stateSpaceUpperBound`; `stateSpaceLowerBound` has the negated entries. -/
def Env.boundsDouble (v : Env) : List ℝ := if v.fullyObservable then [1, 0.1, 1, 0.5, 1, 0.5] else [1, 1, 1]

/-- The start: all zero except for the angle of the first pole. -/
def Setup.start (e : Setup) : State := fun k => if k = 2 then e.initialAngle else 0

/-- SinglePoleBalancing.cpp lines 93-98, DoublePoleBalancing.cpp lines 108-113: `restart` -/
def Env.restart (v : Env) : Env :=
  { v with step := 0, state := some v.setup.start, normalizedState := some (v.setup.observation v.fullyObservable v.setup.start) }

/-- SinglePoleBalancing.cpp lines 135-137: the force that is applied -/
def Setup.applied (e : Setup) (force : ℝ) : ℝ := if e.maxForce < |force| then force / |force| * e.maxForce else force

/-- SinglePoleBalancing.cpp lines 139-144: one iteration of the loop -/
def Setup.integrate (e : Setup) (s : State) (force : ℝ) : State := e.rk4 s force (e.derivative s force)

/-- SinglePoleBalancing.cpp lines 130-147, DoublePoleBalancing.cpp lines 145-163: `stateTransition`; reading a state that was not
initialised is undefined. -/
def Env.stateTransition (v : Env) (action : ℝ) : Outcome Env :=
  match v.state with
  | none => .ub
  | some s =>
    let force := v.setup.applied action
    let s' := v.setup.integrate (v.setup.integrate s force) force
    .ok { v with
      step := v.step + 1, action := action, state := some s',
      normalizedState := some (v.setup.observation v.fullyObservable s') }

/-- SinglePoleBalancing.cpp lines 154-157, DoublePoleBalancing.cpp lines 170-173: `successful` -/
def Env.successful (v : Env) : Prop := v.setup.maxSteps ≤ v.step

/-- SinglePoleBalancing.cpp lines 159-163, DoublePoleBalancing.cpp lines 175-179: `terminalState` -/
def Env.terminalState (v : Env) : Outcome Prop :=
  if v.setup.maxSteps ≤ v.step then .ok True
  else match v.state with
    | none => .ub
    | some s => .ok (v.setup.maxCartPosition < |s 0| ∨ ∃ i < v.setup.poles, v.setup.maxAngle < |s (2 + 2 * i)|)

/-- SinglePoleBalancing.cpp lines 88-91: `getState` -/
def Env.getState (v : Env) : Outcome State :=
  match v.normalizedState with
  | none => .ub
  | some s => .ok s

/-- SinglePoleBalancing.cpp lines 65-68: `deltaT` -/
def deltaT : ℝ := 0.02

/-- A sequence of transitions. -/
def Env.run (v : Env) : List ℝ → Outcome Env
  | [] => .ok v
  | a :: as => v.stateTransition a >>= fun v' => v'.run as

end

end Verif.Poles
