import Verif.Model.Float
import Verif.Model.PoleBalancing

/-!
# The pole balancing environments with floating point numbers

`Model/PoleBalancing.lean` computes with real numbers.  Here the transitions, the end of an episode and the loop of the benchmark
are modelled with the values of the type `double` (`Model/Float.lean`), which include infinities and NaN.  The constants of
the source code are the values nearest to the decimal numbers.  The state is not initialised before `restart`.

Simplifications: the observations are left out (they do not influence the environment); the agent is any sequence of
actions, which covers all agents; actions have one entry.
-/

namespace Verif.PoleFp

open Outcome Fp Poles

noncomputable section

/-- The library functions `std::sin`, `std::cos` and `std::pow(., 2.0)`: NaN has no sine, cosine or square. -/
structure Libm where
  sin : Dbl → Dbl
  cos : Dbl → Dbl
  sq : Dbl → Dbl
  sin_nan : sin .nan = .nan
  cos_nan : cos .nan = .nan
  sq_nan : sq .nan = .nan

abbrev Vec := ℕ → Dbl

variable (A : Fpu) (L : Libm) (e : Setup)

/-- `massLength` of pole `i` (SinglePoleBalancing.cpp line 23, DoublePoleBalancing.cpp lines 25-26) -/
def massLength (i : ℕ) : Dbl := A.mul (A.rnd (e.mass i)) (A.rnd (e.length i))

/-- `gsintheta` of pole `i` (SinglePoleBalancing.cpp line 169, DoublePoleBalancing.cpp lines 185, 188) -/
def gsin (i : ℕ) (s : Vec) : Dbl := A.mul (A.rnd e.gravity) (L.sin (s (2 + 2 * i)))

/-- `temp` of pole `i` (SinglePoleBalancing.cpp line 171, DoublePoleBalancing.cpp lines 190-191) -/
def temp (i : ℕ) (s : Vec) : Dbl := A.div (A.mul (A.rnd e.mup) (s (3 + 2 * i))) (massLength A e i)

/-- `fi` of pole `i` (SinglePoleBalancing.cpp lines 173-174, DoublePoleBalancing.cpp lines 193-196) -/
def fi (i : ℕ) (s : Vec) : Dbl :=
  A.add (A.mul (A.mul (massLength A e i) (L.sq (s (3 + 2 * i)))) (L.sin (s (2 + 2 * i))))
    (A.mul (A.mul (A.mul (A.rnd 0.75) (A.rnd (e.mass i))) (L.cos (s (2 + 2 * i)))) (A.add (temp A e i s) (gsin A L e i s)))

/-- `mi` of pole `i` (SinglePoleBalancing.cpp line 176, DoublePoleBalancing.cpp lines 198-199) -/
def mi (i : ℕ) (s : Vec) : Dbl :=
  A.mul (A.rnd (e.mass i)) (A.sub (.num 1) (A.mul (A.mul (A.rnd 0.75) (L.cos (s (2 + 2 * i)))) (gsin A L e i s)))

open Classical in
/-- `s(1) == 0.0 ? 0.0 : s(1) / std::fabs(s(1))` -/
def direction (v : Dbl) : Dbl := if v = .num 0 then .num 0 else A.div v (fabs v)

/-- The sum of the `mi` from the left, then `cartMass`. -/
def effectiveMass (s : Vec) : Dbl :=
  A.add ((List.range (e.poles - 1)).foldl (fun x i => A.add x (mi A L e (i + 1) s)) (mi A L e 0 s)) (A.rnd e.cartMass)

/-- `cartVelocityDot` (SinglePoleBalancing.cpp lines 178-179, DoublePoleBalancing.cpp lines 201-202) -/
def cartAcc (s : Vec) (force : Dbl) : Dbl :=
  A.div ((List.range e.poles).foldl (fun x i => A.add x (fi A L e i s)) (A.sub force (A.mul (A.rnd e.muc) (direction A (s 1)))))
    (effectiveMass A L e s)

/-- `poleAngularVelocityDot` of pole `i` (SinglePoleBalancing.cpp line 180, DoublePoleBalancing.cpp lines 203-204) -/
def poleAcc (i : ℕ) (s : Vec) (force : Dbl) : Dbl :=
  A.div (A.mul (A.rnd (-0.75)) (A.add (A.add (A.mul (cartAcc A L e s force) (L.cos (s (2 + 2 * i)))) (gsin A L e i s)) (temp A e i s)))
    (A.rnd (e.length i))

/-- SinglePoleBalancing.cpp lines 165-188, DoublePoleBalancing.cpp lines 181-214: `derivative` -/
def derivative (s : Vec) (force : Dbl) : Vec := fun k =>
  if k = 0 then s 1
  else if k = 1 then cartAcc A L e s force
  else if e.dim ≤ k then .num 0
  else if k % 2 = 0 then s (k + 1)
  else poleAcc A L e ((k - 3) / 2) s force

/-- `dyt(0) = yt(1); dyt(2) = yt(3); dyt(4) = yt(5);` -/
def velocities (y d : Vec) : Vec := fun k => if k < e.dim ∧ k % 2 = 0 then y (k + 1) else d k

/-- SinglePoleBalancing.cpp lines 190-216, DoublePoleBalancing.cpp lines 216-245: `rk4` -/
def rk4 (s : Vec) (force : Dbl) (der : Vec) : Vec :=
  let hh := A.mul (A.rnd 0.01) (A.rnd 0.5)
  let h6 := A.div (A.rnd 0.01) (.num 6)
  let yt1 : Vec := fun k => A.add (s k) (A.mul hh (der k))
  let dyt1 := velocities e yt1 (derivative A L e yt1 force)
  let yt2 : Vec := fun k => A.add (s k) (A.mul hh (dyt1 k))
  let dym := velocities e yt2 (derivative A L e yt2 force)
  let yt3 : Vec := fun k => A.add (s k) (A.mul (A.rnd 0.01) (dym k))
  let dym2 : Vec := fun k => A.add (dym k) (dyt1 k)
  let dyt2 := velocities e yt3 (derivative A L e yt3 force)
  fun k => A.add (s k) (A.mul h6 (A.add (A.add (der k) (dyt2 k)) (A.mul (.num 2) (dym2 k))))

/-- SinglePoleBalancing.cpp lines 139-144: one iteration of the loop -/
def integrate (s : Vec) (force : Dbl) : Vec := rk4 A L e s force (derivative A L e s force)

open Classical in
/-- SinglePoleBalancing.cpp lines 135-137, DoublePoleBalancing.cpp lines 151-153: the force that is applied -/
def applied (action : Dbl) : Dbl :=
  if Lt (A.rnd e.maxForce) (fabs action) then A.mul (A.div action (fabs action)) (A.rnd e.maxForce) else action

/-- An environment object; the state is `none` before it is initialised. -/
structure Env where
  state : Option Vec
  step : ℕ

/-- SinglePoleBalancing.cpp lines 93-98, DoublePoleBalancing.cpp lines 108-113: `restart` -/
def restart : Env := ⟨some fun k => if k = 2 then A.rnd e.initialAngle else .num 0, 0⟩

/-- A number, neither an infinity nor NaN. -/
def IsNumber (a : Dbl) : Prop := ∃ x, a = .num x

open Classical in
/-- SinglePoleBalancing.cpp lines 130-147, DoublePoleBalancing.cpp lines 145-163: `stateTransition`.  Only the environment with two
poles has the check `OPENANN_CHECK_MATRIX_BROKEN(action)` (line 147), and only without `NDEBUG` (`debug`). -/
def stateTransition (debug : Bool) (v : Env) (action : Dbl) : Outcome Env :=
  if debug = true ∧ e.poles = 2 ∧ ¬ IsNumber action then .checkFailed
  else match v.state with
    | none => .ub
    | some s => .ok ⟨some (integrate A L e (integrate A L e s (applied A e action)) (applied A e action)), v.step + 1⟩

/-- SinglePoleBalancing.cpp lines 154-157, DoublePoleBalancing.cpp lines 170-173: `successful` -/
def successful (v : Env) : Prop := e.maxSteps ≤ v.step

open Classical in
/-- SinglePoleBalancing.cpp lines 159-163, DoublePoleBalancing.cpp lines 175-181: `terminalState` -/
def terminalState (v : Env) : Outcome Bool :=
  if e.maxSteps ≤ v.step then .ok true
  else match v.state with
    | none => .ub
    | some s => .ok (decide (Lt (A.rnd e.maxCartPosition) (fabs (s 0)) ∨
        ∃ i < e.poles, Lt (A.rnd e.maxAngle) (fabs (s (2 + 2 * i)))))

/-- benchmarks/polebalancing/polebalancing.cpp lines 154-156: an episode of an agent whose action number `n` is `acts n`; `none` if
it has not ended after `fuel` checks of the end. -/
def play (debug : Bool) (acts : ℕ → Dbl) : ℕ → Env → Outcome (Option Env)
  | 0, _ => .ok none
  | fuel + 1, v =>
    terminalState A e v >>= fun t =>
      if t = true then .ok (some v)
      else stateTransition A L e debug v (acts v.step) >>= fun v' => play debug acts fuel v'

end

end Verif.PoleFp
