import Verif.Model.PoleBalancing

/-!
# The window of the pole balancing example (examples/polebalancing/DoublePoleBalancingVisualization.cpp)

`run()` is called by the handler of the key R and calls `QCoreApplication::processEvents()` after every step.  All keys that are pressed in the
meantime are handled there, so that R starts a second run inside of the first one.  The machine therefore has a stack of runs; its inputs are the
keys and `go`: the innermost call of `processEvents` returns and the run proceeds until it calls `processEvents` again or ends.

The agent is not modelled: the actions that it chooses are part of the inputs, the theorems hold for all of them.
`QApplication::exit()` makes `app.exec()` return as soon as the handler that is being executed has returned (Qt).
Simplifications: what is drawn is computed with real numbers instead of `float`; waiting (`usleep`) and the parameters of OpenGL
are left out.  The product of the pause is rounded as in the code.
-/

namespace Verif.PoleWindow

open Outcome Poles

noncomputable section

/-- Multiplication of numbers of the type `double`: the exact product is rounded.  Rounding is monotone, and multiples of 1/16 with at most 53 bits are
values (IEEE 754). -/
structure Rounding where
  rnd : ℝ → ℝ
  mono : ∀ x y, x ≤ y → rnd x ≤ rnd y
  exact : ∀ z : ℤ, |z| ≤ 2 ^ 53 → rnd (z / 16) = z / 16

/-- The value of the literal `0.9` of the type `double` -/
def factorPlus : ℝ := 8106479329266893 / 2 ^ 53

/-- The value of the literal `1.1` of the type `double` -/
def factorMinus : ℝ := 4953959590107546 / 2 ^ 52

/-- `(int)((double) pause * factor)`: the conversion of a number that does not fit is undefined.  (`pause` is never negative.) -/
def scaled (R : Rounding) (pause : ℤ) (factor : ℝ) : Outcome ℤ :=
  let x := R.rnd (pause * factor)
  if x < 2 ^ 31 then ok ⌊x⌋ else ub

/-- The attributes of the widget (DoublePoleBalancingVisualization.h lines 9-12) -/
structure Window where
  singlePole : Bool
  fullyObservable : Bool
  position : ℝ
  angle1 : ℝ
  angle2 : ℝ
  force : ℝ
  pause : ℤ

/-- lines 20-32: the constructor -/
def Window.new (singlePole fullyObservable : Bool) : Window :=
  ⟨singlePole, fullyObservable, 0, 4 * Real.pi / 180, 0, 0, 1000⟩

/-! ## Drawing: lines 61-123 -/

abbrev Point := ℝ × ℝ

/-- lines 73-76: the track -/
def track : Point × Point := ((-2.4, 0), (2.4, 0))

/-- lines 87-91: the force -/
def Window.forceLine (w : Window) : Point × Point := ((w.position, 1.5), (w.position + w.force / 10, 1.5))

/-- line 104: the cart, as lower left and upper right corner -/
def Window.cart (w : Window) : Point × Point := ((w.position - 0.5, 2 * 0.075), (w.position - 0.5 + 1, 0.5))

/-- lines 108-113: the first pole -/
def Window.pole1 (w : Window) : Point × Point :=
  let height := Real.sin (w.angle1 + Real.pi / 2) * 0.5
  let displacement := -Real.cos (w.angle1 + Real.pi / 2) * 0.5
  ((w.position - 0.5 + 0.45, 0.5), (w.position - 0.5 + 0.45 + displacement, 0.5 + height))

/-- lines 114-119: the second pole -/
def Window.pole2 (w : Window) : Point × Point :=
  let height := Real.sin (w.angle2 + Real.pi / 2) * 0.05
  let displacement := -Real.cos (w.angle2 + Real.pi / 2) * 0.05
  ((w.position - 0.5 + 0.55, 0.5), (w.position - 0.5 + 0.55 + displacement, 0.5 + height))

/-! ## Running: lines 147-187 -/

/-- Local variables of `run()`; `left` is the number of episodes that may follow the current one (`100000 - 1 - i`). -/
structure Run where
  env : Env
  left : ℕ
  best : ℤ

/-- What is logged. -/
inductive Line where
  /-- line 172: number of the episode and its steps -/
  | episode (number steps : ℕ)
  /-- line 184 -/
  | longest (best : ℤ)
  deriving DecidableEq

/-- `lastState(k)` -/
def entry (e : Env) (s : State) (k : ℕ) : Outcome ℝ := if k < e.stateSpaceDimension then ok (s k) else ub

/-- lines 161-168: one step of an episode, up to `processEvents`; `a` is the action that the agent chooses -/
def frame (w : Window) (e : Env) (a : ℝ) : Outcome (Window × Env) := do
  let s ← e.getState
  let position ← entry e s 0
  let angle1 ← entry e s (if w.fullyObservable then 2 else 1)
  let angle2 ← if w.singlePole then ok 0 else entry e s (if w.fullyObservable then 4 else 2)
  let e' ← e.stateTransition a
  ok ({ w with position := position, angle1 := angle1, angle2 := angle2, force := e'.action }, e')

/-- lines 173-180: the longest episode so far -/
def better (best : ℤ) (steps : ℕ) : ℤ := if best < steps then steps else best

open Classical in
/-- lines 156-184, from the condition of the inner loop to the next call of `processEvents` (`some`) or to the end of `run()` (`none`); `next` is the
next iteration of the outer loop -/
def episode (w : Window) (a : ℝ) (left : ℕ) (e : Env) (best : ℤ) (next : ℤ → Outcome (Window × Option Run × List Line)) :
    Outcome (Window × Option Run × List Line) := do
  let t ← e.terminalState
  if t then
    if 100000 ≤ e.step then ok (w, none, [.episode (100000 - left) e.step, .longest e.step])
    else
      let r ← next (better best e.step)
      ok (r.1, r.2.1, .episode (100000 - left) e.step :: r.2.2)
  else
    let r ← frame w e a
    ok (r.1, some ⟨r.2, left, best⟩, [])

/-- lines 156-184 -/
def proceed (w : Window) (a : ℝ) : (left : ℕ) → Env → (best : ℤ) → Outcome (Window × Option Run × List Line)
  | 0, e, best => episode w a 0 e best fun best => ok (w, none, [.longest best])
  | left + 1, e, best => episode w a (left + 1) e best fun best => proceed w a left e.restart best

/-! ## Events: lines 125-145 -/

/-- The keys; `a` is the first action that the agent of the new run chooses. -/
inductive Key where
  | r (a : ℝ)
  | plus
  | minus
  | escape
  | other

/-- The program: the widget, the active calls of `run()` (the innermost first), what was logged, whether `exit()` was called. -/
structure Machine where
  win : Window
  runs : List Run
  log : List Line
  quit : Bool

/-- dpb.cpp lines 67-70 -/
def Machine.new (singlePole fullyObservable : Bool) : Machine := ⟨Window.new singlePole fullyObservable, [], [], false⟩

/-- `app.exec()` has returned. -/
def Machine.ended (m : Machine) : Prop := m.quit = true ∧ m.runs = []

/-- lines 149-153: the environment of a new run -/
def Window.setup (w : Window) : Setup := if w.singlePole then single else double

/-- The result of `proceed` for the innermost run; `rs` are the runs around it. -/
def Machine.after (m : Machine) (rs : List Run) (r : Window × Option Run × List Line) : Machine :=
  { m with win := r.1, runs := r.2.1.toList ++ rs, log := m.log ++ r.2.2 }

/-- lines 125-145: `keyPressEvent`; for R the first lines of `run()`, 149-158 -/
def Machine.press (R : Rounding) (m : Machine) : Key → Outcome Machine
  | .r a => do
    let r ← proceed m.win a 99999 (Env.new m.win.setup m.win.fullyObservable).restart (-1)
    ok (m.after m.runs r)
  | .plus => do
    let p ← scaled R m.win.pause factorPlus
    ok { m with win := { m.win with pause := p } }
  | .minus => do
    let p ← scaled R m.win.pause factorMinus
    ok { m with win := { m.win with pause := p } }
  | .escape => ok { m with quit := true }
  | .other => ok m

/-- Inputs of the program. -/
inductive Input where
  | key (k : Key)
  /-- `processEvents` returns; the agent chooses the action `a` when it is asked next -/
  | go (a : ℝ)

open Classical in
/-- One input; keys are not delivered after the end. -/
def Machine.step (R : Rounding) (m : Machine) : Input → Outcome Machine
  | .key k => if m.ended then ok m else m.press R k
  | .go a =>
    match m.runs with
    | [] => ok m
    | r :: rs => do
      let x ← proceed m.win a r.left r.env r.best
      ok (m.after rs x)

/-- A history of the program. -/
def Machine.exec (R : Rounding) (m : Machine) : List Input → Outcome Machine
  | [] => ok m
  | i :: is => do
    let m ← m.step R i
    m.exec R is

end

end Verif.PoleWindow
