import Verif.Model.CMAES
import Verif.Model.AlphaBeta
import Verif.Model.Smoothing

/-!
# The neuro-evolution agent (examples/polebalancing/NeuroEvolutionAgent.cpp) and its benchmark (benchmarks/polebalancing/polebalancing.cpp)

The environment is any environment whose `restart` leads to the same state and whose transitions depend on state and action.
The policy without the filter layer is any function of the parameters and the input of the network (`Net::operator()` without
layers that keep a state).  `gruauFitness` is set to false by the constructor and never changed: the code for it is dead and not
modelled.  `lastState`, `firstStep` and `des` exist in every configuration; where the code does not use them their contents have
no effect.  An agent is modelled from `abandoneIn` on: before, `chooseAction` fails and
`chooseOptimalAction` dereferences a null pointer; a second `abandoneIn` fails in `setStopCriteria`.  Numbers are real.
-/

namespace Verif.Neuro

open Verif.Opt Verif.ES Verif.AlphaBeta Verif.Smoothing

noncomputable section

/-- An environment (OpenANN/rl/Environment.h lines 15-61) -/
structure World where
  S : Type
  /-- the state after `restart()` -/
  initial : S
  /-- `getState()`, with `dim` entries -/
  observe : S → Vec
  /-- `stateTransition(action)` -/
  next : S → Vec → S
  /-- `terminalState()` -/
  terminal : S → Prop
  /-- `stepsInEpisode()` -/
  steps : S → ℕ

/-- Arguments of the constructor that are of interest here (lines 5-16), with `stateSpaceDimension()` and `deltaT()` of the
environment. -/
structure Config where
  fullyObservable : Bool
  alphaBetaFilter : Bool
  smoothing : Bool
  dim : ℕ
  deltaT : ℝ

/-- How the input of the network is computed. -/
inductive Mode where
  | full | filter | smooth | last
  deriving DecidableEq

/-- The conditions of lines 26-45 and 120-147. -/
def Config.mode (g : Config) : Mode :=
  if g.fullyObservable then .full
  else if g.alphaBetaFilter then .filter
  else if g.smoothing then .smooth
  else .last

/-- The policy network behind the filter layer: parameters and input give the action. -/
abbrev Policy := Vec → Vec → Vec

/-- NeuroEvolutionAgent.h lines 15-46.  `theta` are the parameters of `policy`, `filter` the state of its filter layer. -/
structure Agent (C : Core) where
  opt : Es C
  theta : Vec
  filter : Filter
  last : Vec
  first : Bool
  des : ℕ → Smoother

variable {C : Core}

/-- The outputs of the filter layer, the inputs of the next layer. -/
def filtered (f : Filter) : Vec := fun j => if j % 2 = 0 then (f.output (j / 2)).1 else (f.output (j / 2)).2

/-- lines 116-148: the input for the observation `o`; with filter what its layer makes of it. -/
def Agent.input (g : Config) (a : Agent C) (o : Vec) : Vec :=
  match g.mode with
  | .full => o
  | .filter => filtered (a.filter.forward o)
  | .smooth => fun j =>
      if j % 2 = 0 then ((a.des (j / 2)).next (o (j / 2))).output.1 else ((a.des (j / 2)).next (o (j / 2))).output.2
  | .last => fun j => if j < g.dim then o j else if a.first then o (j - g.dim) else a.last (j - g.dim)

/-- lines 116-148 and line 157: the agent after it has seen `o`. -/
def Agent.sensed (g : Config) (a : Agent C) (o : Vec) : Agent C :=
  match g.mode with
  | .full => a
  | .filter => { a with filter := a.filter.forward o }
  | .smooth => { a with des := fun i => (a.des i).next (o i) }
  | .last => { a with last := o, first := false }

variable (w : World) (net : Policy) (g : Config)

/-- lines 114-159: `chooseOptimalAction` in the state `s` of the environment. -/
def Agent.chooseOptimalAction (a : Agent C) (s : w.S) : Agent C × w.S :=
  (a.sensed g (w.observe s), w.next s (net a.theta (a.input g (w.observe s))))

/-- lines 198-201: `setParameters`; `Net::setParameters` calls `updatedParameters` of the filter layer, whose parameters come
first. -/
def Agent.setParameters (a : Agent C) (θ : Vec) : Agent C :=
  { a with theta := θ, filter := if g.mode = .filter then a.filter.setParameters θ else a.filter }

/-- lines 104-107: the error is reported and the next parameters are taken.  A restart begins with the current parameters. -/
def nextCandidate (o : Es C) (θ : Vec) (fitness : ℝ) : Outcome (Vec × Es C) := do
  let o1 ← o.setError fitness
  match o1.cmaes with
  | none => .ub
  | some c => (if o1.terminated c then (o1.restart θ).2 else o1).getNext

/-- lines 104-110 -/
def Agent.report (a : Agent C) (fitness : ℝ) : Outcome (Agent C) := do
  let r ← nextCandidate a.opt a.theta fitness
  pure { Agent.setParameters g { a with opt := r.2 } r.1 with first := true, des := fun i => (a.des i).restart }

open Classical in
/-- lines 73-112: `chooseAction` -/
def Agent.chooseAction (a : Agent C) (s : w.S) : Outcome (Agent C × w.S) :=
  if w.terminal (a.chooseOptimalAction w net g s).2 then do
    let a' ← (a.chooseOptimalAction w net g s).1.report g (-(w.steps (a.chooseOptimalAction w net g s).2 : ℝ))
    pure (a', (a.chooseOptimalAction w net g s).2)
  else .ok (a.chooseOptimalAction w net g s)

open Classical in
/-- polebalancing.cpp lines 155-156: the loop over the steps, limited to `fuel` of them (`none`: still running) -/
def Agent.episode : ℕ → Agent C → w.S → Outcome (Option (Agent C × w.S))
  | 0, _, _ => .ok none
  | fuel + 1, a, s =>
    if w.terminal s then .ok (some (a, s))
    else do
      let r ← a.chooseAction w net g s
      Agent.episode fuel r.1 r.2

/-- The filter layer after `policy.alphaBetaFilterLayer(deltaT, 5.0)`, before its first parameters. -/
def Config.newFilter (g : Config) : Filter := ⟨g.deltaT, fun _ => 0, fun _ => 0, fun _ => 0, true, fun _ => 0, fun _ => 0⟩

/-- lines 22-71: `abandoneIn`, called for the first time; `x0` are the initial parameters of the network, `lambda` the population
size that the external library chooses. -/
def abandoneIn (lambda : ℕ) (x0 : Vec) : Outcome (Agent C) := do
  let r ← ((Es.new C ⟨1000, 1000, -big⟩ lambda).restart x0).2.getNext
  pure (Agent.setParameters g ⟨r.2, x0, g.newFilter, fun _ => 0, true, fun _ => Smoother.new⟩ r.1)

/-- polebalancing.cpp lines 124-129; `episodes` is not initialised (`none`) without success.  The time is left out. -/
structure Result where
  success : Bool
  episodes : Option ℕ

/-- polebalancing.cpp lines 151-164: episodes `i`, `i + 1`, ..., at most `n` of them -/
def runEpisodes (fuel required : ℕ) : ℕ → ℕ → Agent C → Outcome (Option Result)
  | 0, _, _ => .ok (some ⟨false, none⟩)
  | n + 1, i, a => do
    let r ← a.episode w net g fuel w.initial
    match r with
    | none => .ok none
    | some (a', s) => if required ≤ w.steps s then .ok (some ⟨true, some i⟩) else runEpisodes fuel required n (i + 1) a'

/-- polebalancing.cpp lines 143-167: `benchmarkSingleRun` after `abandoneIn` -/
def benchmarkSingleRun (fuel : ℕ) (a : Agent C) : Outcome (Option Result) := runEpisodes w net g fuel 100000 100000 1 a

/-- polebalancing.cpp lines 189-196: what `benchmarkConfiguration` reads of a result. -/
def Result.read (r : Result) : Outcome ℕ :=
  match r.episodes with
  | none => .ub
  | some e => .ok e

end

end Verif.Neuro
