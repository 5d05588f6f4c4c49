import Verif.Model.CMAES
import Verif.Model.Octopus

/-!
# The agent of the octopus arm benchmark (benchmarks/octopusarm/agent.cpp)

The network is an arbitrary function of parameters and state (`Net::operator()` without layers that keep a state); what it
computes is not broken.  The random numbers of line 169 are an arbitrary sequence.  Numbers are real.
-/

namespace Verif.OctopusAgent

open Verif.Opt Verif.ES

noncomputable section

/-- lines 61-68; `theta` are the parameters of `net`, `ends` counts the calls of `agent_end`.  The global `episodeReturn` starts
with zero. -/
structure Arm (C : Core) where
  opt : Es C
  theta : Vec
  ret : ℝ
  bestReturn : ℝ
  bestParameters : Vec
  ends : ℕ

variable {C : Core}

/-- lines 93-101: `x0` are the parameters of the new network, `lambda` the population size that the external library chooses -/
def agentInit (lambda : ℕ) (x0 : Vec) : Arm C :=
  ⟨((Es.new C ⟨5000, 1000, -big⟩ lambda).restart x0).2, x0, 0, -big, x0, 0⟩

/-- lines 129-142 -/
def Arm.chooseAction (net : Vec → Vec → Vec) (a : Arm C) (state : Vec) : Vec := net a.theta state

/-- lines 144-150 -/
def Arm.start (a : Arm C) : Outcome (Arm C) := do
  let r ← a.opt.getNext
  pure { a with opt := r.2, theta := r.1, ret := 0 }

/-- lines 152-157 -/
def Arm.step (a : Arm C) (reward : ℝ) : Arm C := { a with ret := a.ret + reward }

/-- line 161 -/
def Arm.total (a : Arm C) (reward : ℝ) : ℝ := a.ret + reward

open Classical in
/-- lines 161-167 -/
def Arm.keep (a : Arm C) (R : ℝ) : Arm C :=
  if a.bestReturn < R then { a with ret := R, bestReturn := R, bestParameters := a.theta } else { a with ret := R }

/-- lines 169-171: the optimiser gets the error `f`; a restart begins with the parameters of the network -/
def tell (o : Es C) (θ : Vec) (f : ℝ) : Outcome (Es C) := do
  let o1 ← o.setError f
  match o1.cmaes with
  | none => .ub
  | some c => .ok (if o1.terminated c then (o1.restart θ).2 else o1)

/-- lines 159-173; `z` are the random numbers -/
def Arm.finish (z : ℕ → ℝ) (a : Arm C) (reward : ℝ) : Outcome (Arm C) := do
  let o ← tell a.opt a.theta (-(a.total reward) + 0.1 * a.total reward * z a.ends)
  pure { a.keep (a.total reward) with opt := o, ends := a.ends + 1 }

/-- The functions that protocol.cpp calls. -/
def Arm.call (z : ℕ → ℝ) (a : Arm C) : Octopus.Call → Outcome (Arm C)
  | .start _ => a.start
  | .step _ r => .ok (a.step r)
  | .finish r => a.finish z r

/-- A sequence of calls. -/
def Arm.calls (z : ℕ → ℝ) : List Octopus.Call → Arm C → Outcome (Arm C)
  | [], a => .ok a
  | c :: cs, a => do
    let a' ← a.call z c
    Arm.calls z cs a'

end

end Verif.OctopusAgent
