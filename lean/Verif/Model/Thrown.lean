import Verif.Model.MBSGD
import Verif.Model.CMAES
import Verif.Model.Alglib

/-!
# Optimisers whose object throws (src/MBSGD.cpp, src/IPOPCMAES.cpp, src/LBFGS.cpp, src/CG.cpp, src/LMA.cpp)

The functions of `Verif.Model.MBSGD`, `Verif.Model.CMAES` and `Verif.Model.Alglib` once more, for optimised objects that throw
exceptions, for example because a data set cannot be read.  No optimiser catches them (the `catch` clauses of src/LBFGS.cpp lines
93-96, src/CG.cpp lines 84-87 and src/LMA.cpp lines 104-107 are for another type): the exception leaves `step()` and `optimize()`,
and the members of the optimiser keep the values they have at that time.  A function of the object that throws leaves the
parameters of the object as they are.
-/

namespace Verif.Thrown

noncomputable section

/-! ## Mini-batch stochastic gradient descent -/

section sgd

open Verif.Opt

/-- Which calls throw; `n` is the number of earlier calls of all these functions. -/
structure Hazard where
  /-- `errorGradient` -/
  evaluate : ℕ → Bool
  /-- `setParameters` -/
  set : ℕ → Bool
  /-- `finishedIteration` -/
  finish : ℕ → Bool

/-- Optimiser and object; `clock` counts the calls, `returned` are the gradients of the evaluations that did not throw since the last
initialisation (a record). -/
structure World where
  opt : MBSGD
  obj : Obj
  clock : ℕ
  returned : List Vec

/-- One part after the other; `false`: an exception was thrown. -/
def andThen (r : Bool × World) (f : World → Bool × World) : Bool × World := if r.1 then f r.2 else r

/-- src/MBSGD.cpp lines 98-99 -/
def World.lookAhead (h : Hazard) (v : World) : Bool × World :=
  if v.opt.nesterov then
    if h.set v.clock then (false, { v with clock := v.clock + 1 })
    else (true, { v with obj := v.opt.lookAhead v.obj, clock := v.clock + 1 })
  else (true, v)

/-- lines 101-121: the evaluation and what follows up to the next call of the object -/
def World.evaluate (h : Hazard) (batch : List ℕ) (v : World) : Bool × World :=
  if h.evaluate v.clock then (false, { v with obj := { v.obj with calls := v.obj.calls + 1 }, clock := v.clock + 1 })
  else
    (true,
      { opt := { v.opt.move (v.opt.scaled (v.obj.result batch).2) with
          gains := v.opt.newGains (v.obj.result batch).2
          accumulatedError := v.opt.accumulatedError + (v.obj.result batch).1 }
        obj := v.obj.evaluate batch
        clock := v.clock + 1
        returned := v.returned ++ [(v.obj.result batch).2] })

/-- lines 123-124 -/
def World.assign (h : Hazard) (v : World) : Bool × World :=
  if v.opt.nesterov then (true, v)
  else if h.set v.clock then (false, { v with clock := v.clock + 1 })
  else (true, { v with obj := { v.obj with w := v.opt.parameters }, clock := v.clock + 1 })

/-- lines 127-131 -/
def World.schedule (v : World) : Bool × World := (true, { v with opt := v.opt.schedule })

/-- lines 98-132: one mini-batch -/
def World.update (h : Hazard) (batch : List ℕ) (v : World) : Bool × World :=
  andThen (andThen (andThen (v.lookAhead h) (World.evaluate h batch)) (World.assign h)) World.schedule

/-- lines 96-138: the first `b` mini-batches -/
def World.updates (h : Hazard) (v : World) : ℕ → Bool × World
  | 0 => (true, v)
  | b + 1 => andThen (World.updates h v b) (World.update h (batchOf v.opt.randomIndices v.opt.batchSize b))

/-- lines 140-152 -/
def World.finish (h : Hazard) (v : World) : Option Bool × World :=
  if h.finish v.clock then
    (none, { v with opt := { v.opt with iteration := v.opt.iteration + 1 }, clock := v.clock + 1 })
  else
    (some v.opt.finish.1, { v with opt := v.opt.finish.2, obj := v.obj.finishedIteration, clock := v.clock + 1 })

/-- lines 83-90: `initialize` if necessary, and the shuffle -/
def World.ready (v : World) : World :=
  { v with
    opt := (v.opt.ready v.obj).reshuffle
    returned := if v.opt.iteration < 0 then [] else v.returned }

/-- lines 80-153: `step()`; `none`: an exception was thrown. -/
def World.step (h : Hazard) (v : World) : Outcome (Option Bool × World) := do
  let o1 := v.opt.ready v.obj
  Outcome.check (0 < o1.P)
  Outcome.check (0 < o1.N)
  Outcome.check (0 < o1.batches)
  Outcome.check (o1.randomIndices.length = o1.N)
  if v.obj.problem.dimension ≠ o1.P then .ub
  else
    let r := v.ready.updates h o1.batches
    .ok (if r.1 then r.2.finish h else (none, r.2))

end sgd

/-! ## Evolution strategy -/

section es

open Verif.Opt Verif.ES

variable {C : Core}

/-- src/IPOPCMAES.cpp lines 146-149: one individual; `fails n`: the `n`-th call of `opt->error()` throws.  `false`: an exception was
thrown. -/
def individual (err : Vec → ℝ) (fails : ℕ → Bool) (s : Es C) : Outcome (Bool × Es C) := do
  let r ← s.getNext
  if fails r.2.errorCalls then .ok (false, { r.2 with errorCalls := r.2.errorCalls + 1 })
  else do
    let s' ← r.2.setError (err r.1)
    .ok (true, { s' with evaluated := s'.evaluated ++ [(r.1, err r.1)], errorCalls := s'.errorCalls + 1 })

/-- lines 144-150: `n` individuals -/
def generation (err : Vec → ℝ) (fails : ℕ → Bool) (n : ℕ) (s : Es C) : Outcome (Bool × Es C) :=
  forLoop n (fun _ p => if p.1 then individual err fails p.2 else .ok p) (true, s)

/-- lines 142-151: the inner loop, limited to `fuel` generations -/
def runCore (err : Vec → ℝ) (fails : ℕ → Bool) : ℕ → Es C → Outcome (Option (Bool × Es C))
  | 0, _ => .ok none
  | fuel + 1, s =>
    match s.cmaes with
    | none => .ub
    | some c =>
      if s.terminated c then .ok (some (true, s))
      else do
        let p ← generation err fails c.popSize s
        if p.1 then runCore err fails fuel p.2 else .ok (some p)

/-- lines 153-164: the best individual; the vector is assigned before the evaluation in line 163. -/
def takeBest (err : Vec → ℝ) (fails : ℕ → Bool) (s : Es C) (c : Cma C) : Bool × Es C :=
  match best c.reported with
  | none => (true, s)
  | some b =>
    if b.2 < s.optimumValue then
      if fails s.errorCalls then (false, { s with optimum := some b.1, errorCalls := s.errorCalls + 1 })
      else (true, { s with optimum := some b.1, optimumValue := err b.1, errorCalls := s.errorCalls + 1 })
    else (true, s)

/-- lines 136-169: `optimize()`; `false`: an exception was thrown. -/
def optimize (err : Vec → ℝ) (fails : ℕ → Bool) (x0 : ℕ → Vec) (fuel : ℕ) : ℕ → Es C → Outcome (Option (Bool × Es C))
  | 0, _ => .ok none
  | starts + 1, s =>
    if (s.restart (x0 (s.restarts + 1).toNat)).1 then do
      let r ← runCore err fails fuel (s.restart (x0 (s.restarts + 1).toNat)).2
      match r with
      | none => .ok none
      | some (false, s') => .ok (some (false, s'))
      | some (true, s') =>
        match s'.cmaes with
        | none => .ub
        | some c =>
          if (takeBest err fails s' c).1 then
            if fBest c < s'.stop.minimalValue then .ok (some (takeBest err fails s' c))
            else optimize err fails x0 fuel starts (takeBest err fails s' c).2
          else .ok (some (takeBest err fails s' c))
    else .ok (some (true, (s.restart (x0 (s.restarts + 1).toNat)).2))

end es

/-! ## Optimisers that wrap ALGLIB -/

section alglib

open Verif.Alglib

variable {σ τ V J : Type}

/-- An evaluation throws in the loop of `step()` (src/LBFGS.cpp lines 59-60 and 74-75, src/CG.cpp lines 50-51 and 65-66, src/LMA.cpp
lines 66-68 and 81-84): optimiser and object afterwards.  The library has already been asked for its next request.  `written`: what
may have been assigned to the members of its state before (nothing in LBFGS and CG, the answers for some of the examples in
LMA). -/
inductive LoopThrows (M : Method σ τ V J) (O : Object τ) (written : σ → σ → Prop) : Opt σ → τ → Opt σ → τ → Prop
  | here {o t s p t' s'} : o.state = some s → ((M.lib.next s).2 = .value ∨ (M.lib.next s).2 = .derivative) →
      firstEntries o.n (M.lib.x (M.lib.next s).1) = .ok p → O.setParameters t p = .ok t' → written (M.lib.next s).1 s' →
      LoopThrows M O written o t { o with state := some s' } t'
  | again {o t s o' t' o'' t''} : o.state = some s → pass M.lib O (M.access o) o s t = .ok (.again o' t') →
      LoopThrows M O written o' t' o'' t'' → LoopThrows M O written o t o'' t''

/-- An evaluation throws in `step()`. -/
inductive StepThrows (M : Method σ τ V J) (O : Object τ) (default : Stop) (written : σ → σ → Prop) :
    Opt σ → τ → Opt σ → τ → Prop
  | looped {o t o' o'' t''} : prepare M O default o t = .ok o' → LoopThrows M O written o' t o'' t'' →
      StepThrows M O default written o t o'' t''

end alglib

end

end Verif.Thrown
