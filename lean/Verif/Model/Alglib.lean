import Verif.Model.Loop
import Mathlib.Data.Real.Basic

/-!
# Optimisers that wrap ALGLIB (src/LBFGS.cpp, src/CG.cpp, src/LMA.cpp)

The library works by reverse communication: every call of its iteration function asks for the value (or value and
derivatives) of the objective at a point, announces an improved point or ends.  It is not part of the repository; the model is
parameterised by an arbitrary library (`Library`) and by an arbitrary `Optimizable` (`Object`).

`OPENANN_CHECK(opt)` is not modelled: an object is always set.
-/

namespace Verif.Alglib

/-- OpenANN/optimization/StoppingCriteria.h lines 13-46 -/
structure Stop where
  maximalFunctionEvaluations : ℤ
  maximalIterations : ℤ
  maximalRestarts : ℤ
  minimalValue : ℝ
  minimalValueDifferences : ℝ
  minimalSearchSpaceStep : ℝ

/-- src/StoppingCriteria.cpp lines 9-18; `lowest` is `-std::numeric_limits<double>::max()`. -/
noncomputable def Stop.default (lowest : ℝ) : Stop := ⟨-1, -1, 0, lowest, 0, 0⟩

/-- The stopping conditions of the library (`epsg`, `epsf`, `epsx`, `maxits`). -/
structure Cond where
  epsg : ℝ
  epsf : ℝ
  epsx : ℝ
  maxits : ℤ

open Classical in
/-- src/LBFGS.cpp lines 123-134, src/CG.cpp lines 133-144, src/LMA.cpp lines 141-152: a criterion that differs from the default
is passed on, otherwise 0. -/
noncomputable def Stop.cond (s d : Stop) : Cond where
  epsg := if s.minimalSearchSpaceStep ≠ d.minimalSearchSpaceStep then s.minimalSearchSpaceStep else 0
  epsf := if s.minimalValueDifferences ≠ d.minimalValueDifferences then s.minimalValueDifferences else 0
  epsx := 0
  maxits := if s.maximalIterations ≠ d.maximalIterations then s.maximalIterations else 0

/-- What the library wants after a call of its iteration function. -/
inductive Request where
  /-- `needf`, `needfi` -/
  | value
  /-- `needfg`, `needfij` -/
  | derivative
  /-- `xupdated` -/
  | report
  /-- a flag that the program does not know -/
  | other
  /-- the function returned `false` -/
  | done
  deriving DecidableEq

/-- An optimisation algorithm of the library with states `σ`.  `V` is the type of a function value (a number, or one number for
each example), `J` of the derivatives. -/
structure Library (σ V J : Type) where
  /-- `minlbfgscreate` (first argument: number of corrections), `mincgcreate`, `minlmcreatevj` (first argument: number of
  values), then `...setcond`; `none`: the arguments are refused. -/
  create : ℤ → List ℝ → Cond → Option σ
  /-- `minlbfgsiteration`, `mincgiteration`, `minlmiteration` -/
  next : σ → σ × Request
  /-- `state.x` -/
  x : σ → List ℝ
  /-- `repiterationscount` -/
  count : σ → ℤ
  /-- the assignments to `state.f`, `state.fi` -/
  putValue : σ → V → σ
  /-- the assignments to `state.g`, `state.j` -/
  putDerivative : σ → V → J → σ
  /-- `minlbfgsresults`, `mincgresults`, `minlmresults` -/
  results : σ → List ℝ

/-- OpenANN/optimization/Optimizable.h as far as these optimisers use it; `τ` are the states of the object. -/
structure Object (τ : Type) where
  dimension : τ → ℤ
  examples : τ → ℕ
  current : τ → List ℝ
  setParameters : τ → List ℝ → Outcome τ
  /-- `error()` -/
  error : τ → Outcome (ℝ × τ)
  /-- `errorGradient(value, gradient)`, with `gradient` of size `dimension()` before -/
  errorGradient : τ → Outcome ((ℝ × List ℝ) × τ)
  /-- `error(i)` -/
  errorAt : τ → ℕ → Outcome (ℝ × τ)
  /-- `errorGradient(i, value, gradient)` -/
  errorGradientAt : τ → ℕ → Outcome ((ℝ × List ℝ) × τ)
  finishedIteration : τ → Outcome τ

/-- The state of an optimiser (OpenANN/optimization/LBFGS.h, CG.h, LMA.h): `m` is used by LBFGS only; `state` is `none` as long
as nothing was created. -/
structure Opt (σ : Type) where
  iteration : ℤ
  n : ℤ
  m : ℤ
  state : Option σ
  optimum : List ℝ
  stop : Stop

/-- src/LBFGS.cpp lines 13-16, src/CG.cpp lines 16-19, src/LMA.cpp lines 15-18 (`m` is not used by the last two). -/
def Opt.new (σ : Type) (m : ℤ) (default : Stop) : Opt σ := ⟨-1, -1, m, none, [], default⟩

/-- The entries `0 .. n-1` of a vector. -/
def firstEntries (n : ℤ) (v : List ℝ) : Outcome (List ℝ) := if n.toNat ≤ v.length then .ok (v.take n.toNat) else .ub

/-- How a class evaluates the objective after `setParameters`. -/
structure Access (τ V J : Type) where
  value : τ → Outcome (V × τ)
  derivative : τ → Outcome ((V × J) × τ)

variable {σ τ V J : Type}

/-- src/LBFGS.cpp lines 60-61, 75-78, src/CG.cpp lines 51-52, 66-69: one number and a gradient with `n` entries. -/
def scalarAccess (O : Object τ) (n : ℤ) : Access τ ℝ (List ℝ) where
  value := O.error
  derivative t := do
    let r ← O.errorGradient t
    let g ← firstEntries n r.1.2
    pure ((r.1.1, g), r.2)

/-- src/LMA.cpp lines 67-68: `state.fi[i] = opt->error(i)` for all `i` (`state.fi` has as many entries as there were examples when
it was created). -/
def vectorValue (O : Object τ) : ℕ → τ → Outcome (List ℝ × τ)
  | 0, t => .ok ([], t)
  | k + 1, t => do
    let r ← vectorValue O k t
    let e ← O.errorAt r.2 k
    pure (r.1 ++ [e.1], e.2)

/-- src/LMA.cpp lines 82-88: errors and gradients (`dimension()` entries) of all examples -/
def vectorDerivative (O : Object τ) : ℕ → τ → Outcome ((List ℝ × List (List ℝ)) × τ)
  | 0, t => .ok (([], []), t)
  | k + 1, t => do
    let r ← vectorDerivative O k t
    let e ← O.errorGradientAt r.2 k
    let g ← firstEntries (O.dimension e.2) e.1.2
    pure ((r.1.1 ++ [e.1.1], r.1.2 ++ [g]), e.2)

/-- src/LMA.cpp lines 67-68, 82-88 for the number of examples at that time -/
def vectorAccess (O : Object τ) : Access τ (List ℝ) (List (List ℝ)) where
  value t := vectorValue O (O.examples t) t
  derivative t := vectorDerivative O (O.examples t) t

/-- The result of one pass of the loop in `step()`: another pass, `return true`, or the end of the loop. -/
inductive Pass (σ τ : Type) where
  | again (o : Opt σ) (t : τ)
  | returned (o : Opt σ) (t : τ)
  | ended (o : Opt σ) (t : τ)

/-- src/LBFGS.cpp lines 62-68 and 79-85, src/CG.cpp lines 53-59 and 70-76, src/LMA.cpp lines 69-75 and 89-95: after an answer the
step is over if the iteration counter has changed. -/
def afterAnswer (L : Library σ V J) (O : Object τ) (o : Opt σ) (s : σ) (t : τ) : Outcome (Pass σ τ) :=
  if o.iteration ≠ L.count s then do
    let t' ← O.finishedIteration t
    pure (.returned { o with iteration := L.count s, state := some s } t')
  else .ok (.again { o with state := some s } t)

/-- src/LBFGS.cpp lines 53-91, src/CG.cpp lines 44-82, src/LMA.cpp lines 60-101: one pass of the loop of `step()` for the state `s` of
the library. -/
def pass (L : Library σ V J) (O : Object τ) (A : Access τ V J) (o : Opt σ) (s : σ) (t : τ) : Outcome (Pass σ τ) :=
  match (L.next s).2 with
  | .done => .ok (.ended { o with state := some (L.next s).1 } t)
  | .report => .ok (.again { o with state := some (L.next s).1 } t)
  | .other => .throws
  | .value => do
    let p ← firstEntries o.n (L.x (L.next s).1)
    let t₁ ← O.setParameters t p
    let r ← A.value t₁
    afterAnswer L O o (L.putValue (L.next s).1 r.1) r.2
  | .derivative => do
    let p ← firstEntries o.n (L.x (L.next s).1)
    let t₁ ← O.setParameters t p
    let r ← A.derivative t₁
    afterAnswer L O o (L.putDerivative (L.next s).1 r.1.1 r.1.2) r.2

/-- src/LBFGS.cpp lines 103-140, src/CG.cpp lines 121-150, src/LMA.cpp lines 127-156: `initialize()`.  `arg` is the first argument of
the creation, `m` the new value of `m`, `start` whether `iteration` is set to 0 (not in LMA). -/
noncomputable def create (L : Library σ V J) (O : Object τ) (default : Stop) (arg m : ℤ) (start : Bool) (o : Opt σ) (t : τ) :
    Outcome (Opt σ) := do
  let x ← firstEntries (O.dimension t) (O.current t)
  match L.create arg x (o.stop.cond default) with
  | none => .throws
  | some s => .ok { o with
      n := O.dimension t, m := m, state := some s, iteration := if start then 0 else o.iteration }

/-- src/LBFGS.cpp lines 142-150, 185, src/CG.cpp lines 152-160, 192, src/LMA.cpp lines 158-168, 199: `reset()`; LMA also sets the
parameters (`set`).  Log messages are left out. -/
def reset (L : Library σ V J) (O : Object τ) (set : Bool) (o : Opt σ) (t : τ) : Outcome (Opt σ × τ) :=
  match o.state with
  | none => .ub
  | some s => do
    let x ← firstEntries o.n (L.results s)
    let t' ← if set then O.setParameters t x else .ok t
    pure ({ o with optimum := x, iteration := -1 }, t')

/-- What distinguishes the three classes: the access, the arguments of `create` and `reset`. -/
structure Method (σ τ V J : Type) where
  lib : Library σ V J
  access : Opt σ → Access τ V J
  arg : Object τ → Opt σ → τ → ℤ
  m : Object τ → Opt σ → τ → ℤ
  start : Bool
  set : Bool

/-- src/LBFGS.cpp -/
def lbfgs (L : Library σ ℝ (List ℝ)) (O : Object τ) : Method σ τ ℝ (List ℝ) where
  lib := L
  access o := scalarAccess O o.n
  arg O o t := min o.m (O.dimension t)
  m O o t := min o.m (O.dimension t)
  start := true
  set := false

/-- src/CG.cpp -/
def cg (L : Library σ ℝ (List ℝ)) (O : Object τ) : Method σ τ ℝ (List ℝ) where
  lib := L
  access o := scalarAccess O o.n
  arg _ _ _ := 0
  m _ o _ := o.m
  start := true
  set := false

/-- src/LMA.cpp -/
def lma (L : Library σ (List ℝ) (List (List ℝ))) (O : Object τ) : Method σ τ (List ℝ) (List (List ℝ)) where
  lib := L
  access _ := vectorAccess O
  arg O _ t := O.examples t
  m _ o _ := o.m
  start := false
  set := true

/-- src/LBFGS.cpp lines 47-49, src/CG.cpp lines 38-40, src/LMA.cpp lines 54-56: the beginning of `step()` -/
noncomputable def prepare (M : Method σ τ V J) (O : Object τ) (default : Stop) (o : Opt σ) (t : τ) : Outcome (Opt σ) := do
  let o' ← if o.iteration < 0 then create M.lib O default (M.arg O o t) (M.m O o t) M.start o t else .ok o
  Outcome.check (o'.n > 0)
  pure o'

/-- The loop of `step()`, which may not end: the result of the loop that starts in `o`, `t`. -/
inductive Looped (M : Method σ τ V J) (O : Object τ) : Opt σ → τ → Outcome (Bool × Opt σ × τ) → Prop
  | ub {o t} : o.state = none → Looped M O o t .ub
  | again {o t s o' t' r} : o.state = some s → pass M.lib O (M.access o) o s t = .ok (.again o' t') → Looped M O o' t' r →
      Looped M O o t r
  | returned {o t s o' t'} : o.state = some s → pass M.lib O (M.access o) o s t = .ok (.returned o' t') →
      Looped M O o t (.ok (true, o', t'))
  | ended {o t s o' t'} : o.state = some s → pass M.lib O (M.access o) o s t = .ok (.ended o' t') →
      Looped M O o t (do
        let r ← reset M.lib O M.set o' t'
        pure (false, r.1, r.2))
  | failed {o t s} : o.state = some s → (∀ p, pass M.lib O (M.access o) o s t ≠ .ok p) →
      Looped M O o t (do
        let _ ← pass M.lib O (M.access o) o s t
        .throws)

/-- `step()` comes to an end with this result. -/
inductive Step (M : Method σ τ V J) (O : Object τ) (default : Stop) : Opt σ → τ → Outcome (Bool × Opt σ × τ) → Prop
  | looped {o t o' r} : prepare M O default o t = .ok o' → Looped M O o' t r → Step M O default o t r
  | failed {o t} : (∀ o', prepare M O default o t ≠ .ok o') →
      Step M O default o t (do
        let _ ← prepare M O default o t
        .throws)

/-- src/LBFGS.cpp lines 28-42, src/CG.cpp lines 93-107, src/LMA.cpp lines 34-49: `optimize()` comes to an end with this result;
`signals k` is the answer of `isSignaled()` after `k` steps more. -/
inductive Optimize (M : Method σ τ V J) (O : Object τ) (default : Stop) :
    (ℕ → Bool) → Opt σ → τ → Outcome (Opt σ × τ) → Prop
  | last {signals o t o' t'} : Step M O default o t (.ok (false, o', t')) → Optimize M O default signals o t (.ok (o', t'))
  | interrupted {signals o t o' t'} : Step M O default o t (.ok (true, o', t')) → signals 0 = true →
      Optimize M O default signals o t (reset M.lib O M.set o' t')
  | next {signals o t o' t' r} : Step M O default o t (.ok (true, o', t')) → signals 0 = false →
      Optimize M O default (fun k => signals (k + 1)) o' t' r → Optimize M O default signals o t r
  | failed {signals o t r} : Step M O default o t r → (∀ p, r ≠ .ok p) →
      Optimize M O default signals o t (do
        let _ ← r
        .throws)

/-- src/LBFGS.cpp lines 188-193, src/CG.cpp lines 109-114, src/LMA.cpp lines 113-118: `result()` -/
def result (O : Object τ) (o : Opt σ) (t : τ) : Outcome (List ℝ × τ) := do
  let t' ← O.setParameters t o.optimum
  pure (o.optimum, t')

end Verif.Alglib
