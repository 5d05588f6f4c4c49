import Verif.Model.Preprocessing
import Mathlib.Algebra.BigOperators.Group.List.Basic
import Mathlib.Algebra.Order.Floor.Ring
import Mathlib.Algebra.Order.Archimedean.Real.Basic

/-!
# The data set of the P300 speller (benchmarks/p300speller/BCIDataSet.cpp, Decimator.h)

Numbers are real.  The files exist and are complete: `Recording` is what `load` reads, the sizes are those `determineDimension`
sets.  Only the epochs that are read are modelled.  Vectors are lists.  Indices, factors and numbers of trials are natural
numbers; negative ones are undefined behaviour in the code (`resize` with a negative size, a huge unsigned index).
-/

namespace Verif.BCI

open Outcome

noncomputable section

/-- BCIDataSet.h lines 43-58: what is read from the files; `epochs` is `readEpochs`.  Time comes first in the matrices of the
stimuli, signals are indexed by epoch, channel and time. -/
structure Recording where
  sampling : ℕ
  channels : ℕ
  maxT : ℕ
  epochs : ℕ
  flashing : ℕ → ℕ → ℝ
  code : ℕ → ℕ → ℝ
  type : ℕ → ℕ → ℝ
  target : ℕ → Char
  signal : ℕ → ℕ → ℕ → ℝ

/-- `(int) x` -/
def trunc (x : ℝ) : ℤ := if 0 ≤ x then ⌊x⌋ else ⌈x⌉

/-- The object. -/
structure Data where
  recording : Recording
  /-- `instanceStart` and `instanceLabel` have been resized. -/
  loaded : Bool
  start : ℕ → List ℕ
  label : ℕ → List ℝ
  N : ℕ
  D : ℕ
  temp : List ℝ
  /-- `compressor` if `comp` is set -/
  comp : Option Mat
  decimated : Bool
  factor : ℕ
  cacheSize : ℕ
  cacheD : ℕ
  cache : List ((ℕ × ℕ) × List ℝ)

/-- The variables of the loop in `setupInterface`. -/
structure Scan where
  N : ℕ
  last : ℕ → ℤ
  start : ℕ → List ℕ
  label : ℕ → List ℝ

/-- BCIDataSet.cpp lines 194-201: time `t` of epoch `e` -/
def Scan.step (r : Recording) (t : ℕ) (s : Scan) (e : ℕ) : Scan :=
  let s' : Scan :=
    if 0 < r.flashing t e ∧ s.last e = 0 then
      { s with
        N := s.N + 1
        start := fun k => if k = e then s.start e ++ [t] else s.start k
        label := fun k => if k = e then s.label e ++ [((trunc (r.type t e) * 2 - 1 : ℤ) : ℝ)] else s.label k }
    else s
  { s' with last := fun k => if k = e then trunc (r.flashing t e) else s'.last k }

/-- lines 190-203: both loops -/
def Scan.run (r : Recording) (s : Scan) : Scan :=
  (List.range r.maxT).foldl (fun s t => (List.range r.epochs).foldl (Scan.step r t) s) s

/-- lines 207-212: `clear` -/
def Data.clear (d : Data) : Data := { d with cache := [], cacheD := d.D, temp := List.replicate d.D 0 }

/-- lines 52-60, 183-205: `load`.  The lists of an earlier call are kept by `resize`. -/
def Data.load (d : Data) : Data :=
  let s := Scan.run d.recording ⟨0, fun _ => 0, d.start, d.label⟩
  Data.clear { d with loaded := true, N := s.N, start := s.start, label := s.label }

/-- lines 37-50: the constructor -/
def Data.new (r : Recording) (loadNow : Bool) : Data :=
  let d : Data :=
    ⟨r, false, fun _ => [], fun _ => [], 0, r.sampling * r.channels, List.replicate (r.channels * r.sampling) 0, none, false, 1,
      1000 * 1024 * 1024, 0, []⟩
  if loadNow then d.load else d

/-- lines 220-226: `decimate`; division by 0 is undefined. -/
def Data.decimate (d : Data) (factor : ℕ) : Outcome Data :=
  if factor = 0 then ub
  else ok (Data.clear { d with factor := factor, D := d.recording.sampling / factor * d.recording.channels, decimated := true })

/-- lines 228-234: `compress` -/
def Data.compress (d : Data) (cm : Mat) : Data := Data.clear { d with comp := some cm, D := cm.rows }

/-- lines 236-245: `reset` -/
def Data.reset (d : Data) : Data :=
  { d with decimated := false, factor := 1, comp := none, cache := [], D := d.recording.sampling * d.recording.channels }

/-- lines 255-260: `getOffsets` -/
def Data.getOffsets (d : Data) (i : ℕ) : Outcome (ℕ × ℕ) :=
  if d.loaded ∧ 0 < d.recording.epochs ∧ 0 < (d.label 0).length ∧ i / (d.label 0).length < d.recording.epochs then do
    let t0 ← Outcome.read (d.start (i / (d.label 0).length)) (i % (d.label 0).length)
    ok (i / (d.label 0).length, t0)
  else ub

/-- lines 298-305: `extractInstance`, which reads the signal of all channels from `t0` to `t0 + sampling - 1` -/
def extractInstance (r : Recording) (e t0 : ℕ) : Outcome Mat :=
  if e < r.epochs ∧ (r.channels = 0 ∨ r.sampling = 0 ∨ t0 + r.sampling ≤ r.maxT) then
    ok ⟨r.channels, r.sampling, fun c t => r.signal e c (t0 + t)⟩
  else ub

/-- lines 307-314: `toVector` -/
def toVector (m : Mat) : List ℝ := (List.range (m.rows * m.cols)).map fun k => m.val (k / m.cols) (k % m.cols)

/-- Decimator.h lines 29-36 -/
def b1 : List ℝ :=
  [0.00256293, 0.0032317, 0.00475108, 0.00727558, 0.01088579, 0.01557498, 0.02124304, 0.02769838, 0.03466804, 0.04181521,
    0.04876293, 0.05512206, 0.06052093, 0.06463443, 0.06720971, 0.06808644, 0.06720971, 0.06463443, 0.06052093, 0.05512206,
    0.04876293, 0.04181521, 0.03466804, 0.02769838, 0.02124304, 0.01557498, 0.01088579, 0.00727558, 0.00475108, 0.0032317,
    0.00256293]

/-- Decimator.h lines 23-44: `decimate` -/
def decimateSignal (factor : ℕ) (m : Mat) : Outcome Mat := do
  let y1 ← Pre.filter m ⟨m.rows, m.cols, fun _ _ => 0⟩ b1 [1]
  Pre.downsample y1 ⟨m.rows, m.cols / factor, fun _ _ => 0⟩ factor

/-- src/Compressor.cpp lines 24-27 for one instance: `v.transpose() * cm.transpose()`; Eigen asserts that the sizes fit. -/
def transform (cm : Mat) (v : List ℝ) : Outcome (List ℝ) :=
  if cm.cols = v.length then
    ok ((List.range cm.rows).map fun j => ((List.range cm.cols).map fun k => v.getD k 0 * cm.val j k).sum)
  else ub

/-- lines 270-291: the instance without the cache -/
def Data.computed (d : Data) (e t0 : ℕ) : Outcome (List ℝ) := do
  let original ← extractInstance d.recording e t0
  (if d.decimated then decimateSignal d.factor original else ok original) >>= fun m =>
    match d.comp with
    | some cm => transform cm (toVector m)
    | none => ok (toVector m)

/-- lines 22-25: `hasSpace` -/
def Data.hasSpace (d : Data) : Bool := decide ((d.cache.length + 1) * d.cacheD * 8 ≤ d.cacheSize)

/-- lines 262-296: `buildInstance` -/
def Data.buildInstance (d : Data) (e t0 : ℕ) : Outcome Data :=
  match d.cache.lookup (e, t0) with
  | some v => ok { d with temp := v }
  | none => do
    let v ← d.computed e t0
    ok { d with temp := v, cache := if d.hasSpace then ((e, t0), v) :: d.cache else d.cache }

/-- lines 247-253: `getInstance`; the result is `temp` of the new object. -/
def Data.getInstance (d : Data) (i : ℕ) : Outcome Data := do
  let o ← d.getOffsets i
  d.buildInstance o.1 o.2

/-- lines 316-321: `getTarget` -/
def Data.getTarget (d : Data) (i : ℕ) : Outcome ℝ :=
  if d.loaded ∧ 0 < d.recording.epochs ∧ 0 < (d.label 0).length ∧ i / (d.label 0).length < d.recording.epochs then
    Outcome.read (d.label (i / (d.label 0).length)) (i % (d.label 0).length)
  else ub

/-- lines 323-328: `getTargetChar` -/
def Data.getTargetChar (d : Data) (i : ℕ) : Outcome Char := do
  let o ← d.getOffsets i
  ok (d.recording.target o.1)

/-- lines 337-345 -/
def characters : List (List Char) :=
  [['A', 'B', 'C', 'D', 'E', 'F'], ['G', 'H', 'I', 'J', 'K', 'L'], ['M', 'N', 'O', 'P', 'Q', 'R'], ['S', 'T', 'U', 'V', 'W', 'X'],
    ['Y', 'Z', '1', '2', '3', '4'], ['5', '6', '7', '8', '9', '_']]

/-- The variables of the loop over the flashes of an epoch. -/
structure Scores where
  data : Data
  score : ℕ → ℝ
  repetitions : ℕ → ℕ

/-- lines 358-367: one flash; codes outside of 1, ..., 12 are accesses outside of the arrays. -/
def Scores.step (f : List ℝ → ℝ) (trials e : ℕ) (s : Scores) (t0 : ℕ) : Outcome Scores := do
  let d ← s.data.buildInstance e t0
  let k := trunc (d.recording.code t0 e) - 1
  if 0 ≤ k ∧ k < 12 then
    if s.repetitions k.toNat < trials then
      ok ⟨d, fun j => if j = k.toNat then s.score j + f d.temp else s.score j,
        fun j => if j = k.toNat then s.repetitions j + 1 else s.repetitions j⟩
    else ok ⟨d, s.score, s.repetitions⟩
  else ub

/-- lines 355-368 -/
def Scores.run (f : List ℝ → ℝ) (trials e : ℕ) : List ℕ → Scores → Outcome Scores
  | [], s => ok s
  | t0 :: ts, s => s.step f trials e t0 >>= Scores.run f trials e ts

/-- lines 369-387: the loops for `maxCol` (`lo = 0`) and `maxRow` (`lo = 6`); all scores exceed the initial value, which is the
smallest double. -/
def best (score : ℕ → ℝ) (lo : ℕ) : Option ℕ :=
  (List.range 6).foldl (fun m i => match m with
    | none => some i
    | some j => if score (lo + j) < score (lo + i) then some i else some j) none

/-- lines 350-393: one epoch; the result is the new object and whether the prediction is correct. -/
def Data.evaluateEpoch (d : Data) (f : List ℝ → ℝ) (trials e : ℕ) : Outcome (Data × Bool) := do
  let s ← Scores.run f trials e (d.start e) ⟨d, fun _ => 0, fun _ => 0⟩
  match best s.score 6, best s.score 0 with
  | some row, some col => do
    let line ← Outcome.read characters row
    let c ← Outcome.read line col
    ok (s.data, decide (d.recording.target e = c))
  | _, _ => ub

/-- lines 335-395: `evaluate`; the result is the new object and the number of correct predictions. -/
def Data.evaluate (d : Data) (f : List ℝ → ℝ) (trials : ℕ) : Outcome (Data × ℕ) :=
  if d.loaded then
    forLoop d.recording.epochs (fun e p => do
      let q ← p.1.evaluateEpoch f trials e
      ok (q.1, if q.2 then p.2 + 1 else p.2)) (d, 0)
  else ub

/-- A call of one of the member functions that change the object. -/
inductive Call where
  | load
  | decimate (factor : ℕ)
  | compress (cm : Mat)
  | reset
  | getInstance (i : ℕ)
  | evaluate (f : List ℝ → ℝ) (trials : ℕ)

/-- The object after a call. -/
def Data.call (d : Data) : Call → Outcome Data
  | .load => ok d.load
  | .decimate factor => d.decimate factor
  | .compress cm => ok (d.compress cm)
  | .reset => ok d.reset
  | .getInstance i => d.getInstance i
  | .evaluate f trials => do
    let p ← d.evaluate f trials
    ok p.1

/-- The object after a sequence of calls. -/
def Data.calls (d : Data) : List Call → Outcome Data
  | [] => ok d
  | c :: cs => d.call c >>= fun d' => d'.calls cs

end

end Verif.BCI
