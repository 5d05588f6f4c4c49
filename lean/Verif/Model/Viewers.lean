import Verif.Model.Boltzmann
import Verif.Model.BenchStats
import Verif.Model.Evaluation

/-!
# The programs that display images, filters and layers

benchmarks/mnist/visualize.cpp, viewdata.cpp, autoencoder.cpp and rbm.cpp: each has a window whose contents are painted by
`paintGL` and whose state is changed by `keyPressEvent`.  What a paint does is a list of squares with a brightness.  OpenGL and Qt
themselves (perspective, clamping of colours, fonts) are left out.  `float` numbers are real numbers; `int` does not overflow.
-/

namespace Verif.Viewers

open Outcome

noncomputable section

/-- The keys the programs react to; `other` is every other key, which they pass on to Qt. -/
inductive Key where
  | up | down | left | right | plus | minus | s | other
  deriving DecidableEq

/-- `glColor3f(c, c, c)` and the four calls of `glVertex2f` for `(x, y)`, `(x + size, y)`, `(x + size, y + size)`,
`(x, y + size)`, e.g. autoencoder.cpp lines 111-115.  The brightness `none` is "not a number". -/
structure Square where
  x : ℝ
  y : ℝ
  size : ℝ
  c : Option ℝ

/-- `(v - mi) / (ma - mi)`, e.g. visualize.cpp line 125: not a number if it is 0/0; the case x/0 with x ≠ 0 is infinite and is
not a number here as well -/
def brightness (mi ma v : ℝ) : Option ℝ := if ma - mi = 0 then none else some ((v - mi) / (ma - mi))

/-- `for(int i = 0; i < n; i++)` where each iteration paints something. -/
def paintLoop {α : Type} (n : ℕ) (f : ℕ → Outcome (List α)) : Outcome (List α) :=
  forLoop n (fun i l => f i >>= fun p => ok (l ++ p)) []

/-- `dataSet.getInstance(i)` and `dataSet.getTarget(i)`, src/DirectStorageDataSet.cpp lines 20-33: the rows of a matrix -/
def getRow {X : Type} (rows : List X) (i : ℤ) : Outcome X := do
  check (0 ≤ i ∧ i ≤ (rows.length : ℤ) - 1)
  readZ rows i

/-! ## benchmarks/mnist/visualize.cpp -/

/-- What `MNISTVisualization` knows: the instances and targets of the data set, the output of the network for an instance (`net(x)`),
the outputs of the layers after that (`getLayer(l).getOutput()`) and their dimensions (`getOutputInfo(l).dimensions`). -/
structure NetWindow where
  ins : List (List ℝ)
  targets : List (List ℝ)
  output : List ℝ → List ℝ
  layers : List ℝ → List (List ℝ)
  dims : List (List ℕ)

/-- lines 93-108: `featureMaps`, `cols` and `rows` -/
def layout : List ℕ → Outcome (ℕ × ℕ × ℕ)
  | [f, c, r] => ok (f, c, r)
  | [c, r] => ok (1, c, r)
  | c :: _ => ok (1, c, 1)
  | [] => ub

/-- lines 114-116: `scale` -/
def layerScale (f c r : ℕ) : ℝ :=
  if f > 1 ∨ r = 1 then 120 / ((f : ℝ) * c + f - 1) else 1

/-- lines 87, 117-118: `translateX` before the first feature map -/
def layerStart (f c r : ℕ) : ℝ := if f > 1 ∨ r = 1 then 0 else 60 - (c : ℝ) / 2

/-- lines 119-135: the squares of a layer; `translateX` is the second component of the state of the outer loop. -/
def paintMaps (out : List ℝ) (f c r : ℕ) (scale tx ty : ℝ) : Outcome (List Square × ℝ) :=
  let mi := BenchStats.minCoeff out
  let ma := BenchStats.maxCoeff out
  forLoop f (fun fm s => do
    let p ← paintLoop r fun row => paintLoop c fun col => do
      let v ← read out (fm * r * c + row * c + col)
      ok [⟨s.2 + col * scale, ty + ((r : ℝ) - row) * scale, scale, brightness mi ma v⟩]
    ok (s.1 ++ p, s.2 + ((c : ℝ) + 1) * scale)) ([], tx)

/-- lines 85-138: the layers one above the other; the state is `translateY` and what has been painted.  The minimum and maximum of
an empty matrix violate an assertion. -/
def paintLayers (dims : List (List ℕ)) (outs : List (List ℝ)) : Outcome (List (List Square) × ℝ) :=
  forLoop dims.length (fun l s => do
    let out ← read outs l
    if out = [] then ub else
    let d ← read dims l
    let (f, c, r) ← layout d
    let p ← paintMaps out f c r (layerScale f c r) (layerStart f c r) s.2
    ok (s.1 ++ [p.1], s.2 + ((r : ℝ) + 1) * layerScale f c r)) ([], 0)

/-- What `paintGL` shows: the squares of each layer and the numbers in the text (lines 140-143). -/
structure NetFrame where
  squares : List (List Square)
  number : ℤ
  label : ℕ
  prediction : ℕ

/-- lines 60-146; `i` is `instance` -/
def NetWindow.paint (w : NetWindow) (i : ℤ) : Outcome NetFrame := do
  let x ← getRow w.ins i
  let yt ← getRow w.targets i
  let prediction ← Eval.maxCoeff (w.output x)
  let label ← Eval.maxCoeff yt
  let p ← paintLayers w.dims (w.layers x)
  ok ⟨p.1, i + 1, label, prediction⟩

/-- lines 148-168 (and autoencoder.cpp lines 160-171, rbm.cpp lines 165-176): `instance`, `S` is `dataSet.samples()` -/
def stepInstance (S : ℤ) (i : ℤ) : Key → ℤ
  | .up => if i + 1 ≥ S then S - 1 else i + 1
  | .down => if i - 1 < 0 then 0 else i - 1
  | _ => i

/-- The window after a sequence of keys; `instance` is 0 at first (line 27). -/
def netRun (S : ℤ) (keys : List Key) : ℤ := keys.foldl (stepInstance S) 0

/-! ## benchmarks/mnist/viewdata.cpp -/

/-- `instance` and `toggleDistortions` of `DataVisualization` -/
structure DataState where
  inst : ℤ
  distortions : Bool

/-- line 28 -/
def DataState.start : DataState := ⟨0, false⟩

/-- lines 114-138; `xI`, `yI` are `xImages` and `yImages` (5 in line 27) -/
def DataState.press (S : ℤ) (xI yI : ℕ) (d : DataState) : Key → DataState
  | .up =>
    let i := d.inst + (xI : ℤ) * yI
    { d with inst := if i ≥ S - (xI : ℤ) * yI then S - (xI : ℤ) * yI else i }
  | .down =>
    let i := d.inst - (xI : ℤ) * yI
    { d with inst := if i < 0 then 0 else i }
  | .left => { d with distortions := !d.distortions }
  | _ => d

/-- lines 85-102: one image -/
def paintImage (rows cols : ℕ) (xIdx yIdx : ℕ) (image : List ℝ) : Outcome (List Square) :=
  let tx : ℝ := xIdx * ((rows : ℝ) + 1)
  let ty : ℝ := yIdx * ((cols : ℝ) + 1)
  paintLoop rows fun row => paintLoop cols fun col => do
    let c ← read image (row * cols + col)
    ok [⟨tx + col, ty + ((rows : ℝ) - row), 1, some c⟩]

/-- lines 62-112: the images and the two numbers in the text.  `distort` is the effect of `distorter.applyDistortion` on the image in
column `xIdx` and row `yIdx`; it is random, so it depends on the place. -/
def DataState.paint (ins : List (List ℝ)) (rows cols xI yI : ℕ) (distort : ℕ → ℕ → List ℝ → List ℝ) (d : DataState) :
    Outcome (List (List Square) × ℤ × ℤ) := do
  let p ← paintLoop yI fun yIdx => paintLoop xI fun xIdx => do
    let image ← getRow ins (d.inst + (xI : ℤ) * yIdx + xIdx)
    let image := if d.distortions then distort xIdx yIdx image else image
    let q ← paintImage rows cols xIdx yIdx image
    ok [q]
  ok (p, d.inst + 1, d.inst + (xI : ℤ) * yI)

/-- The window after a sequence of keys. -/
def dataRun (S : ℤ) (xI yI : ℕ) (keys : List Key) : DataState := keys.foldl (DataState.press S xI yI) .start

/-! ## benchmarks/mnist/autoencoder.cpp and rbm.cpp -/

/-- lines 109-110 of autoencoder.cpp, lines 112-113 of rbm.cpp: the place of a pixel of the picture in line `row` and column `col` -/
def pixelAt (row col yIdx xIdx : ℕ) (c : Option ℝ) : Square :=
  ⟨(xIdx : ℝ) + col * 29 - 30, (28 - (yIdx : ℝ)) - row * 29 + 90, 1, c⟩

/-- lines 100-118 of autoencoder.cpp: a picture of 28 x 28 pixels; `pixel idx` is the brightness or an error -/
def paintPicture (row col : ℕ) (pixel : ℕ → Outcome (Option ℝ)) : Outcome (List Square) :=
  paintLoop 28 fun yIdx => paintLoop 28 fun xIdx => do
    let c ← pixel (yIdx * 28 + xIdx)
    ok [pixelAt row col yIdx xIdx c]

/-- lines 96-120 of autoencoder.cpp: all pictures; `filter` counts them -/
def paintPictures (R C : ℕ) (pixel : ℕ → ℕ → Outcome (Option ℝ)) : Outcome (List (List Square)) := do
  let s ← forLoop R (fun row s => forLoop C (fun col s => do
    let q ← paintPicture row col (pixel s.1)
    ok (s.1 + 1, s.2 ++ [q])) s) ((0 : ℕ), ([] : List (List Square)))
  ok s.2

/-- `m(i, j)` of a matrix given by its rows -/
def entry (m : List (List ℝ)) (i j : ℤ) : Outcome ℝ := do
  let row ← readZ m i
  readZ row j

/-- `instance`, `offset`, `fantasy` and `showFilters` (there is no `fantasy` in autoencoder.cpp) -/
structure FilterState where
  inst : ℤ
  offset : ℤ
  fantasy : ℤ
  showFilters : Bool

/-- autoencoder.cpp lines 40-41, rbm.cpp lines 42-43 -/
def FilterState.start : FilterState := ⟨0, 0, 0, false⟩

/-- autoencoder.cpp lines 172-186, rbm.cpp lines 177-191: `offset`; `limit` is `H/2` and `rbm.hiddenUnits()` respectively -/
def moveOffset (pictures : ℕ) (limit : ℤ) (o : ℤ) : Key → ℤ
  | .left => if o - 1 < 0 then 0 else o - 1
  | .right =>
    let o := o + 1
    let tooHi := o + pictures - limit
    if tooHi > 0 then o - tooHi else o
  | _ => o

/-- autoencoder.cpp lines 156-195 -/
def FilterState.pressSAE (S : ℤ) (R C H : ℕ) (v : FilterState) (k : Key) : FilterState where
  inst := stepInstance S v.inst k
  offset := moveOffset (R * C) ((H : ℤ).tdiv 2) v.offset k
  fantasy := v.fantasy
  showFilters := if k = .s then !v.showFilters else v.showFilters

/-- rbm.cpp lines 161-210 -/
def FilterState.pressRBM (S : ℤ) (R C H : ℕ) (v : FilterState) (k : Key) : FilterState where
  inst := stepInstance S v.inst k
  offset := moveOffset (R * C) H v.offset k
  fantasy := match k with
    | .minus => if v.fantasy - 1 < 0 then 0 else v.fantasy - 1
    | .plus => v.fantasy + 1
    | _ => v.fantasy
  showFilters := if k = .s then !v.showFilters else v.showFilters

/-- The weights of the auto-encoder: `W1` has a row and `W2` a column for each hidden unit. -/
structure Weights where
  W1 : List (List ℝ)
  W2 : List (List ℝ)

/-- autoencoder.cpp lines 89-121: the weights -/
def FilterState.paintFilters (w : Weights) (R C : ℕ) (v : FilterState) : Outcome (List (List Square)) :=
  if w.W1.flatten = [] then ub else
  let mi := BenchStats.minCoeff w.W1.flatten
  let ma := BenchStats.maxCoeff w.W1.flatten
  paintPictures R C fun filter idx => do
    let h := ((filter : ℤ) + v.offset).tdiv 2
    let a ← if ((filter : ℤ) + v.offset).tmod 2 = 0 then entry w.W1 h idx else entry w.W2 idx h
    ok (brightness mi ma a)

/-- autoencoder.cpp lines 124-147: reconstructed images.  The image is reconstructed before the loop over its pixels. -/
def FilterState.paintImages (ins : List (List ℝ)) (reconstruct : List ℝ → List ℝ) (R C : ℕ) (v : FilterState) :
    Outcome (List (List Square)) :=
  paintLoop R fun row => paintLoop C fun col => do
    let x ← getRow ins (v.offset + (row : ℤ) * C + col)
    let q ← paintPicture row col fun idx => do
      let c ← read (reconstruct x) idx
      ok (some c)
    ok [q]

/-- autoencoder.cpp lines 74-154 -/
def FilterState.paintSAE (w : Weights) (ins : List (List ℝ)) (reconstruct : List ℝ → List ℝ) (R C : ℕ) (v : FilterState) :
    Outcome (List (List Square)) :=
  if v.showFilters then v.paintFilters w R C else v.paintImages ins reconstruct R C

/-- rbm.cpp lines 91-124: the weights; `W` is `rbm.getWeights()` -/
def FilterState.paintUnits (W : List (List ℝ)) (R C : ℕ) (v : FilterState) : Outcome (List (List Square)) :=
  if W.flatten = [] then ub else
  let mi := BenchStats.minCoeff W.flatten
  let ma := BenchStats.maxCoeff W.flatten
  paintPictures R C fun filter idx => do
    let h := (filter : ℤ) + v.offset
    if h ≥ W.length then throws else
    if idx ≥ (W.headD []).length then throws else
    let a ← entry W h idx
    ok (brightness mi ma a)

/-- rbm.cpp lines 128-152: `pv` of the machine in the order of the pictures; after each picture there is a step of the chain. -/
def dream (m : Boltz.Machine) : ℕ → Boltz.Chain → Draw (List (ℕ → ℝ))
  | 0, _ => .ret []
  | n + 1, ch => (m.sampleHgivenV ch).bind fun c1 => (m.sampleVgivenH c1).bind fun c2 =>
      (dream m n c2).bind fun l => .ret (ch.pv 0 :: l)

/-- src/RBM.cpp lines 226-230: the steps of `reconstructProb` -/
def reconstructSteps (m : Boltz.Machine) : ℕ → Boltz.Chain → Draw Boltz.Chain
  | 0, ch => .ret ch
  | n + 1, ch => (m.sampleHgivenV ch).bind fun c1 => (m.sampleVgivenH c1).bind fun c2 => reconstructSteps m n c2

/-- rbm.cpp lines 127-152: the pictures while the filters are not shown, for the training instance `x` -/
def FilterState.dreams (m : Boltz.Machine) (ch : Boltz.Chain) (x : ℕ → ℝ) (R C : ℕ) (v : FilterState) :
    Draw (List (ℕ → ℝ)) :=
  (reconstructSteps m v.offset.toNat { ch with rows := 1, v := fun _ => x, pvRows := 1, pv := fun _ => x }).bind
    (dream m (R * C))

/-- rbm.cpp lines 76-159: the squares, where the pictures of the chain have been drawn by the `Draw` program. -/
def FilterState.paintRBM (m : Boltz.Machine) (W : List (List ℝ)) (ch : Boltz.Chain) (ins : List (ℕ → ℝ)) (R C : ℕ)
    (v : FilterState) : Outcome (Draw (Outcome (List (List Square)))) :=
  if v.showFilters then ok (.ret (v.paintUnits W R C)) else do
    let x ← getRow ins v.inst
    ok ((v.dreams m ch x R C).bind fun l => .ret (paintPictures R C fun k idx =>
      if idx < m.D then ok (some ((l.getD k fun _ => 0) idx)) else ub))

end

end Verif.Viewers
