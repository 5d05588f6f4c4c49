import Verif.Model.Viewers

/-!
# The window of the two spirals example (examples/twospirals/TwoSpiralsVisualization.cpp)

The window is changed by keys and, during training, by the training set, whose `finishIteration` sends predictions.  What a paint
does is a list of squares and points.  `train` runs in the thread of the window, and the signal `updatedData` is connected to
`repaint` in the same thread (line 18), so that a repaint happens inside of `emit`; the mutex never blocks.  OpenGL and Qt
themselves are left out.  `float` numbers are real numbers.
-/

namespace Verif.SpiralsViewer

noncomputable section

/-- The keys of lines 141-173; `other` is every other key. -/
inductive Key where
  | q | w | e | r | a | escape | other
  deriving DecidableEq

/-- A data set of the window: the samples `(x, y, target)`. -/
abbrev Samples := List (ℝ × ℝ × ℝ)

/-- The members of `TwoSpiralsVisualization` (header lines 34-43). -/
structure Window where
  classes : ℕ → ℕ → ℝ
  training : Samples
  test : Samples
  showTraining : Bool
  showTest : Bool
  showPrediction : Bool
  showSmooth : Bool

/-- lines 6-17: the constructor -/
def Window.new (training test : Samples) : Window := ⟨fun _ _ => 0, training, test, true, true, true, true⟩

/-- What is painted. -/
inductive Item where
  /-- lines 110-119: a square with the given brightness, from `(minX, minY)` to `(maxX, maxY)` -/
  | quad (minX maxX minY maxY brightness : ℝ)
  /-- lines 130-134: a point, red or yellow -/
  | point (x y : ℝ) (red : Bool)

/-- lines 104-107 -/
def Window.brightness (w : Window) (x y : ℕ) : ℝ :=
  if w.showSmooth then w.classes x y / 2 + 0.5 else if w.classes x y < 0 then 0 else 1

/-- lines 98-119: the body of the loops of `paintPrediction` -/
def Window.quadAt (w : Window) (x y : ℕ) : Item :=
  .quad ((x : ℝ) / 100 - 0.005) ((x : ℝ) / 100 - 0.005 + 0.01) ((y : ℝ) / 100 - 0.005) ((y : ℝ) / 100 - 0.005 + 0.01)
    (w.brightness x y)

/-- lines 92-122 -/
def Window.paintPrediction (w : Window) : List Item :=
  (List.range 100).flatMap fun x => (List.range 100).map fun y => w.quadAt x y

/-- lines 124-137 -/
def paintDataSet (s : Samples) : List Item := s.map fun p => .point p.1 p.2.1 (decide (0 < p.2.2))

/-- lines 74-90: `paintGL` -/
def Window.paint (w : Window) : List Item :=
  (if w.showPrediction then w.paintPrediction else []) ++ (if w.showTraining then paintDataSet w.training else []) ++
    (if w.showTest then paintDataSet w.test else [])

/-- lines 41-48: `predictClass`; the pictures that were painted so far are the second component -/
def predictClass (s : Window × List (List Item)) (x y : ℕ) (c : ℝ) : Window × List (List Item) :=
  let w := { s.1 with classes := fun i j => if i = x ∧ j = y then c else s.1.classes i j }
  (w, if x = 99 ∧ y = 99 then s.2 ++ [w.paint] else s.2)

/-- lines 186-201: `finishIteration` of the training set, for the learner `f` -/
def finishIteration (f : ℝ → ℝ → ℝ) (s : Window × List (List Item)) : Window × List (List Item) :=
  (List.range 100).foldl (fun s x => (List.range 100).foldl (fun s y =>
    predictClass s x y (f ((x : ℝ) / 100) ((y : ℝ) / 100))) s) s

/-- lines 139-174: `keyPressEvent`.  `learners` are the networks at the ends of the iterations of the training that key A starts
(src/Net.cpp lines 452-461).  `update()` asks for a paint, which happens before the next key. -/
def keyPress (s : Window × List (List Item)) (learners : List (ℝ → ℝ → ℝ)) : Key → Window × List (List Item)
  | .q => let w := { s.1 with showTraining := !s.1.showTraining }; (w, s.2 ++ [w.paint])
  | .w => let w := { s.1 with showTest := !s.1.showTest }; (w, s.2 ++ [w.paint])
  | .e => let w := { s.1 with showPrediction := !s.1.showPrediction }; (w, s.2 ++ [w.paint])
  | .r => let w := { s.1 with showSmooth := !s.1.showSmooth }; (w, s.2 ++ [w.paint])
  | .a => learners.foldl (fun s f => finishIteration f s) s
  | .escape => s
  | .other => s

/-- A session: the keys that are pressed, each with the networks of its training (if there is one). -/
def session (training test : Samples) (keys : List (Key × List (ℝ → ℝ → ℝ))) : Window × List (List Item) :=
  keys.foldl (fun s k => keyPress s k.2 k.1) (Window.new training test, [(Window.new training test).paint])

end

end Verif.SpiralsViewer
