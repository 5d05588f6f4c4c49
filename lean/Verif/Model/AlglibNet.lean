import Verif.Model.Alglib
import Verif.Model.Net

/-!
# A network as the object of an optimiser (OpenANN/Net.h, src/Net.cpp)
-/

namespace Verif.Alglib

open NN

/-- src/Net.cpp lines 452-602: a network with a training set `ds` as `Optimizable`.  The buffers of backpropagation
(`Scratch`) are left with any contents by each call (`after`).  Dropout is not active.  `finishedIteration` (lines 452-461) lets the
data sets make predictions, which change buffers only. -/
noncomputable def netObject (net : Net) (ds : TrainSet) (after : NetState → Scratch → Scratch) : Object (NetState × Scratch) where
  dimension _ := net.P
  examples _ := ds.samples
  current t := Net.currentParameters t.1
  setParameters t θ := do
    let s ← net.set t.1 θ
    pure (s, t.2)
  error t := .ok (net.error t.1.mem ds, (t.1, after t.1 t.2))
  errorGradient t := .ok (net.errorGradientAll t.1.mem t.2 ds, (t.1, after t.1 t.2))
  errorAt t i := .ok (net.errorAt t.1.mem ds i, (t.1, after t.1 t.2))
  errorGradientAt t i := .ok (net.errorGradient t.1.mem t.2 ds [i], (t.1, after t.1 t.2))
  finishedIteration t := .ok (t.1, after t.1 t.2)

end Verif.Alglib
