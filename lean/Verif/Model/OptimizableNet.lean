import Verif.Model.Optimizable
import Verif.Model.Net
import Verif.Model.MBSGD

/-!
# A network and the functions it inherits from `Optimizable` (OpenANN/Net.h lines 347-358)

`Net` overrides all functions for single examples and all three versions of `errorGradient`, but neither
`error(startN, endN)` nor `gradient(startN, endN)`.
-/

namespace Verif.Opt

open NN

/-- src/Net.cpp lines 477-485, 517-561: what the inherited functions use of a network with weights `mem` and training set
`ds`.  `sc n` are the buffers before the gradient of example `n` is computed.  An example that does not exist is an access
outside of a matrix. -/
noncomputable def netObjective (net : Net) (mem : Mem) (sc : ℕ → Scratch) (ds : TrainSet) : Objective where
  dimension := net.P
  errorAll := .ok (net.error mem ds)
  gradientAll := .ok (net.errorGradientAll mem (sc 0) ds).2
  examplesOverride := some ds.samples
  errorOverride := some fun n => if n < ds.samples then .ok (net.errorAt mem ds n) else .ub
  gradientOverride := some fun n => if n < ds.samples then .ok (net.errorGradient mem (sc n) ds [n]).2 else .ub

/-- src/Net.cpp lines 492-500, 578-601: a network as the problem that `MBSGD` sees.  `MBSGD` writes all parameters with
`setParameters` before it asks for the gradient of a batch, except for the very first batch without Nesterov momentum, which
makes no difference if the weights agree with `currentParameters` (`Pretrain.initialized_consistent`; otherwise
`Pretrain.mbsgd_forgets`).  `mem` are the weights before, `sc k` the buffers at the `k`-th evaluation. -/
noncomputable def netProblem (net : Net) (mem : Mem) (sc : ℕ → Scratch) (ds : TrainSet) : Problem where
  dimension := net.P
  examples := ds.samples
  errorGradient k w batch :=
    ((net.errorGradient (net.setParameters mem ((List.range net.P).map w)) (sc k) ds batch).1,
      fun p => (net.errorGradient (net.setParameters mem ((List.range net.P).map w)) (sc k) ds batch).2.getD p 0)

end Verif.Opt
