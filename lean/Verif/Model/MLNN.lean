import Verif.Model.Arch
import Verif.Model.Loop

/-!
# `makeMLNN` (src/Convenience.cpp lines 45-61)

The network is empty before the call.  A negative number of inputs or units gives Eigen a negative size.
-/

namespace Verif.NN

noncomputable section

/-- src/Convenience.cpp lines 52-56: `va_arg` reads the next argument; there is no argument behind the last one.  Line 55:
`fullyConnectedLayer` with the regularisation of the network and the default `bias = true` (OpenANN/Net.h lines 89-90, 207-208). -/
def hiddenLayers (g : Act) (reg : Reg) (args : List ℤ) (H : ℤ) : Outcome (List Kind) :=
  forLoop H.toNat (fun i ks => do
    let j ← Outcome.read args i
    if j < 0 then .ub else pure (ks ++ [.fullyConnected j.toNat true g reg])) []

/-- src/Convenience.cpp lines 45-61. -/
def makeMLNN (reg : Reg) (ce : Bool) (g h : Act) (D F H : ℤ) (args : List ℤ) : Outcome Net :=
  if D < 0 then .ub else do
    let ks ← hiddenLayers g reg args H
    if F < 0 then .ub else pure (buildNet D.toNat (ks ++ [.fullyConnected F.toNat true h reg]) ce)

end

end Verif.NN
