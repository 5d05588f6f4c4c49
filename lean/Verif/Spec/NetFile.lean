import Verif.Model.NetFile

/-!
# What a saved network has in common with the loaded one
-/

namespace Verif.NetFile

open Verif.Text

variable {K : Type} [IntCast K] [Zero K]

/-- The command with each floating point argument replaced by the number that its text denotes. -/
def Cmd.round (F : NumFormat K) : Cmd K → Cmd K
  | .input a b c => .input a b c
  | .alphaBetaFilter d s => .alphaBetaFilter (F.round d) (F.round s)
  | .fullyConnected u a s b => .fullyConnected u a (F.round s) b
  | .rbm h c s b => .rbm h c (F.round s) b
  | .sae h be r a => .sae h (F.round be) (F.round r) a
  | .compressed u p a c s b => .compressed u p a c (F.round s) b
  | .extreme u a s b => .extreme u a (F.round s) b
  | .intrinsicPlasticity t s => .intrinsicPlasticity (F.round t) (F.round s)
  | .convolutional f r c a s b => .convolutional f r c a (F.round s) b
  | .subsampling r c a s b => .subsampling r c a (F.round s) b
  | .maxPooling r c => .maxPooling r c
  | .localResponseNormalization k n a b => .localResponseNormalization (F.round k) n (F.round a) (F.round b)
  | .dropout p => .dropout (F.round p)
  | .output u a s b => .output u a (F.round s) b
  | .compressedOutput u p a c s b => .compressedOutput u p a c (F.round s) b
  | .errorFunction e => .errorFunction e
  | .regularization a b c => .regularization (F.round a) (F.round b) (F.round c)

/-- Regularisation settings as denoted by their text. -/
def Reg.round (F : NumFormat K) (r : Reg K) : Reg K := ⟨F.round r.l1, F.round r.l2, F.round r.maxNorm⟩

/-- The names of compression matrices must be words (the documented ones are). -/
def Cmd.WordArgs : Cmd K → Prop
  | .compressed _ _ _ c _ _ => c ≠ [] ∧ ∀ x ∈ c, isSpace x = false
  | .compressedOutput _ _ _ c _ _ => c ≠ [] ∧ ∀ x ∈ c, isSpace x = false
  | _ => True

/-- `b` is `a` as far as the file format can tell: same layers in the same order with the same hyperparameters (as denoted
by their text) and the same regularisation settings, same shapes, same number of parameters, same error function. -/
structure SameStructure (F : NumFormat K) (a b : Net K) : Prop where
  layers : b.layers = a.layers.map (fun l => (l.1.round F, l.2.round F))
  infos : b.infos = a.infos
  nParams : b.nParams = a.nParams
  P : b.P = a.P
  reg : b.reg = a.reg.round F
  errFn : b.errFn = a.errFn

/-- The layers that a sequence of calls asks for, each with the regularisation settings in force when it is added. -/
def layersOf : Reg K → List (Cmd K) → List (Cmd K × Reg K)
  | _, [] => []
  | _, .regularization l1 l2 m :: cs => layersOf ⟨l1, l2, m⟩ cs
  | r, .errorFunction _ :: cs => layersOf r cs
  | r, c :: cs => (c, r) :: layersOf r cs

/-- The error function that a sequence of calls selects last. -/
def errorFunctionOf : ℤ → List (Cmd K) → ℤ
  | e, [] => e
  | _, .errorFunction e :: cs => errorFunctionOf e cs
  | e, _ :: cs => errorFunctionOf e cs

end Verif.NetFile
