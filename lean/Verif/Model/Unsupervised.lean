import Verif.Model.Packing
import Verif.Model.Layer

/-!
# Unsupervised models

src/IntrinsicPlasticity.cpp, src/SparseAutoEncoder.cpp, src/RBM.cpp: parameters, error and gradient.  Matrices are stored as Eigen
stores them, one column after the other.
-/

namespace Verif.Unsup

open Outcome Verif.Pack Verif.NN Finset

noncomputable section

/-! ## Intrinsic plasticity -/

/-- members of `IntrinsicPlasticity`, OpenANN/IntrinsicPlasticity.h -/
structure IP where
  nodes : ℕ
  mu : ℝ
  s : List ℝ
  b : List ℝ
  parameters : List ℝ

/-- `dimension()`, src/IntrinsicPlasticity.cpp:22-25 -/
def IP.dimension (m : IP) : ℕ := 2 * m.nodes

/-- body of the loops of `setParameters`: `dst(k) = src(i)` -/
def assign (src : List ℝ) (i : ℕ) (dst : List ℝ) (k : ℕ) : Outcome (List ℝ) := do
  let x ← Outcome.read src i
  Outcome.write dst k x

/-- `setParameters`, src/IntrinsicPlasticity.cpp:70-77 -/
def IP.setParameters (m : IP) (p : List ℝ) : Outcome IP := do
  let s ← forLoop m.nodes (fun i s => assign p i s i) m.s
  let b ← forLoop m.nodes (fun j b => assign p (m.nodes + j) b j) m.b
  ok { m with s := s, b := b }

/-- `currentParameters`, src/IntrinsicPlasticity.cpp:60-68 -/
def IP.currentParameters (m : IP) : Outcome (List ℝ) := do
  let q ← forLoop m.nodes (fun i q => assign m.s i q i) m.parameters
  forLoop m.nodes (fun j q => assign m.b j q (m.nodes + j)) q

/-- `operator()(VectorXd&)`, src/IntrinsicPlasticity.cpp:110-123 -/
def IP.output (m : IP) (a : List ℝ) : Outcome (List ℝ) :=
  if a.length = m.s.length ∧ a.length = m.b.length then
    ok (List.ofFn fun i : Fin a.length => Act.logistic.apply (a.getD i 0 * m.s.getD i 0 + m.b.getD i 0))
  else ub

/-- `error(n)` for the instance `a`, src/IntrinsicPlasticity.cpp:48-58 -/
def IP.error (m : IP) (a : List ℝ) : Outcome ℝ := do
  let y ← m.output a
  forLoop m.nodes (fun i e => do
    let yi ← Outcome.read y i
    ok (e + (yi - m.mu) * (yi - m.mu))) 0

/-- an entry for a slope, src/IntrinsicPlasticity.cpp:104; not finite if the slope is zero -/
def IP.slopeEntry (m : IP) (a s y : ℝ) : Option ℝ :=
  if s = 0 then none else some (-(1 / s + a - (2 + 1 / m.mu) * a * y + a * y * y / m.mu))

/-- an entry for a bias, src/IntrinsicPlasticity.cpp:106 -/
def IP.biasEntry (m : IP) (y : ℝ) : Option ℝ := some (-(1 - (2 + 1 / m.mu) * y + y * y / m.mu))

/-- `gradient(n)` for the instance `a`, src/IntrinsicPlasticity.cpp:92-108 -/
def IP.gradient (m : IP) (a : List ℝ) : Outcome (List (Option ℝ)) := do
  let y ← m.output a
  let s0 ← Outcome.read m.s 0
  check (s0 ≠ 0)
  let g ← forLoop m.nodes (fun i g => do
    let ai ← Outcome.read a i
    let si ← Outcome.read m.s i
    let yi ← Outcome.read y i
    ok (g ++ [m.slopeEntry ai si yi])) []
  forLoop m.nodes (fun j g => do
    let yj ← Outcome.read y j
    ok (g ++ [m.biasEntry yj])) g

/-! ## Sparse auto-encoder -/

/-- members of `SparseAutoEncoder`, OpenANN/SparseAutoEncoder.h; the matrices are given by their storage -/
structure SAE where
  D : ℕ
  H : ℕ
  beta : ℝ
  rho : ℝ
  lambda : ℝ
  act : Act
  W1 : List ℝ
  W2 : List ℝ
  b1 : List ℝ
  b2 : List ℝ
  parameters : List ℝ

/-- `dimension()`, src/SparseAutoEncoder.cpp:47-50 -/
def SAE.dimension (m : SAE) : ℕ := 2 * m.D * m.H + m.D + m.H

/-- sizes of the members that are packed, in this order; src/SparseAutoEncoder.cpp:43-44, 55-56, 118-119 -/
def SAE.sizes (m : SAE) : List ℕ := [m.H * m.D, m.D * m.H, m.H, m.D]

/-- `setParameters`, src/SparseAutoEncoder.cpp:52-57 -/
def SAE.setParameters (m : SAE) (p : List ℝ) : Outcome SAE := do
  let parts ← unpack p m.sizes
  ok { m with parameters := p, W1 := parts.getD 0 [], W2 := parts.getD 1 [], b1 := parts.getD 2 [], b2 := parts.getD 3 [] }

/-- `currentParameters`, src/SparseAutoEncoder.cpp:59-62 -/
def SAE.currentParameters (m : SAE) : List ℝ := m.parameters

/-- `W1` as a matrix with `H` rows -/
def SAE.w1 (m : SAE) : Batch := (ofData m.H m.D m.W1).val

/-- `W2` as a matrix with `D` rows -/
def SAE.w2 (m : SAE) : Batch := (ofData m.D m.H m.W2).val

/-- `Z1`, src/SparseAutoEncoder.cpp:26-33 -/
def SAE.z1 (m : SAE) (X : Batch) : Batch := m.act.map (dense m.D m.w1 (fun j => m.b1.getD j 0) X)

/-- `Z2`, src/SparseAutoEncoder.cpp:67-71 -/
def SAE.z2 (m : SAE) (X : Batch) : Batch := m.act.map (dense m.H m.w2 (fun i => m.b2.getD i 0) (m.z1 X))

/-- `meanActivation`, src/SparseAutoEncoder.cpp:73 -/
def SAE.mean (m : SAE) (N : ℕ) (X : Batch) (j : ℕ) : ℝ := (∑ n ∈ range N, m.z1 X n j) / N

/-- `error()`, src/SparseAutoEncoder.cpp:64-83, for a training set with `N` instances -/
def SAE.error (m : SAE) (N : ℕ) (X : Batch) : ℝ :=
  (∑ n ∈ range N, ∑ i ∈ range m.D, (m.z2 X n i - X n i) ^ 2) / (2 * N)
  + m.lambda / 2 * (∑ j ∈ range m.H, ∑ i ∈ range m.D, m.w1 j i ^ 2 + ∑ i ∈ range m.D, ∑ j ∈ range m.H, m.w2 i j ^ 2)
  + m.beta * ∑ j ∈ range m.H, (m.rho * Real.log (m.rho * (m.mean N X j)⁻¹) +
      (1 - m.rho) * Real.log ((1 - m.rho) * (1 - m.mean N X j)⁻¹))

/-- `deltas2`, src/SparseAutoEncoder.cpp:103-105 -/
def SAE.deltas2 (m : SAE) (X : Batch) : Batch := deltas m.act (m.z2 X) fun n i => m.z2 X n i - X n i

/-- `dEdZ1`, src/SparseAutoEncoder.cpp:108-111 -/
def SAE.dEdZ1 (m : SAE) (N : ℕ) (X : Batch) : Batch := fun n j =>
  ∑ i ∈ range m.D, m.deltas2 X n i * m.w2 i j +
    m.beta * (-m.rho * (m.mean N X j)⁻¹ + (1 - m.rho) * (1 - m.mean N X j)⁻¹)

/-- `deltas1`, src/SparseAutoEncoder.cpp:112-114 -/
def SAE.deltas1 (m : SAE) (N : ℕ) (X : Batch) : Batch := deltas m.act (m.z1 X) (m.dEdZ1 N X)

/-- `W1d`, src/SparseAutoEncoder.cpp:115 -/
def SAE.w1d (m : SAE) (N : ℕ) (X : Batch) : Mat :=
  ⟨m.H, m.D, fun j i => (∑ n ∈ range N, m.deltas1 N X n j * X n i) / N + m.lambda * m.w1 j i⟩

/-- `W2d`, src/SparseAutoEncoder.cpp:106 -/
def SAE.w2d (m : SAE) (N : ℕ) (X : Batch) : Mat :=
  ⟨m.D, m.H, fun i j => (∑ n ∈ range N, m.deltas2 X n i * m.z1 X n j) / N + m.lambda * m.w2 i j⟩

/-- `b1d`, src/SparseAutoEncoder.cpp:116 -/
def SAE.b1d (m : SAE) (N : ℕ) (X : Batch) : Mat := ⟨m.H, 1, fun j _ => (∑ n ∈ range N, m.deltas1 N X n j) / N⟩

/-- `b2d`, src/SparseAutoEncoder.cpp:107 -/
def SAE.b2d (m : SAE) (N : ℕ) (X : Batch) : Mat := ⟨m.D, 1, fun i _ => (∑ n ∈ range N, m.deltas2 X n i) / N⟩

/-- `errorGradient`, src/SparseAutoEncoder.cpp:97-120; `grad` is the vector that the caller passes -/
def SAE.errorGradient (m : SAE) (N : ℕ) (X : Batch) (grad : List ℝ) : Outcome (ℝ × List ℝ) := do
  let g ← pack grad ([m.w1d N X, m.w2d N X, m.b1d N X, m.b2d N X].map data)
  ok (m.error N X, g)

/-- `gradient()`, src/SparseAutoEncoder.cpp:90-95: the member `grad` has `dimension()` entries -/
def SAE.gradient (m : SAE) (N : ℕ) (X : Batch) (grad : List ℝ) : Outcome (List ℝ) := do
  let r ← m.errorGradient N X grad
  ok r.2

/-! ## Restricted Boltzmann machine -/

/-- members of `RBM`, OpenANN/RBM.h -/
structure RBM where
  D : ℕ
  H : ℕ
  l1 : ℝ
  l2 : ℝ
  W : List ℝ
  bv : List ℝ
  bh : List ℝ
  params : List ℝ

/-- `K`, src/RBM.cpp:17, 63-66 -/
def RBM.dimension (m : RBM) : ℕ := m.D * m.H + m.D + m.H

/-- `setParameters`, src/RBM.cpp:68-73 -/
def RBM.setParameters (m : RBM) (p : List ℝ) : Outcome RBM := do
  let parts ← unpack p [m.H * m.D, m.D, m.H]
  ok { m with params := p, W := parts.getD 0 [], bv := parts.getD 1 [], bh := parts.getD 2 [] }

/-- `currentParameters`, src/RBM.cpp:75-78 -/
def RBM.currentParameters (m : RBM) : List ℝ := m.params

/-- `W` as a matrix with `H` rows -/
def RBM.w (m : RBM) : Mat := ofData m.H m.D m.W

/-- the positive and negative statistics of contrastive divergence, src/RBM.cpp:257-277 -/
structure Statistics where
  posW : ℕ → ℕ → ℝ
  negW : ℕ → ℕ → ℝ
  posV : ℕ → ℝ
  negV : ℕ → ℝ
  posH : ℕ → ℝ
  negH : ℕ → ℝ

/-- `x -= y`; `none` is not a number -/
def minus : Option ℝ → Option ℝ → Option ℝ
  | some x, some y => some (x - y)
  | _, _ => none

/-- `grad(idx++) = x` -/
def put (x : Option ℝ) (st : List (Option ℝ) × ℕ) : Outcome (List (Option ℝ) × ℕ) := do
  let g ← Outcome.write st.1 st.2 x
  ok (g, st.2 + 1)

/-- `grad(idx++) -= x` -/
def subtract (x : Option ℝ) (st : List (Option ℝ) × ℕ) : Outcome (List (Option ℝ) × ℕ) := do
  let old ← Outcome.read st.1 st.2
  let g ← Outcome.write st.1 st.2 (minus old x)
  ok (g, st.2 + 1)

/-- the decay of one weight by the L1 penalty, src/RBM.cpp:294; `0 / 0` is not a number -/
def l1Term (penalty w : ℝ) : Option ℝ := if w = 0 then none else some (penalty * w / |w|)

/-- the decay of one weight by the L2 penalty, src/RBM.cpp:301 -/
def l2Term (penalty w : ℝ) : Option ℝ := some (penalty * w)

/-- the loops over all weights in src/RBM.cpp:292-294, 299-301 -/
def RBM.decay (m : RBM) (term : ℝ → Option ℝ) (g : List (Option ℝ)) : Outcome (List (Option ℝ)) := do
  let st ← forLoop m.D (fun i st => forLoop m.H (fun j st => subtract (term (m.w.val j i)) st) st) (g, 0)
  ok st.1

/-- the gradient without penalties, src/RBM.cpp:281-288 -/
def RBM.fillData (m : RBM) (c : Statistics) (g : List (Option ℝ)) : Outcome (List (Option ℝ)) := do
  let st ← forLoop m.D (fun i st => forLoop m.H (fun j st => put (some (-c.posW j i + c.negW j i)) st) st) (g, 0)
  let st ← forLoop m.D (fun i st => put (some (-c.posV i + c.negV i)) st) st
  let st ← forLoop m.H (fun j st => put (some (-c.posH j + c.negH j)) st) st
  ok st.1

/-- `fillGradient`, src/RBM.cpp:279-303; `g` is the old content of `grad` -/
def RBM.fillGradient (m : RBM) (c : Statistics) (g : List (Option ℝ)) : Outcome (List (Option ℝ)) := do
  let g ← m.fillData c g
  let g ← if m.l1 > 0 then m.decay (l1Term m.l1) g else ok g
  if m.l2 > 0 then m.decay (l2Term m.l2) g else ok g

end

end Verif.Unsup
