import Verif.Model.Draw
import Verif.Model.Unsupervised

/-!
# The Markov chain of a restricted Boltzmann machine (src/RBM.cpp lines 98-133 and 222-288)
-/

namespace Verif.Boltz

open Finset Verif.NN Verif.Unsup

noncomputable section

/-- `W`, `bv` and `bh` as matrix and vectors. -/
structure Machine where
  D : ℕ
  H : ℕ
  W : ℕ → ℕ → ℝ
  bv : ℕ → ℝ
  bh : ℕ → ℝ

/-- The weights of an RBM. -/
def ofRBM (m : RBM) : Machine := ⟨m.D, m.H, m.w.val, fun i => m.bv.getD i 0, fun j => m.bh.getD j 0⟩

/-- The matrices of the Markov chain; `rows` is the number of rows of `v`, `pvRows` that of `pv`. -/
structure Chain where
  rows : ℕ
  v : Batch
  ph : Batch
  h : Batch
  pvRows : ℕ
  pv : Batch

/-- src/RBM.cpp lines 241-242 and 252-253: the elements in the order of the loops. -/
def cells (N K : ℕ) : List (ℕ × ℕ) := (List.range N).flatMap fun n => (List.range K).map fun j => (n, j)

/-- src/RBM.cpp lines 241-243 and 252-254: `m(n, j) = (double)(p(n, j) > random)` for the listed elements. -/
def sampleCells (p : Batch) : List (ℕ × ℕ) → Batch → Draw Batch
  | [], m => .ret m
  | c :: cs, m => .compare (p c.1 c.2) fun b => sampleCells p cs (setEntry m c.1 c.2 (if b then 1 else 0))

/-- src/RBM.cpp lines 238-240: `ph` -/
def Machine.hiddenProb (m : Machine) (v : Batch) : Batch := fun n j =>
  Act.logistic.apply (dense m.D m.W m.bh v n j)

/-- src/RBM.cpp lines 249-251: `pv` -/
def Machine.visibleProb (m : Machine) (h : Batch) : Batch := fun n i =>
  Act.logistic.apply (dense m.H (fun i j => m.W j i) m.bv h n i)

/-- src/RBM.cpp lines 234-244 -/
def Machine.sampleHgivenV (m : Machine) (s : Chain) : Draw Chain :=
  (sampleCells (m.hiddenProb s.v) (cells s.rows m.H) s.h).bind fun h => .ret { s with ph := m.hiddenProb s.v, h := h }

/-- src/RBM.cpp lines 246-255.  `h.rows()` is `v.rows()` because the chain begins with `sampleHgivenV`, which resizes `h`. -/
def Machine.sampleVgivenH (m : Machine) (s : Chain) : Draw Chain :=
  (sampleCells (m.visibleProb s.h) (cells s.rows m.D) s.v).bind fun v =>
    .ret { s with pvRows := s.rows, pv := m.visibleProb s.h, v := v }

/-- src/RBM.cpp lines 268-272: `n` times -/
def Machine.gibbs (m : Machine) : ℕ → Chain → Draw Chain
  | 0, s => .ret s
  | n + 1, s => (m.sampleVgivenH s).bind fun s => (m.sampleHgivenV s).bind fun s => m.gibbs n s

/-- The positive part of the statistics, src/RBM.cpp lines 261-263, where `v` is still the data; the negative part, lines
274-276, from the chain `t` after the sampling. -/
def statistics (s t : Chain) : Statistics where
  posW j i := ∑ n ∈ range s.rows, s.ph n j * s.v n i
  posV i := ∑ n ∈ range s.rows, s.v n i
  posH j := ∑ n ∈ range s.rows, s.ph n j
  negW j i := ∑ n ∈ range t.rows, t.ph n j * t.pv n i
  negV i := ∑ n ∈ range t.pvRows, t.pv n i
  negH j := ∑ n ∈ range t.rows, t.ph n j

/-- `reality(); daydream();`, src/RBM.cpp lines 257-277.  The product `ph.transpose() * pv` needs matrices with the same number
of rows. -/
def Machine.contrast (m : Machine) (cdN : ℕ) (s : Chain) : Draw (Outcome Statistics) :=
  (m.sampleHgivenV s).bind fun s => (m.gibbs cdN s).bind fun t =>
    .ret (if t.pvRows = t.rows then .ok (statistics s t) else .ub)

/-- src/RBM.cpp lines 116-128, `errorGradient`: the gradient for the examples in the rows of `s.v`; `g` is the old content of
`grad`.  `gradient(n)` (lines 107-114) is the case of one row. -/
def gradient (m : RBM) (cdN : ℕ) (s : Chain) (g : List (Option ℝ)) : Draw (Outcome (List (Option ℝ))) :=
  ((ofRBM m).contrast cdN s).bind fun c => .ret (c >>= fun c => m.fillGradient c g)

/-- src/RBM.cpp lines 222-232, `reconstructProb`, for one example `x`; `pv = v` at first. -/
def Machine.reconstructProb (m : Machine) (steps : ℕ) (s : Chain) (x : ℕ → ℝ) : Draw Batch :=
  go steps { s with rows := 1, v := fun _ => x, pvRows := 1, pv := fun _ => x }
where
  go : ℕ → Chain → Draw Batch
    | 0, s => .ret s.pv
    | n + 1, s => (m.sampleHgivenV s).bind fun s => (m.sampleVgivenH s).bind fun s => go n s

end

end Verif.Boltz
