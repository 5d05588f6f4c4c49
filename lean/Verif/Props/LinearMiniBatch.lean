import Verif.Props.MiniBatch
import Verif.Props.LinearTraining

/-!
# Mini-batch training of networks without hidden layers: C83
-/

namespace Verif.NN

open Finset Opt

noncomputable section

/-! ## Spec -/

/-- Spec: the squared error of a linear model on one example. -/
def exampleError (D F : ℕ) (ds : TrainSet) (n : ℕ) (u : Vec) : ℝ :=
  (∑ j ∈ range F, (score D (ds.inst n) u j - ds.tgt n j) ^ 2) / 2

/-- Spec: the training set that consists of the examples in a list. -/
def picked (ds : TrainSet) (idx : List ℕ) : TrainSet := ⟨idx.length, selectRows ds.inst idx, selectRows ds.tgt idx⟩

/-- Spec: no input (with 1 for the bias) is longer than the root of `L`. -/
def InputsAtMost (D : ℕ) (ds : TrainSet) (L : ℝ) : Prop := ∀ n < ds.samples, ∑ i ∈ range D, ds.inst n i ^ 2 + 1 ≤ L

/-! ## Batches are training sets -/

theorem picked_meanError (D F : ℕ) (ds : TrainSet) (idx : List ℕ) (u : Vec) :
    meanError (exampleError D F ds) idx u = leastSquares D F (picked ds idx) u := by
  have e : (idx.map fun n => exampleError D F ds n u).sum = ∑ k ∈ range idx.length, exampleError D F ds (idx.getD k 0) u :=
    Opt.sum_map_getD _ _
  rw [meanError, e]
  show _ = (∑ n ∈ range idx.length, ∑ j ∈ range F, (score D (ds.inst (idx.getD n 0)) u j - ds.tgt (idx.getD n 0) j) ^ 2) /
    (2 * (idx.length : ℝ))
  simp only [exampleError]
  rw [← sum_div, div_div]

theorem picked_gradient {D : ℕ} {ks : List Kind} {ce : Bool} (hr : ∀ k ∈ ks, k.RowWise) (mem : Mem) (ds : TrainSet)
    (sc sc' : Scratch) {idx : List ℕ} (hidx : idx ≠ []) (i : ℕ) :
    ((buildNet D ks ce).errorGradient mem sc ds idx).2.getD i 0 =
      ((buildNet D ks ce).errorGradientAll mem sc' (picked ds idx)).2.getD i 0 := by
  have hlen : ∀ sc ds idx, ((buildNet D ks ce).errorGradient mem sc ds idx).2.length = (buildNet D ks ce).P := by
    intro sc ds idx
    rw [errorGradient_length, (parameters_one_to_one D ks ce).2.2.2.1, Net.P]
  have hpos : 0 < idx.length := List.length_pos_iff.2 hidx
  by_cases hi : i < (buildNet D ks ce).P
  · have h2 : List.range idx.length ≠ [] := by
      intro h
      rw [List.range_eq_nil] at h
      omega
    have hm : meanOver (gradientEntry D ks ce mem ds i) idx =
        meanOver (gradientEntry D ks ce mem (picked ds idx) i) (List.range idx.length) := by
      have e1 : (idx.map (gradientEntry D ks ce mem ds i)).sum =
          ∑ k ∈ range idx.length, gradientEntry D ks ce mem ds i (idx.getD k 0) := Opt.sum_map_getD _ _
      have e2 : ((List.range idx.length).map (gradientEntry D ks ce mem (picked ds idx) i)).sum =
          ∑ k ∈ range idx.length, gradientEntry D ks ce mem (picked ds idx) i k := rfl
      rw [meanOver, meanOver, e1, e2, List.length_range]
      congr 1
      refine sum_congr rfl fun k _ => ?_
      have hs := single_gradient ce hr mem ⟨fun _ _ => 0, fun _ _ _ => 0⟩ ⟨fun _ _ => 0, fun _ _ _ => 0⟩ (ds := ds)
        (ds' := picked ds idx) (n := idx.getD k 0) (m := k) rfl rfl hi
      exact congrArg (fun o : Option ℝ => o.getD 0) hs
    rw [List.getD, List.getD, gradient_entry ce hr mem ds sc hidx hi]
    show _ = ((Net.errorGradient _ _ _ (picked ds idx) (List.range idx.length)).2[i]?).getD 0
    rw [gradient_entry ce hr mem (picked ds idx) sc' h2 hi, hm, List.length_range]
  · rw [List.getD, List.getD, List.getElem?_eq_none (by rw [hlen]; omega),
      List.getElem?_eq_none (by show (Net.errorGradient _ _ _ _ _).2.length ≤ i; rw [hlen]; omega)]

theorem picked_meanSquare {D : ℕ} {ds : TrainSet} {L : ℝ} (h : InputsAtMost D ds L) {idx : List ℕ} (hidx : idx ≠ [])
    (hv : ∀ i ∈ idx, i < ds.samples) : meanSquare D (picked ds idx) ≤ L := by
  have hpos : (0 : ℝ) < idx.length := by exact_mod_cast List.length_pos_iff.2 hidx
  show (∑ n ∈ range idx.length, (∑ i ∈ range D, ds.inst (idx.getD n 0) i ^ 2 + 1)) / (idx.length : ℝ) ≤ L
  rw [div_le_iff₀ hpos]
  calc ∑ n ∈ range idx.length, (∑ i ∈ range D, ds.inst (idx.getD n 0) i ^ 2 + 1) ≤ ∑ n ∈ range idx.length, L := by
        refine sum_le_sum fun n hn => h _ (hv _ ?_)
        have hn' := mem_range.1 hn
        rw [← List.getElem_eq_getD (h := hn') 0]
        exact List.getElem_mem hn'
    _ = L * idx.length := by rw [sum_const, card_range, nsmul_eq_mul, mul_comm]

theorem curvature_mono {P : ℕ} {L L' : ℝ} {J : Vec → ℝ} {G : Vec → Vec} (h : CurvatureAtMost P L J G) (hle : L ≤ L') :
    CurvatureAtMost P L' J G := by
  intro w u
  have hd : 0 ≤ distSq P u w := sum_nonneg fun p _ => sq_nonneg _
  have := mul_le_mul_of_nonneg_right (show L / 2 ≤ L' / 2 by linarith) hd
  have := h w u
  linarith

/-- What the optimiser sees of the network is a mean of squared errors. -/
theorem linear_meanOf (D F : ℕ) (mem : Mem) (sc : ℕ → Scratch) (ds : TrainSet) {L : ℝ} (h : InputsAtMost D ds L) :
    (netProblem (buildNet D (linearKinds F) false) mem sc ds).MeanOf (exampleError D F ds)
      (fun b => fullGradient D F false mem (picked ds b)) L := by
  refine ⟨fun n w => div_nonneg (sum_nonneg fun _ _ => sq_nonneg _) two_pos.le, fun k w b hb => ?_, fun b hb => ?_, fun b hb => ?_⟩
  · funext p
    exact picked_gradient (linear_rowWise F) _ ds (sc k) ⟨fun _ _ => 0, fun _ _ _ => 0⟩ hb.1 p
  · have := (linear_curvature D F mem (picked ds b) (List.length_pos_iff.2 hb.1)).1
    have e : meanError (exampleError D F ds) b = leastSquares D F (picked ds b) := funext (picked_meanError D F ds b)
    rw [e]
    show ConvexWith (buildNet D (linearKinds F) false).P _ _
    rw [linear_P]
    exact this
  · have := (linear_curvature D F mem (picked ds b) (List.length_pos_iff.2 hb.1)).2
    have e : meanError (exampleError D F ds) b = leastSquares D F (picked ds b) := funext (picked_meanError D F ds b)
    rw [e]
    show CurvatureAtMost (buildNet D (linearKinds F) false).P L _ _
    rw [linear_P]
    exact curvature_mono this (picked_meanSquare h hb.1 hb.2)

theorem leastSquares_all (D F : ℕ) (ds : TrainSet) (u : Vec) :
    meanError (exampleError D F ds) (List.range ds.samples) u = leastSquares D F ds u := by
  rw [meanError, leastSquares, List.length_range]
  show (∑ n ∈ range ds.samples, exampleError D F ds n u) / _ = _
  simp only [exampleError]
  rw [← sum_div, div_div]

/-- A perfect fit is a model without error. -/
theorem perfectFit_iff {D F : ℕ} {ds : TrainSet} {u : Vec} :
    PerfectFit ds.samples (exampleError D F ds) u ↔ ∀ n < ds.samples, ∀ j < F, score D (ds.inst n) u j = ds.tgt n j := by
  constructor
  · intro h n hn j hj
    have h1 := h n hn
    rw [exampleError, div_eq_zero_iff, or_iff_left two_ne_zero, sum_eq_zero_iff_of_nonneg fun _ _ => sq_nonneg _] at h1
    have := h1 j (mem_range.2 hj)
    exact sub_eq_zero.1 (pow_eq_zero_iff two_ne_zero |>.1 this)
  · intro h n hn
    rw [exampleError, sum_eq_zero fun j hj => by rw [h n hn j (mem_range.1 hj), sub_self]; norm_num, zero_div]

/-! ## C83 -/

/-- **C83**: if the inputs are not longer than the root of `L` and there is a linear model without error, then for every batch
size that divides the number of examples (or exceeds it), for every order of the examples in every epoch, and for every
learning rate of at most `1 / (2 L)` that does not decay to zero, training reaches every positive error `e`. -/
theorem mini_batch_training {D F : ℕ} (hF : 0 < F) (mem : Mem) (sc : ℕ → Scratch) (ds : TrainSet) (hN : 0 < ds.samples) {L : ℝ}
    (hL : InputsAtMost D ds L) {u : Vec} (hu : ∀ n < ds.samples, ∀ j < F, score D (ds.inst n) u j = ds.tgt n j) {o0 : MBSGD}
    (ho : SuitableMini o0 L) (hd : ds.samples % o0.batchSize = 0 ∨ ds.samples < o0.batchSize)
    (hr : 0 < o0.minAlpha ∨ o0.alphaDecay = 1) (w : Vec) (calls : ℕ) (log : List Event) {e : ℝ} (he : 0 < e) :
    ∃ m0, 1 ≤ m0 ∧ ∀ m : ℕ, m0 ≤ m → ∃ o obj, (o0.setStopCriteria ⟨m, 0⟩).optimize (fun _ => false) m
        ⟨netProblem (buildNet D (linearKinds F) false) mem sc ds, w, calls, log⟩ = .ok (some (o, obj)) ∧
      (buildNet D (linearKinds F) false).error ((buildNet D (linearKinds F) false).setParameters mem
        (vectorOf (buildNet D (linearKinds F) false) (o.result obj).1)) ds ≤ e := by
  have hL0 : 0 < L := by
    have h1 := hL 0 hN
    have h2 : 0 ≤ ∑ i ∈ range D, ds.inst 0 i ^ 2 := sum_nonneg fun _ _ => sq_nonneg _
    linarith
  obtain ⟨m0, h1, h⟩ := mini_batches_optimize
    (obj0 := ⟨netProblem (buildNet D (linearKinds F) false) mem sc ds, w, calls, log⟩) ho hL0
    ⟨by show 0 < (buildNet D (linearKinds F) false).P; rw [linear_P]; positivity, hN⟩ (linear_meanOf D F mem sc ds hL)
    (perfectFit_iff.2 hu) hd hr he
  refine ⟨m0, h1, fun m hm => ?_⟩
  obtain ⟨o, obj, h2, h3⟩ := h m hm
  refine ⟨o, obj, h2, ?_⟩
  rw [linear_error D F mem ds hN, ← leastSquares_all]
  exact h3

/-- **C83 (closer)**: the weights never move away from any model without error. -/
theorem mini_batch_closer {D F : ℕ} (mem : Mem) (sc : ℕ → Scratch) (ds : TrainSet) (hN : 0 < ds.samples) {L : ℝ}
    (hL : InputsAtMost D ds L) {u : Vec} (hu : ∀ n < ds.samples, ∀ j < F, score D (ds.inst n) u j = ds.tgt n j) {o0 : MBSGD}
    (ho : SuitableMini o0 L) (w : Vec) (calls : ℕ) (log : List Event) {n : ℕ} {c : Bool} {o : MBSGD} {obj : Obj}
    (h : Steps o0 ⟨netProblem (buildNet D (linearKinds F) false) mem sc ds, w, calls, log⟩ (n + 1) c o obj) :
    distSq (F * (D + 1)) (o.result obj).1 u ≤ distSq (F * (D + 1)) w u := by
  have hL0 : 0 < L := by
    have h1 := hL 0 hN
    have h2 : 0 ≤ ∑ i ∈ range D, ds.inst 0 i ^ 2 := sum_nonneg fun _ _ => sq_nonneg _
    linarith
  set obj0 : Obj := ⟨netProblem (buildNet D (linearKinds F) false) mem sc ds, w, calls, log⟩ with hobj
  have key : ∀ t, distSq (buildNet D (linearKinds F) false).P (weightsAt o0 obj0 t) u ≤
      distSq (buildNet D (linearKinds F) false).P w u := by
    intro t
    induction t with
    | zero => exact le_rfl
    | succ t ih =>
      exact (mini_batches_closer (obj0 := obj0) ho hL0 hN (linear_meanOf D F mem sc ds hL) (perfectFit_iff.2 hu) t).trans ih
  rw [weightsAt_result ho.valid ho.fresh h, ← linear_P D F false]
  exact key _

/-- The hypotheses hold for the line `0 ↦ 1`, `1 ↦ 3`, batches of one example and the learning rate 1/4. -/
example : InputsAtMost 1 line 2 ∧ SuitableMini { example1 false 1 5 with alpha := 1 / 4 } 2 ∧
    (∀ n < line.samples, ∀ j < 1, score 1 (line.inst n) (fun p => if p = 0 then 2 else 1) j = line.tgt n j) ∧
    line.samples % (example1 false 1 5).batchSize = 0 := by
  refine ⟨fun n hn => ?_, ⟨⟨le_rfl, one_pos, le_rfl, le_rfl, le_rfl⟩, fun _ _ => List.Perm.refl _, ?_, ⟨rfl, rfl, rfl, rfl, ?_⟩,
    ?_, ?_, ?_⟩, fun n hn j hj => ?_, rfl⟩
  · have : n = 0 ∨ n = 1 := by
      have : n < 2 := hn
      omega
    rcases this with rfl | rfl
    · simp [line]
    · simp [line]
      norm_num
  · show (-1 : ℤ) < 0; norm_num
  · exact zero_le_one
  · show (0 : ℝ) < 1 / 4; norm_num
  · show (0 : ℝ) ≤ 1 / 4; norm_num
  · show (1 / 4 : ℝ) * 2 ≤ 1 / 2; norm_num
  · have : j = 0 := by omega
    subst this
    simp [score, line]

/-! ## Data that cannot be fitted -/

/-- Two examples with the input 0 and the targets 1 and -1. -/
def contradiction : TrainSet := ⟨2, fun _ _ => 0, fun n _ => if n = 0 then 1 else -1⟩

theorem contradiction_error (u : Vec) : leastSquares 1 1 contradiction u = 1 / 2 + u 1 ^ 2 / 2 := by
  simp [leastSquares, score, contradiction, sum_range_succ]
  ring

theorem contradiction_gradient (mem : Mem) (n : ℕ) (w : Vec) :
    fullGradient 1 1 false mem (picked contradiction [n]) w 1 = w 1 - if n = 0 then 1 else -1 := by
  have := linear_slope 1 1 mem (picked contradiction [n]) one_pos w fun p => if p = 1 then 1 else 0
  simpa [leastSquaresSlope, score, picked, selectRows, contradiction, sum_range_succ] using this

/-- **Data that cannot be fitted**: with mini-batches and a constant learning rate, training does not come closer to the least
possible error 1/2 than 1/32, no matter how long it lasts. -/
theorem misfit_fails (mem : Mem) (sc : ℕ → Scratch) (m : ℕ) (hm : 1 ≤ m) :
    leastSquares 1 1 contradiction (fun _ => 0) = 1 / 2 ∧
    ∃ o obj, (example1 false 1 m).optimize (fun _ => false) m
        ⟨netProblem (buildNet 1 (linearKinds 1) false) mem sc contradiction, fun _ => 0, 0, []⟩ = .ok (some (o, obj)) ∧
      1 / 2 + 1 / 32 ≤ (buildNet 1 (linearKinds 1) false).error ((buildNet 1 (linearKinds 1) false).setParameters mem
        (vectorOf (buildNet 1 (linearKinds 1) false) (o.result obj).1)) contradiction := by
  refine ⟨by rw [contradiction_error]; norm_num, ?_⟩
  have hv : (example1 false 1 m).Valid := example1_valid false one_pos le_rfl m
  have hf := example1_fair false 1 m
  have hfresh : (example1 false 1 m).iteration < 0 := by show (-1 : ℤ) < 0; norm_num
  have hp : (example1 false 1 m).Plain := ⟨rfl, rfl, rfl, rfl, zero_le_one⟩
  set obj0 : Obj := ⟨netProblem (buildNet 1 (linearKinds 1) false) mem sc contradiction, fun _ => 0, 0, []⟩ with hobj0
  obtain ⟨o, obj, h, hcount, _⟩ := optimize_exact (m := m) hv hf hfresh (obj := obj0)
    ⟨by show 0 < (buildNet 1 (linearKinds 1) false).P; rw [linear_P]; norm_num, two_pos⟩ hm rfl rfl
  refine ⟨o, obj, h, ?_⟩
  obtain ⟨n, c, hsteps, _⟩ := optimize_steps h
  have hnm : n + 1 = m := by
    rcases steps_runInv hv hfresh hsteps with ⟨h0, _⟩ | ⟨_, hinv, _⟩
    · omega
    · have := hinv.finished
      omega
  have hk : batchCount (example1 false 1 m) obj0.problem.examples = 2 := by
    show max (2 / 1) 1 = 2
    norm_num
  have hidx : ∀ e, indicesAt (example1 false 1 m) 2 e = [0, 1] := by
    intro e
    induction e with
    | zero => rfl
    | succ e ih => exact ih
  have hb : ∀ e i, i < 2 → batchFor (example1 false 1 m) obj0 (e * 2 + i) = [i] := by
    intro e i hi
    have h1 := batchFor_epoch (o := example1 false 1 m) obj0 e (i := i) (by rw [hk]; exact hi)
    rw [hk] at h1
    rw [h1]
    show batchOf (indicesAt (example1 false 1 m) 2 e) 1 i = _
    rw [hidx]
    have : i = 0 ∨ i = 1 := by omega
    rcases this with rfl | rfl <;> rfl
  have hrate : ∀ t, rate (1 / 2) 1 0 t = (1 / 2 : ℝ) := by
    intro t
    cases t with
    | zero => rfl
    | succ t =>
      rw [rate, one_pow, mul_one]
      exact max_eq_left (by norm_num)
  have hG : ∀ k w b, obj0.problem.Batch b → (obj0.problem.errorGradient k w b).2 =
      fullGradient 1 1 false mem (picked contradiction b) w := by
    intro k w b hb
    funext p
    exact picked_gradient (linear_rowWise 1) _ contradiction (sc k) ⟨fun _ _ => 0, fun _ _ _ => 0⟩ hb.1 p
  set W := weightsAt (example1 false 1 m) obj0 with hW
  have hs : ∀ e i, i < 2 → W (e * 2 + i + 1) 1 = W (e * 2 + i) 1 - 1 / 2 * (W (e * 2 + i) 1 - if i = 0 then 1 else -1) := by
    intro e i hi
    have h1 := weightsAt_step hv hf hp (obj0 := obj0) two_pos (G := fun b => fullGradient 1 1 false mem (picked contradiction b))
      hG (e * 2 + i) 1
    rw [hb e i hi, contradiction_gradient mem i] at h1
    rw [hW, h1]
    show _ - rate (1 / 2) 1 0 _ * _ = _
    rw [hrate]
  have hepoch : ∀ e, W ((e + 1) * 2) 1 = (W (e * 2) 1 - 1) / 4 := by
    intro e
    have h1 := hs e 1 (by norm_num)
    have h0 := hs e 0 (by norm_num)
    rw [show (e + 1) * 2 = e * 2 + 1 + 1 by ring, h1]
    rw [Nat.add_zero] at h0
    rw [h0]
    norm_num
    ring
  have hneg : ∀ e, W (e * 2) 1 ≤ 0 := by
    intro e
    induction e with
    | zero => exact le_rfl
    | succ e ih =>
      rw [hepoch]
      linarith
  rw [linear_error 1 1 mem contradiction two_pos, weightsAt_result hv hfresh hsteps, hk, contradiction_error]
  have h1 := hepoch n
  have h2 := hneg n
  have h3 : W ((n + 1) * 2) 1 ≤ -1 / 4 := by rw [h1]; linarith
  nlinarith

end

end Verif.NN
