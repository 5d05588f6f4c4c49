import Verif.Props.Determined

/-!
# The parameter vector and the examples determine error and gradient (C72)

`error()`, `error(i)` and `errorGradient` of a network are functions of the parameter vector and of the examples: they do not
depend on earlier parameters, on earlier batches (and their sizes) or on what backpropagation left in the buffers.
-/

namespace Verif.NN

open Finset

noncomputable section

/-! ## One layer -/

section

variable {k : Kind} {I N : ℕ} {w w' : Weights} {x x' ein ein' : Batch}

theorem deltas_congr {act : Act} {y y' : Batch} {n j : ℕ} (hy : y n j = y' n j) (he : ein n j = ein' n j) :
    deltas act y ein n j = deltas act y' ein' n j := by rw [deltas, deltas, hy, he]

theorem Reg.error_congr {r : Reg} {a a' b b' : ℝ} (ha : a = a') (hb : b = b') : r.error a b = r.error a' b' := by rw [ha, hb]

/-- The penalty of a layer depends only on its parameters. -/
theorem Kind.regError_congr (hw : ∀ s, k.IsParam I s → w s = w' s) : (k.layer I).regError w = (k.layer I).regError w' := by
  cases k with
  | fullyConnected J bias act reg =>
    refine Reg.error_congr ?_ ?_ <;>
    · refine sum_congr rfl fun j hj => sum_congr rfl fun i hi => ?_
      rw [Weights.mat, Weights.mat, hw _ (Or.inl ⟨j, mem_range.1 hj, i, mem_range.1 hi, rfl⟩)]
  | compressed J M bias act reg phi =>
    refine Reg.error_congr ?_ ?_ <;>
    · refine sum_congr rfl fun j hj => sum_congr rfl fun i hi => ?_
      rw [Weights.mat, Weights.mat, hw _ ⟨j, mem_range.1 hj, i, mem_range.1 hi, rfl⟩]
  | sparseAutoEncoder H act lambda =>
    have : ∑ j ∈ range H, ∑ i ∈ range I, w.mat j i ^ 2 = ∑ j ∈ range H, ∑ i ∈ range I, w'.mat j i ^ 2 := by
      refine sum_congr rfl fun j hj => sum_congr rfl fun i hi => ?_
      rw [Weights.mat, Weights.mat, hw _ (Or.inl ⟨j, mem_range.1 hj, i, mem_range.1 hi, rfl⟩)]
    show (if 0 < lambda then lambda * (∑ j ∈ range H, ∑ i ∈ range I, w.mat j i ^ 2) / 2 else 0) = _
    rw [this]
    rfl
  | conv g =>
    refine Reg.error_congr ?_ ?_ <;>
    · refine sum_congr rfl fun a ha => sum_congr rfl fun b hb => sum_congr rfl fun c hc => sum_congr rfl fun d hd => ?_
      rw [hw _ ⟨a, mem_range.1 ha, b, mem_range.1 hb, Or.inl ⟨c, mem_range.1 hc, d, mem_range.1 hd, rfl⟩⟩]
  | sub g bias act reg =>
    refine Reg.error_congr ?_ ?_ <;>
    · refine sum_congr rfl fun a ha => sum_congr rfl fun b hb => sum_congr rfl fun c hc => ?_
      rw [hw _ ⟨a, mem_range.1 ha, b, mem_range.1 hb, c, mem_range.1 hc, Or.inl rfl⟩]
  | _ => rfl

theorem backSum_congr {J n i : ℕ} {δ δ' W W' : Batch} (hδ : ∀ j < J, δ n j = δ' n j) (hW : ∀ j < J, W j i = W' j i) :
    ∑ j ∈ range J, δ n j * W j i = ∑ j ∈ range J, δ' n j * W' j i :=
  sum_congr rfl fun j hj => by rw [hδ j (mem_range.1 hj), hW j (mem_range.1 hj)]

theorem conv_weightDerivs_congr {g : Conv} (hg : g.Valid) {δ δ' : Batch} (hx : ∀ n < N, ∀ i < g.inputs, x n i = x' n i)
    (hδ : ∀ n < N, ∀ j < g.outputs, δ n j = δ' n j) {s : Slot} (hs : (Kind.conv g).IsParam I s) :
    g.weightDerivs N x δ s = g.weightDerivs N x' δ' s := by
  obtain ⟨fmo, hfo, fmi, hfi, ⟨kr, hkr, kc, hkc, rfl⟩ | ⟨hb, rfl⟩⟩ := hs
  · refine sum_congr rfl fun n hn => sum_congr rfl fun r hr => sum_congr rfl fun c hc => ?_
    rw [mem_range] at hn hr hc
    rw [hδ n hn _ (Conv.outIdx_lt hg hfo hr hc), hx n hn _ (Conv.inIdx_lt hg hfi hr hc hkr hkc)]
  · refine sum_congr rfl fun n hn => sum_congr rfl fun r hr => sum_congr rfl fun c hc => ?_
    rw [mem_range] at hn hr hc
    exact hδ n hn _ (Conv.outIdx_lt hg hfo hr hc)

theorem conv_errorSignal_congr {g : Conv} (hg : g.Valid) {δ δ' : Batch} {n : ℕ} (hw : ∀ s, (Kind.conv g).IsParam I s → w s = w' s)
    (hδ : ∀ j < g.outputs, δ n j = δ' n j) (p : ℕ) : g.errorSignal w δ n p = g.errorSignal w' δ' n p := by
  refine sum_congr rfl fun fmo hfo => sum_congr rfl fun fmi hfi => sum_congr rfl fun row hr => sum_congr rfl fun col hc =>
    sum_congr rfl fun kr hkr => sum_congr rfl fun kc hkc => ?_
  rw [mem_range] at hfo hfi hr hc hkr hkc
  rw [hw _ ⟨fmo, hfo, fmi, hfi, Or.inl ⟨kr, hkr, kc, hkc, rfl⟩⟩, hδ _ (Conv.outIdx_lt hg hfo hr hc)]

theorem subDerivs_congr {g : Pool} (hg : g.Valid) {bias : Bool} {act : Act} {reg : Reg} {δ δ' : Batch}
    (hx : ∀ n < N, ∀ i < g.inputs, x n i = x' n i) (hδ : ∀ n < N, ∀ j < g.outputs, δ n j = δ' n j) {s : Slot}
    (hs : (Kind.sub g bias act reg).IsParam I s) : g.subDerivs N x δ s = g.subDerivs N x' δ' s := by
  obtain ⟨fmo, hfo, r, hr, c, hc, rfl | ⟨hb, rfl⟩⟩ := hs
  · refine sum_congr rfl fun n hn => ?_
    rw [mem_range] at hn
    have ho := Pool.outIdx_lt (g := g) hfo hr hc
    rw [hδ n hn _ ho]
    congr 1
    refine sum_congr rfl fun _ _ => sum_congr rfl fun kc hkc => hx n hn _ ?_
    have hb := Pool.base_bound hg ho (mem_range.1 hkc)
    rwa [Pool.base, (Pool.of_outIdx hg hr hc).1, (Pool.of_outIdx hg hr hc).2.1, (Pool.of_outIdx hg hr hc).2.2] at hb
  · exact sum_congr rfl fun n hn => hδ n (mem_range.1 hn) _ (Pool.outIdx_lt hfo hr hc)

theorem subError_congr {g : Pool} (hg : g.Valid) {bias : Bool} {act : Act} {reg : Reg} {δ δ' : Batch} {n : ℕ}
    (hw : ∀ s, (Kind.sub g bias act reg).IsParam I s → w s = w' s) (hδ : ∀ j < g.outputs, δ n j = δ' n j) (p : ℕ) :
    g.subError w δ n p = g.subError w' δ' n p := by
  refine sum_congr rfl fun o ho => sum_congr rfl fun _ _ => sum_congr rfl fun kc hkc => ?_
  rw [mem_range] at ho hkc
  rw [hw _ ⟨_, Pool.mapOf_lt ho, _, Pool.rowOf_lt hg o, _, Pool.colOf_lt hg o, Or.inl rfl⟩, hδ o ho]

/-- The derivatives that a layer computes for its parameters depend only on its parameters, its input and the error signal. -/
theorem Kind.derivs_congr (hf : k.Fits I) (hv : k.Visible) (hw : ∀ s, k.IsParam I s → w s = w' s)
    (hx : ∀ n < N, ∀ i < I, x n i = x' n i) (he : ∀ n < N, ∀ j < (k.layer I).outputs, ein n j = ein' n j) {s : Slot}
    (hs : k.IsParam I s) : (k.layer I).derivs w N x ein s = (k.layer I).derivs w' N x' ein' s := by
  have hy : ∀ n < N, ∀ j < (k.layer I).outputs, (k.layer I).forward w N x n j = (k.layer I).forward w' N x' n j :=
    fun n hn j hj => k.forward_congr hf hv hw (hx n hn) hj
  cases k with
  | fullyConnected J bias act reg =>
    have hδ : ∀ n < N, ∀ j < J, deltas act (act.map (dense I w.mat (w.vec bias) x)) ein n j =
        deltas act (act.map (dense I w'.mat (w'.vec bias) x')) ein' n j := fun n hn j hj =>
      deltas_congr (hy n hn j hj) (he n hn j hj)
    rcases hs with ⟨j, hj, i, hi, rfl⟩ | ⟨_, j, hj, rfl⟩
    · show _ + reg.deriv (w (.w [j, i])) = _ + reg.deriv (w' (.w [j, i]))
      rw [hw _ (Or.inl ⟨j, hj, i, hi, rfl⟩)]
      congr 1
      refine sum_congr rfl fun n hn => ?_
      rw [hδ n (mem_range.1 hn) j hj, hx n (mem_range.1 hn) i hi]
    · exact sum_congr rfl fun n hn => hδ n (mem_range.1 hn) j hj
  | compressed J M bias act reg phi =>
    have hδ : ∀ n < N, ∀ j < J,
        deltas act (act.map (dense I (compressedW M phi w) (compressedBias I M bias phi w) x)) ein n j =
          deltas act (act.map (dense I (compressedW M phi w') (compressedBias I M bias phi w') x')) ein' n j :=
      fun n hn j hj => deltas_congr (hy n hn j hj) (he n hn j hj)
    obtain ⟨j, hj, m, hm, rfl⟩ := hs
    have e1 : ∑ n ∈ range N, deltas act (act.map (dense I (compressedW M phi w) (compressedBias I M bias phi w) x)) ein n j =
        ∑ n ∈ range N, deltas act (act.map (dense I (compressedW M phi w') (compressedBias I M bias phi w') x')) ein' n j :=
      sum_congr rfl fun n hn => hδ n (mem_range.1 hn) j hj
    have e2 : ∀ i < I,
        ∑ n ∈ range N, deltas act (act.map (dense I (compressedW M phi w) (compressedBias I M bias phi w) x)) ein n j * x n i =
        ∑ n ∈ range N,
          deltas act (act.map (dense I (compressedW M phi w') (compressedBias I M bias phi w') x')) ein' n j * x' n i :=
      fun i hi => sum_congr rfl fun n hn => by rw [hδ n (mem_range.1 hn) j hj, hx n (mem_range.1 hn) i hi]
    show ∑ i ∈ range I, (∑ n ∈ range N,
        deltas act (act.map (dense I (compressedW M phi w) (compressedBias I M bias phi w) x)) ein n j * x n i) * phi m i
      + (if bias then (∑ n ∈ range N,
          deltas act (act.map (dense I (compressedW M phi w) (compressedBias I M bias phi w) x)) ein n j) * phi m I else 0)
      + reg.deriv (w (.w [j, m])) = ∑ i ∈ range I, (∑ n ∈ range N,
        deltas act (act.map (dense I (compressedW M phi w') (compressedBias I M bias phi w') x')) ein' n j * x' n i) * phi m i
      + (if bias then (∑ n ∈ range N,
          deltas act (act.map (dense I (compressedW M phi w') (compressedBias I M bias phi w') x')) ein' n j) * phi m I else 0)
      + reg.deriv (w' (.w [j, m]))
    rw [hw _ ⟨j, hj, m, hm, rfl⟩, e1, sum_congr rfl fun i hi => by rw [e2 i (mem_range.1 hi)]]
  | rbm H backprop =>
    have hδ : ∀ n < N, ∀ j < H, deltas .logistic (Act.logistic.map (dense I w.mat (w.vec true) x)) ein n j =
        deltas .logistic (Act.logistic.map (dense I w'.mat (w'.vec true) x')) ein' n j := fun n hn j hj =>
      deltas_congr (hy n hn j hj) (he n hn j hj)
    rcases hs with ⟨_, ⟨j, hj, i, hi, rfl⟩ | ⟨j, hj, rfl⟩⟩
    · show ∑ n ∈ range N, deltas .logistic (Act.logistic.map (dense I w.mat (w.vec true) x)) ein n j * x n i =
        ∑ n ∈ range N, deltas .logistic (Act.logistic.map (dense I w'.mat (w'.vec true) x')) ein' n j * x' n i
      exact sum_congr rfl fun n hn => by rw [hδ n (mem_range.1 hn) j hj, hx n (mem_range.1 hn) i hi]
    · exact sum_congr rfl fun n hn => hδ n (mem_range.1 hn) j hj
  | sparseAutoEncoder H act lambda =>
    have hδ : ∀ n < N, ∀ j < H, deltas act (act.map (dense I w.mat (w.vec true) x)) ein n j =
        deltas act (act.map (dense I w'.mat (w'.vec true) x')) ein' n j := fun n hn j hj =>
      deltas_congr (hy n hn j hj) (he n hn j hj)
    rcases hs with ⟨j, hj, i, hi, rfl⟩ | ⟨j, hj, rfl⟩
    · show _ + lambda * w (.w [j, i]) = _ + lambda * w' (.w [j, i])
      rw [hw _ (Or.inl ⟨j, hj, i, hi, rfl⟩)]
      congr 1
      refine sum_congr rfl fun n hn => ?_
      rw [hδ n (mem_range.1 hn) j hj, hx n (mem_range.1 hn) i hi]
    · exact sum_congr rfl fun n hn => hδ n (mem_range.1 hn) j hj
  | conv g =>
    have hδ : ∀ n < N, ∀ j < g.outputs, deltas g.act (g.act.map (g.activation w x)) ein n j =
        deltas g.act (g.act.map (g.activation w' x')) ein' n j := fun n hn j hj =>
      deltas_congr (hy n hn j hj) (he n hn j hj)
    have e := conv_weightDerivs_congr hf.2 (fun n hn i hi => hx n hn i (hf.1 ▸ hi)) hδ hs
    cases s with
    | w idx =>
      show g.weightDerivs N x _ (.w idx) + g.reg.deriv (w (.w idx)) = g.weightDerivs N x' _ (.w idx) + g.reg.deriv (w' (.w idx))
      rw [hw _ hs, e]
    | b idx => exact e
  | sub g bias act reg =>
    have hδ : ∀ n < N, ∀ j < g.outputs, deltas act (act.map (g.subActivation bias w x)) ein n j =
        deltas act (act.map (g.subActivation bias w' x')) ein' n j := fun n hn j hj =>
      deltas_congr (hy n hn j hj) (he n hn j hj)
    have e := subDerivs_congr hf.2 (fun n hn i hi => hx n hn i (hf.1 ▸ hi)) hδ hs
    cases s with
    | w idx =>
      show g.subDerivs N x _ (.w idx) + reg.deriv (w (.w idx)) = g.subDerivs N x' _ (.w idx) + reg.deriv (w' (.w idx))
      rw [hw _ hs, e]
    | b idx => exact e
  | extreme => exact hs.elim
  | intrinsicPlasticity => exact hs.elim
  | dropout => exact hs.elim
  | maxPool => exact hs.elim
  | lrn => exact hs.elim

theorem rowArg_congr {n base k : ℕ} (h : ∀ i < k, x n (base + i) = x' n (base + i)) :
    Pool.rowArg x n base k = Pool.rowArg x' n base k := by
  induction k with
  | zero => rfl
  | succ k ih =>
    rw [Pool.rowArg, Pool.rowArg, ih fun i hi => h i (by omega), h k (by omega),
      rowMax_congr fun i hi => h i (by omega)]

/-- The error signal that a layer passes back depends only on its parameters, its input and the error signal that it gets. -/
theorem Kind.back_congr (hf : k.Fits I) (hv : k.Visible) (hw : ∀ s, k.IsParam I s → w s = w' s)
    (hx : ∀ n < N, ∀ i < I, x n i = x' n i) (he : ∀ n < N, ∀ j < (k.layer I).outputs, ein n j = ein' n j)
    (stale stale' : Batch) {n : ℕ} (hn : n < N) {i : ℕ} (hi : i < I) :
    (k.layer I).back w N x ein true stale n i = (k.layer I).back w' N x' ein' true stale' n i := by
  have hy : ∀ n < N, ∀ j < (k.layer I).outputs, (k.layer I).forward w N x n j = (k.layer I).forward w' N x' n j :=
    fun n hn j hj => k.forward_congr hf hv hw (hx n hn) hj
  cases k with
  | fullyConnected J bias act reg =>
    exact backSum_congr (fun j hj => deltas_congr (hy n hn j hj) (he n hn j hj))
      fun j hj => hw _ (Or.inl ⟨j, hj, i, hi, rfl⟩)
  | compressed J M bias act reg phi =>
    exact backSum_congr (fun j hj => deltas_congr (hy n hn j hj) (he n hn j hj))
      fun j hj => compressedW_congr (fun m hm => hw _ ⟨j, hj, m, hm, rfl⟩) i
  | extreme J bias act W =>
    exact backSum_congr (fun j hj => deltas_congr (hy n hn j hj) (he n hn j hj)) fun j hj => rfl
  | intrinsicPlasticity s b =>
    show Act.logistic.deriv (Act.logistic.apply (x n i * s i + b i)) * s i * ein n i =
      Act.logistic.deriv (Act.logistic.apply (x' n i * s i + b i)) * s i * ein' n i
    rw [hx n hn i hi, he n hn i hi]
  | rbm H backprop =>
    have hb : backprop = true := hv
    subst hb
    exact backSum_congr (fun j hj => deltas_congr (hy n hn j hj) (he n hn j hj))
      fun j hj => hw _ ⟨rfl, Or.inl ⟨j, hj, i, hi, rfl⟩⟩
  | sparseAutoEncoder H act lambda =>
    exact backSum_congr (fun j hj => deltas_congr (hy n hn j hj) (he n hn j hj))
      fun j hj => hw _ (Or.inl ⟨j, hj, i, hi, rfl⟩)
  | dropout mask =>
    show mask n i * ein n i = mask n i * ein' n i
    rw [he n hn i hi]
  | conv g =>
    exact conv_errorSignal_congr hf.2 hw (fun j hj => deltas_congr (hy n hn j hj) (he n hn j hj)) i
  | maxPool g =>
    show ∑ o ∈ range g.outputs, (if Pool.rowArg x n (g.base o) g.kernelCols = some i then ein n o else 0) =
      ∑ o ∈ range g.outputs, if Pool.rowArg x' n (g.base o) g.kernelCols = some i then ein' n o else 0
    refine sum_congr rfl fun o ho => ?_
    rw [mem_range] at ho
    rw [rowArg_congr fun i hi => hx n hn _ (by rw [← hf.1]; exact Pool.base_bound hf.2 ho hi), he n hn o ho]
  | sub g bias act reg =>
    exact subError_congr hf.2 hw (fun j hj => deltas_congr (hy n hn j hj) (he n hn j hj)) i
  | lrn g =>
    have hI : g.inputs = I := hf
    have hs : 0 < g.fmSize := by
      rcases Nat.eq_zero_or_pos g.fmSize with h | h
      · rw [← hI, LRN.inputs, Nat.mul_assoc, show g.rows * g.cols = 0 from h, Nat.mul_zero] at hi
        omega
      · exact h
    have hmap : ∀ n j m, m ∈ g.maps n (j / g.fmSize) → m * g.fmSize + j % g.fmSize < I := by
      intro n j m hm
      rw [LRN.maps, mem_Ico, lt_min_iff] at hm
      have h1 := Nat.mod_lt j hs
      have h2 : (m + 1) * g.fmSize ≤ g.fm * g.fmSize := Nat.mul_le_mul_right _ (by omega)
      rw [Nat.succ_mul] at h2
      rw [← hI, LRN.inputs, Nat.mul_assoc]
      exact lt_of_lt_of_le (by omega) h2
    have hd : ∀ n < N, ∀ j, g.denomAt x n j = g.denomAt x' n j := by
      intro n hn j
      rw [LRN.denomAt, LRN.denomAt, LRN.denom, LRN.denom]
      congr 2
      refine sum_congr rfl fun m hm => ?_
      rw [hx n hn _ (hmap n j m hm)]
    show x n i * _ + ein n i * g.denomAt x n i ^ (-g.beta) = x' n i * _ + ein' n i * g.denomAt x' n i ^ (-g.beta)
    rw [hx n hn i hi, he n hn i (hI.symm ▸ hi), hd n hn i]
    congr 2
    refine sum_congr rfl fun m hm => ?_
    have h1 := hmap n i m hm
    have h2 : (m * g.fmSize + i % g.fmSize) / N < I := lt_of_le_of_lt (Nat.div_le_self _ _) h1
    have h3 : (m * g.fmSize + i % g.fmSize) % N < N := Nat.mod_lt _ (by omega)
    generalize (m * g.fmSize + i % g.fmSize) / N = q at h2 ⊢
    generalize (m * g.fmSize + i % g.fmSize) % N = p at h3 ⊢
    rw [LRN.etmp, LRN.etmp, hd p h3 q, he p h3 q (hI.symm ▸ h2)]
    rw [show g.forward x p q = g.forward x' p q from hy p h3 q (hI.symm ▸ h2)]

end

/-! ## A network -/

theorem regFrom_congr {mem mem' : Mem} : ∀ (ks : List Kind) (I m : ℕ),
    (∀ l s, IsParamFrom I ks l s → mem (m + l) s = mem' (m + l) s) →
      regFrom mem m (layersFrom I ks) = regFrom mem' m (layersFrom I ks) := by
  intro ks
  induction ks with
  | nil => intro I m _; rfl
  | cons k ks ih =>
    intro I m hm
    have h0 : ∀ s, k.IsParam I s → mem m s = mem' m s := fun s hs => hm 0 s hs
    rw [layersFrom, regFrom, regFrom, Kind.regError_congr h0, ih _ (m + 1) fun l s hs => by
      have := hm (l + 1) s hs
      rwa [show m + (l + 1) = m + 1 + l by omega] at this]

/-- Backpropagation through the layers `ks` from index `m ≥ 1`. -/
theorem backFrom_congr {N : ℕ} {mem mem' : Mem} (stale stale' : ℕ → Batch) (d d' : Mem) : ∀ (ks : List Kind) (I m : ℕ),
    1 ≤ m → FitsFrom I ks → (∀ k ∈ ks, k.Visible) → (∀ l s, IsParamFrom I ks l s → mem (m + l) s = mem' (m + l) s) →
      ∀ (x x' e e' : Batch), (∀ n < N, ∀ i < I, x n i = x' n i) →
        (∀ n < N, ∀ j < outFrom I (layersFrom I ks), e n j = e' n j) →
        (2 ≤ m → ∀ n < N, ∀ i < I, (backFrom mem N stale m (layersFrom I ks) x e d).1 n i =
          (backFrom mem' N stale' m (layersFrom I ks) x' e' d').1 n i) ∧
        ∀ l s, IsParamFrom I ks l s → (backFrom mem N stale m (layersFrom I ks) x e d).2 (m + l) s =
          (backFrom mem' N stale' m (layersFrom I ks) x' e' d').2 (m + l) s := by
  intro ks
  induction ks with
  | nil =>
    intro I m _ _ _ _ x x' e e' _ he
    exact ⟨fun _ => he, fun l s hs => by simp [IsParamFrom] at hs⟩
  | cons k ks ih =>
    intro I m h1 hf hv hm x x' e e' hx he
    have hw : ∀ s, k.IsParam I s → mem m s = mem' m s := fun s hs => hm 0 s hs
    have hy : ∀ n < N, ∀ j < (k.layer I).outputs, (k.layer I).forward (mem m) N x n j = (k.layer I).forward (mem' m) N x' n j :=
      fun n hn j hj => k.forward_congr hf.1 (hv k List.mem_cons_self) hw (hx n hn) hj
    obtain ⟨ih1, ih2⟩ := ih (k.layer I).outputs (m + 1) (by omega) hf.2 (fun a ha => hv a (List.mem_cons_of_mem _ ha))
      (fun l s hs => by
        have := hm (l + 1) s hs
        rwa [show m + (l + 1) = m + 1 + l by omega] at this) _ _ e e' hy he
    replace ih1 := ih1 (by omega)
    refine ⟨fun h2 n hn i hi => ?_, fun l s hs => ?_⟩
    · show (k.layer I).back (mem m) N x _ (decide (m + 1 > 2)) (stale m) n i =
        (k.layer I).back (mem' m) N x' _ (decide (m + 1 > 2)) (stale' m) n i
      rw [decide_eq_true (by omega : m + 1 > 2)]
      exact k.back_congr hf.1 (hv k List.mem_cons_self) hw hx ih1 _ _ hn hi
    · cases l with
      | zero =>
        show (Function.update (β := fun _ => Weights) _ m _) m s = (Function.update (β := fun _ => Weights) _ m _) m s
        rw [Function.update_self, Function.update_self]
        exact k.derivs_congr hf.1 (hv k List.mem_cons_self) hw hx ih1 hs
      | succ l =>
        show (Function.update (β := fun _ => Weights) _ m _) (m + (l + 1)) s =
          (Function.update (β := fun _ => Weights) _ m _) (m + (l + 1)) s
        rw [Function.update_of_ne (by omega), Function.update_of_ne (by omega)]
        have := ih2 l s hs
        rwa [show m + 1 + l = m + (l + 1) by omega] at this

/-- Spec: two training sets agree on the examples `idx` in `D` inputs and `F` targets. -/
def TrainSet.Agree (D F : ℕ) (idx : List ℕ) (ds ds' : TrainSet) : Prop :=
  ∀ n ∈ idx, (∀ i < D, ds.inst n i = ds'.inst n i) ∧ ∀ j < F, ds.tgt n j = ds'.tgt n j

theorem loss_congr {net : Net} {N : ℕ} {Y Y' T T' : Batch} (hY : ∀ n < N, ∀ j < net.outputs, Y n j = Y' n j)
    (hT : ∀ n < N, ∀ j < net.outputs, T n j = T' n j) : net.loss N Y T = net.loss N Y' T' := by
  rw [Net.loss, Net.loss]
  split
  · rw [crossEntropy, crossEntropy, sum_congr rfl fun n hn => sum_congr rfl fun j hj => by
      rw [hT n (mem_range.1 hn) j (mem_range.1 hj), hY n (mem_range.1 hn) j (mem_range.1 hj)]]
  · rw [meanSquaredError, meanSquaredError, sum_congr rfl fun n hn => sum_congr rfl fun j hj => by
      rw [hT n (mem_range.1 hn) j (mem_range.1 hj), hY n (mem_range.1 hn) j (mem_range.1 hj)]]

section

variable {D : ℕ} {ks : List Kind} (ce : Bool) (hf : FitsFrom D ks) (hv : ∀ k ∈ ks, k.Visible) (mem mem' : Mem) {θ : List ℝ}
  (hθ : (buildNet D ks ce).P ≤ θ.length)

include hf hv hθ

/-- **C72 (gradient)**: for every architecture whose weights are all in the parameter vector, value and gradient that
`errorGradient` returns for any examples are functions of the parameter vector and these examples: earlier parameters, earlier
contents of the derivative and error buffers and other examples have no influence. -/
theorem errorGradient_determined (sc sc' : Scratch) {ds ds' : TrainSet} {idx : List ℕ}
    (hds : TrainSet.Agree D (buildNet D ks ce).outputs idx ds ds') :
    (buildNet D ks ce).errorGradient ((buildNet D ks ce).setParameters mem θ) sc ds idx =
      (buildNet D ks ce).errorGradient ((buildNet D ks ce).setParameters mem' θ) sc' ds' idx := by
  set net := buildNet D ks ce with hnet
  have hm : ∀ l s, IsParamFrom D ks l s → net.setParameters mem θ (l + 1) s = net.setParameters mem' θ (l + 1) s :=
    fun l s hs => setParameters_determined ce mem mem' hθ hs
  have hm' : ∀ l s, IsParamFrom D ks l s → net.setParameters mem θ (1 + l) s = net.setParameters mem' θ (1 + l) s :=
    fun l s hs => by rw [Nat.add_comm]; exact hm l s hs
  have hX : ∀ n < idx.length, ∀ i < D, selectRows ds.inst idx n i = selectRows ds'.inst idx n i :=
    fun n hn i hi => (hds _ (getD_mem hn)).1 i hi
  have hT : ∀ n < idx.length, ∀ j < net.outputs, selectRows ds.tgt idx n j = selectRows ds'.tgt idx n j :=
    fun n hn j hj => (hds _ (getD_mem hn)).2 j hj
  have hY : ∀ n < idx.length, ∀ j < net.outputs,
      net.output (net.setParameters mem θ) idx.length (selectRows ds.inst idx) n j =
        net.output (net.setParameters mem' θ) idx.length (selectRows ds'.inst idx) n j :=
    fun n hn j hj => predictAll_congr ce hf hv hm idx.length (hX n hn) hj
  have hval : net.value (net.setParameters mem θ) idx.length (selectRows ds.inst idx) (selectRows ds.tgt idx) =
      net.value (net.setParameters mem' θ) idx.length (selectRows ds'.inst idx) (selectRows ds'.tgt idx) := by
    rw [Net.value, Net.value, loss_congr hY hT]
    congr 1
    show 0 + regFrom _ 1 _ = 0 + regFrom _ 1 _
    rw [regFrom_congr ks D 1 hm']
  have hgrad : net.grad (net.setParameters mem θ) sc idx.length (selectRows ds.inst idx) (selectRows ds.tgt idx) =
      net.grad (net.setParameters mem' θ) sc' idx.length (selectRows ds'.inst idx) (selectRows ds'.tgt idx) := by
    rw [Net.grad, Net.grad]
    refine List.map_congr_left fun p hp => ?_
    congr 1
    rw [(parameters_one_to_one D ks ce).2.2.2.1, show net.parameters = locsFrom 1 (layersFrom D ks) from rfl] at hp
    have h1 := locsFrom_index hp
    obtain ⟨l, s⟩ := p
    obtain ⟨l, rfl⟩ : ∃ l', l = 1 + l' := ⟨l - 1, by simp only at h1; omega⟩
    have key := (backFrom_congr sc.stale sc'.stale sc.derivs sc'.derivs ks D 1 le_rfl hf hv hm'
      (selectRows ds.inst idx) (selectRows ds'.inst idx)
      (fun n j => net.output (net.setParameters mem θ) idx.length (selectRows ds.inst idx) n j - selectRows ds.tgt idx n j)
      (fun n j =>
        net.output (net.setParameters mem' θ) idx.length (selectRows ds'.inst idx) n j - selectRows ds'.tgt idx n j)
      hX (fun n hn j hj => by
        rw [← outputs_buildNet D ks ce] at hj
        rw [hY n hn j hj, hT n hn j hj])).2 l s (mem_locs_layersFrom.1 hp)
    show (Function.update (β := fun _ => Weights) _ 0 _) (1 + l) s = (Function.update (β := fun _ => Weights) _ 0 _) (1 + l) s
    rw [Function.update_of_ne (by omega), Function.update_of_ne (by omega)]
    exact key
  rw [Net.errorGradient, Net.errorGradient, hval, hgrad]

/-- **C72 (error of one example)** -/
theorem errorAt_determined {ds ds' : TrainSet} {n : ℕ} (hds : TrainSet.Agree D (buildNet D ks ce).outputs [n] ds ds') :
    (buildNet D ks ce).errorAt ((buildNet D ks ce).setParameters mem θ) ds n =
      (buildNet D ks ce).errorAt ((buildNet D ks ce).setParameters mem' θ) ds' n := by
  set net := buildNet D ks ce with hnet
  have hm : ∀ l s, IsParamFrom D ks l s → net.setParameters mem θ (l + 1) s = net.setParameters mem' θ (l + 1) s :=
    fun l s hs => setParameters_determined ce mem mem' hθ hs
  have hm' : ∀ l s, IsParamFrom D ks l s → net.setParameters mem θ (1 + l) s = net.setParameters mem' θ (1 + l) s :=
    fun l s hs => by rw [Nat.add_comm]; exact hm l s hs
  obtain ⟨h1, h2⟩ := hds n (by simp)
  rw [Net.errorAt, Net.errorAt, loss_congr (Y' := net.output (net.setParameters mem' θ) 1 fun _ => ds'.inst n)
    (T' := fun _ => ds'.tgt n)]
  · congr 1
    show 0 + regFrom _ 1 _ = 0 + regFrom _ 1 _
    rw [regFrom_congr ks D 1 hm']
  · intro i _ j hj
    exact predictAll_congr ce hf hv hm 1 (X := fun _ => ds.inst n) (X' := fun _ => ds'.inst n) (n := i) h1 hj
  · intro i _ j hj
    exact h2 j hj

/-- **C72 (error)** -/
theorem error_determined {ds ds' : TrainSet} (hs : ds.samples = ds'.samples)
    (hds : TrainSet.Agree D (buildNet D ks ce).outputs (List.range ds.samples) ds ds') :
    (buildNet D ks ce).error ((buildNet D ks ce).setParameters mem θ) ds =
      (buildNet D ks ce).error ((buildNet D ks ce).setParameters mem' θ) ds' := by
  rw [Net.error, Net.error, ← hs]
  refine List.foldl_ext _ _ _ fun e n hn => ?_
  rw [errorAt_determined ce hf hv mem mem' hθ (ds := ds) (ds' := ds') (n := n) fun k hk => hds k (by
    rw [List.mem_singleton] at hk
    rw [hk]
    exact hn)]

end

/-- The hypotheses are met by a network with a convolution, pooling and a constrained layer and a vector with 29 entries. -/
example (mem mem' : Mem) (sc sc' : Scratch) (ds : TrainSet) (θ : List ℝ) (h : θ.length = 29) :
    let net := buildNet 16 [.conv ⟨1, 4, 4, 2, 3, 3, true, .tanh, ⟨0, 0, 0⟩⟩, .maxPool ⟨2, 2, 2, 2, 2⟩,
      .fullyConnected 3 true .linear ⟨0, 0, 1⟩] true
    net.errorGradient (net.setParameters mem θ) sc ds [2, 0, 1] = net.errorGradient (net.setParameters mem' θ) sc' ds [2, 0, 1] := by
  intro net
  have hf : FitsFrom 16 [.conv ⟨1, 4, 4, 2, 3, 3, true, .tanh, ⟨0, 0, 0⟩⟩, .maxPool ⟨2, 2, 2, 2, 2⟩,
      .fullyConnected 3 true .linear ⟨0, 0, 1⟩] := by
    refine ⟨⟨rfl, ?_⟩, ⟨rfl, ?_⟩, trivial, trivial⟩
    · unfold Conv.Valid; decide
    · unfold Pool.Valid; decide
  refine errorGradient_determined true hf ?_ mem mem' (le_of_eq h.symm) sc sc' fun n _ => ⟨fun _ _ => rfl, fun _ _ => rfl⟩
  intro k hk
  simp only [List.mem_cons, List.not_mem_nil, or_false] at hk
  rcases hk with rfl | rfl | rfl <;> trivial

end

end Verif.NN
