import Verif.Props.Conv

/-!
# Backpropagation through a convolutional layer
-/

namespace Verif.NN

open Finset

noncomputable section

theorem sum_rot (A D E : Finset ℕ) (f : ℕ → ℕ → ℕ → ℝ) :
    ∑ a ∈ A, ∑ d ∈ D, ∑ e ∈ E, f a d e = ∑ d ∈ D, ∑ e ∈ E, ∑ a ∈ A, f a d e := by
  rw [Finset.sum_comm]
  exact Finset.sum_congr rfl fun d _ => Finset.sum_comm

/-- Scattering values `v c` to the entries `o c` of a row of length `O` and taking the inner product with `u`. -/
theorem inner_scatter {ι : Type} (S : Finset ι) (o : ι → ℕ) {O : ℕ} (ho : ∀ c ∈ S, o c < O) (u : ℕ → ℝ) (v : ι → ℝ) :
    ∑ q ∈ range O, u q * ∑ c ∈ S, (if o c = q then v c else 0) = ∑ c ∈ S, u (o c) * v c := by
  simp only [Finset.mul_sum]
  rw [Finset.sum_comm]
  refine Finset.sum_congr rfl fun c hc => ?_
  rw [Finset.sum_eq_single (o c)]
  · rw [if_pos rfl]
  · intro q _ hne
    rw [if_neg (fun e => hne e.symm), mul_zero]
  · intro hn
    exact absurd (mem_range.2 (ho c hc)) hn

namespace Conv

variable {g : Conv}

theorem sum_slots (g : Conv) (f : Slot → ℝ) :
    (g.slots.map f).sum = ∑ fmo ∈ range g.fmout, ∑ fmi ∈ range g.fmin,
      (∑ kr ∈ range g.kernelRows, ∑ kc ∈ range g.kernelCols, f (.w [fmo, fmi, kr, kc]) +
        if g.bias then f (.b [fmo, fmi]) else 0) := by
  rw [slots, sum_flatMap_range]
  refine Finset.sum_congr rfl fun fmo _ => ?_
  rw [sum_flatMap_range]
  refine Finset.sum_congr rfl fun fmi _ => ?_
  rw [List.map_append, List.sum_append, sum_flatMap_range]
  congr 1
  · refine Finset.sum_congr rfl fun kr _ => ?_
    rw [List.map_map, sum_map_range]
    rfl
  · cases g.bias <;> simp

theorem mem_slots_w {fmo fmi kr kc : ℕ} (h1 : fmo < g.fmout) (h2 : fmi < g.fmin) (h3 : kr < g.kernelRows)
    (h4 : kc < g.kernelCols) : Slot.w [fmo, fmi, kr, kc] ∈ g.slots := by
  simp only [slots, List.mem_flatMap, List.mem_append, List.mem_map, List.mem_range]
  exact ⟨fmo, h1, fmi, h2, Or.inl ⟨kr, h3, kc, h4, rfl⟩⟩

theorem mem_slots_b {fmo fmi : ℕ} (h1 : fmo < g.fmout) (h2 : fmi < g.fmin) (hb : g.bias = true) :
    Slot.b [fmo, fmi] ∈ g.slots := by
  simp only [slots, List.mem_flatMap, List.mem_append, List.mem_map, List.mem_range]
  exact ⟨fmo, h1, fmi, h2, Or.inr (by rw [hb]; simp)⟩

theorem inIdx_lt (h : g.Valid) {fmi row col kr kc : ℕ} (hf : fmi < g.fmin) (hr : row < g.maxRow) (hc : col < g.maxCol)
    (hk : kr < g.kernelRows) (hkc : kc < g.kernelCols) : g.inIdx fmi (row + kr) (col + kc) < g.inputs := by
  have := inIdx_bound h hf hr hc hk
  have e : g.inIdx fmi (row + kr) (col + kc) = g.inIdx fmi (row + kr) col + kc := by simp only [inIdx]; ring
  rw [e]
  omega

/-- Change of the kernel-weighted window. -/
def windowDot (g : Conv) (w w' : Weights) (x x' : Batch) (n fmo fmi row col : ℕ) : ℝ :=
  ∑ kr ∈ range g.kernelRows, ∑ kc ∈ range g.kernelCols,
    (w' (.w [fmo, fmi, kr, kc]) * x n (g.inIdx fmi (row + kr) (col + kc)) +
      w (.w [fmo, fmi, kr, kc]) * x' n (g.inIdx fmi (row + kr) (col + kc)))

/-- Change of the activations. -/
def activationDot (g : Conv) (w w' : Weights) (x x' : Batch) : Batch := fun n o =>
  ∑ fmo ∈ range g.fmout, ∑ fmi ∈ range g.fmin, ∑ row ∈ range g.maxRow, ∑ col ∈ range g.maxCol,
    if g.outIdx fmo row col = o then
      g.windowDot w w' x x' n fmo fmi row col + (if g.bias then w' (.b [fmo, fmi]) else 0)
    else 0

theorem activation_hasDerivAt (h : g.Valid) {N : ℕ} {w : ℝ → Weights} {x : ℝ → Batch} {w' : Weights} {x' : Batch}
    {t0 : ℝ} (hw : ∀ s ∈ g.slots, HasDerivAt (fun t => w t s) (w' s) t0)
    (hx : ∀ n < N, ∀ i < g.inputs, HasDerivAt (fun t => x t n i) (x' n i) t0) (n : ℕ) (hn : n < N) (o : ℕ) :
    HasDerivAt (fun t => g.activation (w t) (x t) n o) (g.activationDot (w t0) w' (x t0) x' n o) t0 := by
  refine HasDerivAt.fun_sum fun fmo ho => HasDerivAt.fun_sum fun fmi hf => HasDerivAt.fun_sum fun row hr =>
    HasDerivAt.fun_sum fun col hc => ?_
  rw [mem_range] at ho hf hr hc
  by_cases e : g.outIdx fmo row col = o
  · simp only [if_pos e]
    refine HasDerivAt.add ?_ ?_
    · refine HasDerivAt.fun_sum fun kr hkr => HasDerivAt.fun_sum fun kc hkc => ?_
      rw [mem_range] at hkr hkc
      exact (hw _ (mem_slots_w ho hf hkr hkc)).mul (hx n hn _ (inIdx_lt h hf hr hc hkr hkc))
    · cases hb : g.bias with
      | true => simpa using hw _ (mem_slots_b ho hf hb)
      | false => simpa using hasDerivAt_const t0 (0 : ℝ)
  · simp only [if_neg e]
    exact hasDerivAt_const t0 0

theorem conv_adjoint (h : g.Valid) (N : ℕ) (w w' : Weights) (x x' δ : Batch) :
    inner N g.outputs δ (g.activationDot w w' x x') =
      inner N g.inputs (g.errorSignal w δ) x' + (g.slots.map fun s => g.weightDerivs N x δ s * w' s).sum := by
  have hin : inner N g.outputs δ (g.activationDot w w' x x') =
      ∑ n ∈ range N, ∑ fmo ∈ range g.fmout, ∑ fmi ∈ range g.fmin, ∑ row ∈ range g.maxRow, ∑ col ∈ range g.maxCol,
        δ n (g.outIdx fmo row col) *
          (g.windowDot w w' x x' n fmo fmi row col + (if g.bias then w' (.b [fmo, fmi]) else 0)) := by
    refine Finset.sum_congr rfl fun n _ => ?_
    have := inner_scatter (range g.fmout ×ˢ range g.fmin ×ˢ range g.maxRow ×ˢ range g.maxCol)
      (fun c => g.outIdx c.1 c.2.2.1 c.2.2.2) (O := g.outputs) (fun c hc => by
        simp only [mem_product, mem_range] at hc
        exact outIdx_lt h hc.1 hc.2.2.1 hc.2.2.2) (δ n)
      (fun c => g.windowDot w w' x x' n c.1 c.2.1 c.2.2.1 c.2.2.2 + (if g.bias then w' (.b [c.1, c.2.1]) else 0))
    simp only [Finset.sum_product] at this
    exact this
  have hback : inner N g.inputs (g.errorSignal w δ) x' =
      ∑ n ∈ range N, ∑ fmo ∈ range g.fmout, ∑ fmi ∈ range g.fmin, ∑ row ∈ range g.maxRow, ∑ col ∈ range g.maxCol,
        ∑ kr ∈ range g.kernelRows, ∑ kc ∈ range g.kernelCols,
          x' n (g.inIdx fmi (row + kr) (col + kc)) * (w (.w [fmo, fmi, kr, kc]) * δ n (g.outIdx fmo row col)) := by
    refine Finset.sum_congr rfl fun n _ => ?_
    have := inner_scatter (range g.fmout ×ˢ range g.fmin ×ˢ range g.maxRow ×ˢ range g.maxCol ×ˢ range g.kernelRows ×ˢ
        range g.kernelCols)
      (fun c => g.inIdx c.2.1 (c.2.2.1 + c.2.2.2.2.1) (c.2.2.2.1 + c.2.2.2.2.2)) (O := g.inputs) (fun c hc => by
        simp only [mem_product, mem_range] at hc
        exact inIdx_lt h hc.2.1 hc.2.2.1 hc.2.2.2.1 hc.2.2.2.2.1 hc.2.2.2.2.2) (x' n)
      (fun c => w (.w [c.1, c.2.1, c.2.2.2.2.1, c.2.2.2.2.2]) * δ n (g.outIdx c.1 c.2.2.1 c.2.2.2.1))
    simp only [Finset.sum_product] at this
    rw [← this]
    refine Finset.sum_congr rfl fun p _ => ?_
    rw [errorSignal, mul_comm]
  have hW : (g.slots.map fun s => g.weightDerivs N x δ s * w' s).sum =
      ∑ n ∈ range N, ∑ fmo ∈ range g.fmout, ∑ fmi ∈ range g.fmin, ∑ row ∈ range g.maxRow, ∑ col ∈ range g.maxCol,
        (∑ kr ∈ range g.kernelRows, ∑ kc ∈ range g.kernelCols,
          δ n (g.outIdx fmo row col) * x n (g.inIdx fmi (row + kr) (col + kc)) * w' (.w [fmo, fmi, kr, kc]) +
          δ n (g.outIdx fmo row col) * (if g.bias then w' (.b [fmo, fmi]) else 0)) := by
    rw [sum_slots, Finset.sum_comm (s := range N)]
    refine Finset.sum_congr rfl fun fmo _ => ?_
    rw [Finset.sum_comm (s := range N)]
    refine Finset.sum_congr rfl fun fmi _ => ?_
    simp only [Finset.sum_add_distrib]
    congr 1
    · simp only [weightDerivs, Finset.sum_mul]
      symm
      calc ∑ n ∈ range N, ∑ row ∈ range g.maxRow, ∑ col ∈ range g.maxCol, ∑ kr ∈ range g.kernelRows,
            ∑ kc ∈ range g.kernelCols,
              δ n (g.outIdx fmo row col) * x n (g.inIdx fmi (row + kr) (col + kc)) * w' (.w [fmo, fmi, kr, kc])
          = ∑ n ∈ range N, ∑ row ∈ range g.maxRow, ∑ kr ∈ range g.kernelRows, ∑ kc ∈ range g.kernelCols,
            ∑ col ∈ range g.maxCol,
              δ n (g.outIdx fmo row col) * x n (g.inIdx fmi (row + kr) (col + kc)) * w' (.w [fmo, fmi, kr, kc]) :=
            Finset.sum_congr rfl fun n _ => Finset.sum_congr rfl fun row _ => sum_rot _ _ _ _
        _ = ∑ n ∈ range N, ∑ kr ∈ range g.kernelRows, ∑ kc ∈ range g.kernelCols, ∑ row ∈ range g.maxRow,
            ∑ col ∈ range g.maxCol,
              δ n (g.outIdx fmo row col) * x n (g.inIdx fmi (row + kr) (col + kc)) * w' (.w [fmo, fmi, kr, kc]) :=
            Finset.sum_congr rfl fun n _ => sum_rot _ _ _ _
        _ = _ := sum_rot _ _ _ _
    · cases g.bias with
      | true => simp only [if_true, weightDerivs, Finset.sum_mul]
      | false => simp
  rw [hin, hback, hW]
  simp only [← Finset.sum_add_distrib]
  refine Finset.sum_congr rfl fun n _ => Finset.sum_congr rfl fun fmo _ => Finset.sum_congr rfl fun fmi _ =>
    Finset.sum_congr rfl fun row _ => Finset.sum_congr rfl fun col _ => ?_
  rw [mul_add, ← add_assoc, ← Finset.sum_add_distrib]
  congr 1
  rw [windowDot, Finset.mul_sum]
  refine Finset.sum_congr rfl fun kr _ => ?_
  rw [Finset.mul_sum, ← Finset.sum_add_distrib]
  refine Finset.sum_congr rfl fun kc _ => ?_
  ring

/-- A convolutional layer obeys the law of backpropagation wherever its activation function is differentiable. -/
theorem conv_backprop (h : g.Valid) {N : ℕ} {w0 : Weights} {x0 : Batch}
    (hs : Smooth g.act N g.outputs (g.activation w0 x0))
    (hr : ∀ fmo < g.fmout, ∀ fmi < g.fmin, ∀ kr < g.kernelRows, ∀ kc < g.kernelCols,
      g.reg.Smooth (w0 (.w [fmo, fmi, kr, kc]))) :
    BackpropAt g.layer N w0 x0 := by
  refine ⟨rfl, ?_⟩
  intro w x t0 w' x' hw0 hx0 hw _ hx
  subst hw0 hx0
  have ha := fun n hn j (_ : j < g.outputs) => activation_hasDerivAt h hw hx n hn j
  have hR : HasDerivAt (fun t => g.layer.regError (w t))
      (∑ fmo ∈ range g.fmout, ∑ fmi ∈ range g.fmin, ∑ kr ∈ range g.kernelRows, ∑ kc ∈ range g.kernelCols,
        g.reg.deriv (w t0 (.w [fmo, fmi, kr, kc])) * w' (.w [fmo, fmi, kr, kc])) t0 := by
    have := reg_hasDerivAt_set (r := g.reg)
      (S := range g.fmout ×ˢ range g.fmin ×ˢ range g.kernelRows ×ˢ range g.kernelCols)
      (v := fun t c => w t (.w [c.1, c.2.1, c.2.2.1, c.2.2.2])) (v' := fun c => w' (.w [c.1, c.2.1, c.2.2.1, c.2.2.2]))
      (t0 := t0)
      (fun c hc => by
        simp only [mem_product, mem_range] at hc
        exact hw _ (mem_slots_w hc.1 hc.2.1 hc.2.2.1 hc.2.2.2))
      (fun c hc => by
        simp only [mem_product, mem_range] at hc
        exact hr _ hc.1 _ hc.2.1 _ hc.2.2.1 _ hc.2.2.2)
    simp only [Finset.sum_product] at this
    exact this
  refine ⟨_, _, fun n hn j hj => map_hasDerivAt (a := fun t => g.activation (w t) (x t)) hs ha hn hj, hR,
    fun ein stale => ?_⟩
  set δ := deltas g.act (g.act.map (g.activation (w t0) (x t0))) ein with hδ
  have e1 : inner N g.outputs ein (fun n j => g.act.deriv (g.act.map (g.activation (w t0) (x t0)) n j) *
      g.activationDot (w t0) w' (x t0) x' n j) = _ :=
    (inner_deltas N g.outputs g.act _ ein _).trans (conv_adjoint h N (w t0) w' (x t0) x' δ)
  show inner N g.outputs ein _ + _ = inner N g.inputs (g.errorSignal (w t0) δ) x' + (g.slots.map _).sum
  rw [e1, add_assoc]
  congr 1
  rw [sum_slots, sum_slots, ← Finset.sum_add_distrib]
  refine Finset.sum_congr rfl fun fmo _ => ?_
  rw [← Finset.sum_add_distrib]
  refine Finset.sum_congr rfl fun fmi _ => ?_
  simp only [layer, ← hδ, add_mul, Finset.sum_add_distrib]
  ring

end Conv

end

end Verif.NN
