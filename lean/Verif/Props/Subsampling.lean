import Verif.Props.MaxPool

/-!
# Subsampling: C25
-/

namespace Verif.NN

open Finset

namespace Pool

variable {g : Pool}

noncomputable section

theorem setEntry_add (a : Batch) (n o : ℕ) (v : ℝ) : setEntry a n o (a n o + v) = a + Conv.single n o v :=
  Conv.setEntry_add a n o v

/-- Buffers with one entry. -/
def wsingle (sl : Slot) (v : ℝ) : Weights := fun s => if s = sl then v else 0

theorem update_add (f : Weights) (sl : Slot) (v : ℝ) : Function.update f sl (f sl + v) = f + wsingle sl v := by
  funext s
  simp only [wsingle, Pi.add_apply]
  by_cases h : s = sl
  · rw [h, Function.update_self, if_pos rfl]
  · rw [Function.update_of_ne h, if_neg h, add_zero]

/-! ## Forward pass -/

theorem sumLoop_eq {wt : ℝ} {x : Batch} {n base : ℕ} (hb : ∀ kc < g.kernelCols, base + kc < g.inputs) (v : ℝ) :
    g.sumLoop wt x n base v = .ok (v + g.rowSum x n base * wt) := by
  have inner : ∀ v, forLoop g.kernelCols (fun _ (s : ℝ × ℕ) =>
      if s.2 < g.inputs then Outcome.ok (s.1 + x n s.2 * wt, s.2 + 1) else .ub) (v, base) =
      .ok (v + ∑ kc ∈ range g.kernelCols, x n (base + kc) * wt, base + g.kernelCols * 1) := by
    intro v
    refine forLoop_acc base 1 (fun kc => x n (base + kc) * wt) (fun kc hk s => ?_) v
    simp only [Nat.mul_one, if_pos (hb kc hk)]
    rfl
  have := forLoop_add (n := g.kernelRows) (body := fun (_ : ℕ) (v : ℝ) => do
      let r ← forLoop g.kernelCols (fun _ (s : ℝ × ℕ) =>
        if s.2 < g.inputs then .ok (s.1 + x n s.2 * wt, s.2 + 1) else .ub) (v, base)
      pure r.1) (fun _ => ∑ kc ∈ range g.kernelCols, x n (base + kc) * wt) (fun i _ s => by
    rw [inner s]
    rfl) v
  rw [sumLoop, this, rowSum]
  simp only [Finset.sum_mul]

/-- **C25.** The forward pass stays within all arrays and writes every output. -/
theorem sub_forward (h : g.Valid) (bias : Bool) (w : Weights) (N : ℕ) (x : Batch) :
    ∃ a, g.subForward bias w N x = .ok a ∧ ∀ n < N, ∀ o < g.outputs, a n o = g.subActivation bias w x n o := by
  have hrow : ∀ n < N, ∀ a : Batch, g.windowLoop (fun fmo ro co base outputIdx a =>
      if outputIdx < g.outputs ∧ fmo < g.fm ∧ ro < g.outRows ∧ co < g.outCols then do
        let v ← g.sumLoop (w (.w [fmo, ro, co])) x n base (a n outputIdx)
        pure (setEntry a n outputIdx (if bias then v + w (.b [fmo, ro, co]) else v))
      else .ub) a = .ok (a + ∑ o ∈ range g.outputs, Conv.single n o (g.subActivation bias w x n o)) := by
    intro n _ a
    rw [windowLoop_eq h]
    refine forLoop_add (α := Batch) _ (fun o ho s => ?_) a
    rw [if_pos ⟨ho, mapOf_lt ho, rowOf_lt h o, colOf_lt h o⟩, sumLoop_eq fun kc hk => base_bound h ho hk, Outcome.ok_bind,
      Outcome.pure_eq, ← setEntry_add]
    congr 2
    rw [subActivation]
    cases bias <;> simp [add_assoc]
  have := forLoop_add (α := Batch) _ hrow (fun _ _ => 0)
  refine ⟨_, this, fun n hn o ho => ?_⟩
  rw [Pi.add_apply, Pi.add_apply, zero_add]
  simp only [Finset.sum_apply, Conv.single]
  rw [Finset.sum_eq_single n, Finset.sum_eq_single o]
  · rw [if_pos ⟨rfl, rfl⟩]
  · intro o' _ hne
    rw [if_neg fun e => hne e.2.symm]
  · intro hn'
    exact absurd (mem_range.2 ho) hn'
  · intro n' _ hne
    exact Finset.sum_eq_zero fun o' _ => if_neg fun e => hne e.1.symm
  · intro hn'
    exact absurd (mem_range.2 hn) hn'

/-- What the layer computes: the first row of the window, counted once per row of the kernel. -/
theorem sub_output (h : g.Valid) (bias : Bool) (w : Weights) (x : Batch) {n m r c : ℕ}
    (hr : r < g.outRows) (hc : c < g.outCols) :
    g.subActivation bias w x n (m * (g.outRows * g.outCols) + r * g.outCols + c) =
      w (.w [m, r, c]) * (g.kernelRows * ∑ kc ∈ range g.kernelCols, g.windowValue x n m r c 0 kc) +
        (if bias then w (.b [m, r, c]) else 0) := by
  obtain ⟨h1, h2, h3⟩ := of_outIdx h (fmo := m) hr hc
  show g.subActivation bias w x n (g.outIdx m r c) = _
  rw [subActivation, h1, h2, h3, rowSum]
  simp only [windowValue_first h x n hr hc, Finset.sum_const, card_range, nsmul_eq_mul]
  ring

/-- **C25, for kernels with one row.**  Missing: kernels with more rows, for which the statement is false (`sub_fails`). -/
theorem sub_output_partial (h : g.Valid) (h1 : g.kernelRows = 1) (bias : Bool) (act : Act) (reg : Reg) (w : Weights)
    (N : ℕ) (x : Batch) {n m r c : ℕ} (hr : r < g.outRows) (hc : c < g.outCols) :
    (g.subLayer bias act reg).forward w N x n (m * (g.outRows * g.outCols) + r * g.outCols + c) =
      act.apply (w (.w [m, r, c]) *
          (∑ kr ∈ range g.kernelRows, ∑ kc ∈ range g.kernelCols, g.windowValue x n m r c kr kc) +
        (if bias then w (.b [m, r, c]) else 0)) := by
  show act.apply (g.subActivation bias w x n _) = _
  rw [sub_output h bias w x hr hc, h1]
  simp

/-- No activation function takes the same value at 0 and 1. -/
theorem act_zero_one (act : Act) : act.apply 0 ≠ act.apply 1 := by
  cases act with
  | logistic =>
    simp only [Act.apply]
    rw [if_neg (by norm_num), if_neg (by norm_num), if_neg (by norm_num), if_neg (by norm_num)]
    intro e
    have h1 : Real.exp (-0) ≠ Real.exp (-1) := fun e => by
      have := Real.exp_injective e
      norm_num at this
    have h2 := Real.exp_pos (-0)
    have h3 := Real.exp_pos (-1)
    rw [div_eq_div_iff (by positivity) (by positivity)] at e
    apply h1
    linarith
  | tanh => exact (tanh_strictMono (by norm_num : (0 : ℝ) < 1)).ne
  | tanhScaled =>
    have := tanh_strictMono (by norm_num : (0.66666667 * 0 : ℝ) < 0.66666667 * 1)
    simp only [Act.apply]
    intro e
    have h2 := mul_left_cancel₀ (by norm_num : (1.7159 : ℝ) ≠ 0) e
    exact this.ne h2
  | rectifier => simp [Act.apply]
  | linear => simp [Act.apply]

/-- **C25 is false** for every kernel with more than one row, every activation function and every window. -/
theorem sub_fails (h : g.Valid) (h2 : 2 ≤ g.kernelRows) (bias : Bool) (act : Act) (reg : Reg) (N : ℕ) {n m r c : ℕ}
    (hr : r < g.outRows) (hc : c < g.outCols) :
    ∃ (w : Weights) (x : Batch),
      (g.subLayer bias act reg).forward w N x n (m * (g.outRows * g.outCols) + r * g.outCols + c) ≠
        act.apply (w (.w [m, r, c]) *
            (∑ kr ∈ range g.kernelRows, ∑ kc ∈ range g.kernelCols, g.windowValue x n m r c kr kc) +
          (if bias then w (.b [m, r, c]) else 0)) := by
  refine ⟨fun s => if s = .w [m, r, c] then 1 else 0,
    spike (m * (g.inRows * g.inCols) + (r * g.kernelRows + 1) * g.inCols + (c * g.kernelCols + 0)), ?_⟩
  have hval : ∀ kr < g.kernelRows, ∀ kc < g.kernelCols, g.windowValue (spike (m * (g.inRows * g.inCols) +
      (r * g.kernelRows + 1) * g.inCols + (c * g.kernelCols + 0))) n m r c kr kc =
      if kr = 1 ∧ kc = 0 then 1 else 0 := by
    intro kr hkr kc hkc
    simp only [windowValue, spike]
    by_cases e : kr = 1 ∧ kc = 0
    · rw [if_pos e, e.1, e.2, if_pos rfl]
    · rw [if_neg e, if_neg]
      intro e'
      exact e (window_inj hr hc hkr hkc hr hc (by omega) h.2.2.1 e').2
  show act.apply (g.subActivation bias _ _ n _) ≠ _
  rw [sub_output h bias _ _ hr hc]
  have h0 : ∑ kc ∈ range g.kernelCols, g.windowValue (spike (m * (g.inRows * g.inCols) +
      (r * g.kernelRows + 1) * g.inCols + (c * g.kernelCols + 0))) n m r c 0 kc = 0 := by
    refine Finset.sum_eq_zero fun kc hkc => ?_
    rw [hval 0 h.1 kc (mem_range.1 hkc), if_neg (by omega)]
  have h1 : ∑ kr ∈ range g.kernelRows, ∑ kc ∈ range g.kernelCols, g.windowValue (spike (m * (g.inRows * g.inCols) +
      (r * g.kernelRows + 1) * g.inCols + (c * g.kernelCols + 0))) n m r c kr kc = 1 := by
    rw [Finset.sum_eq_single 1, Finset.sum_eq_single 0]
    · rw [hval 1 (by omega) 0 h.2.2.1, if_pos ⟨rfl, rfl⟩]
    · intro kc hkc hne
      rw [hval 1 (by omega) kc (mem_range.1 hkc), if_neg fun e => hne e.2]
    · intro hn
      exact absurd (mem_range.2 h.2.2.1) hn
    · intro kr hkr hne
      refine Finset.sum_eq_zero fun kc hkc => ?_
      rw [hval kr (mem_range.1 hkr) kc (mem_range.1 hkc), if_neg fun e => hne e.1]
    · intro hn
      exact absurd (mem_range.2 (show 1 < g.kernelRows by omega)) hn
  rw [h0, h1]
  have hb : (if bias = true then (if Slot.b [m, r, c] = Slot.w [m, r, c] then (1 : ℝ) else 0) else 0) = 0 := by
    cases bias <;> simp
  simp only [hb, if_true, mul_zero, mul_one, add_zero]
  exact act_zero_one act

/-! ## Backward pass -/

/-- What one window adds to the error buffer and the derivative buffers. -/
def subTerm (g : Pool) (wt d : ℝ) (sl : Slot) (x : Batch) (n base : ℕ) : Batch × Weights :=
  ∑ _kr ∈ range g.kernelRows, ∑ kc ∈ range g.kernelCols,
    (Conv.single n (base + kc) (wt * d), wsingle sl (d * x n (base + kc)))

theorem backLoop_eq {wt d : ℝ} {sl : Slot} {x : Batch} {n base : ℕ} (hb : ∀ kc < g.kernelCols, base + kc < g.inputs)
    (s : Batch × Weights) : g.backLoop wt d sl x n base s = .ok (s + g.subTerm wt d sl x n base) := by
  have inner : ∀ s, forLoop g.kernelCols (fun _ (s : (Batch × Weights) × ℕ) =>
      if s.2 < g.inputs then
        Outcome.ok ((setEntry s.1.1 n s.2 (s.1.1 n s.2 + wt * d), Function.update s.1.2 sl (s.1.2 sl + d * x n s.2)), s.2 + 1)
      else .ub) (s, base) =
      .ok (s + ∑ kc ∈ range g.kernelCols, (Conv.single n (base + kc) (wt * d), wsingle sl (d * x n (base + kc))),
        base + g.kernelCols * 1) := by
    intro s
    refine forLoop_acc (α := Batch × Weights) base 1 _ (fun kc hk s => ?_) s
    simp only [Nat.mul_one, if_pos (hb kc hk), setEntry_add, update_add]
    rfl
  refine forLoop_add (α := Batch × Weights) _ (fun i _ s => ?_) s
  rw [inner s]
  rfl

/-- What one output adds to the error buffer and the derivative buffers. -/
def outTerm (g : Pool) (bias : Bool) (w : Weights) (x δ : Batch) (n o : ℕ) : Batch × Weights :=
  g.subTerm (w (.w [g.mapOf o, g.rowOf o, g.colOf o])) (δ n o) (.w [g.mapOf o, g.rowOf o, g.colOf o]) x n (g.base o) +
    (0, if bias then wsingle (.b [g.mapOf o, g.rowOf o, g.colOf o]) (δ n o) else 0)

theorem subBackward_eq (h : g.Valid) (bias : Bool) (w : Weights) (N : ℕ) (x δ : Batch) :
    g.subBackward bias w N x δ = .ok (∑ n ∈ range N, ∑ o ∈ range g.outputs, g.outTerm bias w x δ n o) := by
  have hrow : ∀ n < N, ∀ s : Batch × Weights, g.windowLoop (fun fmo ro co base outputIdx s =>
      if outputIdx < g.outputs ∧ fmo < g.fm ∧ ro < g.outRows ∧ co < g.outCols then do
        let r ← g.backLoop (w (.w [fmo, ro, co])) (δ n outputIdx) (.w [fmo, ro, co]) x n base s
        pure (r.1, if bias then
          Function.update r.2 (.b [fmo, ro, co]) (r.2 (.b [fmo, ro, co]) + δ n outputIdx) else r.2)
      else .ub) s = .ok (s + ∑ o ∈ range g.outputs, g.outTerm bias w x δ n o) := by
    intro n _ s
    rw [windowLoop_eq h]
    refine forLoop_add (α := Batch × Weights) _ (fun o ho s => ?_) s
    rw [if_pos ⟨ho, mapOf_lt ho, rowOf_lt h o, colOf_lt h o⟩, backLoop_eq fun kc hk => base_bound h ho hk, Outcome.ok_bind,
      Outcome.pure_eq, outTerm, ← add_assoc]
    congr 1
    cases bias with
    | true => simp only [if_true, update_add]; exact Prod.ext (add_zero _).symm rfl
    | false => exact Prod.ext (add_zero _).symm (add_zero _).symm
  have := forLoop_add (α := Batch × Weights) _ hrow (fun _ _ => 0, fun _ => 0)
  rw [subBackward, this]
  congr 1
  exact zero_add _

theorem subTerm_fst (wt d : ℝ) (sl : Slot) (x : Batch) (n base n' p : ℕ) :
    (g.subTerm wt d sl x n base).1 n' p = if n' = n then
      ∑ _kr ∈ range g.kernelRows, ∑ kc ∈ range g.kernelCols, (if base + kc = p then wt * d else 0) else 0 := by
  simp only [subTerm, Conv.fst_sum, Finset.sum_apply, Conv.single]
  by_cases h : n' = n
  · rw [if_pos h]
    refine Finset.sum_congr rfl fun _ _ => Finset.sum_congr rfl fun kc _ => ?_
    by_cases e : base + kc = p
    · rw [if_pos e, if_pos ⟨h, e.symm⟩]
    · rw [if_neg e, if_neg fun e' => e e'.2.symm]
  · rw [if_neg h]
    exact Finset.sum_eq_zero fun _ _ => Finset.sum_eq_zero fun kc _ => if_neg fun e => h e.1

theorem subTerm_snd (wt d : ℝ) (sl : Slot) (x : Batch) (n base : ℕ) (s : Slot) :
    (g.subTerm wt d sl x n base).2 s = if s = sl then d * g.rowSum x n base else 0 := by
  simp only [subTerm, Conv.snd_sum, Finset.sum_apply, wsingle]
  by_cases h : s = sl
  · simp only [if_pos h, rowSum, Finset.mul_sum]
  · simp only [if_neg h, Finset.sum_const_zero]

theorem mem_slots {bias : Bool} {s : Slot} :
    s ∈ g.slots bias ↔ ∃ m < g.fm, ∃ r < g.outRows, ∃ c < g.outCols,
      s = .w [m, r, c] ∨ (bias = true ∧ s = .b [m, r, c]) := by
  simp only [slots, List.mem_flatMap, List.mem_range, List.mem_cons]
  constructor
  · rintro ⟨m, hm, r, hr, c, hc, h | h⟩
    · exact ⟨m, hm, r, hr, c, hc, Or.inl h⟩
    · cases bias with
      | true => exact ⟨m, hm, r, hr, c, hc, Or.inr ⟨rfl, by simpa using h⟩⟩
      | false => simp at h
  · rintro ⟨m, hm, r, hr, c, hc, h | ⟨h1, h2⟩⟩
    · exact ⟨m, hm, r, hr, c, hc, Or.inl h⟩
    · refine ⟨m, hm, r, hr, c, hc, Or.inr ?_⟩
      rw [h1, h2]
      simp

theorem of_eq_iff (h : g.Valid) {m r c o : ℕ} (hr : r < g.outRows) (hc : c < g.outCols) :
    (m = g.mapOf o ∧ r = g.rowOf o ∧ c = g.colOf o) ↔ o = g.outIdx m r c := by
  constructor
  · rintro ⟨e1, e2, e3⟩
    rw [e1, e2, e3, outIdx_of]
  · rintro rfl
    obtain ⟨e1, e2, e3⟩ := of_outIdx h (fmo := m) hr hc
    exact ⟨e1.symm, e2.symm, e3.symm⟩

/-- **C25.** The backward pass stays within all arrays; it leaves `subError` and, in the derivatives that the network
points to, `subDerivs`. -/
theorem sub_backward (h : g.Valid) (bias : Bool) (w : Weights) (N : ℕ) (x δ : Batch) :
    ∃ r, g.subBackward bias w N x δ = .ok r ∧ (∀ n < N, ∀ p, r.1 n p = g.subError w δ n p) ∧
      ∀ s ∈ g.slots bias, r.2 s = g.subDerivs N x δ s := by
  refine ⟨_, subBackward_eq h bias w N x δ, ?_, ?_⟩
  · intro n hn p
    simp only [Conv.fst_sum, Finset.sum_apply, outTerm, Prod.fst_add, add_zero, subTerm_fst]
    rw [Finset.sum_eq_single n]
    · simp only [if_true, subError]
    · intro n' _ hne
      simp [hne.symm]
    · intro hn'
      exact absurd (mem_range.2 hn) hn'
  · intro s hs
    rw [mem_slots] at hs
    obtain ⟨m, hm, r, hr, c, hc, hs⟩ := hs
    simp only [Conv.snd_sum, Finset.sum_apply, outTerm, Prod.snd_add, Pi.add_apply, subTerm_snd]
    obtain ⟨d1, d2, d3⟩ := of_outIdx h (fmo := m) hr hc
    have hbase : g.base (g.outIdx m r c) = g.inIdx m (r * g.kernelRows) (c * g.kernelCols) := by
      rw [base, d1, d2, d3]
    rcases hs with rfl | ⟨hb, rfl⟩
    · have hz : ∀ n o, (if bias = true then wsingle (.b [g.mapOf o, g.rowOf o, g.colOf o]) (δ n o) else 0)
          (Slot.w [m, r, c]) = 0 := by
        intro n o
        cases bias <;> simp [wsingle]
      simp only [hz, add_zero, subDerivs]
      refine Finset.sum_congr rfl fun n _ => ?_
      rw [Finset.sum_eq_single (g.outIdx m r c)]
      · rw [if_pos (by rw [d1, d2, d3]), hbase]
      · intro o _ hne
        rw [if_neg]
        intro e
        simp only [Slot.w.injEq, List.cons.injEq, and_true] at e
        exact hne ((of_eq_iff h hr hc).1 e)
      · intro hn
        exact absurd (mem_range.2 (outIdx_lt hm hr hc)) hn
    · have hz : ∀ o, ¬ (Slot.b [m, r, c] = Slot.w [g.mapOf o, g.rowOf o, g.colOf o]) := by
        intro o
        simp
      simp only [hz, if_false, zero_add, hb, if_true, subDerivs, wsingle]
      refine Finset.sum_congr rfl fun n _ => ?_
      rw [Finset.sum_eq_single (g.outIdx m r c)]
      · rw [if_pos (by rw [d1, d2, d3])]
      · intro o _ hne
        rw [if_neg]
        intro e
        simp only [Slot.b.injEq, List.cons.injEq, and_true] at e
        exact hne ((of_eq_iff h hr hc).1 e)
      · intro hn
        exact absurd (mem_range.2 (outIdx_lt hm hr hc)) hn

/-! ## Derivatives -/

theorem sum_outputs (h : g.Valid) (f : ℕ → ℕ → ℕ → ℝ) :
    ∑ o ∈ range g.outputs, f (g.mapOf o) (g.rowOf o) (g.colOf o) =
      ∑ m ∈ range g.fm, ∑ r ∈ range g.outRows, ∑ c ∈ range g.outCols, f m r c := by
  rw [outputs_eq]
  have h1 := sum_flatten (fmOutSize_pos h) g.fm (fun m i => f m (i / g.outCols) (i % g.outCols))
  refine Eq.trans h1 (Finset.sum_congr rfl fun m _ => ?_)
  exact sum_flatten (outCols_pos h) g.outRows (fun r c => f m r c)

theorem sum_slots (h : g.Valid) (bias : Bool) (f : Slot → ℝ) :
    ((g.slots bias).map f).sum = ∑ o ∈ range g.outputs,
      (f (.w [g.mapOf o, g.rowOf o, g.colOf o]) + if bias then f (.b [g.mapOf o, g.rowOf o, g.colOf o]) else 0) := by
  rw [sum_outputs h (fun m r c => f (.w [m, r, c]) + if bias then f (.b [m, r, c]) else 0), slots, sum_flatMap_range]
  refine Finset.sum_congr rfl fun m _ => ?_
  rw [sum_flatMap_range]
  refine Finset.sum_congr rfl fun r _ => ?_
  rw [sum_flatMap_range]
  refine Finset.sum_congr rfl fun c _ => ?_
  cases bias <;> simp

theorem rowSum_hasDerivAt {N : ℕ} {x : ℝ → Batch} {x' : Batch} {t0 : ℝ}
    (hx : ∀ n < N, ∀ i < g.inputs, HasDerivAt (fun t => x t n i) (x' n i) t0) {n base : ℕ} (hn : n < N)
    (hb : ∀ kc < g.kernelCols, base + kc < g.inputs) :
    HasDerivAt (fun t => g.rowSum (x t) n base) (g.rowSum x' n base) t0 :=
  HasDerivAt.fun_sum fun _ _ => HasDerivAt.fun_sum fun kc hk => hx n hn _ (hb kc (mem_range.1 hk))

/-- Change of the activations. -/
def subActivationDot (g : Pool) (bias : Bool) (w w' : Weights) (x x' : Batch) : Batch := fun n o =>
  g.rowSum x' n (g.base o) * w (.w [g.mapOf o, g.rowOf o, g.colOf o]) +
    g.rowSum x n (g.base o) * w' (.w [g.mapOf o, g.rowOf o, g.colOf o]) +
    if bias then w' (.b [g.mapOf o, g.rowOf o, g.colOf o]) else 0

theorem subActivation_hasDerivAt (h : g.Valid) {bias : Bool} {N : ℕ} {w : ℝ → Weights} {x : ℝ → Batch} {w' : Weights}
    {x' : Batch} {t0 : ℝ} (hw : ∀ s ∈ g.slots bias, HasDerivAt (fun t => w t s) (w' s) t0)
    (hx : ∀ n < N, ∀ i < g.inputs, HasDerivAt (fun t => x t n i) (x' n i) t0) (n : ℕ) (hn : n < N) (o : ℕ)
    (ho : o < g.outputs) :
    HasDerivAt (fun t => g.subActivation bias (w t) (x t) n o) (g.subActivationDot bias (w t0) w' (x t0) x' n o) t0 := by
  have hmem : ∀ s, (s = Slot.w [g.mapOf o, g.rowOf o, g.colOf o] ∨
      (bias = true ∧ s = Slot.b [g.mapOf o, g.rowOf o, g.colOf o])) → s ∈ g.slots bias := fun s hs =>
    mem_slots.2 ⟨_, mapOf_lt ho, _, rowOf_lt h o, _, colOf_lt h o, hs⟩
  refine HasDerivAt.add ?_ ?_
  · exact (rowSum_hasDerivAt hx hn fun kc hk => base_bound h ho hk).mul (hw _ (hmem _ (Or.inl rfl)))
  · cases hb : bias with
    | true => simpa using hw _ (hmem _ (Or.inr ⟨hb, rfl⟩))
    | false => simpa using hasDerivAt_const t0 (0 : ℝ)

theorem sub_adjoint (h : g.Valid) (bias : Bool) (N : ℕ) (w w' : Weights) (x x' δ : Batch) :
    inner N g.outputs δ (g.subActivationDot bias w w' x x') =
      inner N g.inputs (g.subError w δ) x' + ((g.slots bias).map fun s => g.subDerivs N x δ s * w' s).sum := by
  have hback : inner N g.inputs (g.subError w δ) x' =
      ∑ n ∈ range N, ∑ o ∈ range g.outputs,
        δ n o * (g.rowSum x' n (g.base o) * w (.w [g.mapOf o, g.rowOf o, g.colOf o])) := by
    refine Finset.sum_congr rfl fun n _ => ?_
    have := inner_scatter (range g.outputs ×ˢ range g.kernelRows ×ˢ range g.kernelCols)
      (fun c => g.base c.1 + c.2.2) (O := g.inputs) (fun c hc => by
        simp only [mem_product, mem_range] at hc
        exact base_bound h hc.1 hc.2.2) (x' n)
      (fun c => w (.w [g.mapOf c.1, g.rowOf c.1, g.colOf c.1]) * δ n c.1)
    simp only [Finset.sum_product] at this
    calc ∑ p ∈ range g.inputs, g.subError w δ n p * x' n p
        = ∑ p ∈ range g.inputs, x' n p * g.subError w δ n p := Finset.sum_congr rfl fun p _ => mul_comm _ _
      _ = _ := this
      _ = _ := by
        refine Finset.sum_congr rfl fun o _ => ?_
        simp only [rowSum, Finset.mul_sum, Finset.sum_mul]
        refine Finset.sum_congr rfl fun _ _ => Finset.sum_congr rfl fun kc _ => ?_
        ring
  have hW : ((g.slots bias).map fun s => g.subDerivs N x δ s * w' s).sum =
      ∑ n ∈ range N, ∑ o ∈ range g.outputs,
        (δ n o * (g.rowSum x n (g.base o) * w' (.w [g.mapOf o, g.rowOf o, g.colOf o])) +
          δ n o * (if bias then w' (.b [g.mapOf o, g.rowOf o, g.colOf o]) else 0)) := by
    rw [sum_slots h, Finset.sum_comm]
    refine Finset.sum_congr rfl fun o _ => ?_
    rw [Finset.sum_add_distrib]
    simp only [subDerivs, outIdx_of]
    congr 1
    · rw [Finset.sum_mul]
      refine Finset.sum_congr rfl fun n _ => ?_
      rw [base]
      ring
    · cases bias with
      | true => simp only [if_true, Finset.sum_mul]
      | false => simp
  rw [hback, hW, inner, ← Finset.sum_add_distrib]
  refine Finset.sum_congr rfl fun n _ => ?_
  rw [← Finset.sum_add_distrib]
  refine Finset.sum_congr rfl fun o _ => ?_
  rw [subActivationDot]
  ring

/-- Subsampling (as implemented) obeys the law of backpropagation: its gradient is the derivative of what it computes. -/
theorem sub_backprop (h : g.Valid) {bias : Bool} {act : Act} {reg : Reg} {N : ℕ} {w0 : Weights} {x0 : Batch}
    (hs : Smooth act N g.outputs (g.subActivation bias w0 x0))
    (hr : ∀ m < g.fm, ∀ r < g.outRows, ∀ c < g.outCols, reg.Smooth (w0 (.w [m, r, c]))) :
    BackpropAt (g.subLayer bias act reg) N w0 x0 := by
  refine ⟨rfl, ?_⟩
  intro w x t0 w' x' hw0 hx0 hw _ hx
  subst hw0 hx0
  have ha := fun n hn j (hj : j < g.outputs) => subActivation_hasDerivAt h hw hx n hn j hj
  have hR : HasDerivAt (fun t => (g.subLayer bias act reg).regError (w t))
      (∑ m ∈ range g.fm, ∑ r ∈ range g.outRows, ∑ c ∈ range g.outCols,
        reg.deriv (w t0 (.w [m, r, c])) * w' (.w [m, r, c])) t0 := by
    have := reg_hasDerivAt_set (r := reg)
      (S := range g.fm ×ˢ range g.outRows ×ˢ range g.outCols)
      (v := fun t c => w t (.w [c.1, c.2.1, c.2.2])) (v' := fun c => w' (.w [c.1, c.2.1, c.2.2]))
      (t0 := t0)
      (fun c hc => by
        simp only [mem_product, mem_range] at hc
        exact hw _ (mem_slots.2 ⟨_, hc.1, _, hc.2.1, _, hc.2.2, Or.inl rfl⟩))
      (fun c hc => by
        simp only [mem_product, mem_range] at hc
        exact hr _ hc.1 _ hc.2.1 _ hc.2.2)
    simp only [Finset.sum_product] at this
    exact this
  refine ⟨_, _, fun n hn j hj => map_hasDerivAt (a := fun t => g.subActivation bias (w t) (x t)) hs ha hn hj, hR,
    fun ein stale => ?_⟩
  set δ := deltas act (act.map (g.subActivation bias (w t0) (x t0))) ein with hδ
  have e1 : inner N g.outputs ein (fun n j => act.deriv (act.map (g.subActivation bias (w t0) (x t0)) n j) *
      g.subActivationDot bias (w t0) w' (x t0) x' n j) = _ :=
    (inner_deltas N g.outputs act _ ein _).trans (sub_adjoint h bias N (w t0) w' (x t0) x' δ)
  show inner N g.outputs ein _ + _ = inner N g.inputs (g.subError (w t0) δ) x' + ((g.slots bias).map _).sum
  rw [e1, add_assoc]
  congr 1
  rw [sum_slots h, sum_slots h, ← sum_outputs h (fun m r c => reg.deriv (w t0 (.w [m, r, c])) * w' (.w [m, r, c])),
    ← Finset.sum_add_distrib]
  refine Finset.sum_congr rfl fun o _ => ?_
  simp only [subLayer, ← hδ, add_mul]
  ring

end

/-- A 4x6 image with 2x3 kernel meets the hypotheses of `sub_fails`, a 3x6 image with 1x3 kernel those of
`sub_output_partial`. -/
example : (Pool.mk 2 4 6 2 3).Valid ∧ 1 < (Pool.mk 2 4 6 2 3).outRows ∧ (Pool.mk 2 3 6 1 3).Valid ∧
    1 < (Pool.mk 2 3 6 1 3).outRows :=
  ⟨⟨by decide, by decide, by decide, by decide⟩, by decide, ⟨by decide, by decide, by decide, by decide⟩, by decide⟩

end Pool

end Verif.NN
