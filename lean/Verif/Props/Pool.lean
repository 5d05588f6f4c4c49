import Verif.Model.Pool
import Verif.Props.ConvBackprop

/-!
# Max-pooling and subsampling: C24, C25

Both layers read only the first row of each window (the index starts again at the first row for every row of the kernel).
With kernels of one row the properties hold; for every taller kernel they fail.
-/

namespace Verif.NN

open Finset

namespace Pool

/-- The kernel fits (what `initialize` checks). -/
def Valid (g : Pool) : Prop :=
  0 < g.kernelRows ∧ g.kernelRows ≤ g.inRows ∧ 0 < g.kernelCols ∧ g.kernelCols ≤ g.inCols

theorem poolChecks_ok_iff {fm inRows inCols kernelRows kernelCols : ℤ} (r : ℤ × ℤ × ℤ)
    (hf : 0 < fm) (hR : 0 < inRows) (hC : 0 < inCols) (hkr : kernelRows ≠ 0) (hkc : kernelCols ≠ 0) :
    poolChecks fm inRows inCols kernelRows kernelCols = .ok r ↔
      (0 < kernelRows ∧ kernelRows ≤ inRows ∧ 0 < kernelCols ∧ kernelCols ≤ inCols) ∧
      r = (fm, inRows / kernelRows, inCols / kernelCols) := by
  have key : ∀ {a k : ℤ}, 0 < a → k ≠ 0 → (0 < a.tdiv k ↔ 0 < k ∧ k ≤ a) := by
    intro a k ha hk
    rcases lt_or_gt_of_ne hk with h | h
    · have : a.tdiv k ≤ 0 := by
        have h1 := Int.tdiv_nonneg ha.le (show (0 : ℤ) ≤ -k by omega)
        rw [Int.tdiv_neg] at h1
        omega
      omega
    · rw [Int.tdiv_eq_ediv_of_nonneg ha.le]
      constructor
      · intro h1
        refine ⟨h, ?_⟩
        by_contra h2
        rw [Int.ediv_eq_zero_of_lt ha.le (by omega)] at h1
        omega
      · intro h1
        have : 1 ≤ a / k := (Int.le_ediv_iff_mul_le h).2 (by omega)
        omega
  rw [poolChecks]
  have k1 := key hR hkr
  have k2 := key hC hkc
  rw [show inRows / kernelRows = inRows.tdiv kernelRows from (Int.tdiv_eq_ediv_of_nonneg hR.le).symm,
    show inCols / kernelCols = inCols.tdiv kernelCols from (Int.tdiv_eq_ediv_of_nonneg hC.le).symm]
  have hcond : (0 < kernelRows ∧ kernelRows ≤ inRows ∧ 0 < kernelCols ∧ kernelCols ≤ inCols) ↔
      (0 < inRows.tdiv kernelRows ∧ 0 < inCols.tdiv kernelCols) := by
    rw [k1, k2, and_assoc]
  rw [hcond]
  have hm1 : 0 < inRows.tdiv kernelRows → inRows - kernelRows + 1 > 0 := fun h => by have := k1.1 h; omega
  have hm2 : 0 < inCols.tdiv kernelCols → inCols - kernelCols + 1 > 0 := fun h => by have := k2.1 h; omega
  clear k1 k2 hcond key
  generalize inRows.tdiv kernelRows = R at *
  generalize inCols.tdiv kernelCols = C at *
  by_cases h1 : fm * R * C < 1
  · rw [if_pos h1]
    constructor
    · intro h; cases h
    · rintro ⟨⟨h2, h3⟩, _⟩
      have : 0 < fm * R * C := mul_pos (mul_pos hf h2) h3
      omega
  rw [if_neg h1, Outcome.check_true (show inRows * inCols > 0 from mul_pos hR hC), Outcome.ok_bind]
  by_cases h2 : R > 0
  · rw [Outcome.check_true h2, Outcome.ok_bind]
    by_cases h3 : C > 0
    · rw [Outcome.check_true h3, Outcome.ok_bind, Outcome.check_true (mul_pos h2 h3), Outcome.ok_bind,
        Outcome.check_true (hm1 h2), Outcome.ok_bind, Outcome.check_true (hm2 h3), Outcome.ok_bind]
      simp only [Outcome.pure_eq, Outcome.ok.injEq]
      constructor
      · rintro rfl
        exact ⟨⟨h2, h3⟩, rfl⟩
      · rintro ⟨_, rfl⟩
        rfl
    · rw [Outcome.check_false h3]
      constructor
      · intro h; cases h
      · rintro ⟨⟨_, h⟩, _⟩
        exact absurd h h3
  · rw [Outcome.check_false h2]
    constructor
    · intro h; cases h
    · rintro ⟨⟨h, _⟩, _⟩
      exact absurd h h2

/-- A max-pooling layer can be added exactly if the kernel fits; it declares `size / kernel` rows and columns. -/
theorem maxPoolInit_ok_iff (fm inRows inCols kernelRows kernelCols : ℤ) (r : ℤ × ℤ × ℤ)
    (hf : 0 < fm) (hR : 0 < inRows) (hC : 0 < inCols) :
    maxPoolInit fm inRows inCols kernelRows kernelCols = .ok r ↔
      (0 < kernelRows ∧ kernelRows ≤ inRows ∧ 0 < kernelCols ∧ kernelCols ≤ inCols) ∧
      r = (fm, inRows / kernelRows, inCols / kernelCols) := by
  rw [maxPoolInit]
  by_cases h0 : kernelRows = 0 ∨ kernelCols = 0
  · rw [if_pos h0]
    constructor
    · intro h; cases h
    · rintro ⟨⟨h1, _, h2, _⟩, _⟩; omega
  rw [if_neg h0]
  push Not at h0
  by_cases h1 : fm * inRows.tdiv kernelRows * inCols.tdiv kernelCols < 0
  · rw [if_pos h1]
    constructor
    · intro h; cases h
    · rintro ⟨⟨h2, _, h3, _⟩, _⟩
      have e1 := Int.tdiv_nonneg hR.le h2.le
      have e2 := Int.tdiv_nonneg hC.le h3.le
      have : 0 ≤ fm * inRows.tdiv kernelRows * inCols.tdiv kernelCols := mul_nonneg (mul_nonneg hf.le e1) e2
      omega
  rw [if_neg h1]
  exact poolChecks_ok_iff r hf hR hC h0.1 h0.2

/-- The same for a subsampling layer. -/
theorem subsamplingInit_ok_iff (fm inRows inCols kernelRows kernelCols : ℤ) (r : ℤ × ℤ × ℤ)
    (hf : 0 < fm) (hR : 0 < inRows) (hC : 0 < inCols) :
    subsamplingInit fm inRows inCols kernelRows kernelCols = .ok r ↔
      (0 < kernelRows ∧ kernelRows ≤ inRows ∧ 0 < kernelCols ∧ kernelCols ≤ inCols) ∧
      r = (fm, inRows / kernelRows, inCols / kernelCols) := by
  rw [subsamplingInit]
  by_cases h0 : kernelRows = 0 ∨ kernelCols = 0
  · rw [if_pos h0]
    constructor
    · intro h; cases h
    · rintro ⟨⟨h1, _, h2, _⟩, _⟩; omega
  rw [if_neg h0]
  push Not at h0
  by_cases h1 : inRows.tdiv kernelRows < 0 ∨ inCols.tdiv kernelCols < 0
  · rw [if_pos h1]
    constructor
    · intro h; cases h
    · rintro ⟨⟨h2, _, h3, _⟩, _⟩
      have e1 := Int.tdiv_nonneg hR.le h2.le
      have e2 := Int.tdiv_nonneg hC.le h3.le
      omega
  rw [if_neg h1, if_neg (by omega)]
  exact poolChecks_ok_iff r hf hR hC h0.1 h0.2

/-- A kernel larger than the image, a kernel of size 0 and one with two negative sizes. -/
example : maxPoolInit 1 3 3 4 1 = .throws ∧ maxPoolInit 1 3 3 0 1 = .ub ∧ maxPoolInit 1 3 3 (-1) (-1) = .checkFailed ∧
    subsamplingInit 1 3 3 (-1) (-1) = .ub ∧ maxPoolInit 2 5 7 2 3 = .ok (2, 2, 2) := by decide

variable {g : Pool}

theorem outRows_pos (h : g.Valid) : 0 < g.outRows := Nat.div_pos h.2.1 h.1

theorem outCols_pos (h : g.Valid) : 0 < g.outCols := Nat.div_pos h.2.2.2 h.2.2.1

theorem fmOutSize_pos (h : g.Valid) : 0 < g.fmOutSize := Nat.mul_pos (outRows_pos h) (outCols_pos h)

theorem outputs_eq (g : Pool) : g.outputs = g.fm * g.fmOutSize := by rw [outputs, fmOutSize, Nat.mul_assoc]

theorem mapOf_lt {o : ℕ} (ho : o < g.outputs) : g.mapOf o < g.fm := by
  rw [outputs_eq, Nat.mul_comm] at ho
  exact Nat.div_lt_of_lt_mul ho

theorem rowOf_lt (h : g.Valid) (o : ℕ) : g.rowOf o < g.outRows := by
  have := Nat.mod_lt o (fmOutSize_pos h)
  refine Nat.div_lt_of_lt_mul ?_
  rw [Nat.mul_comm]
  exact this

theorem colOf_lt (h : g.Valid) (o : ℕ) : g.colOf o < g.outCols := Nat.mod_lt _ (outCols_pos h)

theorem outIdx_of (g : Pool) (o : ℕ) : g.outIdx (g.mapOf o) (g.rowOf o) (g.colOf o) = o := by
  have h1 := Nat.div_add_mod o g.fmOutSize
  have h2 := Nat.div_add_mod (o % g.fmOutSize) g.outCols
  rw [outIdx, mapOf, rowOf, colOf, Nat.add_assoc, Nat.mul_comm _ g.outCols, h2, Nat.mul_comm, h1]

theorem outIdx_lt {fmo r c : ℕ} (hf : fmo < g.fm) (hr : r < g.outRows) (hc : c < g.outCols) :
    g.outIdx fmo r c < g.outputs := idx_bound hf hr (show c + 1 ≤ g.outCols from hc)

theorem of_outIdx (h : g.Valid) {fmo r c : ℕ} (hr : r < g.outRows) (hc : c < g.outCols) :
    g.mapOf (g.outIdx fmo r c) = fmo ∧ g.rowOf (g.outIdx fmo r c) = r ∧ g.colOf (g.outIdx fmo r c) = c := by
  have e := outIdx_of g (g.outIdx fmo r c)
  rw [outIdx, outIdx] at e
  exact idx_inj (rowOf_lt h _) (colOf_lt h _) hr hc e

/-- The windows lie inside of the image. -/
theorem window_fits {r c : ℕ} (hr : r < g.outRows) (hc : c < g.outCols) :
    r * g.kernelRows + g.kernelRows ≤ g.inRows ∧ c * g.kernelCols + g.kernelCols ≤ g.inCols := by
  constructor
  · have := (Nat.mul_le_mul_right g.kernelRows hr).trans (Nat.div_mul_le_self g.inRows g.kernelRows)
    rwa [Nat.succ_mul] at this
  · have := (Nat.mul_le_mul_right g.kernelCols hc).trans (Nat.div_mul_le_self g.inCols g.kernelCols)
    rwa [Nat.succ_mul] at this

theorem base_bound (h : g.Valid) {o : ℕ} (ho : o < g.outputs) {kc : ℕ} (hk : kc < g.kernelCols) :
    g.base o + kc < g.inputs := by
  have hw := window_fits (rowOf_lt h o) (colOf_lt h o)
  have := idx_bound (R := g.inRows) (mapOf_lt ho) (show g.rowOf o * g.kernelRows < g.inRows by have := h.1; omega) hw.2
  have e : g.base o + g.kernelCols ≤ g.inputs := this
  omega

/-- The windows do not overlap. -/
theorem base_inj (h : g.Valid) {o o' kc kc' : ℕ} (hk : kc < g.kernelCols) (hk' : kc' < g.kernelCols)
    (e : g.base o + kc = g.base o' + kc') : o = o' ∧ kc = kc' := by
  have hw := window_fits (rowOf_lt h o) (colOf_lt h o)
  have hw' := window_fits (rowOf_lt h o') (colOf_lt h o')
  have hkr := h.1
  have e' : g.mapOf o * (g.inRows * g.inCols) + g.rowOf o * g.kernelRows * g.inCols + (g.colOf o * g.kernelCols + kc) =
      g.mapOf o' * (g.inRows * g.inCols) + g.rowOf o' * g.kernelRows * g.inCols + (g.colOf o' * g.kernelCols + kc') := by
    simp only [base, inIdx, fmInSize] at e
    omega
  obtain ⟨h1, h2, h3⟩ := idx_inj (by omega) (by omega) (by omega) (by omega) e'
  have h4 : g.rowOf o = g.rowOf o' := Nat.eq_of_mul_eq_mul_right hkr h2
  have h5 : g.colOf o = g.colOf o' := by
    have a : (g.colOf o * g.kernelCols + kc) / g.kernelCols = (g.colOf o' * g.kernelCols + kc') / g.kernelCols :=
      congrArg (· / g.kernelCols) h3
    rwa [Nat.mul_comm, Nat.mul_add_div h.2.2.1, Nat.div_eq_of_lt hk, Nat.mul_comm _ g.kernelCols,
      Nat.mul_add_div h.2.2.1, Nat.div_eq_of_lt hk'] at a
  refine ⟨?_, by rw [h5] at h3; omega⟩
  rw [← outIdx_of g o, ← outIdx_of g o', h1, h4, h5]

/-- The loops over the windows visit the outputs `0, 1, ...` in order, each with its own window. -/
theorem windowLoop_eq {σ : Type} (h : g.Valid) (body : ℕ → ℕ → ℕ → ℕ → ℕ → σ → Outcome σ) (s : σ) :
    g.windowLoop body s =
      forLoop g.outputs (fun o => body (g.mapOf o) (g.rowOf o) (g.colOf o) (g.base o) o) s := by
  have hcols : ∀ fmo ri ro out (t : σ),
      stepLoop g.maxCol g.kernelCols (fun ci (c : Cursor σ) => do
        let t ← body fmo c.ro c.co (fmo * g.fmInSize + ri * g.inCols + ci) c.outputIdx c.st
        pure { c with st := t, co := c.co + 1, outputIdx := c.outputIdx + 1 }) 0 ⟨t, ro, 0, out⟩ =
      forLoop g.outCols (fun co => body fmo ro co (fmo * g.fmInSize + ri * g.inCols + co * g.kernelCols) (out + co)) t
        >>= fun t => pure ⟨t, ro, g.outCols, out + g.outCols⟩ := by
    intro fmo ri ro out t
    rw [maxCol, stepLoop_windows h.2.2.1 h.2.2.2]
    refine forLoop_track (fun co t => (⟨t, ro, co, out + co⟩ : Cursor σ)) (fun co _ t => rfl) t
  have hrows : ∀ fmo co out (t : σ),
      stepLoop g.maxRow g.kernelRows (fun ri (c : Cursor σ) => do
        let c' ← stepLoop g.maxCol g.kernelCols (fun ci (c : Cursor σ) => do
          let t ← body fmo c.ro c.co (fmo * g.fmInSize + ri * g.inCols + ci) c.outputIdx c.st
          pure { c with st := t, co := c.co + 1, outputIdx := c.outputIdx + 1 }) 0 { c with co := 0 }
        pure { c' with ro := c'.ro + 1 }) 0 ⟨t, 0, co, out⟩ =
      forLoop g.outRows (fun ro => forLoop g.outCols fun co =>
        body fmo ro co (fmo * g.fmInSize + ro * g.kernelRows * g.inCols + co * g.kernelCols) (out + ro * g.outCols + co)) t
        >>= fun t => pure ⟨t, g.outRows, g.outCols, out + g.outRows * g.outCols⟩ := by
    intro fmo co out t
    rw [maxRow, stepLoop_windows h.1 h.2.1]
    have := forLoop_track (n := g.outRows)
      (b := fun ro (c : Cursor σ) => do
        let c' ← stepLoop g.maxCol g.kernelCols (fun ci (c : Cursor σ) => do
          let t ← body fmo c.ro c.co (fmo * g.fmInSize + ro * g.kernelRows * g.inCols + ci) c.outputIdx c.st
          pure { c with st := t, co := c.co + 1, outputIdx := c.outputIdx + 1 }) 0 { c with co := 0 }
        pure { c' with ro := c'.ro + 1 })
      (c := fun ro => forLoop g.outCols fun co =>
        body fmo ro co (fmo * g.fmInSize + ro * g.kernelRows * g.inCols + co * g.kernelCols) (out + ro * g.outCols + co))
      (fun ro t => (⟨t, ro, if ro = 0 then co else g.outCols, out + ro * g.outCols⟩ : Cursor σ))
      (fun ro _ t => by
        simp only
        rw [hcols, bind_assoc]
        congr 1
        funext t'
        rw [Nat.succ_mul, ← Nat.add_assoc]
        rfl) t
    simp only [if_true, Nat.zero_mul, Nat.add_zero, if_neg (outRows_pos h).ne'] at this
    exact this
  have hmaps := forLoop_track (n := g.fm)
      (b := fun fmo (c : Cursor σ) =>
        stepLoop g.maxRow g.kernelRows (fun ri (c : Cursor σ) => do
          let c' ← stepLoop g.maxCol g.kernelCols (fun ci (c : Cursor σ) => do
            let t ← body fmo c.ro c.co (fmo * g.fmInSize + ri * g.inCols + ci) c.outputIdx c.st
            pure { c with st := t, co := c.co + 1, outputIdx := c.outputIdx + 1 }) 0 { c with co := 0 }
          pure { c' with ro := c'.ro + 1 }) 0 { c with ro := 0 })
      (c := fun fmo => forLoop g.outRows (fun ro => forLoop g.outCols fun co =>
        body fmo ro co (fmo * g.fmInSize + ro * g.kernelRows * g.inCols + co * g.kernelCols)
          (fmo * g.fmOutSize + ro * g.outCols + co)))
      (fun fmo t => (⟨t, if fmo = 0 then 0 else g.outRows, if fmo = 0 then 0 else g.outCols, fmo * g.fmOutSize⟩ : Cursor σ))
      (fun fmo _ t => by
        simp only
        rw [hrows]
        congr 1
        funext t'
        rw [Nat.succ_mul]
        rfl) s
  simp only [if_true, Nat.zero_mul] at hmaps
  rw [windowLoop, hmaps, bind_assoc]
  have hfin : ∀ m : Outcome σ, (m >>= fun t => (pure (⟨t, if g.fm = 0 then 0 else g.outRows,
      if g.fm = 0 then 0 else g.outCols, g.fm * g.fmOutSize⟩ : Cursor σ) : Outcome (Cursor σ)) >>= fun r => pure r.st) = m :=
    fun m => by cases m <;> rfl
  rw [hfin]
  rw [forLoop_congr (b2 := fun fmo => forLoop g.fmOutSize fun i =>
      body fmo (i / g.outCols) (i % g.outCols)
        (fmo * g.fmInSize + i / g.outCols * g.kernelRows * g.inCols + i % g.outCols * g.kernelCols)
        (fmo * g.fmOutSize + i / g.outCols * g.outCols + i % g.outCols)) (fun fmo _ t => by
      rw [fmOutSize, ← forLoop_flatten (outCols_pos h) g.outRows (fun ro co => body fmo ro co
        (fmo * g.fmInSize + ro * g.kernelRows * g.inCols + co * g.kernelCols)
        (fmo * (g.outRows * g.outCols) + ro * g.outCols + co))]) s,
    forLoop_flatten (fmOutSize_pos h), outputs_eq]
  refine forLoop_congr (fun o _ t => ?_) s
  have := outIdx_of g o
  simp only [outIdx, mapOf, rowOf, colOf] at this
  simp only [this]
  rfl

end Pool

end Verif.NN
