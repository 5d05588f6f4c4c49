import Verif.Model.Conv
import Verif.Props.Backprop
import Mathlib.Tactic.Linarith
import Mathlib.Tactic.Ring

/-!
# C23: the convolutional layer
-/

namespace Verif.NN

open Finset

/-! ## Index arithmetic -/

theorem idx_bound {a A r R c k C : ℕ} (ha : a < A) (hr : r < R) (hc : c + k ≤ C) :
    a * (R * C) + r * C + c + k ≤ A * R * C := by
  have h1 : (r + 1) * C ≤ R * C := Nat.mul_le_mul_right C hr
  have h2 : (a + 1) * (R * C) ≤ A * (R * C) := Nat.mul_le_mul_right _ ha
  have h3 : (r + 1) * C = r * C + C := by ring
  have h4 : (a + 1) * (R * C) = a * (R * C) + R * C := by ring
  have h5 : A * (R * C) = A * R * C := by ring
  generalize r * C = rC at *
  generalize A * R * C = ARC at *
  generalize a * (R * C) = aRC at *
  generalize R * C = RC at *
  omega

/-- A map-by-map, row-by-row layout has a unique position for each index. -/
theorem idx_inj {a r c a' r' c' R C : ℕ} (hr : r < R) (hc : c < C) (hr' : r' < R) (hc' : c' < C)
    (h : a * (R * C) + r * C + c = a' * (R * C) + r' * C + c') : a = a' ∧ r = r' ∧ c = c' := by
  have hC : 0 < C := by omega
  have key : ∀ {a r c : ℕ}, r < R → c < C →
      (a * (R * C) + r * C + c) % C = c ∧ (a * (R * C) + r * C + c) / C = a * R + r := by
    intro a r c _ hc
    have e : a * (R * C) + r * C + c = c + (a * R + r) * C := by ring
    rw [e, Nat.add_mul_mod_self_right, Nat.mod_eq_of_lt hc, Nat.add_mul_div_right _ _ hC, Nat.div_eq_of_lt hc, zero_add]
    exact ⟨rfl, rfl⟩
  have k1 := key (a := a) hr hc
  have k2 := key (a := a') hr' hc'
  rw [h] at k1
  have hc1 : c = c' := by rw [← k1.1, k2.1]
  have hd : a * R + r = a' * R + r' := by rw [← k1.2, k2.2]
  have hR : 0 < R := by omega
  have hr1 : r = r' := by
    have e := congrArg (· % R) hd
    simp only [Nat.mul_add_mod_self_right, Nat.mod_eq_of_lt hr, Nat.mod_eq_of_lt hr'] at e
    exact e
  subst hr1
  exact ⟨Nat.eq_of_mul_eq_mul_right hR (by omega), rfl, hc1⟩

theorem idx_exists {o A R C : ℕ} (h : o < A * R * C) :
    ∃ a < A, ∃ r < R, ∃ c < C, o = a * (R * C) + r * C + c := by
  have hC : 0 < C := Nat.pos_of_ne_zero (by rintro rfl; simp at h)
  have hR : 0 < R := Nat.pos_of_ne_zero (by rintro rfl; simp at h)
  refine ⟨o / C / R, ?_, o / C % R, Nat.mod_lt _ hR, o % C, Nat.mod_lt _ hC, ?_⟩
  · rw [Nat.div_lt_iff_lt_mul hR, Nat.div_lt_iff_lt_mul hC]
    exact h
  · have h1 := Nat.div_add_mod o C
    have h2 := Nat.div_add_mod (o / C) R
    calc o = C * (o / C) + o % C := h1.symm
      _ = C * (R * (o / C / R) + o / C % R) + o % C := by rw [h2]
      _ = _ := by ring

namespace Conv

/-- The kernel fits: at least one output row and column (what `initialize` checks). -/
def Valid (g : Conv) : Prop := g.kernelRows / 2 * 2 < g.inRows ∧ g.kernelCols / 2 * 2 < g.inCols

/-- `initialize` accepts exactly these sizes and declares the output shape that the loops use. -/
theorem convInit_ok_iff (fmin inRows inCols fmout kernelRows kernelCols : ℤ) (r : ℤ × ℤ × ℤ)
    (hR : 0 < inRows) (hC : 0 < inCols) :
    convInit fmin inRows inCols fmout kernelRows kernelCols = .ok r ↔
      (0 ≤ kernelRows ∧ 0 ≤ kernelCols ∧ 0 ≤ fmin ∧ 0 < fmout ∧
        kernelRows / 2 * 2 < inRows ∧ kernelCols / 2 * 2 < inCols) ∧
      r = (fmout, inRows - kernelRows / 2 * 2, inCols - kernelCols / 2 * 2) := by
  unfold convInit
  by_cases h1 : kernelRows < 0 ∨ kernelCols < 0
  · rw [if_pos h1]
    constructor
    · intro h; cases h
    · rintro ⟨h, _⟩; omega
  rw [if_neg h1]
  push Not at h1
  by_cases h2 : fmin < 0 ∨ fmout < 0
  · rw [if_pos h2]
    constructor
    · intro h; cases h
    · rintro ⟨h, _⟩; omega
  rw [if_neg h2]
  push Not at h2
  rw [Int.tdiv_eq_ediv_of_nonneg h1.1, Int.tdiv_eq_ediv_of_nonneg h1.2, Int.tmod_eq_emod_of_nonneg h1.1,
    Int.tmod_eq_emod_of_nonneg h1.2]
  have hr : inRows - kernelRows + kernelRows % 2 = inRows - kernelRows / 2 * 2 := by omega
  have hc : inCols - kernelCols + kernelCols % 2 = inCols - kernelCols / 2 * 2 := by omega
  rw [hr, hc]
  have hRe : (kernelRows / 2 * 2 < inRows) ↔ 0 < inRows - kernelRows / 2 * 2 := by omega
  have hCe : (kernelCols / 2 * 2 < inCols) ↔ 0 < inCols - kernelCols / 2 * 2 := by omega
  rw [hRe, hCe]
  generalize inRows - kernelRows / 2 * 2 = R
  generalize inCols - kernelCols / 2 * 2 = C
  by_cases h3 : fmout * R * C < 0
  · rw [if_pos h3]
    constructor
    · intro h; cases h
    · rintro ⟨⟨_, _, _, h4, h5, h6⟩, _⟩
      have : 0 < fmout * R * C := mul_pos (mul_pos h4 h5) h6
      omega
  rw [if_neg h3]
  by_cases h4 : fmout * R * C < 1
  · rw [if_pos h4]
    constructor
    · intro h; cases h
    · rintro ⟨⟨_, _, _, h5, h6, h7⟩, _⟩
      have : 0 < fmout * R * C := mul_pos (mul_pos h5 h6) h7
      omega
  rw [if_neg h4]
  have hio : inRows * inCols > 0 := mul_pos hR hC
  rw [Outcome.check_true hio, Outcome.ok_bind]
  by_cases h5 : R > 0
  · rw [Outcome.check_true h5, Outcome.ok_bind]
    by_cases h6 : C > 0
    · rw [Outcome.check_true h6, Outcome.ok_bind, Outcome.check_true (mul_pos h5 h6), Outcome.ok_bind, Outcome.ok_bind,
        Outcome.ok_bind]
      have hf : 0 < fmout := by
        rcases lt_or_eq_of_le h2.2 with h | h
        · exact h
        · rw [← h] at h4; simp at h4
      simp only [Outcome.pure_eq, Outcome.ok.injEq]
      constructor
      · rintro rfl
        exact ⟨⟨h1.1, h1.2, h2.1, hf, h5, h6⟩, rfl⟩
      · rintro ⟨_, rfl⟩
        rfl
    · rw [Outcome.check_false h6]
      constructor
      · intro h; cases h
      · rintro ⟨⟨_, _, _, _, _, h⟩, _⟩
        exact absurd h h6
  · rw [Outcome.check_false h5]
    constructor
    · intro h; cases h
    · rintro ⟨⟨_, _, _, _, h, _⟩, _⟩
      exact absurd h h5

variable {g : Conv}

theorem maxRow_eq (h : g.Valid) : g.maxRow = g.outRows := by
  have := h.1
  unfold maxRow outRows
  omega

theorem maxCol_eq (h : g.Valid) : g.maxCol = g.outCols := by
  have := h.2
  unfold maxCol outCols
  omega

theorem row_lt (h : g.Valid) {row kr : ℕ} (hr : row < g.maxRow) (hk : kr < g.kernelRows) : row + kr < g.inRows := by
  have := h.1
  unfold maxRow at hr
  omega

theorem col_le (h : g.Valid) {col : ℕ} (hc : col < g.maxCol) : col + g.kernelCols ≤ g.inCols := by
  have := h.2
  unfold maxCol at hc
  omega

theorem inIdx_bound (h : g.Valid) {fmi row col kr : ℕ} (hf : fmi < g.fmin) (hr : row < g.maxRow) (hc : col < g.maxCol)
    (hk : kr < g.kernelRows) : g.inIdx fmi (row + kr) col + g.kernelCols ≤ g.inputs := by
  have := idx_bound hf (row_lt h hr hk) (col_le h hc)
  exact this

theorem outIdx_lt (h : g.Valid) {fmo row col : ℕ} (hf : fmo < g.fmout) (hr : row < g.maxRow) (hc : col < g.maxCol) :
    g.outIdx fmo row col < g.outputs := by
  have := idx_bound hf (maxRow_eq h ▸ hr) (show col + 1 ≤ g.outCols by rw [← maxCol_eq h]; exact hc)
  rw [outIdx, maxCol_eq h]
  exact this

noncomputable section

/-- A batch with one entry. -/
def single (n o : ℕ) (v : ℝ) : Batch := fun n' o' => if n' = n ∧ o' = o then v else 0

theorem setEntry_add (a : Batch) (n o : ℕ) (v : ℝ) : setEntry a n o (a n o + v) = a + single n o v := by
  funext n' o'
  simp only [setEntry, single, Pi.add_apply]
  by_cases h : n' = n ∧ o' = o
  · rw [if_pos h, if_pos h, h.1, h.2]
  · rw [if_neg h, if_neg h, add_zero]

/-! ## Forward pass -/

theorem krLoop_eq (h : g.Valid) (w : Weights) (x : Batch) (n fmo : ℕ) {fmi row col : ℕ} (hf : fmi < g.fmin)
    (hr : row < g.maxRow) (hc : col < g.maxCol) (v : ℝ) :
    g.krLoop w x n fmo fmi (v, fmi * g.fmInSize + row * g.inCols + col) =
      .ok (v + g.window w x n fmo fmi row col, fmi * g.fmInSize + row * g.inCols + col + g.kernelRows * g.inCols) := by
  refine forLoop_acc _ g.inCols (fun kr => ∑ kc ∈ range g.kernelCols,
    w (.w [fmo, fmi, kr, kc]) * x n (g.inIdx fmi (row + kr) (col + kc))) (fun kr hkr s => ?_) v
  have e : ∀ c, fmi * g.fmInSize + row * g.inCols + col + kr * g.inCols + c = g.inIdx fmi (row + kr) (col + c) := by
    intro c
    simp only [inIdx]
    ring
  have hb := inIdx_bound h hf hr hc hkr
  have hb' : fmi * g.fmInSize + row * g.inCols + col + kr * g.inCols + g.kernelCols ≤ g.inputs := by
    rw [e]
    have : g.inIdx fmi (row + kr) (col + g.kernelCols) = g.inIdx fmi (row + kr) col + g.kernelCols := by
      simp only [inIdx]; ring
    rw [this]
    exact hb
  have e2 : fmi * g.fmInSize + row * g.inCols + col + kr * g.inCols + g.inCols =
      fmi * g.fmInSize + row * g.inCols + col + (kr + 1) * g.inCols := by ring
  simp only [if_pos hb']
  rw [e2]
  simp only [e]

theorem colLoop_eq (h : g.Valid) (w : Weights) (x : Batch) (n : ℕ) {fmo fmi row : ℕ} (ho : fmo < g.fmout)
    (hf : fmi < g.fmin) (hr : row < g.maxRow) (a : Batch) :
    g.colLoop w x n fmo fmi (fmi * g.fmInSize) row (a, fmo * g.fmOutSize + row * g.maxCol) =
      .ok (a + ∑ col ∈ range g.maxCol, single n (g.outIdx fmo row col) (g.window w x n fmo fmi row col),
        fmo * g.fmOutSize + row * g.maxCol + g.maxCol * 1) := by
  refine forLoop_acc _ 1 (fun col => single n (g.outIdx fmo row col) (g.window w x n fmo fmi row col))
    (fun col hcol s => ?_) a
  have e : fmo * g.fmOutSize + row * g.maxCol + col * 1 = g.outIdx fmo row col := by simp only [outIdx]; ring
  simp only [e]
  rw [Outcome.check_true (outIdx_lt h ho hr hcol), Outcome.ok_bind, krLoop_eq h w x n fmo hf hr hcol, Outcome.ok_bind]
  simp only [Outcome.pure_eq, setEntry_add]
  congr 2
  simp only [outIdx]
  ring

theorem biasLoop_eq (h : g.Valid) (w : Weights) (n fmi : ℕ) {fmo : ℕ} (ho : fmo < g.fmout) (a : Batch) :
    g.biasLoop w n fmo fmi (a, fmo * g.fmOutSize) =
      .ok (a + ∑ row ∈ range g.maxRow, ∑ col ∈ range g.maxCol, single n (g.outIdx fmo row col) (w (.b [fmo, fmi])),
        fmo * g.fmOutSize + g.maxRow * g.maxCol) := by
  refine forLoop_acc _ g.maxCol (fun row => ∑ col ∈ range g.maxCol, single n (g.outIdx fmo row col) (w (.b [fmo, fmi])))
    (fun row hrow s => ?_) a
  have := forLoop_acc (body := fun (_ : ℕ) (s : Batch × ℕ) =>
    if s.2 < g.outputs then Outcome.ok (setEntry s.1 n s.2 (s.1 n s.2 + w (.b [fmo, fmi])), s.2 + 1) else .ub)
    (n := g.maxCol) (fmo * g.fmOutSize + row * g.maxCol) 1
    (fun col => single n (g.outIdx fmo row col) (w (.b [fmo, fmi]))) (fun col hcol s => by
      have e : fmo * g.fmOutSize + row * g.maxCol + col * 1 = g.outIdx fmo row col := by simp only [outIdx]; ring
      simp only [e, if_pos (outIdx_lt h ho hrow hcol), setEntry_add]
      congr 2
      simp only [outIdx]
      ring) s
  rw [this]
  congr 2
  ring

/-- What one pair of maps adds to `a`. -/
def fmiTerm (g : Conv) (w : Weights) (x : Batch) (n fmo fmi : ℕ) : Batch :=
  ∑ row ∈ range g.maxRow, ∑ col ∈ range g.maxCol,
    single n (g.outIdx fmo row col)
      (g.window w x n fmo fmi row col + if g.bias then w (.b [fmo, fmi]) else 0)

theorem single_add (n o : ℕ) (u v : ℝ) : single n o (u + v) = single n o u + single n o v := by
  funext n' o'
  simp only [single, Pi.add_apply]
  by_cases h : n' = n ∧ o' = o
  · simp [h]
  · simp [h]

theorem single_zero (n o : ℕ) : single n o 0 = 0 := by
  funext n' o'
  simp [single]

theorem fmiStep_eq (h : g.Valid) (w : Weights) (x : Batch) (n : ℕ) {fmo fmi : ℕ} (ho : fmo < g.fmout)
    (hf : fmi < g.fmin) (a : Batch) :
    g.fmiStep w x n fmo fmi (a, fmi * g.fmInSize) =
      .ok (a + g.fmiTerm w x n fmo fmi, (fmi + 1) * g.fmInSize) := by
  have hrows : forLoop g.maxRow (fun row => g.colLoop w x n fmo fmi (fmi * g.fmInSize) row) (a, fmo * g.fmOutSize) =
      .ok (a + ∑ row ∈ range g.maxRow, ∑ col ∈ range g.maxCol,
        single n (g.outIdx fmo row col) (g.window w x n fmo fmi row col), fmo * g.fmOutSize + g.maxRow * g.maxCol) := by
    refine forLoop_acc _ g.maxCol (fun row => ∑ col ∈ range g.maxCol,
      single n (g.outIdx fmo row col) (g.window w x n fmo fmi row col)) (fun row hrow s => ?_) a
    rw [colLoop_eq h w x n ho hf hrow]
    congr 2
    ring
  rw [fmiStep]
  simp only
  rw [hrows, Outcome.ok_bind]
  have e : fmi * g.fmInSize + g.fmInSize = (fmi + 1) * g.fmInSize := by ring
  cases hb : g.bias with
  | true =>
    simp only [if_true]
    rw [biasLoop_eq h w n fmi ho, Outcome.ok_bind, Outcome.pure_eq, e]
    congr 2
    rw [fmiTerm, add_assoc, ← Finset.sum_add_distrib]
    refine congrArg (fun z => a + z) ?_
    refine Finset.sum_congr rfl fun row _ => ?_
    rw [← Finset.sum_add_distrib]
    refine Finset.sum_congr rfl fun col _ => ?_
    rw [hb, if_pos rfl, single_add]
  | false =>
    simp only [Bool.false_eq_true, if_false, Outcome.pure_eq, e]
    congr 2
    rw [fmiTerm]
    simp only [hb, Bool.false_eq_true, if_false, add_zero]

theorem forwardLoops_eq (h : g.Valid) (w : Weights) (N : ℕ) (x : Batch) :
    g.forwardLoops w N x =
      .ok (∑ n ∈ range N, ∑ fmo ∈ range g.fmout, ∑ fmi ∈ range g.fmin, g.fmiTerm w x n fmo fmi) := by
  have h1 : ∀ n, ∀ fmo < g.fmout, ∀ a : Batch, forLoop g.fmin (g.fmiStep w x n fmo) (a, 0) =
      .ok (a + ∑ fmi ∈ range g.fmin, g.fmiTerm w x n fmo fmi, 0 + g.fmin * g.fmInSize) := by
    intro n fmo ho a
    refine forLoop_acc (α := Batch) 0 g.fmInSize _ (fun fmi hf s => ?_) a
    rw [zero_add, zero_add, fmiStep_eq h w x n ho hf]
  have h2 : ∀ n < N, ∀ a : Batch, forLoop g.fmout (fun fmo a => do
      let r ← forLoop g.fmin (g.fmiStep w x n fmo) (a, 0)
      pure r.1) a = .ok (a + ∑ fmo ∈ range g.fmout, ∑ fmi ∈ range g.fmin, g.fmiTerm w x n fmo fmi) := by
    intro n _ a
    refine forLoop_add (α := Batch) _ (fun fmo ho s => ?_) a
    rw [h1 n fmo ho, Outcome.ok_bind]
    rfl
  have h3 := forLoop_add (α := Batch) _ h2 (fun _ _ => 0)
  rw [forwardLoops, h3]
  congr 1
  exact zero_add _

theorem fmiTerm_apply (w : Weights) (x : Batch) (n fmo fmi n' o : ℕ) :
    g.fmiTerm w x n fmo fmi n' o = if n' = n then
      ∑ row ∈ range g.maxRow, ∑ col ∈ range g.maxCol, (if g.outIdx fmo row col = o then
        g.window w x n fmo fmi row col + (if g.bias then w (.b [fmo, fmi]) else 0) else 0) else 0 := by
  rw [fmiTerm]
  simp only [Finset.sum_apply, single]
  by_cases h : n' = n
  · simp only [h, true_and, if_true]
    refine Finset.sum_congr rfl fun row _ => Finset.sum_congr rfl fun col _ => ?_
    by_cases h' : o = g.outIdx fmo row col
    · rw [if_pos h', if_pos h'.symm]
    · rw [if_neg h', if_neg (fun e => h' e.symm)]
  · simp [h]

/-- **C23.** The forward loops stay within all arrays and compute `activation`. -/
theorem conv_forward (h : g.Valid) (w : Weights) (N : ℕ) (x : Batch) :
    ∃ a, g.forwardLoops w N x = .ok a ∧ ∀ n < N, ∀ o, a n o = g.activation w x n o := by
  refine ⟨_, forwardLoops_eq h w N x, fun n hn o => ?_⟩
  simp only [Finset.sum_apply, fmiTerm_apply]
  rw [Finset.sum_eq_single n]
  · simp only [if_true, activation]
  · intro n' _ hne
    simp [hne.symm]
  · intro hn'
    exact absurd (mem_range.2 hn) hn'

/-- **C23.** The value at `(row, col)` of output map `fmo` is the bias plus the kernel-weighted window at `(row, col)`,
summed over the input maps. -/
theorem conv_output (h : g.Valid) (w : Weights) (x : Batch) (n : ℕ) {fmo row col : ℕ} (ho : fmo < g.fmout)
    (hr : row < g.outRows) (hc : col < g.outCols) :
    g.activation w x n (fmo * (g.outRows * g.outCols) + row * g.outCols + col) =
      ∑ fmi ∈ range g.fmin, ((if g.bias then w (.b [fmo, fmi]) else 0) +
        ∑ kr ∈ range g.kernelRows, ∑ kc ∈ range g.kernelCols,
          w (.w [fmo, fmi, kr, kc]) * x n (fmi * (g.inRows * g.inCols) + (row + kr) * g.inCols + (col + kc))) := by
  have hR := maxRow_eq h
  have hC := maxCol_eq h
  have hiff : ∀ fmo' row' col', row' < g.maxRow → col' < g.maxCol →
      (g.outIdx fmo' row' col' = fmo * (g.outRows * g.outCols) + row * g.outCols + col ↔
        fmo' = fmo ∧ row' = row ∧ col' = col) := by
    intro fmo' row' col' hr' hc'
    constructor
    · intro e
      rw [outIdx, hC] at e
      exact idx_inj (hR ▸ hr') (hC ▸ hc') hr hc e
    · rintro ⟨rfl, rfl, rfl⟩
      rw [outIdx, hC]
      rfl
  rw [activation, Finset.sum_eq_single fmo]
  · refine Finset.sum_congr rfl fun fmi _ => ?_
    rw [Finset.sum_eq_single row]
    · rw [Finset.sum_eq_single col]
      · rw [if_pos ((hiff fmo row col (hR ▸ hr) (hC ▸ hc)).2 ⟨rfl, rfl, rfl⟩), add_comm]
        rfl
      · intro col' hc' hne
        rw [if_neg]
        rw [hiff fmo row col' (hR ▸ hr) (mem_range.1 hc')]
        exact fun e => hne e.2.2
      · intro hn
        exact absurd (mem_range.2 (hC ▸ hc)) hn
    · intro row' hr' hne
      refine Finset.sum_eq_zero fun col' hc' => ?_
      rw [if_neg]
      rw [hiff fmo row' col' (mem_range.1 hr') (mem_range.1 hc')]
      exact fun e => hne e.2.1
    · intro hn
      exact absurd (mem_range.2 (hR ▸ hr)) hn
  · intro fmo' _ hne
    refine Finset.sum_eq_zero fun fmi _ => Finset.sum_eq_zero fun row' hr' => Finset.sum_eq_zero fun col' hc' => ?_
    rw [if_neg]
    rw [hiff fmo' row' col' (mem_range.1 hr') (mem_range.1 hc')]
    exact fun e => hne e.1
  · intro hn
    exact absurd (mem_range.2 ho) hn

/-- **C23.** The declared outputs are exactly the positions of the output maps. -/
theorem conv_positions (g : Conv) {o : ℕ} :
    o < g.outputs ↔ ∃! p : ℕ × ℕ × ℕ, (p.1 < g.fmout ∧ p.2.1 < g.outRows ∧ p.2.2 < g.outCols) ∧
      o = p.1 * (g.outRows * g.outCols) + p.2.1 * g.outCols + p.2.2 := by
  constructor
  · intro ho
    obtain ⟨a, ha, r, hr, c, hc, e⟩ := idx_exists ho
    refine ⟨(a, r, c), ⟨⟨ha, hr, hc⟩, e⟩, ?_⟩
    rintro ⟨a', r', c'⟩ ⟨⟨_, hr', hc'⟩, e'⟩
    obtain ⟨h1, h2, h3⟩ := idx_inj hr' hc' hr hc (e'.symm.trans e)
    exact Prod.ext h1 (Prod.ext h2 h3)
  · rintro ⟨⟨a, r, c⟩, ⟨⟨ha, hr, hc⟩, e⟩, _⟩
    rw [e]
    have := idx_bound ha hr (show c + 1 ≤ g.outCols from hc)
    exact this

/-! ## Backward pass -/

/-- What one row of one kernel position adds to the error buffer and the derivative buffers. -/
def krTerm (g : Conv) (w : Weights) (x : Batch) (d : ℝ) (n fmo fmi row col kr : ℕ) : Batch × Weights :=
  (fun n' p => if n' = n then ∑ kc ∈ range g.kernelCols,
      (if g.inIdx fmi (row + kr) (col + kc) = p then w (.w [fmo, fmi, kr, kc]) * d else 0) else 0,
    fun sl => ∑ kc ∈ range g.kernelCols,
      if sl = .w [fmo, fmi, kr, kc] then d * x n (g.inIdx fmi (row + kr) (col + kc)) else 0)

theorem backKr_eq (h : g.Valid) (w : Weights) (x : Batch) (d : ℝ) (n fmo : ℕ) {fmi row col : ℕ} (hf : fmi < g.fmin)
    (hr : row < g.maxRow) (hc : col < g.maxCol) (s : Batch × Weights) :
    g.backKr w x n fmo fmi d (s, fmi * g.fmInSize + row * g.inCols + col) =
      .ok (s + ∑ kr ∈ range g.kernelRows, g.krTerm w x d n fmo fmi row col kr,
        fmi * g.fmInSize + row * g.inCols + col + g.kernelRows * g.inCols) := by
  refine forLoop_acc _ g.inCols (fun kr => g.krTerm w x d n fmo fmi row col kr) (fun kr hkr s => ?_) s
  have e : ∀ c, fmi * g.fmInSize + row * g.inCols + col + kr * g.inCols + c = g.inIdx fmi (row + kr) (col + c) := by
    intro c
    simp only [inIdx]
    ring
  have hb' : fmi * g.fmInSize + row * g.inCols + col + kr * g.inCols + g.kernelCols ≤ g.inputs := by
    rw [e]
    have : g.inIdx fmi (row + kr) (col + g.kernelCols) = g.inIdx fmi (row + kr) col + g.kernelCols := by
      simp only [inIdx]; ring
    rw [this]
    exact inIdx_bound h hf hr hc hkr
  have e2 : fmi * g.fmInSize + row * g.inCols + col + kr * g.inCols + g.inCols =
      fmi * g.fmInSize + row * g.inCols + col + (kr + 1) * g.inCols := by ring
  simp only [if_pos hb']
  rw [e2]
  simp only [e]
  rfl

theorem backCol_eq (h : g.Valid) (w : Weights) (x δ : Batch) (n : ℕ) {fmo fmi row : ℕ} (ho : fmo < g.fmout)
    (hf : fmi < g.fmin) (hr : row < g.maxRow) (s : Batch × Weights) :
    g.backCol w x δ n fmo fmi (fmi * g.fmInSize) row (s, fmo * g.fmOutSize + row * g.maxCol) =
      .ok (s + ∑ col ∈ range g.maxCol, ∑ kr ∈ range g.kernelRows,
          g.krTerm w x (δ n (g.outIdx fmo row col)) n fmo fmi row col kr,
        fmo * g.fmOutSize + row * g.maxCol + g.maxCol * 1) := by
  refine forLoop_acc _ 1 (fun col => ∑ kr ∈ range g.kernelRows,
    g.krTerm w x (δ n (g.outIdx fmo row col)) n fmo fmi row col kr) (fun col hcol s => ?_) s
  have e : fmo * g.fmOutSize + row * g.maxCol + col * 1 = g.outIdx fmo row col := by simp only [outIdx]; ring
  simp only [e]
  rw [Outcome.check_true (outIdx_lt h ho hr hcol), Outcome.ok_bind, backKr_eq h w x _ n fmo hf hr hcol, Outcome.ok_bind]
  simp only [Outcome.pure_eq]
  congr 2
  simp only [outIdx]
  ring

/-- What the bias loop adds at one position. -/
def biasTerm (g : Conv) (δ : Batch) (n fmo fmi row col : ℕ) : Batch × Weights :=
  (0, fun sl => if sl = .b [fmo, fmi] then δ n (g.outIdx fmo row col) else 0)

theorem backBias_eq (h : g.Valid) (δ : Batch) (n fmi : ℕ) {fmo : ℕ} (ho : fmo < g.fmout) (s : Batch × Weights) :
    g.backBias δ n fmo fmi (s, fmo * g.fmOutSize) =
      .ok (s + ∑ row ∈ range g.maxRow, ∑ col ∈ range g.maxCol, g.biasTerm δ n fmo fmi row col,
        fmo * g.fmOutSize + g.maxRow * g.maxCol) := by
  refine forLoop_acc _ g.maxCol (fun row => ∑ col ∈ range g.maxCol, g.biasTerm δ n fmo fmi row col)
    (fun row hrow s => ?_) s
  have := forLoop_acc (body := fun (_ : ℕ) (s : (Batch × Weights) × ℕ) =>
    if s.2 < g.outputs then
      Outcome.ok ((s.1.1, fun sl => s.1.2 sl + if sl = Slot.b [fmo, fmi] then δ n s.2 else 0), s.2 + 1)
    else .ub)
    (n := g.maxCol) (fmo * g.fmOutSize + row * g.maxCol) 1
    (fun col => g.biasTerm δ n fmo fmi row col) (fun col hcol s => by
      have e : fmo * g.fmOutSize + row * g.maxCol + col * 1 = g.outIdx fmo row col := by simp only [outIdx]; ring
      simp only [e, if_pos (outIdx_lt h ho hrow hcol)]
      have e2 : g.outIdx fmo row col + 1 = fmo * g.fmOutSize + row * g.maxCol + (col + 1) * 1 := by
        simp only [outIdx]; ring
      rw [e2]
      congr 2
      exact Prod.ext (add_zero s.1).symm rfl) s
  rw [this]
  congr 2
  ring

/-- What one pair of maps adds. -/
def backTerm (g : Conv) (w : Weights) (x δ : Batch) (n fmo fmi : ℕ) : Batch × Weights :=
  ∑ row ∈ range g.maxRow, ∑ col ∈ range g.maxCol,
    (∑ kr ∈ range g.kernelRows, g.krTerm w x (δ n (g.outIdx fmo row col)) n fmo fmi row col kr +
      if g.bias then g.biasTerm δ n fmo fmi row col else 0)

theorem backFmi_eq (h : g.Valid) (w : Weights) (x δ : Batch) (n : ℕ) {fmo fmi : ℕ} (ho : fmo < g.fmout)
    (hf : fmi < g.fmin) (s : Batch × Weights) :
    g.backFmi w x δ n fmo fmi (s, fmi * g.fmInSize) =
      .ok (s + g.backTerm w x δ n fmo fmi, (fmi + 1) * g.fmInSize) := by
  have hrows : forLoop g.maxRow (fun row => g.backCol w x δ n fmo fmi (fmi * g.fmInSize) row) (s, fmo * g.fmOutSize) =
      .ok (s + ∑ row ∈ range g.maxRow, ∑ col ∈ range g.maxCol, ∑ kr ∈ range g.kernelRows,
          g.krTerm w x (δ n (g.outIdx fmo row col)) n fmo fmi row col kr,
        fmo * g.fmOutSize + g.maxRow * g.maxCol) := by
    refine forLoop_acc _ g.maxCol (fun row => ∑ col ∈ range g.maxCol, ∑ kr ∈ range g.kernelRows,
      g.krTerm w x (δ n (g.outIdx fmo row col)) n fmo fmi row col kr) (fun row hrow s => ?_) s
    rw [backCol_eq h w x δ n ho hf hrow]
    congr 2
    ring
  rw [backFmi]
  simp only
  rw [hrows, Outcome.ok_bind]
  have e : fmi * g.fmInSize + g.fmInSize = (fmi + 1) * g.fmInSize := by ring
  cases hb : g.bias with
  | true =>
    simp only [if_true]
    rw [backBias_eq h δ n fmi ho, Outcome.ok_bind, Outcome.pure_eq, e]
    congr 2
    rw [backTerm, add_assoc, ← Finset.sum_add_distrib]
    refine congrArg (fun z => s + z) ?_
    refine Finset.sum_congr rfl fun row _ => ?_
    rw [← Finset.sum_add_distrib]
    refine Finset.sum_congr rfl fun col _ => ?_
    rw [hb, if_pos rfl]
  | false =>
    simp only [Bool.false_eq_true, if_false, Outcome.pure_eq, e]
    congr 2
    rw [backTerm]
    simp only [hb, Bool.false_eq_true, if_false, add_zero]

theorem backwardLoops_eq (h : g.Valid) (w : Weights) (N : ℕ) (x δ : Batch) :
    g.backwardLoops w N x δ =
      .ok (∑ n ∈ range N, ∑ fmo ∈ range g.fmout, ∑ fmi ∈ range g.fmin, g.backTerm w x δ n fmo fmi) := by
  have h1 : ∀ n, ∀ fmo < g.fmout, ∀ s : Batch × Weights, forLoop g.fmin (g.backFmi w x δ n fmo) (s, 0) =
      .ok (s + ∑ fmi ∈ range g.fmin, g.backTerm w x δ n fmo fmi, 0 + g.fmin * g.fmInSize) := by
    intro n fmo ho s
    refine forLoop_acc (α := Batch × Weights) 0 g.fmInSize _ (fun fmi hf s => ?_) s
    rw [zero_add, zero_add, backFmi_eq h w x δ n ho hf]
  have h2 : ∀ n < N, ∀ s : Batch × Weights, forLoop g.fmout (fun fmo s => do
      let r ← forLoop g.fmin (g.backFmi w x δ n fmo) (s, 0)
      pure r.1) s = .ok (s + ∑ fmo ∈ range g.fmout, ∑ fmi ∈ range g.fmin, g.backTerm w x δ n fmo fmi) := by
    intro n _ s
    refine forLoop_add (α := Batch × Weights) _ (fun fmo ho s => ?_) s
    rw [h1 n fmo ho, Outcome.ok_bind]
    rfl
  have h3 := forLoop_add (α := Batch × Weights) _ h2 (fun _ _ => 0, fun _ => 0)
  rw [backwardLoops, h3]
  congr 1
  exact zero_add _

theorem fst_sum {ι : Type} (s : Finset ι) (f : ι → Batch × Weights) : (∑ i ∈ s, f i).1 = ∑ i ∈ s, (f i).1 :=
  Prod.fst_sum

theorem snd_sum {ι : Type} (s : Finset ι) (f : ι → Batch × Weights) : (∑ i ∈ s, f i).2 = ∑ i ∈ s, (f i).2 :=
  Prod.snd_sum

theorem backTerm_fst (w : Weights) (x δ : Batch) (n fmo fmi n' p : ℕ) :
    (g.backTerm w x δ n fmo fmi).1 n' p = if n' = n then
      ∑ row ∈ range g.maxRow, ∑ col ∈ range g.maxCol, ∑ kr ∈ range g.kernelRows, ∑ kc ∈ range g.kernelCols,
        (if g.inIdx fmi (row + kr) (col + kc) = p then w (.w [fmo, fmi, kr, kc]) * δ n (g.outIdx fmo row col) else 0)
      else 0 := by
  have hb : ∀ row col, (if g.bias then g.biasTerm δ n fmo fmi row col else 0 : Batch × Weights).1 n' p = 0 := by
    intro row col
    cases g.bias <;> rfl
  simp only [backTerm, fst_sum, Prod.fst_add, Finset.sum_apply, Pi.add_apply, hb, add_zero, krTerm]
  by_cases h : n' = n
  · simp only [h, if_true]
  · simp [h]

/-- **C23.** The backward loops stay within all arrays; they leave the error signal `errorSignal` and in each derivative
that the network points to the value `weightDerivs`. -/
theorem conv_backward (h : g.Valid) (w : Weights) (N : ℕ) (x δ : Batch) :
    ∃ r, g.backwardLoops w N x δ = .ok r ∧ (∀ n < N, ∀ p, r.1 n p = g.errorSignal w δ n p) ∧
      ∀ s ∈ g.slots, r.2 s = g.weightDerivs N x δ s := by
  refine ⟨_, backwardLoops_eq h w N x δ, ?_, ?_⟩
  · intro n hn p
    simp only [fst_sum, Finset.sum_apply, backTerm_fst]
    rw [Finset.sum_eq_single n]
    · simp only [if_true, errorSignal]
    · intro n' _ hne
      simp [hne.symm]
    · intro hn'
      exact absurd (mem_range.2 hn) hn'
  · intro s hs
    simp only [slots, List.mem_flatMap, List.mem_append, List.mem_map, List.mem_range] at hs
    obtain ⟨fmo, ho, fmi, hf, hs⟩ := hs
    simp only [snd_sum, Finset.sum_apply, backTerm, Prod.snd_add, Pi.add_apply]
    rcases hs with ⟨kr, hkr, kc, hkc, rfl⟩ | hs
    · have hb : ∀ n fmo' fmi' row col,
          (if g.bias then g.biasTerm δ n fmo' fmi' row col else 0 : Batch × Weights).2 (Slot.w [fmo, fmi, kr, kc]) =
            0 := by
        intro n fmo' fmi' row col
        cases g.bias <;> simp [biasTerm]
      simp only [hb, add_zero, krTerm, weightDerivs]
      refine Finset.sum_congr rfl fun n _ => ?_
      rw [Finset.sum_eq_single fmo]
      · rw [Finset.sum_eq_single fmi]
        · refine Finset.sum_congr rfl fun row _ => Finset.sum_congr rfl fun col _ => ?_
          rw [Finset.sum_eq_single kr]
          · rw [Finset.sum_eq_single kc]
            · rw [if_pos rfl]
            · intro kc' _ hne
              rw [if_neg]
              simpa using fun e => hne e.symm
            · intro hn
              exact absurd (mem_range.2 hkc) hn
          · intro kr' _ hne
            refine Finset.sum_eq_zero fun kc' _ => ?_
            rw [if_neg]
            simp only [Slot.w.injEq, List.cons.injEq, and_true, true_and, not_and]
            exact fun e => absurd e.symm hne
          · intro hn
            exact absurd (mem_range.2 hkr) hn
        · intro fmi' _ hne
          refine Finset.sum_eq_zero fun row _ => Finset.sum_eq_zero fun col _ => Finset.sum_eq_zero fun kr' _ =>
            Finset.sum_eq_zero fun kc' _ => ?_
          rw [if_neg]
          simp only [Slot.w.injEq, List.cons.injEq, and_true, true_and, not_and]
          exact fun e => absurd e.symm hne
        · intro hn
          exact absurd (mem_range.2 hf) hn
      · intro fmo' _ hne
        refine Finset.sum_eq_zero fun fmi' _ => Finset.sum_eq_zero fun row _ => Finset.sum_eq_zero fun col _ =>
          Finset.sum_eq_zero fun kr' _ => Finset.sum_eq_zero fun kc' _ => ?_
        rw [if_neg]
        simp only [Slot.w.injEq, List.cons.injEq, and_true, not_and]
        exact fun e => absurd e.symm hne
      · intro hn
        exact absurd (mem_range.2 ho) hn
    · cases hgb : g.bias with
      | false =>
        rw [hgb] at hs
        simp at hs
      | true =>
        rw [hgb] at hs
        simp only [if_true, List.mem_singleton] at hs
        subst hs
        simp only [if_true, krTerm, biasTerm, weightDerivs]
        refine Finset.sum_congr rfl fun n _ => ?_
        have hz : ∀ fmo' fmi' row col, (∑ kr ∈ range g.kernelRows, ∑ kc ∈ range g.kernelCols,
            if Slot.b [fmo, fmi] = Slot.w [fmo', fmi', kr, kc] then
              δ n (g.outIdx fmo' row col) * x n (g.inIdx fmi' (row + kr) (col + kc)) else 0) = 0 := by
          intro fmo' fmi' row col
          refine Finset.sum_eq_zero fun kr _ => Finset.sum_eq_zero fun kc _ => ?_
          rw [if_neg (by simp)]
        simp only [hz, zero_add]
        rw [Finset.sum_eq_single fmo]
        · rw [Finset.sum_eq_single fmi]
          · refine Finset.sum_congr rfl fun row _ => Finset.sum_congr rfl fun col _ => ?_
            rw [if_pos rfl]
          · intro fmi' _ hne
            refine Finset.sum_eq_zero fun row _ => Finset.sum_eq_zero fun col _ => ?_
            rw [if_neg]
            simp only [Slot.b.injEq, List.cons.injEq, and_true, true_and]
            exact fun e => hne e.symm
          · intro hn
            exact absurd (mem_range.2 hf) hn
        · intro fmo' _ hne
          refine Finset.sum_eq_zero fun fmi' _ => Finset.sum_eq_zero fun row _ => Finset.sum_eq_zero fun col _ => ?_
          rw [if_neg]
          simp only [Slot.b.injEq, List.cons.injEq, and_true, not_and]
          exact fun e => absurd e.symm hne
        · intro hn
          exact absurd (mem_range.2 ho) hn

end

/-- A 5x4 image with 2 maps and a 3x2 kernel is accepted; it yields 3x2 positions. -/
example : (Conv.mk 2 5 4 3 3 2 true .tanh ⟨0, 0, 0⟩).Valid ∧
    convInit 2 5 4 3 3 2 = .ok (3, 3, 2) := by
  refine ⟨⟨by decide, by decide⟩, by decide⟩

/-- An even kernel as large as the image is rejected although one window would fit. -/
example : convInit 1 2 2 1 2 2 = .throws := by decide

end Conv

end Verif.NN
