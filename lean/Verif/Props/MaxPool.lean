import Verif.Props.Pool
import Mathlib.Topology.Algebra.Order.LiminfLimsup

/-!
# Max-pooling: C24
-/

namespace Verif.NN

open Finset

namespace Pool

variable {g : Pool}

theorem le_rowMax {x : Batch} {n base k K : ℕ} (hk : k < K) : x n (base + k) ≤ rowMax x n base K := by
  induction K with
  | zero => omega
  | succ K ih =>
    rw [rowMax]
    rcases Nat.lt_succ_iff_lt_or_eq.1 hk with h | h
    · exact (ih h).trans (le_max_left _ _)
    · rw [h]
      exact le_max_right _ _

theorem lowest_le_rowMax {x : Batch} {n base K : ℕ} : lowest ≤ rowMax x n base K := by
  induction K with
  | zero => exact le_refl _
  | succ K ih => exact ih.trans (le_max_left _ _)

/-- What the search for the maximum finds: nothing, or the first of the largest numbers. -/
theorem rowArg_spec (x : Batch) (n base K : ℕ) :
    (rowArg x n base K = none ∧ rowMax x n base K = lowest) ∨
      ∃ kc < K, rowArg x n base K = some (base + kc) ∧ rowMax x n base K = x n (base + kc) ∧ lowest < x n (base + kc) ∧
        ∀ kc' < kc, x n (base + kc') < x n (base + kc) := by
  induction K with
  | zero => exact Or.inl ⟨rfl, rfl⟩
  | succ K ih =>
    by_cases h : rowMax x n base K < x n (base + K)
    · refine Or.inr ⟨K, Nat.lt_succ_self K, ?_, ?_, lowest_le_rowMax.trans_lt h, fun kc' hk' => (le_rowMax hk').trans_lt h⟩
      · rw [rowArg, if_pos h]
      · rw [rowMax, max_eq_right h.le]
    · rw [rowArg, if_neg h, rowMax, max_eq_left (not_lt.1 h)]
      rcases ih with h1 | ⟨kc, hk, h1⟩
      · exact Or.inl h1
      · exact Or.inr ⟨kc, Nat.lt_succ_of_lt hk, h1⟩

theorem rowArg_some {x : Batch} {n base K p : ℕ} (h : rowArg x n base K = some p) : ∃ kc < K, p = base + kc := by
  rcases rowArg_spec x n base K with h1 | ⟨kc, hk, h1, _⟩
  · rw [h1.1] at h; cases h
  · rw [h1] at h
    exact ⟨kc, hk, (Option.some.inj h).symm⟩

theorem rowArg_none_iff {x : Batch} {n base K : ℕ} :
    rowArg x n base K = none ↔ ∀ kc < K, x n (base + kc) ≤ lowest := by
  constructor
  · intro h kc hk
    rcases rowArg_spec x n base K with h1 | ⟨_, _, h1, _⟩
    · rw [← h1.2]
      exact le_rowMax hk
    · rw [h1] at h; cases h
  · intro h
    rcases rowArg_spec x n base K with h1 | ⟨kc, hk, _, _, h2, _⟩
    · exact h1.1
    · exact absurd (h kc hk) (not_le.2 h2)

theorem maxLoop_eq (h : g.Valid) {x : Batch} {n base : ℕ} (hb : ∀ kc < g.kernelCols, base + kc < g.inputs) :
    g.maxLoop x n base = .ok (rowMax x n base g.kernelCols) := by
  have first := forLoop_eq (n := g.kernelCols) (body := fun (_ : ℕ) (s : ℝ × ℕ) =>
      if s.2 < g.inputs then Outcome.ok (max s.1 (x n s.2), s.2 + 1) else .ub)
    (fun k => (rowMax x n base k, base + k)) (fun k hk => by simp only [if_pos (hb k hk)]; rfl)
  have later := forLoop_eq (n := g.kernelCols) (body := fun (_ : ℕ) (s : ℝ × ℕ) =>
      if s.2 < g.inputs then Outcome.ok (max s.1 (x n s.2), s.2 + 1) else .ub)
    (fun k => (rowMax x n base g.kernelCols, base + k)) (fun k hk => by
      simp only [if_pos (hb k hk), max_eq_left (le_rowMax hk)]; rfl)
  have := forLoop_eq (n := g.kernelRows) (body := fun (_ : ℕ) (m : ℝ) => do
      let r ← forLoop g.kernelCols (fun _ s =>
        if s.2 < g.inputs then .ok (max s.1 (x n s.2), s.2 + 1) else .ub) (m, base)
      pure r.1) (fun i => if i = 0 then lowest else rowMax x n base g.kernelCols) (fun i _ => by
    by_cases hi : i = 0
    · simp only [hi, if_true, Nat.zero_add, Nat.one_ne_zero, if_false]
      rw [show (lowest, base) = (rowMax x n base 0, base + 0) from rfl, first]
      rfl
    · simp only [if_neg hi, Nat.add_eq_zero_iff, Nat.one_ne_zero, and_false, if_false]
      rw [show (rowMax x n base g.kernelCols, base) = (rowMax x n base g.kernelCols, base + 0) from rfl, later]
      rfl)
  simp only [if_true, if_neg h.1.ne'] at this
  exact this

theorem argLoop_eq (h : g.Valid) {x : Batch} {n base : ℕ} (hb : ∀ kc < g.kernelCols, base + kc < g.inputs) :
    g.argLoop x n base = .ok (rowMax x n base g.kernelCols, rowArg x n base g.kernelCols) := by
  have first := forLoop_eq (n := g.kernelCols) (body := fun (_ : ℕ) (s : (ℝ × Option ℕ) × ℕ) =>
      if s.2 < g.inputs then Outcome.ok (if s.1.1 < x n s.2 then (x n s.2, some s.2) else s.1, s.2 + 1) else .ub)
    (fun k => ((rowMax x n base k, rowArg x n base k), base + k)) (fun k hk => by
      simp only [if_pos (hb k hk), rowMax, rowArg]
      by_cases hlt : rowMax x n base k < x n (base + k)
      · rw [if_pos hlt, if_pos hlt, max_eq_right hlt.le]; rfl
      · rw [if_neg hlt, if_neg hlt, max_eq_left (not_lt.1 hlt)]; rfl)
  have later := forLoop_eq (n := g.kernelCols) (body := fun (_ : ℕ) (s : (ℝ × Option ℕ) × ℕ) =>
      if s.2 < g.inputs then Outcome.ok (if s.1.1 < x n s.2 then (x n s.2, some s.2) else s.1, s.2 + 1) else .ub)
    (fun k => ((rowMax x n base g.kernelCols, rowArg x n base g.kernelCols), base + k)) (fun k hk => by
      simp only [if_pos (hb k hk), if_neg (not_lt.2 (le_rowMax (x := x) (n := n) (base := base) hk))]; rfl)
  have := forLoop_eq (n := g.kernelRows) (body := fun (_ : ℕ) (m : ℝ × Option ℕ) => do
      let r ← forLoop g.kernelCols (fun _ (s : (ℝ × Option ℕ) × ℕ) =>
        if s.2 < g.inputs then .ok (if s.1.1 < x n s.2 then (x n s.2, some s.2) else s.1, s.2 + 1) else .ub) (m, base)
      pure r.1) (fun i => if i = 0 then (lowest, none) else (rowMax x n base g.kernelCols, rowArg x n base g.kernelCols))
      (fun i _ => by
    by_cases hi : i = 0
    · simp only [hi, if_true, Nat.zero_add, Nat.one_ne_zero, if_false]
      rw [show ((lowest, none), base) = ((rowMax x n base 0, rowArg x n base 0), base + 0) from rfl, first]
      rfl
    · simp only [if_neg hi, Nat.add_eq_zero_iff, Nat.one_ne_zero, and_false, if_false]
      rw [show ((rowMax x n base g.kernelCols, rowArg x n base g.kernelCols), base) =
        ((rowMax x n base g.kernelCols, rowArg x n base g.kernelCols), base + 0) from rfl, later]
      rfl)
  simp only [if_true, if_neg h.1.ne'] at this
  exact this

/-- **C24.** The forward pass stays within all arrays and writes every output. -/
theorem maxPool_forward (h : g.Valid) (w : Weights) (N : ℕ) (x y0 : Batch) :
    ∃ y, g.maxForward N x y0 = .ok y ∧ ∀ n < N, ∀ o < g.outputs, y n o = g.maxLayer.forward w N x n o := by
  have hrow : ∀ n y, g.windowLoop (fun _ _ _ base outputIdx y => do
      let m ← g.maxLoop x n base
      if outputIdx < g.outputs then pure (setEntry y n outputIdx m) else .ub) y =
      .ok (fun n' o => if n' = n ∧ o < g.outputs then rowMax x n (g.base o) g.kernelCols else y n' o) := by
    intro n y
    rw [windowLoop_eq h]
    have := forLoop_eq (n := g.outputs) (body := fun o y => do
        let m ← g.maxLoop x n (g.base o)
        if o < g.outputs then pure (setEntry y n o m) else .ub)
      (fun k n' o => if n' = n ∧ o < k then rowMax x n (g.base o) g.kernelCols else y n' o) (fun o ho => by
        rw [maxLoop_eq h fun kc hk => base_bound h ho hk, Outcome.ok_bind, if_pos ho, Outcome.pure_eq]
        congr 1
        funext n' o'
        simp only [setEntry]
        by_cases h1 : n' = n
        · by_cases h2 : o' = o
          · rw [if_pos ⟨h1, h2⟩, if_pos ⟨h1, by omega⟩, h2]
          · rw [if_neg (fun e => h2 e.2)]
            by_cases h3 : o' < o
            · rw [if_pos ⟨h1, h3⟩, if_pos ⟨h1, by omega⟩]
            · rw [if_neg (fun e => h3 e.2), if_neg (fun e => by have := e.2; omega)]
        · rw [if_neg (fun e => h1 e.1), if_neg (fun e => h1 e.1), if_neg (fun e => h1 e.1)])
    simp only [Nat.not_lt_zero, and_false, if_false] at this
    exact this
  have := forLoop_eq (n := N) (body := fun n => g.windowLoop fun _ _ _ base outputIdx y => do
      let m ← g.maxLoop x n base
      if outputIdx < g.outputs then pure (setEntry y n outputIdx m) else .ub)
    (fun k n' o => if n' < k ∧ o < g.outputs then rowMax x n' (g.base o) g.kernelCols else y0 n' o) (fun n _ => by
      rw [hrow]
      congr 1
      funext n' o
      by_cases h1 : o < g.outputs
      · by_cases h2 : n' = n
        · rw [if_pos ⟨h2, h1⟩, if_pos ⟨by omega, h1⟩, h2]
        · rw [if_neg (fun e => h2 e.1)]
          by_cases h3 : n' < n
          · rw [if_pos ⟨h3, h1⟩, if_pos ⟨by omega, h1⟩]
          · rw [if_neg (fun e => h3 e.1), if_neg (fun e => by have := e.1; omega)]
      · rw [if_neg (fun e => h1 e.2), if_neg (fun e => h1 e.2), if_neg (fun e => h1 e.2)])
  simp only [Nat.not_lt_zero, false_and, if_false] at this
  exact ⟨_, this, fun n hn o ho => by rw [if_pos ⟨hn, ho⟩]; rfl⟩

/-- **C24.** The backward pass stays within all arrays if every window has a number above `lowest` in its first row. -/
theorem maxPool_backward (h : g.Valid) (w : Weights) (N : ℕ) (x ein stale : Batch) (flag : Bool)
    (hx : ∀ n < N, ∀ o < g.outputs, ∃ kc < g.kernelCols, lowest < x n (g.base o + kc)) :
    ∃ e, g.maxBackward N x ein = .ok e ∧ ∀ n < N, ∀ p, e n p = g.maxLayer.back w N x ein flag stale n p := by
  have hrow : ∀ n < N, ∀ e : Batch, (∀ p, e n p = 0) → g.windowLoop (fun _ _ _ base outputIdx e => do
      let r ← g.argLoop x n base
      if outputIdx < g.outputs then g.writeError e n (ein n outputIdx) r.2 else .ub) e =
      .ok (fun n' p => if n' = n then
        ∑ o ∈ range g.outputs, (if rowArg x n (g.base o) g.kernelCols = some p then ein n o else 0) else e n' p) := by
    intro n hn e he
    rw [windowLoop_eq h]
    have := forLoop_eq (n := g.outputs) (body := fun o e => do
        let r ← g.argLoop x n (g.base o)
        if o < g.outputs then g.writeError e n (ein n o) r.2 else .ub)
      (fun k n' p => if n' = n then
        ∑ o ∈ range k, (if rowArg x n (g.base o) g.kernelCols = some p then ein n o else 0) else e n' p) (fun o ho => by
        rw [argLoop_eq h fun kc hk => base_bound h ho hk, Outcome.ok_bind, if_pos ho]
        simp only
        rcases rowArg_spec x n (g.base o) g.kernelCols with h1 | ⟨kc, hk, h1, _⟩
        · obtain ⟨kc, hk, hlt⟩ := hx n hn o ho
          exact absurd (rowArg_none_iff.1 h1.1 kc hk) (not_le.2 hlt)
        rw [h1]
        simp only [writeError, if_pos (base_bound h ho hk)]
        congr 1
        funext n' p
        simp only [setEntry]
        by_cases h2 : n' = n
        · simp only [h2, true_and, if_true]
          rw [Finset.sum_range_succ, h1]
          by_cases h3 : p = g.base o + kc
          · rw [if_pos h3, h3, if_pos rfl, Finset.sum_eq_zero, zero_add]
            intro o' ho'
            rw [if_neg]
            intro e'
            obtain ⟨kc', hk', e''⟩ := rowArg_some e'
            have := (base_inj h hk hk' e'').1
            rw [mem_range] at ho'
            omega
          · rw [if_neg h3, if_neg (fun e => h3 (Option.some.inj e).symm), add_zero]
        · rw [if_neg (fun e => h2 e.1), if_neg h2, if_neg h2])
    simp only [Finset.range_zero, Finset.sum_empty] at this
    have e0 : (fun n' p => if n' = n then (0 : ℝ) else e n' p) = e := by
      funext n' p
      by_cases h1 : n' = n
      · rw [if_pos h1, h1, he]
      · rw [if_neg h1]
    rw [e0] at this
    exact this
  have := forLoop_eq (n := N) (body := fun n => g.windowLoop fun _ _ _ base outputIdx e => do
      let r ← g.argLoop x n base
      if outputIdx < g.outputs then g.writeError e n (ein n outputIdx) r.2 else .ub)
    (fun k n' p => if n' < k then
        ∑ o ∈ range g.outputs, (if rowArg x n' (g.base o) g.kernelCols = some p then ein n' o else 0) else 0)
      (fun n hn => by
      rw [hrow n hn _ (fun p => by simp)]
      congr 1
      funext n' p
      by_cases h2 : n' = n
      · rw [if_pos h2, if_pos (by omega), h2]
      · rw [if_neg h2]
        by_cases h3 : n' < n
        · rw [if_pos h3, if_pos (by omega)]
        · rw [if_neg h3, if_neg (by omega)])
  simp only [Nat.not_lt_zero, if_false] at this
  exact ⟨_, this, fun n hn p => by rw [if_pos hn]; rfl⟩

theorem forLoop_ne_ok {σ : Type} {n i : ℕ} (hi : i < n) {body : ℕ → σ → Outcome σ} (h : ∀ s t, body i s ≠ .ok t) (s t : σ) :
    forLoop n body s ≠ .ok t := by
  induction n generalizing t with
  | zero => omega
  | succ n ih =>
    rw [forLoop]
    intro e
    rw [Outcome.bind_eq_ok] at e
    obtain ⟨s', h1, h2⟩ := e
    rcases Nat.lt_succ_iff_lt_or_eq.1 hi with hlt | heq
    · exact ih hlt s' h1
    · rw [← heq] at h2
      exact h _ _ h2

/-- A window whose first row has no number above `-DBL_MAX` makes the backward pass write to column -1. -/
theorem maxPool_backward_ub (h : g.Valid) (N : ℕ) (x ein : Batch) {n o : ℕ} (hn : n < N) (ho : o < g.outputs)
    (hx : ∀ kc < g.kernelCols, x n (g.base o + kc) ≤ lowest) (e : Batch) : g.maxBackward N x ein ≠ .ok e := by
  refine forLoop_ne_ok hn (fun s t => ?_) _ _
  rw [windowLoop_eq h]
  refine forLoop_ne_ok ho (fun s t => ?_) _ _
  rw [argLoop_eq h fun kc hk => base_bound h ho hk, Outcome.ok_bind, if_pos ho]
  simp only [rowArg_none_iff.2 hx, writeError]
  exact fun e => by cases e

/-- Spec: the input values of the window of output `(r, c)` of map `m`, in instance `n`. -/
def windowValue (g : Pool) (x : Batch) (n m r c kr kc : ℕ) : ℝ :=
  x n (m * (g.inRows * g.inCols) + (r * g.kernelRows + kr) * g.inCols + (c * g.kernelCols + kc))

theorem base_outIdx (h : g.Valid) {m r c : ℕ} (hr : r < g.outRows) (hc : c < g.outCols) :
    g.base (g.outIdx m r c) = m * (g.inRows * g.inCols) + r * g.kernelRows * g.inCols + c * g.kernelCols := by
  obtain ⟨h1, h2, h3⟩ := of_outIdx h (fmo := m) hr hc
  rw [base, h1, h2, h3]
  rfl

theorem windowValue_first (h : g.Valid) (x : Batch) (n : ℕ) {m r c : ℕ} (hr : r < g.outRows) (hc : c < g.outCols)
    (kc : ℕ) : g.windowValue x n m r c 0 kc = x n (g.base (g.outIdx m r c) + kc) := by
  rw [base_outIdx h hr hc, windowValue, Nat.add_zero, Nat.add_assoc (_ + _) _ kc]

/-- What the layer computes: the maximum of the first row of the window. -/
theorem maxPool_first_row (h : g.Valid) (w : Weights) (N : ℕ) (x : Batch) {n m r c : ℕ}
    (hr : r < g.outRows) (hc : c < g.outCols) (hx : ∀ p, lowest ≤ x n p) :
    IsGreatest {v | ∃ kc < g.kernelCols, v = g.windowValue x n m r c 0 kc}
      (g.maxLayer.forward w N x n (m * (g.outRows * g.outCols) + r * g.outCols + c)) := by
  show IsGreatest _ (rowMax x n (g.base (g.outIdx m r c)) g.kernelCols)
  constructor
  · rcases rowArg_spec x n (g.base (g.outIdx m r c)) g.kernelCols with ⟨h1, h2⟩ | ⟨kc, hk, _, h2, _⟩
    · refine ⟨0, h.2.2.1, ?_⟩
      rw [windowValue_first h x n hr hc, h2]
      exact le_antisymm (hx _) (rowArg_none_iff.1 h1 0 h.2.2.1)
    · exact ⟨kc, hk, by rw [windowValue_first h x n hr hc, h2]⟩
  · rintro v ⟨kc, hk, rfl⟩
    rw [windowValue_first h x n hr hc]
    exact le_rowMax hk

/-- **C24, for kernels with one row.** The output is the maximum of the window.  Missing: kernels with more rows, for which
the statement is false (`maxPool_fails`). -/
theorem maxPool_max_partial (h : g.Valid) (h1 : g.kernelRows = 1) (w : Weights) (N : ℕ) (x : Batch) {n m r c : ℕ}
    (hr : r < g.outRows) (hc : c < g.outCols) (hx : ∀ p, lowest ≤ x n p) :
    IsGreatest {v | ∃ kr < g.kernelRows, ∃ kc < g.kernelCols, v = g.windowValue x n m r c kr kc}
      (g.maxLayer.forward w N x n (m * (g.outRows * g.outCols) + r * g.outCols + c)) := by
  have := maxPool_first_row h w N x (n := n) (m := m) hr hc hx
  have e : {v | ∃ kr < g.kernelRows, ∃ kc < g.kernelCols, v = g.windowValue x n m r c kr kc} =
      {v | ∃ kc < g.kernelCols, v = g.windowValue x n m r c 0 kc} := by
    ext v
    constructor
    · rintro ⟨kr, hkr, kc, hkc, rfl⟩
      rw [h1] at hkr
      have : kr = 0 := by omega
      exact ⟨kc, hkc, by rw [this]⟩
    · rintro ⟨kc, hkc, rfl⟩
      exact ⟨0, by omega, kc, hkc, rfl⟩
  rw [e]
  exact this

/-- The columns of two different places of windows differ. -/
theorem window_inj {m r c kr kc m' r' c' kr' kc' : ℕ} (hr : r < g.outRows) (hc : c < g.outCols)
    (hkr : kr < g.kernelRows) (hkc : kc < g.kernelCols) (hr' : r' < g.outRows) (hc' : c' < g.outCols)
    (hkr' : kr' < g.kernelRows) (hkc' : kc' < g.kernelCols)
    (e : m * (g.inRows * g.inCols) + (r * g.kernelRows + kr) * g.inCols + (c * g.kernelCols + kc) =
      m' * (g.inRows * g.inCols) + (r' * g.kernelRows + kr') * g.inCols + (c' * g.kernelCols + kc')) :
    (m = m' ∧ r = r' ∧ c = c') ∧ kr = kr' ∧ kc = kc' := by
  have hw := window_fits hr hc
  have hw' := window_fits hr' hc'
  obtain ⟨h1, h2, h3⟩ := idx_inj (by omega) (by omega) (by omega) (by omega) e
  have key : ∀ {a b K u v : ℕ}, u < K → v < K → a * K + u = b * K + v → a = b ∧ u = v := by
    intro a b K u v hu hv e
    have hK : 0 < K := by omega
    have h4 := congrArg (· / K) e
    simp only [Nat.mul_comm _ K, Nat.mul_add_div hK, Nat.div_eq_of_lt hu, Nat.div_eq_of_lt hv] at h4
    simp only [Nat.add_zero] at h4
    rw [h4] at e
    exact ⟨h4, by omega⟩
  obtain ⟨a1, a2⟩ := key hkr hkr' h2
  obtain ⟨b1, b2⟩ := key hkc hkc' h3
  exact ⟨⟨h1, a1, b1⟩, a2, b2⟩

theorem lowest_neg : lowest < 0 := by
  have : (2 : ℝ) ^ 971 < 2 ^ 1024 := pow_lt_pow_right₀ (by norm_num) (by norm_num)
  exact neg_neg_of_pos (sub_pos.2 this)

/-- An input that is 1 in one column and 0 elsewhere. -/
def spike (p0 : ℕ) : Batch := fun _ p => if p = p0 then 1 else 0

theorem lowest_lt_spike (p0 n p : ℕ) : lowest < spike p0 n p := by
  have := lowest_neg
  rw [spike]
  by_cases h : p = p0
  · rw [if_pos h]; linarith
  · rw [if_neg h]; exact this

/-- **C24 is false** for every kernel with more than one row: for each window there is an input (of ordinary numbers)
whose window contains a number that is larger than the output. -/
theorem maxPool_fails (h : g.Valid) (h2 : 2 ≤ g.kernelRows) (w : Weights) (N : ℕ) {n m r c : ℕ}
    (hr : r < g.outRows) (hc : c < g.outCols) :
    ∃ x : Batch, (∀ n p, x n p = 0 ∨ x n p = 1) ∧
      g.maxLayer.forward w N x n (m * (g.outRows * g.outCols) + r * g.outCols + c) <
        g.windowValue x n m r c 1 0 := by
  refine ⟨spike (m * (g.inRows * g.inCols) + (r * g.kernelRows + 1) * g.inCols + (c * g.kernelCols + 0)), ?_, ?_⟩
  · intro n p
    rw [spike]
    by_cases h : p = m * (g.inRows * g.inCols) + (r * g.kernelRows + 1) * g.inCols + (c * g.kernelCols + 0)
    · exact Or.inr (if_pos h)
    · exact Or.inl (if_neg h)
  · obtain ⟨⟨kc, hkc, e⟩, _⟩ := maxPool_first_row h w N (spike (m * (g.inRows * g.inCols) +
      (r * g.kernelRows + 1) * g.inCols + (c * g.kernelCols + 0))) (n := n) (m := m) hr hc
      (fun p => (lowest_lt_spike _ n p).le)
    rw [e]
    simp only [windowValue, spike]
    rw [if_pos trivial, if_neg]
    · norm_num
    · intro e
      have := window_inj hr hc h.1 hkc hr hc (by omega) h.2.2.1 e
      omega

/-- Where the error signal goes: exactly to the first maximum of the first row of the window, and to no other place of
the window. -/
theorem maxPool_error (h : g.Valid) (w : Weights) (N : ℕ) (x ein stale : Batch) (flag : Bool) {n m r c : ℕ}
    (hm : m < g.fm) (hr : r < g.outRows) (hc : c < g.outCols) (hx : ∀ p, lowest < x n p) :
    ∃ kc < g.kernelCols, (∀ kc' < g.kernelCols, g.windowValue x n m r c 0 kc' ≤ g.windowValue x n m r c 0 kc) ∧
      g.windowValue (g.maxLayer.back w N x ein flag stale) n m r c 0 kc =
        ein n (m * (g.outRows * g.outCols) + r * g.outCols + c) ∧
      ∀ kr < g.kernelRows, ∀ kc' < g.kernelCols, (kr, kc') ≠ (0, kc) →
        g.windowValue (g.maxLayer.back w N x ein flag stale) n m r c kr kc' = 0 := by
  have hself : ∀ o p, rowArg x n (g.base o) g.kernelCols = some p → ∃ kc < g.kernelCols,
      p = g.mapOf o * (g.inRows * g.inCols) + (g.rowOf o * g.kernelRows + 0) * g.inCols +
        (g.colOf o * g.kernelCols + kc) := by
    intro o p e
    obtain ⟨kc, hkc, e'⟩ := rowArg_some e
    refine ⟨kc, hkc, ?_⟩
    rw [e', base, inIdx, fmInSize]
    ring
  rcases rowArg_spec x n (g.base (g.outIdx m r c)) g.kernelCols with h1 | ⟨kc, hk, h1, h2, _⟩
  · exact absurd (rowArg_none_iff.1 h1.1 0 h.2.2.1) (not_le.2 (hx _))
  obtain ⟨d1, d2, d3⟩ := of_outIdx h (fmo := m) hr hc
  refine ⟨kc, hk, ?_, ?_, ?_⟩
  · intro kc' hk'
    rw [windowValue_first h x n hr hc, windowValue_first h x n hr hc, ← h2]
    exact le_rowMax hk'
  · rw [windowValue_first h _ n hr hc]
    show ∑ o ∈ range g.outputs, (if rowArg x n (g.base o) g.kernelCols = some (g.base (g.outIdx m r c) + kc) then
      ein n o else 0) = ein n (g.outIdx m r c)
    rw [Finset.sum_eq_single (g.outIdx m r c)]
    · rw [if_pos h1]
    · intro o _ hne
      rw [if_neg]
      intro e
      obtain ⟨kc', hk', e'⟩ := rowArg_some e
      exact hne (base_inj h hk hk' e').1.symm
    · intro hn
      exact absurd (mem_range.2 (outIdx_lt hm hr hc)) hn
  · intro kr hkr kc' hk' hne
    show ∑ o ∈ range g.outputs, (if rowArg x n (g.base o) g.kernelCols = some (m * (g.inRows * g.inCols) +
      (r * g.kernelRows + kr) * g.inCols + (c * g.kernelCols + kc')) then ein n o else 0) = 0
    refine Finset.sum_eq_zero fun o _ => ?_
    rw [if_neg]
    intro e
    obtain ⟨kc'', hk'', e'⟩ := hself o _ e
    obtain ⟨⟨e1, e2, e3⟩, e4, e5⟩ := window_inj hr hc hkr hk' (rowOf_lt h o) (colOf_lt h o) h.1 hk'' e'
    have ho : o = g.outIdx m r c := by rw [← outIdx_of g o, ← e1, ← e2, ← e3]
    rw [ho, h1] at e
    have e6 := Option.some.inj e
    rw [base_outIdx h hr hc, e4, Nat.add_zero] at e6
    apply hne
    rw [e4]
    congr 1
    omega

/-- **C24 is false** for every kernel with more than one row: the error signal does not reach the (unique) maximum. -/
theorem maxPool_error_fails (h : g.Valid) (h2 : 2 ≤ g.kernelRows) (w : Weights) (N : ℕ) (stale : Batch) (flag : Bool)
    {n m r c : ℕ} (hm : m < g.fm) (hr : r < g.outRows) (hc : c < g.outCols) :
    ∃ x : Batch, (∀ kr < g.kernelRows, ∀ kc < g.kernelCols, (kr, kc) ≠ (1, 0) →
        g.windowValue x n m r c kr kc < g.windowValue x n m r c 1 0) ∧
      ∀ ein, g.windowValue (g.maxLayer.back w N x ein flag stale) n m r c 1 0 = 0 := by
  refine ⟨spike (m * (g.inRows * g.inCols) + (r * g.kernelRows + 1) * g.inCols + (c * g.kernelCols + 0)), ?_, ?_⟩
  · intro kr hkr kc hkc hne
    simp only [windowValue, spike]
    rw [if_pos trivial, if_neg]
    · norm_num
    · intro e
      have := window_inj hr hc hkr hkc hr hc (by omega) h.2.2.1 e
      exact hne (by rw [this.2.1, this.2.2])
  · intro ein
    obtain ⟨kc, hkc, _, _, hz⟩ := maxPool_error h w N (spike (m * (g.inRows * g.inCols) +
      (r * g.kernelRows + 1) * g.inCols + (c * g.kernelCols + 0))) ein stale flag (n := n) hm hr hc
      (fun p => lowest_lt_spike _ n p)
    exact hz 1 (by omega) 0 h.2.2.1 (by simp)

/-- A 4x6 image with 2x3 kernel: the hypotheses of `maxPool_fails` hold for all four windows of each map. -/
example : (Pool.mk 2 4 6 2 3).Valid ∧ (Pool.mk 2 4 6 2 3).outRows = 2 ∧ (Pool.mk 2 4 6 2 3).outCols = 2 := by
  refine ⟨⟨by decide, by decide, by decide, by decide⟩, by decide, by decide⟩

/-- A 3x6 image with 1x3 kernel meets the hypotheses of `maxPool_max_partial`. -/
example : (Pool.mk 2 3 6 1 3).Valid ∧ (Pool.mk 2 3 6 1 3).kernelRows = 1 ∧ (Pool.mk 2 3 6 1 3).outRows = 3 := by
  refine ⟨⟨by decide, by decide, by decide, by decide⟩, by decide, by decide⟩

/-! ## Derivatives -/

/-- The maximum that the layer takes is unique and above `lowest`: there the layer is differentiable. -/
def MaxSmooth (g : Pool) (N : ℕ) (x : Batch) : Prop :=
  ∀ n < N, ∀ o < g.outputs, ∃ kc < g.kernelCols, lowest < x n (g.base o + kc) ∧
    ∀ kc' < g.kernelCols, kc' ≠ kc → x n (g.base o + kc') < x n (g.base o + kc)

theorem rowArg_unique {x : Batch} {n base K kc : ℕ} (hk : kc < K) (hl : lowest < x n (base + kc))
    (hu : ∀ kc' < K, kc' ≠ kc → x n (base + kc') < x n (base + kc)) :
    rowArg x n base K = some (base + kc) ∧ rowMax x n base K = x n (base + kc) := by
  rcases rowArg_spec x n base K with h1 | ⟨kc', hk', h1, h2, _⟩
  · exact absurd (rowArg_none_iff.1 h1.1 kc hk) (not_le.2 hl)
  · by_cases e : kc' = kc
    · rw [← e]
      exact ⟨h1, h2⟩
    · have := hu kc' hk' e
      rw [← h2] at this
      exact absurd (le_rowMax hk) (not_le.2 this)

/-- Max-pooling (as implemented) obeys the law of backpropagation. -/
theorem maxPool_backprop (h : g.Valid) {N : ℕ} {w0 : Weights} {x0 : Batch} (hs : g.MaxSmooth N x0) :
    BackpropAt g.maxLayer N w0 x0 := by
  refine ⟨rfl, ?_⟩
  intro w x t0 w' x' _ hx0 _ _ hx
  subst hx0
  have hch : ∀ n o, ∃ kc, n < N → o < g.outputs → kc < g.kernelCols ∧ lowest < x t0 n (g.base o + kc) ∧
      ∀ kc' < g.kernelCols, kc' ≠ kc → x t0 n (g.base o + kc') < x t0 n (g.base o + kc) := by
    intro n o
    by_cases hn : n < N
    · by_cases ho : o < g.outputs
      · obtain ⟨kc, h1⟩ := hs n hn o ho
        exact ⟨kc, fun _ _ => h1⟩
      · exact ⟨0, fun _ h => absurd h ho⟩
    · exact ⟨0, fun h _ => absurd h hn⟩
  choose arg harg using hch
  refine ⟨fun n o => x' n (g.base o + arg n o), 0, ?_, hasDerivAt_const t0 0, ?_⟩
  · intro n hn o ho
    obtain ⟨hk, hl, hu⟩ := harg n o hn ho
    have hd := hx n hn (g.base o + arg n o) (base_bound h ho hk)
    refine hd.congr_of_eventuallyEq ?_
    have hev : ∀ᶠ t in nhds t0, lowest < x t n (g.base o + arg n o) ∧
        ∀ kc' ∈ range g.kernelCols, kc' ≠ arg n o → x t n (g.base o + kc') < x t n (g.base o + arg n o) := by
      refine Filter.Eventually.and ?_ ?_
      · exact hd.continuousAt.eventually (lt_mem_nhds hl)
      · rw [Filter.eventually_all_finset]
        intro kc' hk'
        by_cases e : kc' = arg n o
        · exact Filter.Eventually.of_forall fun t hne => absurd e hne
        · have hd' := hx n hn (g.base o + kc') (base_bound h ho (mem_range.1 hk'))
          have := hd'.continuousAt.eventually_lt hd.continuousAt (hu kc' (mem_range.1 hk') e)
          exact this.mono fun t ht _ => ht
    filter_upwards [hev] with t ht
    exact (rowArg_unique hk ht.1 fun kc' hk' hne => ht.2 kc' (mem_range.2 hk') hne).2
  · intro ein stale
    show inner N g.outputs ein _ + 0 = inner N g.inputs (fun n p =>
      ∑ o ∈ range g.outputs, if rowArg (x t0) n (g.base o) g.kernelCols = some p then ein n o else 0) x' + 0
    rw [add_zero, add_zero]
    refine Finset.sum_congr rfl fun n hn => ?_
    rw [mem_range] at hn
    have hsc := inner_scatter (range g.outputs) (fun o => g.base o + arg n o) (O := g.inputs)
      (fun o ho => base_bound h (mem_range.1 ho) (harg n o hn (mem_range.1 ho)).1) (x' n) (fun o => ein n o)
    calc ∑ o ∈ range g.outputs, ein n o * x' n (g.base o + arg n o)
        = ∑ o ∈ range g.outputs, x' n (g.base o + arg n o) * ein n o := Finset.sum_congr rfl fun o _ => mul_comm _ _
      _ = _ := hsc.symm
      _ = _ := by
        refine Finset.sum_congr rfl fun p _ => ?_
        rw [mul_comm]
        refine congrArg (fun z => z * x' n p) (Finset.sum_congr rfl fun o ho => ?_)
        obtain ⟨hk, hl, hu⟩ := harg n o hn (mem_range.1 ho)
        rw [(rowArg_unique hk hl hu).1]
        by_cases e : g.base o + arg n o = p
        · rw [if_pos e, if_pos (congrArg some e)]
        · rw [if_neg e, if_neg fun e' => e (Option.some.inj e')]

end Pool

end Verif.NN
