import Verif.Model.Sampling
import Verif.Props.DataSetView
import Mathlib.Algebra.Order.Floor.Ring
import Mathlib.Algebra.Order.BigOperators.Group.List

/-!
# C08: weighted resampling
-/

namespace Verif.Data

open Outcome

variable {X T : Type} {K : Type} [Field K] [LinearOrder K] [IsStrictOrderedRing K]

omit [LinearOrder K] [IsStrictOrderedRing K] in
private theorem sum_take_succ (w : List K) (i : ℕ) (h : i < w.length) :
    (w.take (i + 1)).sum = (w.take i).sum + w[i] := by
  rw [List.take_add_one, List.sum_append]; simp [h]

omit [IsStrictOrderedRing K] in
/-- The loop stops at the first prefix sum that reaches `p`, or at the end. -/
private theorem scan_spec (w : List K) (p : K) (idx : ℕ) (hidx : idx ≤ w.length)
    (hbefore : ∀ j < idx, (w.take j).sum < p) :
    ∃ r, scan w w.length p idx (w.take idx).sum = ok r ∧ r ≤ w.length ∧
      (∀ j < r, (w.take j).sum < p) ∧ (r = w.length ∨ p ≤ (w.take r).sum) := by
  induction hk : w.length - idx generalizing idx with
  | zero =>
    have : idx = w.length := by omega
    rw [scan, if_neg (by omega)]
    exact ⟨idx, rfl, hidx, hbefore, Or.inl this⟩
  | succ k ih =>
    have hlt : idx < w.length := by omega
    rw [scan]
    by_cases hp : (w.take idx).sum < p
    · rw [if_pos ⟨hp, hlt⟩, read_of_lt hlt, ok_bind, ← sum_take_succ w idx hlt]
      refine ih (idx + 1) (by omega) ?_ (by omega)
      intro j hj
      rcases Nat.lt_succ_iff_lt_or_eq.mp hj with h | h
      · exact hbefore j h
      · rw [h]; exact hp
    · rw [if_neg (by tauto)]
      exact ⟨idx, rfl, hidx, hbefore, Or.inr (not_lt.mp hp)⟩

omit [IsStrictOrderedRing K] in
/-- For `0 < p` the loop designates an instance: the last one whose preceding weights do not reach `p`. -/
private theorem scan_pos (w : List K) (p : K) (hp : 0 < p) (hne : 0 < w.length) :
    ∃ i, scan w w.length p 0 0 = ok (i + 1) ∧ i < w.length ∧
      (∀ j ≤ i, (w.take j).sum < p) ∧ (i + 1 = w.length ∨ p ≤ (w.take (i + 1)).sum) := by
  obtain ⟨r, h1, h2, h3, h4⟩ := scan_spec w p 0 (by omega) (by simp)
  rw [List.take_zero, List.sum_nil] at h1
  have hr : 0 < r := by
    rcases Nat.eq_zero_or_pos r with h | h
    · subst h
      rcases h4 with h4 | h4
      · omega
      · simp at h4; exact absurd hp (not_lt.mpr h4)
    · exact h
  obtain ⟨i, rfl⟩ : ∃ i, r = i + 1 := ⟨r - 1, by omega⟩
  exact ⟨i, h1, by omega, fun j hj => h3 j (by omega), h4⟩

private theorem mapM_ok' {α β : Type} (l : List α) (f : α → Outcome β) (g : α → β)
    (h : ∀ i ∈ l, f i = ok (g i)) : l.mapM f = ok (l.map g) := by
  induction l with
  | nil => rfl
  | cons x xs ih =>
    rw [List.mapM_cons, h x (by simp), ok_bind, ih (fun i hi => h i (by simp [hi]))]
    simp

private theorem shows_weighted (s : Store X T) (a : ℕ) (ha : a < s.length) (pos : List ℕ)
    (hlen : pos.length = samples s a) :
    Shows (s ++ [.weighted a (pos.map (fun j : ℕ => (j : ℤ)))]) s.length s a pos := by
  set s' := s ++ [(.weighted a (pos.map (fun j : ℕ => (j : ℤ))) : Obj X T)] with hs'
  have hget : s'[s.length]? = some (.weighted a (pos.map (fun j : ℕ => (j : ℤ)))) := by simp [hs']
  have hsam : samples s' s.length = pos.length := by
    rw [samples, hget]
    simp only
    rw [if_pos ha, hs', samples_append s _ a ha, hlen]
  refine ⟨hsam, ?_⟩
  unfold readAll
  rw [hsam]
  apply List.ext_getElem (by simp)
  intro i h1 h2
  have hi : i < pos.length := by simpa using h2
  simp only [List.getElem_map, List.getElem_range]
  have hr := row_append s [(.weighted a (pos.map (fun j : ℕ => (j : ℤ))) : Obj X T)] a ha (pos[i] : ℤ)
  rw [← hr]
  unfold row
  rw [getInstance, getTarget, hget]
  simp only
  rw [if_pos ha, if_pos ha, readZ_natCast _ _ (by simpa using hi)]
  simp [hs']

omit [IsStrictOrderedRing K] in
/-- **C08, valid instances.** If every drawn number is positive, a weighted data set consists of as many
instances as the original data set, all of them instances of it - for all weights, even if they do not sum
to one. -/
theorem weighted_valid_partial (s : Store X T) (a : ℕ) (ha : a < s.length) (weights : List K)
    (hw : weights.length = samples s a) (p : ℕ → K) (hp : ∀ n < samples s a, 0 < p n) :
    ∃ s' v pos, newWeighted s a weights p = ok (s', v) ∧ Unchanged s s' ∧ Shows s' v s a pos ∧
      pos.length = samples s a ∧ ∀ j ∈ pos, j < samples s a := by
  set N := samples s a with hN
  have hex : ∀ n, ∃ i, n < N → (scan weights N (p n) 0 0 = ok (i + 1) ∧ i < N) := by
    intro n
    by_cases hn : n < N
    · obtain ⟨i, h1, h2, _⟩ := scan_pos weights (p n) (hp n hn) (by omega)
      exact ⟨i, fun _ => ⟨hw ▸ h1, hw ▸ h2⟩⟩
    · exact ⟨0, fun h => absurd h hn⟩
  choose f hf using hex
  refine ⟨_, s.length, (List.range N).map f, ?_, List.prefix_append _ _,
    shows_weighted s a ha _ (by simp [hN]), by simp, ?_⟩
  · unfold newWeighted resample
    rw [← hN, mapM_ok' _ _ (fun n => ((f n : ℕ) : ℤ))]
    · simp [List.map_map, Function.comp_def]
    · intro n hn
      rw [(hf n (by simpa using hn)).1]
      simp
  · intro j hj
    simp only [List.mem_map, List.mem_range] at hj
    obtain ⟨n, hn, rfl⟩ := hj
    exact (hf n hn).2

private theorem mono_prefix (w : List K) (hw : ∀ x ∈ w, 0 ≤ x) (i j : ℕ) (h : i ≤ j) :
    (w.take i).sum ≤ (w.take j).sum := by
  induction j with
  | zero => rw [Nat.le_zero.mp h]
  | succ j ih =>
    rcases Nat.le_succ_iff.mp h with h | h
    · by_cases hj : j < w.length
      · rw [sum_take_succ w j hj]
        have := hw _ (List.getElem_mem hj)
        linarith [ih h]
      · rw [List.take_of_length_le (by omega : w.length ≤ j + 1)]
        have := ih h
        rwa [List.take_of_length_le (by omega : w.length ≤ j)] at this
    · rw [h]

/-- With non-negative weights that sum to one, draw `p` in `(0, 1]` picks the instance in whose
interval of the cumulated weights `p` falls. -/
private theorem scan_interval (w : List K) (hw : ∀ x ∈ w, 0 ≤ x) (hsum : w.sum = 1) (p : K)
    (hp0 : 0 < p) (hp1 : p ≤ 1) :
    ∃ i, scan w w.length p 0 0 = ok (i + 1) ∧ i < w.length ∧
      ∀ k < w.length, i = k ↔ ((w.take k).sum < p ∧ p ≤ (w.take (k + 1)).sum) := by
  have hne : 0 < w.length := by
    rcases w with _ | ⟨x, xs⟩
    · simp at hsum
    · simp
  obtain ⟨i, h1, h2, h3, h4⟩ := scan_pos w p hp0 hne
  have h4' : p ≤ (w.take (i + 1)).sum := by
    rcases h4 with h4 | h4
    · rw [h4, List.take_length, hsum]; exact hp1
    · exact h4
  refine ⟨i, h1, h2, fun k hk => ⟨?_, ?_⟩⟩
  · rintro rfl
    exact ⟨h3 i le_rfl, h4'⟩
  · rintro ⟨hk1, hk2⟩
    rcases lt_trichotomy i k with h | h | h
    · have := mono_prefix w hw (i + 1) k h
      exact absurd (lt_of_le_of_lt (h4'.trans this) hk1) (lt_irrefl _)
    · exact h
    · exact absurd (lt_of_lt_of_le (h3 (k + 1) h) hk2) (lt_irrefl _)

private theorem countP_range_interval (A B N : ℕ) (hBN : B ≤ N) :
    (List.range N).countP (fun n => decide (A ≤ n ∧ n < B)) = B - A := by
  induction N with
  | zero => simp; omega
  | succ N ih =>
    rw [List.range_succ, List.countP_append]
    by_cases h : B ≤ N
    · rw [ih h]
      have : ¬ (A ≤ N ∧ N < B) := by omega
      simp [this]
    · have hB : B = N + 1 := by omega
      subst hB
      have e : (List.range N).countP (fun n => decide (A ≤ n ∧ n < N + 1)) =
          (List.range N).countP (fun n => decide (A ≤ n ∧ n < N)) := by
        apply List.countP_congr
        intro n hn
        have : n < N := by simpa using hn
        simp; omega
      have ih' : (List.range N).countP (fun n => decide (A ≤ n ∧ n < N)) = N - A := by
        clear ih e h hBN
        induction N with
        | zero => simp
        | succ N ih =>
          rw [List.range_succ, List.countP_append]
          have e : (List.range N).countP (fun n => decide (A ≤ n ∧ n < N + 1)) =
              (List.range N).countP (fun n => decide (A ≤ n ∧ n < N)) := by
            apply List.countP_congr
            intro n hn
            have : n < N := by simpa using hn
            simp; omega
          rw [e, ih]
          by_cases hA : A ≤ N
          · simp [hA]; omega
          · simp [hA]; omega
      rw [e, ih']
      by_cases hA : A ≤ N
      · simp [hA]; omega
      · simp [hA]; omega

omit [LinearOrder K] [IsStrictOrderedRing K] in
private theorem deterministicP_eq (N n : ℕ) : (deterministicP N n : K) = ((n : K) + 1) / (N : K) := by
  simp [deterministicP]

/-- **C08, deterministic resampling.** For non-negative weights that sum to one, one per instance, the weighted data
set consists of as many instances as the original one, and instance `i` occurs more than `N*w_i - 1` and
fewer than `N*w_i + 1` times. -/
theorem weighted_deterministic [FloorRing K] (s : Store X T) (a : ℕ) (ha : a < s.length) (weights : List K)
    (hw : weights.length = samples s a) (hnonneg : ∀ x ∈ weights, 0 ≤ x) (hsum : weights.sum = 1) :
    ∃ s' v pos, newWeighted s a weights (deterministicP (samples s a)) = ok (s', v) ∧ Unchanged s s' ∧
      Shows s' v s a pos ∧ pos.length = samples s a ∧ (∀ j ∈ pos, j < samples s a) ∧
      ∀ i w, weights[i]? = some w →
        (samples s a : K) * w - 1 < (pos.count i : K) ∧ (pos.count i : K) < (samples s a : K) * w + 1 := by
  set N := samples s a with hN
  have hNpos : 0 < N := by
    rw [← hw]
    rcases weights with _ | ⟨x, xs⟩
    · simp at hsum
    · simp
  have hNK : (0 : K) < (N : K) := by exact_mod_cast hNpos
  have hp0 : ∀ n, (0 : K) < deterministicP N n := by
    intro n
    rw [deterministicP_eq]
    positivity
  have hp1 : ∀ n < N, (deterministicP N n : K) ≤ 1 := by
    intro n hn
    rw [deterministicP_eq, div_le_one hNK]
    exact_mod_cast hn
  have hex : ∀ n, ∃ i, n < N → (scan weights N (deterministicP N n) 0 0 = ok (i + 1) ∧ i < N ∧
      ∀ k < N, i = k ↔ ((weights.take k).sum < deterministicP N n ∧
        deterministicP N n ≤ (weights.take (k + 1)).sum)) := by
    intro n
    by_cases hn : n < N
    · obtain ⟨i, h1, h2, h3⟩ := scan_interval weights hnonneg hsum (deterministicP N n) (hp0 n) (hp1 n hn)
      rw [hw] at h1 h2 h3
      exact ⟨i, fun _ => ⟨h1, h2, h3⟩⟩
    · exact ⟨0, fun h => absurd h hn⟩
  choose f hf using hex
  refine ⟨_, s.length, (List.range N).map f, ?_, List.prefix_append _ _,
    shows_weighted s a ha _ (by simp [hN]), by simp, ?_, ?_⟩
  · unfold newWeighted resample
    rw [← hN, mapM_ok' _ _ (fun n => ((f n : ℕ) : ℤ))]
    · simp [List.map_map, Function.comp_def]
    · intro n hn
      rw [(hf n (by simpa using hn)).1]
      simp
  · intro j hj
    simp only [List.mem_map, List.mem_range] at hj
    obtain ⟨n, hn, rfl⟩ := hj
    exact (hf n hn).2.1
  · intro i w hiw
    obtain ⟨hi, rfl⟩ := List.getElem?_eq_some_iff.mp hiw
    have hiN : i < N := by omega
    -- the number of draws that fall into the interval of instance i
    have hS0 : ∀ k, (0 : K) ≤ (weights.take k).sum := by
      intro k
      have := mono_prefix weights hnonneg 0 k (by omega)
      simpa using this
    have hS1 : (weights.take (i + 1)).sum ≤ 1 := by
      have := mono_prefix weights hnonneg (i + 1) weights.length (by omega)
      rwa [List.take_length, hsum] at this
    obtain ⟨A, hA⟩ := Int.eq_ofNat_of_zero_le
      (Int.floor_nonneg.mpr (mul_nonneg hNK.le (hS0 i)))
    obtain ⟨B, hB⟩ := Int.eq_ofNat_of_zero_le
      (Int.floor_nonneg.mpr (mul_nonneg hNK.le (hS0 (i + 1))))
    have hA1 : (A : K) ≤ N * (weights.take i).sum := by
      have := Int.floor_le ((N : K) * (weights.take i).sum)
      rw [hA] at this; exact_mod_cast this
    have hA2 : (N : K) * (weights.take i).sum < A + 1 := by
      have := Int.lt_floor_add_one ((N : K) * (weights.take i).sum)
      rw [hA] at this; exact_mod_cast this
    have hB1 : (B : K) ≤ N * (weights.take (i + 1)).sum := by
      have := Int.floor_le ((N : K) * (weights.take (i + 1)).sum)
      rw [hB] at this; exact_mod_cast this
    have hB2 : (N : K) * (weights.take (i + 1)).sum < B + 1 := by
      have := Int.lt_floor_add_one ((N : K) * (weights.take (i + 1)).sum)
      rw [hB] at this; exact_mod_cast this
    have hBN : B ≤ N := by
      have : (B : K) ≤ N := hB1.trans (by nlinarith)
      exact_mod_cast this
    have hAB : A ≤ B := by
      have h := mono_prefix weights hnonneg i (i + 1) (by omega)
      have : (A : K) < B + 1 := by nlinarith
      have : A < B + 1 := by exact_mod_cast this
      omega
    have hcount : ((List.range N).map f).count i = B - A := by
      rw [← countP_range_interval A B N hBN, List.count, List.countP_map]
      apply List.countP_congr
      intro n hn
      have hn' : n < N := by simpa using hn
      simp only [Function.comp, beq_iff_eq, decide_eq_true_eq]
      rw [(hf n hn').2.2 i hiN, deterministicP_eq, lt_div_iff₀ hNK, div_le_iff₀ hNK]
      constructor
      · rintro ⟨h1, h2⟩
        constructor
        · have : (A : K) < n + 1 := by nlinarith
          have : A < n + 1 := by exact_mod_cast this
          omega
        · have : (n : K) + 1 < B + 1 := by nlinarith
          have : n + 1 < B + 1 := by exact_mod_cast this
          omega
      · rintro ⟨h1, h2⟩
        have h1' : (A : K) ≤ n := by exact_mod_cast h1
        have h2' : (n : K) + 1 ≤ B := by exact_mod_cast h2
        constructor <;> nlinarith
    rw [hcount, Nat.cast_sub hAB]
    rw [sum_take_succ weights i hi] at hB1 hB2
    constructor <;> nlinarith

/-- **C08, uniform weights.** With `N` equal weights `1/N`, deterministic resampling gives the original data set. -/
theorem weighted_uniform (s : Store X T) (a : ℕ) (ha : a < s.length) (hn : 0 < samples s a) :
    ∃ s' v, newWeighted s a (List.replicate (samples s a) ((1 : K) / (samples s a : K)))
        (deterministicP (samples s a)) = ok (s', v) ∧ Unchanged s s' ∧
      Shows s' v s a (List.range (samples s a)) := by
  set N := samples s a with hN
  have hNK : (0 : K) < (N : K) := by exact_mod_cast hn
  set weights := List.replicate N ((1 : K) / (N : K)) with hweights
  have htake : ∀ k ≤ N, (weights.take k).sum = (k : K) / N := by
    intro k hk
    rw [hweights, List.take_replicate, Nat.min_eq_left hk, List.sum_replicate, nsmul_eq_mul]
    ring
  have hsum : weights.sum = 1 := by
    rw [hweights, List.sum_replicate, nsmul_eq_mul]
    field_simp
  have hnonneg : ∀ x ∈ weights, (0 : K) ≤ x := by
    intro x hx
    rw [List.eq_of_mem_replicate hx]
    positivity
  have hlen : weights.length = N := by simp [hweights]
  refine ⟨_, s.length, ?_, List.prefix_append _ _, shows_weighted s a ha _ (by simp [hN])⟩
  unfold newWeighted resample
  rw [← hN, mapM_ok' _ _ (fun n : ℕ => (n : ℤ))]
  · simp
  · intro n hn'
    have hn2 : n < N := by simpa using hn'
    obtain ⟨i, h1, h2, h3⟩ := scan_interval weights hnonneg hsum (deterministicP N n)
      (by rw [deterministicP_eq]; positivity)
      (by rw [deterministicP_eq, div_le_one hNK]; exact_mod_cast hn2)
    rw [hlen] at h1 h2 h3
    have hin : i = n := by
      rw [h3 n hn2, htake n hn2.le, htake (n + 1) hn2, deterministicP_eq]
      constructor
      · exact div_lt_div_of_pos_right (by linarith) hNK
      · push_cast; exact le_rfl
    rw [h1, hin]
    simp

/-- **C08, random resampling, partial.** If no draw of `rand()` is 0, random resampling gives only valid instances.  Missing:
the draw 0, see `weighted_random_zero_fails`. -/
theorem weighted_random_partial (s : Store X T) (a : ℕ) (ha : a < s.length) (weights : List K)
    (hw : weights.length = samples s a) (randMax : ℕ) (hmax : 0 < randMax) (rand : ℕ → ℕ)
    (hr : ∀ n < samples s a, rand n ≠ 0) :
    ∃ s' v pos, newWeighted s a weights (randomP randMax rand) = ok (s', v) ∧ Unchanged s s' ∧
      Shows s' v s a pos ∧ pos.length = samples s a ∧ ∀ j ∈ pos, j < samples s a := by
  refine weighted_valid_partial s a ha weights hw _ ?_
  intro n hn
  have h1 : (0 : K) < (rand n : K) := by exact_mod_cast Nat.pos_of_ne_zero (hr n hn)
  have h2 : (0 : K) < (randMax : K) := by exact_mod_cast hmax
  unfold randomP
  have := div_pos h1 h2
  linarith

/-- **C08 fails for random resampling.** If `rand()` returns 0 in the first draw, the weighted data set of any in-memory data
set has an instance that cannot be read: the index -1 is rejected by the check of the original data set (and is undefined
behaviour if checks are compiled out). -/
theorem weighted_random_zero_fails (ins : List X) (outs : List T) (hne : ins ≠ [])
    (weights : List K) (hw : weights.length = ins.length) (randMax : ℕ) (hmax : 0 < randMax) (rand : ℕ → ℕ)
    (h0 : rand 0 = 0) :
    ∃ s' v, newWeighted [.direct ins (some outs)] 0 weights (randomP randMax rand) = ok (s', v) ∧
      samples s' v = ins.length ∧ getInstance s' v 0 = checkFailed := by
  have hs : samples ([.direct ins (some outs)] : Store X T) 0 = ins.length := by simp [samples]
  have hnonneg : ∀ n, (0 : K) ≤ randomP randMax rand n := by
    intro n
    unfold randomP
    positivity
  have hex : ∀ n, ∃ r, scan weights ins.length (randomP randMax rand n : K) 0 0 = ok r := by
    intro n
    obtain ⟨r, h1, _⟩ := scan_spec weights (randomP randMax rand n) 0 (by omega) (by simp)
    rw [List.take_zero, List.sum_nil, hw] at h1
    exact ⟨r, h1⟩
  choose f hf using hex
  have hf0 : f 0 = 0 := by
    have := hf 0
    rw [scan, if_neg (by simp [randomP, h0])] at this
    have h := (Outcome.ok.injEq _ _).mp this
    exact h.symm
  refine ⟨[.direct ins (some outs),
    .weighted 0 ((List.range ins.length).map (fun n => ((f n : ℕ) : ℤ) - 1))], 1, ?_, ?_, ?_⟩
  · unfold newWeighted resample
    rw [hs, mapM_ok' _ _ (fun n => ((f n : ℕ) : ℤ) - 1)]
    · rfl
    · intro n _
      rw [hf n]
      rfl
  · rw [samples]
    simp [samples]
  · have hl : 0 < ins.length := List.length_pos_iff.mpr hne
    rw [getInstance]
    simp only [List.getElem?_cons_succ, List.getElem?_cons_zero, Nat.zero_lt_one, if_true]
    have hread : readZ ((List.range ins.length).map (fun n => ((f n : ℕ) : ℤ) - 1)) 0 = ok (-1) := by
      have := readZ_natCast ((List.range ins.length).map (fun n => ((f n : ℕ) : ℤ) - 1)) 0 (by simpa using hl)
      simpa [hf0] using this
    rw [hread, ok_bind, getInstance]
    simp only [List.getElem?_cons_zero]
    rw [check_false (by omega)]
    rfl

/-- Weights 1/2, 1/4, 1/4 for three instances meet the hypotheses. -/
example : ([1 / 2, 1 / 4, 1 / 4] : List ℚ).length = samples ([.direct [7, 8, 9] none] : Store ℕ ℕ) 0 ∧
    (∀ x ∈ ([1 / 2, 1 / 4, 1 / 4] : List ℚ), 0 ≤ x) ∧ ([1 / 2, 1 / 4, 1 / 4] : List ℚ).sum = 1 := by
  refine ⟨by simp [samples], ?_, by norm_num⟩
  intro x hx
  simp at hx
  rcases hx with rfl | rfl <;> norm_num

end Verif.Data
