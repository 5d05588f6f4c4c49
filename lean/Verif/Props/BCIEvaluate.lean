import Verif.Props.BCIDataSet
import Mathlib.Tactic.IntervalCases
import Mathlib.Algebra.Order.BigOperators.Group.List

/-!
# Evaluation of the P300 speller (C91)
-/

namespace Verif.BCI

open Outcome

noncomputable section

/-! ## Spec -/

/-- Spec: the symbols of the speller, row after row. -/
def alphabet : List Char := "ABCDEFGHIJKLMNOPQRSTUVWXYZ123456789_".toList

/-- Spec: the symbol in a row and a column. -/
def symbol (row col : ℕ) : Char := alphabet.getD (6 * row + col) 'A'

/-- Spec: the flashes of an epoch that count for a column (`j < 6`) or a row (`6 ≤ j < 12`): the first `trials` with its code. -/
def counted (r : Recording) (e trials j : ℕ) : List ℕ :=
  ((onsets r e).filter fun t => decide (trunc (r.code t e) = (j : ℤ) + 1)).take trials

/-- Spec: the score of a column or row. -/
def Settings.score (s : Settings) (r : Recording) (f : List ℝ → ℝ) (trials e j : ℕ) : ℝ :=
  ((counted r e trials j).map fun t => f (s.instance r e t)).sum

/-- Spec: the first of the six largest values. -/
structure FirstMax (v : ℕ → ℝ) (m : ℕ) : Prop where
  lt : m < 6
  max : ∀ i < 6, v i ≤ v m
  first : ∀ i < m, v i < v m

/-- Spec: the speller writes `c` in epoch `e`. -/
def Settings.Spells (s : Settings) (r : Recording) (f : List ℝ → ℝ) (trials e : ℕ) (c : Char) : Prop :=
  ∃ row col, FirstMax (fun i => s.score r f trials e (6 + i)) row ∧ FirstMax (s.score r f trials e) col ∧ c = symbol row col

open Classical in
/-- Spec: the number of epochs whose symbol is written correctly. -/
def Settings.correct (s : Settings) (r : Recording) (f : List ℝ → ℝ) (trials : ℕ) : ℕ → ℕ
  | 0 => 0
  | e + 1 => s.correct r f trials e + if s.Spells r f trials e (r.target e) then 1 else 0

/-- Spec: what the evaluation needs from the recording. -/
structure Playable (r : Recording) : Prop where
  code : ∀ e < r.epochs, ∀ t ∈ onsets r e, 1 ≤ trunc (r.code t e) ∧ trunc (r.code t e) ≤ 12
  end_ : ∀ e < r.epochs, ∀ t ∈ onsets r e, t + r.sampling ≤ r.maxT

/-! ## The largest score -/

theorem FirstMax.unique {v : ℕ → ℝ} {a b : ℕ} (ha : FirstMax v a) (hb : FirstMax v b) : a = b := by
  rcases lt_trichotomy a b with h | h | h
  · exact absurd (ha.max b hb.lt) (not_le.2 (hb.first a h))
  · exact h
  · exact absurd (hb.max a ha.lt) (not_le.2 (ha.first b h))

theorem best_fold (v : ℕ → ℝ) (n : ℕ) : ∃ m, (List.range (n + 1)).foldl (fun m i => match m with
    | none => some i
    | some j => if v j < v i then some i else some j) none = some m ∧ m < n + 1 ∧ (∀ i < n + 1, v i ≤ v m) ∧ ∀ i < m, v i < v m := by
  induction n with
  | zero =>
    refine ⟨0, rfl, Nat.one_pos, fun i hi => ?_, fun i hi => absurd hi (Nat.not_lt_zero i)⟩
    obtain rfl : i = 0 := by omega
    exact le_rfl
  | succ n ih =>
    obtain ⟨m, h1, h2, h3, h4⟩ := ih
    rw [List.range_succ, List.foldl_append, h1, List.foldl_cons, List.foldl_nil]
    dsimp only
    by_cases h : v m < v (n + 1)
    · rw [if_pos h]
      refine ⟨n + 1, rfl, Nat.lt_succ_self _, fun i hi => ?_, fun i hi => lt_of_le_of_lt (h3 i hi) h⟩
      rcases Nat.lt_or_ge i (n + 1) with h' | h'
      · exact ((h3 i h').trans_lt h).le
      · obtain rfl : i = n + 1 := by omega
        exact le_rfl
    · rw [if_neg h]
      refine ⟨m, rfl, by omega, fun i hi => ?_, h4⟩
      rcases Nat.lt_or_ge i (n + 1) with h' | h'
      · exact h3 i h'
      · obtain rfl : i = n + 1 := by omega
        exact not_lt.1 h

theorem best_spec (score : ℕ → ℝ) (lo : ℕ) : ∃ m, best score lo = some m ∧ FirstMax (fun i => score (lo + i)) m := by
  obtain ⟨m, h1, h2, h3, h4⟩ := best_fold (fun i => score (lo + i)) 5
  exact ⟨m, h1, h2, h3, h4⟩

theorem read_symbol {row col : ℕ} (hr : row < 6) (hc : col < 6) :
    (Outcome.read characters row >>= fun line => Outcome.read line col) = ok (symbol row col) := by
  interval_cases row <;> interval_cases col <;> rfl

/-! ## The scores of an epoch -/

theorem build_of_computed {d : Data} {e t0 : ℕ} {v : List ℝ} (hc : d.Coherent) (h : d.computed e t0 = ok v) :
    ∃ d', d.buildInstance e t0 = ok d' ∧ d'.temp = v ∧ Touched d d' ∧ d'.Coherent := by
  have hb := build_value hc e t0
  rw [h] at hb
  obtain ⟨d', h1, h2⟩ := bind_eq_ok.1 hb
  injection h2 with h2
  obtain ⟨k1, k2, _⟩ := build_ok hc h1
  exact ⟨d', h1, h2, k1, k2⟩

theorem scores_value {f : List ℝ → ℝ} {trials e : ℕ} {inst : ℕ → List ℝ} : ∀ (ts : List ℕ) (s : Scores), s.data.Coherent →
    (∀ t ∈ ts, s.data.computed e t = ok (inst t)) →
    (∀ t ∈ ts, 1 ≤ trunc (s.data.recording.code t e) ∧ trunc (s.data.recording.code t e) ≤ 12) →
    ∃ s', Scores.run f trials e ts s = ok s' ∧ ∀ j, s'.score j = s.score j +
      (((ts.filter fun t => decide (trunc (s.data.recording.code t e) = (j : ℤ) + 1)).take (trials - s.repetitions j)).map
        fun t => f (inst t)).sum
  | [], s, _, _, _ => ⟨s, rfl, fun j => by simp⟩
  | t0 :: ts, s, hc, hi, hcode => by
    obtain ⟨d, h1, h2, h3, h4⟩ := build_of_computed hc (hi t0 (List.mem_cons_self ..))
    have hrec := h3.recording
    have hk := hcode t0 (List.mem_cons_self ..)
    obtain ⟨k, hkk⟩ : ∃ k : ℕ, trunc (s.data.recording.code t0 e) = (k : ℤ) + 1 :=
      ⟨(trunc (s.data.recording.code t0 e) - 1).toNat, by omega⟩
    have hsub : trunc (d.recording.code t0 e) - 1 = (k : ℤ) := by rw [hrec]; omega
    have hcons : ∀ j : ℕ, (t0 :: ts).filter (fun t => decide (trunc (s.data.recording.code t e) = (j : ℤ) + 1)) =
        if j = k then t0 :: ts.filter (fun t => decide (trunc (s.data.recording.code t e) = (j : ℤ) + 1))
        else ts.filter (fun t => decide (trunc (s.data.recording.code t e) = (j : ℤ) + 1)) := fun j => by
      by_cases h : j = k
      · rw [if_pos h, List.filter_cons_of_pos (by rw [hkk, h]; exact decide_eq_true rfl)]
      · rw [if_neg h, List.filter_cons_of_neg (by rw [hkk]; simpa using fun g : k = j => h g.symm)]
    by_cases hrep : s.repetitions k < trials
    · obtain ⟨s', g1, g2⟩ := scores_value ts (⟨d, fun j => if j = k then s.score j + f d.temp else s.score j,
          fun j => if j = k then s.repetitions j + 1 else s.repetitions j⟩ : Scores) h4
        (fun t ht => (h3.computed e t).trans (hi t (List.mem_cons_of_mem _ ht)))
        (fun t ht => by
          rw [show (Scores.data ⟨d, fun j => if j = k then s.score j + f d.temp else s.score j,
            fun j => if j = k then s.repetitions j + 1 else s.repetitions j⟩).recording = s.data.recording from hrec]
          exact hcode t (List.mem_cons_of_mem _ ht))
      refine ⟨s', ?_, fun j => ?_⟩
      · rw [Scores.run, Scores.step, h1, ok_bind]
        dsimp only
        rw [hsub, if_pos (by omega), Int.toNat_natCast, if_pos hrep, ok_bind]
        exact g1
      · rw [g2 j, hcons j]
        dsimp only
        rw [hrec]
        by_cases h : j = k
        · subst h
          rw [if_pos rfl, if_pos rfl, if_pos rfl, h2]
          obtain ⟨n, hn⟩ : ∃ n, trials - s.repetitions j = n + 1 := ⟨trials - s.repetitions j - 1, by omega⟩
          rw [hn, show trials - (s.repetitions j + 1) = n by omega, List.take_succ_cons, List.map_cons, List.sum_cons, add_assoc]
        · rw [if_neg h, if_neg h, if_neg h]
    · obtain ⟨s', g1, g2⟩ := scores_value ts (⟨d, s.score, s.repetitions⟩ : Scores) h4
        (fun t ht => (h3.computed e t).trans (hi t (List.mem_cons_of_mem _ ht)))
        (fun t ht => by
          rw [show (Scores.data ⟨d, s.score, s.repetitions⟩).recording = s.data.recording from hrec]
          exact hcode t (List.mem_cons_of_mem _ ht))
      refine ⟨s', ?_, fun j => ?_⟩
      · rw [Scores.run, Scores.step, h1, ok_bind]
        dsimp only
        rw [hsub, if_pos (by omega), Int.toNat_natCast, if_neg hrep, ok_bind]
        exact g1
      · rw [g2 j, hcons j]
        dsimp only
        rw [hrec]
        by_cases h : j = k
        · subst h
          rw [if_pos rfl, show trials - s.repetitions j = 0 by omega, List.take_zero, List.take_zero]
        · rw [if_neg h]

open Classical in
theorem evaluateEpoch_value {d : Data} {f : List ℝ → ℝ} {trials e : ℕ} (hc : d.Coherent) (hf : d.settings.Fits d.recording)
    (hp : Playable d.recording) (he : e < d.recording.epochs) (hs : d.start e = onsets d.recording e) :
    ∃ d', d.evaluateEpoch f trials e =
      ok (d', decide (d.settings.Spells d.recording f trials e (d.recording.target e))) := by
  obtain ⟨s', h1, h2⟩ := scores_value (f := f) (trials := trials) (inst := d.settings.instance d.recording e)
    (onsets d.recording e) ⟨d, fun _ => 0, fun _ => 0⟩ hc
    (fun t ht => computed_value hf he (hp.end_ e he t ht)) (fun t ht => hp.code e he t ht)
  have hscore : ∀ j, s'.score j = d.settings.score d.recording f trials e j := fun j => by
    rw [h2 j, zero_add]
    rfl
  obtain ⟨row, b1, m1⟩ := best_spec s'.score 6
  obtain ⟨col, b2, m2⟩ := best_spec s'.score 0
  have m1 : FirstMax (fun i => d.settings.score d.recording f trials e (6 + i)) row := by
    simpa only [hscore] using m1
  have m2 : FirstMax (d.settings.score d.recording f trials e) col := by
    simpa only [hscore, Nat.zero_add] using m2
  refine ⟨s'.data, ?_⟩
  unfold Data.evaluateEpoch
  rw [hs, h1, ok_bind, b1, b2]
  dsimp only
  obtain ⟨line, l1, l2⟩ := bind_eq_ok.1 (read_symbol m1.lt m2.lt)
  rw [l1, ok_bind, l2, ok_bind]
  congr 2
  rw [decide_eq_decide]
  constructor
  · exact fun h => ⟨row, col, m1, m2, h⟩
  · rintro ⟨row', col', n1, n2, h⟩
    rw [h, m1.unique n1, m2.unique n2]

theorem evaluate_value {d : Data} {f : List ℝ → ℝ} {trials : ℕ} (hl : d.loaded = true) (hc : d.Coherent)
    (hf : d.settings.Fits d.recording) (hp : Playable d.recording)
    (hs : ∀ e < d.recording.epochs, d.start e = onsets d.recording e) :
    ∃ d', d.evaluate f trials = ok (d', d.settings.correct d.recording f trials d.recording.epochs) := by
  have loop : ∀ n ≤ d.recording.epochs, ∃ d', Touched d d' ∧ d'.Coherent ∧ forLoop n (fun e p => do
      let q ← p.1.evaluateEpoch f trials e
      ok (q.1, if q.2 then p.2 + 1 else p.2)) (d, 0) = ok (d', d.settings.correct d.recording f trials n) := by
    intro n hn
    induction n with
    | zero => exact ⟨d, rfl, hc, rfl⟩
    | succ n ih =>
      obtain ⟨d', k1, k2, k3⟩ := ih (by omega)
      have hr := k1.recording
      obtain ⟨d'', g⟩ := evaluateEpoch_value (d := d') (f := f) (trials := trials) (e := n) k2
        (by rw [k1.settings, hr]; exact hf) (by rw [hr]; exact hp) (by rw [hr]; omega)
        (by rw [k1.start, hr]; exact hs n (by omega))
      obtain ⟨t1, t2⟩ := evaluateEpoch_touched k2 g
      refine ⟨d'', k1.trans t1, t2, ?_⟩
      rw [forLoop, k3, ok_bind]
      dsimp only
      rw [g, ok_bind, k1.settings, hr]
      congr 2
      rw [Settings.correct]
      by_cases h : d.settings.Spells d.recording f trials n (d.recording.target n)
      · simp only [h, decide_true, if_true]
      · simp only [h, decide_false, if_false, Nat.add_zero]
        rfl
  obtain ⟨d', _, _, h⟩ := loop _ le_rfl
  refine ⟨d', ?_⟩
  unfold Data.evaluate
  rw [if_pos hl]
  exact h

/-- **C91 (evaluation)**: after any sequence of calls without another `load`, `evaluate` returns the number of epochs in which the
speller writes the target: the result depends on the settings and on the learner only, not on the cache or on earlier calls. -/
theorem evaluate_history {r : Recording} {cs : List Call} {d : Data} (h : (Data.new r true).calls cs = ok d)
    (hk : ∀ c ∈ cs, c.Keeps) (hf : (settings cs).Fits r) (hp : Playable r) (f : List ℝ → ℝ) (trials : ℕ) :
    ∃ d', d.evaluate f trials = ok (d', (settings cs).correct r f trials r.epochs) := by
  obtain ⟨h1, h2, _, h4⟩ := loaded_once h hk
  obtain ⟨hc, _, hs⟩ := calls_coherent cs (new_facts r true).1 h
  rw [(new_facts r true).2.2] at hs
  have hs : d.settings = settings cs := hs
  obtain ⟨d', hd⟩ := evaluate_value (f := f) (trials := trials) h1 hc (by rw [hs, h2]; exact hf) (by rw [h2]; exact hp)
    (fun e he => by
      rw [h2] at he ⊢
      exact (h4 e he).1)
  rw [hs, h2] at hd
  exact ⟨d', hd⟩

/-! ## Consequences -/

theorem correct_le (s : Settings) (r : Recording) (f : List ℝ → ℝ) (trials n : ℕ) : s.correct r f trials n ≤ n := by
  induction n with
  | zero => exact le_rfl
  | succ n ih =>
    rw [Settings.correct]
    split <;> omega

theorem correct_all {s : Settings} {r : Recording} {f : List ℝ → ℝ} {trials n : ℕ}
    (h : ∀ e < n, s.Spells r f trials e (r.target e)) : s.correct r f trials n = n := by
  induction n with
  | zero => rfl
  | succ n ih => rw [Settings.correct, ih fun e he => h e (by omega), if_pos (h n (Nat.lt_succ_self n))]

theorem sum_nonpos : ∀ l : List ℝ, (∀ x ∈ l, x ≤ 0) → l.sum ≤ 0
  | [], _ => le_rfl
  | x :: l, h => by
    rw [List.sum_cons]
    exact add_nonpos (h x (List.mem_cons_self ..)) (sum_nonpos l fun y hy => h y (List.mem_cons_of_mem _ hy))

theorem firstMax_of_pos {v : ℕ → ℝ} {m : ℕ} (hm : m < 6) (hpos : 0 < v m) (h : ∀ i < 6, i ≠ m → v i ≤ 0) : FirstMax v m :=
  ⟨hm, fun i hi => by
    by_cases hi' : i = m
    · rw [hi']
    · exact (h i hi hi').trans hpos.le, fun i hi => lt_of_le_of_lt (h i (by omega) (by omega)) hpos⟩

/-- **C91 (perfect learner)**: a learner that is positive exactly for the flashes of the row and the column of the target spells
everything, for every positive number of trials. -/
theorem perfect_learner {r : Recording} {cs : List Call} {d : Data} (h : (Data.new r true).calls cs = ok d)
    (hk : ∀ c ∈ cs, c.Keeps) (hf : (settings cs).Fits r) (hp : Playable r) {f : List ℝ → ℝ} {trials : ℕ} (ht : 0 < trials)
    {row col : ℕ → ℕ} (hrow : ∀ e < r.epochs, row e < 6) (hcol : ∀ e < r.epochs, col e < 6)
    (htarget : ∀ e < r.epochs, r.target e = symbol (row e) (col e))
    (hflash : ∀ e < r.epochs, (∃ t ∈ onsets r e, trunc (r.code t e) = (col e : ℤ) + 1) ∧
      ∃ t ∈ onsets r e, trunc (r.code t e) = (row e : ℤ) + 7)
    (hpos : ∀ e < r.epochs, ∀ t ∈ onsets r e, 0 < f ((settings cs).instance r e t) ↔
      trunc (r.code t e) = (col e : ℤ) + 1 ∨ trunc (r.code t e) = (row e : ℤ) + 7) :
    ∃ d', d.evaluate f trials = ok (d', r.epochs) := by
  have hspell : ∀ e < r.epochs, (settings cs).Spells r f trials e (r.target e) := by
    intro e he
    have pos : ∀ j : ℕ, (j = col e ∨ j = 6 + row e) → (∃ t ∈ onsets r e, trunc (r.code t e) = (j : ℤ) + 1) →
        0 < (settings cs).score r f trials e j := by
      intro j hj ⟨t, h1, h2⟩
      unfold Settings.score
      refine List.sum_pos _ (fun x hx => ?_) ?_
      · obtain ⟨u, hu, rfl⟩ := List.mem_map.1 hx
        obtain ⟨hu1, hu2⟩ := List.mem_filter.1 (List.mem_of_mem_take hu)
        have hu2 := of_decide_eq_true hu2
        refine (hpos e he u hu1).2 ?_
        rcases hj with hj | hj
        · exact Or.inl (by rw [hu2, hj])
        · exact Or.inr (by rw [hu2, hj]; push_cast; ring)
      · intro hnil
        have hm : t ∈ (onsets r e).filter fun t => decide (trunc (r.code t e) = (j : ℤ) + 1) :=
          List.mem_filter.2 ⟨h1, decide_eq_true h2⟩
        have hlen : ((counted r e trials j).map fun t => f ((settings cs).instance r e t)).length = 0 := by rw [hnil]; rfl
        rw [List.length_map] at hlen
        unfold counted at hlen
        rw [List.length_take] at hlen
        have := List.length_pos_of_mem hm
        omega
    have neg : ∀ j : ℕ, j ≠ col e → j ≠ 6 + row e → (settings cs).score r f trials e j ≤ 0 := by
      intro j h1 h2
      unfold Settings.score
      refine sum_nonpos _ fun x hx => ?_
      obtain ⟨u, hu, rfl⟩ := List.mem_map.1 hx
      obtain ⟨hu1, hu2⟩ := List.mem_filter.1 (List.mem_of_mem_take hu)
      have hu2 := of_decide_eq_true hu2
      refine not_lt.1 fun g => ?_
      rcases (hpos e he u hu1).1 g with g | g <;> omega
    refine ⟨row e, col e, firstMax_of_pos (hrow e he) (pos _ (Or.inr rfl) ?_) fun i hi hne => neg _ ?_ ?_,
      firstMax_of_pos (hcol e he) (pos _ (Or.inl rfl) (hflash e he).1) fun i hi hne => neg _ hne ?_, htarget e he⟩
    · obtain ⟨t, g1, g2⟩ := (hflash e he).2
      exact ⟨t, g1, by rw [g2]; push_cast; ring⟩
    · have := hcol e he
      omega
    · omega
    · omega
  obtain ⟨d', hd⟩ := evaluate_history h hk hf hp f trials
  rw [correct_all hspell] at hd
  exact ⟨d', hd⟩

/-- **C91 (no trials)**: without trials the speller writes `A`. -/
theorem no_trials (s : Settings) (r : Recording) (f : List ℝ → ℝ) (e : ℕ) (c : Char) : s.Spells r f 0 e c ↔ c = 'A' := by
  have h0 : ∀ j, s.score r f 0 e j = 0 := fun j => rfl
  have hm : ∀ v : ℕ → ℝ, (∀ j, v j = 0) → FirstMax v 0 := fun v hv =>
    ⟨by omega, fun i _ => by rw [hv, hv], fun i hi => absurd hi (Nat.not_lt_zero i)⟩
  constructor
  · rintro ⟨row, col, h1, h2, h3⟩
    rw [h3, h1.unique (hm _ fun j => h0 _), h2.unique (hm _ fun j => h0 _)]
    rfl
  · intro h
    exact ⟨0, 0, hm _ fun j => h0 _, hm _ fun j => h0 _, h⟩

/-- **C91 (trials)**: more trials than flashes change nothing. -/
theorem trials_saturate {s : Settings} {r : Recording} {f : List ℝ → ℝ} {trials trials' : ℕ} {e : ℕ} (h : flashes r e ≤ trials)
    (h' : flashes r e ≤ trials') (c : Char) : s.Spells r f trials e c ↔ s.Spells r f trials' e c := by
  have hcount : ∀ n, flashes r e ≤ n → ∀ j, counted r e n j =
      (onsets r e).filter fun t => decide (trunc (r.code t e) = (j : ℤ) + 1) := fun n hn j =>
    List.take_of_length_le ((List.length_filter_le _ _).trans hn)
  have hs : s.score r f trials e = s.score r f trials' e := by
    funext j
    unfold Settings.score
    rw [hcount _ h, hcount _ h']
  unfold Settings.Spells
  rw [hs]

/-! ## Codes that are not 1, ..., 12 -/

theorem run_codes {f : List ℝ → ℝ} {trials e : ℕ} : ∀ (ts : List ℕ) {s s' : Scores}, s.data.Coherent →
    Scores.run f trials e ts s = ok s' →
    ∀ t ∈ ts, 1 ≤ trunc (s.data.recording.code t e) ∧ trunc (s.data.recording.code t e) ≤ 12
  | [], s, s', _, _ => fun t ht => absurd ht (List.not_mem_nil)
  | t0 :: ts, s, s', hc, h => by
    obtain ⟨s1, h1, h2⟩ := bind_eq_ok.1 h
    have hrun : Touched s.data s1.data ∧ s1.data.Coherent := scores_run [t0] hc (by
      rw [Scores.run, h1, ok_bind]
      rfl)
    have hr := hrun.1.recording
    intro t ht
    rcases List.mem_cons.1 ht with rfl | ht
    · unfold Scores.step at h1
      obtain ⟨d, hd, h3⟩ := bind_eq_ok.1 h1
      have hdr := (build_ok hc hd).1.recording
      dsimp only at h3
      split at h3
      · next hcode =>
        rw [hdr] at hcode
        omega
      · cases h3
    · have := run_codes ts hrun.2 h2 t ht
      rw [hr] at this
      exact this

/-- **C91 (codes)**: `evaluate` is only defined if the codes of all flashes are 1, ..., 12. -/
theorem evaluate_codes {r : Recording} {cs : List Call} {d : Data} (h : (Data.new r true).calls cs = ok d)
    (hk : ∀ c ∈ cs, c.Keeps) {f : List ℝ → ℝ} {trials : ℕ} {p : Data × ℕ} (he : d.evaluate f trials = ok p) :
    ∀ e < r.epochs, ∀ t ∈ onsets r e, 1 ≤ trunc (r.code t e) ∧ trunc (r.code t e) ≤ 12 := by
  obtain ⟨h1, h2, _, h4⟩ := loaded_once h hk
  have hc := (calls_coherent cs (new_facts r true).1 h).1
  have loop : ∀ n ≤ r.epochs, ∀ {p : Data × ℕ}, forLoop n (fun e p => do
      let q ← p.1.evaluateEpoch f trials e
      ok (q.1, if q.2 then p.2 + 1 else p.2)) (d, 0) = ok p →
      ∀ e < n, ∀ t ∈ onsets r e, 1 ≤ trunc (r.code t e) ∧ trunc (r.code t e) ≤ 12 := by
    intro n hn
    induction n with
    | zero => exact fun _ e he => absurd he (Nat.not_lt_zero e)
    | succ n ih =>
      intro p hp e he
      rw [forLoop] at hp
      obtain ⟨p', g1, g2⟩ := bind_eq_ok.1 hp
      rcases Nat.lt_or_ge e n with hen | hen
      · exact ih (by omega) g1 e hen
      · obtain rfl : e = n := by omega
        obtain ⟨k1, k2⟩ := evaluate_loop hc e g1
        obtain ⟨q, g3, _⟩ := bind_eq_ok.1 g2
        unfold Data.evaluateEpoch at g3
        obtain ⟨s, g4, _⟩ := bind_eq_ok.1 g3
        have := run_codes _ k2 g4
        rw [k1.start, (h4 e (by omega)).1] at this
        dsimp only at this
        rw [k1.recording, h2] at this
        exact this
  unfold Data.evaluate at he
  rw [if_pos h1, show d.recording.epochs = r.epochs by rw [h2]] at he
  exact loop _ le_rfl he

/-! ## Example -/

/-- Two epochs of 40 steps with two channels; a column flashes at time 0, a row at time 4. -/
def sample : Recording where
  sampling := 32
  channels := 2
  maxT := 40
  epochs := 2
  flashing := fun t _ => if t = 0 ∨ t = 4 then 1 else 0
  code := fun t e => if t = 0 then 1 else if e = 0 then 7 else 8
  type := fun _ _ => 1
  target := fun e => if e = 0 then 'A' else 'G'
  signal := fun e c t => e + c + t

theorem trunc_one : trunc 1 = 1 := by
  unfold trunc
  rw [if_pos zero_le_one]
  exact Int.floor_one

theorem trunc_zero : trunc 0 = 0 := by
  unfold trunc
  rw [if_pos le_rfl]
  exact Int.floor_zero

theorem trunc_natCast (n : ℕ) : trunc (n : ℝ) = n := by
  unfold trunc
  rw [if_pos (Nat.cast_nonneg n)]
  exact Int.floor_natCast n

theorem sample_onset (e t : ℕ) : Onset sample e t ↔ t = 0 ∨ t = 4 := by
  unfold Onset
  show (0 < (if t = 0 ∨ t = 4 then (1 : ℝ) else 0) ∧ (t = 0 ∨ trunc (if t - 1 = 0 ∨ t - 1 = 4 then 1 else 0) = 0)) ↔ _
  by_cases h : t = 0 ∨ t = 4
  · rw [if_pos h]
    refine ⟨fun _ => h, fun _ => ⟨zero_lt_one, ?_⟩⟩
    rcases h with h | h
    · exact Or.inl h
    · right
      rw [if_neg (by omega), trunc_zero]
  · rw [if_neg h]
    exact ⟨fun g => absurd g.1 (lt_irrefl _), fun g => absurd g h⟩

theorem sample_onsets (e : ℕ) : onsets sample e = [0, 4] := by
  unfold onsets
  have : (fun t => decide (Onset sample e t)) = fun t => decide (t = 0 ∨ t = 4) := by
    funext t
    exact decide_eq_decide.2 (sample_onset e t)
  rw [this]
  rfl

theorem sample_code (e t : ℕ) : trunc (sample.code t e) = if t = 0 then 1 else if e = 0 then 7 else 8 := by
  show trunc (if t = 0 then 1 else if e = 0 then 7 else 8) = _
  split
  · exact trunc_one
  · split
    · exact trunc_natCast 7
    · exact trunc_natCast 8

theorem sample_playable : Playable sample := by
  constructor
  · intro e _ t _
    rw [sample_code]
    split
    · omega
    · split <;> omega
  · intro e _ t ht
    rw [sample_onsets] at ht
    show t + 32 ≤ 40
    simp at ht
    omega

theorem sample_fits : (settings [.decimate 4]).Fits sample :=
  ⟨fun f hf => by
    injection hf with hf
    subst hf
    exact ⟨by omega, show 31 ≤ 32 by omega⟩, fun cm h => by cases h⟩

theorem sample_calls : ∃ d, (Data.new sample true).calls [.decimate 4] = ok d :=
  ⟨_, rfl⟩

theorem sample_keeps : ∀ c ∈ [Call.decimate 4], c.Keeps := fun c hc => by
  obtain rfl := List.mem_singleton.1 hc
  trivial

/-- The hypotheses of `getInstance_index_partial`, `inputs_partial` and `evaluate_history` hold for the sample. -/
example : ∃ d d' d'', (Data.new sample true).calls [.decimate 4] = ok d ∧ d.getInstance (1 * 2 + 1) = ok d' ∧
    d'.temp = (settings [.decimate 4]).instance sample 1 4 ∧ d'.temp.length = d.D ∧
    d.evaluate List.sum 15 = ok (d'', (settings [.decimate 4]).correct sample List.sum 15 2) := by
  obtain ⟨d, hd⟩ := sample_calls
  obtain ⟨d', h1, h2⟩ := getInstance_index_partial hd sample_keeps sample_fits (n := 2) (by omega)
    (fun e _ => by unfold flashes; rw [sample_onsets]; rfl) sample_playable.end_ (e := 1) (k := 1) (show 1 < 2 by omega)
    (by omega)
  obtain ⟨d'', h3⟩ := evaluate_history hd sample_keeps sample_fits sample_playable List.sum 15
  have h4 := inputs_partial hd (show Ordered _ _ from ⟨fun _ _ => rfl, trivial⟩) 1 4
  rw [sample_onsets] at h2
  refine ⟨d, d', d'', hd, h1, h2, ?_, h3⟩
  rw [h4, h2]
  rfl

/-- The hypotheses of `perfect_learner` hold for the sample: the flashes of the two epochs belong to the targets. -/
example : ∃ d d', (Data.new sample true).calls [.decimate 4] = ok d ∧ d.evaluate (fun _ => 1) 1 = ok (d', 2) := by
  obtain ⟨d, hd⟩ := sample_calls
  have hcode := sample_code
  obtain ⟨d', h⟩ := perfect_learner hd sample_keeps sample_fits sample_playable (f := fun _ => 1) (trials := 1) one_pos
    (row := fun e => if e = 0 then 0 else 1) (col := fun _ => 0) (fun e _ => by split <;> omega) (fun e _ => by omega)
    (fun e _ => by
      show (if e = 0 then 'A' else 'G') = _
      by_cases h : e = 0
      · rw [if_pos h, if_pos h]
        rfl
      · rw [if_neg h, if_neg h]
        rfl)
    (fun e _ => by
      refine ⟨⟨0, by rw [sample_onsets]; simp, by rw [hcode]; rfl⟩, ⟨4, by rw [sample_onsets]; simp, ?_⟩⟩
      rw [hcode, if_neg (by omega)]
      split <;> rfl)
    (fun e _ t ht => by
      refine ⟨fun _ => ?_, fun _ => one_pos⟩
      rw [sample_onsets] at ht
      rw [hcode]
      have ht : t = 0 ∨ t = 4 := by simpa using ht
      rcases ht with rfl | rfl
      · exact Or.inl rfl
      · right
        rw [if_neg (by omega)]
        split <;> rfl)
  exact ⟨d, d', hd, h⟩

/-- Like the sample, but the row flashes in the second epoch only. -/
def uneven : Recording := { sample with flashing := fun t e => if t = 0 ∨ (t = 4 ∧ e = 1) then 1 else 0 }

theorem uneven_onset (e t : ℕ) : Onset uneven e t ↔ t = 0 ∨ (t = 4 ∧ e = 1) := by
  unfold Onset
  show (0 < (if t = 0 ∨ (t = 4 ∧ e = 1) then (1 : ℝ) else 0) ∧
    (t = 0 ∨ trunc (if t - 1 = 0 ∨ (t - 1 = 4 ∧ e = 1) then 1 else 0) = 0)) ↔ _
  by_cases h : t = 0 ∨ (t = 4 ∧ e = 1)
  · rw [if_pos h]
    refine ⟨fun _ => h, fun _ => ⟨zero_lt_one, ?_⟩⟩
    rcases h with h | h
    · exact Or.inl h
    · right
      rw [if_neg (by omega), trunc_zero]
  · rw [if_neg h]
    exact ⟨fun g => absurd g.1 (lt_irrefl _), fun g => absurd g h⟩

theorem uneven_onsets : onsets uneven 0 = [0] ∧ onsets uneven 1 = [0, 4] := by
  unfold onsets
  have : ∀ e, (fun t => decide (Onset uneven e t)) = fun t => decide (t = 0 ∨ (t = 4 ∧ e = 1)) := fun e => by
    funext t
    exact decide_eq_decide.2 (uneven_onset e t)
  rw [this, this]
  exact ⟨rfl, rfl⟩

/-- The hypotheses of `uneven_ub` hold. -/
example : ∃ i < (Data.new uneven true).N, (Data.new uneven true).getInstance i = ub := by
  obtain ⟨i, h1, h2, _⟩ := uneven_ub (r := uneven) (cs := []) rfl (fun c hc => absurd hc (List.not_mem_nil)) (by
    show 2 * flashes uneven 0 < ∑ e ∈ Finset.range 2, flashes uneven e
    rw [Finset.sum_range_succ, Finset.sum_range_succ, Finset.sum_range_zero]
    unfold flashes
    rw [uneven_onsets.1, uneven_onsets.2]
    decide)
  exact ⟨i, h1, h2⟩

/-- The hypotheses of `reload_fails` and `late_flash_ub` hold: the instance of the second flash of an epoch needs 36 steps. -/
example : (Data.new sample true).load.getOffsets 2 = ok (0, 0) ∧
    (Data.new { sample with maxT := 35 } true).getInstance 1 = ub := by
  have h35 : ∀ e, onsets { sample with maxT := 35 } e = [0, 4] := fun e => by
    unfold onsets
    have : (fun t => decide (Onset { sample with maxT := 35 } e t)) = fun t => decide (t = 0 ∨ t = 4) := by
      funext t
      exact decide_eq_decide.2 (sample_onset e t)
    rw [this]
    rfl
  constructor
  · have := (reload_fails (r := sample) (n := 2) (by omega) (fun e _ => by unfold flashes; rw [sample_onsets]; rfl) le_rfl).2.1
    rw [sample_onsets] at this
    exact this
  · have h := (index_partial (r := { sample with maxT := 35 }) (cs := []) rfl (fun c hc => absurd hc (List.not_mem_nil)) (n := 2)
      (by omega) (fun e _ => by unfold flashes; rw [h35]; rfl)).2 0 (show 0 < 2 by omega) 1 (by omega)
    rw [h35] at h
    exact late_flash_ub (r := { sample with maxT := 35 }) (cs := []) rfl h.1 (show 0 < 2 by omega) (show 0 < 32 by omega)
      (show 35 < 4 + 32 by omega)

/-- **C90 (decimation)**: a constant channel is multiplied by 1.00000002. -/
theorem decimate_constant {s : Settings} {r : Recording} {f : ℕ} (hs : s.factor = some f) {e c : ℕ} {x : ℝ}
    (hx : ∀ t, r.signal e c t = x) (t0 k : ℕ) : s.sample r e t0 c k = 1.00000002 * x := by
  unfold Settings.sample
  rw [hs]
  dsimp only
  simp only [hx, ← Finset.sum_mul]
  congr 1
  simp only [Finset.sum_range_succ, Finset.sum_range_zero, b1, List.getD_cons_zero, List.getD_cons_succ]
  norm_num

end

end Verif.BCI
