import Verif.Model.DataStream
import Verif.Lemmas.Prelude

/-!
# C10: data streams
-/

namespace Verif.DataStream

open Outcome

variable {K : Type}

/-- The `k`-th group of `c` consecutive samples. -/
def group (samples : List (List K × Option (List K))) (c k : ℕ) : List (List K × Option (List K)) :=
  (samples.drop (k * c)).take c

/-- The optimiser steps a user expects: optimiser `o` works on learner `l`, whose training set consists of
exactly the `k`-th group of samples, with their targets if the stream is supervised. -/
def expectedEvents (o l : ℕ) (c : ℕ) (supervised : Bool) (samples : List (List K × Option (List K))) :
    List (Event (List K)) :=
  (List.range (samples.length / c)).map (fun k =>
    ⟨o, l, (group samples c k).map (fun p => some p.1),
      if supervised then some ((group samples c k).map (fun p => p.2)) else none⟩)

/-- All samples have `D > 0` inputs; either all have `F > 0` targets (supervised) or none has targets. -/
def Uniform (D F : ℕ) (supervised : Bool) (samples : List (List K × Option (List K))) : Prop :=
  0 < D ∧ (supervised = true → 0 < F) ∧ ∀ p ∈ samples, p.1.length = D ∧
    if supervised then ∃ t, p.2 = some t ∧ t.length = F else p.2 = none

private def Inv (o l c D F : ℕ) (sup : Bool) (pre : List (List K × Option (List K))) (s : State K) : Prop :=
  s.cacheSize = c ∧ s.learner = some l ∧ s.opt = some o ∧ s.collected = pre.length % c ∧
  s.events = expectedEvents o l c sup pre ∧
  ((pre = [] ∧ s.cache = none) ∨
   (s.cache = some sup ∧ s.D = D ∧ s.trains l = true ∧ s.optimizes o = some l ∧
    s.X.length = c ∧ s.X.take s.collected = (pre.drop (pre.length / c * c)).map (fun p => some p.1) ∧
    (sup = true → s.F = F ∧ s.T.length = c ∧
      s.T.take s.collected = (pre.drop (pre.length / c * c)).map (fun p => p.2))))

private theorem take_succ_set {α : Type} (l : List α) (i : ℕ) (a : α) (h : i < l.length) :
    (l.set i a).take (i + 1) = l.take i ++ [a] := by
  apply List.ext_getElem
  · simp; omega
  · intro j h1 h2
    simp only [List.length_append, List.length_take, List.length_cons, List.length_nil] at h2
    simp only [List.getElem_take, List.getElem_set, List.getElem_append, List.length_take]
    by_cases hj : j < i
    · rw [if_neg (by omega), dif_pos (by omega)]
    · have : j = i := by omega
      subst this
      simp

private theorem expectedEvents_append_same (o l c : ℕ) (sup : Bool) (hc : 0 < c)
    (pre : List (List K × Option (List K))) (p : List K × Option (List K))
    (h : (pre.length + 1) / c = pre.length / c) :
    expectedEvents o l c sup (pre ++ [p]) = expectedEvents o l c sup pre := by
  unfold expectedEvents
  rw [List.length_append, List.length_singleton, h]
  apply List.map_congr_left
  intro k hk
  have hk : k < pre.length / c := by simpa using hk
  have hkc : k * c + c ≤ pre.length := by
    have := Nat.div_mul_le_self pre.length c
    have h2 : (k + 1) * c ≤ pre.length / c * c := Nat.mul_le_mul_right c hk
    rw [Nat.succ_mul] at h2
    omega
  have hg : group (pre ++ [p]) c k = group pre c k := by
    unfold group
    rw [List.drop_append_of_le_length (by omega), List.take_append_of_le_length (by simp; omega)]
  rw [hg]

private theorem expectedEvents_append_new (o l c : ℕ) (sup : Bool) (hc : 0 < c)
    (pre : List (List K × Option (List K))) (p : List K × Option (List K))
    (h : (pre.length + 1) / c = pre.length / c + 1) (hlen : pre.length + 1 = (pre.length / c + 1) * c) :
    expectedEvents o l c sup (pre ++ [p]) = expectedEvents o l c sup pre ++
      [⟨o, l, ((pre.drop (pre.length / c * c)) ++ [p]).map (fun p => some p.1),
        if sup then some (((pre.drop (pre.length / c * c)) ++ [p]).map (fun p => p.2)) else none⟩] := by
  unfold expectedEvents
  rw [List.length_append, List.length_singleton, h, List.range_succ, List.map_append]
  congr 1
  · apply List.map_congr_left
    intro k hk
    have hk : k < pre.length / c := by simpa using hk
    have hkc : k * c + c ≤ pre.length := by
      have := Nat.div_mul_le_self pre.length c
      have h2 : (k + 1) * c ≤ pre.length / c * c := Nat.mul_le_mul_right c hk
      rw [Nat.succ_mul] at h2
      omega
    have hg : group (pre ++ [p]) c k = group pre c k := by
      unfold group
      rw [List.drop_append_of_le_length (by omega), List.take_append_of_le_length (by simp; omega)]
    rw [hg]
  · have hle := Nat.div_mul_le_self pre.length c
    have hg : group (pre ++ [p]) c (pre.length / c) = pre.drop (pre.length / c * c) ++ [p] := by
      unfold group
      rw [List.drop_append_of_le_length hle, List.take_of_length_le]
      rw [Nat.succ_mul] at hlen
      simp; omega
    simp [hg]

private theorem addSample_inv (o l c D F : ℕ) (sup : Bool) (hc : 0 < c)
    (pre : List (List K × Option (List K))) (p : List K × Option (List K))
    (hu : Uniform D F sup (pre ++ [p])) (s : State K) (h : Inv o l c D F sup pre s) :
    ∃ s', addSample s p.1 p.2 = ok s' ∧ Inv o l c D F sup (pre ++ [p]) s' := by
  obtain ⟨hcs, hl, ho, hcol, hev, hrest⟩ := h
  obtain ⟨hD, hF, hall⟩ := hu
  obtain ⟨hx, ht⟩ := hall p (by simp)
  -- after the optional initialisation
  have hinit : ∃ s1 : State K, (if s.cache = none then initStream s p.1.length ((p.2.map List.length).getD 0) else ok s) = ok s1 ∧
      s1.cacheSize = c ∧ s1.learner = some l ∧ s1.opt = some o ∧ s1.collected = pre.length % c ∧
      s1.events = expectedEvents o l c sup pre ∧ s1.cache = some sup ∧ s1.D = D ∧ s1.trains l = true ∧
      s1.optimizes o = some l ∧ s1.X.length = c ∧
      s1.X.take s1.collected = (pre.drop (pre.length / c * c)).map (fun p => some p.1) ∧
      (sup = true → s1.F = F ∧ s1.T.length = c ∧
        s1.T.take s1.collected = (pre.drop (pre.length / c * c)).map (fun p => p.2)) := by
    rcases hrest with ⟨hpre, hcache⟩ | ⟨h1, h2, h3, h4, h5, h6, h7⟩
    · rw [if_pos hcache]
      subst hpre
      have hcol0 : s.collected = 0 := by simpa using hcol
      cases sup with
      | true =>
        simp only [if_true] at ht
        obtain ⟨t, ht1, ht2⟩ := ht
        have hF' := hF rfl
        apply Exists.intro
        apply And.intro
        · unfold initStream
          rw [hl, ho]
          simp only [ht1, Option.map_some, Option.getD_some, ht2]
          rw [if_neg (by omega), if_pos hF', check_true (by omega)]
          rfl
        · simp [hcs, hcol0, hev, hx]
      | false =>
        simp only [Bool.false_eq_true, if_false] at ht
        apply Exists.intro
        apply And.intro
        · unfold initStream
          rw [hl, ho]
          simp only [ht, Option.map_none, Option.getD_none]
          rw [if_neg (by omega), if_neg (by omega), check_true (by omega)]
          rfl
        · simp [hcs, hcol0, hev, hx]
    · rw [if_neg (by rw [h1]; simp)]
      exact ⟨s, rfl, hcs, hl, ho, hcol, hev, h1, h2, h3, h4, h5, h6, h7⟩
  obtain ⟨s1, hs1, c1, c2, c3, c4, c5, c6, c7, c8, c9, c10, c11, c12⟩ := hinit
  have hcolc : s1.collected < c := by rw [c4]; exact Nat.mod_lt _ hc
  have hT : ∃ T', assignTarget s1.T s1.F s1.collected p.2 = ok T' ∧
      (sup = true → T'.length = c ∧ T'.take (s1.collected + 1) =
        (pre.drop (pre.length / c * c) ++ [p]).map (fun p => p.2)) := by
    cases sup with
    | true =>
      simp only [if_true] at ht
      obtain ⟨t, ht1, ht2⟩ := ht
      obtain ⟨d1, d2, d3⟩ := c12 rfl
      refine ⟨s1.T.set s1.collected (some t), ?_, ?_⟩
      · rw [ht1]
        simp only [assignTarget, assignRow]
        rw [if_pos (by rw [ht2, d1])]
        unfold Outcome.write
        rw [if_pos (by omega)]
      · intro _
        refine ⟨by simp [d2], ?_⟩
        rw [take_succ_set _ _ _ (by omega), d3, List.map_append]
        simp [ht1]
    | false =>
      simp only [Bool.false_eq_true, if_false] at ht
      refine ⟨s1.T, by rw [ht]; rfl, by simp⟩
  obtain ⟨T', hT1, hT2⟩ := hT
  have hX : assignRow s1.X s1.D s1.collected p.1 = ok (s1.X.set s1.collected (some p.1)) := by
    unfold assignRow Outcome.write
    rw [if_pos (by rw [hx, c7]), if_pos (by omega)]
  have hXtake : (s1.X.set s1.collected (some p.1)).take (s1.collected + 1) =
      (pre.drop (pre.length / c * c) ++ [p]).map (fun p => some p.1) := by
    rw [take_succ_set _ _ _ (by omega), c11, List.map_append]
    simp
  have hdm := Nat.div_add_mod pre.length c
  have hmul : c * (pre.length / c) = pre.length / c * c := Nat.mul_comm _ _
  have hstart : addSample s p.1 p.2 = (if ((s1.collected + 1 : ℕ) : ℤ) ≥ s1.cacheSize then do
      let s' ← step { s1 with X := s1.X.set s1.collected (some p.1), T := T', collected := s1.collected + 1 } o
      ok { s' with collected := 0 }
    else ok { s1 with X := s1.X.set s1.collected (some p.1), T := T', collected := s1.collected + 1 }) := by
    unfold addSample
    rw [hl, ho]
    simp only
    rw [hs1]
    simp only [ok_bind, hX, hT1]
  rw [hstart]
  by_cases hfull : s1.collected + 1 = c
  · -- the cache is full
    rw [if_pos (by rw [c1]; omega)]
    have hlen : pre.length + 1 = (pre.length / c + 1) * c := by
      rw [Nat.succ_mul]; omega
    have hdiv : (pre.length + 1) / c = pre.length / c + 1 := by
      rw [hlen]; exact Nat.mul_div_cancel _ hc
    have hmod : (pre.length + 1) % c = 0 := by
      rw [hlen]; exact Nat.mul_mod_left _ _
    have hXall : s1.X.set s1.collected (some p.1) =
        (pre.drop (pre.length / c * c) ++ [p]).map (fun p => some p.1) := by
      rw [← hXtake, List.take_of_length_le (by simp; omega)]
    refine ⟨{ s1 with
      X := s1.X.set s1.collected (some p.1)
      T := T'
      collected := 0
      events := expectedEvents o l c sup (pre ++ [p]) }, ?_, ?_⟩
    · unfold step
      simp only [c9, c8, if_true, ok_bind]
      rw [expectedEvents_append_new o l c sup hc pre p hdiv hlen, c5, hXall]
      cases sup with
      | true =>
        have hTall : T' = (pre.drop (pre.length / c * c) ++ [p]).map (fun p => p.2) := by
          rw [← (hT2 rfl).2, List.take_of_length_le (by rw [(hT2 rfl).1]; omega)]
        simp [c6, hTall]
      | false => simp [c6]
    · have hdrop : (pre ++ [p]).drop ((pre.length + 1) / c * c) = [] := by
        rw [hdiv, ← hlen]; simp
      refine ⟨c1, c2, c3, by simp [hmod], rfl, Or.inr ⟨c6, c7, c8, c9, by simp [c10], ?_, ?_⟩⟩
      · rw [List.length_append, List.length_singleton, hdrop]; simp
      · intro hsup
        refine ⟨(c12 hsup).1, (hT2 hsup).1, ?_⟩
        rw [List.length_append, List.length_singleton, hdrop]; simp
  · -- the cache is not full
    rw [if_neg (by rw [c1]; omega)]
    have hlt : pre.length % c + 1 < c := by rw [c4] at hfull hcolc; omega
    have hlen : pre.length + 1 = pre.length % c + 1 + c * (pre.length / c) := by omega
    have hdiv : (pre.length + 1) / c = pre.length / c := by
      rw [hlen, Nat.add_mul_div_left _ _ hc, Nat.div_eq_of_lt hlt]
      omega
    have hmod : (pre.length + 1) % c = pre.length % c + 1 := by
      rw [hlen, Nat.add_mul_mod_self_left, Nat.mod_eq_of_lt hlt]
    refine ⟨_, rfl, c1, c2, c3, ?_, ?_, Or.inr ⟨c6, c7, c8, c9, by simp [c10], ?_, ?_⟩⟩
    · simp [c4, hmod]
    · rw [expectedEvents_append_same o l c sup hc pre p hdiv]
      exact c5
    · rw [List.length_append, List.length_singleton, hdiv,
        List.drop_append_of_le_length (Nat.div_mul_le_self _ _)]
      exact hXtake
    · intro hsup
      refine ⟨(c12 hsup).1, (hT2 hsup).1, ?_⟩
      rw [List.length_append, List.length_singleton, hdiv,
        List.drop_append_of_le_length (Nat.div_mul_le_self _ _)]
      exact (hT2 hsup).2

/-- **C10.** A stream with cache size `c ≥ 1`, learner `l` and optimiser `o` that receives any sequence of samples (all with targets or
all without) performs exactly `⌊n/c⌋` optimiser steps for `n` samples, i.e. one after every `c`-th sample, and in the
`k`-th step the training set of the learner consists of exactly the `k`-th group of `c` samples in order, each with its own
target. (Applied to every prefix of a stream this gives the time of each step.) -/
theorem stream_steps_partial (c : ℕ) (hc : 0 < c) (l o D F : ℕ) (supervised : Bool)
    (samples : List (List K × Option (List K))) (hu : Uniform D F supervised samples) :
    ∃ s, addSamples (setOptimizer (setLearner (create (c : ℤ)) l) o) samples = ok s ∧
      s.events = expectedEvents o l c supervised samples := by
  suffices h : ∃ s, addSamples (setOptimizer (setLearner (create (c : ℤ)) l) o) samples = ok s ∧
      Inv o l c D F supervised samples s by
    obtain ⟨s, h1, h2⟩ := h
    exact ⟨s, h1, h2.2.2.2.2.1⟩
  induction samples using List.reverseRecOn with
  | nil =>
    refine ⟨_, rfl, ?_⟩
    refine ⟨rfl, rfl, rfl, by simp [setOptimizer, setLearner, create], ?_, Or.inl ⟨rfl, rfl⟩⟩
    simp [expectedEvents, setOptimizer, setLearner, create]
  | append_singleton pre p ih =>
    obtain ⟨s, h1, h2⟩ := ih ⟨hu.1, hu.2.1, fun q hq => hu.2.2 q (by simp [hq])⟩
    obtain ⟨s', h3, h4⟩ := addSample_inv o l c D F supervised hc pre p hu s h2
    refine ⟨s', ?_, h4⟩
    unfold addSamples at h1 ⊢
    rw [List.foldlM_append, h1, ok_bind, List.foldlM_cons, h3]
    rfl

/-- **C10, cache size.** A stream whose cache size is not positive has undefined behaviour at the first sample. -/
theorem stream_cacheSize_ub (c : ℤ) (hc : c ≤ 0) (l o : ℕ) (x : List K) (hx : 0 < x.length) (t : Option (List K)) :
    addSample (setOptimizer (setLearner (create c) l) o) x t = ub := by
  unfold addSample
  simp only [setOptimizer, setLearner, create, if_true, initStream]
  by_cases hneg : c < 0
  · simp [hneg]
  · have hc0 : c = 0 := by omega
    subst hc0
    by_cases ht : 0 < (t.map List.length).getD 0 <;> simp [ht, hx, assignRow, Outcome.write]

/-- **C10 fails for mixed streams (1).** If the first sample has no target, a later sample with a target is written to a
matrix that was never allocated. -/
theorem stream_late_target_ub (l o : ℕ) (x x' t : List K) (hx : 0 < x.length) (hx' : x'.length = x.length) :
    addSamples (setOptimizer (setLearner (create 2) l) o) [(x, none), (x', some t)] = ub := by
  by_cases ht : t.length = 0 <;> simp [addSamples, addSample, setOptimizer, setLearner, create, initStream,
    assignTarget, assignRow, Outcome.write, ht, hx, hx']

/-- **C10 fails for mixed streams (2).** In a supervised stream a sample without target gets the target of an earlier
sample: with cache size 1, the second step trains the second input on the first target. -/
theorem stream_stale_target_fails (l o : ℕ) (x x' t : List K) (hx : 0 < x.length) (hx' : x'.length = x.length)
    (ht : 0 < t.length) :
    ∃ s, addSamples (setOptimizer (setLearner (create 1) l) o) [(x, some t), (x', none)] = ok s ∧
      s.events = [⟨o, l, [some x], some [some t]⟩, ⟨o, l, [some x'], some [some t]⟩] := by
  simp [addSamples, addSample, setOptimizer, setLearner, create, initStream,
    assignTarget, assignRow, Outcome.write, ht, hx, hx', step]

/-- **C10 fails for exchanged optimisers.** An optimiser that is set after the first sample is never given the learner;
the next full cache aborts in its check. -/
theorem stream_exchanged_optimizer_fails (l o o' : ℕ) (ho : o' ≠ o) (x x' : List K) (hx : 0 < x.length)
    (hx' : x'.length = x.length) (s : State K)
    (hs : addSample (setOptimizer (setLearner (create 1) l) o) x none = ok s) :
    addSample (setOptimizer s o') x' none = checkFailed := by
  simp [addSample, setOptimizer, setLearner, create, initStream, hx, assignTarget, assignRow, Outcome.write,
    step] at hs
  subst hs
  simp [addSample, setOptimizer, assignTarget, assignRow, Outcome.write, step, hx', ho]

/-- Five supervised samples and cache size 2 meet the hypotheses of `stream_steps_partial`; there are two steps. -/
example : Uniform 1 1 true [([1], some [0]), ([2], some [1]), ([3], some [0]), ([4], some [1]), ([(5 : ℚ)], some [0])] ∧
    (expectedEvents 0 0 2 true
      [([1], some [0]), ([2], some [1]), ([3], some [0]), ([4], some [1]), ([(5 : ℚ)], some [0])]).length = 2 := by
  constructor
  · refine ⟨by decide, by decide, ?_⟩
    intro p hp
    simp at hp
    rcases hp with rfl | rfl | rfl | rfl | rfl <;> simp
  · simp [expectedEvents]

end Verif.DataStream
