import Verif.Props.DataSetView

/-!
# C04, C05: cross-validation
-/

namespace Verif.Data

open Outcome

variable {X T : Type}

private theorem split_views (σ : List ℤ → List ℤ) (hσ : IsShuffle σ) (s : Store X T)
    (a : ℕ) (k : ℕ) (hk : 1 < k) :
    ∃ pos : List ℕ, pos.Perm (List.range (samples s a)) ∧
      split σ s [] a (k : ℤ) true =
        ok (s ++ (List.range k).map (fun i => Obj.view a ((piece pos k i).map (fun j : ℕ => (j : ℤ)))),
          (List.range k).map (fun i => s.length + i)) := by
  have hperm : (σ (iota (samples s a))).Perm (iota (samples s a)) := hσ _
  obtain ⟨pos, hpos, hposperm⟩ := exists_positions hperm
  refine ⟨pos, hposperm, ?_⟩
  have := split_loop σ s [] a k hk true (σ (iota (samples s a))) (by simp)
    (by rw [hperm.length_eq, iota_length])
  rw [this, hpos]
  simp [piece_map]

private theorem foldSets_spec (s t : Store X T) (a k : ℕ) (pos : List ℕ) (i : ℕ)
    (hi : i < k) (hk : 1 < k)
    (hpre : (s ++ (List.range k).map
      (fun i => (Obj.view a ((piece pos k i).map (fun j : ℕ => (j : ℤ))) : Obj X T))) <+: t) :
    foldSets t a ((List.range k).map (fun i => s.length + i)) i =
      ok (t ++ [Obj.view a
        ((((List.range k).map (piece pos k)).eraseIdx i).flatten.map (fun j : ℕ => (j : ℤ)))],
          t.length, s.length + i) := by
  obtain ⟨e, rfl⟩ := hpre
  set views := (List.range k).map
    (fun i => (Obj.view a ((piece pos k i).map (fun j : ℕ => (j : ℤ))) : Obj X T)) with hviews
  set t := s ++ views ++ e with ht
  have hvl : views.length = k := by simp [hviews]
  have hget : ∀ j < k, t[s.length + j]? = some (Obj.view a ((piece pos k j).map (fun j : ℕ => (j : ℤ)))) := by
    intro j hj
    rw [ht, List.append_assoc, List.getElem?_append_right (by omega),
      List.getElem?_append_left (by omega)]
    simp [hviews, hj]
  unfold foldSets
  have hread : Outcome.read ((List.range k).map (fun i => s.length + i)) i = ok (s.length + i) := by
    rw [read_eq_ok]; simp [hi]
  rw [hread]
  simp only [ok_bind, newView]
  have herase : ((List.range k).map (fun i => s.length + i)).eraseIdx i =
      ((List.range k).eraseIdx i).map (fun i => s.length + i) := by
    rw [List.eraseIdx_map]
  have herase2 : ((List.range k).map (piece pos k)).eraseIdx i =
      ((List.range k).eraseIdx i).map (piece pos k) := by
    rw [List.eraseIdx_map]
  have hlt : ∀ j ∈ (List.range k).eraseIdx i, j < k := fun j hj => by
    simpa using List.mem_of_mem_eraseIdx hj
  rw [merge_ok (b := a) (idx := [])]
  · simp only [ok_bind]
    rw [List.set_append_right _ _ (by omega)]
    simp only [Nat.sub_self, List.set_cons_zero, List.nil_append]
    congr 5
    rw [herase, herase2, List.flatMap_def, List.map_map, List.map_flatten, List.map_map]
    congr 1
    apply List.map_congr_left
    intro j hj
    have hjk := hlt j hj
    simp only [Function.comp]
    unfold idxOf
    rw [List.getElem?_append_left (by simp [ht, hvl]; omega), hget j hjk]
  · rw [herase]
    intro hc
    have : (((List.range k).eraseIdx i).map (fun i => s.length + i)).length = k - 1 := by
      simp [List.length_eraseIdx, hi]
    rw [hc] at this
    simp at this; omega
  · simp
  · rw [herase]
    intro g hg
    simp only [List.mem_map] at hg
    obtain ⟨j, hj, rfl⟩ := hg
    have hjk := hlt j hj
    refine ⟨by simp [ht, hvl]; omega, (piece pos k j).map (fun j : ℕ => (j : ℤ)), ?_⟩
    rw [List.getElem?_append_left (by simp [ht, hvl]; omega)]
    exact hget j hjk

private theorem piece_erase_perm (pos : List ℕ) (k i : ℕ) (hi : i < k) :
    ((((List.range k).map (piece pos k)).eraseIdx i).flatten ++ piece pos k i).Perm pos := by
  have h1 : (((List.range k).map (piece pos k)).eraseIdx i ++ [piece pos k i]).flatten.Perm
      ((List.range k).map (piece pos k)).flatten := by
    apply List.Perm.flatten
    have hlt : i < ((List.range k).map (piece pos k)).length := by simp [hi]
    have := List.getElem_cons_eraseIdx_perm (l := (List.range k).map (piece pos k)) hlt
    simp only [List.getElem_map, List.getElem_range] at this
    exact (List.perm_append_singleton _ _).trans this
  rw [flatten_piece pos k (by omega)] at h1
  simpa using h1

/-- What cross-validation computes if fold `i` trains on the positions `train i` and tests on the positions
`test i`: the learner sees exactly these rows. -/
def crossValidationOn (s : Store X T) (a k : ℕ) (train test : ℕ → List ℕ)
    (hits : ℕ → List (Outcome X × Outcome T) → List (Outcome X × Outcome T) → List (ℕ × ℕ)) :
    Outcome ℚ := do
  let accuracies ← (List.range k).mapM (fun i =>
    foldAccuracy (train i).length (test i).length
      (hits i ((train i).map (fun j : ℕ => row s a j)) ((test i).map (fun j : ℕ => row s a j))))
  ok (accuracies.sum / k)

private theorem foldl_eq_mapM {S : Type} (k : ℕ) (step : S → ℕ → S)
    (f : ℕ → Outcome ℚ) (body : S × ℚ → ℕ → Outcome (S × ℚ)) (P : S → Prop)
    (hstep : ∀ t i, P t → P (step t i))
    (hb : ∀ t q i, i < k → P t → body (t, q) i = (do let x ← f i; ok (step t i, q + x)))
    (t : S) (ht : P t) :
    (do let r ← (List.range k).foldlM body (t, (0 : ℚ)); ok (r.2 / (k : ℚ)))
      = (do let l ← (List.range k).mapM f; ok (l.sum / (k : ℚ))) := by
  have key : ∀ m ≤ k, ((List.range m).foldlM body (t, (0 : ℚ)) = (do
      let l ← (List.range m).mapM f; ok ((List.range m).foldl step t, l.sum))) ∧
      P ((List.range m).foldl step t) := by
    intro m
    induction m with
    | zero => intro _; exact ⟨by simp, by simpa using ht⟩
    | succ m ih =>
      intro hm
      obtain ⟨ih1, ih2⟩ := ih (by omega)
      refine ⟨?_, ?_⟩
      · rw [List.range_succ, List.foldlM_append, ih1, List.mapM_append]
        cases hl : (List.range m).mapM f with
        | ok l =>
          simp only [ok_bind, List.foldlM_cons, List.foldlM_nil, List.mapM_cons, List.mapM_nil]
          rw [hb _ _ m (by omega) ih2]
          cases f m <;> simp
        | throws => simp
        | checkFailed => simp
        | ub => simp
      · rw [List.range_succ, List.foldl_append]
        exact hstep _ _ ih2
  rw [(key k le_rfl).1]
  cases (List.range k).mapM f <;> simp

/-- **C04.** For every data set, every number of folds `k > 1` and every shuffle there are training and test positions that form
honest folds such that cross-validation - for every learner and optimiser - is the computation in which
fold `i` sees exactly the rows at `train i` for training and the rows at `test i` for testing. -/
theorem crossValidation_honest (σ : List ℤ → List ℤ) (hσ : IsShuffle σ) (s : Store X T)
    (a : ℕ) (ha : a < s.length) (k : ℕ) (hk : 1 < k) :
    ∃ train test : ℕ → List ℕ,
      HonestFolds (samples s a) k train test ∧
      (∀ i < k, (test i).length =
        if i < k - 1 then samples s a / k else samples s a - (k - 1) * (samples s a / k)) ∧
      ∀ hits, crossValidation σ s a (k : ℤ) hits = crossValidationOn s a k train test hits := by
  obtain ⟨pos, hperm, hsplit⟩ := split_views σ hσ s a k hk
  set n := samples s a with hn
  set parts := (List.range k).map (piece pos k) with hparts
  have hnodup : pos.Nodup := hperm.symm.nodup List.nodup_range
  refine ⟨fun i => (parts.eraseIdx i).flatten, piece pos k, ⟨?_, ?_⟩, ?_, ?_⟩
  · intro i hi
    have hp := piece_erase_perm pos k i hi
    refine ⟨?_, hp.trans hperm⟩
    have := hp.symm.nodup hnodup
    rw [List.nodup_append] at this
    intro x hx hy
    exact this.2.2 x hx x hy rfl
  · rw [List.flatMap_def, flatten_piece pos k (by omega)]
    exact hperm
  · intro i hi
    have hlen : pos.length = n := by rw [hperm.length_eq]; simp
    split
    · rename_i h; rw [piece_length_of_lt _ _ _ h, hlen]
    · rename_i h
      have : i = k - 1 := by omega
      subst this
      simp [piece, hlen]
  · intro hits
    unfold crossValidation crossValidationOn
    rw [hsplit]
    simp only [ok_bind, Int.toNat_natCast, Int.cast_natCast]
    set s1 := s ++ (List.range k).map
      (fun i => (Obj.view a ((piece pos k i).map (fun j : ℕ => (j : ℤ))) : Obj X T)) with hs1
    have hs1len : s1.length = s.length + k := by simp [hs1]
    refine foldl_eq_mapM k
      (fun t i => t ++ [Obj.view a ((parts.eraseIdx i).flatten.map (fun j : ℕ => (j : ℤ)))])
      _ _ (fun t => s1 <+: t) (fun t i ht => ht.trans (List.prefix_append _ _)) ?_ s1 List.prefix_rfl
    intro t q i hi ht
    have hf := foldSets_spec s t a k pos i hi hk ht
    simp only
    rw [hf]
    simp only [ok_bind]
    set t' := t ++ [(Obj.view a ((parts.eraseIdx i).flatten.map (fun j : ℕ => (j : ℤ))) : Obj X T)] with ht'
    have hlen : s1.length ≤ t.length := ht.length_le
    have hpre : s <+: t' := ((List.prefix_append s _).trans ht).trans (List.prefix_append _ _)
    have hrow : ∀ j, row t' a j = row s a j := by
      intro j
      obtain ⟨e, he⟩ := hpre
      rw [← he]
      exact row_append s e a ha j
    have htrain : Shows t' t.length s a (parts.eraseIdx i).flatten :=
      shows_of_view (by simp [ht']) (by omega) hrow
    have htest : Shows t' (s.length + i) s a (piece pos k i) := by
      refine shows_of_view ?_ (by omega) hrow
      obtain ⟨e, he⟩ := ht
      rw [ht', ← he, hs1, List.append_assoc, List.append_assoc,
        List.getElem?_append_right (by omega), List.getElem?_append_left (by simp; omega)]
      simp [hi]
    have e1 : visible t' t.length = readAll t' t.length := rfl
    have e2 : visible t' (s.length + i) = readAll t' (s.length + i) := rfl
    rw [htrain.1, htest.1, e1, e2, htrain.2, htest.2]

/-- The hypotheses of `crossValidation_honest` hold e.g. for 3 folds of a data set with 7 rows. -/
example : IsShuffle List.reverse ∧
    (0 : ℕ) < ([.direct [1, 2, 3, 4, 5, 6, 7] (some [0, 0, 0, 1, 1, 1, 1])] : Store ℕ ℕ).length ∧ 1 < 3 :=
  ⟨fun l => List.reverse_perm l, by decide, by decide⟩

/-- The test hits that count in a fold: those measured last. -/
def finalTestHits (hits : List (ℕ × ℕ)) : ℕ := (hits.getLast?.map Prod.snd).getD 0

private theorem foldAccuracy_eq (tr te : ℕ) (htr : 0 < tr) (hte : 0 < te) (hits : List (ℕ × ℕ)) :
    foldAccuracy tr te hits = ok (((finalTestHits hits / te : ℕ) : ℕ) : ℚ) := by
  unfold foldAccuracy
  induction hits using List.reverseRecOn with
  | nil => simp [finalTestHits]
  | append_singleton l h ih =>
    rw [List.foldlM_append, ih]
    simp only [ok_bind, List.foldlM_cons, List.foldlM_nil, intDiv]
    rw [if_neg (by omega), if_neg (by omega)]
    simp only [ok_bind, finalTestHits, List.getLast?_append, List.getLast?_singleton, Option.some_or,
      Option.map_some, Option.getD_some, pure_eq]
    have : Int.tdiv (h.2 : ℤ) (te : ℤ) = ((h.2 / te : ℕ) : ℤ) := by
      rw [Int.natCast_div]; exact Int.tdiv_eq_ediv_of_nonneg (by positivity)
    rw [this, Int.cast_natCast]

private theorem mapM_ok {α : Type} (l : List ℕ) (f : ℕ → Outcome α) (g : ℕ → α)
    (h : ∀ i ∈ l, f i = ok (g i)) : l.mapM f = ok (l.map g) := by
  induction l with
  | nil => rfl
  | cons x xs ih =>
    rw [List.mapM_cons, h x (by simp), ok_bind, ih (fun i hi => h i (by simp [hi]))]
    simp

/-- **C05 (partial).** If there are at least as many instances as folds and every fold measures at most as many test hits
as it has test instances, cross-validation returns a value in `[0, 1]`: the fraction of folds whose *last*
measurement was perfect.  `results` lists for each fold the final number of hits and the number of test instances;
the value never exceeds the documented mean accuracy `meanAccuracy results`, and it is equal to it exactly if in each fold all
or none of the test instances are hit.  (The full property, `= meanAccuracy results`, is false: `crossValidation_mean_fails`.) -/
theorem crossValidation_value_partial (σ : List ℤ → List ℤ) (hσ : IsShuffle σ) (s : Store X T)
    (a : ℕ) (ha : a < s.length) (k : ℕ) (hk : 1 < k) (hn : k ≤ samples s a)
    (hits : ℕ → List (Outcome X × Outcome T) → List (Outcome X × Outcome T) → List (ℕ × ℕ))
    (hbound : ∀ i train test h, h ∈ hits i train test → h.2 ≤ test.length) :
    ∃ results : List (ℕ × ℕ),
      results.length = k ∧ (results.map Prod.snd).sum = samples s a ∧
      (∀ r ∈ results, 0 < r.2 ∧ r.1 ≤ r.2) ∧
      (∃ train test : ℕ → List ℕ, HonestFolds (samples s a) k train test ∧
        results = (List.range k).map (fun i => (finalTestHits (hits i ((train i).map (fun j : ℕ => row s a j))
          ((test i).map (fun j : ℕ => row s a j))), (test i).length))) ∧
      crossValidation σ s a (k : ℤ) hits =
        ok ((results.countP (fun r => r.1 = r.2) : ℚ) / k) ∧
      0 ≤ (results.countP (fun r => r.1 = r.2) : ℚ) / k ∧
      (results.countP (fun r => r.1 = r.2) : ℚ) / k ≤ meanAccuracy results ∧
      meanAccuracy results ≤ 1 ∧
      ((results.countP (fun r => r.1 = r.2) : ℚ) / k = meanAccuracy results ↔
        ∀ r ∈ results, r.1 = 0 ∨ r.1 = r.2) := by
  obtain ⟨train, test, hhon, hsize, hcv⟩ := crossValidation_honest σ hσ s a ha k hk
  set n := samples s a with hndef
  have hq : 1 ≤ n / k := (Nat.one_le_div_iff (by omega)).mpr hn
  have hkn : k * (n / k) ≤ n := Nat.mul_div_le n k
  have hkn' : (k - 1) * (n / k) + n / k ≤ n := by
    have : (k - 1 + 1) * (n / k) ≤ n := by rw [Nat.sub_add_cancel (by omega)]; exact hkn
    rwa [Nat.succ_mul] at this
  have hq2 : n / k ≤ (k - 1) * (n / k) := Nat.le_mul_of_pos_left _ (by omega)
  have htest : ∀ i < k, 0 < (test i).length := by
    intro i hi; rw [hsize i hi]; split <;> omega
  have htrain : ∀ i < k, 0 < (train i).length := by
    intro i hi
    have hl := (hhon.1 i hi).2.length_eq
    rw [List.length_append, List.length_range] at hl
    have := hsize i hi
    split at this <;> omega
  set fin : ℕ → ℕ := fun i => finalTestHits (hits i ((train i).map (fun j : ℕ => row s a j))
          ((test i).map (fun j : ℕ => row s a j))) with hfin
  have hfinle : ∀ i, fin i ≤ (test i).length := by
    intro i
    simp only [hfin, finalTestHits]
    cases hl : (hits i ((train i).map (fun j : ℕ => row s a j))
          ((test i).map (fun j : ℕ => row s a j))).getLast? with
    | none => simp
    | some h =>
      have := hbound i _ _ h (List.mem_of_getLast? hl)
      simpa using this
  set results := (List.range k).map (fun i => (fin i, (test i).length)) with hres
  have hrlen : results.length = k := by simp [hres]
  have hrpos : ∀ r ∈ results, 0 < r.2 ∧ r.1 ≤ r.2 := by
    intro r hr
    simp only [hres, List.mem_map, List.mem_range] at hr
    obtain ⟨i, hi, rfl⟩ := hr
    exact ⟨htest i hi, hfinle i⟩
  have hkpos : (0 : ℚ) < k := by exact_mod_cast (by omega : 0 < k)
  -- general facts about lists of results
  have gen : ∀ l : List (ℕ × ℕ), (∀ r ∈ l, 0 < r.2 ∧ r.1 ≤ r.2) →
      ((l.countP (fun r => r.1 = r.2) : ℚ) ≤ (l.map (fun r => (r.1 : ℚ) / (r.2 : ℚ))).sum ∧
       (l.map (fun r => (r.1 : ℚ) / (r.2 : ℚ))).sum ≤ l.length ∧
       ((l.countP (fun r => r.1 = r.2) : ℚ) = (l.map (fun r => (r.1 : ℚ) / (r.2 : ℚ))).sum ↔
        ∀ r ∈ l, r.1 = 0 ∨ r.1 = r.2) ∧
       (l.map (fun r => ((r.1 / r.2 : ℕ) : ℚ))).sum = (l.countP (fun r => r.1 = r.2) : ℚ)) := by
    intro l hl
    induction l with
    | nil => simp
    | cons r rs ih =>
      obtain ⟨ih1, ih2, ih3, ih4⟩ := ih (fun x hx => hl x (by simp [hx]))
      obtain ⟨hpos, hle⟩ := hl r (by simp)
      have hposq : (0 : ℚ) < r.2 := by exact_mod_cast hpos
      have hleq : (r.1 : ℚ) / r.2 ≤ 1 := by
        rw [div_le_one hposq]; exact_mod_cast hle
      have hnn : (0 : ℚ) ≤ (r.1 : ℚ) / r.2 := by positivity
      simp only [List.map_cons, List.sum_cons, List.length_cons, List.countP_cons, Nat.cast_add,
        Nat.cast_one, List.mem_cons, forall_eq_or_imp]
      by_cases heq : r.1 = r.2
      · have h1 : (r.1 : ℚ) / r.2 = 1 := by rw [heq]; exact div_self hposq.ne'
        have h2 : r.1 / r.2 = 1 := by rw [heq]; exact Nat.div_self hpos
        rw [h1, h2]
        simp only [heq, decide_true, if_true, Nat.cast_one, or_true, true_and]
        refine ⟨by linarith, by linarith, ?_, by rw [ih4]; ring⟩
        rw [← ih3]
        constructor <;> intro h <;> linarith
      · have h2 : r.1 / r.2 = 0 := Nat.div_eq_of_lt (by omega)
        rw [h2]
        simp only [heq, decide_false, Bool.false_eq_true, if_false, Nat.cast_zero, add_zero, or_false, zero_add]
        refine ⟨by linarith, by linarith, ?_, ih4⟩
        constructor
        · intro h
          have h0 : (r.1 : ℚ) / r.2 = 0 := by linarith
          rw [div_eq_zero_iff] at h0
          refine ⟨by rcases h0 with h0 | h0 <;> [exact_mod_cast h0; exact absurd h0 hposq.ne'], ?_⟩
          rw [← ih3]; linarith
        · rintro ⟨h0, h⟩
          rw [h0, ih3.mpr h]; simp
  obtain ⟨g1, g2, g3, g4⟩ := gen results hrpos
  refine ⟨results, hrlen, ?_, hrpos, ⟨train, test, hhon, rfl⟩, ?_, by positivity, ?_, ?_, ?_⟩
  · have := hhon.2.length_eq
    rw [List.length_flatMap, List.length_range] at this
    rw [hres, List.map_map]
    exact this
  · rw [hcv]
    unfold crossValidationOn
    rw [mapM_ok _ _ (fun i => ((fin i / (test i).length : ℕ) : ℚ))]
    · simp only [ok_bind]
      congr 2
      rw [← g4, hres, List.map_map]
      rfl
    · intro i hi
      rw [List.mem_range] at hi
      exact foldAccuracy_eq _ _ (htrain i hi) (htest i hi) _
  · unfold meanAccuracy
    rw [hrlen]
    exact div_le_div_of_nonneg_right g1 hkpos.le
  · unfold meanAccuracy
    rw [div_le_one (by rw [hrlen]; exact hkpos)]
    exact g2
  · unfold meanAccuracy
    rw [hrlen, div_left_inj' hkpos.ne']
    exact g3

/-- **C05 fails.** Four instances, two folds, in each fold one of the two test instances is classified
correctly: the mean accuracy is 1/2 but 0 is returned. -/
theorem crossValidation_mean_fails :
    ∃ (σ : List ℤ → List ℤ) (s : Store ℕ ℕ), IsShuffle σ ∧ samples s 0 = 4 ∧
      crossValidation σ s 0 2 (fun _ _ _ => [(1, 1)]) = ok 0 ∧
      meanAccuracy [(1, 2), (1, 2)] = 1 / 2 := by
  refine ⟨id, [.direct [0, 1, 2, 3] (some [0, 1, 0, 1])], fun l => List.Perm.refl l, ?_, ?_, ?_⟩
  · simp [samples]
  · obtain ⟨train, test, hhon, hsize, hcv⟩ :=
      crossValidation_honest id (fun l => List.Perm.refl l)
        ([.direct [0, 1, 2, 3] (some [0, 1, 0, 1])] : Store ℕ ℕ) 0 (by decide) 2 (by decide)
    have hs : samples ([.direct [0, 1, 2, 3] (some [0, 1, 0, 1])] : Store ℕ ℕ) 0 = 4 := by simp [samples]
    rw [hs] at hsize hhon
    have h0 : (test 0).length = 2 := hsize 0 (by decide)
    have h1 : (test 1).length = 2 := hsize 1 (by decide)
    have t0 : (train 0).length = 2 := by
      have := (hhon.1 0 (by decide)).2.length_eq
      simp [h0] at this; omega
    have t1 : (train 1).length = 2 := by
      have := (hhon.1 1 (by decide)).2.length_eq
      simp [h1] at this; omega
    have := hcv (fun _ _ _ => [(1, 1)])
    rw [show ((2 : ℕ) : ℤ) = 2 from rfl] at this
    rw [this]
    unfold crossValidationOn
    rw [mapM_ok _ _ (fun _ => (0 : ℚ))]
    · simp
    · intro i hi
      have hi2 : i = 0 ∨ i = 1 := by simp at hi; omega
      have hl : (test i).length = 2 ∧ (train i).length = 2 := by
        rcases hi2 with rfl | rfl
        · exact ⟨h0, t0⟩
        · exact ⟨h1, t1⟩
      rw [foldAccuracy_eq _ _ (by omega) (by omega)]
      simp [finalTestHits, hl.1]
  · norm_num [meanAccuracy]

/-- **C05 fails.** With fewer instances than folds (and at least one optimisation step in the first fold) the
accuracy of an empty test set is computed by an integer division by zero. -/
theorem crossValidation_ub (σ : List ℤ → List ℤ) (hσ : IsShuffle σ) (s : Store X T)
    (a : ℕ) (ha : a < s.length) (k : ℕ) (hk : 1 < k) (hn : samples s a < k)
    (hits : ℕ → List (Outcome X × Outcome T) → List (Outcome X × Outcome T) → List (ℕ × ℕ))
    (hstep : ∀ train test, hits 0 train test ≠ []) :
    crossValidation σ s a (k : ℤ) hits = ub := by
  obtain ⟨train, test, hhon, hsize, hcv⟩ := crossValidation_honest σ hσ s a ha k hk
  rw [hcv]
  unfold crossValidationOn
  obtain ⟨m, rfl⟩ : ∃ m, k = m + 1 := ⟨k - 1, by omega⟩
  have h0 : (test 0).length = 0 := by
    rw [hsize 0 (by omega), if_pos (by omega)]
    exact Nat.div_eq_of_lt hn
  rw [List.range_succ_eq_map, List.mapM_cons]
  have : ∀ tr (l : List (ℕ × ℕ)), l ≠ [] → foldAccuracy tr 0 l = ub := by
    intro tr l hl
    cases l with
    | nil => exact absurd rfl hl
    | cons h t =>
      unfold foldAccuracy
      rw [List.foldlM_cons]
      simp only [intDiv]
      by_cases htr : (tr : ℤ) = 0
      · rw [if_pos htr]; rfl
      · rw [if_neg htr]; rfl
  rw [h0, this _ _ (hstep _ _)]
  rfl

/-- Three instances and two folds with at most as many hits as instances meet the hypotheses of
`crossValidation_value_partial`; one instance and two folds those of `crossValidation_ub`. -/
example : (2 : ℕ) ≤ samples ([.direct [5, 6, 7] (some [0, 1, 0])] : Store ℕ ℕ) 0 ∧
    samples ([.direct [5] (some [0])] : Store ℕ ℕ) 0 < 2 := by
  simp [samples]

end Verif.Data
