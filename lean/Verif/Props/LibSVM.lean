import Verif.Lemmas.LibSVM

/-!
# C13, C14: LibSVM files

The meaning of a file is given in Verif/Spec/LibSVM.lean.
-/

set_option linter.unusedSectionVars false

namespace Verif.LibSVM

open Verif.Text

variable {K : Type} [IntCast K] [Zero K] [One K] [LinearOrder K]

/-- The general reader theorem (helper): `off` is 1 for more than one class, 0 otherwise. -/
theorem load_fileText (F : NumFormat K) (ls : List (Line K)) (cols : ℕ) (hv : ∀ l ∈ ls, l.Valid)
    (houts : ∀ l ∈ ls, ∃ r, (outRow (fileClasses ls).card l.label : Outcome (List K)) = .ok r)
    (hidx : ∀ l ∈ ls, ∀ f ∈ l.features, (f.1 : ℤ) < fileWidth cols ls + offset (fileClasses ls).card) :
    ∃ outs, ls.map (fun l => (outRow (fileClasses ls).card l.label : Outcome (List K))) = outs.map .ok ∧
    load F (fileText F ls) cols = .ok ((ls.length : ℤ),
      { cols := (fileWidth cols ls).toNat
        rows := ls.map (fun l => (List.range (fileWidth cols ls).toNat).map
          (fun j => l.value F (j + offset (fileClasses ls).card))) },
      { cols := if (fileClasses ls).card > 2 then (fileClasses ls).card else 1, rows := outs }) := by
  have hw : (0 : ℤ) ≤ fileWidth cols ls := le_trans (by omega) (le_foldl_max _ _)
  obtain ⟨w, hw'⟩ := Int.eq_ofNat_of_zero_le hw
  classical
  let g : Line K → List K := fun l => if h : l ∈ ls then (houts l h).choose else []
  have hg : ∀ l ∈ ls, (outRow (fileClasses ls).card l.label : Outcome (List K)) = .ok (g l) := by
    intro l hl
    simp only [g, hl, dif_pos]
    exact (houts l hl).choose_spec
  refine ⟨ls.map g, ?_, ?_⟩
  · rw [List.map_map]
    exact List.map_congr_left (fun l hl => hg l hl)
  · unfold load
    rw [preprocess_fileText]
    unfold finish
    simp only
    rw [if_neg (by omega)]
    have hm : (ls.map (fun l => l.label)).mapM (outRow (K := K) (fileClasses ls).card) = .ok (ls.map g) := by
      rw [List.mapM_map]
      exact mapM_ok _ g ls hg
    rw [hm]
    simp only [Outcome.ok_bind]
    rw [hw'] at hidx ⊢
    have hfill := fill_lines F (fileClasses ls).card w ls [] (List.replicate w 0)
      (fun l hl => (hv l hl).1) (fun l hl f hf => by have := hidx l hl f hf; omega)
    simp only [List.length_nil, List.nil_append] at hfill
    simp only [Int.toNat_natCast]
    rw [hfill]
    simp only [Outcome.ok_bind, Outcome.pure_eq]
    congr 3
    congr 1
    apply List.map_congr_left
    intro l hl
    exact setFeatures_eq F _ w l (hv l hl) (by unfold offset; split <;> omega)

theorem index_lt_width (ls : List (Line K)) (cols : ℕ) (hv : ∀ l ∈ ls, l.Valid) :
    ∀ l ∈ ls, ∀ f ∈ l.features, (f.1 : ℤ) ≤ fileWidth cols ls := by
  intro l hl f hf
  exact le_trans (feature_le_lineWidth l (hv l hl) f hf)
    (mem_le_foldl_max _ _ _ (List.mem_map_of_mem hl))

/-- **C14 (proved part, two classes).** For every well-formed file whose labels take exactly two values the
reader stays inside its matrices and returns one row per line: column `j` holds the value of feature
`j + 1`, the output column holds the labels. -/
theorem reader_two_classes_partial (F : NumFormat K) (ls : List (Line K)) (cols : ℕ) (hv : ∀ l ∈ ls, l.Valid)
    (hc : (fileClasses ls).card = 2) :
    load F (fileText F ls) cols = .ok ((ls.length : ℤ),
      { cols := (fileWidth cols ls).toNat
        rows := ls.map (fun l => (List.range (fileWidth cols ls).toNat).map (fun j => l.value F (j + 1))) },
      { cols := 1, rows := ls.map (fun l => [(l.label : K)]) }) := by
  have ho : ∀ l : Line K, (outRow (fileClasses ls).card l.label : Outcome (List K)) = .ok [(l.label : K)] := by
    intro l; simp [outRow, hc]
  obtain ⟨outs, h1, h2⟩ := load_fileText F ls cols hv (fun l _ => ⟨_, ho l⟩) (by
    intro l hl f hf
    have := index_lt_width ls cols hv l hl f hf
    simp only [offset, hc]
    norm_num
    omega)
  have : outs = ls.map (fun l => [(l.label : K)]) := by
    simp only [ho] at h1
    have h3 : (ls.map (fun l => [(l.label : K)])).map Outcome.ok = outs.map Outcome.ok := by
      rw [← h1, List.map_map]; rfl
    exact ((List.map_injective_iff.mpr (fun a b h => by simpa using h)) h3).symm
  rw [h2, this]
  simp [hc, offset]

/-- **C14 (proved part, more than two classes).** If there are `C > 2` different labels and they are all in
`1, ..., C`, the reader stays inside its matrices as well; the output matrix is one-of-C coded. -/
theorem reader_many_classes_partial (F : NumFormat K) (ls : List (Line K)) (cols : ℕ) (hv : ∀ l ∈ ls, l.Valid)
    (hc : 2 < (fileClasses ls).card) (hl : ∀ l ∈ ls, 1 ≤ l.label ∧ l.label ≤ (fileClasses ls).card) :
    load F (fileText F ls) cols = .ok ((ls.length : ℤ),
      { cols := (fileWidth cols ls).toNat
        rows := ls.map (fun l => (List.range (fileWidth cols ls).toNat).map (fun j => l.value F (j + 1))) },
      { cols := (fileClasses ls).card
        rows := ls.map (fun l => (List.range (fileClasses ls).card).map
          (fun k : ℕ => if (k : ℤ) + 1 = l.label then (1 : K) else 0)) }) := by
  have ho : ∀ l ∈ ls, (outRow (fileClasses ls).card l.label : Outcome (List K)) =
      .ok ((List.range (fileClasses ls).card).map
          (fun k : ℕ => if (k : ℤ) + 1 = l.label then (1 : K) else 0)) := by
    intro l hmem
    have := hl l hmem
    rw [outRow, if_pos hc, if_pos (by omega)]
    congr 1
    apply List.ext_getElem
    · simp
    · intro k h1 h2
      simp only [List.length_set, List.length_replicate] at h1
      rw [List.getElem_set]
      simp only [List.getElem_replicate, List.getElem_map, List.getElem_range]
      split <;> split <;> first | rfl | omega
  obtain ⟨outs, h1, h2⟩ := load_fileText F ls cols hv (fun l hl => ⟨_, ho l hl⟩) (by
    intro l hl f hf
    have := index_lt_width ls cols hv l hl f hf
    simp only [offset, show (fileClasses ls).card > 1 by omega, if_true]
    push_cast
    omega)
  have : outs = ls.map (fun l => (List.range (fileClasses ls).card).map
          (fun k : ℕ => if (k : ℤ) + 1 = l.label then (1 : K) else 0)) := by
    rw [List.map_congr_left ho] at h1
    have h3 : (ls.map (fun l => (List.range (fileClasses ls).card).map
          (fun k : ℕ => if (k : ℤ) + 1 = l.label then (1 : K) else 0))).map Outcome.ok = outs.map Outcome.ok := by
      rw [← h1, List.map_map]; rfl
    exact ((List.map_injective_iff.mpr (fun a b h => by simpa using h)) h3).symm
  rw [h2, this]
  simp [hc, offset, show 1 < (fileClasses ls).card by omega]

/-- **C14 is false for files with a single class**: a feature in the last column is written outside of the matrix. -/
theorem reader_one_class_ub (F : NumFormat K) (ls : List (Line K)) (cols : ℕ)
    (hc : (fileClasses ls).card ≤ 1)
    (hlast : ∃ l ∈ ls, ∃ f ∈ l.features, (f.1 : ℤ) = fileWidth cols ls) :
    load F (fileText F ls) cols = .ub := by
  obtain ⟨l, hl, f, hf, hw⟩ := hlast
  unfold load
  rw [preprocess_fileText]
  unfold finish
  simp only
  rw [if_neg (by omega)]
  have hm : (ls.map (fun l => l.label)).mapM (outRow (K := K) (fileClasses ls).card) =
      .ok (ls.map (fun l => [(l.label : K)])) := by
    rw [List.mapM_map]
    refine mapM_ok _ _ ls (fun a _ => ?_)
    simp [outRow, show ¬ (2 < (fileClasses ls).card) by omega]
  rw [hm]
  simp only [Outcome.ok_bind]
  rw [fill_ub F _ _ _ _ _ (featureText F f)
    (List.mem_flatMap.mpr ⟨l, hl, List.mem_append_left _ (List.mem_map_of_mem hf)⟩) (featureText_word F f).1]
  · rfl
  · rw [beforeColon_featureText, atoi_printInt, if_neg (by omega)]
    omega

/-- **C14 is false for files with a single class**: even when nothing is written outside, the columns are shifted by one:
column `j` holds feature `j` instead of `j + 1`. -/
theorem reader_one_class_shifted (F : NumFormat K) (ls : List (Line K)) (cols : ℕ) (hv : ∀ l ∈ ls, l.Valid)
    (hc : (fileClasses ls).card ≤ 1) (hlast : ∀ l ∈ ls, ∀ f ∈ l.features, (f.1 : ℤ) < fileWidth cols ls) :
    load F (fileText F ls) cols = .ok ((ls.length : ℤ),
      { cols := (fileWidth cols ls).toNat
        rows := ls.map (fun l => (List.range (fileWidth cols ls).toNat).map (fun j => l.value F j)) },
      { cols := 1, rows := ls.map (fun l => [(l.label : K)]) }) := by
  have ho : ∀ l : Line K, (outRow (fileClasses ls).card l.label : Outcome (List K)) = .ok [(l.label : K)] := by
    intro l; simp [outRow, show ¬ (2 < (fileClasses ls).card) by omega]
  obtain ⟨outs, h1, h2⟩ := load_fileText F ls cols hv (fun l _ => ⟨_, ho l⟩) (by
    intro l hl f hf
    have := hlast l hl f hf
    simp only [offset, show ¬ (fileClasses ls).card > 1 by omega, if_false]
    push_cast
    omega)
  have : outs = ls.map (fun l => [(l.label : K)]) := by
    simp only [ho] at h1
    have h3 : (ls.map (fun l => [(l.label : K)])).map Outcome.ok = outs.map Outcome.ok := by
      rw [← h1, List.map_map]; rfl
    exact ((List.map_injective_iff.mpr (fun a b h => by simpa using h)) h3).symm
  rw [h2, this]
  simp [show ¬ (2 < (fileClasses ls).card) by omega, show ¬ (1 < (fileClasses ls).card) by omega, offset]

/-- **C14 is false for more than two classes if some label is not in `1, ..., C`**: the target is written outside
of the output matrix. -/
theorem reader_many_classes_ub (F : NumFormat K) (ls : List (Line K)) (cols : ℕ)
    (hc : 2 < (fileClasses ls).card)
    (hl : ∃ l ∈ ls, l.label < 1 ∨ ((fileClasses ls).card : ℤ) < l.label) :
    load F (fileText F ls) cols = .ub := by
  obtain ⟨l, hl, hout⟩ := hl
  unfold load
  rw [preprocess_fileText]
  unfold finish
  simp only
  have hw : (0 : ℤ) ≤ fileWidth cols ls := le_trans (by omega) (le_foldl_max _ _)
  rw [if_neg (by omega), mapM_outRow_ub _ _ l.label (List.mem_map_of_mem hl)]
  · rfl
  · rw [outRow, if_pos hc, if_neg (by omega)]

/-! ## The writer -/

theorem saveFeatures_eq (F : NumFormat K) (j : ℕ) (xs : List K) :
    saveFeatures F j xs = (nonzeros j xs).flatMap (fun f => ' ' :: featureText F f) := by
  induction xs generalizing j with
  | nil => rfl
  | cons x xs ih =>
    rw [saveFeatures, nonzeros, ih]
    split <;> simp [featureText]

theorem saveRows_eq (F : NumFormat K) (cols : ℕ) (rows : List (List K)) (outs : List (List K)) (labels : List ℤ)
    (hlen : rows.length = labels.length) (h : outs.map (saveLabel F cols) = labels.map (fun y => .ok (printInt y))) :
    saveRows F cols rows outs = .ok (fileText F (datasetLines rows labels)) := by
  induction rows generalizing outs labels with
  | nil => cases labels with
    | nil => cases outs with
      | nil => rfl
      | cons o os => simp at h
    | cons y ys => simp at hlen
  | cons x xs ih =>
    cases labels with
    | nil => simp at hlen
    | cons y ys =>
      cases outs with
      | nil => simp at h
      | cons o os =>
        simp only [List.map_cons, List.cons.injEq] at h
        rw [saveRows, h.1, ih os ys (by simpa using hlen) h.2]
        simp [datasetLines, fileText, lineText, saveFeatures_eq]

theorem nonzeros_ge (j : ℕ) (xs : List K) : ∀ f ∈ nonzeros j xs, j + 1 ≤ f.1 ∧ f.1 ≤ j + xs.length ∧ f.2 ≠ 0 := by
  induction xs generalizing j with
  | nil => simp [nonzeros]
  | cons x xs ih =>
    intro f hf
    rw [nonzeros] at hf
    have key : f ∈ nonzeros (j + 1) xs → j + 1 ≤ f.1 ∧ f.1 ≤ j + (x :: xs).length ∧ f.2 ≠ 0 := by
      intro h
      have := ih (j + 1) f h
      simp only [List.length_cons]
      exact ⟨by omega, by omega, this.2.2⟩
    split at hf
    · rename_i hx
      rcases List.mem_cons.mp hf with rfl | h
      · exact ⟨le_refl _, by simp, hx⟩
      · exact key h
    · exact key hf

theorem nonzeros_pairwise (j : ℕ) (xs : List K) : (nonzeros j xs).Pairwise (fun a b => a.1 < b.1) := by
  induction xs generalizing j with
  | nil => simp [nonzeros]
  | cons x xs ih =>
    rw [nonzeros]
    split
    · rw [List.pairwise_cons]
      exact ⟨fun f hf => by have := nonzeros_ge (j + 1) xs f hf; simp only; omega, ih _⟩
    · exact ih _

theorem valid_nonzeros (x : List K) (y : ℤ) : (Line.mk y (nonzeros 0 x)).Valid :=
  ⟨fun f hf => by have := nonzeros_ge 0 x f hf; omega, nonzeros_pairwise 0 x⟩

theorem datasetLines_valid (rows : List (List K)) (labels : List ℤ) :
    ∀ l ∈ datasetLines rows labels, l.Valid := by
  intro l hl
  unfold datasetLines at hl
  obtain ⟨p, _, rfl⟩ := List.mem_map.mp hl
  exact valid_nonzeros _ _

theorem find?_nonzeros (F : NumFormat K) (j : ℕ) (xs : List K) (i : ℕ) (hi : i < xs.length) :
    (match (nonzeros j xs).find? (fun f => f.1 = j + i + 1) with
      | some f => F.round f.2
      | none => 0) = F.round xs[i] := by
  induction xs generalizing j i with
  | nil => simp at hi
  | cons x xs ih =>
    cases i with
    | zero =>
      rw [nonzeros]
      by_cases hx : x = 0
      swap
      · simp [hx]
      · have hn : (nonzeros (j + 1) xs).find? (fun f => f.1 = j + 0 + 1) = none := by
          rw [List.find?_eq_none]
          intro f hf
          have := nonzeros_ge (j + 1) xs f hf
          simp only [decide_eq_true_eq]
          omega
        simp only [Nat.add_zero] at hn
        simp [hx, F.round_zero, hn]
    | succ i =>
      have h := ih (j + 1) i (by simpa using hi)
      have e : j + 1 + i + 1 = j + (i + 1) + 1 := by omega
      rw [e] at h
      simp only [List.getElem_cons_succ]
      rw [← h, nonzeros]
      by_cases hx : x = 0
      · simp [hx]
      · rw [if_pos hx, List.find?_cons_of_neg]
        simp only [decide_eq_true_eq]
        omega

theorem value_nonzeros (F : NumFormat K) (x : List K) (y : ℤ) :
    (List.range x.length).map (fun j => (Line.mk y (nonzeros 0 x)).value F (j + 1)) = x.map F.round := by
  apply List.ext_getElem
  · simp
  · intro i h1 h2
    simp only [List.length_map, List.length_range] at h1
    have := find?_nonzeros F 0 x i h1
    simp only [List.getElem_map, List.getElem_range, Line.value]
    rw [Nat.zero_add] at this
    exact this

theorem labels_datasetLines (rows : List (List K)) (labels : List ℤ) (hlen : rows.length = labels.length) :
    (datasetLines rows labels).map (fun l => l.label) = labels := by
  induction rows generalizing labels with
  | nil => cases labels with
    | nil => rfl
    | cons y ys => simp at hlen
  | cons x xs ih => cases labels with
    | nil => simp at hlen
    | cons y ys =>
      have := ih ys (by simpa using hlen)
      simp only [datasetLines] at this ⊢
      simp [this]

theorem nonzeros_eq_nil (j : ℕ) (xs : List K) : nonzeros j xs = [] ↔ ∀ x ∈ xs, x = 0 := by
  induction xs generalizing j with
  | nil => simp [nonzeros]
  | cons x xs ih =>
    rw [nonzeros]
    split
    · rename_i h; simp [h]
    · rename_i h
      simp only [ne_eq, not_not] at h
      simp [ih, h]

theorem width_datasetLines (rows : List (List K)) (labels : List ℤ) (cols : ℕ)
    (hwf : ∀ r ∈ rows, r.length = cols)
    (hzero : ∀ p ∈ List.zip rows labels, (∀ x ∈ p.1, x = 0) → p.2 ≤ (cols : ℤ)) :
    fileWidth cols (datasetLines rows labels) = cols := by
  apply le_antisymm
  · apply foldl_max_le _ _ _ (le_refl _)
    intro a ha
    obtain ⟨l, hl, rfl⟩ := List.mem_map.mp ha
    unfold datasetLines at hl
    obtain ⟨p, hp, rfl⟩ := List.mem_map.mp hl
    unfold lineWidth
    simp only
    cases h : (nonzeros 0 p.1).getLast? with
    | none =>
      rw [List.getLast?_eq_none_iff, nonzeros_eq_nil] at h
      exact hzero p hp h
    | some f =>
      have hf := List.mem_of_getLast? h
      have := (nonzeros_ge 0 p.1 f hf).2.1
      have hr := hwf p.1 (List.of_mem_zip hp).1
      simp only
      omega
  · exact le_foldl_max _ _

theorem rows_datasetLines (F : NumFormat K) (rows : List (List K)) (labels : List ℤ) (cols : ℕ)
    (hlen : rows.length = labels.length) (hwf : ∀ r ∈ rows, r.length = cols) :
    (datasetLines rows labels).map (fun l => (List.range cols).map (fun j => l.value F (j + 1))) =
      rows.map (·.map F.round) := by
  induction rows generalizing labels with
  | nil => rfl
  | cons x xs ih => cases labels with
    | nil => simp at hlen
    | cons y ys =>
      have h1 := ih ys (by simpa using hlen) (fun r hr => hwf r (by simp [hr]))
      have h2 := value_nonzeros F x y
      rw [hwf x (by simp)] at h2
      simp only [datasetLines, List.zip_cons_cons, List.map_cons, List.cons.injEq] at h1 ⊢
      exact ⟨h2, h1⟩

theorem length_datasetLines (rows : List (List K)) (labels : List ℤ) (hlen : rows.length = labels.length) :
    (datasetLines rows labels).length = labels.length := by
  simp [datasetLines, hlen]

/-- **C13 (proved part).** Inputs of any shape and labels (integers with at most six digits, printed
exactly) that take exactly two different values: the file written by the writer, loaded with the number of inputs as minimal width,
gives back the same labels and, at every position, the number that the printed text denotes.  (An instance whose inputs
are all zero must not have a label that exceeds the number of inputs, see `lineWidth`.) -/
theorem libsvm_round_trip_partial (F : NumFormat K) (input : Mat K) (labels : List ℤ) (hwf : input.WF)
    (hlen : input.rows.length = labels.length) (hsmall : ∀ y ∈ labels, y.natAbs < 1000000)
    (hc : labels.toFinset.card = 2)
    (hzero : ∀ p ∈ List.zip input.rows labels, (∀ x ∈ p.1, x = 0) → p.2 ≤ (input.cols : ℤ)) :
    ∃ text, save F input { cols := 1, rows := labels.map (fun y : ℤ => [(y : K)]) } = .ok text ∧
      load F text input.cols = .ok ((input.rows.length : ℤ),
        { cols := input.cols, rows := input.rows.map (·.map F.round) },
        { cols := 1, rows := labels.map (fun y : ℤ => [(y : K)]) }) := by
  refine ⟨fileText F (datasetLines input.rows labels), ?_, ?_⟩
  · rw [save, Outcome.check_true (by simpa using hlen)]
    simp only [Outcome.ok_bind]
    apply saveRows_eq F _ _ _ _ hlen
    rw [List.map_map]
    apply List.map_congr_left
    intro y hy
    simp [saveLabel, F.fmt_int y (hsmall y hy)]
  · have hcl : (fileClasses (datasetLines input.rows labels)).card = 2 := by
      rw [fileClasses, labels_datasetLines _ _ hlen, hc]
    rw [reader_two_classes_partial F _ _ (datasetLines_valid _ _) hcl,
      width_datasetLines _ _ _ hwf hzero, Int.toNat_natCast, rows_datasetLines F _ _ _ hlen hwf,
      length_datasetLines _ _ hlen, hlen]
    have : (datasetLines input.rows labels).map (fun l => [(l.label : K)]) =
        ((datasetLines input.rows labels).map (fun l => l.label)).map (fun y : ℤ => [(y : K)]) := by
      rw [List.map_map]; rfl
    rw [this, labels_datasetLines _ _ hlen]

/-- **C13 is false for a single class**: all labels equal, and some instance has a non-zero last input. -/
theorem libsvm_one_class_ub (F : NumFormat K) (input : Mat K) (labels : List ℤ) (hwf : input.WF)
    (hlen : input.rows.length = labels.length) (hsmall : ∀ y ∈ labels, y.natAbs < 1000000)
    (hc : labels.toFinset.card = 1)
    (hzero : ∀ p ∈ List.zip input.rows labels, (∀ x ∈ p.1, x = 0) → p.2 ≤ (input.cols : ℤ))
    (hlast : ∃ r ∈ input.rows, ∃ x, r.getLast? = some x ∧ x ≠ 0) :
    ∃ text, save F input { cols := 1, rows := labels.map (fun y : ℤ => [(y : K)]) } = .ok text ∧
      load F text input.cols = .ub := by
  refine ⟨fileText F (datasetLines input.rows labels), ?_, ?_⟩
  · rw [save, Outcome.check_true (by simpa using hlen)]
    simp only [Outcome.ok_bind]
    apply saveRows_eq F _ _ _ _ hlen
    rw [List.map_map]
    apply List.map_congr_left
    intro y hy
    simp [saveLabel, F.fmt_int y (hsmall y hy)]
  · apply reader_one_class_ub
    · rw [fileClasses, labels_datasetLines _ _ hlen, hc]
    · obtain ⟨r, hr, x, hx, hx0⟩ := hlast
      rw [width_datasetLines _ _ _ hwf hzero]
      obtain ⟨i, hi, rfl⟩ := List.mem_iff_getElem.mp hr
      refine ⟨⟨labels[i]'(hlen ▸ hi), nonzeros 0 input.rows[i]⟩, ?_, (input.cols, x), ?_, rfl⟩
      · unfold datasetLines
        rw [List.mem_iff_getElem]
        exact ⟨i, by simp [← hlen, hi], by simp⟩
      · have hrl := hwf _ hr
        have : ∀ (j : ℕ) (xs : List K) (x : K), xs.getLast? = some x → x ≠ 0 →
            (j + xs.length, x) ∈ nonzeros j xs := by
          intro j xs
          induction xs generalizing j with
          | nil => simp
          | cons a as ih =>
            intro x hx hx0
            rw [nonzeros]
            cases as with
            | nil =>
              simp only [List.getLast?_singleton, Option.some.injEq] at hx
              subst hx
              simp [hx0]
            | cons b bs =>
              rw [List.getLast?_cons_cons] at hx
              have := ih (j + 1) x hx hx0
              have e : j + 1 + (b :: bs).length = j + (a :: b :: bs).length := by simp; omega
              rw [e] at this
              split
              · exact List.mem_cons_of_mem _ this
              · exact this
        have := this 0 _ x hx hx0
        rw [hrl, Nat.zero_add] at this
        exact this

theorem toFinset_map_cast (l : List ℕ) :
    (l.map (fun n : ℕ => (n : ℤ))).toFinset = l.toFinset.image (fun n : ℕ => (n : ℤ)) := by
  ext z; simp

/-- **C13 is false for one-of-c targets with more than two classes**: the writer numbers the classes from 0, the reader
from 1, and an instance of the first class is written outside of the output matrix. -/
theorem libsvm_one_of_c_ub (F : NumFormat K) (input output : Mat K) (hcols : 1 < output.cols)
    (hlen : input.rows.length = output.rows.length)
    (hc : 2 < (output.rows.map argmax).toFinset.card) (h0 : 0 ∈ output.rows.map argmax) (cols : ℕ) :
    ∃ text, save F input output = .ok text ∧ load F text cols = .ub := by
  have hl : input.rows.length = (output.rows.map (fun r => (argmax r : ℤ))).length := by simpa using hlen
  refine ⟨fileText F (datasetLines input.rows (output.rows.map (fun r => (argmax r : ℤ)))), ?_, ?_⟩
  · rw [save, Outcome.check_true hlen]
    simp only [Outcome.ok_bind]
    apply saveRows_eq F _ _ _ _ hl
    rw [List.map_map]
    apply List.map_congr_left
    intro y hy
    simp [saveLabel, hcols]
  · have hcard : (fileClasses (datasetLines input.rows (output.rows.map (fun r => (argmax r : ℤ))))).card =
        (output.rows.map argmax).toFinset.card := by
      rw [fileClasses, labels_datasetLines _ _ hl]
      have : output.rows.map (fun r => (argmax r : ℤ)) = (output.rows.map argmax).map (fun n : ℕ => (n : ℤ)) := by
        rw [List.map_map]; rfl
      rw [this, toFinset_map_cast, Finset.card_image_of_injective _ (fun a b h => by simpa using h)]
    apply reader_many_classes_ub
    · rw [hcard]; exact hc
    · obtain ⟨r, hr, hr0⟩ := List.mem_map.mp h0
      have : (0 : ℤ) ∈ (datasetLines input.rows (output.rows.map (fun r => (argmax r : ℤ)))).map (fun l => l.label) := by
        rw [labels_datasetLines _ _ hl]
        exact List.mem_map.mpr ⟨r, hr, by simp [hr0]⟩
      obtain ⟨l, hl', hl0⟩ := List.mem_map.mp this
      exact ⟨l, hl', Or.inl (by omega)⟩

/-- **C13 is false for one-of-two targets**: a single column with the class numbers comes back. -/
theorem libsvm_one_of_two_fails (F : NumFormat K) (input output : Mat K) (hcols : output.cols = 2)
    (hwf : input.WF) (hlen : input.rows.length = output.rows.length)
    (hc : (output.rows.map argmax).toFinset.card = 2)
    (hpos : 1 ≤ input.cols) (harg : ∀ r ∈ output.rows, argmax r ≤ 1) :
    ∃ text, save F input output = .ok text ∧
      load F text input.cols = .ok ((input.rows.length : ℤ),
        { cols := input.cols, rows := input.rows.map (·.map F.round) },
        { cols := 1, rows := output.rows.map (fun r => [((argmax r : ℤ) : K)]) }) := by
  have hl : input.rows.length = (output.rows.map (fun r => (argmax r : ℤ))).length := by simpa using hlen
  refine ⟨fileText F (datasetLines input.rows (output.rows.map (fun r => (argmax r : ℤ)))), ?_, ?_⟩
  · rw [save, Outcome.check_true hlen]
    simp only [Outcome.ok_bind]
    apply saveRows_eq F _ _ _ _ hl
    rw [List.map_map]
    apply List.map_congr_left
    intro y hy
    simp [saveLabel, hcols]
  · have hcard : (fileClasses (datasetLines input.rows (output.rows.map (fun r => (argmax r : ℤ))))).card = 2 := by
      rw [fileClasses, labels_datasetLines _ _ hl]
      have : output.rows.map (fun r => (argmax r : ℤ)) = (output.rows.map argmax).map (fun n : ℕ => (n : ℤ)) := by
        rw [List.map_map]; rfl
      rw [this, toFinset_map_cast, Finset.card_image_of_injective _ (fun a b h => by simpa using h), hc]
    rw [reader_two_classes_partial F _ _ (datasetLines_valid _ _) hcard, width_datasetLines _ _ _ hwf,
      Int.toNat_natCast, rows_datasetLines F _ _ _ hl hwf, length_datasetLines _ _ hl, ← hl]
    · have : (datasetLines input.rows (output.rows.map (fun r => (argmax r : ℤ)))).map (fun l => [(l.label : K)]) =
          ((datasetLines input.rows (output.rows.map (fun r => (argmax r : ℤ)))).map (fun l => l.label)).map
            (fun y : ℤ => [(y : K)]) := by
        rw [List.map_map]; rfl
      rw [this, labels_datasetLines _ _ hl, List.map_map]
      rfl
    · intro p hp _
      have := (List.of_mem_zip hp).2
      obtain ⟨r, hr, hre⟩ := List.mem_map.mp this
      have := harg r hr
      omega

/-! ## The hypotheses can be met -/

example : ∃ text, save intFormat ⟨3, [[0, 7, 0], [2, 0, -5]]⟩ ⟨1, [[1], [-1]]⟩ = .ok text ∧
    load intFormat text 3 = .ok (2, ⟨3, [[0, 7, 0], [2, 0, -5]]⟩, ⟨1, [[1], [-1]]⟩) :=
  libsvm_round_trip_partial intFormat ⟨3, [[0, 7, 0], [2, 0, -5]]⟩ [1, -1] (by simp [Mat.WF]) rfl
    (by decide) (by decide) (by simp)

example : ∃ text, save intFormat ⟨2, [[1, 2]]⟩ ⟨1, [[1]]⟩ = .ok text ∧ load intFormat text 2 = .ub :=
  libsvm_one_class_ub intFormat ⟨2, [[1, 2]]⟩ [1] (by simp [Mat.WF]) rfl (by decide) (by decide) (by simp)
    ⟨[1, 2], by simp, 2, rfl, by decide⟩

example : ∃ text, save intFormat ⟨1, [[1], [2], [3]]⟩ ⟨3, [[1, 0, 0], [0, 1, 0], [0, 0, 1]]⟩ = .ok text ∧
    load intFormat text 0 = .ub :=
  libsvm_one_of_c_ub intFormat ⟨1, [[1], [2], [3]]⟩ ⟨3, [[1, 0, 0], [0, 1, 0], [0, 0, 1]]⟩ (by decide) rfl
    (by decide) (by decide) 0

example : ∃ text, save intFormat ⟨1, [[1], [2]]⟩ ⟨2, [[1, 0], [0, 1]]⟩ = .ok text ∧
    load intFormat text 1 = .ok (2, ⟨1, [[1], [2]]⟩, ⟨1, [[0], [1]]⟩) :=
  libsvm_one_of_two_fails intFormat ⟨1, [[1], [2]]⟩ ⟨2, [[1, 0], [0, 1]]⟩ rfl (by simp [Mat.WF]) rfl (by decide)
    (by decide) (by decide)

/-- Three classes with labels 1, 2, 3. -/
example : load intFormat (fileText intFormat [⟨1, [(1, 5)]⟩, ⟨3, [(2, 6)]⟩, ⟨2, []⟩]) 0 =
    .ok (3, ⟨2, [[5, 0], [0, 6], [0, 0]]⟩, ⟨3, [[1, 0, 0], [0, 0, 1], [0, 1, 0]]⟩) :=
  reader_many_classes_partial intFormat [⟨1, [(1, 5)]⟩, ⟨3, [(2, 6)]⟩, ⟨2, []⟩] 0
    (by simp [Line.Valid]) (by decide) (by decide)

/-- Labels 0, 1, 2 (as in many data sets) cannot be read. -/
example : load intFormat (fileText intFormat [⟨1, [(1, 5)]⟩, ⟨0, [(2, 6)]⟩, ⟨2, []⟩]) 0 = .ub :=
  reader_many_classes_ub intFormat [⟨1, [(1, 5)]⟩, ⟨0, [(2, 6)]⟩, ⟨2, []⟩] 0 (by decide)
    ⟨⟨0, [(2, 6)]⟩, by simp, Or.inl (by decide)⟩

/-- A single class with more columns than needed: shifted. -/
example : load intFormat (fileText intFormat [⟨1, [(1, 5)]⟩]) 3 = .ok (1, ⟨3, [[0, 5, 0]]⟩, ⟨1, [[1]]⟩) :=
  reader_one_class_shifted intFormat [⟨1, [(1, 5)]⟩] 3 (by simp [Line.Valid]) (by decide) (by simp; decide)

end Verif.LibSVM
