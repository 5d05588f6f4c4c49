import Verif.Model.LibSVM
import Verif.Spec.LibSVM
import Verif.Lemmas.Text

/-! Lemmas about the LibSVM reader and writer. -/

set_option linter.unusedSectionVars false

namespace Verif.LibSVM

open Verif.Text

variable {K : Type} [IntCast K] [Zero K] [One K] [LinearOrder K]

theorem words_nil : words [] = [] := by
  unfold words; rfl

theorem words_blank (l : List Char) : words (' ' :: l) = words l := by
  have h : (' ' :: l).dropWhile isSpace = l.dropWhile isSpace := by
    simp [isSpace_blank]
  conv_lhs => unfold words
  conv_rhs => unfold words
  split <;> rename_i h1 <;> rw [h] at h1
  · split
    · rfl
    · rename_i h2; rw [h1] at h2; simp at h2
  · split
    · rename_i h2; rw [h1] at h2; simp at h2
    · rename_i h2; rw [h1] at h2; cases h2; rfl

theorem words_word (w rest : List Char) (hne : w ≠ []) (hw : ∀ c ∈ w, isSpace c = false)
    (hr : ∀ c ∈ rest.head?, isSpace c = true) : words (w ++ rest) = w :: words rest := by
  have hd := dropWhile_isSpace_of_no_space (rest := rest) hne hw
  have h1 : (w ++ rest).takeWhile (fun c => !isSpace c) = w := by
    rw [List.takeWhile_append_of_pos (by intro a ha; simp [hw a ha])]
    cases rest with
    | nil => simp
    | cons c cs => simp [hr c (by simp)]
  have h2 : (w ++ rest).dropWhile (fun c => !isSpace c) = rest := by
    rw [List.dropWhile_append_of_pos (by intro a ha; simp [hw a ha])]
    cases rest with
    | nil => simp
    | cons c cs => simp [hr c (by simp)]
  conv_lhs => unfold words
  split
  · rename_i h; rw [hd] at h; simp at h; exact absurd h.1 hne
  · rename_i c cs h
    rw [hd] at h
    rw [← h, h1, h2]

theorem words_list (ts : List (List Char)) (h : ∀ t ∈ ts, t ≠ [] ∧ ∀ c ∈ t, isSpace c = false) :
    words (ts.flatMap (fun t => ' ' :: t)) = ts := by
  induction ts with
  | nil => exact words_nil
  | cons t ts ih =>
    have ht := h t (by simp)
    rw [List.flatMap_cons, List.cons_append, words_blank, words_word t _ ht.1 ht.2, ih (fun u hu => h u (by simp [hu]))]
    intro c hc
    cases ts with
    | nil => simp at hc
    | cons u us => simp at hc; subst hc; exact isSpace_blank

theorem buffers_nil : buffers [] = [[]] := by
  unfold buffers; rfl

theorem buffers_line (l rest : List Char) (h : ∀ c ∈ l, c ≠ '\n') :
    buffers (l ++ '\n' :: rest) = l :: buffers rest := by
  have h1 : (l ++ '\n' :: rest).takeWhile (fun c => decide (c ≠ '\n')) = l := by
    rw [List.takeWhile_append_of_pos (by intro a ha; simpa using h a ha)]
    simp
  have h2 : (l ++ '\n' :: rest).dropWhile (fun c => decide (c ≠ '\n')) = '\n' :: rest := by
    rw [List.dropWhile_append_of_pos (by intro a ha; simpa using h a ha)]
    simp
  conv_lhs => unfold buffers
  split
  · rename_i h3; rw [h2] at h3; simp at h3
  · rename_i c r h3
    rw [h2] at h3
    cases h3
    rw [h1]

theorem colon_not_space : isSpace ':' = false := by decide

theorem featureText_word (F : NumFormat K) (f : ℕ × K) :
    featureText F f ≠ [] ∧ ∀ c ∈ featureText F f, isSpace c = false := by
  refine ⟨by simp [featureText], ?_⟩
  intro c hc
  rcases List.mem_append.mp hc with h | h
  · exact printInt_no_space _ c h
  · rcases List.mem_cons.mp h with rfl | h
    · exact colon_not_space
    · exact F.fmt_no_space _ c h

theorem words_lineText (F : NumFormat K) (l : Line K) :
    words (lineText F l) = printInt l.label :: l.features.map (featureText F) := by
  have e : l.features.flatMap (fun f => ' ' :: featureText F f) =
      (l.features.map (featureText F)).flatMap (fun t => ' ' :: t) := by
    rw [List.flatMap_map]
  rw [lineText, words_word _ _ (printInt_ne_nil _) (printInt_no_space _), e, words_list]
  · intro t ht
    obtain ⟨f, _, rfl⟩ := List.mem_map.mp ht
    exact featureText_word F f
  · intro c hc
    cases hf : l.features with
    | nil => rw [hf] at hc; simp at hc
    | cons u us => rw [hf] at hc; simp at hc; subst hc; exact isSpace_blank

theorem lineText_no_newline (F : NumFormat K) (l : Line K) : ∀ c ∈ lineText F l, c ≠ '\n' := by
  have key : ∀ c, isSpace c = false → c ≠ '\n' := by
    rintro c h rfl; simp [isSpace_newline] at h
  intro c hc
  rcases List.mem_append.mp hc with h | h
  · exact key c (printInt_no_space _ c h)
  · obtain ⟨f, _, h⟩ := List.mem_flatMap.mp h
    rcases List.mem_cons.mp h with rfl | h
    · decide
    · exact key c ((featureText_word F f).2 c h)

theorem buffers_fileText (F : NumFormat K) (ls : List (Line K)) :
    buffers (fileText F ls) = ls.map (lineText F) ++ [[]] := by
  induction ls with
  | nil => exact buffers_nil
  | cons l ls ih =>
    have : fileText F (l :: ls) = lineText F l ++ '\n' :: fileText F ls := by simp [fileText]
    rw [this, buffers_line _ _ (lineText_no_newline F l), ih]
    simp

theorem digit_ne_colon {c : Char} (h : isDigit c = true) : c ≠ ':' := by
  rintro rfl; revert h; decide

theorem printInt_no_colon (z : ℤ) : ∀ c ∈ printInt z, c ≠ ':' := by
  intro c hc
  unfold printInt at hc
  split at hc
  · rcases List.mem_cons.mp hc with rfl | h
    · decide
    · exact digit_ne_colon (printNat_digits _ c h)
  · exact digit_ne_colon (printNat_digits _ c hc)

theorem beforeColon_featureText (F : NumFormat K) (f : ℕ × K) :
    beforeColon (featureText F f) = printInt f.1 := by
  unfold beforeColon featureText
  rw [List.takeWhile_append_of_pos (by intro a ha; simpa using printInt_no_colon _ a ha)]
  simp

theorem afterColon_featureText (F : NumFormat K) (f : ℕ × K) :
    afterColon (featureText F f) = F.fmt f.2 := by
  have : (featureText F f).dropWhile (fun c => decide (c ≠ ':')) = ':' :: F.fmt f.2 := by
    unfold featureText
    rw [List.dropWhile_append_of_pos (by intro a ha; simpa using printInt_no_colon _ a ha)]
    simp
  unfold afterColon
  rw [this]

theorem beforeColon_printInt (z : ℤ) : beforeColon (printInt z) = printInt z := by
  have h := List.takeWhile_append_of_pos (p := fun c => decide (c ≠ ':')) (l₁ := printInt z) (l₂ := [])
    (by intro a ha; simpa using printInt_no_colon _ a ha)
  simpa [beforeColon] using h

theorem line_lineText (F : NumFormat K) (st : Pre) (l : Line K) :
    Pre.line st (lineText F l) =
      { features := st.features ++ l.features.map (featureText F) ++ [[]]
        targets := st.targets ++ [l.label]
        classes := insert l.label st.classes
        width := max st.width (lineWidth l)
        instances := st.instances + 1 } := by
  have hw := words_lineText F l
  unfold Pre.line
  split
  · rename_i h; rw [hw] at h; simp at h
  · rename_i first more h
    rw [hw] at h
    cases h
    have hl : atoi (beforeColon ((printInt l.label :: l.features.map (featureText F)).getLast (by simp))) =
        lineWidth l := by
      cases hf : l.features using List.reverseRecOn with
      | nil => simp [lineWidth, hf, beforeColon_printInt, atoi_printInt]
      | append_singleton fs f _ =>
        simp [lineWidth, hf, beforeColon_featureText, atoi_printInt]
    rw [atoi_printInt]
    simp only [hl]

theorem line_empty (st : Pre) : Pre.line st [] = st := by
  unfold Pre.line
  split
  · rfl
  · rename_i h; rw [words_nil] at h; simp at h

theorem foldl_lines (F : NumFormat K) (st : Pre) (ls : List (Line K)) :
    (ls.map (lineText F)).foldl Pre.line st =
      { features := st.features ++ ls.flatMap (fun l => l.features.map (featureText F) ++ [[]])
        targets := st.targets ++ ls.map (·.label)
        classes := st.classes ∪ (ls.map (·.label)).toFinset
        width := (ls.map lineWidth).foldl max st.width
        instances := st.instances + ls.length } := by
  induction ls generalizing st with
  | nil => simp
  | cons l ls ih =>
    rw [List.map_cons, List.foldl_cons, line_lineText, ih]
    simp only [List.append_assoc, List.flatMap_cons, List.map_cons, List.cons_append, List.nil_append,
      List.foldl_cons, List.length_cons, List.toFinset_cons, Pre.mk.injEq, true_and]
    refine ⟨?_, by omega⟩
    ext z; simp

/-- The state after the first pass over a well-formed file. -/
theorem preprocess_fileText (F : NumFormat K) (ls : List (Line K)) (cols : ℤ) :
    (buffers (fileText F ls)).foldl Pre.line { width := cols } =
      { features := ls.flatMap (fun l => l.features.map (featureText F) ++ [[]])
        targets := ls.map (·.label)
        classes := fileClasses ls
        width := fileWidth cols ls
        instances := ls.length } := by
  unfold fileWidth fileClasses
  rw [buffers_fileText, List.foldl_append, foldl_lines]
  simp [line_empty]

/-! ### Second pass -/

/-- What one line does to its row. -/
def setFeatures (F : NumFormat K) (off : ℕ) (r : List K) (fs : List (ℕ × K)) : List K :=
  fs.foldl (fun r f => r.set (f.1 - off) (F.round f.2)) r

/-- Offset between indices in the file and columns. -/
def offset (classes : ℕ) : ℕ := if classes > 1 then 1 else 0

theorem fill_features (F : NumFormat K) (classes cols row : ℕ) (fs : List (ℕ × K)) (toks : List (List Char))
    (m : List (List K)) (hrow : row < m.length) (h1 : ∀ f ∈ fs, 1 ≤ f.1)
    (h2 : ∀ f ∈ fs, f.1 < cols + offset classes) :
    fill F classes cols (fs.map (featureText F) ++ toks) row m =
      fill F classes cols toks row (m.modify row (fun r => setFeatures F (offset classes) r fs)) := by
  induction fs generalizing m with
  | nil =>
    simp only [List.map_nil, List.nil_append, setFeatures, List.foldl_nil]
    congr 1
    exact (List.modify_id _ _).symm
  | cons f fs ih =>
    have ha := h1 f (by simp)
    have hb := h2 f (by simp)
    have e : (if classes > 1 then atoi (beforeColon (featureText F f)) - 1 else atoi (beforeColon (featureText F f)))
        = ((f.1 - offset classes : ℕ) : ℤ) := by
      rw [beforeColon_featureText, atoi_printInt]
      unfold offset
      split <;> omega
    have hc : f.1 - offset classes < cols := by
      unfold offset at hb ⊢
      split at hb <;> simp_all <;> omega
    rw [List.map_cons, List.cons_append, fill, if_neg (featureText_word F f).1]
    simp only
    rw [e, afterColon_featureText, F.atof_fmt, writeAt, if_pos ⟨hrow, by omega, by exact_mod_cast hc⟩]
    simp only [Outcome.ok_bind, Int.toNat_natCast]
    rw [ih _ (by simpa using hrow) (fun g hg => h1 g (by simp [hg])) (fun g hg => h2 g (by simp [hg]))]
    rw [List.modify_modify_eq]
    rfl

theorem modify_append_cons {α : Type} (l : List α) (x : α) (r : List α) (f : α → α) :
    (l ++ x :: r).modify l.length f = l ++ f x :: r := by
  induction l with
  | nil => simp
  | cons a l ih => simp [ih]

theorem fill_lines (F : NumFormat K) (classes cols : ℕ) (ls : List (Line K)) (fin : List (List K)) (z : List K)
    (h1 : ∀ l ∈ ls, ∀ f ∈ l.features, 1 ≤ f.1)
    (h2 : ∀ l ∈ ls, ∀ f ∈ l.features, f.1 < cols + offset classes) :
    fill F classes cols (ls.flatMap (fun l => l.features.map (featureText F) ++ [[]])) fin.length
        (fin ++ List.replicate ls.length z) =
      .ok (fin ++ ls.map (fun l => setFeatures F (offset classes) z l.features)) := by
  induction ls generalizing fin with
  | nil => simp [fill]
  | cons l ls ih =>
    rw [List.flatMap_cons, List.append_assoc, fill_features F classes cols _ _ _ _ (by simp)
      (h1 l (by simp)) (h2 l (by simp))]
    rw [List.length_cons, List.replicate_succ, modify_append_cons]
    rw [List.singleton_append, fill, if_pos rfl]
    have := ih (fin ++ [setFeatures F (offset classes) z l.features])
      (fun l hl => h1 l (by simp [hl])) (fun l hl => h2 l (by simp [hl]))
    simp only [List.length_append, List.length_cons, List.length_nil, List.append_assoc, List.cons_append,
      List.nil_append] at this
    rw [show fin.length + 1 = fin.length + (0 + 1) by omega, this]
    simp

theorem length_setFeatures (F : NumFormat K) (off : ℕ) (r : List K) (fs : List (ℕ × K)) :
    (setFeatures F off r fs).length = r.length := by
  induction fs generalizing r with
  | nil => rfl
  | cons f fs ih =>
    have := ih (r.set (f.1 - off) (F.round f.2))
    simp only [setFeatures, List.foldl_cons] at this ⊢
    rw [this]; simp

theorem getElem?_setFeatures_of_not_mem (F : NumFormat K) (off : ℕ) (r : List K) (fs : List (ℕ × K)) (j : ℕ)
    (h : ∀ f ∈ fs, f.1 - off ≠ j) : (setFeatures F off r fs)[j]? = r[j]? := by
  induction fs generalizing r with
  | nil => rfl
  | cons f fs ih =>
    have h' := ih (r.set (f.1 - off) (F.round f.2)) (fun g hg => h g (by simp [hg]))
    simp only [setFeatures, List.foldl_cons] at h' ⊢
    rw [h', List.getElem?_set_ne (h f (by simp))]

theorem getElem?_setFeatures (F : NumFormat K) (off : ℕ) (n : ℕ) (l : Line K) (hv : l.Valid) (hoff : off ≤ 1)
    (j : ℕ) (hj : j < n) :
    (setFeatures F off (List.replicate n 0) l.features)[j]? = some (l.value F (j + off)) := by
  obtain ⟨h1, h2⟩ := hv
  unfold Line.value
  generalize hr : List.replicate n (0 : K) = r
  have hlen : r.length = n := by simp [← hr]
  have hz : r[j]? = some 0 := by simp [← hr, hj]
  clear hr
  induction hfs : l.features generalizing l r with
  | nil => simp [setFeatures, hz]
  | cons f fs ih =>
    rw [hfs] at h1 h2
    rw [List.pairwise_cons] at h2
    by_cases hf : f.1 = j + off
    · have hnot : ∀ g ∈ fs, g.1 - off ≠ j := by
        intro g hg
        have := h2.1 g hg
        omega
      have := getElem?_setFeatures_of_not_mem F off (r.set (f.1 - off) (F.round f.2)) fs j hnot
      simp only [setFeatures, List.foldl_cons] at this ⊢
      rw [this]
      have e : f.1 - off = j := by omega
      rw [e, List.getElem?_set_self (by omega)]
      simp [hf]
    · have hne : f.1 - off ≠ j := by have := h1 f (by simp); omega
      have := ih { l with features := fs } (fun g hg => h1 g (by simp [show g ∈ fs from hg])) h2.2 (r.set (f.1 - off) (F.round f.2))
        (by simp [hlen]) (by rw [List.getElem?_set_ne hne, hz]) rfl
      simp only [setFeatures, List.foldl_cons] at this ⊢
      rw [this]
      simp [hf]

theorem setFeatures_eq (F : NumFormat K) (off : ℕ) (n : ℕ) (l : Line K) (hv : l.Valid) (hoff : off ≤ 1) :
    setFeatures F off (List.replicate n 0) l.features = (List.range n).map (fun j => l.value F (j + off)) := by
  apply List.ext_getElem?
  intro j
  by_cases hj : j < n
  · rw [getElem?_setFeatures F off n l hv hoff j hj]
    simp [hj]
  · rw [List.getElem?_eq_none (by rw [length_setFeatures]; simpa using hj), List.getElem?_eq_none (by simpa using hj)]

/-- An index outside of the matrix makes the second pass undefined. -/
theorem fill_ub (F : NumFormat K) (classes cols : ℕ) (toks : List (List Char)) (row : ℕ) (m : List (List K))
    (tok : List Char) (hmem : tok ∈ toks) (hne : tok ≠ [])
    (hout : (if classes > 1 then atoi (beforeColon tok) - 1 else atoi (beforeColon tok)) < 0 ∨
      (cols : ℤ) ≤ (if classes > 1 then atoi (beforeColon tok) - 1 else atoi (beforeColon tok))) :
    fill F classes cols toks row m = .ub := by
  induction toks generalizing row m with
  | nil => simp at hmem
  | cons t ts ih =>
    rw [fill]
    by_cases ht : t = []
    · rw [if_pos ht]
      refine ih _ _ ?_
      rcases List.mem_cons.mp hmem with h | h
      · exact absurd (h.trans ht) hne
      · exact h
    · rw [if_neg ht]
      simp only
      rcases List.mem_cons.mp hmem with h | h
      · subst h
        rw [writeAt, if_neg (by omega)]
        rfl
      · generalize (if classes > 1 then atoi (beforeColon t) - 1 else atoi (beforeColon t)) = z
        unfold writeAt
        split
        · simp only [Outcome.ok_bind]
          exact ih _ _ h
        · rfl

theorem mapM_ok {α β : Type} (f : α → Outcome β) (g : α → β) (l : List α) (h : ∀ a ∈ l, f a = .ok (g a)) :
    l.mapM f = .ok (l.map g) := by
  induction l with
  | nil => rfl
  | cons a l ih =>
    rw [List.mapM_cons, h a (by simp), ih (fun b hb => h b (by simp [hb]))]
    rfl

theorem mapM_outRow_ub (classes : ℕ) (l : List ℤ) (y : ℤ) (hy : y ∈ l) (h : (outRow classes y : Outcome (List K)) = .ub) :
    l.mapM (outRow (K := K) classes) = .ub := by
  induction l with
  | nil => simp at hy
  | cons a l ih =>
    rw [List.mapM_cons]
    rcases List.mem_cons.mp hy with rfl | hy
    · rw [h]; rfl
    · rw [ih hy]
      have : (outRow classes a : Outcome (List K)) = .ub ∨ ∃ r, (outRow classes a : Outcome (List K)) = .ok r := by
        unfold outRow
        split
        · split
          · exact Or.inr ⟨_, rfl⟩
          · exact Or.inl rfl
        · exact Or.inr ⟨_, rfl⟩
      rcases this with h | ⟨r, h⟩ <;> rw [h] <;> rfl

theorem le_foldl_max (l : List ℤ) (c : ℤ) : c ≤ l.foldl max c := by
  induction l generalizing c with
  | nil => simp
  | cons a l ih => exact le_trans (le_max_left c a) (ih _)

theorem mem_le_foldl_max (l : List ℤ) (c a : ℤ) (h : a ∈ l) : a ≤ l.foldl max c := by
  induction l generalizing c with
  | nil => simp at h
  | cons b l ih =>
    rcases List.mem_cons.mp h with rfl | h
    · exact le_trans (le_max_right c a) (le_foldl_max l _)
    · exact ih _ h

theorem foldl_max_le (l : List ℤ) (c b : ℤ) (hc : c ≤ b) (h : ∀ a ∈ l, a ≤ b) : l.foldl max c ≤ b := by
  induction l generalizing c with
  | nil => simpa using hc
  | cons a l ih => exact ih _ (max_le hc (h a (by simp))) (fun x hx => h x (by simp [hx]))

theorem feature_le_lineWidth (l : Line K) (hv : l.Valid) : ∀ f ∈ l.features, (f.1 : ℤ) ≤ lineWidth l := by
  obtain ⟨-, h2⟩ := hv
  intro f hf
  unfold lineWidth
  cases hfs : l.features using List.reverseRecOn with
  | nil => rw [hfs] at hf; simp at hf
  | append_singleton fs g _ =>
    rw [hfs] at hf h2
    rw [List.pairwise_append] at h2
    simp only [List.getLast?_append, List.getLast?_singleton, Option.some_or]
    rcases List.mem_append.mp hf with h | h
    · exact_mod_cast (h2.2.2 f h g (by simp)).le
    · simp only [List.mem_singleton] at h; subst h; exact le_refl _

end Verif.LibSVM
