import Verif.Props.LibSVM
import Verif.Props.CutData

/-!
# C103: a LibSVM file that was not written completely

For every file and every position at which it can break off: the data set that the reader returns.
-/

set_option linter.unusedSectionVars false

namespace Verif.LibSVM

open Verif.Text

variable {K : Type} [IntCast K] [Zero K] [One K] [LinearOrder K]

/-! ## What the reader makes of the last line -/

/-- What a token means for the reader. -/
def SameToken (F : NumFormat K) (t u : List Char) : Prop :=
  (t = [] ↔ u = []) ∧ atoi (beforeColon t) = atoi (beforeColon u) ∧ F.atof (afterColon t) = F.atof (afterColon u)

theorem fill_congr (F : NumFormat K) (classes cols : ℕ) {ts us : List (List Char)} (h : List.Forall₂ (SameToken F) ts us)
    (row : ℕ) (m : List (List K)) : fill F classes cols ts row m = fill F classes cols us row m := by
  induction h generalizing row m with
  | nil => rfl
  | cons h _ ih =>
    obtain ⟨h1, h2, h3⟩ := h
    rw [fill, fill, h2, h3]
    simp only [h1, ih]

theorem line_words (st : Pre) {b w : List Char} {ts : List (List Char)} (h : words b = w :: ts) :
    Pre.line st b =
      { features := st.features ++ ts ++ [[]]
        targets := st.targets ++ [atoi w]
        classes := insert (atoi w) st.classes
        width := max st.width (atoi (beforeColon ((w :: ts).getLast (by simp))))
        instances := st.instances + 1 } := by
  unfold Pre.line
  split
  · rename_i h'; rw [h] at h'; cases h'
  · rename_i first more h'
    rw [h] at h'
    cases h'
    rfl

theorem line_blank (st : Pre) {b : List Char} (h : words b = []) : Pre.line st b = st := by
  unfold Pre.line
  split
  · rfl
  · rename_i h'; rw [h] at h'; cases h'

theorem buffers_last (b : List Char) (h : ∀ c ∈ b, c ≠ '\n') : buffers b = [b] := by
  have h1 : b.takeWhile (fun c => decide (c ≠ '\n')) = b := by
    have := List.takeWhile_append_of_pos (p := fun c => decide (c ≠ '\n')) (l₁ := b) (l₂ := [])
      (by intro a ha; simpa using h a ha)
    simpa using this
  have h2 : b.dropWhile (fun c => decide (c ≠ '\n')) = [] := by
    have := List.dropWhile_append_of_pos (p := fun c => decide (c ≠ '\n')) (l₁ := b) (l₂ := [])
      (by intro a ha; simpa using h a ha)
    simpa using this
  unfold buffers
  split
  · rw [h1]
  · rename_i h3; rw [h2] at h3; cases h3

theorem buffers_fileText_last (F : NumFormat K) (ls : List (Line K)) (b : List Char) (h : ∀ c ∈ b, c ≠ '\n') :
    buffers (fileText F ls ++ b) = ls.map (lineText F) ++ [b] := by
  induction ls with
  | nil => simpa [fileText] using buffers_last b h
  | cons l ls ih =>
    have : fileText F (l :: ls) ++ b = lineText F l ++ '\n' :: (fileText F ls ++ b) := by simp [fileText]
    rw [this, buffers_line _ _ (lineText_no_newline F l), ih]
    simp

theorem forall₂_last {α β : Type} {R : α → β → Prop} (us : List β) (v : β) (ts : List α)
    (h : List.Forall₂ R ts (us ++ [v])) : ∃ as a, ts = as ++ [a] ∧ R a v := by
  induction us generalizing ts with
  | nil =>
    cases h with
    | cons h1 h2 => cases h2; exact ⟨[], _, rfl, h1⟩
  | cons u us ih =>
    cases h with
    | cons h1 h2 =>
      obtain ⟨as, a, rfl, h⟩ := ih _ h2
      exact ⟨_ :: as, a, rfl, h⟩

/-- The last line of a file, whatever it looks like, counts as the line whose words mean the same. -/
theorem load_last (F : NumFormat K) (ls : List (Line K)) (l : Line K) (b w : List Char) (ts : List (List Char))
    (hb : ∀ c ∈ b, c ≠ '\n') (hw : words b = w :: ts) (hlabel : atoi w = l.label)
    (hnil : ts = [] → atoi (beforeColon w) = l.label)
    (hts : List.Forall₂ (SameToken F) ts (l.features.map (featureText F))) (cols : ℤ) :
    load F (fileText F ls ++ b) cols = load F (fileText F (ls ++ [l])) cols := by
  unfold load
  rw [buffers_fileText_last F ls b hb, buffers_fileText, List.map_append, List.foldl_append, List.foldl_append,
    List.foldl_append]
  generalize (ls.map (lineText F)).foldl Pre.line { width := cols } = st
  simp only [List.map_cons, List.map_nil, List.foldl_cons, List.foldl_nil, line_empty]
  rw [line_words st hw, line_lineText]
  have hwidth : atoi (beforeColon ((w :: ts).getLast (by simp))) = lineWidth l := by
    cases hf : l.features using List.reverseRecOn with
    | nil =>
      rw [hf] at hts
      cases hts
      simp only [List.getLast_singleton, lineWidth, hf]
      exact hnil rfl
    | append_singleton fs f _ =>
      rw [hf, List.map_append, List.map_cons, List.map_nil] at hts
      obtain ⟨as, a, rfl, h⟩ := forall₂_last _ _ _ hts
      simp only [lineWidth, hf]
      simp [h.2.1, beforeColon_featureText, atoi_printInt]
  rw [hwidth, hlabel]
  unfold finish
  simp only
  split
  · rfl
  · congr 1
    funext outs
    rw [fill_congr F _ _ (us := st.features ++ l.features.map (featureText F) ++ [[]])]
    refine List.rel_append (List.rel_append ?_ hts) ?_
    · exact List.forall₂_same.mpr (fun t _ => ⟨Iff.rfl, rfl, rfl⟩)
    · exact List.forall₂_same.mpr (fun t _ => ⟨Iff.rfl, rfl, rfl⟩)

/-! ## Where the file breaks off -/

theorem sameToken_refl (F : NumFormat K) (ts : List (List Char)) : List.Forall₂ (SameToken F) ts ts :=
  List.forall₂_same.mpr (fun _ _ => ⟨Iff.rfl, rfl, rfl⟩)

/-- The words of a line of which some features are left, followed by more. -/
theorem words_line_more (F : NumFormat K) (y : ℤ) (fs : List (ℕ × K)) (more : List Char)
    (hm : ∀ c ∈ more.head?, isSpace c = true) :
    words (lineText F ⟨y, fs⟩ ++ more) = printInt y :: (fs.map (featureText F) ++ words more) := by
  have key : ∀ gs : List (ℕ × K), words (gs.flatMap (fun f => ' ' :: featureText F f) ++ more) =
      gs.map (featureText F) ++ words more := by
    intro gs
    induction gs with
    | nil => rfl
    | cons g gs ih =>
      obtain ⟨h1, h2⟩ := featureText_word F g
      rw [List.flatMap_cons, List.append_assoc, List.cons_append, words_blank, words_word _ _ h1 h2, ih]
      · rfl
      · intro c hc
        cases gs with
        | nil => exact hm c (by simpa using hc)
        | cons g gs => simp at hc; subst hc; exact isSpace_blank
  have e : lineText F ⟨y, fs⟩ ++ more = printInt y ++ (fs.flatMap (fun f => ' ' :: featureText F f) ++ more) := by
    simp [lineText]
  rw [e, words_word _ _ (printInt_ne_nil y) (printInt_no_space y), key]
  intro c hc
  cases fs with
  | nil => exact hm c (by simpa using hc)
  | cons f fs => simp at hc; subst hc; exact isSpace_blank

/-- **C103, in a label.** The digits that are left are the label of an instance without features. -/
theorem cut_in_label (F : NumFormat K) (ls more : List (Line K)) (l : Line K) (k : ℕ) (hk0 : 0 < k) (cols : ℤ) :
    fileText F ls ++ (printInt l.label).take k <+: fileText F (ls ++ l :: more) ∧
    load F (fileText F ls ++ (printInt l.label).take k) cols =
      load F (fileText F (ls ++ [⟨atoi ((printInt l.label).take k), []⟩])) cols := by
  have hne : (printInt l.label).take k ≠ [] := by
    simp [List.take_eq_nil_iff, printInt_ne_nil]; omega
  have hsp : ∀ c ∈ (printInt l.label).take k, isSpace c = false :=
    fun c hc => printInt_no_space _ c (List.mem_of_mem_take hc)
  refine ⟨?_, load_last F ls _ _ ((printInt l.label).take k) [] ?_ ?_ rfl (fun _ => ?_) List.Forall₂.nil cols⟩
  · have e : fileText F (ls ++ l :: more) = fileText F ls ++ (printInt l.label ++
        (l.features.flatMap (fun f => ' ' :: featureText F f) ++ '\n' :: fileText F more)) := by
      simp [fileText, lineText]
    rw [e]
    exact (List.prefix_append_right_inj _).mpr ((List.take_prefix _ _).trans (List.prefix_append _ _))
  · intro c hc h
    have := hsp c hc
    rw [h] at this
    exact absurd this (by decide)
  · have := words_word _ [] hne hsp (by simp)
    rwa [List.append_nil, words_nil] at this
  · have : beforeColon ((printInt l.label).take k) = (printInt l.label).take k := by
      have h := List.takeWhile_append_of_pos (p := fun c => decide (c ≠ ':')) (l₁ := (printInt l.label).take k)
        (l₂ := []) (by intro a ha; simpa using printInt_no_colon _ a (List.mem_of_mem_take ha))
      simpa [beforeColon] using h
    rw [this]

theorem no_newline_of_no_space {t : List Char} (h : ∀ c ∈ t, isSpace c = false) : ∀ c ∈ t, c ≠ '\n' := by
  intro c hc e
  have := h c hc
  rw [e] at this
  exact absurd this (by decide)

/-- The text up to some features of a line is a prefix of the file. -/
theorem features_prefix (F : NumFormat K) (ls more : List (Line K)) (y : ℤ) (fs : List (ℕ × K)) (f : ℕ × K)
    (gs : List (ℕ × K)) (k : ℕ) :
    fileText F ls ++ (lineText F ⟨y, fs⟩ ++ ' ' :: (featureText F f).take k) <+:
      fileText F (ls ++ ⟨y, fs ++ f :: gs⟩ :: more) := by
  have e : fileText F (ls ++ ⟨y, fs ++ f :: gs⟩ :: more) = fileText F ls ++ (lineText F ⟨y, fs⟩ ++
      ' ' :: (featureText F f ++ (gs.flatMap (fun f => ' ' :: featureText F f) ++ '\n' :: fileText F more))) := by
    simp [fileText, lineText]
  rw [e]
  refine (List.prefix_append_right_inj _).mpr ((List.prefix_append_right_inj _).mpr ?_)
  exact List.cons_prefix_cons.mpr ⟨rfl, (List.take_prefix _ _).trans (List.prefix_append _ _)⟩

/-- **C103, behind a feature.** The instance is returned without its other features. -/
theorem cut_behind_feature (F : NumFormat K) (ls more : List (Line K)) (y : ℤ) (fs : List (ℕ × K)) (f : ℕ × K)
    (gs : List (ℕ × K)) (cols : ℤ) :
    fileText F ls ++ (lineText F ⟨y, fs⟩ ++ [' ']) <+: fileText F (ls ++ ⟨y, fs ++ f :: gs⟩ :: more) ∧
    load F (fileText F ls ++ (lineText F ⟨y, fs⟩ ++ [' '])) cols = load F (fileText F (ls ++ [⟨y, fs⟩])) cols ∧
    load F (fileText F ls ++ lineText F ⟨y, fs⟩) cols = load F (fileText F (ls ++ [⟨y, fs⟩])) cols := by
  refine ⟨by simpa using features_prefix F ls more y fs f gs 0, ?_, ?_⟩
  · refine load_last F ls ⟨y, fs⟩ _ (printInt y) (fs.map (featureText F)) ?_ ?_ (atoi_printInt y) ?_
      (sameToken_refl F _) cols
    · intro c hc
      rcases List.mem_append.mp hc with hc | hc
      · exact lineText_no_newline F _ c hc
      · rw [List.mem_singleton.mp hc]; decide
    · rw [words_line_more F y fs [' '] (by simp [isSpace_blank]), words_blank, words_nil, List.append_nil]
    · intro _
      rw [beforeColon_printInt, atoi_printInt]
  · refine load_last F ls ⟨y, fs⟩ _ (printInt y) (fs.map (featureText F)) (lineText_no_newline F _) ?_ (atoi_printInt y) ?_
      (sameToken_refl F _) cols
    · have := words_line_more F y fs [] (by simp)
      rwa [List.append_nil, words_nil, List.append_nil] at this
    · intro _
      rw [beforeColon_printInt, atoi_printInt]

/-- A last token, whatever it looks like, counts as the feature that means the same. -/
theorem load_token (F : NumFormat K) (ls : List (Line K)) (y : ℤ) (fs : List (ℕ × K)) (t : List Char) (i : ℕ) (v : K)
    (hne : t ≠ []) (hsp : ∀ c ∈ t, isSpace c = false) (hi : atoi (beforeColon t) = i)
    (hv : F.atof (afterColon t) = F.round v) (cols : ℤ) :
    load F (fileText F ls ++ (lineText F ⟨y, fs⟩ ++ ' ' :: t)) cols =
      load F (fileText F (ls ++ [⟨y, fs ++ [(i, v)]⟩])) cols := by
  refine load_last F ls ⟨y, fs ++ [(i, v)]⟩ _ (printInt y) (fs.map (featureText F) ++ [t]) ?_ ?_ (atoi_printInt y) ?_ ?_ cols
  · intro c hc
    rcases List.mem_append.mp hc with hc | hc
    · exact lineText_no_newline F _ c hc
    · rcases List.mem_cons.mp hc with rfl | hc
      · decide
      · exact no_newline_of_no_space hsp c hc
  · rw [words_line_more F y fs (' ' :: t) (by simp [isSpace_blank]), words_blank]
    have := words_word t [] hne hsp (by simp)
    rw [List.append_nil, words_nil] at this
    rw [this]
  · intro h
    simp at h
  · rw [List.map_append]
    refine List.rel_append (sameToken_refl F _) (List.Forall₂.cons ⟨?_, ?_, ?_⟩ List.Forall₂.nil)
    · simp [hne, (featureText_word F (i, v)).1]
    · rw [hi, beforeColon_featureText, atoi_printInt]
    · rw [hv, afterColon_featureText, F.atof_fmt]

/-- **C103, in an index.** The digits that are left count as the index and as the value of a feature. -/
theorem cut_in_index (F : NumFormat K) (ls more : List (Line K)) (y : ℤ) (fs : List (ℕ × K)) (f : ℕ × K)
    (gs : List (ℕ × K)) (k : ℕ) (hk0 : 0 < k) (hk : k ≤ (printInt f.1).length)
    (hsmall : f.1 / 10 ^ ((printInt f.1).length - k) < 1000000) (cols : ℤ) :
    fileText F ls ++ (lineText F ⟨y, fs⟩ ++ ' ' :: (featureText F f).take k) <+:
      fileText F (ls ++ ⟨y, fs ++ f :: gs⟩ :: more) ∧
    load F (fileText F ls ++ (lineText F ⟨y, fs⟩ ++ ' ' :: (featureText F f).take k)) cols =
      load F (fileText F (ls ++ [⟨y, fs ++ [(f.1 / 10 ^ ((printInt f.1).length - k),
        (((f.1 / 10 ^ ((printInt f.1).length - k) : ℕ) : ℤ) : K))]⟩])) cols := by
  refine ⟨features_prefix F ls more y fs f gs k, ?_⟩
  have e : ∀ j : ℕ, printInt (j : ℤ) = printNat j := fun j => by
    rw [printInt, if_neg (by omega)]; rfl
  have ht : (featureText F f).take k = printInt ((f.1 / 10 ^ ((printInt f.1).length - k) : ℕ) : ℤ) := by
    rw [featureText, List.take_append_of_le_length hk]
    rw [e] at hk ⊢
    rw [FANN.printNat_take f.1 k hk0 hk, e]
  rw [ht]
  generalize f.1 / 10 ^ ((printInt f.1).length - k) = i at hsmall
  refine load_token F ls y fs _ i _ (printInt_ne_nil _) (printInt_no_space _) ?_ ?_ cols
  · rw [beforeColon_printInt, atoi_printInt]
  · have : afterColon (printInt i) = printInt i := by
      have h := List.dropWhile_append_of_pos (p := fun c => decide (c ≠ ':')) (l₁ := printInt i) (l₂ := [])
        (by intro a ha; simpa using printInt_no_colon _ a ha)
      rw [List.append_nil] at h
      unfold afterColon
      rw [h]
      rfl
    rw [this, ← F.fmt_int (i : ℤ) (by simpa using hsmall), F.atof_fmt]

/-- **C103, in a value.** The characters that are left count as the value. -/
theorem cut_in_value (F : NumFormat K) (ls more : List (Line K)) (y : ℤ) (fs : List (ℕ × K)) (f : ℕ × K)
    (gs : List (ℕ × K)) (k : ℕ) (v : K) (hv : F.atof ((F.fmt f.2).take k) = F.round v) (cols : ℤ) :
    fileText F ls ++ (lineText F ⟨y, fs⟩ ++ ' ' :: (featureText F f).take ((printInt f.1).length + 1 + k)) <+:
      fileText F (ls ++ ⟨y, fs ++ f :: gs⟩ :: more) ∧
    load F (fileText F ls ++ (lineText F ⟨y, fs⟩ ++ ' ' :: (featureText F f).take ((printInt f.1).length + 1 + k))) cols =
      load F (fileText F (ls ++ [⟨y, fs ++ [(f.1, v)]⟩])) cols := by
  refine ⟨features_prefix F ls more y fs f gs _, ?_⟩
  have ht : (featureText F f).take ((printInt f.1).length + 1 + k) = printInt f.1 ++ ':' :: (F.fmt f.2).take k := by
    rw [featureText, Nat.add_assoc, List.take_length_add_append, Nat.add_comm 1 k, List.take_succ_cons]
  rw [ht]
  refine load_token F ls y fs _ f.1 v (by simp) ?_ ?_ ?_ cols
  · intro c hc
    rcases List.mem_append.mp hc with hc | hc
    · exact printInt_no_space _ c hc
    · rcases List.mem_cons.mp hc with rfl | hc
      · exact colon_not_space
      · exact F.fmt_no_space _ c (List.mem_of_mem_take hc)
  · have : beforeColon (printInt f.1 ++ ':' :: (F.fmt f.2).take k) = printInt f.1 := by
      unfold beforeColon
      rw [List.takeWhile_append_of_pos (by intro a ha; simpa using printInt_no_colon _ a ha)]
      simp
    rw [this, atoi_printInt]
  · have : afterColon (printInt f.1 ++ ':' :: (F.fmt f.2).take k) = (F.fmt f.2).take k := by
      have h : (printInt f.1 ++ ':' :: (F.fmt f.2).take k).dropWhile (fun c => decide (c ≠ ':')) =
          ':' :: (F.fmt f.2).take k := by
        rw [List.dropWhile_append_of_pos (by intro a ha; simpa using printInt_no_colon _ a ha)]
        simp
      unfold afterColon
      rw [h]
    rw [this, hv]

/-! ## There are no other positions -/

theorem prefix_append_cases {α : Type} {p x y : List α} (h : p <+: x ++ y) : p <+: x ∨ ∃ q, p = x ++ q ∧ q <+: y := by
  rcases List.prefix_or_prefix_of_prefix h (List.prefix_append x y) with h1 | ⟨q, rfl⟩
  · exact Or.inl h1
  · exact Or.inr ⟨q, rfl, (List.prefix_append_right_inj x).mp h⟩

theorem cut_features (F : NumFormat K) (gs : List (ℕ × K)) (p : List Char)
    (h : p <+: gs.flatMap (fun f => ' ' :: featureText F f)) :
    p = [] ∨ ∃ fs f hs k, gs = fs ++ f :: hs ∧ k ≤ (featureText F f).length ∧
      p = fs.flatMap (fun f => ' ' :: featureText F f) ++ ' ' :: (featureText F f).take k := by
  induction gs generalizing p with
  | nil => exact Or.inl (List.prefix_nil.mp h)
  | cons g gs ih =>
    rw [List.flatMap_cons] at h
    rcases prefix_append_cases h with h1 | ⟨q, rfl, h1⟩
    · rcases p with _ | ⟨c, p⟩
      · exact Or.inl rfl
      · obtain ⟨rfl, h2⟩ := List.cons_prefix_cons.mp h1
        exact Or.inr ⟨[], g, gs, p.length, rfl, h2.length_le, by rw [← List.prefix_iff_eq_take.mp h2]; rfl⟩
    · rcases ih q h1 with rfl | ⟨fs, f, hs, k, rfl, hk, rfl⟩
      · exact Or.inr ⟨[], g, gs, (featureText F g).length, rfl, le_rfl, by simp⟩
      · exact Or.inr ⟨g :: fs, f, hs, k, rfl, hk, by simp⟩

/-- Every position is behind a line, in or behind a label, or in or behind a feature. -/
theorem cut_cases (F : NumFormat K) (ls : List (Line K)) (p : List Char) (h : p <+: fileText F ls) :
    (∃ a b, ls = a ++ b ∧ p = fileText F a) ∨
    (∃ a l b k, ls = a ++ l :: b ∧ 0 < k ∧ p = fileText F a ++ (printInt l.label).take k) ∨
    ∃ a y fs f gs b k, ls = a ++ ⟨y, fs ++ f :: gs⟩ :: b ∧ k ≤ (featureText F f).length ∧
      p = fileText F a ++ (lineText F ⟨y, fs⟩ ++ ' ' :: (featureText F f).take k) := by
  induction ls generalizing p with
  | nil => exact Or.inl ⟨[], [], rfl, List.prefix_nil.mp h⟩
  | cons l ls ih =>
    have e : fileText F (l :: ls) = (printInt l.label ++ l.features.flatMap (fun f => ' ' :: featureText F f)) ++
        (['\n'] ++ fileText F ls) := by simp [fileText, lineText]
    rw [e] at h
    rcases prefix_append_cases h with h1 | ⟨q, rfl, h1⟩
    · rcases prefix_append_cases h1 with h2 | ⟨q, rfl, h2⟩
      · rcases Nat.eq_zero_or_pos p.length with h0 | h0
        · exact Or.inl ⟨[], l :: ls, rfl, List.length_eq_zero_iff.mp h0⟩
        · exact Or.inr (Or.inl ⟨[], l, ls, p.length, rfl, h0, by
            rw [← List.prefix_iff_eq_take.mp h2]; rfl⟩)
      · rcases cut_features F _ q h2 with rfl | ⟨fs, f, gs, k, hl, hk, rfl⟩
        · exact Or.inr (Or.inl ⟨[], l, ls, (printInt l.label).length, rfl,
            List.length_pos_iff.mpr (printInt_ne_nil _), by simp [fileText]⟩)
        · refine Or.inr (Or.inr ⟨[], l.label, fs, f, gs, ls, k, ?_, hk, by simp [fileText, lineText]⟩)
          rw [← hl]; rfl
    · rcases prefix_append_cases h1 with h2 | ⟨r, rfl, h2⟩
      · rcases q with _ | ⟨c, q⟩
        · rw [List.append_nil]
          rcases cut_features F _ _ (List.prefix_refl (l.features.flatMap (fun f => ' ' :: featureText F f))) with
            h3 | ⟨fs, f, gs, k, hl, hk, h3⟩
          · rw [h3]
            exact Or.inr (Or.inl ⟨[], l, ls, (printInt l.label).length, rfl,
              List.length_pos_iff.mpr (printInt_ne_nil _), by simp [fileText]⟩)
          · rw [h3]
            refine Or.inr (Or.inr ⟨[], l.label, fs, f, gs, ls, k, ?_, hk, by simp [fileText, lineText]⟩)
            rw [← hl]; rfl
        · obtain ⟨rfl, h3⟩ := List.cons_prefix_cons.mp h2
          rw [List.prefix_nil.mp h3]
          exact Or.inl ⟨[l], ls, rfl, by simp [fileText, lineText]⟩
      · have e2 : ∀ a : List (Line K), (printInt l.label ++ l.features.flatMap (fun f => ' ' :: featureText F f)) ++
            (['\n'] ++ fileText F a) = fileText F (l :: a) := fun a => by simp [fileText, lineText]
        rcases ih r h2 with ⟨a, b, rfl, rfl⟩ | ⟨a, l', b, k, rfl, hk, rfl⟩ | ⟨a, y, fs, f, gs, b, k, rfl, hk, rfl⟩
        · exact Or.inl ⟨l :: a, b, rfl, by rw [e2]⟩
        · exact Or.inr (Or.inl ⟨l :: a, l', b, k, rfl, hk, by rw [← e2]; simp⟩)
        · exact Or.inr (Or.inr ⟨l :: a, y, fs, f, gs, b, k, rfl, hk, by rw [← e2]; simp⟩)

/-- **C103.** Whatever is missing at the end of a file, the reader cannot tell: there is a complete file that consists
of complete lines of the original and at most one other line, for which the reader does exactly the same. -/
theorem cut_libsvm (F : NumFormat K) (ls : List (Line K)) (p : List Char) (h : p <+: fileText F ls)
    (hsmall : ∀ l ∈ ls, ∀ f ∈ l.features, f.1 < 1000000)
    (hatof : ∀ x k, ∃ v, F.atof ((F.fmt x).take k) = F.round v) :
    ∃ a b, ls = a ++ b ∧ ((∀ cols, load F p cols = load F (fileText F a) cols) ∨
      ∃ l', ∀ cols, load F p cols = load F (fileText F (a ++ [l'])) cols) := by
  rcases cut_cases F ls p h with ⟨a, b, rfl, rfl⟩ | ⟨a, l, b, k, rfl, hk, rfl⟩ | ⟨a, y, fs, f, gs, b, k, rfl, hk, rfl⟩
  · exact ⟨a, b, rfl, Or.inl fun _ => rfl⟩
  · exact ⟨a, l :: b, rfl, Or.inr ⟨_, fun cols => (cut_in_label F a b l k hk cols).2⟩⟩
  · refine ⟨a, _, rfl, Or.inr ?_⟩
    rcases Nat.eq_zero_or_pos k with rfl | h0
    · exact ⟨⟨y, fs⟩, fun cols => (cut_behind_feature F a b y fs f gs cols).2.1⟩
    · by_cases h1 : k ≤ (printInt f.1).length
      · have h2 := hsmall ⟨y, fs ++ f :: gs⟩ (by simp) f (by simp)
        exact ⟨_, fun cols => (cut_in_index F a b y fs f gs k h0 h1
          (lt_of_le_of_lt (Nat.div_le_self _ _) h2) cols).2⟩
      · obtain ⟨v, hv⟩ := hatof f.2 (k - ((printInt f.1).length + 1))
        have := fun cols => (cut_in_value F a b y fs f gs _ v hv cols).2
        rw [show (printInt f.1).length + 1 + (k - ((printInt f.1).length + 1)) = k by omega] at this
        exact ⟨_, this⟩

/-- **C103, the targets.** If the lines that are left have only two of the classes, the targets are labels instead of
a one-of-c coding, and the network that was built for the complete file does not fit. -/
theorem cut_changes_targets_fails (F : NumFormat K) (a b : List (Line K)) (cols : ℕ) (hv : ∀ l ∈ a ++ b, l.Valid)
    (hc : 2 < (fileClasses (a ++ b)).card) (hl : ∀ l ∈ a ++ b, 1 ≤ l.label ∧ l.label ≤ (fileClasses (a ++ b)).card)
    (ha : (fileClasses a).card = 2) :
    fileText F a <+: fileText F (a ++ b) ∧
    (∃ i o, load F (fileText F (a ++ b)) cols = .ok (((a ++ b).length : ℤ), i, o) ∧ o.cols = (fileClasses (a ++ b)).card) ∧
    ∃ i o, load F (fileText F a) cols = .ok ((a.length : ℤ), i, o) ∧ o.cols = 1 :=
  ⟨by simp [fileText], ⟨_, _, reader_many_classes_partial F (a ++ b) cols hv hc hl, rfl⟩,
    ⟨_, _, reader_two_classes_partial F a cols (fun l hl => hv l (by simp [hl])) ha, rfl⟩⟩

/-! ## The hypotheses are met -/

/-- "1 12:5" becomes "1 1": feature 1 has the value 1. -/
example : load intFormat (fileText intFormat [⟨2, [(3, 7)]⟩] ++ "1 1".toList) 0 =
    load intFormat (fileText intFormat [⟨2, [(3, 7)]⟩, ⟨1, [(1, 1)]⟩]) 0 := by
  have h12 : printInt 12 = ['1', '2'] := by simp [printInt, printNat]; decide
  have h1 : printInt 1 = ['1'] := by simp [printInt, printNat]; decide
  have := (cut_in_index intFormat [⟨2, [(3, 7)]⟩] [] 1 [] (12, 5) [] 1 (by decide) (by simp [h12])
    (by simp [h12]) 0).2
  simp [lineText, h1, featureText, h12] at this
  simpa using this

example : ∀ x k, ∃ v, intFormat.atof ((intFormat.fmt x).take k) = intFormat.round v := fun _ _ => ⟨_, rfl⟩

/-- Three lines of which two are left. -/
example : (∃ i o, load intFormat (fileText intFormat ([⟨1, [(1, 5)]⟩, ⟨3, [(2, 6)]⟩] ++ [⟨2, []⟩])) 0 = .ok (3, i, o) ∧
      o.cols = 3) ∧
    ∃ i o, load intFormat (fileText intFormat [⟨1, [(1, 5)]⟩, ⟨3, [(2, 6)]⟩]) 0 = .ok (2, i, o) ∧ o.cols = 1 :=
  (cut_changes_targets_fails intFormat [⟨1, [(1, 5)]⟩, ⟨3, [(2, 6)]⟩] [⟨2, []⟩] 0 (by simp [Line.Valid]) (by decide)
    (by decide) (by decide)).2

end Verif.LibSVM
