import Verif.Model.Text
import Verif.Lemmas.Prelude

/-! Lemmas about the text-stream model. -/

namespace Verif.Text

theorem char_toNat_ofNat {n : ℕ} (h : n < 128) : (Char.ofNat n).toNat = n := by
  have : n.isValidChar := Or.inl (by omega)
  simp [Char.ofNat, this, Char.toNat, Char.ofNatAux]

theorem isDigit_digitChar {d : ℕ} (h : d < 10) : isDigit (digitChar d) = true := by
  simp [isDigit, digitChar, char_toNat_ofNat (show 48 + d < 128 by omega)]; omega

theorem digitVal_digitChar {d : ℕ} (h : d < 10) : digitVal (digitChar d) = d := by
  simp [digitVal, digitChar, char_toNat_ofNat (show 48 + d < 128 by omega)]

theorem isSpace_of_isDigit {c : Char} (h : isDigit c = true) : isSpace c = false := by
  simp only [isDigit, Bool.and_eq_true, decide_eq_true_eq] at h
  simp only [isSpace, Bool.or_eq_false_iff, decide_eq_false_iff_not]
  refine ⟨⟨⟨⟨⟨?_, ?_⟩, ?_⟩, ?_⟩, ?_⟩, ?_⟩ <;> (rintro rfl; revert h; decide)

theorem isDigit_of_isSpace {c : Char} (h : isSpace c = true) : isDigit c = false := by
  by_contra hc
  simp only [Bool.not_eq_false] at hc
  rw [isSpace_of_isDigit hc] at h
  exact absurd h (by simp)

theorem printNat_digits (n : ℕ) : ∀ c ∈ printNat n, isDigit c = true := by
  induction n using Nat.strong_induction_on with
  | _ n ih =>
    unfold printNat
    split
    · rename_i h
      simpa using isDigit_digitChar h
    · rename_i h
      intro c hc
      rcases List.mem_append.mp hc with h1 | h1
      · exact ih (n / 10) (by omega) c h1
      · simp only [List.mem_singleton] at h1
        subst h1
        exact isDigit_digitChar (by omega)

theorem printNat_ne_nil (n : ℕ) : printNat n ≠ [] := by
  unfold printNat
  split <;> simp

theorem scanDigits_append (acc : ℕ) (l rest : List Char) (hl : ∀ c ∈ l, isDigit c = true)
    (hr : ∀ c ∈ rest.head?, isDigit c = false) :
    scanDigits acc (l ++ rest) = (l.foldl (fun a c => a * 10 + digitVal c) acc, rest) := by
  induction l generalizing acc with
  | nil =>
    cases rest with
    | nil => rfl
    | cons c cs =>
      have := hr c (by simp)
      simp [scanDigits, this]
  | cons c cs ih =>
    have h1 := hl c (by simp)
    simp only [List.cons_append, scanDigits, h1, if_true, List.foldl_cons]
    exact ih _ (fun d hd => hl d (by simp [hd]))

theorem foldl_printNat (n : ℕ) :
    (printNat n).foldl (fun a c => a * 10 + digitVal c) 0 = n := by
  induction n using Nat.strong_induction_on with
  | _ n ih =>
    unfold printNat
    split
    · rename_i h
      simp [digitVal_digitChar h]
    · rename_i h
      rw [List.foldl_append, ih (n / 10) (by omega)]
      simp only [List.foldl_cons, List.foldl_nil]
      rw [digitVal_digitChar (by omega)]
      omega

theorem scanDigits_printNat (n : ℕ) (rest : List Char) (hr : ∀ c ∈ rest.head?, isDigit c = false) :
    scanDigits 0 (printNat n ++ rest) = (n, rest) := by
  rw [scanDigits_append 0 _ rest (printNat_digits n) hr, foldl_printNat]

theorem scanSign_of_digit {c : Char} {cs : List Char} (h : isDigit c = true) :
    scanSign (c :: cs) = (false, c :: cs) := by
  have h1 : c ≠ '-' := by rintro rfl; revert h; decide
  have h2 : c ≠ '+' := by rintro rfl; revert h; decide
  unfold scanSign
  split <;> simp_all

theorem scanInt_printInt (z : ℤ) (rest : List Char) (hr : ∀ c ∈ rest.head?, isDigit c = false) :
    scanInt (printInt z ++ rest) = (some z, rest) := by
  have hs := scanDigits_printNat z.natAbs rest hr
  obtain ⟨c, cs, hc⟩ : ∃ c cs, printNat z.natAbs = c :: cs := by
    cases h : printNat z.natAbs with
    | nil => exact absurd h (printNat_ne_nil _)
    | cons c cs => exact ⟨c, cs, rfl⟩
  have hd : isDigit c = true := printNat_digits z.natAbs c (by simp [hc])
  rw [hc] at hs
  unfold printInt
  split
  · rename_i hz
    rw [hc]
    simp only [List.cons_append, scanInt, scanSign, hd, if_true]
    rw [List.cons_append] at hs
    rw [hs]
    simp only [Prod.mk.injEq, and_true, Option.some.injEq]
    omega
  · rename_i hz
    rw [hc]
    simp only [List.cons_append, scanInt, scanSign_of_digit hd, hd, if_true]
    rw [List.cons_append] at hs
    rw [hs]
    simp only [Prod.mk.injEq, and_true, Option.some.injEq, Bool.false_eq_true, if_false]
    omega

theorem isSpace_minus : isSpace '-' = false := by decide

theorem printInt_no_space (z : ℤ) : ∀ c ∈ printInt z, isSpace c = false := by
  intro c hc
  unfold printInt at hc
  split at hc
  · rcases List.mem_cons.mp hc with rfl | h
    · decide
    · exact isSpace_of_isDigit (printNat_digits _ c h)
  · exact isSpace_of_isDigit (printNat_digits _ c hc)

theorem printInt_ne_nil (z : ℤ) : printInt z ≠ [] := by
  unfold printInt
  split
  · simp
  · exact printNat_ne_nil _

theorem dropWhile_isSpace_of_no_space {l rest : List Char} (hne : l ≠ [])
    (h : ∀ c ∈ l, isSpace c = false) : (l ++ rest).dropWhile isSpace = l ++ rest := by
  cases l with
  | nil => exact absurd rfl hne
  | cons c cs => simp [h c (by simp)]

theorem dropWhile_isSpace_append {ws l : List Char} (h : ∀ c ∈ ws, isSpace c = true) :
    (ws ++ l).dropWhile isSpace = l.dropWhile isSpace := by
  induction ws with
  | nil => rfl
  | cons c cs ih =>
    simp only [List.cons_append, List.dropWhile_cons, h c (by simp), if_true]
    exact ih (fun d hd => h d (by simp [hd]))

/-- Reading a word-like text with a conversion that accepts it. -/
theorem extractNum_ok {α : Type} (zero : α) (scan : List Char → Option α × List Char)
    (ws l rest : List Char) (v : α) (hws : ∀ c ∈ ws, isSpace c = true) (hne : l ≠ [])
    (hl : ∀ c ∈ l, isSpace c = false) (hscan : scan (l ++ rest) = (some v, rest)) :
    extractNum zero scan { rest := ws ++ (l ++ rest) } =
      (some v, { rest := rest, eof := rest.isEmpty, fail := false }) := by
  have hd : (ws ++ (l ++ rest)).dropWhile isSpace = l ++ rest := by
    rw [dropWhile_isSpace_append hws, dropWhile_isSpace_of_no_space hne hl]
  unfold extractNum
  simp only [IStream.good, Bool.not_false, Bool.and_self, Bool.not_true, Bool.false_eq_true, if_false, hd]
  cases l with
  | nil => exact absurd rfl hne
  | cons c cs =>
    simp only [List.cons_append] at hscan ⊢
    rw [hscan]

theorem not_digit_head {rest : List Char} (h : ∀ c ∈ rest.head?, isSpace c = true) :
    ∀ c ∈ rest.head?, isDigit c = false := fun c hc => isDigit_of_isSpace (h c hc)

theorem extractInt_ok (ws rest : List Char) (z : ℤ) (hws : ∀ c ∈ ws, isSpace c = true)
    (hr : ∀ c ∈ rest.head?, isSpace c = true) :
    extractInt { rest := ws ++ (printInt z ++ rest) } =
      (some z, { rest := rest, eof := rest.isEmpty, fail := false }) :=
  extractNum_ok 0 scanInt ws (printInt z) rest z hws (printInt_ne_nil z) (printInt_no_space z)
    (scanInt_printInt z rest (not_digit_head hr))

theorem NumFormat.extract_ok {K : Type} [IntCast K] [Zero K] (F : NumFormat K) (ws rest : List Char) (x : K)
    (hws : ∀ c ∈ ws, isSpace c = true) (hr : ∀ c ∈ rest.head?, isSpace c = true) :
    F.extract { rest := ws ++ (F.fmt x ++ rest) } =
      (some (F.round x), { rest := rest, eof := rest.isEmpty, fail := false }) :=
  extractNum_ok 0 F.scan ws (F.fmt x) rest (F.round x) hws (F.fmt_ne x) (F.fmt_no_space x)
    (F.scan_fmt x rest hr)

theorem extractBool_ok (ws rest : List Char) (b : Bool) (hws : ∀ c ∈ ws, isSpace c = true)
    (hr : ∀ c ∈ rest.head?, isSpace c = true) :
    extractBool { rest := ws ++ (printBool b ++ rest) } =
      (some b, { rest := rest, eof := rest.isEmpty, fail := false }) := by
  have h0 : printBool b = printInt (if b then 1 else 0) := by cases b <;> (simp [printBool, printInt, printNat]; decide)
  have h := extractInt_ok ws rest (if b then 1 else 0) hws hr
  rw [← h0] at h
  unfold extractBool
  rw [h]
  cases b <;> simp

theorem extractWord_ok (ws w rest : List Char) (hws : ∀ c ∈ ws, isSpace c = true) (hne : w ≠ [])
    (hw : ∀ c ∈ w, isSpace c = false) (hr : ∀ c ∈ rest.head?, isSpace c = true) :
    extractWord { rest := ws ++ (w ++ rest) } =
      (some w, { rest := rest, eof := rest.isEmpty, fail := false }) := by
  have hd : (ws ++ (w ++ rest)).dropWhile isSpace = w ++ rest := by
    rw [dropWhile_isSpace_append hws, dropWhile_isSpace_of_no_space hne hw]
  have h1 : (w ++ rest).takeWhile (fun c => !isSpace c) = w := by
    rw [List.takeWhile_append_of_pos (by intro a ha; simp [hw a ha])]
    cases rest with
    | nil => simp
    | cons c cs => simp [hr c (by simp)]
  have h2 : (w ++ rest).dropWhile (fun c => !isSpace c) = rest := by
    rw [List.dropWhile_append_of_pos (by intro a ha; simp [hw a ha])]
    cases rest with
    | nil => simp
    | cons c cs => simp [hr c (by simp)]
  unfold extractWord
  simp only [IStream.good, Bool.not_false, Bool.and_self, Bool.not_true, Bool.false_eq_true, if_false, hd]
  cases w with
  | nil => exact absurd rfl hne
  | cons c cs =>
    simp only [List.cons_append] at h1 h2 ⊢
    simp only [h1, h2]

theorem isSpace_blank : isSpace ' ' = true := by decide
theorem isSpace_newline : isSpace '\n' = true := by decide

theorem padLeft_eq (w : ℕ) (l : List Char) :
    ∃ ws : List Char, (∀ c ∈ ws, isSpace c = true) ∧ padLeft w l = ws ++ l :=
  ⟨List.replicate (w - l.length) ' ', by
    intro c hc; rw [List.eq_of_mem_replicate hc]; decide, rfl⟩

theorem atoi_printInt (z : ℤ) : atoi (printInt z) = z := by
  have h := scanInt_printInt z [] (by simp)
  have hd : (printInt z).dropWhile isSpace = printInt z := by
    have := dropWhile_isSpace_of_no_space (rest := []) (printInt_ne_nil z) (printInt_no_space z)
    simpa using this
  rw [List.append_nil] at h
  simp [atoi, hd, h]

theorem scanDigits_le (acc : ℕ) (l : List Char) : (scanDigits acc l).2.length ≤ l.length := by
  induction l generalizing acc with
  | nil => simp [scanDigits]
  | cons c cs ih =>
    rw [scanDigits]
    split
    · exact le_trans (ih _) (by simp)
    · simp

theorem scanSign_le (l : List Char) : (scanSign l).2.length ≤ l.length := by
  unfold scanSign
  split <;> simp

theorem scanInt_le (l : List Char) : (scanInt l).2.length ≤ l.length := by
  have h := scanSign_le l
  unfold scanInt
  cases hs : scanSign l with
  | mk neg r =>
    rw [hs] at h
    simp only at h ⊢
    cases r with
    | nil => simp
    | cons c cs =>
      simp only
      split
      · exact le_trans (scanDigits_le 0 _) h
      · exact h

theorem extractNum_le {α : Type} (zero : α) (scan : List Char → Option α × List Char)
    (hs : ∀ l, (scan l).2.length ≤ l.length) (s : IStream) :
    (extractNum zero scan s).2.rest.length ≤ s.rest.length := by
  unfold extractNum
  split
  · simp
  · have h := (List.dropWhile_sublist (l := s.rest) isSpace).length_le
    split
    · simp
    · rename_i c cs hd
      rw [hd] at h
      have h2 := hs (c :: cs)
      split <;> (rename_i heq; rw [heq] at h2; simp only at h2 ⊢; omega)

theorem extractInt_le (s : IStream) : (extractInt s).2.rest.length ≤ s.rest.length :=
  extractNum_le 0 scanInt scanInt_le s

theorem NumFormat.extract_le {K : Type} [IntCast K] [Zero K] (F : NumFormat K) (s : IStream) :
    (F.extract s).2.rest.length ≤ s.rest.length :=
  extractNum_le 0 F.scan F.scan_le s

theorem extractBool_le (s : IStream) : (extractBool s).2.rest.length ≤ s.rest.length := by
  have h := extractInt_le s
  unfold extractBool
  split
  · rename_i heq; rw [heq] at h; exact h
  · rename_i heq
    rw [heq] at h
    split
    · exact h
    · split
      · exact h
      · split <;> exact h

theorem extractWord_le (s : IStream) : (extractWord s).2.rest.length ≤ s.rest.length := by
  unfold extractWord
  split
  · simp
  · have h := (List.dropWhile_sublist (l := s.rest) isSpace).length_le
    split
    · simp
    · rename_i c cs hd
      rw [hd] at h
      simp only
      exact le_trans (List.dropWhile_sublist _).length_le h

/-- Reading a word from a good stream either consumes something or reaches the end. -/
theorem extractWord_progress (s : IStream) (h : s.good = true) :
    (extractWord s).2.rest.length < s.rest.length ∨ ((extractWord s).2.eof = true ∧ (extractWord s).1 = none) := by
  unfold extractWord
  rw [h]
  simp only [Bool.not_true, Bool.false_eq_true, if_false]
  have hl := (List.dropWhile_sublist (l := s.rest) isSpace).length_le
  have hh := List.head?_dropWhile_not isSpace s.rest
  split
  · exact Or.inr ⟨rfl, rfl⟩
  · rename_i c cs hd
    left
    rw [hd] at hl hh
    have hc : isSpace c = false := by simpa using hh
    simp only [List.dropWhile_cons, hc, Bool.not_false, if_true]
    have h2 := (List.dropWhile_sublist (l := cs) (fun c => !isSpace c)).length_le
    simp at hl
    omega

theorem extractNum_failed {α : Type} (zero : α) (scan : List Char → Option α × List Char) (s : IStream)
    (h : s.fail = true) : extractNum zero scan s = (none, s) := by
  cases s
  simp_all [extractNum, IStream.good]

theorem extractWord_failed (s : IStream) (h : s.fail = true) : extractWord s = (none, s) := by
  cases s
  simp_all [extractWord, IStream.good]

theorem extractBool_failed (s : IStream) (h : s.fail = true) : extractBool s = (none, s) := by
  have := extractNum_failed 0 scanInt s h
  unfold extractBool extractInt
  rw [this]

/-- A number format that satisfies all laws: integers, printed exactly. -/
def intFormat : NumFormat ℤ where
  fmt := printInt
  scan := scanInt
  atof := atoi
  round := id
  fmt_ne := printInt_ne_nil
  fmt_no_space := printInt_no_space
  scan_fmt := fun x rest h => scanInt_printInt x rest (not_digit_head h)
  scan_le := scanInt_le
  atof_fmt := atoi_printInt
  round_zero := rfl
  fmt_int := fun z _ => by simp

/-- A lossy number format that satisfies all laws: rationals, printed without fractional part. -/
def floorFormat : NumFormat ℚ where
  fmt := fun x => printInt ⌊x⌋
  scan := fun l => ((scanInt l).1.map (fun z : ℤ => (z : ℚ)), (scanInt l).2)
  atof := fun l => (atoi l : ℚ)
  round := fun x => (⌊x⌋ : ℚ)
  fmt_ne := fun x => printInt_ne_nil _
  fmt_no_space := fun x => printInt_no_space _
  scan_fmt := fun x rest h => by rw [scanInt_printInt _ rest (not_digit_head h)]; rfl
  scan_le := fun l => scanInt_le l
  atof_fmt := fun x => by rw [atoi_printInt]
  round_zero := by simp
  fmt_int := fun z _ => by simp

end Verif.Text
