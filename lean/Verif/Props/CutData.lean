import Verif.Props.FANN
import Verif.Props.CutFile

/-!
# C103: a FANN data file that was not written completely

The text of `save` is a header and a sequence of fields, each of which is a separator, padding and a number.  For every
data set and every position at which the text can break off: what `load` makes of the rest.
-/

set_option linter.unusedSectionVars false

namespace Verif.FANN

open Verif.Text
open Verif.NetFile (Greedy valueOf)

variable {K : Type} [IntCast K] [Zero K]

/-! ## Specification -/

/-- The text of a field: separators and padding, then the number. -/
def fieldText (F : NumFormat K) (f : List Char × K) : List Char := f.1 ++ F.fmt f.2

/-- What is to be read from the first `m` characters of a sequence of fields: all numbers that are complete; then, if
characters of the next number are there, their value; nothing for the others. -/
def cutNumbers (F : NumFormat K) : List (List Char × K) → ℕ → List (Option K)
  | [], _ => []
  | f :: fs, m =>
    if f.1.length + (F.fmt f.2).length ≤ m then
      some (F.round f.2) :: cutNumbers F fs (m - (f.1.length + (F.fmt f.2).length))
    else
      (if m ≤ f.1.length then none else some (valueOf F ((F.fmt f.2).take (m - f.1.length)))) ::
        List.replicate fs.length none

/-- The numbers of a data set in the order of the file. -/
def numbers {α : Type} (rows : List (List α × List α)) : List α := rows.flatMap (fun r => r.1 ++ r.2)

/-- The header without the end of the line. -/
def header (input output : Mat K) : List Char :=
  printInt input.rows.length ++ [' '] ++ printInt input.cols ++ [' '] ++ printInt output.cols

/-! ## Reading -/

theorem extract_failed (F : NumFormat K) (s : IStream) (h : s.good = false) :
    F.extract s = (none, { s with fail := true }) := by
  simp [NumFormat.extract, extractNum, h]

theorem loadRow_failed (F : NumFormat K) (n : ℕ) (s : IStream) (h : s.good = false) :
    (loadRow F n s).1 = List.replicate n none := by
  induction n generalizing s with
  | zero => rfl
  | succ n ih =>
    rw [loadRow, extract_failed F s h]
    simp only
    rw [ih _ (by simp [IStream.good])]
    rfl

theorem loadRow_add (F : NumFormat K) (a b : ℕ) (s : IStream) :
    loadRow F (a + b) s =
      ((loadRow F a s).1 ++ (loadRow F b (loadRow F a s).2).1, (loadRow F b (loadRow F a s).2).2) := by
  induction a generalizing s with
  | zero => simp [loadRow]
  | succ a ih =>
    rw [show a + 1 + b = (a + b) + 1 by omega, loadRow, loadRow]
    simp only
    rw [ih]
    rfl

theorem loadRow_length (F : NumFormat K) (n : ℕ) (s : IStream) : (loadRow F n s).1.length = n := by
  induction n generalizing s with
  | zero => rfl
  | succ n ih => rw [loadRow]; simp [ih]

/-- The loops read the numbers one after the other. -/
theorem loadRows_flat (F : NumFormat K) (D O n : ℕ) (s : IStream) :
    numbers (List.zip (loadRows F D O n s).1 (loadRows F D O n s).2) = (loadRow F (n * (D + O)) s).1 ∧
    (loadRows F D O n s).1.length = n ∧ (loadRows F D O n s).2.length = n ∧
    (∀ r ∈ (loadRows F D O n s).1, r.length = D) ∧ (∀ r ∈ (loadRows F D O n s).2, r.length = O) := by
  induction n generalizing s with
  | zero => simp [loadRows, loadRow, numbers]
  | succ n ih =>
    obtain ⟨h1, h2, h3, h4, h5⟩ := ih (loadRow F O (loadRow F D s).2).2
    rw [loadRows]
    simp only
    refine ⟨?_, by simp [h2], by simp [h3], ?_, ?_⟩
    · rw [show (n + 1) * (D + O) = D + (O + n * (D + O)) by ring, loadRow_add, loadRow_add]
      simp only [← h1]
      simp [numbers]
    · intro r hr
      rcases List.mem_cons.mp hr with rfl | hr
      · exact loadRow_length F D s
      · exact h4 r hr
    · intro r hr
      rcases List.mem_cons.mp hr with rfl | hr
      · exact loadRow_length F O _
      · exact h5 r hr

/-- The beginning of a number. -/
theorem extract_cut (F : NumFormat K) (hF : Greedy F) (ws : List Char) (hws : ∀ c ∈ ws, isSpace c = true) (x : K) (n : ℕ)
    (hn : 0 < n) :
    ∃ f, F.extract { rest := ws ++ (F.fmt x).take n } =
      (some (valueOf F ((F.fmt x).take n)), { rest := [], eof := true, fail := f }) := by
  have hne : (F.fmt x).take n ≠ [] := by
    have := F.fmt_ne x
    simp [List.take_eq_nil_iff, this]
    omega
  have hl : ∀ c ∈ (F.fmt x).take n, isSpace c = false := fun c hc => F.fmt_no_space x c (List.mem_of_mem_take hc)
  have hd : (ws ++ (F.fmt x).take n).dropWhile isSpace = (F.fmt x).take n := by
    have h2 := dropWhile_isSpace_of_no_space (rest := []) hne hl
    rw [List.append_nil] at h2
    rw [dropWhile_isSpace_append hws, h2]
  have hs := hF x n hn
  unfold valueOf
  generalize (F.fmt x).take n = l at hne hl hd hs
  obtain ⟨d, ds, rfl⟩ := List.exists_cons_of_ne_nil hne
  rw [NumFormat.extract, extractNum]
  simp only [IStream.good, Bool.not_false, Bool.and_self, Bool.not_true, Bool.false_eq_true, if_false]
  rw [hd]
  simp only
  rcases hsc : F.scan (d :: ds) with ⟨o, r⟩
  rw [hsc] at hs
  simp only at hs
  subst hs
  cases o with
  | none => exact ⟨true, rfl⟩
  | some a => exact ⟨false, rfl⟩

theorem loadRow_not_good (F : NumFormat K) (n : ℕ) (s : IStream) (h : s.good = false) :
    (loadRow F n s).2.good = false := by
  induction n generalizing s with
  | zero => exact h
  | succ n ih =>
    rw [loadRow, extract_failed F s h]
    exact ih _ (by simp [IStream.good])

/-- All fields of a sequence that breaks off. -/
theorem loadRow_cut (F : NumFormat K) (hF : Greedy F) (fs : List (List Char × K)) (tail : List Char)
    (hne : ∀ f ∈ fs.tail, f.1 ≠ []) (hfs : ∀ f ∈ fs, ∀ c ∈ f.1, isSpace c = true)
    (htail : ∀ c ∈ tail, isSpace c = true) (m : ℕ)
    (s : IStream) (hs : s.rest = (fs.flatMap (fieldText F) ++ tail).take m) (he : s.rest ≠ [] → s.eof = false)
    (hf : s.fail = false) : (loadRow F fs.length s).1 = cutNumbers F fs m ∧
      (m < (fs.flatMap (fieldText F)).length → (loadRow F fs.length s).2.good = false) := by
  induction fs generalizing m s with
  | nil => exact ⟨rfl, fun h => by simp at h⟩
  | cons f fs ih =>
    obtain ⟨ws, x⟩ := f
    have hws : ∀ c ∈ ws, isSpace c = true := hfs (ws, x) (by simp)
    have hx := F.fmt_ne x
    have hrest : (((ws, x) :: fs).flatMap (fieldText F) ++ tail) =
        ws ++ (F.fmt x ++ (fs.flatMap (fieldText F) ++ tail)) := by simp [fieldText]
    have hlength : (((ws, x) :: fs).flatMap (fieldText F)).length =
        ws.length + (F.fmt x).length + (fs.flatMap (fieldText F)).length := by
      simp [fieldText]; omega
    rw [hrest] at hs
    rw [cutNumbers, List.length_cons, hlength]
    by_cases h1 : ws.length + (F.fmt x).length ≤ m
    · rw [if_pos h1]
      have e : s.rest = ws ++ (F.fmt x ++ (fs.flatMap (fieldText F) ++ tail).take (m - (ws.length + (F.fmt x).length))) := by
        rw [hs, List.take_append, List.take_append, List.take_of_length_le (by omega),
          List.take_of_length_le (by omega), Nat.sub_sub]
      have hb : s.eof = false := he (by rw [e]; simp [hx])
      have es : s = { rest := ws ++ (F.fmt x ++
          (fs.flatMap (fieldText F) ++ tail).take (m - (ws.length + (F.fmt x).length))) } := by
        cases s
        simp_all
      have hhead : ∀ c ∈ ((fs.flatMap (fieldText F) ++ tail).take (m - (ws.length + (F.fmt x).length))).head?,
          isSpace c = true := by
        intro c hc
        have hc' : c ∈ (fs.flatMap (fieldText F) ++ tail).head? := by
          generalize fs.flatMap (fieldText F) ++ tail = l at hc
          cases hm : m - (ws.length + (F.fmt x).length) with
          | zero => rw [hm] at hc; simp at hc
          | succ k =>
            rw [hm] at hc
            cases l with
            | nil => simp at hc
            | cons a l => simpa using hc
        cases fs with
        | nil =>
          rw [List.flatMap_nil, List.nil_append] at hc'
          exact htail c (List.mem_of_mem_head? hc')
        | cons g fs =>
          obtain ⟨gw, y⟩ := g
          have hgne : gw ≠ [] := hne (gw, y) (by simp)
          have hgw : ∀ c ∈ gw, isSpace c = true := hfs (gw, y) (by simp)
          cases gw with
          | nil => exact absurd rfl hgne
          | cons a gw =>
            have : c = a := by simpa [fieldText, eq_comm] using hc'
            subst this
            exact hgw c (by simp)
      rw [loadRow, es, F.extract_ok ws _ x hws hhead]
      simp only
      obtain ⟨i1, i2⟩ := ih (fun f hf => hne f (by
          rw [List.tail_cons]; exact List.mem_of_mem_tail hf))
        (fun f hf => hfs f (by simp [hf])) (m - (ws.length + (F.fmt x).length))
        { rest := (fs.flatMap (fieldText F) ++ tail).take (m - (ws.length + (F.fmt x).length)),
          eof := ((fs.flatMap (fieldText F) ++ tail).take (m - (ws.length + (F.fmt x).length))).isEmpty,
          fail := false } rfl (fun h => by simpa using h) rfl
      exact ⟨by rw [i1], fun h => i2 (by omega)⟩
    · rw [if_neg h1]
      by_cases h2 : m ≤ ws.length
      · rw [if_pos h2]
        have e : s.rest = ws.take m := by
          rw [hs, List.take_append_of_le_length h2]
        have hg : ∃ s', F.extract s = (none, s') ∧ s'.good = false := by
          by_cases hm : s.eof = true
          · exact ⟨_, extract_failed F s (by simp [IStream.good, hm]), by simp [IStream.good]⟩
          · have hd : s.rest.dropWhile isSpace = [] := by
              have := dropWhile_isSpace_append (l := []) (ws := s.rest) (by
                rw [e]; exact fun c hc => hws c (List.mem_of_mem_take hc))
              simpa using this
            refine ⟨{ rest := [], eof := true, fail := true }, ?_, rfl⟩
            simp [NumFormat.extract, extractNum, IStream.good, hm, hf, hd]
        obtain ⟨s', hs', hg'⟩ := hg
        rw [loadRow, hs']
        simp only
        exact ⟨by rw [loadRow_failed F _ s' hg'], fun _ => loadRow_not_good F _ s' hg'⟩
      · rw [if_neg h2]
        have e : s.rest = ws ++ (F.fmt x).take (m - ws.length) := by
          rw [hs, List.take_append, List.take_of_length_le (by omega),
            List.take_append_of_le_length (by omega)]
        have hb : s.eof = false := he (by
          rw [e]
          simp only [ne_eq, List.append_eq_nil_iff, List.take_eq_nil_iff, hx, or_false, not_and]
          omega)
        have es : s = { rest := ws ++ (F.fmt x).take (m - ws.length) } := by
          cases s
          simp_all
        obtain ⟨b, hx⟩ := extract_cut F hF ws hws x (m - ws.length) (by omega)
        rw [loadRow, es, hx]
        simp only
        exact ⟨by rw [loadRow_failed F _ _ (by simp [IStream.good])],
          fun _ => loadRow_not_good F _ _ (by simp [IStream.good])⟩

/-! ## The text of `save` as a sequence of fields -/

/-- The fields of a row that is aligned to width `w`; `ws` precedes it. -/
def rowFields (F : NumFormat K) (w : ℕ) : List Char → List K → List (List Char × K)
  | _, [] => []
  | ws, x :: xs => (ws ++ List.replicate (w - (F.fmt x).length) ' ', x) :: rowFields F w [' '] xs

/-- What precedes the next row. -/
def after (ws : List Char) (xs : List K) : List Char := (if xs.isEmpty then ws else []) ++ ['\n']

/-- The fields of the data after the header; `ws` precedes them. -/
def fieldsFrom (F : NumFormat K) : List Char → List (List K × List K) → List (List Char × K)
  | _, [] => []
  | ws, r :: rs =>
    rowFields F (maxWidth (r.1.map F.fmt)) ws r.1 ++
      (rowFields F (maxWidth (r.2.map F.fmt)) (after ws r.1) r.2 ++ fieldsFrom F (after (after ws r.1) r.2) rs)

/-- The whitespace at the end of the file. -/
def rest : List Char → List (List K × List K) → List Char
  | ws, [] => ws
  | ws, r :: rs => rest (after (after ws r.1) r.2) rs

/-- The fields of a data set. -/
def fields (F : NumFormat K) (input output : Mat K) : List (List Char × K) :=
  fieldsFrom F ['\n'] (List.zip input.rows output.rows)

theorem rowFields_text (F : NumFormat K) (w : ℕ) (ws : List Char) (xs : List K) (more : List Char) :
    ws ++ (joinWith [' '] ((xs.map F.fmt).map (padLeft w)) ++ '\n' :: more) =
      (rowFields F w ws xs).flatMap (fieldText F) ++ (after ws xs ++ more) := by
  induction xs generalizing ws with
  | nil => simp [joinWith, rowFields, after]
  | cons x xs ih =>
    cases xs with
    | nil => simp [joinWith, rowFields, after, fieldText, padLeft]
    | cons y ys =>
      have := ih [' ']
      simp only [List.map_cons, joinWith, List.cons_append, List.nil_append] at this ⊢
      rw [rowFields]
      simp only [List.flatMap_cons, fieldText, padLeft, List.append_assoc, after, List.isEmpty_cons,
        Bool.false_eq_true, if_false, List.nil_append] at this ⊢
      rw [← this]
      simp

theorem fieldsFrom_text (F : NumFormat K) (ws : List Char) (rs : List (List K × List K)) :
    ws ++ rs.flatMap (fun r => printRow (r.1.map F.fmt) ++ ['\n'] ++ printRow (r.2.map F.fmt) ++ ['\n']) =
      (fieldsFrom F ws rs).flatMap (fieldText F) ++ rest ws rs := by
  induction rs generalizing ws with
  | nil => simp [fieldsFrom, rest]
  | cons r rs ih =>
    have e : ws ++ (r :: rs).flatMap (fun r => printRow (r.1.map F.fmt) ++ ['\n'] ++ printRow (r.2.map F.fmt) ++ ['\n']) =
        ws ++ (joinWith [' '] ((r.1.map F.fmt).map (padLeft (maxWidth (r.1.map F.fmt)))) ++
          '\n' :: (printRow (r.2.map F.fmt) ++ ['\n'] ++ rs.flatMap (fun r =>
            printRow (r.1.map F.fmt) ++ ['\n'] ++ printRow (r.2.map F.fmt) ++ ['\n']))) := by
      simp [printRow]
    rw [e, rowFields_text]
    have e2 : after ws r.1 ++ (printRow (r.2.map F.fmt) ++ ['\n'] ++ rs.flatMap (fun r =>
            printRow (r.1.map F.fmt) ++ ['\n'] ++ printRow (r.2.map F.fmt) ++ ['\n'])) =
        after ws r.1 ++ (joinWith [' '] ((r.2.map F.fmt).map (padLeft (maxWidth (r.2.map F.fmt)))) ++
          '\n' :: rs.flatMap (fun r =>
            printRow (r.1.map F.fmt) ++ ['\n'] ++ printRow (r.2.map F.fmt) ++ ['\n'])) := by
      simp [printRow]
    rw [e2, rowFields_text, ih]
    simp [fieldsFrom, rest]

theorem after_space {ws : List Char} (xs : List K) (h : ∀ c ∈ ws, isSpace c = true) :
    ∀ c ∈ after ws xs, isSpace c = true := by
  intro c hc
  rcases List.mem_append.mp hc with hc | hc
  · split at hc
    · exact h c hc
    · cases hc
  · rw [List.mem_singleton.mp hc]; decide

theorem after_ne (ws : List Char) (xs : List K) : after ws xs ≠ [] := by simp [after]

theorem rowFields_space (F : NumFormat K) (w : ℕ) (ws : List Char) (hne : ws ≠ []) (h : ∀ c ∈ ws, isSpace c = true)
    (xs : List K) : ∀ f ∈ rowFields F w ws xs, f.1 ≠ [] ∧ ∀ c ∈ f.1, isSpace c = true := by
  induction xs generalizing ws with
  | nil => intro f hf; cases hf
  | cons x xs ih =>
    intro f hf
    rw [rowFields] at hf
    rcases List.mem_cons.mp hf with rfl | hf
    · refine ⟨by simp [hne], fun c hc => ?_⟩
      rcases List.mem_append.mp hc with hc | hc
      · exact h c hc
      · rw [List.eq_of_mem_replicate hc]; decide
    · exact ih [' '] (by simp) (by simp [isSpace_blank]) f hf

theorem fieldsFrom_space (F : NumFormat K) (ws : List Char) (hne : ws ≠ []) (h : ∀ c ∈ ws, isSpace c = true)
    (rs : List (List K × List K)) :
    (∀ f ∈ fieldsFrom F ws rs, f.1 ≠ [] ∧ ∀ c ∈ f.1, isSpace c = true) ∧ ∀ c ∈ rest ws rs, isSpace c = true := by
  induction rs generalizing ws with
  | nil => exact ⟨fun f hf => (by simp [fieldsFrom] at hf), h⟩
  | cons r rs ih =>
    have h1 := after_space r.1 h
    have h2 := after_space r.2 h1
    obtain ⟨h3, h4⟩ := ih _ (after_ne _ _) h2
    refine ⟨fun f hf => ?_, h4⟩
    rw [fieldsFrom] at hf
    rcases List.mem_append.mp hf with hf | hf
    · exact rowFields_space F _ ws hne h r.1 f hf
    · rcases List.mem_append.mp hf with hf | hf
      · exact rowFields_space F _ _ (after_ne _ _) h1 r.2 f hf
      · exact h3 f hf

theorem rowFields_numbers (F : NumFormat K) (w : ℕ) (ws : List Char) (xs : List K) :
    (rowFields F w ws xs).map Prod.snd = xs := by
  induction xs generalizing ws with
  | nil => rfl
  | cons x xs ih => rw [rowFields, List.map_cons, ih]

/-- The fields contain the numbers of the data set in the order of the file. -/
theorem fieldsFrom_numbers (F : NumFormat K) (ws : List Char) (rs : List (List K × List K)) :
    (fieldsFrom F ws rs).map Prod.snd = numbers rs := by
  induction rs generalizing ws with
  | nil => rfl
  | cons r rs ih =>
    rw [fieldsFrom, List.map_append, List.map_append, rowFields_numbers, rowFields_numbers, ih]
    simp [numbers]

/-- The text of `save` is the header, the fields and whitespace. -/
theorem save_text (F : NumFormat K) (input output : Mat K) (hrows : input.rows.length = output.rows.length) :
    save F input output = .ok (header input output ++ ((fields F input output).flatMap (fieldText F) ++
      rest ['\n'] (List.zip input.rows output.rows))) := by
  rw [save, Outcome.check_true hrows]
  have := fieldsFrom_text F ['\n'] (List.zip input.rows output.rows)
  rw [fields, ← this]
  simp [header]

theorem numbers_length {α : Type} (rs : List (List α × List α)) (D O : ℕ) (h : ∀ r ∈ rs, r.1.length = D ∧ r.2.length = O) :
    (numbers rs).length = rs.length * (D + O) := by
  induction rs with
  | nil => simp [numbers]
  | cons r rs ih =>
    obtain ⟨h1, h2⟩ := h r (by simp)
    have := ih (fun r hr => h r (by simp [hr]))
    unfold numbers at this ⊢
    rw [List.flatMap_cons, List.length_append, this, List.length_append, h1, h2, List.length_cons]
    ring

theorem fields_length (F : NumFormat K) (input output : Mat K) (hi : input.WF) (ho : output.WF)
    (hrows : input.rows.length = output.rows.length) :
    (fields F input output).length = input.rows.length * (input.cols + output.cols) := by
  have h := congrArg List.length (fieldsFrom_numbers F ['\n'] (List.zip input.rows output.rows))
  rw [List.length_map, numbers_length _ input.cols output.cols (fun r hr => by
    obtain ⟨a, b⟩ := r
    exact ⟨hi a (List.of_mem_zip hr).1, ho b (List.of_mem_zip hr).2⟩), List.length_zip, ← hrows, min_self] at h
  exact h

/-! ## The file breaks off behind the header -/

/-- **C103, behind the header.** A file that breaks off is loaded as if it was complete: the same number of
instances is returned, the matrices have the same shapes, the numbers that are complete are there, one may be wrong, and
the others are indeterminate. -/
theorem cut_data (F : NumFormat K) (hF : Greedy F) (input output : Mat K) (hi : input.WF) (ho : output.WF)
    (hrows : input.rows.length = output.rows.length) (m : ℕ) :
    ∃ text ins outs, save F input output = .ok text ∧
      loadFile F (some (text.take ((header input output).length + m))) = .ok ((input.rows.length : ℤ),
        { cols := input.cols, rows := ins }, { cols := output.cols, rows := outs }) ∧
      ins.length = input.rows.length ∧ outs.length = output.rows.length ∧
      (∀ r ∈ ins, r.length = input.cols) ∧ (∀ r ∈ outs, r.length = output.cols) ∧
      numbers (List.zip ins outs) = cutNumbers F (fields F input output) m := by
  have hsp := fieldsFrom_space F ['\n'] (by simp) (by simp [isSpace_newline]) (List.zip input.rows output.rows)
  obtain ⟨body, hbody⟩ : ∃ b, b = (fields F input output).flatMap (fieldText F) ++
      rest ['\n'] (List.zip input.rows output.rows) := ⟨_, rfl⟩
  have hhead : ∀ c ∈ (body.take m).head?, isSpace c = true := by
    intro c hc
    have h1 := fieldsFrom_text F ['\n'] (List.zip input.rows output.rows)
    rw [hbody, fields, ← h1] at hc
    cases m with
    | zero => simp at hc
    | succ k =>
      simp only [List.cons_append, List.take_succ_cons, List.head?_cons, Option.mem_def, Option.some.injEq] at hc
      rw [← hc]; decide
  let s : IStream := { rest := body.take m, eof := (body.take m).isEmpty, fail := false }
  have hcut := (loadRow_cut F hF (fields F input output) (rest ['\n'] (List.zip input.rows output.rows))
    (fun f hf => (hsp.1 f (List.mem_of_mem_tail hf)).1) (fun f hf => (hsp.1 f hf).2) hsp.2 m s
    (by rw [← hbody]) (fun h => by simpa [s] using h) rfl).1
  obtain ⟨h1, h2, h3, h4, h5⟩ := loadRows_flat F input.cols output.cols input.rows.length s
  rw [fields_length F input output hi ho hrows] at hcut
  refine ⟨_, (loadRows F input.cols output.cols input.rows.length s).1,
    (loadRows F input.cols output.cols input.rows.length s).2, save_text F input output hrows, ?_, h2, h3.trans hrows,
    h4, h5, by rw [h1, hcut]⟩
  rw [← hbody, List.take_length_add_append]
  have e1 := extractInt_ok [] (' ' :: (printInt input.cols ++ ' ' :: (printInt output.cols ++ body.take m)))
    input.rows.length (by simp) (by simp [isSpace_blank])
  have e2 := extractInt_ok [' '] (' ' :: (printInt output.cols ++ body.take m)) input.cols
    (by simp [isSpace_blank]) (by simp [isSpace_blank])
  have e3 := extractInt_ok [' '] (body.take m) output.cols (by simp [isSpace_blank]) hhead
  have e : header input output ++ body.take m = printInt input.rows.length ++
        (' ' :: (printInt input.cols ++ ' ' :: (printInt output.cols ++ body.take m))) := by simp [header]
  simp only [List.nil_append, List.cons_append, List.isEmpty_cons] at e1 e2 e3
  simp only [loadFile, load, IStream.of, e]
  rw [e1]
  simp only
  rw [e2]
  simp only
  rw [e3]
  simp only [size_natCast, Outcome.ok_bind]
  rfl

/-- What `cutNumbers` says: everything before the number that breaks off is complete, everything behind it is missing. -/
theorem cutNumbers_split (F : NumFormat K) (as bs : List (List Char × K)) (f : List Char × K) (k : ℕ)
    (hk : k < f.1.length + (F.fmt f.2).length) :
    cutNumbers F (as ++ f :: bs) ((as.flatMap (fieldText F)).length + k) =
      as.map (fun a => some (F.round a.2)) ++
        (if k ≤ f.1.length then none else some (valueOf F ((F.fmt f.2).take (k - f.1.length)))) ::
          List.replicate bs.length none := by
  induction as with
  | nil =>
    simp only [List.nil_append, List.flatMap_nil, List.length_nil, Nat.zero_add, List.map_nil]
    rw [cutNumbers, if_neg (by omega)]
  | cons a as ih =>
    have e : ((a :: as).flatMap (fieldText F)).length + k =
        a.1.length + (F.fmt a.2).length + ((as.flatMap (fieldText F)).length + k) := by
      simp only [List.flatMap_cons, List.length_append, fieldText]; omega
    rw [e, List.cons_append, cutNumbers, if_pos (by omega), Nat.add_sub_cancel_left, ih]
    rfl

/-- Nothing is missing if all fields are there. -/
theorem cutNumbers_complete (F : NumFormat K) (as : List (List Char × K)) (m : ℕ)
    (hm : (as.flatMap (fieldText F)).length ≤ m) : cutNumbers F as m = as.map (fun a => some (F.round a.2)) := by
  induction as generalizing m with
  | nil => rfl
  | cons a as ih =>
    have e : ((a :: as).flatMap (fieldText F)).length =
        a.1.length + (F.fmt a.2).length + (as.flatMap (fieldText F)).length := by
      simp only [List.flatMap_cons, List.length_append, fieldText]
    rw [e] at hm
    rw [cutNumbers, if_pos (by omega), ih _ (by omega)]
    rfl

/-! ## The file breaks off within the header -/

theorem intFormat_greedy : Greedy intFormat := fun x n _ => NetFile.scanInt_greedy x n

theorem size_cases (z : Option ℤ) : size z = .ub ∨ ∃ n, size z = .ok n := by
  cases z with
  | none => exact Or.inl rfl
  | some z =>
    by_cases h : z < 0
    · exact Or.inl (by simp [size, h])
    · exact Or.inr ⟨z.toNat, by simp [size, h]⟩

/-- The three numbers of the header. -/
def headerFields (input output : Mat K) : List (List Char × ℤ) :=
  [([], (input.rows.length : ℤ)), ([' '], (input.cols : ℤ)), ([' '], (output.cols : ℤ))]

theorem headerFields_text (input output : Mat K) :
    (headerFields input output).flatMap (fieldText intFormat) = header input output := by
  simp [headerFields, fieldText, header, intFormat]

/-- `load` in terms of the numbers in the header. -/
theorem load_header (F : NumFormat K) (s : IStream) :
    ∃ a b c, (loadRow intFormat 3 s).1 = [a, b, c] ∧
      load F s = (do
        let n ← size a
        let d ← size b
        let o ← size c
        return ((n : ℤ), { cols := d, rows := (loadRows F d o n (loadRow intFormat 3 s).2).1 },
          { cols := o, rows := (loadRows F d o n (loadRow intFormat 3 s).2).2 })) :=
  ⟨_, _, _, rfl, rfl⟩

theorem headerCut (input output : Mat K) (body : List Char) (m : ℕ) (hm : m < (header input output).length) :
    (loadRow intFormat 3 (IStream.of ((header input output ++ body).take m))).1 =
      cutNumbers intFormat (headerFields input output) m ∧
    (loadRow intFormat 3 (IStream.of ((header input output ++ body).take m))).2.good = false := by
  have h := loadRow_cut intFormat intFormat_greedy (headerFields input output) [] (by simp [headerFields])
    (by simp [headerFields, isSpace_blank]) (by simp) m (IStream.of ((header input output ++ body).take m))
    (by rw [headerFields_text, List.append_nil, List.take_append_of_le_length hm.le]; rfl) (fun _ => rfl) rfl
  rw [headerFields_text] at h
  exact ⟨h.1, h.2 hm⟩

/-- The length of the header up to the third number. -/
def header2 (input : Mat K) : ℕ :=
  (printInt input.rows.length).length + 1 + (printInt input.cols).length + 1

theorem header_length (input output : Mat K) :
    (header input output).length = header2 input + (printInt output.cols).length := by
  simp [header, header2]; omega

theorem size_none_ub {a b c : Option ℤ} {β : Type} (f : ℕ → ℕ → ℕ → β)
    (h : c = none) : (do
        let n ← size a
        let d ← size b
        let o ← size c
        return f n d o : Outcome β) = .ub := by
  subst h
  rcases size_cases a with ha | ⟨n, ha⟩ <;> rw [ha]
  · rfl
  rcases size_cases b with hb | ⟨d, hb⟩ <;> rw [hb]
  · rfl
  · rfl

/-- **C103, in the header.** A file that breaks off before the third number of the header makes the reader resize
matrices to the value of an uninitialised variable. -/
theorem cut_header_ub (F : NumFormat K) (input output : Mat K)
    (hrows : input.rows.length = output.rows.length) (m : ℕ) (hm : m ≤ header2 input) :
    ∃ text, save F input output = .ok text ∧ loadFile F (some (text.take m)) = .ub := by
  have hpos : 0 < (printInt output.cols).length := List.length_pos_iff.mpr (printInt_ne_nil _)
  refine ⟨_, save_text F input output hrows, ?_⟩
  obtain ⟨h1, -⟩ := headerCut input output ((fields F input output).flatMap (fieldText F) ++
      rest ['\n'] (List.zip input.rows output.rows)) m (by rw [header_length]; omega)
  simp only [loadFile]
  obtain ⟨a, b, c, habc, hl⟩ := load_header F (IStream.of ((header input output ++ ((fields F input output).flatMap (fieldText F) ++
      rest ['\n'] (List.zip input.rows output.rows))).take m))
  rw [hl]
  apply size_none_ub
  rw [habc] at h1
  simp only [headerFields, cutNumbers, List.length_nil, List.length_cons, header2, intFormat] at h1 hm
  repeat' split at h1
  all_goals first
    | (simp at h1; exact h1.2.2)
    | omega

theorem printNat_take (n k : ℕ) (h : 0 < k) (hk : k ≤ (printNat n).length) :
    (printNat n).take k = printNat (n / 10 ^ ((printNat n).length - k)) := by
  induction n using Nat.strong_induction_on generalizing k with
  | _ n ih =>
    by_cases hl : k = (printNat n).length
    · rw [hl]; simp
    · have hlt : k < (printNat n).length := by omega
      by_cases hn : n < 10
      · rw [printNat, if_pos hn] at hlt
        simp at hlt; omega
      · have e : printNat n = printNat (n / 10) ++ [digitChar (n % 10)] := by
          conv_lhs => rw [printNat, if_neg hn]
        rw [e] at hlt ⊢
        rw [List.length_append, List.length_singleton] at hlt ⊢
        rw [List.take_append_of_le_length (by omega), ih (n / 10) (by omega) k h (by omega)]
        congr 1
        rw [Nat.div_div_eq_div_mul, ← pow_succ']
        congr 2
        omega

theorem valueOf_take (n k : ℕ) (h : 0 < k) (hk : k ≤ (printInt n).length) :
    valueOf intFormat ((printInt n).take k) = ((n / 10 ^ ((printInt n).length - k) : ℕ) : ℤ) := by
  have e : ∀ j : ℕ, printInt (j : ℤ) = printNat j := fun j => by
    rw [printInt, if_neg (by omega)]; rfl
  rw [e] at hk ⊢
  rw [printNat_take n k h hk, ← e]
  have := scanInt_printInt (n / 10 ^ ((printNat n).length - k) : ℕ) [] (by simp)
  rw [List.append_nil] at this
  simp only [valueOf, intFormat, this, Option.getD_some]

/-- **C103, in the last number of the header.** The reader takes the digits that are there for the number of outputs
and returns matrices without a single value. -/
theorem cut_outputs_fails (F : NumFormat K) (input output : Mat K)
    (hrows : input.rows.length = output.rows.length) (k : ℕ) (hk0 : 0 < k) (hk : k < (printInt output.cols).length) :
    ∃ text, save F input output = .ok text ∧
      loadFile F (some (text.take (header2 input + k))) = .ok ((input.rows.length : ℤ),
        { cols := input.cols, rows := List.replicate input.rows.length (List.replicate input.cols none) },
        { cols := output.cols / 10 ^ ((printInt output.cols).length - k),
          rows := List.replicate input.rows.length
            (List.replicate (output.cols / 10 ^ ((printInt output.cols).length - k)) none) }) := by
  refine ⟨_, save_text F input output hrows, ?_⟩
  obtain ⟨h1, hgood⟩ := headerCut input output ((fields F input output).flatMap (fieldText F) ++
      rest ['\n'] (List.zip input.rows output.rows)) (header2 input + k) (by rw [header_length]; omega)
  simp only [loadFile]
  obtain ⟨a, b, c, habc, hl⟩ := load_header F (IStream.of ((header input output ++ ((fields F input output).flatMap (fieldText F) ++
      rest ['\n'] (List.zip input.rows output.rows))).take (header2 input + k)))
  rw [hl]
  rw [habc] at h1
  have hv := valueOf_take output.cols k hk0 hk.le
  have hc : a = some (input.rows.length : ℤ) ∧ b = some (input.cols : ℤ) ∧
      c = some ((output.cols / 10 ^ ((printInt output.cols).length - k) : ℕ) : ℤ) := by
    rw [← hv]
    simp only [headerFields, cutNumbers, List.length_nil, List.length_cons] at h1
    have f : ∀ z, intFormat.fmt z = printInt z := fun _ => rfl
    simp only [f, header2] at h1
    rw [if_pos (by omega), if_pos (by omega), if_neg (by omega), if_neg (by omega)] at h1
    simp only [List.cons.injEq, intFormat, id] at h1
    refine ⟨h1.1, h1.2.1, h1.2.2.1.trans ?_⟩
    congr 3
    omega
  obtain ⟨rfl, rfl, rfl⟩ := hc
  simp only [size_natCast, Outcome.ok_bind]
  generalize (loadRow intFormat 3 _).2 = s at hgood
  have hr : ∀ D O n (s : IStream), s.good = false → loadRows F D O n s =
      (List.replicate n (List.replicate D none), List.replicate n (List.replicate O none)) := by
    intro D O n
    induction n with
    | zero => intro s _; rfl
    | succ n ih =>
      intro s hs
      rw [loadRows]
      simp only
      rw [loadRow_failed F _ _ hs, loadRow_failed F _ _ (loadRow_not_good F _ _ hs),
        ih _ (loadRow_not_good F _ _ (loadRow_not_good F _ _ hs))]
      rfl
  rw [hr _ _ _ _ hgood]
  rfl

/-! ## The hypotheses are met -/

/-- "2 2 1", then "1 -20" and "5", "300 4" and "0"; the file breaks off after "30": six numbers are expected, the
fourth one is wrong and two are missing. -/
example : cutNumbers intFormat (fields intFormat ⟨2, [[1, -20], [300, 4]]⟩ ⟨1, [[5], [0]]⟩) 13 =
    [some 1, some (-20), some 5, some 30, none, none] := by
  have h1 : printInt 1 = ['1'] := by simp [printInt, printNat]; decide
  have h2 : printInt (-20) = ['-', '2', '0'] := by simp [printInt, printNat]; decide
  have h3 : printInt 300 = ['3', '0', '0'] := by simp [printInt, printNat]; decide
  have h4 : printInt 4 = ['4'] := by simp [printInt, printNat]; decide
  have h5 : printInt 5 = ['5'] := by simp [printInt, printNat]; decide
  have h0 : printInt 0 = ['0'] := by simp [printInt, printNat]; decide
  have hs : scanInt ['3', '0'] = (some 30, []) := by decide
  simp [fields, fieldsFrom, rowFields, after, cutNumbers, intFormat, h0, h1, h2, h3, h4, h5, maxWidth, valueOf, hs]

example (m : ℕ) : ∃ text ins outs, save intFormat ⟨2, [[1, -20], [300, 4]]⟩ ⟨1, [[5], [0]]⟩ = .ok text ∧
    loadFile intFormat (some (text.take
      ((header (⟨2, [[1, -20], [300, 4]]⟩ : Mat ℤ) ⟨1, [[5], [0]]⟩).length + m))) = .ok (2, ⟨2, ins⟩, ⟨1, outs⟩) := by
  obtain ⟨t, i, o, h1, h2, -⟩ := cut_data intFormat intFormat_greedy ⟨2, [[1, -20], [300, 4]]⟩ ⟨1, [[5], [0]]⟩
    (by simp [Mat.WF]) (by simp [Mat.WF]) rfl m
  exact ⟨t, i, o, h1, h2⟩

/-- Twelve outputs become one. -/
example : ∃ text, save intFormat ⟨1, [[7]]⟩ ⟨12, [[1, 2, 3, 4, 5, 6, 7, 8, 9, 10, 11, 12]]⟩ = .ok text ∧
    loadFile intFormat (some (text.take 5)) = .ok (1, ⟨1, [[none]]⟩, ⟨1, [[none]]⟩) := by
  have h1 : printInt 1 = ['1'] := by simp [printInt, printNat]; decide
  have h12 : printInt 12 = ['1', '2'] := by simp [printInt, printNat]; decide
  have := cut_outputs_fails intFormat ⟨1, [[7]]⟩ ⟨12, [[1, 2, 3, 4, 5, 6, 7, 8, 9, 10, 11, 12]]⟩ rfl 1 (by decide)
    (by simp [h12])
  simpa [header2, h1, h12] using this

end Verif.FANN
