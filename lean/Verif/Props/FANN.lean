import Verif.Model.FANN
import Verif.Lemmas.Text

/-!
# C12: FANN files round-trip
-/

namespace Verif.FANN

open Verif.Text

variable {K : Type} [IntCast K] [Zero K]

theorem size_natCast (n : ℕ) : size (some (n : ℤ)) = .ok n := by
  simp [size, show ¬ ((n : ℤ) < 0) by omega]

theorem loadRow_join (F : NumFormat K) (w : ℕ) (xs : List K) (ws rest : List Char)
    (hws : ∀ c ∈ ws, isSpace c = true) :
    ∃ ws' : List Char, (∀ c ∈ ws', isSpace c = true) ∧
      loadRow F xs.length
        { rest := ws ++ (joinWith [' '] ((xs.map F.fmt).map (padLeft w)) ++ '\n' :: rest) } =
      (xs.map (fun x => some (F.round x)), { rest := ws' ++ '\n' :: rest }) := by
  induction xs generalizing ws with
  | nil => exact ⟨ws, hws, by simp [loadRow, joinWith]⟩
  | cons x xs ih =>
    obtain ⟨p, hp, hpe⟩ := padLeft_eq w (F.fmt x)
    have hwsp : ∀ c ∈ ws ++ p, isSpace c = true := by
      intro c hc
      rcases List.mem_append.mp hc with h | h
      · exact hws c h
      · exact hp c h
    cases xs with
    | nil =>
      refine ⟨[], by simp, ?_⟩
      have h := F.extract_ok (ws ++ p) ('\n' :: rest) x hwsp (by simp [isSpace_newline])
      have e : ws ++ (joinWith [' '] (([x].map F.fmt).map (padLeft w)) ++ '\n' :: rest) =
          ws ++ p ++ (F.fmt x ++ '\n' :: rest) := by
        simp [joinWith, hpe]
      rw [e, List.length_singleton, loadRow, h]
      rfl
    | cons y ys =>
      obtain ⟨ws', hws', h'⟩ := ih [' '] (by simp [isSpace_blank])
      refine ⟨ws', hws', ?_⟩
      have e : ws ++ (joinWith [' '] (((x :: y :: ys).map F.fmt).map (padLeft w)) ++ '\n' :: rest) =
          ws ++ p ++ (F.fmt x ++ ([' '] ++
            (joinWith [' '] (((y :: ys).map F.fmt).map (padLeft w)) ++ '\n' :: rest))) := by
        simp [joinWith, hpe]
      rw [e]
      have h := F.extract_ok (ws ++ p) ([' '] ++
            (joinWith [' '] (((y :: ys).map F.fmt).map (padLeft w)) ++ '\n' :: rest)) x hwsp
            (by simp [isSpace_blank])
      rw [List.length_cons, loadRow, h]
      simp only [List.cons_append, List.nil_append, List.isEmpty_cons] at h' ⊢
      rw [h']
      rfl

theorem loadRows_save (F : NumFormat K) (D O : ℕ) (ins outs : List (List K)) (ws : List Char)
    (hws : ∀ c ∈ ws, isSpace c = true) (hlen : ins.length = outs.length)
    (hi : ∀ r ∈ ins, r.length = D) (ho : ∀ r ∈ outs, r.length = O) :
    loadRows F D O ins.length { rest := ws ++ (List.zip ins outs).flatMap (fun r =>
      printRow (r.1.map F.fmt) ++ ['\n'] ++ printRow (r.2.map F.fmt) ++ ['\n']) } =
    (ins.map (·.map (fun x => some (F.round x))), outs.map (·.map (fun x => some (F.round x)))) := by
  induction ins generalizing outs ws with
  | nil => cases outs with
    | nil => rfl
    | cons o os => simp at hlen
  | cons r rs ih =>
    cases outs with
    | nil => simp at hlen
    | cons t ts =>
      have hr : r.length = D := hi r (by simp)
      have ht : t.length = O := ho t (by simp)
      let tail := (List.zip rs ts).flatMap (fun r =>
        printRow (r.1.map F.fmt) ++ ['\n'] ++ printRow (r.2.map F.fmt) ++ ['\n'])
      obtain ⟨w1, hw1, h1⟩ := loadRow_join F (maxWidth (r.map F.fmt)) r ws
        (printRow (t.map F.fmt) ++ '\n' :: tail) hws
      obtain ⟨w2, hw2, h2⟩ := loadRow_join F (maxWidth (t.map F.fmt)) t (w1 ++ ['\n']) tail
        (by intro c hc
            rcases List.mem_append.mp hc with h | h
            · exact hw1 c h
            · simp only [List.mem_singleton] at h; subst h; decide)
      have h3 := ih ts (w2 ++ ['\n'])
        (by intro c hc
            rcases List.mem_append.mp hc with h | h
            · exact hw2 c h
            · simp only [List.mem_singleton] at h; subst h; decide)
        (by simpa using hlen) (fun r hr => hi r (by simp [hr])) (fun r hr => ho r (by simp [hr]))
      have e : ws ++ (List.zip (r :: rs) (t :: ts)).flatMap (fun r =>
          printRow (r.1.map F.fmt) ++ ['\n'] ++ printRow (r.2.map F.fmt) ++ ['\n']) =
          ws ++ (joinWith [' '] ((r.map F.fmt).map (padLeft (maxWidth (r.map F.fmt)))) ++
            '\n' :: (printRow (t.map F.fmt) ++ '\n' :: tail)) := by
        simp [tail, printRow]
      rw [e, List.length_cons, loadRows]
      rw [hr] at h1
      rw [h1]
      simp only
      rw [ht] at h2
      have e2 : w1 ++ '\n' :: (printRow (t.map F.fmt) ++ '\n' :: tail) =
          w1 ++ ['\n'] ++ (joinWith [' '] ((t.map F.fmt).map (padLeft (maxWidth (t.map F.fmt)))) ++
            '\n' :: tail) := by simp [printRow]
      rw [e2, h2]
      simp only
      have e3 : w2 ++ '\n' :: tail = w2 ++ ['\n'] ++ tail := by simp
      rw [e3, h3]
      rfl

/-- **C12.** For every number format, every shape and all values: the writer accepts two
matrices with equally many rows and the reader rebuilds from its text the number of instances, both matrices' shapes and,
at every position, the number that the printed text denotes. -/
theorem fann_round_trip (F : NumFormat K) (input output : Mat K) (hi : input.WF) (ho : output.WF)
    (hrows : input.rows.length = output.rows.length) :
    ∃ text, save F input output = .ok text ∧
      loadFile F (some text) = .ok ((input.rows.length : ℤ),
        { cols := input.cols, rows := input.rows.map (·.map (fun x => some (F.round x))) },
        { cols := output.cols, rows := output.rows.map (·.map (fun x => some (F.round x))) }) := by
  let body := (List.zip input.rows output.rows).flatMap (fun r =>
      printRow (r.1.map F.fmt) ++ ['\n'] ++ printRow (r.2.map F.fmt) ++ ['\n'])
  refine ⟨_, by rw [save, Outcome.check_true hrows]; rfl, ?_⟩
  have h1 := extractInt_ok [] (' ' :: (printInt input.cols ++ ' ' :: (printInt output.cols ++ '\n' :: body)))
    input.rows.length (by simp) (by simp [isSpace_blank])
  have h2 := extractInt_ok [' '] (' ' :: (printInt output.cols ++ '\n' :: body)) input.cols
    (by simp [isSpace_blank]) (by simp [isSpace_blank])
  have h3 := extractInt_ok [' '] ('\n' :: body) output.cols
    (by simp [isSpace_blank]) (by simp [isSpace_newline])
  have h4 := loadRows_save F input.cols output.cols input.rows output.rows ['\n']
    (by simp [isSpace_newline]) hrows hi ho
  have e : printInt input.rows.length ++ [' '] ++ printInt input.cols ++ [' '] ++ printInt output.cols ++
      ['\n'] ++ body = printInt input.rows.length ++
        (' ' :: (printInt input.cols ++ ' ' :: (printInt output.cols ++ '\n' :: body))) := by simp
  simp only [List.nil_append, List.cons_append, List.isEmpty_cons] at h1 h2 h3 h4
  simp only [loadFile, load, IStream.of, e, body] at h1 h2 h3 h4 ⊢
  rw [h1]
  simp only
  rw [h2]
  simp only
  rw [h3]
  simp only [size_natCast, Outcome.ok_bind]
  rw [h4]
  rfl

/-- The writer refuses matrices with different numbers of rows. -/
theorem fann_save_rejects (F : NumFormat K) (input output : Mat K)
    (hrows : input.rows.length ≠ output.rows.length) : save F input output = .checkFailed := by
  rw [save, Outcome.check_false hrows]; rfl

/-- With a format that loses nothing the data set itself comes back. -/
theorem fann_round_trip_exact (F : NumFormat K) (input output : Mat K) (hi : input.WF) (ho : output.WF)
    (hrows : input.rows.length = output.rows.length)
    (hei : ∀ r ∈ input.rows, ∀ x ∈ r, F.round x = x) (heo : ∀ r ∈ output.rows, ∀ x ∈ r, F.round x = x) :
    ∃ text, save F input output = .ok text ∧
      loadFile F (some text) = .ok ((input.rows.length : ℤ),
        { cols := input.cols, rows := input.rows.map (·.map some) },
        { cols := output.cols, rows := output.rows.map (·.map some) }) := by
  obtain ⟨text, h1, h2⟩ := fann_round_trip F input output hi ho hrows
  refine ⟨text, h1, ?_⟩
  rw [h2]
  have key : ∀ l : List (List K), (∀ r ∈ l, ∀ x ∈ r, F.round x = x) →
      l.map (·.map (fun x => some (F.round x))) = l.map (·.map some) := by
    intro l hl
    apply List.map_congr_left
    intro r hr
    apply List.map_congr_left
    intro x hx
    rw [hl r hr x hx]
  rw [key _ hei, key _ heo]

/-- Reading a file that does not exist is undefined behaviour: the sizes are never assigned. -/
theorem fann_missing_file_ub (F : NumFormat K) : loadFile F none = .ub := rfl

/-- So is reading an empty file. -/
theorem fann_empty_file_ub (F : NumFormat K) : loadFile F (some []) = .ub := rfl

/-- A 2 x 2 data set with two outputs of different widths meets the hypotheses. -/
example : ∃ text, save intFormat ⟨2, [[1, -20], [300, 4]]⟩ ⟨1, [[5], [0]]⟩ = .ok text ∧
    loadFile intFormat (some text) = .ok (2, ⟨2, [[some 1, some (-20)], [some 300, some 4]]⟩, ⟨1, [[some 5], [some 0]]⟩) :=
  fann_round_trip_exact intFormat ⟨2, [[1, -20], [300, 4]]⟩ ⟨1, [[5], [0]]⟩ (by simp [Mat.WF]) (by simp [Mat.WF]) rfl
    (by intros; rfl) (by intros; rfl)

example : save intFormat ⟨1, [[1]]⟩ ⟨1, []⟩ = .checkFailed :=
  fann_save_rejects _ _ _ (by decide)

end Verif.FANN
