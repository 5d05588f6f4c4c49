import Verif.Model.Formatter
import Mathlib.Algebra.Order.Round
import Mathlib.Tactic.Positivity
import Mathlib.Tactic.Linarith
import Mathlib.Tactic.NormNum
import Mathlib.Tactic.FieldSimp

/-!
# C115: numbers in the output have the digits that were asked for
-/

namespace Verif.Formatter

open Verif.BenchStats

/-! ## One number -/

theorem near_int (R : Rounding) (n : ℤ) : R.near (n : ℝ) = n := by
  have h := R.close (n : ℝ)
  have h2 : |((n - R.near (n : ℝ) : ℤ) : ℝ)| ≤ 1 / 2 := by push_cast; exact h
  have h3 : |(n - R.near (n : ℝ) : ℤ)| < 1 := by
    have : ((|(n - R.near (n : ℝ) : ℤ)| : ℤ) : ℝ) < ((1 : ℤ) : ℝ) := by
      rw [Int.cast_abs]; push_cast at h2 ⊢; linarith
    exact_mod_cast this
  rw [Int.abs_lt_one_iff] at h3
  omega

/-- A rounding: up in the middle between two integers. -/
noncomputable example : Rounding := ⟨round, fun x => abs_sub_round x⟩

theorem ten_pos (k : ℤ) : (0 : ℝ) < 10 ^ k := zpow_pos (by norm_num) k

theorem shown_grid (R : Rounding) (f : Format) (x : ℝ) : f.shown R x * 10 ^ f.places x = (R.near (x * 10 ^ f.places x) : ℝ) :=
  div_mul_cancel₀ _ (ten_pos _).ne'

theorem shown_error (R : Rounding) (f : Format) (x : ℝ) : |f.shown R x - x| ≤ (10 : ℝ) ^ (-f.places x) / 2 := by
  have h := R.close (x * 10 ^ f.places x)
  have hp := ten_pos (f.places x)
  have : f.shown R x - x = -(x * 10 ^ f.places x - R.near (x * 10 ^ f.places x)) / 10 ^ f.places x := by
    unfold Format.shown
    field_simp
    ring
  rw [this, abs_div, abs_neg, abs_of_pos hp, zpow_neg, div_le_iff₀ hp]
  have : ((10 : ℝ) ^ f.places x)⁻¹ / 2 * 10 ^ f.places x = 1 / 2 := by field_simp
  rw [this]
  exact h

theorem shown_exact (R : Rounding) (f : Format) (x : ℝ) (n : ℤ) (h : x * 10 ^ f.places x = n) : f.shown R x = x := by
  unfold Format.shown
  rw [h, near_int, ← h]
  exact mul_div_cancel_right₀ _ (ten_pos _).ne'

/-- Spec: `v` is the number `x` with `p` digits after the decimal point. -/
structure Digits (x : ℝ) (p : ℕ) (v : ℝ) : Prop where
  error : |v - x| ≤ (1 / 10 ^ p) / 2
  grid : ∃ n : ℤ, v = n / 10 ^ p

theorem formatted_digits (R : Rounding) (x : ℝ) (p : ℕ) : Digits x p (Format.shown R { fixed := true, precision := p } x) := by
  have hpl : Format.places { fixed := true, precision := p } x = (p : ℤ) := by
    simp [Format.places, Format.digits]
  constructor
  · have := shown_error R { fixed := true, precision := p } x
    rw [hpl] at this
    simpa [zpow_neg, one_div] using this
  · refine ⟨R.near (x * 10 ^ Format.places { fixed := true, precision := p } x), ?_⟩
    unfold Format.shown
    rw [hpl, zpow_natCast]

/-- **C115 (negative precision)**: six digits after the decimal point. -/
theorem formatted_negative (R : Rounding) (x : ℝ) {p : ℤ} (hp : p < 0) : Digits x 6 (Format.shown R { fixed := true, precision := p } x) := by
  have : Format.shown R { fixed := true, precision := p } x = Format.shown R { fixed := true, precision := (6 : ℕ) } x := by
    simp [Format.shown, Format.places, Format.digits, hp]
  rw [this]
  exact formatted_digits R x 6

/-- Spec: `v` is the number `x` with `d` significant digits. -/
def Significant (x : ℝ) (d : ℕ) (v : ℝ) : Prop := |v - x| ≤ |x| * (10 / 10 ^ d) / 2

theorem plain_digits (R : Rounding) (p : ℤ) (x : ℝ) :
    Significant x (max 1 (Format.digits { fixed := false, precision := p })) (Format.shown R { fixed := false, precision := p } x) := by
  unfold Significant
  by_cases hx : x = 0
  · subst hx
    have : Format.shown R { fixed := false, precision := p } 0 = 0 := shown_exact R _ 0 0 (by simp)
    rw [this]
    simp
  · have hpos : 0 < |x| := abs_pos.2 hx
    refine (shown_error R _ x).trans ?_
    have hl := Int.zpow_log_le_self (b := 10) (by norm_num) hpos
    simp only [Format.places, Bool.false_eq_true, if_false]
    generalize max 1 (Format.digits { fixed := false, precision := p }) = d
    have : (10 : ℝ) ^ (-((d : ℤ) - 1 - Int.log 10 |x|)) = 10 ^ Int.log 10 |x| * (10 / 10 ^ d) := by
      rw [show -((d : ℤ) - 1 - Int.log 10 |x|) = Int.log 10 |x| + (1 - d) by ring, zpow_add₀ (by norm_num), zpow_sub₀ (by norm_num),
        zpow_one, zpow_natCast]
    rw [this]
    have h10 : (0 : ℝ) < 10 / 10 ^ d := by positivity
    have := mul_le_mul_of_nonneg_right hl h10.le
    push_cast at this ⊢
    linarith

/-! ## Histories -/

/-- The pieces of an action that are written, with their stream. -/
def Action.pieces : Action → List (Sink × Piece)
  | .console p => [(.cout, p)]
  | .file i p => [(.file i, p)]
  | .nothing _ => []
  | .stream s p => [(s, p)]
  | .message s ps => ps.map fun p => (s, p)
  | .settings _ _ => []

/-- Spec: what has to be read for a piece.  Nothing is said about a plain number. -/
def Reads : Piece → Shown → Prop
  | .text s, .text t => t = s
  | .whole n, .whole m => m = n
  | .number _, .number _ => True
  | .formatted x (.ofNat p), .number v => Digits x p v
  | .formatted _ (.negSucc _), .number _ => True
  | _, _ => False

theorem put_reads (R : Rounding) (f : Format) (p : Piece) : Reads p (put R f p).1 := by
  cases p with
  | formatted x p =>
    cases p with
    | ofNat p => exact formatted_digits R x p
    | negSucc p => trivial
  | number x => trivial
  | text s => rfl
  | whole n => rfl

theorem compose_reads (R : Rounding) (ps : List Piece) (f : Format) : List.Forall₂ Reads ps (compose R f ps) := by
  induction ps generalizing f with
  | nil => exact .nil
  | cons p ps ih => exact .cons (put_reads R f p) (ih _)

/-- Every history of writing to streams, loggers and the log, with whatever settings: everything is written once, in order, to the
right stream, texts and integers as they are, and every formatted number with as many digits after the decimal point as asked for. -/
theorem formatted_everywhere (R : Rounding) (y : System) (as : List Action) :
    ∃ new, (y.run R as).out = y.out ++ new ∧
      List.Forall₂ (fun (a : Sink × Piece) (b : Sink × Shown) => b.1 = a.1 ∧ Reads a.2 b.2) (as.flatMap Action.pieces) new := by
  induction as generalizing y with
  | nil => exact ⟨[], by simp [System.run], .nil⟩
  | cons a as ih =>
    obtain ⟨new, h1, h2⟩ := ih (y.step R a)
    have key : ∃ first, (y.step R a).out = y.out ++ first ∧
        List.Forall₂ (fun (a : Sink × Piece) (b : Sink × Shown) => b.1 = a.1 ∧ Reads a.2 b.2) a.pieces first := by
      cases a with
      | console p =>
        refine ⟨_, rfl, .cons ⟨rfl, ?_⟩ .nil⟩
        cases p <;> exact put_reads R (y.formats .cout) _
      | file i p =>
        refine ⟨_, rfl, .cons ⟨rfl, ?_⟩ .nil⟩
        cases p <;> exact put_reads R (y.formats (.file i)) _
      | nothing p => exact ⟨[], by simp [System.step], .nil⟩
      | stream s p => exact ⟨_, rfl, .cons ⟨rfl, put_reads R _ p⟩ .nil⟩
      | message s ps =>
        refine ⟨_, rfl, ?_⟩
        rw [Action.pieces, List.forall₂_map_left_iff, List.forall₂_map_right_iff]
        exact (compose_reads R ps {}).imp fun _ _ h => ⟨rfl, h⟩
      | settings s f => exact ⟨[], by simp [System.step], .nil⟩
    obtain ⟨first, k1, k2⟩ := key
    refine ⟨first ++ new, ?_, ?_⟩
    · show ((y.step R a).run R as).out = _
      rw [h1, k1, List.append_assoc]
    · rw [List.flatMap_cons]
      exact List.rel_append k2 h2

/-- Spec: the action changes the settings of the stream `s`. -/
def Touches (s : Sink) : Action → Prop
  | .console (.formatted _ _) => s = .cout
  | .file i (.formatted _ _) => s = .file i
  | .stream t (.formatted _ _) => s = t
  | .settings t _ => s = t
  | _ => False

theorem run_append (R : Rounding) (y : System) (as bs : List Action) : y.run R (as ++ bs) = (y.run R as).run R bs := List.foldl_append

/-- The settings of a stream only change by a formatted number or by the program itself. -/
theorem untouched (R : Rounding) (s : Sink) (as : List Action) (y : System) (h : ∀ a ∈ as, ¬ Touches s a) :
    (y.run R as).formats s = y.formats s := by
  induction as generalizing y with
  | nil => rfl
  | cons a as ih =>
    show ((y.step R a).run R as).formats s = _
    rw [ih _ fun b hb => h b (List.mem_cons_of_mem _ hb)]
    have ha := h a (List.mem_cons_self ..)
    have upd : ∀ (t : Sink) (r : Shown × Format), (s = t → r.2 = y.formats t) → (y.receive t r).formats s = y.formats s := by
      intro t r hr
      unfold System.receive
      by_cases hst : s = t
      · subst hst; simp [hr rfl]
      · simp [Function.update_of_ne hst]
    cases a with
    | console p =>
      refine upd _ _ fun hs => ?_
      cases p with
      | formatted x q => exact absurd hs ha
      | _ => rfl
    | file i p =>
      refine upd _ _ fun hs => ?_
      cases p with
      | formatted x q => exact absurd hs ha
      | _ => rfl
    | stream t p =>
      refine upd _ _ fun hs => ?_
      cases p with
      | formatted x q => exact absurd hs ha
      | _ => rfl
    | nothing p => rfl
    | message t ps => rfl
    | settings t f => exact Function.update_of_ne ha _ _

/-- A plain number has six significant digits in every stream to which no formatted number was written and whose settings were not
changed, whatever else happened. -/
theorem plain_partial (R : Rounding) (s : Sink) (as : List Action) (h : ∀ a ∈ as, ¬ Touches s a) (x : ℝ) :
    ∃ v, ((System.run R {} as).step R (.stream s (.number x))).out = (System.run R {} as).out ++ [(s, .number v)] ∧
      Significant x 6 v := by
  refine ⟨_, rfl, ?_⟩
  rw [untouched R s as {} h]
  exact plain_digits R 6 x

/-- False of the code: a formatted number changes how later plain numbers in the same stream look, with every number of digits but
six; the console loggers all share one stream. -/
theorem plain_fails (R : Rounding) (y : System) (z : ℝ) (p : ℕ) (hp : p ≠ 6) : ∃ x v w,
    ((y.run R [.console (.formatted z p)]).step R (.stream .cout (.number x))).out =
      (y.run R [.console (.formatted z p)]).out ++ [(.cout, .number v)] ∧
    Format.shown R {} x = w ∧ v ≠ w := by
  have hf : (y.run R [.console (.formatted z p)]).formats .cout = { fixed := false, precision := p } := by
    simp [System.run, System.step, System.receive, putConsole]
  have hd : Format.digits { fixed := false, precision := p } = p := by simp [Format.digits]
  have h6 : Format.digits {} = 6 := by simp [Format.digits]
  rcases Nat.lt_or_gt_of_ne hp with hlt | hgt
  · refine ⟨123456, _, _, rfl, rfl, ?_⟩
    rw [hf]
    have hlog : Int.log 10 |(123456 : ℝ)| = 5 := by
      rw [show |(123456 : ℝ)| = ((123456 : ℕ) : ℝ) by norm_num, Int.log_natCast,
        Nat.log_eq_of_pow_le_of_lt_pow (m := 5) (by norm_num) (by norm_num)]
      rfl
    have hw : Format.shown R {} 123456 = 123456 := by
      refine shown_exact R _ _ 123456 ?_
      simp only [Format.places, Bool.false_eq_true, if_false, h6, hlog]
      norm_num
    rw [hw]
    intro he
    have hg := shown_grid R { fixed := false, precision := p } 123456
    rw [he] at hg
    obtain ⟨k, hk⟩ : ∃ k : ℕ, Format.places { fixed := false, precision := p } 123456 = -((k + 1 : ℕ) : ℤ) := by
      refine ⟨5 - max 1 p, ?_⟩
      simp only [Format.places, Bool.false_eq_true, if_false, hd, hlog]
      have : max 1 p ≤ 5 := by omega
      omega
    rw [hk, zpow_neg, zpow_natCast] at hg
    generalize R.near _ = m at hg
    have hp10 : (0 : ℝ) < 10 ^ (k + 1) := by positivity
    rw [mul_inv_eq_iff_eq_mul₀ hp10.ne'] at hg
    have : (123456 : ℤ) = m * 10 ^ (k + 1) := by exact_mod_cast hg
    rw [pow_succ, ← mul_assoc] at this
    generalize m * 10 ^ k = q at this
    omega
  · refine ⟨1234567, _, _, rfl, rfl, ?_⟩
    rw [hf]
    have hlog : Int.log 10 |(1234567 : ℝ)| = 6 := by
      rw [show |(1234567 : ℝ)| = ((1234567 : ℕ) : ℝ) by norm_num, Int.log_natCast,
        Nat.log_eq_of_pow_le_of_lt_pow (m := 6) (by norm_num) (by norm_num)]
      rfl
    have hw : Format.shown R { fixed := false, precision := p } 1234567 = 1234567 := by
      refine shown_exact R _ _ (1234567 * 10 ^ (p - 7)) ?_
      simp only [Format.places, Bool.false_eq_true, if_false, hd, hlog]
      rw [show ((max 1 p : ℕ) : ℤ) - 1 - 6 = ((p - 7 : ℕ) : ℤ) by omega, zpow_natCast]
      push_cast
      ring
    rw [hw]
    intro he
    have hg := shown_grid R {} 1234567
    rw [← he] at hg
    have hk : Format.places {} 1234567 = -1 := by
      simp only [Format.places, Bool.false_eq_true, if_false, h6, hlog]
      norm_num
    rw [hk] at hg
    generalize R.near _ = m at hg
    have : (1234567 : ℤ) = m * 10 := by
      have : (1234567 : ℝ) = m * 10 := by rw [← hg]; norm_num
      exact_mod_cast this
    omega

/-- False of the code: a logger that writes to a file keeps `fixed`; small numbers disappear. -/
theorem file_fails (R : Rounding) (y : System) (i : ℕ) (z : ℝ) :
    (y.run R [.file i (.formatted z 2), .file i (.number (1 / 1024))]).out =
      (y.run R [.file i (.formatted z 2)]).out ++ [(.file i, .number 0)] := by
  have hf : (y.run R [.file i (.formatted z 2)]).formats (.file i) = { fixed := true, precision := 2 } := by
    simp [System.run, System.step, System.receive, putFile]
  have hz : Format.shown R { fixed := true, precision := 2 } (1 / 1024) = 0 := by
    have hpl : Format.places { fixed := true, precision := 2 } (1 / 1024) = 2 := by simp [Format.places, Format.digits]
    have hn : R.near (1 / 1024 * 10 ^ (2 : ℤ)) = 0 := by
      have h := R.close (1 / 1024 * 10 ^ (2 : ℤ))
      rw [abs_le] at h
      have h1 : ((R.near (1 / 1024 * 10 ^ (2 : ℤ)) : ℤ) : ℝ) < ((1 : ℤ) : ℝ) := by
        have : (1 / 1024 * 10 ^ (2 : ℤ) : ℝ) < 1 / 2 := by norm_num
        push_cast
        linarith [h.1]
      have h2 : (((-1 : ℤ)) : ℝ) < (R.near (1 / 1024 * 10 ^ (2 : ℤ)) : ℝ) := by
        have : (0 : ℝ) < (1 / 1024 * 10 ^ (2 : ℤ) : ℝ) := by norm_num
        push_cast
        linarith [h.2]
      have h1 := Int.cast_lt.1 h1
      have h2 := Int.cast_lt.1 h2
      omega
    unfold Format.shown
    rw [hpl, hn]
    simp
  rw [show [Action.file i (.formatted z 2), .file i (.number (1 / 1024))] =
    [Action.file i (.formatted z 2)] ++ [.file i (.number (1 / 1024))] from rfl, run_append]
  show (System.receive _ _ _).out = _
  rw [hf]
  show _ ++ [(_, Shown.number (Format.shown R _ _))] = _
  rw [hz]

/-- False of the code: settings that the program has made are overwritten. -/
theorem settings_fails (R : Rounding) (y : System) (f : Format) (z : ℝ) (p : ℤ) :
    ((y.run R [.settings .cout f, .console (.formatted z p)]).formats .cout) = { fixed := false, precision := p } := by
  simp [System.run, System.step, System.receive, putConsole]

/-- A message of the log looks the same whatever was written before, and changes nothing for later output. -/
theorem message_independent (R : Rounding) (s : Sink) (ps : List Piece) : ∃ m : List Shown, List.Forall₂ Reads ps m ∧
    ∀ y : System, (y.step R (.message s ps)).out = y.out ++ m.map (fun v => (s, v)) ∧ (y.step R (.message s ps)).formats = y.formats :=
  ⟨compose R {} ps, compose_reads R ps {}, fun _ => ⟨rfl, rfl⟩⟩

/-! ## What the library and the benchmarks print -/

/-- The output of a console logger for a list of pieces. -/
def onConsole (ps : List Piece) : List Action := ps.map .console

theorem console_run (R : Rounding) (ps : List Piece) (y : System) :
    (y.run R (onConsole ps)).out = y.out ++ (compose R (y.formats .cout) ps).map fun v => (Sink.cout, v) := by
  induction ps generalizing y with
  | nil => simp [onConsole, System.run, compose]
  | cons p ps ih =>
    show ((y.step R (.console p)).run R (onConsole ps)).out = _
    have hput : putConsole R (y.formats .cout) p = put R (y.formats .cout) p := by cases p <;> rfl
    rw [ih]
    simp only [System.step, System.receive, hput, compose, Function.update_self, List.map_cons, List.append_assoc, List.singleton_append]

/-- A network that is saved to a new file: every parameter is written with six significant digits. -/
theorem save_digits (R : Rounding) (arch : String) (w : List ℝ) : ∃ v : List ℝ,
    compose R {} (save arch w) = .text arch :: .text "parameters " :: v.map .number ∧ List.Forall₂ (fun x y => Significant x 6 y) w v := by
  refine ⟨w.map (Format.shown R {}), ?_, ?_⟩
  · unfold save
    simp only [compose, put]
    congr 2
    induction w with
    | nil => rfl
    | cons x w ih => simp only [List.map_cons, compose, put, ih]
  · rw [List.forall₂_map_right_iff]
    exact List.forall₂_same.2 fun x _ => plain_digits R 6 x

/-- False of the code: a network that is saved to a stream after a formatted number loses its parameters. -/
theorem save_fails (R : Rounding) (arch : String) (z : ℝ) : ∃ v : ℝ,
    compose R {} (.formatted z 2 :: save arch [0.987654]) =
      [(put R {} (.formatted z 2)).1, .text arch, .text "parameters ", .number v] ∧ 0.002 < |v - 0.987654| := by
  refine ⟨_, rfl, ?_⟩
  have hlog : Int.log 10 |(0.987654 : ℝ)| = -1 := by
    rw [abs_of_pos (by norm_num)]
    refine le_antisymm ?_ ?_
    · have := (Int.lt_zpow_iff_log_lt (b := 10) (R := ℝ) (r := 0.987654) (x := 0) (by norm_num) (by norm_num)).1 (by norm_num)
      omega
    · exact (Int.zpow_le_iff_le_log (b := 10) (R := ℝ) (r := 0.987654) (x := -1) (by norm_num) (by norm_num)).1 (by norm_num)
  have hpl : Format.places { fixed := false, precision := 2 } (0.987654 : ℝ) = 2 := by
    simp only [Format.places, Bool.false_eq_true, if_false, hlog]
    simp [Format.digits]
  show 0.002 < |Format.shown R { fixed := false, precision := 2 } 0.987654 - 0.987654|
  have hn : R.near (0.987654 * 10 ^ (2 : ℤ)) = 99 := by
    have h := R.close (0.987654 * 10 ^ (2 : ℤ))
    rw [abs_le] at h
    have e : (0.987654 * 10 ^ (2 : ℤ) : ℝ) = 98.7654 := by norm_num
    rw [e] at h ⊢
    have h1 : ((R.near 98.7654 : ℤ) : ℝ) < ((100 : ℤ) : ℝ) := by push_cast; linarith [h.1]
    have h2 : ((98 : ℤ) : ℝ) < (R.near 98.7654 : ℝ) := by push_cast; linarith [h.2]
    have h1 := Int.cast_lt.1 h1
    have h2 := Int.cast_lt.1 h2
    omega
  unfold Format.shown
  rw [hpl, hn]
  rw [abs_of_pos] <;> norm_num

open Classical in
/-- The message of mini-batch SGD after an iteration, whatever was printed before: the error with four digits after the decimal point,
momentum and learning rate with three if they change. -/
theorem sgd_message (R : Rounding) (it : ℤ) (error alphaDecay alpha etaGain eta : ℝ) : ∃ e a b, ∀ (y : System) (s : Sink),
    (y.step R (.message s (sgdMessage it error alphaDecay alpha etaGain eta))).out = y.out ++
      ([Shown.text "Iteration ", .whole it, .text ", error = ", .number e] ++
        (if alphaDecay < 1 then [Shown.text ", alpha = ", .number a] else []) ++
        (if 0 < etaGain then [Shown.text ", eta = ", .number b] else [])).map (fun v => (s, v)) ∧
    Digits error 4 e ∧ Digits alpha 3 a ∧ Digits eta 3 b := by
  refine ⟨_, _, _, fun y s => ⟨?_, formatted_digits R error 4, formatted_digits R alpha 3, formatted_digits R eta 3⟩⟩
  by_cases h1 : alphaDecay < 1 <;> by_cases h2 : 0 < etaGain <;>
    simp [System.step, sgdMessage, h1, h2, compose, put]

/-- What pole balancing prints, whatever was printed before: counts as they are, mean and standard deviation with three and four digits
after the decimal point, but the time only with four significant digits. -/
theorem pole_printed (R : Rounding) (y : System) (r : PoleResults) : ∃ mean stdDev time,
    (y.run R (onConsole (poleOutput r))).out = y.out ++ ([.whole r.failures, .text "/", .whole r.runs, .text " failed\nepisodes:\t",
      .number mean, .text "+-", .number stdDev, .text "\nrange:\t\t[", .whole r.min, .text ",", .whole r.max,
      .text "]\nmedian:\t\t", .whole r.median, .text "\ntime:\t\t", .number time, .text " ms\n\n"].map fun v => (Sink.cout, v)) ∧
    Digits r.mean 3 mean ∧ Digits r.stdDev 4 stdDev ∧ Significant r.time 4 time := by
  refine ⟨_, _, _, console_run R (poleOutput r) y, formatted_digits R r.mean 3, formatted_digits R r.stdDev 4, ?_⟩
  exact plain_digits R 4 r.time

/-- False of the code: a mean time of 123456 ms is printed as 123500 ms. -/
theorem pole_time_fails (R : Rounding) (y : System) (r : PoleResults) (h : r.time = 123456) :
    (y.run R (onConsole (poleOutput r))).out.drop (y.out.length + 14) =
      [(.cout, .number 123500), (.cout, .text " ms\n\n")] := by
  rw [console_run, List.drop_append, List.drop_eq_nil_of_le (by omega), Nat.add_sub_cancel_left]
  have hlog : Int.log 10 |(123456 : ℝ)| = 5 := by
    rw [show |(123456 : ℝ)| = ((123456 : ℕ) : ℝ) by norm_num, Int.log_natCast,
      Nat.log_eq_of_pow_le_of_lt_pow (m := 5) (by norm_num) (by norm_num)]
    rfl
  have hpl : Format.places { fixed := false, precision := 4 } (123456 : ℝ) = -2 := by
    simp only [Format.places, Bool.false_eq_true, if_false, hlog]
    simp [Format.digits]
  have hn : R.near (123456 * 10 ^ (-2 : ℤ)) = 1235 := by
    have h := R.close (123456 * 10 ^ (-2 : ℤ))
    rw [abs_le] at h
    have e : (123456 * 10 ^ (-2 : ℤ) : ℝ) = 1234.56 := by norm_num
    rw [e] at h ⊢
    have h1 : ((R.near 1234.56 : ℤ) : ℝ) < ((1236 : ℤ) : ℝ) := by push_cast; linarith [h.1]
    have h2 : ((1234 : ℤ) : ℝ) < (R.near 1234.56 : ℝ) := by push_cast; linarith [h.2]
    have h1 := Int.cast_lt.1 h1
    have h2 := Int.cast_lt.1 h2
    omega
  have hs : Format.shown R { fixed := false, precision := 4 } r.time = 123500 := by
    rw [h]
    unfold Format.shown
    rw [hpl, hn]
    norm_num
  show [(Sink.cout, Shown.number (Format.shown R { fixed := false, precision := 4 } r.time)), _] = _
  rw [hs]
  rfl

theorem small_exact (R : Rounding) (n : ℕ) (h : n < 1000) : Format.shown R { fixed := false, precision := 3 } n = n := by
  rcases Nat.eq_zero_or_pos n with h0 | h0
  · subst h0
    exact shown_exact R _ _ 0 (by simp)
  have hlog : Int.log 10 |(n : ℝ)| = Nat.log 10 n := by
    rw [Nat.abs_cast, Int.log_natCast]
  have hle : Nat.log 10 n < 3 := Nat.log_lt_of_lt_pow h0.ne' h
  refine shown_exact R _ _ (n * 10 ^ (2 - Nat.log 10 n)) ?_
  have : Format.places { fixed := false, precision := 3 } (n : ℝ) = ((2 - Nat.log 10 n : ℕ) : ℤ) := by
    simp only [Format.places, Bool.false_eq_true, if_false, hlog]
    simp [Format.digits]
    omega
  rw [this, zpow_natCast]
  push_cast
  rfl

/-- What two spirals prints, whatever was printed before: formatted numbers with three digits after the decimal point, integers as they
are, the mean of the iterations with three significant digits, and the counts of correct answers exactly as long as there are less than
1000 (the test set has 194 elements). -/
theorem spirals_printed (R : Rounding) (y : System) (r : Report) (least most : ℕ) (hl : r.correct.min = least) (hm : r.correct.max = most)
    (h1 : least < 1000) (h2 : most < 1000) : ∃ a b c d i j k l,
    (y.run R (onConsole (spiralOutput r))).out = y.out ++ ([.text "Mean+-StdDev\t", .number a, .text "+-", .number b, .text "\t",
      .number c, .text "+-", .number d, .text "\t", .whole r.time, .text "\t\t", .number i, .text "+-", .number j, .text "\n",
      .text "[min,max]\t", .text "[", .number least, .text ",", .number most, .text "]\t", .text "[", .number k, .text ",", .number l,
      .text "]\t\t\t", .text "[", .whole ⌊r.iterations.min⌋, .text ",", .whole ⌊r.iterations.max⌋, .text "]\n\n"].map
        fun v => (Sink.cout, v)) ∧
    Digits r.correct.mean 3 a ∧ Digits r.correct.stdDev 3 b ∧ Digits r.accuracy.mean 3 c ∧ Digits r.accuracy.stdDev 3 d ∧
    Significant r.iterations.mean 3 i ∧ Digits r.iterations.stdDev 3 j ∧ Digits r.accuracy.min 3 k ∧ Digits r.accuracy.max 3 l := by
  refine ⟨_, _, _, _, _, _, _, _, ?_, formatted_digits R _ 3, formatted_digits R _ 3, formatted_digits R _ 3, formatted_digits R _ 3,
    plain_digits R 3 _, formatted_digits R _ 3, formatted_digits R _ 3, formatted_digits R _ 3⟩
  have e1 : Format.shown R { fixed := false, precision := 3 } r.correct.min = least := by rw [hl]; exact small_exact R least h1
  have e2 : Format.shown R { fixed := false, precision := 3 } r.correct.max = most := by rw [hm]; exact small_exact R most h2
  rw [console_run]
  simp only [spiralOutput, compose, put, e1, e2]
  rfl

/-- What the P300 speller prints, whatever was printed before: all numbers with two digits after the decimal point. -/
theorem speller_printed (R : Rounding) (y : System) (r : Sums) : ∃ a b c d,
    (y.run R (onConsole (spellerOutput r))).out = y.out ++ ([.number a, .text "\t", .number b, .text "\t", .number c, .text "\t\t",
      .number d, .text "\n"].map fun v => (Sink.cout, v)) ∧
    Digits r.iterations 2 a ∧ Digits r.duration 2 b ∧ Digits r.correct5 2 c ∧ Digits r.correct15 2 d :=
  ⟨_, _, _, _, console_run R (spellerOutput r) y, formatted_digits R _ 2, formatted_digits R _ 2, formatted_digits R _ 2,
    formatted_digits R _ 2⟩

/-- An integer as text and 2.5 with two digits after the decimal point, after the program has asked for one digit. -/
example (R : Rounding) : (System.run R {} [.settings .cout ⟨false, 1⟩, .console (.whole 17), .console (.formatted 2.5 2)]).out =
    [(.cout, .whole 17), (.cout, .number 2.5)] := by
  have : Format.shown R { fixed := true, precision := 2 } 2.5 = 2.5 := by
    refine shown_exact R _ _ 250 ?_
    simp [Format.places, Format.digits]
    norm_num
  simp [System.run, System.step, System.receive, putConsole, put, this]

end Verif.Formatter
