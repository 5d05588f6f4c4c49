import Verif.Model.Stopwatch
import Mathlib.Tactic.Linarith
import Mathlib.Data.Int.ModEq

/-!
# C135: reported times are the times that passed
-/

namespace Verif.Stopwatch

open Verif.BenchStats (Precision)

/-! ## Specification: instants are microseconds, the stopwatch measures from the last start -/

/-- the instant that a clock reading stands for, in microseconds -/
def Timeval.micros (t : Timeval) : ℤ := 1000000 * t.sec + t.usec

/-- microseconds per unit -/
def unit : Precision → ℤ
  | .seconds => 1000000
  | .tenths => 100000
  | .hundredths => 10000
  | .millisecond => 1000
  | .microsecond => 1

/-- the instant of the last start: `t0` is the construction -/
def lastStart (t0 : Timeval) : List Call → Timeval
  | [] => t0
  | .start t :: h => lastStart t h
  | _ :: h => lastStart t0 h

/-- the last instant at which the time was taken, and the start that it refers to -/
def lastStop (t0 : Timeval) : List Call → Option (Timeval × Timeval)
  | [] => none
  | .start t :: h => lastStop t h
  | .stop t :: h => (lastStop t0 h).or (some (t0, t))
  | .stopIn _ t :: h => (lastStop t0 h).or (some (t0, t))
  | .getDuration :: h => lastStop t0 h

/-! ## Proofs -/

theorem systime_eq (w : ℕ) (t : Timeval) : systime w t = t.micros % 2 ^ w := by
  unfold systime wrap Timeval.micros
  rw [mul_comm]
  simp [Int.add_emod, Int.mul_emod]

theorem started_exec (w : ℕ) (h : List Call) : ∀ (s : Watch) (t0 : Timeval), s.started = systime w t0 →
    (s.exec w h).started = systime w (lastStart t0 h) := by
  induction h with
  | nil => intro s t0 hs; exact hs
  | cons c h ih =>
    intro s t0 hs
    cases c with
    | start t => exact ih _ t rfl
    | stop t => exact ih _ t0 hs
    | stopIn p t => exact ih _ t0 hs
    | getDuration => exact ih _ t0 hs

theorem duration_eq (w : ℕ) (s : Watch) (t0 t : Timeval) (hs : s.started = systime w t0) :
    (s.stop w t).duration = (t.micros - t0.micros) % 2 ^ w := by
  simp [Watch.stop, wrap, hs, systime_eq]

theorem duration_exec (w : ℕ) (h : List Call) : ∀ (s : Watch) (t0 : Timeval), s.started = systime w t0 →
    (s.exec w h).duration = match lastStop t0 h with
      | some r => (r.2.micros - r.1.micros) % 2 ^ w
      | none => s.duration := by
  induction h with
  | nil => intro s t0 _; rfl
  | cons c h ih =>
    intro s t0 hs
    cases c with
    | start t => exact ih _ t rfl
    | stop t =>
      have := ih (s.stop w t) t0 hs
      simp only [Watch.exec, List.foldl_cons, Watch.call, lastStop] at this ⊢
      rw [this, duration_eq w s t0 t hs]
      cases lastStop t0 h <;> rfl
    | stopIn p t =>
      have := ih (s.stop w t) t0 hs
      simp only [Watch.exec, List.foldl_cons, Watch.call, lastStop] at this ⊢
      rw [this, duration_eq w s t0 t hs]
      cases lastStop t0 h <;> rfl
    | getDuration => exact ih _ t0 hs

theorem convert_eq (d : ℤ) (p : Precision) : convert d p = d / unit p := by
  cases p <;> simp [convert, unit]

/-- **Whatever was called before, `stop` answers the whole units since the last start**, provided the clock was not set back by then and
less than `2 ^ w` microseconds passed.  It does not matter whether the clock itself exceeds the range of `unsigned long`. -/
theorem stop_reports (w : ℕ) (t0 t : Timeval) (h : List Call) (p : Precision)
    (h0 : (lastStart t0 h).micros ≤ t.micros) (h1 : t.micros - (lastStart t0 h).micros < 2 ^ w) :
    ∃ d : ℤ, (((Watch.new w t0).exec w h).call w (.stopIn p t)).2 = some d ∧
      d * unit p ≤ t.micros - (lastStart t0 h).micros ∧ t.micros - (lastStart t0 h).micros < (d + 1) * unit p := by
  refine ⟨_, rfl, ?_⟩
  rw [duration_eq w _ _ t (started_exec w h _ t0 rfl), convert_eq, Int.emod_eq_of_lt (by linarith) h1]
  have hu : 0 < unit p := by cases p <;> simp [unit]
  exact ⟨Int.ediv_mul_le _ hu.ne', Int.lt_ediv_add_one_mul_self _ hu⟩

/-- **The answer in microseconds is the time since the last start exactly if that is neither negative nor too long.** -/
theorem stop_exact (w : ℕ) (t0 t : Timeval) (h : List Call) :
    (((Watch.new w t0).exec w h).call w (.stop t)).2 = some (t.micros - (lastStart t0 h).micros) ↔
      (lastStart t0 h).micros ≤ t.micros ∧ t.micros - (lastStart t0 h).micros < 2 ^ w := by
  have hpos : (0 : ℤ) < 2 ^ w := by positivity
  show some (((Watch.new w t0).exec w h).stop w t).duration = _ ↔ _
  rw [duration_eq w _ _ t (started_exec w h _ t0 rfl), Option.some_inj]
  constructor
  · intro e
    have h1 := Int.emod_nonneg (t.micros - (lastStart t0 h).micros) hpos.ne'
    have h2 := Int.emod_lt_of_pos (t.micros - (lastStart t0 h).micros) hpos
    constructor <;> linarith
  · rintro ⟨h1, h2⟩
    exact Int.emod_eq_of_lt (by linarith) h2

/-- **False of the code: times are right on clocks that are set back.**  After every history, if the clock is set back behind the start by
any `b` microseconds (`gettimeofday` gives the time of day, not the time since the start of the computer), the answer is almost
`2 ^ w` microseconds. -/
theorem set_back_fails (w : ℕ) (t0 t : Timeval) (h : List Call) (p : Precision) (b : ℤ) (hb : 0 < b) (hw : b ≤ 2 ^ w)
    (ht : t.micros = (lastStart t0 h).micros - b) :
    (((Watch.new w t0).exec w h).call w (.stopIn p t)).2 = some ((2 ^ w - b) / unit p) := by
  show some (convert (((Watch.new w t0).exec w h).stop w t).duration p) = _
  rw [duration_eq w _ _ t (started_exec w h _ t0 rfl), convert_eq]
  have : (t.micros - (lastStart t0 h).micros) % 2 ^ w = 2 ^ w - b := by
    rw [ht, show (lastStart t0 h).micros - b - (lastStart t0 h).micros = (2 ^ w - b) + 2 ^ w * (-1) by ring, Int.add_mul_emod_self_left]
    exact Int.emod_eq_of_lt (by linarith) (by linarith)
  rw [this]

/-- Example: one second back, 64 bits - half a million years. -/
example : ((Watch.new 64 ⟨1700000000, 0⟩).call 64 (.stopIn .seconds ⟨1699999999, 0⟩)).2 = some 18446744073708 := by
  rw [show Watch.new 64 ⟨1700000000, 0⟩ = (Watch.new 64 ⟨1700000000, 0⟩).exec 64 [] from rfl,
    set_back_fails 64 ⟨1700000000, 0⟩ ⟨1699999999, 0⟩ [] .seconds 1000000 (by norm_num) (by norm_num) (by simp [Timeval.micros, lastStart])]
  norm_num [unit]

/-- **False of the code with 32 bits: long trainings are timed.**  Whatever was done before, after 4295 seconds (72 minutes) `stop`
answers 0 seconds. -/
theorem long_run_fails (t0 t : Timeval) (h : List Call) (ht : t.micros = (lastStart t0 h).micros + 4295 * 1000000) :
    (((Watch.new 32 t0).exec 32 h).call 32 (.stopIn .seconds t)).2 = some 0 := by
  show some (convert (((Watch.new 32 t0).exec 32 h).stop 32 t).duration .seconds) = _
  rw [duration_eq 32 _ _ t (started_exec 32 h _ t0 rfl), convert_eq, ht, add_sub_cancel_left]
  norm_num [unit]

/-- **`getDuration` answers what the last `stop` measured, in microseconds, and 0 before the first.**  Starting again does not
erase it. -/
theorem getDuration_reports (w : ℕ) (t0 : Timeval) (h : List Call) :
    (((Watch.new w t0).exec w h).call w .getDuration).2 = some (match lastStop t0 h with
      | some r => (r.2.micros - r.1.micros) % 2 ^ w
      | none => 0) := by
  show some ((Watch.new w t0).exec w h).duration = _
  rw [duration_exec w h _ t0 rfl]
  cases lastStop t0 h <;> rfl

/-- the calls that start the stopwatch -/
def Call.starts : Call → Bool
  | .start _ => true
  | _ => false

theorem lastStart_filter (h : List Call) : ∀ t0, lastStart t0 (h.filter Call.starts) = lastStart t0 h := by
  induction h with
  | nil => intro t0; rfl
  | cons c h ih =>
    intro t0
    cases c with
    | start t => exact ih t
    | stop t => exact ih t0
    | stopIn p t => exact ih t0
    | getDuration => exact ih t0

/-- **Taking the time does not disturb the measurement**: without all calls of `stop` and `getDuration` before, `stop` answers the same. -/
theorem stop_undisturbed (w : ℕ) (t0 t : Timeval) (h : List Call) (p : Precision) :
    (((Watch.new w t0).exec w h).call w (.stopIn p t)).2 =
      (((Watch.new w t0).exec w (h.filter Call.starts)).call w (.stopIn p t)).2 := by
  show some (convert (((Watch.new w t0).exec w h).stop w t).duration p) =
    some (convert (((Watch.new w t0).exec w (h.filter Call.starts)).stop w t).duration p)
  rw [duration_eq w _ _ t (started_exec w h _ t0 rfl), duration_eq w _ _ t (started_exec w (h.filter Call.starts) _ t0 rfl),
    lastStart_filter]

/-- Example for the reports: a restart in between, a clock beyond the range of 32 bits. -/
example : ((((Watch.new 32 ⟨5000, 999999⟩).exec 32 [.stop ⟨5001, 0⟩, .start ⟨6000, 500000⟩]).call 32 (.stopIn .tenths ⟨6002, 760000⟩)).2 =
      some 22) ∧
    (((Watch.new 32 ⟨5000, 999999⟩).exec 32 [.stop ⟨5001, 0⟩, .start ⟨6000, 500000⟩]).call 32 .getDuration).2 = some 1 := by
  decide

/-! ## Programs -/

/-- the time of all runs together, in microseconds -/
def total (runs : List (Timeval × Timeval)) : ℤ := (runs.map fun r => r.2.micros - r.1.micros).sum

theorem total_nonneg {runs : List (Timeval × Timeval)} (h0 : ∀ r ∈ runs, r.1.micros ≤ r.2.micros) : 0 ≤ total runs := by
  refine List.sum_nonneg ?_
  intro x hx
  obtain ⟨r, hr, rfl⟩ := List.mem_map.mp hx
  have := h0 r hr
  linarith

theorem spiralsTime_spec (w : ℕ) (runs : List (Timeval × Timeval)) : ∀ (s : Watch) (time : ℤ), 0 ≤ time →
    (∀ r ∈ runs, r.1.micros ≤ r.2.micros) → 1000 * time + total runs < 2 ^ w →
    1000 * (spiralsTime w s runs time - time) ≤ total runs ∧
      total runs ≤ 1000 * (spiralsTime w s runs time - time) + 999 * runs.length := by
  induction runs with
  | nil => intro s time _ _ _; simp [spiralsTime, total]
  | cons r l ih =>
    intro s time h0 hr hb
    have hr1 := hr r List.mem_cons_self
    have hr2 : ∀ r ∈ l, r.1.micros ≤ r.2.micros := fun x hx => hr x (List.mem_cons_of_mem _ hx)
    have hl := total_nonneg hr2
    have htot : total (r :: l) = (r.2.micros - r.1.micros) + total l := by simp [total]
    have hd : ((s.start w r.1).stop w r.2).duration = r.2.micros - r.1.micros := by
      rw [duration_eq w _ r.1 r.2 rfl, Int.emod_eq_of_lt (by linarith) (by linarith)]
    simp only [spiralsTime]
    rw [hd, convert_eq]
    generalize hq : (r.2.micros - r.1.micros) / unit .millisecond = q
    have hq1 : 1000 * q ≤ r.2.micros - r.1.micros ∧ r.2.micros - r.1.micros ≤ 1000 * q + 999 := by
      simp only [unit] at hq; omega
    have hq0 : 0 ≤ q := by omega
    have hwr : wrap w (time + q) = time + q := by
      unfold wrap; exact Int.emod_eq_of_lt (by linarith) (by linarith)
    rw [hwr]
    have := ih ((s.start w r.1).stop w r.2) (time + q) (by linarith) hr2 (by linarith)
    rw [htot]
    push_cast [List.length_cons]
    constructor <;> linarith

/-- **The time of the two spirals benchmark is the time of the trainings, up to one millisecond per run**: what is done between the runs is
not counted. -/
theorem spirals_total (w : ℕ) (s : Watch) (runs : List (Timeval × Timeval)) (h0 : ∀ r ∈ runs, r.1.micros ≤ r.2.micros)
    (hb : total runs < 2 ^ w) :
    1000 * spiralsTime w s runs 0 ≤ total runs ∧ total runs ≤ 1000 * spiralsTime w s runs 0 + 999 * runs.length := by
  have := spiralsTime_spec w runs s 0 le_rfl h0 (by linarith)
  simpa using this

theorem speller_total (w : ℕ) (runs : List (Timeval × Timeval)) (h0 : ∀ r ∈ runs, r.1.micros ≤ r.2.micros)
    (hb : ∀ r ∈ runs, r.2.micros - r.1.micros < 2 ^ w) :
    1000000 * spellerTime w runs ≤ total runs ∧ total runs ≤ 1000000 * spellerTime w runs + 999999 * runs.length := by
  induction runs with
  | nil => simp [spellerTime, total]
  | cons r l ih =>
    have := ih (fun x hx => h0 x (List.mem_cons_of_mem _ hx)) (fun x hx => hb x (List.mem_cons_of_mem _ hx))
    have hr1 := h0 r List.mem_cons_self
    have hd : ((Watch.new w r.1).stop w r.2).duration = r.2.micros - r.1.micros := by
      rw [duration_eq w _ r.1 r.2 rfl, Int.emod_eq_of_lt (by linarith) (hb r List.mem_cons_self)]
    have hsp : spellerTime w (r :: l) = (r.2.micros - r.1.micros) / 1000000 + spellerTime w l := by
      simp [spellerTime, hd, convert]
    have htot : total (r :: l) = (r.2.micros - r.1.micros) + total l := by simp [total]
    rw [hsp, htot]
    push_cast [List.length_cons]
    generalize hq : (r.2.micros - r.1.micros) / 1000000 = q
    have hq1 : 1000000 * q ≤ r.2.micros - r.1.micros ∧ r.2.micros - r.1.micros ≤ 1000000 * q + 999999 := by omega
    constructor <;> linarith

/-- **False of the code: the P300 speller benchmark reports the time of the trainings, up to a second.**  The seconds of each training are cut off
before they are added: any number of trainings shorter than a second take no time at all. -/
theorem short_runs_fail (w : ℕ) (hw : 20 ≤ w) (runs : List (Timeval × Timeval)) (h0 : ∀ r ∈ runs, r.1.micros ≤ r.2.micros)
    (h1 : ∀ r ∈ runs, r.2.micros - r.1.micros < 1000000) : spellerTime w runs = 0 := by
  have h2 : (2 : ℤ) ^ 20 ≤ 2 ^ w := pow_le_pow_right₀ (by norm_num) hw
  induction runs with
  | nil => rfl
  | cons r l ih =>
    have hr1 := h0 r List.mem_cons_self
    have hr2 := h1 r List.mem_cons_self
    have hd : ((Watch.new w r.1).stop w r.2).duration = r.2.micros - r.1.micros := by
      rw [duration_eq w _ r.1 r.2 rfl, Int.emod_eq_of_lt (by linarith) (by linarith)]
    have := ih (fun x hx => h0 x (List.mem_cons_of_mem _ hx)) (fun x hx => h1 x (List.mem_cons_of_mem _ hx))
    have hsp : spellerTime w (r :: l) = (r.2.micros - r.1.micros) / 1000000 + spellerTime w l := by
      simp [spellerTime, hd, convert]
    rw [hsp, this]
    omega

/-- Example: twenty trainings of 0.9 seconds. -/
example : spellerTime 64 (List.replicate 20 (⟨5, 0⟩, ⟨5, 900000⟩)) = 0 ∧ total (List.replicate 20 (⟨5, 0⟩, ⟨5, 900000⟩)) = 18000000 := by
  refine ⟨short_runs_fail 64 (by norm_num) _ ?_ ?_, ?_⟩
  · intro r hr; rw [List.eq_of_mem_replicate hr]; simp [Timeval.micros]
  · intro r hr; rw [List.eq_of_mem_replicate hr]; simp [Timeval.micros]
  · norm_num [total, Timeval.micros]

theorem reports_from (w : ℕ) (start : Timeval) (ts : List Timeval) : ∀ e : Evaluator, e.watch.started = systime w start →
    ∀ r, r ∈ e.reports w ts ↔ ∃ k t, ts[k]? = some t ∧ (e.iteration + k + 1) % e.interval = 0 ∧ r.1 = e.iteration + k + 1 ∧
      r.2 = (t.micros - start.micros) % 2 ^ w / 1000 := by
  induction ts with
  | nil => intro e _ r; simp [Evaluator.reports]
  | cons t l ih =>
    intro e he r
    have key : ∀ e' : Evaluator, e'.watch.started = systime w start → e'.iteration = e.iteration + 1 → e'.interval = e.interval →
        (r ∈ e'.reports w l ↔ ∃ k t', (t :: l)[k + 1]? = some t' ∧ (e.iteration + (k + 1) + 1) % e.interval = 0 ∧
          r.1 = e.iteration + (k + 1) + 1 ∧ r.2 = (t'.micros - start.micros) % 2 ^ w / 1000) := by
      intro e' h1 h2 h3
      rw [ih e' h1 r, h2, h3]
      simp only [List.getElem?_cons_succ]
      constructor
      · rintro ⟨k, t', a, b, c, d⟩
        exact ⟨k, t', a, by rwa [show e.iteration + (k + 1) + 1 = e.iteration + 1 + k + 1 by ring], by rw [c]; ring, d⟩
      · rintro ⟨k, t', a, b, c, d⟩
        exact ⟨k, t', a, by rwa [show e.iteration + 1 + k + 1 = e.iteration + (k + 1) + 1 by ring], by rw [c]; ring, d⟩
    by_cases hc : (e.iteration + 1) % e.interval = 0
    · have he1 : e.evaluate w t = ({ e with iteration := e.iteration + 1, watch := e.watch.stop w t },
          some (e.iteration + 1, (t.micros - start.micros) % 2 ^ w / 1000)) := by
        simp only [Evaluator.evaluate, hc, if_true, duration_eq w e.watch start t he, convert]
      simp only [Evaluator.reports, he1, List.mem_cons]
      rw [key { e with iteration := e.iteration + 1, watch := e.watch.stop w t } he rfl rfl]
      constructor
      · rintro (rfl | ⟨k, t', h⟩)
        · exact ⟨0, t, rfl, hc, rfl, rfl⟩
        · exact ⟨k + 1, t', h⟩
      · rintro ⟨k, t', a, b, c, d⟩
        cases k with
        | zero =>
          left
          obtain rfl : t = t' := by simpa using a
          exact Prod.ext c d
        | succ k => exact Or.inr ⟨k, t', a, b, c, d⟩
    · have he1 : e.evaluate w t = ({ e with iteration := e.iteration + 1 }, none) := by
        simp only [Evaluator.evaluate, hc, if_false]
      simp only [Evaluator.reports, he1]
      rw [key { e with iteration := e.iteration + 1 } he rfl rfl]
      constructor
      · rintro ⟨k, t', h⟩
        exact ⟨k + 1, t', h⟩
      · rintro ⟨k, t', a, b, c, d⟩
        cases k with
        | zero => exact absurd b hc
        | succ k => exact ⟨k, t', a, b, c, d⟩

/-- **The times of an evaluator are whole milliseconds since its construction**, in every history of calls: one line for every multiple of the
interval, with the time of that call - whatever training the call belongs to. -/
theorem evaluator_times (w interval : ℕ) (c start : Timeval) (ts : List Timeval) (h0 : ∀ t ∈ ts, start.micros ≤ t.micros)
    (h1 : ∀ t ∈ ts, t.micros - start.micros < 2 ^ w) (n : ℕ) (ms : ℤ) :
    (n, ms) ∈ (Evaluator.new w interval c start).reports w ts ↔
      0 < n ∧ interval ∣ n ∧ ∃ t, ts[n - 1]? = some t ∧ 1000 * ms ≤ t.micros - start.micros ∧ t.micros - start.micros < 1000 * (ms + 1) := by
  rw [reports_from w start ts _ rfl]
  constructor
  · rintro ⟨k, t, a, b, d, e⟩
    simp only [Evaluator.new, Nat.zero_add] at b d
    have hm := List.mem_of_getElem? a
    have := h0 t hm
    rw [Int.emod_eq_of_lt (by linarith) (h1 t hm)] at e
    simp only at d e
    subst d
    refine ⟨Nat.succ_pos k, Nat.dvd_of_mod_eq_zero b, t, by simpa using a, ?_, ?_⟩ <;> omega
  · rintro ⟨hn, hd, t, a, b, d⟩
    have hm := List.mem_of_getElem? a
    have := h0 t hm
    refine ⟨n - 1, t, a, ?_, ?_, ?_⟩
    · simp only [Evaluator.new, Nat.zero_add]
      rw [Nat.sub_add_cancel hn]
      exact Nat.mod_eq_zero_of_dvd hd
    · simp only [Evaluator.new, Nat.zero_add]
      omega
    · rw [Int.emod_eq_of_lt (by linarith) (h1 t hm)]
      simp only
      omega

/-- Example: every second call; two trainings with an hour in between. -/
example : (Evaluator.new 64 2 ⟨0, 0⟩ ⟨0, 10⟩).reports 64 [⟨1, 0⟩, ⟨2, 0⟩, ⟨3602, 0⟩, ⟨3603, 500000⟩] = [(2, 1999), (4, 3603499)] := by
  decide

/-- **False of the code: the time of an evaluator is the time of the training.**  It counts from the construction of the evaluator and is never
restarted: in a training that begins `b` milliseconds later all times are too large by at least `b`. -/
theorem evaluator_training_fails (w interval : ℕ) (c start : Timeval) (ts : List Timeval) (training : Timeval) (b : ℤ)
    (h0 : ∀ t ∈ ts, training.micros ≤ t.micros) (h1 : ∀ t ∈ ts, t.micros - start.micros < 2 ^ w) (hb0 : 0 ≤ b)
    (hb : start.micros + 1000 * b ≤ training.micros) (n : ℕ) (ms : ℤ) (hr : (n, ms) ∈ (Evaluator.new w interval c start).reports w ts) :
    b ≤ ms ∧ ∃ t, ts[n - 1]? = some t ∧ (t.micros - training.micros) / 1000 ≤ ms - b := by
  have hs : ∀ t ∈ ts, start.micros ≤ t.micros := fun t ht => by have := h0 t ht; linarith
  obtain ⟨_, _, t, ht, h2, h3⟩ := (evaluator_times w interval c start ts hs h1 n ms).mp hr
  have := h0 t (List.mem_of_getElem? ht)
  exact ⟨by omega, t, ht, by omega⟩

end Verif.Stopwatch
