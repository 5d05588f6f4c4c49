import Verif.Model.Logger
import Mathlib.Data.List.Basic
import Mathlib.Tactic.Linarith

/-!
# C61: log messages are filtered by level
-/

namespace Verif.Logging

open Outcome

/-- Specification: the level chosen last, all messages at the beginning. -/
def chosen (past : List Event) : Level :=
  (past.reverse.findSome? fun | .setLevel l => some l | _ => none).getD .debug

/-- Specification: the stream chosen last, `std::cout` at the beginning. -/
def target (past : List Event) : ℕ :=
  (past.reverse.findSome? fun | .setStream s => some s | _ => none).getD 0

/-- Specification: the lines that a history writes after a past. -/
def expected (compiled : Level) : List Event → List Event → List Line
  | _, [] => []
  | past, .log l text :: es =>
    if l.num ≤ (chosen past).num ∧ l.num ≤ compiled.num then
      ⟨target past, l, text⟩ :: expected compiled (past ++ [.log l text]) es
    else expected compiled (past ++ [.log l text]) es
  | past, e :: es => expected compiled (past ++ [e]) es

theorem chosen_set (past : List Event) (l : Level) : chosen (past ++ [.setLevel l]) = l := by simp [chosen]
theorem chosen_log (past : List Event) (l : Level) (t : String) : chosen (past ++ [.log l t]) = chosen past := by simp [chosen]
theorem chosen_stream (past : List Event) (s : ℕ) : chosen (past ++ [.setStream s]) = chosen past := by simp [chosen]
theorem target_set (past : List Event) (l : Level) : target (past ++ [.setLevel l]) = target past := by simp [target]
theorem target_log (past : List Event) (l : Level) (t : String) : target (past ++ [.log l t]) = target past := by simp [target]
theorem target_stream (past : List Event) (s : ℕ) : target (past ++ [.setStream s]) = s := by simp [target]

theorem run_from (compiled : Level) (es past : List Event) (g : Global) (h1 : g.level = chosen past) (h2 : g.stream = target past)
    (hd : ∀ text, Event.log .disabled text ∉ es) :
    ∃ g', run compiled g es = ok g' ∧ g'.out = g.out ++ expected compiled past es := by
  induction es generalizing past g with
  | nil => exact ⟨g, rfl, by simp [expected]⟩
  | cons e es ih =>
    have hd' : ∀ text, Event.log .disabled text ∉ es := fun t h => hd t (List.mem_cons_of_mem _ h)
    cases e with
    | setLevel l =>
      obtain ⟨g', r, o⟩ := ih (past ++ [.setLevel l]) { g with level := l } (by rw [chosen_set]) (by rw [target_set]; exact h2) hd'
      exact ⟨g', r, o⟩
    | setStream s =>
      obtain ⟨g', r, o⟩ := ih (past ++ [.setStream s]) { g with stream := s } (by rw [chosen_stream]; exact h1) (by rw [target_stream]) hd'
      exact ⟨g', r, o⟩
    | log l text =>
      have hl : l ≠ .disabled := fun h => hd text (by rw [h]; exact List.mem_cons_self ..)
      rw [run, step, expected]
      by_cases c1 : l.num > compiled.num
      · rw [if_pos c1, if_neg (by omega)]
        exact ih (past ++ [.log l text]) g (by rw [chosen_log]; exact h1) (by rw [target_log]; exact h2) hd'
      · by_cases c2 : l.num > g.level.num
        · rw [if_neg c1, if_pos c2, if_neg (by rw [← h1]; omega)]
          exact ih (past ++ [.log l text]) g (by rw [chosen_log]; exact h1) (by rw [target_log]; exact h2) hd'
        · rw [if_neg c1, if_neg c2, if_pos (by rw [← h1]; omega), emit, check_true hl, ok_bind, ok_bind]
          obtain ⟨g', r, o⟩ := ih (past ++ [.log l text]) { g with out := g.out ++ [⟨g.stream, l, text⟩] }
            (by rw [chosen_log]; exact h1) (by rw [target_log]; exact h2) hd'
          exact ⟨g', r, by rw [o, h2]; simp⟩

/-- **C61 (global log)**: for every history of level changes, stream changes and messages, the written lines are exactly the messages
whose level is enabled at that time, on the stream of that time, in order. -/
theorem log_filtered (compiled : Level) (es : List Event) (hd : ∀ text, Event.log .disabled text ∉ es) :
    ∃ g, run compiled {} es = ok g ∧ g.out = expected compiled [] es := by
  obtain ⟨g, r, o⟩ := run_from compiled es [] {} rfl rfl hd
  exact ⟨g, r, by simpa using o⟩

example : expected .debug [] [.log .info "a", .setLevel .error, .log .info "b", .log .error "c", .setStream 1, .setLevel .debug,
    .log .debug "d"] = [⟨0, .info, "a"⟩, ⟨0, .error, "c"⟩, ⟨1, .debug, "d"⟩] := by decide

theorem expected_disabled (compiled : Level) (es past : List Event) (hc : chosen past = .disabled)
    (hs : ∀ l, Event.setLevel l ∉ es) (hd : ∀ text, Event.log .disabled text ∉ es) : expected compiled past es = [] := by
  induction es generalizing past with
  | nil => rfl
  | cons e es ih =>
    have hd' : ∀ text, Event.log .disabled text ∉ es := fun t h => hd t (List.mem_cons_of_mem _ h)
    have hs' : ∀ l, Event.setLevel l ∉ es := fun t h => hs t (List.mem_cons_of_mem _ h)
    cases e with
    | setLevel l => exact absurd (List.mem_cons_self ..) (hs l)
    | setStream s => exact ih _ (by rw [chosen_stream]; exact hc) hs' hd'
    | log l text =>
      have hl : l ≠ .disabled := fun h => hd text (by rw [h]; exact List.mem_cons_self ..)
      rw [expected, if_neg]
      · exact ih _ (by rw [chosen_log]; exact hc) hs' hd'
      · rw [hc]
        cases l <;> simp_all [Level.num]

theorem run_append (compiled : Level) (es fs : List Event) (g : Global) :
    run compiled g (es ++ fs) = run compiled g es >>= fun g' => run compiled g' fs := by
  induction es generalizing g with
  | nil => rfl
  | cons e es ih =>
    simp only [List.cons_append, run, bind_assoc]
    congr 1
    funext g'
    exact ih g'

theorem expected_append (compiled : Level) (es fs past : List Event) :
    expected compiled past (es ++ fs) = expected compiled past es ++ expected compiled (past ++ es) fs := by
  induction es generalizing past with
  | nil => simp [expected]
  | cons e es ih =>
    cases e with
    | setLevel l => simp [expected, ih]
    | setStream s => simp [expected, ih]
    | log l text =>
      simp only [List.cons_append, expected]
      split <;> simp [ih]

/-- **C61 (global log)**: after `setDisabled` nothing is written until a level is set again. -/
theorem log_disabled (compiled : Level) (es fs : List Event) (hd : ∀ text, Event.log .disabled text ∉ es ++ fs)
    (hs : ∀ l, Event.setLevel l ∉ fs) :
    ∃ g1 g2, run compiled {} (es ++ [.setLevel .disabled]) = ok g1 ∧ run compiled g1 fs = ok g2 ∧ g2.out = g1.out := by
  obtain ⟨g1, r1, o1⟩ := log_filtered compiled (es ++ [.setLevel .disabled]) (fun t h => by
    rcases List.mem_append.1 h with h | h
    · exact hd t (List.mem_append_left _ h)
    · simp at h)
  obtain ⟨g2, r2, o2⟩ := log_filtered compiled ((es ++ [.setLevel .disabled]) ++ fs) (fun t h => by
    rcases List.mem_append.1 h with h | h
    · rcases List.mem_append.1 h with h | h
      · exact hd t (List.mem_append_left _ h)
      · simp at h
    · exact hd t (List.mem_append_right _ h))
  refine ⟨g1, g2, r1, ?_, ?_⟩
  · rw [run_append, r1, ok_bind] at r2
    exact r2
  · rw [o2, o1, expected_append, List.nil_append, expected_disabled compiled fs _ (by rw [chosen_set]) hs
      (fun t h => hd t (List.mem_append_right _ h)), List.append_nil]

example : ∃ es fs : List Event, (∀ text, Event.log .disabled text ∉ es ++ fs) ∧ (∀ l, Event.setLevel l ∉ fs) ∧ fs ≠ [] :=
  ⟨[.log .info "a"], [.log .error "b"], by simp, by simp, by simp⟩

/-- A message of level `DISABLED` is refused by an assertion, whatever the levels are. -/
theorem log_level_disabled_refused (compiled : Level) (g : Global) (text : String) :
    step compiled g (.log .disabled text) = checkFailed := by
  rw [step, if_neg (by simp [Level.num]), if_neg (by simp [Level.num]), emit, check_false (by simp)]
  rfl

/-! ## Local loggers -/

/-- Specification: the loggers that a history creates, in order, with whether they were created with a target while logging was not
deactivated. -/
def created : Bool → List Action → List Bool
  | _, [] => []
  | _, .setDeactivate b :: as => created b as
  | d, .construct t _ :: as => (!d && decide (t ≠ .none)) :: created d as
  | d, .write _ _ :: as => created d as

/-- Specification: the texts given to loggers that are in `on`. -/
def texts (on : ℕ → Bool) : List Action → List (ℕ × String)
  | [] => []
  | .write i text :: as => if on i then (i, text) :: texts on as else texts on as
  | _ :: as => texts on as

theorem runLoggers_out (as : List Action) (s s' : Loggers) (h : runLoggers s as = ok s') :
    (s'.targets.map fun t => decide (t ≠ .none)) = (s.targets.map fun t => decide (t ≠ .none)) ++ created s.deactivate as ∧
      s'.out = s.out ++ texts (fun i => (s'.targets.map fun t => decide (t ≠ .none)).getD i false) as := by
  induction as generalizing s with
  | nil =>
    cases h
    simp [created, texts]
  | cons a as ih =>
    rw [runLoggers, bind_eq_ok] at h
    obtain ⟨s1, h1, h2⟩ := h
    have key := ih s1 h2
    cases a with
    | setDeactivate b =>
      cases h1
      exact key
    | construct t opens =>
      rw [act, construct] at h1
      by_cases hd : s.deactivate
      · rw [if_pos hd] at h1
        cases h1
        refine ⟨?_, key.2⟩
        rw [key.1]
        simp [created, hd]
      · have hd' : s.deactivate = false := by simpa using hd
        rw [if_neg hd] at h1
        by_cases hf : t = .file ∨ t = .appendFile
        · rw [if_pos hf, bind_eq_ok] at h1
          obtain ⟨_, _, h1⟩ := h1
          cases h1
          refine ⟨?_, key.2⟩
          rw [key.1]
          simp [created, hd']
        · rw [if_neg hf] at h1
          cases h1
          refine ⟨?_, key.2⟩
          rw [key.1]
          simp [created, hd']
    | write i text =>
      rw [act, write, bind_eq_ok] at h1
      obtain ⟨t, ht, h1⟩ := h1
      rw [read_eq_ok] at ht
      have hlen : i < s.targets.length := (List.getElem?_eq_some_iff.1 ht).1
      have hon : (s1.targets = s.targets) → (s'.targets.map fun t => decide (t ≠ .none)).getD i false = decide (t ≠ .none) := by
        intro hs
        rw [key.1, List.getD_eq_getElem?_getD, List.getElem?_append_left (by rw [hs]; simpa using hlen), List.getElem?_map, hs, ht]
        rfl
      cases t <;> cases h1 <;> refine ⟨key.1, ?_⟩ <;> rw [key.2, texts, hon rfl] <;> simp

/-- **C61 (loggers, what holds)**: a logger writes all its texts if it was created with a target while logging was not deactivated and
nothing otherwise.  The flag at the time of writing does not matter (`logger_deactivated_fails`). -/
theorem logger_writes_partial (as : List Action) (s : Loggers) (h : runLoggers {} as = ok s) :
    s.out = texts (fun i => (created false as).getD i false) as := by
  have := runLoggers_out as {} s h
  rw [this.2, this.1]
  rfl

example : ∃ s, runLoggers {} [.construct .console true, .setDeactivate true, .construct .file false, .write 1 "b", .setDeactivate false,
    .construct .appendFile true, .write 2 "c", .write 0 "a"] = ok s ∧ s.out = [(2, "c"), (0, "a")] := by
  refine ⟨_, rfl, rfl⟩

theorem created_deactivated (as : List Action) (h : ∀ b, Action.setDeactivate b ∈ as → b = true) :
    ∀ x ∈ created true as, x = false := by
  induction as with
  | nil => simp [created]
  | cons a as ih =>
    have ih' := ih fun b hb => h b (List.mem_cons_of_mem _ hb)
    cases a with
    | setDeactivate b =>
      have : b = true := h b (List.mem_cons_self ..)
      subst this
      exact ih'
    | construct t o =>
      intro x hx
      simp only [created, Bool.not_true, Bool.false_and, List.mem_cons] at hx
      rcases hx with rfl | hx
      · rfl
      · exact ih' x hx
    | write i t => exact ih'

theorem texts_off (on : ℕ → Bool) (h : ∀ i, on i = false) (as : List Action) : texts on as = [] := by
  induction as with
  | nil => rfl
  | cons a as ih =>
    cases a with
    | write i t => rw [texts, h i]; simpa using ih
    | _ => exact ih

/-- **C61 (loggers, partial)**: if logging is deactivated before the first logger is created and not activated again, nothing is ever
written. -/
theorem logger_deactivated_partial (as : List Action) (s : Loggers) (h : runLoggers {} (.setDeactivate true :: as) = ok s)
    (hd : ∀ b, Action.setDeactivate b ∈ as → b = true) : s.out = [] := by
  rw [logger_writes_partial _ s h]
  refine texts_off _ (fun i => ?_) _
  have key := created_deactivated as hd
  rw [List.getD_eq_getElem?_getD]
  cases hi : (created false (.setDeactivate true :: as))[i]? with
  | none => rfl
  | some x => exact key x (List.mem_of_getElem? hi)

/-- **C61 is false** for loggers that exist already: after deactivation `isActive` says no, yet every text is written. -/
theorem logger_deactivated_fails (text : String) : ∃ s s', runLoggers {} [.construct .console true, .setDeactivate true] = ok s ∧
    isActive s 0 = ok false ∧ runLoggers s [.write 0 text] = ok s' ∧ s.out = [] ∧ s'.out = [(0, text)] :=
  ⟨_, _, rfl, rfl, rfl, rfl, rfl⟩

end Verif.Logging
