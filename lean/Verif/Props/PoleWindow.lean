import Verif.Model.PoleWindow
import Verif.Props.PoleBalancing

/-!
# C134: the window of the pole balancing example
-/

namespace Verif.PoleWindow

open Outcome Poles

noncomputable section

/-! ## Specification -/

/-- Position of the cart and angles of the poles of a state of the environment. -/
def Matches (w : Window) (s : State) : Prop :=
  w.position = s 0 ∧ w.angle1 = s 2 ∧ (w.singlePole = false → w.angle2 = s 4)

/-- A line from `p` of length `l` that leans by the angle `t` to the right. -/
def Leans (line : Point × Point) (p : Point) (l t : ℝ) : Prop := line = (p, (p.1 + l * Real.sin t, p.2 + l * Real.cos t))

/-- `b` is the greatest of the numbers `l`. -/
def Greatest (b : ℤ) (l : List ℕ) : Prop := (∃ n ∈ l, b = (n : ℤ)) ∧ ∀ n ∈ l, (n : ℤ) ≤ b

/-- The lines for episodes with `l` steps, the first of which has the number `k + 1`. -/
def episodes (k : ℕ) : List ℕ → List Line
  | [] => []
  | n :: l => .episode (k + 1) n :: episodes (k + 1) l

/-- The input does not start another run. -/
def Input.NoRun : Input → Prop
  | .key (.r _) => False
  | _ => True

def Input.isGo : Input → Bool
  | .go _ => true
  | _ => false

def Input.isMinus : Input → Bool
  | .key .minus => true
  | _ => false

/-! ## The pause -/

theorem rnd_between (R : Rounding) {x : ℝ} {k : ℕ} (hk : (k : ℝ) < 2 ^ 33) (h1 : (k : ℝ) ≤ x) (h2 : x ≤ k + 15 / 16) : ⌊R.rnd x⌋ = k := by
  have hk' : (k : ℤ) < 2 ^ 33 := by exact_mod_cast hk
  have e1 : R.rnd k = k := by
    have := R.exact (16 * k) (by rw [abs_of_nonneg (by positivity)]; omega)
    push_cast at this
    rwa [show (16 * (k : ℝ)) / 16 = k by ring] at this
  have e2 : R.rnd (k + 15 / 16) = k + 15 / 16 := by
    have := R.exact (16 * k + 15) (by rw [abs_of_nonneg (by positivity)]; omega)
    push_cast at this
    rwa [show (16 * (k : ℝ) + 15) / 16 = k + 15 / 16 by ring] at this
  have a1 := R.mono _ _ h1
  have a2 := R.mono _ _ h2
  rw [e1] at a1
  rw [e2] at a2
  rw [Int.floor_eq_iff]
  push_cast
  constructor <;> linarith

/-- Rounding does not matter: the new pause is the integer part of nine tenths of the old one. -/
theorem plus_eq (R : Rounding) {p : ℕ} (hp : p < 2 ^ 31) : scaled R p factorPlus = ok ((9 * p / 10 : ℕ) : ℤ) := by
  have hp' : (p : ℝ) < 2 ^ 31 := by exact_mod_cast hp
  have hdiv : 10 * (9 * p / 10) ≤ 9 * p ∧ 9 * p ≤ 10 * (9 * p / 10) + 9 := by omega
  generalize hq : 9 * p / 10 = q at *
  have h1 : (10 * q : ℝ) ≤ 9 * p := by exact_mod_cast hdiv.1
  have h2 : (9 * p : ℝ) ≤ 10 * q + 9 := by exact_mod_cast hdiv.2
  have hp0 : (0 : ℝ) ≤ p := by positivity
  have hf : ⌊R.rnd ((p : ℤ) * factorPlus)⌋ = q := by
    refine rnd_between R (by nlinarith) ?_ ?_ <;> · unfold factorPlus; push_cast; nlinarith
  have hlt : R.rnd ((p : ℤ) * factorPlus) < 2 ^ 31 := by
    have h3 := Int.lt_floor_add_one (R.rnd ((p : ℤ) * factorPlus))
    rw [hf] at h3
    have : (q : ℝ) + 1 ≤ 2 ^ 31 := by
      have : q + 1 ≤ 2 ^ 31 := by omega
      exact_mod_cast this
    refine lt_of_lt_of_le h3 ?_
    push_cast
    exact this
  rw [scaled]
  simp only [hlt, if_true, hf]

/-- Likewise eleven tenths, as long as that fits. -/
theorem minus_eq (R : Rounding) {p : ℕ} (hp : p < 2 ^ 31) :
    scaled R p factorMinus = if 11 * p / 10 < 2 ^ 31 then ok ((11 * p / 10 : ℕ) : ℤ) else ub := by
  have hp' : (p : ℝ) < 2 ^ 31 := by exact_mod_cast hp
  have hdiv : 10 * (11 * p / 10) ≤ 11 * p ∧ 11 * p ≤ 10 * (11 * p / 10) + 9 := by omega
  generalize hq : 11 * p / 10 = q at *
  have h1 : (10 * q : ℝ) ≤ 11 * p := by exact_mod_cast hdiv.1
  have h2 : (11 * p : ℝ) ≤ 10 * q + 9 := by exact_mod_cast hdiv.2
  have hp0 : (0 : ℝ) ≤ p := by positivity
  have hf : ⌊R.rnd ((p : ℤ) * factorMinus)⌋ = q := by
    refine rnd_between R (by nlinarith) ?_ ?_ <;> · unfold factorMinus; push_cast; nlinarith
  have hiff : R.rnd ((p : ℤ) * factorMinus) < 2 ^ 31 ↔ q < 2 ^ 31 := by
    have h3 := Int.lt_floor_add_one (R.rnd ((p : ℤ) * factorMinus))
    have h4 := Int.floor_le (R.rnd ((p : ℤ) * factorMinus))
    rw [hf] at h3 h4
    constructor
    · intro h
      have : (q : ℝ) < 2 ^ 31 := lt_of_le_of_lt h4 h
      exact_mod_cast this
    · intro h
      have : (q : ℝ) + 1 ≤ 2 ^ 31 := by
        have : q + 1 ≤ 2 ^ 31 := h
        exact_mod_cast this
      refine lt_of_lt_of_le h3 ?_
      push_cast
      exact this
  rw [scaled]
  simp only [hiff, hf]

/-! ## Steps of a run -/

/-- The environments of the active runs. -/
structure Good (w : Window) (e : Env) : Prop where
  setup : e.setup = w.setup
  full : e.fullyObservable = w.fullyObservable
  observed : ∃ s, e.state = some s ∧ e.normalizedState = some (e.setup.observation e.fullyObservable s)
  steps : e.step ≤ 100000

/-- The limits of an episode. -/
def Within (w : Window) (s : State) : Prop := |s 0| ≤ 2.4 ∧ |s 2| ≤ 0.62 ∧ (w.singlePole = false → |s 4| ≤ 0.62)

theorem setup_cases (w : Window) : (w.singlePole = true ∧ w.setup = single) ∨ (w.singlePole = false ∧ w.setup = double) := by
  unfold Window.setup
  cases w.singlePole <;> simp

/-- What a frame shows, and what happens in it. -/
structure Shown (w w' : Window) (s : State) (a : ℝ) : Prop where
  position : w'.position = s 0 / 2.4
  angle1 : w'.angle1 = s 2 / 0.62
  angle2 : w'.angle2 = if w'.singlePole then 0 else s 4 / 0.62
  force : w'.force = a
  same : w'.singlePole = w.singlePole ∧ w'.fullyObservable = w.fullyObservable ∧ w'.pause = w.pause

theorem frame_ok {w : Window} {e : Env} (h : Good w e) (hs : e.step < 100000) (a : ℝ) :
    ∃ w' e' s, frame w e a = ok (w', e') ∧ e.state = some s ∧ Shown w w' s a ∧ e.stateTransition a = ok e' ∧ e'.step = e.step + 1 ∧ Good w' e' := by
  obtain ⟨h1, h2, ⟨s, h3, h4⟩, _⟩ := h
  obtain ⟨e', ht, hstep, hgood, hact⟩ : ∃ e', e.stateTransition a = ok e' ∧ e'.step = e.step + 1 ∧ Good w e' ∧ e'.action = a := by
    rw [Env.stateTransition, h3]
    exact ⟨_, rfl, rfl, ⟨h1, h2, ⟨_, rfl, rfl⟩, hs⟩, rfl⟩
  have hg : e.getState = ok (w.setup.observation w.fullyObservable s) := by rw [Env.getState, h4, h1, h2]
  have h5 : entry e (w.setup.observation w.fullyObservable s) 0 = ok (s 0 / 2.4) ∧
      entry e (w.setup.observation w.fullyObservable s) (if w.fullyObservable then 2 else 1) = ok (s 2 / 0.62) ∧
      (w.singlePole = false → entry e (w.setup.observation w.fullyObservable s) (if w.fullyObservable then 4 else 2) = ok (s 4 / 0.62)) := by
    unfold entry Env.stateSpaceDimension
    rw [h1, h2]
    unfold Window.setup
    cases w.singlePole <;> cases w.fullyObservable <;>
      simp [single, double, Setup.dim, Setup.observation, Setup.normalization, div_eq_mul_inv]
  refine ⟨{ w with position := s 0 / 2.4, angle1 := s 2 / 0.62, angle2 := if w.singlePole then 0 else s 4 / 0.62, force := a }, e', s, ?_, h3,
    ⟨rfl, rfl, rfl, rfl, rfl, rfl, rfl⟩, ht, hstep, ⟨hgood.setup, hgood.full, hgood.observed, hgood.steps⟩⟩
  rw [frame, hg]
  simp only [ok_bind, h5.1, h5.2.1, ht, hact]
  cases hsp : w.singlePole with
  | true => simp
  | false => simp [h5.2.2 hsp]

theorem terminal_iff {w : Window} {e : Env} (h : Good w e) {s : State} (hs : e.state = some s) :
    ∃ t, e.terminalState = ok t ∧ (t ↔ 100000 ≤ e.step ∨ ¬ Within w s) := by
  have hm : e.setup.maxSteps = 100000 := by rw [h.setup]; rcases setup_cases w with ⟨_, g⟩ | ⟨_, g⟩ <;> rw [g] <;> rfl
  unfold Env.terminalState
  rw [hm, hs]
  by_cases h1 : 100000 ≤ e.step
  · rw [if_pos h1]
    exact ⟨_, rfl, by simp [h1]⟩
  · rw [if_neg h1]
    refine ⟨_, rfl, ?_⟩
    simp only [h1, false_or, Within, not_and_or, not_le, h.setup]
    rcases setup_cases w with ⟨g0, g⟩ | ⟨g0, g⟩
    · simp only [g0, g, single, Nat.lt_one_iff]
      simp
    · simp only [g0, g, double]
      constructor
      · rintro (k | ⟨i, hi, k⟩)
        · exact .inl k
        · have : i = 0 ∨ i = 1 := by omega
          rcases this with rfl | rfl
          · exact .inr (.inl k)
          · refine .inr (.inr ?_)
            simpa using k
      · rintro (k | k | k)
        · exact .inl k
        · exact .inr ⟨0, by omega, k⟩
        · refine .inr ⟨1, by omega, ?_⟩
          simpa using k

theorem restart_good {w : Window} {e : Env} (h1 : e.setup = w.setup) (h2 : e.fullyObservable = w.fullyObservable) : Good w e.restart :=
  ⟨h1, h2, ⟨_, rfl, rfl⟩, Nat.zero_le _⟩

theorem start_within (w : Window) : Within w w.setup.start := by
  rcases setup_cases w with ⟨g0, g⟩ | ⟨g0, g⟩ <;> rw [g] <;> norm_num [Within, Setup.start, single, double]

/-- A frame of a run is drawn in a state within the limits. -/
theorem proceed_frame {w : Window} {e : Env} (h : Good w e) {s : State} (hs : e.state = some s) (hw : Within w s) (h1 : e.step < 100000) (a : ℝ)
    (left : ℕ) (best : ℤ) : ∃ w' e', proceed w a left e best = ok (w', some ⟨e', left, best⟩, []) ∧ Shown w w' s a ∧ e.stateTransition a = ok e' ∧
      e'.step = e.step + 1 ∧ Good w' e' := by
  obtain ⟨t, ht, hti⟩ := terminal_iff h hs
  have ht' : ¬ t := by rw [hti]; push Not; exact ⟨h1, hw⟩
  obtain ⟨w', e', s', g1, g2, g3, g4, g5, g6⟩ := frame_ok h h1 a
  rw [hs] at g2
  cases g2
  refine ⟨w', e', ?_, g3, g4, g5, g6⟩
  cases left <;> · rw [proceed, episode, ht]; simp only [ok_bind, if_neg ht', g1]

theorem terminal_of {w : Window} {e : Env} (h : Good w e) {s : State} (hs : e.state = some s) (hn : ¬ Within w s ∨ e.step = 100000) :
    ∃ t, e.terminalState = ok t ∧ t := by
  obtain ⟨t, ht, hti⟩ := terminal_iff h hs
  refine ⟨t, ht, hti.2 ?_⟩
  rcases hn with hn | hn
  · exact .inr hn
  · exact .inl hn.ge

/-- An episode ends. -/
theorem proceed_end {w : Window} {e : Env} (h : Good w e) {s : State} (hs : e.state = some s) (hn : ¬ Within w s ∨ e.step = 100000) (a : ℝ)
    (left : ℕ) (best : ℤ) :
    (e.step = 100000 → proceed w a left e best = ok (w, none, [.episode (100000 - left) e.step, .longest e.step])) ∧
    (e.step < 100000 → left = 0 → proceed w a left e best = ok (w, none, [.episode (100000 - left) e.step, .longest (better best e.step)])) ∧
    (e.step < 100000 → ∀ left', left = left' + 1 → ∃ w' e', proceed w a left e best =
        ok (w', some ⟨e', left', better best e.step⟩, [.episode (100000 - left) e.step]) ∧ Shown w w' w.setup.start a ∧
        e.restart.stateTransition a = ok e' ∧ e'.step = 1 ∧ Good w' e') := by
  obtain ⟨t, ht, ht'⟩ := terminal_of h hs hn
  refine ⟨fun h1 => ?_, fun h1 h2 => ?_, fun h1 left' h2 => ?_⟩
  · cases left <;> · rw [proceed, episode, ht]; simp only [ok_bind, if_pos ht', if_pos h1.ge]
  · subst h2
    rw [proceed, episode, ht]
    simp only [ok_bind, if_pos ht', if_neg (Nat.not_le.2 h1)]
  · subst h2
    obtain ⟨w', e', g1, g2, g3, g4, g5⟩ := proceed_frame (restart_good h.setup h.full) (s := e.setup.start) rfl
      (by rw [h.setup]; exact start_within w) (by show 0 < 100000; omega) a left' (better best e.step)
    refine ⟨w', e', ?_, by rw [← h.setup]; exact g2, g3, g4, g5⟩
    rw [proceed, episode, ht]
    simp only [ok_bind, if_pos ht', if_neg (Nat.not_le.2 h1), g1]

/-! ## Histories of the program -/

theorem Good.congr {w w' : Window} {e : Env} (h : Good w e) (h1 : w'.singlePole = w.singlePole) (h2 : w'.fullyObservable = w.fullyObservable) :
    Good w' e :=
  ⟨by rw [h.setup, Window.setup, Window.setup, h1], by rw [h.full, h2], h.observed, h.steps⟩

theorem Within.congr {w w' : Window} {s : State} (h : Within w s) (h1 : w'.singlePole = w.singlePole) : Within w' s :=
  ⟨h.1, h.2.1, fun k => h.2.2 (by rw [← h1, k])⟩

/-- What holds at all times. -/
structure Inv (m : Machine) : Prop where
  good : ∀ r ∈ m.runs, Good m.win r.env
  pause : ∃ p : ℕ, m.win.pause = p ∧ p < 2 ^ 31
  small : |m.win.position| ≤ 1 ∧ |m.win.angle1| ≤ 1 ∧ |m.win.angle2| ≤ 1

theorem Inv.new (singlePole fullyObservable : Bool) : Inv (Machine.new singlePole fullyObservable) := by
  refine ⟨fun r h => absurd h (by simp [Machine.new]), ⟨1000, rfl, by norm_num⟩, ?_⟩
  show |(0 : ℝ)| ≤ 1 ∧ |4 * Real.pi / 180| ≤ 1 ∧ |(0 : ℝ)| ≤ 1
  have := Real.pi_le_four
  have := Real.pi_pos
  refine ⟨by simp, ?_, by simp⟩
  rw [abs_of_nonneg (by positivity)]
  linarith

theorem Shown.small {w w' : Window} {s : State} {a : ℝ} (h : Shown w w' s a) (hw : Within w s) :
    |w'.position| ≤ 1 ∧ |w'.angle1| ≤ 1 ∧ |w'.angle2| ≤ 1 := by
  have scale : ∀ x m : ℝ, 0 < m → |x| ≤ m → |x / m| ≤ 1 := fun x m hm hx => by
    rw [abs_div, abs_of_pos hm, div_le_one hm]
    exact hx
  refine ⟨by rw [h.position]; exact scale _ _ (by norm_num) hw.1, by rw [h.angle1]; exact scale _ _ (by norm_num) hw.2.1, ?_⟩
  rw [h.angle2]
  cases hs : w'.singlePole with
  | true => simp
  | false =>
    simp only [Bool.false_eq_true, if_false]
    exact scale _ _ (by norm_num) (hw.2.2 (by rw [← h.same.1, hs]))

/-- The ways in which a run proceeds. -/
inductive Turn (w : Window) (a : ℝ) (r : Run) : Window → Option Run → List Line → Prop
  | step {w' : Window} {e' : Env} {s : State} : r.env.state = some s → Within w s → r.env.step < 100000 → Shown w w' s a →
      r.env.stateTransition a = ok e' → e'.step = r.env.step + 1 → Good w' e' → Turn w a r w' (some ⟨e', r.left, r.best⟩) []
  | next {w' : Window} {e' : Env} {left : ℕ} : r.env.step < 100000 → r.left = left + 1 → Shown w w' w.setup.start a →
      r.env.restart.stateTransition a = ok e' → e'.step = 1 → Good w' e' →
      Turn w a r w' (some ⟨e', left, better r.best r.env.step⟩) [.episode (100000 - r.left) r.env.step]
  | last : r.env.step < 100000 → r.left = 0 → Turn w a r w none [.episode 100000 r.env.step, .longest (better r.best r.env.step)]
  | solved : r.env.step = 100000 → Turn w a r w none [.episode (100000 - r.left) 100000, .longest 100000]

theorem proceed_turn {w : Window} {r : Run} (h : Good w r.env) (a : ℝ) :
    ∃ w' o lines, proceed w a r.left r.env r.best = ok (w', o, lines) ∧ Turn w a r w' o lines := by
  obtain ⟨s, hs, _⟩ := h.observed
  by_cases h1 : r.env.step = 100000
  · refine ⟨_, _, _, (proceed_end h hs (.inr h1) a _ _).1 h1, ?_⟩
    rw [h1]
    exact .solved h1
  · have h2 : r.env.step < 100000 := lt_of_le_of_ne h.steps h1
    by_cases hw : Within w s
    · obtain ⟨w', e', g1, g2, g3, g4, g5⟩ := proceed_frame h hs hw h2 a r.left r.best
      exact ⟨_, _, _, g1, .step hs hw h2 g2 g3 g4 g5⟩
    · by_cases hl : r.left = 0
      · refine ⟨_, _, _, (proceed_end h hs (.inl hw) a _ _).2.1 h2 hl, ?_⟩
        rw [hl]
        exact .last h2 hl
      · obtain ⟨left, hl⟩ := Nat.exists_eq_succ_of_ne_zero hl
        obtain ⟨w', e', g1, g2, g3, g4, g5⟩ := (proceed_end h hs (.inl hw) a r.left r.best).2.2 h2 left hl
        exact ⟨_, _, _, g1, .next h2 hl g2 g3 g4 g5⟩

/-- The first frame of a run. -/
theorem first_turn (w : Window) (a : ℝ) : ∃ w' e', proceed w a 99999 (Env.new w.setup w.fullyObservable).restart (-1) =
    ok (w', some ⟨e', 99999, -1⟩, []) ∧ Shown w w' w.setup.start a ∧ (Env.new w.setup w.fullyObservable).restart.stateTransition a = ok e' ∧ e'.step = 1 ∧
      Good w' e' :=
  proceed_frame (restart_good rfl rfl) rfl (start_within w) (by show 0 < 100000; omega) a 99999 (-1)

theorem Turn.same {w w' : Window} {a : ℝ} {r : Run} {o : Option Run} {lines : List Line} (h : Turn w a r w' o lines) :
    w'.singlePole = w.singlePole ∧ w'.fullyObservable = w.fullyObservable ∧ w'.pause = w.pause := by
  cases h with
  | step _ _ _ h => exact h.same
  | next _ _ h => exact h.same
  | last => exact ⟨rfl, rfl, rfl⟩
  | solved => exact ⟨rfl, rfl, rfl⟩

theorem Turn.small {w w' : Window} {a : ℝ} {r : Run} {o : Option Run} {lines : List Line} (h : Turn w a r w' o lines)
    (hs : |w.position| ≤ 1 ∧ |w.angle1| ≤ 1 ∧ |w.angle2| ≤ 1) : |w'.position| ≤ 1 ∧ |w'.angle1| ≤ 1 ∧ |w'.angle2| ≤ 1 := by
  cases h with
  | step _ hw _ h => exact h.small hw
  | next _ _ h => exact h.small (start_within w)
  | last => exact hs
  | solved => exact hs

/-- The pause after an input. -/
def nextPause (p : ℕ) : Input → ℕ
  | .key .plus => 9 * p / 10
  | .key .minus => 11 * p / 10
  | _ => p

theorem Inv.after {m : Machine} {rs : List Run} {w : Window} {o : Option Run} {lines : List Line} (h : Inv m)
    (hrs : ∀ r ∈ rs, r ∈ m.runs) (h1 : w.singlePole = m.win.singlePole ∧ w.fullyObservable = m.win.fullyObservable ∧ w.pause = m.win.pause)
    (h2 : |w.position| ≤ 1 ∧ |w.angle1| ≤ 1 ∧ |w.angle2| ≤ 1) (h3 : ∀ r, o = some r → Good w r.env) : Inv (m.after rs (w, o, lines)) := by
  refine ⟨fun r hr => ?_, ?_, h2⟩
  · rcases List.mem_append.1 hr with hr | hr
    · exact h3 r (by simpa using hr)
    · exact (h.good r (hrs r hr)).congr h1.1 h1.2.1
  · obtain ⟨p, hp, hp'⟩ := h.pause
    exact ⟨p, h1.2.2.trans hp, hp'⟩

theorem step_cases {R : Rounding} {m : Machine} (h : Inv m) {p : ℕ} (hp : m.win.pause = p) (hlt : p < 2 ^ 31) (i : Input)
    (hn : ¬ m.ended) (hf : nextPause p i < 2 ^ 31) :
    ∃ m', m.step R i = ok m' ∧ Inv m' ∧ m'.win.pause = nextPause p i ∧ (m'.quit = m.quit ∨ i = .key .escape ∧ m'.quit = true) ∧
      ((∃ a r rs w o lines, i = .go a ∧ m.runs = r :: rs ∧ Turn m.win a r w o lines ∧ m'.win = w ∧ m'.runs = o.toList ++ rs ∧
          m'.log = m.log ++ lines) ∨
        (∃ a w e, i = .key (.r a) ∧ Shown m.win w m.win.setup.start a ∧
          (Env.new m.win.setup m.win.fullyObservable).restart.stateTransition a = ok e ∧ e.step = 1 ∧ Good w e ∧ m'.win = w ∧
          m'.runs = ⟨e, 99999, -1⟩ :: m.runs ∧ m'.log = m.log) ∨
        ((∀ a, i ≠ .key (.r a)) ∧ (m.runs ≠ [] → ∀ a, i ≠ .go a) ∧ m'.runs = m.runs ∧ m'.log = m.log ∧ m'.win.singlePole = m.win.singlePole ∧
          m'.win.fullyObservable = m.win.fullyObservable)) := by
  cases i with
  | go a =>
    rw [Machine.step]
    cases hr : m.runs with
    | nil => exact ⟨m, rfl, h, hp, .inl rfl, .inr (.inr ⟨by simp, by simp, hr, rfl, rfl, rfl⟩)⟩
    | cons r rs =>
      obtain ⟨w, o, lines, g1, g2⟩ := proceed_turn (h.good r (by rw [hr]; exact List.mem_cons_self)) a
      refine ⟨m.after rs (w, o, lines), ?_, ?_, ?_, .inl rfl, .inl ⟨a, r, rs, w, o, lines, rfl, rfl, g2, rfl, rfl, rfl⟩⟩
      · simp only [g1, ok_bind]
      · refine Inv.after h (fun x hx => by rw [hr]; exact List.mem_cons_of_mem _ hx) g2.same (g2.small h.small) ?_
        rintro r' rfl
        cases g2 with
        | step _ _ _ _ _ _ g => exact g
        | next _ _ _ _ _ g => exact g
      · exact g2.same.2.2.trans hp
  | key k =>
    rw [Machine.step, if_neg hn]
    cases k with
    | r a =>
      obtain ⟨w, e, g1, g2, g3, g4, g5⟩ := first_turn m.win a
      refine ⟨m.after m.runs (w, some ⟨e, 99999, -1⟩, []), ?_, ?_, g2.same.2.2.trans hp, .inl rfl, .inr (.inl ⟨a, w, e, rfl, g2, g3, g4, g5, rfl, rfl, ?_⟩)⟩
      · rw [Machine.press]
        simp only [g1, ok_bind]
      · exact Inv.after h (fun _ => id) g2.same (g2.small (start_within _)) fun r hr => by cases hr; exact g5
      · exact List.append_nil _
    | plus =>
      refine ⟨{ m with win := { m.win with pause := ((9 * p / 10 : ℕ) : ℤ) } }, ?_, ⟨fun r hr => (h.good r hr).congr rfl rfl, ⟨_, rfl, hf⟩, h.small⟩, rfl,
        .inl rfl, .inr (.inr ⟨by simp, by simp, rfl, rfl, rfl, rfl⟩)⟩
      rw [Machine.press, hp, plus_eq R hlt]
      rfl
    | minus =>
      refine ⟨{ m with win := { m.win with pause := ((11 * p / 10 : ℕ) : ℤ) } }, ?_, ⟨fun r hr => (h.good r hr).congr rfl rfl, ⟨_, rfl, hf⟩, h.small⟩, rfl,
        .inl rfl, .inr (.inr ⟨by simp, by simp, rfl, rfl, rfl, rfl⟩)⟩
      rw [Machine.press, hp, minus_eq R hlt, if_pos (show 11 * p / 10 < 2 ^ 31 from hf)]
      rfl
    | escape =>
      exact ⟨{ m with quit := true }, rfl, ⟨h.good, h.pause, h.small⟩, hp, .inr ⟨rfl, rfl⟩, .inr (.inr ⟨by simp, by simp, rfl, rfl, rfl, rfl⟩)⟩
    | other => exact ⟨m, rfl, h, hp, .inl rfl, .inr (.inr ⟨by simp, by simp, rfl, rfl, rfl, rfl⟩)⟩

/-- After the end nothing happens. -/
theorem ended_exec {R : Rounding} {m : Machine} (h : m.ended) : ∀ ins : List Input, m.exec R ins = ok m
  | [] => rfl
  | i :: ins => by
    have : m.step R i = ok m := by
      cases i with
      | key k => rw [Machine.step, if_pos h]
      | go a => rw [Machine.step, h.2]
    rw [Machine.exec, this]
    exact ended_exec h ins

/-- Without overflow of the pause everything is defined. -/
theorem step_total {R : Rounding} {m : Machine} (h : Inv m) {p : ℕ} (hp : m.win.pause = p) (i : Input) (hf : nextPause p i < 2 ^ 31) :
    ∃ m' p', m.step R i = ok m' ∧ Inv m' ∧ m'.win.pause = (p' : ℕ) ∧ (p' = p ∨ p' = nextPause p i) := by
  obtain ⟨q, hq, hlt⟩ := h.pause
  have hqp : q = p := by exact_mod_cast hq.symm.trans hp
  subst hqp
  by_cases hn : m.ended
  · refine ⟨m, q, ?_, h, hp, .inl rfl⟩
    have := ended_exec (R := R) hn [i]
    rw [Machine.exec] at this
    obtain ⟨m1, h1, h2⟩ := bind_eq_ok.1 this
    rw [Machine.exec] at h2
    rw [h1, h2]
  · obtain ⟨m', h1, h2, h3, _⟩ := step_cases (R := R) h hp hlt i hn hf
    exact ⟨m', _, h1, h2, h3, .inr rfl⟩

theorem step_inv {R : Rounding} {m m' : Machine} (h : Inv m) {i : Input} (hs : m.step R i = ok m') : Inv m' := by
  obtain ⟨p, hp, hlt⟩ := h.pause
  by_cases hf : nextPause p i < 2 ^ 31
  · obtain ⟨m1, p', h1, h2, _⟩ := step_total (R := R) h hp i hf
    rw [hs] at h1
    cases h1
    exact h2
  · have hi : i = .key .minus := by
      cases i with
      | go a => exact absurd hlt hf
      | key k =>
        cases k with
        | minus => rfl
        | plus => exact absurd (show 9 * p / 10 < 2 ^ 31 by omega) hf
        | r a => exact absurd hlt hf
        | escape => exact absurd hlt hf
        | other => exact absurd hlt hf
    subst hi
    by_cases hn : m.ended
    · rw [Machine.step, if_pos hn] at hs
      cases hs
      exact h
    · rw [Machine.step, if_neg hn, Machine.press, hp, minus_eq R hlt, if_neg (show ¬ 11 * p / 10 < 2 ^ 31 from hf)] at hs
      cases hs

theorem exec_inv {R : Rounding} : ∀ {ins : List Input} {m m' : Machine}, Inv m → m.exec R ins = ok m' → Inv m'
  | [], m, m', h, he => by cases he; exact h
  | i :: ins, m, m', h, he => by
    rw [Machine.exec] at he
    obtain ⟨m1, h1, h2⟩ := bind_eq_ok.1 he
    exact exec_inv (step_inv h h1) h2

/-! ## Theorems -/

/-- **C134 (no crash)**: with at most 150 presses of "-" every history of the program is defined. -/
theorem exec_defined (R : Rounding) (singlePole fullyObservable : Bool) {ins : List Input} (h : ins.countP Input.isMinus ≤ 150) :
    ∃ m, (Machine.new singlePole fullyObservable).exec R ins = ok m := by
  have key : ∀ (ins : List Input) (m : Machine) (p k : ℕ), Inv m → m.win.pause = p → (p : ℝ) ≤ 1000 * 1.1 ^ k → k + ins.countP Input.isMinus ≤ 150 →
      ∃ m', m.exec R ins = ok m' := by
    intro ins
    induction ins with
    | nil => exact fun m p k _ _ _ _ => ⟨m, rfl⟩
    | cons i ins ih =>
      intro m p k hm hp hb hk
      have bound : ∀ k' ≤ 150, ∀ q : ℕ, (q : ℝ) ≤ 1000 * 1.1 ^ k' → q < 2 ^ 31 := by
        intro k' hk' q hq
        have : (1000 : ℝ) * 1.1 ^ k' ≤ 1000 * 1.1 ^ 150 := by gcongr; norm_num
        have h3 : (q : ℝ) < 2 ^ 31 := lt_of_le_of_lt (hq.trans this) (by norm_num)
        exact_mod_cast h3
      have hp0 : (0 : ℝ) ≤ p := by positivity
      rw [List.countP_cons] at hk
      by_cases hi : i.isMinus = true
      · rw [if_pos hi] at hk
        have hi' : i = .key .minus := by
          cases i with
          | go a => cases hi
          | key c => cases c <;> first | rfl | cases hi
        have hq : ((nextPause p i : ℕ) : ℝ) ≤ 1000 * 1.1 ^ (k + 1) := by
          rw [hi']
          have : 10 * (11 * p / 10) ≤ 11 * p := by omega
          have : (10 * ((11 * p / 10 : ℕ) : ℝ)) ≤ 11 * p := by exact_mod_cast this
          show ((11 * p / 10 : ℕ) : ℝ) ≤ _
          rw [pow_succ]
          linarith
        obtain ⟨m', p', h1, h2, h3, h4⟩ := step_total (R := R) hm hp i (bound _ (by omega) _ hq)
        obtain ⟨m2, h5⟩ := ih m' p' (k + 1) h2 h3 (by
          rcases h4 with rfl | rfl
          · rw [pow_succ]
            nlinarith
          · exact hq) (by omega)
        exact ⟨m2, by rw [Machine.exec, h1]; exact h5⟩
      · rw [if_neg hi] at hk
        have hq : nextPause p i ≤ p := by
          cases i with
          | go a => exact le_rfl
          | key c =>
            cases c with
            | minus => exact absurd rfl hi
            | plus => show 9 * p / 10 ≤ p; omega
            | r a => exact le_rfl
            | escape => exact le_rfl
            | other => exact le_rfl
        obtain ⟨m', p', h1, h2, h3, h4⟩ := step_total (R := R) hm hp i (lt_of_le_of_lt hq (bound k (by omega) _ hb))
        have hp' : p' ≤ p := by rcases h4 with rfl | rfl; exacts [le_rfl, hq]
        obtain ⟨m2, h5⟩ := ih m' p' k h2 h3 (le_trans (by exact_mod_cast hp') hb) (by omega)
        exact ⟨m2, by rw [Machine.exec, h1]; exact h5⟩
  exact key ins _ 1000 0 (Inv.new _ _) rfl (by norm_num) (by omega)

/-- **C134 (overflow)**: if "-" is pressed often enough, the pause does not fit into an `int` any more and the conversion is undefined. -/
theorem slower_ub (R : Rounding) {m : Machine} (h : Inv m) (hn : ¬ m.ended) (hp : 10 ≤ m.win.pause) :
    ∃ n, m.exec R (List.replicate n (.key .minus)) = ub := by
  obtain ⟨p, hp', hlt⟩ := h.pause
  have key : ∀ (d p : ℕ) (m : Machine), 2 ^ 31 ≤ p + d → Inv m → ¬ m.ended → m.win.pause = p → 10 ≤ p → p < 2 ^ 31 →
      ∃ n, m.exec R (List.replicate n (.key .minus)) = ub := by
    intro d
    induction d with
    | zero => intro p m h1 _ _ _ _ h2; omega
    | succ d ih =>
      intro p m h1 hm hn hp h10 hlt
      by_cases hf : nextPause p (.key .minus) < 2 ^ 31
      · have hge : p + 1 ≤ nextPause p (.key .minus) := by show p + 1 ≤ 11 * p / 10; omega
        obtain ⟨m', g1, g2, g3, g4, g5⟩ := step_cases (R := R) hm hp hlt (.key .minus) hn hf
        have hn' : ¬ m'.ended := by
          rintro ⟨k1, k2⟩
          rcases g5 with ⟨_, _, _, _, _, _, k, _⟩ | ⟨_, _, _, k, _⟩ | ⟨_, _, k3, _⟩
          · cases k
          · cases k
          · refine hn ⟨?_, by rw [← k3, k2]⟩
            rcases g4 with g4 | ⟨g4, _⟩
            · rw [← g4, k1]
            · cases g4
        obtain ⟨n, hn2⟩ := ih (nextPause p (.key .minus)) m' (by omega) g2 hn' g3 (by omega) hf
        exact ⟨n + 1, by rw [List.replicate_succ, Machine.exec, g1]; exact hn2⟩
      · refine ⟨1, ?_⟩
        show (do let m ← m.step R (.key .minus); m.exec R []) = ub
        rw [Machine.step, if_neg hn, Machine.press, hp, minus_eq R hlt, if_neg (show ¬ 11 * p / 10 < 2 ^ 31 from hf)]
        rfl
  exact key (2 ^ 31) p m (by omega) h hn hp' (by omega) hlt

/-- **C134 (speed)**: a pause of less than ten microseconds never grows again, whatever is pressed. -/
theorem speed_stuck (R : Rounding) : ∀ {ins : List Input} {m m' : Machine}, Inv m → m.win.pause < 10 → m.exec R ins = ok m' → m'.win.pause ≤ m.win.pause
  | [], m, m', _, _, he => by cases he; exact le_rfl
  | i :: ins, m, m', h, hp, he => by
    rw [Machine.exec] at he
    obtain ⟨m1, h1, h2⟩ := bind_eq_ok.1 he
    obtain ⟨p, hpp, hlt⟩ := h.pause
    have h10 : p < 10 := by omega
    have hq : nextPause p i ≤ p := by
      cases i with
      | go a => exact le_rfl
      | key c =>
        cases c with
        | minus => show 11 * p / 10 ≤ p; omega
        | plus => show 9 * p / 10 ≤ p; omega
        | r a => exact le_rfl
        | escape => exact le_rfl
        | other => exact le_rfl
    obtain ⟨m2, p', g1, g2, g3, g4⟩ := step_total (R := R) h hpp i (by omega)
    rw [h1] at g1
    cases g1
    have hp' : p' ≤ p := by rcases g4 with rfl | rfl; exacts [le_rfl, hq]
    have := speed_stuck R g2 (by omega) h2
    omega

/-- **C134 (speed)**: pressing "+" often enough removes the pause ... -/
theorem fastest (R : Rounding) : ∀ (n : ℕ) {m : Machine}, Inv m → ¬ m.ended → m.win.pause ≤ n →
    ∃ m', m.exec R (List.replicate n (.key .plus)) = ok m' ∧ m'.win.pause = 0 ∧ m'.runs = m.runs ∧ m'.log = m.log ∧ m'.quit = m.quit ∧ Inv m'
  | 0, m, h, _, hp => by
    obtain ⟨p, hpp, _⟩ := h.pause
    exact ⟨m, rfl, by omega, rfl, rfl, rfl, h⟩
  | n + 1, m, h, hn, hp => by
    obtain ⟨p, hpp, hlt⟩ := h.pause
    obtain ⟨m1, g1, g2, g3, g4, g5⟩ := step_cases (R := R) h hpp hlt (.key .plus) hn (by show 9 * p / 10 < 2 ^ 31; omega)
    have g3' : m1.win.pause = ((9 * p / 10 : ℕ) : ℤ) := g3
    rcases g5 with ⟨_, _, _, _, _, _, k, _⟩ | ⟨_, _, _, k, _⟩ | ⟨_, _, k1, k2, _⟩
    · cases k
    · cases k
    rcases g4 with g4 | ⟨g4, _⟩
    · obtain ⟨m', h1, h2, h3, h4, h5, h6⟩ := fastest R n g2 (fun k => hn ⟨by rw [← g4]; exact k.1, by rw [← k1]; exact k.2⟩) (by rw [g3']; omega)
      exact ⟨m', by rw [List.replicate_succ, Machine.exec, g1]; exact h1, h2, h3.trans k1, h4.trans k2, h5.trans g4, h6⟩
    · cases g4

/-- **C134 (speed) is false of the code**: ... and then "-" does not bring it back: the speed cannot be decreased any more. -/
theorem speed_fails (R : Rounding) (singlePole fullyObservable : Bool) :
    ∃ m, (Machine.new singlePole fullyObservable).exec R (List.replicate 1000 (.key .plus)) = ok m ∧ m.win.pause = 0 ∧
      ∀ ins m', m.exec R ins = ok m' → m'.win.pause = 0 := by
  obtain ⟨m, h1, h2, _, _, _, h6⟩ := fastest R 1000 (Inv.new singlePole fullyObservable) (fun h => by cases h.1) (by rfl)
  refine ⟨m, h1, h2, fun ins m' he => ?_⟩
  have k1 := speed_stuck R h6 (by omega) he
  obtain ⟨p, hp, _⟩ := (exec_inv h6 he).pause
  omega

/-- **C134 (what is shown)**: a step of an episode shows the state in which the action is chosen, divided by the limits 2.4 and 0.62, and the action. -/
theorem shown (R : Rounding) {m m' : Machine} (h : Inv m) (hn : ¬ m.ended) {i : Input} {a : ℝ} (hi : i = .key (.r a) ∨ i = .go a ∧ m.runs ≠ [])
    (hs : m.step R i = ok m') (hl : m.runs.length ≤ m'.runs.length) :
    ∃ (r : Run) (rs : List Run) (e : Env) (s : State), m'.runs = r :: rs ∧ e.state = some s ∧ e.stateTransition a = ok r.env ∧ Within m'.win s ∧ Shown m.win m'.win s a := by
  obtain ⟨p, hp, hlt⟩ := h.pause
  have hf : nextPause p i < 2 ^ 31 := by rcases hi with rfl | ⟨rfl, _⟩ <;> exact hlt
  obtain ⟨m1, g1, _, _, _, g5⟩ := step_cases (R := R) h hp hlt i hn hf
  rw [hs] at g1
  cases g1
  rcases g5 with ⟨b, r, rs, w, o, lines, k1, k2, k3, k4, k5, _⟩ | ⟨b, w, e, k1, k2, k3, _, _, k4, k5, _⟩ | ⟨k1, k2, _⟩
  · have : b = a := by
      rcases hi with rfl | ⟨rfl, _⟩
      · cases k1
      · cases k1; rfl
    subst this
    rw [k2, k5] at hl
    cases k3 with
    | step c1 c2 _ c3 c4 _ _ => exact ⟨_, rs, r.env, _, k5, c1, c4, by rw [k4]; exact c2.congr c3.same.1, by rw [k4]; exact c3⟩
    | next _ _ c3 c4 _ _ =>
      exact ⟨_, rs, r.env.restart, m.win.setup.start, k5, by rw [← (h.good r (by rw [k2]; exact List.mem_cons_self)).setup]; rfl, c4,
        by rw [k4]; exact (start_within _).congr c3.same.1, by rw [k4]; exact c3⟩
    | last => simp at hl
    | solved => simp at hl
  · have : b = a := by
      rcases hi with rfl | ⟨rfl, _⟩
      · cases k1; rfl
      · cases k1
    subst this
    exact ⟨_, _, _, _, k5, rfl, k3, by rw [k4]; exact (start_within _).congr k2.same.1, by rw [k4]; exact k2⟩
  · rcases hi with rfl | ⟨rfl, hr⟩
    · exact absurd rfl (k1 a)
    · exact absurd rfl (k2 hr a)

/-- **C134 (what is shown) is false of the code**: the window does not show the angle of the pole - in the first step of a run it shows
0.07 / 0.62 (6.5 degrees) for 0.07 (4 degrees). -/
theorem shown_fails (R : Rounding) (singlePole fullyObservable : Bool) (a : ℝ) :
    ∃ (m : Machine) (r : Run) (e : Env), (Machine.new singlePole fullyObservable).exec R [.key (.r a)] = ok m ∧ m.runs = [r] ∧ e.stateTransition a = ok r.env ∧
      e.state = some m.win.setup.start ∧ ¬ Matches m.win m.win.setup.start := by
  obtain ⟨m, g1, _, _, _, g5⟩ := step_cases (R := R) (Inv.new singlePole fullyObservable) (p := 1000) rfl (by norm_num) (.key (.r a))
    (fun h => by cases h.1) (by show 1000 < 2 ^ 31; norm_num)
  rcases g5 with ⟨_, _, _, _, _, _, k, _⟩ | ⟨b, w, e, k1, k2, k3, _, _, k4, k5, _⟩ | ⟨k1, _⟩
  · cases k
  · cases k1
    have hset : m.win.setup = (Machine.new singlePole fullyObservable).win.setup := by rw [k4, Window.setup, Window.setup, k2.same.1]
    refine ⟨m, _, _, by rw [Machine.exec, g1]; rfl, k5, k3, by rw [hset]; rfl, ?_⟩
    rintro ⟨_, h2, _⟩
    rw [k4, k2.angle1, ← k4, hset] at h2
    rcases setup_cases (Machine.new singlePole fullyObservable).win with ⟨_, g⟩ | ⟨_, g⟩ <;> rw [g] at h2 <;>
      norm_num [Setup.start, single, double] at h2
  · exact absurd rfl (k1 a)

/-- **C134 (the ends of the track)**: in every history the cart is drawn at most one unit from the centre, although the track is drawn from -2.4 to 2.4;
poles are never drawn with an angle of more than one radian. -/
theorem cart_within (R : Rounding) {singlePole fullyObservable : Bool} {ins : List Input} {m : Machine}
    (h : (Machine.new singlePole fullyObservable).exec R ins = ok m) :
    -1.5 ≤ m.win.cart.1.1 ∧ m.win.cart.2.1 ≤ 1.5 ∧ track.1.1 < m.win.cart.1.1 ∧ m.win.cart.2.1 < track.2.1 ∧ |m.win.angle1| ≤ 1 ∧ |m.win.angle2| ≤ 1 := by
  obtain ⟨h1, h2, h3⟩ := (exec_inv (Inv.new _ _) h).small
  rw [abs_le] at h1
  unfold Window.cart track
  refine ⟨?_, ?_, ?_, ?_, h2, h3⟩ <;> norm_num <;> linarith

/-- **C134 (drawing)**: the poles are lines of the lengths of the environment from the top of the cart, which lean to the right by the shown angles. -/
theorem poles_drawn (w : Window) : Leans w.pole1 (w.position - 0.05, 0.5) (double.length 0) w.angle1 ∧
    Leans w.pole2 (w.position + 0.05, 0.5) (double.length 1) w.angle2 ∧ w.cart.2.2 = 0.5 ∧
    w.cart.1.1 = w.position - 0.5 ∧ w.cart.2.1 = w.position + 0.5 := by
  refine ⟨?_, ?_, rfl, rfl, ?_⟩
  · unfold Leans Window.pole1
    rw [Real.sin_add_pi_div_two, Real.cos_add_pi_div_two]
    simp only [double, if_true, Prod.mk.injEq]
    refine ⟨⟨?_, trivial⟩, ?_, ?_⟩ <;> ring
  · unfold Leans Window.pole2
    rw [Real.sin_add_pi_div_two, Real.cos_add_pi_div_two]
    simp only [double, one_ne_zero, if_false, Prod.mk.injEq]
    refine ⟨⟨?_, trivial⟩, ?_, ?_⟩ <;> ring
  · unfold Window.cart
    ring

/-- **C134 (force)**: the shown force is the applied one exactly if the agent asks for no more than ten newtons. -/
theorem force_shown (w : Window) (a : ℝ) : w.setup.applied a = a ↔ |a| ≤ 10 := by
  have hm : w.setup.maxForce = 10 := by rcases setup_cases w with ⟨_, g⟩ | ⟨_, g⟩ <;> rw [g] <;> rfl
  rw [applied_eq (by rw [hm]; norm_num), hm, abs_le]
  constructor
  · intro h
    rw [← h]
    exact ⟨le_max_left _ _, max_le (by norm_num) (min_le_left _ _)⟩
  · rintro ⟨h1, h2⟩
    rw [min_eq_right h2, max_eq_right h1]

/-! ### Runs -/

theorem episodes_append (l : List ℕ) (n : ℕ) : ∀ k, episodes k (l ++ [n]) = episodes k l ++ [.episode (k + l.length + 1) n] := by
  induction l with
  | nil => intro k; rfl
  | cons x l ih =>
    intro k
    simp only [List.cons_append, episodes, ih, List.length_cons]
    rw [show k + 1 + l.length + 1 = k + (l.length + 1) + 1 by omega]

theorem better_greatest {b : ℤ} {l : List ℕ} (h : l = [] ∧ b = -1 ∨ Greatest b l) (n : ℕ) : Greatest (better b n) (l ++ [n]) := by
  unfold better
  rcases h with ⟨rfl, rfl⟩ | ⟨⟨x, hx, rfl⟩, h2⟩
  · rw [if_pos (by omega)]
    exact ⟨⟨n, by simp, rfl⟩, fun y hy => by simp at hy; subst hy; exact le_rfl⟩
  · by_cases hn : (x : ℤ) < n
    · rw [if_pos hn]
      refine ⟨⟨n, by simp, rfl⟩, fun y hy => ?_⟩
      rcases List.mem_append.1 hy with hy | hy
      · exact (h2 y hy).trans hn.le
      · simp at hy; subst hy; exact le_rfl
    · rw [if_neg hn]
      refine ⟨⟨x, List.mem_append_left _ hx, rfl⟩, fun y hy => ?_⟩
      rcases List.mem_append.1 hy with hy | hy
      · exact h2 y hy
      · simp at hy; subst hy; exact not_lt.1 hn

/-- The run that was started in `m0` is going on in `m`, after the episodes `eps` and `n` steps. -/
def Running (m0 m : Machine) (eps : List ℕ) (n : ℕ) : Prop :=
  ∃ r : Run, m.runs = r :: m0.runs ∧ m.log = m0.log ++ episodes 0 eps ∧ r.left + eps.length = 99999 ∧ (∀ x ∈ eps, 1 ≤ x ∧ x < 100000) ∧
    (eps = [] ∧ r.best = -1 ∨ Greatest r.best eps) ∧ n = eps.sum + r.env.step ∧ 1 ≤ r.env.step

/-- The run that was started in `m0` has ended in `m`, after the episodes `eps`: either there were 100000 of them, or the last one had 100000 steps.  The
longest one was reported. -/
def Finished (m0 m : Machine) (eps : List ℕ) : Prop :=
  m.runs = m0.runs ∧ (∃ b, m.log = m0.log ++ episodes 0 eps ++ [.longest b] ∧ Greatest b eps) ∧
    (∀ x ∈ eps, 1 ≤ x ∧ x ≤ 100000) ∧ eps.length ≤ 100000 ∧ (eps.length = 100000 ∨ eps.getLast? = some 100000)

theorem running_step {R : Rounding} {m0 m m' : Machine} {eps : List ℕ} {n : ℕ} (h : Inv m) (hr : Running m0 m eps n) {i : Input} (hi : i.NoRun)
    (hs : m.step R i = ok m') :
    (∃ eps', Running m0 m' eps' (n + if i.isGo then 1 else 0)) ∨ (∃ eps', Finished m0 m' eps' ∧ eps'.sum = n) := by
  obtain ⟨r, h1, h2, h3, h4, h5, h6, h7⟩ := hr
  obtain ⟨p, hp, hlt⟩ := h.pause
  have hn : ¬ m.ended := fun k => by rw [k.2] at h1; cases h1
  by_cases hf : nextPause p i < 2 ^ 31
  · obtain ⟨m1, g1, _, _, _, g5⟩ := step_cases (R := R) h hp hlt i hn hf
    rw [hs] at g1
    cases g1
    rcases g5 with ⟨a, r', rs, w, o, lines, k1, k2, k3, k4, k5, k6⟩ | ⟨b, w, e, k1, _⟩ | ⟨k1, k2, k3, k4, _⟩
    · rw [h1] at k2
      cases k2
      subst k1
      cases k3 with
      | @step _ e' s c1 c2 c3 c4 c5 c6 c7 =>
        exact .inl ⟨eps, _, k5, by rw [k6, h2, List.append_nil], h3, h4, h5, by
          show n + 1 = eps.sum + e'.step
          rw [c6, h6]
          omega, by show 1 ≤ e'.step; omega⟩
      | @next _ e' left c1 c2 c3 c4 c5 c6 =>
        refine .inl ⟨eps ++ [r.env.step], _, k5, ?_, ?_, ?_, .inr (better_greatest h5 _), ?_, by show 1 ≤ e'.step; omega⟩
        · rw [k6, h2, episodes_append, ← List.append_assoc, show 100000 - r.left = 0 + eps.length + 1 by omega]
        · show left + _ = _
          rw [List.length_append, List.length_singleton]
          omega
        · intro x hx
          rcases List.mem_append.1 hx with hx | hx
          · exact h4 x hx
          · simp at hx; subst hx; exact ⟨h7, c1⟩
        · show n + 1 = _ + e'.step
          rw [List.sum_append, List.sum_singleton, c5, h6]
      | last c1 c2 =>
        refine .inr ⟨eps ++ [r.env.step], ⟨k5, ⟨_, ?_, better_greatest h5 _⟩, ?_, ?_, ?_⟩, by rw [List.sum_append, List.sum_singleton, h6]⟩
        · rw [k6, h2, episodes_append, show 0 + eps.length + 1 = 100000 by omega]
          simp
        · intro x hx
          rcases List.mem_append.1 hx with hx | hx
          · exact ⟨(h4 x hx).1, (h4 x hx).2.le⟩
          · simp at hx; subst hx; exact ⟨h7, c1.le⟩
        · rw [List.length_append, List.length_singleton]; omega
        · left; rw [List.length_append, List.length_singleton]; omega
      | solved c1 =>
        refine .inr ⟨eps ++ [100000], ⟨k5, ⟨100000, ?_, ?_⟩, ?_, ?_, ?_⟩, by rw [List.sum_append, List.sum_singleton, h6, c1]⟩
        · rw [k6, h2, episodes_append, show 100000 - r.left = 0 + eps.length + 1 by omega]
          simp
        · refine ⟨⟨100000, by simp, rfl⟩, fun x hx => ?_⟩
          rcases List.mem_append.1 hx with hx | hx
          · have := (h4 x hx).2
            omega
          · simp at hx; subst hx; exact le_rfl
        · intro x hx
          rcases List.mem_append.1 hx with hx | hx
          · exact ⟨(h4 x hx).1, (h4 x hx).2.le⟩
          · simp at hx; subst hx; exact ⟨by omega, le_rfl⟩
        · rw [List.length_append, List.length_singleton]; omega
        · right; simp
    · subst k1
      exact hi.elim
    · refine .inl ⟨eps, r, k3.trans h1, k4.trans h2, h3, h4, h5, ?_, h7⟩
      have : i.isGo = false := by
        cases i with
        | key k => rfl
        | go a => exact absurd rfl (k2 (by rw [h1]; simp) a)
      rw [this]
      exact h6
  · have hi : i = .key .minus := by
      cases i with
      | go a => exact absurd hlt hf
      | key k =>
        cases k with
        | minus => rfl
        | plus => exact absurd (show 9 * p / 10 < 2 ^ 31 by omega) hf
        | r a => exact absurd hlt hf
        | escape => exact absurd hlt hf
        | other => exact absurd hlt hf
    subst hi
    rw [Machine.step, if_neg hn, Machine.press, hp, minus_eq R hlt, if_neg (show ¬ 11 * p / 10 < 2 ^ 31 from hf)] at hs
    cases hs

theorem running_start {R : Rounding} {m0 m : Machine} (h : Inv m0) (hn : ¬ m0.ended) {a : ℝ} (hs : m0.step R (.key (.r a)) = ok m) :
    Running m0 m [] 1 := by
  obtain ⟨p, hp, hlt⟩ := h.pause
  obtain ⟨m1, g1, _, _, _, g5⟩ := step_cases (R := R) h hp hlt (.key (.r a)) hn hlt
  rw [hs] at g1
  cases g1
  rcases g5 with ⟨_, _, _, _, _, _, k, _⟩ | ⟨b, w, e, k1, _, _, k2, _, _, k3, k4⟩ | ⟨k1, _⟩
  · cases k
  · exact ⟨_, k3, by rw [k4]; exact (List.append_nil _).symm, rfl, by simp, .inl ⟨rfl, rfl⟩, by show 1 = 0 + e.step; omega, by show 1 ≤ e.step; omega⟩
  · exact absurd rfl (k1 a)

/-- **C134 (reports)**: after the key R - in any situation, also during another run - and any further inputs except R, the run is either still going on, with
one line for every finished episode, or it has ended at some moment, with these lines and the number of steps of the longest episode.
The number of steps is the number of times that the run proceeded. -/
theorem run_reports (R : Rounding) {m0 m : Machine} (h : Inv m0) (hn : ¬ m0.ended) {a : ℝ} {ins : List Input} (hi : ∀ i ∈ ins, i.NoRun)
    (he : m0.exec R (.key (.r a) :: ins) = ok m) :
    (∃ eps, Running m0 m eps (ins.countP Input.isGo + 1)) ∨
    ∃ ins1 ins2 m1 eps, ins = ins1 ++ ins2 ∧ m0.exec R (.key (.r a) :: ins1) = ok m1 ∧ Finished m0 m1 eps ∧ eps.sum = ins1.countP Input.isGo := by
  rw [Machine.exec] at he
  obtain ⟨m2, h1, h2⟩ := bind_eq_ok.1 he
  have key : ∀ (ins : List Input) (m2 : Machine) (eps : List ℕ) (n : ℕ), Inv m2 → Running m0 m2 eps n → (∀ i ∈ ins, i.NoRun) → m2.exec R ins = ok m →
      (∃ eps, Running m0 m eps (n + ins.countP Input.isGo)) ∨
      ∃ ins1 ins2 m1 eps, ins = ins1 ++ ins2 ∧ m2.exec R ins1 = ok m1 ∧ Finished m0 m1 eps ∧ eps.sum + 1 = n + ins1.countP Input.isGo := by
    intro ins
    induction ins with
    | nil => intro m2 eps n _ hr _ he; cases he; exact .inl ⟨eps, hr⟩
    | cons i ins ih =>
      intro m2 eps n hinv hr hi he
      rw [Machine.exec] at he
      obtain ⟨m3, h3, h4⟩ := bind_eq_ok.1 he
      rcases running_step hinv hr (hi i List.mem_cons_self) h3 with ⟨eps', hr'⟩ | ⟨eps', hf, hsum⟩
      · rcases ih m3 eps' _ (step_inv hinv h3) hr' (fun j hj => hi j (List.mem_cons_of_mem _ hj)) h4 with ⟨e, h5⟩ | ⟨ins1, ins2, m1, e, h5, h6, h7, h8⟩
        · refine .inl ⟨e, ?_⟩
          rw [List.countP_cons]
          convert h5 using 1
          omega
        · refine .inr ⟨i :: ins1, ins2, m1, e, by rw [h5]; rfl, by rw [Machine.exec, h3]; exact h6, h7, ?_⟩
          rw [List.countP_cons]
          omega
      · refine .inr ⟨[i], ins, m3, eps', rfl, by rw [Machine.exec, h3]; rfl, hf, ?_⟩
        obtain ⟨r, q1, _⟩ := hr
        have hgo : i.isGo = true := by
          by_contra hc
          have : m3.runs = m2.runs := by
            obtain ⟨p, hp, hlt⟩ := hinv.pause
            have hne : ¬ m2.ended := fun k => by rw [k.2] at q1; cases q1
            by_cases hf' : nextPause p i < 2 ^ 31
            · obtain ⟨m4, g1, _, _, _, g5⟩ := step_cases (R := R) hinv hp hlt i hne hf'
              rw [h3] at g1
              cases g1
              rcases g5 with ⟨a, _, _, _, _, _, k1, _⟩ | ⟨b, w, e, k1, _⟩ | ⟨_, _, k3, _⟩
              · rw [k1] at hc; exact absurd rfl hc
              · have := hi i List.mem_cons_self
                rw [k1] at this
                exact this.elim
              · exact k3
            · cases i with
              | go a => exact absurd rfl hc
              | key k =>
                cases k with
                | minus =>
                  rw [Machine.step, if_neg hne, Machine.press, hp, minus_eq R hlt, if_neg (show ¬ 11 * p / 10 < 2 ^ 31 from hf')] at h3
                  cases h3
                | plus => exact absurd (show 9 * p / 10 < 2 ^ 31 by omega) hf'
                | r a => exact absurd hlt hf'
                | escape => exact absurd hlt hf'
                | other => exact absurd hlt hf'
          rw [hf.1, q1] at this
          exact absurd (congrArg List.length this) (by simp)
        rw [hsum]
        simp [hgo]
  rcases key ins m2 [] 1 (step_inv h h1) (running_start h hn h1) hi h2 with ⟨e, h5⟩ | ⟨ins1, ins2, m1, e, h5, h6, h7, h8⟩
  · exact .inl ⟨e, by convert h5 using 1; omega⟩
  · exact .inr ⟨ins1, ins2, m1, e, h5, by rw [Machine.exec, h1]; exact h6, h7, by omega⟩

theorem sum_ge_length : ∀ {l : List ℕ}, (∀ x ∈ l, 1 ≤ x) → l.length ≤ l.sum
  | [], _ => le_rfl
  | x :: l, h => by
    have := sum_ge_length (l := l) fun y hy => h y (List.mem_cons_of_mem _ hy)
    have := h x List.mem_cons_self
    simp only [List.length_cons, List.sum_cons]
    omega

theorem sum_le_mul {c : ℕ} : ∀ {l : List ℕ}, (∀ x ∈ l, x ≤ c) → l.sum ≤ l.length * c
  | [], _ => by simp
  | x :: l, h => by
    have := sum_le_mul (l := l) fun y hy => h y (List.mem_cons_of_mem _ hy)
    have := h x List.mem_cons_self
    simp only [List.length_cons, List.sum_cons, Nat.succ_mul]
    omega

/-- **C134 (runs end)**: a run ends after at most 10000000000 steps. -/
theorem run_ends (R : Rounding) {m0 m : Machine} (h : Inv m0) (hn : ¬ m0.ended) {a : ℝ} {ins : List Input} (hi : ∀ i ∈ ins, i.NoRun)
    (he : m0.exec R (.key (.r a) :: ins) = ok m) (hl : 10000000000 ≤ ins.countP Input.isGo) :
    ∃ ins1 ins2 m1 eps, ins = ins1 ++ ins2 ∧ m0.exec R (.key (.r a) :: ins1) = ok m1 ∧ Finished m0 m1 eps := by
  rcases run_reports R h hn hi he with ⟨eps, r, h1, _, h3, h4, _, h6, _⟩ | ⟨ins1, ins2, m1, e, h5, h6, h7, _⟩
  · exfalso
    have hs := (((exec_inv h he).good r (by rw [h1]; exact List.mem_cons_self))).steps
    have h8 := sum_le_mul fun x hx => (Nat.le_sub_one_of_lt (h4 x hx).2)
    have h9 : eps.length * (100000 - 1) ≤ 99999 * (100000 - 1) := Nat.mul_le_mul_right _ (by omega)
    omega
  · exact ⟨ins1, ins2, m1, e, h5, h6, h7⟩

/-- **C134 (Escape) is false of the code**: the key Escape does not end a run.  Whatever is pressed, the program is still running as long as the innermost run
has not made 100000 steps. -/
theorem escape_fails (R : Rounding) {m0 m : Machine} (h : Inv m0) (hn : ¬ m0.ended) {a : ℝ} {ins : List Input} (hi : ∀ i ∈ ins, i.NoRun)
    (he : m0.exec R (.key (.r a) :: ins) = ok m) (hl : ins.countP Input.isGo < 100000) : ¬ m.ended ∧ m.runs.length = m0.runs.length + 1 := by
  rcases run_reports R h hn hi he with ⟨eps, r, h1, _⟩ | ⟨ins1, ins2, m1, e, h5, h6, ⟨_, _, h7, _, h8⟩, h9⟩
  · refine ⟨fun k => ?_, by rw [h1]; rfl⟩
    rw [k.2] at h1
    cases h1
  · exfalso
    have hc : ins1.countP Input.isGo ≤ ins.countP Input.isGo := by rw [h5, List.countP_append]; omega
    have : 100000 ≤ e.sum := by
      rcases h8 with h8 | h8
      · rw [← h8]
        exact sum_ge_length fun x hx => (h7 x hx).1
      · exact List.le_sum_of_mem (List.mem_of_getLast? h8)
    omega

/-- **C134 (Escape)**: it takes effect as soon as no run is active. -/
theorem escape_idle (R : Rounding) {m : Machine} (hr : m.runs = []) :
    ∃ m', m.exec R [.key .escape] = ok m' ∧ m'.ended := by
  by_cases hn : m.ended
  · exact ⟨m, ended_exec hn _, hn⟩
  · refine ⟨{ m with quit := true }, ?_, rfl, hr⟩
    rw [Machine.exec, Machine.step, if_neg hn]
    rfl

theorem step_suffix {R : Rounding} {m m' : Machine} {rs top : List Run} (hr : m.runs = top ++ rs) (ht : top ≠ []) {i : Input} (hs : m.step R i = ok m') :
    ∃ top', m'.runs = top' ++ rs := by
  cases i with
  | go a =>
    obtain ⟨r, top, rfl⟩ := List.exists_cons_of_ne_nil ht
    rw [Machine.step, hr] at hs
    obtain ⟨x, _, h2⟩ := bind_eq_ok.1 (show (proceed m.win a r.left r.env r.best >>= fun x => ok (m.after (top ++ rs) x)) = ok m' from hs)
    cases h2
    exact ⟨x.2.1.toList ++ top, by simp [Machine.after]⟩
  | key k =>
    by_cases hn : m.ended
    · rw [Machine.step, if_pos hn] at hs
      cases hs
      exact ⟨top, hr⟩
    · rw [Machine.step, if_neg hn] at hs
      cases k with
      | r a =>
        obtain ⟨x, _, h2⟩ := bind_eq_ok.1 hs
        cases h2
        exact ⟨x.2.1.toList ++ top, by simp [Machine.after, hr]⟩
      | plus =>
        obtain ⟨x, _, h2⟩ := bind_eq_ok.1 hs
        cases h2
        exact ⟨top, hr⟩
      | minus =>
        obtain ⟨x, _, h2⟩ := bind_eq_ok.1 hs
        cases h2
        exact ⟨top, hr⟩
      | escape => cases hs; exact ⟨top, hr⟩
      | other => cases hs; exact ⟨top, hr⟩

/-- **C134 (nested runs)**: a run that is started during another one leaves that one, its environment and its results alone: when all runs started since then have
ended, the first one is where it was. -/
theorem outer_untouched (R : Rounding) {rs : List Run} : ∀ {ins : List Input} {m m' : Machine} {top : List Run}, m.runs = top ++ rs → m.exec R ins = ok m' →
    (∀ ins1 ins2 m1, ins = ins1 ++ ins2 → ins2 ≠ [] → m.exec R ins1 = ok m1 → rs.length < m1.runs.length) → m'.runs.length = rs.length → m'.runs = rs
  | [], m, m', top, hr, he, _, hl => by
    cases he
    rw [hr] at hl ⊢
    have : top = [] := by
      rw [List.length_append] at hl
      exact List.length_eq_zero_iff.1 (by omega)
    rw [this, List.nil_append]
  | i :: ins, m, m', top, hr, he, hb, hl => by
    rw [Machine.exec] at he
    obtain ⟨m1, h1, h2⟩ := bind_eq_ok.1 he
    have h0 := hb [] (i :: ins) m rfl (by simp) rfl
    have ht : top ≠ [] := by
      rintro rfl
      rw [hr] at h0
      exact absurd h0 (by simp)
    obtain ⟨top', hr'⟩ := step_suffix hr ht h1
    exact outer_untouched R hr' h2 (fun ins1 ins2 m3 e1 e2 e3 => hb (i :: ins1) ins2 m3 (by rw [e1]; rfl) e2
      (by rw [Machine.exec, h1]; exact e3)) hl

/-- The processor may round downwards to multiples of 1/16 (for the examples below). -/
def downwards : Rounding where
  rnd x := ⌊16 * x⌋ / 16
  mono x y h := by
    have : ⌊16 * x⌋ ≤ ⌊16 * y⌋ := Int.floor_le_floor (by linarith)
    have : (⌊16 * x⌋ : ℝ) ≤ ⌊16 * y⌋ := by exact_mod_cast this
    linarith
  exact z _ := by
    rw [show 16 * ((z : ℝ) / 16) = z by ring, Int.floor_intCast]

/-- The hypotheses are met: a run, a second run inside of it, keys, in a new program. -/
example : ∃ m, (Machine.new false true).exec downwards [.key (.r 1), .go 20, .key (.r 0), .key .escape, .go (-3), .key .minus] = ok m ∧
    Inv m ∧ ¬ m.ended ∧ m.runs.length = 2 := by
  obtain ⟨m, hm⟩ := exec_defined downwards false true (ins := [.key (.r 1), .go 20, .key (.r 0), .key .escape, .go (-3), .key .minus])
    (by simp [Input.isMinus])
  obtain ⟨m1, h1⟩ := exec_defined downwards false true (ins := [.key (.r 1), .go 20]) (by simp [Input.isMinus])
  obtain ⟨h2, h3⟩ := escape_fails downwards (Inv.new false true) (fun h => by cases h.1) (a := 1) (ins := [.go 20])
    (by intro i hi; simp at hi; subst hi; trivial) h1 (by simp [Input.isGo])
  have h4 : m1.exec downwards (.key (.r 0) :: [.key .escape, .go (-3), .key .minus]) = ok m := by
    simp only [Machine.exec] at h1 hm ⊢
    obtain ⟨x, hx, h1⟩ := bind_eq_ok.1 h1
    obtain ⟨y, hy, h1⟩ := bind_eq_ok.1 h1
    cases h1
    rw [hx, ok_bind, hy, ok_bind] at hm
    exact hm
  obtain ⟨h5, h6⟩ := escape_fails downwards (exec_inv (Inv.new false true) h1) h2 (a := 0)
    (by intro i hi; simp at hi; rcases hi with rfl | rfl | rfl <;> trivial) h4 (by simp only [List.countP_cons, Input.isGo, List.countP_nil]; norm_num)
  exact ⟨m, hm, exec_inv (Inv.new false true) hm, h5, by rw [h6, h3]; rfl⟩

end

end Verif.PoleWindow
