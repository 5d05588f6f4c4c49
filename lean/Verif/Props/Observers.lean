import Verif.Model.Observers
import Verif.Props.Evaluation

/-!
# C131: which evaluators report, when, and on which data
-/

namespace Verif.Observe

open Outcome Data

noncomputable section

variable {s : Sets} {ev : ℕ → Option ℕ}

/-! ## Specification -/

/-- The data set at `a` is the stored data set at `r`, or a view of it, or a view of a view … -/
inductive Shows (s : Sets) : ℕ → ℕ → Prop
  | here {a : ℕ} {ins : List (List ℝ)} {outs : Option (List (List ℝ))} : s[a]? = some (.direct ins outs) → Shows s a a
  | view {a b r : ℕ} {indices : List ℤ} : s[a]? = some (.view b indices) → b < a → Shows s b r → Shows s a r

/-- The data set at `a` is a weighted data set, or a view of one, … -/
inductive Weighted (s : Sets) : ℕ → Prop
  | here {a b : ℕ} {indices : List ℤ} : s[a]? = some (.weighted b indices) → Weighted s a
  | view {a b : ℕ} {indices : List ℤ} : s[a]? = some (.view b indices) → b < a → Weighted s b → Weighted s a

/-- The instances of a stored data set: the columns of its matrices, in their order. -/
def stored (ins outs : List (List ℝ)) : Eval.Data where
  samples := ins.length
  outputs := match outs with
    | [] => 0
    | y :: _ => y.length
  getInstance n := ins[n]?.getD []
  getTarget n := outs[n]?.getD []

theorem content_eq (ins outs : List (List ℝ)) : content ins outs = stored ins outs := by
  cases outs <;> simp [content, stored]

/-- The data on which evaluator `e` evaluates the learner when the learner uses the data set `set` (if any). -/
inductive Hears (s : Sets) (ev : ℕ → Option ℕ) (e : ℕ) : Option ℕ → List Eval.Data → Prop
  | noSet : Hears s ev e none []
  | weighted {a : ℕ} : Weighted s a → Hears s ev e (some a) []
  | silent {a r : ℕ} : Shows s a r → ev r ≠ some e → Hears s ev e (some a) []
  | speaks {a r : ℕ} {ins outs : List (List ℝ)} : Shows s a r → s[r]? = some (.direct ins (some outs)) → ev r = some e →
      Hears s ev e (some a) [stored ins outs]

/-- A new world of evaluators with the given intervals. -/
def fresh (interval : ℕ → ℤ) : World := ⟨interval, fun _ => 0, fun _ => []⟩

/-! ## Calls of one evaluator -/

theorem evaluations_append (v : ℤ) : ∀ (l1 l2 : List (Eval.Learner × Eval.Data)) (i : ℤ), Eval.evaluations v (l1 ++ l2) i = (do
    let r1 ← Eval.evaluations v l1 i
    let r2 ← Eval.evaluations v l2 (i + l1.length)
    ok (r1 ++ r2))
  | [], l2, i => by
    simp only [List.nil_append, Eval.evaluations, ok_bind, List.length_nil, Nat.cast_zero, add_zero]
    cases Eval.evaluations v l2 i <;> rfl
  | c :: l1, l2, i => by
    have hi : ∀ r, Eval.evaluate v i c.1 c.2 = ok r → r.1 = i + 1 := by
      intro r hr
      rw [Eval.evaluate] at hr
      split at hr
      · exact absurd hr (by simp)
      · split at hr
        · obtain ⟨t, _, ht⟩ := bind_eq_ok.1 hr
          rw [← Outcome.ok.inj ht]
        · rw [← Outcome.ok.inj hr]
    simp only [List.cons_append, Eval.evaluations]
    cases h : Eval.evaluate v i c.1 c.2 with
    | ok r =>
      have h1 : i + ((c :: l1).length : ℤ) = r.1 + (l1.length : ℤ) := by rw [hi r h]; push_cast [List.length_cons]; ring
      rw [ok_bind, ok_bind, evaluations_append v l1 l2 r.1, h1]
      cases Eval.evaluations v l1 r.1 with
      | ok r1 =>
        simp only [ok_bind]
        cases Eval.evaluations v l2 (r.1 + l1.length) <;> rfl
      | throws => rfl
      | checkFailed => rfl
      | ub => rfl
    | throws => rfl
    | checkFailed => rfl
    | ub => rfl

/-- The state of the evaluators after the calls `hist`. -/
def After (interval : ℕ → ℤ) (hist : ℕ → List (Eval.Learner × Eval.Data)) (W : World) : Prop :=
  W.interval = interval ∧ ∀ e, W.iteration e = (hist e).length ∧ Eval.evaluations (interval e) (hist e) 0 = ok (W.log e)

theorem after_fresh (interval : ℕ → ℤ) : After interval (fun _ => []) (fresh interval) := ⟨rfl, fun _ => ⟨rfl, rfl⟩⟩

theorem evaluate_after {interval : ℕ → ℤ} {hist : ℕ → List (Eval.Learner × Eval.Data)} {W : World} (h : After interval hist W) {e : ℕ}
    (hv : interval e ≠ 0) {learner : Eval.Learner} {ins outs : List (List ℝ)} (hs : Eval.Shaped learner (stored ins outs)) :
    ∃ W', evaluate W e learner ins (some outs) = ok W' ∧
      After interval (fun e' => hist e' ++ if e' = e then [(learner, stored ins outs)] else []) W' := by
  obtain ⟨h1, h2⟩ := h
  obtain ⟨r, hr, hr1⟩ : ∃ r, Eval.evaluate (interval e) (W.iteration e) learner (stored ins outs) = ok r ∧ r.1 = W.iteration e + 1 := by
    rw [Eval.evaluate, if_neg hv]
    split
    · rw [Eval.evaluate_loop hs]
      exact ⟨_, rfl, rfl⟩
    · exact ⟨_, rfl, rfl⟩
  refine ⟨{ W with iteration := Function.update W.iteration e r.1, log := Function.update W.log e (W.log e ++ [r.2]) }, ?_, h1, fun e' => ?_⟩
  · simp only [evaluate, check, Option.getD_some, content_eq, h1, hr, ok_bind]
    rfl
  · by_cases he : e' = e
    · subst he
      simp only [if_true, Function.update_self, hr1, (h2 e').1]
      refine ⟨by push_cast [List.length_append, List.length_cons]; simp, ?_⟩
      rw [evaluations_append, (h2 e').2, ok_bind]
      simp only [Eval.evaluations, zero_add]
      rw [← (h2 e').1, hr]
      rfl
    · simp only [if_neg he, List.append_nil, Function.update_of_ne he]
      exact h2 e'

/-! ## Calls of the data sets -/

theorem finish_shows {a r : ℕ} (h : Shows s a r) (learner : Eval.Learner) (W : World) :
    finishIteration s ev learner a W = finishIteration s ev learner r W := by
  induction h with
  | here _ => rfl
  | view h1 h2 _ ih => rw [finishIteration, h1]; simp only [if_pos h2]; exact ih

theorem finish_weighted {a : ℕ} (h : Weighted s a) (learner : Eval.Learner) (W : World) : finishIteration s ev learner a W = ok W := by
  induction h with
  | here h => rw [finishIteration, h]
  | view h1 h2 _ ih => rw [finishIteration, h1]; simp only [if_pos h2]; exact ih

theorem shows_direct {a r : ℕ} (h : Shows s a r) : ∃ ins outs, s[r]? = some (.direct ins outs) := by
  induction h with
  | here h => exact ⟨_, _, h⟩
  | view _ _ _ ih => exact ih

theorem shows_unique {a r r' : ℕ} (h : Shows s a r) (h' : Shows s a r') : r = r' := by
  induction h with
  | here h =>
    cases h' with
    | here => rfl
    | view h1 => rw [h] at h1; cases h1
  | view h1 h2 _ ih =>
    cases h' with
    | here h => rw [h1] at h; cases h
    | view h3 h4 h5 => rw [h1] at h3; cases h3; exact ih h5

theorem not_weighted {a r : ℕ} (h : Shows s a r) : ¬ Weighted s a := by
  induction h with
  | here h =>
    intro h'
    cases h' with
    | here h1 => rw [h] at h1; cases h1
    | view h1 => rw [h] at h1; cases h1
  | view h1 _ _ ih =>
    intro h'
    cases h' with
    | here h => rw [h1] at h; cases h
    | view h3 _ h5 => rw [h1] at h3; cases h3; exact ih h5

theorem notify_after {interval : ℕ → ℤ} {hist : ℕ → List (Eval.Learner × Eval.Data)} {W : World} (h : After interval hist W)
    (hv : ∀ e, interval e ≠ 0) {learner : Eval.Learner} {set : Option ℕ} {c : ℕ → List Eval.Data} (hc : ∀ e, Hears s ev e set (c e))
    (hs : ∀ e, ∀ d ∈ c e, Eval.Shaped learner d) :
    ∃ W', notify s ev learner set W = ok W' ∧ After interval (fun e => hist e ++ (c e).map fun d => (learner, d)) W' := by
  have silence : (∀ e, c e = []) → After interval (fun e => hist e ++ (c e).map fun d => (learner, d)) W := by
    intro h0
    have : (fun e => hist e ++ (c e).map fun d => (learner, d)) = hist := by funext e; simp [h0 e]
    rw [this]
    exact h
  cases set with
  | none => exact ⟨W, rfl, silence fun e => by
      have := hc e
      generalize c e = l at this
      cases this
      rfl⟩
  | some a =>
    by_cases hw : Weighted s a
    · refine ⟨W, finish_weighted hw learner W, silence fun e => ?_⟩
      have := hc e
      generalize c e = l at this
      cases this with
      | weighted _ => rfl
      | silent _ _ => rfl
      | speaks h1 _ _ => exact absurd hw (not_weighted h1)
    · obtain ⟨r, hr⟩ : ∃ r, Shows s a r := by
        have := hc 0
        generalize c 0 = l at this
        cases this with
        | weighted h1 => exact absurd h1 hw
        | silent h1 _ => exact ⟨_, h1⟩
        | speaks h1 _ _ => exact ⟨_, h1⟩
      obtain ⟨ins, outs, hd⟩ := shows_direct hr
      have hev : notify s ev learner (some a) W = match ev r with
          | none => ok W
          | some e => evaluate W e learner ins outs := by
        rw [notify, finish_shows hr, finishIteration, hd]
        rfl
      have other : ∀ e, ev r ≠ some e → c e = [] := by
        intro e he
        have := hc e
        generalize c e = l at this
        cases this with
        | weighted _ => rfl
        | silent _ _ => rfl
        | speaks h1 _ h3 => rw [shows_unique hr h1] at he; exact absurd h3 he
      cases h1 : ev r with
      | none =>
        rw [h1] at hev
        exact ⟨W, hev, silence fun e => other e (by rw [h1]; exact fun hh => by cases hh)⟩
      | some e =>
        rw [h1] at hev
        obtain ⟨o, ho, hce⟩ : ∃ o, outs = some o ∧ c e = [stored ins o] := by
          have := hc e
          generalize c e = l at this
          cases this with
          | weighted h2 => exact absurd h2 hw
          | silent h2 h3 => rw [← shows_unique hr h2] at h3; exact absurd h1 h3
          | speaks h2 h3 _ =>
            rw [← shows_unique hr h2, hd] at h3
            cases h3
            exact ⟨_, rfl, rfl⟩
        subst ho
        obtain ⟨W', hW, hA⟩ := evaluate_after h (hv e) (hs e _ (by rw [hce]; exact List.mem_cons_self))
        refine ⟨W', hev.trans hW, ?_⟩
        have : (fun e => hist e ++ (c e).map fun d => (learner, d)) =
            fun e' => hist e' ++ if e' = e then [(learner, stored ins o)] else [] := by
          funext e'
          by_cases he : e' = e
          · subst he; rw [hce, if_pos rfl]; rfl
          · rw [if_neg he, other e' (by rw [h1]; exact fun hh => he (by cases hh; rfl))]; rfl
        rw [this]
        exact hA

/-! ## Trainings -/

/-- What evaluator `e` is called with in the first `n` iterations: after each iteration once for each data set of the network that reaches it. -/
def history (c : List Eval.Data) (learner : ℕ → Eval.Learner) (n : ℕ) : List (Eval.Learner × Eval.Data) :=
  (List.range n).flatMap fun i => c.map fun d => (learner i, d)

theorem history_succ (c : List Eval.Data) (learner : ℕ → Eval.Learner) (n : ℕ) :
    history c learner (n + 1) = history c learner n ++ c.map fun d => (learner n, d) := by
  simp [history, List.range_succ, List.flatMap_append]

/-- **C131**: the training of a network never fails because of its evaluators, and what an evaluator has written is what it writes if it is
called, after each iteration, with the network for the training set and then with the network for the validation set, where a view counts as the whole
data set behind it and a weighted data set does not count. -/
theorem training_log {interval : ℕ → ℤ} (hv : ∀ e, interval e ≠ 0) {train valid : Option ℕ} {ct cv : ℕ → List Eval.Data}
    (ht : ∀ e, Hears s ev e train (ct e)) (hV : ∀ e, Hears s ev e valid (cv e)) {learner : ℕ → Eval.Learner}
    (hs : ∀ i e, ∀ d ∈ ct e ++ cv e, Eval.Shaped (learner i) d) (n : ℕ) :
    ∃ W, training .net s ev train valid learner (fresh interval) n = ok W ∧
      ∀ e, Eval.evaluations (interval e) (history (ct e ++ cv e) learner n) 0 = ok (W.log e) := by
  suffices h : ∃ W, training .net s ev train valid learner (fresh interval) n = ok W ∧
      After interval (fun e => history (ct e ++ cv e) learner n) W by
    obtain ⟨W, h1, h2⟩ := h
    exact ⟨W, h1, fun e => (h2.2 e).2⟩
  induction n with
  | zero => exact ⟨_, rfl, after_fresh interval⟩
  | succ n ih =>
    obtain ⟨W, h1, h2⟩ := ih
    obtain ⟨W1, h3, h4⟩ := notify_after h2 hv ht fun e d hd => hs n e d (List.mem_append_left _ hd)
    obtain ⟨W2, h5, h6⟩ := notify_after h4 hv hV fun e d hd => hs n e d (List.mem_append_right _ hd)
    refine ⟨W2, ?_, ?_⟩
    · simp only [training, h1, ok_bind, finishedIteration, h3, h5]
    · have : (fun e => history (ct e ++ cv e) learner (n + 1)) = fun e =>
          (history (ct e ++ cv e) learner n ++ (ct e).map fun d => (learner n, d)) ++ (cv e).map fun d => (learner n, d) := by
        funext e
        rw [history_succ, List.map_append, List.append_assoc]
      rw [this]
      exact h6

/-- The report `x` for the learner `f` and the data `d` has the number `m`. -/
def Right (x : Option (Option Eval.Report)) (m : ℕ) (f : Eval.Learner) (d : Eval.Data) : Prop :=
  ∃ r, x = some (some r) ∧ r.iteration = m ∧ Eval.mse f d = ok r.error ∧ r.correct = ((Eval.hits f d).card : ℤ) ∧
    r.correct + r.wrong = (d.samples : ℤ)

/-- **C131**: an evaluator that belongs to exactly one of the two data sets of the network reports after the iterations `v`, `2 v`, … and after no
other iteration; each report has the number of the iteration and describes the network after this iteration. -/
theorem reports_once {interval : ℕ → ℤ} (hv : ∀ e, 1 ≤ interval e) {train valid : Option ℕ} {ct cv : ℕ → List Eval.Data}
    (ht : ∀ e, Hears s ev e train (ct e)) (hV : ∀ e, Hears s ev e valid (cv e)) {learner : ℕ → Eval.Learner}
    (hs : ∀ i e, ∀ d ∈ ct e ++ cv e, Eval.Shaped (learner i) d) {e : ℕ} {d : Eval.Data} (he : ct e ++ cv e = [d]) (n : ℕ) :
    ∃ W, training .net s ev train valid learner (fresh interval) n = ok W ∧ (W.log e).length = n ∧
      ∀ k < n, ((W.log e)[k]? = some none ↔ ¬ interval e ∣ (k + 1 : ℕ)) ∧
        (interval e ∣ (k + 1 : ℕ) → Right (W.log e)[k]? (k + 1) (learner k) d) := by
  obtain ⟨W, h1, h2⟩ := training_log (interval := interval) (fun e => by have := hv e; omega) ht hV hs n
  have hh : history (ct e ++ cv e) learner n = (List.range n).map fun i => (learner i, d) := by
    rw [he, history, List.map_eq_flatMap]
    rfl
  have h3 := h2 e
  rw [hh] at h3
  obtain ⟨reports, h4, h5, h6⟩ := Eval.evaluator_interval (hv e) (l := (List.range n).map fun i => (learner i, d)) (by
    intro c hc
    obtain ⟨i, _, rfl⟩ := List.mem_map.1 hc
    exact hs i e d (by rw [he]; exact List.mem_cons_self))
  rw [h4] at h3
  obtain rfl := Outcome.ok.inj h3
  refine ⟨W, h1, by simpa using h5, fun k hk => ?_⟩
  obtain ⟨h7, h8⟩ := h6 k (by simpa using hk)
  refine ⟨h7, fun hd => ?_⟩
  simpa [Right] using h8 hd

/-- **C131, false**: if the evaluator belongs to the data behind the training set and behind the validation set — the two parts of a `split`
data set — it counts twice as many iterations as there are: the report of the `k`-th call has number `k + 1` and describes the network after iteration
`k / 2` (counted from 0). -/
theorem split_twice {interval : ℕ → ℤ} (hv : ∀ e, 1 ≤ interval e) {train valid : Option ℕ} {ct cv : ℕ → List Eval.Data}
    (ht : ∀ e, Hears s ev e train (ct e)) (hV : ∀ e, Hears s ev e valid (cv e)) {learner : ℕ → Eval.Learner}
    (hs : ∀ i e, ∀ d ∈ ct e ++ cv e, Eval.Shaped (learner i) d) {e : ℕ} {d : Eval.Data} (he : ct e ++ cv e = [d, d]) (n : ℕ) :
    ∃ W, training .net s ev train valid learner (fresh interval) n = ok W ∧ (W.log e).length = 2 * n ∧
      ∀ k < 2 * n, ((W.log e)[k]? = some none ↔ ¬ interval e ∣ (k + 1 : ℕ)) ∧
        (interval e ∣ (k + 1 : ℕ) → Right (W.log e)[k]? (k + 1) (learner (k / 2)) d) := by
  obtain ⟨W, h1, h2⟩ := training_log (interval := interval) (fun e => by have := hv e; omega) ht hV hs n
  have hh : history (ct e ++ cv e) learner n = (List.range (2 * n)).map fun i => (learner (i / 2), d) := by
    rw [he]
    clear h1 h2
    induction n with
    | zero => rfl
    | succ n ih =>
      have e1 : 2 * n / 2 = n := by omega
      have e2 : (2 * n + 1) / 2 = n := by omega
      rw [history_succ, ih, show 2 * (n + 1) = 2 * n + 1 + 1 by ring, List.range_succ, List.range_succ]
      simp [e2]
  have h3 := h2 e
  rw [hh] at h3
  obtain ⟨reports, h4, h5, h6⟩ := Eval.evaluator_interval (hv e) (l := (List.range (2 * n)).map fun i => (learner (i / 2), d)) (by
    intro c hc
    obtain ⟨i, _, rfl⟩ := List.mem_map.1 hc
    exact hs _ e d (by rw [he]; exact List.mem_cons_self))
  rw [h4] at h3
  obtain rfl := Outcome.ok.inj h3
  refine ⟨W, h1, by simpa using h5, fun k hk => ?_⟩
  obtain ⟨h7, h8⟩ := h6 k (by simpa using hk)
  refine ⟨h7, fun hd => ?_⟩
  simpa [Right] using h8 hd

/-- **C131, false**: after a training with two parts of one data set there are reports about iterations that never took place. -/
theorem split_fails {interval : ℕ → ℤ} (hv : ∀ e, 1 ≤ interval e) {train valid : Option ℕ} {ct cv : ℕ → List Eval.Data}
    (ht : ∀ e, Hears s ev e train (ct e)) (hV : ∀ e, Hears s ev e valid (cv e)) {learner : ℕ → Eval.Learner}
    (hs : ∀ i e, ∀ d ∈ ct e ++ cv e, Eval.Shaped (learner i) d) {e : ℕ} {d : Eval.Data} (he : ct e ++ cv e = [d, d]) {n : ℕ}
    (hn : 0 < n) (hd : interval e ∣ (2 * n : ℕ)) :
    ∃ W r, training .net s ev train valid learner (fresh interval) n = ok W ∧ some r ∈ W.log e ∧ (n : ℤ) < r.iteration := by
  obtain ⟨W, h1, _, h3⟩ := split_twice hv ht hV hs he n
  obtain ⟨r, h4, h5, _⟩ := (h3 (2 * n - 1) (by omega)).2 (by rwa [show 2 * n - 1 + 1 = 2 * n by omega])
  exact ⟨W, r, h1, List.mem_of_getElem? h4, by rw [h5]; push_cast; omega⟩

/-- **C131, false**: the evaluator of a data set does not evaluate the network on the part that the network uses but on the whole data set. -/
theorem view_fails {interval : ℕ → ℤ} (hv : ∀ e, 1 ≤ interval e) {a r : ℕ} {ins outs : List (List ℝ)} {e : ℕ} (ha : Shows s a r)
    (hr : s[r]? = some (.direct ins (some outs))) (he : ev r = some e) (hne : samples s a ≠ ins.length) {learner : ℕ → Eval.Learner}
    (hs : ∀ i, Eval.Shaped (learner i) (stored ins outs)) {n : ℕ} (hn : 0 < n) (hd : interval e ∣ n) :
    ∃ W rep, training .net s ev none (some a) learner (fresh interval) n = ok W ∧ some rep ∈ W.log e ∧
      rep.correct + rep.wrong ≠ samples s a := by
  have hV : ∀ e', Hears s ev e' (some a) (if e' = e then [stored ins outs] else []) := by
    intro e'
    by_cases h : e' = e
    · subst h; rw [if_pos rfl]; exact .speaks ha hr he
    · rw [if_neg h]; exact .silent ha (by rw [he]; exact fun hh => h (by cases hh; rfl))
  obtain ⟨W, h1, _, h3⟩ := reports_once (interval := interval) hv (ct := fun _ => []) (fun _ => .noSet) hV (learner := learner) (by
    intro i e' d hd
    by_cases h : e' = e
    · simp only [h, if_true, List.nil_append, List.mem_singleton] at hd; rw [hd]; exact hs i
    · simp [h] at hd) (e := e) (d := stored ins outs) (by simp) n
  obtain ⟨rep, h4, _, _, _, h5⟩ := (h3 (n - 1) (by omega)).2 (by rwa [show n - 1 + 1 = n by omega])
  refine ⟨W, rep, h1, List.mem_of_getElem? h4, ?_⟩
  rw [h5]
  exact fun hh => hne (by have : ins.length = samples s a := by exact_mod_cast hh
                          exact this.symm)

/-- **C131, false**: no evaluator reports on a training with weighted data. -/
theorem weighted_fails {train valid : Option ℕ} (ht : ∀ a, train = some a → Weighted s a) (hV : ∀ a, valid = some a → Weighted s a)
    (learner : ℕ → Eval.Learner) (W : World) (n : ℕ) : training .net s ev train valid learner W n = ok W := by
  have one : ∀ {set : Option ℕ} (_ : ∀ a, set = some a → Weighted s a) (f : Eval.Learner), notify s ev f set W = ok W := by
    intro set h f
    cases set with
    | none => rfl
    | some a => exact finish_weighted (h a rfl) f W
  induction n with
  | zero => rfl
  | succ n ih => simp only [training, ih, ok_bind, finishedIteration, one ht, one hV]

/-- **C131, false**: no evaluator reports on the training of anything but a network. -/
theorem other_learner_fails (train valid : Option ℕ) (learner : ℕ → Eval.Learner) (W : World) (n : ℕ) :
    training .other s ev train valid learner W n = ok W := by
  induction n with
  | zero => rfl
  | succ n ih => simp only [training, ih, ok_bind, finishedIteration]

/-- **C131, false**: a data set without targets that has an evaluator ends the training when the evaluator wants to report. -/
theorem no_targets_fails {interval : ℕ → ℤ} {a r : ℕ} {ins : List (List ℝ)} {e : ℕ} (ha : Shows s a r) (hr : s[r]? = some (.direct ins none))
    (he : ev r = some e) (h0 : ins ≠ []) (learner : ℕ → Eval.Learner) {v : ℕ} (hv : interval e = v) (h1 : 1 ≤ v) {n : ℕ} (hn : v ≤ n) :
    training .net s ev (some a) none learner (fresh interval) n = checkFailed := by
  have step : ∀ (f : Eval.Learner) (W : World), finishedIteration .net s ev (some a) none f W = evaluate W e f ins none := by
    intro f W
    simp only [finishedIteration, notify, finish_shows ha]
    rw [finishIteration, hr, he]
    show (evaluate W e f ins none >>= fun W => ok W) = _
    cases evaluate W e f ins none <;> rfl
  have quiet : ∀ k < v, ∃ W, training .net s ev (some a) none learner (fresh interval) k = ok W ∧ W.interval e = v ∧ W.iteration e = k := by
    intro k
    induction k with
    | zero => exact fun _ => ⟨_, rfl, hv, rfl⟩
    | succ k ih =>
      intro hk
      obtain ⟨W, h2, h3, h4⟩ := ih (by omega)
      have h5 : Int.tmod ((k : ℤ) + 1) v ≠ 0 := by
        intro hh
        have h6 : (v : ℤ) ∣ ((k + 1 : ℕ) : ℤ) := by push_cast; exact Int.dvd_of_tmod_eq_zero hh
        exact absurd (Nat.le_of_dvd (by omega) (Int.natCast_dvd_natCast.1 h6)) (by omega)
      have h6 : (v : ℤ) ≠ 0 := by omega
      refine ⟨{ W with iteration := Function.update W.iteration e ((k : ℤ) + 1), log := Function.update W.log e (W.log e ++ [none]) }, ?_, h3, by simp⟩
      simp only [training, h2, ok_bind, step, evaluate, h3, h4]
      rw [check_true (Or.inr (Or.inr h5)), ok_bind, Eval.evaluate, if_neg h6, if_neg h5, ok_bind]
  have stop : training .net s ev (some a) none learner (fresh interval) v = checkFailed := by
    obtain ⟨w, rfl⟩ : ∃ w, v = w + 1 := ⟨v - 1, by omega⟩
    obtain ⟨W, h2, h3, h4⟩ := quiet w (by omega)
    simp only [training, h2, ok_bind, step, evaluate, h3, h4]
    have h5 : Int.tmod ((w : ℤ) + 1) ((w + 1 : ℕ) : ℤ) = 0 := by push_cast; exact Int.tmod_self
    rw [check_false (by simp only [h5]; simp [h0])]
    rfl
  obtain ⟨m, rfl⟩ := Nat.exists_eq_add_of_le hn
  induction m with
  | zero => exact stop
  | succ m ih =>
    rw [← Nat.add_assoc, training, ih (by omega)]
    rfl

/-! ## Examples -/

/-- Two instances, a training set with the first, a validation set with the second, a weighted data set and a view of that. -/
def sampleStore : Sets :=
  [.direct [[0], [1]] (some [[0], [1]]), .view 0 [0], .view 0 [1], .weighted 0 [0, 1], .view 3 [0], .direct [[2]] (some [[0]])]

theorem sample_train : Shows sampleStore 1 0 := .view rfl (by decide) (.here rfl)

theorem sample_valid : Shows sampleStore 2 0 := .view rfl (by decide) (.here rfl)

theorem sample_shaped (learner : Eval.Learner) (h : ∀ x, (learner x).length = 1) (d : Eval.Data)
    (hd : d = stored [[0], [1]] [[0], [1]] ∨ d = stored [[2]] [[0]]) : Eval.Shaped learner d := by
  rcases hd with rfl | rfl
  · refine ⟨by simp [stored], fun n hn => ?_, fun n _ => ?_⟩
    · have : n = 0 ∨ n = 1 := by simp only [stored, List.length_cons, List.length_nil] at hn; omega
      rcases this with rfl | rfl <;> simp [stored]
    · rw [h]; simp [stored]
  · refine ⟨by simp [stored], fun n hn => ?_, fun n _ => ?_⟩
    · have : n = 0 := by simp only [stored, List.length_cons, List.length_nil] at hn; omega
      subst this; simp [stored]
    · rw [h]; simp [stored]

/-- `split`: with interval 2 there is a report about an iteration 6 after three iterations. -/
example : ∃ W r, training .net sampleStore (fun a => if a = 0 then some 7 else none) (some 1) (some 2) (fun i _ => [(i : ℝ)])
    (fresh fun _ => 2) 3 = ok W ∧ some r ∈ W.log 7 ∧ 3 < r.iteration := by
  have hear : ∀ e a, Shows sampleStore a 0 → Hears sampleStore (fun a => if a = 0 then some 7 else none) e (some a)
      (if e = 7 then [stored [[0], [1]] [[0], [1]]] else []) := by
    intro e a ha
    by_cases h : e = 7
    · subst h; rw [if_pos rfl]; exact .speaks ha rfl rfl
    · rw [if_neg h]; exact .silent ha (by simpa using Ne.symm h)
  exact_mod_cast split_fails (interval := fun _ => 2) (n := 3) (e := 7) (d := stored [[0], [1]] [[0], [1]]) (fun _ => by omega)
    (fun e => hear e 1 sample_train) (fun e => hear e 2 sample_valid) (learner := fun i _ => [(i : ℝ)]) (by
      intro i e d hd
      refine sample_shaped _ (fun _ => rfl) d (Or.inl ?_)
      by_cases h : e = 7
      · simpa [h] using hd
      · simp [h] at hd) (by simp) (by omega) (by decide)

/-- Different evaluators for the training and the validation set. -/
example (n : ℕ) : ∃ W, training .net sampleStore (fun a => if a = 0 then some 7 else some 8) (some 0) (some 5) (fun i _ => [(i : ℝ)])
    (fresh fun _ => 3) n = ok W ∧ (W.log 8).length = n ∧ ∀ k < n, ((W.log 8)[k]? = some none ↔ ¬ (3 : ℤ) ∣ (k + 1 : ℕ)) ∧
      ((3 : ℤ) ∣ (k + 1 : ℕ) → Right (W.log 8)[k]? (k + 1) (fun _ => [(k : ℝ)]) (stored [[2]] [[0]])) := by
  refine reports_once (interval := fun _ => 3) (ct := fun e => if e = 7 then [stored [[0], [1]] [[0], [1]]] else [])
    (cv := fun e => if e = 8 then [stored [[2]] [[0]]] else []) (fun _ => by omega) (fun e => ?_) (fun e => ?_)
    (learner := fun i _ => [(i : ℝ)]) (fun i e d hd => ?_) (e := 8) (d := stored [[2]] [[0]]) rfl n
  · by_cases h : e = 7
    · subst h; rw [if_pos rfl]; exact .speaks (.here rfl) rfl rfl
    · rw [if_neg h]; exact .silent (.here (a := 0) rfl) (by simpa using Ne.symm h)
  · by_cases h : e = 8
    · subst h; rw [if_pos rfl]; exact .speaks (.here (a := 5) rfl) rfl rfl
    · rw [if_neg h]; exact .silent (.here (a := 5) rfl) (by simpa using Ne.symm h)
  · refine sample_shaped _ (fun _ => rfl) d ?_
    rcases List.mem_append.1 hd with h | h
    · left
      by_cases h7 : e = 7
      · simpa [h7] using h
      · simp [h7] at h
    · right
      by_cases h8 : e = 8
      · simpa [h8] using h
      · simp [h8] at h

/-- A view of one instance: the report is about two. -/
example : ∃ W rep, training .net sampleStore (fun _ => some 7) none (some 2) (fun i _ => [(i : ℝ)]) (fresh fun _ => 1) 5 = ok W ∧
    some rep ∈ W.log 7 ∧ rep.correct + rep.wrong ≠ samples sampleStore 2 :=
  view_fails (ev := fun _ => some 7) (e := 7) (learner := fun i _ => [(i : ℝ)]) (n := 5) (interval := fun _ => 1) (r := 0) (fun _ => by omega)
    sample_valid rfl rfl (by simp [samples, sampleStore])
    (fun i => sample_shaped _ (fun _ => rfl) _ (Or.inl rfl)) (by omega) (by simp)

/-- A weighted data set and a view of it. -/
example (W : World) : training .net sampleStore (fun _ => some 7) (some 3) (some 4) (fun i _ => [(i : ℝ)]) W 100 = ok W :=
  weighted_fails (fun a h => by cases h; exact .here rfl) (fun a h => by cases h; exact .view rfl (by decide) (.here rfl)) _ W 100

/-- A training set without targets. -/
example : training .net [.direct [[1]] none, .view 0 [0, 0]] (fun _ => some 7) (some 1) none (fun _ x => x) (fresh fun _ => 10) 10 = checkFailed :=
  no_targets_fails (ev := fun _ => some 7) (e := 7) (interval := fun _ => 10) (a := 1) (r := 0) (ins := [[1]])
    (.view rfl (by decide) (.here rfl)) rfl rfl (by simp) (fun _ x => x) (v := 10) rfl (by omega) (n := 10) (by omega)

end

end Verif.Observe
