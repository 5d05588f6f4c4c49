import Verif.Model.Train
import Mathlib.Tactic.NormNum

/-!
# `train` leaves a network that is ready for prediction (C75)
-/

namespace Verif.Train

variable {σ : Type}

/-- The end of an iteration restores the flag unless a data set throws. -/
theorem finishIteration_dropout (w : World σ) (s : State σ) (h : (s.finishIteration w).thrown = false) :
    (s.finishIteration w).dropout = s.dropout := by
  unfold State.finishIteration NN.finishedIteration at h ⊢
  simp only at h ⊢
  split at h
  · rename_i h'
    rw [h'] at h
    cases h
  · rename_i h'
    rw [if_neg h']

/-- What every optimiser leaves alone. -/
theorem run_keeps (w : World σ) : ∀ (p : Prog) (s : State σ),
    (run w p s).2.1.ce = s.ce ∧ (run w p s).2.1.live = s.live ∧ (run w p s).2.1.initialized = s.initialized ∧
      ((run w p s).1 ≠ .raised → (run w p s).2.1.dropout = s.dropout) ∧
      ∀ e ∈ (run w p s).2.2, e.ce = s.ce ∧ e.dropout = s.dropout
  | .done θ, s => ⟨rfl, rfl, rfl, fun _ => rfl, by simp [run]⟩
  | .raise, s => ⟨rfl, rfl, rfl, fun _ => rfl, by simp [run]⟩
  | .currentParameters next, s => run_keeps w (next s.params) s
  | .setParameters θ next, s => run_keeps w next { s with params := θ }
  | .evaluate q next, s => by
    obtain ⟨h1, h2, h3, h4, h5⟩ := run_keeps w (next (w.eval s.params s.ce s.dropout q s.rest).1)
      { s with rest := (w.eval s.params s.ce s.dropout q s.rest).2 }
    refine ⟨h1, h2, h3, h4, ?_⟩
    intro e he
    rcases List.mem_cons.1 he with rfl | he
    · exact ⟨rfl, rfl⟩
    · exact h5 e he
  | .finishedIteration next, s => by
    cases ht : (s.finishIteration w).thrown
    · have hd := finishIteration_dropout w s ht
      have e : run w (.finishedIteration next) s =
          run w next { s with dropout := s.dropout, rest := (s.finishIteration w).user } := by
        rw [run, if_neg (by rw [ht]; decide), hd]
      rw [e]
      exact run_keeps w next { s with dropout := s.dropout, rest := (s.finishIteration w).user }
    · have e : run w (.finishedIteration next) s =
          (.raised, { s with dropout := (s.finishIteration w).dropout, rest := (s.finishIteration w).user }, []) := by
        rw [run, if_pos ht]
      rw [e]
      exact ⟨rfl, rfl, rfl, fun h => absurd rfl h, by simp⟩

/-- **C75 (normal end)**: when `train` returns, dropout is switched off, the error function is the requested one, the network
has the parameters that the optimiser found when it was started with the current or with fresh parameters, every optimiser
object is deleted, and all evaluations used the requested error function and the requested dropout. -/
theorem train_returns {w : World σ} {os : Optimizers} {alg : String} {ce reinit dropout : Bool} {fresh : List ℝ}
    {s s' : State σ} {log : List Seen} (h : train w os alg ce reinit dropout fresh s = (.returned s', log)) :
    ∃ p θ, os.find alg = some p ∧
      (run w p { prepare ce reinit dropout fresh s with live := s.live + 1 }).1 = .done θ ∧
      s'.params = θ ∧ s'.ce = ce ∧ s'.dropout = false ∧ s'.live = s.live ∧
      ∀ e ∈ log, e.ce = ce ∧ e.dropout = dropout := by
  unfold train at h
  split at h
  · cases h
  · split at h
    · cases h
    · rename_i p hp
      simp only at h
      split at h
      · cases h
      · rename_i θ hr
        have hk := run_keeps w p { prepare ce reinit dropout fresh s with live := (prepare ce reinit dropout fresh s).live + 1 }
        injection h with h1 h2
        injection h1 with h1
        subst h1 h2
        refine ⟨p, θ, hp, hr, rfl, hk.1, rfl, ?_, hk.2.2.2.2⟩
        show (run w p _).2.1.live - 1 = _
        rw [hk.2.1]
        rfl

/-- **C75 (history)**: result, evaluations and network afterwards do not depend on the error function and on the dropout that
were set before the call. -/
theorem train_flags (w : World σ) (os : Optimizers) (alg : String) (ce reinit dropout : Bool) (fresh : List ℝ) (s : State σ)
    (ce' dropout' : Bool) :
    train w os alg ce reinit dropout fresh { s with ce := ce', dropout := dropout' } =
      train w os alg ce reinit dropout fresh s := rfl

/-- **C75 (history)**: with reinitialisation the old parameters have no influence. -/
theorem train_fresh (w : World σ) (os : Optimizers) (alg : String) (ce dropout : Bool) (fresh : List ℝ) (s : State σ)
    (θ : List ℝ) :
    train w os alg ce true dropout fresh { s with params := θ } = train w os alg ce true dropout fresh s := rfl

/-- **C75 (choice)**: exactly the five documented names are accepted. -/
theorem unknown_iff (os : Optimizers) (alg : String) :
    os.find alg = none ↔ alg ∉ ["MBSGD", "LMA", "CG", "LBFGS", "CMAES"] := by
  unfold Optimizers.find
  simp only [List.mem_cons, List.not_mem_nil, or_false, not_or]
  constructor
  · intro h
    split_ifs at h with h1 h2 h3 h4 h5
    exact ⟨h1, h2, h3, h4, h5⟩
  · rintro ⟨h1, h2, h3, h4, h5⟩
    rw [if_neg h1, if_neg h2, if_neg h3, if_neg h4, if_neg h5]

/-- **C75 fails when an exception is thrown (unknown algorithm)**: the call is rejected only after the network was changed: the
parameters are lost, the error function is another one and dropout stays switched on. -/
theorem unknown_fails (w : World σ) (os : Optimizers) {alg : String} (h : alg ∉ ["MBSGD", "LMA", "CG", "LBFGS", "CMAES"])
    {s : State σ} (hi : s.initialized = true) (fresh : List ℝ) :
    ∃ s', train w os alg true true true fresh s = (.thrown s', []) ∧ s'.params = fresh ∧ s'.ce = true ∧ s'.dropout = true := by
  refine ⟨prepare true true true fresh s, ?_, rfl, rfl, rfl⟩
  unfold train
  rw [hi, (unknown_iff os alg).2 h]
  rfl

/-- **C75 fails when an exception is thrown (optimiser)**: an exception that leaves `optimize()` leaves dropout as it was in the
optimisation and the optimiser is never deleted. -/
theorem exception_fails (w : World σ) (os : Optimizers) (h : os.lbfgs = .raise) {s : State σ} (hi : s.initialized = true)
    (fresh : List ℝ) :
    ∃ s', train w os "LBFGS" true true true fresh s = (.thrown s', []) ∧ s'.dropout = true ∧ s'.live = s.live + 1 := by
  refine ⟨{ prepare true true true fresh s with live := s.live + 1 }, ?_, rfl, rfl⟩
  unfold train
  rw [hi, show os.find "LBFGS" = some os.lbfgs from by
    unfold Optimizers.find
    rw [if_neg (by decide), if_neg (by decide), if_neg (by decide), if_pos rfl], h]
  rfl

/-- Every exception leaks an optimiser, unless the name of the algorithm is unknown. -/
theorem thrown_leaks {w : World σ} {os : Optimizers} {alg : String} {ce reinit dropout : Bool} {fresh : List ℝ}
    {s s' : State σ} {log : List Seen} (h : train w os alg ce reinit dropout fresh s = (.thrown s', log)) :
    s'.live = s.live + (if os.find alg = none then 0 else 1) := by
  unfold train at h
  split at h
  · cases h
  · split at h
    · rename_i hp
      injection h with h1 h2
      injection h1 with h1
      rw [if_pos hp, ← h1]
      rfl
    · rename_i p hp
      simp only at h
      split at h
      · injection h with h1 h2
        injection h1 with h1
        rw [← h1, (run_keeps w p _).2.1, hp, if_neg (by simp)]
        rfl
      · cases h

/-- A small optimiser: it reads the parameters, evaluates them, doubles them, ends the iteration and evaluates again. -/
def sample : Prog :=
  .currentParameters fun θ => .evaluate 0 fun _ => .setParameters (θ.map (2 * ·)) <| .finishedIteration <| .evaluate 1 fun a => .done a

/-- A world in which the evaluation returns the parameters and a data set counts its notifications without dropout. -/
def sampleWorld : World ℕ := ⟨fun θ _ _ _ n => (θ, n), some fun _ _ d n => if d then none else some (n + 1), none⟩

/-- The hypotheses of `train_returns` are met by a run with two evaluations and one iteration. -/
example : train sampleWorld ⟨sample, sample, sample, sample, sample⟩ "CG" true true true [3] ⟨[1], false, false, true, 0, 0⟩ =
    (.returned ⟨[3].map (2 * ·), true, false, true, 0, 1⟩, [⟨[3], true, true⟩, ⟨[3].map (2 * ·), true, true⟩]) := by
  unfold train
  rw [show (Optimizers.mk sample sample sample sample sample).find "CG" = some sample from by
    unfold Optimizers.find
    rw [if_neg (by decide), if_neg (by decide), if_pos rfl]]
  rfl

example : (⟨.raise, .raise, .raise, .raise, .raise⟩ : Optimizers).find "SGD" = none := by
  unfold Optimizers.find
  rw [if_neg (by decide), if_neg (by decide), if_neg (by decide), if_neg (by decide), if_neg (by decide)]

end Verif.Train
