import Verif.Props.AlglibFails

/-!
# Optimisers that wrap ALGLIB: one callback for each iteration (C71)
-/

namespace Verif.Alglib

variable {σ τ V J : Type} {M : Method σ τ V J} {O : Object τ} {inv : τ → Prop} {n : ℕ} {f : List ℝ → V} {d : List ℝ → V × J}
  {size : σ → ℕ} {default : Stop}

/-! ## Spec -/

/-- Spec: `c` counts the calls of `finishedIteration`: nothing else that the optimiser does with the object changes it. -/
structure Watches (O : Object τ) (A : Access τ V J) (c : τ → ℕ) : Prop where
  set : ∀ {t v t'}, O.setParameters t v = .ok t' → c t' = c t
  value : ∀ {t r}, A.value t = .ok r → c r.2 = c t
  derivative : ∀ {t r}, A.derivative t = .ok r → c r.2 = c t
  finished : ∀ {t t'}, O.finishedIteration t = .ok t' → c t' = c t + 1

/-! ## Lemmas -/

def Pass.calls : Pass σ τ → ℕ
  | .returned _ _ => 1
  | _ => 0

def Pass.object : Pass σ τ → τ
  | .again _ t => t
  | .returned _ t => t
  | .ended _ t => t

theorem afterAnswer_calls {A : Access τ V J} {c : τ → ℕ} (hc : Watches O A c) {L : Library σ V J} {o : Opt σ} {s : σ} {t : τ}
    {p : Pass σ τ} (h : afterAnswer L O o s t = .ok p) : c p.object = c t + p.calls := by
  unfold afterAnswer at h
  split at h
  · rw [Outcome.bind_eq_ok] at h
    obtain ⟨t', h1, h2⟩ := h
    injection h2 with h2
    rw [← h2]
    exact hc.finished h1
  · injection h with h
    rw [← h]
    rfl

theorem pass_calls {A : Access τ V J} {c : τ → ℕ} (hc : Watches O A c) {L : Library σ V J} {o : Opt σ} {s : σ} {t : τ}
    {p : Pass σ τ} (h : pass L O A o s t = .ok p) : c p.object = c t + p.calls := by
  unfold pass at h
  split at h
  · injection h with h
    rw [← h]
    rfl
  · injection h with h
    rw [← h]
    rfl
  · cases h
  · simp only [Outcome.bind_eq_ok] at h
    obtain ⟨_, _, t₁, h1, r, h2, h3⟩ := h
    rw [afterAnswer_calls hc h3, hc.value h2, hc.set h1]
  · simp only [Outcome.bind_eq_ok] at h
    obtain ⟨_, _, t₁, h1, r, h2, h3⟩ := h
    rw [afterAnswer_calls hc h3, hc.derivative h2, hc.set h1]

theorem reset_calls {A : Access τ V J} {c : τ → ℕ} (hc : Watches O A c) {L : Library σ V J} {b : Bool} {o : Opt σ} {t : τ}
    {r : Opt σ × τ} (h : reset L O b o t = .ok r) : c r.2 = c t := by
  unfold reset at h
  split at h
  · cases h
  · rw [Outcome.bind_eq_ok] at h
    obtain ⟨_, _, h⟩ := h
    cases b with
    | true =>
      simp only [if_true, Outcome.bind_eq_ok] at h
      obtain ⟨t₁, h1, h2⟩ := h
      injection h2 with h2
      rw [← h2]
      exact hc.set h1
    | false =>
      simp only [Bool.false_eq_true, if_false, Outcome.ok_bind, Outcome.pure_eq] at h
      injection h with h
      rw [← h]

theorem looped_calls {c : τ → ℕ} (hc : ∀ o, Watches O (M.access o) c) {o : Opt σ} {t : τ} {r : Outcome (Bool × Opt σ × τ)}
    (h : Looped M O o t r) {b : Bool} {o' : Opt σ} {t' : τ} (hr : r = .ok (b, o', t')) :
    c t' = c t + if b then 1 else 0 := by
  induction h with
  | ub => cases hr
  | again _ h1 _ ih =>
    have h2 := pass_calls (hc _) h1
    simp only [Pass.object, Pass.calls, add_zero] at h2
    rw [ih hr, h2]
  | returned _ h1 =>
    injection hr with hr
    injection hr with hb hr
    injection hr with _ hr
    rw [← hr, ← hb]
    exact pass_calls (hc _) h1
  | @ended o _ _ _ _ _ h1 =>
    rw [Outcome.bind_eq_ok] at hr
    obtain ⟨q, h2, h3⟩ := hr
    injection h3 with h3
    injection h3 with hb h3
    injection h3 with _ h3
    have h4 := pass_calls (hc _) h1
    simp only [Pass.object, Pass.calls, add_zero] at h4
    rw [← hb, ← h3, reset_calls (hc o) h2, h4]
    rfl
  | failed _ _ =>
    rw [Outcome.bind_eq_ok] at hr
    obtain ⟨_, _, h3⟩ := hr
    cases h3

/-! ## Main theorems -/

/-- **C71 (callbacks of a step)**: a step that returns `true` calls `finishedIteration` of the object exactly once, a step that
returns `false` does not call it. -/
theorem step_calls {c : τ → ℕ} (hc : ∀ o, Watches O (M.access o) c) {o o' : Opt σ} {t t' : τ} {b : Bool}
    (h : Step M O default o t (.ok (b, o', t'))) : c t' = c t + if b then 1 else 0 := by
  generalize hr : Outcome.ok (b, o', t') = r at h
  cases h with
  | looped _ h2 => exact looped_calls hc h2 hr.symm
  | failed h1 =>
    have hr := hr.symm
    rw [Outcome.bind_eq_ok] at hr
    obtain ⟨_, _, h3⟩ := hr
    cases h3

/-- **C71 (callbacks of `optimize()`)**: with a positive limit of iterations, the object gets at most as many callbacks (one more with
LMA), whether the run is interrupted or not. -/
theorem optimize_calls (hL : M.lib.Sized size) (hC : M.lib.Counts) (hM : M.lib.Limits)
    (hO : ∀ o : Opt σ, o.n = n → Computes O (M.access o) inv n f d) (hn : 0 < n) {c : τ → ℕ}
    (hc : ∀ o, Watches O (M.access o) c) {signals : ℕ → Bool} {o o' : Opt σ} {t t' : τ} (hi : o.iteration = -1) (ht : inv t)
    (hb : 0 < o.stop.maximalIterations) (hdef : default.maximalIterations = -1)
    (h : Optimize M O default signals o t (.ok (o', t'))) :
    (c t' : ℤ) ≤ c t + o.stop.maximalIterations + if M.start then 0 else 1 := by
  suffices H : ∀ {signals o₁ t₁ r}, Optimize M O default signals o₁ t₁ r → r = .ok (o', t') →
      ∀ k, Session M O default inv o t k o₁ t₁ → c t₁ = c t + k →
      ∃ k' o₂ t₂, Session M O default inv o t k' o₂ t₂ ∧ c t' = c t + k' by
    obtain ⟨k', o₂, t₂, h1, h2⟩ := H h rfl 0 .nil rfl
    have := steps_budget hL hC hM hO hn h1 hi ht hb hdef
    rw [h2]
    push_cast
    linarith
  intro signals o₁ t₁ r h
  induction h with
  | last h1 =>
    intro hr k hk hck
    injection hr with hr
    injection hr with _ hr
    exact ⟨k, _, _, hk, by rw [← hr, step_calls hc h1, hck]; rfl⟩
  | @interrupted _ o₁ t₁ o₂ t₂ h1 _ =>
    intro hr k hk hck
    have hi2 : inv t₂ := by
      rcases session_step hL hC hO hn hi ht hk h1 with ⟨_, e⟩ | ⟨s₀, h3, ⟨_, _, t₂, _, c, e⟩ | ⟨s, t₂, a, b, c, e, g⟩ | ⟨_, _, _, e⟩⟩ <;>
        simp_all
    exact ⟨k + 1, _, _, .step hk h1 hi2, by rw [reset_calls (hc o) hr, step_calls hc h1, hck]; rfl⟩
  | @next _ o₁ t₁ o₂ t₂ r h1 _ _ ih =>
    intro hr k hk hck
    have hi2 : inv t₂ := by
      rcases session_step hL hC hO hn hi ht hk h1 with ⟨_, e⟩ | ⟨s₀, h3, ⟨_, _, t₂, _, c, e⟩ | ⟨s, t₂, a, b, c, e, g⟩ | ⟨_, _, _, e⟩⟩ <;>
        simp_all
    exact ih hr (k + 1) (.step hk h1 hi2) (by rw [step_calls hc h1, hck]; rfl)
  | failed _ _ =>
    intro hr
    rw [Outcome.bind_eq_ok] at hr
    obtain ⟨_, _, h3⟩ := hr
    cases h3

/-- An object together with a counter of its callbacks. -/
def counted (O : Object τ) : Object (τ × ℕ) where
  dimension t := O.dimension t.1
  examples t := O.examples t.1
  current t := O.current t.1
  setParameters t v := do
    let r ← O.setParameters t.1 v
    pure (r, t.2)
  error t := do
    let r ← O.error t.1
    pure (r.1, (r.2, t.2))
  errorGradient t := do
    let r ← O.errorGradient t.1
    pure (r.1, (r.2, t.2))
  errorAt t i := do
    let r ← O.errorAt t.1 i
    pure (r.1, (r.2, t.2))
  errorGradientAt t i := do
    let r ← O.errorGradientAt t.1 i
    pure (r.1, (r.2, t.2))
  finishedIteration t := do
    let r ← O.finishedIteration t.1
    pure (r, t.2 + 1)

/-- Every object can be watched in this way. -/
example (O : Object τ) (n : ℤ) : Watches (counted O) (scalarAccess (counted O) n) (fun t => t.2) := by
  constructor
  · intro t v t' h
    simp only [counted, Outcome.bind_eq_ok] at h
    obtain ⟨_, _, h⟩ := h
    injection h with h
    rw [← h]
  · intro t r h
    simp only [scalarAccess, counted, Outcome.bind_eq_ok] at h
    obtain ⟨_, _, h⟩ := h
    injection h with h
    rw [← h]
  · intro t r h
    simp only [scalarAccess, counted, Outcome.bind_eq_ok] at h
    obtain ⟨_, ⟨_, _, h1⟩, _, _, h⟩ := h
    injection h1 with h1
    injection h with h
    rw [← h, ← h1]
  · intro t t' h
    simp only [counted, Outcome.bind_eq_ok] at h
    obtain ⟨_, _, h⟩ := h
    injection h with h
    rw [← h]

end Verif.Alglib
