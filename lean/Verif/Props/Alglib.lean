import Verif.Model.Alglib
import Mathlib.Logic.Relation
import Mathlib.Tactic.Linarith

/-!
# Optimisers that wrap ALGLIB: C71
-/

namespace Verif.Alglib

variable {σ τ V J : Type}

/-! ## Spec -/

/-- Spec: one exchange between the library and an objective with values `f` and values and derivatives `d`: the library is
answered with `f` and `d` at exactly the point that it asks for. -/
inductive Exchange (L : Library σ V J) (f : List ℝ → V) (d : List ℝ → V × J) : σ → σ → Prop
  | value {s} : (L.next s).2 = .value → Exchange L f d s (L.putValue (L.next s).1 (f (L.x (L.next s).1)))
  | derivative {s} : (L.next s).2 = .derivative →
      Exchange L f d s (L.putDerivative (L.next s).1 (d (L.x (L.next s).1)).1 (d (L.x (L.next s).1)).2)
  | report {s} : (L.next s).2 = .report → Exchange L f d s (L.next s).1

/-- Spec: the library, run on the objective alone, gets from `s` to `s'`. -/
def Reaches (L : Library σ V J) (f : List ℝ → V) (d : List ℝ → V × J) : σ → σ → Prop :=
  Relation.ReflTransGen (Exchange L f d)

/-- Spec: the library, run on the objective alone, ends with the result `x`. -/
def Solves (L : Library σ V J) (f : List ℝ → V) (d : List ℝ → V × J) (s : σ) (x : List ℝ) : Prop :=
  ∃ s', Reaches L f d s s' ∧ (L.next s').2 = .done ∧ x = L.results (L.next s').1

/-- Spec of the library: points have the dimension of the starting point. -/
structure Library.Sized (L : Library σ V J) (size : σ → ℕ) : Prop where
  create : ∀ {a x c s}, L.create a x c = some s → size s = x.length
  next : ∀ s, size (L.next s).1 = size s
  putValue : ∀ s v, size (L.putValue s v) = size s
  putDerivative : ∀ s v j, size (L.putDerivative s v j) = size s
  x : ∀ s, (L.x s).length = size s
  results : ∀ s, (L.results s).length = size s

/-- Spec: the object has `n` parameters and its error and gradient are functions of the parameters that were set last.  `inv` is
whatever is known about the states of the object. -/
structure Computes (O : Object τ) (A : Access τ V J) (inv : τ → Prop) (n : ℕ) (f : List ℝ → V) (d : List ℝ → V × J) : Prop where
  dimension : ∀ {t}, inv t → O.dimension t = n
  current : ∀ {t}, inv t → (O.current t).length = n
  set : ∀ {t v}, inv t → v.length = n → ∃ t', O.setParameters t v = .ok t' ∧ inv t' ∧
    (∃ t'', A.value t' = .ok (f v, t'') ∧ inv t'') ∧ ∃ t'', A.derivative t' = .ok (d v, t'') ∧ inv t''
  finished : ∀ {t}, inv t → ∃ t', O.finishedIteration t = .ok t' ∧ inv t'

/-- Spec: `k` steps that return `true`; after each of them the object may be changed in any way. -/
inductive Session (M : Method σ τ V J) (O : Object τ) (default : Stop) (inv : τ → Prop) : Opt σ → τ → ℕ → Opt σ → τ → Prop
  | nil {o t} : Session M O default inv o t 0 o t
  | step {o t k o₁ t₁ o₂ t₂ t₃} : Session M O default inv o t k o₁ t₁ → Step M O default o₁ t₁ (.ok (true, o₂, t₂)) → inv t₃ →
      Session M O default inv o t (k + 1) o₂ t₃

/-- Spec of the library: the number of iterations starts with 0 and never decreases. -/
structure Library.Counts (L : Library σ V J) : Prop where
  create : ∀ {a x c s}, L.create a x c = some s → L.count s = 0
  next : ∀ s, L.count s ≤ L.count (L.next s).1
  putValue : ∀ s v, L.count (L.putValue s v) = L.count s
  putDerivative : ∀ s v j, L.count (L.putDerivative s v j) = L.count s

/-! ## Lemmas -/

theorem firstEntries_ok {n : ℕ} {v : List ℝ} (h : v.length = n) : firstEntries n v = .ok v := by
  rw [firstEntries, Int.toNat_natCast, if_pos (le_of_eq h.symm), List.take_of_length_le (le_of_eq h)]

theorem Exchange.unique {L : Library σ V J} {f : List ℝ → V} {d : List ℝ → V × J} {s s₁ s₂ : σ}
    (h₁ : Exchange L f d s s₁) (h₂ : Exchange L f d s s₂) : s₁ = s₂ := by
  cases h₁ <;> cases h₂ <;> simp_all

theorem Exchange.not_done {L : Library σ V J} {f : List ℝ → V} {d : List ℝ → V × J} {s s' : σ}
    (h : Exchange L f d s s') : (L.next s).2 ≠ .done := by
  cases h <;> simp_all

/-- The library is deterministic. -/
theorem Solves.unique {L : Library σ V J} {f : List ℝ → V} {d : List ℝ → V × J} {s : σ} {x y : List ℝ}
    (hx : Solves L f d s x) (hy : Solves L f d s y) : x = y := by
  obtain ⟨s₁, r₁, d₁, rfl⟩ := hx
  obtain ⟨s₂, r₂, d₂, rfl⟩ := hy
  induction r₁ using Relation.ReflTransGen.head_induction_on with
  | refl =>
    rcases Relation.ReflTransGen.cases_head r₂ with rfl | ⟨c, hc, _⟩
    · rfl
    · exact absurd d₁ hc.not_done
  | head hac _ ih =>
    rcases Relation.ReflTransGen.cases_head r₂ with rfl | ⟨c, hc, hr⟩
    · exact absurd d₂ hac.not_done
    · rw [hac.unique hc] at ih
      exact ih hr

/-- The sizes do not change. -/
theorem Exchange.size {L : Library σ V J} {size : σ → ℕ} (hL : L.Sized size) {f : List ℝ → V} {d : List ℝ → V × J} {s s' : σ}
    (h : Exchange L f d s s') : size s' = size s := by
  cases h
  · rw [hL.putValue, hL.next]
  · rw [hL.putDerivative, hL.next]
  · rw [hL.next]

theorem Reaches.size {L : Library σ V J} {size : σ → ℕ} (hL : L.Sized size) {f : List ℝ → V} {d : List ℝ → V × J} {s s' : σ}
    (h : Reaches L f d s s') : size s' = size s := by
  induction h with
  | refl => rfl
  | tail _ hb ih => rw [hb.size hL, ih]

section

variable {M : Method σ τ V J} {O : Object τ} {inv : τ → Prop} {n : ℕ} {f : List ℝ → V} {d : List ℝ → V × J} {size : σ → ℕ}
  {default : Stop}

/-- What one pass of the loop does. -/
theorem pass_spec {A : Access τ V J} {L : Library σ V J} (hL : L.Sized size) (hO : Computes O A inv n f d) {o : Opt σ}
    (hn : o.n = n) {s : σ} (hs : size s = n) {t : τ} (ht : inv t) :
    ((L.next s).2 = .done ∧ pass L O A o s t = .ok (.ended { o with state := some (L.next s).1 } t)) ∨
    ((L.next s).2 = .other ∧ pass L O A o s t = .throws) ∨
    ∃ s' t', Exchange L f d s s' ∧ inv t' ∧
      (pass L O A o s t = .ok (.again { o with state := some s' } t') ∨
        (o.iteration ≠ L.count s' ∧
          pass L O A o s t = .ok (.returned { o with state := some s', iteration := L.count s' } t'))) := by
  have hx : (L.x (L.next s).1).length = n := by rw [hL.x, hL.next, hs]
  obtain ⟨t₁, h1, h2, ⟨t₂, h3, h4⟩, t₃, h5, h6⟩ := hO.set ht hx
  cases hr : (L.next s).2 with
  | done => exact Or.inl ⟨rfl, by rw [pass, hr]⟩
  | other => exact Or.inr (Or.inl ⟨rfl, by rw [pass, hr]⟩)
  | report => exact Or.inr (Or.inr ⟨_, t, .report hr, ht, Or.inl (by rw [pass, hr])⟩)
  | value =>
    refine Or.inr (Or.inr ?_)
    by_cases hc : o.iteration = L.count (L.putValue (L.next s).1 (f (L.x (L.next s).1)))
    · exact ⟨_, t₂, .value hr, h4, Or.inl (by
        simp [pass, hr, hn, firstEntries_ok hx, h1, h3, afterAnswer, hc])⟩
    · obtain ⟨t₄, h7, h8⟩ := hO.finished h4
      exact ⟨_, t₄, .value hr, h8, Or.inr ⟨hc, by
        simp [pass, hr, hn, firstEntries_ok hx, h1, h3, afterAnswer, hc, h7]⟩⟩
  | derivative =>
    refine Or.inr (Or.inr ?_)
    by_cases hc : o.iteration = L.count (L.putDerivative (L.next s).1 (d (L.x (L.next s).1)).1 (d (L.x (L.next s).1)).2)
    · exact ⟨_, t₃, .derivative hr, h6, Or.inl (by
        simp [pass, hr, hn, firstEntries_ok hx, h1, h5, afterAnswer, hc])⟩
    · obtain ⟨t₄, h7, h8⟩ := hO.finished h6
      exact ⟨_, t₄, .derivative hr, h8, Or.inr ⟨hc, by
        simp [pass, hr, hn, firstEntries_ok hx, h1, h5, afterAnswer, hc, h7]⟩⟩

/-- What the loop of `step()` does. -/
theorem looped_spec (hL : M.lib.Sized size) (hO : ∀ o : Opt σ, o.n = n → Computes O (M.access o) inv n f d) {o : Opt σ} {t : τ}
    {r : Outcome (Bool × Opt σ × τ)} (h : Looped M O o t r) {s : σ} (hst : o.state = some s) (hn : o.n = n) (hs : size s = n)
    (ht : inv t) :
    (∃ s' t', Relation.TransGen (Exchange M.lib f d) s s' ∧ inv t' ∧ o.iteration ≠ M.lib.count s' ∧
      r = .ok (true, { o with state := some s', iteration := M.lib.count s' }, t')) ∨
    (∃ s' t', Reaches M.lib f d s s' ∧ (M.lib.next s').2 = .done ∧ inv t' ∧
      r = .ok (false, { o with state := some (M.lib.next s').1, iteration := -1, optimum := M.lib.results (M.lib.next s').1 },
        t') ∧ (M.set = true → ∃ t₀, inv t₀ ∧ O.setParameters t₀ (M.lib.results (M.lib.next s').1) = .ok t')) ∨
    ∃ s', Reaches M.lib f d s s' ∧ (M.lib.next s').2 = .other ∧ r = .throws := by
  induction h generalizing s with
  | ub h0 => rw [h0] at hst; cases hst
  | @again o t s₁ o' t' r h0 h1 _ ih =>
    rw [h0] at hst
    injection hst with hst
    subst hst
    rcases pass_spec hL (hO o hn) hn hs ht with ⟨_, h2⟩ | ⟨_, h2⟩ | ⟨s', t'', h2, h3, h4 | ⟨_, h4⟩⟩
    · rw [h2] at h1; cases h1
    · rw [h2] at h1; cases h1
    · rw [h4] at h1
      injection h1 with h1
      injection h1 with h1 h5
      subst h1 h5
      rcases ih rfl hn ((h2.size hL).trans hs) h3 with ⟨s₂, t₂, a, b, c, e⟩ | ⟨s₂, t₂, a, b, c, e, g⟩ | ⟨s₂, a, b, c⟩
      · exact Or.inl ⟨s₂, t₂, .head h2 a, b, c, e⟩
      · exact Or.inr (Or.inl ⟨s₂, t₂, .head h2 a, b, c, e, g⟩)
      · exact Or.inr (Or.inr ⟨s₂, .head h2 a, b, c⟩)
    · rw [h4] at h1; cases h1
  | @returned o t s₁ o' t' h0 h1 =>
    rw [h0] at hst
    injection hst with hst
    subst hst
    rcases pass_spec hL (hO o hn) hn hs ht with ⟨_, h2⟩ | ⟨_, h2⟩ | ⟨s', t'', h2, h3, h4 | ⟨h5, h4⟩⟩
    · rw [h2] at h1; cases h1
    · rw [h2] at h1; cases h1
    · rw [h4] at h1; cases h1
    · rw [h4] at h1
      injection h1 with h1
      injection h1 with h1 h6
      subst h1 h6
      exact Or.inl ⟨s', t'', .single h2, h3, h5, rfl⟩
  | @ended o t s₁ o' t' h0 h1 =>
    rw [h0] at hst
    injection hst with hst
    subst hst
    rcases pass_spec hL (hO o hn) hn hs ht with ⟨h3, h2⟩ | ⟨_, h2⟩ | ⟨s', t'', h2, h3, h4 | ⟨h5, h4⟩⟩
    · rw [h2] at h1
      injection h1 with h1
      injection h1 with h1 h6
      subst h1 h6
      have hr : (M.lib.results (M.lib.next s₁).1).length = n := by rw [hL.results, hL.next, hs]
      refine Or.inr (Or.inl ⟨s₁, ?_⟩)
      cases hset : M.set with
      | false =>
        exact ⟨t, .refl, h3, ht, by simp [reset, hn, firstEntries_ok hr], by simp⟩
      | true =>
        obtain ⟨t₁, h7, h8, _⟩ := (hO o hn).set ht hr
        exact ⟨t₁, .refl, h3, h8, by simp [reset, hn, firstEntries_ok hr, h7], fun _ => ⟨t, ht, h7⟩⟩
    · rw [h2] at h1; cases h1
    · rw [h4] at h1; cases h1
    · rw [h4] at h1; cases h1
  | @failed o t s₁ h0 h1 =>
    rw [h0] at hst
    injection hst with hst
    subst hst
    rcases pass_spec hL (hO o hn) hn hs ht with ⟨h3, h2⟩ | ⟨h3, h2⟩ | ⟨s', t'', h2, h3, h4 | ⟨h5, h4⟩⟩
    · exact absurd h2 (h1 _)
    · exact Or.inr (Or.inr ⟨s₁, .refl, h3, by rw [h2]; rfl⟩)
    · exact absurd h4 (h1 _)
    · exact absurd h4 (h1 _)

/-- A step that starts a run. -/
theorem prepare_idle (hO : ∀ o : Opt σ, o.n = n → Computes O (M.access o) inv n f d) {o : Opt σ} {t : τ} (ht : inv t)
    (hn : 0 < n) (hi : o.iteration < 0) :
    (M.lib.create (M.arg O o t) (O.current t) (o.stop.cond default) = none ∧ prepare M O default o t = .throws) ∨
    ∃ s, M.lib.create (M.arg O o t) (O.current t) (o.stop.cond default) = some s ∧
      prepare M O default o t = .ok { o with
        n := n, m := M.m O o t, state := some s, iteration := if M.start then 0 else o.iteration } := by
  have hc := hO { o with n := n } rfl
  have h1 := hc.dimension ht
  have h2 := hc.current ht
  cases hcr : M.lib.create (M.arg O o t) (O.current t) (o.stop.cond default) with
  | none => exact Or.inl ⟨rfl, by simp [prepare, hi, create, h1, firstEntries_ok h2, hcr]⟩
  | some s =>
    refine Or.inr ⟨s, rfl, ?_⟩
    simp [prepare, hi, create, h1, firstEntries_ok h2, hcr, hn]

theorem prepare_busy {o : Opt σ} {t : τ} (hn : 0 < n) (hon : o.n = n) (hi : ¬ o.iteration < 0) :
    prepare M O default o t = .ok o := by
  simp [prepare, hi, hon, hn]

/-- The iterations of the library are counted upwards. -/
theorem Reaches.count {L : Library σ V J} (hC : L.Counts) {s s' : σ} (h : Reaches L f d s s') : L.count s ≤ L.count s' := by
  induction h with
  | refl => exact le_refl _
  | tail _ hb ih =>
    refine le_trans ih ?_
    cases hb
    · rw [hC.putValue]; exact hC.next _
    · rw [hC.putDerivative]; exact hC.next _
    · exact hC.next _

/-- The first step of a run. -/
theorem step_idle (hL : M.lib.Sized size) (hO : ∀ o : Opt σ, o.n = n → Computes O (M.access o) inv n f d) (hn : 0 < n)
    {o : Opt σ} {t : τ} {r : Outcome (Bool × Opt σ × τ)} (h : Step M O default o t r) (hi : o.iteration < 0) (ht : inv t) :
    (M.lib.create (M.arg O o t) (O.current t) (o.stop.cond default) = none ∧ r = .throws) ∨
    ∃ s₀, M.lib.create (M.arg O o t) (O.current t) (o.stop.cond default) = some s₀ ∧ size s₀ = n ∧
      Looped M O { o with n := n, m := M.m O o t, state := some s₀, iteration := if M.start then 0 else o.iteration } t r := by
  rcases prepare_idle (default := default) hO ht hn hi with ⟨h1, h2⟩ | ⟨s, h1, h2⟩
  · refine Or.inl ⟨h1, ?_⟩
    cases h with
    | looped h3 => rw [h2] at h3; cases h3
    | failed h3 => rw [h2]; rfl
  · refine Or.inr ⟨s, h1, (hL.create h1).trans ((hO { o with n := n } rfl).current ht), ?_⟩
    cases h with
    | looped h3 h4 =>
      rw [h2] at h3
      injection h3 with h3
      rw [h3]
      exact h4
    | failed h3 => exact absurd h2 (h3 _)

/-- A step inside of a run. -/
theorem step_busy (hn : 0 < n) {o : Opt σ} {t : τ} {r : Outcome (Bool × Opt σ × τ)} (h : Step M O default o t r)
    (hi : 0 ≤ o.iteration) (hon : o.n = n) : Looped M O o t r := by
  have h2 := prepare_busy (M := M) (O := O) (default := default) (t := t) hn hon (not_lt.2 hi)
  cases h with
  | looped h3 h4 =>
    rw [h2] at h3
    injection h3 with h3
    rw [h3]
    exact h4
  | failed h3 => exact absurd h2 (h3 _)

/-- Between two steps of a run. -/
theorem session_inv (hL : M.lib.Sized size) (hC : M.lib.Counts)
    (hO : ∀ o : Opt σ, o.n = n → Computes O (M.access o) inv n f d) (hn : 0 < n) {o o' : Opt σ} {t t' : τ} {k : ℕ}
    (h : Session M O default inv o t k o' t') (hi : o.iteration = -1) (ht : inv t) :
    inv t' ∧ ((k = 0 ∧ o' = o ∧ t' = t) ∨
      ∃ s₀ s, M.lib.create (M.arg O o t) (O.current t) (o.stop.cond default) = some s₀ ∧ size s₀ = n ∧
        Relation.TransGen (Exchange M.lib f d) s₀ s ∧
        o' = { o with n := n, m := M.m O o t, state := some s, iteration := M.lib.count s } ∧
        (k : ℤ) ≤ M.lib.count s + if M.start then 0 else 1) := by
  induction h with
  | nil => exact ⟨ht, Or.inl ⟨rfl, rfl, rfl⟩⟩
  | @step k o₁ t₁ o₂ t₂ t₃ _ h1 h2 ih =>
    obtain ⟨hi1, ih⟩ := ih
    refine ⟨h2, Or.inr ?_⟩
    rcases ih with ⟨rfl, rfl, rfl⟩ | ⟨s₀, s, h3, h4, h5, rfl, h6⟩
    · rcases step_idle hL hO hn h1 (by rw [hi]; norm_num) ht with ⟨_, h3⟩ | ⟨s₀, h3, h4, h5⟩
      · cases h3
      · rcases looped_spec hL hO h5 rfl rfl h4 hi1 with ⟨s, t', a, _, c, e⟩ | ⟨_, _, _, _, _, e, _⟩ | ⟨_, _, _, e⟩
        · injection e with e
          injection e with _ e
          injection e with e _
          refine ⟨s₀, s, h3, h4, a, e, ?_⟩
          have := Reaches.count hC a.to_reflTransGen
          rw [hC.create h3] at this
          simp only [hi] at c
          push_cast
          cases hst : M.start with
          | true =>
            simp only [hst, if_true] at c ⊢
            omega
          | false => simp only [Bool.false_eq_true, if_false]; omega
        · cases e
        · cases e
    · have hc0 : M.lib.count s₀ = 0 := hC.create h3
      have hc1 := Reaches.count hC h5.to_reflTransGen
      have h7 := step_busy hn h1 (by rw [hc0] at hc1; exact hc1) rfl
      have h8 : size s = n := (Reaches.size hL h5.to_reflTransGen).trans h4
      rcases looped_spec hL hO h7 rfl rfl h8 hi1 with ⟨s', t', a, _, c, e⟩ | ⟨_, _, _, _, _, e, _⟩ | ⟨_, _, _, e⟩
      · injection e with e
        injection e with _ e
        injection e with e _
        refine ⟨s₀, s', h3, h4, h5.trans a, e, ?_⟩
        have := Reaches.count hC a.to_reflTransGen
        simp only at c
        push_cast
        have : M.lib.count s + 1 ≤ M.lib.count s' := by omega
        linarith
      · cases e
      · cases e

/-! ## Main theorems -/

/-- **C71 (result)**: a run of `step()` until it returns `false`, starting from an idle optimiser and interleaved with arbitrary
changes of the object, ends with the result of the library run on the objective function alone, from the parameters that the
object had at the beginning; the optimiser is idle again. -/
theorem run_solves (hL : M.lib.Sized size) (hC : M.lib.Counts)
    (hO : ∀ o : Opt σ, o.n = n → Computes O (M.access o) inv n f d) (hn : 0 < n) {o o₁ o₂ : Opt σ} {t t₁ t₂ : τ} {k : ℕ}
    (hi : o.iteration = -1) (ht : inv t) (h : Session M O default inv o t k o₁ t₁)
    (hl : Step M O default o₁ t₁ (.ok (false, o₂, t₂))) :
    o₂.iteration = -1 ∧ o₂.m = M.m O o t ∧ o₂.stop = o.stop ∧ ∃ s₀,
      M.lib.create (M.arg O o t) (O.current t) (o.stop.cond default) = some s₀ ∧ Solves M.lib f d s₀ o₂.optimum := by
  obtain ⟨h1, h2⟩ := session_inv hL hC hO hn h hi ht
  rcases h2 with ⟨rfl, rfl, rfl⟩ | ⟨s₀, s, h3, h4, h5, rfl, h6⟩
  · rcases step_idle hL hO hn hl (by rw [hi]; norm_num) ht with ⟨_, h3⟩ | ⟨s₀, h3, h4, h5⟩
    · cases h3
    · rcases looped_spec hL hO h5 rfl rfl h4 ht with ⟨_, _, _, _, _, e⟩ | ⟨s', t', a, b, c, e, _⟩ | ⟨_, _, _, e⟩
      · cases e
      · injection e with e
        injection e with _ e
        injection e with e _
        subst e
        exact ⟨rfl, rfl, rfl, s₀, h3, s', a, b, rfl⟩
      · cases e
  · have hc0 : M.lib.count s₀ = 0 := hC.create h3
    have hc1 := Reaches.count hC h5.to_reflTransGen
    have h7 := step_busy hn hl (by rw [hc0] at hc1; exact hc1) rfl
    have h8 : size s = n := (Reaches.size hL h5.to_reflTransGen).trans h4
    rcases looped_spec hL hO h7 rfl rfl h8 h1 with ⟨_, _, _, _, _, e⟩ | ⟨s', t', a, b, c, e, _⟩ | ⟨_, _, _, e⟩
    · cases e
    · injection e with e
      injection e with _ e
      injection e with e _
      subst e
      exact ⟨rfl, rfl, rfl, s₀, h3, s', h5.to_reflTransGen.trans a, b, rfl⟩
    · cases e

/-- The steps of a run, from the states between them. -/
theorem session_step (hL : M.lib.Sized size) (hC : M.lib.Counts)
    (hO : ∀ o : Opt σ, o.n = n → Computes O (M.access o) inv n f d) (hn : 0 < n) {o o₁ : Opt σ} {t t₁ : τ} {k : ℕ}
    (hi : o.iteration = -1) (ht : inv t) (h : Session M O default inv o t k o₁ t₁) {r : Outcome (Bool × Opt σ × τ)}
    (hl : Step M O default o₁ t₁ r) :
    (M.lib.create (M.arg O o t) (O.current t) (o.stop.cond default) = none ∧ r = .throws) ∨
    ∃ s₀, M.lib.create (M.arg O o t) (O.current t) (o.stop.cond default) = some s₀ ∧
      ((∃ s o₂ t₂, Reaches M.lib f d s₀ s ∧ inv t₂ ∧ r = .ok (true, o₂, t₂)) ∨
        (∃ s t₂, Reaches M.lib f d s₀ s ∧ (M.lib.next s).2 = .done ∧ inv t₂ ∧
          r = .ok (false, { o with
            n := n, m := M.m O o t, state := some (M.lib.next s).1, optimum := M.lib.results (M.lib.next s).1 }, t₂) ∧
          (M.set = true → ∃ t', inv t' ∧ O.setParameters t' (M.lib.results (M.lib.next s).1) = .ok t₂)) ∨
        ∃ s, Reaches M.lib f d s₀ s ∧ (M.lib.next s).2 = .other ∧ r = .throws) := by
  obtain ⟨h1, h2⟩ := session_inv hL hC hO hn h hi ht
  rcases h2 with ⟨rfl, rfl, rfl⟩ | ⟨s₀, s, h3, h4, h5, rfl, h6⟩
  · rcases step_idle hL hO hn hl (by rw [hi]; norm_num) ht with h3 | ⟨s₀, h3, h4, h5⟩
    · exact Or.inl h3
    · refine Or.inr ⟨s₀, h3, ?_⟩
      rcases looped_spec hL hO h5 rfl rfl h4 ht with ⟨s', t', a, b, c, e⟩ | ⟨s', t', a, b, c, e, g⟩ | ⟨s', a, b, e⟩
      · exact Or.inl ⟨s', _, t', a.to_reflTransGen, b, e⟩
      · exact Or.inr (Or.inl ⟨s', t', a, b, c, by rw [e, hi], g⟩)
      · exact Or.inr (Or.inr ⟨s', a, b, e⟩)
  · have hc0 : M.lib.count s₀ = 0 := hC.create h3
    have hc1 := Reaches.count hC h5.to_reflTransGen
    have h7 := step_busy hn hl (by rw [hc0] at hc1; exact hc1) rfl
    have h8 : size s = n := (Reaches.size hL h5.to_reflTransGen).trans h4
    refine Or.inr ⟨s₀, h3, ?_⟩
    rcases looped_spec hL hO h7 rfl rfl h8 h1 with ⟨s', t', a, b, c, e⟩ | ⟨s', t', a, b, c, e, g⟩ | ⟨s', a, b, e⟩
    · exact Or.inl ⟨s', _, t', h5.to_reflTransGen.trans a.to_reflTransGen, b, e⟩
    · exact Or.inr (Or.inl ⟨s', t', h5.to_reflTransGen.trans a, b, c, by rw [e, hi], g⟩)
    · exact Or.inr (Or.inr ⟨s', h5.to_reflTransGen.trans a, b, e⟩)

/-- **C71 (`optimize()`)**: whenever `optimize()` of an idle optimiser comes to an end, either the library has refused the problem
or got into an unknown state (an exception), or the optimiser is idle again and its optimum is what the library, run on the
objective alone, returns in the end or, after an interrupt, in the state that it has reached.  LMA leaves these parameters in
the object. -/
theorem optimize_spec (hL : M.lib.Sized size) (hC : M.lib.Counts)
    (hO : ∀ o : Opt σ, o.n = n → Computes O (M.access o) inv n f d) (hn : 0 < n) {o : Opt σ} {t : τ} (hi : o.iteration = -1)
    (ht : inv t) {signals : ℕ → Bool} {r : Outcome (Opt σ × τ)} (h : Optimize M O default signals o t r) :
    (r = .throws ∧ ∀ s₀, M.lib.create (M.arg O o t) (O.current t) (o.stop.cond default) = some s₀ →
      ∃ s, Reaches M.lib f d s₀ s ∧ (M.lib.next s).2 = .other) ∨
    ∃ o' t' s₀, r = .ok (o', t') ∧ M.lib.create (M.arg O o t) (O.current t) (o.stop.cond default) = some s₀ ∧
      o'.iteration = -1 ∧ o'.stop = o.stop ∧ o'.m = M.m O o t ∧ inv t' ∧
      (Solves M.lib f d s₀ o'.optimum ∨
        ∃ s k, Reaches M.lib f d s₀ s ∧ signals k = true ∧ o'.optimum = M.lib.results s) ∧
      (M.set = true → ∃ t'', inv t'' ∧ O.setParameters t'' o'.optimum = .ok t') := by
  obtain ⟨k, hk⟩ : ∃ k, Session M O default inv o t k o t := ⟨0, .nil⟩
  revert h
  suffices H : ∀ {signals o₁ t₁ r}, Optimize M O default signals o₁ t₁ r → ∀ k, Session M O default inv o t k o₁ t₁ →
      (r = .throws ∧ ∀ s₀, M.lib.create (M.arg O o t) (O.current t) (o.stop.cond default) = some s₀ →
        ∃ s, Reaches M.lib f d s₀ s ∧ (M.lib.next s).2 = .other) ∨
      ∃ o' t' s₀, r = .ok (o', t') ∧ M.lib.create (M.arg O o t) (O.current t) (o.stop.cond default) = some s₀ ∧
        o'.iteration = -1 ∧ o'.stop = o.stop ∧ o'.m = M.m O o t ∧ inv t' ∧
        (Solves M.lib f d s₀ o'.optimum ∨
          ∃ s k, Reaches M.lib f d s₀ s ∧ signals k = true ∧ o'.optimum = M.lib.results s) ∧
        (M.set = true → ∃ t'', inv t'' ∧ O.setParameters t'' o'.optimum = .ok t') from fun h => H h k hk
  intro signals o₁ t₁ r h
  induction h with
  | last h1 =>
    intro k hk
    rcases session_step hL hC hO hn hi ht hk h1 with ⟨_, e⟩ | ⟨s₀, h3, ⟨_, _, _, _, _, e⟩ | ⟨s, t₂, a, b, c, e, g⟩ | ⟨_, _, _, e⟩⟩
    · cases e
    · cases e
    · injection e with e
      injection e with _ e
      injection e with e1 e2
      subst e1 e2
      exact Or.inr ⟨_, _, s₀, rfl, h3, hi, rfl, rfl, c, Or.inl ⟨s, a, b, rfl⟩, g⟩
    · cases e
  | interrupted h1 h2 =>
    intro k hk
    rcases session_step hL hC hO hn hi ht hk h1 with ⟨_, e⟩ | ⟨s₀, h3, ⟨_, _, t₂, _, c, e⟩ | ⟨s, t₂, a, b, c, e, g⟩ | ⟨_, _, _, e⟩⟩
    · cases e
    · injection e with e
      injection e with _ e
      injection e with e1 e2
      subst e2
      obtain ⟨_, h4⟩ := session_inv hL hC hO hn (.step hk h1 c) hi ht
      rcases h4 with ⟨h4, _⟩ | ⟨s₁, s, h4, h5, h6, h7, _⟩
      · cases h4
      · rw [h3] at h4
        injection h4 with h4
        subst h4
        have hr : (M.lib.results s).length = n := by
          rw [hL.results, Reaches.size hL h6.to_reflTransGen, h5]
        subst h7
        obtain ⟨t₃, h9, h10, _⟩ := (hO { o with n := n } rfl).set c hr
        cases hset : M.set with
        | false =>
          refine Or.inr ⟨{ o with n := n, m := M.m O o t, state := some s, iteration := -1, optimum := M.lib.results s }, _, s₀, by
            simp [reset, firstEntries_ok hr], h3, rfl, rfl, rfl, c,
            Or.inr ⟨s, 0, h6.to_reflTransGen, h2, rfl⟩, by simp⟩
        | true =>
          refine Or.inr ⟨{ o with n := n, m := M.m O o t, state := some s, iteration := -1, optimum := M.lib.results s }, _, s₀, by
            simp [reset, firstEntries_ok hr, h9], h3, rfl, rfl, rfl, h10,
            Or.inr ⟨s, 0, h6.to_reflTransGen, h2, rfl⟩, fun _ => ⟨_, c, h9⟩⟩
    · cases e
    · cases e
  | next h1 _ _ ih =>
    intro k hk
    rcases session_step hL hC hO hn hi ht hk h1 with ⟨_, e⟩ | ⟨s₀, h3, ⟨_, _, t₂, _, c, e⟩ | ⟨s, t₂, a, b, c, e, g⟩ | ⟨_, _, _, e⟩⟩
    · cases e
    · injection e with e
      injection e with _ e
      injection e with e1 e2
      subst e2
      rcases ih (k + 1) (.step hk h1 c) with h4 | ⟨o', t', s₁, h4, h5, h6, h7, h8, h9, h10, h11⟩
      · exact Or.inl h4
      · refine Or.inr ⟨o', t', s₁, h4, h5, h6, h7, h8, h9, ?_, h11⟩
        rcases h10 with h10 | ⟨s, k', h10, h12, h13⟩
        · exact Or.inl h10
        · exact Or.inr ⟨s, k' + 1, h10, h12, h13⟩
    · cases e
    · cases e
  | failed h1 h2 =>
    intro k hk
    rcases session_step hL hC hO hn hi ht hk h1 with ⟨h3, e⟩ | ⟨s₀, h3, ⟨_, _, _, _, _, e⟩ | ⟨s, t₂, a, b, c, e, g⟩ | ⟨s, a, b, e⟩⟩
    · exact Or.inl ⟨by rw [e]; rfl, fun s₀ h4 => by rw [h3] at h4; cases h4⟩
    · exact absurd e (h2 _)
    · exact absurd e (h2 _)
    · refine Or.inl ⟨by rw [e]; rfl, fun s₁ h4 => ⟨s, ?_, b⟩⟩
      rw [h3] at h4
      injection h4 with h4
      rw [← h4]
      exact a

end

end Verif.Alglib
