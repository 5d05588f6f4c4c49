import Verif.Props.Boltzmann

/-!
# The Markov chain of a restricted Boltzmann machine: C79, C80
-/

namespace Verif.Draw

variable {α β : Type}

/-- All results satisfy `P`. -/
def All (P : α → Prop) : Draw α → Prop
  | ret a => P a
  | compare _ k => ∀ b, (k b).All P

theorem AtMost.mono {n k : ℕ} (h : n ≤ k) {d : Draw α} (hd : d.AtMost n) : d.AtMost k := by
  induction d generalizing n k with
  | ret a => cases k <;> trivial
  | compare p f ih =>
    cases n with
    | zero => exact hd.elim
    | succ n =>
      cases k with
      | zero => omega
      | succ k => exact fun b => ih b (by omega) (hd b)

theorem AtMost.bind {n k : ℕ} {d : Draw α} (hd : d.AtMost n) {P : α → Prop} (hP : d.All P) {f : α → Draw β}
    (hf : ∀ a, P a → (f a).AtMost k) : (d.bind f).AtMost (n + k) := by
  induction d generalizing n with
  | ret a => exact (hf a hP).mono (by omega)
  | compare p g ih =>
    cases n with
    | zero => exact hd.elim
    | succ n =>
      have e : n + 1 + k = (n + k) + 1 := by omega
      rw [e]
      exact fun b => ih b (hd b) (hP b)

theorem Proper.bind {d : Draw α} (hd : d.Proper) {f : α → Draw β} (hf : ∀ a, (f a).Proper) : (d.bind f).Proper := by
  induction d with
  | ret a => exact hf a
  | compare p g ih => exact ⟨hd.1, hd.2.1, fun b => ih b (hd.2.2 b)⟩

theorem All.bind {d : Draw α} {P : α → Prop} (hP : d.All P) {f : α → Draw β} {Q : β → Prop} (hf : ∀ a, P a → (f a).All Q) :
    (d.bind f).All Q := by
  induction d with
  | ret a => exact hf a hP
  | compare p g ih => exact fun b => ih b (hP b)

theorem All.trivial (d : Draw α) : d.All fun _ => True := by
  induction d with
  | ret a => exact True.intro
  | compare p g ih => exact fun b => ih b

end Verif.Draw

namespace Verif.Boltz

open Finset Verif.NN Verif.Unsup

noncomputable section

/-! ## Rows of the chain -/

/-- One (V, H) sweep for one row: what a function `G` of `v`, `h`, `ph` and `pv` is on average after it. -/
def Machine.sweep (m : Machine) (G : (ℕ → ℝ) → (ℕ → ℝ) → (ℕ → ℝ) → (ℕ → ℝ) → ℝ) :
    (ℕ → ℝ) → (ℕ → ℝ) → (ℕ → ℝ) → (ℕ → ℝ) → ℝ := fun _ h _ _ =>
  bernoulli m.D (m.vp h) fun v' => bernoulli m.H (m.hp v') fun h' => G v' h' (m.hp v') (m.vp h)

/-- `G` looks only at the units. -/
def Machine.Fits (m : Machine) (G : (ℕ → ℝ) → (ℕ → ℝ) → (ℕ → ℝ) → (ℕ → ℝ) → ℝ) : Prop :=
  (∀ h ph pv, Local m.D fun v => G v h ph pv) ∧ ∀ v ph pv, Local m.H fun h => G v h ph pv

theorem hp_eq {m : Machine} {v v' : ℕ → ℝ} (h : ∀ i < m.D, v i = v' i) : m.hp v = m.hp v' :=
  funext fun j => hp_local m j v v' h

theorem vp_eq {m : Machine} {h h' : ℕ → ℝ} (e : ∀ j < m.H, h j = h' j) : m.vp h = m.vp h' :=
  funext fun i => vp_local m i h h' e

theorem sweep_fits (m : Machine) (G : (ℕ → ℝ) → (ℕ → ℝ) → (ℕ → ℝ) → (ℕ → ℝ) → ℝ) : m.Fits (m.sweep G) := by
  refine ⟨fun _ _ _ _ _ _ => rfl, fun v ph pv h h' e => ?_⟩
  simp only [Machine.sweep, vp_eq e]

theorem iterate_fits {m : Machine} {G : (ℕ → ℝ) → (ℕ → ℝ) → (ℕ → ℝ) → (ℕ → ℝ) → ℝ} (hG : m.Fits G) (k : ℕ) :
    m.Fits (m.sweep^[k] G) := by
  cases k with
  | zero => exact hG
  | succ k =>
    rw [Function.iterate_succ', Function.comp]
    exact sweep_fits m _

theorem sampleH_row (m : Machine) (s : Chain) {n : ℕ} (hn : n < s.rows)
    {G : (ℕ → ℝ) → (ℕ → ℝ) → (ℕ → ℝ) → (ℕ → ℝ) → ℝ} (hG : m.Fits G) :
    (m.sampleHgivenV s).expect id (fun t => G (t.v n) (t.h n) (t.ph n) (t.pv n)) =
      bernoulli m.H (m.hp (s.v n)) fun h => G (s.v n) h (m.hp (s.v n)) (s.pv n) := by
  rw [Machine.sampleHgivenV, Draw.bind_expect]
  exact sampleCells_cells id _ hn s.h (F := fun h => G (s.v n) h (m.hp (s.v n)) (s.pv n)) (hG.2 _ _ _)

theorem sampleV_row (m : Machine) (s : Chain) {n : ℕ} (hn : n < s.rows)
    {G : (ℕ → ℝ) → (ℕ → ℝ) → (ℕ → ℝ) → (ℕ → ℝ) → ℝ} (hG : m.Fits G) :
    (m.sampleVgivenH s).expect id (fun t => G (t.v n) (t.h n) (t.ph n) (t.pv n)) =
      bernoulli m.D (m.vp (s.h n)) fun v => G v (s.h n) (s.ph n) (m.vp (s.h n)) := by
  rw [Machine.sampleVgivenH, Draw.bind_expect]
  exact sampleCells_cells id _ hn s.v (F := fun v => G v (s.h n) (s.ph n) (m.vp (s.h n))) (hG.1 _ _ _)

/-- The chain, one row at a time. -/
theorem gibbs_row (m : Machine) {n : ℕ} {G : (ℕ → ℝ) → (ℕ → ℝ) → (ℕ → ℝ) → (ℕ → ℝ) → ℝ} (hG : m.Fits G) :
    ∀ (k : ℕ) (s : Chain), n < s.rows → (m.gibbs k s).expect id (fun t => G (t.v n) (t.h n) (t.ph n) (t.pv n)) =
      m.sweep^[k] G (s.v n) (s.h n) (s.ph n) (s.pv n) := by
  intro k
  induction k with
  | zero => intro s _; rfl
  | succ k ih =>
    intro s hn
    rw [Machine.gibbs, Draw.bind_expect, Machine.sampleVgivenH, Draw.bind_expect, Function.iterate_succ', Function.comp]
    have hfit := iterate_fits hG k
    set G' := m.sweep^[k] G with hG'
    have e : ∀ v : Batch, (Draw.ret { s with pvRows := s.rows, pv := m.visibleProb s.h, v := v } : Draw Chain).expect id
        (fun a => ((m.sampleHgivenV a).bind fun s => m.gibbs k s).expect id
          fun t => G (t.v n) (t.h n) (t.ph n) (t.pv n)) =
        bernoulli m.H (m.hp (v n)) fun h => G' (v n) h (m.hp (v n)) (m.vp (s.h n)) := by
      intro v
      show ((m.sampleHgivenV { s with pvRows := s.rows, pv := m.visibleProb s.h, v := v }).bind fun s => m.gibbs k s).expect id _ = _
      rw [Draw.bind_expect]
      have e2 : (m.sampleHgivenV { s with pvRows := s.rows, pv := m.visibleProb s.h, v := v }).expect id
          (fun a => (m.gibbs k a).expect id fun t => G (t.v n) (t.h n) (t.ph n) (t.pv n)) =
          (m.sampleHgivenV { s with pvRows := s.rows, pv := m.visibleProb s.h, v := v }).expect id
            (fun t => G' (t.v n) (t.h n) (t.ph n) (t.pv n)) := by
        rw [Machine.sampleHgivenV, Draw.bind_expect, Draw.bind_expect]
        refine congrArg _ (funext fun h => ?_)
        exact ih _ hn
      rw [e2]
      exact sampleH_row m { s with pvRows := s.rows, pv := m.visibleProb s.h, v := v } hn hfit
    simp only [e]
    refine sampleCells_cells id _ hn s.v (F := fun v => bernoulli m.H (m.hp v) fun h => G' v h (m.hp v) (m.vp (s.h n))) ?_
    intro x y hxy
    simp only [hp_eq hxy]
    refine bernoulli_congr (fun _ _ => rfl) fun S _ => ?_
    exact hfit.1 _ _ _ x y hxy

/-! ## The stationary distribution -/

theorem factor_pos (m : Machine) (v h : ℕ → ℝ) : 0 < m.factor v h := Real.exp_pos _

theorem states_nonempty (K : ℕ) : (states K).Nonempty := ⟨∅, by simp [states]⟩

/-- Given the visible units, the hidden units average out. -/
theorem hidden_average {m : Machine} (v : ℕ → ℝ) (F : Finset ℕ → ℝ) :
    (∑ S ∈ states m.H, m.factor v (on S)) * ∑ S ∈ states m.H, m.hiddenGiven v S * F S =
      ∑ S ∈ states m.H, m.factor v (on S) * F S := by
  have hpos : 0 < ∑ S ∈ states m.H, m.factor v (on S) := Finset.sum_pos (fun S _ => factor_pos _ _ _) (states_nonempty _)
  rw [Finset.mul_sum]
  refine Finset.sum_congr rfl fun S _ => ?_
  rw [Machine.hiddenGiven]
  field_simp

theorem visible_average {m : Machine} (h : ℕ → ℝ) (F : Finset ℕ → ℝ) :
    (∑ V ∈ states m.D, m.factor (on V) h) * ∑ V ∈ states m.D, m.visibleGiven h V * F V =
      ∑ V ∈ states m.D, m.factor (on V) h * F V := by
  have hpos : 0 < ∑ V ∈ states m.D, m.factor (on V) h := Finset.sum_pos (fun S _ => factor_pos _ _ _) (states_nonempty _)
  rw [Finset.mul_sum]
  refine Finset.sum_congr rfl fun V _ => ?_
  rw [Machine.visibleGiven]
  field_simp

/-- The expected value of a function of the units under the Boltzmann distribution. -/
def Machine.mean (m : Machine) (F : Finset ℕ → Finset ℕ → ℝ) : ℝ := ∑ V ∈ states m.D, ∑ S ∈ states m.H, m.joint V S * F V S

theorem mean_eq (m : Machine) (F : Finset ℕ → Finset ℕ → ℝ) :
    m.mean F = (∑ V ∈ states m.D, ∑ S ∈ states m.H, m.factor (on V) (on S) * F V S) / m.partition := by
  rw [Machine.mean, Finset.sum_div]
  refine Finset.sum_congr rfl fun V _ => ?_
  rw [Finset.sum_div]
  exact Finset.sum_congr rfl fun S _ => by rw [Machine.joint]; ring

theorem mean_congr {m : Machine} {F F' : Finset ℕ → Finset ℕ → ℝ}
    (h : ∀ V ∈ states m.D, ∀ S ∈ states m.H, F V S = F' V S) : m.mean F = m.mean F' :=
  Finset.sum_congr rfl fun V hV => Finset.sum_congr rfl fun S hS => by rw [h V hV S hS]

theorem mean_sub (m : Machine) (F F' : Finset ℕ → Finset ℕ → ℝ) : m.mean (fun V S => F V S - F' V S) = m.mean F - m.mean F' := by
  simp only [Machine.mean, mul_sub, sum_sub_distrib]

theorem mean_add (m : Machine) (F F' : Finset ℕ → Finset ℕ → ℝ) : m.mean (fun V S => F V S + F' V S) = m.mean F + m.mean F' := by
  simp only [Machine.mean, mul_add, sum_add_distrib]

theorem mean_mul (m : Machine) (c : ℝ) (F : Finset ℕ → Finset ℕ → ℝ) : m.mean (fun V S => c * F V S) = c * m.mean F := by
  simp only [Machine.mean, Finset.mul_sum]
  exact Finset.sum_congr rfl fun V _ => Finset.sum_congr rfl fun S _ => by ring

theorem mean_zero (m : Machine) : m.mean (fun _ _ => 0) = 0 := by simp [Machine.mean]

theorem mean_sum (m : Machine) (K : ℕ) (F : ℕ → Finset ℕ → Finset ℕ → ℝ) :
    m.mean (fun V S => ∑ k ∈ range K, F k V S) = ∑ k ∈ range K, m.mean (F k) := by
  induction K with
  | zero => simpa using mean_zero m
  | succ K ih => simp only [sum_range_succ, mean_add, ih]

/-- The visible units can be sampled again. -/
theorem mean_visible (m : Machine) (F : Finset ℕ → Finset ℕ → ℝ) :
    m.mean (fun _ S => ∑ V ∈ states m.D, m.visibleGiven (on S) V * F V S) = m.mean F := by
  rw [mean_eq, mean_eq]
  congr 1
  rw [Finset.sum_comm]
  refine (Finset.sum_congr rfl fun S _ => ?_).trans Finset.sum_comm
  rw [← Finset.sum_mul, visible_average (on S) fun V => F V S]

/-- The hidden units can be sampled again. -/
theorem mean_hidden (m : Machine) (F : Finset ℕ → Finset ℕ → ℝ) :
    m.mean (fun V _ => ∑ S ∈ states m.H, m.hiddenGiven (on V) S * F V S) = m.mean F := by
  rw [mean_eq, mean_eq]
  congr 1
  refine Finset.sum_congr rfl fun V _ => ?_
  rw [← Finset.sum_mul, hidden_average (on V) fun S => F V S]

/-- One sweep at equilibrium. -/
theorem mean_sweep {m : Machine} (hm : m.Moderate) (G : (ℕ → ℝ) → (ℕ → ℝ) → (ℕ → ℝ) → (ℕ → ℝ) → ℝ) (ph pv : ℕ → ℝ) :
    m.mean (fun V S => m.sweep G (on V) (on S) ph pv) =
      m.mean fun V S => ∑ S' ∈ states m.H, m.hiddenGiven (on V) S' * G (on V) (on S') (m.hp (on V)) (m.vp (on S)) := by
  refine Eq.trans ?_ (mean_visible m _)
  refine mean_congr fun V _ S _ => ?_
  show bernoulli m.D (m.vp (on S)) _ = _
  rw [bernoulli_visible hm (on_units _ _)]
  refine Finset.sum_congr rfl fun V' _ => ?_
  rw [bernoulli_hidden hm (on_units _ _)]

/-- Any number of sweeps at equilibrium. -/
theorem mean_sweeps {m : Machine} (hm : m.Moderate) (G : (ℕ → ℝ) → (ℕ → ℝ) → ℝ) : ∀ (k : ℕ) (ph pv : Finset ℕ → Finset ℕ → ℕ → ℝ),
    m.mean (fun V S => m.sweep^[k] (fun v h _ _ => G v h) (on V) (on S) (ph V S) (pv V S)) = m.mean fun V S => G (on V) (on S) := by
  intro k
  induction k with
  | zero => intro ph pv; rfl
  | succ k ih =>
    intro ph pv
    rw [Function.iterate_succ', Function.comp]
    have := mean_sweep hm (m.sweep^[k] fun v h _ _ => G v h) (fun _ => 0) (fun _ => 0)
    refine Eq.trans this ?_
    have h0 : ∀ (V : Finset ℕ) (S' : Finset ℕ) (pv : ℕ → ℝ), m.sweep^[k] (fun v h _ _ => G v h) (on V) (on S') (m.hp (on V)) pv =
        m.sweep^[k] (fun v h _ _ => G v h) (on V) (on S') (m.hp (on V)) (fun _ => 0) := by
      intro V S' pv
      cases k with
      | zero => rfl
      | succ k => rw [Function.iterate_succ', Function.comp]; rfl
    simp only [h0]
    rw [mean_hidden m fun V S' => m.sweep^[k] (fun v h _ _ => G v h) (on V) (on S') (m.hp (on V)) fun _ => 0]
    exact ih (fun V _ => m.hp (on V)) fun _ _ _ => 0

/-- **C79 (equilibrium)**: if the units of a row are distributed according to the Boltzmann distribution, they still are after
any number of Gibbs steps. -/
theorem gibbs_stationary {m : Machine} (hm : m.Moderate) (k : ℕ) {n : ℕ} (s : Finset ℕ → Finset ℕ → Chain)
    (hn : ∀ V S, n < (s V S).rows) (hv : ∀ V S, (s V S).v n = on V) (hh : ∀ V S, (s V S).h n = on S)
    {G : (ℕ → ℝ) → (ℕ → ℝ) → ℝ} (hG1 : ∀ h, Local m.D fun v => G v h) (hG2 : ∀ v, Local m.H fun h => G v h) :
    m.mean (fun V S => (m.gibbs k (s V S)).expect id fun t => G (t.v n) (t.h n)) = m.mean fun V S => G (on V) (on S) := by
  have hfit : m.Fits fun v h _ _ => G v h := ⟨fun h _ _ => hG1 h, fun v _ _ => hG2 v⟩
  have e : ∀ V S, (m.gibbs k (s V S)).expect id (fun t => G (t.v n) (t.h n)) =
      m.sweep^[k] (fun v h _ _ => G v h) (on V) (on S) ((s V S).ph n) ((s V S).pv n) := by
    intro V S
    rw [← hv V S, ← hh V S]
    exact gibbs_row m hfit k (s V S) (hn V S)
  simp only [e]
  exact mean_sweeps hm G k _ _

end

end Verif.Boltz
