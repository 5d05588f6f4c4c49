import Verif.Model.SgdFloat
import Verif.Model.MBSGD
import Verif.Props.EvalExact

/-!
# Trainings that diverge (C147)
-/

namespace Verif.SgdFp

open Outcome Fp Fp.Fpu

noncomputable section

variable {A : Fpu} {e : Setup} {checks : Bool} {G : Gradients}

/-! ## What an update does -/

/-- The result of an update that ends. -/
theorem update_ok {s t : State} (h : update A e checks G s = ok t) :
    t.momentum = newMomentum A e s (G s.calls (evaluated A e s)) ∧
    t.parameters = newParameters A e s (G s.calls (evaluated A e s)) := by
  obtain ⟨_, _, h⟩ := Outcome.bind_eq_ok.1 h
  obtain ⟨_, _, h⟩ := Outcome.bind_eq_ok.1 h
  obtain ⟨_, _, h⟩ := Outcome.bind_eq_ok.1 h
  obtain ⟨_, _, h⟩ := Outcome.bind_eq_ok.1 h
  obtain ⟨_, _, h⟩ := Outcome.bind_eq_ok.1 h
  injection h with h
  subst h
  exact ⟨rfl, rfl⟩

/-- Builds without checks never end the program. -/
theorem update_unchecked (s : State) : ∃ t, update A e false G s = ok t := by
  have hc : ∀ v, check e false v = ok () := fun v => if_neg fun h => by cases h.1
  have hv : ∀ x, checkValue false x = ok () := fun x => if_neg fun h => by cases h.1
  unfold update
  simp only [hc, hv]
  exact ⟨_, rfl⟩

theorem updates_unchecked (n : ℕ) (s : State) : ∃ t, updates A e false G n s = ok t := by
  induction n with
  | zero => exact ⟨s, rfl⟩
  | succ n ih =>
    obtain ⟨t, ht⟩ := ih
    obtain ⟨u, hu⟩ := update_unchecked (A := A) (e := e) (G := G) t
    refine ⟨u, ?_⟩
    show (updates A e false G n s >>= _) = _
    rw [ht]
    exact hu

/-- All variables that the user can see are numbers. -/
def Sound (e : Setup) (s : State) : Prop :=
  (∀ p < e.P, ∃ x, s.parameters p = .num x) ∧ (∀ p < e.P, ∃ x, s.momentum p = .num x) ∧ (∃ x, s.alpha = .num x) ∧ ∃ x, s.eta = .num x

theorem not_broken {x : Dbl} (h : ¬ Broken x) : ∃ y, x = .num y := by
  by_contra hc
  exact h fun y hy => hc ⟨y, hy⟩

theorem check_ok {v : Vec} {u : Unit} (h : check e true v = ok u) : ∀ p < e.P, ∃ x, v p = .num x := by
  intro p hp
  by_contra hc
  unfold check at h
  rw [if_pos ⟨rfl, p, hp, fun y hy => hc ⟨y, hy⟩⟩] at h
  cases h

theorem checkValue_ok {x : Dbl} {u : Unit} (h : checkValue true x = ok u) : ∃ y, x = .num y := by
  by_contra hc
  unfold checkValue at h
  rw [if_pos ⟨rfl, fun y hy => hc ⟨y, hy⟩⟩] at h
  cases h

/-- With checks, whatever an update leaves behind is a number: parameters, momentum, learning rate and momentum rate. -/
theorem update_sound {s t : State} (h : update A e true G s = ok t) :
    Sound e t ∧ ∀ p < e.P, ∃ x, G s.calls (evaluated A e s) p = .num x := by
  obtain ⟨_, h1, h⟩ := Outcome.bind_eq_ok.1 h
  obtain ⟨_, h2, h⟩ := Outcome.bind_eq_ok.1 h
  obtain ⟨_, h3, h⟩ := Outcome.bind_eq_ok.1 h
  obtain ⟨_, h4, h⟩ := Outcome.bind_eq_ok.1 h
  obtain ⟨_, h5, h⟩ := Outcome.bind_eq_ok.1 h
  injection h with h
  subst h
  exact ⟨⟨check_ok h3, check_ok h2, checkValue_ok h4, checkValue_ok h5⟩, check_ok h1⟩

/-- **C147 (checks)**: with checks, a broken gradient ends the program at once. -/
theorem broken_gradient_checked {s : State} {p : ℕ} (hp : p < e.P) (hb : Broken (G s.calls (evaluated A e s) p)) :
    update A e true G s = checkFailed := by
  have h : check e true (G s.calls (evaluated A e s)) = checkFailed := if_pos ⟨rfl, p, hp, hb⟩
  unfold update
  simp only [h]
  rfl

theorem updates_sound {n : ℕ} (hn : 0 < n) {s t : State} (h : updates A e true G n s = ok t) : Sound e t := by
  cases n with
  | zero => omega
  | succ n =>
    obtain ⟨u, _, h⟩ := Outcome.bind_eq_ok.1 h
    exact (update_sound h).1

/-- **C147 (checks)**: with checks, every training that ends has parameters that are numbers. -/
theorem checked_result (hb : 0 < e.batches) {i : ℤ} {s t : State} (h : Optimize A e true G i s t) : Sound e t := by
  induction h with
  | last h => exact updates_sound hb h.1
  | next _ _ ih => exact ih

theorem update_network (hn : e.nesterov = false) {s t : State} (h : update A e checks G s = ok t) : t.w = t.parameters := by
  obtain ⟨_, _, h⟩ := Outcome.bind_eq_ok.1 h
  obtain ⟨_, _, h⟩ := Outcome.bind_eq_ok.1 h
  obtain ⟨_, _, h⟩ := Outcome.bind_eq_ok.1 h
  obtain ⟨_, _, h⟩ := Outcome.bind_eq_ok.1 h
  obtain ⟨_, _, h⟩ := Outcome.bind_eq_ok.1 h
  injection h with h
  subst h
  show (if e.nesterov = true then _ else _) = _
  rw [if_neg (by rw [hn]; exact Bool.false_ne_true)]

/-- **C147 (checks)**: without Nesterov's method the network holds these numbers, too. -/
theorem checked_network (hb : 0 < e.batches) (hn : e.nesterov = false) {i : ℤ} {s t : State} (h : Optimize A e true G i s t) :
    ∀ p < e.P, ∃ x, t.w p = .num x := by
  have hw : t.w = t.parameters := by
    induction h with
    | last h =>
      have h1 := h.1
      rw [show e.batches = e.batches - 1 + 1 by omega] at h1
      obtain ⟨u, _, h1⟩ := Outcome.bind_eq_ok.1 h1
      exact update_network hn h1
    | next _ _ ih => exact ih
  rw [hw]
  exact (checked_result hb h).1

/-- With Nesterov's method the network holds the parameters at which the last gradient was computed.  They are computed from
numbers, but they are not checked themselves. -/
theorem nesterov_network (hn : e.nesterov = true) {s t : State} (h : update A e checks G s = ok t) :
    t.w = fun p => A.add (s.parameters p) (A.mul s.eta (s.momentum p)) := by
  obtain ⟨_, _, h⟩ := Outcome.bind_eq_ok.1 h
  obtain ⟨_, _, h⟩ := Outcome.bind_eq_ok.1 h
  obtain ⟨_, _, h⟩ := Outcome.bind_eq_ok.1 h
  obtain ⟨_, _, h⟩ := Outcome.bind_eq_ok.1 h
  obtain ⟨_, _, h⟩ := Outcome.bind_eq_ok.1 h
  injection h with h
  subst h
  show (if e.nesterov = true then evaluated A e s else _) = _
  rw [if_pos hn]
  exact if_pos hn

/-! ## Without checks -/

/-- NaN in the gradient is NaN in the momentum and the parameters. -/
theorem update_nan_gradient {s t : State} {p : ℕ} (h : update A e checks G s = ok t) (hg : G s.calls (evaluated A e s) p = .nan) :
    t.momentum p = .nan ∧ t.parameters p = .nan := by
  obtain ⟨h1, h2⟩ := update_ok h
  have hs : scaled A e s (G s.calls (evaluated A e s)) p = .nan := by
    unfold scaled
    split
    · show A.mul (G s.calls (evaluated A e s) p) _ = _
      rw [hg, mul_nan_left]
    · exact hg
  have hm : newMomentum A e s (G s.calls (evaluated A e s)) p = .nan := by
    show A.add _ (neg (A.mul s.alpha (scaled A e s _ p))) = _
    rw [hs, mul_nan_right]
    exact add_nan_right _
  refine ⟨by rw [h1, hm], ?_⟩
  rw [h2]
  show A.add _ (newMomentum A e s _ p) = _
  rw [hm, add_nan_right]

/-- NaN in the momentum stays and makes the parameter NaN. -/
theorem update_nan_momentum {s t : State} {p : ℕ} (h : update A e checks G s = ok t) (hm : s.momentum p = .nan) :
    t.momentum p = .nan ∧ t.parameters p = .nan := by
  obtain ⟨h1, h2⟩ := update_ok h
  have hm : newMomentum A e s (G s.calls (evaluated A e s)) p = .nan := by
    show A.add (A.mul s.eta (s.momentum p)) _ = _
    rw [hm, mul_nan_right]
    exact add_nan_left _
  refine ⟨by rw [h1, hm], ?_⟩
  rw [h2]
  show A.add _ (newMomentum A e s _ p) = _
  rw [hm, add_nan_right]

theorem broken_add (x : Dbl) {y : Dbl} (h : Broken y) : Broken (A.add y x) := by
  intro z hz
  cases y with
  | num y => exact h y rfl
  | pinf => cases x <;> cases hz
  | ninf => cases x <;> cases hz
  | nan => cases x <;> cases hz

/-- **C147 (no recovery)**: a parameter that is infinite or NaN is never a number again, whatever the gradients are. -/
theorem broken_stays {n : ℕ} {s t : State} {p : ℕ} (h : updates A e checks G n s = ok t) (hb : Broken (s.parameters p)) :
    Broken (t.parameters p) := by
  induction n generalizing t with
  | zero =>
    injection h with h
    rwa [← h]
  | succ n ih =>
    obtain ⟨u, hu, h⟩ := Outcome.bind_eq_ok.1 h
    rw [(update_ok h).2]
    exact broken_add _ (ih hu)

/-- A momentum that is NaN stays NaN. -/
theorem momentum_stays {n : ℕ} {s t : State} {p : ℕ} (h : updates A e checks G n s = ok t) (hm : s.momentum p = .nan) :
    t.momentum p = .nan := by
  induction n generalizing t with
  | zero =>
    injection h with h
    rwa [← h]
  | succ n ih =>
    obtain ⟨u, hu, h⟩ := Outcome.bind_eq_ok.1 h
    exact (update_nan_momentum h (ih hu)).1

theorem updates_add (m n : ℕ) (s : State) :
    updates A e checks G (m + n) s = updates A e checks G m s >>= updates A e checks G n := by
  induction n with
  | zero => cases updates A e checks G m s <;> simp [updates]
  | succ n ih =>
    show (updates A e checks G (m + n) s >>= _) = _
    rw [ih]
    cases updates A e checks G m s <;> rfl

/-- After a gradient with NaN in a mini-batch of a step, momentum and parameter are NaN at the end of the step. -/
theorem step_nan {m : ℕ} (hm : m < e.batches) {s u t : State} {p : ℕ} (hu : updates A e checks G m s = ok u)
    (hg : G u.calls (evaluated A e u) p = .nan) (h : updates A e checks G e.batches s = ok t) :
    t.momentum p = .nan ∧ Broken (t.parameters p) := by
  rw [show e.batches = (m + 1) + (e.batches - (m + 1)) by omega, updates_add] at h
  obtain ⟨v, hv, h⟩ := Outcome.bind_eq_ok.1 h
  obtain ⟨u', hu', hv⟩ := Outcome.bind_eq_ok.1 hv
  rw [hu] at hu'
  injection hu' with hu'
  subst hu'
  have hn := update_nan_gradient hv hg
  exact ⟨momentum_stays h hn.1, broken_stays h (by rw [hn.2]; exact fun y hy => by cases hy)⟩

theorem norm_nan {v : Vec} {x : Dbl} {p : ℕ} (hp : p < e.P) (hv : v p = .nan) (h : Norm A e v x) : x = .nan := by
  obtain ⟨t, ht, rfl⟩ := h
  rw [Sums.nan ht (List.mem_map.2 ⟨p, List.mem_range.2 hp, by rw [hv, mul_nan_left]⟩)]
  rfl

theorem norm_exists (A : Fpu) (e : Setup) (v : Vec) : ∃ x, Norm A e v x := by
  obtain ⟨t, ht⟩ := Sums.exists (A := A) ((List.range e.P).map fun p => A.mul (v p) (v p))
  exact ⟨_, t, ht, rfl⟩

/-- **C147 is false of the code**: without checks, if the size of the steps is a stopping criterion, then a training whose gradient
contains NaN is ended like one that converged: `step()` answers that the training is finished and `optimize()` returns parameters
that are broken. -/
theorem broken_converges_fails (hstep : e.minimalSearchSpaceStep ≠ .num 0) {m : ℕ} (hm : m < e.batches) {i : ℤ} {s u : State}
    {p : ℕ} (hp : p < e.P) (hu : updates A e false G m s = ok u) (hg : G u.calls (evaluated A e u) p = .nan) :
    (∃ t, Optimize A e false G i s t) ∧ (∀ run t, Step A e false G i s run t → run = false) ∧
    ∀ t, Optimize A e false G i s t → Broken (t.parameters p) := by
  have hrun : ∀ run t, Step A e false G i s run t → run = false := by
    rintro run t ⟨h1, x, hx, h2⟩
    cases run with
    | false => rfl
    | true =>
      have hn := norm_nan hp (step_nan hm hu hg h1).1 hx
      subst hn
      rcases (h2.1 rfl).2 with h | h
      · exact absurd h hstep
      · cases hz : e.minimalSearchSpaceStep <;> rw [hz] at h <;> exact h.elim
  refine ⟨?_, hrun, ?_⟩
  · obtain ⟨t, ht⟩ := updates_unchecked (A := A) (e := e) (G := G) e.batches s
    obtain ⟨x, hx⟩ := norm_exists A e t.momentum
    refine ⟨t, .last ⟨ht, x, hx, fun h => (Bool.false_ne_true h).elim, fun h => ?_⟩⟩
    have hn := norm_nan hp (step_nan hm hu hg ht).1 hx
    subst hn
    rcases h.2 with h | h
    · exact absurd h hstep
    · cases hz : e.minimalSearchSpaceStep <;> rw [hz] at h <;> exact h.elim
  · intro t h
    cases h with
    | last h => exact (step_nan hm hu hg h.1).2
    | next h _ => cases hrun _ _ h

/-- **C147 is false of the code**: without checks, whatever the stopping criteria are, the result of a training that begins with
broken parameters is broken. -/
theorem broken_result_fails {i : ℤ} {s t : State} {p : ℕ} (hb : Broken (s.parameters p)) (h : Optimize A e checks G i s t) :
    Broken (t.parameters p) := by
  induction h with
  | last h => exact broken_stays h.1 hb
  | next h _ ih => exact ih (broken_stays h.1 hb)

/-- Without checks, whatever the stopping criteria are, NaN in the gradient of one mini-batch breaks the result of the training. -/
theorem nan_gradient_result_fails {m : ℕ} (hm : m < e.batches) {i : ℤ} {s u t : State} {p : ℕ} (hu : updates A e checks G m s = ok u)
    (hg : G u.calls (evaluated A e u) p = .nan) (h : Optimize A e checks G i s t) : Broken (t.parameters p) := by
  cases h with
  | last h => exact (step_nan hm hu hg h.1).2
  | next h h' => exact broken_result_fails (step_nan hm hu hg h.1).2 h'

/-! ## Numbers -/

theorem fmax_num (x y : ℝ) : fmax (.num x) (.num y) = .num (max x y) := by
  unfold fmax
  by_cases h : x < y
  · rw [if_pos (show Lt (.num x) (.num y) from ⟨h.le, not_le.2 h⟩), max_eq_right h.le]
  · rw [if_neg (fun h' : Lt (.num x) (.num y) => h (not_le.1 h'.2)), max_eq_left (not_lt.1 h)]

theorem fmin_num (x y : ℝ) : fmin (.num x) (.num y) = .num (min x y) := by
  unfold fmin
  by_cases h : y < x
  · rw [if_pos (show Lt (.num y) (.num x) from ⟨h.le, not_le.2 h⟩), min_eq_right h.le]
  · rw [if_neg (fun h' : Lt (.num y) (.num x) => h (not_le.1 h'.2)), min_eq_left (not_lt.1 h)]

/-- A vector of numbers. -/
def nums (v : Opt.Vec) : Vec := fun p => .num (v p)

/-- The constants of an optimiser for real numbers. -/
def setupOf (o : Opt.MBSGD) : Setup :=
  ⟨o.P, o.batches, o.nesterov, .num o.alphaDecay, .num o.minAlpha, .num o.etaGain, .num o.maxEta, .num o.minGain, .num o.maxGain,
    o.stop.maximalIterations, .num o.stop.minimalSearchSpaceStep⟩

/-- The variables of an optimiser for real numbers and of the optimised object. -/
def stateOf (o : Opt.MBSGD) (obj : Opt.Obj) : State :=
  ⟨.num o.alpha, .num o.eta, nums o.gains, nums o.parameters, nums o.momentum, nums obj.w, obj.calls⟩

/-- The gradients of a mini-batch of a problem for real numbers. -/
def gradientsOf (obj : Opt.Obj) (batch : List ℕ) : Gradients :=
  fun k w => nums (obj.problem.errorGradient k (fun p => (w p).val) batch).2

open Classical in
/-- **C147 (numbers)**: if nothing has to be rounded, an update is that of the model with real numbers, with and without checks. -/
theorem exact_update (hA : A.rnd = .num) (o : Opt.MBSGD) (obj : Opt.Obj) (batch : List ℕ) :
    update A (setupOf o) checks (gradientsOf obj batch) (stateOf o obj) =
      ok (stateOf (o.update obj batch).1 (o.update obj batch).2) := by
  have hadd : ∀ x y, A.add (.num x) (.num y) = .num (x + y) := fun x y => by show A.rnd _ = _; rw [hA]
  have hmul : ∀ x y, A.mul (.num x) (.num y) = .num (x * y) := fun x y => by show A.rnd _ = _; rw [hA]
  have hsub : ∀ x y, A.sub (.num x) (.num y) = .num (x - y) := fun x y => by
    show A.rnd (x + -y) = _
    rw [hA, sub_eq_add_neg]
  have hev : evaluated A (setupOf o) (stateOf o obj) = nums (o.lookAhead obj).w := by
    unfold evaluated Opt.MBSGD.lookAhead
    show (if o.nesterov then _ else _) = _
    by_cases h : o.nesterov = true
    · rw [if_pos h, if_pos h]
      funext p
      show A.add (.num _) (A.mul (.num _) (.num _)) = _
      rw [hmul, hadd]
      rfl
    · rw [if_neg h, if_neg h]
      rfl
  have hcalls : (o.lookAhead obj).calls = obj.calls ∧ (o.lookAhead obj).problem = obj.problem := by
    unfold Opt.MBSGD.lookAhead
    split <;> exact ⟨rfl, rfl⟩
  obtain ⟨g, hg⟩ : ∃ g, g = ((o.lookAhead obj).result batch).2 := ⟨_, rfl⟩
  have hG : gradientsOf obj batch (stateOf o obj).calls (evaluated A (setupOf o) (stateOf o obj)) = nums g := by
    rw [hev, hg]
    show nums (obj.problem.errorGradient obj.calls (o.lookAhead obj).w batch).2 = _
    unfold Opt.Obj.result
    rw [hcalls.1, hcalls.2]
  have hgain : (setupOf o).useGain ↔ o.useGain := by
    unfold Setup.useGain Opt.MBSGD.useGain
    show (Dbl.num o.minGain ≠ .num 1 ∨ Dbl.num o.maxGain ≠ .num 1) ↔ _
    simp
  have hnew : newGains A (setupOf o) (stateOf o obj) (nums g) = nums (o.newGains g) := by
    unfold newGains Opt.MBSGD.newGains
    by_cases h : o.useGain
    · rw [if_pos (hgain.2 h), if_pos h]
      funext p
      show fmin (.num o.maxGain) (fmax (.num o.minGain) (if Le (.num 0) (A.mul (.num (o.momentum p)) (.num (g p))) then
        A.add (.num (o.gains p)) (A.rnd 0.05) else A.mul (.num (o.gains p)) (A.rnd 0.95))) = .num (min _ (max _ (if _ then _ else _)))
      rw [hA, hmul, hadd, hmul]
      by_cases h0 : 0 ≤ o.momentum p * g p
      · rw [if_pos h0, if_pos (show Le (.num 0) (.num _) from h0), fmax_num, fmin_num]
      · rw [if_neg h0, if_neg (fun h' : Le (.num 0) (.num _) => h0 h'), fmax_num, fmin_num]
    · rw [if_neg (fun h' => h (hgain.1 h')), if_neg h]
      rfl
  have hsc : scaled A (setupOf o) (stateOf o obj) (nums g) = nums (o.scaled g) := by
    unfold scaled Opt.MBSGD.scaled
    by_cases h : o.useGain
    · rw [if_pos (hgain.2 h), if_pos h, hnew]
      funext p
      exact hmul _ _
    · rw [if_neg (fun h' => h (hgain.1 h')), if_neg h]
  have hmom : newMomentum A (setupOf o) (stateOf o obj) (nums g) = nums (o.move (o.scaled g)).momentum := by
    funext p
    show A.sub (A.mul (.num o.eta) (.num (o.momentum p))) (A.mul (.num o.alpha) (scaled A (setupOf o) (stateOf o obj) (nums g) p)) = _
    rw [hsc]
    show A.sub _ (A.mul _ (.num _)) = _
    rw [hmul, hmul, hsub]
    rfl
  have hpar : newParameters A (setupOf o) (stateOf o obj) (nums g) = nums (o.move (o.scaled g)).parameters := by
    funext p
    show A.add (.num (o.parameters p)) (newMomentum A (setupOf o) (stateOf o obj) (nums g) p) = _
    rw [hmom]
    exact hadd _ _
  have hc : ∀ v, check (setupOf o) checks (nums v) = ok () := fun v => if_neg fun h => by
    obtain ⟨_, p, _, hp⟩ := h
    exact hp _ rfl
  have hv : ∀ x, checkValue checks (.num x) = ok () := fun x => if_neg fun h => h.2 _ rfl
  have ha : fmax (A.mul (stateOf o obj).alpha (setupOf o).alphaDecay) (setupOf o).minAlpha = .num (max (o.alpha * o.alphaDecay) o.minAlpha) := by
    show fmax (A.mul (.num _) (.num _)) (.num _) = _
    rw [hmul, fmax_num]
  have he : fmin (A.add (stateOf o obj).eta (setupOf o).etaGain) (setupOf o).maxEta = .num (min (o.eta + o.etaGain) o.maxEta) := by
    show fmin (A.add (.num _) (.num _)) (.num _) = _
    rw [hadd, fmin_num]
  rw [hev] at hG
  unfold update
  simp only [hG, hmom, hpar, hnew, ha, he, hc, hv, hev]
  show ok _ = ok _
  congr 1
  unfold Opt.MBSGD.update
  simp only [← hg]
  unfold stateOf
  congr 1
  · show (if o.nesterov = true then _ else _) = _
    by_cases h : o.nesterov = true
    · rw [if_pos h, if_pos h]
      rfl
    · rw [if_neg h, if_neg h]
      rfl
  · by_cases h : o.nesterov = true
    · rw [if_pos h]
      exact congrArg (· + 1) hcalls.1.symm
    · rw [if_neg h]
      exact congrArg (· + 1) hcalls.1.symm

/-- **C147 (numbers)**: if nothing has to be rounded, the decision to continue is that of the model with real numbers. -/
theorem exact_continues (hA : A.rnd = .num) (hS : ∀ x, A.sqrt x = .num (Real.sqrt x)) (o : Opt.MBSGD) (obj : Opt.Obj) (run : Bool) :
    Continues A (setupOf o) o.iteration (stateOf o obj) run ↔ (run = true ↔ o.run) := by
  have hsum : ∀ n : ℕ, ((List.range n).map fun p => o.momentum p * o.momentum p).sum = ∑ p ∈ Finset.range n, o.momentum p ^ 2 := by
    intro n
    induction n with
    | zero => simp
    | succ n ih =>
      rw [List.range_succ, List.map_append, List.sum_append, ih, Finset.sum_range_succ]
      simp [sq]
  have hnorm : ∀ x, Norm A (setupOf o) (stateOf o obj).momentum x → x = .num o.momentumNorm := by
    rintro x ⟨t, ht, rfl⟩
    have hl : ((List.range (setupOf o).P).map fun p => A.mul ((stateOf o obj).momentum p) ((stateOf o obj).momentum p)) =
        ((List.range o.P).map fun p => o.momentum p * o.momentum p).map .num := by
      rw [List.map_map]
      refine List.map_congr_left fun p _ => ?_
      show A.rnd _ = _
      rw [hA]
      rfl
    rw [hl] at ht
    have hv := EvalFp.exact_sums hA ht fun a ha => by
      obtain ⟨x, _, hx⟩ := List.mem_map.1 ha
      exact ⟨x, hx.symm⟩
    rw [List.map_map, show Dbl.val ∘ Dbl.num = id from rfl, List.map_id, hsum] at hv
    rw [hv]
    exact (if_pos (Finset.sum_nonneg fun p _ => sq_nonneg _)).trans (hS _)
  have hcond : ∀ x, Norm A (setupOf o) (stateOf o obj).momentum x →
      ((((setupOf o).maximalIterations = -1 ∨ o.iteration < (setupOf o).maximalIterations) ∧
        ((setupOf o).minimalSearchSpaceStep = .num 0 ∨ Le (setupOf o).minimalSearchSpaceStep x)) ↔ o.run) := by
    intro x hx
    rw [hnorm x hx]
    refine and_congr Iff.rfl (or_congr ?_ Iff.rfl)
    show Dbl.num _ = .num 0 ↔ _
    exact ⟨fun h => by injection h, fun h => by rw [h]⟩
  constructor
  · rintro ⟨x, hx, h⟩
    rw [h, hcond x hx]
  · intro h
    obtain ⟨x, hx⟩ := norm_exists A (setupOf o) (stateOf o obj).momentum
    exact ⟨x, hx, by rw [h, hcond x hx]⟩

/-- **C147 is false of the code** even with checks: with Nesterov's method parameters that are numbers can look ahead to an infinite
parameter, which stays in the network although all checks of the update pass. -/
theorem nesterov_overflow_fails : ∃ (e : Setup) (G : Gradients) (s t : State), e.nesterov = true ∧ 0 < e.P ∧ Sound e s ∧
    update gridFpu e true G s = ok t ∧ Sound e t ∧ t.w 0 = .pinf := by
  obtain ⟨B, hB⟩ : ∃ B : ℝ, B = 2 ^ 1023 := ⟨_, rfl⟩
  have htop : top = 2 * B := by rw [hB]; unfold top; rw [show (1024 : ℕ) = 1023 + 1 from rfl, pow_succ, mul_comm]
  have hpos : 0 < B := by rw [hB]; positivity
  have hrB : gridFpu.rnd B = .num B := by
    show gridRnd B = _
    rw [gridRnd_num (by rw [htop]; linarith only [hpos]) (by rw [htop]; linarith only [hpos])]
    obtain ⟨z, hz⟩ : ∃ z : ℤ, B * grid = z := by
      obtain ⟨z, hz⟩ := two_pow_int 1023
      obtain ⟨y, hy⟩ := two_pow_int 1074
      exact ⟨z * y, by rw [hB, hz]; unfold grid; rw [hy]; push_cast; rfl⟩
    rw [hz, Int.floor_intCast, ← hz, mul_div_assoc, div_self grid_pos.ne', mul_one]
  have hr0 : gridFpu.rnd 0 = .num 0 := by simpa using gridFpu.rnd_int 0 (by norm_num)
  have hr1 : gridFpu.rnd 1 = .num 1 := by simpa using gridFpu.rnd_int 1 (by norm_num)
  have hinf : gridFpu.rnd (B + B) = .pinf := if_pos (by rw [htop]; linarith only [hpos])
  obtain ⟨e, he⟩ : ∃ e : Setup, e = ⟨1, 1, true, .num 1, .num 0, .num 0, .num 1, .num 1, .num 1, -1, .num 0⟩ := ⟨_, rfl⟩
  obtain ⟨s, hs⟩ : ∃ s : State, s = ⟨.num 1, .num 1, fun _ => .num 1, fun _ => .num B, fun _ => .num B, fun _ => .num B, 0⟩ := ⟨_, rfl⟩
  have hmul : gridFpu.mul (.num 1) (.num B) = .num B := by
    show gridFpu.rnd (1 * B) = _
    rw [one_mul, hrB]
  have hug : ¬ e.useGain := by
    rw [he]
    rintro (h | h) <;> exact h rfl
  have hsc : scaled gridFpu e s (fun _ => .num B) = fun _ => .num B := if_neg hug
  have hmom : newMomentum gridFpu e s (fun _ => .num B) = fun _ => .num 0 := by
    funext p
    unfold newMomentum
    rw [hsc, hs]
    show gridFpu.sub (gridFpu.mul (.num 1) (.num B)) (gridFpu.mul (.num 1) (.num B)) = _
    rw [hmul]
    show gridFpu.rnd (B + -B) = _
    rw [add_neg_cancel, hr0]
  have hpar : newParameters gridFpu e s (fun _ => .num B) = fun _ => .num B := by
    funext p
    unfold newParameters
    rw [hmom, hs]
    show gridFpu.rnd (B + 0) = _
    rw [add_zero, hrB]
  have hev : evaluated gridFpu e s = fun _ => .pinf := by
    unfold evaluated
    rw [he, hs]
    show (fun _ => gridFpu.add (.num B) (gridFpu.mul (.num 1) (.num B))) = _
    rw [hmul]
    funext _
    exact hinf
  have ha : fmax (gridFpu.mul s.alpha e.alphaDecay) e.minAlpha = .num 1 := by
    rw [he, hs]
    show fmax (gridFpu.rnd (1 * 1)) (.num 0) = _
    rw [one_mul, hr1, fmax_num]
    norm_num
  have hη : fmin (gridFpu.add s.eta e.etaGain) e.maxEta = .num 1 := by
    rw [he, hs]
    show fmin (gridFpu.rnd (1 + 0)) (.num 1) = _
    rw [add_zero, hr1, fmin_num]
    norm_num
  have hc : ∀ x : ℝ, check e true (fun _ => .num x) = ok () := fun x => if_neg fun h => by
    obtain ⟨_, p, _, hp⟩ := h
    exact hp _ rfl
  have hv : ∀ x, checkValue true (.num x) = ok () := fun x => if_neg fun h => h.2 _ rfl
  have hup : update gridFpu e true (fun _ _ _ => .num B) s = ok ⟨.num 1, .num 1, newGains gridFpu e s (fun _ => .num B), fun _ => .num B,
      fun _ => .num 0, if e.nesterov = true then fun _ => .pinf else fun _ => .num B, s.calls + 1⟩ := by
    unfold update
    simp only [hmom, hpar, ha, hη, hc, hv, hev]
    rfl
  refine ⟨e, fun _ _ _ => .num B, s, _, by rw [he], by rw [he]; exact Nat.one_pos, ?_, hup, (update_sound hup).1, ?_⟩
  · rw [hs]
    exact ⟨fun _ _ => ⟨B, rfl⟩, fun _ _ => ⟨B, rfl⟩, ⟨1, rfl⟩, ⟨1, rfl⟩⟩
  · rw [he]
    rfl

/-- The hypotheses of `checked_result` are met: with checks, a training of one iteration and one mini-batch with any gradients that are
numbers ends, if nothing is rounded. -/
example (o : Opt.MBSGD) (obj : Opt.Obj) (hb : o.batches = 1) (hi : o.stop.maximalIterations = 1) (batch : List ℕ) :
    0 < (setupOf o).batches ∧ ∃ t, Optimize PoleFp.exactFpu (setupOf o) true (gradientsOf obj batch) 0 (stateOf o obj) t := by
  refine ⟨by show 0 < o.batches; omega,
    stateOf (o.update obj batch).1 (o.update obj batch).2, .last ⟨?_, ?_⟩⟩
  · show updates _ _ _ _ o.batches _ = _
    rw [hb]
    exact exact_update rfl o obj batch
  · obtain ⟨x, hx⟩ := norm_exists PoleFp.exactFpu (setupOf o) (stateOf (o.update obj batch).1 (o.update obj batch).2).momentum
    refine ⟨x, hx, fun h => (Bool.false_ne_true h).elim, fun h => ?_⟩
    rcases h.1 with h | h
    · have : o.stop.maximalIterations = -1 := h
      omega
    · have : (0 : ℤ) + 1 < o.stop.maximalIterations := h
      omega

/-- The hypotheses of `broken_converges_fails` are met: one parameter, a problem whose gradient is NaN, and the stopping criterion that
steps are shorter than 1. -/
example : ∃ (e : Setup) (G : Gradients) (s : State), e.minimalSearchSpaceStep ≠ .num 0 ∧ 0 < e.batches ∧ 0 < e.P ∧
    updates gridFpu e false G 0 s = ok s ∧ G s.calls (evaluated gridFpu e s) 0 = .nan := by
  refine ⟨⟨1, 1, false, .num 1, .num 0, .num 0, .num 1, .num 1, .num 1, -1, .num 1⟩, fun _ _ _ => .nan,
    ⟨.num 1, .num 0, fun _ => .num 1, fun _ => .num 0, fun _ => .num 0, fun _ => .num 0, 0⟩, ?_, Nat.one_pos, Nat.one_pos, rfl, rfl⟩
  intro h
  injection h with h
  exact one_ne_zero h

end

end Verif.SgdFp
