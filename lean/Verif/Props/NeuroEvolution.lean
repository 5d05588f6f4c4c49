import Verif.Model.NeuroEvolution
import Verif.Model.PoleBalancing
import Mathlib.Tactic.NormNum

/-!
# The neuro-evolution agent: C96

Training is the minimisation of a function of the parameters: the negative length of the episode that a policy with these
parameters plays when it starts without any memory.  Nothing of earlier episodes has an influence.
-/

namespace Verif.Neuro

open Verif.Opt Verif.ES Verif.AlphaBeta Verif.Smoothing

/-! ## Specification -/

noncomputable section

/-- The input of the policy with the parameters `θ` after the observations `obs` of an episode, the latest one first. -/
def features (g : Config) (θ : Vec) (obs : List Vec) : Vec :=
  match g.mode with
  | .full => obs.headD 0
  | .filter => filtered (obs.foldr (fun o f => f.forward o) (g.newFilter.setParameters θ))
  | .smooth => fun j =>
      if j % 2 = 0 then (obs.foldr (fun o d => d.next (o (j / 2))) Smoother.new).output.1
      else (obs.foldr (fun o d => d.next (o (j / 2))) Smoother.new).output.2
  | .last => fun j => if j < g.dim then obs.headD 0 j else obs.tail.headD (obs.headD 0) (j - g.dim)

variable (w : World) (net : Policy) (g : Config)

/-- The states of an episode with the parameters `θ`, the latest one first. -/
def play (θ : Vec) : ℕ → List w.S
  | 0 => [w.initial]
  | t + 1 => w.next ((play θ t).headD w.initial) (net θ (features g θ ((play θ t).map w.observe))) :: play θ t

/-- The state after `t` steps of an episode with the parameters `θ`. -/
def stateAt (θ : Vec) (t : ℕ) : w.S := (play w net g θ t).headD w.initial

open Classical in
/-- Length of the episode. -/
def lasts (θ : Vec) : ℕ :=
  if h : ∃ T, w.terminal (stateAt w net g θ T) then w.steps (stateAt w net g θ (Nat.find h)) else 0

/-- The function that is minimised. -/
def score (θ : Vec) : ℝ := -(lasts w net g θ : ℝ)

end

/-! ## Memory of the agent -/

/-- Two smoothers that give the same answers. -/
structure Alike (d e : Smoother) : Prop where
  alpha : d.alpha = e.alpha
  beta : d.beta = e.beta
  t : d.t = e.t
  xn : d.t ≠ 0 → d.xn = e.xn
  sn : d.t ≠ 0 → d.sn = e.sn
  bn : d.t ≠ 0 → d.bn = e.bn

theorem Alike.next {d e : Smoother} (h : Alike d e) (x : ℝ) : Alike (d.next x) (e.next x) := by
  rcases d with ⟨a, b, xc, xn, sc, sn, bc, bn, t⟩
  rcases e with ⟨a', b', xc', xn', sc', sn', bc', bn', t'⟩
  obtain ⟨h1, h2, h3, h4, h5, h6⟩ := h
  simp only at h1 h2 h3 h4 h5 h6
  subst h1 h2 h3
  unfold Smoother.next Smoother.position
  rcases Nat.eq_zero_or_pos t with rfl | ht
  · constructor <;> simp
  · obtain rfl := h4 (by omega)
    obtain rfl := h5 (by omega)
    obtain rfl := h6 (by omega)
    by_cases ht1 : t = 1
    · subst ht1
      constructor <;> simp
    · constructor <;> simp [ht1, show t ≠ 0 by omega]

theorem next_t (d : Smoother) (x : ℝ) : (d.next x).t = d.t + 1 := by
  unfold Smoother.next
  split
  · rfl
  · split <;> rfl

theorem Alike.output {d e : Smoother} (h : Alike d e) (ht : d.t ≠ 0) : d.output = e.output := by
  rw [Smoother.output, Smoother.output, h.sn ht, h.bn ht]

theorem Alike.restart {d e : Smoother} (ha : d.alpha = e.alpha) (hb : d.beta = e.beta) : Alike d.restart e.restart :=
  ⟨ha, hb, rfl, fun h => (h rfl).elim, fun h => (h rfl).elim, fun h => (h rfl).elim⟩

theorem next_consts (d : Smoother) (x : ℝ) : (d.next x).alpha = d.alpha ∧ (d.next x).beta = d.beta := by
  unfold Smoother.next
  split
  · exact ⟨rfl, rfl⟩
  · split <;> exact ⟨rfl, rfl⟩

theorem foldr_consts (obs : List Vec) (i : ℕ) :
    (obs.foldr (fun o d => d.next (o i)) Smoother.new).alpha = Smoother.new.alpha ∧
      (obs.foldr (fun o d => d.next (o i)) Smoother.new).beta = Smoother.new.beta := by
  induction obs with
  | nil => exact ⟨rfl, rfl⟩
  | cons o obs ih => exact ⟨(next_consts _ _).1.trans ih.1, (next_consts _ _).2.trans ih.2⟩

theorem forward_deltaT (f : Filter) (x : ℕ → ℝ) : (f.forward x).deltaT = f.deltaT := by
  unfold Filter.forward Filter.start
  split <;> rfl

theorem foldr_deltaT (f : Filter) (obs : List Vec) : (obs.foldr (fun o f => f.forward o) f).deltaT = f.deltaT := by
  induction obs with
  | nil => rfl
  | cons o obs ih => exact (forward_deltaT _ _).trans ih

/-- New parameters let the filter forget everything except for the time between two samples. -/
theorem setParameters_forgets (f e : Filter) (h : f.deltaT = e.deltaT) (θ : Vec) : f.setParameters θ = e.setParameters θ := by
  rcases f with ⟨dt, _, _, _, _, _, _⟩
  rcases e with ⟨dt', _, _, _, _, _, _⟩
  obtain rfl : dt = dt' := h
  rfl

variable {C : Core}

/-- The agent has the parameters `θ` and remembers exactly the observations `obs` (latest first) of the current episode. -/
structure Tracks (g : Config) (a : Agent C) (θ : Vec) (obs : List Vec) : Prop where
  theta : a.theta = θ
  filter : g.mode = .filter → a.filter = obs.foldr (fun o f => f.forward o) (g.newFilter.setParameters θ)
  smooth : ∀ i, g.mode = .smooth → Alike (a.des i) (obs.foldr (fun o d => d.next (o i)) Smoother.new)
  first : g.mode = .last → a.first = obs.isEmpty
  last : ∀ o l, g.mode = .last → obs = o :: l → a.last = o

variable {w : World} {net : Policy} {g : Config}

theorem Tracks.input {a : Agent C} {θ : Vec} {obs : List Vec} (h : Tracks g a θ obs) (o : Vec) :
    a.input g o = features g θ (o :: obs) := by
  unfold Agent.input features
  cases hm : g.mode with
  | full => rfl
  | filter => simp only [h.filter hm, List.foldr_cons]
  | smooth =>
    funext j
    have := (h.smooth (j / 2) hm).next (o (j / 2))
    have := this.output (by rw [next_t]; omega)
    simp only [List.foldr_cons, this]
  | last =>
    funext j
    simp only [h.first hm, List.headD_cons, List.tail_cons]
    cases obs with
    | nil => rfl
    | cons o' l => simp [h.last o' l hm rfl]

theorem Tracks.sensed {a : Agent C} {θ : Vec} {obs : List Vec} (h : Tracks g a θ obs) (o : Vec) :
    Tracks g (a.sensed g o) θ (o :: obs) ∧ (a.sensed g o).opt = a.opt := by
  unfold Agent.sensed
  cases hm : g.mode with
  | full =>
    exact ⟨⟨h.theta, fun hc => by simp [hm] at hc, fun _ hc => by simp [hm] at hc, fun hc => by simp [hm] at hc,
      fun _ _ hc => by simp [hm] at hc⟩, rfl⟩
  | filter =>
    exact ⟨⟨h.theta, fun _ => by simp only [h.filter hm, List.foldr_cons], fun _ hc => by simp [hm] at hc,
      fun hc => by simp [hm] at hc, fun _ _ hc => by simp [hm] at hc⟩, rfl⟩
  | smooth =>
    exact ⟨⟨h.theta, fun hc => by simp [hm] at hc, fun i _ => (h.smooth i hm).next (o i),
      fun hc => by simp [hm] at hc, fun _ _ hc => by simp [hm] at hc⟩, rfl⟩
  | last =>
    refine ⟨⟨h.theta, fun hc => by simp [hm] at hc, fun i hc => by simp [hm] at hc, fun _ => rfl, fun o' l _ he => ?_⟩, rfl⟩
    cases he
    rfl

/-- After the error was reported, the agent has the next parameters and no memory. -/
theorem Tracks.report {a : Agent C} {θ : Vec} {obs : List Vec} (h : Tracks g a θ obs) {f : ℝ} {θ' : Vec} {o' : Es C}
    (hn : nextCandidate a.opt a.theta f = .ok (θ', o')) :
    ∃ a', a.report g f = .ok a' ∧ a'.opt = o' ∧ Tracks g a' θ' [] := by
  refine ⟨_, by rw [Agent.report, hn, Outcome.ok_bind]; rfl, rfl, rfl, fun hm => ?_, fun i hm => ?_, fun _ => rfl,
    fun _ _ _ he => by cases he⟩
  · simp only [Agent.setParameters, if_pos hm, List.foldr_nil]
    refine setParameters_forgets _ _ ?_ θ'
    rw [h.filter hm, foldr_deltaT]
    rfl
  · have hs := h.smooth i hm
    have hc := foldr_consts obs i
    exact Alike.restart (hs.alpha.trans hc.1) (hs.beta.trans hc.2)

/-! ## Episodes -/

theorem play_eq (θ : Vec) (t : ℕ) : play w net g θ t = stateAt w net g θ t :: (play w net g θ t).tail := by
  cases t <;> rfl

theorem play_tail (θ : Vec) (t : ℕ) : (play w net g θ (t + 1)).tail = play w net g θ t := rfl

theorem step_eq {a : Agent C} {θ : Vec} {t : ℕ} (h : Tracks g a θ ((play w net g θ t).tail.map w.observe)) :
    (a.chooseOptimalAction w net g (stateAt w net g θ t)).2 = stateAt w net g θ (t + 1) ∧
      Tracks g (a.chooseOptimalAction w net g (stateAt w net g θ t)).1 θ ((play w net g θ (t + 1)).tail.map w.observe) ∧
      (a.chooseOptimalAction w net g (stateAt w net g θ t)).1.opt = a.opt := by
  have hp : (play w net g θ t).map w.observe =
      w.observe (stateAt w net g θ t) :: (play w net g θ t).tail.map w.observe := by
    conv_lhs => rw [play_eq]
    rfl
  refine ⟨?_, ?_, (h.sensed _).2⟩
  · change w.next (stateAt w net g θ t) (net a.theta (a.input g (w.observe (stateAt w net g θ t)))) = _
    rw [h.input, h.theta, ← hp]
    rfl
  · rw [play_tail, hp]
    exact (h.sensed _).1

/-- An episode from step `t` on, if it ends after step `T`. -/
theorem episode_from {θ : Vec} {T : ℕ} (hT : w.terminal (stateAt w net g θ T))
    (hmin : ∀ t < T, ¬ w.terminal (stateAt w net g θ t)) {θ' : Vec} {o' : Es C} : ∀ {n t : ℕ} {a : Agent C}
    (_ : t + n + 1 = T) (_ : Tracks g a θ ((play w net g θ t).tail.map w.observe))
    (_ : nextCandidate a.opt θ (-(w.steps (stateAt w net g θ T) : ℝ)) = .ok (θ', o')) {fuel : ℕ} (_ : n + 1 < fuel),
    ∃ a', a.episode w net g fuel (stateAt w net g θ t) = .ok (some (a', stateAt w net g θ T)) ∧ a'.opt = o' ∧
      Tracks g a' θ' []
  | 0, t, a, ht, h, hn, fuel + 2, _ => by
    obtain ⟨h1, h2, h3⟩ := step_eq h
    obtain rfl : T = t + 1 := by omega
    have hnt := hmin t (by omega)
    obtain ⟨a', r1, r2, r3⟩ := h2.report (by rw [h3, h2.theta]; exact hn)
    refine ⟨a', ?_, r2, r3⟩
    rw [Agent.episode, if_neg hnt, Agent.chooseAction, h1, if_pos hT, r1, Outcome.ok_bind]
    change Agent.episode w net g (fuel + 1) a' _ = _
    rw [Agent.episode, if_pos hT]
  | 0, _, _, _, _, _, 0, hf => by omega
  | 0, _, _, _, _, _, 1, hf => by omega
  | n + 1, t, a, ht, h, hn, fuel + 1, hf => by
    obtain ⟨h1, h2, h3⟩ := step_eq h
    obtain ⟨a', r⟩ := episode_from hT hmin (n := n) (t := t + 1) (by omega) h2 (by rw [h3]; exact hn)
      (fuel := fuel) (by omega)
    refine ⟨a', ?_, r.2⟩
    rw [Agent.episode, if_neg (hmin t (by omega)), Agent.chooseAction, h1, if_neg (hmin (t + 1) (by omega)), Outcome.ok_bind,
      h1]
    exact r.1
  | n + 1, _, _, _, _, _, 0, hf => by omega

/-- All episodes end within `B` steps, and they do not end before they begin. -/
structure Ends (w : World) (net : Policy) (g : Config) (B : ℕ) : Prop where
  start : ¬ w.terminal w.initial
  within : ∀ θ, ∃ T ≤ B, w.terminal (stateAt w net g θ T)

/-- One episode of an agent without memory: the negative length that belongs to its parameters is reported, the agent goes on
with the next parameters and again has no memory. -/
theorem episode_evaluates {B : ℕ} (hB : Ends w net g B) {a : Agent C} {θ : Vec} (h : Tracks g a θ []) {θ' : Vec} {o' : Es C}
    (hn : nextCandidate a.opt θ (score w net g θ) = .ok (θ', o')) {fuel : ℕ} (hf : B < fuel) :
    ∃ a' s, a.episode w net g fuel w.initial = .ok (some (a', s)) ∧ w.steps s = lasts w net g θ ∧ w.terminal s ∧ a'.opt = o' ∧
      Tracks g a' θ' [] := by
  classical
  obtain ⟨T0, hT0, ht0⟩ := hB.within θ
  have hex : ∃ T, w.terminal (stateAt w net g θ T) := ⟨T0, ht0⟩
  have hT := Nat.find_spec hex
  have hle : Nat.find hex ≤ T0 := Nat.find_min' hex ht0
  have hlasts : lasts w net g θ = w.steps (stateAt w net g θ (Nat.find hex)) := by
    rw [lasts, dif_pos hex]
  have hpos : Nat.find hex ≠ 0 := fun e => hB.start (by rw [e] at hT; exact hT)
  obtain ⟨a', r1, r2, r3⟩ := episode_from (θ := θ) hT (fun t ht => Nat.find_min hex ht) (n := Nat.find hex - 1) (t := 0) (a := a)
    (θ' := θ') (o' := o') (by omega) h (by rw [← hlasts]; exact hn) (fuel := fuel) (by omega)
  exact ⟨a', _, r1, hlasts.symm, hT, r2, r3⟩

/-! ## The search -/

/-- The optimiser waits for the error of `θ`, all errors that it knows are errors of `err`, and `n` errors were reported. -/
structure Pending (err : Vec → ℝ) (o : Es C) (θ : Vec) (n : ℕ) : Prop where
  waits : ∃ c p, o.cmaes = some c ∧ o.population = some p ∧ o.currentIndividual < c.popSize ∧ θ = p o.currentIndividual ∧
    p = C.sample c.state ∧ o.fitnessValues.length = c.popSize ∧
    ∀ i < o.currentIndividual, o.fitnessValues.getD i 0 = err (p i)
  errors : ∀ gen ∈ o.generations, ∀ q ∈ gen, q.2 = err q.1
  lambda : 0 < o.lambda
  count : (o.generations.map List.length).sum + o.currentIndividual = n

theorem getNext_pending {err : Vec → ℝ} {o : Es C} {c : Cma C} {n : ℕ} (hc : o.cmaes = some c) (h0 : o.currentIndividual = 0)
    (hp : 0 < c.popSize) (hl : o.fitnessValues.length = c.popSize) (he : ∀ gen ∈ o.generations, ∀ q ∈ gen, q.2 = err q.1)
    (hlam : 0 < o.lambda) (hn : (o.generations.map List.length).sum = n) :
    ∃ θ' o', o.getNext = .ok (θ', o') ∧ Pending err o' θ' n := by
  refine ⟨C.sample c.state 0, { o with population := some (C.sample c.state) }, ?_,
    ⟨c, C.sample c.state, hc, rfl, by simpa [h0] using hp, by simp [h0], rfl, hl, fun i hi => ?_⟩, he, hlam, ?_⟩
  · rw [Es.getNext, hc]
    simp only [h0, if_pos hp, if_true]
  · simp only [h0] at hi
    omega
  · simp [h0, hn]

theorem nextLambda_pos {o : Es C} (h : 0 < o.lambda) : 0 < o.nextLambda := by
  unfold Es.nextLambda
  split <;> omega

theorem restart_pending {err : Vec → ℝ} {o : Es C} {c : Cma C} {n : ℕ} (x0 : Vec) (hc : o.cmaes = some c)
    (h0 : o.currentIndividual = 0) (hp : 0 < c.popSize) (hl : o.fitnessValues.length = c.popSize)
    (he : ∀ gen ∈ o.generations, ∀ q ∈ gen, q.2 = err q.1) (hlam : 0 < o.lambda)
    (hn : (o.generations.map List.length).sum = n) :
    ∃ θ' o', (o.restart x0).2.getNext = .ok (θ', o') ∧ Pending err o' θ' n := by
  unfold Es.restart
  split
  · exact getNext_pending (c := c) hc h0 hp hl he hlam hn
  · exact getNext_pending (c := ⟨C.start (o.restarts + 1).toNat o.nextLambda x0, o.nextLambda, o.countOld, []⟩) rfl h0
      (nextLambda_pos hlam) (by simp [Es.restarted]) he (nextLambda_pos hlam) hn

/-- The optimiser takes the error and offers the next parameters; this never fails. -/
theorem Pending.next {err : Vec → ℝ} {o : Es C} {θ : Vec} {n : ℕ} (h : Pending err o θ n) :
    ∃ θ' o', nextCandidate o θ (err θ) = .ok (θ', o') ∧ Pending err o' θ' (n + 1) := by
  obtain ⟨⟨c, p, hc, hp, hi, hθ, hps, hl, hf⟩, he, hlam, hcount⟩ := h
  have hset : ∀ i ≤ o.currentIndividual, (o.fitnessValues.set o.currentIndividual (err θ)).getD i 0 = err (p i) := by
    intro i hle
    rw [List.getD_eq_getElem?_getD, List.getElem?_set]
    by_cases hcur : o.currentIndividual = i
    · rw [if_pos hcur, if_pos (by omega), hθ, hcur]
      rfl
    · rw [if_neg hcur, ← List.getD_eq_getElem?_getD]
      exact hf i (by omega)
  by_cases hlast : o.currentIndividual + 1 = c.popSize
  · have hgen : ∀ q ∈ (o.store (err θ)).generation c, q.2 = err q.1 := by
      intro q hq
      obtain ⟨i, hi', rfl⟩ := List.mem_map.1 hq
      rw [List.mem_range] at hi'
      simp only [Es.store, hp, Option.getD_some]
      exact hset i (by omega)
    have hE : ∀ gen ∈ ((o.store (err θ)).endGeneration c ((o.store (err θ)).generation c)).generations,
        ∀ q ∈ gen, q.2 = err q.1 := by
      intro gen hg
      rcases List.mem_append.1 hg with hg | hg
      · exact he gen hg
      · rw [List.mem_singleton] at hg
        subst hg
        exact hgen
    have hN : (((o.store (err θ)).endGeneration c ((o.store (err θ)).generation c)).generations.map List.length).sum = n + 1 := by
      simp only [Es.endGeneration, Es.store, Es.generation, List.map_append, List.sum_append, List.map_cons, List.map_nil,
        List.sum_cons, List.sum_nil, List.length_map, List.length_range]
      omega
    have hL : ((o.store (err θ)).endGeneration c ((o.store (err θ)).generation c)).fitnessValues.length = c.popSize := by
      simp [Es.endGeneration, Es.store, hl]
    rw [nextCandidate, Es.setError, hc]
    simp only [if_pos hi, if_pos hlast, Outcome.ok_bind]
    generalize hO : (o.store (err θ)).endGeneration c ((o.store (err θ)).generation c) = O at hE hN hL
    have h1 : O.cmaes = some { c with
        state := C.update c.state (o.store (err θ)).fitnessValues
        countevals := c.countevals + c.popSize
        reported := c.reported ++ (o.store (err θ)).generation c } := by rw [← hO]; rfl
    have h2 : O.currentIndividual = 0 := by rw [← hO]; rfl
    have h3 : O.lambda = o.lambda := by rw [← hO]; rfl
    simp only [h1]
    by_cases ht : O.terminated { c with
        state := C.update c.state (o.store (err θ)).fitnessValues
        countevals := c.countevals + c.popSize
        reported := c.reported ++ (o.store (err θ)).generation c } = true
    · rw [if_pos ht]
      exact restart_pending θ h1 h2 (by simp only; omega) hL hE (h3 ▸ hlam) hN
    · rw [if_neg ht]
      exact getNext_pending h1 h2 (by simp only; omega) hL hE (h3 ▸ hlam) hN
  · have hnt : (o.store (err θ)).terminated c = false := by
      simp [Es.terminated, Es.store]
    rw [nextCandidate, Es.setError, hc]
    simp only [if_pos hi, if_neg hlast, Outcome.ok_bind]
    rw [show (o.store (err θ)).cmaes = some c from hc]
    simp only [hnt, Bool.false_eq_true, if_false]
    refine ⟨p (o.currentIndividual + 1), o.store (err θ), ?_, ⟨c, p, hc, hp, ?_, rfl, hps, ?_, fun i hi' => ?_⟩, he, hlam, ?_⟩
    · rw [Es.getNext, show (o.store (err θ)).cmaes = some c from hc]
      simp only [Es.store, if_pos (show o.currentIndividual + 1 < c.popSize by omega), Nat.add_eq_zero_iff, Nat.one_ne_zero,
        and_false, if_false, hp]
    · simp only [Es.store]
      omega
    · simp [Es.store, hl]
    · simp only [Es.store] at hi' ⊢
      exact hset i (by omega)
    · simp only [Es.store]
      omega

/-- `abandoneIn` succeeds; the agent has no memory and the parameters of the first individual. -/
theorem abandoneIn_ok (err : Vec → ℝ) (g : Config) {lambda : ℕ} (hl : 0 < lambda) (x0 : Vec) :
    ∃ (a : Agent C) (θ : Vec), abandoneIn g lambda x0 = .ok a ∧ Tracks g a θ [] ∧ Pending err a.opt θ 0 := by
  obtain ⟨θ, o, h1, h2⟩ := getNext_pending (err := err) (n := 0)
    (o := (Es.new C ⟨1000, 1000, -big⟩ lambda).restarted x0) (c := ⟨C.start 0 lambda x0, lambda, 0, []⟩)
    (by simp [Es.restarted, Es.new, Es.nextLambda, Es.countOld]) rfl hl (by simp [Es.restarted, Es.new, Es.nextLambda])
    (by simp [Es.restarted, Es.new]) (by simpa [Es.restarted, Es.new, Es.nextLambda] using hl) (by simp [Es.restarted, Es.new])
  have hr : ((Es.new C ⟨1000, 1000, -big⟩ lambda).restart x0).2 = (Es.new C ⟨1000, 1000, -big⟩ lambda).restarted x0 := by
    rw [Es.restart, if_neg]
    simp [Es.new]
  refine ⟨_, θ, by rw [abandoneIn, hr, h1, Outcome.ok_bind]; rfl, ⟨rfl, fun hm => ?_, fun i _ => ?_, fun _ => rfl,
    fun _ _ _ he => by cases he⟩, h2⟩
  · simp [Agent.setParameters, hm]
  · exact ⟨rfl, rfl, rfl, fun _ => rfl, fun _ => rfl, fun _ => rfl⟩

/-! ## Training -/

/-- `n` episodes, each of them in the restarted environment. -/
noncomputable def train (w : World) (net : Policy) (g : Config) (fuel : ℕ) : ℕ → Agent C → Outcome (Option (Agent C))
  | 0, a => .ok (some a)
  | n + 1, a => do
    let r ← a.episode w net g fuel w.initial
    match r with
    | none => .ok none
    | some r => train w net g fuel n r.1

/-- `n` evaluations of the function `err` by the optimiser alone. -/
def search (err : Vec → ℝ) : ℕ → Vec → Es C → Outcome (Vec × Es C)
  | 0, θ, o => .ok (θ, o)
  | n + 1, θ, o => do
    let r ← nextCandidate o θ (err θ)
    search err n r.1 r.2

/-- C96: training is the search for a minimum of `score`: `n` episodes leave the optimiser in the same state as `n` evaluations
of `score`, and the agent with the same parameters; nothing fails. -/
theorem train_search {B : ℕ} (hB : Ends w net g B) {fuel : ℕ} (hf : B < fuel) : ∀ (n : ℕ) {k : ℕ} {a : Agent C} {θ : Vec}
    (_ : Tracks g a θ []) (_ : Pending (score w net g) a.opt θ k),
    ∃ a' θ', train w net g fuel n a = .ok (some a') ∧ search (score w net g) n θ a.opt = .ok (θ', a'.opt) ∧
      Tracks g a' θ' [] ∧ Pending (score w net g) a'.opt θ' (k + n)
  | 0, k, a, θ, h, hp => ⟨a, θ, rfl, rfl, h, hp⟩
  | n + 1, k, a, θ, h, hp => by
    obtain ⟨θ1, o1, hn, hp1⟩ := hp.next
    obtain ⟨a1, s, he, _, _, ho, ht⟩ := episode_evaluates hB h hn hf
    subst ho
    obtain ⟨a', θ', r1, r2, r3, r4⟩ := train_search hB hf n ht hp1
    refine ⟨a', θ', ?_, ?_, r3, by rwa [Nat.add_assoc, Nat.add_comm 1] at r4⟩
    · rw [train, he, Outcome.ok_bind]
      exact r1
    · rw [search, hn, Outcome.ok_bind]
      exact r2

/-- C96, from the beginning: after any number of episodes every error that the optimiser was told is the score of the individual
it belongs to, and there is one error for each episode. -/
theorem train_errors {B : ℕ} (hB : Ends w net g B) {fuel : ℕ} (hf : B < fuel) {lambda : ℕ} (hl : 0 < lambda) (x0 : Vec) (n : ℕ) :
    ∃ a a' : Agent C, abandoneIn g lambda x0 = .ok a ∧ train w net g fuel n a = .ok (some a') ∧
      (∀ gen ∈ a'.opt.generations, ∀ q ∈ gen, q.2 = score w net g q.1) ∧
      (a'.opt.generations.map List.length).sum + a'.opt.currentIndividual = n := by
  obtain ⟨a, θ, h1, h2, h3⟩ := abandoneIn_ok (C := C) (score w net g) g hl x0
  obtain ⟨a', θ', r1, _, _, r4⟩ := train_search hB hf n h2 h3
  exact ⟨a, a', h1, r1, r4.errors, by simpa using r4.count⟩

/-- The parameters that the optimiser tries, one for each episode. -/
def Candidates (err : Vec → ℝ) (o : Es C) (θ : ℕ → Vec) : Prop :=
  ∃ os : ℕ → Es C, os 0 = o ∧ ∀ n, nextCandidate (os n) (θ n) (err (θ n)) = .ok (θ (n + 1), os (n + 1))

theorem candidates_exist {err : Vec → ℝ} {o : Es C} {θ : Vec} {k : ℕ} (h : Pending err o θ k) :
    ∃ θs, θs 0 = θ ∧ Candidates err o θs := by
  choose f hf using fun (x : { x : Vec × Es C // ∃ k, Pending err x.2 x.1 k }) =>
    show ∃ y : { x : Vec × Es C // ∃ k, Pending err x.2 x.1 k },
        nextCandidate x.1.2 x.1.1 (err x.1.1) = .ok (y.1.1, y.1.2) by
      obtain ⟨k, hk⟩ := x.2
      obtain ⟨θ', o', h1, h2⟩ := hk.next
      exact ⟨⟨(θ', o'), k + 1, h2⟩, h1⟩
  refine ⟨fun n => (f^[n] ⟨(θ, o), k, h⟩).1.1, rfl, fun n => (f^[n] ⟨(θ, o), k, h⟩).1.2, rfl, fun n => ?_⟩
  simp only [Function.iterate_succ_apply']
  exact hf (f^[n] ⟨(θ, o), k, h⟩)

theorem runEpisodes_spec {B : ℕ} (hB : Ends w net g B) {fuel : ℕ} (hf : B < fuel) (required : ℕ) : ∀ (n i : ℕ) {k : ℕ}
    {a : Agent C} {θ : Vec} (_ : Tracks g a θ []) (_ : Pending (score w net g) a.opt θ k) {θs : ℕ → Vec} (_ : θs 0 = θ)
    (_ : Candidates (score w net g) a.opt θs),
    (∃ j < n, required ≤ lasts w net g (θs j) ∧ (∀ j' < j, lasts w net g (θs j') < required) ∧
        runEpisodes w net g fuel required n i a = .ok (some ⟨true, some (i + j)⟩)) ∨
      ((∀ j < n, lasts w net g (θs j) < required) ∧ runEpisodes w net g fuel required n i a = .ok (some ⟨false, none⟩))
  | 0, i, k, a, θ, _, _, θs, _, _ => Or.inr ⟨fun j hj => by omega, rfl⟩
  | n + 1, i, k, a, θ, h, hp, θs, h0, hc => by
    obtain ⟨θ1, o1, hn, hp1⟩ := hp.next
    obtain ⟨a1, s, he, hs, _, ho, ht⟩ := episode_evaluates hB h hn hf
    subst ho h0
    by_cases hr : required ≤ lasts w net g (θs 0)
    · refine Or.inl ⟨0, by omega, hr, fun j' hj' => by omega, ?_⟩
      rw [runEpisodes, he, Outcome.ok_bind]
      simp only [hs, if_pos hr, Nat.add_zero]
    · obtain ⟨os, e0, hos⟩ := hc
      have hos0 := hos 0
      rw [e0, hn] at hos0
      injection hos0 with hpair
      injection hpair with hθ1 ho1
      have hrec := runEpisodes_spec hB hf required n (i + 1) ht hp1 (θs := fun j => θs (j + 1)) hθ1.symm
        ⟨fun j => os (j + 1), ho1.symm, fun j => hos (j + 1)⟩
      have hstep : runEpisodes w net g fuel required (n + 1) i a = runEpisodes w net g fuel required n (i + 1) a1 := by
        rw [runEpisodes, he, Outcome.ok_bind]
        simp only [hs, if_neg hr]
      rcases hrec with ⟨j, hj, h1, h2, h3⟩ | ⟨h1, h2⟩
      · refine Or.inl ⟨j + 1, by omega, h1, fun j' hj' => ?_, ?_⟩
        · rcases Nat.eq_zero_or_pos j' with rfl | hpos
          · omega
          · have := h2 (j' - 1) (by omega)
            rwa [Nat.sub_add_cancel hpos] at this
        · rw [hstep, h3, show i + 1 + j = i + (j + 1) by omega]
      · refine Or.inr ⟨fun j hj => ?_, by rw [hstep, h2]⟩
        rcases Nat.eq_zero_or_pos j with rfl | hpos
        · omega
        · have := h1 (j - 1) (by omega)
          rwa [Nat.sub_add_cancel hpos] at this

/-- C96: the benchmark reports success after the first candidate whose episode has at least 100000 steps, with its number, and
failure, with an undefined number of episodes, if there is none among the first 100000 candidates. -/
theorem benchmark_reports_partial {B : ℕ} (hB : Ends w net g B) {fuel : ℕ} (hf : B < fuel) {lambda : ℕ} (hl : 0 < lambda)
    (x0 : Vec) :
    ∃ (a : Agent C) (θs : ℕ → Vec), abandoneIn g lambda x0 = .ok a ∧ a.theta = θs 0 ∧ Candidates (score w net g) a.opt θs ∧
      ((∃ j < 100000, 100000 ≤ lasts w net g (θs j) ∧ (∀ j' < j, lasts w net g (θs j') < 100000) ∧
          benchmarkSingleRun w net g fuel a = .ok (some ⟨true, some (1 + j)⟩)) ∨
        ((∀ j < 100000, lasts w net g (θs j) < 100000) ∧ benchmarkSingleRun w net g fuel a = .ok (some ⟨false, none⟩))) := by
  obtain ⟨a, θ, h1, h2, h3⟩ := abandoneIn_ok (C := C) (score w net g) g hl x0
  obtain ⟨θs, r1, r2⟩ := candidates_exist h3
  exact ⟨a, θs, h1, h2.theta.trans r1.symm, r2, runEpisodes_spec hB hf 100000 100000 1 h2 h3 r1 r2⟩

/-- A failed run is read nevertheless: the statistics use the number of episodes, which has no value. -/
theorem failure_ub : Result.read ⟨false, none⟩ = .ub := rfl

/-! ## The pole balancing environments -/

open Verif.Poles in
/-- SinglePoleBalancing and DoublePoleBalancing as environments. -/
noncomputable def poleWorld (e : Setup) (fullyObservable : Bool) : World where
  S := Env
  initial := (Env.new e fullyObservable).restart
  observe v := v.normalizedState.getD 0
  next v act := match v.stateTransition (act 0) with
    | .ok v' => v'
    | _ => v
  terminal v := ∃ p, v.terminalState = .ok p ∧ p
  steps v := v.step

open Verif.Poles in
theorem pole_state (e : Setup) (fo : Bool) (net : Policy) (g : Config) (θ : Vec) (t : ℕ) :
    ∃ v : Env, stateAt (poleWorld e fo) net g θ t = v ∧ v.setup = e ∧ v.step = t ∧ ∃ s, v.state = some s := by
  induction t with
  | zero => exact ⟨_, rfl, rfl, rfl, _, rfl⟩
  | succ t ih =>
    obtain ⟨v, h1, h2, h3, s, h4⟩ := ih
    refine ⟨_, rfl, ?_⟩
    have hn : ∀ act : Vec, ((poleWorld e fo).next v act : Env).setup = e ∧ ((poleWorld e fo).next v act : Env).step = t + 1 ∧
        ∃ s, ((poleWorld e fo).next v act : Env).state = some s := by
      intro act
      simp only [poleWorld, Env.stateTransition, h4]
      exact ⟨h2, by rw [h3], _, rfl⟩
    rw [← h1] at hn
    exact hn _

open Verif.Poles in
/-- Every episode in these environments ends, and not before its first step. -/
theorem poles_end {e : Setup} (h0 : 0 < e.maxSteps) (hc : 0 ≤ e.maxCartPosition) (ha : |e.initialAngle| ≤ e.maxAngle) (fo : Bool)
    (net : Policy) (g : Config) : Ends (poleWorld e fo) net g e.maxSteps where
  start := by
    rintro ⟨p, hp, hpt⟩
    have hs : ¬ e.maxSteps ≤ 0 := by omega
    have hp : Env.terminalState ((Env.new e fo).restart) = .ok p := hp
    rw [Env.terminalState, if_neg (show ¬ (Env.new e fo).restart.setup.maxSteps ≤ (Env.new e fo).restart.step from hs)] at hp
    simp only [Env.restart, Env.new] at hp
    injection hp with hp
    rw [← hp] at hpt
    rcases hpt with h | ⟨i, _, h⟩
    · simp only [Setup.start, if_neg (show (0 : ℕ) ≠ 2 by decide), abs_zero] at h
      exact absurd h (not_lt.2 hc)
    · by_cases hi : i = 0
      · subst hi
        simp only [Setup.start, Nat.mul_zero, Nat.add_zero, if_true] at h
        exact absurd h (not_lt.2 ha)
      · simp only [Setup.start, if_neg (show 2 + 2 * i ≠ 2 by omega), abs_zero] at h
        exact absurd h (not_lt.2 ((abs_nonneg _).trans ha))
  within θ := by
    obtain ⟨v, h1, h2, h3, s, h4⟩ := pole_state e fo net g θ e.maxSteps
    refine ⟨e.maxSteps, le_refl _, True, ?_, trivial⟩
    rw [h1, Env.terminalState, h2, h3, if_pos (le_refl _)]

/-- Single pole balancing without velocities, with double exponential smoothing, for any policy. -/
example (net : Policy) : Ends (poleWorld Poles.single false) net ⟨false, false, true, 2, 0.02⟩ 100000 :=
  poles_end (by decide) (by norm_num [Poles.single]) (by norm_num [Poles.single, abs_of_nonneg]) _ _ _

/-- Double pole balancing with alpha-beta filters. -/
example (net : Policy) : Ends (poleWorld Poles.double false) net ⟨false, true, false, 3, 0.02⟩ 100000 :=
  poles_end (by decide) (by norm_num [Poles.double]) (by norm_num [Poles.double, abs_of_nonneg]) _ _ _

/-! ## What does not hold -/

/-- A sampling core that offers the vectors `(i, i, ...)` in every generation. -/
def counting : Core where
  State := Unit
  start _ _ _ := ()
  sample _ i := fun _ => i
  update _ _ := ()
  testForTermination _ := false

open Classical in
/-- An environment of at most two steps; the episode ends after the first one, if the action is not zero. -/
noncomputable def short : World where
  S := ℕ × Bool
  initial := (0, false)
  observe _ := fun _ => 0
  next s act := (s.1 + 1, decide (act 0 ≠ 0) || decide (1 ≤ s.1))
  terminal s := s.2 = true
  steps s := s.1

theorem episode_succ (a : Agent C) (fuel : ℕ) (s : w.S) (h : ¬ w.terminal s) :
    a.episode w net g (fuel + 1) s = a.chooseAction w net g s >>= fun r => r.1.episode w net g fuel r.2 := by
  rw [Agent.episode, if_neg h]

theorem episode_end (a : Agent C) (fuel : ℕ) (s : w.S) (h : w.terminal s) :
    a.episode w net g (fuel + 1) s = .ok (some (a, s)) := by
  rw [Agent.episode, if_pos h]

/-- Length of an episode that ends after step `T`. -/
theorem lasts_eq {θ : Vec} {T : ℕ} (hT : w.terminal (stateAt w net g θ T))
    (hmin : ∀ t < T, ¬ w.terminal (stateAt w net g θ t)) : lasts w net g θ = w.steps (stateAt w net g θ T) := by
  classical
  have hex : ∃ T, w.terminal (stateAt w net g θ T) := ⟨T, hT⟩
  rw [lasts, dif_pos hex]
  congr 2
  exact (Nat.find_eq_iff hex).2 ⟨hT, hmin⟩

theorem short_ends : Ends short (fun θ _ => θ) ⟨true, false, false, 1, 1⟩ 2 := by
  refine ⟨by simp [short], fun θ => ⟨2, le_refl _, ?_⟩⟩
  simp [stateAt, play, short]

theorem short_lasts (θ : Vec) : lasts short (fun θ _ => θ) ⟨true, false, false, 1, 1⟩ θ = if θ 0 = 0 then 2 else 1 := by
  by_cases h : θ 0 = 0
  · rw [if_pos h, lasts_eq (T := 2)]
    · simp [stateAt, play, short]
    · simp [stateAt, play, short]
    · intro t ht
      obtain rfl | rfl : t = 0 ∨ t = 1 := by omega
      · simp [stateAt, play, short]
      · simp [stateAt, play, short, h]
  · rw [if_neg h, lasts_eq (T := 1)]
    · simp [stateAt, play, short]
    · simp [stateAt, play, short, h]
    · intro t ht
      obtain rfl : t = 0 := by omega
      simp [stateAt, play, short]

/-- The candidates of `counting` with three individuals in each generation. -/
theorem counting_start (g : Config) (x0 : Vec) : ∃ a : Agent counting, abandoneIn g 3 x0 = .ok a ∧ Tracks g a (fun _ => 0) [] ∧
    ∀ f, ∃ o', nextCandidate a.opt (fun _ => 0) f = .ok (fun _ => 1, o') ∧
      ∀ f', ∃ r, nextCandidate o' (fun _ => 1) f' = .ok r := by
  obtain ⟨a, θ, h1, h2, h3⟩ := abandoneIn_ok (C := counting) (fun _ => 0) g (show 0 < 3 by decide) x0
  have ha : a.opt = { (Es.new counting ⟨1000, 1000, -big⟩ 3).restarted x0 with population := some (counting.sample ()) } ∧
      a.theta = counting.sample () 0 := by
    have hr : ((Es.new counting ⟨1000, 1000, -big⟩ 3).restart x0).2 = (Es.new counting ⟨1000, 1000, -big⟩ 3).restarted x0 := by
      rw [Es.restart, if_neg]
      simp [Es.new]
    have hg : ((Es.new counting ⟨1000, 1000, -big⟩ 3).restarted x0).getNext = .ok (counting.sample () 0,
        { (Es.new counting ⟨1000, 1000, -big⟩ 3).restarted x0 with population := some (counting.sample ()) }) := by
      simp [Es.getNext, Es.restarted, Es.new, Es.nextLambda]
      exact ⟨rfl, rfl⟩
    rw [abandoneIn, hr, hg, Outcome.ok_bind] at h1
    injection h1 with h1
    rw [← h1]
    exact ⟨rfl, rfl⟩
  have hθ : θ = fun _ => 0 := by
    rw [← h2.theta, ha.2]
    funext _
    exact Nat.cast_zero
  subst hθ
  refine ⟨a, h1, h2, fun f => ⟨a.opt.store f, ?_, fun f' => ?_⟩⟩
  · rw [ha.1]
    simp [nextCandidate, Es.setError, Es.store, Es.terminated, Es.getNext, Es.restarted, Es.new, Es.nextLambda]
    funext _
    exact Nat.cast_one
  · rw [ha.1]
    simp [nextCandidate, Es.setError, Es.store, Es.terminated, Es.getNext, Es.restarted, Es.new, Es.nextLambda]

/-- The agent does not keep parameters that were successful: after an episode of two steps, the longest that there are, the same
agent plays an episode of one step. -/
theorem success_lost : ∃ a a1 a2 : Agent counting, ∃ s s' : short.S,
    abandoneIn ⟨true, false, false, 1, 1⟩ 3 (fun _ => 0) = .ok a ∧
    a.episode short (fun θ _ => θ) ⟨true, false, false, 1, 1⟩ 3 short.initial = .ok (some (a1, s)) ∧ short.steps s = 2 ∧
    a1.episode short (fun θ _ => θ) ⟨true, false, false, 1, 1⟩ 3 short.initial = .ok (some (a2, s')) ∧ short.steps s' = 1 := by
  obtain ⟨a, h1, h2, h3⟩ := counting_start ⟨true, false, false, 1, 1⟩ (fun _ => 0)
  obtain ⟨o1, hn, hn'⟩ := h3 (score short (fun θ _ => θ) ⟨true, false, false, 1, 1⟩ fun _ => 0)
  obtain ⟨a1, s, e1, e2, _, e4, e5⟩ := episode_evaluates short_ends h2 hn (fuel := 3) (by omega)
  subst e4
  obtain ⟨⟨θ2, o2⟩, hn2⟩ := hn' (score short (fun θ _ => θ) ⟨true, false, false, 1, 1⟩ fun _ => 1)
  obtain ⟨a2, s', f1, f2, _⟩ := episode_evaluates short_ends e5 hn2 (fuel := 3) (by omega)
  exact ⟨a, a1, a2, s, s', h1, e1, by rw [e2, short_lasts, if_pos rfl], f1, by rw [f2, short_lasts, if_neg (by norm_num)]⟩

open Classical in
/-- An environment whose state is a number that counts the steps, and ten for an action other than zero. -/
noncomputable def jumping : World where
  S := ℕ
  initial := 0
  observe s := fun _ => s
  next s act := if act 0 = 0 then s + 1 else s + 10
  terminal s := 2 ≤ s
  steps s := s

/-- The action is the difference of the last two observations. -/
noncomputable def difference : Policy := fun _ x _ => x 0 - x 1

/-- The agent is shown in an episode with `chooseOptimalAction` between two episodes of the training (two actions end it).  The
training then goes on with the last observation of that episode: the error that is reported is not the score. -/
theorem demonstration_fails : ∃ a b b' : Agent counting, ∃ s : jumping.S,
    abandoneIn ⟨false, false, false, 1, 1⟩ 3 (fun _ => 0) = .ok a ∧
    jumping.terminal (Agent.chooseOptimalAction jumping difference ⟨false, false, false, 1, 1⟩
      (a.chooseOptimalAction jumping difference ⟨false, false, false, 1, 1⟩ jumping.initial).1
      (a.chooseOptimalAction jumping difference ⟨false, false, false, 1, 1⟩ jumping.initial).2).2 ∧
    b = (Agent.chooseOptimalAction jumping difference ⟨false, false, false, 1, 1⟩
      (a.chooseOptimalAction jumping difference ⟨false, false, false, 1, 1⟩ jumping.initial).1
      (a.chooseOptimalAction jumping difference ⟨false, false, false, 1, 1⟩ jumping.initial).2).1 ∧
    b.episode jumping difference ⟨false, false, false, 1, 1⟩ 3 jumping.initial = .ok (some (b', s)) ∧
    jumping.steps s ≠ lasts jumping difference ⟨false, false, false, 1, 1⟩ b.theta := by
  obtain ⟨a, h1, h2, h3⟩ := counting_start ⟨false, false, false, 1, 1⟩ (fun _ => 0)
  have hm : (⟨false, false, false, 1, 1⟩ : Config).mode = .last := rfl
  have hf := h2.first hm
  have hl : ∀ θ, lasts jumping difference ⟨false, false, false, 1, 1⟩ θ = 11 := by
    intro θ
    rw [lasts_eq (T := 2)]
    · simp [stateAt, play, jumping, features, hm, difference]
    · simp [stateAt, play, jumping, features, hm, difference]
    · intro t ht
      obtain rfl | rfl : t = 0 ∨ t = 1 := by omega
      · simp [stateAt, play, jumping]
      · simp [stateAt, play, jumping, features, hm, difference]
  obtain ⟨o', hn, -⟩ := h3 (-10)
  have e1 : a.chooseOptimalAction jumping difference ⟨false, false, false, 1, 1⟩ jumping.initial =
      ({ a with last := fun _ => 0, first := false }, (1 : ℕ)) := by
    simp [Agent.chooseOptimalAction, Agent.sensed, Agent.input, hm, jumping, difference, hf]
  have e2 : Agent.chooseOptimalAction jumping difference ⟨false, false, false, 1, 1⟩
      ({ a with last := fun _ => 0, first := false } : Agent counting) (1 : ℕ) =
      ({ a with last := fun _ => 1, first := false }, (11 : ℕ)) := by
    simp [Agent.chooseOptimalAction, Agent.sensed, Agent.input, hm, jumping, difference]
  have e3 : Agent.chooseOptimalAction jumping difference ⟨false, false, false, 1, 1⟩
      ({ a with last := fun _ => 1, first := false } : Agent counting) (0 : ℕ) =
      ({ a with last := fun _ => 0, first := false }, (10 : ℕ)) := by
    simp [Agent.chooseOptimalAction, Agent.sensed, Agent.input, hm, jumping, difference]
  have h4 : Tracks ⟨false, false, false, 1, 1⟩ ({ a with last := fun _ => 0, first := false } : Agent counting) (fun _ => 0)
      [fun _ => 0] :=
    ⟨h2.theta, fun hc => by simp [hm] at hc, fun _ hc => by simp [hm] at hc, fun _ => rfl, fun o l _ he => by cases he; rfl⟩
  obtain ⟨b', hb, -⟩ := h4.report (f := -10) (by rw [h4.theta]; exact hn)
  refine ⟨a, { a with last := fun _ => 1, first := false }, b', (10 : ℕ), h1, ?_, ?_, ?_, ?_⟩
  · rw [e1, e2]
    change (2 : ℕ) ≤ 11
    decide
  · rw [e1, e2]
  · have hc : Agent.chooseAction jumping difference ⟨false, false, false, 1, 1⟩
        ({ a with last := fun _ => 1, first := false } : Agent counting) (0 : ℕ) = .ok (b', (10 : ℕ)) := by
      unfold Agent.chooseAction
      rw [e3]
      refine (if_pos (show (2 : ℕ) ≤ 10 by decide)).trans ?_
      dsimp only
      rw [show (-(jumping.steps (10 : ℕ) : ℝ)) = -10 by simp [jumping], hb]
      rfl
    refine (episode_succ _ 2 _ (show ¬ (2 : ℕ) ≤ 0 by decide)).trans ?_
    refine (congrArg (· >>= _) hc).trans ?_
    exact episode_end _ 1 _ (show (2 : ℕ) ≤ 10 by decide)
  · rw [hl]
    change (10 : ℕ) ≠ 11
    decide

end Verif.Neuro
