import Verif.Model.OctopusAgent
import Verif.Props.Octopus
import Mathlib.Tactic.NormNum

/-!
# C98: what the agent of the octopus arm benchmark learns from

Every episode is played with the parameters that the optimiser asks for next, its error is made from the sum of all rewards of the
episode and belongs to these parameters; the best return and its parameters are kept.
-/

namespace Verif.OctopusAgent

open Verif.Opt Verif.ES Verif.Octopus

noncomputable section

variable {C : Core}

/-! ## Specification -/

/-- The sum of the rewards that the server sends in an episode. -/
def rewards (T : Text) : Script → ℝ
  | .over _ => 0
  | .run _ turns last => (turns.map fun t => T.atof t.reward).sum + T.atof last.reward

/-- Episodes that have at least one step. -/
def Started : Script → Prop
  | .over _ => False
  | .run _ _ _ => True

/-- All errors that the optimiser was told, with the individuals to which it assigns them, in order: those of finished generations and
those of the current one. -/
def told (o : Es C) : List (Vec × ℝ) :=
  o.generations.flatten ++ (List.range o.currentIndividual).map fun i =>
    ((o.population.getD fun _ => 0) i, o.fitnessValues.getD i 0)

/-- What has to be told about the return `R` in episode `k`. -/
def noisy (z : ℕ → ℝ) (k : ℕ) (R : ℝ) : ℝ := -R + 0.1 * R * z k

/-- The best of the episodes `played` (parameters and return) is kept. -/
def Best (x0 : Vec) (played : List (Vec × ℝ)) (best : ℝ) (θ : Vec) : Prop :=
  (∀ q ∈ played, q.2 ≤ best) ∧ ((best = -big ∧ θ = x0) ∨ (θ, best) ∈ played)

/-! ## The optimiser between and during episodes -/

/-- The optimiser can be asked for parameters. -/
structure Idle (o : Es C) (log : List (Vec × ℝ)) : Prop where
  ready : ∃ c, o.cmaes = some c ∧ o.currentIndividual < c.popSize ∧
    (o.currentIndividual ≠ 0 → o.population = some (C.sample c.state)) ∧ o.fitnessValues.length = c.popSize
  lambda : 0 < o.lambda
  log : told o = log

/-- The optimiser waits for the error of `θ`. -/
structure Waits (o : Es C) (θ : Vec) (log : List (Vec × ℝ)) : Prop where
  ready : ∃ c, o.cmaes = some c ∧ o.currentIndividual < c.popSize ∧ o.population = some (C.sample c.state) ∧
    o.fitnessValues.length = c.popSize ∧ θ = C.sample c.state o.currentIndividual
  lambda : 0 < o.lambda
  log : told o = log

theorem Idle.ask {o : Es C} {log : List (Vec × ℝ)} (h : Idle o log) :
    ∃ θ o', o.getNext = .ok (θ, o') ∧ Waits o' θ log := by
  obtain ⟨⟨c, hc, hi, hp, hl⟩, hlam, hlog⟩ := h
  by_cases h0 : o.currentIndividual = 0
  · refine ⟨C.sample c.state 0, { o with population := some (C.sample c.state) }, ?_,
      ⟨c, hc, hi, rfl, hl, by simp [h0]⟩, hlam, ?_⟩
    · rw [Es.getNext, hc]
      simp only [if_pos hi, if_pos h0]
    · rw [← hlog]
      simp [told, h0]
  · refine ⟨C.sample c.state o.currentIndividual, o, ?_, ⟨c, hc, hi, hp h0, hl, rfl⟩, hlam, hlog⟩
    rw [Es.getNext, hc]
    simp only [if_pos hi, if_neg h0, hp h0]

theorem restart_idle {o : Es C} {log : List (Vec × ℝ)} (h : Idle o log) (h0 : o.currentIndividual = 0) (x : Vec) :
    Idle (o.restart x).2 log := by
  obtain ⟨⟨c, hc, hi, hp, hl⟩, hlam, hlog⟩ := h
  unfold Es.restart
  split
  · exact ⟨⟨c, hc, hi, hp, hl⟩, hlam, by rw [← hlog]; rfl⟩
  · have hpos : 0 < o.nextLambda := by unfold Es.nextLambda; split <;> omega
    refine ⟨⟨_, rfl, ?_, fun h => ?_, ?_⟩, hpos, ?_⟩
    · simpa [Es.restarted, h0] using hpos
    · exact absurd (by simpa [Es.restarted] using h0) h
    · simp [Es.restarted]
    · rw [← hlog]
      simp [told, Es.restarted, h0]

theorem map_set_succ (p : ℕ → Vec) (v : List ℝ) (k : ℕ) (hk : k < v.length) (f : ℝ) :
    ((List.range (k + 1)).map fun i => (p i, (v.set k f).getD i 0))
      = ((List.range k).map fun i => (p i, v.getD i 0)) ++ [(p k, f)] := by
  rw [List.range_succ, List.map_append]
  congr 1
  · apply List.map_congr_left
    intro i hi
    rw [List.mem_range] at hi
    simp [List.getD_eq_getElem?_getD, show k ≠ i by omega]
  · simp [List.getD_eq_getElem?_getD, hk]

theorem tell_store {o : Es C} {c : Cma C} (hc : o.cmaes = some c) (hi : o.currentIndividual + 1 < c.popSize) (x : Vec) (f : ℝ) :
    tell o x f = .ok (o.store f) := by
  rw [tell, Es.setError, hc]
  simp only [if_pos (show o.currentIndividual < c.popSize by omega),
    if_neg (show ¬ o.currentIndividual + 1 = c.popSize by omega), Outcome.ok_bind]
  rw [show (o.store f).cmaes = some c from hc]
  have hnt : (o.store f).terminated c = false := by simp [Es.terminated, Es.store]
  simp only [hnt, Bool.false_eq_true, if_false]

/-- The error belongs to the parameters that were asked for. -/
theorem Waits.tell {o : Es C} {θ : Vec} {log : List (Vec × ℝ)} (h : Waits o θ log) (x : Vec) (f : ℝ) :
    ∃ o', tell o x f = .ok o' ∧ Idle o' (log ++ [(θ, f)]) := by
  obtain ⟨⟨c, hc, hi, hp, hl, hθ⟩, hlam, hlog⟩ := h
  have hmap := map_set_succ (C.sample c.state) o.fitnessValues o.currentIndividual (by omega) f
  by_cases hlast : o.currentIndividual + 1 = c.popSize
  · have hidle : Idle ((o.store f).endGeneration c ((o.store f).generation c)) (log ++ [(θ, f)]) := by
      refine ⟨⟨_, rfl, ?_, fun h => absurd rfl h, ?_⟩, hlam, ?_⟩
      · simp only [Es.endGeneration]; omega
      · simp [Es.endGeneration, Es.store, hl]
      · rw [← hlog]
        simp only [told, Es.endGeneration, Es.store, Es.generation, hp, Option.getD_some, List.range_zero, List.map_nil,
          List.append_nil, List.flatten_append, List.flatten_cons, List.flatten_nil]
        rw [← hlast, hmap, hθ]
        simp
    obtain ⟨c', hc'⟩ : ∃ c', ((o.store f).endGeneration c ((o.store f).generation c)).cmaes = some c' := ⟨_, rfl⟩
    refine ⟨if ((o.store f).endGeneration c ((o.store f).generation c)).terminated c'
      then (((o.store f).endGeneration c ((o.store f).generation c)).restart x).2
      else (o.store f).endGeneration c ((o.store f).generation c), ?_, ?_⟩
    · rw [OctopusAgent.tell, Es.setError, hc]
      simp only [if_pos hi, if_pos hlast, Outcome.ok_bind, hc']
    · split
      · exact restart_idle hidle rfl x
      · exact hidle
  · refine ⟨o.store f, tell_store hc (by omega) x f, ⟨c, hc, ?_, fun _ => hp, ?_⟩, hlam, ?_⟩
    · simp only [Es.store]; omega
    · simp [Es.store, hl]
    · rw [← hlog]
      simp only [told, Es.store, hp, Option.getD_some]
      rw [hmap, hθ]
      simp

/-! ## Episodes -/

theorem calls_append (z : ℕ → ℝ) (cs ds : List Call) : ∀ (a : Arm C),
    Arm.calls z (cs ++ ds) a = Arm.calls z cs a >>= fun a' => Arm.calls z ds a' := by
  induction cs with
  | nil => intro a; rfl
  | cons c cs ih =>
    intro a
    simp only [List.cons_append, Arm.calls, bind_assoc, ih]

theorem calls_steps (T : Text) (z : ℕ → ℝ) (turns : List Turn) : ∀ (a : Arm C),
    Arm.calls z (turnCalls T turns) a = .ok { a with ret := a.ret + (turns.map fun t => T.atof t.reward).sum } := by
  induction turns with
  | nil => intro a; simp [turnCalls, Arm.calls]
  | cons t ts ih =>
    intro a
    have := ih (a.step (T.atof t.reward))
    simp only [turnCalls, List.map_cons, Arm.calls, Arm.call, Outcome.ok_bind] at this ⊢
    rw [this]
    simp [Arm.step, add_assoc]

/-- One episode. -/
theorem episode_learns (T : Text) (z : ℕ → ℝ) (s : Script) (hs : Started s) {a : Arm C} {log : List (Vec × ℝ)}
    (h : Idle a.opt log) : ∃ a' θ, Arm.calls z (s.calls T) a = .ok a' ∧
      Idle a'.opt (log ++ [(θ, noisy z a.ends (rewards T s))]) ∧ a'.ends = a.ends + 1 ∧ a'.theta = θ ∧
      ((a.bestReturn < rewards T s ∧ a'.bestReturn = rewards T s ∧ a'.bestParameters = θ) ∨
        (rewards T s ≤ a.bestReturn ∧ a'.bestReturn = a.bestReturn ∧ a'.bestParameters = a.bestParameters)) := by
  cases s with
  | over _ => exact hs.elim
  | run first turns last =>
    obtain ⟨θ, o, h1, h2⟩ := h.ask
    obtain ⟨o', h3, h4⟩ := h2.tell θ (noisy z a.ends (rewards T (.run first turns last)))
    have e1 : Arm.calls z (Script.calls T (.run first turns last)) a
        = Arm.finish z { a with opt := o, theta := θ, ret := 0 + (turns.map fun t => T.atof t.reward).sum }
            (T.atof last.reward) := by
      simp only [Script.calls, Arm.calls, Arm.call, Arm.start, h1, Outcome.ok_bind, Outcome.pure_eq, calls_append, calls_steps]
      cases Arm.finish z { a with opt := o, theta := θ, ret := 0 + (turns.map fun t => T.atof t.reward).sum }
            (T.atof last.reward) <;> rfl
    have hR : Arm.total { a with opt := o, theta := θ, ret := 0 + (turns.map fun t => T.atof t.reward).sum }
        (T.atof last.reward) = rewards T (.run first turns last) := by
      simp [Arm.total, rewards]
    rw [e1, Arm.finish, hR]
    dsimp only
    rw [show tell o θ (-(rewards T (.run first turns last)) + 0.1 * rewards T (.run first turns last) * z a.ends) = .ok o' from h3]
    refine ⟨_, θ, rfl, h4, rfl, ?_, ?_⟩
    · simp only [Arm.keep]; split <;> rfl
    · by_cases hb : a.bestReturn < rewards T (.run first turns last)
      · left
        unfold Arm.keep
        dsimp only
        rw [if_pos hb]
        exact ⟨hb, rfl, rfl⟩
      · right
        unfold Arm.keep
        dsimp only
        rw [if_neg hb]
        exact ⟨not_lt.1 hb, rfl, rfl⟩

/-- `agent_init` -/
theorem init_idle {lambda : ℕ} (hl : 0 < lambda) (x0 : Vec) : Idle (agentInit (C := C) lambda x0).opt [] := by
  have hr : ((Es.new C ⟨5000, 1000, -big⟩ lambda).restart x0).2 = (Es.new C ⟨5000, 1000, -big⟩ lambda).restarted x0 := by
    rw [Es.restart, if_neg]
    simp [Es.new]
  unfold agentInit
  dsimp only
  rw [hr]
  refine ⟨⟨_, rfl, ?_, fun h => absurd rfl h, ?_⟩, ?_, ?_⟩
  · simpa [Es.restarted, Es.new, Es.nextLambda] using hl
  · simp [Es.restarted, Es.new, Es.nextLambda]
  · simpa [Es.restarted, Es.new, Es.nextLambda] using hl
  · simp [told, Es.restarted, Es.new]

/-- C98: any number of episodes that have a step, with any rewards and random numbers.  The optimiser is told exactly one error for each
episode, in order, made from the sum of its rewards and assigned to the parameters that played it, and the best return and its
parameters are kept. -/
theorem agent_learns_partial (T : Text) (z : ℕ → ℝ) {lambda : ℕ} (hl : 0 < lambda) (x0 : Vec) (ss : List Script)
    (hs : ∀ s ∈ ss, Started s) :
    ∃ (a : Arm C) (θ : ℕ → Vec), Arm.calls z (ss.flatMap (Script.calls T)) (agentInit lambda x0) = .ok a ∧
      told a.opt = (List.range ss.length).map (fun k => (θ k, noisy z k (rewards T (ss.getD k (.over ⟨[], [], []⟩))))) ∧
      Best x0 ((List.range ss.length).map fun k => (θ k, rewards T (ss.getD k (.over ⟨[], [], []⟩))))
        a.bestReturn a.bestParameters := by
  have key : ∀ (ss : List Script), (∀ s ∈ ss, Started s) →
      ∃ (a : Arm C) (θs : List Vec), θs.length = ss.length ∧
      Arm.calls z (ss.flatMap (Script.calls T)) (agentInit lambda x0) = .ok a ∧ a.ends = ss.length ∧
      Idle a.opt ((List.range ss.length).map fun k => (θs.getD k x0, noisy z k (rewards T (ss.getD k (.over ⟨[], [], []⟩))))) ∧
      Best x0 ((List.range ss.length).map fun k => (θs.getD k x0, rewards T (ss.getD k (.over ⟨[], [], []⟩))))
        a.bestReturn a.bestParameters := by
    intro ss
    induction ss using List.reverseRecOn with
    | nil =>
      intro _
      exact ⟨_, [], rfl, rfl, rfl, init_idle hl x0, by simp, Or.inl ⟨rfl, rfl⟩⟩
    | append_singleton ss s ih =>
      intro hs
      obtain ⟨a, θs, hlen, h1, h2, h3, h4, h5⟩ := ih fun u hu => hs u (List.mem_append_left _ hu)
      obtain ⟨a', θ, g1, g2, g3, -, g5⟩ := episode_learns T z s (hs s (by simp)) h3
      have old : ∀ k < ss.length, (ss ++ [s]).getD k (.over ⟨[], [], []⟩) = ss.getD k (.over ⟨[], [], []⟩) ∧
          (θs ++ [θ]).getD k x0 = θs.getD k x0 := by
        intro k hk
        simp [List.getD_eq_getElem?_getD, List.getElem?_append_left hk, List.getElem?_append_left (hlen ▸ hk)]
      have new : (ss ++ [s]).getD ss.length (.over ⟨[], [], []⟩) = s ∧ (θs ++ [θ]).getD ss.length x0 = θ := by
        constructor
        · simp [List.getD_eq_getElem?_getD]
        · rw [← hlen]; simp [List.getD_eq_getElem?_getD]
      have split : ∀ {γ : Type} (f : ℕ → Script → γ),
          ((List.range (ss ++ [s]).length).map fun k => ((θs ++ [θ]).getD k x0, f k ((ss ++ [s]).getD k (.over ⟨[], [], []⟩))))
          = ((List.range ss.length).map fun k => (θs.getD k x0, f k (ss.getD k (.over ⟨[], [], []⟩)))) ++ [(θ, f ss.length s)] := by
        intro γ f
        rw [List.length_append, List.length_singleton, List.range_succ, List.map_append]
        congr 1
        · apply List.map_congr_left
          intro k hk
          obtain ⟨o1, o2⟩ := old k (List.mem_range.1 hk)
          rw [o1, o2]
        · rw [List.map_singleton, new.1, new.2]
      refine ⟨a', θs ++ [θ], by simp [hlen], ?_, by rw [g3, h2]; simp, ?_, ?_⟩
      · rw [List.flatMap_append, calls_append, h1, Outcome.ok_bind]
        simpa using g1
      · rw [split fun k s => noisy z k (rewards T s)]
        rw [h2] at g2
        exact g2
      · rw [split fun _ s => rewards T s]
        rcases g5 with ⟨hb, e1, e2⟩ | ⟨hb, e1, e2⟩
        · refine ⟨fun q hq => ?_, Or.inr (by rw [e1, e2]; simp)⟩
          rw [e1]
          rcases List.mem_append.1 hq with hq | hq
          · exact (h4 q hq).trans hb.le
          · rw [List.mem_singleton.1 hq]
        · refine ⟨fun q hq => ?_, ?_⟩
          · rw [e1]
            rcases List.mem_append.1 hq with hq | hq
            · exact h4 q hq
            · rw [List.mem_singleton.1 hq]; exact hb
          · rw [e1, e2]
            rcases h5 with h5 | h5
            · exact Or.inl h5
            · exact Or.inr (List.mem_append_left _ h5)
  obtain ⟨a, θs, -, h1, -, h3, h4⟩ := key ss hs
  exact ⟨a, fun k => θs.getD k x0, h1, h3.log, h4⟩

/-! ## Episodes without a step -/

/-- The first episode is over before it starts: an error is stored for an individual that does not exist yet, the next episode
dereferences a null pointer. -/
theorem over_first_ub (T : Text) (z : ℕ → ℝ) {lambda : ℕ} (hl : 2 ≤ lambda) (x0 : Vec) (r first : Reading) (turns : List Turn)
    (last : Turn) :
    Arm.calls z (Script.calls T (.over r) ++ Script.calls T (.run first turns last)) (agentInit (C := C) lambda x0) = .ub := by
  have hr : ((Es.new C ⟨5000, 1000, -big⟩ lambda).restart x0).2 = (Es.new C ⟨5000, 1000, -big⟩ lambda).restarted x0 := by
    rw [Es.restart, if_neg]
    simp [Es.new]
  have hlam : (Es.new C ⟨5000, 1000, -big⟩ lambda).nextLambda = lambda := by simp [Es.nextLambda, Es.new]
  obtain ⟨o, ho⟩ : ∃ o, o = (Es.new C ⟨5000, 1000, -big⟩ lambda).restarted x0 := ⟨_, rfl⟩
  obtain ⟨c, hc, hpop⟩ : ∃ c, o.cmaes = some c ∧ c.popSize = lambda := by
    rw [ho]; exact ⟨_, rfl, hlam⟩
  have h0 : o.currentIndividual = 0 := by rw [ho]; rfl
  have hp : o.population = none := by rw [ho]; rfl
  have htell : ∀ x f, tell o x f = .ok (o.store f) := tell_store hc (by omega)
  have hnext : ∀ f, (o.store f).getNext = .ub := by
    intro f
    rw [Es.getNext, show (o.store f).cmaes = some c from hc]
    simp only [Es.store, h0, hp]
    rw [if_pos (by omega), if_neg (by omega)]
  have hopt : (agentInit (C := C) lambda x0).opt = o := by rw [ho]; exact hr
  simp only [Script.calls, List.cons_append, List.nil_append, Arm.calls, Arm.call, Arm.finish, hopt, htell, Outcome.ok_bind,
    Outcome.pure_eq, Arm.start]
  rw [hnext]
  rfl

/-- A later episode that is over before it starts: the return of the episode before is reported for parameters that were never played. -/
theorem over_stale (T : Text) (z : ℕ → ℝ) {lambda : ℕ} (hl : 3 ≤ lambda) (x0 : Vec) (r first : Reading) (turns : List Turn)
    (last : Turn) :
    ∃ a : Arm C, Arm.calls z (Script.calls T (.run first turns last) ++ Script.calls T (.over r)) (agentInit (C := C) lambda x0) = .ok a ∧
      told a.opt = [(C.sample (C.start 0 lambda x0) 0, noisy z 0 (rewards T (.run first turns last))),
        (C.sample (C.start 0 lambda x0) 1, noisy z 1 (rewards T (.run first turns last)))] ∧
      a.theta = C.sample (C.start 0 lambda x0) 0 := by
  have hr : ((Es.new C ⟨5000, 1000, -big⟩ lambda).restart x0).2 = (Es.new C ⟨5000, 1000, -big⟩ lambda).restarted x0 := by
    rw [Es.restart, if_neg]
    simp [Es.new]
  have hlam : (Es.new C ⟨5000, 1000, -big⟩ lambda).nextLambda = lambda := by simp [Es.nextLambda, Es.new]
  obtain ⟨o, ho⟩ : ∃ o, o = (Es.new C ⟨5000, 1000, -big⟩ lambda).restarted x0 := ⟨_, rfl⟩
  have hopt : (agentInit (C := C) lambda x0).opt = o := by rw [ho]; exact hr
  obtain ⟨c, hc, hpop, hst⟩ : ∃ c, o.cmaes = some c ∧ c.popSize = lambda ∧ c.state = C.start 0 lambda x0 := by
    rw [ho]; exact ⟨_, rfl, hlam, by simp [Es.new, Es.nextLambda]⟩
  have h0 : o.currentIndividual = 0 := by rw [ho]; rfl
  have hg : o.generations = [] := by rw [ho]; rfl
  have hlen : o.fitnessValues.length = lambda := by rw [ho]; simp [Es.restarted, hlam]
  obtain ⟨o1, ho1⟩ : ∃ o1, o1 = { o with population := some (C.sample c.state) } := ⟨_, rfl⟩
  have hnext : o.getNext = .ok (C.sample c.state 0, o1) := by
    rw [Es.getNext, hc, ho1]
    simp only [if_pos (show o.currentIndividual < c.popSize by omega), if_pos h0]
    rw [hc]
  have hc1 : o1.cmaes = some c := by rw [ho1]; exact hc
  have h01 : o1.currentIndividual = 0 := by rw [ho1]; exact h0
  have e1 : ∀ x f, tell o1 x f = .ok (o1.store f) := tell_store hc1 (by omega)
  have e2 : ∀ f x g, tell (o1.store f) x g = .ok ((o1.store f).store g) := fun f =>
    tell_store (c := c) (o := o1.store f) hc1 (by simp only [Es.store]; omega)
  have ek : ∀ (b : Arm C) (R : ℝ), (b.keep R).ret = R ∧ (b.keep R).theta = b.theta := by
    intro b R
    unfold Arm.keep
    split <;> exact ⟨rfl, rfl⟩
  have hR : ∀ b : Arm C, Arm.total { b with ret := 0 + (turns.map fun t => T.atof t.reward).sum } (T.atof last.reward)
      = rewards T (.run first turns last) := by
    intro b; simp [Arm.total, rewards]
  obtain ⟨b, run, b1, b2, b3, b4⟩ : ∃ b : Arm C,
      Arm.calls z (Script.calls T (.run first turns last)) (agentInit (C := C) lambda x0) = .ok b ∧
      b.opt = o1.store (noisy z 0 (rewards T (.run first turns last))) ∧ b.ret = rewards T (.run first turns last) ∧
      b.theta = C.sample c.state 0 ∧ b.ends = 1 := by
    simp only [Script.calls, Arm.calls, Arm.call, Arm.start, hopt, hnext, Outcome.ok_bind, Outcome.pure_eq, calls_append, calls_steps]
    rw [Arm.finish, hR { agentInit (C := C) lambda x0 with opt := o1, theta := C.sample c.state 0 }]
    dsimp only
    rw [e1]
    exact ⟨_, rfl, rfl, (ek _ _).1, (ek _ _).2, rfl⟩
  have over : Arm.calls z (Script.calls T (.over r)) b = .ok { b.keep (b.total 0) with
      opt := (o1.store (noisy z 0 (rewards T (.run first turns last)))).store (noisy z 1 (rewards T (.run first turns last))),
      ends := 2 } := by
    simp only [Script.calls, Arm.calls, Arm.call, Arm.finish, b1, e2, b4]
    simp only [Arm.total, b2, add_zero]
    rfl
  refine ⟨_, by rw [calls_append, run, Outcome.ok_bind]; exact over, ?_, ?_⟩
  · simp only [told, Es.store, ho1, h0, hg, Option.getD_some]
    simp [List.range_succ, List.getD_eq_getElem?_getD, hlen, hst, show 0 < lambda by omega, show 1 < lambda by omega]
  · exact (ek _ _).2.trans (by rw [b3, hst])

/-! ## Example -/

example : ∀ s ∈ [tinyRun, tinyRun], Started s := by
  intro s hs
  simp only [List.mem_cons, List.not_mem_nil, or_false, or_self] at hs
  rw [hs]; exact trivial

example : rewards tiny tinyRun = 2 := by
  norm_num [rewards, tinyRun, tiny]

end

end Verif.OctopusAgent
