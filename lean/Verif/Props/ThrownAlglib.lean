import Verif.Model.Thrown
import Verif.Props.AlglibFails

/-!
# C112: exceptions of the optimised object in the optimisers that wrap ALGLIB
-/

namespace Verif.Thrown

open Verif.Alglib

variable {σ τ V J : Type}

/-- A state in which the library has asked for an evaluation. -/
def Asked (L : Library σ V J) (s : σ) : Prop :=
  ∃ s₀, L.next s₀ = (s, .value) ∨ L.next s₀ = (s, .derivative)

theorem pass_again {M : Method σ τ V J} {O : Object τ} {o o' : Opt σ} {s : σ} {t t' : τ}
    (h : pass M.lib O (M.access o) o s t = .ok (.again o' t')) :
    o'.iteration = o.iteration ∧ o'.n = o.n ∧ o'.m = o.m ∧ o'.optimum = o.optimum ∧ o'.stop = o.stop := by
  have key : ∀ (s' : σ) (t₂ : τ), afterAnswer M.lib O o s' t₂ = .ok (.again o' t') →
      o'.iteration = o.iteration ∧ o'.n = o.n ∧ o'.m = o.m ∧ o'.optimum = o.optimum ∧ o'.stop = o.stop := by
    intro s' t₂ h
    unfold afterAnswer at h
    split at h
    · obtain ⟨_, _, h⟩ := Outcome.bind_eq_ok.1 h
      cases h
    · cases h
      exact ⟨rfl, rfl, rfl, rfl, rfl⟩
  unfold pass at h
  split at h
  · cases h
  · cases h
    exact ⟨rfl, rfl, rfl, rfl, rfl⟩
  · cases h
  · obtain ⟨_, _, h⟩ := Outcome.bind_eq_ok.1 h
    obtain ⟨_, _, h⟩ := Outcome.bind_eq_ok.1 h
    obtain ⟨_, _, h⟩ := Outcome.bind_eq_ok.1 h
    exact key _ _ h
  · obtain ⟨_, _, h⟩ := Outcome.bind_eq_ok.1 h
    obtain ⟨_, _, h⟩ := Outcome.bind_eq_ok.1 h
    obtain ⟨_, _, h⟩ := Outcome.bind_eq_ok.1 h
    exact key _ _ h

/-- What is left of a loop that was ended by an exception. -/
theorem loop_left {M : Method σ τ V J} {O : Object τ} {written : σ → σ → Prop} {o o' : Opt σ} {t t' : τ}
    (h : LoopThrows M O written o t o' t') :
    o'.iteration = o.iteration ∧ o'.n = o.n ∧ o'.m = o.m ∧ o'.optimum = o.optimum ∧ o'.stop = o.stop ∧
    ∃ s s', Asked M.lib s ∧ written s s' ∧ o'.state = some s' ∧
      ∃ p t₁, firstEntries o.n (M.lib.x s) = .ok p ∧ O.setParameters t₁ p = .ok t' := by
  induction h with
  | @here o t s p t' s' _ h1 h2 h3 h4 =>
    refine ⟨rfl, rfl, rfl, rfl, rfl, _, s', ⟨s, ?_⟩, h4, rfl, p, t, h2, h3⟩
    rcases h1 with h1 | h1
    · exact Or.inl (Prod.ext rfl h1)
    · exact Or.inr (Prod.ext rfl h1)
  | again _ h1 _ ih =>
    obtain ⟨a1, a2, a3, a4, a5⟩ := pass_again h1
    obtain ⟨b1, b2, b3, b4, b5, s, s', b6, b7, b8, p, t₁, b9, b10⟩ := ih
    exact ⟨b1.trans a1, b2.trans a2, b3.trans a3, b4.trans a4, b5.trans a5, s, s', b6, b7, b8, p, t₁, a2 ▸ b9, b10⟩

theorem prepare_left {M : Method σ τ V J} {O : Object τ} {default : Stop} {o o' : Opt σ} {t : τ}
    (h : prepare M O default o t = .ok o') :
    0 < o'.n ∧ o'.optimum = o.optimum ∧ o'.stop = o.stop ∧
    o'.iteration = (if o.iteration < 0 ∧ M.start = true then 0 else o.iteration) ∧ (0 ≤ o.iteration → o' = o) ∧
    o'.m = (if o.iteration < 0 then M.m O o t else o.m) := by
  unfold prepare at h
  split at h
  · rename_i hi
    obtain ⟨o₁, h1, h⟩ := Outcome.bind_eq_ok.1 h
    obtain ⟨_, h2, h⟩ := Outcome.bind_eq_ok.1 h
    cases h
    have hn : 0 < o'.n := by
      unfold Outcome.check at h2
      split at h2
      · assumption
      · cases h2
    unfold create at h1
    obtain ⟨x, _, h1⟩ := Outcome.bind_eq_ok.1 h1
    split at h1
    · cases h1
    · cases h1
      refine ⟨hn, rfl, rfl, ?_, fun h0 => by omega, (if_pos hi).symm⟩
      simp only [hi, true_and]
  · rename_i hi
    rw [Outcome.ok_bind] at h
    obtain ⟨_, h2, h⟩ := Outcome.bind_eq_ok.1 h
    cases h
    have hn : 0 < o.n := by
      unfold Outcome.check at h2
      split at h2
      · assumption
      · cases h2
    refine ⟨hn, rfl, rfl, ?_, fun _ => rfl, (if_neg hi).symm⟩
    rw [if_neg (fun hx => hi hx.1)]

theorem prepare_running {M : Method σ τ V J} {O : Object τ} {default : Stop} {o : Opt σ} (t : τ) (hi : 0 ≤ o.iteration) (hn : 0 < o.n) :
    prepare M O default o t = .ok o := by
  have hi' : ¬ o.iteration < 0 := by omega
  have hn' : o.n > 0 := hn
  simp [prepare, hi', Outcome.check, hn']

/-- **C112 (the result)**: an exception leaves the optimum as it was before the call; a new optimiser has none. -/
theorem optimum_kept {M : Method σ τ V J} {O : Object τ} {default : Stop} {written : σ → σ → Prop} {o o' : Opt σ} {t t' : τ}
    (h : StepThrows M O default written o t o' t') : o'.optimum = o.optimum ∧ o'.stop = o.stop := by
  cases h with
  | looped h1 h2 =>
    obtain ⟨_, a2, a3, _⟩ := prepare_left h1
    obtain ⟨_, _, _, b4, b5, _⟩ := loop_left h2
    exact ⟨b4.trans a2, b5.trans a3⟩

/-- **C112 is false** for L-BFGS and CG: after an exception the next step does not begin anew and does not repeat the evaluation
either: it calls the library, which asked for an evaluation, without any answer. -/
theorem retry_unanswered_fails {M : Method σ τ V J} {O : Object τ} {default : Stop} {o o' : Opt σ} {t t' : τ}
    (hM : M.start = true ∨ 0 ≤ o.iteration) (h : StepThrows M O default Eq o t o' t') :
    ∃ s, Asked M.lib s ∧ o'.state = some s ∧ 0 ≤ o'.iteration ∧
      ∀ t₁ r, Step M O default o' t₁ r ↔ Looped M O o' t₁ r := by
  cases h with
  | looped h1 h2 =>
    obtain ⟨a1, _, _, a4, _⟩ := prepare_left h1
    obtain ⟨b1, b2, _, _, _, s, s', b6, b7, b8, _⟩ := loop_left h2
    subst b7
    have hi : 0 ≤ o'.iteration := by
      rw [b1, a4]
      split
      · exact le_refl 0
      · rename_i hx
        rcases hM with hM | hM
        · by_contra hneg
          exact hx ⟨by omega, hM⟩
        · exact hM
    refine ⟨s, b6, b8, hi, fun t₁ r => ?_⟩
    have hp : prepare M O default o' t₁ = .ok o' := prepare_running t₁ hi (by rw [b2]; exact a1)
    constructor
    · intro hs
      cases hs with
      | looped h3 h4 =>
        rw [hp] at h3
        cases h3
        exact h4
      | failed h3 => exact absurd hp (h3 _)
    · exact fun hl => .looped hp hl

/-- **C112 is false** for L-BFGS and CG, witness: one exception in the first evaluation, then the run is repeated.  The result is
another one than that of a run without exception. -/
theorem retry_result_fails (lowest : ℝ) (useCG : Bool) :
    ∃ (L : Library Toy ℝ (List ℝ)) (O : Object (List ℝ)) (t t' : List ℝ) (o o' : Opt Toy), o.iteration = -1 ∧
      let M := if useCG then cg L O else lbfgs L O
      StepThrows M O (Stop.default lowest) Eq o t o' t' ∧ t' = t ∧
      (∃ o₁ t₁, Optimize M O (Stop.default lowest) (fun _ => false) o t (.ok (o₁, t₁)) ∧ o₁.optimum = [1]) ∧
      ∃ o₂ t₂, Optimize M O (Stop.default lowest) (fun _ => false) o' t' (.ok (o₂, t₂)) ∧ o₂.optimum = [2] := by
  let o₀ := start 1 lowest
  let m : ℤ := if useCG then 0 else 1
  let s (x : ℝ) (k : ℕ) (b : Bool) : Toy := ⟨[x], m, k, 1, b⟩
  let o₁ : Opt Toy := { o₀ with n := 1, state := some (s 4 0 false), iteration := 0 }
  let o₂ : Opt Toy := { o₁ with state := some (s 2 0 true) }
  let o₃ : Opt Toy := { o₁ with state := some (s 1 1 true), iteration := 1 }
  let o₄ : Opt Toy := { o₃ with iteration := -1, optimum := [1] }
  let q₁ : Opt Toy := { o₁ with state := some (s 4 0 true) }
  let q₂ : Opt Toy := { o₁ with state := some (s 2 1 true), iteration := 1 }
  let q₃ : Opt Toy := { q₂ with iteration := -1, optimum := [2] }
  let M := if useCG then cg descent quarter else lbfgs descent quarter
  have hlib : M.lib = descent := by show (if useCG then _ else _ : Method _ _ _ _).lib = _; cases useCG <;> rfl
  have hset : M.set = false := by show (if useCG then _ else _ : Method _ _ _ _).set = _; cases useCG <;> rfl
  have hacc : ∀ o, M.access o = scalarAccess quarter o.n := by
    intro o
    show (if useCG then _ else _ : Method _ _ _ _).access o = _; cases useCG <;> rfl
  have hprep : prepare M quarter (Stop.default lowest) o₀ [4] = .ok o₁ := by
    show prepare (if useCG then _ else _) _ _ _ _ = _
    cases useCG
    · simp [prepare, o₀, start, Opt.new, create, vecObject, lbfgs, firstEntries, oneIteration_cond, toy, o₁, s, descent, quarter, m]
    · simp [prepare, o₀, start, Opt.new, create, vecObject, cg, firstEntries, oneIteration_cond, toy, o₁, s, descent, quarter, m]
  have hend : ∀ (o e : Opt Toy) (x : ℝ) (t : List ℝ), 0 ≤ o.iteration → o.n = 1 → o.state = some (s x 1 true) →
      e = { o with iteration := -1, optimum := [x] } → Step M quarter (Stop.default lowest) o t (.ok (false, e, t)) := by
    intro o e x t h0 hn hst he
    have h : Looped M quarter o t (do let r ← reset M.lib quarter M.set o t; pure (false, r.1, r.2)) := by
      refine .ended (s := s x 1 true) hst ?_
      rw [hlib]
      have hself : o = { o with state := some (s x 1 true) } := by rw [← hst]
      conv_rhs => rw [hself]
      simp [pass, toy, s, descent]
    have e' : (do let r ← reset M.lib quarter M.set o t; pure (false, r.1, r.2)) = Outcome.ok (false, e, t) := by
      rw [hlib, hset, he]
      simp [reset, hst, firstEntries, s, descent, toy, hn]
    rw [e'] at h
    exact .looped (o' := o) (prepare_running t h0 (by rw [hn]; norm_num)) h
  refine ⟨descent, quarter, [4], [4], o₀, q₁, rfl, ?_, rfl, ⟨o₄, [2], ?_, rfl⟩, q₃, [4], ?_, rfl⟩
  · refine .looped hprep ?_
    have h : LoopThrows M quarter Eq o₁ [4] { o₁ with state := some (s 4 0 true) } [4] := by
      refine .here (s := s 4 0 false) (p := [4]) rfl (Or.inr ?_) ?_ ?_ ?_
      · rw [hlib]; rfl
      · rw [hlib]; simp [firstEntries, o₁, descent, toy, s]
      · simp [quarter, vecObject]
      · rw [hlib]; simp [descent, toy, s]
    exact h
  · refine .next (o' := o₃) (t' := [2]) ?_ rfl (.last (hend o₃ o₄ 1 [2] (by simp [o₃]) rfl rfl rfl))
    refine .looped hprep (.again (s := s 4 0 false) (o' := o₂) (t' := [4]) rfl ?_ (.returned (s := s 2 0 true) rfl ?_))
    · rw [hlib, hacc]
      simp [pass, toy, s, o₁, o₀, start, Opt.new, firstEntries, vecObject, scalarAccess, afterAnswer, o₂, descent, quarter]
      norm_num
    · rw [hlib, hacc]
      simp [pass, toy, s, o₁, o₀, start, Opt.new, firstEntries, vecObject, scalarAccess, afterAnswer, o₂, o₃, descent, quarter]
      norm_num
  · refine .next (o' := q₂) (t' := [4]) ?_ rfl (.last (hend q₂ q₃ 2 [4] (by simp [q₂]) rfl rfl rfl))
    refine .looped (o' := q₁) ?_ (.returned (s := s 4 0 true) rfl ?_)
    · exact prepare_running [4] (le_refl 0) (by norm_num)
    · rw [hlib, hacc]
      simp [pass, toy, s, o₁, o₀, start, Opt.new, firstEntries, vecObject, scalarAccess, afterAnswer, q₁, q₂, descent, quarter]
      norm_num

/-- **C112 (LMA)**: an exception before the first iteration is finished ends the run: the next one gives what a new optimiser gives from
the parameters that the object has then. -/
theorem lma_restarts {L : Library σ (List ℝ) (List (List ℝ))} {O : Object τ} {default : Stop} {written : σ → σ → Prop}
    {o o' : Opt σ} {t t' : τ} (hi : o.iteration = -1) (h : StepThrows (lma L O) O default written o t o' t')
    {signals : ℕ → Bool} {t₁ : τ} {r : Outcome (Opt σ × τ)} :
    Optimize (lma L O) O default signals o' t₁ r ↔
      Optimize (lma L O) O default signals { Opt.new σ o.m default with stop := o.stop } t₁ r := by
  cases h with
  | looped h1 h2 =>
    obtain ⟨_, _, a3, a4, _, a6⟩ := prepare_left h1
    obtain ⟨b1, _, b3, _, b5, _⟩ := loop_left h2
    refine reuse_of (lma_plain L O) ?_ ?_ ?_
    · rw [b1, a4, if_neg (by simp [lma]), hi]
    · rw [b3, a6, if_pos (by omega)]
      rfl
    · rw [b5, a3]

/-- The parameters that the object has after an exception are those of the evaluation that threw; they are not restored. -/
theorem object_moved {M : Method σ τ V J} {O : Object τ} {default : Stop} {written : σ → σ → Prop} {o o' : Opt σ} {t t' : τ}
    (h : StepThrows M O default written o t o' t') :
    ∃ s t₁ p, Asked M.lib s ∧ firstEntries o'.n (M.lib.x s) = .ok p ∧ O.setParameters t₁ p = .ok t' := by
  cases h with
  | looped h1 h2 =>
    obtain ⟨_, b2, _, _, _, s, _, b6, _, _, p, t₁, b9, b10⟩ := loop_left h2
    exact ⟨s, t₁, p, b6, b2 ▸ b9, b10⟩

end Verif.Thrown
