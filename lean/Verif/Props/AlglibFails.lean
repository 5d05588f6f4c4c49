import Verif.Props.AlglibNet
import Verif.Props.NetBatch
import Mathlib.Analysis.Calculus.Deriv.Pow
import Mathlib.Analysis.Calculus.Deriv.Add
import Mathlib.Tactic.NormNum

/-!
# Optimisers that wrap ALGLIB: what does not hold (C71)

A small library and a small object as witnesses.
-/

namespace Verif.Alglib

noncomputable section

/-! ## Witnesses -/

/-- A state of the small library. -/
structure Toy where
  x : List ℝ
  m : ℤ
  count : ℕ
  limit : ℕ
  asked : Bool

/-- A small library: it asks for the derivative at the starting point, then makes `maxits` iterations (5 without limit), each
with one evaluation, and moves every coordinate after each evaluation. -/
def toy {V J : Type} (move : ℤ → V → J → ℝ → ℝ) : Library Toy V J where
  create m x c := some ⟨x, m, 0, if c.maxits ≤ 0 then 5 else c.maxits.toNat, false⟩
  next s := if s.asked = false then ({ s with asked := true }, .derivative)
    else if s.count < s.limit then ({ s with count := s.count + 1 }, .derivative) else (s, .done)
  x s := s.x
  count s := s.count
  putValue s _ := s
  putDerivative s v j := { s with x := s.x.map (move s.m v j) }
  results s := s.x

variable {V J : Type} {move : ℤ → V → J → ℝ → ℝ}

theorem toy_sized : (toy move).Sized fun s => s.x.length where
  create := by
    intro a x c s h
    injection h with h
    rw [← h]
  next s := by
    simp only [toy]
    split
    · rfl
    · split <;> rfl
  putValue _ _ := rfl
  putDerivative s v j := List.length_map ..
  x _ := rfl
  results _ := rfl

theorem toy_counts : (toy move).Counts where
  create := by
    intro a x c s h
    injection h with h
    rw [← h]
    rfl
  next s := by
    simp only [toy]
    split
    · exact le_refl _
    · split
      · push_cast; omega
      · exact le_refl _
  putValue _ _ := rfl
  putDerivative _ _ _ := rfl

theorem toy_limits : (toy move).Limits := by
  intro f d a x c s₀ s h hc hr
  suffices H : s.limit = c.maxits.toNat ∧ s.count ≤ s.limit by
    show ((s.count : ℕ) : ℤ) ≤ _
    omega
  injection h with h
  induction hr with
  | refl =>
    rw [← h]
    exact ⟨if_neg (by omega), Nat.zero_le _⟩
  | @tail b c' _ h1 ih =>
    have key : ((toy move).next b).1.limit = b.limit ∧ (b.count ≤ b.limit → ((toy move).next b).1.count ≤ b.limit) := by
      simp only [toy]
      split
      · exact ⟨rfl, id⟩
      · split
        · exact ⟨rfl, fun _ => by simp only; omega⟩
        · exact ⟨rfl, id⟩
    cases h1
    · exact ⟨key.1.trans ih.1, by show _ ≤ ((toy move).next b).1.limit; rw [key.1]; exact key.2 ih.2⟩
    · exact ⟨key.1.trans ih.1, by show _ ≤ ((toy move).next b).1.limit; rw [key.1]; exact key.2 ih.2⟩
    · exact ⟨key.1.trans ih.1, by rw [key.1]; exact key.2 ih.2⟩

/-- A small object: its state is its parameter vector; `n` parameters and one example. -/
def vecObject (n : ℕ) (f : List ℝ → ℝ) (g : List ℝ → List ℝ) : Object (List ℝ) where
  dimension _ := n
  examples _ := 1
  current t := t
  setParameters _ v := if v.length < n then .ub else .ok v
  error t := .ok (f t, t)
  errorGradient t := .ok ((f t, g t), t)
  errorAt t _ := .ok (f t, t)
  errorGradientAt t _ := .ok ((f t, g t), t)
  finishedIteration t := .ok t

theorem vecObject_computes {n : ℕ} {f : List ℝ → ℝ} {g : List ℝ → List ℝ} (hg : ∀ v : List ℝ, v.length = n → (g v).length = n) :
    Computes (vecObject n f g) (scalarAccess (vecObject n f g) n) (fun t => t.length = n) n f (fun v => (f v, g v)) where
  dimension _ := rfl
  current h := h
  set := by
    intro t v _ hv
    refine ⟨v, if_neg (by omega), hv, ⟨v, rfl, hv⟩, v, ?_, hv⟩
    simp [scalarAccess, vecObject, firstEntries_ok (hg v hv)]
  finished h := ⟨_, rfl, h⟩

theorem vecObject_computes_lma {n : ℕ} {f : List ℝ → ℝ} {g : List ℝ → List ℝ}
    (hg : ∀ v : List ℝ, v.length = n → (g v).length = n) :
    Computes (vecObject n f g) (vectorAccess (vecObject n f g)) (fun t => t.length = n) n (fun v => [f v])
      (fun v => ([f v], [g v])) where
  dimension _ := rfl
  current h := h
  set := by
    intro t v _ hv
    refine ⟨v, if_neg (by omega), hv, ⟨v, rfl, hv⟩, v, ?_, hv⟩
    simp [vectorAccess, vectorDerivative, vecObject, firstEntries_ok (hg v hv)]
  finished h := ⟨_, rfl, h⟩

/-! ## Negations -/

/-- One iteration is allowed. -/
def oneIteration (lowest : ℝ) : Stop := { Stop.default lowest with maximalIterations := 1 }

theorem oneIteration_cond (lowest : ℝ) : (oneIteration lowest).cond (Stop.default lowest) = ⟨0, 0, 0, 1⟩ := by
  simp [Stop.cond, oneIteration, Stop.default]

/-- The optimiser for the witnesses: `m` corrections, one iteration. -/
def start (m : ℤ) (lowest : ℝ) : Opt Toy := { Opt.new Toy m (Stop.default lowest) with stop := oneIteration lowest }

/-- **C71 (negation: a number of iterations for LMA)**: LMA may make one step more than `maximalIterations`; the first step only
evaluates the starting point. -/
theorem lma_budget_fails (lowest : ℝ) :
    ∃ (L : Library Toy (List ℝ) (List (List ℝ))) (O : Object (List ℝ)) (t t' : List ℝ) (o o' : Opt Toy), L.Limits ∧
      o.iteration = -1 ∧ o.stop.maximalIterations = 1 ∧
      Session (lma L O) O (Stop.default lowest) (fun t => t.length = 1) o t 2 o' t' := by
  let o₀ := start 0 lowest
  let s (k : ℕ) (b : Bool) : Toy := ⟨[0], 1, k, 1, b⟩
  let o₁ : Opt Toy := { o₀ with n := 1, state := some (s 0 false) }
  let o₂ : Opt Toy := { o₁ with state := some (s 0 true), iteration := 0 }
  let o₃ : Opt Toy := { o₁ with state := some (s 1 true), iteration := 1 }
  refine ⟨toy fun _ _ _ x => x, vecObject 1 (fun _ => 0) fun _ => [0], [0], [0], o₀, o₃, toy_limits, rfl, rfl, ?_⟩
  refine .step (t₂ := [0]) (.step (o₂ := o₂) (t₂ := [0]) (t₃ := [0]) .nil ?_ rfl) ?_ rfl
  · refine .looped (o' := o₁) ?_ (.returned (s := s 0 false) rfl ?_)
    · simp [prepare, o₀, start, Opt.new, create, vecObject, lma, firstEntries, oneIteration_cond, toy, o₁, s]
    · simp [pass, toy, lma, s, o₁, o₀, start, Opt.new, firstEntries, vecObject, vectorAccess, vectorDerivative, afterAnswer, o₂]
  · refine .looped (o' := o₂) ?_ (.returned (s := s 0 true) rfl ?_)
    · simp [prepare, o₂, o₁]
    · simp [pass, toy, lma, s, o₁, o₀, start, Opt.new, firstEntries, vecObject, vectorAccess, vectorDerivative, afterAnswer, o₂, o₃]

/-- `x² / 4` with its derivative. -/
def quarter : Object (List ℝ) := vecObject 1 (fun v => v.headD 0 ^ 2 / 4) fun v => [v.headD 0 / 2]

/-- The small library with a step along the gradient. -/
def descent : Library Toy ℝ (List ℝ) := toy fun _ _ g x => x - g.headD 0

/-- **C71 (negation: the object holds the optimum)**: after `optimize()` of L-BFGS or CG the object has the parameters that were
evaluated last, not the optimum, until `result()` is called. -/
theorem optimum_not_held_fails (lowest : ℝ) :
    ∃ (L : Library Toy ℝ (List ℝ)) (O : Object (List ℝ)) (t : List ℝ) (o : Opt Toy), o.iteration = -1 ∧
      (∃ o' t', Optimize (lbfgs L O) O (Stop.default lowest) (fun _ => false) o t (.ok (o', t')) ∧ O.current t' ≠ o'.optimum) ∧
      ∃ o' t', Optimize (cg L O) O (Stop.default lowest) (fun _ => false) o t (.ok (o', t')) ∧ O.current t' ≠ o'.optimum := by
  let o₀ := start 1 lowest
  let s (m : ℤ) (x : ℝ) (k : ℕ) (b : Bool) : Toy := ⟨[x], m, k, 1, b⟩
  let o₁ (m : ℤ) : Opt Toy := { o₀ with n := 1, state := some (s m 4 0 false), iteration := 0 }
  let o₂ (m : ℤ) : Opt Toy := { o₁ m with state := some (s m 2 0 true) }
  let o₃ (m : ℤ) : Opt Toy := { o₁ m with state := some (s m 1 1 true), iteration := 1 }
  let o₄ (m : ℤ) : Opt Toy := { o₃ m with iteration := -1, optimum := [1] }
  refine ⟨descent, quarter, [4], o₀, rfl, ⟨o₄ 1, [2], ?_, ?_⟩, o₄ 0, [2], ?_, ?_⟩
  · refine .next (o' := o₃ 1) (t' := [2]) ?_ rfl (.last ?_)
    · refine .looped (o' := o₁ 1) ?_ (.again (s := s 1 4 0 false) (o' := o₂ 1) (t' := [4]) rfl ?_ (.returned (s := s 1 2 0 true) rfl ?_))
      · simp [prepare, o₀, start, Opt.new, create, vecObject, lbfgs, firstEntries, oneIteration_cond, toy, o₁, s, descent, quarter]
      · simp [pass, toy, lbfgs, s, o₁, o₀, start, Opt.new, firstEntries, vecObject, scalarAccess, afterAnswer, o₂, descent, quarter]
        norm_num
      · simp [pass, toy, lbfgs, s, o₁, o₀, start, Opt.new, firstEntries, vecObject, scalarAccess, afterAnswer, o₂, o₃, descent, quarter]
        norm_num
    · have h : Looped (lbfgs descent quarter) quarter (o₃ 1) [2]
          (do let r ← reset descent quarter false (o₃ 1) [2]; pure (false, r.1, r.2)) := .ended (s := s 1 1 1 true) rfl (by
            simp [pass, toy, lbfgs, s, o₁, o₀, start, Opt.new, o₃, descent])
      have e : (do let r ← reset descent quarter false (o₃ 1) [2]; pure (false, r.1, r.2)) = Outcome.ok (false, o₄ 1, [2]) := by
        simp [reset, firstEntries, o₃, s, descent, toy, o₁, o₄]
      rw [e] at h
      exact .looped (o' := o₃ 1) (by simp [prepare, o₃, o₁]) h
  · simp [quarter, vecObject, o₄]
  · refine .next (o' := o₃ 0) (t' := [2]) ?_ rfl (.last ?_)
    · refine .looped (o' := o₁ 0) ?_ (.again (s := s 0 4 0 false) (o' := o₂ 0) (t' := [4]) rfl ?_ (.returned (s := s 0 2 0 true) rfl ?_))
      · simp [prepare, o₀, start, Opt.new, create, vecObject, cg, firstEntries, oneIteration_cond, toy, o₁, s, descent, quarter]
      · simp [pass, toy, cg, s, o₁, o₀, start, Opt.new, firstEntries, vecObject, scalarAccess, afterAnswer, o₂, descent, quarter]
        norm_num
      · simp [pass, toy, cg, s, o₁, o₀, start, Opt.new, firstEntries, vecObject, scalarAccess, afterAnswer, o₂, o₃, descent, quarter]
        norm_num
    · have h : Looped (cg descent quarter) quarter (o₃ 0) [2]
          (do let r ← reset descent quarter false (o₃ 0) [2]; pure (false, r.1, r.2)) := .ended (s := s 0 1 1 true) rfl (by
            simp [pass, toy, cg, s, o₁, o₀, start, Opt.new, o₃, descent])
      have e : (do let r ← reset descent quarter false (o₃ 0) [2]; pure (false, r.1, r.2)) = Outcome.ok (false, o₄ 0, [2]) := by
        simp [reset, firstEntries, o₃, s, descent, toy, o₁, o₄]
      rw [e] at h
      exact .looped (o' := o₃ 0) (by simp [prepare, o₃, o₁]) h
  · simp [quarter, vecObject, o₄]

/-- **C71 (negation: `result()` without a run)**: `result()` of a new optimiser hands the network an empty parameter vector, which is
read out of bounds. -/
theorem result_before_ub {σ : Type} (net : NN.Net) (hP : 0 < net.P) (ds : NN.TrainSet)
    (after : NN.NetState → NN.Scratch → NN.Scratch) (m : ℤ) (default : Stop) (t : NN.NetState × NN.Scratch) :
    result (netObject net ds after) (Opt.new σ m default) t = .ub := by
  simp [result, netObject, Opt.new, NN.Net.set, hP]

/-- **C71 (negation: another object during a run)**: `setOptimizable` does not end a run: the next step hands the new object points
of the dimension of the old one, which an object with more parameters reads out of bounds. -/
theorem other_object_ub (lowest : ℝ) :
    ∃ (L : Library Toy ℝ (List ℝ)) (O O' : Object (List ℝ)) (t t₁ t' : List ℝ) (o o₁ : Opt Toy), o.iteration = -1 ∧
      Step (lbfgs L O) O (Stop.default lowest) o t (.ok (true, o₁, t₁)) ∧ Step (lbfgs L O') O' (Stop.default lowest) o₁ t' .ub := by
  let o₀ := Opt.new Toy 1 (Stop.default lowest)
  let s (x : ℝ) (k : ℕ) (b : Bool) : Toy := ⟨[x], 1, k, 5, b⟩
  let o₁ : Opt Toy := { o₀ with n := 1, state := some (s 4 0 false), iteration := 0 }
  let o₂ : Opt Toy := { o₁ with state := some (s 2 0 true) }
  let o₃ : Opt Toy := { o₁ with state := some (s 1 1 true), iteration := 1 }
  let O' := vecObject 2 (fun _ => 0) fun _ => [0, 0]
  refine ⟨descent, quarter, O', [4], [2], [0, 0], o₀, o₃, rfl, ?_, ?_⟩
  · refine .looped (o' := o₁) ?_ (.again (s := s 4 0 false) (o' := o₂) (t' := [4]) rfl ?_ (.returned (s := s 2 0 true) rfl ?_))
    · simp [prepare, o₀, Opt.new, create, vecObject, lbfgs, firstEntries, Stop.cond, toy, o₁, s, descent, quarter]
    · simp [pass, toy, lbfgs, s, o₁, o₀, Opt.new, firstEntries, vecObject, scalarAccess, afterAnswer, o₂, descent, quarter]
      norm_num
    · simp [pass, toy, lbfgs, s, o₁, o₀, Opt.new, firstEntries, vecObject, scalarAccess, afterAnswer, o₂, o₃, descent, quarter]
      norm_num
  · have e : pass descent O' (scalarAccess O' 1) o₃ (s 1 1 true) [0, 0] = .ub := by
      simp [pass, toy, s, o₁, o₃, firstEntries, descent, O', vecObject]
    have h : Looped (lbfgs descent O') O' o₃ [0, 0] (do
        let _ ← pass descent O' (scalarAccess O' 1) o₃ (s 1 1 true) [0, 0]
        .throws) := .failed (s := s 1 1 true) rfl fun p hp => by
      have hp : pass descent O' (scalarAccess O' 1) o₃ (s 1 1 true) [0, 0] = .ok p := hp
      rw [e] at hp
      cases hp
    rw [e] at h
    exact .looped (o' := o₃) (by simp [prepare, o₃, o₁]) h

/-- The run of the small library on an objective, if one iteration is allowed. -/
theorem toy_solves {V J : Type} {move : ℤ → V → J → ℝ → ℝ} (f : List ℝ → V) (d : List ℝ → V × J) (m : ℤ) (x : List ℝ) :
    Solves (toy move) f d ⟨x, m, 0, 1, false⟩
      ((x.map (move m (d x).1 (d x).2)).map
        (move m (d (x.map (move m (d x).1 (d x).2))).1 (d (x.map (move m (d x).1 (d x).2))).2)) := by
  refine ⟨⟨_, m, 1, 1, true⟩, ?_, rfl, rfl⟩
  exact (Relation.ReflTransGen.single (Exchange.derivative (L := toy move) (s := ⟨x, m, 0, 1, false⟩) rfl)).tail
    (Exchange.derivative (L := toy move) (s := ⟨x.map (move m (d x).1 (d x).2), m, 0, 1, true⟩) rfl)

/-- **C71 (negation: reuse of L-BFGS, witness)**: a library, a problem with one and a problem with two parameters such that the
optimiser with two corrections that has solved the first problem does not solve the second one as a new optimiser does. -/
theorem lbfgs_reuse_witness_fails (lowest : ℝ) :
    ∃ (L : Library Toy ℝ (List ℝ)) (O O' : Object (List ℝ)) (t t₁ t' t₂ t₃ : List ℝ) (o o' o₁ o₂ : Opt Toy), o.iteration = -1 ∧
      Optimize (lbfgs L O) O (Stop.default lowest) (fun _ => false) o t (.ok (o', t₁)) ∧
      Optimize (lbfgs L O') O' (Stop.default lowest) (fun _ => false) o t' (.ok (o₁, t₂)) ∧
      Optimize (lbfgs L O') O' (Stop.default lowest) (fun _ => false) o' t' (.ok (o₂, t₃)) ∧ o₁.optimum ≠ o₂.optimum := by
  let L : Library Toy ℝ (List ℝ) := toy fun m _ _ x => x - m
  have hL : L.Sized fun s => s.x.length := toy_sized
  have hC : L.Counts := toy_counts
  let O := vecObject 1 (fun _ => 0) fun _ => [0]
  let O' := vecObject 2 (fun _ => 0) fun _ => [0, 0]
  have hO : Computes O (scalarAccess O (1 : ℕ)) (fun t => t.length = 1) 1 (fun _ => 0) fun _ => (0, [0]) :=
    vecObject_computes fun _ _ => rfl
  have hO' : Computes O' (scalarAccess O' (2 : ℕ)) (fun t => t.length = 2) 2 (fun _ => 0) fun _ => (0, [0, 0]) :=
    vecObject_computes fun _ _ => rfl
  have hc : ∀ (m : ℤ) x, L.create m x ((oneIteration lowest).cond (Stop.default lowest)) = some ⟨x, m, 0, 1, false⟩ := by
    intro m x
    rw [oneIteration_cond]
    rfl
  have hS : ∀ (d : List ℝ → ℝ × List ℝ) (m : ℤ) (x : List ℝ),
      Solves L (fun _ => 0) d ⟨x, m, 0, 1, false⟩ ((x.map fun x => x - (m : ℝ)).map fun x => x - (m : ℝ)) :=
    fun d m x => toy_solves _ d m x
  obtain ⟨o', t₁, h1, _⟩ := optimize_solves (M := lbfgs L O) (default := Stop.default lowest) (o := start 2 lowest) (t := [0])
    (n := 1) (size := fun s => s.x.length) hL hC (lbfgs_computes hO) (by norm_num) rfl rfl (hc _ _) (hS _ _ _)
  obtain ⟨o₁, o₂, t₂, t₃, h2, h3, h4⟩ := lbfgs_reuse_fails (L := L) (O := O) (O' := O') (default := Stop.default lowest)
    (size := fun s => s.x.length) hL hC hO (by norm_num) hO' (by norm_num) (m := 2) (q := oneIteration lowest)
    (t := [0]) rfl h1 (t' := [0, 0]) rfl (hc _ _) (hS _ _ _) (hc _ _) (hS _ _ _)
    (by simp [O', vecObject]; norm_num)
  exact ⟨L, O, O', [0], t₁, [0, 0], t₂, t₃, start 2 lowest, o', o₁, o₂, rfl, h1, h2, h3, h4⟩

/-! ## The objective of LMA -/

open NN in
/-- One linear neuron with one weight and no bias. -/
def neuron : Net := buildNet 1 [.fullyConnected 1 false .linear ⟨0, 0, 0⟩] false

/-- Two examples: `1 ↦ 0` and `2 ↦ 2`. -/
def twoExamples : NN.TrainSet := ⟨2, fun n _ => n + 1, fun n _ => 2 * n⟩

open NN Finset in
theorem neuron_errorAt (mem : Mem) (θ : ℝ) (n : ℕ) :
    neuron.errorAt (neuron.setParameters mem [θ]) twoExamples n = (θ * (n + 1) - 2 * n) ^ 2 / 2 := by
  have hset : neuron.setParameters mem [θ] = mem.write (1, .w [0, 0]) θ := by
    rw [setParameters_unconstrained]
    · rfl
    · intro l hl w
      have hl : l ∈ [inputLayer 1, NN.fullyConnected 1 1 false .linear ⟨0, 0, 0⟩] := hl
      simp only [List.mem_cons, List.not_mem_nil, or_false] at hl
      rcases hl with rfl | rfl
      · rfl
      · exact maxNormUpdate_nonpos (le_refl _) w
  rw [hset, Net.errorAt]
  have hr : regFrom (mem.write (1, .w [0, 0]) θ) 0 neuron.layers = 0 := by
    show (0 : ℝ) + (Reg.error ⟨0, 0, 0⟩ _ _ + 0) = 0
    rw [Reg.error_zero ⟨le_refl _, le_refl _⟩]
    norm_num
  have ho : neuron.output (mem.write (1, .w [0, 0]) θ) 1 (fun _ => twoExamples.inst n) 0 0 = (n + 1) * θ := by
    show (∑ i ∈ range 1, ((n : ℝ) + 1) * _) + (0 : ℝ) = _
    rw [sum_range_one, add_zero]
    congr 1
  have hl : ∀ Y T : Batch, neuron.loss 1 Y T = (Y 0 0 - T 0 0) ^ 2 / 2 := by
    intro Y T
    show meanSquaredError 1 1 _ = _
    simp [meanSquaredError]
  rw [hr, hl, ho, add_zero]
  show ((n + 1) * θ - 2 * n : ℝ) ^ 2 / 2 = _
  ring

theorem neuron_errors (θ : ℝ) : netErrors neuron twoExamples [θ] = [θ ^ 2 / 2, (2 * θ - 2) ^ 2 / 2] := by
  have h : netErrors neuron twoExamples [θ] = [neuron.errorAt (neuron.setParameters (fun _ _ => 0) [θ]) twoExamples 0,
      neuron.errorAt (neuron.setParameters (fun _ _ => 0) [θ]) twoExamples 1] := rfl
  rw [h, neuron_errorAt, neuron_errorAt]
  norm_num
  ring

theorem neuron_error (θ : ℝ) : netError neuron twoExamples [θ] = (θ ^ 2 / 2 + (2 * θ - 2) ^ 2 / 2) / 2 := by
  rw [netError, NN.error_mean]
  show (∑ n ∈ Finset.range 2, neuron.errorAt (neuron.setParameters (fun _ _ => 0) [θ]) twoExamples n) / ((2 : ℕ) : ℝ) = _
  rw [Finset.sum_range_succ, Finset.sum_range_one, neuron_errorAt, neuron_errorAt]
  norm_num
  ring

/-- **C71 (negation: the objective of LMA)**: the library minimises the sum of the squares of what LMA hands over, which are the
errors (already squares) of the examples.  There are a network and examples such that the minimum of `error()` is not a
stationary point of this sum. -/
theorem lma_objective_fails : ∃ (net : NN.Net) (ds : NN.TrainSet) (θ c : ℝ), net.P = 1 ∧
    (∀ x, netError net ds [θ] ≤ netError net ds [x]) ∧ c ≠ 0 ∧
    HasDerivAt (fun x => ((netErrors net ds [x]).map (· ^ 2)).sum) c θ := by
  refine ⟨neuron, twoExamples, 4 / 5, 48 / 125, rfl, ?_, by norm_num, ?_⟩
  · intro x
    rw [neuron_error, neuron_error]
    nlinarith [sq_nonneg (5 * x - 4)]
  · have h : (fun x : ℝ => ((netErrors neuron twoExamples [x]).map (· ^ 2)).sum) =
        fun x => (x ^ 2 / 2) ^ 2 + ((2 * x - 2) ^ 2 / 2) ^ 2 := by
      funext x
      rw [neuron_errors]
      simp
    rw [h]
    have h1 := ((((hasDerivAt_id (4 / 5 : ℝ)).pow 2).div_const 2).pow 2).add
      ((((((hasDerivAt_id (4 / 5 : ℝ)).const_mul 2).sub_const 2).pow 2).div_const 2).pow 2)
    refine h1.congr_deriv ?_ |>.congr_of_eventuallyEq ?_
    · norm_num
    · exact Filter.Eventually.of_forall fun x => by simp

/-- The hypotheses of `run_solves`, `optimize_spec` and `optimize_solves` are met by the small library and object. -/
example : descent.Sized (fun s => s.x.length) ∧ descent.Counts ∧ descent.Limits ∧
    Computes quarter (scalarAccess quarter 1) (fun t => t.length = 1) 1 (fun v => v.headD 0 ^ 2 / 4)
      (fun v => (v.headD 0 ^ 2 / 4, [v.headD 0 / 2])) :=
  ⟨toy_sized, toy_counts, toy_limits, vecObject_computes fun _ _ => rfl⟩

end

end Verif.Alglib
