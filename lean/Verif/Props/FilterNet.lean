import Verif.Model.FilterNet
import Verif.Props.AlphaBeta
import Verif.Props.NetBatch

/-!
# C106: a network with an alpha-beta filter answers from its parameters and the inputs since they were set
-/

namespace Verif.FilterNet

open Verif.NN Verif.AlphaBeta

/-! ## Determined after `setParameters` -/

theorem writeAll_agree {ps : List Loc} {θ : List ℝ} {m m' : Mem} (hl : ps.length ≤ θ.length)
    (h : ∀ p : Loc, p ∉ ps → m p.1 p.2 = m' p.1 p.2) : m.writeAll ps θ = m'.writeAll ps θ := by
  induction ps generalizing θ m m' with
  | nil =>
    have : m = m' := funext fun k => funext fun s => h (k, s) List.not_mem_nil
    rw [this]
  | cons a ps ih =>
    cases θ with
    | nil => exact absurd hl (by simp)
    | cons v θ =>
      refine ih (m := m.write a v) (m' := m'.write a v) (by simpa using hl) fun p hp => ?_
      unfold Mem.write
      by_cases hpa : (p.1, p.2) = a
      · rw [if_pos hpa, if_pos hpa]
      · rw [if_neg hpa, if_neg hpa]
        refine h p fun hm => ?_
        rcases List.mem_cons.1 hm with e | e
        · exact hpa e
        · exact hp e

theorem writeAll_other {ps : List Loc} {θ : List ℝ} {m m' : Mem} {p : Loc} (h : m p.1 p.2 = m' p.1 p.2) :
    m.writeAll ps θ p.1 p.2 = m'.writeAll ps θ p.1 p.2 := by
  induction ps generalizing θ m m' with
  | nil => exact h
  | cons a ps ih =>
    cases θ with
    | nil => exact h
    | cons v θ =>
      refine ih (m := m.write a v) (m' := m'.write a v) ?_
      unfold Mem.write
      by_cases hpa : (p.1, p.2) = a
      · rw [if_pos hpa, if_pos hpa]
      · rw [if_neg hpa, if_neg hpa]
        exact h

theorem writeAll_hit {ps : List Loc} {θ : List ℝ} {m m' : Mem} {p : Loc} (hl : ps.length ≤ θ.length) (hp : p ∈ ps) :
    m.writeAll ps θ p.1 p.2 = m'.writeAll ps θ p.1 p.2 := by
  induction ps generalizing θ m m' with
  | nil => exact absurd hp List.not_mem_nil
  | cons a ps ih =>
    cases θ with
    | nil => exact absurd hl (by simp)
    | cons v θ =>
      by_cases hp' : p ∈ ps
      · exact ih (m := m.write a v) (m' := m'.write a v) (by simpa using hl) hp'
      · have e : (p.1, p.2) = a := by
          rcases List.mem_cons.1 hp with e | e
          · exact e
          · exact absurd e hp'
        refine writeAll_other (m := m.write a v) (m' := m'.write a v) ?_
        unfold Mem.write
        rw [if_pos e, if_pos e]

/-- Both networks have the same numbers that are not parameters (for example the random weights of an `Extreme` layer). -/
def SameFixed (net : FNet) (m m' : Mem) : Prop :=
  ∀ p : Loc, p ∉ net.preLocs → p ∉ net.postLocs → m p.1 p.2 = m' p.1 p.2

theorem writeWeights_agree {net : FNet} {m m' : Mem} {θ : List ℝ} (hl : net.P ≤ θ.length) (h : SameFixed net m m') :
    net.writeWeights m θ = net.writeWeights m' θ := by
  have hP : net.preLocs.length + net.I + net.postLocs.length ≤ θ.length := hl
  unfold FNet.writeWeights
  refine congrArg _ (congrArg _ (writeAll_agree (by rw [List.length_drop]; omega) fun p hp => ?_))
  by_cases hq : p ∈ net.preLocs
  · exact writeAll_hit (by omega) hq
  · exact writeAll_other (h p hq hp)

/-- **C106 (history does not matter)**: `setParameters` brings every network of the same architecture into the same state,
whatever it has been through: new or used, whatever parameters, inputs and resets it has seen. -/
theorem set_determined (net : FNet) {s s' : State} (h : SameFixed net s.mem s'.mem) (θ : List ℝ) : net.set s θ = net.set s' θ := by
  unfold FNet.set
  by_cases hl : θ.length < net.P
  · rw [if_pos hl, if_pos hl]
  · rw [if_neg hl, if_neg hl, writeWeights_agree (by omega) h]

/-- **C106 (answers are determined)**: after `setParameters` with a complete vector all later answers, of predictions, errors,
gradients and `currentParameters`, are a function of the vector and the later calls. -/
theorem answers_determined (net : FNet) (ds : TrainSet) {s s' : State} (h : SameFixed net s.mem s'.mem) (θ : List ℝ)
    (cs : List Call) : net.run ds (.setParameters θ :: cs) s = net.run ds (.setParameters θ :: cs) s' := by
  show (net.set s θ >>= _) >>= _ = (net.set s' θ >>= _) >>= _
  rw [set_determined net h]

/-- **C106 (loading)**: a network that was saved after `setParameters` answers after loading like the original, as long as the
original has not received an input since; `θ` is a complete parameter vector. -/
theorem load_determined (net : FNet) {s t : State} {mem : Mem} {gamma : ℕ → ℝ} {θ : List ℝ} (h : SameFixed net mem s.mem)
    (ht : net.set s θ = .ok t) : t.vector = θ ∧ net.load mem gamma t.vector = .ok t := by
  have hv : t.vector = θ := by
    unfold FNet.set at ht
    by_cases hl : θ.length < net.P
    · rw [if_pos hl] at ht
      cases ht
    · rw [if_neg hl] at ht
      injection ht with ht
      rw [← ht]
  rw [hv]
  exact ⟨rfl, (set_determined net (s := net.create mem gamma) (s' := s) h θ).trans ht⟩

/-! ## Before the first `setParameters` -/

/-- Calls that do not set the parameters. -/
def Call.Unset : Call → Prop
  | .setParameters _ => False
  | _ => True

/-- Calls that propagate an input. -/
def Call.Forward (ds : TrainSet) : Call → Prop
  | .predict _ _ => True
  | .errorAt _ => True
  | .error => 0 < ds.samples
  | .errorGradient _ => True
  | _ => False

theorem forward_uncoeffs (net : FNet) {s : State} (h : s.coeffs = none) (N : ℕ) (X : Batch) : net.forward s N X = .ub := by
  unfold FNet.forward FNet.filter
  rw [h]
  split <;> rfl

theorem errorAt_uncoeffs (net : FNet) (ds : TrainSet) {s : State} (h : s.coeffs = none) (n : ℕ) : net.errorAt ds s n = .ub := by
  unfold FNet.errorAt
  rw [forward_uncoeffs net h]
  rfl

theorem error_uncoeffs (net : FNet) (ds : TrainSet) {s : State} (h : s.coeffs = none) (n : ℕ) (e : ℝ) :
    forLoop (n + 1) (fun n p => net.errorAt ds p.2 n >>= fun r => .ok (p.1 + r.1 / (ds.samples : ℝ), r.2)) (e, s) = .ub := by
  induction n with
  | zero =>
    rw [forLoop, forLoop, Outcome.ok_bind]
    show net.errorAt ds s 0 >>= _ = _
    rw [errorAt_uncoeffs net ds h]
    rfl
  | succ n ih =>
    rw [forLoop, ih]
    rfl

theorem step_forward_ub (net : FNet) (ds : TrainSet) {s : State} (h : s.coeffs = none) {c : Call} (hc : c.Forward ds) :
    net.step ds s c = .ub := by
  cases c with
  | predict N X => exact congrArg (· >>= _) (forward_uncoeffs net h N X)
  | errorAt n => exact congrArg (· >>= _) (errorAt_uncoeffs net ds h n)
  | error =>
    obtain ⟨n, hn⟩ : ∃ n, ds.samples = n + 1 := ⟨ds.samples - 1, by have : 0 < ds.samples := hc; omega⟩
    refine congrArg (· >>= _) (?_ : net.error ds s = .ub)
    have := error_uncoeffs net ds h n 0
    unfold FNet.error
    rw [← hn] at this
    exact this
  | errorGradient idx =>
    refine congrArg (· >>= _) (?_ : net.errorGradient ds s idx = .ub)
    unfold FNet.errorGradient
    rw [forward_uncoeffs net h]
    rfl
  | setParameters θ => exact hc.elim
  | initializeNet m g => exact hc.elim
  | reset => exact hc.elim
  | currentParameters => exact hc.elim

theorem error_no_samples (net : FNet) (ds : TrainSet) (s : State) (h : ¬0 < ds.samples) : net.error ds s = .ok (0, s) := by
  unfold FNet.error
  rw [show ds.samples = 0 by omega]
  rfl

theorem step_keeps_uncoeffs (net : FNet) (ds : TrainSet) {s t : State} {a : Answer} (h : s.coeffs = none) {c : Call} (hc : c.Unset)
    (hr : net.step ds s c = .ok (a, t)) : t.coeffs = none := by
  by_cases hf : c.Forward ds
  · rw [step_forward_ub net ds h hf] at hr
    cases hr
  · cases c with
    | predict N X => exact absurd trivial hf
    | errorAt n => exact absurd trivial hf
    | error =>
      have hr' : (net.error ds s >>= fun r => Outcome.ok (Answer.number r.1, r.2)) = .ok (a, t) := hr
      rw [error_no_samples net ds s hf] at hr'
      injection hr' with e
      injection e with _ e
      rw [← e]
      exact h
    | errorGradient idx => exact absurd trivial hf
    | setParameters θ => exact hc.elim
    | initializeNet m g => injection hr with e; injection e with _ e; rw [← e]; exact h
    | reset => injection hr with e; injection e with _ e; rw [← e]; exact h
    | currentParameters => injection hr with e; injection e with _ e; rw [← e]; exact h

/-- **C106 (a new network cannot be used)**: the first prediction, error or gradient of a network whose parameters have never
been set uses indeterminate coefficients, also after any number of calls of `initialize` and `reset`. -/
theorem new_network_ub (net : FNet) (ds : TrainSet) (mem : Mem) (gamma : ℕ → ℝ) (before after : List Call)
    (hb : ∀ c ∈ before, c.Unset) {c : Call} (hc : c.Forward ds) :
    net.run ds (before ++ c :: after) (net.create mem gamma) = .ub := by
  have key : ∀ (before : List Call) (s : State), (∀ c ∈ before, c.Unset) → s.coeffs = none →
      net.run ds (before ++ c :: after) s = .ub := by
    intro before
    induction before with
    | nil =>
      intro s _ hs
      exact congrArg (· >>= _) (step_forward_ub net ds hs hc)
    | cons b bs ih =>
      intro s hb hs
      show net.step ds s b >>= _ = _
      by_cases hf : b.Forward ds
      · exact congrArg (· >>= _) (step_forward_ub net ds hs hf)
      · have hu := hb b List.mem_cons_self
        obtain ⟨a, t, e⟩ : ∃ a t, net.step ds s b = .ok (a, t) := by
          cases b with
          | predict N X => exact absurd trivial hf
          | errorAt n => exact absurd trivial hf
          | error =>
            refine ⟨.number 0, s, ?_⟩
            show (net.error ds s >>= fun r => Outcome.ok (Answer.number r.1, r.2)) = _
            rw [error_no_samples net ds s hf]
            rfl
          | errorGradient idx => exact absurd trivial hf
          | setParameters θ => exact hu.elim
          | initializeNet m g => exact ⟨_, _, rfl⟩
          | reset => exact ⟨_, _, rfl⟩
          | currentParameters => exact ⟨_, _, rfl⟩
        rw [e, Outcome.ok_bind]
        show net.run ds (bs ++ c :: after) t >>= _ = _
        rw [ih t (fun c hc => hb c (List.mem_cons_of_mem _ hc)) (step_keeps_uncoeffs net ds hs hu e)]
        rfl
  exact key before _ hb rfl

/-! ## The first answer -/

/-- The network with the filter taken out: the input of the filter with velocities zero. -/
noncomputable def FNet.unfiltered (net : FNet) (mem : Mem) (N : ℕ) (X : Batch) : Batch :=
  net.answer mem fun _ j => if j % 2 = 0 then forwardFrom mem N 0 net.pre X 0 (j / 2) else 0

theorem forward_eq (net : FNet) {s : State} {f : Filter} (hf : net.filter s = .ok f) {N : ℕ} (hN : N ≠ 0) (X : Batch) :
    net.forward s N X = .ok (net.answer s.mem (interleave (f.forward (forwardFrom s.mem N 0 net.pre X 0))),
      { s with
        first := (f.forward (forwardFrom s.mem N 0 net.pre X 0)).first
        y := some ((f.forward (forwardFrom s.mem N 0 net.pre X 0)).value,
          (f.forward (forwardFrom s.mem N 0 net.pre X 0)).velocity) }) := by
  unfold FNet.forward
  rw [if_neg hN, hf]
  rfl

/-- **C106 (the first answer)**: the first prediction after `setParameters` is that of the network without the filter; the
parameters of the filter have no influence on it. -/
theorem first_answer (net : FNet) {s t : State} {θ : List ℝ} (ht : net.set s θ = .ok t) {N : ℕ} (hN : N ≠ 0) (X : Batch) :
    ∃ u, net.forward t N X = .ok (net.unfiltered t.mem N X, u) := by
  unfold FNet.set at ht
  by_cases hl : θ.length < net.P
  · rw [if_pos hl] at ht
    cases ht
  · rw [if_neg hl] at ht
    injection ht with ht
    subst ht
    refine ⟨_, (forward_eq net rfl hN X).trans (congrArg Outcome.ok (Prod.ext ?_ rfl))⟩
    show net.answer _ _ = net.unfiltered _ N X
    unfold FNet.unfiltered
    refine congrArg _ (funext fun n => funext fun j => ?_)
    simp only [interleave, Filter.forward, Filter.start, Filter.newValue, Filter.newVelocity, if_true]
    by_cases hj : j % 2 = 0
    · rw [if_pos hj, if_pos hj]
      ring
    · rw [if_neg hj, if_neg hj]
      ring

/-! ## Rows -/

/-- **C106 (matrices)**: the prediction for a matrix with any number of rows is one row, the prediction for the first row; the
other rows are ignored.  The layers before the filter may be any that treat all rows alike (C21). -/
theorem matrix_first_row (net : FNet) (ds : TrainSet) (s : State) {D : ℕ} {ks : List Kind} {ce : Bool}
    (hpre : net.pre = (buildNet D ks ce).layers) (hk : ∀ k ∈ ks, k.RowWise) {N : ℕ} (hN : N ≠ 0) (X : Batch) :
    net.step ds s (.predict N X) = net.step ds s (.predict 1 fun _ => X 0) := by
  refine congrArg (· >>= _) ?_
  unfold FNet.forward
  rw [if_neg hN, if_neg one_ne_zero, hpre, forwardFrom_row (buildNet_row hk) N 0 X 0]

/-- **C106 (gradients of several instances)**: `errorGradient` of no or more than one instance is undefined in every state, so
that batch learning is impossible. -/
theorem batch_gradient_ub (net : FNet) (ds : TrainSet) (s : State) {idx : List ℕ} (h : idx.length ≠ 1) :
    net.step ds s (.errorGradient idx) = .ub := by
  refine congrArg (· >>= _) (?_ : net.errorGradient ds s idx = .ub)
  unfold FNet.errorGradient FNet.forward FNet.filter
  by_cases h0 : idx.length = 0
  · rw [if_pos h0]
    rfl
  · rw [if_neg h0]
    cases s.coeffs with
    | none => rfl
    | some c =>
      cases s.y with
      | none => rfl
      | some y => exact if_neg h

/-- **C106 (the filter is not trained)**: the derivatives of the parameters of the filter are reported as zero, always. -/
theorem gradient_gamma_zero (net : FNet) (ds : TrainSet) {s t : State} {idx : List ℕ} {r : ℝ × List ℝ}
    (h : net.errorGradient ds s idx = .ok (r, t)) : r.2 = List.replicate net.I 0 := by
  unfold FNet.errorGradient at h
  obtain ⟨q, _, h⟩ := Outcome.bind_eq_ok.1 h
  by_cases hl : idx.length = 1
  · rw [if_pos hl] at h
    injection h with h
    injection h with h _
    rw [← h]
    refine List.eq_replicate_iff.2 ⟨by simp, fun b hb => ?_⟩
    obtain ⟨_, _, rfl⟩ := List.mem_map.1 hb
    exact zero_div _
  · rw [if_neg hl] at h
    cases h

/-! ## After `initialize` -/

/-- The same apart from the parameters of the filter and `parameterVector`. -/
def SameFilter (s s' : State) : Prop := s.mem = s'.mem ∧ s.coeffs = s'.coeffs ∧ s.first = s'.first ∧ s.y = s'.y

theorem forward_sameFilter (net : FNet) {s s' : State} (h : SameFilter s s') (N : ℕ) (X : Batch) :
    (net.forward s N X = .ub ∧ net.forward s' N X = .ub) ∨
      ∃ Y t t', net.forward s N X = .ok (Y, t) ∧ net.forward s' N X = .ok (Y, t') ∧ SameFilter t t' := by
  obtain ⟨hm, hc, hf, hy⟩ := h
  by_cases hN : N = 0
  · left
    unfold FNet.forward
    exact ⟨if_pos hN, if_pos hN⟩
  · cases ec : s'.coeffs with
    | none => exact Or.inl ⟨forward_uncoeffs net (hc.trans ec) N X, forward_uncoeffs net ec N X⟩
    | some c =>
      cases ey : s'.y with
      | none =>
        left
        unfold FNet.forward FNet.filter
        rw [hc, hy, ec, ey, if_neg hN, if_neg hN]
        exact ⟨rfl, rfl⟩
      | some y =>
        right
        have h1 : net.filter s = .ok ⟨net.deltaT, s.gamma, c.1, c.2, s'.first, y.1, y.2⟩ := by
          unfold FNet.filter
          rw [hc, hy, ec, ey, hf]
        have h2 : net.filter s' = .ok ⟨net.deltaT, s'.gamma, c.1, c.2, s'.first, y.1, y.2⟩ := by
          unfold FNet.filter
          rw [ec, ey]
        have hx : ∀ (g g' : ℕ → ℝ) (x : ℕ → ℝ),
            (Filter.forward ⟨net.deltaT, g, c.1, c.2, s'.first, y.1, y.2⟩ x).first =
              (Filter.forward ⟨net.deltaT, g', c.1, c.2, s'.first, y.1, y.2⟩ x).first ∧
            (Filter.forward ⟨net.deltaT, g, c.1, c.2, s'.first, y.1, y.2⟩ x).value =
              (Filter.forward ⟨net.deltaT, g', c.1, c.2, s'.first, y.1, y.2⟩ x).value ∧
            (Filter.forward ⟨net.deltaT, g, c.1, c.2, s'.first, y.1, y.2⟩ x).velocity =
              (Filter.forward ⟨net.deltaT, g', c.1, c.2, s'.first, y.1, y.2⟩ x).velocity := by
          intro g g' x
          cases s'.first <;> exact ⟨rfl, rfl, rfl⟩
        refine ⟨_, _, _, forward_eq net h1 hN X, (forward_eq net h2 hN X).trans (congrArg Outcome.ok (Prod.ext ?_ rfl)), ?_⟩
        · dsimp only
          rw [hm]
          refine congrArg _ (funext fun n => funext fun j => ?_)
          simp only [interleave, (hx s'.gamma s.gamma _).2.1, (hx s'.gamma s.gamma _).2.2]
        · refine ⟨hm, hc, ?_, ?_⟩
          · dsimp only
            rw [hm]
            exact (hx _ _ _).1
          · dsimp only
            rw [hm, (hx s.gamma s'.gamma _).2.1, (hx s.gamma s'.gamma _).2.2]

/-- The answers of a sequence of calls. -/
noncomputable def FNet.answers (net : FNet) (ds : TrainSet) (cs : List Call) (s : State) : Outcome (List Answer) :=
  net.run ds cs s >>= fun r => .ok r.1

/-- **C106 (`initialize` does not reach the filter)**: whatever parameters `initialize` draws for the filter, all predictions after
it are the predictions without it: the filter goes on with the coefficients of the last `setParameters` and with the memory of
the inputs before (the other weights being the same). -/
theorem initialize_unseen (net : FNet) (ds : TrainSet) (s : State) (gamma : ℕ → ℝ) (xs : List (ℕ × Batch)) :
    net.answers ds (.initializeNet s.mem gamma :: xs.map fun x => .predict x.1 x.2) s =
      (net.answers ds (xs.map fun x => .predict x.1 x.2) s >>= fun as => .ok (.nothing :: as)) := by
  have key : ∀ (xs : List (ℕ × Batch)) (s s' : State), SameFilter s s' →
      net.answers ds (xs.map fun x => .predict x.1 x.2) s = net.answers ds (xs.map fun x => .predict x.1 x.2) s' := by
    intro xs
    induction xs with
    | nil => intro s s' _; rfl
    | cons x xs ih =>
      intro s s' h
      rcases forward_sameFilter net h x.1 x.2 with ⟨h1, h2⟩ | ⟨Y, t, t', h1, h2, ht⟩
      · show ((((net.forward s x.1 x.2 >>= _) >>= _) >>= _) : Outcome (List Answer)) = ((net.forward s' x.1 x.2 >>= _) >>= _) >>= _
        rw [h1, h2]
      · have hh := ih t t' ht
        unfold FNet.answers at hh
        show ((((net.forward s x.1 x.2 >>= _) >>= _) >>= _) : Outcome (List Answer)) = ((net.forward s' x.1 x.2 >>= _) >>= _) >>= _
        rw [h1, h2]
        simp only [Outcome.ok_bind, bind_assoc]
        have := congrArg (fun o : Outcome (List Answer) => o >>= fun as => Outcome.ok (Answer.matrix 1 Y :: as)) hh
        simpa only [Outcome.ok_bind, bind_assoc] using this
  have := key xs (net.initialize s s.mem gamma) s ⟨rfl, rfl, rfl, rfl⟩
  rw [← this]
  unfold FNet.answers
  show ((Outcome.ok _ >>= _) >>= _) = _
  simp only [Outcome.ok_bind, bind_assoc]

/-! ## Witnesses: one input, the filter and one linear output unit that shows the estimated value -/

/-- `net.inputLayer(1).alphaBetaFilterLayer(1.0, ...).outputLayer(1, LINEAR, ..., false)` -/
noncomputable def tiny : FNet := ⟨[inputLayer 1], [fullyConnected 2 1 false .linear ⟨0, 0, 0⟩], 1, 1, false⟩

/-- The output unit has weight 1 for the value and 0 for the velocity. -/
noncomputable def tinyMem : Mem := fun _ s => if s = .w [0, 0] then 1 else 0

/-- The parameter vector with `g` for the filter. -/
noncomputable def tinyθ (g : ℝ) : List ℝ := [g, 1, 0]

theorem tiny_P : tiny.P = 3 := rfl

theorem tiny_weights (m : Mem) (g : ℝ) :
    tiny.writeWeights m (tinyθ g) 2 (.w [0, 0]) = 1 ∧ tiny.writeWeights m (tinyθ g) 2 (.w [0, 1]) = 0 := by
  constructor <;>
    simp [FNet.writeWeights, tiny, tinyθ, FNet.preLocs, FNet.postLocs, locsFrom, updatedFrom, inputLayer, fullyConnected,
      denseSlots, maxNormUpdate, Mem.writeAll, Mem.write, List.range_succ]

theorem tiny_answer {m : Mem} (h1 : m 2 (.w [0, 0]) = 1) (h2 : m 2 (.w [0, 1]) = 0) (y : Batch) : tiny.answer m y 0 0 = y 0 0 := by
  simp [FNet.answer, tiny, forwardFrom, fullyConnected, Act.map, Act.apply, dense, Weights.mat, Weights.vec,
    Finset.sum_range_succ, h1, h2]

/-- The output unit shows the estimated value. -/
def Shows (m : Mem) : Prop := m 2 (.w [0, 0]) = 1 ∧ m 2 (.w [0, 1]) = 0

/-- The state of `tiny` as far as it matters: coefficients `a`, `b` and memory `v`, `w`. -/
def Is (s : State) (a b : ℝ) (first : Bool) (v w : ℝ) : Prop :=
  Shows s.mem ∧ s.first = first ∧ ∃ c y, s.coeffs = some c ∧ s.y = some y ∧ c.1 0 = a ∧ c.2 0 = b ∧ y.1 0 = v ∧ y.2 0 = w

theorem tiny_forward {s : State} {a b v w : ℝ} {first : Bool} (h : Is s a b first v w) (x : ℕ → ℝ) {v0 : ℝ}
    (hv : v0 = if first then x 0 else v) : ∃ Y t, tiny.forward s 1 (fun _ => x) = .ok (Y, t) ∧
      Is t a b false (v0 + (a * (x 0 - v0) + (w + b * (x 0 - v0)))) (w + b * (x 0 - v0)) ∧
      Y 0 0 = v0 + (a * (x 0 - v0) + (w + b * (x 0 - v0))) ∧ t.vector = s.vector ∧ t.mem = s.mem := by
  obtain ⟨hm, hf, c, y, hc, hy, rfl, rfl, rfl, rfl⟩ := h
  have hfil : tiny.filter s = .ok ⟨1, s.gamma, c.1, c.2, first, y.1, y.2⟩ := by
    unfold FNet.filter
    rw [hc, hy, hf]
    rfl
  subst hv
  refine ⟨_, _, forward_eq tiny hfil one_ne_zero _, ⟨hm, ?_, c, _, hc, rfl, rfl, rfl, ?_, ?_⟩, (tiny_answer hm.1 hm.2 _).trans ?_,
    rfl, rfl⟩ <;>
  cases first <;>
    simp [interleave, Filter.forward, Filter.start, Filter.newValue, Filter.newVelocity, tiny, forwardFrom, inputLayer]

/-- The coefficients for the parameters 1 and 0. -/
theorem root_one : root |(1 : ℝ)| = 1 / 2 := by
  have h9 : Real.sqrt (8 * 1 + 1 * 1) = 3 := by
    rw [show (8 * 1 + 1 * 1 : ℝ) = 3 ^ 2 by norm_num]
    exact Real.sqrt_sq (by norm_num)
  rw [abs_one, root, h9]
  norm_num

theorem root_zero : root |(0 : ℝ)| = 1 := by
  rw [abs_zero, root, show (8 * 0 + 0 * 0 : ℝ) = 0 by norm_num, Real.sqrt_zero]
  norm_num

theorem tiny_set (s : State) (g : ℝ) : ∃ t, tiny.set s (tinyθ g) = .ok t ∧
    Is t (1 - root |g| * root |g|) (2 * (1 - root |g|) * (1 - root |g|)) true 0 0 ∧ t.vector = tinyθ g :=
  ⟨_, if_neg (by rw [tiny_P]; simp [tinyθ]), ⟨tiny_weights s.mem g, rfl, _, _, rfl, rfl, rfl, rfl, rfl, rfl⟩, rfl⟩

theorem tiny_set_one (s : State) : ∃ t, tiny.set s (tinyθ 1) = .ok t ∧ Is t (3 / 4) (1 / 2) true 0 0 ∧ t.vector = tinyθ 1 := by
  obtain ⟨t, h1, h2, h3⟩ := tiny_set s 1
  rw [root_one] at h2
  norm_num at h2
  exact ⟨t, h1, h2, h3⟩

theorem tiny_set_zero (s : State) : ∃ t, tiny.set s (tinyθ 0) = .ok t ∧ Is t 0 0 true 0 0 ∧ t.vector = tinyθ 0 := by
  obtain ⟨t, h1, h2, h3⟩ := tiny_set s 0
  rw [root_zero] at h2
  norm_num at h2
  exact ⟨t, h1, h2, h3⟩

/-- The answers to two predictions. -/
theorem tiny_two (ds : TrainSet) {s : State} {a b v w : ℝ} {first : Bool} (h : Is s a b first v w) (x x' : ℕ → ℝ) {v0 v1 w1 : ℝ}
    (hv : v0 = if first then x 0 else v) (h1 : v1 = v0 + (a * (x 0 - v0) + (w + b * (x 0 - v0))))
    (hw : w1 = w + b * (x 0 - v0)) : ∃ Y Y', tiny.answers ds [.predict 1 fun _ => x, .predict 1 fun _ => x'] s =
      .ok [.matrix 1 Y, .matrix 1 Y'] ∧ Y 0 0 = v1 ∧ Y' 0 0 = v1 + (a * (x' 0 - v1) + (w1 + b * (x' 0 - v1))) := by
  obtain ⟨Y, t, e, ht, hY, _, _⟩ := tiny_forward h x hv
  rw [← h1, ← hw] at ht
  obtain ⟨Y', t', e', _, hY', _, _⟩ := tiny_forward ht x' rfl
  refine ⟨Y, Y', ?_, hY.trans h1.symm, hY'⟩
  show ((((tiny.forward s 1 (fun _ => x) >>= _) >>= _) >>= _) : Outcome (List Answer)) = _
  rw [e]
  show ((((tiny.forward t 1 (fun _ => x') >>= _) >>= _) >>= _) >>= _ : Outcome (List Answer)) = _
  rw [e']
  rfl

/-- The inputs 0 and 1. -/
def zeroOne : List Call := [.predict 1 fun _ _ => 0, .predict 1 fun _ _ => 1]

theorem answers_ne {Y Y' Z Z' : Batch} (h : Y' 0 0 ≠ Z' 0 0) :
    (Outcome.ok [Answer.matrix 1 Y, Answer.matrix 1 Y'] : Outcome (List Answer)) ≠ .ok [.matrix 1 Z, .matrix 1 Z'] := by
  intro e
  injection e with e
  injection e with _ e
  injection e with e
  injection e with _ e
  exact h (by rw [e])

/-- **C106 is false after `initialize`**: a network whose parameters were set and then initialised anew does not answer like
a network with its current parameters: `initialize` draws 0 for the filter and leaves the coefficients for 1. -/
theorem initialize_fails (ds : TrainSet) : ∃ (net : FNet) (s t u : State) (θ : List ℝ) (mem : Mem) (gamma : ℕ → ℝ) (cs : List Call),
    net.set s θ = .ok t ∧ net.set s (net.initialize t mem gamma).vector = .ok u ∧ (net.initialize t mem gamma).vector = u.vector ∧
    (net.initialize t mem gamma).mem 2 = mem 2 ∧ net.answers ds cs (net.initialize t mem gamma) ≠ net.answers ds cs u := by
  obtain ⟨t, h1, h2, h3⟩ := tiny_set_one (tiny.create tinyMem fun _ => 0)
  have hv : (tiny.initialize t tinyMem fun _ => 0).vector = tinyθ 0 := by
    simp [FNet.initialize, FNet.readParameters, tiny, FNet.preLocs, FNet.postLocs, locsFrom, inputLayer, fullyConnected, denseSlots,
      tinyMem, tinyθ, List.range_succ]
  obtain ⟨u, g1, g2, g3⟩ := tiny_set_zero (tiny.create tinyMem fun _ => 0)
  refine ⟨tiny, tiny.create tinyMem fun _ => 0, t, u, tinyθ 1, tinyMem, fun _ => 0, zeroOne, h1, by rw [hv]; exact g1,
    hv.trans g3.symm, rfl, ?_⟩
  have hi : Is (tiny.initialize t tinyMem fun _ => 0) (3 / 4) (1 / 2) true 0 0 := by
    obtain ⟨_, b, c, y, r⟩ := h2
    exact ⟨⟨by simp [FNet.initialize, tinyMem], by simp [FNet.initialize, tinyMem]⟩, b, c, y, r⟩
  obtain ⟨Y, Y', e, _, hY⟩ := tiny_two ds hi (fun _ => 0) (fun _ => 1) (v0 := 0) (v1 := 0) (w1 := 0) (by simp) (by simp) (by simp)
  obtain ⟨Z, Z', e', _, hZ⟩ := tiny_two ds g2 (fun _ => 0) (fun _ => 1) (v0 := 0) (v1 := 0) (w1 := 0) (by simp) (by simp) (by simp)
  rw [zeroOne, e, e']
  refine answers_ne ?_
  rw [hY, hZ]
  norm_num

/-- **C106 is false for a used network**: its answer depends on the inputs since `setParameters`, so that the loaded network,
which has not seen them, answers differently. -/
theorem load_used_fails (ds : TrainSet) : ∃ (net : FNet) (s t u l : State) (θ : List ℝ) (mem : Mem) (gamma : ℕ → ℝ) (a : Answer)
    (c c' : Call), net.set s θ = .ok t ∧ net.step ds t c = .ok (a, u) ∧ SameFixed net mem s.mem ∧
    net.load mem gamma u.vector = .ok l ∧ net.answers ds [c'] u ≠ net.answers ds [c'] l := by
  obtain ⟨t, h1, h2, h3⟩ := tiny_set_one (tiny.create tinyMem fun _ => 0)
  obtain ⟨Y, u, e, hu, _, hv, _⟩ := tiny_forward h2 (fun _ => 0) (v0 := 0) (by simp)
  obtain ⟨l, g1, g2, g3⟩ := tiny_set_one (tiny.create tinyMem fun _ => 0)
  refine ⟨tiny, tiny.create tinyMem fun _ => 0, t, u, l, tinyθ 1, tinyMem, fun _ => 0, .matrix 1 Y, .predict 1 fun _ _ => 0,
    .predict 1 fun _ _ => 1, h1, ?_, fun _ _ _ => rfl, ?_, ?_⟩
  · show tiny.forward t 1 (fun _ _ => 0) >>= _ = _
    rw [e]
    rfl
  · rw [hv, h3]
    exact g1
  · obtain ⟨Y', u', e', _, hY', _, _⟩ := tiny_forward hu (fun _ => 1) rfl
    obtain ⟨Z', l', f', _, hZ', _, _⟩ := tiny_forward g2 (fun _ => 1) rfl
    have a1 : tiny.answers ds [.predict 1 fun _ _ => 1] u = .ok [.matrix 1 Y'] := by
      show ((((tiny.forward u 1 (fun _ _ => 1) >>= _) >>= _) >>= _) : Outcome (List Answer)) = _
      rw [e']
      rfl
    have a2 : tiny.answers ds [.predict 1 fun _ _ => 1] l = .ok [.matrix 1 Z'] := by
      show ((((tiny.forward l 1 (fun _ _ => 1) >>= _) >>= _) >>= _) : Outcome (List Answer)) = _
      rw [f']
      rfl
    rw [a1, a2]
    intro h
    injection h with h
    injection h with h
    injection h with _ h
    have h0 : Y' 0 0 = Z' 0 0 := by rw [h]
    rw [hY', hZ'] at h0
    norm_num at h0

/-- Two instances, 0 and 1, with target 0. -/
def pair : TrainSet := ⟨2, fun n _ => n, fun _ _ => 0⟩

theorem tiny_errorAt {s : State} {a b v w : ℝ} {first : Bool} (h : Is s a b first v w) (n : ℕ) {v0 v1 w1 : ℝ}
    (hv : v0 = if first then (n : ℝ) else v) (h1 : v1 = v0 + (a * (n - v0) + (w + b * (n - v0)))) (hw : w1 = w + b * (n - v0)) :
    ∃ t, tiny.errorAt pair s n = .ok (v1 ^ 2 / 2, t) ∧ Is t a b false v1 w1 := by
  obtain ⟨Y, t, e, ht, hY, _, _⟩ := tiny_forward h (fun _ => (n : ℝ)) hv
  rw [← h1, ← hw] at ht
  rw [← h1] at hY
  refine ⟨t, ?_, ht⟩
  unfold FNet.errorAt
  show tiny.forward s 1 (fun _ _ => (n : ℝ)) >>= _ = _
  rw [e, Outcome.ok_bind]
  refine congrArg Outcome.ok (Prod.ext ?_ rfl)
  simp [FNet.loss, FNet.reg, tiny, meanSquaredError, FNet.outputs, regFrom, inputLayer, fullyConnected, Reg.error, pair, hY]

theorem tiny_error {s t u : State} {e e' : ℝ} (h : tiny.errorAt pair s 0 = .ok (e, t)) (h' : tiny.errorAt pair t 1 = .ok (e', u)) :
    tiny.error pair s = .ok (0 + e / (2 : ℕ) + e' / (2 : ℕ), u) := by
  show (((Outcome.ok (0, s) >>= fun p : ℝ × State => tiny.errorAt pair p.2 0 >>= fun r => Outcome.ok (p.1 + r.1 / ((2 : ℕ) : ℝ), r.2)) >>=
    fun p => tiny.errorAt pair p.2 1 >>= fun r => Outcome.ok (p.1 + r.1 / ((2 : ℕ) : ℝ), r.2)) : Outcome (ℝ × State)) = _
  rw [Outcome.ok_bind]
  dsimp only
  rw [h, Outcome.ok_bind, Outcome.ok_bind]
  dsimp only
  rw [h', Outcome.ok_bind]

/-- **C106 is false of the training error**: `error()` called twice in succession gives two different numbers. -/
theorem error_twice_fails : ∃ (net : FNet) (ds : TrainSet) (s t : State) (θ : List ℝ) (e e' : ℝ), net.set s θ = .ok t ∧
    net.answers ds [.error, .error] t = .ok [.number e, .number e'] ∧ e ≠ e' := by
  obtain ⟨t, h1, h2, h3⟩ := tiny_set_one (tiny.create tinyMem fun _ => 0)
  obtain ⟨t1, e1, i1⟩ := tiny_errorAt h2 0 (v0 := 0) (v1 := 0) (w1 := 0) (by simp) (by simp) (by simp)
  obtain ⟨t2, e2, i2⟩ := tiny_errorAt i1 1 (v0 := 0) (v1 := 5 / 4) (w1 := 1 / 2) (by simp) (by norm_num) (by norm_num)
  obtain ⟨t3, e3, i3⟩ := tiny_errorAt i2 0 (v0 := 5 / 4) (v1 := 3 / 16) (w1 := -1 / 8) (by simp) (by norm_num) (by norm_num)
  obtain ⟨t4, e4, i4⟩ := tiny_errorAt i3 1 (v0 := 3 / 16) (v1 := 69 / 64) (w1 := 9 / 32) (by simp) (by norm_num) (by norm_num)
  refine ⟨tiny, pair, _, t, tinyθ 1, 0 + 0 ^ 2 / 2 / (2 : ℕ) + (5 / 4) ^ 2 / 2 / (2 : ℕ),
    0 + (3 / 16) ^ 2 / 2 / (2 : ℕ) + (69 / 64) ^ 2 / 2 / (2 : ℕ), h1, ?_, ?_⟩
  · show (((tiny.error pair t >>= _) >>= _) >>= _ : Outcome (List Answer)) = _
    rw [tiny_error e1 e2]
    show ((((tiny.error pair t2 >>= _) >>= _) >>= _) >>= _ : Outcome (List Answer)) = _
    rw [tiny_error e3 e4]
    rfl
  · norm_num

/-- The hypotheses of the theorems are met by `tiny`: the parameters can be set from every state, a prediction and the gradient
of one instance are possible afterwards. -/
example (s : State) (X : Batch) : ∃ t u r, tiny.set s (tinyθ 1) = .ok t ∧ tiny.forward t 3 X = .ok u ∧
    tiny.errorGradient pair t [1] = .ok r := by
  obtain ⟨t, h1, ⟨_, _, c, y, hc, hy, _⟩, _⟩ := tiny_set_one s
  have hf : tiny.filter t = .ok ⟨tiny.deltaT, t.gamma, c.1, c.2, t.first, y.1, y.2⟩ := by
    unfold FNet.filter
    rw [hc, hy]
  have hg : ∃ r, tiny.errorGradient pair t [1] = .ok r := by
    unfold FNet.errorGradient
    rw [show ([1] : List ℕ).length = 1 from rfl, forward_eq tiny hf one_ne_zero, Outcome.ok_bind, if_pos rfl]
    exact ⟨_, rfl⟩
  obtain ⟨r, hr⟩ := hg
  exact ⟨t, _, r, h1, forward_eq tiny hf (by norm_num) X, hr⟩

example : tiny.pre = (buildNet 1 [] false).layers ∧ ∀ k ∈ ([] : List Kind), k.RowWise := ⟨rfl, fun _ h => absurd h List.not_mem_nil⟩

/-- A new network that is initialised once more and asked for the error of an instance. -/
example : tiny.run pair [.initializeNet tinyMem fun _ => 1, .reset, .errorAt 0] (tiny.create tinyMem fun _ => 0) = .ub :=
  new_network_ub tiny pair tinyMem _ [.initializeNet tinyMem fun _ => 1, .reset] []
    (fun c hc => by
      rcases List.mem_cons.1 hc with rfl | hc
      · trivial
      · rw [List.mem_singleton.1 hc]
        trivial) (c := .errorAt 0) trivial

end Verif.FilterNet
