import Verif.Props.NetGradient
import Verif.Props.OrderMBSGD

/-!
# Small steps lower the error: C78
-/

namespace Verif.NN

open Finset

noncomputable section

/-! ## Derivatives along a line -/

/-- The gradient of `errorGradient` gives the derivative along every path of the weights. -/
theorem grad_along {net : Net} {d : ℕ} {ls : List Layer} {N : ℕ} {X T : Batch} {mem : Mem} (sc : Scratch)
    (hl : net.layers = inputLayer d :: ls) (hc : Chained d ls) (hN : 0 < N)
    (hT : net.ce = true → ∀ n < N, ∑ j ∈ range net.outputs, T n j = 1)
    (hB : ∀ e ∈ traceFrom mem N 0 net.layers X, BackpropAt e.2.1 N (mem e.1) e.2.2)
    {m : ℝ → Mem} {m' : Mem} {t0 : ℝ} (hm0 : m t0 = mem)
    (hm : ∀ p ∈ net.parameters, HasDerivAt (fun t => m t p.1 p.2) (m' p.1 p.2) t0)
    (hconst : ∀ k s, (k, s) ∉ net.parameters → ∀ t, m t k s = mem k s) :
    HasDerivAt (fun t =>
        exactLoss net.ce N net.outputs (net.activations (m t) N X) T + regFrom (m t) 0 net.layers / N)
      (List.zipWith (· * ·) (net.grad mem sc N X T) (net.parameters.map fun p => m' p.1 p.2)).sum t0 := by
  have hdl : net.derivatives = net.parameters := derivLocs_eq fun l hl' => by
    obtain ⟨k', x', h'⟩ := mem_traceFrom (mem := mem) (N := N) (k := 0) (x := X) hl'
    exact (hB _ h').1
  have hpar : net.parameters = locsFrom 1 ls := by
    rw [Net.parameters, hl]
    rfl
  obtain ⟨y', R', hy, hR, hlaw⟩ := chain_backprop N sc.stale m m' t0 ls 1 d (fun _ => X) (fun _ _ => 0) hc
    (fun k' s h => hm (k', s) (by rw [hpar]; exact h))
    (fun k' s _ hns t => by rw [hm0]; exact hconst k' s (by rw [hpar]; exact hns) t)
    (fun n _ i _ => hasDerivAt_const t0 _)
    (by
      rw [hm0]
      intro e he
      refine hB e ?_
      rw [hl]
      exact List.mem_cons_of_mem _ he)
    (Or.inr ⟨rfl, fun _ _ => rfl⟩)
  rw [hm0] at hlaw
  have hout : net.outputs = outFrom d ls := by
    have := outputs_eq_outFrom d (inputLayer d) ls net.ce
    rw [← hl] at this
    rw [show net.outputs = outFrom d net.layers from this, hl]
    rfl
  have hact : ∀ mem' : Mem, net.activations mem' N X = forwardFrom mem' N 1 ls X := by
    intro mem'
    rw [Net.activations, hl]
    rfl
  have hreg : ∀ mem' : Mem, regFrom mem' 0 net.layers = regFrom mem' 1 ls := by
    intro mem'
    rw [hl]
    show (0 : ℝ) + _ = _
    rw [zero_add]
  have hE := exactLoss_hasDerivAt (A := fun t => forwardFrom (m t) N 1 ls X) hN hT (by rw [hout]; exact hy)
  have hsum := hE.add (hR.div_const (N : ℝ))
  have e1 : (fun t => exactLoss net.ce N net.outputs (net.activations (m t) N X) T +
      regFrom (m t) 0 net.layers / N) =
      fun t => exactLoss net.ce N net.outputs (forwardFrom (m t) N 1 ls X) T + regFrom (m t) 1 ls / N := by
    funext t
    rw [hact, hreg]
  rw [e1]
  refine hsum.congr_deriv ?_
  have hL := hlaw (fun n j => net.output mem N X n j - T n j) sc.derivs
  have hb : backFrom mem N sc.stale 0 net.layers X (fun n j => net.output mem N X n j - T n j) sc.derivs =
      backStep mem N sc.stale (0, inputLayer d, X)
        (backFrom mem N sc.stale 1 ls X (fun n j => net.output mem N X n j - T n j) sc.derivs) := by
    rw [hl]
    rfl
  have hz : inner N d (backFrom mem N sc.stale 1 ls X (fun n j => net.output mem N X n j - T n j) sc.derivs).1
      (fun _ _ => 0) = 0 := by simp [NN.inner]
  rw [hz, zero_add] at hL
  have hgrad : (List.zipWith (· * ·) (net.grad mem sc N X T) (net.parameters.map fun p => m' p.1 p.2)).sum =
      ((locsFrom 1 ls).map fun p =>
        (backFrom mem N sc.stale 1 ls X (fun n j => net.output mem N X n j - T n j) sc.derivs).2 p.1 p.2 * m' p.1 p.2).sum / N := by
    rw [Net.grad, hdl, hb, List.zipWith_map, List.zipWith_self, hpar, div_eq_mul_inv, ← List.sum_map_mul_right]
    congr 1
    refine List.map_congr_left fun p hp => ?_
    have : p.1 ≠ 0 := by
      have := locsFrom_index hp
      omega
    simp only [backStep, Function.update_of_ne this]
    ring
  have hin : inner N net.outputs (fun n j =>
      (if net.ce then softmax N net.outputs (forwardFrom (m t0) N 1 ls X) else forwardFrom (m t0) N 1 ls X) n j -
        T n j) y' = inner N (outFrom d ls) (fun n j => net.output mem N X n j - T n j) y' := by
    rw [hm0, Net.output, hact, ← hout]
  rw [hin, ← add_div, hL, hgrad]

/-- Spec: what the gradient belongs to (C19), the error over the selected examples plus the penalties divided by the number of
these examples. -/
def trainObjective (net : Net) (mem : Mem) (ds : TrainSet) (idx : List ℕ) : ℝ :=
  dataError net mem ds idx + penalty net mem / idx.length

/-- The parameter vector with the entries `w p`. -/
def vectorOf (net : Net) (w : ℕ → ℝ) : List ℝ := (List.range net.P).map w

theorem zipWith_sum_range {l : List ℝ} {n : ℕ} (h : l.length = n) (v : ℕ → ℝ) :
    (List.zipWith (· * ·) l ((List.range n).map v)).sum = ∑ p ∈ range n, l.getD p 0 * v p := by
  have e : List.zipWith (· * ·) l ((List.range n).map v) = (List.range n).map fun p => l.getD p 0 * v p := by
    refine List.ext_getElem (by simp [h]) fun i h1 h2 => ?_
    simp at h1 h2
    simp [List.getD, h1]
  rw [e]
  rfl

theorem grad_length {D : ℕ} {ks : List Kind} {ce : Bool} (mem : Mem) (sc : Scratch) (N : ℕ) (X T : Batch) :
    ((buildNet D ks ce).grad mem sc N X T).length = (buildNet D ks ce).P := by
  rw [Net.grad, List.length_map, Net.P, (parameters_one_to_one D ks ce).2.2.2.1]

/-- Spec of the derivative along a line: where the network is differentiable, moving the parameters from `w` in the direction
`v` changes the objective at the rate `gradient * v`. -/
theorem directional {D : ℕ} {ks : List Kind} {ce : Bool} (hf : FitsFrom D ks) (hu : Unconstrained ks)
    (mem0 : Mem) (sc : Scratch) (ds : TrainSet) {idx : List ℕ} (hidx : idx ≠ [])
    (hT : ce = true → ∀ n ∈ idx, ∑ j ∈ range (buildNet D ks ce).outputs, ds.tgt n j = 1) (w v : ℕ → ℝ)
    (hs : SmoothFrom ((buildNet D ks ce).setParameters mem0 (vectorOf (buildNet D ks ce) w)) idx.length 1 D ks
      (selectRows ds.inst idx)) :
    HasDerivAt (fun t => trainObjective (buildNet D ks ce)
        ((buildNet D ks ce).setParameters mem0 (vectorOf (buildNet D ks ce) fun p => w p + t * v p)) ds idx)
      (∑ p ∈ range (buildNet D ks ce).P,
        ((buildNet D ks ce).errorGradient ((buildNet D ks ce).setParameters mem0 (vectorOf (buildNet D ks ce) w)) sc ds idx).2.getD
          p 0 * v p) 0 := by
  set net := buildNet D ks ce with hnet
  have hN : 0 < idx.length := List.length_pos_iff.2 hidx
  have hnd : net.parameters.Nodup := parameters_nodup D ks ce
  have hset : ∀ u : ℕ → ℝ, net.setParameters mem0 (vectorOf net u) = mem0.writeAll net.parameters (vectorOf net u) :=
    fun u => setParameters_unconstrained (updated_of_unconstrained hu)
  have hval : ∀ (u : ℕ → ℝ) (i : ℕ) (hi : i < net.parameters.length),
      net.setParameters mem0 (vectorOf net u) net.parameters[i].1 net.parameters[i].2 = u i := by
    intro u i hi
    rw [hset, writeAll_getElem hnd hi (by rw [vectorOf, List.length_map, List.length_range]; exact hi)]
    simp [vectorOf]
  have hother : ∀ (u : ℕ → ℝ) (k : ℕ) (s : Slot), (k, s) ∉ net.parameters →
      net.setParameters mem0 (vectorOf net u) k s = mem0 k s := by
    intro u k s h
    rw [hset]
    exact writeAll_of_notMem h
  have key := grad_along (net := net) (d := D) (ls := layersFrom D ks) (N := idx.length)
    (X := selectRows ds.inst idx) (T := selectRows ds.tgt idx) (mem := net.setParameters mem0 (vectorOf net w)) sc rfl
    (chained_layersFrom hf) hN
    (by
      intro hce n hn
      refine hT hce _ ?_
      exact getD_mem hn)
    (by
      intro e he
      rcases List.mem_cons.1 he with rfl | he
      · exact input_backprop D _ _ _
      · exact trace_backprop hf hs e he)
    (m := fun t => net.setParameters mem0 (vectorOf net fun p => w p + t * v p))
    (m' := fun k s => v (net.parameters.idxOf (k, s))) (t0 := 0)
    (by simp)
    (by
      intro p hp
      obtain ⟨i, hi, rfl⟩ := List.getElem_of_mem hp
      have e : net.parameters.idxOf (net.parameters[i].1, net.parameters[i].2) = i := hnd.idxOf_getElem i hi
      simp only [hval _ i hi]
      rw [e]
      exact ((hasDerivAt_id (0 : ℝ)).mul_const (v i)).const_add (w i) |>.congr_deriv (by simp))
    (by
      intro k s h t
      rw [hother _ k s h, hother _ k s h])
  have e2 : (net.parameters.map fun p => v (net.parameters.idxOf (p.1, p.2))) = (List.range net.P).map v := by
    refine List.ext_getElem (by simp [Net.P]) fun i h1 h2 => ?_
    simp only [List.getElem_map, List.getElem_range]
    have hi : i < net.parameters.length := by simpa using h1
    have e : net.parameters.idxOf (net.parameters[i].1, net.parameters[i].2) = i := hnd.idxOf_getElem i hi
    rw [e]
  rw [e2, zipWith_sum_range (grad_length _ _ _ _ _)] at key
  exact key

end

end Verif.NN

namespace Verif.Opt

open Finset

noncomputable section

/-! ## Descent -/

/-- A function with a negative derivative at 0 is smaller at all small positive arguments. -/
theorem lt_of_neg_deriv {f : ℝ → ℝ} {c : ℝ} (h : HasDerivAt f c 0) (hc : c < 0) : ∃ ε > 0, ∀ t, 0 < t → t < ε → f t < f 0 := by
  have ht := hasDerivAt_iff_tendsto_slope.1 h
  have hev := ht.eventually_lt_const hc
  rw [eventually_nhdsWithin_iff, Metric.eventually_nhds_iff] at hev
  obtain ⟨ε, hε, hb⟩ := hev
  refine ⟨ε, hε, fun t h0 h1 => ?_⟩
  have := hb (y := t) (by rw [dist_zero_right, Real.norm_eq_abs, abs_of_pos h0]; exact h1) (by simp [h0.ne'])
  rw [slope_def_field, sub_zero, div_lt_iff₀ h0, zero_mul] at this
  linarith

/-- Spec: `G` is the gradient of `J` at `w` (in `P` dimensions), tested along every line. -/
def GradientAt (P : ℕ) (J : Vec → ℝ) (w G : Vec) : Prop :=
  ∀ v : Vec, HasDerivAt (fun t => J fun p => w p + t * v p) (∑ p ∈ range P, G p * v p) 0

/-- Spec: gains, if they are used, are positive. -/
def MBSGD.PositiveGain (o : MBSGD) : Prop := 0 < o.minGain ∧ 0 < o.maxGain

theorem scaled_eq (o : MBSGD) (hg : o.PositiveGain) (g : Vec) : ∃ c : Vec, (∀ p, 0 < c p) ∧ ∀ p, o.scaled g p = g p * c p := by
  by_cases h : o.useGain
  · refine ⟨o.newGains g, fun p => ?_, fun p => by rw [MBSGD.scaled, if_pos h]⟩
    rw [MBSGD.newGains, if_pos h, MBSGD.newGain]
    exact lt_min hg.2 (lt_max_of_lt_left hg.1)
  · exact ⟨fun _ => 1, fun _ => one_pos, fun p => by rw [MBSGD.scaled, if_neg h, mul_one]⟩

/-- **C78 (one mini-batch)**: if the momentum does not count (in the first step it is zero; later if the momentum coefficient is
zero) and the optimised object computes the gradient of `J` for the mini-batch, then `J` is smaller after the update for every
sufficiently small learning rate, unless the gradient is zero. -/
theorem update_descends (o : MBSGD) (obj : Obj) (b : List ℕ) (hg : o.PositiveGain) (hm : ∀ p, o.eta * o.momentum p = 0)
    (hw : obj.w = o.parameters) {P : ℕ} {J : Vec → ℝ}
    (hJ : GradientAt P J o.parameters (obj.result b).2) (hne : ∃ p < P, (obj.result b).2 p ≠ 0) :
    ∃ ε > 0, ∀ a, 0 < a → a < ε →
      J (({ o with alpha := a } : MBSGD).update obj b).1.parameters < J o.parameters := by
  obtain ⟨c, hc, hs⟩ := scaled_eq o hg (obj.result b).2
  have hd := hJ fun p => -((obj.result b).2 p * c p)
  have hneg : ∑ p ∈ range P, (obj.result b).2 p * -((obj.result b).2 p * c p) < 0 := by
    have : ∑ p ∈ range P, (obj.result b).2 p * -((obj.result b).2 p * c p) =
        -∑ p ∈ range P, (obj.result b).2 p ^ 2 * c p := by
      rw [← Finset.sum_neg_distrib]
      exact Finset.sum_congr rfl fun p _ => by ring
    rw [this, neg_lt_zero]
    obtain ⟨p, hp, h0⟩ := hne
    refine Finset.sum_pos' (fun q _ => mul_nonneg (sq_nonneg _) (hc q).le) ⟨p, mem_range.2 hp, ?_⟩
    exact mul_pos (by positivity) (hc p)
  obtain ⟨ε, hε, hlt⟩ := lt_of_neg_deriv hd hneg
  refine ⟨ε, hε, fun a h0 h1 => ?_⟩
  have hlook : ({ o with alpha := a } : MBSGD).lookAhead obj = obj := by
    unfold MBSGD.lookAhead
    by_cases h : o.nesterov
    · simp only [h, if_true]
      have : (fun p => o.parameters p + o.eta * o.momentum p) = obj.w := by
        rw [hw]
        funext p
        rw [hm, add_zero]
      rw [this]
    · simp [h]
  have hp : (({ o with alpha := a } : MBSGD).update obj b).1.parameters =
      fun p => o.parameters p + a * -((obj.result b).2 p * c p) := by
    unfold MBSGD.update
    simp only [hlook]
    funext p
    show o.parameters p + (o.eta * o.momentum p - a * o.scaled (obj.result b).2 p) = _
    rw [hm, hs]
    ring
  rw [hp]
  have := hlt a h0 h1
  simpa using this

/-- The first epoch of a run in which every epoch is one batch. -/
theorem updates_oneBatch {p : MBSGD} {obj : Obj} (ho : OneBatch p obj.problem) (hf : p.Fair) :
    p.reshuffle.updates obj p.batches = p.reshuffle.update obj (p.rng 0 p.randomIndices) := by
  have e1 : batchOf p.reshuffle.randomIndices p.batchSize 0 = p.rng 0 p.randomIndices := by
    show (List.drop (0 * p.batchSize) (p.rng 0 p.randomIndices)).take p.batchSize = _
    rw [Nat.zero_mul, List.drop_zero]
    refine List.take_of_length_le ?_
    rw [(hf 0 _).length_eq, ho.indices.length_eq, List.length_range]
    exact ho.size
  rw [ho.batches, ← e1]
  rfl

/-- **C78 (one step)**: likewise for `step()` with batches that are at least as large as the training set, in every state of the
optimiser in which the momentum does not count. -/
theorem step_descends {o : MBSGD} {obj : Obj} (ho : OneBatch (o.ready obj) obj.problem) (hf : (o.ready obj).Fair)
    (hP : 0 < obj.problem.dimension) (hN : 0 < obj.problem.examples) (hdim : (o.ready obj).P = obj.problem.dimension)
    (hg : o.PositiveGain) (hm : ∀ p, (o.ready obj).eta * (o.ready obj).momentum p = 0)
    (hw : obj.w = (o.ready obj).parameters) {J : Vec → ℝ}
    (hJ : GradientAt obj.problem.dimension J obj.w (obj.result ((o.ready obj).rng 0 (o.ready obj).randomIndices)).2)
    (hne : ∃ p < obj.problem.dimension, (obj.result ((o.ready obj).rng 0 (o.ready obj).randomIndices)).2 p ≠ 0) :
    ∃ ε > 0, ∀ a, 0 < a → a < ε → ∃ c o' obj', ({ o with alpha := a } : MBSGD).step obj = .ok (c, o', obj') ∧
      J (o'.result obj').1 < J obj.w := by
  set q := o.ready obj with hq
  have hready : ∀ a, ({ o with alpha := a } : MBSGD).ready obj = { q with alpha := a } := by
    intro a
    rw [hq]
    unfold MBSGD.ready
    by_cases h : o.iteration < 0
    · rw [if_pos h, if_pos h]
      rfl
    · rw [if_neg h, if_neg h]
  have hgq : q.reshuffle.PositiveGain := by
    show 0 < q.minGain ∧ 0 < q.maxGain
    rw [hq]
    unfold MBSGD.ready
    by_cases h : o.iteration < 0
    · rw [if_pos h]
      exact hg
    · rw [if_neg h]
      exact hg
  obtain ⟨ε, hε, hlt⟩ := update_descends q.reshuffle obj (q.rng 0 q.randomIndices) hgq hm hw
    (by show GradientAt _ J q.parameters _; rw [← hw]; exact hJ) hne
  refine ⟨ε, hε, fun a h0 h1 => ?_⟩
  have hoa : OneBatch ({ q with alpha := a } : MBSGD) obj.problem := ⟨ho.N, ho.batches, ho.indices, ho.size⟩
  have hst := step_ok (o := { o with alpha := a }) (obj := obj) (by rw [hready]; show 0 < q.P; rw [hdim]; exact hP)
    (by rw [hready]; show 0 < q.N; rw [ho.N]; exact hN) (by rw [hready]; show 0 < q.batches; rw [ho.batches]; exact one_pos)
    (by rw [hready]; show q.randomIndices.length = q.N; rw [ho.N, ho.indices.length_eq, List.length_range])
    (by rw [hready]; exact hdim.symm)
  rw [hready, updates_oneBatch hoa hf] at hst
  refine ⟨_, _, _, hst, ?_⟩
  have hfin := (finish_same ((({ q with alpha := a } : MBSGD).reshuffle.update obj (q.rng 0 q.randomIndices)).1)).2.2.2.2.2.1
  show J (MBSGD.finish _).2.parameters < _
  rw [hfin]
  refine lt_of_lt_of_eq (hlt a h0 h1) ?_
  rw [hw]
  rfl

/-- The state of an optimiser that was not used yet. -/
theorem fresh_state {o : MBSGD} (hv : o.Valid) (hf : o.Fair) (hn : o.iteration < 0) {obj : Obj}
    (hs : obj.problem.examples ≤ o.batchSize) : OneBatch (o.ready obj) obj.problem ∧ (o.ready obj).Fair ∧
      (o.ready obj).P = obj.problem.dimension ∧ (∀ p, (o.ready obj).eta * (o.ready obj).momentum p = 0) ∧
      obj.w = (o.ready obj).parameters := by
  rw [ready_of_lt hn]
  exact ⟨oneBatch_init hv hf hs, fun k l => hf (k + 1) l, rfl, fun p => mul_zero _, rfl⟩

open NN in
theorem ne_nil_of_perm {n : ℕ} (hN : 0 < n) {b : List ℕ} (hb : b.Perm (List.range n)) : b ≠ [] := by
  intro e
  have := hb.length_eq
  rw [e, List.length_range] at this
  simp at this
  omega

open NN in
/-- `error()` in terms of the data alone, for the mean squared error without penalties. -/
theorem error_eq_dataError {D : ℕ} {ks : List Kind} (hr : ∀ k ∈ ks, k.Unregularised) (hrow : ∀ k ∈ ks, k.RowWise) (mem : Mem)
    (ds : TrainSet) (hN : 0 < ds.samples) {b : List ℕ} (hb : b.Perm (List.range ds.samples)) :
    (buildNet D ks false).error mem ds = dataError (buildNet D ks false) mem ds b := by
  rw [error_eq_value_partial hrow mem ⟨fun _ _ => 0, fun _ _ _ => 0⟩ ds hN, Net.errorGradientAll,
    ← batch_order (D := D) false hrow mem ds ⟨fun _ _ => 0, fun _ _ _ => 0⟩ ⟨fun _ _ => 0, fun _ _ _ => 0⟩ hb (ne_nil_of_perm hN hb), value_mse, penalty_zero hr,
    add_zero]

open NN in
/-- **C78 (networks)**: for every architecture whose layers treat the rows of a batch alike, every training set and all
parameters at which the network is differentiable and the gradient is not zero: the first `step()` of an optimiser with full
batches lowers the mean squared error that `error()` reports, for every sufficiently small learning rate. -/
theorem network_descends {D : ℕ} {ks : List Kind} (hf : FitsFrom D ks) (hu : Unconstrained ks)
    (hr : ∀ k ∈ ks, k.Unregularised) (hrow : ∀ k ∈ ks, k.RowWise) (mem0 : Mem) (sc : ℕ → Scratch) (ds : TrainSet)
    (hN : 0 < ds.samples) {o : MBSGD} (hv : o.Valid) (hfair : o.Fair) (hn : o.iteration < 0) (hs : ds.samples ≤ o.batchSize)
    (hg : o.PositiveGain) (w : Vec) (calls : ℕ)
    (hsmooth : ∀ b, b.Perm (List.range ds.samples) →
      SmoothFrom ((buildNet D ks false).setParameters mem0 (vectorOf (buildNet D ks false) w)) b.length 1 D ks
        (selectRows ds.inst b))
    (hne : ∃ g ∈ ((buildNet D ks false).errorGradientAll ((buildNet D ks false).setParameters mem0
      (vectorOf (buildNet D ks false) w)) (sc calls) ds).2, g ≠ 0) :
    ∃ ε > 0, ∀ a, 0 < a → a < ε → ∃ c o' obj',
      ({ o with alpha := a } : MBSGD).step ⟨netProblem (buildNet D ks false) mem0 sc ds, w, calls, []⟩ = .ok (c, o', obj') ∧
      (buildNet D ks false).error ((buildNet D ks false).setParameters mem0
          (vectorOf (buildNet D ks false) (o'.result obj').1)) ds <
        (buildNet D ks false).error ((buildNet D ks false).setParameters mem0 (vectorOf (buildNet D ks false) w)) ds := by
  set net := buildNet D ks false with hnet
  set obj : Obj := ⟨netProblem net mem0 sc ds, w, calls, []⟩ with hobj
  have hlen : ∀ b : List ℕ, b.Perm (List.range ds.samples) → b ≠ [] := fun b hb => ne_nil_of_perm hN hb
  have hval : ∀ (mem : Mem) (b : List ℕ), b.Perm (List.range ds.samples) → net.error mem ds = dataError net mem ds b :=
    fun mem b hb => error_eq_dataError hr hrow mem ds hN hb
  obtain ⟨h1, h2, h3, h4, h5⟩ := fresh_state (obj := obj) hv hfair hn hs
  set b := (o.ready obj).rng 0 (o.ready obj).randomIndices with hbdef
  have hb : b.Perm (List.range ds.samples) := (h2 0 _).trans h1.indices
  obtain ⟨g, hgm, hg0⟩ := hne
  obtain ⟨i, hi, rfl⟩ := List.getElem_of_mem hgm
  have hiP : i < net.P := by
    rw [← grad_length (D := D) (ks := ks) (ce := false)]
    exact hi
  refine step_descends h1 h2 (by show 0 < net.P; omega) hN h3 hg h4 h5
    (J := fun u => net.error (net.setParameters mem0 (vectorOf net u)) ds) ?_ ?_
  · intro v
    have hd := directional (ce := false) hf hu mem0 (sc calls) ds (hlen b hb) (by intro h; cases h) w v (hsmooth b hb)
    simp only [trainObjective, penalty_zero hr, zero_div, add_zero] at hd
    simp only [hval _ b hb]
    exact hd
  · refine ⟨i, hiP, ?_⟩
    show (net.errorGradient (net.setParameters mem0 (vectorOf net w)) (sc calls) ds b).2.getD i 0 ≠ 0
    have e := batch_order (D := D) (ce := false) hrow (net.setParameters mem0 (vectorOf net w)) ds (sc calls) (sc calls) hb
      (hlen b hb)
    rw [← hnet] at e
    rw [e]
    have e2 := (List.getElem_eq_getD (h := hi) (0 : ℝ))
    rw [e2] at hg0
    exact hg0

open NN in
/-- **C78 (any objective)**: without the restrictions to the mean squared error, to networks without penalties and to layers
that treat rows alike: the step lowers the objective that the gradient belongs to (C19), for the order in which the optimiser
shuffled the examples. -/
theorem objective_descends {D : ℕ} {ks : List Kind} {ce : Bool} (hf : FitsFrom D ks) (hu : Unconstrained ks)
    (mem0 : Mem) (sc : ℕ → Scratch) (ds : TrainSet)
    (hT : ce = true → ∀ n < ds.samples, ∑ j ∈ range (buildNet D ks ce).outputs, ds.tgt n j = 1)
    (hN : 0 < ds.samples) {o : MBSGD} (hv : o.Valid) (hfair : o.Fair) (hn : o.iteration < 0) (hs : ds.samples ≤ o.batchSize)
    (hg : o.PositiveGain) (w : Vec) (calls : ℕ)
    (hsmooth : ∀ b, b.Perm (List.range ds.samples) →
      SmoothFrom ((buildNet D ks ce).setParameters mem0 (vectorOf (buildNet D ks ce) w)) b.length 1 D ks
        (selectRows ds.inst b))
    (hne : ∀ b, b.Perm (List.range ds.samples) → ∃ g ∈ ((buildNet D ks ce).errorGradient
      ((buildNet D ks ce).setParameters mem0 (vectorOf (buildNet D ks ce) w)) (sc calls) ds b).2, g ≠ 0) :
    ∃ b, b.Perm (List.range ds.samples) ∧ ∃ ε > 0, ∀ a, 0 < a → a < ε → ∃ c o' obj',
      ({ o with alpha := a } : MBSGD).step ⟨netProblem (buildNet D ks ce) mem0 sc ds, w, calls, []⟩ = .ok (c, o', obj') ∧
      trainObjective (buildNet D ks ce) ((buildNet D ks ce).setParameters mem0
          (vectorOf (buildNet D ks ce) (o'.result obj').1)) ds b <
        trainObjective (buildNet D ks ce) ((buildNet D ks ce).setParameters mem0 (vectorOf (buildNet D ks ce) w)) ds b := by
  set net := buildNet D ks ce with hnet
  set obj : Obj := ⟨netProblem net mem0 sc ds, w, calls, []⟩ with hobj
  obtain ⟨h1, h2, h3, h4, h5⟩ := fresh_state (obj := obj) hv hfair hn hs
  set b := (o.ready obj).rng 0 (o.ready obj).randomIndices with hbdef
  have hb : b.Perm (List.range ds.samples) := (h2 0 _).trans h1.indices
  obtain ⟨g, hgm, hg0⟩ := hne b hb
  obtain ⟨i, hi, rfl⟩ := List.getElem_of_mem hgm
  have hiP : i < net.P := by
    rw [← grad_length (D := D) (ks := ks) (ce := ce)]
    exact hi
  refine ⟨b, hb, step_descends h1 h2 (by show 0 < net.P; omega) hN h3 hg h4 h5
    (J := fun u => trainObjective net (net.setParameters mem0 (vectorOf net u)) ds b) ?_ ?_⟩
  · intro v
    exact directional (ce := ce) hf hu mem0 (sc calls) ds (ne_nil_of_perm hN hb)
      (fun h n hn => hT h n (List.mem_range.1 (hb.mem_iff.1 hn))) w v (hsmooth b hb)
  · refine ⟨i, hiP, ?_⟩
    show (net.errorGradient (net.setParameters mem0 (vectorOf net w)) (sc calls) ds b).2.getD i 0 ≠ 0
    rw [List.getElem_eq_getD (0 : ℝ)] at hg0
    exact hg0

/-! ## Witnesses -/

open NN

/-- One linear neuron with one weight. -/
def oneWeight : List Kind := [.fullyConnected 1 false .linear ⟨0, 0, 0⟩]

/-- One example: `2 ↦ 0`. -/
def oneExample : TrainSet := ⟨1, fun _ _ => 2, fun _ _ => 0⟩

theorem oneWeight_fits : FitsFrom 1 oneWeight := ⟨trivial, trivial⟩

theorem oneWeight_unconstrained : Unconstrained oneWeight := by
  intro k hk J bias act reg e
  cases List.mem_singleton.1 hk
  cases e
  exact le_refl _

theorem oneWeight_unregularised : ∀ k ∈ oneWeight, k.Unregularised := by
  intro k hk
  cases List.mem_singleton.1 hk
  exact ⟨le_refl _, le_refl _⟩

theorem oneWeight_rowWise : ∀ k ∈ oneWeight, k.RowWise := by
  intro k hk
  cases List.mem_singleton.1 hk
  trivial

theorem oneWeight_smooth (mem : Mem) (n : ℕ) (x : Batch) : SmoothFrom mem n 1 1 oneWeight x := by
  refine smoothFrom_fullyConnected ?_ _ _ _ _ _
  intro k hk
  cases List.mem_singleton.1 hk
  exact ⟨_, _, _, rfl, by decide, by decide⟩

theorem oneWeight_P : (buildNet 1 oneWeight false).P = 1 := rfl

theorem oneWeight_set (mem : Mem) (w : ℕ → ℝ) :
    (buildNet 1 oneWeight false).setParameters mem (vectorOf (buildNet 1 oneWeight false) w) = mem.write (1, .w [0, 0]) (w 0) := by
  rw [setParameters_unconstrained (updated_of_unconstrained oneWeight_unconstrained)]
  rfl

/-- The error of this network on this example. -/
theorem oneWeight_error (mem : Mem) (w : ℕ → ℝ) : (buildNet 1 oneWeight false).error
    ((buildNet 1 oneWeight false).setParameters mem (vectorOf (buildNet 1 oneWeight false) w)) oneExample = 2 * w 0 ^ 2 := by
  rw [error_eq_dataError oneWeight_unregularised oneWeight_rowWise _ oneExample one_pos (.refl _), oneWeight_set, dataError]
  have ho : (buildNet 1 oneWeight false).activations (mem.write (1, .w [0, 0]) (w 0)) 1
      (selectRows oneExample.inst [0]) 0 0 = 2 * w 0 := by
    show (∑ i ∈ range 1, (2 : ℝ) * _) + (0 : ℝ) = _
    rw [sum_range_one, add_zero]
    congr 1
  have hl : ∀ Y T : Batch, exactLoss false 1 1 Y T = (Y 0 0 - T 0 0) ^ 2 / 2 := by
    intro Y T
    show meanSquaredError 1 1 _ = _
    simp [meanSquaredError]
  refine (hl _ _).trans ?_
  have e : (buildNet 1 oneWeight false).activations (mem.write (1, .w [0, 0]) (w 0)) (List.range oneExample.samples).length
      (selectRows oneExample.inst (List.range oneExample.samples)) 0 0 = 2 * w 0 := ho
  rw [e]
  show (2 * w 0 - 0) ^ 2 / 2 = _
  ring

/-- Its gradient. -/
theorem oneWeight_gradient (mem : Mem) (sc : Scratch) (w : ℕ → ℝ) {b : List ℕ} (hb : b.Perm (List.range oneExample.samples)) :
    ((buildNet 1 oneWeight false).errorGradient ((buildNet 1 oneWeight false).setParameters mem
      (vectorOf (buildNet 1 oneWeight false) w)) sc oneExample b).2.getD 0 0 = 4 * w 0 := by
  have hd := directional (ce := false) oneWeight_fits oneWeight_unconstrained mem sc oneExample (ne_nil_of_perm one_pos hb)
    (by intro h; cases h) w (fun _ => 1) (oneWeight_smooth _ _ _)
  simp only [trainObjective, penalty_zero oneWeight_unregularised, zero_div, add_zero,
    ← error_eq_dataError oneWeight_unregularised oneWeight_rowWise _ oneExample one_pos hb, oneWeight_error, oneWeight_P,
    sum_range_one, mul_one] at hd
  have h2 : HasDerivAt (fun t : ℝ => 2 * (w 0 + t) ^ 2) (2 * (2 * (w 0 + 0) ^ (2 - 1) * 1)) 0 := by
    have := (((hasDerivAt_id (0 : ℝ)).const_add (w 0)).pow 2).const_mul 2
    simpa using this
  have := hd.unique h2
  rw [this]
  norm_num
  ring

/-- The hypotheses of `network_descends` are met by this network, this example and the weight 1. -/
example (mem0 : Mem) (sc : ℕ → Scratch) : FitsFrom 1 oneWeight ∧ Unconstrained oneWeight ∧ (∀ k ∈ oneWeight, k.Unregularised) ∧
    (∀ k ∈ oneWeight, k.RowWise) ∧ (example1 false 1 5).Valid ∧ (example1 false 1 5).Fair ∧ (example1 false 1 5).iteration < 0 ∧
    oneExample.samples ≤ (example1 false 1 5).batchSize ∧ (example1 false 1 5).PositiveGain ∧
    ∃ g ∈ ((buildNet 1 oneWeight false).errorGradientAll ((buildNet 1 oneWeight false).setParameters mem0
      (vectorOf (buildNet 1 oneWeight false) fun _ => 1)) (sc 0) oneExample).2, g ≠ 0 := by
  refine ⟨oneWeight_fits, oneWeight_unconstrained, oneWeight_unregularised, oneWeight_rowWise,
    example1_valid false one_pos le_rfl 5, example1_fair false 1 5, by show (-1 : ℤ) < 0; norm_num, le_rfl,
    ⟨one_pos, one_pos⟩, ?_⟩
  have h := oneWeight_gradient mem0 (sc 0) (fun _ => 1) (.refl _)
  have hl : 0 < ((buildNet 1 oneWeight false).errorGradientAll ((buildNet 1 oneWeight false).setParameters mem0
      (vectorOf (buildNet 1 oneWeight false) fun _ => 1)) (sc 0) oneExample).2.length := by
    rw [Net.errorGradientAll, Net.errorGradient, grad_length, oneWeight_P]
    exact one_pos
  refine ⟨_, List.getElem_mem hl, ?_⟩
  rw [List.getElem_eq_getD (0 : ℝ)]
  refine ne_of_eq_of_ne h ?_
  norm_num

/-- **The learning rate has to be small enough**: with the learning rate 1 the first step raises the error of this network
from 2 to 18. -/
theorem large_step_fails (mem0 : Mem) (sc : ℕ → Scratch) : ∃ (o : MBSGD) (w : Vec) (c : Bool) (o' : MBSGD) (obj' : Obj),
    o.Valid ∧ o.Fair ∧ o.iteration < 0 ∧ oneExample.samples ≤ o.batchSize ∧ o.PositiveGain ∧ o.alpha = 1 ∧
    o.step ⟨netProblem (buildNet 1 oneWeight false) mem0 sc oneExample, w, 0, []⟩ = .ok (c, o', obj') ∧
    (buildNet 1 oneWeight false).error ((buildNet 1 oneWeight false).setParameters mem0
      (vectorOf (buildNet 1 oneWeight false) w)) oneExample = 2 ∧
    (buildNet 1 oneWeight false).error ((buildNet 1 oneWeight false).setParameters mem0
      (vectorOf (buildNet 1 oneWeight false) (o'.result obj').1)) oneExample = 18 := by
  set o : MBSGD := { example1 false 1 5 with alpha := 1 } with ho
  set obj : Obj := ⟨netProblem (buildNet 1 oneWeight false) mem0 sc oneExample, fun _ => 1, 0, []⟩ with hobj
  have hv : o.Valid := ⟨le_rfl, one_pos, le_rfl, le_rfl, le_rfl⟩
  have hf : o.Fair := fun _ _ => List.Perm.refl _
  have hn : o.iteration < 0 := by show (-1 : ℤ) < 0; norm_num
  obtain ⟨h1, h2, h3, h4, h5⟩ := fresh_state hv hf hn (obj := obj) le_rfl
  have hst := step_ok (o := o) (obj := obj) (by rw [h3]; exact Nat.one_pos) (by rw [h1.N]; exact Nat.one_pos)
    (by rw [h1.batches]; exact Nat.one_pos) (by rw [h1.N, h1.indices.length_eq, List.length_range]) h3.symm
  rw [updates_oneBatch h1 h2, ready_of_lt hn] at hst
  refine ⟨o, fun _ => 1, _, _, _, hv, hf, hn, le_rfl, ⟨one_pos, one_pos⟩, rfl, hst, ?_, ?_⟩
  · rw [oneWeight_error]
    norm_num
  · rw [oneWeight_error]
    have hres : ∀ (q : MBSGD) (ob : Obj), (q.finish.2.result ob).1 0 = q.parameters 0 := fun q ob =>
      congrFun (finish_same q).2.2.2.2.2.1 0
    rw [hres]
    have hg := oneWeight_gradient mem0 (sc 0) (fun _ => 1) (.refl _)
    have hp : ((o.init obj).reshuffle.update obj [0]).1.parameters 0 = -3 := by
      have hsc : ∀ g : Vec, (o.init obj).reshuffle.scaled g 0 = g 0 := by
        intro g
        unfold MBSGD.scaled
        split
        · show g 0 * (o.init obj).reshuffle.newGains g 0 = g 0
          unfold MBSGD.newGains
          rw [if_pos (by assumption)]
          show g 0 * min 1 (max 1 _) = g 0
          rw [min_eq_left (le_max_left _ _), mul_one]
        · rfl
      show (1 : ℝ) + ((0 : ℝ) * 0 - 1 * (o.init obj).reshuffle.scaled (obj.result [0]).2 0) = _
      rw [hsc]
      have : (obj.result [0]).2 0 = 4 * 1 := hg
      rw [this]
      norm_num
    have hb : (o.init obj).rng 0 (o.init obj).randomIndices = [0] := rfl
    rw [hb, hp]
    norm_num

end

end Verif.Opt
