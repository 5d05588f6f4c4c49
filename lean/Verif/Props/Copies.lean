import Verif.Props.OrderMBSGD

/-!
# Only the proportions of the training examples matter (C144)

A training set in which every example occurs `m` times as often, in any order, is compared with the original.
-/

namespace Verif.NN

open Finset

noncomputable section

/-- Spec: training set `ds'` contains every example of `ds` `m` times, in any order. -/
def Repeated (m : ℕ) (ds ds' : TrainSet) : Prop :=
  ∃ π : List ℕ, π.Perm (List.replicate m (List.range ds.samples)).flatten ∧ ds'.samples = π.length ∧
    ∀ n < π.length, ds'.inst n = ds.inst (π.getD n 0) ∧ ds'.tgt n = ds.tgt (π.getD n 0)

theorem Repeated.samples {m : ℕ} {ds ds' : TrainSet} (h : Repeated m ds ds') : ds'.samples = m * ds.samples := by
  obtain ⟨π, hp, hs, _⟩ := h
  rw [hs, hp.length_eq]
  simp [List.length_flatten]

section

variable {D : ℕ} {ks : List Kind} (ce : Bool) (mem : Mem) {ds ds' : TrainSet} {m : ℕ}

/-- A training set whose rows are the rows `π` of another one. -/
theorem errorGradient_rows (hr : ∀ k ∈ ks, k.RowWise) (sc sc' : Scratch) {π : List ℕ} (hne : π ≠ [])
    (hrow : ∀ n < π.length, ds'.inst n = ds.inst (π.getD n 0) ∧ ds'.tgt n = ds.tgt (π.getD n 0)) :
    (buildNet D ks ce).errorGradient mem sc ds π = (buildNet D ks ce).errorGradient mem sc' ds' (List.range π.length) := by
  have hl' : (List.range π.length).length = π.length := List.length_range
  have hpos : 0 < π.length := List.length_pos_iff.2 hne
  have hrange : List.range π.length ≠ [] := by
    intro e
    rw [List.range_eq_nil] at e
    omega
  have hmean : ∀ f f' : ℕ → ℝ, (∀ n < π.length, f' n = f (π.getD n 0)) →
      meanOver f π = meanOver f' (List.range π.length) := by
    intro f f' hf
    rw [meanOver, meanOver, hl', Opt.sum_map_getD, Opt.sum_map_getD, hl']
    congr 1
    refine sum_congr rfl fun n hn => ?_
    rw [mem_range] at hn
    have : (List.range π.length).getD n 0 = n := by
      rw [List.getD, List.getElem?_range hn]
      rfl
    rw [this, hf n hn]
  refine Prod.ext ?_ (List.ext_getElem? fun i => ?_)
  · rw [batch_value_mean hr mem sc ds hne, batch_value_mean hr mem sc' ds' hrange, ← Opt.sum_map_getD, ← Opt.sum_map_getD]
    refine hmean _ _ fun n hn => ?_
    rw [Net.errorAt, Net.errorAt, (hrow n hn).1, (hrow n hn).2]
  · by_cases hi : i < (buildNet D ks ce).P
    · rw [gradient_entry ce hr mem ds sc hne hi, gradient_entry ce hr mem ds' sc' hrange hi, hl']
      congr 2
      refine hmean _ _ fun n hn => ?_
      rw [gradientEntry, gradientEntry, List.getD, List.getD,
        single_gradient ce hr mem _ ⟨fun _ _ => 0, fun _ _ _ => 0⟩ (hrow n hn).1 (hrow n hn).2 hi]
    · have hl : ∀ sc ds idx, ((buildNet D ks ce).errorGradient mem sc ds idx).2.length = (buildNet D ks ce).P := by
        intro sc ds idx
        rw [errorGradient_length, (parameters_one_to_one D ks ce).2.2.2.1, Net.P]
      rw [List.getElem?_eq_none (by rw [hl]; omega), List.getElem?_eq_none (by rw [hl]; omega)]

/-- The list of all examples, `m` times. -/
theorem copies_ne {N : ℕ} (hm : 0 < m) (hN : 0 < N) {π : List ℕ} (hp : π.Perm (List.replicate m (List.range N)).flatten) : π ≠ [] := by
  intro e
  have := hp.length_eq
  rw [e] at this
  simp [List.length_flatten] at this
  omega

/-- **C144 (`error()`)**: `error()` is the same for `m` copies of the training set, for every network and with penalties. -/
theorem error_copies (net : Net) (hm : 0 < m) (h : Repeated m ds ds') : net.error mem ds' = net.error mem ds := by
  have hs := h.samples
  obtain ⟨π, hp, hl, hrow⟩ := h
  rw [error_mean, error_mean]
  have h1 : ∑ n ∈ range ds'.samples, net.errorAt mem ds' n = (π.map (net.errorAt mem ds)).sum := by
    rw [Opt.sum_map_getD, hl]
    refine sum_congr rfl fun n hn => ?_
    rw [Net.errorAt, Net.errorAt, (hrow n (mem_range.1 hn)).1, (hrow n (mem_range.1 hn)).2]
  have h2 : (π.map (net.errorAt mem ds)).sum = m * ∑ n ∈ range ds.samples, net.errorAt mem ds n := by
    rw [(hp.map _).sum_eq, List.map_flatten, List.sum_flatten]
    simp only [List.map_replicate, List.sum_replicate, nsmul_eq_mul]
    congr 1
  have hM : (m : ℝ) ≠ 0 := by exact_mod_cast hm.ne'
  rw [h1, h2, hs, Nat.cast_mul, mul_div_mul_left _ _ hM]

/-- **C144 (gradient, with penalties)**: for `m` copies of the training set the part of the penalties in the gradient is divided by
`m`, the rest is the same. -/
theorem gradient_copies (hr : ∀ k ∈ ks, k.RowWise) (sc sc' : Scratch) (hm : 0 < m) (hN : 0 < ds.samples) (h : Repeated m ds ds') {i : ℕ}
    (hi : i < (buildNet D ks ce).P) : ∃ g g' : ℝ, ((buildNet D ks ce).errorGradientAll mem sc ds).2[i]? = some g ∧
      ((buildNet D ks ce).errorGradientAll mem sc' ds').2[i]? = some g' ∧
      g' = g - (1 / ds.samples - 1 / (m * ds.samples)) * (decayGradient D ks mem).getD i 0 := by
  have hs := h.samples
  obtain ⟨π, hp, hl, hrow⟩ := h
  have hne : List.range ds.samples ≠ [] := by
    intro e
    rw [List.range_eq_nil] at e
    omega
  have hM : (m : ℝ) ≠ 0 := by exact_mod_cast hm.ne'
  have hN' : (ds.samples : ℝ) ≠ 0 := by exact_mod_cast hN.ne'
  refine ⟨_, _, gradient_entry ce hr mem ds sc hne hi, ?_, rfl⟩
  rw [Net.errorGradientAll, hl, ← errorGradient_rows ce mem hr sc sc' (copies_ne hm hN hp) hrow,
    gradient_entry ce hr mem ds sc (copies_ne hm hN hp) hi]
  congr 1
  have hlen : (π.length : ℝ) = m * ds.samples := by
    rw [← hl, hs]
    push_cast
    rfl
  have hmean : meanOver (gradientEntry D ks ce mem ds i) π = meanOver (gradientEntry D ks ce mem ds i) (List.range ds.samples) := by
    rw [meanOver_perm hp, meanOver, meanOver]
    have h1 : (((List.replicate m (List.range ds.samples)).flatten).map (gradientEntry D ks ce mem ds i)).sum =
        m * ((List.range ds.samples).map (gradientEntry D ks ce mem ds i)).sum := by
      rw [List.map_flatten, List.sum_flatten]
      simp
    have h2 : (((List.replicate m (List.range ds.samples)).flatten).length : ℝ) = m * (List.range ds.samples).length := by
      simp [List.length_flatten]
    rw [h1, h2, mul_div_mul_left _ _ hM]
  rw [hmean, hlen, List.length_range]
  field_simp
  ring

end

/-- The examples of `ds`, all of them twice. -/
def twice (ds : TrainSet) : TrainSet where
  samples := 2 * ds.samples
  inst n := ds.inst (n % ds.samples)
  tgt n := ds.tgt (n % ds.samples)

/-- `twice` contains every example twice: the hypothesis `Repeated` can be met for every training set. -/
theorem twice_repeated (ds : TrainSet) : Repeated 2 ds (twice ds) := by
  have hl : ((List.replicate 2 (List.range ds.samples)).flatten).length = 2 * ds.samples := by
    simp
    omega
  refine ⟨_, .refl _, hl.symm, ?_⟩
  intro n hn
  rw [hl] at hn
  have e : (List.replicate 2 (List.range ds.samples)).flatten.getD n 0 = n % ds.samples := by
    show (List.range ds.samples ++ (List.range ds.samples ++ [])).getD n 0 = _
    rw [List.append_nil]
    by_cases h : n < ds.samples
    · rw [List.getD, List.getElem?_append_left (by rw [List.length_range]; exact h), List.getElem?_range h, Nat.mod_eq_of_lt h]
      rfl
    · rw [List.getD, List.getElem?_append_right (by rw [List.length_range]; omega), List.length_range,
        List.getElem?_range (by omega), Nat.mod_eq_sub_mod (by omega), Nat.mod_eq_of_lt (by omega)]
      rfl
  rw [e]
  exact ⟨rfl, rfl⟩

/-- **C144 is false with penalties**: with an L2 penalty and a first weight that is not zero, the gradient for a training set is not
the gradient for two copies of it, whatever the examples are. -/
theorem gradient_copies_fails {D J : ℕ} (hD : 0 < D) (hJ : 0 < J) {l2 : ℝ} (hl : 0 < l2) (ce : Bool) (mem : Mem)
    (h0 : mem 1 (.w [0, 0]) ≠ 0) (sc sc' : Scratch) (ds : TrainSet) (hN : 0 < ds.samples) :
    ((buildNet D [.fullyConnected J true .linear ⟨0, l2, 0⟩] ce).errorGradientAll mem sc' (twice ds)).2[0]? ≠
      ((buildNet D [.fullyConnected J true .linear ⟨0, l2, 0⟩] ce).errorGradientAll mem sc ds).2[0]? := by
  have hr : ∀ k ∈ ([.fullyConnected J true .linear ⟨0, l2, 0⟩] : List Kind), k.RowWise := by
    intro k hk
    rw [List.mem_singleton.1 hk]
    trivial
  have hP : (buildNet D [.fullyConnected J true .linear ⟨0, l2, 0⟩] ce).P = J * (D + 1) := (parameters_one_to_one D _ ce).2.2.2.2
  have hpos : 0 < (buildNet D [.fullyConnected J true .linear ⟨0, l2, 0⟩] ce).P := by rw [hP]; positivity
  obtain ⟨g, g', h1, h2, h3⟩ := gradient_copies ce mem hr sc sc' Nat.two_pos hN (twice_repeated ds) hpos
  rw [h1, h2]
  have hdec : (decayGradient D [.fullyConnected J true .linear ⟨0, l2, 0⟩] mem).getD 0 0 = l2 * mem 1 (.w [0, 0]) := by
    obtain ⟨d, rfl⟩ := Nat.exists_eq_succ_of_ne_zero hD.ne'
    obtain ⟨j, rfl⟩ := Nat.exists_eq_succ_of_ne_zero hJ.ne'
    have h : (decayGradient (d + 1) [.fullyConnected (j + 1) true .linear ⟨0, l2, 0⟩] mem) =
        ((denseSlots (d + 1) (j + 1) true).map (fun s => ((1, s) : ℕ × Slot)) ++ []).map
          fun p : ℕ × Slot => decayAt [.fullyConnected (j + 1) true .linear ⟨0, l2, 0⟩] (p.1 - 1) p.2 (mem p.1 p.2) := rfl
    rw [h]
    simp only [denseSlots, List.range_succ_eq_map, List.flatMap_cons, List.map_cons, List.cons_append, List.getD_cons_zero]
    show Reg.deriv ⟨0, l2, 0⟩ (mem 1 (.w [0, 0])) = _
    rw [Reg.deriv, if_neg (lt_irrefl _), if_pos hl, zero_add]
  intro e
  have e' : g' = g := Option.some.inj e
  rw [e', hdec] at h3
  have hN' : (ds.samples : ℝ) ≠ 0 := by exact_mod_cast hN.ne'
  have : (1 / (ds.samples : ℝ) - 1 / (((2 : ℕ) : ℝ) * ds.samples)) * (l2 * mem 1 (.w [0, 0])) = 0 := by linarith
  rcases mul_eq_zero.1 this with h | h
  · push_cast at h
    field_simp at h
    norm_num at h
  · exact mul_ne_zero hl.ne' h0 h

end

end Verif.NN

namespace Verif.Opt

noncomputable section

/-- Spec: two problems, not necessarily with the same number of examples; value and gradient for all examples are the same. -/
structure SameFullBatch (A B : Problem) : Prop where
  dimension : A.dimension = B.dimension
  examples : 0 < B.examples
  errorGradient : ∀ k w b b', b.Perm (List.range A.examples) → b'.Perm (List.range B.examples) →
    A.errorGradient k w b = B.errorGradient k w b'

/-- Spec: `o` for another number of examples, with another order of the examples and other future shuffles. -/
def MBSGD.remade (o : MBSGD) (N : ℕ) (l : List ℕ) (r : ℕ → List ℕ → List ℕ) : MBSGD :=
  { o with N := N, randomIndices := l, rng := r }

theorem update_remade {o : MBSGD} {obj : Obj} {B : Problem} (h : SameFullBatch obj.problem B) {b b' : List ℕ}
    (hb : b.Perm (List.range obj.problem.examples)) (hl : b'.Perm (List.range B.examples)) (l : List ℕ) (r : ℕ → List ℕ → List ℕ) (log : List Event) :
    ∃ log', (o.remade B.examples l r).update (obj.twin B log) b' = ((o.update obj b).1.remade B.examples l r, (o.update obj b).2.twin B log') := by
  have hres : ((o.remade B.examples l r).lookAhead (obj.twin B log)).result b' = (o.lookAhead obj).result b := by
    unfold MBSGD.lookAhead MBSGD.remade Obj.result Obj.twin
    cases o.nesterov
    · exact (h.errorGradient _ _ _ _ hb hl).symm
    · exact (h.errorGradient _ _ _ _ hb hl).symm
  refine ⟨log ++ [.evaluate (o.lookAhead obj).w b'], ?_⟩
  unfold MBSGD.update
  simp only [hres]
  refine Prod.ext rfl ?_
  unfold MBSGD.lookAhead MBSGD.remade Obj.twin Obj.evaluate
  cases o.nesterov <;> rfl

theorem init_remade {o : MBSGD} (hb : 0 < o.batchSize) {obj : Obj} (hs : obj.problem.examples ≤ o.batchSize) {B : Problem}
    (h : SameFullBatch obj.problem B) (hB : B.examples ≤ o.batchSize) (l : List ℕ)
    (r : ℕ → List ℕ → List ℕ) (log : List Event) :
    (o.remade B.examples l r).init (obj.twin B log) = (o.init obj).remade B.examples (r 0 (List.range B.examples)) fun k => r (k + 1) := by
  unfold MBSGD.init MBSGD.remade Obj.twin
  have e : ∀ N ≤ o.batchSize, max (N / o.batchSize) 1 = 1 := by
    intro N hN
    have : N / o.batchSize ≤ 1 := by
      calc N / o.batchSize ≤ o.batchSize / o.batchSize := Nat.div_le_div_right hN
        _ = 1 := Nat.div_self hb
    omega
  simp only [h.dimension, e _ hs, e _ hB]

theorem finish_remade (o : MBSGD) (B : Problem) (l : List ℕ) (r : ℕ → List ℕ → List ℕ) :
    (o.remade B.examples l r).finish = (o.finish.1, o.finish.2.remade B.examples l r) := by
  have hrun : ({ o.remade B.examples l r with iteration := (o.remade B.examples l r).iteration + 1 } : MBSGD).run ↔
      ({ o with iteration := o.iteration + 1 } : MBSGD).run := Iff.rfl
  unfold MBSGD.finish
  by_cases h : ({ o with iteration := o.iteration + 1 } : MBSGD).run
  · rw [if_pos h, if_pos (hrun.2 h)]
    rfl
  · rw [if_neg h, if_neg (fun h' => h (hrun.1 h'))]
    rfl

/-- One step of both optimisers, after the initialisation. -/
theorem step_remade {o : MBSGD} {obj : Obj} {B : Problem} (h : SameFullBatch obj.problem B) (ho : OneBatch (o.ready obj) obj.problem)
    {l : List ℕ} {r : ℕ → List ℕ → List ℕ} {log : List Event}
    (hready : ∃ l' r', (o.remade B.examples l r).ready (obj.twin B log) = (o.ready obj).remade B.examples l' r' ∧ l'.Perm (List.range B.examples) ∧
      ∀ k l, (r' k l).Perm l) (hf : ∀ k l, ((o.ready obj).rng k l).Perm l)
    (hB : B.examples ≤ (o.ready obj).batchSize)
    {c : Bool} {o1 : MBSGD} {obj1 : Obj} (hs : o.step obj = .ok (c, o1, obj1)) :
    ∃ l1 r1 log1, (o.remade B.examples l r).step (obj.twin B log) = .ok (c, o1.remade B.examples l1 r1, obj1.twin B log1) ∧
      l1.Perm (List.range B.examples) ∧ (∀ k l, (r1 k l).Perm l) ∧ (∀ k l, (o1.rng k l).Perm l) ∧ OneBatch o1 obj1.problem ∧
      obj1.problem = obj.problem := by
  obtain ⟨l', r', hr, hl, hr'⟩ := hready
  obtain ⟨h1, h2, h3, h4, h5, rfl, rfl, rfl⟩ := step_eq hs
  set p := o.ready obj with hp
  have e1 : batchOf p.reshuffle.randomIndices p.batchSize 0 = p.rng 0 p.randomIndices := by
    show (List.drop (0 * p.batchSize) (p.rng 0 p.randomIndices)).take p.batchSize = _
    rw [Nat.zero_mul, List.drop_zero]
    refine List.take_of_length_le ?_
    rw [(hf 0 _).length_eq, ho.indices.length_eq, List.length_range]
    exact ho.size
  have e2 : batchOf (p.remade B.examples l' r').reshuffle.randomIndices p.batchSize 0 = r' 0 l' := by
    show (List.drop (0 * p.batchSize) (r' 0 l')).take p.batchSize = _
    rw [Nat.zero_mul, List.drop_zero]
    refine List.take_of_length_le ?_
    rw [(hr' 0 _).length_eq, hl.length_eq, List.length_range]
    exact hB
  have hu : p.reshuffle.updates obj p.batches = p.reshuffle.update obj (p.rng 0 p.randomIndices) := by
    rw [ho.batches, ← e1]
    rfl
  obtain ⟨log', ht⟩ := update_remade (o := p.reshuffle) h ((hf 0 _).trans ho.indices)
    ((hr' 0 _).trans hl) (r' 0 l') (fun k => r' (k + 1)) log
  have htu : (p.remade B.examples l' r').reshuffle.updates (obj.twin B log) p.batches =
      ((p.reshuffle.updates obj p.batches).1.remade B.examples (r' 0 l') fun k => r' (k + 1), (p.reshuffle.updates obj p.batches).2.twin B log') := by
    rw [hu, ← ht, ho.batches]
    show (p.remade B.examples l' r').reshuffle.update (obj.twin B log) (batchOf (p.remade B.examples l' r').reshuffle.randomIndices p.batchSize 0) = _
    rw [e2]
    rfl
  have hsame := updates_same p.reshuffle obj p.batches
  have hfin := finish_same (p.reshuffle.updates obj p.batches).1
  have hprob : (p.reshuffle.updates obj p.batches).2.problem = obj.problem := by
    rw [hu]
    unfold MBSGD.update MBSGD.lookAhead Obj.evaluate
    cases p.reshuffle.nesterov <;> rfl
  have hri : ((p.reshuffle.updates obj p.batches).1.finish.2).randomIndices = p.rng 0 p.randomIndices := by
    rw [hfin.2.2.2.2.2.2.2.2.2.2.1, hsame.randomIndices]
    rfl
  have hrg : ((p.reshuffle.updates obj p.batches).1.finish.2).rng = fun k => p.rng (k + 1) := by
    rw [hfin.2.2.2.2.2.2.2.2.2.2.2, hsame.rng]
    rfl
  refine ⟨r' 0 l', fun k => r' (k + 1), log' ++ [.finished (p.reshuffle.updates obj p.batches).2.w], ?_, ?_, ?_, ?_, ?_, hprob⟩
  · rw [step_ok (by rw [hr]; exact h1) (by rw [hr]; exact h.examples) (by rw [hr]; exact h3)
      (by
        rw [hr]
        show l'.length = B.examples
        rw [hl.length_eq, List.length_range])
      (by
        rw [hr]
        show B.dimension = p.P
        rw [← h.dimension]
        exact h5), hr, show (p.remade B.examples l' r').batches = p.batches from rfl, htu, finish_remade _ B]
    rfl
  · exact (hr' 0 _).trans hl
  · exact fun k l => hr' (k + 1) l
  · rw [hrg]
    exact fun k l => hf (k + 1) l
  · have hc := hfin.1
    constructor
    · show _ = (p.reshuffle.updates obj p.batches).2.problem.examples
      rw [hprob]
      have hN : (p.reshuffle.updates obj p.batches).1.finish.2.N = (p.reshuffle.updates obj p.batches).1.N := by
        unfold MBSGD.finish
        split <;> rfl
      rw [hN, hsame.N]
      exact ho.N
    · have hB : (p.reshuffle.updates obj p.batches).1.finish.2.batches = (p.reshuffle.updates obj p.batches).1.batches := by
        unfold MBSGD.finish
        split <;> rfl
      rw [hB, hsame.batches]
      exact ho.batches
    · show List.Perm _ (List.range (p.reshuffle.updates obj p.batches).2.problem.examples)
      rw [hri, hprob]
      exact (hf 0 _).trans ho.indices
    · show (p.reshuffle.updates obj p.batches).2.problem.examples ≤ _
      rw [hprob, hc.batchSize, hsame.batchSize]
      exact ho.size

/-- **C144 (gradient descent)**: two problems with different numbers of examples and the same mean over all examples: if a batch
is at least as large as both training sets, every number of steps gives the same parameters and the same answers of `step()`. -/
theorem full_batch_copies {o : MBSGD} (hv : o.Valid) (hf : o.Fair) (hn : o.iteration < 0) {obj : Obj}
    (hs : obj.problem.examples ≤ o.batchSize) {B : Problem} (hB : B.examples ≤ o.batchSize) (h : SameFullBatch obj.problem B) {r : ℕ → List ℕ → List ℕ}
    (hr : ∀ k l, (r k l).Perm l) (l : List ℕ) (log : List Event) {n : ℕ} {c : Bool} {o1 : MBSGD} {obj1 : Obj}
    (hsteps : Steps o obj n c o1 obj1) :
    ∃ l1 r1 log1, Steps (o.remade B.examples l r) (obj.twin B log) n c (o1.remade B.examples l1 r1) (obj1.twin B log1) ∧
      ((o1.remade B.examples l1 r1).result (obj1.twin B log1)).1 = (o1.result obj1).1 ∧ (obj1.twin B log1).w = obj1.w := by
  have key : ∀ {n : ℕ} {c : Bool} {o1 : MBSGD} {obj1 : Obj}, Steps o obj n c o1 obj1 →
      obj1.problem = obj.problem ∧ ∃ l1 r1 log1, Steps (o.remade B.examples l r) (obj.twin B log) n c (o1.remade B.examples l1 r1) (obj1.twin B log1) ∧
        ((n = 0 ∧ o1 = o ∧ obj1 = obj ∧ (∀ k l, (r1 k l).Perm l)) ∨ (0 < n ∧ (c = true → 0 ≤ o1.iteration) ∧
          l1.Perm (List.range B.examples) ∧ (∀ k l, (r1 k l).Perm l) ∧ (∀ k l, (o1.rng k l).Perm l) ∧ OneBatch o1 obj1.problem)) := by
    intro n c o1 obj1 hst
    induction hst with
    | zero => exact ⟨rfl, l, r, log, .zero, .inl ⟨rfl, rfl, rfl, hr⟩⟩
    | @succ n o1 obj1 c o2 obj2 hst hstep ih =>
      obtain ⟨hprob, l1, r1, log1, hs1, hcase⟩ := ih
      have hit : c = true → 0 ≤ o2.iteration := by
        intro hc
        rcases steps_runInv hv hn (Steps.succ hst hstep) with ⟨h0, _, _⟩ | ⟨_, _, hi, _⟩
        · omega
        · have := hi hc
          omega
      have hbs : o1.batchSize = o.batchSize := by
        rcases steps_runInv hv hn hst with ⟨_, h0, _⟩ | ⟨_, hi, _⟩
        · rw [h0]
        · exact hi.config.batchSize
      have hgo : ∃ l2 r2 log2, (o1.remade B.examples l1 r1).step (obj1.twin B log1) = .ok (c, o2.remade B.examples l2 r2, obj2.twin B log2) ∧
          l2.Perm (List.range B.examples) ∧ (∀ k l, (r2 k l).Perm l) ∧ (∀ k l, (o2.rng k l).Perm l) ∧ OneBatch o2 obj2.problem ∧
          obj2.problem = obj1.problem := by
        rcases hcase with ⟨_, rfl, rfl, hr1⟩ | ⟨_, hi, hl1, hr1, hf1, hob⟩
        · refine step_remade h (by rw [ready_of_lt hn]; exact oneBatch_init hv hf hs) ⟨r1 0 (List.range B.examples), fun k => r1 (k + 1), ?_, ?_, ?_⟩ ?_ ?_
            hstep
          · rw [ready_of_lt hn, ready_of_lt (show (o1.remade B.examples l1 r1).iteration < 0 from hn)]
            exact init_remade (by have := hv.batch; omega) hs h hB _ _ _
          · exact hr1 0 _
          · exact fun k l => hr1 (k + 1) l
          · rw [ready_of_lt hn]
            exact fun k l => hf (k + 1) l
          · rw [ready_of_lt hn]
            exact hB
        · have hi' := hi rfl
          refine step_remade (by rw [hprob]; exact h) (by rw [ready_of_ge hi']; exact hob) ⟨l1, r1, ?_, ?_, hr1⟩ ?_ ?_ hstep
          · rw [ready_of_ge hi', ready_of_ge (show 0 ≤ (o1.remade B.examples l1 r1).iteration from hi')]
          · exact hl1
          · rw [ready_of_ge hi']
            exact hf1
          · rw [ready_of_ge hi', hbs]
            exact hB
      obtain ⟨l2, r2, log2, g1, g2, g3, g4, g5, g6⟩ := hgo
      exact ⟨g6.trans hprob, l2, r2, log2, .succ hs1 g1, .inr ⟨Nat.succ_pos n, hit, g2, g3, g4, g5⟩⟩
  obtain ⟨_, l1, r1, log1, hs1, _⟩ := key hsteps
  exact ⟨l1, r1, log1, hs1, rfl, rfl⟩

/-- Full batches of a network for `m` copies of its training set, without penalties. -/
theorem net_same_full_batch {D : ℕ} {ks : List NN.Kind} (ce : Bool) (hr : ∀ k ∈ ks, k.RowWise) (hd : ∀ k ∈ ks, k.NoDecay)
    (mem : NN.Mem) (sc sc' : ℕ → NN.Scratch) {ds ds' : NN.TrainSet} {m : ℕ} (hm : 0 < m) (h : NN.Repeated m ds ds')
    (hN : 0 < ds.samples) :
    SameFullBatch (netProblem (NN.buildNet D ks ce) mem sc ds) (netProblem (NN.buildNet D ks ce) mem sc' ds') where
  dimension := rfl
  examples := by
    show 0 < ds'.samples
    rw [h.samples]
    positivity
  errorGradient k w b b' hb hb' := by
    have hs' : 0 < ds'.samples := by
      rw [h.samples]
      positivity
    have hne : ∀ (l : List ℕ) (N : ℕ), 0 < N → l.Perm (List.range N) → l ≠ [] := by
      intro l N hN hl e
      have := hl.length_eq
      rw [e, List.length_range] at this
      simp at this
      omega
    obtain ⟨π, hp, hl, hrow⟩ := h
    have h1 := NN.batch_order (D := D) ce hr
      ((NN.buildNet D ks ce).setParameters mem ((List.range (NN.buildNet D ks ce).P).map w)) ds (sc k) (sc k) hb (hne b _ hN hb)
    have h2 := NN.batch_order (D := D) ce hr
      ((NN.buildNet D ks ce).setParameters mem ((List.range (NN.buildNet D ks ce).P).map w)) ds' (sc' k) (sc' k) hb'
      (hne b' _ hs' hb')
    have h3 := NN.batch_repeated (D := D) ce hr
      ((NN.buildNet D ks ce).setParameters mem ((List.range (NN.buildNet D ks ce).P).map w)) ds hd (sc k) (sc k) hm hp
      (hne _ _ hN (.refl _))
    have h4 := NN.errorGradient_rows (D := D) ce
      ((NN.buildNet D ks ce).setParameters mem ((List.range (NN.buildNet D ks ce).P).map w)) hr (sc k) (sc' k)
      (NN.copies_ne hm hN hp) hrow
    rw [show (netProblem (NN.buildNet D ks ce) mem sc' ds').examples = π.length from hl] at h2
    have he := h1.trans (h3.symm.trans (h4.trans h2.symm))
    refine Prod.ext (congrArg (fun q => q.1) he) (funext fun p => ?_)
    exact congrArg (fun q => q.2.getD p 0) he

/-- **C144 (end to end)**: without penalties, full-batch training gives, after every number of steps, the same parameters for a
training set and for `m` copies of it, in any order and for every sequence of shuffles. -/
theorem net_training_copies {D : ℕ} {ks : List NN.Kind} (ce : Bool) (hr : ∀ k ∈ ks, k.RowWise) (hd : ∀ k ∈ ks, k.NoDecay)
    (mem : NN.Mem) (sc sc' : ℕ → NN.Scratch) {ds ds' : NN.TrainSet} {m : ℕ} (hm : 0 < m) (h : NN.Repeated m ds ds')
    (hN : 0 < ds.samples) {o : MBSGD} (hv : o.Valid) (hf : o.Fair) (hn : o.iteration < 0) (hs : m * ds.samples ≤ o.batchSize)
    {r : ℕ → List ℕ → List ℕ} (hrng : ∀ k l, (r k l).Perm l) (w : Vec) (calls : ℕ) {n : ℕ} {c : Bool} {o1 : MBSGD} {obj1 : Obj}
    (hsteps : Steps o ⟨netProblem (NN.buildNet D ks ce) mem sc ds, w, calls, []⟩ n c o1 obj1) :
    ∃ o0 o2 obj2, o0 = { o with N := ds'.samples, rng := r } ∧
      Steps o0 ⟨netProblem (NN.buildNet D ks ce) mem sc' ds', w, calls, []⟩ n c o2 obj2 ∧
      (o2.result obj2).1 = (o1.result obj1).1 ∧ obj2.w = obj1.w := by
  have hle : ds.samples ≤ o.batchSize := le_trans (Nat.le_mul_of_pos_left _ hm) hs
  obtain ⟨l1, r1, log1, h1, h2, h3⟩ := full_batch_copies hv hf hn hle (B := netProblem (NN.buildNet D ks ce) mem sc' ds')
    (by show ds'.samples ≤ _; rw [h.samples]; exact hs) (net_same_full_batch ce hr hd mem sc sc' hm h hN) hrng
    o.randomIndices [] hsteps
  exact ⟨_, _, _, rfl, h1, h2, h3⟩

/-- The hypotheses of `net_training_copies` are met: a linear layer with any training set of two examples, twice, batches of four,
shuffles that reverse the order; one step is possible. -/
example : ∃ (D : ℕ) (ks : List NN.Kind) (mem : NN.Mem) (sc : ℕ → NN.Scratch) (ds ds' : NN.TrainSet) (o : MBSGD)
    (r : ℕ → List ℕ → List ℕ) (c : Bool) (o1 : MBSGD) (obj1 : Obj), (∀ k ∈ ks, k.RowWise) ∧ (∀ k ∈ ks, k.NoDecay) ∧
    NN.Repeated 2 ds ds' ∧ ds.samples = 2 ∧ o.Valid ∧ o.Fair ∧ o.iteration < 0 ∧ 2 * ds.samples ≤ o.batchSize ∧
    (∀ k l, (r k l).Perm l) ∧ Steps o ⟨netProblem (NN.buildNet D ks false) mem sc ds, fun _ => 0, 0, []⟩ 1 c o1 obj1 := by
  have hv : MBSGD.Valid { example1 false 1 5 with batchSize := 4 } := ⟨by decide, one_pos, le_rfl, le_rfl, le_rfl⟩
  have hf : MBSGD.Fair { example1 false 1 5 with batchSize := 4 } := fun _ _ => List.Perm.refl _
  have hn : ({ example1 false 1 5 with batchSize := 4 } : MBSGD).iteration < 0 := by show (-1 : ℤ) < 0; norm_num
  obtain ⟨ds, hds⟩ : ∃ ds : NN.TrainSet, ds = ⟨2, fun n _ => n, fun n _ => 1 - n⟩ := ⟨_, rfl⟩
  obtain ⟨sc, -⟩ : ∃ sc : NN.Scratch, sc.derivs = fun _ _ => 0 := ⟨⟨_, fun _ _ _ => 0⟩, rfl⟩
  have hP : (NN.buildNet 1 [.fullyConnected 1 true .linear ⟨0, 0, 0⟩] false).P = 2 :=
    (NN.parameters_one_to_one 1 [.fullyConnected 1 true .linear ⟨0, 0, 0⟩] false).2.2.2.2
  obtain ⟨c, o', obj', _, hst⟩ := steps_progress hv hf hn
    (obj0 := ⟨netProblem (NN.buildNet 1 [.fullyConnected 1 true .linear ⟨0, 0, 0⟩] false) (fun _ _ => 0) (fun _ => sc) ds,
      fun _ => 0, 0, []⟩) ⟨by show 0 < NN.Net.P _; rw [hP]; exact Nat.two_pos, by show 0 < ds.samples; rw [hds]; exact Nat.two_pos⟩ .zero
  refine ⟨1, [.fullyConnected 1 true .linear ⟨0, 0, 0⟩], fun _ _ => 0, fun _ => sc, ds, NN.twice ds, _, fun _ l => l.reverse, c, o', obj',
    ?_, ?_, NN.twice_repeated ds, by rw [hds], hv, hf, hn, by rw [hds]; show 2 * 2 ≤ 4; norm_num, fun _ l => l.reverse_perm, hst⟩
  · intro k hk
    rw [List.mem_singleton.1 hk]
    trivial
  · intro k hk
    rw [List.mem_singleton.1 hk]
    exact ⟨⟨le_rfl, le_rfl⟩, by intro H act l e; cases e⟩

end

end Verif.Opt
