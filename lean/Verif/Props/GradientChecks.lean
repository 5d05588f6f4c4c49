import Verif.Props.FiniteDifferences
import Verif.Props.Layers
import Verif.Props.NetGradient
import Verif.Props.Pretrain

/-!
# C117: gradient checks of networks and layers

`Verif.Props.FiniteDifferences` says what the checks compute.  Here the objectives are networks with the mean squared error
(test/NetTestCase.cpp) and single layers in a `LayerAdapter`.
-/

namespace Verif.GradCheck

open NN Finset Filter Topology

noncomputable section

/-! ## Networks -/

variable {D : ℕ} {ks : List Kind}

theorem writeAll_writeAll {ps : List Loc} {θ θ' : List ℝ} {mem : Mem} (hn : ps.Nodup) (h : θ'.length = ps.length) :
    (mem.writeAll ps θ).writeAll ps θ' = mem.writeAll ps θ' := by
  funext k s
  by_cases hm : (k, s) ∈ ps
  · obtain ⟨i, hi, e⟩ := List.getElem_of_mem hm
    have h1 := writeAll_getElem (mem := mem.writeAll ps θ) (θ := θ') hn hi (by omega)
    have h2 := writeAll_getElem (mem := mem) (θ := θ') hn hi (by omega)
    rw [e] at h1 h2
    exact h1.trans h2.symm
  · have h1 := writeAll_of_notMem (θ := θ') (mem := mem.writeAll ps θ) hm
    have h2 := writeAll_of_notMem (θ := θ') (mem := mem) hm
    have h3 := writeAll_of_notMem (θ := θ) (mem := mem) hm
    exact h1.trans (h3.trans h2.symm)

/-- A network follows its parameters. -/
theorem net_follows {ce : Bool} (hu : Unconstrained ks) (sc : ℕ → Scratch) {ds : TrainSet} (hs : ds.samples ≤ 2 ^ 31)
    {idx : List ℕ} (hi : ∀ n ∈ idx, n < ds.samples) {s : NetState} (hl : s.vector.length = (buildNet D ks ce).P) :
    Follows (netOptimizable (buildNet D ks ce) sc ds) idx s
      (fun θ => ⟨(buildNet D ks ce).setParameters s.mem θ, θ⟩)
      (fun θ => idx.map ((buildNet D ks ce).errorAt ((buildNet D ks ce).setParameters s.mem θ) ds)) where
  length := hl
  first θ hθ := by
    replace hθ : θ.length = (buildNet D ks ce).P := hθ
    show (buildNet D ks ce).set s θ = _
    rw [Net.set, if_neg (not_lt.2 (le_of_eq hθ.symm))]
  next θ θ' hθ hθ' := by
    replace hθ' : θ'.length = (buildNet D ks ce).P := hθ'
    show (buildNet D ks ce).set _ θ' = _
    rw [Net.set, if_neg (not_lt.2 (le_of_eq hθ'.symm))]
    refine congrArg (fun m => Outcome.ok (NetState.mk m θ')) ?_
    rw [setParameters_unconstrained (updated_of_unconstrained hu), setParameters_unconstrained (updated_of_unconstrained hu),
      setParameters_unconstrained (updated_of_unconstrained hu)]
    exact writeAll_writeAll (parameters_nodup D ks ce) hθ'
  errors θ _ := Opt.errors_accumulates (Opt.net_is ce _ sc ds hs) hi

theorem hasDerivAt_listSum {ι : Type} {l : List ι} {f : ι → ℝ → ℝ} {f' : ι → ℝ} {x : ℝ}
    (h : ∀ n ∈ l, HasDerivAt (f n) (f' n) x) : HasDerivAt (fun t => (l.map fun n => f n t).sum) (l.map f').sum x := by
  induction l with
  | nil => exact hasDerivAt_const x 0
  | cons a l ih =>
    simp only [List.map_cons, List.sum_cons]
    exact (h a List.mem_cons_self).add (ih fun n hn => h n (List.mem_cons_of_mem _ hn))

/-- **C117 (networks)**: for every architecture of layers that treat all rows alike and every list of examples, the inherited
`gradient(startN, endN)` passes the check with every tolerance for all small step widths, and the network has the state that
it had before.  Missing: max-norm constraints, cross entropy (whose error has a safety term in the logarithm that the
gradient does not have) and points at kinks, where the statement is false (`kink_check_fails`). -/
theorem net_check_partial (hf : FitsFrom D ks) (hu : Unconstrained ks) (hr : ∀ k ∈ ks, k.RowWise) (sc : ℕ → Scratch)
    {ds : TrainSet} (hs : ds.samples ≤ 2 ^ 31) {idx : List ℕ} (hi : ∀ n ∈ idx, n < ds.samples) {s : NetState}
    (hc : (buildNet D ks false).set s s.vector = .ok s) (hl : s.vector.length = (buildNet D ks false).P)
    (hsm : ∀ n ∈ idx, SmoothFrom s.mem 1 1 D ks (selectRows ds.inst [n])) {tol : ℝ} (htol : 0 < tol) :
    ∃ G, (Opt.netObjective (buildNet D ks false) s.mem sc ds).gradientRange (Opt.ints idx) = .ok G ∧
      ∃ eps0 > 0, ∀ eps, 0 < eps → eps < eps0 →
        ∃ e, parameterGradient (netOptimizable (buildNet D ks false) sc ds) idx eps s = .ok (e, s) ∧ Accepts tol G e := by
  set net := buildNet D ks false with hnet
  have hmem : net.setParameters s.mem s.vector = s.mem := by
    rw [Net.set, if_neg (by omega)] at hc
    injection hc with hc
    exact congrArg NetState.mem hc
  have hF := net_follows (D := D) (ce := false) hu sc hs hi hl
  rw [← hnet] at hF
  refine ⟨_, Opt.gradient_accumulates (Opt.net_is false s.mem sc ds hs) hi, ?_⟩
  rw [← hnet, Opt.totalGradient]
  obtain ⟨u, hu0, hacc⟩ := check_accepts hF (tol := tol)
    (g := fun p => (idx.map fun n => (net.errorGradient s.mem (sc n) ds [n]).2.getD p 0).sum)
    (d := fun p => (idx.map fun n => (net.errorGradient s.mem (sc n) ds [n]).2.getD p 0).sum)
    (by
      intro i hP
      show HasDerivAt (fun t => (idx.map fun n => net.errorAt (net.setParameters s.mem (s.vector.set i t)) ds n).sum) _ _
      refine hasDerivAt_listSum fun n hn => ?_
      obtain ⟨h, hd⟩ := regularised_gradient_partial hf hu s.mem (sc n) (sc n) ds (idx := [n]) rfl hl
        (by rw [← hnet, hmem]; exact hsm n hn) hP
      have hd' : HasDerivAt (fun t => (net.errorGradient (net.setParameters s.mem (s.vector.set i t)) (sc n) ds [n]).1)
          ((net.errorGradient (net.setParameters s.mem s.vector) (sc n) ds [n]).2.getD i 0) (s.vector[i]'(hl ▸ hP)) := by
        have hgd : (net.errorGradient (net.setParameters s.mem s.vector) (sc n) ds [n]).2.getD i 0 =
            (net.errorGradient (net.setParameters s.mem s.vector) (sc n) ds [n]).2[i]'h := by
          rw [List.getD, List.getElem?_eq_getElem h]
          rfl
        rw [hgd]
        exact hd
      rw [hmem] at hd'
      have e : ∀ m, (net.errorGradient m (sc n) ds [n]).1 = net.errorAt m ds n := by
        intro m
        rw [hnet, batch_value_mean hr m (sc n) ds (by simp)]
        simp
      simp only [e] at hd'
      exact hd')
    (by intro i _; simpa using htol)
  refine ⟨u, hu0, fun eps h1 h2 => ?_⟩
  obtain ⟨e, t, he, ha⟩ := hacc eps h1 h2
  refine ⟨e, ?_, ha⟩
  obtain ⟨e', t', he', _, hpos, hzero, _⟩ := parameterGradient_eq hF eps
  rw [he] at he'
  injection he' with he'
  rw [he]
  have ht : t = s := by
    rw [show t = t' from congrArg Prod.snd he']
    rcases Nat.eq_zero_or_pos net.P with h0 | h0
    · exact hzero h0
    · rw [hpos h0]
      show NetState.mk (net.setParameters s.mem s.vector) s.vector = s
      rw [hmem]
  rw [ht]

/-! ## One layer -/

/-- Spec: the weights with another number at place `p`. -/
def weightsAt (w : Weights) (p : Slot) (t : ℝ) : Weights := fun s => if s = p then t else w s

theorem weightsAt_self (w : Weights) (p : Slot) : weightsAt w p (w p) = w := by
  funext s
  unfold weightsAt
  split
  · next h => rw [h]
  · rfl

theorem sum_map_slot {ps : List Slot} (hn : ps.Nodup) {p : Slot} (hp : p ∈ ps) (f : Slot → ℝ) :
    (ps.map fun s => f s * (if s = p then (1 : ℝ) else 0)).sum = f p := by
  induction ps with
  | nil => cases hp
  | cons a ps ih =>
    rw [List.nodup_cons] at hn
    rw [List.map_cons, List.sum_cons]
    rcases List.mem_cons.1 hp with rfl | hp
    · have : (ps.map fun s => f s * (if s = p then (1 : ℝ) else 0)).sum = 0 := by
        refine List.sum_eq_zero fun x hx => ?_
        obtain ⟨s, hs, rfl⟩ := List.mem_map.1 hx
        rw [if_neg (fun h : s = p => hn.1 (h ▸ hs)), mul_zero]
      rw [this, if_pos rfl, mul_one, add_zero]
    · rw [ih hn.2 hp, if_neg (fun h : a = p => hn.1 (h ▸ hp)), mul_zero, zero_add]

theorem rowError_hasDerivAt {l : Layer} {N n : ℕ} {w : ℝ → Weights} {X : ℝ → Batch} {T : Batch} {y' : Batch} {t0 : ℝ}
    (h : ∀ j < l.outputs, HasDerivAt (fun t => l.forward (w t) N (X t) n j) (y' n j) t0) :
    HasDerivAt (fun t => rowError l (w t) N (X t) T n)
      (∑ j ∈ range l.outputs, (l.forward (w t0) N (X t0) n j - T n j) * y' n j) t0 := by
  have h1 : HasDerivAt (fun t => ∑ j ∈ range l.outputs, (l.forward (w t) N (X t) n j - T n j) ^ 2)
      (∑ j ∈ range l.outputs, 2 * (l.forward (w t0) N (X t0) n j - T n j) * y' n j) t0 := by
    refine HasDerivAt.fun_sum fun j hj => ?_
    have := ((h j (mem_range.1 hj)).sub_const (T n j)).fun_pow 2
    exact this.congr_deriv (by norm_num)
  have h2 := h1.div_const 2
  refine h2.congr_deriv ?_
  rw [Finset.sum_div]
  exact Finset.sum_congr rfl fun j _ => by ring

/-- What `backpropagate` computes for one weight: the derivative of the errors of all rows plus that of the penalty. -/
theorem adapter_derivs {l : Layer} {N : ℕ} {w : Weights} {X : Batch} (h : BackpropAt l N w X) (hn : l.pointers.Nodup)
    (T : Batch) {p : Slot} (hp : p ∈ l.pointers) :
    ∃ R', HasDerivAt (fun t => l.regError (weightsAt w p t)) R' (w p) ∧
      HasDerivAt (fun t => ∑ n ∈ range N, rowError l (weightsAt w p t) N X T n)
        (l.derivs w N X (fun n j => l.forward w N X n j - T n j) p - R') (w p) := by
  obtain ⟨y', R', hy, hR, hlaw⟩ := h.2 (weightsAt w p) (fun _ => X) (w p) (fun s => if s = p then 1 else 0) (fun _ _ => 0)
    (weightsAt_self w p) rfl
    (by
      intro s _
      by_cases hs : s = p
      · subst hs
        simpa [weightsAt] using hasDerivAt_id' (w s)
      · simpa [weightsAt, hs] using hasDerivAt_const (w p) (w s))
    (by
      intro s hs t
      exact if_neg fun h : s = p => hs (h ▸ hp))
    (fun n _ i _ => hasDerivAt_const _ _)
  refine ⟨R', hR, ?_⟩
  have hl := hlaw (fun n j => l.forward w N X n j - T n j) (fun _ _ => 0)
  rw [sum_map_slot hn hp, show NN.inner N l.inputs _ (fun _ _ => (0 : ℝ)) = 0 by simp [NN.inner], zero_add] at hl
  rw [← hl, add_sub_cancel_right]
  refine HasDerivAt.fun_sum fun n hn' => ?_
  have := rowError_hasDerivAt (l := l) (N := N) (w := weightsAt w p) (X := fun _ => X) (T := T) (y' := y') (t0 := w p)
    fun j hj => hy n (mem_range.1 hn') j hj
  rwa [weightsAt_self] at this

/-- **C117 (`error()` and `gradient()` of the adapter)**: for every kind of layer and every number of examples, `gradient()`
is the gradient of `error()` wherever the layer is differentiable. -/
theorem adapter_gradient {k : Kind} {I N : ℕ} {w : Weights} {X : Batch} (hf : k.Fits I) (hs : k.SmoothAt I N w X) (T : Batch)
    {i : ℕ} (hi : i < (k.layer I).pointers.length) :
    ∃ g, (adapterGradient (k.layer I) N X T w)[i]? = some g ∧
      HasDerivAt (fun t => adapterError (k.layer I) N X T (weightsAt w (k.layer I).pointers[i] t)) g
        (w (k.layer I).pointers[i]) := by
  have hb := Kind.backprop hf hs
  obtain ⟨R', hR, hE⟩ := adapter_derivs hb (k.pointers_nodup I) T (List.getElem_mem hi)
  refine ⟨(k.layer I).derivs w N X (fun n j => (k.layer I).forward w N X n j - T n j) (k.layer I).pointers[i], ?_,
    (hR.add hE).congr_deriv (by ring)⟩
  rw [adapterGradient, hb.1, List.getElem?_map, List.getElem?_eq_getElem hi]
  rfl

/-- **C117 (`error(n)` and `gradient(n)` of the adapter)**: `gradient(n)` is the gradient of `error(n)` for layers that treat
all rows alike. -/
theorem adapter_gradientOf {k : Kind} {I N n : ℕ} {w : Weights} {X : Batch} (hf : k.Fits I) (hr : k.RowWise)
    (hs : k.SmoothAt I 1 w fun _ => X n) (T : Batch) {i : ℕ} (hi : i < (k.layer I).pointers.length) :
    ∃ g, (adapterGradientOf (k.layer I) X T w n)[i]? = some g ∧
      HasDerivAt (fun t => adapterErrorOf (k.layer I) N X T (weightsAt w (k.layer I).pointers[i] t) n) g
        (w (k.layer I).pointers[i]) := by
  obtain ⟨g, hg, hd⟩ := adapter_gradient hf hs (fun _ => T n) hi
  refine ⟨g, hg, hd.congr_of_eventuallyEq (Eventually.of_forall fun t => ?_)⟩
  simp only [adapterErrorOf, adapterError, sum_range_one, rowError]
  rw [Kind.forward_row hr I _ N X n]

/-! ### Writing weights -/

theorem writeSlots_eq {ps : List Slot} {θ : List ℝ} (mem : Mem) :
    writeSlots (mem 0) ps θ = (mem.writeAll (ps.map fun s => ((0 : ℕ), s)) θ) 0 := by
  induction ps generalizing θ mem with
  | nil => rfl
  | cons a ps ih =>
    cases θ with
    | nil => rfl
    | cons v θ =>
      have := ih (θ := θ) (mem.write (0, a) v)
      show writeSlots (fun s => if s = a then v else mem 0 s) ps θ = ((mem.write (0, a) v).writeAll _ θ) 0
      rw [← this]
      congr 1
      funext s
      simp [Mem.write]

theorem nodup_zero {ps : List Slot} (h : ps.Nodup) : (ps.map fun s => ((0 : ℕ), s)).Nodup :=
  h.map fun _ _ e => (Prod.mk.inj e).2

theorem writeSlots_writeSlots {ps : List Slot} {θ θ' : List ℝ} (w : Weights) (hn : ps.Nodup) (h : θ'.length = ps.length) :
    writeSlots (writeSlots w ps θ) ps θ' = writeSlots w ps θ' := by
  have h1 := writeSlots_eq (ps := ps) (θ := θ) (fun _ => w)
  have h2 := writeSlots_eq (ps := ps) (θ := θ') (fun _ => w)
  have h3 := writeSlots_eq (ps := ps) (θ := θ') (Mem.writeAll (fun _ => w) (ps.map fun s => ((0 : ℕ), s)) θ)
  rw [← h1, writeAll_writeAll (nodup_zero hn) (by simpa using h)] at h3
  rw [h3, ← h2]

theorem writeSlots_set {ps : List Slot} (w : Weights) (hn : ps.Nodup) {i : ℕ} (hi : i < ps.length) (t : ℝ) :
    writeSlots w ps ((ps.map w).set i t) = weightsAt w ps[i] t := by
  have h2 := writeSlots_eq (ps := ps) (θ := (ps.map w).set i t) (fun _ => w)
  rw [writeAll_set (nodup_zero hn) (by simpa using hi) (by simpa using hi)] at h2
  rw [h2]
  funext s
  simp only [Mem.write, List.getElem_map, Prod.mk.injEq, true_and, weightsAt]
  by_cases hs : s = ps[i]
  · rw [if_pos hs, if_pos hs]
  · rw [if_neg hs, if_neg hs]
    by_cases hm : s ∈ ps
    · obtain ⟨j, hj, rfl⟩ := List.getElem_of_mem hm
      have := writeAll_getElem (mem := fun _ => w) (θ := ps.map w) (nodup_zero hn) (i := j) (by simpa using hj)
        (by simpa using hj)
      simpa using this
    · exact writeAll_of_notMem (mem := fun _ => w) (θ := ps.map w) (p := ((0 : ℕ), s)) (by simpa using hm)

theorem writeSlots_self {ps : List Slot} (w : Weights) (hn : ps.Nodup) : writeSlots w ps (ps.map w) = w := by
  cases hps : ps with
  | nil => rfl
  | cons a qs =>
    have hi : 0 < ps.length := by rw [hps]; simp
    have := writeSlots_set w hn hi (w ps[0])
    rw [weightsAt_self, show (ps.map w).set 0 (w ps[0]) = ps.map w by
      have h0 : (ps.map w)[0]'(by simpa using hi) = w ps[0] := by simp
      rw [← h0, List.set_getElem_self]] at this
    rw [← hps]
    exact this

/-! ### The checks -/

theorem adapter_follows {l : Layer} (hn : l.pointers.Nodup) (hu : ∀ w, l.updated w = w) {N : ℕ} (hN : 0 < N) (X T : Batch)
    (w : Weights) :
    Follows (adapterOptimizable l N X T) (List.range N) w (writeSlots w l.pointers)
      (fun θ => (List.range N).map fun n =>
        rowError l (writeSlots w l.pointers θ) N X T n + l.regError (writeSlots w l.pointers θ)) where
  length := by simp [adapterOptimizable]
  first θ hθ := by
    replace hθ : θ.length = l.pointers.length := hθ
    show (if _ then _ else _) = _
    rw [if_neg (by omega), hu]
  next θ θ' _ hθ' := by
    replace hθ' : θ'.length = l.pointers.length := hθ'
    show (if _ then _ else _) = _
    rw [if_neg (by omega), hu, writeSlots_writeSlots w hn hθ']
  errors θ _ := by
    obtain ⟨M, rfl⟩ := Nat.exists_eq_succ_of_ne_zero hN.ne'
    show adapterErrors l _ X T _ _ = _
    unfold adapterErrors
    rw [List.range_succ_eq_map]
    simp only [Outcome.check, if_true, Outcome.ok_bind, List.length_cons, List.length_map, List.length_range, Outcome.pure_eq]

theorem adapter_along {l : Layer} (hn : l.pointers.Nodup) (N : ℕ) (X T : Batch) (w : Weights) {i : ℕ}
    (hi : i < l.pointers.length) :
    along (fun θ => (List.range N).map fun n =>
        rowError l (writeSlots w l.pointers θ) N X T n + l.regError (writeSlots w l.pointers θ)) (l.pointers.map w) i =
      fun t => ∑ n ∈ range N, rowError l (weightsAt w l.pointers[i] t) N X T n +
        N * l.regError (weightsAt w l.pointers[i] t) := by
  funext t
  rw [along, writeSlots_set w hn hi, sum_map_range, Finset.sum_add_distrib, Finset.sum_const, card_range, nsmul_eq_mul]

/-- What the check of an adapter with `N` examples estimates: the entry of `gradient(startN, endN)` plus `N - 1` times the
derivative of the penalty. -/
theorem adapter_limit {k : Kind} {I N : ℕ} {w : Weights} {X : Batch} (hf : k.Fits I) (hs : k.SmoothAt I N w X) (T : Batch)
    {i : ℕ} (hi : i < (k.layer I).pointers.length) :
    ∃ g R', (adapterGradient (k.layer I) N X T w)[i]? = some g ∧
      HasDerivAt (fun t => (k.layer I).regError (weightsAt w (k.layer I).pointers[i] t)) R' (w (k.layer I).pointers[i]) ∧
      HasDerivAt (along (fun θ => (List.range N).map fun n =>
          rowError (k.layer I) (writeSlots w (k.layer I).pointers θ) N X T n +
            (k.layer I).regError (writeSlots w (k.layer I).pointers θ)) ((k.layer I).pointers.map w) i)
        (g + (N - 1) * R') (w (k.layer I).pointers[i]) := by
  have hb := Kind.backprop hf hs
  obtain ⟨R', hR, hE⟩ := adapter_derivs hb (k.pointers_nodup I) T (List.getElem_mem hi)
  refine ⟨(k.layer I).derivs w N X (fun n j => (k.layer I).forward w N X n j - T n j) (k.layer I).pointers[i], R', ?_, hR, ?_⟩
  rotate_left
  · rw [adapter_along (k.pointers_nodup I) N X T w hi]
    exact (hE.add (hR.const_mul (N : ℝ))).congr_deriv (by ring)
  · rw [adapterGradient, hb.1, List.getElem?_map, List.getElem?_eq_getElem hi]
    rfl

theorem adapter_range {l : Layer} {N : ℕ} (hN : 0 < N) (X T : Batch) (w : Weights) :
    adapterGradientRange l N X T w (List.range N) = .ok (adapterGradient l N X T w) := by
  obtain ⟨M, rfl⟩ := Nat.exists_eq_succ_of_ne_zero hN.ne'
  unfold adapterGradientRange
  rw [List.range_succ_eq_map]
  simp [Outcome.check]

/-- **C117 (layers)**: for every kind of layer, at every point where it is differentiable, `gradient(startN, endN)` of the
adapter passes the check with every tolerance for all small step widths, and the weights are the same afterwards, if there is
one example or no penalty.  Missing: penalties with several examples, where the statement is false
(`penalty_check_fails`), max-norm constraints and kinks (`kink_check_fails`). -/
theorem adapter_check_partial {k : Kind} {I N : ℕ} {w : Weights} {X : Batch} (hf : k.Fits I) (hs : k.SmoothAt I N w X)
    (hu : ∀ w, (k.layer I).updated w = w) (hN : N = 1 ∨ (0 < N ∧ ∀ w, (k.layer I).regError w = 0)) (T : Batch) {tol : ℝ}
    (htol : 0 < tol) :
    ∃ G, adapterGradientRange (k.layer I) N X T w (List.range N) = .ok G ∧
      ∃ eps0 > 0, ∀ eps, 0 < eps → eps < eps0 →
        ∃ e, parameterGradient (adapterOptimizable (k.layer I) N X T) (List.range N) eps w = .ok (e, w) ∧ Accepts tol G e := by
  have hpos : 0 < N := by rcases hN with h | h <;> omega
  refine ⟨_, adapter_range hpos X T w, ?_⟩
  have hF := adapter_follows (k.pointers_nodup I) hu hpos X T w
  have hb := Kind.backprop hf hs
  have hG : adapterGradient (k.layer I) N X T w = (List.range (k.layer I).pointers.length).map fun i =>
      (adapterGradient (k.layer I) N X T w).getD i 0 := by
    refine List.ext_getElem (by simp [adapterGradient, hb.1]) fun i h1 h2 => ?_
    simp [List.getD, h1]
  obtain ⟨u, hu0, hacc⟩ := check_accepts hF (tol := tol) (g := fun i => (adapterGradient (k.layer I) N X T w).getD i 0)
    (d := fun i => (adapterGradient (k.layer I) N X T w).getD i 0)
    (by
      intro i hi
      replace hi : i < (k.layer I).pointers.length := hi
      obtain ⟨g, R', hg, hR, hd⟩ := adapter_limit hf hs T hi
      have hz : ((N : ℝ) - 1) * R' = 0 := by
        rcases hN with h | ⟨_, h⟩
        · rw [h]
          simp
        · simp only [h] at hR
          rw [hR.unique (hasDerivAt_const _ (0 : ℝ)), mul_zero]
      rw [hz, add_zero] at hd
      have hgd : (adapterGradient (k.layer I) N X T w).getD i 0 = g := by rw [List.getD, hg]; rfl
      show HasDerivAt _ ((adapterGradient (k.layer I) N X T w).getD i 0) _
      rw [hgd]
      have hp : ((k.layer I).pointers.map w)[i]'(by simpa using hi) = w (k.layer I).pointers[i] := List.getElem_map _
      rw [← hp] at hd
      exact hd)
    (by intro i _; simpa using htol)
  refine ⟨u, hu0, fun eps h1 h2 => ?_⟩
  obtain ⟨e, t, he, ha⟩ := hacc eps h1 h2
  obtain ⟨e', t', he', _, hp, hz, _⟩ := parameterGradient_eq hF eps
  rw [he] at he'
  injection he' with he'
  have ht : t = w := by
    rw [show t = t' from congrArg Prod.snd he']
    rcases Nat.eq_zero_or_pos (k.layer I).pointers.length with h0 | h0
    · exact hz h0
    · rw [hp h0]
      exact writeSlots_self w (k.pointers_nodup I)
  refine ⟨e, by rw [he, ht], ?_⟩
  rw [hG]
  exact ha

/-- **C117 is false for penalties and several examples**: `error(startN, endN)` has the penalty once per example,
`gradient(startN, endN)` only once; the check of a layer with a right backward pass fails. -/
theorem penalty_check_fails {k : Kind} {I N : ℕ} {w : Weights} {X : Batch} (hf : k.Fits I) (hs : k.SmoothAt I N w X)
    (hu : ∀ w, (k.layer I).updated w = w) (hN : 2 ≤ N) (T : Batch) {i : ℕ} (hi : i < (k.layer I).pointers.length) {R' tol : ℝ}
    (hR : HasDerivAt (fun t => (k.layer I).regError (weightsAt w (k.layer I).pointers[i] t)) R' (w (k.layer I).pointers[i]))
    (htol : tol < |R'|) :
    ∃ G, adapterGradientRange (k.layer I) N X T w (List.range N) = .ok G ∧
      ∃ eps0 > 0, ∀ eps, 0 < eps → eps < eps0 →
        ∃ e t, parameterGradient (adapterOptimizable (k.layer I) N X T) (List.range N) eps w = .ok (e, t) ∧
          ¬ Accepts tol G e := by
  refine ⟨_, adapter_range (by omega) X T w, ?_⟩
  have hF := adapter_follows (k.pointers_nodup I) hu (by omega : 0 < N) X T w
  obtain ⟨g, R1, hg, hR1, hd⟩ := adapter_limit hf hs T hi
  rw [hR1.unique hR] at hd
  refine check_rejects hF (a := g) (d := g + (N - 1) * R') (i := i) hi hg ?_ ?_
  · have hp : ((k.layer I).pointers.map w)[i]'(by simpa using hi) = w (k.layer I).pointers[i] := List.getElem_map _
    rw [← hp] at hd
    exact hd
  · rw [show g - (g + ((N : ℝ) - 1) * R') = -(((N : ℝ) - 1) * R') by ring, abs_neg, abs_mul]
    have h2 : (2 : ℝ) ≤ N := by exact_mod_cast hN
    rw [abs_of_nonneg (by linarith)]
    nlinarith [abs_nonneg R']

/-! ### Inputs -/

/-- Spec: the inputs with one coefficient moved. -/
def nudge (X : Batch) (n i : ℕ) (t : ℝ) : Batch := fun m j => if m = n ∧ j = i then X m j + t else X m j

theorem adapter_input_deriv {k : Kind} {I N : ℕ} {w : Weights} {X : Batch} (hf : k.Fits I) (hr : k.RowWise)
    (hs : k.SmoothAt I N w X) (T : Batch) (stale : Batch) {n i : ℕ} (hn : n < N) (hi : i < I) :
    HasDerivAt (fun t => rowError (k.layer I) w N (addCol X i t) T n + (k.layer I).regError w)
      (adapterInputGradient (k.layer I) N X T w stale n i) 0 := by
  set l := k.layer I with hl
  have hb : BackpropAt l N w X := Kind.backprop hf hs
  have hrow : ∀ X' m, l.forward w N X' m = l.forward w 1 (fun _ => X' m) 0 := fun X' m => Kind.forward_row hr I w N X' m
  have hX0 : nudge X n i 0 = X := by
    funext m j
    simp [nudge]
  obtain ⟨y', R', hy, hR, hlaw⟩ := hb.2 (fun _ => w) (nudge X n i) 0 (fun _ => 0)
    (fun m j => if m = n ∧ j = i then 1 else 0) rfl hX0 (fun s _ => hasDerivAt_const _ _) (fun _ _ _ => rfl)
    (by
      intro m _ j _
      by_cases h : m = n ∧ j = i
      · simpa [nudge, h] using (hasDerivAt_id (0 : ℝ)).const_add (X n i)
      · simpa [nudge, h] using hasDerivAt_const (0 : ℝ) (X m j))
  have hR0 : R' = 0 := hR.unique (hasDerivAt_const _ _)
  have hother : ∀ m < N, m ≠ n → ∀ j < l.outputs, y' m j = 0 := by
    intro m hm hmn j hj
    have hc : (fun t => l.forward w N (nudge X n i t) m j) = fun _ => l.forward w N X m j := by
      funext t
      rw [hrow, hrow]
      congr 2
      funext _ j
      simp [nudge, hmn]
    have := hy m hm j hj
    rw [hc] at this
    exact this.unique (hasDerivAt_const _ _)
  have hlw := hlaw (fun n j => l.forward w N X n j - T n j) stale
  have hI : l.inputs = I := Kind.inputs_eq hf
  have hright : NN.inner N l.inputs (l.back w N X (fun n j => l.forward w N X n j - T n j) true stale)
      (fun m j => if m = n ∧ j = i then 1 else 0) = adapterInputGradient l N X T w stale n i := by
    unfold NN.inner
    rw [Finset.sum_eq_single_of_mem n (mem_range.2 hn), Finset.sum_eq_single_of_mem i (mem_range.2 (hI ▸ hi))]
    · beta_reduce
      rw [if_pos ⟨rfl, rfl⟩, mul_one]
      rfl
    · intro j _ hj
      beta_reduce
      rw [if_neg (fun h => hj h.2), mul_zero]
    · intro m _ hm
      exact Finset.sum_eq_zero fun j _ => by beta_reduce; rw [if_neg (fun h => hm h.1), mul_zero]
  have hleft : NN.inner N l.outputs (fun n j => l.forward w N X n j - T n j) y' =
      ∑ j ∈ range l.outputs, (l.forward w N X n j - T n j) * y' n j := by
    unfold NN.inner
    rw [Finset.sum_eq_single_of_mem n (mem_range.2 hn)]
    intro m hm hmn
    exact Finset.sum_eq_zero fun j hj => by rw [hother m (mem_range.1 hm) hmn j (mem_range.1 hj), mul_zero]
  have hzero : (l.pointers.map fun s => l.derivs w N X (fun n j => l.forward w N X n j - T n j) s * (0 : ℝ)).sum = 0 := by
    simp
  rw [hright, hleft, hR0, hzero, add_zero, add_zero] at hlw
  rw [← hlw]
  have hd := (rowError_hasDerivAt (l := l) (N := N) (w := fun _ => w) (X := nudge X n i) (T := T) (y' := y') (t0 := 0)
    fun j hj => hy n hn j hj).add_const (l.regError w)
  rw [hX0] at hd
  refine hd.congr_of_eventuallyEq (Eventually.of_forall fun t => ?_)
  show rowError l w N (addCol X i t) T n + _ = rowError l w N (nudge X n i t) T n + _
  have : l.forward w N (addCol X i t) n = l.forward w N (nudge X n i t) n := by
    rw [hrow, hrow]
    congr 1
    funext _ j
    simp [addCol, nudge]
  simp only [rowError, this]

/-- **C117 (inputs of layers)**: for every kind of layer that treats all rows alike, the check of `inputGradient()` of the
adapter succeeds with every tolerance for all small step widths, with any number of examples and with penalties. -/
theorem adapter_input_check {k : Kind} {I N : ℕ} {w : Weights} {X : Batch} (hf : k.Fits I) (hr : k.RowWise)
    (hs : k.SmoothAt I N w X) (hN : 0 < N) (T stale : Batch) (before : Data) {tol : ℝ} (htol : 0 < tol) :
    ∃ eps0 > 0, ∀ eps, 0 < eps → eps < eps0 →
      ∃ g after, inputGradient (adapterLearner (k.layer I) N w) N I X T eps before = .ok (g, after) ∧
        ∀ n < N, ∀ i < I, |g n i - adapterInputGradient (k.layer I) N X T w stale n i| ≤ tol := by
  refine input_tendsto (L := adapterLearner (k.layer I) N w)
    (E := fun X' n => rowError (k.layer I) w N X' T n + (k.layer I).regError w) (fun X' => ?_) before
    (fun n hn i hi => adapter_input_deriv hf hr hs T stale hn hi) htol
  obtain ⟨M, rfl⟩ := Nat.exists_eq_succ_of_ne_zero hN.ne'
  show adapterErrors _ _ X' T w _ = _
  unfold adapterErrors
  rw [List.range_succ_eq_map]
  simp only [Outcome.check, if_true, Outcome.ok_bind, List.length_cons, List.length_map, List.length_range, Outcome.pure_eq]

/-- **C117 (networks are left without training set)**: after `inputGradient` with a network the next error is undefined. -/
theorem net_dangling_ub {ce : Bool} (mem : Mem) (sc : ℕ → Scratch) {N D' : ℕ} (hD : 0 < D') (hN : N ≤ 2 ^ 31) (X Y : Batch)
    (eps : ℝ) (before : Data) :
    ∃ g after, inputGradient (netLearner (buildNet D ks ce) mem sc N) N D' X Y eps before = .ok (g, after) ∧
      (netLearner (buildNet D ks ce) mem sc N).error none after = .ub :=
  dangling_data_ub rfl hD (E := fun X' n => (buildNet D ks ce).errorAt mem ⟨N, X', Y⟩ n)
    (fun X' => Opt.errors_accumulates (Opt.net_is ce mem sc ⟨N, X', Y⟩ hN) fun n hn => by simpa using hn) eps before

/-! ## Counterexamples and examples -/

/-- One weight, no bias. -/
def tiny (act : Act) (reg : Reg) : Kind := .fullyConnected 1 false act reg

theorem tiny_pointers (act : Act) (reg : Reg) : ((tiny act reg).layer 1).pointers = [.w [0, 0]] := rfl

/-- **C117 is false at kinks**: a rectifier whose activation is zero.  The gradient of the adapter is 0, one of the slopes;
the estimate is more than 1/2 for every step width. -/
theorem kink_check_fails {eps : ℝ} (heps : 0 < eps) :
    ∃ (w : Weights) (X T : Batch) (e : List ℝ) (t : Weights),
      adapterGradientRange ((tiny .rectifier ⟨0, 0, 0⟩).layer 1) 1 X T w [0] = .ok [0] ∧
      parameterGradientOf (adapterOptimizable ((tiny .rectifier ⟨0, 0, 0⟩).layer 1) 1 X T) 0 eps w = .ok (e, t) ∧
      ¬ Accepts (1 / 2) [0] e := by
  set l := (tiny .rectifier ⟨0, 0, 0⟩).layer 1 with hl
  have hw : ∀ w : Weights, l.forward w 1 (fun _ _ => 1) 0 0 = max 0 (w (.w [0, 0])) := by
    intro w
    show max 0 (∑ i ∈ range 1, (1 : ℝ) * w (.w [0, i]) + _) = _
    rw [sum_range_one, one_mul]
    exact congrArg (max 0) (add_zero _)
  have hF := adapter_follows (l := l) (Kind.pointers_nodup _ 1) (fun w => maxNormUpdate_nonpos (le_refl _) w)
    (N := 1) Nat.one_pos (fun _ _ => 1) (fun _ _ => -1) (fun _ => 0)
  obtain ⟨e, t, he, _, _, _, hall⟩ := parameterGradient_eq hF eps
  refine ⟨fun _ => 0, fun _ _ => 1, fun _ _ => -1, e, t, ?_, he, ?_⟩
  · rw [show ([0] : List ℕ) = List.range 1 from rfl, adapter_range Nat.one_pos]
    refine congrArg Outcome.ok ?_
    show [_] = _
    congr 1
    show ∑ n ∈ range 1, Act.deriv .rectifier (l.forward (fun _ => 0) 1 (fun _ _ => 1) n 0) * _ * (1 : ℝ) + Reg.deriv ⟨0, 0, 0⟩ _ = 0
    rw [sum_range_one, hw]
    simp [Act.deriv, Reg.deriv]
  · intro hacc
    have h0 := hall 0 Nat.one_pos
    have := hacc.2 0 0 _ rfl h0
    have hal := adapter_along (l := l) (Kind.pointers_nodup _ 1) 1 (fun _ _ => 1) (fun _ _ => -1) (fun _ => 0) (i := 0) Nat.one_pos
    have hreg : ∀ w, l.regError w = 0 := fun w => by
      show Reg.error ⟨0, 0, 0⟩ _ _ = 0
      simp [Reg.error]
    have hre : ∀ t : ℝ, rowError l (weightsAt (fun _ => 0) (.w [0, 0]) t) 1 (fun _ _ => 1) (fun _ _ => -1) 0 =
        (max 0 t + 1) ^ 2 / 2 := by
      intro t
      show (∑ j ∈ range 1, _) / 2 = _
      rw [sum_range_one, hw, weightsAt, if_pos rfl, sub_neg_eq_add]
    have hc : central (fun t => ∑ n ∈ range 1, rowError l (weightsAt (fun _ => 0) (.w [0, 0]) t) 1 (fun _ _ => 1) (fun _ _ => -1) n +
        (1 : ℕ) * l.regError (weightsAt (fun _ => 0) (.w [0, 0]) t)) 0 eps = eps / 4 + 1 / 2 := by
      simp only [central, sum_range_one, hre, hreg, zero_add, zero_sub, mul_zero, add_zero]
      rw [max_eq_right heps.le, max_eq_left (by linarith)]
      field_simp
      ring
    have hthis : |(0 : ℝ) - central (along _ (l.pointers.map fun _ => (0 : ℝ)) 0) 0 eps| ≤ 1 / 2 := this
    rw [hal] at hthis
    have hthis2 : |(0 : ℝ) - (eps / 4 + 1 / 2)| ≤ 1 / 2 := by
      rw [← hc]
      exact hthis
    rw [zero_sub, abs_neg, abs_of_pos (by linarith)] at hthis2
    linarith

theorem adapter_errors {l : Layer} {N : ℕ} (hN : 0 < N) (X T : Batch) (w : Weights) :
    adapterErrors l N X T w (List.range N) = .ok ((List.range N).map fun n => rowError l w N X T n + l.regError w) := by
  obtain ⟨M, rfl⟩ := Nat.exists_eq_succ_of_ne_zero hN.ne'
  unfold adapterErrors
  rw [List.range_succ_eq_map]
  simp only [Outcome.check, if_true, Outcome.ok_bind, List.length_cons, List.length_map, List.length_range, Outcome.pure_eq]

/-- **C117 (adapters are left with shifted data)**: after `inputGradient` the adapter has data of its own that can be used, but
they are not the data that were passed. -/
theorem adapter_shifted_fails {l : Layer} {N D' : ℕ} (hN : 0 < N) (hD : 0 < D') (w : Weights) (X T : Batch) {eps : ℝ}
    (heps : 0 < eps) (before : Data) :
    ∃ g X', inputGradient (adapterLearner l N w) N D' X T eps before = .ok (g, .copy X' T) ∧
      (adapterLearner l N w).error none (.copy X' T) =
        .ok ((List.range N).map fun n => rowError l w N X' T n + l.regError w) ∧
      ∀ n, X' n (D' - 1) = X n (D' - 1) - eps ∧ X' n (D' - 1) ≠ X n (D' - 1) := by
  obtain ⟨g, X', h, hX⟩ := shifted_data_fails (L := adapterLearner l N w) rfl hD
    (E := fun X' n => rowError l w N X' T n + l.regError w) (fun X' => adapter_errors hN X' T w) heps before
  exact ⟨g, X', h, adapter_errors hN X' T w, hX⟩

theorem forLoop_stops {σ : Type} {n : ℕ} {body : ℕ → σ → Outcome σ} {s : σ} {e : Outcome σ} (hn : 0 < n) (h : body 0 s = e)
    (he : ∀ f : σ → Outcome σ, e.bind f = e) : forLoop n body s = e := by
  obtain ⟨k, rfl⟩ := Nat.exists_eq_succ_of_ne_zero hn.ne'
  induction k with
  | zero => exact h
  | succ k ih => exact (congrArg (fun o : Outcome σ => o.bind (body (k + 1))) (ih (Nat.succ_pos k))).trans (he _)

/-- **C117 (no parameters yet)**: an objective that has not set its vector of parameters cannot be checked. -/
theorem short_parameters_ub {σ : Type} {O : Optimizable σ} (hd : 0 < O.dimension) {s : σ} (hs : O.current s = []) (idx : List ℕ)
    (eps : ℝ) : parameterGradient O idx eps s = .ub := by
  have hstep : parameterStep O idx eps (O.current s) 0 ⟨List.replicate O.dimension 0, O.current s, s⟩ = .ub := by
    unfold parameterStep
    rw [hs]
    rfl
  unfold parameterGradient
  rw [forLoop_stops hd hstep fun f => rfl]
  rfl

/-- **C117 (single examples)**: an adapter with several examples refuses to be checked with one of them. -/
theorem adapter_single_fails {l : Layer} (hl : 0 < l.pointers.length) {N n : ℕ} (h : n ≠ 0 ∨ N ≠ 1) (X T : Batch) (w : Weights)
    (eps : ℝ) : parameterGradientOf (adapterOptimizable l N X T) n eps w = .checkFailed := by
  have herr : ∀ w, adapterErrors l N X T w [n] = .checkFailed := by
    intro w
    unfold adapterErrors
    simp only [Outcome.check, List.length_singleton]
    by_cases h0 : n = 0
    · rw [if_pos h0, Outcome.ok_bind, if_neg (by rcases h with h | h <;> omega), Outcome.checkFailed_bind]
    · rw [if_neg h0, Outcome.checkFailed_bind]
  have hstep : parameterStep (adapterOptimizable l N X T) [n] eps (l.pointers.map w) 0
      ⟨List.replicate l.pointers.length 0, l.pointers.map w, w⟩ = .checkFailed := by
    unfold parameterStep
    rw [addAt_ok (by simpa using hl), Outcome.ok_bind]
    show (if _ then _ else _ : Outcome _).bind _ = _
    rw [if_neg (by simp)]
    show (adapterErrors l N X T _ [n]).bind _ = _
    rw [herr]
    rfl
  unfold parameterGradientOf parameterGradient
  show (forLoop l.pointers.length (parameterStep (adapterOptimizable l N X T) [n] eps (l.pointers.map w))
      ⟨List.replicate l.pointers.length 0, l.pointers.map w, w⟩).bind _ = _
  rw [forLoop_stops hl hstep fun f => rfl]
  rfl

/-- **C117 (constraints)**: after `setParameters` of the adapter the layer meets its max-norm constraint. -/
theorem adapter_set_constraint {I J N : ℕ} {bias : Bool} {act : Act} {reg : Reg} (hm : 0 < reg.maxNorm) (X T : Batch)
    (w : Weights) {θ : List ℝ} (hθ : (denseSlots I J bias).length ≤ θ.length) :
    ∃ w', (adapterOptimizable (fullyConnected I J bias act reg) N X T).set w θ = .ok w' ∧ ∀ j, NN.rowNorm I w' j ≤ reg.maxNorm := by
  refine ⟨_, if_neg (not_lt.mpr hθ), fun j => ?_⟩
  exact (NN.maxNorm_constraint hm _ j).1

/-- **C117 is false for layers with a max-norm constraint**: on the boundary of the constraint the right gradient is refused
for every step width, because one of the two points of the check is moved back. -/
theorem constraint_check_fails {eps : ℝ} (heps : 0 < eps) (h1 : eps < 1) :
    ∃ (w : Weights) (X T : Batch) (e : List ℝ) (t : Weights), ((tiny .linear ⟨0, 0, 1⟩).layer 1).updated w = w ∧
      adapterGradientRange ((tiny .linear ⟨0, 0, 1⟩).layer 1) 1 X T w [0] = .ok [1] ∧
      HasDerivAt (fun t => adapterError ((tiny .linear ⟨0, 0, 1⟩).layer 1) 1 X T (weightsAt w (.w [0, 0]) t)) 1 (w (.w [0, 0])) ∧
      parameterGradientOf (adapterOptimizable ((tiny .linear ⟨0, 0, 1⟩).layer 1) 1 X T) 0 eps w = .ok (e, t) ∧
      ¬ Accepts (1 / 2) [1] e := by
  set l := (tiny .linear ⟨0, 0, 1⟩).layer 1 with hl
  have hreg : ∀ w, l.regError w = 0 := fun w => by
    show Reg.error ⟨0, 0, 1⟩ _ _ = 0
    simp [Reg.error]
  have hup : ∀ w, l.updated w = maxNormUpdate 1 1 w := fun w => rfl
  have hrow : ∀ w, NN.rowNorm 1 w 0 = w (.w [0, 0]) ^ 2 := fun w => by simp [NN.rowNorm]
  have hsmall : ∀ w : Weights, w (.w [0, 0]) ^ 2 ≤ 1 → l.updated w (.w [0, 0]) = w (.w [0, 0]) := fun w hw =>
    (NN.maxNorm_constraint one_pos w 0).2.1 (by rw [hrow]; exact hw) 0
  have hlarge : ∀ w : Weights, 1 < w (.w [0, 0]) → l.updated w (.w [0, 0]) = 1 := fun w hw => by
    obtain ⟨h2, c, hc, _, h3⟩ := (NN.maxNorm_constraint one_pos w 0 (I := 1)).2.2.1 (by rw [hrow]; nlinarith)
    rw [hrow] at h2
    have h3 := h3 0
    have : 0 < maxNormUpdate 1 1 w (.w [0, 0]) := by rw [h3]; positivity
    rw [hup]
    nlinarith
  have hw : ∀ w : Weights, l.forward w 1 (fun _ _ => 1) 0 0 = w (.w [0, 0]) := by
    intro w
    show ∑ i ∈ range 1, (1 : ℝ) * w (.w [0, i]) + _ = _
    rw [sum_range_one, one_mul]
    exact add_zero _
  have hre : ∀ w, rowError l w 1 (fun _ _ => 1) (fun _ _ => 0) 0 = w (.w [0, 0]) ^ 2 / 2 := by
    intro w
    show (∑ j ∈ range 1, _) / 2 = _
    rw [sum_range_one, hw, sub_zero]
  have herr : ∀ w, adapterErrors l 1 (fun _ _ => 1) (fun _ _ => 0) w [0] = .ok [w (.w [0, 0]) ^ 2 / 2] := by
    intro w
    have := adapter_errors (l := l) Nat.one_pos (fun _ _ => 1) (fun _ _ => 0) w
    rw [show List.range 1 = [0] from rfl] at this
    rw [this, List.map_singleton, hre, hreg, add_zero]
  have hset : ∀ w t, (adapterOptimizable l 1 (fun _ _ => 1) (fun _ _ => 0)).set w [t] =
      .ok (l.updated (weightsAt w (.w [0, 0]) t)) := fun w t => rfl
  have hfix : l.updated (fun _ => 1) = fun _ => 1 := by
    funext s
    rw [hup]
    unfold maxNormUpdate
    split <;> simp
  set wp := l.updated (weightsAt (fun _ => 1) (.w [0, 0]) (1 + eps)) with hwp
  set wm := l.updated (weightsAt wp (.w [0, 0]) (1 + -eps)) with hwm
  have hp : wp (.w [0, 0]) = 1 := hlarge _ (by rw [weightsAt, if_pos rfl]; linarith)
  have hm : wm (.w [0, 0]) = 1 + -eps := by
    have h2 : weightsAt wp (.w [0, 0]) (1 + -eps) (.w [0, 0]) = 1 + -eps := by rw [weightsAt, if_pos rfl]
    rw [hwm, hsmall _ (by rw [h2]; nlinarith), h2]
  refine ⟨fun _ => 1, fun _ _ => 1, fun _ _ => 0, [0 + (([(1 : ℝ) ^ 2 / 2].sum - [(1 + -eps) ^ 2 / 2].sum) / (2 * eps))],
    l.updated (weightsAt wm (.w [0, 0]) 1), hfix, ?_, ?_, ?_, ?_⟩
  · rw [show ([0] : List ℕ) = List.range 1 from rfl, adapter_range Nat.one_pos]
    refine congrArg Outcome.ok ?_
    show [_] = _
    congr 1
    show ∑ n ∈ range 1, Act.deriv .linear (l.forward (fun _ => 1) 1 (fun _ _ => 1) n 0) * _ * (1 : ℝ) + Reg.deriv ⟨0, 0, 1⟩ _ = 1
    rw [sum_range_one, hw]
    simp [Act.deriv, Reg.deriv, hw]
  · have : (fun t => adapterError l 1 (fun _ _ => 1) (fun _ _ => 0) (weightsAt (fun _ => 1) (.w [0, 0]) t)) = fun t : ℝ => t ^ 2 / 2 := by
      funext t
      rw [adapterError, hreg, zero_add, sum_range_one, hre, weightsAt, if_pos rfl]
    rw [this]
    exact ((hasDerivAt_pow 2 (1 : ℝ)).div_const 2).congr_deriv (by norm_num)
  · have hstep : parameterStep (adapterOptimizable l 1 (fun _ _ => 1) (fun _ _ => 0)) [0] eps [1] 0 ⟨[0], [1], fun _ => 1⟩ =
        .ok ⟨[0 + (([(1 : ℝ) ^ 2 / 2].sum - [(1 + -eps) ^ 2 / 2].sum) / (2 * eps))], [1], l.updated (weightsAt wm (.w [0, 0]) 1)⟩ := by
      unfold parameterStep
      have he : ∀ w, (adapterOptimizable l 1 (fun _ _ => 1) (fun _ _ => 0)).errors w [0] = .ok [w (.w [0, 0]) ^ 2 / 2] := herr
      rw [addAt_ok (by simp), Outcome.ok_bind, show ([1] : List ℝ).set 0 ([(1 : ℝ)][0] + eps) = [1 + eps] from rfl, hset, ← hwp,
        Outcome.ok_bind, he, hp, Outcome.ok_bind, addAt_ok (by simp), Outcome.ok_bind,
        show ([1] : List ℝ).set 0 ([(1 : ℝ)][0] + -eps) = [1 + -eps] from rfl, hset, ← hwm, Outcome.ok_bind, he, hm,
        Outcome.ok_bind]
      rfl
    unfold parameterGradientOf parameterGradient
    show (forLoop 1 (parameterStep (adapterOptimizable l 1 (fun _ _ => 1) (fun _ _ => 0)) [0] eps [1]) ⟨[0], [1], fun _ => 1⟩ >>= _) = _
    rw [forLoop, forLoop, Outcome.ok_bind]
    rw [hstep]
    rfl
  · intro h
    have := h.2 0 1 _ rfl rfl
    have e : 1 - (0 + (([(1 : ℝ) ^ 2 / 2].sum - [(1 + -eps) ^ 2 / 2].sum) / (2 * eps))) = 1 / 2 + eps / 4 := by
      simp only [List.sum_singleton]
      field_simp
      ring
    rw [e] at this
    rw [abs_of_pos (by linarith)] at this
    linarith

/-- The hypotheses of `adapter_single_fails`, `adapter_shifted_fails`, `adapter_set_constraint` and `short_parameters_ub` are
met: the second of three examples, and a network before `initialize`. -/
example (X T : Batch) (w : Weights) (sc : ℕ → Scratch) :
    parameterGradientOf (adapterOptimizable ((tiny .linear ⟨0, 0, 1⟩).layer 1) 3 X T) 1 (1 / 10) w = .checkFailed ∧
    (∃ g X', inputGradient (adapterLearner ((tiny .linear ⟨0, 0, 1⟩).layer 1) 3 w) 3 1 X T (1 / 10) .pointers = .ok (g, .copy X' T) ∧
      X' 2 0 = X 2 0 - 1 / 10) ∧
    (∃ w', (adapterOptimizable (fullyConnected 1 1 false .linear ⟨0, 0, 1⟩) 3 X T).set w [5] = .ok w' ∧ NN.rowNorm 1 w' 0 ≤ 1) ∧
    parameterGradient (netOptimizable (buildNet 1 [tiny .linear ⟨0, 0, 0⟩] false) sc ⟨3, X, T⟩) [0] (1 / 10)
      ⟨fun _ _ => 0, []⟩ = .ub := by
  refine ⟨adapter_single_fails (show 0 < ((tiny .linear ⟨0, 0, 1⟩).layer 1).pointers.length from Nat.one_pos) (Or.inl one_ne_zero) X T w _, ?_, ?_, short_parameters_ub ?_ rfl _ _⟩
  · obtain ⟨g, X', h, _, h2⟩ := adapter_shifted_fails (l := (tiny .linear ⟨0, 0, 1⟩).layer 1) (N := 3) (D' := 1) (by omega)
      Nat.one_pos w X T (eps := 1 / 10) (by norm_num) .pointers
    exact ⟨g, X', h, (h2 2).1⟩
  · obtain ⟨w', h, h2⟩ := adapter_set_constraint (I := 1) (J := 1) (N := 3) (bias := false) (act := .linear) (reg := ⟨0, 0, 1⟩)
      one_pos X T w (θ := [5]) (by simp [denseSlots])
    exact ⟨w', h, h2 0⟩
  · exact Nat.one_pos

/-- The hypotheses of `adapter_check_partial` and `adapter_input_check` are met: all data and weights of a layer with ten
hidden units, three examples. -/
example (w : Weights) (X : Batch) : ∃ k : Kind, k.Fits 5 ∧ k.SmoothAt 5 3 w X ∧ k.RowWise ∧
    (∀ w, (k.layer 5).updated w = w) ∧ (∀ w, (k.layer 5).regError w = 0) ∧ (k.layer 5).pointers.length = 60 := by
  refine ⟨.fullyConnected 10 true .tanh ⟨0, 0, 0⟩, trivial, ⟨fun _ _ _ _ h => h, fun _ _ _ _ h => absurd h (lt_irrefl _)⟩, trivial,
    fun w => maxNormUpdate_nonpos (le_refl _) w, fun w => ?_, rfl⟩
  show Reg.error ⟨0, 0, 0⟩ _ _ = 0
  simp [Reg.error]

/-- The hypotheses of `penalty_check_fails` are met. -/
example (X T : Batch) : ∃ (w : Weights) (G : List ℝ),
    adapterGradientRange ((tiny .linear ⟨0, 1, 0⟩).layer 1) 2 X T w [0, 1] = .ok G ∧
      ∃ eps0 > 0, ∀ eps, 0 < eps → eps < eps0 →
        ∃ e t, parameterGradient (adapterOptimizable ((tiny .linear ⟨0, 1, 0⟩).layer 1) 2 X T) [0, 1] eps w = .ok (e, t) ∧
          ¬ Accepts 1 G e := by
  refine ⟨fun _ => 2, penalty_check_fails (k := tiny .linear ⟨0, 1, 0⟩) (I := 1) (N := 2) (i := 0) (R' := 2) trivial
    ⟨fun _ _ _ _ h => h, fun _ _ _ _ h => absurd h (lt_irrefl _)⟩ (fun w => maxNormUpdate_nonpos (le_refl _) w) (le_refl _) T
    Nat.one_pos ?_ (by norm_num)⟩
  have h : (fun t : ℝ => ((tiny .linear ⟨0, 1, 0⟩).layer 1).regError (weightsAt (fun _ => 2) (.w [0, 0]) t)) =
      fun t => t ^ 2 / 2 := by
    funext t
    show Reg.error ⟨0, 1, 0⟩ _ (∑ j ∈ range 1, ∑ i ∈ range 1, (weightsAt (fun _ => 2) (.w [0, 0]) t).mat j i ^ 2) = _
    rw [sum_range_one, sum_range_one]
    simp [Reg.error, Weights.mat, weightsAt]
  show HasDerivAt (fun t : ℝ => ((tiny .linear ⟨0, 1, 0⟩).layer 1).regError (weightsAt (fun _ => 2) (.w [0, 0]) t)) 2 2
  rw [h]
  have := (hasDerivAt_pow 2 (2 : ℝ)).div_const 2
  exact this.congr_deriv (by norm_num)

/-- The hypotheses of `net_check_partial` are met after `initialize`, for all weights and data: two layers. -/
example (mem : Mem) (x : Batch) : ∃ ks : List Kind, FitsFrom 4 ks ∧ Unconstrained ks ∧ (∀ k ∈ ks, k.RowWise) ∧
    (buildNet 4 ks false).set ((buildNet 4 ks false).initialized mem) ((buildNet 4 ks false).initialized mem).vector =
      .ok ((buildNet 4 ks false).initialized mem) ∧
    ((buildNet 4 ks false).initialized mem).vector.length = (buildNet 4 ks false).P ∧ SmoothFrom mem 1 1 4 ks x := by
  have hu : Unconstrained [.fullyConnected 7 true .tanh ⟨0, 0, 0⟩, .fullyConnected 2 true .linear ⟨0, 0, 0⟩] := by
    intro k hk J bias act reg e
    simp only [List.mem_cons, List.not_mem_nil, or_false] at hk
    rcases hk with rfl | rfl <;> cases e <;> exact le_refl _
  refine ⟨[.fullyConnected 7 true .tanh ⟨0, 0, 0⟩, .fullyConnected 2 true .linear ⟨0, 0, 0⟩], ⟨trivial, trivial, trivial⟩, hu, ?_,
    Pretrain.initialized_consistent hu mem, List.length_map _, ?_⟩
  · intro k hk
    simp only [List.mem_cons, List.not_mem_nil, or_false] at hk
    rcases hk with rfl | rfl <;> trivial
  · refine smoothFrom_fullyConnected ?_ _ _ _ _ _
    intro k hk
    simp only [List.mem_cons, List.not_mem_nil, or_false] at hk
    rcases hk with rfl | rfl
    · exact ⟨7, true, .tanh, rfl, by decide, by decide⟩
    · exact ⟨2, true, .linear, rfl, by decide, by decide⟩

end

end Verif.GradCheck
