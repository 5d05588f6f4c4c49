import Verif.Props.SigmaPi
import Verif.Props.Activation
import Verif.Props.Evaluation
import Verif.Model.Fill
import Mathlib.Analysis.Calculus.Deriv.Add
import Mathlib.Analysis.Calculus.Deriv.Mul
import Mathlib.Analysis.Calculus.Deriv.Comp

/-!
# Sigma-pi layers: outputs, weight derivatives and error signals (C35)
-/

namespace Verif.SigmaPi

open Outcome NN Finset

noncomputable section

/-! ## Specification -/

/-- The product of the inputs of a unit. -/
def prodAt (x : Mat) (n : ℕ) (ps : List ℕ) : ℝ := (ps.map (x.val n)).prod

/-- The weighted sum of the products. -/
def net (w : List ℝ) (x : Mat) (n : ℕ) (neuron : Neuron) : ℝ :=
  (neuron.map fun u => w.getD u.weight 0 * prodAt x n u.position).sum

/-- A layer that can be used: it has neurons, each of them has units, and each unit multiplies inputs that exist. -/
structure Layer.Ready (l : Layer) : Prop where
  wd : l.wd.length = l.w.length
  nodes : l.nodes ≠ []
  units : ∀ neuron ∈ l.nodes, neuron ≠ [] ∧ ∀ u ∈ neuron, u.weight < l.w.length ∧ ∀ p ∈ u.position, p < l.inputs

/-! ## Forward -/

theorem product_ok {x : Mat} {n : ℕ} (hn : n < x.rows) (ps : List ℕ) (h : ∀ p ∈ ps, p < x.cols) (k : ℝ) :
    product x n ps k = ok (k * prodAt x n ps) := by
  induction ps generalizing k with
  | nil => simp [product, prodAt]
  | cons p ps ih =>
    rw [product, Mat.get_nat hn (h p (List.mem_cons_self ..)), ok_bind, ih fun q hq => h q (List.mem_cons_of_mem _ hq)]
    simp [prodAt, mul_assoc]

theorem weightedSum_ok {w : List ℝ} {x : Mat} {n : ℕ} (hn : n < x.rows) (us : Neuron)
    (h : ∀ u ∈ us, u.weight < w.length ∧ ∀ p ∈ u.position, p < x.cols) (s : ℝ) :
    weightedSum w x n us s = ok (s + net w x n us) := by
  induction us generalizing s with
  | nil => simp [weightedSum, net]
  | cons u us ih =>
    have hu := h u (List.mem_cons_self ..)
    rw [weightedSum, product_ok hn _ hu.2, ok_bind, read_of_lt hu.1, ok_bind, ih fun v hv => h v (List.mem_cons_of_mem _ hv)]
    simp [net, hu.1, add_assoc]

theorem activation_ok {w : List ℝ} {x : Mat} {n : ℕ} (hn : n < x.rows) {us : Neuron} (hne : us ≠ [])
    (h : ∀ u ∈ us, u.weight < w.length ∧ ∀ p ∈ u.position, p < x.cols) : activation w x n us = ok (net w x n us) := by
  cases us with
  | nil => exact absurd rfl hne
  | cons u us =>
    rw [activation, weightedSum_ok hn _ h, zero_add]
    simp

theorem getD_mem {α : Type} {l : List α} {i : ℕ} (d : α) (h : i < l.length) : l.getD i d ∈ l := by
  rw [List.getD_eq_getElem?_getD, List.getElem?_eq_getElem h]
  exact List.getElem_mem h

theorem activations_ok {l : Layer} (hl : l.Ready) {x : Mat} (hx : x.cols = l.inputs) (junk : ℕ → ℕ → ℝ) :
    ∃ a, activations l x junk = ok a ∧ a.rows = x.rows ∧ a.cols = l.nodes.length ∧
      ∀ n < x.rows, ∀ i < l.nodes.length, a.val n i = net l.w x n (l.nodes.getD i []) := by
  obtain ⟨a, ha, hf⟩ := forLoop_inv (n := x.rows) (body := fun n a =>
    if l.nodes = [] then ub
    else forLoop l.nodes.length (fun i a => do
      let v ← activation l.w x n (l.nodes.getD i [])
      a.set n i v) a)
    (fun n a => Fill (fun n i => net l.w x n (l.nodes.getD i [])) x.rows l.nodes.length n 0 a)
    (s := ⟨x.rows, l.nodes.length, junk⟩) ⟨rfl, rfl, fun i pos h => by omega⟩ (by
      intro n hn a ha
      rw [if_neg hl.nodes]
      obtain ⟨a', h1, h2⟩ := forLoop_inv (n := l.nodes.length) (body := fun i a => do
          let v ← activation l.w x n (l.nodes.getD i [])
          a.set n i v)
        (fun i a => Fill (fun n i => net l.w x n (l.nodes.getD i [])) x.rows l.nodes.length n i a) ha (by
          intro i hi a ha
          have hu := hl.units _ (getD_mem [] hi)
          rw [activation_ok hn hu.1 (by rw [hx]; exact hu.2), ok_bind]
          exact ha.set hn hi rfl)
      exact ⟨a', h1, h2.next⟩)
  exact ⟨a, ha, hf.rows, hf.cols, fun n hn i hi => hf.done n i (Or.inl ⟨hn, hi⟩)⟩

/-- The outputs of a sigma-pi layer: the activation function of the weighted sum of the products. -/
theorem forward_ok {l : Layer} (hl : l.Ready) {x : Mat} (hx : x.cols = l.inputs) (junk : ℕ → ℕ → ℝ) :
    ∃ y, forward l x junk = ok y ∧ y.rows = x.rows ∧ y.cols = l.nodes.length ∧
      ∀ n < x.rows, ∀ i < l.nodes.length, y.val n i = l.act.apply (net l.w x n (l.nodes.getD i [])) := by
  obtain ⟨a, ha, h1, h2, h3⟩ := activations_ok hl hx junk
  refine ⟨⟨a.rows, a.cols, fun n i => l.act.apply (a.val n i)⟩, ?_, h1, h2, fun n hn i hi => ?_⟩
  · rw [forward, if_neg (by simpa using hx), ha, ok_bind]
  · simp only
    rw [h3 n hn i hi]

/-! ## Backward -/

/-- `g'` is `g` with something added. -/
structure Adds (g g' : Grads) (ce : ℕ → ℕ → ℝ) (cw : ℕ → ℝ) : Prop where
  rows : g'.e.rows = g.e.rows
  cols : g'.e.cols = g.e.cols
  e : ∀ a b, g'.e.val a b = g.e.val a b + ce a b
  length : g'.wd.length = g.wd.length
  wd : ∀ k < g.wd.length, g'.wd.getD k 0 = g.wd.getD k 0 + cw k

theorem Adds.refl (g : Grads) : Adds g g (fun _ _ => 0) fun _ => 0 := ⟨rfl, rfl, by simp, rfl, by simp⟩

theorem Adds.trans {g1 g2 g3 : Grads} {ce ce' : ℕ → ℕ → ℝ} {cw cw' : ℕ → ℝ} (h : Adds g1 g2 ce cw) (h' : Adds g2 g3 ce' cw') :
    Adds g1 g3 (fun a b => ce a b + ce' a b) fun k => cw k + cw' k :=
  ⟨h'.rows.trans h.rows, h'.cols.trans h.cols, fun a b => by rw [h'.e, h.e, add_assoc], h'.length.trans h.length,
    fun k hk => by rw [h'.wd k (by rw [h.length]; exact hk), h.wd k hk, add_assoc]⟩

theorem Adds.congr {g g' : Grads} {ce ce' : ℕ → ℕ → ℝ} {cw cw' : ℕ → ℝ} (h : Adds g g' ce cw) (he : ∀ a b, ce a b = ce' a b)
    (hw : ∀ k, cw k = cw' k) : Adds g g' ce' cw' := by
  obtain rfl : ce = ce' := funext fun a => funext (he a)
  obtain rfl : cw = cw' := funext hw
  exact h

theorem forLoop_adds {n : ℕ} {body : ℕ → Grads → Outcome Grads} (ce : ℕ → ℕ → ℕ → ℝ) (cw : ℕ → ℕ → ℝ) (g : Grads)
    (h : ∀ i < n, ∀ g1, g1.e.rows = g.e.rows → g1.e.cols = g.e.cols → g1.wd.length = g.wd.length →
      ∃ g2, body i g1 = ok g2 ∧ Adds g1 g2 (ce i) (cw i)) :
    ∃ g', forLoop n body g = ok g' ∧ Adds g g' (fun a b => ∑ i ∈ range n, ce i a b) fun k => ∑ i ∈ range n, cw i k :=
  forLoop_inv (fun m g' => Adds g g' (fun a b => ∑ i ∈ range m, ce i a b) fun k => ∑ i ∈ range m, cw i k)
    ((Adds.refl g).congr (by simp) (by simp)) (by
      intro i hi g1 h1
      obtain ⟨g2, h2, h3⟩ := h i hi g1 h1.rows h1.cols h1.length
      exact ⟨g2, h2, (h1.trans h3).congr (fun a b => by rw [Finset.sum_range_succ]) fun k => by rw [Finset.sum_range_succ]⟩)

theorem backPositions_ok {x : Mat} {n : ℕ} (hn : n < x.rows) (wdelta : ℝ) (ps : List ℕ) (hp : ∀ p ∈ ps, p < x.cols) (k : ℝ) (e : Mat)
    (he : e.rows = x.rows) (hc : e.cols = x.cols) :
    ∃ e' : Mat, backPositions x n wdelta ps k e = ok (k * prodAt x n ps, e') ∧ e'.rows = e.rows ∧ e'.cols = e.cols ∧
      ∀ a b, e'.val a b = e.val a b + if a = n then wdelta * ps.count b else 0 := by
  induction ps generalizing k e with
  | nil => exact ⟨e, by simp [backPositions, prodAt], rfl, rfl, by simp⟩
  | cons p ps ih =>
    have hpc := hp p (List.mem_cons_self ..)
    obtain ⟨e', h1, h2, h3, h4⟩ := ih (fun q hq => hp q (List.mem_cons_of_mem _ hq)) (k * x.val n p)
      ⟨e.rows, e.cols, fun a b => if a = n ∧ b = p then e.val n p + wdelta else e.val a b⟩ he hc
    refine ⟨e', ?_, h2, h3, fun a b => ?_⟩
    · rw [backPositions, Mat.get_nat hn hpc, ok_bind, Mat.get_nat (by rw [he]; exact hn) (by rw [hc]; exact hpc), ok_bind,
        Mat.set_ok (by rw [he]; exact hn) (by rw [hc]; exact hpc), ok_bind, h1]
      simp [prodAt, mul_assoc]
    · rw [h4]
      simp only
      by_cases ha : a = n
      · by_cases hb : b = p
        · subst ha hb
          simp
          ring
        · rw [if_neg (by simp [hb]), if_pos ha, if_pos ha, List.count_cons_of_ne (fun h => hb h.symm)]
      · rw [if_neg (by simp [ha]), if_neg ha, if_neg ha]

/-- What a unit adds to the weight derivatives. -/
def unitWd (x : Mat) (n : ℕ) (delta : ℝ) (u : HOUnit) (k : ℕ) : ℝ := if k = u.weight then delta * prodAt x n u.position else 0

/-- What a unit adds to the error signals. -/
def unitE (w : List ℝ) (n : ℕ) (delta : ℝ) (u : HOUnit) (a b : ℕ) : ℝ :=
  if a = n then w.getD u.weight 0 * delta * u.position.count b else 0

theorem backUnit_ok {w : List ℝ} {x : Mat} {n : ℕ} (hn : n < x.rows) (delta : ℝ) {u : HOUnit}
    (hu : u.weight < w.length ∧ ∀ p ∈ u.position, p < x.cols) (g : Grads) (hr : g.e.rows = x.rows) (hc : g.e.cols = x.cols)
    (hw : g.wd.length = w.length) :
    ∃ g', backUnit w x n delta u g = ok g' ∧ Adds g g' (unitE w n delta u) (unitWd x n delta u) := by
  obtain ⟨e', h1, h2, h3, h4⟩ := backPositions_ok hn (w[u.weight] * delta) u.position hu.2 1 g.e hr hc
  have hlt : u.weight < g.wd.length := by rw [hw]; exact hu.1
  refine ⟨⟨e', g.wd.set u.weight (g.wd[u.weight] + delta * prodAt x n u.position)⟩, ?_, h2, h3, ?_, by simp, ?_⟩
  · rw [backUnit, read_of_lt hu.1, ok_bind, h1, ok_bind, read_of_lt hlt, ok_bind, Outcome.write, if_pos hlt, ok_bind, one_mul]
  · intro a b
    rw [h4, unitE, List.getD_eq_getElem?_getD, List.getElem?_eq_getElem hu.1]
    rfl
  · intro k hk
    simp only [unitWd]
    rw [List.getD_eq_getElem?_getD, List.getD_eq_getElem?_getD, List.getElem?_set]
    by_cases h : k = u.weight
    · subst h
      simp [hlt]
    · rw [if_neg (fun e => h e.symm), if_neg h, add_zero]

theorem backUnits_ok {w : List ℝ} {x : Mat} {n : ℕ} (hn : n < x.rows) (delta : ℝ) (us : Neuron)
    (hu : ∀ u ∈ us, u.weight < w.length ∧ ∀ p ∈ u.position, p < x.cols) (g : Grads) (hr : g.e.rows = x.rows) (hc : g.e.cols = x.cols)
    (hw : g.wd.length = w.length) :
    ∃ g', backUnits w x n delta us g = ok g' ∧
      Adds g g' (fun a b => (us.map fun u => unitE w n delta u a b).sum) fun k => (us.map fun u => unitWd x n delta u k).sum := by
  induction us generalizing g with
  | nil => exact ⟨g, rfl, (Adds.refl g).congr (by simp) (by simp)⟩
  | cons u us ih =>
    obtain ⟨g1, h1, a1⟩ := backUnit_ok hn delta (hu u (List.mem_cons_self ..)) g hr hc hw
    obtain ⟨g2, h2, a2⟩ := ih (fun v hv => hu v (List.mem_cons_of_mem _ hv)) g1 (a1.rows.trans hr) (a1.cols.trans hc) (a1.length.trans hw)
    exact ⟨g2, by rw [backUnits, h1, ok_bind, h2], (a1.trans a2).congr (by simp) (by simp)⟩

/-- The derivative with respect to the weighted sum of a neuron. -/
def deltaAt (l : Layer) (y ein : Mat) (n i : ℕ) : ℝ := ein.val n i * l.act.deriv (y.val n i)

theorem backNeuron_ok {l : Layer} (hl : l.Ready) {x y ein : Mat} (hx : x.cols = l.inputs) (hy : y.rows = x.rows ∧ y.cols = l.nodes.length)
    (he : ein.rows = x.rows ∧ ein.cols = l.nodes.length) {n i : ℕ} (hn : n < x.rows) (hi : i < l.nodes.length) (g : Grads)
    (hr : g.e.rows = x.rows) (hc : g.e.cols = x.cols) (hw : g.wd.length = l.w.length) :
    ∃ g', backNeuron l x y ein n i g = ok g' ∧
      Adds g g' (fun a b => ((l.nodes.getD i []).map fun u => unitE l.w n (deltaAt l y ein n i) u a b).sum)
        fun k => ((l.nodes.getD i []).map fun u => unitWd x n (deltaAt l y ein n i) u k).sum := by
  have hu := hl.units _ (getD_mem [] hi)
  obtain ⟨g', h1, h2⟩ := backUnits_ok hn (deltaAt l y ein n i) (l.nodes.getD i []) (by rw [hx]; exact hu.2) g hr hc hw
  refine ⟨g', ?_, h2⟩
  rw [backNeuron, Mat.get_nat (by rw [he.1]; exact hn) (by rw [he.2]; exact hi), ok_bind,
    Mat.get_nat (by rw [hy.1]; exact hn) (by rw [hy.2]; exact hi), ok_bind]
  split
  · next h => exact absurd h hu.1
  · exact h1

/-- What backpropagation computes. -/
theorem backward_ok {l : Layer} (hl : l.Ready) {x y ein : Mat} (hx : x.cols = l.inputs) (hy : y.rows = x.rows ∧ y.cols = l.nodes.length)
    (he : ein.rows = x.rows ∧ ein.cols = l.nodes.length) :
    ∃ g, backward l x y ein = ok g ∧ g.e.rows = x.rows ∧ g.e.cols = l.inputs ∧ g.wd.length = l.w.length ∧
      (∀ a b, g.e.val a b = ∑ n ∈ range x.rows, ∑ i ∈ range l.nodes.length,
        ((l.nodes.getD i []).map fun u => unitE l.w n (deltaAt l y ein n i) u a b).sum) ∧
      ∀ k < l.w.length, g.wd.getD k 0 = ∑ n ∈ range x.rows, ∑ i ∈ range l.nodes.length,
        ((l.nodes.getD i []).map fun u => unitWd x n (deltaAt l y ein n i) u k).sum := by
  obtain ⟨g, h1, h2⟩ := forLoop_adds (n := x.rows) (body := fun n g =>
      if l.nodes = [] then ub else forLoop l.nodes.length (fun i => backNeuron l x y ein n i) g)
    (fun n a b => ∑ i ∈ range l.nodes.length, ((l.nodes.getD i []).map fun u => unitE l.w n (deltaAt l y ein n i) u a b).sum)
    (fun n k => ∑ i ∈ range l.nodes.length, ((l.nodes.getD i []).map fun u => unitWd x n (deltaAt l y ein n i) u k).sum)
    ⟨⟨x.rows, l.inputs, fun _ _ => 0⟩, List.replicate l.wd.length 0⟩ (by
      intro n hn g1 hr hc hw
      rw [if_neg hl.nodes]
      refine forLoop_adds _ _ g1 fun i hi g2 hr2 hc2 hw2 => ?_
      exact backNeuron_ok hl hx hy he hn hi g2 (hr2.trans hr) (by rw [hc2, hc, hx]) (by rw [hw2, hw]; simp [hl.wd]))
  refine ⟨g, h1, h2.rows, h2.cols, by rw [h2.length]; simp [hl.wd], fun a b => by rw [h2.e]; simp, fun k hk => ?_⟩
  rw [h2.wd k (by simpa [hl.wd] using hk)]
  simp [hl.wd, hk]

/-! ## Derivatives -/

theorem net_hasDerivAt {w : ℝ → List ℝ} {w' : ℕ → ℝ} {t0 : ℝ} {K : ℕ} (hw : ∀ k < K, HasDerivAt (fun t => (w t).getD k 0) (w' k) t0)
    (x : Mat) (n : ℕ) (us : Neuron) (hu : ∀ u ∈ us, u.weight < K) :
    HasDerivAt (fun t => net (w t) x n us) (us.map fun u => w' u.weight * prodAt x n u.position).sum t0 := by
  induction us with
  | nil => simpa [net] using hasDerivAt_const t0 (0 : ℝ)
  | cons u us ih =>
    have h1 := (hw u.weight (hu u (List.mem_cons_self ..))).mul_const (prodAt x n u.position)
    have h2 := ih fun v hv => hu v (List.mem_cons_of_mem _ hv)
    simpa [net] using h1.fun_add h2

theorem unit_exchange (x : Mat) (n : ℕ) (delta : ℝ) (w' : ℕ → ℝ) {K : ℕ} (us : Neuron) (hu : ∀ u ∈ us, u.weight < K) :
    ∑ k ∈ range K, (us.map fun u => unitWd x n delta u k).sum * w' k =
      delta * (us.map fun u => w' u.weight * prodAt x n u.position).sum := by
  induction us with
  | nil => simp
  | cons u us ih =>
    simp only [List.map_cons, List.sum_cons, add_mul, Finset.sum_add_distrib]
    rw [ih fun v hv => hu v (List.mem_cons_of_mem _ hv)]
    have : ∑ k ∈ range K, unitWd x n delta u k * w' k = delta * prodAt x n u.position * w' u.weight := by
      simp only [unitWd, ite_mul, zero_mul]
      rw [Finset.sum_ite_eq', if_pos (mem_range.2 (hu u (List.mem_cons_self ..)))]
    rw [this]
    ring

/-- **C35 (partial)**: in a sigma-pi layer without bias that has units in each neuron, propagation and backpropagation of every batch stay
within bounds, and the weight derivatives are the derivatives of the error with respect to the (shared) weights: along every movement of
the weights the error `∑ ein * y` changes by the weight derivatives times the change of the weights.  Missing: the error signal for the
previous layer, which is wrong (`error_signal_fails`), layers with bias and layers with empty neurons, which read out of bounds (`bias_ub`,
`few_inputs_ub`, `no_nodes_ub`). -/
theorem weights_partial (l : Layer) (hl : l.Ready) (x ein : Mat) (hx : x.cols = l.inputs)
    (he : ein.rows = x.rows ∧ ein.cols = l.nodes.length) (junk : ℕ → ℕ → ℝ)
    (hk : ∀ n < x.rows, ∀ neuron ∈ l.nodes, ¬ l.act.Kink (net l.w x n neuron)) :
    ∃ y g, forward l x junk = ok y ∧ y.rows = x.rows ∧ y.cols = l.nodes.length ∧ backward l x y ein = ok g ∧
      g.e.rows = x.rows ∧ g.e.cols = l.inputs ∧ g.wd.length = l.w.length ∧
      ∀ (w : ℝ → List ℝ) (w' : ℕ → ℝ) (t0 : ℝ), w t0 = l.w → (∀ t, (w t).length = l.w.length) →
        (∀ k < l.w.length, HasDerivAt (fun t => (w t).getD k 0) (w' k) t0) →
        ∃ Y : ℝ → Mat, (∀ t, forward { l with w := w t } x junk = ok (Y t)) ∧
          HasDerivAt (fun t => ∑ n ∈ range x.rows, ∑ i ∈ range l.nodes.length, ein.val n i * (Y t).val n i)
            (∑ k ∈ range l.w.length, g.wd.getD k 0 * w' k) t0 := by
  obtain ⟨y, hy, hr, hc, hv⟩ := forward_ok hl hx junk
  obtain ⟨g, hg, g1, g2, g3, _, g5⟩ := backward_ok (y := y) hl hx ⟨hr, hc⟩ he
  refine ⟨y, g, hy, hr, hc, hg, g1, g2, g3, ?_⟩
  intro w w' t0 h0 hlen hd
  have ready : ∀ t, ({ l with w := w t } : Layer).Ready := fun t =>
    ⟨by rw [hl.wd, hlen], hl.nodes, fun neuron hn => ⟨(hl.units neuron hn).1, fun u hu => by rw [hlen]; exact (hl.units neuron hn).2 u hu⟩⟩
  have hY := fun t => forward_ok (ready t) (x := x) hx junk
  choose Y hY1 hY2 hY3 hY4 using hY
  refine ⟨Y, hY1, ?_⟩
  have key : ∀ n < x.rows, ∀ i < l.nodes.length, HasDerivAt (fun t => ein.val n i * (Y t).val n i)
      (deltaAt l y ein n i * ((l.nodes.getD i []).map fun u => w' u.weight * prodAt x n u.position).sum) t0 := by
    intro n hn i hi
    have hm := getD_mem [] hi
    have h1 := net_hasDerivAt hd x n (l.nodes.getD i []) fun u hu => ((hl.units _ hm).2 u hu).1
    have h2 : HasDerivAt l.act.apply (l.act.deriv (l.act.apply (net (w t0) x n (l.nodes.getD i [])))) (net (w t0) x n (l.nodes.getD i [])) :=
      act_hasDerivAt l.act _ (by rw [h0]; exact hk n hn _ hm)
    have h3 := (h2.comp t0 h1).const_mul (ein.val n i)
    have e1 : (fun t => ein.val n i * (Y t).val n i) =
        fun t => ein.val n i * (l.act.apply ∘ fun t => net (w t) x n (l.nodes.getD i [])) t := by
      funext t
      rw [hY4 t n hn i hi]
      rfl
    rw [e1]
    refine h3.congr_deriv ?_
    rw [deltaAt, hv n hn i hi, h0]
    ring
  refine (HasDerivAt.fun_sum fun n hn => HasDerivAt.fun_sum fun i hi => key n (mem_range.1 hn) i (mem_range.1 hi)).congr_deriv ?_
  have e2 : ∑ k ∈ range l.w.length, g.wd.getD k 0 * w' k = ∑ k ∈ range l.w.length, (∑ n ∈ range x.rows, ∑ i ∈ range l.nodes.length,
        ((l.nodes.getD i []).map fun u => unitWd x n (deltaAt l y ein n i) u k).sum) * w' k :=
    Finset.sum_congr rfl fun k hk => by rw [g5 k (mem_range.1 hk)]
  rw [e2]
  simp only [Finset.sum_mul]
  symm
  rw [Finset.sum_comm]
  refine Finset.sum_congr rfl fun n hn => ?_
  rw [Finset.sum_comm]
  refine Finset.sum_congr rfl fun i hi => ?_
  exact (unit_exchange x n _ w' _ fun u hu => ((hl.units _ (getD_mem [] (mem_range.1 hi))).2 u hu).1)

/-- Layers without bias that are built by the methods of the class can be used, if there are enough inputs. -/
theorem ready_of_nodes {τ : Type} (o : Order) (numbers : ℕ) (c : Constraint τ) (l : Layer) (hl : l.Valid) (s : τ) {l' : Layer} {s' : τ}
    (h : addNodes o numbers c (l, s) = ok (l', s')) (hb : l.bias = false) (hn : 0 < numbers) (hi : o.num ≤ l.inputs)
    (hold : ∀ neuron ∈ l.nodes, neuron ≠ [] ∧ ∀ u ∈ neuron, ∀ p ∈ u.position, p < l.inputs) : l'.Ready := by
  obtain ⟨v, i1, b1, _, new, n1, len, p1⟩ := nodes_partial o numbers c l hl s h
  have hw : l.width = l.inputs := by simp [Layer.width, hb]
  refine ⟨v.wd, ?_, fun neuron hm => ?_⟩
  · rw [n1]
    intro e
    rw [List.append_eq_nil_iff] at e
    rw [e.2] at len
    simp at len
    omega
  · rw [i1]
    have hwt := v.bound neuron hm
    rw [n1, List.mem_append] at hm
    rcases hm with hm | hm
    · exact ⟨(hold neuron hm).1, fun u hu => ⟨hwt u hu, (hold neuron hm).2 u hu⟩⟩
    · obtain ⟨⟨_, en⟩, _⟩ := p1 neuron hm
      rw [hw] at en
      refine ⟨?_, fun u hu => ⟨hwt u hu, ((en u.position).1 (List.mem_map_of_mem hu)).2.2⟩⟩
      have := (en (List.range o.num)).2 ⟨by simp, List.pairwise_lt_range, fun x hx => (List.mem_range.1 hx).trans_le hi⟩
      rintro rfl
      simp at this

example : ∃ l, addNodes .second 2 ⟨true, fun s _ => ok (0, s)⟩ ((⟨3, false, .tanh, [], [], []⟩ : Layer), ()) = ok (l, ()) ∧ l.Ready := by
  have hv : (⟨3, false, .tanh, [], [], []⟩ : Layer).Valid := ⟨rfl, by simp, by simp⟩
  obtain ⟨⟨l, _⟩, h⟩ := nodes_total .second 2 (⟨true, fun s _ => ok (0, s)⟩ : Constraint Unit) ⟨3, false, .tanh, [], [], []⟩ hv () (by simp)
  exact ⟨l, h, ready_of_nodes _ _ _ _ hv () h rfl (by norm_num) (by decide) (by simp)⟩

/-- **C35 is false** for the error signal: a linear neuron with one unit `x0 * x1` of weight 1 and the inputs 2 and 3.  The derivative of
the output with respect to the first input is 3, the layer passes back 1: the other factors of the product are missing. -/
theorem error_signal_fails : ∃ (l : Layer) (x : ℝ → Mat) (Y : ℝ → Mat) (g : Grads), l.Ready ∧
    (∀ t, (x t).rows = 1 ∧ (x t).cols = 2 ∧ (x t).val 0 0 = t ∧ (x t).val 0 1 = 3) ∧
    (∀ t, forward l (x t) (fun _ _ => 0) = ok (Y t)) ∧
    backward l (x 2) (Y 2) ⟨1, 1, fun _ _ => 1⟩ = ok g ∧
    HasDerivAt (fun t => (Y t).val 0 0) 3 2 ∧ g.e.val 0 0 = 1 := by
  have hl : (⟨2, false, .linear, [1], [0], [[⟨[0, 1], 0⟩]]⟩ : Layer).Ready := ⟨rfl, by simp, by simp⟩
  have hY := fun t : ℝ => forward_ok hl (x := ⟨1, 2, fun _ j => if j = 0 then t else 3⟩) rfl fun _ _ => 0
  choose Y h1 h2 h3 h4 using hY
  obtain ⟨g, hg, _, _, _, h5, _⟩ := backward_ok hl (x := ⟨1, 2, fun _ j => if j = 0 then 2 else 3⟩) (y := Y 2) (ein := ⟨1, 1, fun _ _ => 1⟩) rfl
    ⟨h2 2, h3 2⟩ ⟨rfl, rfl⟩
  refine ⟨_, fun t => ⟨1, 2, fun _ j => if j = 0 then t else 3⟩, Y, g, hl, fun t => ⟨rfl, rfl, rfl, rfl⟩, h1, hg, ?_, ?_⟩
  · have e : (fun t => (Y t).val 0 0) = fun t => t * 3 := by
      funext t
      rw [h4 t 0 (by simp) 0 (by simp)]
      simp [net, prodAt, Act.apply]
    rw [e]
    simpa using (hasDerivAt_id (2 : ℝ)).mul_const 3
  · rw [h5]
    simp [unitE, deltaAt, Act.deriv]

/-! ## Out of bounds -/

theorem weightedSum_cases {w : List ℝ} (x : Mat) (n : ℕ) (us : Neuron) (h : ∀ u ∈ us, u.weight < w.length) (s : ℝ) :
    weightedSum w x n us s = ub ∨ ∃ v, weightedSum w x n us s = ok v := by
  have hp : ∀ ps k, product x n ps k = ub ∨ ∃ v, product x n ps k = ok v := by
    intro ps
    induction ps with
    | nil => exact fun k => Or.inr ⟨k, rfl⟩
    | cons p ps ih =>
      intro k
      rw [product, Mat.get]
      split
      · rw [ok_bind]
        exact ih _
      · exact Or.inl rfl
  induction us generalizing s with
  | nil => exact Or.inr ⟨s, rfl⟩
  | cons u us ih =>
    rw [weightedSum]
    rcases hp u.position 1 with e | ⟨v, e⟩
    · rw [e]
      exact Or.inl rfl
    · rw [e, ok_bind, read_of_lt (h u (List.mem_cons_self ..)), ok_bind]
      exact ih (fun v hv => h v (List.mem_cons_of_mem _ hv)) _

theorem weightedSum_inside {w : List ℝ} {x : Mat} {n : ℕ} {us : Neuron} {s v : ℝ} (h : weightedSum w x n us s = ok v) :
    ∀ u ∈ us, ∀ p ∈ u.position, p < x.cols := by
  have hp : ∀ ps k r, product x n ps k = ok r → ∀ p ∈ ps, p < x.cols := by
    intro ps
    induction ps with
    | nil => simp
    | cons p ps ih =>
      intro k r h q hq
      rw [product, bind_eq_ok] at h
      obtain ⟨a, h1, h2⟩ := h
      rcases List.mem_cons.1 hq with rfl | hq
      · rw [Mat.get] at h1
        split at h1
        · next hc => omega
        · cases h1
      · exact ih _ _ h2 q hq
  induction us generalizing s with
  | nil => simp
  | cons u us ih =>
    rw [weightedSum, bind_eq_ok] at h
    obtain ⟨k, h1, h⟩ := h
    rw [bind_eq_ok] at h
    obtain ⟨wu, h2, h⟩ := h
    intro v hv
    rcases List.mem_cons.1 hv with rfl | hv
    · exact hp _ _ _ h1
    · exact ih h v hv

/-- A layer with a neuron that is empty or uses an input that does not exist. -/
theorem broken_ub {l : Layer} (hl : l.Valid) {neuron : Neuron} (hm : neuron ∈ l.nodes)
    (hb : neuron = [] ∨ ∃ u ∈ neuron, ∃ p ∈ u.position, l.inputs ≤ p) (x : Mat) (hN : 0 < x.rows) (junk : ℕ → ℕ → ℝ) :
    forward l x junk = ub := by
  by_cases hx : x.cols = l.inputs
  · rw [forward, if_neg (by simpa using hx)]
    have hcases : ∀ n i, i < l.nodes.length → activation l.w x n (l.nodes.getD i []) = ub ∨ ∃ v, activation l.w x n (l.nodes.getD i []) = ok v := by
      intro n i hi
      unfold activation
      split
      · exact Or.inl rfl
      · exact weightedSum_cases x n _ (hl.bound _ (getD_mem [] hi)) 0
    obtain ⟨i0, hi0, hg⟩ := List.getElem_of_mem hm
    have hgd : l.nodes.getD i0 [] = neuron := by rw [List.getD_eq_getElem?_getD, List.getElem?_eq_getElem hi0, hg]; rfl
    have hub : ∀ n, activation l.w x n (l.nodes.getD i0 []) = ub := by
      intro n
      rcases hcases n i0 hi0 with h | ⟨v, h⟩
      · exact h
      · exfalso
        rw [hgd] at h
        unfold activation at h
        split at h
        · cases h
        · next hne =>
          rcases hb with hb | ⟨u, hu, p, hp, hlt⟩
          · exact hne hb
          · have := weightedSum_inside h u hu p hp
            omega
    have hset : ∀ (a : Mat) n i v, a.set n i v = ub ∨ ∃ a', a.set n i v = ok a' := by
      intro a n i v
      rw [Mat.set]
      split
      · exact Or.inr ⟨_, rfl⟩
      · exact Or.inl rfl
    have inner : ∀ n a, forLoop l.nodes.length (fun i (a : Mat) => do
        let v ← activation l.w x n (l.nodes.getD i [])
        a.set n i v) a = ub := by
      intro n a
      refine Eval.forLoop_ub hi0 (fun i hi s => ?_) (fun s => by rw [hub]; rfl) a
      rcases hcases n i hi with h | ⟨v, h⟩
      · rw [h]; exact Or.inl rfl
      · rw [h, ok_bind]; exact hset _ _ _ _
    have : activations l x junk = ub := by
      refine Eval.forLoop_ub hN (fun n hn s => Or.inl ?_) (fun s => ?_) _ <;>
      · split
        · rfl
        · exact inner _ s
    rw [this]
    rfl
  · rw [forward, if_pos hx]

/-- **C35 is false** for layers with bias: nodes for layers with bias multiply the input number `inputs`, which no batch has. -/
theorem bias_ub {τ : Type} (o : Order) (numbers : ℕ) (c : Constraint τ) (l : Layer) (hl : l.Valid) (s : τ) {l' : Layer} {s' : τ}
    (h : addNodes o numbers c (l, s) = ok (l', s')) (hb : l.bias = true) (hn : 0 < numbers) (x : Mat) (hN : 0 < x.rows)
    (junk : ℕ → ℕ → ℝ) : forward l' x junk = ub := by
  obtain ⟨v, i1, b1, _, new, n1, len, p1⟩ := nodes_partial o numbers c l hl s h
  have hw : l.width = l.inputs + 1 := by simp [Layer.width, hb]
  obtain ⟨neuron, hm⟩ := List.exists_mem_of_length_pos (by rw [len]; exact hn)
  refine broken_ub v (neuron := neuron) (by rw [n1]; exact List.mem_append_right _ hm) ?_ x hN junk
  obtain ⟨⟨_, en⟩, _⟩ := p1 neuron hm
  rw [hw] at en
  have ho : 0 < o.num := by cases o <;> decide
  by_cases hi : o.num ≤ l.inputs + 1
  · right
    have ht := (en (List.range (o.num - 1) ++ [l.inputs])).2 ⟨by simp; omega, by
      rw [List.pairwise_append]
      refine ⟨List.pairwise_lt_range, List.pairwise_singleton _ _, fun a ha b hb => ?_⟩
      rw [List.mem_range] at ha
      rw [List.mem_singleton] at hb
      omega, fun x hx => by
      simp only [List.mem_append, List.mem_range, List.mem_singleton] at hx
      omega⟩
    obtain ⟨u, hu, e⟩ := List.mem_map.1 ht
    exact ⟨u, hu, l.inputs, by rw [e]; simp, by rw [i1]⟩
  · left
    by_contra hne
    obtain ⟨u, hu⟩ := List.exists_mem_of_ne_nil _ hne
    have := (en u.position).1 (List.mem_map_of_mem hu)
    exact hi (by
      have h1 := this.2.1.imp (fun h => ne_of_lt h)
      have h2 : (u.position).toFinset ⊆ range (l.inputs + 1) := fun q hq => mem_range.2 (this.2.2 q (List.mem_toFinset.1 hq))
      have h3 := Finset.card_le_card h2
      rw [List.toFinset_card_of_nodup h1, card_range, this.1] at h3
      exact h3)

/-- **C35 is false** for nodes of an order that is larger than the number of inputs: their neurons are empty. -/
theorem few_inputs_ub {τ : Type} (o : Order) (numbers : ℕ) (c : Constraint τ) (l : Layer) (hl : l.Valid) (s : τ) {l' : Layer} {s' : τ}
    (h : addNodes o numbers c (l, s) = ok (l', s')) (hi : l.width < o.num) (hn : 0 < numbers) (x : Mat) (hN : 0 < x.rows)
    (junk : ℕ → ℕ → ℝ) : forward l' x junk = ub := by
  obtain ⟨v, i1, b1, _, new, n1, len, p1⟩ := nodes_partial o numbers c l hl s h
  obtain ⟨neuron, hm⟩ := List.exists_mem_of_length_pos (by rw [len]; exact hn)
  refine broken_ub v (neuron := neuron) (by rw [n1]; exact List.mem_append_right _ hm) (Or.inl ?_) x hN junk
  obtain ⟨⟨_, en⟩, _⟩ := p1 neuron hm
  by_contra hne
  obtain ⟨u, hu⟩ := List.exists_mem_of_ne_nil _ hne
  have := (en u.position).1 (List.mem_map_of_mem hu)
  have h1 := this.2.1.imp (fun h => ne_of_lt h)
  have h2 : (u.position).toFinset ⊆ range l.width := fun q hq => mem_range.2 (this.2.2 q (List.mem_toFinset.1 hq))
  have h3 := Finset.card_le_card h2
  rw [List.toFinset_card_of_nodup h1, card_range, this.1] at h3
  omega

/-- **C35 is false** for layers without nodes. -/
theorem no_nodes_ub (l : Layer) (hl : l.nodes = []) (x : Mat) (hN : 0 < x.rows) (junk : ℕ → ℕ → ℝ) : forward l x junk = ub := by
  rw [forward]
  split
  · rfl
  · have : activations l x junk = ub := by
      refine Eval.forLoop_ub hN (fun n hn s => Or.inl ?_) (fun s => ?_) _ <;> exact if_pos hl
    rw [this]
    rfl

end

end Verif.SigmaPi
