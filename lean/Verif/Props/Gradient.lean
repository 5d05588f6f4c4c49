import Verif.Props.Backprop
import Mathlib.Analysis.SpecialFunctions.Log.Deriv

/-!
# Backpropagation through a network
-/

namespace Verif.NN

open Finset

noncomputable section

/-- Each layer has as many inputs as its predecessor has outputs; the first has `d`. -/
def Chained : ℕ → List Layer → Prop
  | _, [] => True
  | d, l :: ls => l.inputs = d ∧ Chained l.outputs ls

/-- Number of outputs of the last layer. -/
def outFrom : ℕ → List Layer → ℕ
  | d, [] => d
  | _, l :: ls => outFrom l.outputs ls

theorem locsFrom_index {k : ℕ} {ls : List Layer} {p : Loc} (h : p ∈ locsFrom k ls) : k ≤ p.1 := by
  induction ls generalizing k with
  | nil => cases h
  | cons l ls ih =>
    rcases List.mem_append.1 h with h | h
    · obtain ⟨s, _, rfl⟩ := List.mem_map.1 h
      exact le_refl k
    · exact (Nat.le_succ k).trans (ih h)

theorem mem_locsFrom_cons_self {k : ℕ} {l : Layer} {ls : List Layer} {s : Slot} :
    (k, s) ∈ locsFrom k (l :: ls) ↔ s ∈ l.pointers := by
  constructor
  · intro h
    rcases List.mem_append.1 h with h | h
    · obtain ⟨s', hs', e⟩ := List.mem_map.1 h
      rw [← (Prod.mk.inj e).2]
      exact hs'
    · exact absurd (locsFrom_index h) (by simp)
  · intro h
    exact List.mem_append.2 (Or.inl (List.mem_map.2 ⟨s, h, rfl⟩))

theorem mem_locsFrom_cons_succ {k k' : ℕ} {l : Layer} {ls : List Layer} {s : Slot} (hk : k + 1 ≤ k') :
    (k', s) ∈ locsFrom k (l :: ls) ↔ (k', s) ∈ locsFrom (k + 1) ls := by
  constructor
  · intro h
    rcases List.mem_append.1 h with h | h
    · obtain ⟨s', _, e⟩ := List.mem_map.1 h
      have := (Prod.mk.inj e).1
      omega
    · exact h
  · intro h
    exact List.mem_append.2 (Or.inr h)

/-- The law of backpropagation carries over from the layers to a stack of layers. -/
theorem chain_backprop (N : ℕ) (stale : ℕ → Batch) (m : ℝ → Mem) (m' : Mem) (t0 : ℝ) :
    ∀ (ls : List Layer) (k d : ℕ) (x : ℝ → Batch) (x' : Batch),
      Chained d ls →
      (∀ k' s, (k', s) ∈ locsFrom k ls → HasDerivAt (fun t => m t k' s) (m' k' s) t0) →
      (∀ k' s, k ≤ k' → (k', s) ∉ locsFrom k ls → ∀ t, m t k' s = m t0 k' s) →
      (∀ n < N, ∀ i < d, HasDerivAt (fun t => x t n i) (x' n i) t0) →
      (∀ e ∈ traceFrom (m t0) N k ls (x t0), BackpropAt e.2.1 N (m t0 e.1) e.2.2) →
      (2 ≤ k ∨ (k = 1 ∧ ∀ n i, x' n i = 0)) →
      ∃ (y' : Batch) (R' : ℝ),
        (∀ n < N, ∀ j < outFrom d ls, HasDerivAt (fun t => forwardFrom (m t) N k ls (x t) n j) (y' n j) t0) ∧
        HasDerivAt (fun t => regFrom (m t) k ls) R' t0 ∧
        ∀ ein D,
          inner N (outFrom d ls) ein y' + R' =
            inner N d (backFrom (m t0) N stale k ls (x t0) ein D).1 x' +
              ((locsFrom k ls).map fun p =>
                (backFrom (m t0) N stale k ls (x t0) ein D).2 p.1 p.2 * m' p.1 p.2).sum
  | [], k, d, x, x', _, _, _, hx, _, _ => by
    refine ⟨x', 0, hx, hasDerivAt_const t0 0, fun ein D => ?_⟩
    simp [locsFrom, backFrom, traceFrom, outFrom]
  | l :: ls, k, d, x, x', hc, hm, hconst, hx, hB, hk => by
    obtain ⟨rfl, hc'⟩ := hc
    have hBl := hB (k, l, x t0) List.mem_cons_self
    obtain ⟨y', R', hy, hR, hlaw⟩ := hBl.2 (fun t => m t k) x t0 (m' k) x' rfl rfl
      (fun s hs => hm k s (mem_locsFrom_cons_self.2 hs))
      (fun s hs t => hconst k s (le_refl k) (fun h => hs (mem_locsFrom_cons_self.1 h)) t) hx
    obtain ⟨y'', R'', hy2, hR2, hlaw2⟩ := chain_backprop N stale m m' t0 ls (k + 1) l.outputs
      (fun t => l.forward (m t k) N (x t)) y' hc'
      (fun k' s h => hm k' s (List.mem_append.2 (Or.inr h)))
      (fun k' s hk' h t => hconst k' s (by omega) (fun h' => h ((mem_locsFrom_cons_succ hk').1 h')) t)
      hy (fun e he => hB e (List.mem_cons_of_mem _ he)) (Or.inl (by omega))
    refine ⟨y'', R' + R'', hy2, hR.add hR2, fun ein D => ?_⟩
    have h2 := hlaw2 ein D
    set st := backFrom (m t0) N stale (k + 1) ls (l.forward (m t0 k) N (x t0)) ein D with hst
    have h1 := hlaw st.1 (stale k)
    have hb : backFrom (m t0) N stale k (l :: ls) (x t0) ein D =
        (l.back (m t0 k) N (x t0) st.1 (decide (k + 1 > 2)) (stale k),
          Function.update st.2 k (l.derivs (m t0 k) N (x t0) st.1)) := rfl
    have hin : inner N l.inputs (backFrom (m t0) N stale k (l :: ls) (x t0) ein D).1 x' =
        inner N l.inputs (l.back (m t0 k) N (x t0) st.1 true (stale k)) x' := by
      rw [hb]
      rcases hk with hk | ⟨_, h0⟩
      · rw [decide_eq_true (show k + 1 > 2 by omega)]
      · simp [inner, h0]
    rw [hin, hb]
    have hs1 : ((l.pointers.map fun s => (k, s)).map fun p : Loc =>
        Function.update st.2 k (l.derivs (m t0 k) N (x t0) st.1) p.1 p.2 * m' p.1 p.2).sum =
        (l.pointers.map fun s => l.derivs (m t0 k) N (x t0) st.1 s * m' k s).sum := by
      rw [List.map_map]
      congr 1
      refine List.map_congr_left fun s _ => ?_
      simp
    have hs2 : ((locsFrom (k + 1) ls).map fun p : Loc =>
        Function.update st.2 k (l.derivs (m t0 k) N (x t0) st.1) p.1 p.2 * m' p.1 p.2).sum =
        ((locsFrom (k + 1) ls).map fun p => st.2 p.1 p.2 * m' p.1 p.2).sum := by
      congr 1
      refine List.map_congr_left fun p hp => ?_
      rw [Function.update_of_ne (by have := locsFrom_index hp; omega)]
    rw [locsFrom, List.map_append, List.sum_append, hs1, hs2]
    have h1' : inner N l.outputs st.1 y' + R' = _ := h1
    show inner N (outFrom l.outputs ls) ein y'' + (R' + R'') = _
    linarith

/-! ## The error functions -/

/-- Spec: the error that a user minimises, as a function of the activations `A` of the last layer and the targets.
For cross entropy it is the negative mean log likelihood under the softmax distribution. -/
def exactLoss (ce : Bool) (N F : ℕ) (A T : Batch) : ℝ :=
  if ce then
    -(∑ n ∈ range N, ∑ j ∈ range F, T n j * Real.log (Real.exp (A n j) / ∑ k ∈ range F, Real.exp (A n k))) / N
  else (∑ n ∈ range N, ∑ j ∈ range F, (A n j - T n j) ^ 2) / (2 * N)

theorem exactLoss_hasDerivAt {ce : Bool} {N F : ℕ} {A : ℝ → Batch} {A' T : Batch} {t0 : ℝ} (hN : 0 < N)
    (hT : ce = true → ∀ n < N, ∑ j ∈ range F, T n j = 1)
    (hA : ∀ n < N, ∀ j < F, HasDerivAt (fun t => A t n j) (A' n j) t0) :
    HasDerivAt (fun t => exactLoss ce N F (A t) T)
      (inner N F (fun n j => (if ce then softmax N F (A t0) else A t0) n j - T n j) A' / N) t0 := by
  have hN' : (N : ℝ) ≠ 0 := by exact_mod_cast hN.ne'
  cases ce with
  | false =>
    simp only [exactLoss, Bool.false_eq_true, if_false]
    have : HasDerivAt (fun t => ∑ n ∈ range N, ∑ j ∈ range F, (A t n j - T n j) ^ 2)
        (∑ n ∈ range N, ∑ j ∈ range F, 2 * ((A t0 n j - T n j) * A' n j)) t0 := by
      refine HasDerivAt.fun_sum fun n hn => HasDerivAt.fun_sum fun j hj => ?_
      have := ((hA n (mem_range.1 hn) j (mem_range.1 hj)).sub_const (T n j)).fun_pow 2
      refine this.congr_deriv ?_
      push_cast
      ring
    refine (this.div_const (2 * (N : ℝ))).congr_deriv ?_
    simp only [← Finset.mul_sum]
    rw [inner]
    field_simp
  | true =>
    simp only [exactLoss, if_true]
    have : ∀ n < N, HasDerivAt
        (fun t => ∑ j ∈ range F, T n j * Real.log (Real.exp (A t n j) / ∑ k ∈ range F, Real.exp (A t n k)))
        (-∑ j ∈ range F, (softmax N F (A t0) n j - T n j) * A' n j) t0 := by
      intro n hn
      have hpos : ∀ t, ∀ j ∈ range F, 0 < ∑ k ∈ range F, Real.exp (A t n k) := fun t j hj =>
        Finset.sum_pos (fun _ _ => Real.exp_pos _) ⟨j, hj⟩
      have hS : HasDerivAt (fun t => ∑ k ∈ range F, Real.exp (A t n k))
          (∑ k ∈ range F, Real.exp (A t0 n k) * A' n k) t0 :=
        HasDerivAt.fun_sum fun k hk => (hA n hn k (mem_range.1 hk)).exp
      have hlog : ∀ j ∈ range F, HasDerivAt
          (fun t => Real.log (Real.exp (A t n j) / ∑ k ∈ range F, Real.exp (A t n k)))
          (A' n j - ∑ k ∈ range F, softmax N F (A t0) n k * A' n k) t0 := by
        intro j hj
        have e : (fun t => Real.log (Real.exp (A t n j) / ∑ k ∈ range F, Real.exp (A t n k))) =
            fun t => A t n j - Real.log (∑ k ∈ range F, Real.exp (A t n k)) := by
          funext t
          rw [Real.log_div (Real.exp_pos _).ne' (hpos t j hj).ne', Real.log_exp]
        rw [e]
        refine ((hA n hn j (mem_range.1 hj)).sub (hS.log (hpos t0 j hj).ne')).congr_deriv ?_
        rw [Finset.sum_div]
        congr 1
        refine Finset.sum_congr rfl fun k hk => ?_
        rw [softmax_eq]
        ring
      refine (HasDerivAt.fun_sum fun j hj => (hlog j hj).const_mul (T n j)).congr_deriv ?_
      simp only [mul_sub, sub_mul, Finset.sum_sub_distrib]
      rw [← Finset.sum_mul, hT rfl n hn, one_mul]
      ring
    refine (((HasDerivAt.fun_sum fun n hn => this n (mem_range.1 hn)).fun_neg).div_const (N : ℝ)).congr_deriv ?_
    rw [Finset.sum_neg_distrib, neg_neg]
    rfl

/-! ## The gradient of a network -/

theorem sum_indicator {ps : List Loc} (hnd : ps.Nodup) {p : Loc} (hp : p ∈ ps) (f : Loc → ℝ) :
    (ps.map fun q => f q * if q = p then 1 else 0).sum = f p := by
  induction ps with
  | nil => cases hp
  | cons a ps ih =>
    rw [List.nodup_cons] at hnd
    rw [List.map_cons, List.sum_cons]
    by_cases h : a = p
    · subst h
      have : (ps.map fun q => f q * if q = a then (1 : ℝ) else 0) = ps.map fun _ => 0 := by
        refine List.map_congr_left fun q hq => ?_
        rw [if_neg (fun e : q = a => hnd.1 (e ▸ hq)), mul_zero]
      rw [this]
      simp
    · rw [if_neg h, mul_zero, zero_add]
      exact ih hnd.2 ((List.mem_cons.1 hp).resolve_left (fun e => h e.symm))

theorem derivLocs_eq {ls : List Layer} {k : ℕ} (h : ∀ l ∈ ls, l.derivPointers = l.pointers) :
    derivLocsFrom k ls = locsFrom k ls := by
  induction ls generalizing k with
  | nil => rfl
  | cons l ls ih =>
    rw [derivLocsFrom, locsFrom, h l List.mem_cons_self, ih fun l' h' => h l' (List.mem_cons_of_mem _ h')]

theorem mem_traceFrom {mem : Mem} {N : ℕ} {ls : List Layer} {k : ℕ} {x : Batch} {l : Layer} (h : l ∈ ls) :
    ∃ k' x', (k', l, x') ∈ traceFrom mem N k ls x := by
  induction ls generalizing k x with
  | nil => cases h
  | cons a ls ih =>
    rcases List.mem_cons.1 h with h | h
    · exact ⟨k, x, h ▸ List.mem_cons_self⟩
    · obtain ⟨k', x', h'⟩ := ih (k := k + 1) (x := a.forward (mem k) N x) h
      exact ⟨k', x', List.mem_cons_of_mem _ h'⟩

theorem outputs_eq_outFrom (d : ℕ) (l : Layer) (ls : List Layer) (ce : Bool) :
    Net.outputs ⟨l :: ls, ce⟩ = outFrom d (l :: ls) := by
  induction ls generalizing l d with
  | nil => rfl
  | cons a ls ih =>
    have := ih l.outputs a
    rw [outFrom, ← this]
    rfl

/-- What `errorGradient` returns, for a network that starts with an input layer and whose layers obey the law of
backpropagation at their inputs: entry `i` is the derivative of `error + regularisation / N` with respect to the number
that parameter pointer `i` points to. -/
theorem grad_hasDerivAt {net : Net} {d : ℕ} {ls : List Layer} {N : ℕ} {X T : Batch} {mem : Mem} (sc : Scratch)
    (hl : net.layers = inputLayer d :: ls) (hc : Chained d ls) (hN : 0 < N)
    (hT : net.ce = true → ∀ n < N, ∑ j ∈ range net.outputs, T n j = 1)
    (hB : ∀ e ∈ traceFrom mem N 0 net.layers X, BackpropAt e.2.1 N (mem e.1) e.2.2)
    (hnd : net.parameters.Nodup) {i : ℕ} (hi : i < net.parameters.length) :
    ∃ h : i < (net.grad mem sc N X T).length,
      HasDerivAt (fun t =>
          exactLoss net.ce N net.outputs (net.activations (mem.write net.parameters[i] t) N X) T +
            regFrom (mem.write net.parameters[i] t) 0 net.layers / N)
        (net.grad mem sc N X T)[i] (mem net.parameters[i].1 net.parameters[i].2) := by
  have hdl : net.derivatives = net.parameters := derivLocs_eq fun l hl' => by
    obtain ⟨k', x', h'⟩ := mem_traceFrom (mem := mem) (N := N) (k := 0) (x := X) hl'
    exact (hB _ h').1
  set p := net.parameters[i] with hp
  have hpm : p ∈ net.parameters := List.getElem_mem hi
  have hpar : net.parameters = locsFrom 1 ls := by
    rw [Net.parameters, hl]
    rfl
  refine ⟨by rw [Net.grad, List.length_map, hdl]; exact hi, ?_⟩
  set m : ℝ → Mem := fun t => mem.write p t with hm
  set t0 := mem p.1 p.2 with ht0
  have hm0 : m t0 = mem := by
    funext k s
    simp only [hm, Mem.write]
    by_cases h : (k, s) = p
    · rw [if_pos h, ht0, ← h]
    · rw [if_neg h]
  set m' : Mem := fun k s => if (k, s) = p then 1 else 0 with hm'
  obtain ⟨y', R', hy, hR, hlaw⟩ := chain_backprop N sc.stale m m' t0 ls 1 d (fun _ => X) (fun _ _ => 0) hc
    (by
      intro k' s _
      by_cases h : (k', s) = p
      · simp only [hm, hm', Mem.write, if_pos h]
        exact hasDerivAt_id t0
      · simp only [hm, hm', Mem.write, if_neg h]
        exact hasDerivAt_const t0 _)
    (by
      intro k' s _ hns t
      have h : (k', s) ≠ p := fun e => hns (by rw [e, ← hpar]; exact hpm)
      simp only [hm, Mem.write, if_neg h])
    (fun n _ i _ => hasDerivAt_const t0 _)
    (by
      rw [hm0]
      intro e he
      refine hB e ?_
      rw [hl]
      exact List.mem_cons_of_mem _ he)
    (Or.inr ⟨rfl, fun _ _ => rfl⟩)
  rw [hm0] at hlaw
  have hout : net.outputs = outFrom d ls := by
    have := outputs_eq_outFrom d (inputLayer d) ls net.ce
    rw [← hl] at this
    rw [show net.outputs = outFrom d net.layers from this, hl]
    rfl
  have hact : ∀ mem' : Mem, net.activations mem' N X = forwardFrom mem' N 1 ls X := by
    intro mem'
    rw [Net.activations, hl]
    rfl
  have hreg : ∀ mem' : Mem, regFrom mem' 0 net.layers = regFrom mem' 1 ls := by
    intro mem'
    rw [hl]
    show (0 : ℝ) + _ = _
    rw [zero_add]
  have hE := exactLoss_hasDerivAt (A := fun t => forwardFrom (m t) N 1 ls X) hN hT (by rw [hout]; exact hy)
  have hsum := hE.add (hR.div_const (N : ℝ))
  have e1 : (fun t => exactLoss net.ce N net.outputs (net.activations (mem.write p t) N X) T +
      regFrom (mem.write p t) 0 net.layers / N) =
      fun t => exactLoss net.ce N net.outputs (forwardFrom (m t) N 1 ls X) T + regFrom (m t) 1 ls / N := by
    funext t
    rw [hact, hreg]
  rw [e1]
  refine hsum.congr_deriv ?_
  have hL := hlaw (fun n j => net.output mem N X n j - T n j) sc.derivs
  have hgrad : (net.grad mem sc N X T)[i]'(by rw [Net.grad, List.length_map, hdl]; exact hi) =
      (backFrom mem N sc.stale 1 ls X (fun n j => net.output mem N X n j - T n j) sc.derivs).2 p.1 p.2 / N := by
    simp only [Net.grad, List.getElem_map]
    have hidx : net.derivatives[i]'(by rw [hdl]; exact hi) = p := by
      simp only [hdl]
      rfl
    rw [hidx]
    have hb : backFrom mem N sc.stale 0 net.layers X (fun n j => net.output mem N X n j - T n j) sc.derivs =
        backStep mem N sc.stale (0, inputLayer d, X)
          (backFrom mem N sc.stale 1 ls X (fun n j => net.output mem N X n j - T n j) sc.derivs) := by
      rw [hl]
      rfl
    rw [hb, backStep]
    have : p.1 ≠ 0 := by
      have := locsFrom_index (hpar ▸ hpm)
      omega
    simp only [Function.update_of_ne this]
  rw [hgrad]
  have hsi := sum_indicator hnd hpm fun q =>
    (backFrom mem N sc.stale 1 ls X (fun n j => net.output mem N X n j - T n j) sc.derivs).2 q.1 q.2
  rw [hpar] at hsi
  have hz : inner N d (backFrom mem N sc.stale 1 ls X (fun n j => net.output mem N X n j - T n j) sc.derivs).1
      (fun _ _ => 0) = 0 := by simp [inner]
  rw [hz, zero_add] at hL
  have hL' : inner N (outFrom d ls) (fun n j => net.output mem N X n j - T n j) y' + R' =
      (backFrom mem N sc.stale 1 ls X (fun n j => net.output mem N X n j - T n j) sc.derivs).2 p.1 p.2 := by
    rw [hL, ← hsi]
  have hin : inner N net.outputs (fun n j =>
      (if net.ce then softmax N net.outputs (forwardFrom (m t0) N 1 ls X) else forwardFrom (m t0) N 1 ls X) n j -
        T n j) y' = inner N (outFrom d ls) (fun n j => net.output mem N X n j - T n j) y' := by
    rw [hm0, Net.output, hact, ← hout]
  rw [hin, ← add_div, hL']

end

end Verif.NN
