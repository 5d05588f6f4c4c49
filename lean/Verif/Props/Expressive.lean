import Verif.Props.Ridge
import Verif.Props.Determined
import Verif.Props.NetBatch
import Mathlib.Algebra.Module.Submodule.Union
import Mathlib.LinearAlgebra.Dual.Lemmas

/-!
# C120: what networks can represent

With one hidden layer whose activation function is not linear a network represents every training set without
contradictions and approximates every continuous function.  Without a hidden layer, with one hidden unit, or with linear
layers only it does not represent XOR.
-/

namespace Verif.Expressive

open Finset Filter Topology Verif.NN

noncomputable section

/-! ## The activation functions -/

theorem tanh_eq_sub (t : ℝ) : Real.tanh t = 1 - 2 / (Real.exp (2 * t) + 1) := by
  have h1 := Real.exp_pos t
  have h2 := Real.exp_pos (-t)
  have h3 : Real.exp t * Real.exp (-t) = 1 := by rw [← Real.exp_add]; simp
  have h4 : Real.exp (2 * t) = Real.exp t * Real.exp t := by rw [← Real.exp_add]; ring_nf
  rw [Real.tanh_eq, h4]
  have h5 : 0 < Real.exp t * Real.exp t + 1 := by positivity
  field_simp
  linear_combination -2 * Real.exp t * h3

theorem tanh_top : Tendsto Real.tanh atTop (𝓝 1) := by
  have h : Tendsto (fun t : ℝ => Real.exp (2 * t) + 1) atTop atTop :=
    tendsto_atTop_add_const_right _ _ (Real.tendsto_exp_atTop.comp (tendsto_id.const_mul_atTop (by norm_num)))
  have h2 : Tendsto (fun t : ℝ => 1 - 2 / (Real.exp (2 * t) + 1)) atTop (𝓝 (1 - 0)) :=
    tendsto_const_nhds.sub (h.const_div_atTop 2)
  rw [sub_zero] at h2
  exact h2.congr fun t => (tanh_eq_sub t).symm

theorem tanh_bot : Tendsto Real.tanh atBot (𝓝 (-1)) := by
  have h := (tanh_top.comp tendsto_neg_atBot_atTop).neg
  refine h.congr fun t => ?_
  simp [Real.tanh_neg]

/-- The limits of the sigmoid functions. -/
theorem act_limits {act : Act} (h1 : act ≠ .linear) (h2 : act ≠ .rectifier) :
    ∃ L R, Tendsto act.apply atBot (𝓝 L) ∧ Tendsto act.apply atTop (𝓝 R) ∧ L ≠ R ∧ R ≠ 0 ∧ ∃ B, ∀ t, |act.apply t| ≤ B := by
  cases act with
  | linear => exact absurd rfl h1
  | rectifier => exact absurd rfl h2
  | logistic =>
    refine ⟨0, 1, ?_, ?_, by norm_num, by norm_num, 1, fun t => ?_⟩
    · refine tendsto_const_nhds.congr' ?_
      filter_upwards [eventually_lt_atBot (-45 : ℝ)] with a ha
      exact (if_pos ha).symm
    · refine tendsto_const_nhds.congr' ?_
      filter_upwards [eventually_gt_atTop (45 : ℝ)] with a ha
      exact ((if_neg (by linarith)).trans (if_pos ha)).symm
    · have := act_range .logistic t
      exact abs_le.2 ⟨by linarith [this.1], this.2⟩
  | tanh =>
    refine ⟨-1, 1, tanh_bot, tanh_top, by norm_num, by norm_num, 1, fun t => ?_⟩
    have := act_range .tanh t
    exact abs_le.2 ⟨this.1.le, this.2.le⟩
  | tanhScaled =>
    have hb : Tendsto (fun t : ℝ => 0.66666667 * t) atBot atBot := tendsto_id.const_mul_atBot (by norm_num)
    have ht : Tendsto (fun t : ℝ => 0.66666667 * t) atTop atTop := tendsto_id.const_mul_atTop (by norm_num)
    refine ⟨1.7159 * -1, 1.7159 * 1, (tanh_bot.comp hb).const_mul _, (tanh_top.comp ht).const_mul _, by norm_num, by norm_num,
      1.7159, fun t => ?_⟩
    have := act_range .tanhScaled t
    exact abs_le.2 ⟨this.1.le, this.2.le⟩

theorem act_rich {act : Act} (h : act ≠ .linear) : Rich act.apply := by
  by_cases hr : act = .rectifier
  · subst hr
    refine ⟨⟨1, by simp [Act.apply]⟩, fun t => max 0 t - max 0 (t - 1), ⟨?_, ?_, 1, fun t => ?_⟩,
      [(1, 0, 1), (1, -1, -1)], fun t => ?_⟩
    · refine tendsto_const_nhds.congr' ?_
      filter_upwards [eventually_lt_atBot (0 : ℝ)] with a ha
      rw [max_eq_left ha.le, max_eq_left (by linarith), sub_zero]
    · refine tendsto_const_nhds.congr' ?_
      filter_upwards [eventually_gt_atTop (1 : ℝ)] with a ha
      rw [max_eq_right (by linarith), max_eq_right (by linarith)]
      ring
    · rw [abs_le]
      rcases le_total 0 t with h0 | h0 <;> rcases le_total 0 (t - 1) with h1 | h1 <;> simp [h0, h1] <;> constructor <;> linarith
    · simp [Act.apply]
      ring_nf
  · obtain ⟨L, R, hL, hR, hLR, hR0, B, hB⟩ := act_limits h hr
    have hne : R - L ≠ 0 := sub_ne_zero.2 (Ne.symm hLR)
    have hnz : ∃ b, act.apply b ≠ 0 := by
      by_contra hc
      push Not at hc
      exact hR0 (tendsto_nhds_unique hR ((tendsto_const_nhds (x := (0 : ℝ))).congr fun t => (hc t).symm))
    obtain ⟨b, hb⟩ := hnz
    refine ⟨⟨b, hb⟩, fun t => (act.apply t - L) / (R - L), ⟨?_, ?_, (B + |L|) / |R - L|, fun t => ?_⟩,
      [(1, 0, 1 / (R - L)), (0, b, -L / (R - L) / act.apply b)], fun t => ?_⟩
    · have := (hL.sub_const L).div_const (R - L)
      simpa using this
    · have := (hR.sub_const L).div_const (R - L)
      rwa [div_self hne] at this
    · rw [abs_div]
      have := (abs_sub (act.apply t) L).trans (add_le_add_left (hB t) _)
      gcongr
    · simp
      field_simp
      ring

theorem act_interpolates {act : Act} (h : act ≠ .linear) {N : ℕ} {t : Fin N → ℝ} (ht : Function.Injective t) :
    Interpolates act.apply t := by
  by_cases hr : act = .rectifier
  · subst hr
    exact rectifier_interpolates ht
  · obtain ⟨L, R, hL, hR, hLR, hR0, _⟩ := act_limits h hr
    exact limits_interpolate hL hR hLR hR0 ht

/-- No activation function maps two numbers between 0 and 2 to one. -/
theorem act_injOn (act : Act) {a b : ℝ} (ha : 0 < a ∧ a < 2) (hb : 0 < b ∧ b < 2) (h : act.apply a = act.apply b) : a = b := by
  cases act with
  | linear => exact h
  | rectifier =>
    simpa [Act.apply, max_eq_right ha.1.le, max_eq_right hb.1.le] using h
  | logistic =>
    simp only [Act.apply] at h
    rw [if_neg (by linarith), if_neg (by linarith), if_neg (by linarith), if_neg (by linarith)] at h
    have h1 := Real.exp_pos (-a)
    have h2 := Real.exp_pos (-b)
    rw [div_eq_div_iff (by positivity) (by positivity)] at h
    have := Real.exp_injective (show Real.exp (-a) = Real.exp (-b) by linarith)
    linarith
  | tanh => exact tanh_strictMono.injective h
  | tanhScaled =>
    simp only [Act.apply] at h
    have := tanh_strictMono.injective (mul_left_cancel₀ (by norm_num) h)
    exact mul_left_cancel₀ (by norm_num) this

/-! ## A direction in which all instances differ -/

/-- Spec: the instances differ pairwise in one of the first `D` numbers. -/
def Distinct (D N : ℕ) (x : Batch) : Prop := ∀ n < N, ∀ m < N, n ≠ m → ∃ i < D, x n i ≠ x m i

theorem exists_direction {D N : ℕ} {x : Batch} (hx : Distinct D N x) :
    ∃ a : ℕ → ℝ, ∀ n < N, ∀ m < N, n ≠ m → ∑ i ∈ range D, x n i * a i ≠ ∑ i ∈ range D, x m i * a i := by
  let ι := {p : Fin N × Fin N // p.1 ≠ p.2}
  let v : ι → (Fin D → ℝ) := fun p i => x p.1.1 i - x p.1.2 i
  obtain ⟨f, hf⟩ := Module.exists_dual_forall_apply_ne_zero (K := ℝ) v (by
    intro p h0
    obtain ⟨i, hi, hne⟩ := hx p.1.1 p.1.1.2 p.1.2 p.1.2.2 (fun h => p.2 (Fin.ext h))
    exact hne (sub_eq_zero.1 (congrFun h0 ⟨i, hi⟩)))
  refine ⟨fun i => if h : i < D then f (Pi.single ⟨i, h⟩ 1) else 0, fun n hn m hm hnm heq => ?_⟩
  refine hf ⟨(⟨n, hn⟩, ⟨m, hm⟩), fun h => hnm (congrArg Fin.val h)⟩ ?_
  refine Eq.trans ?_ (sub_eq_zero.2 heq)
  rw [← sum_sub_distrib, ← Fin.sum_univ_eq_sum_range
    (fun i => x n i * (if h : i < D then f (Pi.single ⟨i, h⟩ 1) else 0) -
      x m i * (if h : i < D then f (Pi.single ⟨i, h⟩ 1) else 0)), LinearMap.pi_apply_eq_sum_univ f]
  refine sum_congr rfl fun i _ => ?_
  have e : (fun j : Fin D => if i = j then (1 : ℝ) else 0) = Pi.single i 1 := by
    funext j
    simp [Pi.single_apply, eq_comm]
  simp only [dif_pos i.2, smul_eq_mul, e, Fin.eta]
  show (x n i - x m i) * _ = _
  ring

/-! ## Weights -/

/-- A buffer with a matrix and a bias. -/
def buffer (W : Batch) (b : ℕ → ℝ) : Weights
  | .w [j, i] => W j i
  | .b [j] => b j
  | _ => 0

/-- Every content of the weights can be set with `setParameters`. -/
theorem realize {D : ℕ} {ks : List Kind} (ce : Bool) (hu : Unconstrained ks) (hf : FitsFrom D ks) (hv : ∀ k ∈ ks, k.Visible)
    (mem : Mem) : ∃ θ : List ℝ, θ.length = (buildNet D ks ce).P ∧ ∀ s, ∃ s', (buildNet D ks ce).set s θ = .ok s' ∧
      (∀ l s, IsParamFrom D ks l s → s'.mem (l + 1) s = mem (l + 1) s) ∧
      ∀ x, ∀ j < (buildNet D ks ce).outputs, (buildNet D ks ce).predict s'.mem x j = (buildNet D ks ce).predict mem x j := by
  refine ⟨(buildNet D ks ce).parameters.map fun p => mem p.1 p.2, List.length_map _, fun s => ?_⟩
  obtain ⟨s', h1, _, h2, _⟩ := setParameters_stores (D := D) (ce := ce) hu s
    (θ := (buildNet D ks ce).parameters.map fun p => mem p.1 p.2) (List.length_map _)
  have key : ∀ l s, IsParamFrom D ks l s → s'.mem (l + 1) s = mem (l + 1) s := by
    intro l s hs
    have hmem : (l + 1, s) ∈ (buildNet D ks ce).parameters := by
      have := (parameters_one_to_one D ks ce).1 l s hs
      exact List.count_pos_iff.1 (by omega)
    obtain ⟨i, hi, e⟩ := List.getElem_of_mem hmem
    have := h2 i hi
    rw [List.getElem_map, e] at this
    exact this
  exact ⟨s', h1, key, fun x j hj => predictAll_congr ce hf hv key 1 (fun _ _ => rfl) hj⟩

theorem forwardFrom_agree (N : ℕ) : ∀ (ls : List Layer) (k : ℕ) (mem mem' : Mem) (x : Batch), (∀ i, k ≤ i → mem i = mem' i) →
    forwardFrom mem N k ls x = forwardFrom mem' N k ls x := by
  intro ls
  induction ls with
  | nil => intros; rfl
  | cons l ls ih =>
    intro k mem mem' x h
    rw [forwardFrom, forwardFrom, h k le_rfl]
    exact ih _ _ _ _ fun i hi => h i (by omega)

/-! ## Training sets -/

/-- Spec: a hidden layer with bias: size, activation function, regularisation. -/
abbrev Hidden := ℕ × Act × Reg

def Hidden.kind (h : Hidden) : Kind := .fullyConnected h.1 true h.2.1 h.2.2

/-- Two layers map one instance after the other to what is asked for. -/
theorem two_layers {D N H F : ℕ} {act : Act} (hact : act ≠ .linear) (r1 r2 : Reg) (bias : Bool) (hH : N ≤ H) {x : Batch}
    (hx : Distinct D N x) (t : Batch) (out : Act) (k : ℕ) :
    ∃ mem : Mem, ∀ n < N, ∀ j < F,
      forwardFrom mem 1 k (layersFrom D [.fullyConnected H true act r1, .fullyConnected F bias out r2]) (fun _ => x n) 0 j =
        out.apply (t n j) := by
  obtain ⟨a, ha⟩ := exists_direction hx
  obtain ⟨α, β, hint⟩ := act_interpolates hact (t := fun n : Fin N => ∑ i ∈ range D, x n i * a i) (by
    intro n m h
    by_contra hne
    exact ha n n.2 m m.2 (fun e => hne (Fin.ext e)) h)
  choose v hv using fun j : ℕ => hint fun n => t n j
  refine ⟨fun i => if i = k then buffer (fun m i => if h : m < N then α ⟨m, h⟩ * a i else 0)
      (fun m => if h : m < N then β ⟨m, h⟩ else 0)
    else buffer (fun j m => if h : m < N then v j ⟨m, h⟩ else 0) (fun _ => 0), fun n hn j hj => ?_⟩
  rw [layersFrom, layersFrom, layersFrom, forwardFrom, forwardFrom, forwardFrom, if_pos rfl, if_neg (by omega)]
  show out.apply (∑ m ∈ range H, act.apply (∑ i ∈ range D, x n i * (if h : m < N then α ⟨m, h⟩ * a i else 0) +
    (if h : m < N then β ⟨m, h⟩ else 0)) * (if h : m < N then v j ⟨m, h⟩ else 0) + (if bias then (0 : ℝ) else 0)) = _
  congr 1
  rw [ite_self, add_zero, ← hv j ⟨n, hn⟩, ← sum_subset (range_subset_range.2 hH), ← Fin.sum_univ_eq_sum_range
    (fun m => act.apply (∑ i ∈ range D, x n i * (if h : m < N then α ⟨m, h⟩ * a i else 0) +
      (if h : m < N then β ⟨m, h⟩ else 0)) * (if h : m < N then v j ⟨m, h⟩ else 0))]
  · refine sum_congr rfl fun m _ => ?_
    simp only [dif_pos m.2, Fin.eta]
    rw [mul_comm]
    congr 3
    rw [mul_sum]
    exact sum_congr rfl fun i _ => by ring
  · intro m _ hm
    have hm' : ¬ m < N := by simpa using hm
    simp [hm']

/-- One layer keeps different instances different. -/
theorem layer_distinct {D N H : ℕ} (act : Act) (r : Reg) (hH : 0 < H) {x : Batch} (hx : Distinct D N x) :
    ∃ w : Weights, Distinct H N fun n => (fullyConnected D H true act r).forward w 1 (fun _ => x n) 0 := by
  obtain ⟨a, ha⟩ := exists_direction hx
  let z : ℕ → ℝ := fun n => ∑ i ∈ range D, x n i * a i
  let M : ℝ := 1 + ∑ n ∈ range N, |z n|
  have hM : 0 < M := by positivity
  have hz : ∀ n < N, |z n / M| < 1 := by
    intro n hn
    rw [abs_div, abs_of_pos hM, div_lt_one hM]
    have := single_le_sum (f := fun n => |z n|) (fun _ _ => abs_nonneg _) (mem_range.2 hn)
    show |z n| < 1 + ∑ n ∈ range N, |z n|
    linarith
  refine ⟨buffer (fun _ i => a i / M) fun _ => 1, fun n hn m hm hnm => ⟨0, hH, fun h => ?_⟩⟩
  have e : ∀ n, ∑ i ∈ range D, x n i * (a i / M) + 1 = z n / M + 1 := by
    intro n
    show _ = (∑ i ∈ range D, x n i * a i) / M + 1
    rw [sum_div]
    congr 1
    exact sum_congr rfl fun i _ => by ring
  have h' : act.apply (∑ i ∈ range D, x n i * (a i / M) + 1) = act.apply (∑ i ∈ range D, x m i * (a i / M) + 1) := h
  rw [e, e] at h'
  have hn' := abs_lt.1 (hz n hn)
  have hm' := abs_lt.1 (hz m hm)
  have := act_injOn act ⟨by linarith, by linarith⟩ ⟨by linarith, by linarith⟩ h'
  refine ha n hn m hm hnm ?_
  have : z n / M = z m / M := by linarith
  rwa [div_left_inj' hM.ne'] at this

theorem deep_layers {N H F : ℕ} {act : Act} (hact : act ≠ .linear) (r1 r2 : Reg) (bias : Bool) (hH : N ≤ H) (t : Batch)
    (out : Act) : ∀ (hs : List Hidden), (∀ h ∈ hs, 0 < h.1) → ∀ (D : ℕ) (x : Batch), Distinct D N x → ∀ k,
    ∃ mem : Mem, ∀ n < N, ∀ j < F,
      forwardFrom mem 1 k (layersFrom D (hs.map Hidden.kind ++
        [.fullyConnected H true act r1, .fullyConnected F bias out r2])) (fun _ => x n) 0 j = out.apply (t n j) := by
  intro hs
  induction hs with
  | nil => intro _ D x hx k; exact two_layers hact r1 r2 bias hH hx t out k
  | cons h hs ih =>
    intro hpos D x hx k
    obtain ⟨w, hw⟩ := layer_distinct h.2.1 h.2.2 (hpos h List.mem_cons_self) hx
    obtain ⟨mem, hm⟩ := ih (fun a ha => hpos a (List.mem_cons_of_mem _ ha)) h.1 _ hw (k + 1)
    refine ⟨fun i => if i = k then w else mem i, fun n hn j hj => ?_⟩
    rw [← hm n hn j hj, List.map_cons, List.cons_append, layersFrom, forwardFrom, if_pos rfl]
    exact congrFun (congrFun (forwardFrom_agree 1 _ _ _ mem _ fun i hi => if_neg (by omega)) 0) j

/-! ## The network -/

theorem kinds_fit {D : ℕ} {ks : List Kind} (h : ∀ k ∈ ks, ∃ J bias act reg, k = .fullyConnected J bias act reg) :
    FitsFrom D ks ∧ ∀ k ∈ ks, k.Visible := by
  constructor
  · induction ks generalizing D with
    | nil => trivial
    | cons k ks ih =>
      obtain ⟨J, bias, act, reg, rfl⟩ := h k List.mem_cons_self
      exact ⟨trivial, ih fun k hk => h k (List.mem_cons_of_mem _ hk)⟩
  · intro k hk
    obtain ⟨J, bias, act, reg, rfl⟩ := h k hk
    trivial

theorem outputs_last (D : ℕ) (ks : List Kind) (J : ℕ) (bias : Bool) (act : Act) (reg : Reg) (ce : Bool) :
    (buildNet D (ks ++ [.fullyConnected J bias act reg]) ce).outputs = J := by
  rw [outputs_buildNet]
  induction ks generalizing D with
  | nil => rfl
  | cons k ks ih => exact ih _

/-- The calls that create a network with hidden layers `hs`, a last hidden layer with `H` units and `F` outputs. -/
def deep (hs : List Hidden) (H : ℕ) (act : Act) (r1 : Reg) (F : ℕ) (bias : Bool) (out : Act) (r2 : Reg) : List Kind :=
  hs.map Hidden.kind ++ [.fullyConnected H true act r1, .fullyConnected F bias out r2]

theorem deep_kinds {hs : List Hidden} {H : ℕ} {act : Act} {r1 : Reg} {F : ℕ} {bias : Bool} {out : Act} {r2 : Reg} {k : Kind}
    (hk : k ∈ deep hs H act r1 F bias out r2) : (∃ h ∈ hs, k = .fullyConnected h.1 true h.2.1 h.2.2) ∨
      k = .fullyConnected H true act r1 ∨ k = .fullyConnected F bias out r2 := by
  rcases List.mem_append.1 hk with h | h
  · obtain ⟨a, ha, rfl⟩ := List.mem_map.1 h
    exact Or.inl ⟨a, ha, rfl⟩
  · simpa using Or.inr h

theorem deep_outputs (D : ℕ) (hs : List Hidden) (H : ℕ) (act : Act) (r1 : Reg) (F : ℕ) (bias : Bool) (out : Act) (r2 : Reg)
    (ce : Bool) : (buildNet D (deep hs H act r1 F bias out r2) ce).outputs = F := by
  have e : deep hs H act r1 F bias out r2 =
      (hs.map Hidden.kind ++ [.fullyConnected H true act r1]) ++ [.fullyConnected F bias out r2] := by
    rw [List.append_assoc]; rfl
  rw [e, outputs_last]

theorem deep_realize {D : ℕ} {hs : List Hidden} {H : ℕ} {act : Act} {r1 : Reg} {F : ℕ} {bias : Bool} {out : Act} {r2 : Reg}
    (ce : Bool) (hn : (∀ h ∈ hs, h.2.2.maxNorm ≤ 0) ∧ r1.maxNorm ≤ 0 ∧ r2.maxNorm ≤ 0) (mem : Mem) :
    ∃ θ : List ℝ, θ.length = (buildNet D (deep hs H act r1 F bias out r2) ce).P ∧
      ∀ s, ∃ s', (buildNet D (deep hs H act r1 F bias out r2) ce).set s θ = .ok s' ∧
      ∀ x, ∀ j < F, (buildNet D (deep hs H act r1 F bias out r2) ce).predict s'.mem x j =
        (buildNet D (deep hs H act r1 F bias out r2) ce).predict mem x j := by
  have hk : ∀ k ∈ deep hs H act r1 F bias out r2, ∃ J bias act reg, k = .fullyConnected J bias act reg ∧ reg.maxNorm ≤ 0 := by
    intro k hk
    rcases deep_kinds hk with ⟨h, hh, rfl⟩ | rfl | rfl
    · exact ⟨_, _, _, _, rfl, hn.1 h hh⟩
    · exact ⟨_, _, _, _, rfl, hn.2.1⟩
    · exact ⟨_, _, _, _, rfl, hn.2.2⟩
  obtain ⟨hf, hv⟩ := kinds_fit (D := D) (ks := deep hs H act r1 F bias out r2) fun k h => by
    obtain ⟨J, b, a, r, e, _⟩ := hk k h
    exact ⟨J, b, a, r, e⟩
  have hu : Unconstrained (deep hs H act r1 F bias out r2) := by
    intro k h J b a r e
    obtain ⟨J', b', a', r', e', hr⟩ := hk k h
    rw [e] at e'
    injection e' with _ _ _ e4
    exact e4 ▸ hr
  obtain ⟨θ, h1, h2⟩ := realize ce hu hf hv mem
  refine ⟨θ, h1, fun s => ?_⟩
  obtain ⟨s', h3, _, h4⟩ := h2 s
  exact ⟨s', h3, fun x j hj => h4 x j (by rw [deep_outputs]; exact hj)⟩

/-- Without penalties and with right predictions the error is 0. -/
theorem error_zero {D : ℕ} {ks : List Kind} (hr : ∀ k ∈ ks, k.Unregularised) (mem : Mem) (ds : TrainSet)
    (hp : ∀ n < ds.samples, ∀ j < (buildNet D ks false).outputs, (buildNet D ks false).predict mem (ds.inst n) j = ds.tgt n j) :
    (buildNet D ks false).error mem ds = 0 := by
  rw [error_mean, sum_eq_zero, zero_div]
  intro n hn
  have hloss : (buildNet D ks false).loss 1 ((buildNet D ks false).output mem 1 fun _ => ds.inst n) (fun _ => ds.tgt n) = 0 := by
    rw [Net.loss, if_neg (by simp [buildNet]), meanSquaredError, sum_eq_zero, zero_div]
    intro a ha
    refine sum_eq_zero fun j hj => ?_
    rw [mem_range, Nat.lt_one_iff] at ha
    subst ha
    have := hp n (mem_range.1 hn) j (mem_range.1 hj)
    rw [Net.predict] at this
    rw [this, sub_self, zero_pow two_ne_zero]
  rw [Net.errorAt, hloss, zero_add]
  exact penalty_zero hr _

/-- **C120 (training sets).** Every training set without contradictions, and every network with at least one hidden layer: if
no instance occurs twice, the last hidden layer has as many units as there are instances and is not linear, and the output
activation function takes the values of the targets, then there are parameters with which the network predicts all targets;
without penalties `error()` is 0 then. -/
theorem memorises (D : ℕ) {hs : List Hidden} {H : ℕ} {act : Act} {r1 : Reg} {F : ℕ} (bias : Bool) {out : Act} {r2 : Reg}
    (hpos : ∀ h ∈ hs, 0 < h.1) (hact : act ≠ .linear)
    (hn : (∀ h ∈ hs, h.2.2.maxNorm ≤ 0) ∧ r1.maxNorm ≤ 0 ∧ r2.maxNorm ≤ 0) (ds : TrainSet) (hH : ds.samples ≤ H)
    (hx : Distinct D ds.samples ds.inst) (ht : ∀ n < ds.samples, ∀ j < F, ∃ a, out.apply a = ds.tgt n j) :
    ∃ θ : List ℝ, θ.length = (buildNet D (deep hs H act r1 F bias out r2) false).P ∧
      ∀ s, ∃ s', (buildNet D (deep hs H act r1 F bias out r2) false).set s θ = .ok s' ∧
        (∀ n < ds.samples, ∀ j < F,
          (buildNet D (deep hs H act r1 F bias out r2) false).predict s'.mem (ds.inst n) j = ds.tgt n j) ∧
        ((∀ k ∈ deep hs H act r1 F bias out r2, k.Unregularised) →
          (buildNet D (deep hs H act r1 F bias out r2) false).error s'.mem ds = 0) := by
  classical
  obtain ⟨mem, hm⟩ := deep_layers (F := F) hact r1 r2 bias hH
    (fun n j => if h : n < ds.samples ∧ j < F then (ht n h.1 j h.2).choose else 0) out hs hpos D ds.inst hx 1
  obtain ⟨θ, h1, h2⟩ := deep_realize (D := D) (hs := hs) (H := H) (act := act) (r1 := r1) (F := F) (bias := bias) (out := out)
    (r2 := r2) false hn mem
  refine ⟨θ, h1, fun s => ?_⟩
  obtain ⟨s', h3, h4⟩ := h2 s
  have hp : ∀ n < ds.samples, ∀ j < F,
      (buildNet D (deep hs H act r1 F bias out r2) false).predict s'.mem (ds.inst n) j = ds.tgt n j := by
    intro n hn' j hj
    rw [h4 _ j hj]
    refine (hm n hn' j hj).trans ?_
    rw [dif_pos ⟨hn', hj⟩]
    exact (ht n hn' j hj).choose_spec
  exact ⟨s', h3, hp, fun hr => error_zero hr _ _ (by rw [deep_outputs]; exact hp)⟩

/-- Two hidden layers, three instances. -/
example : ∃ θ : List ℝ, ∀ s, ∃ s',
    (buildNet 1 (deep [(2, .rectifier, ⟨0, 0, 0⟩)] 3 .logistic ⟨0, 0, 0⟩ 1 true .tanh ⟨0, 0, 0⟩) false).set s θ = .ok s' ∧
    ∀ n : ℕ, n < 3 → (buildNet 1 (deep [(2, .rectifier, ⟨0, 0, 0⟩)] 3 .logistic ⟨0, 0, 0⟩ 1 true .tanh ⟨0, 0, 0⟩) false).predict
      s'.mem (fun _ => (n : ℝ)) 0 = Real.tanh ((-1) ^ n) := by
  obtain ⟨θ, _, h⟩ := memorises 1 (hs := [(2, .rectifier, ⟨0, 0, 0⟩)]) (H := 3) (act := .logistic) (r1 := ⟨0, 0, 0⟩) (F := 1) true
    (out := .tanh) (r2 := ⟨0, 0, 0⟩) (by simp) (by decide) (by simp) ⟨3, fun n _ => (n : ℝ), fun n _ => Real.tanh ((-1) ^ n)⟩ le_rfl
    (fun n _ m _ hnm => ⟨0, one_pos, by simpa using hnm⟩) (fun n _ _ _ => ⟨_, rfl⟩)
  refine ⟨θ, fun s => ?_⟩
  obtain ⟨s', h1, h2, _⟩ := h s
  exact ⟨s', h1, fun n hn => h2 n hn 0 one_pos⟩

/-- **C120 (classes).** With softmax outputs and cross entropy, every training set in which no instance occurs twice: there
are parameters with which the predicted probability of the class of each instance is at least `1 - ε`. -/
theorem classifies (D : ℕ) {hs : List Hidden} {H : ℕ} {act : Act} {r1 : Reg} {F : ℕ} (bias : Bool) {r2 : Reg}
    (hpos : ∀ h ∈ hs, 0 < h.1) (hact : act ≠ .linear)
    (hn : (∀ h ∈ hs, h.2.2.maxNorm ≤ 0) ∧ r1.maxNorm ≤ 0 ∧ r2.maxNorm ≤ 0) {N : ℕ} {x : Batch} (hH : N ≤ H)
    (hx : Distinct D N x) (c : ℕ → ℕ) (hc : ∀ n < N, c n < F) {ε : ℝ} (hε : 0 < ε) :
    ∃ θ : List ℝ, θ.length = (buildNet D (deep hs H act r1 F bias .linear r2) true).P ∧
      ∀ s, ∃ s', (buildNet D (deep hs H act r1 F bias .linear r2) true).set s θ = .ok s' ∧
        ∀ n < N, 1 - ε ≤ (buildNet D (deep hs H act r1 F bias .linear r2) true).predict s'.mem (x n) (c n) := by
  obtain ⟨mem, hm⟩ := deep_layers (F := F) hact r1 r2 bias hH
    (fun n j => if j = c n then Real.log (F / ε) else 0) .linear hs hpos D x hx 1
  obtain ⟨θ, h1, h2⟩ := deep_realize (D := D) (hs := hs) (H := H) (act := act) (r1 := r1) (F := F) (bias := bias)
    (out := .linear) (r2 := r2) true hn mem
  refine ⟨θ, h1, fun s => ?_⟩
  obtain ⟨s', h3, h4⟩ := h2 s
  refine ⟨s', h3, fun n hn' => ?_⟩
  have hF : (0 : ℝ) < F := by exact_mod_cast Nat.lt_of_le_of_lt (Nat.zero_le _) (hc n hn')
  rw [h4 _ _ (hc n hn')]
  show 1 - ε ≤ softmax 1 _ _ 0 (c n)
  rw [softmax_eq, deep_outputs]
  have ha : ∀ j < F, (buildNet D (deep hs H act r1 F bias .linear r2) true).activations mem 1 (fun _ => x n) 0 j =
      if j = c n then Real.log (F / ε) else 0 := fun j hj => hm n hn' j hj
  have hs : ∑ k ∈ range F, Real.exp ((buildNet D (deep hs H act r1 F bias .linear r2) true).activations mem 1
      (fun _ => x n) 0 k) = F / ε + (F - 1) := by
    rw [sum_congr rfl fun k hk => by rw [ha k (mem_range.1 hk)]]
    rw [← add_sum_erase _ _ (mem_range.2 (hc n hn')), if_pos rfl, Real.exp_log (by positivity)]
    congr 1
    rw [sum_congr rfl (g := fun _ => (1 : ℝ)) fun k hk => by rw [if_neg (ne_of_mem_erase hk), Real.exp_zero]]
    rw [sum_const, card_erase_of_mem (mem_range.2 (hc n hn')), card_range, nsmul_eq_mul, mul_one,
      Nat.cast_sub (by have := hc n hn'; omega), Nat.cast_one]
  rw [hs, ha _ (hc n hn'), if_pos rfl, Real.exp_log (by positivity)]
  have h1F : (1 : ℝ) ≤ F := by exact_mod_cast Nat.lt_of_le_of_lt (Nat.zero_le _) (hc n hn')
  rw [le_div_iff₀ (by have : 0 < (F : ℝ) / ε := by positivity
                      linarith)]
  have e : ε * (F / ε) = F := by field_simp
  nlinarith

/-! ## Continuous functions -/

/-- **C120 (functions).** Every continuous function on a compact set, every activation function of the hidden layer that is
not linear, and every precision: there are a number of hidden units and parameters with which the predictions differ from
the function by at most `ε` everywhere on the set. -/
theorem approximates {D F : ℕ} {act : Act} (hact : act ≠ .linear) (r1 r2 : Reg) (hn : r1.maxNorm ≤ 0 ∧ r2.maxNorm ≤ 0)
    (bias : Bool) {K : Set (Fin D → ℝ)} (hK : IsCompact K) {f : (Fin D → ℝ) → ℕ → ℝ}
    (hf : ∀ j < F, ContinuousOn (fun x => f x j) K) {ε : ℝ} (hε : 0 < ε) :
    ∃ (H : ℕ) (θ : List ℝ), θ.length = (buildNet D (deep [] H act r1 F bias .linear r2) false).P ∧
      ∀ s, ∃ s', (buildNet D (deep [] H act r1 F bias .linear r2) false).set s θ = .ok s' ∧
        ∀ x : ℕ → ℝ, (fun i : Fin D => x i) ∈ K → ∀ j < F,
          |(buildNet D (deep [] H act r1 F bias .linear r2) false).predict s'.mem x j - f (fun i => x i) j| ≤ ε := by
  choose! g hg hgf using fun j (hj : j < F) => approximated (act_rich hact) hK (hf j hj) ε hε
  choose! l hl using hg
  let L : List (ℕ × RidgeUnit D) := (List.range F).flatMap fun j => (l j).map fun u => (j, u)
  let mem : Mem := fun k =>
    if k = 1 then buffer (fun m i => if h : m < L.length ∧ i < D then L[m].2.a ⟨i, h.2⟩ else 0)
      (fun m => if h : m < L.length then L[m].2.b else 0)
    else buffer (fun j m => if h : m < L.length then if L[m].1 = j then L[m].2.c else 0 else 0) fun _ => 0
  obtain ⟨θ, h1, h2⟩ := deep_realize (D := D) (hs := []) (H := L.length) (act := act) (r1 := r1) (F := F) (bias := bias)
    (out := .linear) (r2 := r2) false ⟨by simp, hn⟩ mem
  refine ⟨L.length, θ, h1, fun s => ?_⟩
  obtain ⟨s', h3, h4⟩ := h2 s
  refine ⟨s', h3, fun x hx j hj => ?_⟩
  rw [h4 x j hj]
  refine le_of_eq_of_le ?_ (hgf j hj _ hx)
  congr 2
  rw [hl j hj]
  show ∑ m ∈ range L.length, act.apply (∑ i ∈ range D, x i *
      (if h : m < L.length ∧ i < D then L[m].2.a ⟨i, h.2⟩ else 0) + (if h : m < L.length then L[m].2.b else 0)) *
      (if h : m < L.length then if L[m].1 = j then L[m].2.c else 0 else 0) + (if bias then (0 : ℝ) else 0) = _
  rw [ite_self, add_zero]
  have e1 : ∀ m ∈ range L.length, act.apply (∑ i ∈ range D, x i *
      (if h : m < L.length ∧ i < D then L[m].2.a ⟨i, h.2⟩ else 0) + (if h : m < L.length then L[m].2.b else 0)) *
      (if h : m < L.length then if L[m].1 = j then L[m].2.c else 0 else 0) =
      ((L.map fun p => if p.1 = j then p.2.c * act.apply (∑ i : Fin D, p.2.a i * x i + p.2.b) else 0)[m]?).getD 0 := by
    intro m hm
    have hm' : m < L.length := mem_range.1 hm
    rw [List.getElem?_map, List.getElem?_eq_getElem hm', Option.map_some, Option.getD_some, dif_pos hm', dif_pos hm']
    have e2 : ∑ i ∈ range D, x i * (if h : m < L.length ∧ i < D then L[m].2.a ⟨i, h.2⟩ else 0) =
        ∑ i : Fin D, L[m].2.a i * x i := by
      rw [← Fin.sum_univ_eq_sum_range (fun i => x i * (if h : m < L.length ∧ i < D then L[m].2.a ⟨i, h.2⟩ else 0))]
      exact sum_congr rfl fun i _ => by rw [dif_pos ⟨hm', i.2⟩, mul_comm]
    rw [e2]
    split_ifs <;> ring
  have e3 : ∀ M : List ℝ, ∑ m ∈ range M.length, (M[m]?).getD 0 = M.sum := by
    intro M
    induction M with
    | nil => rfl
    | cons a M ih =>
      rw [List.length_cons, sum_range_succ', List.sum_cons, ← ih, add_comm]
      rfl
  have e4 := e3 (L.map fun p => if p.1 = j then p.2.c * act.apply (∑ i : Fin D, p.2.a i * x i + p.2.b) else 0)
  rw [List.length_map] at e4
  rw [sum_congr rfl e1, e4]
  have e5 : ∀ n, ((((List.range n).flatMap fun j' => (l j').map fun u => (j', u)).map fun p : ℕ × RidgeUnit D =>
      if p.1 = j then p.2.c * act.apply (∑ i : Fin D, p.2.a i * x i + p.2.b) else 0)).sum =
      if j < n then total act.apply (l j) fun i => x i else 0 := by
    intro n
    induction n with
    | zero => simp
    | succ n ih =>
      rw [List.range_succ, List.flatMap_append, List.map_append, List.sum_append, ih, List.flatMap_singleton, List.map_map]
      by_cases hjn : j = n
      · subst hjn
        rw [if_neg (by omega), if_pos (by omega), zero_add]
        simp [total, Function.comp_def]
      · have hz : ((l n).map ((fun p : ℕ × RidgeUnit D =>
            if p.1 = j then p.2.c * act.apply (∑ i : Fin D, p.2.a i * x i + p.2.b) else 0) ∘ fun u => (n, u))).sum = 0 := by
          have : ((fun p : ℕ × RidgeUnit D =>
            if p.1 = j then p.2.c * act.apply (∑ i : Fin D, p.2.a i * x i + p.2.b) else 0) ∘ fun u => (n, u)) = fun _ => 0 := by
            funext u
            exact if_neg (Ne.symm hjn)
          rw [this]
          simp
        rw [hz, add_zero]
        exact if_congr (by omega) rfl rfl
  rw [e5 F, if_pos hj]

/-- The sine on an interval, as in examples/sine/sine.py. -/
example : ∃ (H : ℕ) (θ : List ℝ), ∀ s, ∃ s', (buildNet 1 (deep [] H .logistic ⟨0, 0, 0⟩ 1 true .linear ⟨0, 0, 0⟩) false).set s θ =
    .ok s' ∧ ∀ x : ℝ, -10 ≤ x → x ≤ 10 →
      |(buildNet 1 (deep [] H .logistic ⟨0, 0, 0⟩ 1 true .linear ⟨0, 0, 0⟩) false).predict s'.mem (fun _ => x) 0 - Real.sin x| ≤
        1 / 1000 := by
  obtain ⟨H, θ, _, h⟩ := approximates (D := 1) (F := 1) (act := .logistic) (by decide) ⟨0, 0, 0⟩ ⟨0, 0, 0⟩ ⟨le_rfl, le_rfl⟩ true
    (isCompact_Icc (a := fun _ : Fin 1 => (-10 : ℝ)) (b := fun _ => 10)) (f := fun x _ => Real.sin (x 0))
    (fun _ _ => by fun_prop) (ε := 1 / 1000) (by norm_num)
  refine ⟨H, θ, fun s => ?_⟩
  obtain ⟨s', h1, h2⟩ := h s
  exact ⟨s', h1, fun x hx hx' => h2 (fun _ => x) ⟨fun _ => hx, fun _ => hx'⟩ 0 one_pos⟩

/-! ## What cannot be represented -/

/-- **C120 (linear layers).** Networks whose layers are all linear, of any depth and size, and all weights: the predictions
for two instances have the same sum as those for two others with the same sum. -/
theorem linear_sums {D : ℕ} {ks : List Kind} (hk : ∀ k ∈ ks, ∃ J bias reg, k = .fullyConnected J bias .linear reg) (mem : Mem)
    {x y u v : ℕ → ℝ} (h : ∀ i < D, x i + y i = u i + v i) {j : ℕ} (hj : j < (buildNet D ks false).outputs) :
    (buildNet D ks false).predict mem x j + (buildNet D ks false).predict mem y j =
      (buildNet D ks false).predict mem u j + (buildNet D ks false).predict mem v j := by
  have key : ∀ (ks : List Kind), (∀ k ∈ ks, ∃ J bias reg, k = .fullyConnected J bias .linear reg) → ∀ (D m : ℕ) (x y u v : Batch),
      (∀ i < D, x 0 i + y 0 i = u 0 i + v 0 i) → ∀ j < outFrom D (layersFrom D ks),
      forwardFrom mem 1 m (layersFrom D ks) x 0 j + forwardFrom mem 1 m (layersFrom D ks) y 0 j =
        forwardFrom mem 1 m (layersFrom D ks) u 0 j + forwardFrom mem 1 m (layersFrom D ks) v 0 j := by
    intro ks
    induction ks with
    | nil => intro _ D m x y u v h j hj; exact h j hj
    | cons k ks ih =>
      intro hk D m x y u v h j hj
      obtain ⟨J, bias, reg, rfl⟩ := hk k List.mem_cons_self
      refine ih (fun a ha => hk a (List.mem_cons_of_mem _ ha)) J (m + 1) _ _ _ _ (fun i _ => ?_) j hj
      show (∑ a ∈ range D, x 0 a * (mem m).mat i a + (mem m).vec bias i) +
        (∑ a ∈ range D, y 0 a * (mem m).mat i a + (mem m).vec bias i) =
        (∑ a ∈ range D, u 0 a * (mem m).mat i a + (mem m).vec bias i) +
        (∑ a ∈ range D, v 0 a * (mem m).mat i a + (mem m).vec bias i)
      have : ∑ a ∈ range D, x 0 a * (mem m).mat i a + ∑ a ∈ range D, y 0 a * (mem m).mat i a =
          ∑ a ∈ range D, u 0 a * (mem m).mat i a + ∑ a ∈ range D, v 0 a * (mem m).mat i a := by
        rw [← sum_add_distrib, ← sum_add_distrib]
        exact sum_congr rfl fun a ha => by rw [← add_mul, ← add_mul, h a (mem_range.1 ha)]
      linarith
  rw [outputs_buildNet] at hj
  exact key ks hk D 1 _ _ _ _ h j hj

/-- The four instances of XOR (examples/xor/xor.cpp lines 18-25). -/
def xor : TrainSet where
  samples := 4
  inst n i := if n = 0 then (if i = 0 then 0 else 1) else if n = 1 then 0 else if n = 2 then 1 else if i = 0 then 1 else 0
  tgt n _ := if n = 0 ∨ n = 3 then 1 else 0

theorem errorAt_ge {D : ℕ} {ks : List Kind} (hr : ∀ k ∈ ks, k.Unregularised) (h1 : 0 < (buildNet D ks false).outputs) (mem : Mem)
    (ds : TrainSet) (n : ℕ) :
    ((buildNet D ks false).predict mem (ds.inst n) 0 - ds.tgt n 0) ^ 2 / 2 ≤ (buildNet D ks false).errorAt mem ds n := by
  have hp : regFrom mem 0 (buildNet D ks false).layers = 0 := penalty_zero hr _
  rw [Net.errorAt, hp, add_zero, Net.loss, if_neg (by simp [buildNet]), meanSquaredError, sum_range_one, Nat.cast_one, mul_one]
  have := single_le_sum (f := fun j => ((buildNet D ks false).output mem 1 (fun _ => ds.inst n) 0 j - ds.tgt n j) ^ 2)
    (fun _ _ => sq_nonneg _) (mem_range.2 h1)
  rw [Net.predict]
  linarith

/-- **C120 (linear layers, XOR).** However deep and wide, with all weights: the error of XOR is at least 1/8, as if the
network always predicted 1/2. -/
theorem linear_xor_fails {ks : List Kind} (hk : ∀ k ∈ ks, ∃ J bias reg, k = .fullyConnected J bias .linear reg)
    (hr : ∀ k ∈ ks, k.Unregularised) (h1 : 0 < (buildNet 2 ks false).outputs) (mem : Mem) :
    1 / 8 ≤ (buildNet 2 ks false).error mem xor := by
  have e := linear_sums hk mem (x := xor.inst 0) (y := xor.inst 3) (u := xor.inst 1) (v := xor.inst 2) (by
    intro i hi
    interval_cases i <;> norm_num [xor]) h1
  have b := fun n => errorAt_ge hr h1 mem xor n
  have b0 := b 0
  have b1 := b 1
  have b2 := b 2
  have b3 := b 3
  rw [show xor.tgt 0 0 = 1 by simp [xor]] at b0
  rw [show xor.tgt 1 0 = 0 by simp [xor]] at b1
  rw [show xor.tgt 2 0 = 0 by simp [xor]] at b2
  rw [show xor.tgt 3 0 = 1 by simp [xor]] at b3
  rw [error_mean, show xor.samples = 4 from rfl, sum_range_succ, sum_range_succ, sum_range_succ, sum_range_one]
  generalize (buildNet 2 ks false).predict mem (xor.inst 0) 0 = p0 at *
  generalize (buildNet 2 ks false).predict mem (xor.inst 1) 0 = p1 at *
  generalize (buildNet 2 ks false).predict mem (xor.inst 2) 0 = p2 at *
  generalize (buildNet 2 ks false).predict mem (xor.inst 3) 0 = p3 at *
  have : 1 ≤ (p0 - 1) ^ 2 + (p1 - 0) ^ 2 + (p2 - 0) ^ 2 + (p3 - 1) ^ 2 := by
    obtain rfl : p3 = p1 + p2 - p0 := by linarith
    nlinarith [sq_nonneg (p1 - 1/2), sq_nonneg (p2 - 1/2), sq_nonneg (p0 - 1/2), sq_nonneg (p1 + p2 - p0 - 1/2)]
  push_cast
  linarith

/-- A hidden layer with five units. -/
example (mem : Mem) : 1 / 8 ≤ (buildNet 2 [.fullyConnected 5 true .linear ⟨0, 0, 0⟩, .fullyConnected 1 true .linear ⟨0, 0, 0⟩]
    false).error mem xor :=
  linear_xor_fails (by simp) (by simp [Kind.Unregularised]) (by simp [Net.outputs, buildNet, layersFrom, Kind.layer,
    NN.fullyConnected]) mem

/-- XOR with two classes and softmax outputs. -/
example : ∃ θ : List ℝ, ∀ s, ∃ s', (buildNet 2 (deep [] 4 .tanh ⟨0, 0, 0⟩ 2 true .linear ⟨0, 0, 0⟩) true).set s θ = .ok s' ∧
    ∀ n < 4, 1 - 1 / 100 ≤ (buildNet 2 (deep [] 4 .tanh ⟨0, 0, 0⟩ 2 true .linear ⟨0, 0, 0⟩) true).predict s'.mem (xor.inst n)
      (if n = 0 ∨ n = 3 then 1 else 0) := by
  obtain ⟨θ, _, h⟩ := classifies 2 (hs := []) (H := 4) (act := .tanh) (r1 := ⟨0, 0, 0⟩) (F := 2) true (r2 := ⟨0, 0, 0⟩) (by simp)
    (by decide) (by simp) (N := 4) (x := xor.inst) le_rfl (by
      intro n hn m hm hnm
      by_cases h : xor.inst n 0 = xor.inst m 0
      · refine ⟨1, by omega, ?_⟩
        interval_cases n <;> interval_cases m <;> simp [xor] at h hnm ⊢
      · exact ⟨0, by omega, h⟩) (fun n => if n = 0 ∨ n = 3 then 1 else 0) (fun n _ => by split_ifs <;> omega)
    (ε := 1 / 100) (by norm_num)
  exact ⟨θ, h⟩

theorem xor_eq (w : Weights) (bias : Bool) (j : ℕ) (z : ℕ → ℝ)
    (hz : ∀ n, z n = ∑ i ∈ range 2, xor.inst n i * w.mat j i + w.vec bias j) : z 0 + z 3 = z 1 + z 2 := by
  simp only [hz, sum_range_succ, sum_range_zero, xor]
  norm_num
  ring

/-- A linear combination of two numbers does not separate XOR. -/
theorem xor_sum (w : Weights) (bias : Bool) (j : ℕ) (z : ℕ → ℝ)
    (hz : ∀ n, z n = ∑ i ∈ range 2, xor.inst n i * w.mat j i + w.vec bias j)
    (lt : ∀ n < 4, ∀ m < 4, xor.tgt n 0 ≠ 1 → xor.tgt m 0 = 1 → z n < z m) : False := by
  have e := xor_eq w bias j z hz
  have h1 := lt 1 (by omega) 0 (by omega) (by simp [xor]) (by simp [xor])
  have h2 := lt 2 (by omega) 3 (by omega) (by simp [xor]) (by simp [xor])
  linarith

/-- **C120 (no hidden layer).** Every output activation function, all weights and every threshold: a network without hidden
layer does not separate the classes of XOR. -/
theorem single_layer_xor_fails (F : ℕ) (bias : Bool) (out : Act) (reg : Reg) (mem : Mem) (c : ℝ) (j : ℕ) :
    ¬ ∀ n < 4, (c < (buildNet 2 [.fullyConnected F bias out reg] false).predict mem (xor.inst n) j) ↔ xor.tgt n 0 = 1 := by
  intro h
  have hm := act_monotone out
  let z : ℕ → ℝ := fun n => ∑ i ∈ range 2, xor.inst n i * (mem 1).mat j i + (mem 1).vec bias j
  have hz : ∀ n < 4, c < out.apply (z n) ↔ xor.tgt n 0 = 1 := h
  have lt : ∀ n < 4, ∀ m < 4, xor.tgt n 0 ≠ 1 → xor.tgt m 0 = 1 → z n < z m := by
    intro n hn m hm' h0 h1
    by_contra hle
    exact h0 ((hz n hn).1 (((hz m hm').2 h1).trans_le (hm (not_lt.1 hle))))
  exact xor_sum (mem 1) bias j z (fun _ => rfl) lt

/-- **C120 (one hidden unit).** One hidden unit does not help. -/
theorem one_unit_xor_fails (bias bias' : Bool) (act : Act) (reg : Reg) (F : ℕ) (out : Act) (reg' : Reg) (mem : Mem) (c : ℝ)
    (j : ℕ) : ¬ ∀ n < 4, (c < (buildNet 2 [.fullyConnected 1 bias act reg, .fullyConnected F bias' out reg'] false).predict mem
      (xor.inst n) j) ↔ xor.tgt n 0 = 1 := by
  intro h
  have hout := act_monotone out
  have hact := act_monotone act
  let z : ℕ → ℝ := fun n => ∑ i ∈ range 2, xor.inst n i * (mem 1).mat 0 i + (mem 1).vec bias 0
  let q : ℕ → ℝ := fun n => act.apply (z n) * (mem 2).mat j 0 + (mem 2).vec bias' j
  have hq : ∀ n < 4, c < out.apply (q n) ↔ xor.tgt n 0 = 1 := by
    intro n hn
    rw [← h n hn]
    show _ ↔ c < out.apply (∑ m ∈ range 1, act.apply (∑ i ∈ range 2, xor.inst n i * (mem 1).mat m i + (mem 1).vec bias m) *
      (mem 2).mat j m + (mem 2).vec bias' j)
    rw [sum_range_one]
  have lt : ∀ n < 4, ∀ m < 4, xor.tgt n 0 ≠ 1 → xor.tgt m 0 = 1 → q n < q m := by
    intro n hn m hm' h0 h1
    by_contra hle
    exact h0 ((hq n hn).1 (((hq m hm').2 h1).trans_le (hout (not_lt.1 hle))))
  rcases le_total 0 ((mem 2).mat j 0) with hw | hw
  · refine xor_sum (mem 1) bias 0 z (fun _ => rfl) fun n hn m hm h0 h1 => ?_
    by_contra hle
    have h2 := lt n hn m hm h0 h1
    have h3 := mul_le_mul_of_nonneg_right (hact (not_lt.1 hle)) hw
    simp only [q] at h2
    linarith
  · have lt' : ∀ n < 4, ∀ m < 4, xor.tgt n 0 ≠ 1 → xor.tgt m 0 = 1 → z m < z n := by
      intro n hn m hm h0 h1
      by_contra hle
      have h2 := lt n hn m hm h0 h1
      have h3 := mul_le_mul_of_nonpos_right (hact (not_lt.1 hle)) hw
      simp only [q] at h2
      linarith
    have e := xor_eq (mem 1) bias 0 z fun _ => rfl
    have h1 := lt' 1 (by omega) 0 (by omega) (by simp [xor]) (by simp [xor])
    have h2 := lt' 2 (by omega) 3 (by omega) (by simp [xor]) (by simp [xor])
    linarith

/-- **C120 (two hidden units).** The network of examples/xor/xor.cpp (line 36): there are parameters with which it computes
XOR and `error()` is 0. -/
theorem two_units_xor : ∃ θ : List ℝ, θ.length =
      (buildNet 2 [.fullyConnected 2 true .logistic ⟨0, 0, 0⟩, .fullyConnected 1 true .logistic ⟨0, 0, 0⟩] false).P ∧
    ∀ s, ∃ s', (buildNet 2 [.fullyConnected 2 true .logistic ⟨0, 0, 0⟩, .fullyConnected 1 true .logistic ⟨0, 0, 0⟩] false).set s θ =
      .ok s' ∧
      (buildNet 2 [.fullyConnected 2 true .logistic ⟨0, 0, 0⟩, .fullyConnected 1 true .logistic ⟨0, 0, 0⟩] false).error s'.mem xor =
        0 := by
  let mem : Mem := fun k => if k = 1 then buffer (fun _ _ => 100) (fun m => if m = 0 then -50 else -150)
    else buffer (fun _ m => if m = 0 then 100 else -100) fun _ => -50
  obtain ⟨θ, h1, h2⟩ := deep_realize (D := 2) (hs := []) (H := 2) (act := .logistic) (r1 := ⟨0, 0, 0⟩) (F := 1) (bias := true)
    (out := .logistic) (r2 := ⟨0, 0, 0⟩) false (by simp) mem
  refine ⟨θ, h1, fun s => ?_⟩
  obtain ⟨s', h3, h4⟩ := h2 s
  refine ⟨s', h3, error_zero (by simp [Kind.Unregularised]) _ _ fun n hn j hj => ?_⟩
  refine (h4 _ j hj).trans ?_
  show Act.logistic.apply (∑ m ∈ range 2, Act.logistic.apply (∑ i ∈ range 2, xor.inst n i * 100 +
    if m = 0 then -50 else -150) * (if m = 0 then 100 else -100) + -50) = xor.tgt n j
  have hn' : n < 4 := hn
  interval_cases n <;> norm_num [xor, Act.apply, sum_range_succ]

end

end Verif.Expressive
