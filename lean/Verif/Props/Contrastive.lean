import Verif.Props.Gibbs
import Verif.Props.Unsupervised
import Mathlib.Analysis.SpecialFunctions.Log.Deriv
import Mathlib.Tactic.IntervalCases

/-!
# Contrastive divergence: C80
-/

namespace Verif.Draw

variable {α : Type}

theorem expect_congr_all {q : ℝ → ℝ} {d : Draw α} {P : α → Prop} (hd : d.All P) {f g : α → ℝ} (h : ∀ a, P a → f a = g a) :
    d.expect q f = d.expect q g := by
  induction d with
  | ret a => exact h a hd
  | compare p k ih => simp only [expect, ih true (hd true), ih false (hd false)]

end Verif.Draw

namespace Verif.Boltz

open Finset Verif.NN Verif.Unsup

noncomputable section

/-! ## The size of the program -/

theorem logistic_proper (a : ℝ) : 0 ≤ Act.logistic.apply a ∧ Act.logistic.apply a ≤ 1 := by
  rw [Act.apply]
  split
  · norm_num
  · split
    · norm_num
    · have := Real.exp_pos (-a)
      refine ⟨by positivity, ?_⟩
      rw [div_le_one (by linarith)]
      linarith

theorem sampleCells_proper {p : Batch} (hp : ∀ n j, 0 ≤ p n j ∧ p n j ≤ 1) (cs : List (ℕ × ℕ)) (m : Batch) :
    (sampleCells p cs m).Proper := by
  induction cs generalizing m with
  | nil => trivial
  | cons c cs ih => exact ⟨(hp _ _).1, (hp _ _).2, fun b => ih _⟩

theorem sampleCells_atMost (p : Batch) (cs : List (ℕ × ℕ)) (m : Batch) : (sampleCells p cs m).AtMost cs.length := by
  induction cs generalizing m with
  | nil => trivial
  | cons c cs ih => exact fun b => ih _

theorem cells_length (N K : ℕ) : (cells N K).length = N * K := by
  simp [cells, List.length_flatMap]

theorem sampleH_all (m : Machine) (s : Chain) : (m.sampleHgivenV s).All fun t => t.rows = s.rows ∧ t.pvRows = s.pvRows ∧ t.pv = s.pv ∧
    t.v = s.v ∧ t.ph = m.hiddenProb s.v :=
  (Draw.All.trivial _).bind fun _ _ => ⟨rfl, rfl, rfl, rfl, rfl⟩

theorem sampleV_all (m : Machine) (s : Chain) : (m.sampleVgivenH s).All fun t => t.rows = s.rows ∧ t.pvRows = s.rows :=
  (Draw.All.trivial _).bind fun _ _ => ⟨rfl, rfl⟩

theorem gibbs_all (m : Machine) : ∀ (k : ℕ) (s : Chain), (m.gibbs k s).All fun t => t.rows = s.rows ∧
    t.pvRows = if k = 0 then s.pvRows else s.rows := by
  intro k
  induction k with
  | zero => intro s; exact ⟨rfl, (if_pos rfl).symm⟩
  | succ k ih =>
    intro s
    refine (sampleV_all m s).bind fun s1 h1 => (sampleH_all m s1).bind fun s2 h2 => ?_
    have h3 := ih s2
    rw [h2.1, h2.2.1, h1.1, h1.2] at h3
    simpa using h3

theorem sampleH_atMost (m : Machine) (s : Chain) : (m.sampleHgivenV s).AtMost (s.rows * m.H) := by
  have h := (sampleCells_atMost (m.hiddenProb s.v) (cells s.rows m.H) s.h).bind (Draw.All.trivial _) (k := 0)
    (f := fun h => Draw.ret { s with ph := m.hiddenProb s.v, h := h }) fun _ _ => trivial
  rwa [cells_length] at h

theorem sampleV_atMost (m : Machine) (s : Chain) : (m.sampleVgivenH s).AtMost (s.rows * m.D) := by
  have h := (sampleCells_atMost (m.visibleProb s.h) (cells s.rows m.D) s.v).bind (Draw.All.trivial _) (k := 0)
    (f := fun v => Draw.ret { s with pvRows := s.rows, pv := m.visibleProb s.h, v := v }) fun _ _ => trivial
  rwa [cells_length] at h

theorem gibbs_atMost (m : Machine) : ∀ (k : ℕ) (s : Chain), (m.gibbs k s).AtMost (k * (s.rows * (m.D + m.H))) := by
  intro k
  induction k with
  | zero => intro s; rw [Nat.zero_mul]; trivial
  | succ k ih =>
    intro s
    have h := (sampleV_atMost m s).bind (sampleV_all m s) (k := s.rows * m.H + k * (s.rows * (m.D + m.H)))
      (f := fun s => (m.sampleHgivenV s).bind fun s => m.gibbs k s) fun s1 h1 => by
        rw [← h1.1]
        refine (sampleH_atMost m s1).bind (sampleH_all m s1) fun s2 h2 => ?_
        rw [← h2.1]
        exact ih s2
    have e : (k + 1) * (s.rows * (m.D + m.H)) = s.rows * m.D + (s.rows * m.H + k * (s.rows * (m.D + m.H))) := by ring
    rw [e]
    exact h

theorem sampleH_proper (m : Machine) (s : Chain) : (m.sampleHgivenV s).Proper :=
  (sampleCells_proper (fun _ _ => logistic_proper _) _ _).bind fun _ => trivial

theorem sampleV_proper (m : Machine) (s : Chain) : (m.sampleVgivenH s).Proper :=
  (sampleCells_proper (fun _ _ => logistic_proper _) _ _).bind fun _ => trivial

theorem gibbs_proper (m : Machine) (k : ℕ) (s : Chain) : (m.gibbs k s).Proper := by
  induction k generalizing s with
  | zero => trivial
  | succ k ih => exact (sampleV_proper m s).bind fun _ => (sampleH_proper m _).bind fun _ => ih _

/-- **C79 (generator)**: with the random numbers of the library, where every sequence of values of `rand()` is equally likely,
the probability of every event and the mean of every bounded quantity after the sampling differ from those of exact sampling
by at most the number of sampled units divided by `RAND_MAX + 1`. -/
theorem chain_close {M : ℕ} (hM : 0 < M) (m : Machine) (cdN : ℕ) (s : Chain) {f : Outcome Statistics → ℝ} {lo hi : ℝ}
    (hf : ∀ c, lo ≤ f c ∧ f c ≤ hi) :
    |(m.contrast cdN s).average M f - (m.contrast cdN s).expect id f| ≤
      ((s.rows * m.H + cdN * (s.rows * (m.D + m.H)) : ℕ) : ℝ) / (M + 1 : ℝ) * (hi - lo) := by
  refine Draw.average_close hM hf ?_ ?_
  · refine (sampleH_atMost m s).bind (sampleH_all m s) fun s1 h1 => ?_
    rw [← h1.1]
    exact (gibbs_atMost m cdN s1).bind (Draw.All.trivial _) (k := 0) fun _ _ => trivial
  · exact (sampleH_proper m s).bind fun _ => (gibbs_proper m cdN _).bind fun _ => trivial

/-! ## The expected statistics -/

/-- A number computed from the statistics. -/
def value (sel : Statistics → ℝ) : Outcome Statistics → ℝ
  | .ok c => sel c
  | _ => 0

/-- A statistic that is a sum over the examples: `A` of the data, `G` of the chain. -/
def SumOver (sel : Statistics → ℝ) (A : (ℕ → ℝ) → (ℕ → ℝ) → ℝ) (G : (ℕ → ℝ) → (ℕ → ℝ) → ℝ) : Prop :=
  ∀ s t : Chain, t.rows = s.rows → t.pvRows = s.rows →
    sel (statistics s t) = ∑ n ∈ range s.rows, (A (s.v n) (s.ph n) + G (t.ph n) (t.pv n))

theorem sumOver_w (j i : ℕ) : SumOver (fun c => -c.posW j i + c.negW j i) (fun v ph => -(ph j * v i)) fun ph pv => ph j * pv i := by
  intro s t h1 h2
  simp only [statistics, h1, sum_add_distrib, sum_neg_distrib]

theorem sumOver_v (i : ℕ) : SumOver (fun c => -c.posV i + c.negV i) (fun v _ => -v i) fun _ pv => pv i := by
  intro s t h1 h2
  simp only [statistics, h2, sum_add_distrib, sum_neg_distrib]

theorem sumOver_h (j : ℕ) : SumOver (fun c => -c.posH j + c.negH j) (fun _ ph => -ph j) fun ph _ => ph j := by
  intro s t h1 h2
  simp only [statistics, h1, sum_add_distrib, sum_neg_distrib]

/-- What `G` is on average after `k + 1` sweeps from the hidden units `h`. -/
def Machine.after (m : Machine) (k : ℕ) (G : (ℕ → ℝ) → (ℕ → ℝ) → ℝ) (h : ℕ → ℝ) : ℝ :=
  m.sweep^[k + 1] (fun _ _ ph pv => G ph pv) (fun _ => 0) h (fun _ => 0) (fun _ => 0)

theorem after_eq (m : Machine) (k : ℕ) (G : (ℕ → ℝ) → (ℕ → ℝ) → ℝ) (v h ph pv : ℕ → ℝ) :
    m.sweep^[k + 1] (fun _ _ ph pv => G ph pv) v h ph pv = m.after k G h := by
  rw [Machine.after, Function.iterate_succ', Function.comp]
  rfl

theorem after_local (m : Machine) (k : ℕ) (G : (ℕ → ℝ) → (ℕ → ℝ) → ℝ) : Local m.H (m.after k G) :=
  (iterate_fits (G := fun _ _ ph pv => G ph pv) ⟨fun _ _ _ _ _ _ => rfl, fun _ _ _ _ _ _ => rfl⟩ (k + 1)).2 _ _ _

/-- The expected statistics of `reality()` and `daydream()`, for every batch and at least one sweep. -/
theorem contrast_expect {sel : Statistics → ℝ} {A : (ℕ → ℝ) → (ℕ → ℝ) → ℝ} {G : (ℕ → ℝ) → (ℕ → ℝ) → ℝ} (hs : SumOver sel A G)
    (m : Machine) (k : ℕ) (s : Chain) :
    (m.contrast (k + 1) s).expect id (value sel) =
      ∑ n ∈ range s.rows, (A (s.v n) (m.hp (s.v n)) + bernoulli m.H (m.hp (s.v n)) (m.after k G)) := by
  have hfit : m.Fits fun _ _ ph pv => G ph pv := ⟨fun _ _ _ _ _ _ => rfl, fun _ _ _ _ _ _ => rfl⟩
  rw [Machine.contrast, Draw.bind_expect]
  have e1 : ∀ s1 : Chain, (s1.rows = s.rows ∧ s1.pvRows = s.pvRows ∧ s1.pv = s.pv ∧ s1.v = s.v ∧ s1.ph = m.hiddenProb s.v) →
      ((m.gibbs (k + 1) s1).bind fun t => Draw.ret (if t.pvRows = t.rows then Outcome.ok (statistics s1 t) else .ub)).expect id (value sel) =
        ∑ n ∈ range s.rows, (A (s.v n) (m.hp (s.v n)) + m.after k G (s1.h n)) := by
    rintro s1 ⟨h1, h2, h3, h4, h5⟩
    rw [Draw.bind_expect]
    have e2 : ∀ t : Chain, (t.rows = s1.rows ∧ t.pvRows = if k + 1 = 0 then s1.pvRows else s1.rows) →
        (Draw.ret (if t.pvRows = t.rows then Outcome.ok (statistics s1 t) else .ub)).expect id (value sel) =
          ∑ n ∈ range s.rows, (A (s.v n) (m.hp (s.v n)) + G (t.ph n) (t.pv n)) := by
      rintro t ⟨h6, h7⟩
      rw [if_neg (by omega)] at h7
      rw [if_pos (by rw [h6, h7])]
      show sel (statistics s1 t) = _
      rw [hs s1 t h6 h7, h1, h4, h5]
      rfl
    rw [Draw.expect_congr_all (gibbs_all m (k + 1) s1) e2, Draw.expect_sum]
    refine Finset.sum_congr rfl fun n hn => ?_
    rw [Draw.expect_add, Draw.expect_const]
    congr 1
    have := gibbs_row m hfit (k + 1) s1 (n := n) (by rw [h1]; exact mem_range.1 hn)
    rw [this, after_eq]
  rw [Draw.expect_congr_all (sampleH_all m s) e1, Draw.expect_sum]
  refine Finset.sum_congr rfl fun n hn => ?_
  rw [Draw.expect_add, Draw.expect_const]
  congr 1
  exact sampleH_row m s (mem_range.1 hn) (G := fun _ h _ _ => m.after k G h)
    ⟨fun _ _ _ _ _ _ => rfl, fun _ _ _ => after_local m k G⟩

/-- A chain with one example. -/
def one (s : Chain) (x : ℕ → ℝ) : Chain := { s with rows := 1, v := fun _ => x }

/-- **C80 (batches)**: the expected statistics of a batch are the sums of those of the single examples. -/
theorem contrast_batch {sel : Statistics → ℝ} {A : (ℕ → ℝ) → (ℕ → ℝ) → ℝ} {G : (ℕ → ℝ) → (ℕ → ℝ) → ℝ} (hs : SumOver sel A G)
    (m : Machine) (k : ℕ) (s : Chain) : (m.contrast (k + 1) s).expect id (value sel) =
      ∑ n ∈ range s.rows, (m.contrast (k + 1) (one s (s.v n))).expect id (value sel) := by
  rw [contrast_expect hs]
  refine Finset.sum_congr rfl fun n _ => ?_
  rw [contrast_expect hs]
  show _ = ∑ _ ∈ range 1, _
  rw [sum_range_one]
  rfl

/-- Without a sweep (`cdN = 0`) `pv` was not computed for this batch. -/
theorem contrast_zero_ub (m : Machine) (s : Chain) (h : s.pvRows ≠ s.rows) (f : Outcome Statistics → ℝ) :
    (m.contrast 0 s).expect id f = f .ub := by
  rw [Machine.contrast, Draw.bind_expect]
  have : ∀ s1 : Chain, (s1.rows = s.rows ∧ s1.pvRows = s.pvRows ∧ s1.pv = s.pv ∧ s1.v = s.v ∧ s1.ph = m.hiddenProb s.v) →
      ((m.gibbs 0 s1).bind fun t => Draw.ret (if t.pvRows = t.rows then Outcome.ok (statistics s1 t) else .ub)).expect id f = f .ub := by
    rintro s1 ⟨h1, h2, _⟩
    show f (if s1.pvRows = s1.rows then _ else .ub) = _
    rw [if_neg (by rw [h1, h2]; exact h)]
  rw [Draw.expect_congr_all (sampleH_all m s) this, Draw.expect_const]

/-- With the number of rows of an earlier batch the result is made of the old `pv`. -/
theorem contrast_zero_stale (m : Machine) (s : Chain) (h : s.pvRows = s.rows) (i : ℕ) :
    (m.contrast 0 s).expect id (value fun c => -c.posV i + c.negV i) = ∑ n ∈ range s.rows, (-s.v n i + s.pv n i) := by
  rw [Machine.contrast, Draw.bind_expect]
  have : ∀ s1 : Chain, (s1.rows = s.rows ∧ s1.pvRows = s.pvRows ∧ s1.pv = s.pv ∧ s1.v = s.v ∧ s1.ph = m.hiddenProb s.v) →
      ((m.gibbs 0 s1).bind fun t => Draw.ret (if t.pvRows = t.rows then Outcome.ok (statistics s1 t) else .ub)).expect id
        (value fun c => -c.posV i + c.negV i) = ∑ n ∈ range s.rows, (-s.v n i + s.pv n i) := by
    rintro s1 ⟨h1, h2, h3, h4, _⟩
    show value _ (if s1.pvRows = s1.rows then _ else .ub) = _
    rw [if_pos (by rw [h1, h2]; exact h)]
    show -(∑ n ∈ range s1.rows, s1.v n i) + ∑ n ∈ range s1.pvRows, s1.pv n i = _
    rw [h1, h2, h3, h4, h, sum_add_distrib, sum_neg_distrib]
  rw [Draw.expect_congr_all (sampleH_all m s) this, Draw.expect_const]

/-! ## Equilibrium -/

theorem hiddenGiven_sum (m : Machine) (v : ℕ → ℝ) : ∑ S ∈ states m.H, m.hiddenGiven v S = 1 := by
  have hpos : 0 < ∑ S ∈ states m.H, m.factor v (on S) := Finset.sum_pos (fun S _ => factor_pos _ _ _) (states_nonempty _)
  simp only [Machine.hiddenGiven]
  rw [← Finset.sum_div, div_self hpos.ne']

theorem mean_after {m : Machine} (hm : m.Moderate) (k : ℕ) (G : (ℕ → ℝ) → (ℕ → ℝ) → ℝ) :
    m.mean (fun _ S => m.after k G (on S)) = m.mean fun V S => G (m.hp (on V)) (m.vp (on S)) := by
  have e : ∀ S : Finset ℕ, m.after k G (on S) = m.sweep^[k]
      (fun _ h _ _ => m.sweep (fun _ _ ph pv => G ph pv) (fun _ => 0) h (fun _ => 0) (fun _ => 0)) (fun _ => 0) (on S) (fun _ => 0)
        (fun _ => 0) := by
    intro S
    rw [Machine.after, Function.iterate_succ, Function.comp]
    rfl
  have e2 : ∀ V S : Finset ℕ, m.after k G (on S) = m.sweep^[k]
      (fun _ h _ _ => m.sweep (fun _ _ ph pv => G ph pv) (fun _ => 0) h (fun _ => 0) (fun _ => 0)) (on V) (on S) (fun _ => 0)
        (fun _ => 0) := by
    intro V S
    rw [e S]
    cases k with
    | zero => rfl
    | succ k => rw [Function.iterate_succ', Function.comp]; rfl
  refine (mean_congr fun V _ S _ => e2 V S).trans ?_
  refine (mean_sweeps hm (fun _ h => m.sweep (fun _ _ ph pv => G ph pv) (fun _ => 0) h (fun _ => 0) (fun _ => 0)) k
    (fun _ _ _ => 0) fun _ _ _ => 0).trans ?_
  refine Eq.trans ?_ ((mean_sweep hm (fun _ _ ph pv => G ph pv) (fun _ => 0) (fun _ => 0)).trans ?_)
  · rfl
  · refine mean_congr fun V _ S _ => ?_
    show ∑ S' ∈ states m.H, m.hiddenGiven (on V) S' * G (m.hp (on V)) (m.vp (on S)) = _
    rw [← Finset.sum_mul, hiddenGiven_sum, one_mul]

/-- If the examples are distributed as the visible units of the Boltzmann distribution: the expected statistics. -/
theorem equilibrium {sel : Statistics → ℝ} {A : (ℕ → ℝ) → (ℕ → ℝ) → ℝ} {G : (ℕ → ℝ) → (ℕ → ℝ) → ℝ} (hs : SumOver sel A G)
    {m : Machine} (hm : m.Moderate) (k : ℕ) (s : Chain) :
    m.mean (fun V _ => (m.contrast (k + 1) (one s (on V))).expect id (value sel)) =
      m.mean fun V S => A (on V) (m.hp (on V)) + G (m.hp (on V)) (m.vp (on S)) := by
  have e : ∀ V : Finset ℕ, (m.contrast (k + 1) (one s (on V))).expect id (value sel) =
      A (on V) (m.hp (on V)) + ∑ S ∈ states m.H, m.hiddenGiven (on V) S * m.after k G (on S) := by
    intro V
    rw [contrast_expect hs]
    show ∑ _ ∈ range 1, _ = _
    rw [sum_range_one, ← bernoulli_hidden hm (on_units _ _)]
    rfl
  simp only [e]
  rw [mean_add m (fun V _ => A (on V) (m.hp (on V))), mean_add m (fun V _ => A (on V) (m.hp (on V))),
    mean_hidden m fun _ S => m.after k G (on S), mean_after hm]

theorem mean_visible_unit {m : Machine} (hm : m.Moderate) {i : ℕ} (hi : i < m.D) :
    m.mean (fun _ S => m.vp (on S) i) = m.mean fun V _ => on V i := by
  refine Eq.trans (mean_congr fun V _ S _ => ?_) (mean_visible m fun V _ => on V i)
  rw [← bernoulli_visible hm (on_units _ _) fun x => x i]
  exact (bernoulli_unit _ hi).symm

theorem mean_hidden_unit {m : Machine} (hm : m.Moderate) {j : ℕ} (hj : j < m.H) (F : Finset ℕ → ℝ) :
    m.mean (fun V _ => m.hp (on V) j * F V) = m.mean fun V S => on S j * F V := by
  refine Eq.trans (mean_congr fun V _ S _ => ?_) (mean_hidden m fun V S => on S j * F V)
  rw [← bernoulli_hidden hm (on_units _ _) fun x => x j * F V]
  have : bernoulli m.H (m.hp (on V)) (fun x => x j * F V) = bernoulli m.H (m.hp (on V)) (fun x => x j) * F V := by
    simp only [bernoulli, Finset.sum_mul, mul_assoc]
  rw [this, bernoulli_unit _ hj]

/-! ## The gradient -/

/-- Entry `e` of a gradient. -/
def entry (e : ℕ) : Outcome (List (Option ℝ)) → ℝ
  | .ok l => (l.getD e none).getD 0
  | _ => 0

theorem gradient_entry {m : RBM} {g : List (Option ℝ)} (hg : g.length = m.dimension) {sel : Statistics → ℝ} {e : ℕ}
    (h : ∀ c r, m.fillGradient c g = .ok r → r.getD e none = some (sel c)) (cdN : ℕ) (s : Chain) :
    (gradient m cdN s g).expect id (entry e) = ((ofRBM m).contrast cdN s).expect id (value sel) := by
  rw [gradient, Draw.bind_expect]
  refine congrArg _ (funext fun c => ?_)
  show entry e (c >>= fun c => m.fillGradient c g) = value sel c
  cases c with
  | ok c =>
    obtain ⟨r, hr, _⟩ := rbm_gradient_entries m c g hg
    show entry e (m.fillGradient c g) = sel c
    rw [hr]
    show (r.getD e none).getD 0 = sel c
    rw [h c r hr]
    rfl
  | throws => rfl
  | checkFailed => rfl
  | ub => rfl

/-- **C80 (biases)**: if the examples are distributed as the machine believes, the expected gradient for all biases is zero,
for every number of sweeps, so that training stays there on average. -/
theorem biases_fixed {m : RBM} (hm : (ofRBM m).Moderate) {g : List (Option ℝ)} (hg : g.length = m.dimension) (k : ℕ) (s : Chain) :
    (∀ i < m.D, (ofRBM m).mean (fun V _ => (gradient m (k + 1) (one s (on V)) g).expect id (entry (m.D * m.H + i))) = 0) ∧
      ∀ j < m.H, (ofRBM m).mean (fun V _ => (gradient m (k + 1) (one s (on V)) g).expect id (entry (m.D * m.H + m.D + j))) = 0 := by
  constructor
  · intro i hi
    have h : ∀ c r, m.fillGradient c g = .ok r → r.getD (m.D * m.H + i) none = some (-c.posV i + c.negV i) := by
      intro c r hr
      obtain ⟨r', hr', _, _, h2, _⟩ := rbm_gradient_entries m c g hg
      rw [hr] at hr'
      cases hr'
      exact h2 i hi
    simp only [gradient_entry hg h]
    rw [equilibrium (sumOver_v i) hm]
    have : (ofRBM m).mean (fun V S => -on V i + (ofRBM m).vp (on S) i) =
        (ofRBM m).mean (fun V S => (ofRBM m).vp (on S) i) - (ofRBM m).mean fun V _ => on V i := by
      rw [← mean_sub]
      exact mean_congr fun _ _ _ _ => by ring
    rw [this, mean_visible_unit hm (i := i) hi, sub_self]
  · intro j hj
    have h : ∀ c r, m.fillGradient c g = .ok r → r.getD (m.D * m.H + m.D + j) none = some (-c.posH j + c.negH j) := by
      intro c r hr
      obtain ⟨r', hr', _, _, _, h3⟩ := rbm_gradient_entries m c g hg
      rw [hr] at hr'
      cases hr'
      exact h3 j hj
    simp only [gradient_entry hg h]
    rw [equilibrium (sumOver_h j) hm]
    have : (ofRBM m).mean (fun V S => -(ofRBM m).hp (on V) j + (ofRBM m).hp (on V) j) = (ofRBM m).mean fun _ _ => 0 :=
      mean_congr fun _ _ _ _ => by ring
    rw [this, mean_zero]

/-- What the expected gradient of a weight is there, without penalties. -/
theorem weights_expected {m : RBM} (hm : (ofRBM m).Moderate) (h1 : ¬ m.l1 > 0) (h2 : ¬ m.l2 > 0) {g : List (Option ℝ)}
    (hg : g.length = m.dimension) (k : ℕ) (s : Chain) {j i : ℕ} (hj : j < m.H) (hi : i < m.D) :
    (ofRBM m).mean (fun V _ => (gradient m (k + 1) (one s (on V)) g).expect id (entry (i * m.H + j))) =
      (ofRBM m).mean fun V S => (ofRBM m).hp (on V) j * ((ofRBM m).vp (on S) i - on V i) := by
  have h : ∀ c r, m.fillGradient c g = .ok r → r.getD (i * m.H + j) none = some (-c.posW j i + c.negW j i) := by
    intro c r hr
    obtain ⟨r', hr', _, h3, _⟩ := rbm_gradient_entries m c g hg
    rw [hr] at hr'
    cases hr'
    rw [h3 j hj i hi, RBM.penaltyTerm, if_neg h1, if_neg h2]
    simp [minus]
  simp only [gradient_entry hg h]
  rw [equilibrium (sumOver_w j i) hm]
  exact mean_congr fun _ _ _ _ => by ring

/-! ## The likelihood -/

/-- The logarithm of the probability of a visible vector. -/
def Machine.logLikelihood (m : Machine) (v : ℕ → ℝ) : ℝ :=
  Real.log (∑ S ∈ states m.H, m.factor v (on S)) - Real.log m.partition

/-- The machine with the parameters moved by `t` in the direction of the parameters of `d`. -/
def Machine.move (m d : Machine) (t : ℝ) : Machine where
  D := m.D
  H := m.H
  W j i := m.W j i + t * d.W j i
  bv i := m.bv i + t * d.bv i
  bh j := m.bh j + t * d.bh j

/-- Minus the energy with other parameters. -/
def Machine.slope (m d : Machine) (v h : ℕ → ℝ) : ℝ :=
  ∑ j ∈ range m.H, ∑ i ∈ range m.D, d.W j i * (h j * v i) + ∑ i ∈ range m.D, d.bv i * v i + ∑ j ∈ range m.H, d.bh j * h j

theorem energy_move (m d : Machine) (t : ℝ) (v h : ℕ → ℝ) : -(m.move d t).energy v h = -m.energy v h + t * m.slope d v h := by
  show -(-(∑ j ∈ range m.H, ∑ i ∈ range m.D, h j * (m.W j i + t * d.W j i) * v i) - ∑ i ∈ range m.D, (m.bv i + t * d.bv i) * v i -
    ∑ j ∈ range m.H, (m.bh j + t * d.bh j) * h j) = _
  have e1 : ∑ j ∈ range m.H, ∑ i ∈ range m.D, h j * (m.W j i + t * d.W j i) * v i =
      ∑ j ∈ range m.H, ∑ i ∈ range m.D, h j * m.W j i * v i + t * ∑ j ∈ range m.H, ∑ i ∈ range m.D, d.W j i * (h j * v i) := by
    rw [Finset.mul_sum, ← sum_add_distrib]
    refine Finset.sum_congr rfl fun j _ => ?_
    rw [Finset.mul_sum, ← sum_add_distrib]
    exact Finset.sum_congr rfl fun i _ => by ring
  have e2 : ∀ (K : ℕ) (a b x : ℕ → ℝ), ∑ i ∈ range K, (a i + t * b i) * x i = ∑ i ∈ range K, a i * x i + t * ∑ i ∈ range K, b i * x i := by
    intro K a b x
    rw [Finset.mul_sum, ← sum_add_distrib]
    exact Finset.sum_congr rfl fun i _ => by ring
  rw [e1, e2, e2, Machine.energy, Machine.slope]
  ring

theorem factor_move (m d : Machine) (v h : ℕ → ℝ) :
    HasDerivAt (fun t => (m.move d t).factor v h) (m.factor v h * m.slope d v h) 0 := by
  have e : (fun t => (m.move d t).factor v h) = fun t => Real.exp (-m.energy v h + t * m.slope d v h) := by
    funext t
    rw [Machine.factor, energy_move]
  rw [e]
  have := (((hasDerivAt_id (0 : ℝ)).mul_const (m.slope d v h)).const_add (-m.energy v h)).exp
  simpa [Machine.factor] using this

theorem move_zero (m d : Machine) : m.move d 0 = m := by
  cases m
  simp [Machine.move]

/-- **C80 (what the gradient aims at)**: the derivative of minus the logarithm of the likelihood of a visible vector.  For every
weight and bias it is minus the statistic that `reality()` computes, plus the mean of the product of the units (or of the unit)
under the Boltzmann distribution, which `daydream()` estimates. -/
theorem likelihood_gradient {m : Machine} (hm : m.Moderate) (d : Machine) {v : ℕ → ℝ} (hv : Units m.D v) :
    HasDerivAt (fun t => -(m.move d t).logLikelihood v)
      (∑ j ∈ range m.H, ∑ i ∈ range m.D, d.W j i * (-(m.hp v j * v i) + m.mean fun V S => on S j * on V i) +
        ∑ i ∈ range m.D, d.bv i * (-v i + m.mean fun V _ => on V i) +
        ∑ j ∈ range m.H, d.bh j * (-m.hp v j + m.mean fun _ S => on S j)) 0 := by
  have hpos : 0 < ∑ S ∈ states m.H, m.factor v (on S) := Finset.sum_pos (fun S _ => factor_pos _ _ _) (states_nonempty _)
  have hZ : 0 < m.partition := Finset.sum_pos (fun V _ => Finset.sum_pos (fun S _ => factor_pos _ _ _) (states_nonempty _)) (states_nonempty _)
  have d1 : HasDerivAt (fun t => ∑ S ∈ states m.H, (m.move d t).factor v (on S))
      (∑ S ∈ states m.H, m.factor v (on S) * m.slope d v (on S)) 0 :=
    HasDerivAt.fun_sum fun S _ => factor_move m d v (on S)
  have d2 : HasDerivAt (fun t => ∑ V ∈ states m.D, ∑ S ∈ states m.H, (m.move d t).factor (on V) (on S))
      (∑ V ∈ states m.D, ∑ S ∈ states m.H, m.factor (on V) (on S) * m.slope d (on V) (on S)) 0 :=
    HasDerivAt.fun_sum fun V _ => HasDerivAt.fun_sum fun S _ => factor_move m d (on V) (on S)
  have l1 := d1.log (by simp only [move_zero]; exact hpos.ne')
  have l2 := d2.log (by simp only [move_zero]; exact hZ.ne')
  have key := (l1.sub l2).neg
  simp only [move_zero] at key
  have ea : (∑ S ∈ states m.H, m.factor v (on S) * m.slope d v (on S)) / ∑ S ∈ states m.H, m.factor v (on S) =
      m.slope d v (m.hp v) := by
    have e1 : (∑ S ∈ states m.H, m.factor v (on S) * m.slope d v (on S)) / ∑ S ∈ states m.H, m.factor v (on S) =
        ∑ S ∈ states m.H, m.hiddenGiven v S * m.slope d v (on S) := by
      rw [Finset.sum_div]
      exact Finset.sum_congr rfl fun S _ => by rw [Machine.hiddenGiven]; ring
    have hu : ∀ j ∈ range m.H, ∑ S ∈ states m.H, m.hiddenGiven v S * on S j = m.hp v j := by
      intro j hj
      rw [← bernoulli_hidden hm hv fun x => x j, bernoulli_unit _ (mem_range.1 hj)]
    rw [e1]
    simp only [Machine.slope, mul_add, sum_add_distrib]
    congr 1
    · congr 1
      · simp only [Finset.mul_sum]
        rw [Finset.sum_comm]
        refine Finset.sum_congr rfl fun j hj => ?_
        rw [Finset.sum_comm]
        refine Finset.sum_congr rfl fun i _ => ?_
        rw [← hu j hj, Finset.sum_mul, Finset.mul_sum]
        exact Finset.sum_congr rfl fun S _ => by ring
      · rw [← Finset.sum_mul, hiddenGiven_sum, one_mul]
    · simp only [Finset.mul_sum]
      rw [Finset.sum_comm]
      refine Finset.sum_congr rfl fun j hj => ?_
      rw [← hu j hj, Finset.mul_sum]
      exact Finset.sum_congr rfl fun S _ => by ring
  have eb : (∑ V ∈ states m.D, ∑ S ∈ states m.H, m.factor (on V) (on S) * m.slope d (on V) (on S)) / m.partition =
      ∑ j ∈ range m.H, ∑ i ∈ range m.D, d.W j i * (m.mean fun V S => on S j * on V i) +
        ∑ i ∈ range m.D, d.bv i * (m.mean fun V _ => on V i) + ∑ j ∈ range m.H, d.bh j * (m.mean fun _ S => on S j) := by
    rw [← mean_eq]
    simp only [Machine.slope, mean_add, mean_sum, mean_mul]
  rw [ea] at key
  have eb' : (∑ V ∈ states m.D, ∑ S ∈ states m.H, m.factor (on V) (on S) * m.slope d (on V) (on S)) /
      ∑ V ∈ states m.D, ∑ S ∈ states m.H, m.factor (on V) (on S) = _ := eb
  rw [eb'] at key
  refine key.congr_deriv ?_
  simp only [Machine.slope, mul_add, sum_add_distrib, mul_neg, sum_neg_distrib]
  ring

/-- If the examples are distributed as the machine believes, the mean of this derivative is zero in every direction. -/
theorem likelihood_fixed {m : Machine} (hm : m.Moderate) :
    (∀ j < m.H, ∀ i < m.D, m.mean (fun V _ => -(m.hp (on V) j * on V i) + m.mean fun V S => on S j * on V i) = 0) ∧
      (∀ i < m.D, m.mean (fun V _ => -on V i + m.mean fun V _ => on V i) = 0) ∧
      ∀ j < m.H, m.mean (fun V _ => -m.hp (on V) j + m.mean fun _ S => on S j) = 0 := by
  have hZ : 0 < m.partition := Finset.sum_pos (fun V _ => Finset.sum_pos (fun S _ => factor_pos _ _ _) (states_nonempty _)) (states_nonempty _)
  have hc : ∀ c : ℝ, m.mean (fun _ _ => c) = c := by
    intro c
    rw [mean_eq]
    simp only [← Finset.sum_mul]
    exact mul_div_cancel_left₀ c hZ.ne'
  have hn : ∀ F : Finset ℕ → Finset ℕ → ℝ, m.mean (fun V S => -F V S) = -m.mean F := by
    intro F
    have := mean_mul m (-1) F
    simpa using this
  refine ⟨fun j hj i _ => ?_, fun i _ => ?_, fun j hj => ?_⟩
  · rw [mean_add, hc, hn fun V _ => m.hp (on V) j * on V i, mean_hidden_unit hm hj fun V => on V i, neg_add_cancel]
  · rw [mean_add, hc, hn fun V _ => on V i, neg_add_cancel]
  · have h1 := mean_hidden_unit hm hj fun _ => 1
    simp only [mul_one] at h1
    rw [mean_add, hc, hn fun V _ => m.hp (on V) j, h1, neg_add_cancel]

/-! ## The weights -/

/-- One visible and one hidden unit with the weight `w`. -/
def pair (w : ℝ) : RBM := ⟨1, 1, 0, 0, [w], [0], [0], [w, 0, 0]⟩

theorem pair_moderate {w : ℝ} (hw : |w| ≤ 45) : (ofRBM (pair w)).Moderate := by
  have e : (ofRBM (pair w)).W 0 0 = w := rfl
  refine ⟨fun j hj => ?_, fun i hi => ?_⟩
  · obtain rfl : j = 0 := Nat.lt_one_iff.1 hj
    show ∑ i ∈ range 1, |(ofRBM (pair w)).W 0 i| + |(0 : ℝ)| ≤ 45
    rw [sum_range_one, e, abs_zero, add_zero]
    exact hw
  · obtain rfl : i = 0 := Nat.lt_one_iff.1 hi
    show ∑ j ∈ range 1, |(ofRBM (pair w)).W j 0| + |(0 : ℝ)| ≤ 45
    rw [sum_range_one, e, abs_zero, add_zero]
    exact hw

theorem sum_states_one (F : Finset ℕ → ℝ) : ∑ S ∈ states 1, F S = F ∅ + F {0} := by
  rw [sum_states_succ]
  simp [states]

/-- The expected gradient of the weight. -/
theorem pair_mean {w : ℝ} (hw : |w| ≤ 45) :
    (ofRBM (pair w)).mean (fun V S => (ofRBM (pair w)).hp (on V) 0 * ((ofRBM (pair w)).vp (on S) 0 - on V 0)) =
      (1 / 4 - (Real.exp w / (Real.exp w + 1)) ^ 2) / (3 + Real.exp w) := by
  have hm := pair_moderate hw
  have e : (ofRBM (pair w)).W 0 0 = w := rfl
  have o0 : on ∅ 0 = 0 := by simp [on]
  have o1 : on {0} 0 = 1 := by simp [on]
  have hp : ∀ V, (ofRBM (pair w)).hp (on V) 0 = Real.exp (on V 0 * w) / (Real.exp (on V 0 * w) + 1) := by
    intro V
    rw [hp_exact hm (on_units _ _) (show 0 < 1 from one_pos)]
    have : ∑ i ∈ range (ofRBM (pair w)).D, on V i * (ofRBM (pair w)).W 0 i + (ofRBM (pair w)).bh 0 = on V 0 * w := by
      show ∑ i ∈ range 1, on V i * (ofRBM (pair w)).W 0 i + (0 : ℝ) = _
      rw [sum_range_one, e, add_zero]
    rw [this]
  have vp : ∀ S, (ofRBM (pair w)).vp (on S) 0 = Real.exp (on S 0 * w) / (Real.exp (on S 0 * w) + 1) := by
    intro S
    rw [vp_exact hm (on_units _ _) (show 0 < 1 from one_pos)]
    have : ∑ j ∈ range (ofRBM (pair w)).H, on S j * (ofRBM (pair w)).W j 0 + (ofRBM (pair w)).bv 0 = on S 0 * w := by
      show ∑ j ∈ range 1, on S j * (ofRBM (pair w)).W j 0 + (0 : ℝ) = _
      rw [sum_range_one, e, add_zero]
    rw [this]
  have hf : ∀ V S, (ofRBM (pair w)).factor (on V) (on S) = Real.exp (on S 0 * w * on V 0) := by
    intro V S
    rw [Machine.factor, Machine.energy]
    congr 1
    show -(-(∑ j ∈ range 1, ∑ i ∈ range 1, on S j * (ofRBM (pair w)).W j i * on V i) - ∑ i ∈ range 1, (ofRBM (pair w)).bv i * on V i -
      ∑ j ∈ range 1, (ofRBM (pair w)).bh j * on S j) = _
    rw [sum_range_one, sum_range_one, sum_range_one, sum_range_one, e]
    show -(-(on S 0 * w * on V 0) - 0 * on V 0 - 0 * on S 0) = _
    ring
  have hZ : (ofRBM (pair w)).partition = 3 + Real.exp w := by
    show ∑ V ∈ states 1, ∑ S ∈ states 1, _ = _
    simp only [hf, sum_states_one, o0, o1]
    simp
    ring
  rw [mean_eq, hZ]
  congr 1
  show ∑ V ∈ states 1, ∑ S ∈ states 1, _ = _
  simp only [hf, hp, vp, sum_states_one, o0, o1]
  have := Real.exp_pos w
  simp only [zero_mul, mul_zero, one_mul, mul_one, Real.exp_zero]
  field_simp
  ring

/-- **C80 is false for the weights**: for one visible and one hidden unit with a positive weight, the expected gradient at the
machine that fits the distribution of the examples is negative (so that gradient descent makes the weight larger) whatever
the number of sweeps.  `daydream()` multiplies `ph`, which belongs to the sample `v`, by `pv`, from which `v` was drawn. -/
theorem weights_fixed_fails {w : ℝ} (h0 : 0 < w) (hw : w ≤ 45) {g : List (Option ℝ)} (hg : g.length = 3) (k : ℕ) (s : Chain) :
    (ofRBM (pair w)).mean (fun V _ => (gradient (pair w) (k + 1) (one s (on V)) g).expect id (entry 0)) < 0 := by
  have ha : |w| ≤ 45 := by rw [abs_of_pos h0]; exact hw
  have h := weights_expected (m := pair w) (pair_moderate ha) (lt_irrefl _) (lt_irrefl _) (g := g) hg k s (j := 0) (i := 0) one_pos one_pos
  refine lt_of_eq_of_lt h ?_
  rw [pair_mean ha]
  have h1 : 1 < Real.exp w := Real.one_lt_exp_iff.2 h0
  refine div_neg_of_neg_of_pos ?_ (by linarith)
  have h2 : 1 / 2 < Real.exp w / (Real.exp w + 1) := by
    rw [div_lt_div_iff₀ (by norm_num) (by linarith)]
    linarith
  nlinarith

/-- The hypotheses of the theorems are met, for example, by 3 visible and 2 hidden units. -/
example : ∃ m : RBM, (ofRBM m).Moderate ∧ m.D = 3 ∧ m.H = 2 ∧ m.W = [1, 2, 3, -4, 5, 6] ∧ ¬ m.l1 > 0 ∧ ¬ m.l2 > 0 := by
  refine ⟨⟨3, 2, 0, 0, [1, 2, 3, -4, 5, 6], [7, 8, 9], [1, 2], []⟩, ⟨fun j hj => ?_, fun i hi => ?_⟩, rfl, rfl, rfl, lt_irrefl _, lt_irrefl _⟩
  · show ∑ i ∈ range 3, |([1, 2, 3, -4, 5, 6] : List ℝ).getD (i * 2 + j) 0| + |([1, 2] : List ℝ).getD j 0| ≤ 45
    have hj : j < 2 := hj
    interval_cases j <;> simp [Finset.sum_range_succ] <;> norm_num
  · show ∑ j ∈ range 2, |([1, 2, 3, -4, 5, 6] : List ℝ).getD (i * 2 + j) 0| + |([7, 8, 9] : List ℝ).getD i 0| ≤ 45
    have hi : i < 3 := hi
    interval_cases i <;> simp [Finset.sum_range_succ] <;> norm_num

end

end Verif.Boltz
