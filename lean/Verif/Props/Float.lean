import Verif.Model.Float
import Mathlib.Analysis.Complex.ExponentialBounds
import Mathlib.Analysis.Real.Pi.Bounds
import Mathlib.Tactic.Linarith
import Mathlib.Tactic.FieldSimp
import Mathlib.Tactic.Positivity
import Mathlib.Tactic.NormNum

/-!
# Softmax, logistic function, error functions, L1 penalty and normal random numbers in floating point arithmetic

Everything holds for every `Fpu` (rounding mode and library) and every order in which Eigen adds.
-/

namespace Verif.Fp

open Fpu

/-! ## Specification -/

/-- Neither an infinity nor NaN. -/
def Finite (a : Dbl) : Prop := ∃ x, a = .num x

/-- A number between zero and one. -/
def Unit01 (a : Dbl) : Prop := ∃ x, a = .num x ∧ 0 ≤ x ∧ x ≤ 1

/-- A value that a variable of type `double` can have: rounding does not change it. -/
def Value (A : Fpu) (a : Dbl) : Prop := ∀ x, a = .num x → A.rnd x = .num x

/-! ## Rounding -/

variable {A : Fpu}

theorem rnd_zero : A.rnd 0 = .num 0 := by
  have := A.rnd_int 0 (by norm_num)
  simpa using this

theorem rnd_one : A.rnd 1 = .num 1 := by
  have := A.rnd_int 1 (by norm_num)
  simpa using this

theorem rnd_nat (n : ℕ) (h : n ≤ 2 ^ 53) : A.rnd n = .num n := by
  have := A.rnd_int n (by rw [abs_of_nonneg (by positivity)]; exact_mod_cast h)
  simpa using this

theorem rnd_neg_nat (n : ℕ) (h : n ≤ 2 ^ 53) : A.rnd (-(n : ℝ)) = .num (-(n : ℝ)) := by
  have := A.rnd_int (-n) (by rw [abs_neg, abs_of_nonneg (by positivity)]; exact_mod_cast h)
  simpa using this

theorem rnd_between {a b x : ℝ} (ha : A.rnd a = .num a) (hb : A.rnd b = .num b) (h1 : a ≤ x) (h2 : x ≤ b) :
    ∃ y, A.rnd x = .num y ∧ a ≤ y ∧ y ≤ b ∧ A.rnd y = .num y := by
  have hl := A.rnd_mono a x h1
  have hu := A.rnd_mono x b h2
  rw [ha] at hl
  rw [hb] at hu
  cases hx : A.rnd x with
  | num y => rw [hx] at hl hu; exact ⟨y, rfl, hl, hu, A.rnd_rnd x y hx⟩
  | pinf => rw [hx] at hu; exact hu.elim
  | ninf => rw [hx] at hl; exact hl.elim
  | nan => rw [hx] at hl; exact hl.elim

theorem rnd_below {b x : ℝ} (hb : A.rnd b = .num b) (h : x ≤ b) :
    A.rnd x = .ninf ∨ ∃ y, A.rnd x = .num y ∧ y ≤ b := by
  have hu := A.rnd_mono x b h
  rw [hb] at hu
  cases hx : A.rnd x with
  | num y => rw [hx] at hu; exact Or.inr ⟨y, rfl, hu⟩
  | pinf => rw [hx] at hu; exact hu.elim
  | ninf => exact Or.inl rfl
  | nan => rw [hx] at hu; exact hu.elim

/-! ## Sums -/

theorem Sums.bound {l : List Dbl} {s : Dbl} (h : A.Sums l s) (c : ℕ) :
    l.length * c ≤ 2 ^ 53 →
    (∀ a ∈ l, ∃ x, a = .num x ∧ -(c : ℝ) ≤ x ∧ x ≤ c) →
    ∃ x, s = .num x ∧ -((l.length * c : ℕ) : ℝ) ≤ x ∧ x ≤ ((l.length * c : ℕ) : ℝ) := by
  induction h with
  | nil => intro _ _; exact ⟨0, rfl, by simp, by simp⟩
  | one a =>
    intro _ h
    obtain ⟨x, hx, h1, h2⟩ := h a (by simp)
    exact ⟨x, hx, by simpa using h1, by simpa using h2⟩
  | @two l r m a b _ _ _ _ hp ihl ihr =>
    intro hlen h
    have hml : m.length = l.length + r.length := by rw [← hp.length_eq, List.length_append]
    rw [hml] at hlen ⊢
    have e : (l.length + r.length) * c = l.length * c + r.length * c := by ring
    rw [e] at hlen ⊢
    obtain ⟨x, rfl, hx1, hx2⟩ := ihl (by omega)
      (fun a ha => h a (hp.subset (List.mem_append_left _ ha)))
    obtain ⟨y, rfl, hy1, hy2⟩ := ihr (by omega)
      (fun a ha => h a (hp.subset (List.mem_append_right _ ha)))
    obtain ⟨z, hz, hz1, hz2, _⟩ := rnd_between (A := A) (x := x + y) (rnd_neg_nat _ hlen) (rnd_nat _ hlen)
      (by push_cast; push_cast at hx1 hy1; linarith) (by push_cast; push_cast at hx2 hy2; linarith)
    exact ⟨z, hz, hz1, hz2⟩

/-- A sum of numbers between zero and one is at least every one of them and at most their number. -/
theorem Sums.unit {l : List Dbl} {s : Dbl} (h : A.Sums l s) :
    l.length ≤ 2 ^ 53 → (∀ a ∈ l, Unit01 a ∧ Value A a) →
    ∃ x, s = .num x ∧ 0 ≤ x ∧ x ≤ l.length ∧ A.rnd x = .num x ∧ ∀ y, .num y ∈ l → y ≤ x := by
  induction h with
  | nil => intro _ _; exact ⟨0, rfl, le_refl _, by simp, rnd_zero, by simp⟩
  | one a =>
    intro _ h
    obtain ⟨⟨x, rfl, h1, h2⟩, hv⟩ := h a (by simp)
    exact ⟨x, rfl, h1, by simpa using h2, hv x rfl, by
      intro y hy
      simp only [List.mem_singleton, Dbl.num.injEq] at hy
      exact hy.le⟩
  | @two l r m a b _ _ _ _ hp ihl ihr =>
    intro hlen h
    have hml : m.length = l.length + r.length := by rw [← hp.length_eq, List.length_append]
    rw [hml] at hlen ⊢
    obtain ⟨x, rfl, hx0, hx1, hxv, hxm⟩ := ihl (by omega)
      (fun a ha => h a (hp.subset (List.mem_append_left _ ha)))
    obtain ⟨y, rfl, hy0, hy1, hyv, hym⟩ := ihr (by omega)
      (fun a ha => h a (hp.subset (List.mem_append_right _ ha)))
    obtain ⟨z, hz, hz1, hz2, hzv⟩ := rnd_between (A := A) (x := x + y) rnd_zero (rnd_nat _ hlen)
      (by linarith) (by push_cast; linarith)
    obtain ⟨z1, hz', hxz, _⟩ := rnd_between (A := A) (x := x + y) hxv (rnd_nat _ hlen)
      (by linarith) (by push_cast; linarith)
    obtain ⟨z2, hz'', hyz, _⟩ := rnd_between (A := A) (x := x + y) hyv (rnd_nat _ hlen)
      (by linarith) (by push_cast; linarith)
    have e1 : z1 = z := by rw [hz] at hz'; cases hz'; rfl
    have e2 : z2 = z := by rw [hz] at hz''; cases hz''; rfl
    subst e1; subst e2
    refine ⟨_, hz, hz1, hz2, hzv, fun w hw => ?_⟩
    rcases List.mem_append.1 (hp.symm.subset hw) with hw | hw
    · exact (hxm w hw).trans hxz
    · exact (hym w hw).trans hyz

theorem Sums.zeros {l : List Dbl} {s : Dbl} (h : A.Sums l s) : (∀ a ∈ l, a = .num 0) → s = .num 0 := by
  induction h with
  | nil => intro _; rfl
  | one a => intro h; exact h a (by simp)
  | two _ _ _ _ hp ihl ihr =>
    intro h
    rw [ihl (fun a ha => h a (hp.subset (List.mem_append_left _ ha))),
      ihr (fun a ha => h a (hp.subset (List.mem_append_right _ ha)))]
    simp only [add, add_zero]
    exact rnd_zero

theorem add_nan_left (a : Dbl) : A.add .nan a = .nan := by cases a <;> rfl

theorem add_nan_right (a : Dbl) : A.add a .nan = .nan := by cases a <;> rfl

theorem mul_nan_left (a : Dbl) : A.mul .nan a = .nan := by cases a <;> rfl

theorem mul_nan_right (a : Dbl) : A.mul a .nan = .nan := by cases a <;> rfl

theorem div_nan_left (a : Dbl) : A.div .nan a = .nan := by cases a <;> rfl

/-- One NaN is enough. -/
theorem Sums.nan {l : List Dbl} {s : Dbl} (h : A.Sums l s) : Dbl.nan ∈ l → s = .nan := by
  induction h with
  | nil => intro h; cases h
  | one a => intro h; exact (List.mem_singleton.1 h).symm
  | two _ _ _ _ hp ihl ihr =>
    intro h
    rcases List.mem_append.1 (hp.symm.subset h) with h | h
    · rw [ihl h, add_nan_left]
    · rw [ihr h, add_nan_right]

/-- Whatever is to be added, some order exists. -/
theorem Sums.exists (l : List Dbl) : ∃ s, A.Sums l s := by
  induction l with
  | nil => exact ⟨_, Sums.nil⟩
  | cons a l ih =>
    obtain ⟨s, hs⟩ := ih
    cases l with
    | nil => exact ⟨_, Sums.one a⟩
    | cons b l => exact ⟨_, Sums.two (Sums.one a) hs (by simp) (by simp) (List.Perm.refl _)⟩

/-! ## Softmax -/

/-- The matrix is an `N x F` matrix of numbers. -/
def FiniteMtx (A : Fpu) (N F : ℕ) (y : Mtx) : Prop := ∀ n < N, ∀ j < F, Finite (y n j) ∧ Value A (y n j)

/-- The shifted exponential of an entry that is not greater than the maximum. -/
theorem shifted_unit {x m : ℝ} (h : x ≤ m) :
    Unit01 (A.fexp (A.sub (.num x) (.num m))) ∧ Value A (A.fexp (A.sub (.num x) (.num m))) := by
  rcases rnd_below (A := A) (x := x + -m) rnd_zero (by linarith) with h0 | ⟨y, hy, h0⟩
  · have e : A.fexp (A.sub (.num x) (.num m)) = .num 0 := by
      simp only [sub, neg, add, h0, fexp]
    rw [e]
    exact ⟨⟨0, rfl, le_refl _, zero_le_one⟩, fun x hx => by cases hx; exact rnd_zero⟩
  · have e : A.fexp (A.sub (.num x) (.num m)) = A.exp y := by
      simp only [sub, neg, add, hy, fexp]
    rw [e]
    obtain ⟨v, hv, h1, h2⟩ := A.exp_unit y h0
    exact ⟨⟨v, hv, h1, h2⟩, fun x hx => A.exp_rnd y x hx⟩

/-- It does not underflow if the entry is near the maximum ... -/
theorem shifted_pos {x m : ℝ} (h : x ≤ m) (hn : m - 744 ≤ x) :
    ∃ e, A.fexp (A.sub (.num x) (.num m)) = .num e ∧ 0 < e := by
  obtain ⟨y, hy, h1, h2, _⟩ := rnd_between (A := A) (x := x + -m) (rnd_neg_nat 744 (by norm_num)) rnd_zero
    (by push_cast; linarith) (by linarith)
  push_cast at h1
  have e : A.fexp (A.sub (.num x) (.num m)) = A.exp y := by simp only [sub, neg, add, hy, fexp]
  obtain ⟨v, hv, _⟩ := A.exp_unit y h2
  exact ⟨v, by rw [e, hv], A.exp_pos y v h1 hv⟩

/-- ... it is one at the maximum ... -/
theorem shifted_one (m : ℝ) : A.fexp (A.sub (.num m) (.num m)) = .num 1 := by
  simp only [sub, neg, add, add_neg_cancel, rnd_zero, fexp, A.exp_zero]

/-- ... and it does underflow if the entry is far below. -/
theorem shifted_zero {x m : ℝ} (h : x ≤ m - 746) : A.fexp (A.sub (.num x) (.num m)) = .num 0 := by
  rcases rnd_below (A := A) (x := x + -m) (rnd_neg_nat 746 (by norm_num)) (by push_cast; linarith) with
    h0 | ⟨y, hy, h0⟩
  · simp only [sub, neg, add, h0, fexp]
  · simp only [sub, neg, add, hy, fexp]
    exact A.exp_underflow y (by push_cast at h0; exact h0)

theorem mem_rowOf {F : ℕ} {y : Mtx} {n : ℕ} {a : Dbl} : a ∈ rowOf F y n ↔ ∃ j < F, y n j = a := by
  simp [rowOf]

theorem rowOf_length (F : ℕ) (y : Mtx) (n : ℕ) : (rowOf F y n).length = F := by simp [rowOf]

theorem mem_coeffs {N F : ℕ} {y : Mtx} {a : Dbl} : a ∈ coeffs N F y ↔ ∃ n < N, ∃ j < F, y n j = a := by
  simp [coeffs, mem_rowOf]

theorem coeffs_length (N F : ℕ) (y : Mtx) : (coeffs N F y).length = N * F := by
  simp [coeffs, rowOf_length, List.length_flatMap]

theorem isMax_num {N F : ℕ} {y : Mtx} {m : Dbl} (hy : FiniteMtx A N F y) (hm : IsMax N F y m) :
    ∃ v, m = .num v := by
  obtain ⟨⟨n, hn, j, hj, rfl⟩, _⟩ := hm
  exact (hy n hn j hj).1

/-- The quotient of a number between zero and one and a number that is at least as great. -/
theorem quotient_unit {e s : ℝ} (h0 : 0 ≤ e) (hs : 0 < s) (hes : e ≤ s) : Unit01 (A.div (.num e) (.num s)) := by
  obtain ⟨y, hy, h1, h2, _⟩ := rnd_between (A := A) (x := e / s) rnd_zero rnd_one
    (div_nonneg h0 hs.le) ((div_le_one hs).2 hes)
  exact ⟨y, by simp only [div, if_neg hs.ne', hy], h1, h2⟩

/-- A row with an entry near the maximum of the batch becomes a row of numbers between zero and one. -/
theorem softmax_near {N F : ℕ} {y z : Mtx} (hF : F ≤ 2 ^ 53) (hy : FiniteMtx A N F y) (h : Softmax A N F y z)
    {m : ℝ} (hm : IsMax N F y (.num m)) {n j : ℕ} {x : ℝ} (hn : n < N) (hj : j < F) (hx : y n j = .num x)
    (hnear : m - 744 ≤ x) {k : ℕ} (hk : k < F) : Unit01 (z n k) := by
  obtain ⟨m', hm', h⟩ := h
  obtain ⟨v, rfl⟩ := isMax_num hy hm'
  have hvm : v = m := by
    obtain ⟨⟨a, ha, b, hb, e⟩, hu⟩ := hm
    obtain ⟨⟨a', ha', b', hb', e'⟩, hu'⟩ := hm'
    have h1 := hu a' ha' b' hb'
    have h2 := hu' a ha b hb
    rw [e'] at h1
    rw [e] at h2
    exact le_antisymm h1 h2
  subst hvm
  obtain ⟨s, hs, hz⟩ := h n hn
  have hle : ∀ k < F, ∀ w, y n k = .num w → w ≤ v := by
    intro k hk w hw
    have := hm.2 n hn k hk
    rw [hw] at this
    exact this
  obtain ⟨t, rfl, _, _, _, hmax⟩ := Sums.unit hs (by rw [rowOf_length]; exact hF) (by
    intro a ha
    obtain ⟨k, hk, rfl⟩ := mem_rowOf.1 ha
    obtain ⟨w, hw⟩ := (hy n hn k hk).1
    simp only [hw]
    exact shifted_unit (hle k hk w hw))
  have ht : 0 < t := by
    obtain ⟨e, he, hp⟩ := shifted_pos (A := A) (hle j hj x hx) hnear
    refine lt_of_lt_of_le hp (hmax e (mem_rowOf.2 ⟨j, hj, ?_⟩))
    simp only [hx]
    exact he
  obtain ⟨w, hw⟩ := (hy n hn k hk).1
  obtain ⟨⟨e, he, h0, _⟩, _⟩ := shifted_unit (A := A) (hle k hk w hw)
  have hmem : e ≤ t := hmax e (mem_rowOf.2 ⟨k, hk, by simp only [hw]; exact he⟩)
  rw [hz k hk, hw, he]
  exact quotient_unit h0 ht hmem

/-- A single instance: whatever the finite activations are, softmax gives numbers between zero and one. -/
theorem softmax_single {F : ℕ} {y z : Mtx} (hF : F ≤ 2 ^ 53) (hy : FiniteMtx A 1 F y) (h : Softmax A 1 F y z)
    {k : ℕ} (hk : k < F) : Unit01 (z 0 k) := by
  obtain ⟨m, hm, _⟩ := id h
  obtain ⟨v, rfl⟩ := isMax_num hy hm
  obtain ⟨⟨n, hn, j, hj, e⟩, _⟩ := id hm
  obtain rfl : n = 0 := by omega
  exact softmax_near hF hy h hm hn hj e (by linarith) hk

/-- The greatest of its predictions is positive. -/
theorem softmax_single_pos {F : ℕ} {y z : Mtx} (hF : F ≤ 2 ^ 53) (hy : FiniteMtx A 1 F y)
    (h : Softmax A 1 F y z) {k : ℕ} (hk : k < F) (hmax : IsMax 1 F y (y 0 k)) :
    ∃ x, z 0 k = .num x ∧ 0 < x := by
  obtain ⟨m, hm, h⟩ := h
  obtain ⟨v, rfl⟩ := isMax_num hy hm
  obtain ⟨w, hw⟩ := (hy 0 (by omega) k hk).1
  have hwv : w = v := by
    obtain ⟨⟨a, ha, b, hb, e⟩, hu⟩ := hm
    have h1 := hmax.2 a ha b hb
    have h2 := hu 0 (by omega) k hk
    rw [e, hw] at h1
    rw [hw] at h2
    exact le_antisymm h2 h1
  subst hwv
  obtain ⟨s, hs, hz⟩ := h 0 (by omega)
  obtain ⟨t, rfl, _, ht, _, hmx⟩ := Sums.unit hs (by rw [rowOf_length]; exact hF) (by
    intro a ha
    obtain ⟨i, hi, rfl⟩ := mem_rowOf.1 ha
    obtain ⟨u, hu⟩ := (hy 0 (by omega) i hi).1
    have hle := hm.2 0 (by omega) i hi
    rw [hu] at hle
    simp only [hu]
    exact shifted_unit hle)
  rw [rowOf_length] at ht
  have h1 : (1 : ℝ) ≤ t := hmx 1 (mem_rowOf.2 ⟨k, hk, by simp only [hw]; exact shifted_one w⟩)
  have hF' : (F : ℝ) ≤ 2 ^ 53 := by exact_mod_cast hF
  have ht0 : (0 : ℝ) < t := by linarith
  obtain ⟨q, hq, hq1, _, _⟩ := rnd_between (A := A) (x := 1 / t) (A.rnd_pow 53 (by norm_num)) rnd_one
    (by
      rw [inv_pow, one_div]
      exact inv_anti₀ ht0 (ht.trans hF'))
    ((div_le_one ht0).2 h1)
  refine ⟨q, ?_, lt_of_lt_of_le (by positivity) hq1⟩
  rw [hz k hk, hw, shifted_one]
  simp only [div, if_neg ht0.ne', hq]

/-- A row that is far below the maximum of the batch becomes a row of NaN. -/
theorem softmax_far {N F : ℕ} {y z : Mtx} (hy : FiniteMtx A N F y) (h : Softmax A N F y z) {n a b : ℕ}
    (hn : n < N) (ha : a < N) (hb : b < F) {v : ℝ} (hv : y a b = .num v)
    (hfar : ∀ j < F, ∀ x, y n j = .num x → x ≤ v - 746) {k : ℕ} (hk : k < F) : z n k = .nan := by
  obtain ⟨m, hm, h⟩ := h
  obtain ⟨w, rfl⟩ := isMax_num hy hm
  have hvw : v ≤ w := by
    have := hm.2 a ha b hb
    rw [hv] at this
    exact this
  obtain ⟨s, hs, hz⟩ := h n hn
  have hzero : ∀ j < F, A.fexp (A.sub (y n j) (.num w)) = .num 0 := by
    intro j hj
    obtain ⟨x, hx⟩ := (hy n hn j hj).1
    rw [hx]
    exact shifted_zero (by have := hfar j hj x hx; linarith)
  rw [Sums.zeros hs (by
    intro a ha
    obtain ⟨j, hj, rfl⟩ := mem_rowOf.1 ha
    exact hzero j hj)] at hz
  rw [hz k hk, hzero k hk]
  simp [div]

/-- Every matrix of numbers that is not empty has a maximum. -/
theorem isMax_exists {N F : ℕ} {y : Mtx} (hN : 0 < N) (hF : 0 < F) (hy : FiniteMtx A N F y) :
    ∃ m, IsMax N F y m := by
  obtain ⟨p, hp, hmax⟩ := Finset.exists_max_image (Finset.range N ×ˢ Finset.range F)
    (fun p => match y p.1 p.2 with | .num x => x | _ => 0) ⟨(0, 0), by simp [hN, hF]⟩
  simp only [Finset.mem_product, Finset.mem_range] at hp
  refine ⟨y p.1 p.2, ⟨p.1, hp.1, p.2, hp.2, rfl⟩, fun n hn j hj => ?_⟩
  have := hmax (n, j) (by simp [hn, hj])
  obtain ⟨a, ha⟩ := (hy n hn j hj).1
  obtain ⟨b, hb⟩ := (hy p.1 hp.1 p.2 hp.2).1
  simp only [ha, hb] at this ⊢
  exact this

/-- Softmax always returns. -/
theorem softmax_exists {N F : ℕ} {y : Mtx} (hN : 0 < N) (hF : 0 < F) (hy : FiniteMtx A N F y) :
    ∃ z, Softmax A N F y z := by
  obtain ⟨m, hm⟩ := isMax_exists hN hF hy
  have hs : ∀ n, ∃ s, A.Sums (rowOf F (fun n j => A.fexp (A.sub (y n j) m)) n) s := fun n => Sums.exists _
  choose s hs using hs
  exact ⟨fun n j => A.div (A.fexp (A.sub (y n j) m)) (s n), m, hm, fun n _ => ⟨s n, hs n, fun j _ => rfl⟩⟩

/-- The prediction for an instance depends on the other instances of the batch: for *every* instance there is
another one such that the prediction of both at once is NaN for the first, although it gets
probabilities when it is alone. -/
theorem softmax_batch_fails {F : ℕ} (hF0 : 0 < F) (hF : F ≤ 2 ^ 53) (x : ℕ → ℝ)
    (hx : ∀ j < F, A.rnd (x j) = .num (x j)) {c : ℝ} (hc : A.rnd c = .num c) (hbig : ∀ j < F, x j ≤ c - 746) :
    ∃ y : Mtx, (∀ j < F, y 0 j = .num (x j)) ∧ FiniteMtx A 2 F y ∧ FiniteMtx A 1 F y ∧
      (∃ z, Softmax A 2 F y z) ∧ (∃ z, Softmax A 1 F y z) ∧
      (∀ z, Softmax A 1 F y z → ∀ j < F, Unit01 (z 0 j)) ∧
      (∀ z, Softmax A 2 F y z → ∀ j < F, z 0 j = .nan) := by
  let y : Mtx := fun n j => if n = 0 then .num (x j) else .num c
  have h2 : FiniteMtx A 2 F y := by
    intro n _ j hj
    by_cases h : n = 0
    · exact ⟨⟨x j, if_pos h⟩, fun v hv => by
        rw [show y n j = .num (x j) from if_pos h] at hv; cases hv; exact hx j hj⟩
    · exact ⟨⟨c, if_neg h⟩, fun v hv => by
        rw [show y n j = .num c from if_neg h] at hv; cases hv; exact hc⟩
  have h1 : FiniteMtx A 1 F y := fun n hn j hj => h2 n (by omega) j hj
  refine ⟨y, fun j _ => if_pos rfl, h2, h1, softmax_exists (by omega) hF0 h2,
    softmax_exists (by omega) hF0 h1, fun z hz j hj => softmax_single hF h1 hz hj, fun z hz j hj => ?_⟩
  refine softmax_far h2 hz (a := 1) (b := 0) (by omega) (by omega) hF0 (v := c) rfl ?_ hj
  intro i hi v hv
  rw [show y 0 i = .num (x i) from if_pos rfl] at hv
  cases hv
  exact hbig i hi

/-! ## Error functions -/

/-- The constant of the cross entropy. -/
theorem epsilon : ∃ c, A.rnd 1e-10 = .num c ∧ (2 : ℝ)⁻¹ ^ 34 ≤ c ∧ c ≤ (2 : ℝ)⁻¹ ^ 33 := by
  obtain ⟨c, hc, h1, h2, _⟩ := rnd_between (A := A) (x := 1e-10) (A.rnd_pow 34 (by norm_num))
    (A.rnd_pow 33 (by norm_num)) (by norm_num) (by norm_num)
  exact ⟨c, hc, h1, h2⟩

/-- The cross entropy of predictions and targets between zero and one is a number. -/
theorem crossEntropy_finite {N F : ℕ} {Y T : Mtx} {value : Dbl} (hN : 0 < N) (hN53 : N ≤ 2 ^ 53)
    (hb : N * F * 34 ≤ 2 ^ 53)
    (hY : ∀ n < N, ∀ j < F, Unit01 (Y n j)) (hT : ∀ n < N, ∀ j < F, Unit01 (T n j))
    (h : CrossEntropy A N F Y T value) :
    ∃ x, value = .num x ∧ -((F * 34 : ℕ) : ℝ) ≤ x ∧ x ≤ ((F * 34 : ℕ) : ℝ) := by
  obtain ⟨s, hs, rfl⟩ := h
  obtain ⟨c, hc, hc1, hc2⟩ := epsilon (A := A)
  have hterm : ∀ n < N, ∀ j < F, ∃ x, A.mul (T n j) (A.flog (A.add (Y n j) (A.rnd 1e-10))) = .num x ∧
      -((34 : ℕ) : ℝ) ≤ x ∧ x ≤ ((34 : ℕ) : ℝ) := by
    intro n hn j hj
    obtain ⟨p, hp, hp0, hp1⟩ := hY n hn j hj
    obtain ⟨t, ht, ht0, ht1⟩ := hT n hn j hj
    obtain ⟨q, hq, hq1, hq2, _⟩ := rnd_between (A := A) (x := p + c) (A.rnd_pow 34 (by norm_num))
      (rnd_nat 2 (by norm_num)) (by linarith) (by
        have : (2 : ℝ)⁻¹ ^ 33 ≤ 1 := by norm_num
        push_cast; linarith)
    push_cast at hq2
    obtain ⟨l, hl, hl1, hl2, _⟩ := A.log_num 34 q (by norm_num) hq1 hq2
    have hq0 : 0 < q := lt_of_lt_of_le (by positivity) hq1
    push_cast at hl1
    obtain ⟨r, hr, hr1, hr2, _⟩ := rnd_between (A := A) (x := t * l) (rnd_neg_nat 34 (by norm_num))
      (rnd_nat 34 (by norm_num)) (by push_cast; nlinarith) (by push_cast; nlinarith)
    refine ⟨r, ?_, hr1, hr2⟩
    rw [ht, hp, hc]
    simp only [add, hq, flog, if_pos hq0, hl, mul, hr]
  obtain ⟨x, rfl, hx1, hx2⟩ := Sums.bound hs 34 (by rw [coeffs_length]; exact hb) (by
    intro a ha
    obtain ⟨n, hn, j, hj, rfl⟩ := mem_coeffs.1 ha
    exact hterm n hn j hj)
  rw [coeffs_length] at hx1 hx2
  have hF : F * 34 ≤ 2 ^ 53 := by
    refine le_trans ?_ hb
    rw [mul_assoc]
    exact Nat.le_mul_of_pos_left _ hN
  have hNr : (0 : ℝ) < N := by exact_mod_cast hN
  obtain ⟨q, hq, hq1, hq2, _⟩ := rnd_between (A := A) (x := -x / N) (rnd_neg_nat _ hF) (rnd_nat _ hF)
    (by rw [le_div_iff₀ hNr]; push_cast at hx2 ⊢; nlinarith)
    (by rw [div_le_iff₀ hNr]; push_cast at hx1 ⊢; nlinarith)
  refine ⟨q, ?_, hq1, hq2⟩
  rw [rnd_nat N hN53]
  simp only [neg, div, if_neg hNr.ne', hq]

/-- A NaN among the predictions makes the cross entropy NaN ... -/
theorem crossEntropy_nan {N F : ℕ} {Y T : Mtx} {value : Dbl} {n j : ℕ} (hn : n < N) (hj : j < F)
    (hY : Y n j = .nan) (h : CrossEntropy A N F Y T value) : value = .nan := by
  obtain ⟨s, hs, rfl⟩ := h
  rw [Sums.nan hs (mem_coeffs.2 ⟨n, hn, j, hj, by
    rw [hY, add_nan_left]
    exact mul_nan_right _⟩)]
  exact div_nan_left _

/-- ... and the mean squared error. -/
theorem meanSquaredError_nan {N F : ℕ} {D : Mtx} {value : Dbl} {n j : ℕ} (hn : n < N) (hj : j < F)
    (hD : D n j = .nan) (h : MeanSquaredError A N F D value) : value = .nan := by
  obtain ⟨s, hs, rfl⟩ := h
  rw [Sums.nan hs (mem_coeffs.2 ⟨n, hn, j, hj, by rw [hD, mul_nan_left]⟩)]
  exact div_nan_left _

theorem delta_nan {yd Y T : Mtx} {n j : ℕ} (hY : Y n j = .nan) : delta A yd Y T n j = .nan := by
  rw [delta, hY, sub, add_nan_left, mul_nan_right]

/-- One instance that is far below another one in the same batch makes the error and all derivatives of the
parameters of the output layer NaN: whatever the targets, the inputs of the layer and the derivative of the
activation function are. -/
theorem far_instance_destroys_gradient {N F : ℕ} {y Y : Mtx} (hy : FiniteMtx A N F y) (h : Softmax A N F y Y)
    {n a b : ℕ} (hn : n < N) (ha : a < N) (hb : b < F) {v : ℝ} (hv : y a b = .num v)
    (hfar : ∀ j < F, ∀ x, y n j = .num x → x ≤ v - 746) (T : Mtx) :
    (∀ value, CrossEntropy A N F Y T value → value = .nan) ∧
    (∀ yd x : Mtx, ∀ j < F, ∀ i d, WeightDerivative A N yd Y T x j i d → d = .nan) ∧
    (∀ yd : Mtx, ∀ j < F, ∀ d, BiasDerivative A N yd Y T j d → d = .nan) := by
  have hnan : ∀ j < F, Y n j = .nan := fun j hj => softmax_far hy h hn ha hb hv hfar hj
  refine ⟨fun value hval => crossEntropy_nan hn hb (hnan b hb) hval, fun yd x j hj i d hd => ?_,
    fun yd j hj d hd => ?_⟩
  · exact Sums.nan hd (List.mem_map.2 ⟨n, List.mem_range.2 hn, by rw [delta_nan (hnan j hj), mul_nan_left]⟩)
  · exact Sums.nan hd (List.mem_map.2 ⟨n, List.mem_range.2 hn, delta_nan (hnan j hj)⟩)

/-! ## Logistic function -/

/-- The logistic function of everything but NaN is a number between zero and one. -/
theorem logistic_unit {a : Dbl} (ha : a ≠ .nan) : Unit01 (logistic A a) ∧ Value A (logistic A a) := by
  have hz : Unit01 (.num 0) ∧ Value A (.num 0) :=
    ⟨⟨0, rfl, le_refl _, zero_le_one⟩, fun x hx => by cases hx; exact rnd_zero⟩
  have ho : Unit01 (.num 1) ∧ Value A (.num 1) :=
    ⟨⟨1, rfl, zero_le_one, le_refl _⟩, fun x hx => by cases hx; exact rnd_one⟩
  unfold logistic
  by_cases h1 : Lt a (.num (-45))
  · rw [if_pos h1]; exact hz
  rw [if_neg h1]
  by_cases h2 : Lt (.num 45) a
  · rw [if_pos h2]; exact ho
  rw [if_neg h2]
  cases a with
  | nan => exact absurd rfl ha
  | pinf => exact absurd ⟨trivial, id⟩ h2
  | ninf => exact absurd ⟨trivial, id⟩ h1
  | num x =>
    have hx1 : -45 ≤ x := by
      by_contra hc
      exact h1 ⟨(not_le.1 hc).le, hc⟩
    have hx2 : x ≤ 45 := by
      by_contra hc
      exact h2 ⟨(not_le.1 hc).le, hc⟩
    have hexp : ∃ e, A.exp (-x) = .num e ∧ 0 < e := by
      rcases le_total (-x) 0 with h | h
      · obtain ⟨e, he, _⟩ := A.exp_unit (-x) h
        exact ⟨e, he, A.exp_pos _ _ (by linarith) he⟩
      · obtain ⟨e, he⟩ := A.exp_big (-x) h (by linarith)
        exact ⟨e, he, A.exp_pos _ _ (by linarith) he⟩
    obtain ⟨e, he, hp⟩ := hexp
    have hle := A.rnd_mono 1 (1 + e) (by linarith)
    rw [rnd_one] at hle
    cases hr : A.rnd (1 + e) with
    | nan => rw [hr] at hle; exact hle.elim
    | ninf => rw [hr] at hle; exact hle.elim
    | pinf =>
      have e' : A.div (.num 1) (A.add (.num 1) (A.fexp (neg (.num x)))) = .num 0 := by
        simp only [neg, fexp, he, add, hr, div]
      rw [e']; exact hz
    | num s =>
      rw [hr] at hle
      have hs : (1 : ℝ) ≤ s := hle
      have hs0 : (0 : ℝ) < s := by linarith
      have e' : A.div (.num 1) (A.add (.num 1) (A.fexp (neg (.num x)))) = A.rnd (1 / s) := by
        simp only [neg, fexp, he, add, hr, div, if_neg hs0.ne']
      obtain ⟨q, hq, hq1, hq2, hqv⟩ := rnd_between (A := A) (x := 1 / s) rnd_zero rnd_one
        (by positivity) ((div_le_one hs0).2 hs)
      rw [e', hq]
      exact ⟨⟨q, rfl, hq1, hq2⟩, fun w hw => by cases hw; exact hqv⟩

/-- So is its derivative. -/
theorem logisticDerivative_unit {z : Dbl} (hz : Unit01 z) : Unit01 (logisticDerivative A z) := by
  obtain ⟨x, rfl, h0, h1⟩ := hz
  obtain ⟨d, hd, hd0, hd1, _⟩ := rnd_between (A := A) (x := 1 + -x) rnd_zero rnd_one (by linarith) (by linarith)
  obtain ⟨p, hp, hp0, hp1, _⟩ := rnd_between (A := A) (x := x * d) rnd_zero rnd_one (by positivity)
    (by nlinarith)
  exact ⟨p, by simp only [logisticDerivative, sub, neg, add, hd, mul, hp], hp0, hp1⟩

/-! ## L1 penalty -/

/-- A weight that is not zero: the penalty changes the derivative by at most one if the coefficient is at most
one. -/
theorem withL1_finite {l1 w d : ℝ} (hl0 : 0 ≤ l1) (hl1 : l1 ≤ 1) (hw : w ≠ 0) (hwv : A.rnd |w| = .num |w|)
    (hwn : A.rnd (-|w|) = .num (-|w|)) {c : ℕ} (hc : c + 1 ≤ 2 ^ 53) (hd1 : -(c : ℝ) ≤ d) (hd2 : d ≤ c) :
    ∃ x, withL1 A (.num l1) (.num w) (.num d) = .num x ∧ -((c + 1 : ℕ) : ℝ) ≤ x ∧ x ≤ ((c + 1 : ℕ) : ℝ) := by
  have habs : 0 < |w| := abs_pos.2 hw
  obtain ⟨p, hp, hp1, hp2, _⟩ := rnd_between (A := A) (x := l1 * w) hwn hwv
    (by have := neg_abs_le w; nlinarith) (by have := le_abs_self w; nlinarith)
  obtain ⟨q, hq, hq1, hq2, _⟩ := rnd_between (A := A) (x := p / |w|) (rnd_neg_nat 1 (by norm_num))
    (rnd_nat 1 (by norm_num)) (by rw [le_div_iff₀ habs]; push_cast; linarith)
    (by rw [div_le_iff₀ habs]; push_cast; linarith)
  push_cast at hq1 hq2
  obtain ⟨r, hr, hr1, hr2, _⟩ := rnd_between (A := A) (x := d + q) (rnd_neg_nat (c + 1) hc) (rnd_nat (c + 1) hc)
    (by push_cast; linarith) (by push_cast; linarith)
  exact ⟨r, by simp only [withL1, mul, hp, fabs, div, if_neg habs.ne', hq, add, hr], hr1, hr2⟩

/-- The derivative of a weight that is zero is NaN, whatever the coefficient of the penalty is. -/
theorem withL1_zero_fails (l1 : ℝ) (d : Dbl) : withL1 A (.num l1) (.num 0) d = .nan := by
  simp only [withL1, mul, mul_zero, rnd_zero, fabs, abs_zero, div, if_true]
  exact add_nan_right d

/-! ## Normal random numbers -/

/-- `generate(0.0, 1.0)`. -/
theorem generate_unit {M r : ℕ} (hM : 0 < M) (hM53 : M ≤ 2 ^ 53) (hr : r ≤ M) :
    ∃ u, generate A M r = .num u ∧ 0 ≤ u ∧ u ≤ 1 ∧ A.rnd u = .num u ∧ (0 < r → (2 : ℝ)⁻¹ ^ 53 ≤ u) ∧
      (r = 0 → u = 0) := by
  have hMr : (0 : ℝ) < M := by exact_mod_cast hM
  have hrM : (r : ℝ) ≤ M := by exact_mod_cast hr
  obtain ⟨q, hq, hq0, hq1, hqv⟩ := rnd_between (A := A) (x := (r : ℝ) / M) rnd_zero rnd_one
    (by positivity) ((div_le_one hMr).2 hrM)
  refine ⟨q, ?_, hq0, hq1, hqv, fun h => ?_, fun h => ?_⟩
  · simp only [generate, rnd_nat r (hr.trans hM53), rnd_nat M hM53, div, if_neg hMr.ne', hq, mul, mul_one, hqv,
      add, add_zero]
  · obtain ⟨q', hq', h1, _⟩ := rnd_between (A := A) (x := (r : ℝ) / M) (A.rnd_pow 53 (by norm_num)) rnd_one
      (by
        rw [le_div_iff₀ hMr, inv_pow]
        have h1 : (1 : ℝ) ≤ r := by exact_mod_cast h
        have h2 : (M : ℝ) ≤ 2 ^ 53 := by exact_mod_cast hM53
        calc ((2 : ℝ) ^ 53)⁻¹ * M ≤ ((2 : ℝ) ^ 53)⁻¹ * 2 ^ 53 := by gcongr
          _ = 1 := inv_mul_cancel₀ (by positivity)
          _ ≤ r := h1) ((div_le_one hMr).2 hrM)
    rw [hq] at hq'
    cases hq'
    exact h1
  · subst h
    rw [Nat.cast_zero, zero_div, rnd_zero] at hq
    cases hq
    rfl

/-- The cosine in `sampleNormalDistribution`. -/
theorem cosine {M r : ℕ} (hM : 0 < M) (hM53 : M ≤ 2 ^ 53) (hr : r ≤ M) :
    ∃ c, A.fcos (A.mul (A.mul (.num 2) (A.rnd Real.pi)) (generate A M r)) = .num c ∧ -1 ≤ c ∧ c ≤ 1 ∧ c ≠ 0 := by
  obtain ⟨u, hu, hu0, hu1, _⟩ := generate_unit (A := A) hM hM53 hr
  obtain ⟨p, hp, hp1, hp2, _⟩ := rnd_between (A := A) (x := Real.pi) (rnd_nat 3 (by norm_num))
    (rnd_nat 4 (by norm_num)) (by push_cast; exact Real.pi_gt_three.le) (by push_cast; exact Real.pi_le_four)
  push_cast at hp1 hp2
  obtain ⟨t, ht, ht1, ht2, _⟩ := rnd_between (A := A) (x := 2 * p) rnd_zero
    (rnd_nat 8 (by norm_num)) (by linarith) (by push_cast; linarith)
  push_cast at ht2
  obtain ⟨w, hw, _, _, hwv⟩ := rnd_between (A := A) (x := t * u) rnd_zero
    (rnd_nat 8 (by norm_num)) (by positivity) (by push_cast; nlinarith)
  obtain ⟨c, hc, hc1, hc2, _⟩ := A.cos_num w
  refine ⟨c, ?_, hc1, hc2, fun h0 => ?_⟩
  · simp only [hu, hp, mul, ht, hw, fcos, hc]
  · exact A.cos_ne w hwv (by rw [hc, h0])

/-- If the first random number is not zero, the result is a number of absolute value at most 32 ... -/
theorem sampleNormal_finite {M r₁ r₂ : ℕ} (hM53 : M ≤ 2 ^ 53) (h0 : 0 < r₁) (h1 : r₁ ≤ M) (h2 : r₂ ≤ M) :
    ∃ x, sampleNormal A M r₁ r₂ = .num x ∧ -32 ≤ x ∧ x ≤ 32 := by
  have hM : 0 < M := by omega
  obtain ⟨u, hu, hu0, hu1, _, hlow, _⟩ := generate_unit (A := A) hM hM53 h1
  have hlow := hlow h0
  have hup : 0 < u := lt_of_lt_of_le (by positivity) hlow
  obtain ⟨l, hl, hl1, _, hl2⟩ := A.log_num 53 u (by norm_num) hlow (by linarith)
  have hl2 := hl2 hu1
  push_cast at hl1
  obtain ⟨s, hs, hs1, hs2, _⟩ := rnd_between (A := A) (x := -2 * l) rnd_zero (rnd_nat 106 (by norm_num))
    (by linarith) (by push_cast; linarith)
  push_cast at hs2
  obtain ⟨q, hq, hq1, hq2⟩ := A.sqrt_num s hs1 (by linarith)
  obtain ⟨c, hc, hc1, hc2, _⟩ := cosine (A := A) hM hM53 h2
  obtain ⟨x, hx, hx1, hx2, _⟩ := rnd_between (A := A) (x := q * c) (rnd_neg_nat 32 (by norm_num))
    (rnd_nat 32 (by norm_num)) (by push_cast; nlinarith) (by push_cast; nlinarith)
  refine ⟨x, ?_, by exact_mod_cast hx1, by exact_mod_cast hx2⟩
  unfold sampleNormal
  rw [hc, hu]
  simp only [flog, if_pos hup, hl, mul, hs, fsqrt, if_pos hs1, hq, hx]

/-- ... but if it is zero, the result is infinite, whatever the second one is. -/
theorem sampleNormal_zero_fails {M r₂ : ℕ} (hM : 0 < M) (hM53 : M ≤ 2 ^ 53) (h2 : r₂ ≤ M) :
    sampleNormal A M 0 r₂ = .pinf ∨ sampleNormal A M 0 r₂ = .ninf := by
  obtain ⟨u, hu, _, _, _, _, hz⟩ := generate_unit (A := A) hM hM53 (Nat.zero_le M)
  obtain rfl := hz rfl
  obtain ⟨c, hc, _, _, hne⟩ := cosine (A := A) hM hM53 h2
  have e : sampleNormal A M 0 r₂ = infTimes false (.num c) := by
    unfold sampleNormal
    rw [hc, hu]
    have e1 : infTimes true (.num (-2)) = .pinf := by simp [infTimes]
    simp only [flog, lt_irrefl, if_false, if_true, mul, e1, fsqrt]
  rw [e]
  simp only [infTimes, if_neg hne]
  split_ifs
  · exact Or.inl rfl
  · exact Or.inr rfl

/-- The initial weights: numbers if the first random number is not zero. -/
theorem normalWeight_finite {M r₁ r₂ : ℕ} (hM53 : M ≤ 2 ^ 53) (h0 : 0 < r₁) (h1 : r₁ ≤ M) (h2 : r₂ ≤ M)
    {sd : ℝ} (hs0 : 0 ≤ sd) (hs1 : sd ≤ 2 ^ 48) :
    ∃ x, normalWeight A M r₁ r₂ (.num sd) = .num x ∧ -(2 ^ 53) ≤ x ∧ x ≤ 2 ^ 53 := by
  obtain ⟨x, hx, hx1, hx2⟩ := sampleNormal_finite (A := A) hM53 h0 h1 h2
  obtain ⟨q, hq, hq1, hq2, _⟩ := rnd_between (A := A) (x := x * sd) (rnd_neg_nat (2 ^ 53) (le_refl _))
    (rnd_nat (2 ^ 53) (le_refl _)) (by push_cast; nlinarith) (by push_cast; nlinarith)
  refine ⟨q, by simp only [normalWeight, hx, mul, hq], ?_, ?_⟩
  · exact_mod_cast hq1
  · exact_mod_cast hq2

/-- A weight that is initialised from a zero is infinite, or NaN if the standard deviation is zero. -/
theorem normalWeight_zero_fails {M r₂ : ℕ} (hM : 0 < M) (hM53 : M ≤ 2 ^ 53) (h2 : r₂ ≤ M) (sd : Dbl) :
    ¬ Finite (normalWeight A M 0 r₂ sd) ∧ (sd = .num 0 → normalWeight A M 0 r₂ sd = .nan) := by
  have key : ∀ b, ¬ Finite (infTimes b sd) ∧ (sd = .num 0 → infTimes b sd = .nan) := by
    intro b
    refine ⟨?_, fun h => by subst h; simp [infTimes]⟩
    rintro ⟨x, hx⟩
    cases sd <;> simp only [infTimes] at hx <;> first | cases hx | split_ifs at hx
  rcases sampleNormal_zero_fails (A := A) hM hM53 h2 with h | h
  · have e : normalWeight A M 0 r₂ sd = infTimes false sd := by
      unfold normalWeight; rw [h]; cases sd <;> rfl
    rw [e]; exact key false
  · have e : normalWeight A M 0 r₂ sd = infTimes true sd := by
      unfold normalWeight; rw [h]; cases sd <;> rfl
    rw [e]; exact key true

/-! ## An arithmetic

Rounding down to multiples of the smallest subnormal number, with overflow beyond `2 ^ 1024`: it is finer than
that of the type `double`, but it underflows and overflows at the same places. -/

/-- The number of steps between two integers. -/
noncomputable def grid : ℝ := 2 ^ 1074

theorem grid_pos : 0 < grid := by unfold grid; positivity

theorem two_pow_int (k : ℕ) : ∃ z : ℤ, (2 : ℝ) ^ k = z := ⟨2 ^ k, by push_cast; rfl⟩

theorem exp_log_two (k : ℕ) : Real.exp (k * Real.log 2) = 2 ^ k := by
  rw [Real.exp_nat_mul, Real.exp_log (by norm_num)]

theorem grid_int : ∃ z : ℤ, grid = z := two_pow_int 1074

/-- The greatest number. -/
noncomputable def top : ℝ := 2 ^ 1024

open Classical in
/-- Rounding. -/
noncomputable def gridRnd (x : ℝ) : Dbl :=
  if top ≤ x then .pinf else if x < -top then .ninf else .num (⌊x * grid⌋ / grid)

theorem gridRnd_num {x : ℝ} (h1 : x < top) (h2 : -top ≤ x) : gridRnd x = .num (⌊x * grid⌋ / grid) := by
  rw [gridRnd, if_neg (not_le.2 h1), if_neg (not_lt.2 h2)]

theorem top_int : ∃ z : ℤ, top = z := two_pow_int 1024

theorem gridRnd_fix {x : ℝ} (h1 : x < top) (h2 : -top ≤ x) (z : ℤ) (hz : x * grid = z) :
    gridRnd x = .num x := by
  rw [gridRnd_num h1 h2, hz, Int.floor_intCast, ← hz, mul_div_cancel_right₀ _ grid_pos.ne']

theorem gridRnd_mono {x y : ℝ} (h : x ≤ y) : Le (gridRnd x) (gridRnd y) := by
  unfold gridRnd
  have hg := grid_pos
  have ht : (0 : ℝ) < top := by unfold top; positivity
  split_ifs with h1 h2 h3 h4 h5 h6 <;> try trivial
  · exact absurd (h1.trans h) h2
  · exact absurd (h1.trans h) h2
  · linarith
  · show (⌊x * grid⌋ : ℝ) / grid ≤ ⌊y * grid⌋ / grid
    have : ⌊x * grid⌋ ≤ ⌊y * grid⌋ := Int.floor_le_floor (by gcongr)
    have : (⌊x * grid⌋ : ℝ) ≤ ⌊y * grid⌋ := by exact_mod_cast this
    gcongr

theorem gridRnd_rnd {x y : ℝ} (h : gridRnd x = .num y) : gridRnd y = .num y := by
  unfold gridRnd at h
  split_ifs at h with h1 h2
  injection h with h
  obtain ⟨g, hg⟩ := grid_int
  obtain ⟨t, ht⟩ := top_int
  have hgp := grid_pos
  have e : y * grid = ⌊x * grid⌋ := by rw [← h, div_mul_cancel₀ _ hgp.ne']
  refine gridRnd_fix ?_ ?_ _ e
  · refine lt_of_le_of_lt ?_ (not_le.1 h1)
    rw [← h, div_le_iff₀ hgp]
    exact Int.floor_le _
  · rw [← h, le_div_iff₀ hgp]
    have : -t * g ≤ ⌊x * grid⌋ := by
      rw [Int.le_floor]
      push_cast
      rw [← ht, ← hg]
      exact mul_le_mul_of_nonneg_right (not_lt.1 h2) hgp.le
    have : ((-t * g : ℤ) : ℝ) ≤ ⌊x * grid⌋ := by exact_mod_cast this
    push_cast at this
    rw [← ht, ← hg] at this
    exact this

theorem two_pow_le_top {k : ℕ} (h : k < 1024) : (2 : ℝ) ^ k < top :=
  pow_lt_pow_right₀ (by norm_num) h

theorem gridRnd_int (z : ℤ) (h : |z| ≤ 2 ^ 53) : gridRnd z = .num z := by
  obtain ⟨g, hg⟩ := grid_int
  have h1 : |(z : ℝ)| ≤ 2 ^ 53 := by exact_mod_cast h
  have h2 := two_pow_le_top (k := 53) (by norm_num)
  obtain ⟨h3, h4⟩ := abs_le.1 h1
  exact gridRnd_fix (by linarith) (by linarith) (z * g) (by rw [hg]; push_cast; ring)

theorem gridRnd_pow (k : ℕ) (h : k ≤ 1074) : gridRnd ((2 : ℝ)⁻¹ ^ k) = .num ((2 : ℝ)⁻¹ ^ k) := by
  have h1 : (2 : ℝ)⁻¹ ^ k ≤ 1 := pow_le_one₀ (by norm_num) (by norm_num)
  have h0 : (0 : ℝ) < (2 : ℝ)⁻¹ ^ k := by positivity
  have h2 := two_pow_le_top (k := 0) (by norm_num)
  rw [pow_zero] at h2
  refine gridRnd_fix (by linarith) (by linarith) (2 ^ (1074 - k)) ?_
  unfold grid
  push_cast
  rw [inv_pow, inv_mul_eq_div, pow_sub₀ _ (by norm_num) h]
  rfl

theorem gridRnd_between {a b x : ℝ} (ha : gridRnd a = .num a) (hb : gridRnd b = .num b) (h1 : a ≤ x)
    (h2 : x ≤ b) : ∃ y, gridRnd x = .num y ∧ a ≤ y ∧ y ≤ b := by
  have hl := gridRnd_mono h1
  have hu := gridRnd_mono h2
  rw [ha] at hl
  rw [hb] at hu
  cases hx : gridRnd x with
  | num y => rw [hx] at hl hu; exact ⟨y, rfl, hl, hu⟩
  | pinf => rw [hx] at hu; exact hu.elim
  | ninf => rw [hx] at hl; exact hl.elim
  | nan => rw [hx] at hl; exact hl.elim

theorem gridRnd_zero : gridRnd 0 = .num 0 := by simpa using gridRnd_int 0 (by norm_num)

theorem gridRnd_one : gridRnd 1 = .num 1 := by simpa using gridRnd_int 1 (by norm_num)

open Classical in
/-- The arithmetic. -/
noncomputable def gridFpu : Fpu where
  rnd := gridRnd
  exp x := gridRnd (Real.exp x)
  log x := gridRnd (Real.log x)
  sqrt x := gridRnd (Real.sqrt x)
  cos x := if gridRnd (Real.cos x) = .num 0 then .num 1 else gridRnd (Real.cos x)
  rnd_mono _ _ h := gridRnd_mono h
  rnd_rnd _ _ h := gridRnd_rnd h
  rnd_int := gridRnd_int
  rnd_pow := gridRnd_pow
  exp_rnd _ _ h := gridRnd_rnd h
  exp_zero := by rw [Real.exp_zero]; exact gridRnd_one
  exp_unit x h := gridRnd_between gridRnd_zero gridRnd_one (Real.exp_pos x).le (Real.exp_le_one_iff.2 h)
  exp_underflow x h := by
    have hlt : Real.exp x * grid < 1 := by
      have h2 : Real.exp x < Real.exp (-((1074 : ℕ) * Real.log 2)) := by
        rw [Real.exp_lt_exp]
        push_cast
        have := Real.log_two_lt_d9
        linarith
      have h3 : Real.exp (-((1074 : ℕ) * Real.log 2)) = grid⁻¹ := by
        rw [Real.exp_neg, exp_log_two]
        rfl
      rw [h3] at h2
      calc Real.exp x * grid < grid⁻¹ * grid := by
            exact mul_lt_mul_of_pos_right h2 grid_pos
        _ = 1 := inv_mul_cancel₀ grid_pos.ne'
    have ht := two_pow_le_top (k := 0) (by norm_num)
    rw [pow_zero] at ht
    have h1 : Real.exp x ≤ 1 := Real.exp_le_one_iff.2 (by linarith)
    rw [gridRnd_num (by linarith) (by have := Real.exp_pos x; linarith)]
    have : ⌊Real.exp x * grid⌋ = 0 := by
      rw [Int.floor_eq_zero_iff]
      exact ⟨mul_nonneg (Real.exp_pos x).le grid_pos.le, hlt⟩
    rw [this]
    simp
  exp_pos x e h he := by
    have hge : 1 ≤ Real.exp x * grid := by
      have h2 : Real.exp (-((1074 : ℕ) * Real.log 2)) ≤ Real.exp x := by
        rw [Real.exp_le_exp]
        push_cast
        have := Real.log_two_gt_d9
        linarith
      have h3 : Real.exp (-((1074 : ℕ) * Real.log 2)) = grid⁻¹ := by
        rw [Real.exp_neg, exp_log_two]
        rfl
      rw [h3] at h2
      calc 1 = grid⁻¹ * grid := (inv_mul_cancel₀ grid_pos.ne').symm
        _ ≤ Real.exp x * grid := mul_le_mul_of_nonneg_right h2 grid_pos.le
    unfold gridRnd at he
    split_ifs at he
    injection he with he
    rw [← he]
    refine div_pos ?_ grid_pos
    have : 1 ≤ ⌊Real.exp x * grid⌋ := by rw [Int.le_floor]; exact_mod_cast hge
    exact_mod_cast this
  exp_big x h0 h := by
    have ht : Real.exp x < top := by
      have h2 : Real.exp x < Real.exp ((1024 : ℕ) * Real.log 2) := by
        rw [Real.exp_lt_exp]
        push_cast
        have := Real.log_two_gt_d9
        linarith
      have h3 : Real.exp ((1024 : ℕ) * Real.log 2) = top := by
        rw [exp_log_two]
        rfl
      rwa [h3] at h2
    have hp := Real.exp_pos x
    exact ⟨_, gridRnd_num ht (by linarith)⟩
  log_rnd _ _ h := gridRnd_rnd h
  log_num k x hk h1 h2 := by
    have hx : 0 < x := lt_of_lt_of_le (by positivity) h1
    have hl : -(k : ℝ) ≤ Real.log x := by
      have := Real.log_le_log (by positivity) h1
      rw [Real.log_pow, Real.log_inv] at this
      have h3 := Real.log_two_lt_d9
      have hk0 : (0 : ℝ) ≤ k := by positivity
      nlinarith
    have hu : Real.log x ≤ 1 := by
      have := Real.log_le_log hx h2
      have h3 := Real.log_two_lt_d9
      linarith
    have hk' : gridRnd (-(k : ℝ)) = .num (-(k : ℝ)) := by
      have := gridRnd_int (-k) (by rw [abs_neg, abs_of_nonneg (by positivity)]; omega)
      simpa using this
    obtain ⟨y, hy, hy1, hy2⟩ := gridRnd_between hk' gridRnd_one hl hu
    refine ⟨y, hy, hy1, hy2, fun h => ?_⟩
    have h0 : Real.log x ≤ 0 := Real.log_nonpos hx.le h
    obtain ⟨y', hy', _, h3⟩ := gridRnd_between hk' gridRnd_zero hl h0
    rw [hy] at hy'
    cases hy'
    exact h3
  sqrt_rnd _ _ h := gridRnd_rnd h
  sqrt_num x h0 h1 := by
    have h32 : gridRnd 32 = .num 32 := by simpa using gridRnd_int 32 (by norm_num)
    refine gridRnd_between gridRnd_zero h32 (Real.sqrt_nonneg x) ?_
    rw [Real.sqrt_le_left (by norm_num)]
    linarith
  cos_num x := by
    by_cases h : gridRnd (Real.cos x) = .num 0
    · exact ⟨1, if_pos h, by norm_num, le_refl _, gridRnd_one⟩
    · have hm1 : gridRnd (-1) = .num (-1) := by simpa using gridRnd_int (-1) (by norm_num)
      obtain ⟨y, hy, h1, h2⟩ := gridRnd_between hm1 gridRnd_one (Real.neg_one_le_cos x) (Real.cos_le_one x)
      exact ⟨y, by rw [if_neg h, hy], h1, h2, gridRnd_rnd hy⟩
  cos_ne x _ h := by
    by_cases h0 : gridRnd (Real.cos x) = .num 0
    · rw [if_pos h0] at h
      injection h with h
      exact one_ne_zero h
    · rw [if_neg h0] at h
      exact h0 h

/-! ## Examples -/

/-- A batch of two instances with two classes: the activations of the second are 1000 greater. -/
noncomputable def twoInstances : Mtx := fun n j => .num ((1000 * n + j : ℕ) : ℝ)

theorem twoInstances_finite (A : Fpu) (N : ℕ) (hN : N ≤ 2) : FiniteMtx A N 2 twoInstances := by
  intro n hn j hj
  refine ⟨⟨_, rfl⟩, fun x hx => ?_⟩
  have e : x = ((1000 * n + j : ℕ) : ℝ) := by
    simp only [twoInstances, Dbl.num.injEq] at hx
    exact hx.symm
  subst e
  exact rnd_nat _ (by norm_num; omega)

/-- Alone the first instance has probabilities ... -/
example (A : Fpu) : ∃ z, Softmax A 1 2 twoInstances z ∧ Unit01 (z 0 0) ∧ Unit01 (z 0 1) := by
  obtain ⟨z, hz⟩ := softmax_exists (A := A) (by norm_num) (by norm_num) (twoInstances_finite A 1 (by norm_num))
  have hf := twoInstances_finite A 1 (by norm_num)
  exact ⟨z, hz, softmax_single (by norm_num) hf hz (by norm_num), softmax_single (by norm_num) hf hz (by norm_num)⟩

/-- ... together with the second it has not; but the second still has. -/
example (A : Fpu) : ∃ z, Softmax A 2 2 twoInstances z ∧ z 0 0 = .nan ∧ z 0 1 = .nan ∧ Unit01 (z 1 0) := by
  have hf := twoInstances_finite A 2 (by norm_num)
  obtain ⟨z, hz⟩ := softmax_exists (A := A) (by norm_num) (by norm_num) hf
  have hfar : ∀ j < 2, ∀ x, twoInstances 0 j = .num x → x ≤ (1000 : ℝ) - 746 := by
    intro j hj x hx
    simp only [twoInstances, Dbl.num.injEq] at hx
    have : (j : ℝ) ≤ 1 := by exact_mod_cast (by omega : j ≤ 1)
    rw [← hx]
    push_cast
    linarith
  have h10 : twoInstances 1 0 = .num (1000 : ℝ) := by simp [twoInstances]
  have hmax : IsMax 2 2 twoInstances (.num 1001) := by
    refine ⟨⟨1, by norm_num, 1, by norm_num, by simp [twoInstances]⟩, fun n hn j hj => ?_⟩
    show ((1000 * n + j : ℕ) : ℝ) ≤ 1001
    exact_mod_cast (by omega : 1000 * n + j ≤ 1001)
  exact ⟨z, hz, softmax_far hf hz (n := 0) (a := 1) (b := 0) (by norm_num) (by norm_num) (by norm_num) h10 hfar
    (by norm_num), softmax_far hf hz (n := 0) (a := 1) (b := 0) (by norm_num) (by norm_num) (by norm_num) h10 hfar
    (by norm_num), softmax_near (by norm_num) hf hz hmax (n := 1) (j := 0) (by norm_num) (by norm_num) h10
    (by norm_num) (by norm_num)⟩

/-- `softmax_batch_fails` for the activations 0 and 1. -/
example (A : Fpu) : ∃ c, A.rnd c = .num c ∧ ∀ j < 2, ((j : ℕ) : ℝ) ≤ c - 746 :=
  ⟨1000, by simpa using rnd_nat (A := A) 1000 (by norm_num), fun j hj => by
    have : (j : ℝ) ≤ 1 := by exact_mod_cast (by omega : j ≤ 1)
    linarith⟩

/-- A batch of one instance, predicted 0.5 : 0.5 with the target 1 : 0, has a finite cross entropy. -/
example (A : Fpu) : ∃ v, CrossEntropy A 1 2 (fun _ _ => .num 0.5) (fun _ j => if j = 0 then .num 1 else .num 0) v ∧
    Finite v := by
  obtain ⟨s, hs⟩ := Sums.exists (A := A) (coeffs 1 2 (fun n j =>
    A.mul ((fun _ j => if j = 0 then .num 1 else .num 0 : Mtx) n j)
      (A.flog (A.add ((fun _ _ => .num 0.5 : Mtx) n j) (A.rnd 1e-10)))))
  have h : CrossEntropy A 1 2 (fun _ _ => .num 0.5) (fun _ j => if j = 0 then .num 1 else .num 0) _ := ⟨s, hs, rfl⟩
  refine ⟨_, h, ?_⟩
  obtain ⟨x, hx, _⟩ := crossEntropy_finite (by norm_num) (by norm_num) (by norm_num)
    (fun _ _ _ _ => ⟨0.5, rfl, by norm_num, by norm_num⟩)
    (fun n _ j _ => by
      by_cases h : j = 0
      · exact ⟨1, if_pos h, by norm_num, le_refl _⟩
      · exact ⟨0, if_neg h, le_refl _, by norm_num⟩) h
  exact ⟨x, hx⟩

/-- Numbers and infinities have a logistic function. -/
example (A : Fpu) : Unit01 (logistic A (.num 1e300)) ∧ Unit01 (logistic A (.num (-3))) ∧ Unit01 (logistic A .ninf) :=
  ⟨(logistic_unit (by simp)).1, (logistic_unit (by simp)).1, (logistic_unit (by simp)).1⟩

/-- A weight 3 with the L1 penalty 1/4 and the derivative 5. -/
example (A : Fpu) : Finite (withL1 A (.num 0.25) (.num 3) (.num 5)) := by
  have h3 : A.rnd |3| = .num |3| := by
    rw [abs_of_nonneg (by norm_num : (0 : ℝ) ≤ 3)]
    simpa using rnd_nat (A := A) 3 (by norm_num)
  have h3' : A.rnd (-|3|) = .num (-|3|) := by
    rw [abs_of_nonneg (by norm_num : (0 : ℝ) ≤ 3)]
    simpa using rnd_neg_nat (A := A) 3 (by norm_num)
  obtain ⟨x, hx, _⟩ := withL1_finite (A := A) (l1 := 0.25) (w := 3) (d := 5) (c := 5) (by norm_num) (by norm_num)
    (by norm_num) h3 h3' (by norm_num) (by norm_num) (by norm_num)
  exact ⟨x, hx⟩

/-- With the `RAND_MAX` of glibc. -/
example (A : Fpu) : Finite (sampleNormal A 2147483647 1 0) ∧ ¬ Finite (sampleNormal A 2147483647 0 1) := by
  refine ⟨?_, ?_⟩
  · obtain ⟨x, hx, _⟩ := sampleNormal_finite (A := A) (M := 2147483647) (r₁ := 1) (r₂ := 0) (by norm_num)
      (by norm_num) (by norm_num) (by norm_num)
    exact ⟨x, hx⟩
  · rintro ⟨x, hx⟩
    rcases sampleNormal_zero_fails (A := A) (M := 2147483647) (r₂ := 1) (by norm_num) (by norm_num) (by norm_num)
      with h | h <;> rw [h] at hx <;> cases hx

/-- There are such arithmetics. -/
example : gridFpu.fexp (.num (-746)) = .num 0 ∧ gridFpu.rnd (2 ^ 1024) = .pinf :=
  ⟨gridFpu.exp_underflow _ (le_refl _), if_pos (le_refl top)⟩

end Verif.Fp

namespace Verif.Fp
open Fpu
variable {A : Fpu}

/-- The real number, 0 for values that are none. -/
def Dbl.val : Dbl → ℝ
  | .num x => x
  | _ => 0

/-- Sums of natural numbers are exact up to 2^53, in whatever order they are added. -/
theorem Sums.exact {l : List Dbl} {s : Dbl} (h : A.Sums l s) : (∀ a ∈ l, ∃ z : ℕ, a = .num z) →
    (l.map Dbl.val).sum ≤ 2 ^ 53 → s = .num (l.map Dbl.val).sum ∧ ∃ z : ℕ, (l.map Dbl.val).sum = z := by
  have nn : ∀ l : List Dbl, (∀ a ∈ l, ∃ z : ℕ, a = .num z) → ∃ z : ℕ, (l.map Dbl.val).sum = z := by
    intro l
    induction l with
    | nil => intro _; exact ⟨0, by simp⟩
    | cons a l ih =>
      intro h
      obtain ⟨z, hz⟩ := ih fun a ha => h a (by simp [ha])
      obtain ⟨y, rfl⟩ := h a (by simp)
      exact ⟨y + z, by rw [List.map_cons, List.sum_cons, hz]; simp [Dbl.val]⟩
  induction h with
  | nil => intro _ _; exact ⟨by simp, 0, by simp⟩
  | one a =>
    intro h _
    obtain ⟨z, rfl⟩ := h a (by simp)
    exact ⟨by simp [Dbl.val], z, by simp [Dbl.val]⟩
  | @two l r m a b _ _ _ _ hp ihl ihr =>
    intro h hle
    have hl : ∀ a ∈ l, ∃ z : ℕ, a = .num z := fun a ha => h a (hp.subset (List.mem_append_left _ ha))
    have hr : ∀ a ∈ r, ∃ z : ℕ, a = .num z := fun a ha => h a (hp.subset (List.mem_append_right _ ha))
    have e : (m.map Dbl.val).sum = (l.map Dbl.val).sum + (r.map Dbl.val).sum := by
      rw [← (hp.map Dbl.val).sum_eq, List.map_append, List.sum_append]
    obtain ⟨x, hx⟩ := nn l hl
    obtain ⟨y, hy⟩ := nn r hr
    rw [e, hx, hy] at hle ⊢
    have hx0 : (0 : ℝ) ≤ x := Nat.cast_nonneg _
    have hy0 : (0 : ℝ) ≤ y := Nat.cast_nonneg _
    obtain ⟨rfl, _⟩ := ihl hl (by rw [hx]; linarith)
    obtain ⟨rfl, _⟩ := ihr hr (by rw [hy]; linarith)
    refine ⟨?_, x + y, by push_cast; ring⟩
    rw [hx, hy]
    have : x + y ≤ 2 ^ 53 := by exact_mod_cast hle
    show A.rnd _ = _
    rw [← Nat.cast_add, rnd_nat _ this]

/-- **C100 (mean squared error)**: for differences that are integers, e.g. labels and predicted labels, `meanSquaredError` is the correctly
rounded mean of half of the squares, in whatever order Eigen adds. -/
theorem meanSquaredError_exact {A : Fpu} {N F : ℕ} {z : ℕ → ℕ → ℤ} {value : Dbl} (hN : 0 < N) (hN53 : 2 * N ≤ 2 ^ 53)
    (hs : ∑ n ∈ Finset.range N, ∑ j ∈ Finset.range F, z n j ^ 2 ≤ 2 ^ 53)
    (h : MeanSquaredError A N F (fun n j => .num (z n j)) value) :
    value = A.rnd ((∑ n ∈ Finset.range N, ∑ j ∈ Finset.range F, (z n j : ℝ) ^ 2) / (2 * N)) := by
  obtain ⟨s, hs', rfl⟩ := h
  have hsq : ∀ n < N, ∀ j < F, A.mul (.num (z n j)) (.num (z n j)) = .num ((z n j).natAbs ^ 2 : ℕ) := by
    intro n hn j hj
    have e : ((z n j : ℝ)) * (z n j) = ((z n j).natAbs ^ 2 : ℕ) := by
      rw [Nat.cast_pow, Nat.cast_natAbs, Int.cast_abs, sq_abs, sq]
    show A.rnd _ = _
    rw [e, rnd_nat]
    have h1 : z n j ^ 2 ≤ ∑ j ∈ Finset.range F, z n j ^ 2 :=
      Finset.single_le_sum (f := fun j => z n j ^ 2) (fun j _ => sq_nonneg _) (Finset.mem_range.2 hj)
    have h2 : ∑ j ∈ Finset.range F, z n j ^ 2 ≤ ∑ n ∈ Finset.range N, ∑ j ∈ Finset.range F, z n j ^ 2 :=
      Finset.single_le_sum (f := fun n => ∑ j ∈ Finset.range F, z n j ^ 2) (fun n _ => Finset.sum_nonneg fun j _ => sq_nonneg _)
        (Finset.mem_range.2 hn)
    have h3 : (((z n j).natAbs ^ 2 : ℕ) : ℤ) ≤ 2 ^ 53 := by
      push_cast
      rw [sq_abs]
      omega
    exact_mod_cast h3
  have hsum : ((coeffs N F fun n j => A.mul (.num (z n j)) (.num (z n j))).map Dbl.val).sum =
      ∑ n ∈ Finset.range N, ∑ j ∈ Finset.range F, (z n j : ℝ) ^ 2 := by
    rw [coeffs, List.map_flatMap, List.flatMap, List.sum_flatten, List.map_map]
    show (List.map _ (List.range N)).sum = ((List.range N).map fun n => ((List.range F).map fun j => (z n j : ℝ) ^ 2).sum).sum
    refine congrArg List.sum (List.map_congr_left fun n hn => ?_)
    rw [Function.comp_apply, rowOf, List.map_map]
    refine congrArg List.sum (List.map_congr_left fun j hj => ?_)
    rw [Function.comp_apply, hsq n (List.mem_range.1 hn) j (List.mem_range.1 hj)]
    show (((z n j).natAbs ^ 2 : ℕ) : ℝ) = _
    rw [Nat.cast_pow, Nat.cast_natAbs, Int.cast_abs, sq_abs]
  obtain ⟨rfl, _⟩ := Sums.exact hs' (by
    intro a ha
    obtain ⟨n, hn, j, hj, rfl⟩ := mem_coeffs.1 ha
    exact ⟨_, hsq n hn j hj⟩) (by rw [hsum]; exact_mod_cast hs)
  rw [hsum, rnd_nat N (by omega)]
  have e2 : A.mul (.num 2) (.num N) = .num (2 * N) := by
    show A.rnd _ = _
    have := rnd_nat (A := A) (2 * N) hN53
    push_cast at this
    exact this
  rw [e2]
  have h0 : (2 * N : ℝ) ≠ 0 := by positivity
  simp only [Fpu.div, if_neg h0]

example : (∑ n ∈ Finset.range 2, ∑ j ∈ Finset.range 2, ((n : ℤ) - j) ^ 2) ≤ 2 ^ 53 := by decide

end Verif.Fp
