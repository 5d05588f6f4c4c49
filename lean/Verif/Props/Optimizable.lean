import Verif.Model.Optimizable
import Verif.Props.BatchGradient

/-!
# The functions that every objective inherits (C73)
-/

namespace Verif.Opt

open Finset

noncomputable section

/-! ## Specification -/

/-- Spec: an objective with `N` examples and `d` parameters; example `n` has error `e n` and gradient `g n`. -/
structure Objective.Is (O : Objective) (N d : ℕ) (e : ℕ → ℝ) (g : ℕ → List ℝ) : Prop where
  examples : O.examples = N
  dimension : O.dimension = d
  small : N ≤ 2 ^ 31
  error : ∀ n < N, O.error n = .ok (e n)
  gradient : ∀ n < N, O.gradient n = .ok (g n)
  length : ∀ n < N, (g n).length = d

/-- Spec: the sum of the errors of some examples. -/
def total (e : ℕ → ℝ) (idx : List ℕ) : ℝ := (idx.map e).sum

/-- Spec: the sum of the gradients of some examples. -/
def totalGradient (d : ℕ) (g : ℕ → List ℝ) (idx : List ℕ) : List ℝ :=
  (List.range d).map fun p => (idx.map fun n => (g n).getD p 0).sum

/-- Indices as `int`. -/
def ints (idx : List ℕ) : List ℤ := idx.map fun n : ℕ => (n : ℤ)

/-! ## Vectors -/

theorem toUnsigned_nat {n : ℕ} (h : n < 2 ^ 31) : toUnsigned (n : ℤ) = n := by
  unfold toUnsigned
  omega

theorem addTo_range {d : ℕ} (f : ℕ → ℝ) {b : List ℝ} (hb : b.length = d) :
    addTo ((List.range d).map f) b = .ok ((List.range d).map fun p => f p + b.getD p 0) := by
  rw [addTo, if_pos (by simp [hb])]
  congr 1
  refine List.ext_getElem (by simp [hb]) fun i h1 h2 => ?_
  have hi : i < d := by simpa using h2
  simp [List.getD, hb, hi]

theorem setZero_range {d : ℕ} {a : List ℝ} (h : a.length = d) : setZero a = (List.range d).map fun _ => (0 : ℝ) := by
  rw [setZero, h]
  simp

theorem totalGradient_length {d : ℕ} (g : ℕ → List ℝ) (idx : List ℕ) : (totalGradient d g idx).length = d := by
  simp [totalGradient]

theorem totalGradient_nil {d : ℕ} (g : ℕ → List ℝ) : totalGradient d g [] = (List.range d).map fun _ => (0 : ℝ) := by
  simp [totalGradient]

theorem addTo_total {d : ℕ} {g : ℕ → List ℝ} {idx : List ℕ} {n : ℕ} (hn : (g n).length = d) :
    addTo (totalGradient d g idx) (g n) = .ok (totalGradient d g (idx ++ [n])) := by
  rw [totalGradient, addTo_range _ hn, totalGradient]
  simp

/-! ## The inherited functions -/

section

variable {O : Objective} {N d : ℕ} {e : ℕ → ℝ} {g : ℕ → List ℝ} (h : O.Is N d e g)

include h

theorem Objective.Is.at {n : ℕ} (hn : n < N) : toUnsigned (n : ℤ) = n :=
  toUnsigned_nat (by have := h.small; omega)

/-- **C73 (one example)** -/
theorem errorGradientOf_eq {n : ℕ} (hn : n < N) : O.errorGradientOf n = .ok (e n, g n) := by
  rw [Objective.errorGradientOf, h.at hn, h.error n hn, h.gradient n hn]
  rfl

theorem errorGradientFrom_eq (checks : Bool) : ∀ (idx done : List ℕ), (∀ n ∈ idx, n < N) →
    O.errorGradientFrom checks (total e done, totalGradient d g done) (ints idx) =
      .ok (total e (done ++ idx), totalGradient d g (done ++ idx)) := by
  intro idx
  induction idx with
  | nil => intro done _; simp [ints, Objective.errorGradientFrom]
  | cons n idx ih =>
    intro done hi
    have hn := hi n List.mem_cons_self
    have hc : checks = true → 0 ≤ (n : ℤ) ∧ (n : ℤ) ≤ (O.examples : ℤ) := fun _ => by rw [h.examples]; omega
    show O.errorGradientFrom checks _ ((n : ℤ) :: ints idx) = _
    rw [Objective.errorGradientFrom, Outcome.check_true hc, Outcome.ok_bind, h.at hn, h.error n hn, Outcome.ok_bind,
      h.gradient n hn, Outcome.ok_bind, addTo_total (h.length n hn), Outcome.ok_bind]
    have := ih (done ++ [n]) fun m hm => hi m (List.mem_cons_of_mem _ hm)
    rw [show total e done + e n = total e (done ++ [n]) by simp [total], this]
    simp

/-- **C73 (a range of examples)**: error and gradient are the sums over the examples, for every list of examples (in every
order, with repetitions) and whatever the vector of the caller contained. -/
theorem range_accumulates (checks : Bool) {idx : List ℕ} (hi : ∀ n ∈ idx, n < N) {grad : List ℝ} (hg : grad.length = d) :
    O.errorGradientRange checks (ints idx) grad = .ok (total e idx, totalGradient d g idx) := by
  have := errorGradientFrom_eq h checks idx [] hi
  rw [totalGradient_nil, ← setZero_range hg] at this
  exact this

theorem gradientFrom_eq : ∀ (idx done : List ℕ), (∀ n ∈ idx, n < N) →
    O.gradientFrom (totalGradient d g done) (ints idx) = .ok (totalGradient d g (done ++ idx)) := by
  intro idx
  induction idx with
  | nil => intro done _; simp [ints, Objective.gradientFrom]
  | cons n idx ih =>
    intro done hi
    have hn := hi n List.mem_cons_self
    show O.gradientFrom _ ((n : ℤ) :: ints idx) = _
    rw [Objective.gradientFrom, h.at hn, h.gradient n hn, Outcome.ok_bind, addTo_total (h.length n hn), Outcome.ok_bind,
      ih (done ++ [n]) fun m hm => hi m (List.mem_cons_of_mem _ hm)]
    simp

/-- **C73 (gradient of a range)** -/
theorem gradient_accumulates {idx : List ℕ} (hi : ∀ n ∈ idx, n < N) :
    O.gradientRange (ints idx) = .ok (totalGradient d g idx) := by
  have := gradientFrom_eq h idx [] hi
  rw [totalGradient_nil] at this
  rw [Objective.gradientRange, h.dimension, ← setZero_range (d := d) (a := List.replicate d 0) (by simp)] at *
  simpa [setZero] using this

/-- **C73 (errors of a range)**: one entry for each example, in order. -/
theorem errors_accumulates {idx : List ℕ} (hi : ∀ n ∈ idx, n < N) : O.errors (ints idx) = .ok (idx.map e) := by
  induction idx with
  | nil => rfl
  | cons n idx ih =>
    have hn := hi n List.mem_cons_self
    show O.errors ((n : ℤ) :: ints idx) = _
    rw [Objective.errors, h.at hn, h.error n hn, Outcome.ok_bind, ih fun m hm => hi m (List.mem_cons_of_mem _ hm)]
    rfl

/-- **C73 (all examples)** -/
theorem all_accumulates {grad : List ℝ} (hg : grad.length = d) :
    O.errorGradientAll grad = .ok (total e (List.range N), totalGradient d g (List.range N)) := by
  rw [Objective.errorGradientAll, h.examples]
  have key : ∀ k ≤ N, forLoop k (fun (n : ℕ) (s : ℝ × List ℝ) => do
      let t ← O.errorGradientOf n
      let g ← addTo s.2 t.2
      pure (s.1 + t.1, g)) (0, setZero grad) = .ok (total e (List.range k), totalGradient d g (List.range k)) := by
    intro k
    induction k with
    | zero =>
      intro _
      rw [forLoop, List.range_zero, totalGradient_nil, ← setZero_range hg]
      rfl
    | succ k ih =>
      intro hk
      rw [forLoop, ih (by omega), Outcome.ok_bind, errorGradientOf_eq h (by omega), Outcome.ok_bind,
        addTo_total (h.length k (by omega)), Outcome.ok_bind, List.range_succ]
      simp [total]
  exact key N le_rfl

/-- **C73 (order)**: the order of the examples does not matter. -/
theorem range_perm (checks : Bool) {idx idx' : List ℕ} (hp : idx.Perm idx') (hi : ∀ n ∈ idx, n < N) {grad grad' : List ℝ}
    (hg : grad.length = d) (hg' : grad'.length = d) :
    O.errorGradientRange checks (ints idx) grad = O.errorGradientRange checks (ints idx') grad' := by
  rw [range_accumulates h checks hi hg, range_accumulates h checks (fun n hn => hi n (hp.mem_iff.2 hn)) hg']
  have h1 : total e idx = total e idx' := (hp.map e).sum_eq
  have h2 : totalGradient d g idx = totalGradient d g idx' :=
    List.map_congr_left fun p _ => (hp.map _).sum_eq
  rw [h1, h2]

/-- **C73 (all at once)**: the function for all examples agrees with the one for a range that contains each of them once. -/
theorem all_eq_range (checks : Bool) {idx : List ℕ} (hp : idx.Perm (List.range N)) {grad grad' : List ℝ}
    (hg : grad.length = d) (hg' : grad'.length = d) :
    O.errorGradientAll grad = O.errorGradientRange checks (ints idx) grad' := by
  rw [all_accumulates h hg, range_perm h checks hp (fun n hn => List.mem_range.1 (hp.mem_iff.1 hn)) hg' hg',
    range_accumulates h checks (fun n hn => List.mem_range.1 hn) hg']

/-- A vector of another size than `dimension()` is not resized: undefined behaviour. -/
theorem wrong_size_ub (checks : Bool) {n : ℕ} {idx : List ℕ} (hn : n < N) {grad : List ℝ} (hg : grad.length ≠ d) :
    O.errorGradientRange checks (ints (n :: idx)) grad = .ub := by
  have hc : checks = true → 0 ≤ (n : ℤ) ∧ (n : ℤ) ≤ (O.examples : ℤ) := fun _ => by rw [h.examples]; omega
  show O.errorGradientFrom checks _ ((n : ℤ) :: ints idx) = _
  rw [Objective.errorGradientFrom, Outcome.check_true hc, Outcome.ok_bind, h.at hn, h.error n hn, Outcome.ok_bind,
    h.gradient n hn, Outcome.ok_bind, addTo, if_neg (by rw [h.length n hn]; simpa [setZero] using hg)]
  rfl

end

/-- **C73 (gradient)**: along every line in the space of parameters, if the gradients of the examples are the derivatives of
their errors, then the accumulated gradient is the derivative of the accumulated error. -/
theorem range_hasDerivAt {O : ℝ → Objective} {N d : ℕ} {e : ℝ → ℕ → ℝ} {g : ℝ → ℕ → List ℝ} (h : ∀ t, (O t).Is N d (e t) (g t))
    {p : ℕ} (hp : p < d) {t : ℝ} (hd : ∀ n < N, HasDerivAt (fun t => e t n) ((g t n).getD p 0) t) (checks : Bool)
    {idx : List ℕ} (hi : ∀ n ∈ idx, n < N) {grad : List ℝ} (hg : grad.length = d) :
    ∃ (v : ℝ → ℝ) (G : ℝ → List ℝ), (∀ t, (O t).errorGradientRange checks (ints idx) grad = .ok (v t, G t)) ∧
      ∃ G', (G t)[p]? = some G' ∧ HasDerivAt v G' t := by
  refine ⟨fun t => total (e t) idx, fun t => totalGradient d (g t) idx, fun t => range_accumulates (h t) checks hi hg,
    (idx.map fun n => (g t n).getD p 0).sum, by simp [totalGradient, hp], ?_⟩
  clear hg
  induction idx with
  | nil => simpa [total] using hasDerivAt_const t (0 : ℝ)
  | cons n idx ih =>
    have := (hd n (hi n List.mem_cons_self)).add (ih fun m hm => hi m (List.mem_cons_of_mem _ hm))
    exact this

/-! ## An objective that implements only what it must -/

/-- Spec: only `error()` and `gradient()` are implemented. -/
def plain (d : ℕ) (v : ℝ) (g : List ℝ) : Objective := ⟨d, .ok v, .ok g, none, none, none⟩

theorem plain_is {d : ℕ} {v : ℝ} {g : List ℝ} (hg : g.length = d) : (plain d v g).Is 1 d (fun _ => v) fun _ => g where
  examples := rfl
  dimension := rfl
  small := by norm_num
  error _ _ := rfl
  gradient _ _ := rfl
  length _ _ := hg

/-- **C73 (plain objectives)**: the functions for one example, for all examples and for the range with the only example
return error and gradient. -/
theorem plain_all {d : ℕ} {v : ℝ} {g : List ℝ} (hg : g.length = d) (checks : Bool) {grad : List ℝ} (hl : grad.length = d) :
    (plain d v g).errorGradientOf 0 = .ok (v, g) ∧ (plain d v g).errorGradientAll grad = .ok (v, g) ∧
      (plain d v g).errorGradientRange checks [0] grad = .ok (v, g) := by
  have hG : totalGradient d (fun _ => g) [0] = g := by
    rw [totalGradient]
    refine List.ext_getElem (by simp [hg]) fun i h1 h2 => ?_
    simp [List.getD, h2]
  have hv : total (fun _ => v) [0] = v := by simp [total]
  refine ⟨rfl, ?_, ?_⟩
  · rw [all_accumulates (plain_is hg) hl]
    show Outcome.ok (total _ [0], totalGradient _ _ [0]) = _
    rw [hG, hv]
  · have := range_accumulates (plain_is (v := v) hg) checks (idx := [0]) (by simp) hl
    rw [hG, hv] at this
    exact this

/-! ## Indices -/

/-- An objective with one error and one gradient per example in arrays. -/
def stored (es : List ℝ) (gs : List (List ℝ)) (d : ℕ) : Objective :=
  ⟨d, .ok 0, .ok [], some es.length, some fun n => Outcome.read es n, some fun n => Outcome.read gs n⟩

/-- **C73 is false for the check of the indices**: negative indices and indices behind `examples()` are reported when the
checks are compiled in, but `examples()` itself is accepted, although there is no such example. -/
theorem end_index_ub (es : List ℝ) (gs : List (List ℝ)) (d : ℕ) (grad : List ℝ) (rest : List ℤ) (hs : es.length < 2 ^ 31) :
    (stored es gs d).errorGradientRange true ((es.length : ℤ) :: rest) grad = .ub ∧
      (stored es gs d).errorGradientRange true ((es.length + 1 : ℤ) :: rest) grad = .checkFailed ∧
      (stored es gs d).errorGradientRange true (-1 :: rest) grad = .checkFailed := by
  have hex : (stored es gs d).examples = es.length := rfl
  refine ⟨?_, ?_, ?_⟩
  · rw [Objective.errorGradientRange, Objective.errorGradientFrom, Outcome.check_true (fun _ => by rw [hex]; omega),
      Outcome.ok_bind, toUnsigned_nat hs]
    show (Outcome.read es es.length >>= _) = _
    rw [Outcome.read_of_ge le_rfl]
    rfl
  · rw [Objective.errorGradientRange, Objective.errorGradientFrom, Outcome.check_false (fun hc => by
      have := hc rfl
      rw [hex] at this
      omega)]
    rfl
  · rw [Objective.errorGradientRange, Objective.errorGradientFrom, Outcome.check_false (fun hc => by
      have := hc rfl
      omega)]
    rfl

/-- Without checks a negative index reaches the objective as a large number. -/
theorem negative_index_ub (es : List ℝ) (gs : List (List ℝ)) (d : ℕ) (grad : List ℝ) (rest : List ℤ) (hs : es.length < 2 ^ 31) :
    (stored es gs d).errorGradientRange false (-1 :: rest) grad = .ub := by
  rw [Objective.errorGradientRange, Objective.errorGradientFrom, Outcome.check_true (fun hc => by cases hc), Outcome.ok_bind]
  show (Outcome.read es (toUnsigned (-1)) >>= _) = _
  rw [show toUnsigned (-1) = 4294967295 by decide, Outcome.read_of_ge (by omega)]
  rfl

/-- **C73 is false for the check of the indices**: the versions of `error` and `gradient` for a range of examples do not check
the indices in any build, neither negative ones nor those behind the last example. -/
theorem unchecked_index_ub (es : List ℝ) (gs : List (List ℝ)) (d : ℕ) (rest : List ℤ) (hs : es.length < 2 ^ 31)
    (hl : gs.length = es.length) {i : ℤ} (hi : i = -1 ∨ i = es.length) :
    (stored es gs d).errors (i :: rest) = .ub ∧ (stored es gs d).gradientRange (i :: rest) = .ub := by
  have hu : es.length ≤ toUnsigned i := by
    rcases hi with rfl | rfl
    · rw [show toUnsigned (-1) = 4294967295 by decide]
      omega
    · rw [toUnsigned_nat hs]
  constructor
  · show (Outcome.read es (toUnsigned i) >>= _) = _
    rw [Outcome.read_of_ge hu]
    rfl
  · show (Outcome.read gs (toUnsigned i) >>= _) = _
    rw [Outcome.read_of_ge (by omega)]
    rfl

/-- The hypotheses are met by every table of errors and gradients of one size. -/
theorem stored_is {es : List ℝ} {gs : List (List ℝ)} {d : ℕ} (hs : es.length ≤ 2 ^ 31) (hl : gs.length = es.length)
    (hg : ∀ b ∈ gs, b.length = d) :
    (stored es gs d).Is es.length d (fun n => es.getD n 0) fun n => gs.getD n [] where
  examples := rfl
  dimension := rfl
  small := hs
  error n hn := by
    show Outcome.read es n = _
    rw [Outcome.read_of_lt hn]
    simp [List.getD, hn]
  gradient n hn := by
    have hn' : n < gs.length := by omega
    show Outcome.read gs n = _
    rw [Outcome.read_of_lt hn']
    simp [List.getD, hn']
  length n hn := by
    have hn' : n < gs.length := by omega
    simp only [List.getD, List.getElem?_eq_getElem hn', Option.getD_some]
    exact hg _ (List.getElem_mem hn')

/-- Three examples, two parameters, one example twice. -/
example : (stored [1, 2, 4] [[1, 0], [0, 1], [1, 1]] 2).errorGradientRange true [2, 0, 2] [7, 7] =
    .ok (total (fun n => [1, 2, 4].getD n 0) [2, 0, 2], totalGradient 2 (fun n => [[1, 0], [0, 1], [1, 1]].getD n []) [2, 0, 2]) :=
  range_accumulates (stored_is (by norm_num) rfl (by simp)) true (idx := [2, 0, 2]) (by simp) rfl

end

end Verif.Opt
