import Verif.Props.EvalFloat
import Verif.Props.PoleExact

/-!
# The measures with floating point numbers refine those with real numbers (C146)

If nothing has to be rounded and all predictions are numbers, then the functions of `Model/EvalFloat.lean` compute the values of
`Model/Evaluation.lean`.
-/

namespace Verif.EvalFp

open Outcome Fp Fp.Fpu

noncomputable section

/-- A learner for real numbers as one for `double`s. -/
def liftLearner (f : Eval.Learner) : Learner := fun v => (f (v.map Dbl.val)).map .num

/-- A data set of real numbers as one of `double`s. -/
def liftData (d : Eval.Data) : Data :=
  ⟨d.samples, d.outputs, fun n => (d.getInstance n).map .num, fun n => (d.getTarget n).map .num⟩

variable {A : Fpu} (hA : A.rnd = .num) (f : Eval.Learner) (d : Eval.Data)

theorem lift_prediction (n : ℕ) : liftLearner f ((liftData d).getInstance n) = (f (d.getInstance n)).map .num := by
  show (f (((d.getInstance n).map .num).map Dbl.val)).map _ = _
  rw [List.map_map, show Dbl.val ∘ Dbl.num = id from rfl, List.map_id]

include hA

theorem exact_add (x y : ℝ) : A.add (.num x) (.num y) = .num (x + y) := by
  show A.rnd (x + y) = _
  rw [hA]

/-- Without rounding the order of the summation does not matter. -/
theorem exact_sums {m : List Dbl} {s : Dbl} (h : A.Sums m s) : (∀ a ∈ m, ∃ x, a = .num x) → s = .num (m.map Dbl.val).sum := by
  induction h with
  | nil => intro _; simp
  | one a =>
    intro h
    obtain ⟨x, rfl⟩ := h a (by simp)
    simp [Dbl.val]
  | two _ _ _ _ hp ih1 ih2 =>
    intro h
    rw [ih1 fun a ha => h a (hp.subset (List.mem_append_left _ ha)), ih2 fun a ha => h a (hp.subset (List.mem_append_right _ ha)),
      exact_add hA, ← List.sum_append, ← List.map_append, (hp.map Dbl.val).sum_eq]

theorem exact_distance (a b : List ℝ) (s : Dbl) :
    SquaredDistance A (a.map .num) (b.map .num) s ↔ ∃ x, s = .num x ∧ Eval.squaredDistance a b = ok x := by
  have hsq : List.zipWith (fun x y => A.mul (A.sub x y) (A.sub x y)) (a.map .num) (b.map .num) =
      (List.zipWith (fun x y => (x - y) * (x - y)) a b).map .num := by
    rw [List.zipWith_map, List.map_zipWith]
    congr 1
    funext x y
    show A.mul (A.add (.num x) (.num (-y))) (A.add (.num x) (.num (-y))) = _
    rw [exact_add hA, ← sub_eq_add_neg]
    show A.rnd _ = _
    rw [hA]
  have hval : ∀ s, A.Sums ((List.zipWith (fun x y => (x - y) * (x - y)) a b).map .num) s →
      s = .num (List.zipWith (fun x y => (x - y) * (x - y)) a b).sum := by
    intro s h
    rw [exact_sums hA h fun a ha => by
      obtain ⟨x, _, hx⟩ := List.mem_map.1 ha
      exact ⟨x, hx.symm⟩, List.map_map, show Dbl.val ∘ Dbl.num = id from rfl, List.map_id]
  unfold SquaredDistance Eval.squaredDistance
  rw [hsq, List.length_map, List.length_map]
  constructor
  · rintro ⟨hl, hs⟩
    exact ⟨_, hval s hs, if_pos hl⟩
  · rintro ⟨x, rfl, hx⟩
    by_cases hl : a.length = b.length
    · rw [if_pos hl] at hx
      injection hx with hx
      obtain ⟨t, ht⟩ := Sums.exists (A := A) ((List.zipWith (fun x y => (x - y) * (x - y)) a b).map .num)
      rw [← hx, ← hval t ht]
      exact ⟨hl, ht⟩
    · rw [if_neg hl] at hx
      cases hx

theorem exact_sseLoop (n : ℕ) (s : Dbl) : SSELoop A (liftLearner f) (liftData d) n s ↔ ∃ x, s = .num x ∧
    forLoop n (fun n s => do
      let e ← Eval.squaredDistance (f (d.getInstance n)) (d.getTarget n)
      ok (s + e)) 0 = ok x := by
  induction n generalizing s with
  | zero =>
    constructor
    · rintro rfl
      exact ⟨0, rfl, rfl⟩
    · rintro ⟨x, rfl, hx⟩
      injection hx with hx
      rw [← hx]
      rfl
  | succ n ih =>
    show (∃ t e, _ ∧ SquaredDistance A (liftLearner f ((liftData d).getInstance n)) ((d.getTarget n).map .num) e ∧ _) ↔ _
    rw [lift_prediction]
    constructor
    · rintro ⟨t, e, h1, h2, rfl⟩
      obtain ⟨x, rfl, hx⟩ := (ih t).1 h1
      obtain ⟨y, rfl, hy⟩ := (exact_distance hA _ _ e).1 h2
      refine ⟨x + y, exact_add hA _ _, ?_⟩
      show (forLoop n _ 0 >>= _) = _
      rw [hx]
      show (Eval.squaredDistance _ _ >>= fun e => ok (x + e)) = _
      rw [hy]
      rfl
    · rintro ⟨z, rfl, hz⟩
      obtain ⟨x, hx, hz⟩ := Outcome.bind_eq_ok.1 hz
      obtain ⟨y, hy, hz⟩ := Outcome.bind_eq_ok.1 hz
      injection hz with hz
      exact ⟨.num x, .num y, (ih _).2 ⟨x, rfl, hx⟩, (exact_distance hA _ _ _).2 ⟨y, rfl, hy⟩, by rw [exact_add hA, hz]⟩

/-- **C146 (numbers)**: without rounding `sse` has exactly the value of the model with real numbers. -/
theorem exact_sse (s : Dbl) : SSE A (liftLearner f) (liftData d) s ↔ ∃ x, s = .num x ∧ Eval.sse f d = ok x :=
  exact_sseLoop hA f d d.samples s

/-- So has `mse` if there are instances ... -/
theorem exact_mse (h0 : 0 < d.samples) (s : Dbl) :
    MSE A (liftLearner f) (liftData d) s ↔ ∃ x, s = .num x ∧ Eval.mse f d = ok x := by
  have hd : ∀ x : ℝ, A.div (.num x) (A.rnd (liftData d).samples) = .num (x / d.samples) := by
    intro x
    rw [hA]
    refine (if_neg (by exact_mod_cast h0.ne')).trans ?_
    rw [hA]
    rfl
  constructor
  · rintro ⟨t, ht, rfl⟩
    obtain ⟨x, rfl, hx⟩ := (exact_sse hA f d t).1 ht
    refine ⟨_, hd x, ?_⟩
    show (Eval.sse f d >>= _) = _
    rw [hx]
    rfl
  · rintro ⟨z, rfl, hz⟩
    obtain ⟨x, hx, hz⟩ := Outcome.bind_eq_ok.1 hz
    injection hz with hz
    exact ⟨.num x, (exact_sse hA f d _).2 ⟨x, rfl, hx⟩, by rw [hd, hz]⟩

omit hA in
theorem mse_nonneg {x : ℝ} (h : Eval.mse f d = ok x) : 0 ≤ x := by
  obtain ⟨y, hy, hz⟩ := Outcome.bind_eq_ok.1 h
  injection hz with hz
  rw [← hz]
  refine div_nonneg ?_ (Nat.cast_nonneg _)
  have key : ∀ n y, forLoop n (fun n s => do
      let e ← Eval.squaredDistance (f (d.getInstance n)) (d.getTarget n)
      ok (s + e)) 0 = ok y → 0 ≤ y := by
    intro n
    induction n with
    | zero =>
      intro y hy
      injection hy with hy
      exact hy.le
    | succ n ih =>
      intro y hy
      obtain ⟨x, hx, hy⟩ := Outcome.bind_eq_ok.1 hy
      obtain ⟨e, he, hy⟩ := Outcome.bind_eq_ok.1 hy
      injection hy with hy
      rw [← hy]
      refine add_nonneg (ih x hx) ?_
      unfold Eval.squaredDistance at he
      split at he
      · injection he with he
        rw [← he]
        refine List.sum_nonneg fun z hz => ?_
        obtain ⟨i, hi, hz⟩ := List.mem_iff_getElem.1 hz
        rw [← hz, List.getElem_zipWith]
        exact mul_self_nonneg _
      · cases he
  exact key _ y hy

/-- ... `rmse`, if the square root is not rounded either ... -/
theorem exact_rmse (hS : ∀ x, A.sqrt x = .num (Real.sqrt x)) (h0 : 0 < d.samples) (s : Dbl) :
    RMSE A (liftLearner f) (liftData d) s ↔ ∃ x, s = .num x ∧ Eval.rmse f d = ok x := by
  have hq : ∀ x : ℝ, 0 ≤ x → A.fsqrt (.num x) = .num (Real.sqrt x) := by
    intro x hx
    exact (if_pos hx).trans (hS x)
  constructor
  · rintro ⟨t, ht, rfl⟩
    obtain ⟨x, rfl, hx⟩ := (exact_mse hA f d h0 t).1 ht
    refine ⟨_, hq x (mse_nonneg f d hx), ?_⟩
    show (Eval.mse f d >>= _) = _
    rw [hx]
    rfl
  · rintro ⟨z, rfl, hz⟩
    obtain ⟨x, hx, hz⟩ := Outcome.bind_eq_ok.1 hz
    injection hz with hz
    exact ⟨.num x, (exact_mse hA f d h0 _).2 ⟨x, rfl, hx⟩, by rw [hq x (mse_nonneg f d hx), hz]⟩

/-- ... and `accuracy`. -/
theorem exact_accuracy (h0 : 0 < d.samples) :
    accuracy A (liftLearner f) (liftData d) = Eval.accuracy f d >>= fun x => ok (.num x) := by
  have hc : ∀ n, correct (liftLearner f) (liftData d) n = Eval.correct f d n := by
    intro n
    unfold correct Eval.correct
    rw [lift_prediction, decoding_exact]
    show (_ >>= fun p => oneOfCDecoding ((d.getTarget n).map .num) >>= _) = _
    rw [decoding_exact]
  have hloop : ∀ n, forLoop n (fun n s => do
        let c ← correct (liftLearner f) (liftData d) n
        ok (A.add s (.num (if c then 1 else 0)))) (.num 0) =
      forLoop n (fun n s => do
        let c ← Eval.correct f d n
        ok (s + if c then 1 else 0)) (0 : ℝ) >>= fun x => ok (.num x) := by
    intro n
    induction n with
    | zero => rfl
    | succ n ih =>
      show (forLoop n _ (.num 0) >>= fun s => correct (liftLearner f) (liftData d) n >>= fun c =>
        ok (A.add s (.num (if c then 1 else 0)))) = (forLoop n _ 0 >>= fun s => Eval.correct f d n >>= fun c => ok (s + if c then 1 else 0)) >>= _
      rw [ih, hc]
      cases forLoop n (fun n s => do
        let c ← Eval.correct f d n
        ok (s + if c then 1 else 0)) (0 : ℝ) with
      | ok x =>
        cases Eval.correct f d n with
        | ok c => exact congrArg ok (exact_add hA _ _)
        | _ => rfl
      | _ => rfl
  unfold accuracy Eval.accuracy
  show (forLoop d.samples _ _ >>= _) = (forLoop d.samples _ _ >>= _) >>= _
  rw [hloop]
  cases forLoop d.samples (fun n s => do
        let c ← Eval.correct f d n
        ok (s + if c then 1 else 0)) (0 : ℝ) with
  | ok x =>
    refine congrArg ok ?_
    rw [hA]
    refine (if_neg (by exact_mod_cast h0.ne')).trans ?_
    rw [hA]
    rfl
  | _ => rfl

omit hA in
theorem exact_target (n : ℕ) : oneOfCDecoding ((liftData d).getTarget n) = Eval.oneOfCDecoding (d.getTarget n) := decoding_exact _

omit hA in
/-- For numbers the confusion matrix is that of the model with real numbers, in every arithmetic. -/
theorem exact_confusion : confusionMatrix (liftLearner f) (liftData d) = Eval.confusionMatrix f d := by
  unfold confusionMatrix Eval.confusionMatrix
  simp only [lift_prediction, decoding_exact, exact_target]
  rfl

/-- The weighted accuracy, too, if nothing has to be rounded. -/
theorem exact_weighted (weights : List ℝ) : weightedAccuracy A (liftLearner f) (liftData d) (weights.map .num) =
    Eval.weightedAccuracy f d weights >>= fun x => ok (.num x) := by
  have hc : ∀ n, correct (liftLearner f) (liftData d) n = Eval.correct f d n := by
    intro n
    unfold correct Eval.correct
    rw [lift_prediction, decoding_exact, exact_target]
  have hr : ∀ n, Outcome.read (weights.map Dbl.num) n = Outcome.read weights n >>= fun x => ok (.num x) := by
    intro n
    unfold Outcome.read
    rw [List.getElem?_map]
    cases weights[n]? <;> rfl
  unfold weightedAccuracy Eval.weightedAccuracy
  show forLoop d.samples _ _ = _
  generalize d.samples = N
  induction N with
  | zero => rfl
  | succ n ih =>
    rw [forLoop, forLoop, ih]
    cases forLoop n (fun n s => do
      let c ← Eval.correct f d n
      if c then do
        let w ← Outcome.read weights n
        ok (s + w)
      else ok s) (0 : ℝ) with
    | ok x =>
      show (correct (liftLearner f) (liftData d) n >>= fun c => if c then (Outcome.read (weights.map Dbl.num) n >>= fun w =>
        ok (A.add (.num x) w)) else ok (.num x)) = (Eval.correct f d n >>= fun c => if c then (Outcome.read weights n >>= fun w =>
        ok (x + w)) else ok x) >>= _
      rw [hc, hr]
      cases Eval.correct f d n with
      | ok c =>
        cases c with
        | false => rfl
        | true =>
          show ((Outcome.read weights n >>= fun x => ok (.num x)) >>= fun w => ok (A.add (.num x) w)) =
            (Outcome.read weights n >>= fun w => ok (x + w)) >>= _
          cases Outcome.read weights n with
          | ok w => exact congrArg ok (exact_add hA _ _)
          | _ => rfl
      | _ => rfl
    | _ => rfl

theorem exact_rounded (l : List ℝ) : rounded A (l.map .num) = Eval.rounded l := by
  cases l with
  | nil => rfl
  | cons x l =>
    show (match A.add (.num x) (.num (1 / 2)) with
      | .num y => if -2 ^ 31 ≤ ⌊y⌋ ∧ ⌊y⌋ < 2 ^ 31 then ok ⌊y⌋ else ub
      | _ => ub) = _
    rw [exact_add hA]
    rfl

omit hA in
theorem exact_maxCoeff (l : List ℝ) : maxCoeff (l.map .num) = Eval.maxCoeff l := by
  cases l with
  | nil => rfl
  | cons x l => exact congrArg ok (maxLoop_exact l 1 x 0)

/-- **C146 (numbers)**: without rounding `classificationHits` is that of the model with real numbers. -/
theorem exact_hits : classificationHits A (liftLearner f) (liftData d) = Eval.classificationHits f d := by
  have h : ∀ i, hit A (liftLearner f) (liftData d) i = Eval.hit f d i := by
    intro i
    unfold hit Eval.hit
    rw [lift_prediction, exact_rounded hA, exact_maxCoeff, show (liftData d).getTarget i = (d.getTarget i).map .num from rfl,
      exact_rounded hA, exact_maxCoeff]
    rfl
  unfold classificationHits Eval.classificationHits
  simp only [h]
  rfl

omit hA in
/-- There is such an arithmetic. -/
example : ∃ A : Fpu, A.rnd = .num ∧ ∀ x, A.sqrt x = .num (Real.sqrt x) :=
  ⟨{ PoleFp.exactFpu with
      sqrt := fun x => .num (Real.sqrt x)
      sqrt_rnd := fun _ _ _ => rfl
      sqrt_num := fun x _ h => ⟨_, rfl, Real.sqrt_nonneg x, Real.sqrt_le_iff.2 ⟨by norm_num, by linarith⟩⟩ }, rfl, fun _ => rfl⟩

end

end Verif.EvalFp
