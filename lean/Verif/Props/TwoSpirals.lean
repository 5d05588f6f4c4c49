import Verif.Model.TwoSpirals
import Verif.Props.Preprocessing
import Mathlib.Tactic.Linarith
import Mathlib.Tactic.FieldSimp

/-!
# The two spirals data set (C89)
-/

namespace Verif.Spirals

open Outcome Pre

noncomputable section

/-! ## Spec -/

/-- Spec: the points of the two spirals; `first = false` is the opposite spiral. -/
def point (d : ℕ) (D : ℝ) (first : Bool) (i : ℕ) : ℝ × ℝ :=
  if first then (x d D i, y d D i) else (-x d D i, -y d D i)

/-- Spec: spiral and number of the point in row `r` of the training set; the points with even numbers, in pairs. -/
def trainingOf (d r : ℕ) : Bool × ℕ := if r = 96 * d then (true, 96 * d) else (decide (r % 2 = 0), 2 * (r / 2))

/-- Spec: the same for the test set; the points with odd numbers, in pairs, and the rest. -/
def testOf (d r : ℕ) : Bool × ℕ := if r = 96 * d then (false, 96 * d) else (decide (r % 2 = 0), 2 * (r / 2) + 1)

/-- Spec: the label of a spiral. -/
def label (first : Bool) : ℝ := if first then 1 else -1

/-! ## The loop -/

def trainVal (d : ℕ) (D : ℝ) (r c : ℕ) : ℝ :=
  if c = 0 then (point d D (trainingOf d r).1 (trainingOf d r).2).1 else (point d D (trainingOf d r).1 (trainingOf d r).2).2

def testVal (d : ℕ) (D : ℝ) (r c : ℕ) : ℝ :=
  if c = 0 then (point d D (testOf d r).1 (testOf d r).2).1 else (point d D (testOf d r).1 (testOf d r).2).2

/-- The variables before iteration `i`. -/
def inv (d : ℕ) (D : ℝ) (junk : ℕ → ℕ → ℝ) (i : ℕ) : Vars where
  Xtr := ⟨96 * d + 1, 2, fun r c => if r < 2 * ((i + 1) / 2) then trainVal d D r c else junk r c⟩
  Ytr := ⟨96 * d + 1, 1, fun r c => if r < 2 * ((i + 1) / 2) then label (trainingOf d r).1 else junk r c⟩
  Xte := ⟨96 * d + 1, 2, fun r c => if r < 2 * (i / 2) then testVal d D r c else junk r c⟩
  Yte := ⟨96 * d + 1, 1, fun r c => if r < 2 * (i / 2) then label (testOf d r).1 else junk r c⟩
  trIdx := 2 * ((i + 1) / 2)
  teIdx := 2 * (i / 2)

theorem setRow2_ok {m : Mat} {r : ℕ} (h : r < m.rows) (hc : m.cols = 2) (a b : ℝ) :
    setRow2 m r a b = ok ⟨m.rows, m.cols, fun i j => if i = r then (if j = 0 then a else b) else m.val i j⟩ := if_pos ⟨h, hc⟩

theorem setRow1_ok {m : Mat} {r : ℕ} (h : r < m.rows) (hc : m.cols = 1) (a : ℝ) :
    setRow1 m r a = ok ⟨m.rows, m.cols, fun i j => if i = r then a else m.val i j⟩ := if_pos ⟨h, hc⟩

/-- Two rows are added to the rows that were already written. -/
theorem two_rows {f junk : ℕ → ℕ → ℝ} {g0 g1 : ℕ → ℝ} {i : ℕ} (h0 : g0 = f i) (h1 : g1 = f (i + 1)) :
    (fun r c => if r = i + 1 then g1 c else if r = i then g0 c else if r < i then f r c else junk r c) =
      fun r c => if r < i + 2 then f r c else junk r c := by
  funext r c
  by_cases e1 : r = i + 1
  · rw [if_pos e1, if_pos (show r < i + 2 by omega), h1, e1]
  · by_cases e0 : r = i
    · rw [if_neg e1, if_pos e0, if_pos (show r < i + 2 by omega), h0, e0]
    · by_cases hr : r < i
      · rw [if_neg e1, if_neg e0, if_pos hr, if_pos (show r < i + 2 by omega)]
      · rw [if_neg e1, if_neg e0, if_neg hr, if_neg (show ¬r < i + 2 by omega)]

/-- A pair of points is added at the rows `i`, `i + 1`. -/
theorem add_pair {d : ℕ} {D : ℝ} {junk : ℕ → ℕ → ℝ} {n i : ℕ} {of : ℕ → Bool × ℕ} {k : ℕ} (hn : i + 1 < n)
    (t0 : of i = (true, k)) (t1 : of (i + 1) = (false, k)) {α : Type} (F : Mat → Mat → Outcome α)
    (val : ℕ → ℕ → ℝ)
    (hval : ∀ r c, val r c = if c = 0 then (point d D (of r).1 (of r).2).1 else (point d D (of r).1 (of r).2).2) :
    (do
      let X ← setRow2 ⟨n, 2, fun r c => if r < i then val r c else junk r c⟩ i (x d D k) (y d D k)
      let Y ← setRow1 ⟨n, 1, fun r c => if r < i then label (of r).1 else junk r c⟩ i 1
      let X' ← setRow2 X (i + 1) (-x d D k) (-y d D k)
      let Y' ← setRow1 Y (i + 1) (-1)
      F X' Y') = F ⟨n, 2, fun r c => if r < i + 2 then val r c else junk r c⟩
        ⟨n, 1, fun r c => if r < i + 2 then label (of r).1 else junk r c⟩ := by
  rw [setRow2_ok (show i < n by omega) rfl, ok_bind, setRow1_ok (show i < n by omega) rfl, ok_bind,
    setRow2_ok (show i + 1 < n by omega) rfl, ok_bind, setRow1_ok (show i + 1 < n by omega) rfl, ok_bind]
  have hX := two_rows (f := val) (junk := junk) (i := i) (g0 := fun c => if c = 0 then x d D k else y d D k)
    (g1 := fun c => if c = 0 then -x d D k else -y d D k)
    (by funext c; rw [hval, t0]; rfl) (by funext c; rw [hval, t1]; rfl)
  have hY := two_rows (f := fun r _ => label (of r).1) (junk := junk) (i := i) (g0 := fun _ => 1) (g1 := fun _ => -1)
    (by funext c; rw [t0]; rfl) (by funext c; rw [t1]; rfl)
  dsimp only at hX hY ⊢
  rw [hX, hY]

theorem inv_even (d : ℕ) (D : ℝ) (junk : ℕ → ℕ → ℝ) {i : ℕ} (hi : i < 96 * d) (he : i % 2 = 0) :
    trainingPair (96 * d) (x d D i) (y d D i) (inv d D junk i) = ok (inv d D junk (i + 1)) := by
  have e1 : 2 * ((i + 1) / 2) = i := by omega
  have e2 : 2 * ((i + 1 + 1) / 2) = i + 2 := by omega
  have e3 : 2 * (i / 2) = i := by omega
  have t0 : trainingOf d i = (true, i) := by
    unfold trainingOf
    rw [if_neg (by omega), e3]
    simp [he]
  have t1 : trainingOf d (i + 1) = (false, i) := by
    unfold trainingOf
    rw [if_neg (by omega), e1]
    simp [show (i + 1) % 2 = 1 by omega]
  unfold trainingPair inv
  simp only [e1, e2, e3]
  rw [check_true (by omega), ok_bind]
  exact add_pair (show i + 1 < 96 * d + 1 by omega) t0 t1 _ (trainVal d D) fun _ _ => rfl

theorem inv_odd (d : ℕ) (D : ℝ) (junk : ℕ → ℕ → ℝ) {i : ℕ} (hi : i < 96 * d) (ho : i % 2 = 1) :
    testPair (96 * d) (x d D i) (y d D i) (inv d D junk i) = ok (inv d D junk (i + 1)) := by
  obtain ⟨k, rfl⟩ : ∃ k, i = 2 * k + 1 := ⟨i / 2, by omega⟩
  have e1 : 2 * ((2 * k + 1) / 2) = 2 * k := by omega
  have e2 : 2 * ((2 * k + 1 + 1) / 2) = 2 * k + 2 := by omega
  have e3 : 2 * ((2 * k + 1 + 1 + 1) / 2) = 2 * k + 2 := by omega
  have e4 : 2 * (2 * k / 2) = 2 * k := by omega
  have t0 : testOf d (2 * k) = (true, 2 * k + 1) := by
    unfold testOf
    rw [if_neg (by omega), e4]
    simp
  have t1 : testOf d (2 * k + 1) = (false, 2 * k + 1) := by
    unfold testOf
    rw [if_neg (by omega), e1]
    simp [show (2 * k + 1) % 2 = 1 by omega]
  unfold testPair inv
  simp only [e1, e2, e3]
  rw [check_true (by omega), ok_bind]
  exact add_pair (show 2 * k + 1 < 96 * d + 1 by omega) t0 t1 _ (testVal d D) fun _ _ => rfl

theorem inv_zero (d : ℕ) (D : ℝ) (junk : ℕ → ℕ → ℝ) : inv d D junk 0 = start (96 * d) junk := by
  unfold inv start
  simp

/-- **C89 (layout)**: all accesses are inside of the matrices, and every row of the four matrices is written: the training set has
the points with even numbers of both spirals in turn, the test set those with odd numbers, and the innermost points are divided
between the sets. -/
theorem rawPoints_rows (d : ℕ) (D : ℝ) (junk : ℕ → ℕ → ℝ) : ∃ v, rawPoints d D junk = ok v ∧
    v.Xtr.rows = 96 * d + 1 ∧ v.Xtr.cols = 2 ∧ v.Ytr.rows = 96 * d + 1 ∧ v.Ytr.cols = 1 ∧
    v.Xte.rows = 96 * d + 1 ∧ v.Xte.cols = 2 ∧ v.Yte.rows = 96 * d + 1 ∧ v.Yte.cols = 1 ∧
    ∀ r ≤ 96 * d,
      (v.Xtr.val r 0, v.Xtr.val r 1) = point d D (trainingOf d r).1 (trainingOf d r).2 ∧
      v.Ytr.val r 0 = label (trainingOf d r).1 ∧
      (v.Xte.val r 0, v.Xte.val r 1) = point d D (testOf d r).1 (testOf d r).2 ∧
      v.Yte.val r 0 = label (testOf d r).1 := by
  unfold rawPoints
  rw [forLoop, ← inv_zero d D junk]
  rw [forLoop_eq (fun i => inv d D junk i) fun i hi => ?_]
  · rw [ok_bind]
    unfold body
    rw [if_pos rfl]
    have e1 : 2 * ((96 * d + 1) / 2) = 96 * d := by omega
    have e2 : 2 * (96 * d / 2) = 96 * d := by omega
    unfold lastPoint inv
    simp only [e1, e2]
    have hlt : 96 * d < 96 * d + 1 := by omega
    rw [setRow2_ok hlt rfl, ok_bind, setRow1_ok hlt rfl, ok_bind, setRow2_ok hlt rfl, ok_bind, setRow1_ok hlt rfl, ok_bind]
    refine ⟨_, rfl, rfl, rfl, rfl, rfl, rfl, rfl, rfl, rfl, fun r hr => ?_⟩
    dsimp only
    by_cases h : r = 96 * d
    · have t0 : trainingOf d r = (true, 96 * d) := if_pos h
      have t1 : testOf d r = (false, 96 * d) := if_pos h
      rw [if_pos h, if_pos h, if_pos h, if_pos h, if_pos h, if_pos h, t0, t1]
      exact ⟨rfl, rfl, rfl, rfl⟩
    · have hlt : r < 96 * d := by omega
      rw [if_neg h, if_neg h, if_neg h, if_neg h, if_neg h, if_neg h, if_pos hlt, if_pos hlt, if_pos hlt, if_pos hlt, if_pos hlt,
        if_pos hlt]
      exact ⟨rfl, rfl, rfl, rfl⟩
  · unfold body
    rw [if_neg (by omega)]
    by_cases he : i % 2 = 0
    · rw [if_pos he]
      exact inv_even d D junk hi he
    · rw [if_neg he]
      exact inv_odd d D junk hi (by omega)

/-! ## The spirals -/

theorem radius_sq (d : ℕ) (D : ℝ) (i : ℕ) : x d D i ^ 2 + y d D i ^ 2 = radius d D i ^ 2 := by
  unfold x y
  have := Real.sin_sq_add_cos_sq (angle d i)
  linear_combination radius d D i ^ 2 * this

theorem radius_anti {d : ℕ} (hd : 0 < d) {D : ℝ} (hD : 0 < D) {i j : ℕ} (h : i < j) : radius d D j < radius d D i := by
  unfold radius
  have hd' : (0 : ℝ) < 104 * d := by positivity
  have hij : (i : ℝ) < j := by exact_mod_cast h
  rw [div_lt_div_iff_of_pos_right hd']
  exact mul_lt_mul_of_pos_left (by linarith) hD

theorem radius_ge {d : ℕ} (hd : 0 < d) {D : ℝ} (hD : 0 < D) {i : ℕ} (h : i ≤ 96 * d) : D / 13 ≤ radius d D i := by
  unfold radius
  have hd' : (0 : ℝ) < 104 * d := by positivity
  have hi : (i : ℝ) ≤ 96 * d := by exact_mod_cast h
  rw [div_le_div_iff₀ (by norm_num) hd']
  nlinarith

theorem radius_le {d : ℕ} (hd : 0 < d) {D : ℝ} (hD : 0 < D) (i : ℕ) : radius d D i ≤ D := by
  unfold radius
  have hd' : (0 : ℝ) < 104 * d := by positivity
  rw [div_le_iff₀ hd']
  exact mul_le_mul_of_nonneg_left (by linarith [Nat.cast_nonneg (α := ℝ) i]) hD.le

/-- **C89 (separation)**: all points of the two spirals are different: no point is in both classes. -/
theorem point_injective {d : ℕ} (hd : 0 < d) {D : ℝ} (hD : 0 < D) {a b : Bool} {i j : ℕ} (hi : i ≤ 96 * d) (hj : j ≤ 96 * d)
    (h : point d D a i = point d D b j) : a = b ∧ i = j := by
  have hsq : ∀ c k, (point d D c k).1 ^ 2 + (point d D c k).2 ^ 2 = radius d D k ^ 2 := fun c k => by
    rw [← radius_sq]
    cases c <;> simp [point]
  have h13 : 0 < D / 13 := by positivity
  have hpi := h13.trans_le (radius_ge hd hD hi)
  have hpj := h13.trans_le (radius_ge hd hD hj)
  have hij : i = j := by
    have e : radius d D i ^ 2 = radius d D j ^ 2 := by rw [← hsq a i, ← hsq b j, h]
    have e' : radius d D i = radius d D j := (sq_eq_sq₀ hpi.le hpj.le).1 e
    rcases Nat.lt_trichotomy i j with hlt | heq | hgt
    · exact absurd e' (radius_anti hd hD hlt).ne'
    · exact heq
    · exact absurd e' (radius_anti hd hD hgt).ne
  subst hij
  refine ⟨?_, rfl⟩
  have hne : ¬(x d D i = 0 ∧ y d D i = 0) := fun ⟨h0, h1⟩ => by
    have := radius_sq d D i
    rw [h0, h1] at this
    nlinarith
  cases a <;> cases b
  · rfl
  · exfalso
    have h1 : -x d D i = x d D i := congrArg Prod.fst h
    have h2 : -y d D i = y d D i := congrArg Prod.snd h
    exact hne ⟨by linarith, by linarith⟩
  · exfalso
    have h1 : x d D i = -x d D i := congrArg Prod.fst h
    have h2 : y d D i = -y d D i := congrArg Prod.snd h
    exact hne ⟨by linarith, by linarith⟩
  · rfl

/-- **C89 (disjoint sets)**: every point of the two spirals is in exactly one row of one of the two sets. -/
theorem rows_partition (d : ℕ) (a : Bool) {i : ℕ} (hi : i ≤ 96 * d) :
    ∃! s : Bool × ℕ, s.2 ≤ 96 * d ∧ (if s.1 then trainingOf d s.2 else testOf d s.2) = (a, i) := by
  have htr : ∀ r, trainingOf d r = if r = 96 * d then (true, 96 * d) else (decide (r % 2 = 0), 2 * (r / 2)) := fun _ => rfl
  have hte : ∀ r, testOf d r = if r = 96 * d then (false, 96 * d) else (decide (r % 2 = 0), 2 * (r / 2) + 1) := fun _ => rfl
  by_cases hlast : i = 96 * d
  · refine ⟨(a, 96 * d), ⟨le_refl _, ?_⟩, ?_⟩
    · cases a <;> simp [htr, hte, hlast]
    · rintro ⟨s, r⟩ ⟨hr, h⟩
      dsimp only at hr h
      cases s
      · simp only [Bool.false_eq_true, if_false, hte] at h
        split at h
        · next e => rw [e, ← (Prod.mk.inj h).1]
        · next e =>
          have := (Prod.mk.inj h).2
          omega
      · simp only [if_true, htr] at h
        split at h
        · next e => rw [e, ← (Prod.mk.inj h).1]
        · next e =>
          have := (Prod.mk.inj h).2
          omega
  · by_cases he : i % 2 = 0
    · refine ⟨(true, if a then i else i + 1), ⟨?_, ?_⟩, ?_⟩
      · dsimp only
        split <;> omega
      · dsimp only
        simp only [if_true, htr]
        cases a
        · simp only [Bool.false_eq_true, if_false]
          rw [if_neg (by omega), decide_eq_false (by omega), show 2 * ((i + 1) / 2) = i by omega]
        · simp only [if_true]
          rw [if_neg hlast, decide_eq_true he, show 2 * (i / 2) = i by omega]
      · rintro ⟨s, r⟩ ⟨hr, h⟩
        dsimp only at hr h
        cases s
        · simp only [Bool.false_eq_true, if_false, hte] at h
          split at h
          · exact absurd (Prod.mk.inj h).2.symm hlast
          · have := (Prod.mk.inj h).2
            omega
        · simp only [if_true, htr] at h
          split at h
          · exact absurd (Prod.mk.inj h).2.symm hlast
          · have h1 := (Prod.mk.inj h).1
            have h2 := (Prod.mk.inj h).2
            cases a
            · have := of_decide_eq_false h1
              rw [if_neg (by simp), show r = i + 1 by omega]
            · have := of_decide_eq_true h1
              rw [if_pos rfl, show r = i by omega]
    · refine ⟨(false, if a then i - 1 else i), ⟨?_, ?_⟩, ?_⟩
      · dsimp only
        split <;> omega
      · dsimp only
        simp only [Bool.false_eq_true, if_false, hte]
        cases a
        · simp only [Bool.false_eq_true, if_false]
          rw [if_neg hlast, decide_eq_false he, show 2 * (i / 2) + 1 = i by omega]
        · simp only [if_true]
          rw [if_neg (by omega), decide_eq_true (by omega), show 2 * ((i - 1) / 2) + 1 = i by omega]
      · rintro ⟨s, r⟩ ⟨hr, h⟩
        dsimp only at hr h
        cases s
        · simp only [Bool.false_eq_true, if_false, hte] at h
          split at h
          · exact absurd (Prod.mk.inj h).2.symm hlast
          · have h1 := (Prod.mk.inj h).1
            have h2 := (Prod.mk.inj h).2
            cases a
            · have := of_decide_eq_false h1
              rw [if_neg (by simp), show r = i by omega]
            · have := of_decide_eq_true h1
              rw [if_pos rfl, show r = i - 1 by omega]
        · simp only [if_true, htr] at h
          split at h
          · exact absurd (Prod.mk.inj h).2.symm hlast
          · have := (Prod.mk.inj h).2
            omega

/-! ## Scaling -/

/-- `scaleData` forgets position and unit of the data. -/
theorem scale_invariant {X X' : Mat} {min max : ℝ} (hmm : min < max) (hr : X'.rows = X.rows) (hc : X'.cols = X.cols) {c e : ℝ}
    (hpos : 0 < c) (h : ∀ i < X.rows, ∀ j < X.cols, X'.val i j = c * X.val i j + e) {p q : ℕ × ℕ} (hp : Inside X p)
    (hq : Inside X q) (hne : X.val p.1 p.2 ≠ X.val q.1 q.2) :
    ∃ Y Y', scaleData X min max = ok (some Y) ∧ scaleData X' min max = ok (some Y') ∧ Y.Same Y' := by
  have inside : ∀ a, Inside X' a ↔ Inside X a := fun a => by unfold Inside; rw [hr, hc]
  have val : ∀ a, Inside X a → X'.val a.1 a.2 = c * X.val a.1 a.2 + e := fun a ha => h _ ha.1 _ ha.2
  obtain ⟨Y, s, o, h1, h2, h3, _, h5, ⟨a, ha, ha1, ha2⟩, b, hb, hb1, hb2⟩ := scale_affine_partial X hmm hp hq hne
  obtain ⟨Y', s', o', g1, g2, g3, _, g5, ⟨a', ga, ga1, ga2⟩, b', gb, gb1, gb2⟩ :=
    scale_affine_partial X' hmm ((inside p).2 hp) ((inside q).2 hq) (by
      rw [val p hp, val q hq]
      intro e'
      exact hne (mul_left_cancel₀ hpos.ne' (add_right_cancel e')))
  rw [inside] at ga gb
  have ea : X.val a'.1 a'.2 = X.val a.1 a.2 := by
    have := ga2 a ((inside a).2 ha)
    rw [val a ha, val a' ga] at this
    exact le_antisymm (le_of_mul_le_mul_left (by linarith) hpos) (ha2 a' ga)
  have eb : X.val b'.1 b'.2 = X.val b.1 b.2 := by
    have := gb2 b ((inside b).2 hb)
    rw [val b hb, val b' gb] at this
    exact le_antisymm (hb2 b' gb) (le_of_mul_le_mul_left (by linarith) hpos)
  rw [(h5 _ ha.1 _ ha.2).1] at ha1
  rw [(h5 _ hb.1 _ hb.2).1] at hb1
  rw [(g5 _ ((inside a').2 ga).1 _ ((inside a').2 ga).2).1, val a' ga, ea] at ga1
  rw [(g5 _ ((inside b').2 gb).1 _ ((inside b').2 gb).2).1, val b' gb, eb] at gb1
  have hab : X.val a.1 a.2 - X.val b.1 b.2 ≠ 0 := fun e0 => by
    have : X.val a.1 a.2 = X.val b.1 b.2 := sub_eq_zero.1 e0
    rw [this, hb1] at ha1
    exact hmm.ne' ha1
  have hs : s' * c = s := by
    have : (s' * c - s) * (X.val a.1 a.2 - X.val b.1 b.2) = 0 := by linear_combination ga1 - ha1 - gb1 + hb1
    exact sub_eq_zero.1 ((mul_eq_zero.1 this).resolve_right hab)
  refine ⟨Y, Y', h1, g1, h2.trans (hr.symm.trans g2.symm), h3.trans (hc.symm.trans g3.symm), fun i hi j hj => ?_⟩
  rw [h2] at hi
  rw [h3] at hj
  rw [(h5 i hi j hj).1, (g5 i (by omega) j (by omega)).1, h i hi j hj]
  linear_combination ha1 - ga1 + (X.val a.1 a.2 - X.val i j) * hs

theorem point_abs {d : ℕ} (hd : 0 < d) {D : ℝ} (hD : 0 < D) (a : Bool) {i : ℕ} (hi : i ≤ 96 * d) :
    |(point d D a i).1| ≤ radius d D i ∧ |(point d D a i).2| ≤ radius d D i := by
  have hr : 0 ≤ radius d D i := le_trans (by positivity) (radius_ge hd hD hi)
  have h1 : |x d D i| ≤ radius d D i := by
    unfold x
    rw [abs_mul, abs_of_nonneg hr]
    exact mul_le_of_le_one_right hr (Real.abs_cos_le_one _)
  have h2 : |y d D i| ≤ radius d D i := by
    unfold y
    rw [abs_mul, abs_of_nonneg hr]
    exact mul_le_of_le_one_right hr (Real.abs_sin_le_one _)
  cases a
  · exact ⟨by show |-x d D i| ≤ _; rwa [abs_neg], by show |-y d D i| ≤ _; rwa [abs_neg]⟩
  · exact ⟨h1, h2⟩

theorem x_zero (d : ℕ) (D : ℝ) (hd : 0 < d) : x d D 0 = D := by
  unfold x radius angle
  have : (104 * d : ℝ) ≠ 0 := by positivity
  simp only [Nat.cast_zero, zero_mul, zero_div, Real.cos_zero, mul_one, sub_zero]
  field_simp

theorem x_one_pos {d : ℕ} (hd : 0 < d) {D : ℝ} (hD : 0 < D) : 0 < x d D 1 := by
  unfold x
  have hr : 0 < radius d D 1 := lt_of_lt_of_le (by positivity) (radius_ge hd hD (show 1 ≤ 96 * d by omega))
  refine mul_pos hr (Real.cos_pos_of_mem_Ioo ⟨?_, ?_⟩)
  · unfold angle
    have : 0 ≤ ((1 : ℕ) : ℝ) * Real.pi / (16 * d) := by positivity
    linarith [Real.pi_pos]
  · unfold angle
    have hd' : (1 : ℝ) ≤ d := by exact_mod_cast hd
    rw [div_lt_div_iff₀ (by positivity) (by norm_num), Nat.cast_one]
    nlinarith [Real.pi_pos]

theorem trainingOf_le (d : ℕ) {r : ℕ} (hr : r ≤ 96 * d) : (trainingOf d r).2 ≤ 96 * d := by
  unfold trainingOf
  split
  · exact le_refl _
  · show 2 * (r / 2) ≤ _
    omega

theorem testOf_bounds {d : ℕ} (hd : 0 < d) {r : ℕ} (hr : r ≤ 96 * d) : 1 ≤ (testOf d r).2 ∧ (testOf d r).2 ≤ 96 * d := by
  unfold testOf
  split
  · show 1 ≤ 96 * d ∧ 96 * d ≤ 96 * d
    omega
  · show 1 ≤ 2 * (r / 2) + 1 ∧ 2 * (r / 2) + 1 ≤ 96 * d
    omega

theorem two_cols {P : ℕ → Prop} (h0 : P 0) (h1 : P 1) : ∀ j < 2, P j := fun j hj => by
  rcases Nat.lt_or_ge j 1 with h | h
  · rwa [show j = 0 by omega]
  · rwa [show j = 1 by omega]

/-- **C89 (result)**: for every density and diameter the function returns; training inputs are the points scaled by `1 / (2 D)`
around the centre 1/2, test inputs the points scaled by a larger factor, both in [0, 1]; labels are those of the spirals. -/
theorem create_spec {d : ℕ} (hd : 0 < d) {D : ℝ} (hD : 0 < D) (junk : ℕ → ℕ → ℝ) :
    ∃ U Y V Z s o, createTwoSpiralsDataSet d D junk = ok ⟨some U, Y, some V, Z⟩ ∧ 1 / (2 * D) < s ∧
      U.rows = 96 * d + 1 ∧ U.cols = 2 ∧ Y.rows = 96 * d + 1 ∧ Y.cols = 1 ∧
      V.rows = 96 * d + 1 ∧ V.cols = 2 ∧ Z.rows = 96 * d + 1 ∧ Z.cols = 1 ∧
      ∀ r ≤ 96 * d,
        U.val r 0 = 1 / (2 * D) * (point d D (trainingOf d r).1 (trainingOf d r).2).1 + 1 / 2 ∧
        U.val r 1 = 1 / (2 * D) * (point d D (trainingOf d r).1 (trainingOf d r).2).2 + 1 / 2 ∧
        V.val r 0 = s * (point d D (testOf d r).1 (testOf d r).2).1 + o ∧
        V.val r 1 = s * (point d D (testOf d r).1 (testOf d r).2).2 + o ∧
        (∀ j < 2, 0 ≤ U.val r j ∧ U.val r j ≤ 1 ∧ 0 ≤ V.val r j ∧ V.val r j ≤ 1) ∧
        Y.val r 0 = label (trainingOf d r).1 ∧ Z.val r 0 = label (testOf d r).1 := by
  obtain ⟨v, hv, a1, a2, a3, a4, a5, a6, a7, a8, hrow⟩ := rawPoints_rows d D junk
  have u0 : ∀ r ≤ 96 * d, v.Xtr.val r 0 = (point d D (trainingOf d r).1 (trainingOf d r).2).1 :=
    fun r hr => congrArg Prod.fst (hrow r hr).1
  have u1 : ∀ r ≤ 96 * d, v.Xtr.val r 1 = (point d D (trainingOf d r).1 (trainingOf d r).2).2 :=
    fun r hr => congrArg Prod.snd (hrow r hr).1
  have w0 : ∀ r ≤ 96 * d, v.Xte.val r 0 = (point d D (testOf d r).1 (testOf d r).2).1 :=
    fun r hr => congrArg Prod.fst (hrow r hr).2.2.1
  have w1 : ∀ r ≤ 96 * d, v.Xte.val r 1 = (point d D (testOf d r).1 (testOf d r).2).2 :=
    fun r hr => congrArg Prod.snd (hrow r hr).2.2.1
  have tr0 : trainingOf d 0 = (true, 0) := by
    unfold trainingOf
    rw [if_neg (by omega)]
    rfl
  have tr1 : trainingOf d 1 = (false, 0) := by
    unfold trainingOf
    rw [if_neg (by omega)]
    rfl
  have te0 : testOf d 0 = (true, 1) := by
    unfold testOf
    rw [if_neg (by omega)]
    rfl
  have te1 : testOf d 1 = (false, 1) := by
    unfold testOf
    rw [if_neg (by omega)]
    rfl
  have x00 : v.Xtr.val 0 0 = D := by
    rw [u0 0 (by omega), tr0]
    exact x_zero d D hd
  have x10 : v.Xtr.val 1 0 = -D := by
    rw [u0 1 (by omega), tr1]
    show -x d D 0 = -D
    rw [x_zero d D hd]
  have z00 : v.Xte.val 0 0 = x d D 1 := by
    rw [w0 0 (by omega), te0]
    rfl
  have z10 : v.Xte.val 1 0 = -x d D 1 := by
    rw [w0 1 (by omega), te1]
    rfl
  have hx1 := x_one_pos hd hD
  have inU : ∀ r c, r ≤ 96 * d → c < 2 → Inside v.Xtr (r, c) := fun r c hr hc => by
    unfold Inside
    rw [a1, a2]
    exact ⟨by dsimp only; omega, hc⟩
  have inV : ∀ r c, r ≤ 96 * d → c < 2 → Inside v.Xte (r, c) := fun r c hr hc => by
    unfold Inside
    rw [a5, a6]
    exact ⟨by dsimp only; omega, hc⟩
  obtain ⟨U, s1, o1, h1, h2, h3, h4, h5, ⟨a, ha, ha1, ha2⟩, b, hb, hb1, hb2⟩ :=
    scale_affine_partial v.Xtr (min := 0) (max := 1) one_pos (inU 0 0 (by omega) (by omega)) (inU 1 0 (by omega) (by omega)) (by
      rw [x00, x10]
      linarith)
  obtain ⟨V, s2, o2, g1, g2, g3, g4, g5, ⟨a', ga, ga1, ga2⟩, b', gb, gb1, gb2⟩ :=
    scale_affine_partial v.Xte (min := 0) (max := 1) one_pos (inV 0 0 (by omega) (by omega)) (inV 1 0 (by omega) (by omega)) (by
      rw [z00, z10]
      linarith)
  have absU : ∀ r ≤ 96 * d, ∀ c < 2, |v.Xtr.val r c| ≤ D := fun r hr => by
    have hp := point_abs hd hD (trainingOf d r).1 (trainingOf_le d hr)
    have hl := radius_le hd hD (trainingOf d r).2
    refine two_cols ?_ ?_
    · rw [u0 r hr]
      exact hp.1.trans hl
    · rw [u1 r hr]
      exact hp.2.trans hl
  have absV : ∀ r ≤ 96 * d, ∀ c < 2, |v.Xte.val r c| ≤ radius d D 1 := fun r hr => by
    obtain ⟨k1, k2⟩ := testOf_bounds hd hr
    have hp := point_abs hd hD (testOf d r).1 k2
    have hl : radius d D (testOf d r).2 ≤ radius d D 1 := by
      rcases Nat.lt_or_ge 1 (testOf d r).2 with h | h
      · exact (radius_anti hd hD h).le
      · rw [show (testOf d r).2 = 1 by omega]
    refine two_cols ?_ ?_
    · rw [w0 r hr]
      exact hp.1.trans hl
    · rw [w1 r hr]
      exact hp.2.trans hl
  have hD1 : radius d D 1 < D := (radius_anti hd hD Nat.zero_lt_one).trans_le (radius_le hd hD 0)
  have hR : 0 < radius d D 1 := lt_of_lt_of_le (by positivity) (radius_ge hd hD (show 1 ≤ 96 * d by omega))
  -- training: smallest value -D, largest value D
  have la : v.Xtr.val a.1 a.2 = -D := by
    have l1 := ha2 _ (inU 1 0 (by omega) (by omega))
    rw [x10] at l1
    have hai : a.1 < v.Xtr.rows ∧ a.2 < v.Xtr.cols := ha
    have l2 := (abs_le.1 (absU a.1 (by omega) a.2 (by omega))).1
    linarith
  have lb : v.Xtr.val b.1 b.2 = D := by
    have l1 := hb2 _ (inU 0 0 (by omega) (by omega))
    rw [x00] at l1
    have hbi : b.1 < v.Xtr.rows ∧ b.2 < v.Xtr.cols := hb
    have l2 := (abs_le.1 (absU b.1 (by omega) b.2 (by omega))).2
    linarith
  rw [(h5 _ ha.1 _ ha.2).1, la] at ha1
  rw [(h5 _ hb.1 _ hb.2).1, lb] at hb1
  have ho1 : o1 = 1 / 2 := by linarith
  have hs1 : s1 = 1 / (2 * D) := by
    rw [eq_div_iff (by positivity)]
    linarith
  -- test: the range is smaller
  have hs2 : 1 / (2 * D) < s2 := by
    rw [(g5 _ ga.1 _ ga.2).1] at ga1
    rw [(g5 _ gb.1 _ gb.2).1] at gb1
    have hai : a'.1 < v.Xte.rows ∧ a'.2 < v.Xte.cols := ga
    have hbi : b'.1 < v.Xte.rows ∧ b'.2 < v.Xte.cols := gb
    have l1 := (abs_le.1 (absV a'.1 (by omega) a'.2 (by omega))).1
    have l2 := (abs_le.1 (absV b'.1 (by omega) b'.2 (by omega))).2
    rw [div_lt_iff₀ (by positivity)]
    nlinarith
  refine ⟨U, v.Ytr, V, v.Yte, s2, o2, ?_, hs2, h2.trans a1, h3.trans a2, a3, a4, g2.trans a5, g3.trans a6, a7, a8, fun r hr => ?_⟩
  · unfold createTwoSpiralsDataSet
    rw [if_neg (by omega), if_neg (by omega), Int.toNat_natCast, hv, ok_bind, g1, ok_bind, h1, ok_bind]
  · have eU : ∀ j < 2, U.val r j = s1 * v.Xtr.val r j + o1 ∧ 0 ≤ U.val r j ∧ U.val r j ≤ 1 := fun j hj => h5 r (by omega) j (by omega)
    have eV : ∀ j < 2, V.val r j = s2 * v.Xte.val r j + o2 ∧ 0 ≤ V.val r j ∧ V.val r j ≤ 1 := fun j hj => g5 r (by omega) j (by omega)
    refine ⟨?_, ?_, ?_, ?_, fun j hj => ⟨(eU j hj).2.1, (eU j hj).2.2, (eV j hj).2.1, (eV j hj).2.2⟩, (hrow r hr).2.1, (hrow r hr).2.2.2⟩
    · rw [(eU 0 (by omega)).1, u0 r hr, hs1, ho1]
    · rw [(eU 1 (by omega)).1, u1 r hr, hs1, ho1]
    · rw [(eV 0 (by omega)).1, w0 r hr]
    · rw [(eV 1 (by omega)).1, w1 r hr]

/-- **C89 is false for the pair of sets**: training and test inputs are scaled by different factors, for every density and
diameter; no scaling of the plane gives both, so that a test point does not lie where the training points of its spiral are. -/
theorem common_scale_fails {d : ℕ} (hd : 0 < d) {D : ℝ} (hD : 0 < D) (junk : ℕ → ℕ → ℝ) :
    ∃ U Y V Z, createTwoSpiralsDataSet d D junk = ok ⟨some U, Y, some V, Z⟩ ∧
      ¬∃ s o, ∀ r ≤ 96 * d, U.val r 0 = s * (point d D (trainingOf d r).1 (trainingOf d r).2).1 + o ∧
        V.val r 0 = s * (point d D (testOf d r).1 (testOf d r).2).1 + o := by
  obtain ⟨U, Y, V, Z, s', o', h, hs, _, _, _, _, _, _, _, _, hrow⟩ := create_spec hd hD junk
  refine ⟨U, Y, V, Z, h, fun ⟨s, o, hc⟩ => ?_⟩
  have tr0 : trainingOf d 0 = (true, 0) := if_neg (by omega)
  have tr1 : trainingOf d 1 = (false, 0) := if_neg (by omega)
  have te0 : testOf d 0 = (true, 1) := if_neg (by omega)
  have te1 : testOf d 1 = (false, 1) := if_neg (by omega)
  have p0 := (hrow 0 (by omega)).1
  have p1 := (hrow 1 (by omega)).1
  have q0 := (hrow 0 (by omega)).2.2.1
  have q1 := (hrow 1 (by omega)).2.2.1
  have c0 := (hc 0 (by omega)).1
  have c1 := (hc 1 (by omega)).1
  have e0 := (hc 0 (by omega)).2
  have e1 := (hc 1 (by omega)).2
  rw [tr0] at p0 c0
  rw [tr1] at p1 c1
  rw [te0] at q0 e0
  rw [te1] at q1 e1
  have v0 : (point d D true 0).1 = D := x_zero d D hd
  have v1 : (point d D false 0).1 = -D := by
    show -x d D 0 = -D
    rw [x_zero d D hd]
  have v2 : (point d D true 1).1 = x d D 1 := rfl
  have v3 : (point d D false 1).1 = -x d D 1 := rfl
  rw [v0] at p0 c0
  rw [v1] at p1 c1
  rw [v2] at q0 e0
  rw [v3] at q1 e1
  have hx := x_one_pos hd hD
  have k1 : (s - 1 / (2 * D)) * D = 0 := by linear_combination (1 / 2) * (p0 - c0 - p1 + c1)
  have k2 : (s - s') * x d D 1 = 0 := by linear_combination (1 / 2) * (q0 - e0 - q1 + e1)
  have r1 := (mul_eq_zero.1 k1).resolve_right hD.ne'
  have r2 := (mul_eq_zero.1 k2).resolve_right hx.ne'
  linarith

theorem point_scaled {d : ℕ} (D : ℝ) (c : ℝ) (a : Bool) (i : ℕ) :
    (point d (c * D) a i).1 = c * (point d D a i).1 ∧ (point d (c * D) a i).2 = c * (point d D a i).2 := by
  have hr : radius d (c * D) i = c * radius d D i := by
    unfold radius
    ring
  cases a
  · exact ⟨by show -x d (c * D) i = c * -x d D i; unfold x; rw [hr]; ring,
      by show -y d (c * D) i = c * -y d D i; unfold y; rw [hr]; ring⟩
  · exact ⟨by show x d (c * D) i = c * x d D i; unfold x; rw [hr]; ring,
      by show y d (c * D) i = c * y d D i; unfold y; rw [hr]; ring⟩

theorem pair_fst {a b : ℝ} {p : ℝ × ℝ} (h : (a, b) = p) : a = p.1 := congrArg Prod.fst h

theorem pair_snd {a b : ℝ} {p : ℝ × ℝ} (h : (a, b) = p) : b = p.2 := congrArg Prod.snd h

/-- **C89 is false for the diameter**: the data sets do not depend on `maxDiameter` at all. -/
theorem diameter_without_effect {d : ℕ} (hd : 0 < d) {D D' : ℝ} (hD : 0 < D) (hD' : 0 < D') (junk junk' : ℕ → ℕ → ℝ) :
    ∃ U Y V Z U' Y' V' Z', createTwoSpiralsDataSet d D junk = ok ⟨some U, Y, some V, Z⟩ ∧
      createTwoSpiralsDataSet d D' junk' = ok ⟨some U', Y', some V', Z'⟩ ∧ U.Same U' ∧ V.Same V' ∧ Y.Same Y' ∧ Z.Same Z' := by
  obtain ⟨v, hv, a1, a2, a3, a4, a5, a6, a7, a8, hrow⟩ := rawPoints_rows d D junk
  obtain ⟨w, hw, b1, b2, b3, b4, b5, b6, b7, b8, hrow'⟩ := rawPoints_rows d D' junk'
  have hc : 0 < D' / D := div_pos hD' hD
  have hDD : D' = D' / D * D := by field_simp
  have tr : ∀ r < v.Xtr.rows, ∀ j < v.Xtr.cols, w.Xtr.val r j = D' / D * v.Xtr.val r j + 0 := fun r hr j hj => by
    rw [a1] at hr
    rw [a2] at hj
    have hp := point_scaled (d := d) D (D' / D) (trainingOf d r).1 (trainingOf d r).2
    rw [← hDD] at hp
    refine two_cols (P := fun j => w.Xtr.val r j = D' / D * v.Xtr.val r j + 0) ?_ ?_ j hj
    · rw [pair_fst (hrow r (by omega)).1, pair_fst (hrow' r (by omega)).1, add_zero]
      exact hp.1
    · rw [pair_snd (hrow r (by omega)).1, pair_snd (hrow' r (by omega)).1, add_zero]
      exact hp.2
  have te : ∀ r < v.Xte.rows, ∀ j < v.Xte.cols, w.Xte.val r j = D' / D * v.Xte.val r j + 0 := fun r hr j hj => by
    rw [a5] at hr
    rw [a6] at hj
    have hp := point_scaled (d := d) D (D' / D) (testOf d r).1 (testOf d r).2
    rw [← hDD] at hp
    refine two_cols (P := fun j => w.Xte.val r j = D' / D * v.Xte.val r j + 0) ?_ ?_ j hj
    · rw [pair_fst (hrow r (by omega)).2.2.1, pair_fst (hrow' r (by omega)).2.2.1, add_zero]
      exact hp.1
    · rw [pair_snd (hrow r (by omega)).2.2.1, pair_snd (hrow' r (by omega)).2.2.1, add_zero]
      exact hp.2
  have ne1 : v.Xtr.val 0 0 ≠ v.Xtr.val 1 0 := by
    have tr0 : trainingOf d 0 = (true, 0) := if_neg (by omega)
    have tr1 : trainingOf d 1 = (false, 0) := if_neg (by omega)
    rw [pair_fst (hrow 0 (by omega)).1, pair_fst (hrow 1 (by omega)).1, tr0, tr1]
    show x d D 0 ≠ -x d D 0
    rw [x_zero d D hd]
    linarith
  have ne2 : v.Xte.val 0 0 ≠ v.Xte.val 1 0 := by
    have te0 : testOf d 0 = (true, 1) := if_neg (by omega)
    have te1 : testOf d 1 = (false, 1) := if_neg (by omega)
    rw [pair_fst (hrow 0 (by omega)).2.2.1, pair_fst (hrow 1 (by omega)).2.2.1, te0, te1]
    show x d D 1 ≠ -x d D 1
    have := x_one_pos hd hD
    linarith
  have inU : ∀ r ≤ 96 * d, Inside v.Xtr (r, 0) := fun r hr => by
    unfold Inside
    rw [a1, a2]
    exact ⟨by dsimp only; omega, by norm_num⟩
  have inV : ∀ r ≤ 96 * d, Inside v.Xte (r, 0) := fun r hr => by
    unfold Inside
    rw [a5, a6]
    exact ⟨by dsimp only; omega, by norm_num⟩
  obtain ⟨U, U', u1, u2, u3⟩ := scale_invariant (min := 0) (max := 1) one_pos (b1.trans a1.symm) (b2.trans a2.symm) hc tr
    (inU 0 (by omega)) (inU 1 (by omega)) ne1
  obtain ⟨V, V', v1, v2, v3⟩ := scale_invariant (min := 0) (max := 1) one_pos (b5.trans a5.symm) (b6.trans a6.symm) hc te
    (inV 0 (by omega)) (inV 1 (by omega)) ne2
  refine ⟨U, v.Ytr, V, v.Yte, U', w.Ytr, V', w.Yte, ?_, ?_, u3, v3, ⟨a3.trans b3.symm, a4.trans b4.symm, fun r hr j hj => ?_⟩,
    ⟨a7.trans b7.symm, a8.trans b8.symm, fun r hr j hj => ?_⟩⟩
  · unfold createTwoSpiralsDataSet
    rw [if_neg (by omega), if_neg (by omega), Int.toNat_natCast, hv, ok_bind, v1, ok_bind, u1, ok_bind]
  · unfold createTwoSpiralsDataSet
    rw [if_neg (by omega), if_neg (by omega), Int.toNat_natCast, hw, ok_bind, v2, ok_bind, u2, ok_bind]
  · rw [a4] at hj
    rw [show j = 0 by omega, (hrow r (by omega)).2.1, (hrow' r (by omega)).2.1]
  · rw [a8] at hj
    rw [show j = 0 by omega, (hrow r (by omega)).2.2.2, (hrow' r (by omega)).2.2.2]

theorem pairs_balanced (n : ℕ) : ∑ r ∈ Finset.range (2 * n), label (decide (r % 2 = 0)) = 0 := by
  induction n with
  | zero => rfl
  | succ n ih =>
    rw [show 2 * (n + 1) = 2 * n + 1 + 1 by ring, Finset.sum_range_succ, Finset.sum_range_succ, ih,
      decide_eq_true (show 2 * n % 2 = 0 by omega), decide_eq_false (show ¬(2 * n + 1) % 2 = 0 by omega)]
    simp [label]

/-- **C89 (balance)**: each set has one point more of one spiral than of the other one; both sets together have the same number. -/
theorem balanced (d : ℕ) : ∑ r ∈ Finset.range (96 * d + 1), label (trainingOf d r).1 = 1 ∧
    ∑ r ∈ Finset.range (96 * d + 1), label (testOf d r).1 = -1 := by
  have h := pairs_balanced (48 * d)
  rw [show 2 * (48 * d) = 96 * d by ring] at h
  constructor
  · rw [Finset.sum_range_succ, Finset.sum_congr rfl (g := fun r => label (decide (r % 2 = 0))) fun r hr => ?_, h]
    · unfold trainingOf
      rw [if_pos rfl]
      simp [label]
    · unfold trainingOf
      rw [if_neg (Finset.mem_range.1 hr).ne]
  · rw [Finset.sum_range_succ, Finset.sum_congr rfl (g := fun r => label (decide (r % 2 = 0))) fun r hr => ?_, h]
    · unfold testOf
      rw [if_pos rfl]
      simp [label]
    · unfold testOf
      rw [if_neg (Finset.mem_range.1 hr).ne]

/-- **C89 is false without checks of the arguments**: density 0 or diameter 0 give inputs that are not numbers, and a negative
density a matrix of negative size. -/
theorem arguments_fails {d : ℤ} (hd : 0 < d) (D : ℝ) (junk : ℕ → ℕ → ℝ) :
    createTwoSpiralsDataSet (-d) D junk = ub ∧ (∃ R, createTwoSpiralsDataSet 0 D junk = ok R ∧ R.Xtr = none ∧ R.Xte = none) ∧
    ∃ R, createTwoSpiralsDataSet d 0 junk = ok R ∧ R.Xtr = none ∧ R.Xte = none := by
  refine ⟨if_pos (by omega), ⟨_, rfl, rfl, rfl⟩, ?_⟩
  obtain ⟨v, hv, a1, a2, a3, a4, a5, a6, a7, a8, hrow⟩ := rawPoints_rows d.toNat 0 junk
  have hz : ∀ a i, point d.toNat 0 a i = (0, 0) := fun a i => by
    have hr : radius d.toNat 0 i = 0 := by
      unfold radius
      rw [zero_mul, zero_div]
    cases a <;> simp [point, x, y, hr]
  have h1 : scaleData v.Xtr 0 1 = ok none := by
    have h0 : ∀ p, Inside v.Xtr p → v.Xtr.val p.1 p.2 = 0 := fun p hp => by
      have hp1 : p.1 < v.Xtr.rows := hp.1
      have hp2 : p.2 < v.Xtr.cols := hp.2
      have := (hrow p.1 (by omega)).1
      rw [hz] at this
      exact two_cols (P := fun j => v.Xtr.val p.1 j = 0) (congrArg Prod.fst this) (congrArg Prod.snd this) p.2 (by omega)
    exact scale_constant_fails v.Xtr one_pos (by omega) (by omega) fun p q hp hq => (h0 p hp).trans (h0 q hq).symm
  have h2 : scaleData v.Xte 0 1 = ok none := by
    have h0 : ∀ p, Inside v.Xte p → v.Xte.val p.1 p.2 = 0 := fun p hp => by
      have hp1 : p.1 < v.Xte.rows := hp.1
      have hp2 : p.2 < v.Xte.cols := hp.2
      have := (hrow p.1 (by omega)).2.2.1
      rw [hz] at this
      exact two_cols (P := fun j => v.Xte.val p.1 j = 0) (congrArg Prod.fst this) (congrArg Prod.snd this) p.2 (by omega)
    exact scale_constant_fails v.Xte one_pos (by omega) (by omega) fun p q hp hq => (h0 p hp).trans (h0 q hq).symm
  refine ⟨⟨none, v.Ytr, none, v.Yte⟩, ?_, rfl, rfl⟩
  unfold createTwoSpiralsDataSet
  rw [if_neg (by omega), if_neg (by omega), hv, ok_bind, h2, ok_bind, h1, ok_bind]

/-- The hypotheses are met, and the rows of the standard data set (density 1) are as expected. -/
example : trainingOf 1 0 = (true, 0) ∧ trainingOf 1 1 = (false, 0) ∧ trainingOf 1 2 = (true, 2) ∧ trainingOf 1 96 = (true, 96) ∧
    testOf 1 0 = (true, 1) ∧ testOf 1 95 = (false, 95) ∧ testOf 1 96 = (false, 96) ∧ x 1 10 0 = 10 ∧ point 1 10 false 0 = (-10, 0) := by
  refine ⟨rfl, rfl, rfl, rfl, rfl, rfl, rfl, x_zero 1 10 Nat.one_pos, ?_⟩
  show (-x 1 10 0, -y 1 10 0) = _
  rw [x_zero 1 10 Nat.one_pos]
  simp [y, angle]

end

end Verif.Spirals
