import Verif.Model.Distorter
import Mathlib.Analysis.Real.Pi.Bounds
import Mathlib.Analysis.SpecialFunctions.Trigonometric.Bounds
import Mathlib.Tactic.Linarith
import Mathlib.Tactic.NormNum
import Mathlib.Tactic.Positivity

/-!
# C85: distorted images

What `Distorter::applyDistortion` (benchmarks/mnist/Distorter.h) does to an image, for all random numbers, all parameters
and all sizes.
-/

namespace Verif.Distorter

open Finset

noncomputable section

/-- The pixel in row `r` and column `c` of an image that is stored row by row. -/
def at_ (cols : ℕ) (image : List ℝ) (r c : ℕ) : ℝ := image.getD (r * cols + c) 0

/-- The row from which the pixel is taken. -/
def srcRow (f : Field) (r c : ℕ) : ℝ := r - f.V r c

/-- The column from which the pixel is taken. -/
def srcCol (f : Field) (r c : ℕ) : ℝ := c - f.H r c

/-- The pixels that are written: the source is in the image, and not in the last row. -/
def Inside (f : Field) (rows cols r c : ℕ) : Prop :=
  0 ≤ srcRow f r c ∧ srcRow f r c + 1 < rows ∧ 0 ≤ srcCol f r c ∧ srcCol f r c + 1 ≤ cols

/-! ## What the loops compute -/

theorem wrap_of_lt {size n : ℕ} (h : n < size) : wrap size n = n := by
  rw [wrap, dif_neg (by omega)]

theorem wrap_self {size : ℕ} (h : 0 < size) : wrap size size = 0 := by
  rw [wrap, dif_pos ⟨le_refl _, h⟩, Nat.sub_self, wrap_of_lt h]

theorem read_getD {l : List ℝ} {i : ℕ} (h : i < l.length) : Outcome.read l i = .ok (l.getD i 0) := by
  rw [Outcome.read_of_lt h, ← List.getElem_eq_getD (h := h) 0]

theorem index_lt {rows cols r c : ℕ} (hr : r < rows) (hc : c < cols) : r * cols + c < rows * cols := by
  have : (r + 1) * cols ≤ rows * cols := Nat.mul_le_mul_right _ hr
  have e : (r + 1) * cols = r * cols + cols := by ring
  omega

/-- The value of the pixel with source (`y`, `x`). -/
def blend (cols : ℕ) (image : List ℝ) (y x : ℝ) : ℝ :=
  (1 - (y - ⌈y⌉)) * (1 - (x - ⌈x⌉)) * at_ cols image ⌊y⌋.toNat ⌊x⌋.toNat +
    (1 - (y - ⌈y⌉)) * (x - ⌈x⌉) * at_ cols image ⌊y⌋.toNat (⌊x⌋.toNat + 1) +
    (y - ⌈y⌉) * (1 - (x - ⌈x⌉)) * at_ cols image (⌊y⌋.toNat + 1) ⌊x⌋.toNat +
    (y - ⌈y⌉) * (x - ⌈x⌉) * at_ cols image (⌊y⌋.toNat + 1) (⌊x⌋.toNat + 1)

open Classical in
/-- The value of a pixel after the distortion. -/
def value (f : Field) (rows cols : ℕ) (image : List ℝ) (r c : ℕ) : ℝ :=
  if Inside f rows cols r c then blend cols image (srcRow f r c) (srcCol f r c) else at_ cols image r c

theorem floor_toNat {x : ℝ} (h : 0 ≤ x) : ((⌊x⌋.toNat : ℕ) : ℝ) ≤ x ∧ x < (⌊x⌋.toNat : ℕ) + 1 := by
  have h0 : 0 ≤ ⌊x⌋ := Int.floor_nonneg.2 h
  have e : ((⌊x⌋.toNat : ℕ) : ℝ) = (⌊x⌋ : ℝ) := by
    have : ((⌊x⌋.toNat : ℤ) : ℝ) = (⌊x⌋ : ℝ) := by rw [Int.toNat_of_nonneg h0]
    exact_mod_cast this
  rw [e]
  exact ⟨Int.floor_le x, Int.lt_floor_add_one x⟩

/-- The round for a pixel: it is written or left alone. -/
theorem pixel_eq (f : Field) {rows cols : ℕ} {input inst : List ℝ} (hi : rows * cols ≤ input.length)
    (hl : inst.length = input.length) {r c : ℕ} (hr : r < rows) (hc : c < cols)
    (hs : inst.getD (r * cols + c) 0 = at_ cols input r c) :
    pixel f rows cols input r c inst = .ok (inst.set (r * cols + c) (value f rows cols input r c)) := by
  have hx := index_lt hr hc
  have hlt : r * cols + c < inst.length := by omega
  unfold pixel
  simp only
  rw [show ((r : ℝ) - f.V r c) = srcRow f r c from rfl, show ((c : ℝ) - f.H r c) = srcCol f r c from rfl]
  by_cases hin : Inside f rows cols r c
  · obtain ⟨h1, h2, h3, h4⟩ := id hin
    rw [if_pos (by push Not; exact ⟨h2, h1, h4, h3⟩)]
    rw [value, if_pos hin]
    generalize srcRow f r c = y at *
    generalize srcCol f r c = x at *
    obtain ⟨y1, y2⟩ := floor_toNat h1
    obtain ⟨x1, x2⟩ := floor_toNat h3
    have hsr : ⌊y⌋.toNat + 1 < rows := by
      have : ((⌊y⌋.toNat + 1 : ℕ) : ℝ) < rows := by push_cast; linarith
      exact_mod_cast this
    have hsc : ⌊x⌋.toNat + 1 ≤ cols := by
      have : ((⌊x⌋.toNat + 1 : ℕ) : ℝ) ≤ cols := by push_cast; linarith
      exact_mod_cast this
    rw [wrap_of_lt hsr]
    have r1 := index_lt (cols := cols) (c := ⌊x⌋.toNat) (show ⌊y⌋.toNat < rows by omega) (by omega)
    have r3 := index_lt (cols := cols) (c := ⌊x⌋.toNat) hsr (by omega)
    rcases hsc.lt_or_eq with hlt' | heq
    · rw [wrap_of_lt hlt']
      have r2 := index_lt (cols := cols) (show ⌊y⌋.toNat < rows by omega) hlt'
      have r4 := index_lt (cols := cols) hsr hlt'
      rw [read_getD (r1.trans_le hi), read_getD (r2.trans_le hi), read_getD (r3.trans_le hi), read_getD (r4.trans_le hi)]
      simp only [Outcome.ok_bind, Outcome.write, if_pos hlt]
      rfl
    · have hcf : x - ⌈x⌉ = 0 := by
        have hxe : x = ((⌊x⌋.toNat : ℕ) : ℝ) := by
          have : ((⌊x⌋.toNat + 1 : ℕ) : ℝ) = cols := by exact_mod_cast heq
          push_cast at this
          linarith
        generalize ⌊x⌋.toNat = k at hxe
        rw [hxe, Int.ceil_natCast, Int.cast_natCast, sub_self]
      rw [heq, wrap_self (by omega)]
      have r2 := index_lt (cols := cols) (c := 0) (show ⌊y⌋.toNat < rows by omega) (by omega)
      have r4 := index_lt (cols := cols) (c := 0) hsr (by omega)
      rw [read_getD (r1.trans_le hi), read_getD (r2.trans_le hi), read_getD (r3.trans_le hi), read_getD (r4.trans_le hi)]
      simp only [Outcome.ok_bind, Outcome.write, if_pos hlt, blend, hcf, at_]
      congr 2
      ring
  · rw [if_neg (by
      intro h
      push Not at h
      exact hin ⟨h.2.1, h.1, h.2.2.2, h.2.2.1⟩)]
    rw [value, if_neg hin, ← hs, ← List.getElem_eq_getD (h := hlt) 0, List.set_getElem_self]

/-- The image after the first `i` rounds. -/
def stage (f : Field) (rows cols : ℕ) (image : List ℝ) (i : ℕ) : List ℝ :=
  (List.range image.length).map fun j =>
    if j < i then value f rows cols image (j / cols) (j % cols) else image.getD j 0

@[simp] theorem stage_length (f : Field) (rows cols : ℕ) (image : List ℝ) (i : ℕ) :
    (stage f rows cols image i).length = image.length := by simp [stage]

theorem stage_getElem (f : Field) (rows cols : ℕ) (image : List ℝ) (i j : ℕ) (h : j < (stage f rows cols image i).length) :
    (stage f rows cols image i)[j] =
      if j < i then value f rows cols image (j / cols) (j % cols) else image.getD j 0 := by
  simp [stage]

theorem stage_zero (f : Field) (rows cols : ℕ) (image : List ℝ) : stage f rows cols image 0 = image := by
  refine List.ext_getElem (by simp) fun j h1 h2 => ?_
  rw [stage_getElem, if_neg (by omega), ← List.getElem_eq_getD (h := h2) 0]

/-- The loops compute every pixel from the image as it was before. -/
theorem applyField_eq (f : Field) (rows cols : ℕ) {image : List ℝ} (hi : rows * cols ≤ image.length) :
    applyField f rows cols image = .ok (stage f rows cols image (rows * cols)) := by
  unfold applyField
  rcases Nat.eq_zero_or_pos cols with h0 | hpos
  · subst h0
    have := forLoop_eq (n := rows) (body := fun r => forLoop 0 (pixel f rows 0 image r)) (fun _ => image)
      (fun i _ => rfl)
    rw [this, Nat.mul_zero, stage_zero]
  · rw [forLoop_flatten hpos]
    have := forLoop_eq (n := rows * cols) (body := fun i => pixel f rows cols image (i / cols) (i % cols))
      (fun i => stage f rows cols image i) (fun i hi' => by
        have hr : i / cols < rows := Nat.div_lt_of_lt_mul (by rwa [Nat.mul_comm])
        have hc : i % cols < cols := Nat.mod_lt _ hpos
        have e : i / cols * cols + i % cols = i := Nat.div_add_mod' i cols
        have hil : i < image.length := by omega
        rw [pixel_eq f hi (by simp) hr hc (by
          rw [e, at_, e, ← List.getElem_eq_getD (h := by simpa using hil) 0, stage_getElem, if_neg (by omega)])]
        congr 1
        rw [e]
        refine List.ext_getElem (by simp) fun j h1 h2 => ?_
        rw [List.getElem_set, stage_getElem, stage_getElem]
        by_cases hj : i = j
        · subst hj
          rw [if_pos rfl, if_pos (by omega)]
        · rw [if_neg hj]
          by_cases hji : j < i
          · rw [if_pos hji, if_pos (by omega)]
          · rw [if_neg hji, if_neg (by omega)])
    simp only [stage_zero] at this
    exact this

theorem applyField_at {f : Field} {rows cols : ℕ} {image out : List ℝ} (hi : rows * cols ≤ image.length)
    (ho : applyField f rows cols image = .ok out) {r c : ℕ} (hr : r < rows) (hc : c < cols) :
    at_ cols out r c = value f rows cols image r c := by
  rw [applyField_eq f rows cols hi] at ho
  cases ho
  have hx := index_lt hr hc
  rw [at_, ← List.getElem_eq_getD (h := by simp; omega) 0, stage_getElem, if_pos hx]
  have hpos : 0 < cols := by omega
  rw [Nat.add_comm, Nat.add_mul_div_right _ _ hpos, Nat.add_mul_mod_self_right, Nat.div_eq_of_lt hc, Nat.mod_eq_of_lt hc,
    Nat.zero_add]

/-- Two images are equal if they have the same size, the same pixels and the same values after the pixels. -/
theorem applyField_ext {f : Field} {rows cols : ℕ} {image out : List ℝ} (hi : rows * cols ≤ image.length)
    (hlen : out.length = image.length)
    (hp : ∀ r < rows, ∀ c < cols, at_ cols out r c = value f rows cols image r c)
    (hrest : ∀ j, rows * cols ≤ j → out.getD j 0 = image.getD j 0) : applyField f rows cols image = .ok out := by
  rw [applyField_eq f rows cols hi]
  congr 1
  refine List.ext_getElem (by simp [hlen]) fun j h1 h2 => ?_
  rw [stage_getElem]
  by_cases hj : j < rows * cols
  · rw [if_pos hj]
    have hpos : 0 < cols := by
      rcases Nat.eq_zero_or_pos cols with h | h
      · subst h; simp at hj
      · exact h
    rw [← hp _ (Nat.div_lt_of_lt_mul (by rwa [Nat.mul_comm])) _ (Nat.mod_lt _ hpos), at_, Nat.div_add_mod',
      ← List.getElem_eq_getD (h := h2) 0]
  · rw [if_neg hj, ← hrest j (by omega), ← List.getElem_eq_getD (h := h2) 0]

/-! ## Safety -/

theorem createDistortionMap_square (d : Config) (n : ℕ) (x : Draws) : ∃ f, createDistortionMap d n n x = .ok f :=
  ⟨_, by rw [createDistortionMap, Outcome.check_true rfl]; rfl⟩

/-- **Every square image can be distorted**: whatever the random numbers and the parameters are, no pixel outside of the
image is read or written, the number of pixels stays the same, and values behind the pixels stay the same. -/
theorem applyDistortion_runs (d : Config) (n : ℕ) (x : Draws) {image : List ℝ} (hi : n * n ≤ image.length) :
    ∃ out, applyDistortion d n n x image = .ok out ∧ out.length = image.length ∧
      ∀ j, n * n ≤ j → out[j]? = image[j]? := by
  obtain ⟨f, hf⟩ := createDistortionMap_square d n x
  refine ⟨stage f n n image (n * n), ?_, by simp, fun j hj => ?_⟩
  · rw [applyDistortion, hf, Outcome.ok_bind, applyField_eq f n n hi]
  · by_cases h : j < image.length
    · rw [List.getElem?_eq_getElem (by simpa using h), List.getElem?_eq_getElem h, stage_getElem, if_neg (by omega),
        ← List.getElem_eq_getD (h := h) 0]
    · rw [List.getElem?_eq_none (by simpa using h), List.getElem?_eq_none (by omega)]

example : (3 * 3 : ℕ) ≤ (List.replicate 10 (1 : ℝ)).length := by simp

/-- **Only square images can be distorted**: otherwise the check fails, before the image is touched. -/
theorem applyDistortion_nonsquare (d : Config) {rows cols : ℕ} (h : rows ≠ cols) (x : Draws) (image : List ℝ) :
    applyDistortion d rows cols x image = .checkFailed := by
  rw [applyDistortion, createDistortionMap, Outcome.check_false (fun h' => h h'.symm)]
  rfl

example : (28 : ℕ) ≠ 32 := by norm_num

/-- Every pixel of the result is its old value or computed from its source. -/
theorem applyDistortion_at {d : Config} {n : ℕ} {x : Draws} {image out : List ℝ} (hi : n * n ≤ image.length)
    (ho : applyDistortion d n n x image = .ok out) :
    ∃ f, createDistortionMap d n n x = .ok f ∧
      ∀ r < n, ∀ c < n, at_ n out r c = value f n n image r c := by
  obtain ⟨f, hf⟩ := createDistortionMap_square d n x
  rw [applyDistortion, hf, Outcome.ok_bind] at ho
  exact ⟨f, hf, fun r hr c hc => applyField_at hi ho hr hc⟩

/-! ## What distortions keep -/

theorem blend_weights (y x : ℝ) (v : ℝ) :
    (1 - y) * (1 - x) * v + (1 - y) * x * v + y * (1 - x) * v + y * x * v = v := by ring

theorem at_replicate {n r c : ℕ} (hr : r < n) (hc : c < n) (v : ℝ) : at_ n (List.replicate (n * n) v) r c = v := by
  have := index_lt hr hc
  rw [at_, ← List.getElem_eq_getD (h := by simpa using this) 0]
  simp

/-- The four neighbours are in the image, or have weight 0. -/
theorem blend_eq {rows cols : ℕ} {image : List ℝ} {y x : ℝ} (h1 : 0 ≤ y) (h2 : y + 1 < rows) (h3 : 0 ≤ x)
    (h4 : x + 1 ≤ cols) :
    ⌊y⌋.toNat + 1 < rows ∧ ⌊x⌋.toNat < cols ∧ (⌊x⌋.toNat + 1 < cols ∨ x - ⌈x⌉ = 0 ∧ blend cols image y x =
      (1 - (y - ⌈y⌉)) * at_ cols image ⌊y⌋.toNat ⌊x⌋.toNat + (y - ⌈y⌉) * at_ cols image (⌊y⌋.toNat + 1) ⌊x⌋.toNat) := by
  obtain ⟨y1, y2⟩ := floor_toNat h1
  obtain ⟨x1, x2⟩ := floor_toNat h3
  have hsr : ⌊y⌋.toNat + 1 < rows := by
    have : ((⌊y⌋.toNat + 1 : ℕ) : ℝ) < rows := by push_cast; linarith
    exact_mod_cast this
  have hsc : ⌊x⌋.toNat + 1 ≤ cols := by
    have : ((⌊x⌋.toNat + 1 : ℕ) : ℝ) ≤ cols := by push_cast; linarith
    exact_mod_cast this
  refine ⟨hsr, by omega, ?_⟩
  rcases hsc.lt_or_eq with h | heq
  · exact Or.inl h
  · right
    have hcf : x - ⌈x⌉ = 0 := by
      have hxe : x = ((⌊x⌋.toNat : ℕ) : ℝ) := by
        have : ((⌊x⌋.toNat + 1 : ℕ) : ℝ) = cols := by exact_mod_cast heq
        push_cast at this
        linarith
      generalize ⌊x⌋.toNat = k at hxe
      rw [hxe, Int.ceil_natCast, Int.cast_natCast, sub_self]
    refine ⟨hcf, ?_⟩
    rw [blend, hcf]
    ring

/-- A statement about four numbers carries over to a pixel. -/
theorem blend_affine {rows cols : ℕ} {image : List ℝ} {a b e : ℝ}
    (hI : ∀ r < rows, ∀ c < cols, at_ cols image r c = a + b * r + e * c) {y x : ℝ} (h1 : 0 ≤ y) (h2 : y + 1 < rows)
    (h3 : 0 ≤ x) (h4 : x + 1 ≤ cols) :
    blend cols image y x = a + b * (y + ⌊y⌋ - ⌈y⌉) + e * (x + ⌊x⌋ - ⌈x⌉) := by
  have ey : ((⌊y⌋.toNat : ℕ) : ℝ) = (⌊y⌋ : ℝ) := by
    have : ((⌊y⌋.toNat : ℤ) : ℝ) = (⌊y⌋ : ℝ) := by rw [Int.toNat_of_nonneg (Int.floor_nonneg.2 h1)]
    exact_mod_cast this
  have ex : ((⌊x⌋.toNat : ℕ) : ℝ) = (⌊x⌋ : ℝ) := by
    have : ((⌊x⌋.toNat : ℤ) : ℝ) = (⌊x⌋ : ℝ) := by rw [Int.toNat_of_nonneg (Int.floor_nonneg.2 h3)]
    exact_mod_cast this
  obtain ⟨q1, q2, h | ⟨hcf, hb⟩⟩ := blend_eq (image := image) h1 h2 h3 h4
  · rw [blend, hI _ (by omega) _ q2, hI _ (by omega) _ h, hI _ q1 _ q2, hI _ q1 _ h]
    push_cast
    rw [ey, ex]
    ring
  · rw [hb, hI _ (by omega) _ q2, hI _ q1 _ q2]
    push_cast
    rw [ey, ex]
    linear_combination (-e) * hcf

/-- **A blank image stays blank**: an image with equal pixels is not changed, whatever the random numbers are. -/
theorem constant (d : Config) (n : ℕ) (x : Draws) (v : ℝ) :
    applyDistortion d n n x (List.replicate (n * n) v) = .ok (List.replicate (n * n) v) := by
  obtain ⟨f, hf⟩ := createDistortionMap_square d n x
  rw [applyDistortion, hf, Outcome.ok_bind]
  refine applyField_ext (by simp) rfl (fun r hr c hc => ?_) fun _ _ => rfl
  rw [value]
  split
  · rename_i h
    rw [at_replicate hr hc, blend_affine (rows := n) (a := v) (b := 0) (e := 0)
      (fun r hr c hc => by rw [at_replicate hr hc]; ring) h.1 h.2.1 h.2.2.1 h.2.2.2]
    ring
  · rfl

/-- The sum of two images with weights. -/
def combine (a b : ℝ) (i j : List ℝ) : List ℝ := List.zipWith (fun u v => a * u + b * v) i j

theorem combine_getD (a b : ℝ) {i j : List ℝ} (h : i.length = j.length) (k : ℕ) :
    (combine a b i j).getD k 0 = a * i.getD k 0 + b * j.getD k 0 := by
  unfold combine
  by_cases hk : k < i.length
  · rw [← List.getElem_eq_getD (h := by simp; omega) 0, ← List.getElem_eq_getD (h := hk) 0,
      ← List.getElem_eq_getD (h := by omega) 0]
    simp
  · simp only [List.getD_eq_getElem?_getD]
    rw [List.getElem?_eq_none (by simp; omega), List.getElem?_eq_none (by omega), List.getElem?_eq_none (by omega)]
    simp

/-- **Distortion is linear**: with the same random numbers a weighted sum of two images becomes the weighted sum of the
distorted images. -/
theorem linear {d : Config} {n : ℕ} {x : Draws} {i j oi oj : List ℝ} (hi : n * n ≤ i.length) (hij : i.length = j.length)
    (hoi : applyDistortion d n n x i = .ok oi) (hoj : applyDistortion d n n x j = .ok oj) (a b : ℝ) :
    applyDistortion d n n x (combine a b i j) = .ok (combine a b oi oj) := by
  obtain ⟨f, hf⟩ := createDistortionMap_square d n x
  rw [applyDistortion, hf, Outcome.ok_bind] at hoi hoj ⊢
  have li : oi = stage f n n i (n * n) := by
    rw [applyField_eq f n n hi] at hoi; exact (Outcome.ok.inj hoi).symm
  have lj : oj = stage f n n j (n * n) := by
    rw [applyField_eq f n n (by omega)] at hoj; exact (Outcome.ok.inj hoj).symm
  have hl : oi.length = oj.length := by rw [li, lj]; simpa using hij
  have hli : oi.length = i.length := by rw [li]; simp
  have hc : (combine a b i j).length = i.length := by simp [combine]; omega
  have hat : ∀ r c, at_ n (combine a b i j) r c = a * at_ n i r c + b * at_ n j r c := fun r c =>
    combine_getD a b hij _
  refine applyField_ext (by omega) (by simp [combine]; omega) (fun r hr c hcc => ?_) fun k hk => ?_
  · rw [at_, combine_getD a b hl]
    have e1 := applyField_at hi hoi hr hcc
    have e2 := applyField_at (by omega) hoj hr hcc
    rw [at_] at e1 e2
    rw [e1, e2, value, value, value]
    split
    · rw [blend, blend, blend, hat, hat, hat, hat]
      ring
    · rw [hat]
  · rw [combine_getD a b hl, combine_getD a b hij, li, lj]
    have key : ∀ im : List ℝ, (stage f n n im (n * n)).getD k 0 = im.getD k 0 := fun im => by
      by_cases hk' : k < im.length
      · rw [← List.getElem_eq_getD (h := by simpa using hk') 0, stage_getElem, if_neg (by omega)]
      · simp only [List.getD_eq_getElem?_getD]
        rw [List.getElem?_eq_none (by simpa using hk'), List.getElem?_eq_none (by omega)]
    rw [key, key]

/-- A field of whole numbers moves pixels. -/
theorem value_integer {f : Field} {rows cols : ℕ} {image : List ℝ} {r c y x : ℕ} (hy : srcRow f r c = y)
    (hx : srcCol f r c = x) (h1 : y + 1 < rows) (h2 : x < cols) : value f rows cols image r c = at_ cols image y x := by
  have hin : Inside f rows cols r c := by
    refine ⟨by rw [hy]; positivity, by rw [hy]; exact_mod_cast h1, by rw [hx]; positivity, ?_⟩
    rw [hx]
    exact_mod_cast h2
  rw [value, if_pos hin, hy, hx, blend]
  simp

/-- **Where the displacement is a whole number of pixels, the pixel is moved unchanged** - except if it comes from the
last row. -/
theorem translation {f : Field} {rows cols : ℕ} {image out : List ℝ} (hi : rows * cols ≤ image.length)
    (ho : applyField f rows cols image = .ok out) {r c y x : ℕ} (hr : r < rows) (hc : c < cols)
    (hy : (r : ℝ) - f.V r c = y) (hx : (c : ℝ) - f.H r c = x) (h1 : y + 1 < rows) (h2 : x < cols) :
    at_ cols out r c = at_ cols image y x := by
  rw [applyField_at hi ho hr hc, value_integer hy hx h1 h2]

example : ((2 : ℕ) : ℝ) - (⟨fun _ _ => 1, fun _ _ => -1⟩ : Field).V 2 3 = (3 : ℕ) ∧
    ((3 : ℕ) : ℝ) - (⟨fun _ _ => 1, fun _ _ => -1⟩ : Field).H 2 3 = (2 : ℕ) := by
  constructor <;> norm_num

/-- No randomness. -/
def noDraws : Draws := ⟨fun _ _ => 0, fun _ _ => 0, 0, 0, 0⟩

/-- **Without randomness the image stays the same.** -/
theorem identity (d : Config) (n : ℕ) {image : List ℝ} (hi : n * n ≤ image.length) :
    applyDistortion d n n noDraws image = .ok image := by
  obtain ⟨f, hf⟩ := createDistortionMap_square d n noDraws
  have hz : ∀ r c, f.H r c = 0 ∧ f.V r c = 0 := by
    rw [createDistortionMap, Outcome.check_true rfl] at hf
    simp only [Outcome.ok_bind, Outcome.pure_eq] at hf
    cases hf
    intro r c
    have hcv : convolved (kernel d) n n (fun _ _ => 0) r c = 0 := by simp [convolved]
    constructor <;> simp [addRotation, addScaling, elastic, noDraws, hcv]
  rw [applyDistortion, hf, Outcome.ok_bind]
  refine applyField_ext hi rfl (fun r hr c hc => ?_) fun _ _ => rfl
  by_cases h : r + 1 < n
  · exact (value_integer (by rw [srcRow, (hz r c).2, sub_zero]) (by rw [srcCol, (hz r c).1, sub_zero]) h hc).symm
  · rw [value, if_neg]
    intro hin
    have := hin.2.1
    rw [srcRow, (hz r c).2, sub_zero] at this
    exact h (by exact_mod_cast this)

/-- **Pixels stay bounded**: distorted pixels are at most nine times as large as the pixels of the image. (They should
not be larger at all, see `range_fails`.) -/
theorem bounded_partial {d : Config} {n : ℕ} {x : Draws} {image out : List ℝ} (hi : n * n ≤ image.length)
    (ho : applyDistortion d n n x image = .ok out) {M : ℝ} (hM : ∀ r < n, ∀ c < n, |at_ n image r c| ≤ M) :
    ∀ r < n, ∀ c < n, |at_ n out r c| ≤ 9 * M := by
  obtain ⟨f, -, hv⟩ := applyDistortion_at hi ho
  intro r hr c hc
  have hM0 : 0 ≤ M := (abs_nonneg _).trans (hM r hr c hc)
  rw [hv r hr c hc, value]
  split
  · rename_i h
    obtain ⟨h1, h2, h3, h4⟩ := h
    generalize srcRow f r c = y at *
    generalize srcCol f r c = z at *
    have key : ∀ p q A B C D : ℝ, -1 ≤ p → p ≤ 0 → -1 ≤ q → q ≤ 0 → |A| ≤ M → |B| ≤ M → |C| ≤ M → |D| ≤ M →
        |(1 - p) * (1 - q) * A + (1 - p) * q * B + p * (1 - q) * C + p * q * D| ≤ 9 * M := by
      intro p q A B C D p1 p2 q1 q2 hA hB hC hD
      have t1 : |(1 - p) * (1 - q) * A| ≤ (1 - p) * (1 - q) * M := by
        rw [abs_mul, abs_of_nonneg (mul_nonneg (by linarith) (by linarith))]
        exact mul_le_mul_of_nonneg_left hA (mul_nonneg (by linarith) (by linarith))
      have t2 : |(1 - p) * q * B| ≤ (1 - p) * (-q) * M := by
        rw [abs_mul, abs_mul, abs_of_nonneg (show 0 ≤ 1 - p by linarith), abs_of_nonpos q2]
        exact mul_le_mul_of_nonneg_left hB (mul_nonneg (by linarith) (by linarith))
      have t3 : |p * (1 - q) * C| ≤ (-p) * (1 - q) * M := by
        rw [abs_mul, abs_mul, abs_of_nonneg (show 0 ≤ 1 - q by linarith), abs_of_nonpos p2]
        exact mul_le_mul_of_nonneg_left hC (mul_nonneg (by linarith) (by linarith))
      have t4 : |p * q * D| ≤ (-p) * (-q) * M := by
        rw [abs_mul, abs_mul, abs_of_nonpos q2, abs_of_nonpos p2]
        exact mul_le_mul_of_nonneg_left hD (mul_nonneg (by linarith) (by linarith))
      have tri : |(1 - p) * (1 - q) * A + (1 - p) * q * B + p * (1 - q) * C + p * q * D| ≤
          |(1 - p) * (1 - q) * A| + |(1 - p) * q * B| + |p * (1 - q) * C| + |p * q * D| :=
        (abs_add_le _ _).trans (add_le_add ((abs_add_le _ _).trans (add_le_add (abs_add_le _ _) le_rfl)) le_rfl)
      have hsum : (1 - p) * (1 - q) * M + (1 - p) * (-q) * M + (-p) * (1 - q) * M + (-p) * (-q) * M =
          (1 - 2 * p) * (1 - 2 * q) * M := by ring
      have hw : (1 - 2 * p) * (1 - 2 * q) ≤ 9 := by nlinarith
      have := mul_le_mul_of_nonneg_right hw hM0
      linarith
    have hp1 : ∀ z : ℝ, -1 ≤ z - ⌈z⌉ ∧ z - ⌈z⌉ ≤ 0 := fun z => by
      have a1 := Int.le_ceil z
      have a2 := Int.ceil_lt_add_one z
      constructor <;> linarith
    obtain ⟨q1, q2, h | ⟨hcf, hb⟩⟩ := blend_eq (image := image) h1 h2 h3 h4
    · exact key _ _ _ _ _ _ (hp1 y).1 (hp1 y).2 (hp1 z).1 (hp1 z).2 (hM _ (by omega) _ q2) (hM _ (by omega) _ h)
        (hM _ q1 _ q2) (hM _ q1 _ h)
    · rw [hb]
      have := key (y - ⌈y⌉) 0 (at_ n image ⌊y⌋.toNat ⌊z⌋.toNat) 0 (at_ n image (⌊y⌋.toNat + 1) ⌊z⌋.toNat) 0
        (hp1 y).1 (hp1 y).2 (by norm_num) le_rfl (hM _ (by omega) _ q2) (by simpa using hM0) (hM _ q1 _ q2)
        (by simpa using hM0)
      simpa using this
  · have := hM r hr c hc
    linarith

/-- **What is really interpolated**: in an image whose brightness is an affine function of the position, a written pixel
has the brightness of its source, but one pixel before it in every direction in which the source is not a whole
number. -/
theorem affine_partial {f : Field} {rows cols : ℕ} {image out : List ℝ} (hi : rows * cols ≤ image.length)
    (ho : applyField f rows cols image = .ok out) {a b e : ℝ}
    (hI : ∀ r < rows, ∀ c < cols, at_ cols image r c = a + b * r + e * c) {r c : ℕ} (hr : r < rows) (hc : c < cols)
    {y x : ℝ} (hy : (r : ℝ) - f.V r c = y) (hx : (c : ℝ) - f.H r c = x) (h1 : 0 ≤ y) (h2 : y + 1 < rows) (h3 : 0 ≤ x)
    (h4 : x + 1 ≤ cols) :
    at_ cols out r c = a + b * (y - (⌈y⌉ - ⌊y⌋)) + e * (x - (⌈x⌉ - ⌊x⌋)) := by
  have hin : Inside f rows cols r c := by
    have e1 : srcRow f r c = y := hy
    have e2 : srcCol f r c = x := hx
    unfold Inside
    rw [e1, e2]
    exact ⟨h1, h2, h3, h4⟩
  rw [applyField_at hi ho hr hc, value, if_pos hin, show srcRow f r c = y from hy, show srcCol f r c = x from hx,
    blend_affine hI h1 h2 h3 h4]
  ring

/-! ## What distortions should keep, but do not -/

/-- The largest possible horizontal scaling and nothing else. -/
def scaleDraws (s : ℝ) : Draws := ⟨fun _ _ => 0, fun _ _ => 0, s, 0, 0⟩

theorem map_of_zero {d : Config} {n : ℕ} {x : Draws} {f : Field} (hf : createDistortionMap d n n x = .ok f)
    (hH : ∀ r c, x.uniformH r c = 0) (hV : ∀ r c, x.uniformV r c = 0) (r c : ℕ) :
    f.H r c = x.horizontal * d.gammaX / 100 * (c - (n / 2 : ℕ)) +
        ((c - (n / 2 : ℕ)) * (Real.cos (d.beta * x.angle * Real.pi / 180) - 1) -
          ((n / 2 : ℕ) - r) * Real.sin (d.beta * x.angle * Real.pi / 180)) ∧
      f.V r c = -(x.vertical * d.gammaY / 100 * ((n / 2 : ℕ) - r)) -
        (((n / 2 : ℕ) - r) * (Real.cos (d.beta * x.angle * Real.pi / 180) - 1) -
          (c - (n / 2 : ℕ)) * Real.sin (d.beta * x.angle * Real.pi / 180)) := by
  rw [createDistortionMap, Outcome.check_true rfl] at hf
  simp only [Outcome.ok_bind, Outcome.pure_eq] at hf
  cases hf
  have h1 : convolved (kernel d) n n x.uniformH r c = 0 := by simp [convolved, hH]
  have h2 : convolved (kernel d) n n x.uniformV r c = 0 := by simp [convolved, hV]
  constructor <;> simp only [addRotation, addScaling, elastic, h1, h2] <;> ring

/-- **Scaling scales around the centre**: with nothing but scaling, the source of a pixel is its position relative to the
centre, times 1 minus the scaling. -/
theorem scaling_exact {d : Config} {n : ℕ} {x : Draws} {f : Field} (hf : createDistortionMap d n n x = .ok f)
    (hH : ∀ r c, x.uniformH r c = 0) (hV : ∀ r c, x.uniformV r c = 0) (ha : x.angle = 0) (r c : ℕ) :
    srcCol f r c - (n / 2 : ℕ) = (1 - x.horizontal * d.gammaX / 100) * (c - (n / 2 : ℕ)) ∧
      srcRow f r c - (n / 2 : ℕ) = (1 - x.vertical * d.gammaY / 100) * (r - (n / 2 : ℕ)) := by
  obtain ⟨h1, h2⟩ := map_of_zero hf hH hV r c
  rw [srcCol, srcRow, h1, h2, ha]
  simp only [mul_zero, zero_mul, zero_div, Real.cos_zero, Real.sin_zero, sub_self]
  constructor <;> ring

example : (scaleDraws 1).angle = 0 ∧ (scaleDraws 1).horizontal = 1 := ⟨rfl, rfl⟩

/-- An image of 4 x 4 pixels with one white column. -/
def column : List ℝ := [0, 1, 0, 0, 0, 1, 0, 0, 0, 1, 0, 0, 0, 1, 0, 0]

/-- **Distorted pixels can leave the range of the image**: with the default parameters, an image of zeros and ones gets a
pixel with the value 1.85. -/
theorem range_fails : ∃ (x : Draws) (image out : List ℝ),
    (∀ r c, |x.uniformH r c| ≤ 1 ∧ |x.uniformV r c| ≤ 1) ∧ |x.horizontal| ≤ 1 ∧ |x.vertical| ≤ 1 ∧ |x.angle| ≤ 1 ∧
      (∀ v ∈ image, 0 ≤ v ∧ v ≤ 1) ∧ image.length = 4 * 4 ∧ applyDistortion default 4 4 x image = .ok out ∧
      at_ 4 out 0 1 = 37 / 20 := by
  obtain ⟨out, ho, -⟩ := applyDistortion_runs default 4 (scaleDraws 1) (image := column) (by decide)
  refine ⟨scaleDraws 1, column, out, fun r c => by simp [scaleDraws], by simp [scaleDraws], by simp [scaleDraws],
    by simp [scaleDraws], fun v hv => ?_, rfl, ho, ?_⟩
  · simp only [column, List.mem_cons, List.not_mem_nil, or_false] at hv
    rcases hv with h | h | h | h | h | h | h | h | h | h | h | h | h | h | h | h <;> subst h <;> norm_num
  · obtain ⟨f, hf, hv⟩ := applyDistortion_at (by decide) ho
    obtain ⟨s1, s2⟩ := scaling_exact hf (fun _ _ => rfl) (fun _ _ => rfl) rfl 0 1
    have e1 : srcCol f 0 1 = 23 / 20 := by
      have : srcCol f 0 1 - ((4 / 2 : ℕ) : ℝ) = (1 - 1 * 15 / 100) * ((1 : ℕ) - ((4 / 2 : ℕ) : ℝ)) := s1
      norm_num at this
      linarith
    have e2 : srcRow f 0 1 = 0 := by
      have : srcRow f 0 1 - ((4 / 2 : ℕ) : ℝ) = (1 - 0 * 15 / 100) * ((0 : ℕ) - ((4 / 2 : ℕ) : ℝ)) := s2
      norm_num at this
      linarith
    have c1 : ⌈(23 / 20 : ℝ)⌉ = 2 := by rw [Int.ceil_eq_iff]; norm_num
    have c2 : ⌊(23 / 20 : ℝ)⌋ = 1 := by rw [Int.floor_eq_iff]; norm_num
    rw [hv 0 (by norm_num) 1 (by norm_num), value, if_pos (by unfold Inside; rw [e1, e2]; norm_num), blend, e1, e2, c1, c2]
    norm_num [at_, column]

/-- **The rotation is not a rotation**: with nothing but rotation, a pixel on the diagonal gets its value from the
diagonal, whatever the angle is; it is only moved away from the centre by the factor 2 - cos + sin. -/
theorem rotation_keeps_diagonal {d : Config} {n : ℕ} {x : Draws} {f : Field} (hf : createDistortionMap d n n x = .ok f)
    (hH : ∀ r c, x.uniformH r c = 0) (hV : ∀ r c, x.uniformV r c = 0) (hh : x.horizontal = 0) (hv : x.vertical = 0)
    {r c : ℕ} (hd : (c : ℝ) - (n / 2 : ℕ) = (n / 2 : ℕ) - r) :
    srcCol f r c - (n / 2 : ℕ) = (n / 2 : ℕ) - srcRow f r c ∧
      srcCol f r c - (n / 2 : ℕ) =
        (2 - Real.cos (d.beta * x.angle * Real.pi / 180) + Real.sin (d.beta * x.angle * Real.pi / 180)) *
          (c - (n / 2 : ℕ)) := by
  obtain ⟨h1, h2⟩ := map_of_zero hf hH hV r c
  rw [srcCol, srcRow, h1, h2, hh, hv]
  have hr : (r : ℝ) = 2 * (n / 2 : ℕ) - c := by linarith
  rw [hr]
  constructor <;> ring

/-- The largest rotation and nothing else. -/
def rotateDraws : Draws := ⟨fun _ _ => 0, fun _ _ => 0, 0, 0, 1⟩

/-- **The rotation does not keep distances**: in an image of MNIST size a rotation by 15 degrees takes the pixel in row 4
and column 24 from a source whose squared distance from the centre is more than 1.5 times as large. -/
theorem rotation_fails : ∃ f, createDistortionMap default 28 28 rotateDraws = .ok f ∧
    (srcCol f 4 24 - 14) ^ 2 + (srcRow f 4 24 - 14) ^ 2 > 3 / 2 * (((24 : ℝ) - 14) ^ 2 + ((4 : ℝ) - 14) ^ 2) := by
  obtain ⟨f, hf⟩ := createDistortionMap_square default 28 rotateDraws
  refine ⟨f, hf, ?_⟩
  obtain ⟨h1, h2⟩ := rotation_keeps_diagonal hf (fun _ _ => rfl) (fun _ _ => rfl) rfl rfl (r := 4) (c := 24)
    (by norm_num)
  have ha : default.beta * rotateDraws.angle * Real.pi / 180 = Real.pi / 12 := by
    show (15 : ℝ) * 1 * Real.pi / 180 = Real.pi / 12
    ring
  rw [ha] at h2
  have hs : (1 / 4 : ℝ) < Real.sin (Real.pi / 12) := by
    have p1 := Real.pi_gt_d2
    have p2 := Real.pi_lt_d2
    have := Real.sin_gt_sub_cube (x := Real.pi / 12) (by positivity)
    have hc : (Real.pi / 12) ^ 3 ≤ (3.15 / 12) ^ 3 := pow_le_pow_left₀ (by positivity) (by linarith) 3
    norm_num at hc p1
    linarith
  have hcos := Real.cos_le_one (Real.pi / 12)
  norm_num at h1 h2
  have hx : srcCol f 4 24 - 14 ≥ 25 / 2 := by
    rw [h2]; linarith
  have hy : 14 - srcRow f 4 24 ≥ 25 / 2 := by rw [← h1]; exact hx
  nlinarith

/-! ## Many images -/

/-- **Every column of a matrix is distorted by itself**, with its own random numbers. -/
theorem applyDistortions_eq (d : Config) (n : ℕ) (x : ℕ → Draws) {images : List (List ℝ)}
    (hi : ∀ im ∈ images, n * n ≤ im.length) :
    ∃ outs, applyDistortions d n n x images = .ok outs ∧ outs.length = images.length ∧
      ∀ k im, images[k]? = some im → ∃ out, outs[k]? = some out ∧ applyDistortion d n n (x k) im = .ok out := by
  choose g hg _ using fun (k : ℕ) (im : {im : List ℝ // n * n ≤ im.length}) =>
    applyDistortion_runs d n (x k) im.2
  let h : ℕ → List ℝ → List ℝ := fun k im => if hk : n * n ≤ im.length then g k ⟨im, hk⟩ else im
  have hh : ∀ k im, n * n ≤ im.length → applyDistortion d n n (x k) im = .ok (h k im) := fun k im hk => by
    show _ = Outcome.ok (if hk : n * n ≤ im.length then g k ⟨im, hk⟩ else im)
    rw [dif_pos hk]
    exact hg k ⟨im, hk⟩
  let st : ℕ → List (List ℝ) := fun i => images.mapIdx fun j im => if j < i then h j im else im
  refine ⟨st images.length, ?_, by simp [st], fun k im hk => ?_⟩
  · have := forLoop_eq (n := images.length) (body := fun n_1 imgs => do
      let i ← Outcome.read imgs n_1
      let o ← applyDistortion d n n (x n_1) i
      Outcome.write imgs n_1 o) st (fun i hi' => by
        have hl : i < (st i).length := by simpa [st] using hi'
        have e : (st i)[i] = images[i] := by simp [st]
        rw [Outcome.read_of_lt hl, Outcome.ok_bind, e, hh i _ (hi _ (List.getElem_mem hi')), Outcome.ok_bind,
          Outcome.write, if_pos hl]
        congr 1
        refine List.ext_getElem (by simp [st]) fun j h1 h2 => ?_
        rw [List.getElem_set]
        by_cases hj : i = j
        · subst hj; simp [st]
        · by_cases hji : j < i
          · simp [st, hj, hji]
            intro; omega
          · simp [st, hj, hji]
            intro; omega)
    have h0 : st 0 = images := by
      refine List.ext_getElem (by simp [st]) fun j h1 h2 => ?_
      simp [st]
    rw [h0] at this
    exact this
  · obtain ⟨hk', rfl⟩ := List.getElem?_eq_some_iff.1 hk
    refine ⟨h k images[k], ?_, hh k _ (hi _ (List.getElem_mem hk'))⟩
    rw [List.getElem?_eq_getElem (by simpa [st] using hk')]
    simp [st, hk']

example : ∀ im ∈ [column, column], 4 * 4 ≤ im.length := by simp [column]

end

end Verif.Distorter
