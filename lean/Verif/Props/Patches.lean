import Verif.Model.Preprocessing
import Mathlib.Tactic.Linarith
import Mathlib.Tactic.Ring
import Mathlib.Data.List.Range
import Mathlib.Data.Nat.Cast.Defs

/-!
# C53: random patches
-/

namespace Verif.Pre

open Outcome

noncomputable section

/-- `patches` contains in row `m * samples + n` and column `(chan * patchRows + row) * patchCols + col` the pixel of image `m`
that is `row` rows below and `col` columns to the right of a corner of a window that lies within the image. -/
def IsPatch (p : Patch) (images patches : Mat) (m n : ℕ) : Prop :=
  ∃ r0 c0, r0 + p.patchRows ≤ p.rows ∧ c0 + p.patchCols ≤ p.cols ∧
    ∀ chan < p.channels, ∀ row < p.patchRows, ∀ col < p.patchCols,
      patches.val (m * p.samples + n) ((chan * p.patchRows + row) * p.patchCols + col) =
        images.val m (chan * (p.rows * p.cols) + (r0 + row) * p.cols + (c0 + col))

/-- the pixel that is copied to the column `j` -/
def pixel (p : Patch) (images : Mat) (m r0 c0 j : ℕ) : ℝ :=
  images.val m (j / p.patchCols / p.patchRows * (p.rows * p.cols) + (r0 + j / p.patchCols % p.patchRows) * p.cols +
    (c0 + j % p.patchCols))

/-- `q` with the first `k` columns of the row `idx` copied -/
def copied (p : Patch) (images : Mat) (m r0 c0 idx : ℕ) (q : Mat) (k : ℕ) : Mat :=
  ⟨q.rows, q.cols, fun i j => if i = idx ∧ j < k then pixel p images m r0 c0 j else q.val i j⟩

theorem pixel_eq (p : Patch) (images : Mat) (m r0 c0 chan row col : ℕ) (hr : row < p.patchRows) (hc : col < p.patchCols) :
    pixel p images m r0 c0 ((chan * p.patchRows + row) * p.patchCols + col) =
      images.val m (chan * (p.rows * p.cols) + (r0 + row) * p.cols + (c0 + col)) := by
  unfold pixel
  have hC : 0 < p.patchCols := by omega
  have hR : 0 < p.patchRows := by omega
  have e1 : ((chan * p.patchRows + row) * p.patchCols + col) / p.patchCols = chan * p.patchRows + row := by
    rw [Nat.add_comm, Nat.add_mul_div_right _ _ hC, Nat.div_eq_of_lt hc, Nat.zero_add]
  have e2 : ((chan * p.patchRows + row) * p.patchCols + col) % p.patchCols = col := by
    rw [Nat.add_comm, Nat.add_mul_mod_self_right, Nat.mod_eq_of_lt hc]
  have e3 : (chan * p.patchRows + row) / p.patchRows = chan := by
    rw [Nat.add_comm, Nat.add_mul_div_right _ _ hR, Nat.div_eq_of_lt hr, Nat.zero_add]
  have e4 : (chan * p.patchRows + row) % p.patchRows = row := by
    rw [Nat.add_comm, Nat.add_mul_mod_self_right, Nat.mod_eq_of_lt hr]
  rw [e1, e2, e3, e4]

theorem source_lt {p : Patch} {r0 c0 chan row col : ℕ} (hr0 : r0 + p.patchRows ≤ p.rows) (hc0 : c0 + p.patchCols ≤ p.cols)
    (hch : chan < p.channels) (hr : row < p.patchRows) (hc : col < p.patchCols) :
    chan * (p.rows * p.cols) + (r0 + row) * p.cols + (c0 + col) < p.channels * (p.rows * p.cols) := by
  have h1 : (r0 + row + 1) * p.cols ≤ p.rows * p.cols := Nat.mul_le_mul_right _ (by omega)
  have h2 : (chan + 1) * (p.rows * p.cols) ≤ p.channels * (p.rows * p.cols) := Nat.mul_le_mul_right _ hch
  rw [Nat.add_mul, Nat.one_mul] at h1 h2
  omega

theorem target_lt {p : Patch} {chan row col : ℕ} (hch : chan < p.channels) (hr : row < p.patchRows) (hc : col < p.patchCols) :
    (chan * p.patchRows + row) * p.patchCols + col < p.channels * p.patchRows * p.patchCols := by
  have h2 : (chan + 1) * p.patchRows ≤ p.channels * p.patchRows := Nat.mul_le_mul_right _ hch
  rw [Nat.add_mul, Nat.one_mul] at h2
  have h1 : (chan * p.patchRows + row + 1) * p.patchCols ≤ p.channels * p.patchRows * p.patchCols :=
    Nat.mul_le_mul_right _ (by omega)
  rw [Nat.add_mul, Nat.one_mul] at h1
  omega

theorem copyPatch_eq (p : Patch) (images : Mat) (m idx r0 c0 : ℕ) (q : Mat) (hm : m < images.rows)
    (hcols : images.cols = p.channels * (p.rows * p.cols)) (hr0 : r0 + p.patchRows ≤ p.rows)
    (hc0 : c0 + p.patchCols ≤ p.cols) (hidx : idx < q.rows) (hq : q.cols = p.channels * p.patchRows * p.patchCols) :
    copyPatch p images m idx ((r0 : ℤ), (c0 : ℤ)) q =
      ok (copied p images m r0 c0 idx q (p.channels * p.patchRows * p.patchCols)) := by
  unfold copyPatch
  have hpx : ∀ chan < p.channels, ∀ row < p.patchRows, ∀ col < p.patchCols,
      (images.get m (((chan * (p.rows * p.cols) : ℕ) : ℤ) + ((r0 : ℤ) + row) * p.cols + c0 + col)) =
        ok (pixel p images m r0 c0 ((chan * p.patchRows + row) * p.patchCols + col)) := by
    intro chan hch row hr col hc
    have e : (((chan * (p.rows * p.cols) : ℕ) : ℤ) + ((r0 : ℤ) + row) * p.cols + c0 + col) =
        ((chan * (p.rows * p.cols) + (r0 + row) * p.cols + (c0 + col) : ℕ) : ℤ) := by push_cast; ring
    rw [e, Mat.get_nat hm (hcols ▸ source_lt hr0 hc0 hch hr hc), pixel_eq _ _ _ _ _ _ _ _ hr hc]
  have := forLoop_eq (n := p.channels) (body := fun chan s => forLoop p.patchRows (fun row s => forLoop p.patchCols
      (fun col (s : Mat × ℕ) => do
        let v ← images.get m (((chan * (p.rows * p.cols) : ℕ) : ℤ) + ((r0 : ℤ) + row) * p.cols + c0 + col)
        let q ← s.1.set idx s.2 v
        ok (q, s.2 + 1)) s) s)
    (fun k => (copied p images m r0 c0 idx q (k * p.patchRows * p.patchCols), k * p.patchRows * p.patchCols))
    (fun chan hch => by
      have := forLoop_eq (n := p.patchRows) (body := fun row s => forLoop p.patchCols
          (fun col (s : Mat × ℕ) => do
            let v ← images.get m (((chan * (p.rows * p.cols) : ℕ) : ℤ) + ((r0 : ℤ) + row) * p.cols + c0 + col)
            let q ← s.1.set idx s.2 v
            ok (q, s.2 + 1)) s)
        (fun k => (copied p images m r0 c0 idx q ((chan * p.patchRows + k) * p.patchCols), (chan * p.patchRows + k) * p.patchCols))
        (fun row hr => by
          have := forLoop_eq (n := p.patchCols) (body := fun col (s : Mat × ℕ) => do
              let v ← images.get m (((chan * (p.rows * p.cols) : ℕ) : ℤ) + ((r0 : ℤ) + row) * p.cols + c0 + col)
              let q ← s.1.set idx s.2 v
              ok (q, s.2 + 1))
            (fun k => (copied p images m r0 c0 idx q ((chan * p.patchRows + row) * p.patchCols + k),
              (chan * p.patchRows + row) * p.patchCols + k))
            (fun col hc => by
              have ht := target_lt hch hr hc
              rw [hpx chan hch row hr col hc, ok_bind, Mat.set_ok (by exact hidx) (by exact hq ▸ ht), ok_bind]
              refine congrArg ok (Prod.ext ?_ rfl)
              simp only [copied]
              congr 1
              funext i j
              rw [← Nat.add_assoc]
              generalize (chan * p.patchRows + row) * p.patchCols + col = t
              by_cases hij : i = idx ∧ j = t
              · obtain ⟨rfl, rfl⟩ := hij
                simp
              · rw [if_neg hij]
                have : (i = idx ∧ j < t) ↔ (i = idx ∧ j < t + 1) := by omega
                simp only [this])
          rw [Nat.add_zero] at this
          rw [this, ← Nat.add_assoc, Nat.add_mul (chan * p.patchRows + row) 1, Nat.one_mul])
      rw [Nat.add_zero] at this
      rw [this, Nat.add_mul chan 1, Nat.one_mul])
  simp only [Nat.zero_mul] at this
  have e0 : copied p images m r0 c0 idx q 0 = q := by cases q; simp [copied]
  rw [e0] at this
  simp only
  rw [this, ok_bind]

/-- the corners lie within the image -/
def corner (p : Patch) (r s : ℕ → ℕ) (n : ℕ) : ℕ × ℕ := (r n % (p.rows - p.patchRows + 1), s n % (p.cols - p.patchCols + 1))

theorem generateInt_nat (r k : ℕ) (h : 0 < k) : Rng.generateInt r 0 k = ok ((r % k : ℕ) : ℤ) := by
  unfold Rng.generateInt
  have : ((k : ℤ) ≥ 0) := by omega
  rw [Outcome.check_true this, ok_bind, if_neg (by omega), Int.add_zero]
  rfl

theorem patchIndices_eq (p : Patch) (r s : ℕ → ℕ) (total : ℕ) (hr : p.patchRows ≤ p.rows) (hc : p.patchCols ≤ p.cols) :
    patchIndices p r s total =
      ok ((List.range total).map fun n : ℕ => (((corner p r s n).1 : ℤ), ((corner p r s n).2 : ℤ))) := by
  unfold patchIndices
  refine forLoop_eq (fun k => (List.range k).map fun n : ℕ => (((corner p r s n).1 : ℤ), ((corner p r s n).2 : ℤ))) (fun i _ => ?_)
  have e1 : (p.rows : ℤ) - p.patchRows + 1 = ((p.rows - p.patchRows + 1 : ℕ) : ℤ) := by omega
  have e2 : (p.cols : ℤ) - p.patchCols + 1 = ((p.cols - p.patchCols + 1 : ℕ) : ℤ) := by omega
  rw [e1, e2, generateInt_nat _ _ (by omega), ok_bind, generateInt_nat _ _ (by omega), ok_bind, List.range_succ, List.map_append]
  rfl

/-- The value that row `i` and column `j` of the patches obtain. -/
def wanted (p : Patch) (images : Mat) (r s : ℕ → ℕ) (i j : ℕ) : ℝ :=
  pixel p images (i / p.samples) (corner p r s i).1 (corner p r s i).2 j

theorem imagePatches_spec (p : Patch) (images : Mat) (r s : ℕ → ℕ) (m : ℕ) (q : Mat) (hm : m < images.rows)
    (hcols : images.cols = p.channels * (p.rows * p.cols)) (hr : p.patchRows ≤ p.rows) (hc : p.patchCols ≤ p.cols)
    (hqr : q.rows = images.rows * p.samples) (hq : q.cols = p.channels * p.patchRows * p.patchCols) :
    ∃ q', imagePatches p images ((List.range (images.rows * p.samples)).map fun n : ℕ =>
        (((corner p r s n).1 : ℤ), ((corner p r s n).2 : ℤ))) m q = ok q' ∧ q'.rows = q.rows ∧ q'.cols = q.cols ∧
      ∀ i < images.rows * p.samples, ∀ j < q.cols, q'.val i j = if i / p.samples = m then wanted p images r s i j else q.val i j := by
  have hfit : (m + 1) * p.samples ≤ images.rows * p.samples := Nat.mul_le_mul_right _ hm
  rw [Nat.add_mul, Nat.one_mul] at hfit
  refine ⟨⟨q.rows, q.cols, fun i j => if (m * p.samples ≤ i ∧ i < m * p.samples + p.samples) ∧ j < q.cols then
    wanted p images r s i j else q.val i j⟩, ?_, rfl, rfl, ?_⟩
  · unfold imagePatches
    have := forLoop_eq (n := p.samples) (body := fun n q => do
        let corner ← Outcome.read ((List.range (images.rows * p.samples)).map fun n : ℕ =>
          (((corner p r s n).1 : ℤ), ((corner p r s n).2 : ℤ))) (m * p.samples + n)
        copyPatch p images m (m * p.samples + n) corner q)
      (fun k => (⟨q.rows, q.cols, fun i j => if (m * p.samples ≤ i ∧ i < m * p.samples + k) ∧ j < q.cols then
        wanted p images r s i j else q.val i j⟩ : Mat))
      (fun n hn => by
        have hlt : m * p.samples + n < images.rows * p.samples := by omega
        rw [Outcome.read_of_lt (by simpa using hlt), ok_bind]
        simp only [List.getElem_map, List.getElem_range]
        have hc1 : (corner p r s (m * p.samples + n)).1 + p.patchRows ≤ p.rows := by
          have := Nat.mod_lt (r (m * p.samples + n)) (show 0 < p.rows - p.patchRows + 1 by omega)
          simp only [corner]
          omega
        have hc2 : (corner p r s (m * p.samples + n)).2 + p.patchCols ≤ p.cols := by
          have := Nat.mod_lt (s (m * p.samples + n)) (show 0 < p.cols - p.patchCols + 1 by omega)
          simp only [corner]
          omega
        rw [copyPatch_eq p images m _ _ _ _ hm hcols hc1 hc2 (by simpa [hqr] using hlt) (by exact hq)]
        congr 1
        unfold copied
        congr 1
        funext i j
        rw [← hq]
        by_cases hij : i = m * p.samples + n ∧ j < q.cols
        · rw [if_pos hij, if_pos ⟨by omega, hij.2⟩, wanted, hij.1]
          congr 1
          rw [Nat.add_comm, Nat.add_mul_div_right _ _ (by omega), Nat.div_eq_of_lt hn, Nat.zero_add]
        · rw [if_neg hij]
          have : ((m * p.samples ≤ i ∧ i < m * p.samples + n) ∧ j < q.cols) ↔
              ((m * p.samples ≤ i ∧ i < m * p.samples + (n + 1)) ∧ j < q.cols) := by omega
          simp only [this])
    have e0 : (⟨q.rows, q.cols, fun i j => if (m * p.samples ≤ i ∧ i < m * p.samples + 0) ∧ j < q.cols then
        wanted p images r s i j else q.val i j⟩ : Mat) = q := by
      cases q
      congr 1
      funext i j
      exact if_neg (by omega)
    rw [e0] at this
    exact this
  · intro i hi j hj
    have hs : 0 < p.samples := by
      rcases Nat.eq_zero_or_pos p.samples with h | h
      · rw [h] at hi; omega
      · exact h
    have : ((m * p.samples ≤ i ∧ i < m * p.samples + p.samples) ∧ j < q.cols) ↔ i / p.samples = m := by
      rw [Nat.div_eq_iff hs]
      constructor
      · intro h; omega
      · intro h; omega
    simp only [this]

/-- The content after the images of `order` have been processed in this order. -/
theorem foldlM_spec (p : Patch) (images : Mat) (r s : ℕ → ℕ) (hcols : images.cols = p.channels * (p.rows * p.cols))
    (hr : p.patchRows ≤ p.rows) (hc : p.patchCols ≤ p.cols) (order : List ℕ) (hm : ∀ m ∈ order, m < images.rows) (q : Mat)
    (hqr : q.rows = images.rows * p.samples) (hq : q.cols = p.channels * p.patchRows * p.patchCols) :
    ∃ q', order.foldlM (fun q m => imagePatches p images ((List.range (images.rows * p.samples)).map fun n : ℕ =>
        (((corner p r s n).1 : ℤ), ((corner p r s n).2 : ℤ))) m q) q = ok q' ∧ q'.rows = q.rows ∧ q'.cols = q.cols ∧
      ∀ i < images.rows * p.samples, ∀ j < q.cols,
        q'.val i j = if i / p.samples ∈ order then wanted p images r s i j else q.val i j := by
  induction order generalizing q with
  | nil => exact ⟨q, rfl, rfl, rfl, fun i _ j _ => by simp⟩
  | cons m order ih =>
    obtain ⟨q1, h1, h2, h3, h4⟩ := imagePatches_spec p images r s m q (hm m (by simp)) hcols hr hc hqr hq
    obtain ⟨q2, g1, g2, g3, g4⟩ := ih (fun m' h => hm m' (by simp [h])) q1 (h2.trans hqr) (h3.trans hq)
    refine ⟨q2, ?_, g2.trans h2, g3.trans h3, fun i hi j hj => ?_⟩
    · rw [List.foldlM_cons, h1, ok_bind, g1]
    · rw [g4 i hi j (h3 ▸ hj), h4 i hi j hj]
      by_cases ha : i / p.samples ∈ order
      · rw [if_pos ha, if_pos (List.mem_cons_of_mem _ ha)]
      · rw [if_neg ha]
        have : i / p.samples ∈ m :: order ↔ i / p.samples = m := by simp [ha]
        simp only [this]

/-- **C53**: for every sequence of random numbers and every order in which the images are processed in parallel, the result has
`samples` rows per image, and each of them is a window that lies within this image. -/
theorem patches_are_windows (p : Patch) (images : Mat) (r s : ℕ → ℕ) (order : List ℕ) (junk : ℕ → ℕ → ℝ)
    (horder : order.Perm (List.range images.rows)) (hcols : images.cols = p.channels * (p.rows * p.cols))
    (hr : p.patchRows ≤ p.rows) (hc : p.patchCols ≤ p.cols) :
    ∃ q, sampleRandomPatches images p r s order junk = ok q ∧ q.rows = images.rows * p.samples ∧
      q.cols = p.channels * p.patchRows * p.patchCols ∧
      ∀ m < images.rows, ∀ n < p.samples, IsPatch p images q m n := by
  unfold sampleRandomPatches
  rw [patchIndices_eq p r s _ hr hc, ok_bind]
  obtain ⟨q, h1, h2, h3, h4⟩ := foldlM_spec p images r s hcols hr hc order
    (fun m h => by simpa using horder.mem_iff.1 h) ⟨_, _, junk⟩ rfl rfl
  refine ⟨q, h1, h2, h3, fun m hm n hn => ⟨(corner p r s (m * p.samples + n)).1, (corner p r s (m * p.samples + n)).2, ?_, ?_, ?_⟩⟩
  · have := Nat.mod_lt (r (m * p.samples + n)) (show 0 < p.rows - p.patchRows + 1 by omega)
    simp only [corner]
    omega
  · have := Nat.mod_lt (s (m * p.samples + n)) (show 0 < p.cols - p.patchCols + 1 by omega)
    simp only [corner]
    omega
  · intro chan hch row hrow col hcol
    have hdiv : (m * p.samples + n) / p.samples = m := by
      rw [Nat.add_comm, Nat.add_mul_div_right _ _ (by omega), Nat.div_eq_of_lt hn, Nat.zero_add]
    have hlt : m * p.samples + n < images.rows * p.samples := by
      have := Nat.mul_le_mul_right p.samples (show m + 1 ≤ images.rows from hm)
      rw [Nat.add_mul, Nat.one_mul] at this
      omega
    rw [h4 _ hlt _ (target_lt hch hrow hcol), hdiv, if_pos (horder.mem_iff.2 (by simpa using hm)), wanted, hdiv,
      pixel_eq _ _ _ _ _ _ _ _ hrow hcol]

/-- **C53**: the result neither depends on the order in which the images are processed nor on the previous content of the
matrix: all coefficients are determined by the images and the random numbers. -/
theorem patches_schedule_independent (p : Patch) (images : Mat) (r s : ℕ → ℕ) (order order' : List ℕ) (junk junk' : ℕ → ℕ → ℝ)
    (horder : order.Perm (List.range images.rows)) (horder' : order'.Perm (List.range images.rows))
    (hcols : images.cols = p.channels * (p.rows * p.cols)) (hr : p.patchRows ≤ p.rows) (hc : p.patchCols ≤ p.cols) :
    ∃ q q', sampleRandomPatches images p r s order junk = ok q ∧ sampleRandomPatches images p r s order' junk' = ok q' ∧
      Mat.Same q q' := by
  unfold sampleRandomPatches
  rw [patchIndices_eq p r s _ hr hc, ok_bind, ok_bind]
  obtain ⟨q, h1, h2, h3, h4⟩ := foldlM_spec p images r s hcols hr hc order
    (fun m h => by simpa using horder.mem_iff.1 h) ⟨_, _, junk⟩ rfl rfl
  obtain ⟨q', g1, g2, g3, g4⟩ := foldlM_spec p images r s hcols hr hc order'
    (fun m h => by simpa using horder'.mem_iff.1 h) ⟨_, _, junk'⟩ rfl rfl
  refine ⟨q, q', h1, g1, h2.trans g2.symm, h3.trans g3.symm, fun i hi j hj => ?_⟩
  have hi' : i < images.rows * p.samples := by simpa [h2] using hi
  have hj' : j < p.channels * p.patchRows * p.patchCols := by simpa [h3] using hj
  have hdiv : i / p.samples < images.rows := Nat.div_lt_of_lt_mul (by rwa [Nat.mul_comm])
  rw [h4 i hi' j hj', g4 i hi' j hj', if_pos (horder.mem_iff.2 (by simpa using hdiv)),
    if_pos (horder'.mem_iff.2 (by simpa using hdiv))]

example : ∃ (p : Patch) (images : Mat) (order : List ℕ), order.Perm (List.range images.rows) ∧
    images.cols = p.channels * (p.rows * p.cols) ∧ p.patchRows ≤ p.rows ∧ p.patchCols ≤ p.cols ∧ order = [1, 0] ∧
    p.patchRows < p.rows ∧ 1 < p.samples :=
  ⟨⟨2, 3, 3, 2, 2, 2⟩, ⟨2, 18, fun i j => i + j⟩, [1, 0], by decide, rfl, by decide, by decide, rfl, by decide, by decide⟩

/-- Patches that are more than one row higher than the images are refused. -/
theorem patches_refused (p : Patch) (images : Mat) (r s : ℕ → ℕ) (order : List ℕ) (junk : ℕ → ℕ → ℝ)
    (hn : 0 < images.rows) (hs : 0 < p.samples) (h : p.rows + 1 < p.patchRows) :
    sampleRandomPatches images p r s order junk = checkFailed := by
  have hfail : ∀ n, 0 < n → patchIndices p r s n = checkFailed := by
    intro n hn
    unfold patchIndices
    induction n with
    | zero => omega
    | succ n ih =>
      rw [forLoop]
      rcases Nat.eq_zero_or_pos n with rfl | h'
      · rw [forLoop, ok_bind]
        have : ¬ ((p.rows : ℤ) - p.patchRows + 1 ≥ 0) := by omega
        simp only [Rng.generateInt]
        rw [Outcome.check_false this]
        rfl
      · rw [ih h']; rfl
  unfold sampleRandomPatches
  rw [hfail _ (Nat.mul_pos hn hs)]
  rfl

/-- Patches that are exactly one row higher than the images are not refused: the program reads behind the image. -/
theorem patches_too_high_ub : ∀ r s junk,
    sampleRandomPatches ⟨1, 1, fun _ _ => 0⟩ ⟨1, 1, 1, 1, 2, 1⟩ r s [0] junk = ub := by
  intro r s junk
  have : patchIndices ⟨1, 1, 1, 1, 2, 1⟩ r s 1 = ok [(0, 0)] := by
    have h1 : Rng.generateInt (r 0) 0 0 = ok 0 := by simp [Rng.generateInt]
    have h2 : Rng.generateInt (s 0) 0 1 = ok 0 := by simp [Rng.generateInt]
    simp [patchIndices, forLoop, h1, h2]
  simp [sampleRandomPatches, this, imagePatches, copyPatch, forLoop, Outcome.read, Mat.get, Mat.set]

end

end Verif.Pre
