import Verif.Model.Arch
import Verif.Props.Pool
import Verif.Props.LRN

/-!
# Moved images: C95

If an image is moved, the feature maps that convolution, max-pooling and local response normalisation compute from it are
moved as well; max-pooling divides the distance by the size of its kernel.
-/

namespace Verif.NN

open Finset

/-- Row `n'` of `x'` contains the `fm` images of `R` rows and `C` columns of row `n` of `x`, moved by `dr` rows and `dc`
columns (negative: up, left).  Nothing is said about pixels that come from outside of the image. -/
def Moved (fm R C : ℕ) (dr dc : ℤ) (n n' : ℕ) (x x' : Batch) : Prop :=
  ∀ f < fm, ∀ r < R, ∀ r' < R, ∀ c < C, ∀ c' < C, (r' : ℤ) = r + dr → (c' : ℤ) = c + dc →
    x' n' (f * (R * C) + r' * C + c') = x n (f * (R * C) + r * C + c)

/-- Convolution moves its output by the same distance as the input, with any weights and activation function. -/
theorem Conv.moved {g : Conv} (h : g.Valid) (w : Weights) (N : ℕ) {dr dc : ℤ} {n n' : ℕ} {x x' : Batch}
    (hm : Moved g.fmin g.inRows g.inCols dr dc n n' x x') :
    Moved g.fmout g.outRows g.outCols dr dc n n' (g.layer.forward w N x) (g.layer.forward w N x') := by
  intro f hf r hr r' hr' c hc c' hc' er ec
  change g.act.apply (g.activation w x' n' _) = g.act.apply (g.activation w x n _)
  rw [conv_output h w x' n' hf hr' hc', conv_output h w x n hf hr hc]
  congr 1
  refine Finset.sum_congr rfl fun fmi hfmi => ?_
  congr 1
  refine Finset.sum_congr rfl fun kr hkr => Finset.sum_congr rfl fun kc hkc => ?_
  rw [mem_range] at hfmi hkr hkc
  have h1 := row_lt h (maxRow_eq h ▸ hr) hkr
  have h2 := row_lt h (maxRow_eq h ▸ hr') hkr
  have h3 := col_le h (maxCol_eq h ▸ hc)
  have h4 := col_le h (maxCol_eq h ▸ hc')
  rw [hm fmi hfmi (r + kr) h1 (r' + kr) h2 (c + kc) (by omega) (c' + kc) (by omega) (by push_cast; omega)
    (by push_cast; omega)]

/-- The window of a moved output is the moved window. -/
theorem Pool.window_moved {g : Pool} (h : g.Valid) {dr dc : ℤ} {n n' : ℕ} {x x' : Batch}
    (hm : Moved g.fm g.inRows g.inCols (dr * g.kernelRows) (dc * g.kernelCols) n n' x x') {f r r' c c' : ℕ} (hf : f < g.fm)
    (hr : r < g.outRows) (hr' : r' < g.outRows) (hc : c < g.outCols) (hc' : c' < g.outCols) (er : (r' : ℤ) = r + dr)
    (ec : (c' : ℤ) = c + dc) {kc : ℕ} (hk : kc < g.kernelCols) :
    x' n' (g.base (g.outIdx f r' c') + kc) = x n (g.base (g.outIdx f r c) + kc) := by
  obtain ⟨a1, a2, a3⟩ := of_outIdx h (fmo := f) hr hc
  obtain ⟨b1, b2, b3⟩ := of_outIdx h (fmo := f) hr' hc'
  have w1 := window_fits hr hc
  have w2 := window_fits hr' hc'
  have hkr := h.1
  rw [base, base, a1, a2, a3, b1, b2, b3, inIdx, inIdx, fmInSize, Nat.add_assoc _ (c' * g.kernelCols),
    Nat.add_assoc _ (c * g.kernelCols)]
  refine hm f hf _ (by omega) _ (by omega) _ (by omega) _ (by omega) ?_ ?_
  · push_cast
    rw [er]
    ring
  · push_cast
    rw [ec]
    ring

theorem Pool.rowMax_congr {x x' : Batch} {n n' b b' : ℕ} : ∀ {k : ℕ}, (∀ j < k, x' n' (b' + j) = x n (b + j)) →
    rowMax x' n' b' k = rowMax x n b k
  | 0, _ => rfl
  | k + 1, h => by
    rw [rowMax, rowMax, rowMax_congr fun j hj => h j (by omega), h k (by omega)]

/-- Max-pooling: if the input moves by multiples of the size of the kernel, the output moves by as many pixels. -/
theorem Pool.max_moved {g : Pool} (h : g.Valid) (w : Weights) (N : ℕ) {dr dc : ℤ} {n n' : ℕ} {x x' : Batch}
    (hm : Moved g.fm g.inRows g.inCols (dr * g.kernelRows) (dc * g.kernelCols) n n' x x') :
    Moved g.fm g.outRows g.outCols dr dc n n' (g.maxLayer.forward w N x) (g.maxLayer.forward w N x') := by
  intro f hf r hr r' hr' c hc c' hc' er ec
  exact rowMax_congr fun j hj => window_moved h hm hf hr hr' hc hc' er ec hj

/-- The weights (and biases) of a subsampling layer do not depend on the position in the feature map. -/
def Pool.Uniform (g : Pool) (bias : Bool) (w : Weights) : Prop :=
  ∀ f < g.fm, ∀ r < g.outRows, ∀ r' < g.outRows, ∀ c < g.outCols, ∀ c' < g.outCols,
    w (.w [f, r', c']) = w (.w [f, r, c]) ∧ (bias = true → w (.b [f, r', c']) = w (.b [f, r, c]))

/-- Subsampling moves its output like max-pooling, if the weights do not depend on the position.  Missing: the layer has
one weight for each position, see `sub_moved_fails`. -/
theorem Pool.sub_moved_partial {g : Pool} (h : g.Valid) {bias : Bool} (act : Act) (reg : Reg) {w : Weights}
    (hu : g.Uniform bias w) (N : ℕ) {dr dc : ℤ} {n n' : ℕ} {x x' : Batch}
    (hm : Moved g.fm g.inRows g.inCols (dr * g.kernelRows) (dc * g.kernelCols) n n' x x') :
    Moved g.fm g.outRows g.outCols dr dc n n' ((g.subLayer bias act reg).forward w N x)
      ((g.subLayer bias act reg).forward w N x') := by
  intro f hf r hr r' hr' c hc c' hc' er ec
  change act.apply (g.subActivation bias w x' n' (g.outIdx f r' c')) = act.apply (g.subActivation bias w x n (g.outIdx f r c))
  obtain ⟨a1, a2, a3⟩ := of_outIdx h (fmo := f) hr hc
  obtain ⟨b1, b2, b3⟩ := of_outIdx h (fmo := f) hr' hc'
  obtain ⟨u1, u2⟩ := hu f hf r hr r' hr' c hc c' hc'
  have hs : g.rowSum x' n' (g.base (g.outIdx f r' c')) = g.rowSum x n (g.base (g.outIdx f r c)) :=
    Finset.sum_congr rfl fun kr _ => Finset.sum_congr rfl fun kc hkc =>
      window_moved h hm hf hr hr' hc hc' er ec (mem_range.1 hkc)
  rw [subActivation, subActivation, hs, a1, a2, a3, b1, b2, b3, u1]
  cases bias with
  | false => rfl
  | true => rw [u2 rfl]

/-- The same image moved by one pixel, under a kernel of one pixel: subsampling with the weights 1 and 2 of two
positions doubles it in one place and not in the other. -/
theorem Pool.sub_moved_fails : ∃ (g : Pool) (w : Weights) (x x' : Batch), g.Valid ∧
    Moved g.fm g.inRows g.inCols 0 (1 * g.kernelCols) 0 0 x x' ∧
    ¬ Moved g.fm g.outRows g.outCols 0 1 0 0 ((g.subLayer false .linear ⟨0, 0, 0⟩).forward w 1 x)
      ((g.subLayer false .linear ⟨0, 0, 0⟩).forward w 1 x') := by
  refine ⟨⟨1, 1, 2, 1, 1⟩, fun s => if s = .w [0, 0, 1] then 2 else 1, fun _ p => if p = 0 then 1 else 0,
    fun _ p => if p = 1 then 1 else 0, ⟨by decide, by decide, by decide, by decide⟩, ?_, ?_⟩
  · intro f hf r hr r' hr' c hc c' hc' er ec
    simp only at hf hr hr' hc hc' er ec ⊢
    obtain rfl : f = 0 := by omega
    obtain rfl : r = 0 := by omega
    obtain rfl : r' = 0 := by omega
    obtain rfl : c = 0 := by omega
    obtain rfl : c' = 1 := by omega
    norm_num
  · intro hm
    have := hm 0 (by decide) 0 (by decide) 0 (by decide) 0 (by decide) 1 (by decide) (by norm_num) (by norm_num)
    simp [subLayer, Act.map, Act.apply, subActivation, rowSum, base, inIdx, mapOf, rowOf, colOf, fmOutSize, outRows, outCols,
      fmInSize] at this

/-- Local response normalisation of the same row of a batch: the output moves like the input. -/
theorem LRN.moved {g : LRN} (w : Weights) (N : ℕ) {dr dc : ℤ} {n : ℕ} {x x' : Batch}
    (hm : Moved g.fm g.rows g.cols dr dc n n x x') :
    Moved g.fm g.rows g.cols dr dc n n (g.layer.forward w N x) (g.layer.forward w N x') := by
  intro f hf r hr r' hr' c hc c' hc' er ec
  have place : ∀ {r c : ℕ}, r < g.rows → c < g.cols → r * g.cols + c < g.rows * g.cols := by
    intro r c hr hc
    have : (r + 1) * g.cols ≤ g.rows * g.cols := Nat.mul_le_mul_right _ hr
    rw [Nat.succ_mul] at this
    omega
  have hd : g.denomAt x' n (f * (g.rows * g.cols) + r' * g.cols + c') =
      g.denomAt x n (f * (g.rows * g.cols) + r * g.cols + c) := by
    rw [Nat.add_assoc, Nat.add_assoc _ (r * g.cols), denomAt, denomAt, fmSize, (split (place hr' hc')).1,
      (split (place hr' hc')).2, (split (place hr hc)).1, (split (place hr hc)).2, denom, denom]
    congr 2
    refine Finset.sum_congr rfl fun i hi => ?_
    have hi' : i < g.fm := by
      have := (Finset.mem_Ico.1 hi).2
      omega
    rw [fmSize, ← Nat.add_assoc, ← Nat.add_assoc, hm i hi' r hr r' hr' c hc c' hc' er ec]
  change x' n _ * g.denomAt x' n _ ^ (-g.beta) = x n _ * g.denomAt x n _ ^ (-g.beta)
  rw [hd, hm f hf r hr r' hr' c hc c' hc' er ec]

/-- In two rows of a batch the same image (moved by nothing) is normalised differently. -/
theorem LRN.rows_fail : ∃ (g : LRN) (x : Batch), Moved g.fm g.rows g.cols 0 0 0 2 x x ∧
    ¬ Moved g.fm g.rows g.cols 0 0 0 2 (g.layer.forward (fun _ => 0) 3 x) (g.layer.forward (fun _ => 0) 3 x) := by
  refine ⟨⟨2, 1, 1, 1, 2, 1, 1⟩, fun _ _ => 1, fun _ _ _ _ _ _ _ _ _ _ _ _ => rfl, fun hm => ?_⟩
  have := hm 0 (by decide) 0 (by decide) 0 (by decide) 0 (by decide) 0 (by decide) (by norm_num) (by norm_num)
  simp [layer, forward, denomAt, denom, maps, fmSize, Real.rpow_neg_one] at this

/-- `Stack mem k fm R C ks fm' R' C' sr sc`: the layers `ks`, the first of which has index `k` in the network, turn `fm`
images of `R` rows and `C` columns into `fm'` images of `R'` rows and `C'` columns, and a pixel of the result stands for `sr`
rows and `sc` columns. -/
inductive Stack (mem : Mem) : ℕ → ℕ → ℕ → ℕ → List Kind → ℕ → ℕ → ℕ → ℕ → ℕ → Prop
  | nil {k fm R C : ℕ} : Stack mem k fm R C [] fm R C 1 1
  | conv {k fm' R' C' sr sc : ℕ} {ks : List Kind} {g : Conv} : g.Valid →
      Stack mem (k + 1) g.fmout g.outRows g.outCols ks fm' R' C' sr sc →
      Stack mem k g.fmin g.inRows g.inCols (.conv g :: ks) fm' R' C' sr sc
  | maxPool {k fm' R' C' sr sc : ℕ} {ks : List Kind} {g : Pool} : g.Valid →
      Stack mem (k + 1) g.fm g.outRows g.outCols ks fm' R' C' sr sc →
      Stack mem k g.fm g.inRows g.inCols (.maxPool g :: ks) fm' R' C' (sr * g.kernelRows) (sc * g.kernelCols)
  | sub {k fm' R' C' sr sc : ℕ} {ks : List Kind} {g : Pool} {bias : Bool} {act : Act} {reg : Reg} : g.Valid →
      g.Uniform bias (mem k) → Stack mem (k + 1) g.fm g.outRows g.outCols ks fm' R' C' sr sc →
      Stack mem k g.fm g.inRows g.inCols (.sub g bias act reg :: ks) fm' R' C' (sr * g.kernelRows) (sc * g.kernelCols)
  | lrn {k fm' R' C' sr sc : ℕ} {ks : List Kind} {g : LRN} : Stack mem (k + 1) g.fm g.rows g.cols ks fm' R' C' sr sc →
      Stack mem k g.fm g.rows g.cols (.lrn g :: ks) fm' R' C' sr sc

/-- C95: through any stack of such layers, an input that moves by multiples of the product of the pooling kernels moves
the output by as many pixels.  With local response normalisation the two images have to stand in the same row of the
batches that they are computed with. -/
theorem stack_moved_partial {mem : Mem} {N k fm R C fm' R' C' sr sc : ℕ} {ks : List Kind} {dr dc : ℤ} {n n' : ℕ}
    (hs : Stack mem k fm R C ks fm' R' C' sr sc) (hn : n = n' ∨ ∀ g, Kind.lrn g ∉ ks) {x x' : Batch}
    (hm : Moved fm R C (dr * sr) (dc * sc) n n' x x') (I : ℕ) :
    Moved fm' R' C' dr dc n n' (forwardFrom mem N k (layersFrom I ks) x) (forwardFrom mem N k (layersFrom I ks) x') := by
  induction hs generalizing x x' I with
  | nil => simpa [layersFrom, forwardFrom] using hm
  | conv hg _ ih =>
    refine ih (hn.imp id fun h g hg => h g (List.mem_cons_of_mem _ hg)) ?_ _
    exact Conv.moved hg _ N hm
  | maxPool hg _ ih =>
    refine ih (hn.imp id fun h g hg => h g (List.mem_cons_of_mem _ hg)) ?_ _
    refine Pool.max_moved hg _ N ?_
    push_cast at hm
    rwa [← mul_assoc, ← mul_assoc] at hm
  | sub hg hu _ ih =>
    refine ih (hn.imp id fun h g hg => h g (List.mem_cons_of_mem _ hg)) ?_ _
    refine Pool.sub_moved_partial hg _ _ hu N ?_
    push_cast at hm
    rwa [← mul_assoc, ← mul_assoc] at hm
  | @lrn _ _ _ _ _ _ _ g _ ih =>
    obtain rfl := hn.resolve_right fun h => h g List.mem_cons_self
    exact ih (Or.inl rfl) (LRN.moved _ N hm) _

/-- A stack of a convolution with 3 x 3 kernels, normalisation and max-pooling over windows of 1 x 2 pixels, on images of
6 x 8 pixels, that move by one row up and four columns to the right. -/
example (mem : Mem) : Stack mem 1 1 6 8
    [.conv ⟨1, 6, 8, 3, 3, 3, true, .tanh, ⟨0, 0, 0⟩⟩, .lrn ⟨3, 4, 6, 1, 2, 1, 1⟩, .maxPool ⟨3, 4, 6, 1, 2⟩] 3 4 3 1 2 ∧
    Moved 1 6 8 (-1 * (1 : ℕ)) (2 * (2 : ℕ)) 0 0 (fun _ p => if p = 9 then 1 else 0) (fun _ p => if p = 5 then 1 else 0) := by
  refine ⟨.conv (g := ⟨1, 6, 8, 3, 3, 3, true, .tanh, ⟨0, 0, 0⟩⟩) ⟨by decide, by decide⟩
    (.lrn (g := ⟨3, 4, 6, 1, 2, 1, 1⟩) (.maxPool (g := ⟨3, 4, 6, 1, 2⟩) ⟨by decide, by decide, by decide, by decide⟩ .nil)), ?_⟩
  intro f hf r hr r' hr' c hc c' hc' er ec
  obtain rfl : f = 0 := by omega
  have : (0 * (6 * 8) + r' * 8 + c' = 5) ↔ (0 * (6 * 8) + r * 8 + c = 9) := by omega
  simp only [this]

/-- Position-independent weights exist and may be non-trivial. -/
example : (⟨2, 4, 4, 1, 2⟩ : Pool).Uniform true
    (fun s => match s with | .w (f :: _) => (f : ℝ) + 1 | .b (f :: _) => f | _ => 0) :=
  fun _ _ _ _ _ _ _ _ _ _ => ⟨rfl, fun _ => rfl⟩

end Verif.NN
