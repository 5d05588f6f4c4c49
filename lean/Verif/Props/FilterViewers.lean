import Verif.Props.Viewers
import Verif.Props.Draw

/-!
# C119: The viewers of auto-encoders and Boltzmann machines show the hidden units

benchmarks/mnist/autoencoder.cpp and rbm.cpp.  For every sequence of keys the pictures belong to existing hidden units and images
if there are enough of them; in rbm.cpp every hidden unit can be reached, and the pictures of the Markov chain are those that
`reconstructProb` gives for one step more each.

In autoencoder.cpp only the first quarter of the hidden units can ever be seen and the keys Up and Down do nothing; in rbm.cpp the keys
for fantasies do nothing.  With few hidden units the key Right leads out of the matrices.
-/

namespace Verif.Viewers

open Outcome

noncomputable section

/-! ## Pictures -/

/-- A picture of 28 x 28 pixels in line `row` and column `col` of the window, `g` is the brightness of its pixels. -/
def picture (row col : ℕ) (g : ℕ → Option ℝ) : List Square :=
  (List.range (28 * 28)).map fun k => pixelAt row col (k / 28) (k % 28) (g k)

theorem paintPicture_ok {row col : ℕ} {pixel : ℕ → Outcome (Option ℝ)} (g : ℕ → Option ℝ)
    (h : ∀ idx < 28 * 28, pixel idx = ok (g idx)) : paintPicture row col pixel = ok (picture row col g) := by
  unfold paintPicture
  rw [paintLoop_ok fun y => (List.range 28).map fun x => pixelAt row col y x (g (y * 28 + x))]
  · rw [flatMap_range 28 28 fun y x => pixelAt row col y x (g (y * 28 + x)), picture]
    refine congrArg ok (List.map_congr_left fun k _ => ?_)
    rw [Nat.div_add_mod']
  · intro y hy
    refine paintLoop_single _ fun x hx => ?_
    rw [h _ (by omega), ok_bind]

theorem paintPictures_flat {C : ℕ} (hC : 0 < C) (R : ℕ) (pixel : ℕ → ℕ → Outcome (Option ℝ)) :
    paintPictures R C pixel = forLoop (R * C) (fun k s => paintPicture (k / C) (k % C) (pixel s.1) >>= fun q =>
      ok (s.1 + 1, s.2 ++ [q])) ((0 : ℕ), ([] : List (List Square))) >>= fun s => ok s.2 := by
  unfold paintPictures
  rw [forLoop_flatten hC R fun row col (s : ℕ × List (List Square)) => paintPicture row col (pixel s.1) >>= fun q =>
      ok (s.1 + 1, s.2 ++ [q])]

theorem paintPictures_ok {R C : ℕ} (hC : 0 < C) {pixel : ℕ → ℕ → Outcome (Option ℝ)} (g : ℕ → ℕ → Option ℝ)
    (h : ∀ k < R * C, ∀ idx < 28 * 28, pixel k idx = ok (g k idx)) :
    paintPictures R C pixel = ok ((List.range (R * C)).map fun k => picture (k / C) (k % C) (g k)) := by
  have := forLoop_eq (n := R * C) (body := fun k (s : ℕ × List (List Square)) =>
      paintPicture (k / C) (k % C) (pixel s.1) >>= fun q => ok (s.1 + 1, s.2 ++ [q]))
    (fun k => (k, (List.range k).map fun k => picture (k / C) (k % C) (g k))) fun k hk => by
      rw [paintPicture_ok (g k) (h k hk), ok_bind, List.range_succ, List.map_append]
      rfl
  rw [paintPictures_flat hC]
  simp only [List.range_zero, List.map_nil] at this
  rw [this, ok_bind]

/-- What happens, without the result. -/
def effect {α : Type} (x : Outcome α) : Outcome Unit := x >>= fun _ => ok ()

theorem effect_bind {α β : Type} {x : Outcome α} {f : α → Outcome β} {e : Outcome Unit} (h : effect x = e) (he : e ≠ ok ()) :
    effect (x >>= f) = e := by
  subst h
  cases x with
  | ok a => exact absurd rfl he
  | throws => rfl
  | checkFailed => rfl
  | ub => rfl

/-- A picture whose first pixel fails. -/
theorem paintPicture_effect {row col : ℕ} {pixel : ℕ → Outcome (Option ℝ)} {e : Outcome Unit} (h : effect (pixel 0) = e)
    (he : e ≠ ok ()) : effect (paintPicture row col pixel) = e := by
  have step : ∀ {α : Type} {n : ℕ} {f : ℕ → Outcome (List α)}, effect (f 0) = e → effect (paintLoop (n + 1) f) = e := by
    intro α n f hf
    rw [paintLoop, forLoop_shift]
    exact effect_bind (effect_bind hf he) he
  unfold paintPicture
  refine step (n := 27) (step (n := 27) ?_)
  exact effect_bind (by simpa using h) he

/-- The first picture that fails is the end of the program. -/
theorem paintPictures_effect {R C k : ℕ} (hC : 0 < C) (hk : k < R * C) {pixel : ℕ → ℕ → Outcome (Option ℝ)}
    (g : ℕ → ℕ → Option ℝ) (hok : ∀ i < k, ∀ idx < 28 * 28, pixel i idx = ok (g i idx)) {e : Outcome Unit}
    (h : effect (pixel k 0) = e) (he : e ≠ ok ()) : effect (paintPictures R C pixel) = e := by
  obtain ⟨m, hm⟩ : ∃ m, R * C = k + (m + 1) := ⟨R * C - k - 1, by omega⟩
  have := forLoop_eq (n := k) (body := fun k (s : ℕ × List (List Square)) =>
      paintPicture (k / C) (k % C) (pixel s.1) >>= fun q => ok (s.1 + 1, s.2 ++ [q]))
    (fun k => (k, (List.range k).map fun k => picture (k / C) (k % C) (g k))) fun i hi => by
      rw [paintPicture_ok (g i) (hok i hi), ok_bind, List.range_succ, List.map_append]
      rfl
  simp only [List.range_zero, List.map_nil] at this
  rw [paintPictures_flat hC, hm, forLoop_append, this, ok_bind, forLoop_shift]
  exact effect_bind (effect_bind (effect_bind (paintPicture_effect h he) he) he) he

/-- The pixels of different pictures have different places. -/
theorem pictures_apart {C k k' p p' : ℕ} (g g' : ℕ → Option ℝ) {a b : Square}
    (ha : (picture (k / C) (k % C) g)[p]? = some a) (hb : (picture (k' / C) (k' % C) g')[p']? = some b)
    (hne : (k, p) ≠ (k', p')) : Apart a b := by
  simp only [picture, List.getElem?_map, Option.map_eq_some_iff] at ha hb
  obtain ⟨i, hi, rfl⟩ := ha
  obtain ⟨i', hi', rfl⟩ := hb
  obtain ⟨hlt, rfl⟩ := List.getElem?_eq_some_iff.mp hi
  obtain ⟨hlt', rfl⟩ := List.getElem?_eq_some_iff.mp hi'
  rw [List.length_range] at hlt hlt'
  rw [List.getElem_range, List.getElem_range]
  rintro px py ⟨⟨a1, a2, a3, a4⟩, b1, b2, b3, b4⟩
  simp only [pixelAt] at a1 a2 a3 a4 b1 b2 b3 b4
  have unit : ∀ {a b : ℤ} {z : ℝ}, (a : ℝ) < z → z < a + 1 → (b : ℝ) < z → z < b + 1 → a = b := by
    intro a b z h1 h2 h3 h4
    have h5 : a < b + 1 := by exact_mod_cast h1.trans h4
    have h6 : b < a + 1 := by exact_mod_cast h3.trans h2
    omega
  have ex : ∀ x c : ℕ, (x : ℝ) + c * 29 - 30 = (((x : ℤ) + c * 29 - 30 : ℤ) : ℝ) := fun x c => by push_cast; ring
  have ey : ∀ y r : ℕ, (28 - (y : ℝ)) - r * 29 + 90 = (((28 - (y : ℤ)) - r * 29 + 90 : ℤ) : ℝ) := fun y r => by push_cast; ring
  rw [ex] at a1 a2 b1 b2
  rw [ey] at a3 a4 b3 b4
  have h1 := unit a1 a2 b1 b2
  have h2 := unit a3 a4 b3 b4
  have e1 : k % C = k' % C ∧ k / C = k' / C ∧ p = p' := by
    generalize k % C = A at *
    generalize k' % C = A' at *
    generalize k / C = B at *
    generalize k' / C = B' at *
    omega
  apply hne
  rw [← Nat.div_add_mod k C, ← Nat.div_add_mod k' C, e1.1, e1.2.1, e1.2.2]

/-! ## The keys Left and Right -/

/-- `offset` after a sequence of keys. -/
def offsetRun (pictures : ℕ) (limit : ℤ) (keys : List Key) : ℤ := keys.foldl (moveOffset pictures limit) 0

theorem offsetRun_snoc (P : ℕ) (L : ℤ) (keys : List Key) (k : Key) :
    offsetRun P L (keys ++ [k]) = moveOffset P L (offsetRun P L keys) k := by
  rw [offsetRun, List.foldl_append]; rfl

theorem offset_range {P : ℕ} {L : ℤ} (h : (P : ℤ) ≤ L) (keys : List Key) :
    0 ≤ offsetRun P L keys ∧ offsetRun P L keys + P ≤ L := by
  induction keys using List.reverseRecOn with
  | nil => simp [offsetRun]; omega
  | append_singleton keys k ih =>
    rw [offsetRun_snoc]
    cases k <;> simp only [moveOffset] <;> (try split) <;> omega

/-- If there are not enough units, `offset` is 0 or too small by as many as are missing. -/
theorem offset_few {P : ℕ} {L : ℤ} (h : L < P) (keys : List Key) :
    offsetRun P L keys = 0 ∨ offsetRun P L keys = L - P := by
  induction keys using List.reverseRecOn with
  | nil => left; rfl
  | append_singleton keys k ih =>
    rw [offsetRun_snoc]
    cases k <;> simp only [moveOffset] <;> (try split) <;> omega

theorem right_offset {P : ℕ} {L o : ℤ} (n : ℕ) (h : o + n + P ≤ L) :
    (List.replicate n Key.right).foldl (moveOffset P L) o = o + n := by
  induction n generalizing o with
  | zero => simp
  | succ n ih =>
    push_cast at h
    have : moveOffset P L o .right = o + 1 := by
      simp only [moveOffset]
      rw [if_neg (by omega)]
    rw [List.replicate_succ, List.foldl_cons, this, ih (by omega)]
    push_cast; ring

theorem left_offset {P : ℕ} {L o : ℤ} (n : ℕ) (h : (n : ℤ) ≤ o) :
    (List.replicate n Key.left).foldl (moveOffset P L) o = o - n := by
  induction n generalizing o with
  | zero => simp
  | succ n ih =>
    push_cast at h
    have : moveOffset P L o .left = o - 1 := by
      simp only [moveOffset]
      rw [if_neg (by omega)]
    rw [List.replicate_succ, List.foldl_cons, this, ih (by omega)]
    push_cast; ring

/-- Every offset that is possible can be reached from everywhere. -/
theorem offset_reaches {P : ℕ} {L : ℤ} (h : (P : ℤ) ≤ L) (keys : List Key) {o : ℤ} (h0 : 0 ≤ o) (h1 : o + P ≤ L) :
    ∃ more : List Key, (∀ k ∈ more, k = .left ∨ k = .right) ∧ offsetRun P L (keys ++ more) = o := by
  obtain ⟨r0, r1⟩ := offset_range h keys
  rcases le_total (offsetRun P L keys) o with hle | hle
  · refine ⟨List.replicate (o - offsetRun P L keys).toNat .right, fun k hk => .inr (List.eq_of_mem_replicate hk), ?_⟩
    rw [offsetRun, List.foldl_append, ← offsetRun, right_offset _ (by omega)]
    omega
  · refine ⟨List.replicate (offsetRun P L keys - o).toNat .left, fun k hk => .inl (List.eq_of_mem_replicate hk), ?_⟩
    rw [offsetRun, List.foldl_append, ← offsetRun, left_offset _ (by omega)]
    omega

/-- 300 hidden units and 35 pictures. -/
example : offsetRun 35 300 [.right, .right, .left, .right] = 2 := by decide

/-! ## rbm.cpp -/

/-- The window of rbm.cpp after a sequence of keys. -/
def rbmRun (S : ℤ) (R C H : ℕ) (keys : List Key) : FilterState := keys.foldl (FilterState.pressRBM S R C H) .start

theorem rbmRun_snoc (S : ℤ) (R C H : ℕ) (keys : List Key) (k : Key) :
    rbmRun S R C H (keys ++ [k]) = (rbmRun S R C H keys).pressRBM S R C H k := by
  rw [rbmRun, List.foldl_append]; rfl

theorem rbmRun_eq (S : ℤ) (R C H : ℕ) (keys : List Key) :
    (rbmRun S R C H keys).inst = netRun S keys ∧ (rbmRun S R C H keys).offset = offsetRun (R * C) H keys ∧
    (rbmRun S R C H keys).showFilters = decide (keys.count .s % 2 = 1) := by
  induction keys using List.reverseRecOn with
  | nil => simp [rbmRun, FilterState.start, netRun, offsetRun]
  | append_singleton keys k ih =>
    obtain ⟨h1, h2, h3⟩ := ih
    refine ⟨?_, ?_, ?_⟩
    · rw [rbmRun_snoc, netRun, List.foldl_append, ← netRun, ← h1]; rfl
    · rw [rbmRun_snoc, offsetRun_snoc, ← h2]; rfl
    · rw [rbmRun_snoc, List.count_append]
      show (if k = .s then !(rbmRun S R C H keys).showFilters else (rbmRun S R C H keys).showFilters) = _
      rw [h3]
      have := Nat.mod_two_eq_zero_or_one (keys.count Key.s)
      cases k <;> simp
      rcases this with h | h <;> simp [h, Nat.add_mod]

/-- The weights of a machine with `H` hidden units and at least 784 visible units. -/
structure UnitWeights (W : List (List ℝ)) (H D : ℕ) : Prop where
  rows : W.length = H
  cols : ∀ w ∈ W, w.length = D
  pixels : 28 * 28 ≤ D
  units : 0 < H

/-- The brightness of a weight. -/
def weightShade (W : List (List ℝ)) (a : ℝ) : Option ℝ :=
  brightness (BenchStats.minCoeff W.flatten) (BenchStats.maxCoeff W.flatten) a

theorem UnitWeights.flatten_ne {W : List (List ℝ)} {H D : ℕ} (h : UnitWeights W H D) : W.flatten ≠ [] := by
  obtain ⟨w, W', rfl⟩ : ∃ w W', W = w :: W' := by
    cases W with
    | nil => have := h.rows; have := h.units; simp at *; omega
    | cons w W' => exact ⟨w, W', rfl⟩
  have hw := h.cols w (by simp)
  have hp := h.pixels
  intro h0
  have : w = [] := List.flatten_eq_nil_iff.mp h0 w (by simp)
  rw [this, List.length_nil] at hw
  omega

theorem UnitWeights.head {W : List (List ℝ)} {H D : ℕ} (h : UnitWeights W H D) : (W.headD []).length = D := by
  cases W with
  | nil => have := h.rows; have := h.units; simp at *; omega
  | cons w W' => exact h.cols w (by simp)

theorem UnitWeights.entry_ok {W : List (List ℝ)} {H D : ℕ} (h : UnitWeights W H D) {i j : ℕ} (hi : i < H) (hj : j < D) :
    entry W i j = ok ((W.getD i []).getD j 0) := by
  have hi' : i < W.length := by rw [h.rows]; exact hi
  have hj' : j < (W[i]).length := by rw [h.cols _ (List.getElem_mem hi')]; exact hj
  rw [entry, readZ, if_neg (by omega), Int.toNat_natCast, read_of_lt hi', ok_bind, readZ, if_neg (by omega), Int.toNat_natCast,
    read_of_lt hj']
  congr 1
  simp [List.getD, hi', hj']

example : UnitWeights (List.replicate 40 (List.replicate 784 1)) 40 784 where
  rows := List.length_replicate
  cols := fun w hw => by rw [List.eq_of_mem_replicate hw, List.length_replicate]
  pixels := by norm_num
  units := by norm_num

/-- **The filters in rbm.cpp after any keys**: the pictures are the weights of the hidden units `offset, offset + 1, ...`. -/
theorem rbm_filters {W : List (List ℝ)} {H D R C : ℕ} (hW : UnitWeights W H D) (hC : 0 < C) (hRC : R * C ≤ H) (S : ℤ)
    (keys : List Key) :
    ∃ o : ℕ, (rbmRun S R C H keys).offset = o ∧ o + R * C ≤ H ∧
      (rbmRun S R C H keys).paintUnits W R C = ok ((List.range (R * C)).map fun k => picture (k / C) (k % C) fun idx =>
        weightShade W ((W.getD (o + k) []).getD idx 0)) := by
  obtain ⟨-, ho, -⟩ := rbmRun_eq S R C H keys
  obtain ⟨r0, r1⟩ := offset_range (P := R * C) (L := H) (by exact_mod_cast hRC) keys
  refine ⟨(offsetRun (R * C) H keys).toNat, by rw [ho]; omega, by omega, ?_⟩
  rw [FilterState.paintUnits, if_neg hW.flatten_ne]
  refine paintPictures_ok hC _ fun k hk idx hidx => ?_
  have e : (k : ℤ) + (rbmRun S R C H keys).offset = (((offsetRun (R * C) H keys).toNat + k : ℕ) : ℤ) := by
    rw [ho]; push_cast; omega
  have hidx' : idx < D := lt_of_lt_of_le hidx hW.pixels
  have hlt : (offsetRun (R * C) H keys).toNat + k < H := by omega
  simp only [e, hW.rows, hW.head, ge_iff_le, Nat.cast_le, not_le.mpr hlt, not_le.mpr hidx', if_false, hW.entry_ok hlt hidx', ok_bind]
  rfl

/-- Every hidden unit can be shown. -/
theorem rbm_reaches {R C H : ℕ} (hRC : R * C ≤ H) (h0 : 0 < R * C) (S : ℤ) (keys : List Key) {h : ℕ} (hh : h < H) :
    ∃ more : List Key, ∃ o k : ℕ, (rbmRun S R C H (keys ++ more)).offset = o ∧ k < R * C ∧ o + k = h := by
  rcases le_total (R * C) (H - h) with hle | hle
  · obtain ⟨more, -, hm⟩ := offset_reaches (P := R * C) (L := H) (by exact_mod_cast hRC) keys (o := h) (by omega) (by omega)
    exact ⟨more, h, 0, by rw [(rbmRun_eq S R C H _).2.1, hm], h0, rfl⟩
  · obtain ⟨more, -, hm⟩ := offset_reaches (P := R * C) (L := H) (by exact_mod_cast hRC) keys (o := (H - R * C : ℕ)) (by omega)
      (by omega)
    exact ⟨more, H - R * C, h - (H - R * C), by rw [(rbmRun_eq S R C H _).2.1, hm], by omega, by omega⟩

/-- **With less hidden units than pictures the filters can never be shown**: there is an exception until Right is pressed, and
afterwards an access outside of the matrix (until Left is pressed). -/
theorem rbm_few_units_fails {W : List (List ℝ)} {H D R C : ℕ} (hW : UnitWeights W H D) (hC : 0 < C) (hRC : H < R * C) (S : ℤ)
    (keys : List Key) :
    effect ((rbmRun S R C H keys).paintUnits W R C) =
      if (rbmRun S R C H keys).offset = 0 then throws else ub := by
  obtain ⟨-, ho, -⟩ := rbmRun_eq S R C H keys
  rw [FilterState.paintUnits, if_neg hW.flatten_ne]
  have hpix : 0 < D := lt_of_lt_of_le (by norm_num) hW.pixels
  rcases offset_few (P := R * C) (L := H) (by exact_mod_cast hRC) keys with h | h
  · rw [if_pos (by rw [ho, h])]
    refine paintPictures_effect hC hRC (fun k idx => weightShade W ((W.getD k []).getD idx 0)) (fun k hk idx hidx => ?_) ?_ (by simp)
    · have hidx' : idx < D := lt_of_lt_of_le hidx hW.pixels
      simp only [ho, h, add_zero, hW.rows, hW.head, ge_iff_le, Nat.cast_le, not_le.mpr hk, not_le.mpr hidx', if_false,
        hW.entry_ok hk hidx', ok_bind]
      rfl
    · simp [ho, h, hW.rows, effect]
  · have hneg : offsetRun (R * C) H keys < 0 := by
      have : (H : ℤ) < ((R * C : ℕ) : ℤ) := by exact_mod_cast hRC
      omega
    rw [if_neg (by rw [ho]; omega)]
    refine paintPictures_effect (k := 0) hC (by omega) (fun _ _ => none) (fun _ h => absurd h (Nat.not_lt_zero _)) ?_ (by simp)
    have h1 : ¬ ((W.length : ℤ) ≤ ((0 : ℕ) : ℤ) + (rbmRun S R C H keys).offset) := by rw [ho]; push_cast; omega
    have h2 : ((0 : ℕ) : ℤ) + (rbmRun S R C H keys).offset < 0 := by rw [ho]; push_cast; omega
    simp only [ge_iff_le, h1, if_false, hW.head, not_le.mpr hpix, entry, readZ, h2, if_true, ub_bind]
    rfl

/-- 30 hidden units and 35 pictures after the key Right. -/
example : (rbmRun 100 5 7 30 [.s, .right]).offset = -5 := by decide

/-- **The keys Plus and Minus do nothing.**  (The number of steps before the first picture should be `fantasy`, but it is `offset`.) -/
theorem fantasy_keys_dead (m : Boltz.Machine) (W : List (List ℝ)) (ch : Boltz.Chain) (ins : List (ℕ → ℝ)) (S : ℤ) (R C H : ℕ)
    (keys : List Key) :
    (rbmRun S R C H keys).paintRBM m W ch ins R C =
      (rbmRun S R C H (keys.filter fun k => k ≠ .plus ∧ k ≠ .minus)).paintRBM m W ch ins R C := by
  have h : ∀ (keys : List Key) (v v' : FilterState), v.inst = v'.inst → v.offset = v'.offset → v.showFilters = v'.showFilters →
      (keys.foldl (FilterState.pressRBM S R C H) v).paintRBM m W ch ins R C =
      ((keys.filter fun k => k ≠ .plus ∧ k ≠ .minus).foldl (FilterState.pressRBM S R C H) v').paintRBM m W ch ins R C := by
    intro keys
    induction keys with
    | nil =>
      intro v v' h1 h2 h3
      obtain ⟨i, o, f, b⟩ := v
      obtain ⟨i', o', f', b'⟩ := v'
      obtain rfl : i = i' := h1
      obtain rfl : o = o' := h2
      obtain rfl : b = b' := h3
      rfl
    | cons k keys ih =>
      intro v v' h1 h2 h3
      by_cases hk : k ≠ .plus ∧ k ≠ .minus
      · rw [List.filter_cons_of_pos (by simpa using hk), List.foldl_cons, List.foldl_cons]
        exact ih _ _ (by simp [FilterState.pressRBM, h1]) (by simp [FilterState.pressRBM, h2]) (by simp [FilterState.pressRBM, h3])
      · rw [List.filter_cons_of_neg (by simpa using hk), List.foldl_cons]
        refine ih _ _ ?_ ?_ ?_ <;>
        · have : k = .plus ∨ k = .minus := by by_contra hc; push Not at hc; exact hk hc
          rcases this with rfl | rfl <;> simpa [FilterState.pressRBM, stepInstance, moveOffset]
  exact h keys _ _ rfl rfl rfl

/-! ### The Markov chain -/

/-- An execution together with the random numbers that are left. -/
def exec {α : Type} (M : ℕ) : Draw α → (ℕ → ℕ) → Outcome (α × (ℕ → ℕ))
  | .ret a, r => ok (a, r)
  | .compare p k, r => do
    let b ← Draw.fires M (r 0) p
    exec M (k b) fun t => r (t + 1)

theorem exec_ok {α : Type} (M : ℕ) (d : Draw α) (r : ℕ → ℕ) : ∃ x, exec M d r = ok x := by
  induction d generalizing r with
  | ret a => exact ⟨_, rfl⟩
  | compare p k ih => rw [exec, Draw.fires_eq, ok_bind]; exact ih _ _

theorem exec_bind {α β : Type} (M : ℕ) (d : Draw α) (f : α → Draw β) (r : ℕ → ℕ) :
    exec M (d.bind f) r = exec M d r >>= fun x => exec M (f x.1) x.2 := by
  induction d generalizing r with
  | ret a => rfl
  | compare p k ih => rw [Draw.bind, exec, exec, Draw.fires_eq, ok_bind, ok_bind, ih]

theorem run_exec {α : Type} (M : ℕ) (d : Draw α) (r : ℕ → ℕ) : d.run M r = exec M d r >>= fun x => ok x.1 := by
  induction d generalizing r with
  | ret a => rfl
  | compare p k ih => rw [Draw.run, exec, Draw.fires_eq, ok_bind, ok_bind, ih]

theorem dream_exec (m : Boltz.Machine) (M : ℕ) (n : ℕ) (ch : Boltz.Chain) (r : ℕ → ℕ) :
    ∃ l r', exec M (dream m n ch) r = ok (l, r') ∧ l.length = n ∧ ∀ k < n, ∃ b r'',
      exec M (Boltz.Machine.reconstructProb.go m k ch) r = ok (b, r'') ∧ l[k]? = some (b 0) := by
  induction n generalizing ch r with
  | zero => exact ⟨[], r, rfl, rfl, fun k hk => absurd hk (Nat.not_lt_zero _)⟩
  | succ n ih =>
    obtain ⟨⟨c1, r1⟩, h1⟩ := exec_ok M (m.sampleHgivenV ch) r
    obtain ⟨⟨c2, r2⟩, h2⟩ := exec_ok M (m.sampleVgivenH c1) r1
    obtain ⟨l, r3, h3, hl, hk⟩ := ih c2 r2
    refine ⟨ch.pv 0 :: l, r3, ?_, by simp [hl], fun k hkn => ?_⟩
    · rw [dream, exec_bind, h1, ok_bind, exec_bind, h2, ok_bind, exec_bind, h3, ok_bind]; rfl
    · cases k with
      | zero => exact ⟨ch.pv, r, rfl, rfl⟩
      | succ k =>
        obtain ⟨b, r4, hb, hb'⟩ := hk k (by omega)
        refine ⟨b, r4, ?_, by simpa using hb'⟩
        rw [Boltz.Machine.reconstructProb.go, exec_bind, h1, ok_bind, exec_bind, h2, ok_bind, hb]

theorem steps_exec (m : Boltz.Machine) (M : ℕ) (o k : ℕ) (ch : Boltz.Chain) (r : ℕ → ℕ) :
    exec M (Boltz.Machine.reconstructProb.go m (o + k) ch) r =
      exec M (reconstructSteps m o ch) r >>= fun x => exec M (Boltz.Machine.reconstructProb.go m k x.1) x.2 := by
  induction o generalizing ch r with
  | zero => rw [Nat.zero_add]; rfl
  | succ o ih =>
    obtain ⟨⟨c1, r1⟩, h1⟩ := exec_ok M (m.sampleHgivenV ch) r
    obtain ⟨⟨c2, r2⟩, h2⟩ := exec_ok M (m.sampleVgivenH c1) r1
    rw [show o + 1 + k = (o + k) + 1 by omega, Boltz.Machine.reconstructProb.go, exec_bind, h1, ok_bind, exec_bind, h2, ok_bind, ih,
      reconstructSteps, exec_bind, h1, ok_bind, exec_bind, h2, ok_bind]

/-- **The pictures of the chain**: picture `k` is what `reconstructProb(instance, offset + k)` returns with the same random
numbers. -/
theorem rbm_dreams (m : Boltz.Machine) (ch : Boltz.Chain) (x : ℕ → ℝ) (R C : ℕ) (v : FilterState) (M : ℕ) (r : ℕ → ℕ) :
    ∃ l, (v.dreams m ch x R C).run M r = ok l ∧ l.length = R * C ∧ ∀ k < R * C, ∃ b,
      (m.reconstructProb (v.offset.toNat + k) ch x).run M r = ok b ∧ l[k]? = some (b 0) := by
  obtain ⟨⟨c, r1⟩, h1⟩ := exec_ok M (reconstructSteps m v.offset.toNat
    { ch with rows := 1, v := fun _ => x, pvRows := 1, pv := fun _ => x }) r
  obtain ⟨l, r2, h2, hl, hk⟩ := dream_exec m M (R * C) c r1
  refine ⟨l, ?_, hl, fun k hkn => ?_⟩
  · rw [run_exec, FilterState.dreams, exec_bind, h1, ok_bind, h2]; rfl
  · obtain ⟨b, r3, hb, hb'⟩ := hk k hkn
    refine ⟨b, ?_, hb'⟩
    rw [run_exec, Boltz.Machine.reconstructProb, steps_exec, h1, ok_bind, hb]; rfl

/-- The window of rbm.cpp while the filters are not shown: an existing instance for every sequence of keys, and the pictures of the
chain in lines of `C`. -/
theorem rbm_images {m : Boltz.Machine} (hD : 28 * 28 ≤ m.D) (W : List (List ℝ)) (ch : Boltz.Chain) {ins : List (ℕ → ℝ)}
    (hS : ins ≠ []) {R C : ℕ} (hC : 0 < C) (H : ℕ) (keys : List Key) (hs : keys.count .s % 2 = 0) (M : ℕ) (r : ℕ → ℕ) :
    ∃ n x l d, (rbmRun ins.length R C H keys).inst = (n : ℕ) ∧ ins[n]? = some x ∧
      (rbmRun ins.length R C H keys).paintRBM m W ch ins R C = ok d ∧
      ((rbmRun ins.length R C H keys).dreams m ch x R C).run M r = ok l ∧
      d.run M r = ok (ok ((List.range (R * C)).map fun k => picture (k / C) (k % C) fun idx =>
        some ((l.getD k fun _ => 0) idx))) := by
  have hpos : 0 < ins.length := List.length_pos_iff.mpr hS
  obtain ⟨hi, -, hf⟩ := rbmRun_eq ins.length R C H keys
  obtain ⟨h0, h1⟩ := netRun_range (S := ins.length) (by omega) keys
  obtain ⟨x, hx, hx'⟩ := getRow_ok (rows := ins) h0 h1
  obtain ⟨l, hl, -⟩ := rbm_dreams m ch x R C (rbmRun ins.length R C H keys) M r
  have hf' : (rbmRun ins.length R C H keys).showFilters = false := by rw [hf]; simp [hs]
  refine ⟨(netRun ins.length keys).toNat, x, l, ((rbmRun ins.length R C H keys).dreams m ch x R C).bind fun l =>
    .ret (paintPictures R C fun k idx => if idx < m.D then ok (some ((l.getD k fun _ => 0) idx)) else ub), by omega, hx', ?_, hl, ?_⟩
  · rw [FilterState.paintRBM, hf', hi, hx]
    rfl
  · rw [run_exec] at hl
    obtain ⟨⟨l', r'⟩, h2⟩ := exec_ok M ((rbmRun ins.length R C H keys).dreams m ch x R C) r
    rw [h2, ok_bind] at hl
    injection hl with hl
    obtain rfl : l' = l := hl
    have hp := paintPictures_ok (R := R) hC (pixel := fun k idx => if idx < m.D then ok (some ((l'.getD k fun _ => 0) idx)) else ub)
      (fun k idx => some ((l'.getD k fun _ => 0) idx)) fun k _ idx hidx => if_pos (lt_of_lt_of_le hidx hD)
    rw [run_exec, exec_bind, h2, ok_bind, exec, ok_bind, hp]

/-! ## autoencoder.cpp -/

/-- The window of autoencoder.cpp after a sequence of keys. -/
def saeRun (S : ℤ) (R C H : ℕ) (keys : List Key) : FilterState := keys.foldl (FilterState.pressSAE S R C H) .start

theorem saeRun_eq (S : ℤ) (R C H : ℕ) (keys : List Key) :
    (saeRun S R C H keys).offset = offsetRun (R * C) ((H / 2 : ℕ) : ℤ) keys ∧
    (saeRun S R C H keys).showFilters = decide (keys.count .s % 2 = 1) := by
  have hH : (H : ℤ).tdiv 2 = ((H / 2 : ℕ) : ℤ) := by
    rw [Int.tdiv_eq_ediv_of_nonneg (by omega)]; omega
  induction keys using List.reverseRecOn with
  | nil => simp [saeRun, FilterState.start, offsetRun]
  | append_singleton keys k ih =>
    obtain ⟨h2, h3⟩ := ih
    have e : saeRun S R C H (keys ++ [k]) = (saeRun S R C H keys).pressSAE S R C H k := by
      rw [saeRun, List.foldl_append]; rfl
    refine ⟨?_, ?_⟩
    · rw [e, FilterState.pressSAE, h2, offsetRun_snoc, hH]
    · rw [e, FilterState.pressSAE, h3, List.count_append]
      have := Nat.mod_two_eq_zero_or_one (keys.count Key.s)
      cases k <;> simp
      rcases this with h | h <;> simp [h, Nat.add_mod]

/-- The weights of an auto-encoder with `H` hidden units for images of at least 784 pixels. -/
structure CoderWeights (w : Weights) (H D : ℕ) : Prop where
  first : UnitWeights w.W1 H D
  rows : w.W2.length = D
  cols : ∀ x ∈ w.W2, x.length = H

theorem CoderWeights.entry2 {w : Weights} {H D : ℕ} (h : CoderWeights w H D) {i j : ℕ} (hi : i < D) (hj : j < H) :
    entry w.W2 i j = ok ((w.W2.getD i []).getD j 0) := by
  have hi' : i < w.W2.length := by rw [h.rows]; exact hi
  have hj' : j < (w.W2[i]).length := by rw [h.cols _ (List.getElem_mem hi')]; exact hj
  rw [entry, readZ, if_neg (by omega), Int.toNat_natCast, read_of_lt hi', ok_bind, readZ, if_neg (by omega), Int.toNat_natCast,
    read_of_lt hj']
  congr 1
  simp [List.getD, hi', hj']

example : CoderWeights ⟨List.replicate 80 (List.replicate 784 1), List.replicate 784 (List.replicate 80 1)⟩ 80 784 where
  first := { rows := List.length_replicate, cols := fun w hw => by rw [List.eq_of_mem_replicate hw, List.length_replicate],
             pixels := by norm_num, units := by norm_num }
  rows := List.length_replicate
  cols := fun w hw => by rw [List.eq_of_mem_replicate hw, List.length_replicate]

/-- The weight that is pixel `idx` of picture `u`: the pictures are those of the input weights of unit 0, the output weights of
unit 0, the input weights of unit 1, ... -/
def coderWeight (w : Weights) (u idx : ℕ) : ℝ :=
  if u % 2 = 0 then (w.W1.getD (u / 2) []).getD idx 0 else (w.W2.getD idx []).getD (u / 2) 0

/-- **The filters in autoencoder.cpp after any keys** if there are enough hidden units. -/
theorem sae_filters {w : Weights} {H D R C : ℕ} (hw : CoderWeights w H D) (hC : 0 < C) (hRC : R * C ≤ H / 2) (S : ℤ)
    (keys : List Key) :
    ∃ o : ℕ, (saeRun S R C H keys).offset = o ∧ o + R * C ≤ H / 2 ∧
      (saeRun S R C H keys).paintFilters w R C = ok ((List.range (R * C)).map fun k => picture (k / C) (k % C) fun idx =>
        weightShade w.W1 (coderWeight w (o + k) idx)) := by
  obtain ⟨ho, -⟩ := saeRun_eq S R C H keys
  obtain ⟨r0, r1⟩ := offset_range (P := R * C) (L := ((H / 2 : ℕ) : ℤ)) (by exact_mod_cast hRC) keys
  refine ⟨(offsetRun (R * C) ((H / 2 : ℕ) : ℤ) keys).toNat, by rw [ho]; omega, by omega, ?_⟩
  rw [FilterState.paintFilters, if_neg hw.first.flatten_ne]
  refine paintPictures_ok hC _ fun k hk idx hidx => ?_
  generalize hou : (offsetRun (R * C) ((H / 2 : ℕ) : ℤ) keys).toNat = o
  have ho' : (saeRun S R C H keys).offset = (o : ℤ) := by rw [ho, ← hou]; omega
  have hol : o + R * C ≤ H / 2 := by omega
  have e : (k : ℤ) + (saeRun S R C H keys).offset = ((o + k : ℕ) : ℤ) := by
    rw [ho']; push_cast; ring
  have hlt : (o + k) / 2 < H := by omega
  have hidx' : idx < D := lt_of_lt_of_le hidx hw.first.pixels
  have e1 : ((o + k : ℕ) : ℤ).tdiv 2 = (((o + k) / 2 : ℕ) : ℤ) := by rw [Int.tdiv_eq_ediv_of_nonneg (by omega)]; omega
  have e2 : ((o + k : ℕ) : ℤ).tmod 2 = (((o + k) % 2 : ℕ) : ℤ) := by rw [Int.tmod_eq_emod_of_nonneg (by omega)]; omega
  simp only [e, e1, e2, hw.first.entry_ok hlt hidx', hw.entry2 hidx' hlt, coderWeight]
  by_cases h : (o + k) % 2 = 0
  · rw [if_pos (by exact_mod_cast h), if_pos h, ok_bind]; rfl
  · rw [if_neg (by exact_mod_cast h), if_neg h, ok_bind]; rfl

/-- **Only the first quarter of the hidden units can ever be seen**: the offset is limited to `H/2` pictures, but there are `2 * H`. -/
theorem sae_quarter_fails {R C H : ℕ} (hRC : R * C ≤ H / 2) (S : ℤ) {h : ℕ} (hh : H ≤ 4 * h) (keys : List Key) {k : ℕ} (hk : k < R * C) :
    ((k : ℤ) + (saeRun S R C H keys).offset).tdiv 2 ≠ h := by
  obtain ⟨r0, r1⟩ := offset_range (P := R * C) (L := ((H / 2 : ℕ) : ℤ)) (by exact_mod_cast hRC) keys
  rw [(saeRun_eq S R C H keys).1, Int.tdiv_eq_ediv_of_nonneg (by omega)]
  omega

/-- The program has 196 hidden units and 35 pictures: the last unit it can show is unit 48. -/
example (keys : List Key) {k : ℕ} (hk : k < 5 * 7) : ((k : ℤ) + (saeRun 10000 5 7 196 keys).offset).tdiv 2 ≠ 49 :=
  by exact_mod_cast sae_quarter_fails (by omega) 10000 (h := 49) (by omega) keys hk

/-- The units of the first quarter can be seen. -/
theorem sae_reaches {R C H : ℕ} (hRC : R * C ≤ H / 2) (h0 : 0 < R * C) (S : ℤ) (keys : List Key) {u : ℕ} (hu : u < H / 2) :
    ∃ more : List Key, ∃ o k : ℕ, (saeRun S R C H (keys ++ more)).offset = o ∧ k < R * C ∧ o + k = u := by
  have hRC' : ((R * C : ℕ) : ℤ) ≤ ((H / 2 : ℕ) : ℤ) := by exact_mod_cast hRC
  rcases le_total (R * C) (H / 2 - u) with hle | hle
  · obtain ⟨more, -, hm⟩ := offset_reaches hRC' keys (o := u) (by omega) (by omega)
    exact ⟨more, u, 0, by rw [(saeRun_eq S R C H _).1, hm], h0, rfl⟩
  · obtain ⟨more, -, hm⟩ := offset_reaches hRC' keys (o := (H / 2 - R * C : ℕ)) (by omega) (by omega)
    exact ⟨more, H / 2 - R * C, u - (H / 2 - R * C), by rw [(saeRun_eq S R C H _).1, hm], by omega, by omega⟩

/-- **The reconstructed images in autoencoder.cpp after any keys**; only the first `H/2` images can be seen. -/
theorem sae_images {ins : List (List ℝ)} {reconstruct : List ℝ → List ℝ} {H R C : ℕ} (hRC : R * C ≤ H / 2)
    (hS : H / 2 ≤ ins.length) (hrec : ∀ x ∈ ins, 28 * 28 ≤ (reconstruct x).length) (keys : List Key) :
    ∃ o : ℕ, (saeRun ins.length R C H keys).offset = o ∧ o + R * C ≤ H / 2 ∧
      (saeRun ins.length R C H keys).paintImages ins reconstruct R C = ok ((List.range (R * C)).map fun k =>
        picture (k / C) (k % C) fun idx => some ((reconstruct (ins.getD (o + k) [])).getD idx 0)) := by
  obtain ⟨ho, -⟩ := saeRun_eq ins.length R C H keys
  obtain ⟨r0, r1⟩ := offset_range (P := R * C) (L := ((H / 2 : ℕ) : ℤ)) (by exact_mod_cast hRC) keys
  refine ⟨(offsetRun (R * C) ((H / 2 : ℕ) : ℤ) keys).toNat, by rw [ho]; omega, by omega, ?_⟩
  generalize hou : (offsetRun (R * C) ((H / 2 : ℕ) : ℤ) keys).toNat = o at *
  rw [FilterState.paintImages, paintLoop_ok fun row => (List.range C).map fun col => picture row col fun idx =>
    some ((reconstruct (ins.getD (o + (row * C + col)) [])).getD idx 0)]
  · rw [flatMap_range R C fun row col => picture row col fun idx =>
      some ((reconstruct (ins.getD (o + (row * C + col)) [])).getD idx 0)]
    refine congrArg ok (List.map_congr_left fun k _ => ?_)
    rw [Nat.div_add_mod']
  · intro row hrow
    refine paintLoop_single _ fun col hcol => ?_
    have hk : row * C + col < R * C := by
      calc row * C + col < row * C + C := by omega
        _ = (row + 1) * C := by ring
        _ ≤ R * C := Nat.mul_le_mul_right C hrow
    have e : (saeRun ins.length R C H keys).offset + (row : ℤ) * C + col = ((o + (row * C + col) : ℕ) : ℤ) := by
      have : (saeRun ins.length R C H keys).offset = o := by rw [ho]; omega
      rw [this]; push_cast; ring
    have hlt : o + (row * C + col) < ins.length := by omega
    obtain ⟨x, hx, hx'⟩ := getRow_ok (rows := ins) (i := ((o + (row * C + col) : ℕ) : ℤ)) (by omega) (by exact_mod_cast hlt)
    rw [Int.toNat_natCast] at hx'
    have hgd : ins.getD (o + (row * C + col)) [] = x := by rw [List.getD, hx']; rfl
    have hlen := hrec x (List.mem_of_getElem? hx')
    rw [e, hx, ok_bind, paintPicture_ok (fun idx => some ((reconstruct x).getD idx 0)), ok_bind, hgd]
    intro idx hidx
    have hidx' : idx < (reconstruct x).length := lt_of_lt_of_le hidx hlen
    rw [read_of_lt hidx', ok_bind]
    simp [List.getD, hidx']

example : ∃ ins : List (List ℝ), 196 / 2 ≤ ins.length ∧ ∀ x ∈ ins, 28 * 28 ≤ (id x).length :=
  ⟨List.replicate 100 (List.replicate 784 0), by rw [List.length_replicate]; omega, fun x hx => by
    rw [List.eq_of_mem_replicate hx, id, List.length_replicate]⟩

/-- **The keys Up and Down do nothing in autoencoder.cpp.** -/
theorem sae_instance_keys_dead (w : Weights) (ins : List (List ℝ)) (reconstruct : List ℝ → List ℝ) (S : ℤ) (R C H : ℕ)
    (keys : List Key) :
    (saeRun S R C H keys).paintSAE w ins reconstruct R C =
      (saeRun S R C H (keys.filter fun k => k ≠ .up ∧ k ≠ .down)).paintSAE w ins reconstruct R C := by
  have h : ∀ (keys : List Key) (v v' : FilterState), v.offset = v'.offset → v.showFilters = v'.showFilters →
      (keys.foldl (FilterState.pressSAE S R C H) v).paintSAE w ins reconstruct R C =
      ((keys.filter fun k => k ≠ .up ∧ k ≠ .down).foldl (FilterState.pressSAE S R C H) v').paintSAE w ins reconstruct R C := by
    intro keys
    induction keys with
    | nil =>
      intro v v' h2 h3
      obtain ⟨i, o, f, b⟩ := v
      obtain ⟨i', o', f', b'⟩ := v'
      obtain rfl : o = o' := h2
      obtain rfl : b = b' := h3
      rfl
    | cons k keys ih =>
      intro v v' h2 h3
      by_cases hk : k ≠ .up ∧ k ≠ .down
      · rw [List.filter_cons_of_pos (by simpa using hk), List.foldl_cons, List.foldl_cons]
        exact ih _ _ (by simp [FilterState.pressSAE, h2]) (by simp [FilterState.pressSAE, h3])
      · rw [List.filter_cons_of_neg (by simpa using hk), List.foldl_cons]
        refine ih _ _ ?_ ?_ <;>
        · have : k = .up ∨ k = .down := by by_contra hc; push Not at hc; exact hk hc
          rcases this with rfl | rfl <;> simpa [FilterState.pressSAE, stepInstance, moveOffset]
  exact h keys _ _ rfl rfl

/-- **With few hidden units the key Right leads to images that do not exist.** -/
theorem sae_right_fails {ins : List (List ℝ)} {reconstruct : List ℝ → List ℝ} {H R C : ℕ} (hRC : H / 2 < R * C) (S : ℤ) :
    (saeRun S R C H [.right]).paintImages ins reconstruct R C = checkFailed := by
  have hneg : (saeRun S R C H [.right]).offset < 0 := by
    rw [(saeRun_eq S R C H _).1]
    have h' : ((H / 2 : ℕ) : ℤ) < ((R * C : ℕ) : ℤ) := by exact_mod_cast hRC
    simp only [offsetRun, List.foldl_cons, List.foldl_nil, moveOffset]
    split <;> omega
  have hR : 0 < R := Nat.pos_of_ne_zero fun h => by rw [h, Nat.zero_mul] at hRC; omega
  have hC : 0 < C := Nat.pos_of_ne_zero fun h => by rw [h, Nat.mul_zero] at hRC; omega
  refine paintLoop_fails hR (fun _ h => absurd h (Nat.not_lt_zero _)) (paintLoop_fails hC (fun _ h => absurd h
    (Nat.not_lt_zero _)) ?_)
  rw [getRow_outside (by left; simpa using hneg), checkFailed_bind]

/-- **... and to weights that do not exist.** -/
theorem sae_right_ub {w : Weights} {H D R C : ℕ} (hw : CoderWeights w H D) (hRC : H / 2 + 2 ≤ R * C) (S : ℤ)
    (ins : List (List ℝ)) (reconstruct : List ℝ → List ℝ) :
    effect ((saeRun S R C H [.s, .right]).paintSAE w ins reconstruct R C) = ub := by
  have hneg : (saeRun S R C H [.s, .right]).offset ≤ -2 := by
    rw [(saeRun_eq S R C H _).1]
    have h' : ((H / 2 : ℕ) : ℤ) + 2 ≤ ((R * C : ℕ) : ℤ) := by exact_mod_cast hRC
    simp only [offsetRun, List.foldl_cons, List.foldl_nil, moveOffset]
    split <;> omega
  have hC : 0 < C := Nat.pos_of_ne_zero fun h => by rw [h, Nat.mul_zero] at hRC; omega
  have hs : (saeRun S R C H [.s, .right]).showFilters = true := by rw [(saeRun_eq S R C H _).2]; rfl
  rw [FilterState.paintSAE, hs, if_pos rfl, FilterState.paintFilters, if_neg hw.first.flatten_ne]
  refine paintPictures_effect (k := 0) hC (by omega) (fun _ _ => none) (fun _ h => absurd h (Nat.not_lt_zero _)) ?_ (by simp)
  generalize (saeRun S R C H [.s, .right]).offset = o at *
  have hlt : (((0 : ℕ) : ℤ) + o).tdiv 2 < 0 := by
    have : (((0 : ℕ) : ℤ) + o) = o := by simp
    rw [this]
    have h2 := Int.mul_tdiv_add_tmod o 2
    have h3 := Int.tmod_lt_of_pos o (show (0 : ℤ) < 2 by omega)
    have h4 : -2 < o.tmod 2 := by
      have := Int.lt_tmod_of_pos o (show (0 : ℤ) < 2 by omega)
      omega
    omega
  have hD : 0 < w.W2.length := by rw [hw.rows]; exact lt_of_lt_of_le (by norm_num) hw.first.pixels
  have e1 : ∀ j, entry w.W1 ((((0 : ℕ) : ℤ) + o).tdiv 2) j = ub := fun j => by rw [entry, readZ, if_pos hlt, ub_bind]
  have e2 : entry w.W2 ((0 : ℕ) : ℤ) ((((0 : ℕ) : ℤ) + o).tdiv 2) = ub := by
    rw [entry, readZ, if_neg (by omega), Int.toNat_natCast, read_of_lt hD, ok_bind, readZ, if_pos hlt]
  simp only [e1, e2, ite_self, ub_bind]
  rfl

end

end Verif.Viewers
