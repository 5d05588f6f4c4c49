import Verif.Model.Viewers
import Verif.Props.Evaluation
import Mathlib.Tactic.Linarith
import Mathlib.Tactic.FieldSimp
import Mathlib.Tactic.Positivity

/-!
# C118: The viewers of networks and images show what their keys select

For every sequence of keys the window of benchmarks/mnist/visualize.cpp shows an existing instance, each unit of each layer has its
own square of the right brightness, and every instance can be reached.  The window of viewdata.cpp shows 25 consecutive images of
the data set and every image can be reached.

Both need enough instances: with less than 25 images viewdata.cpp fails whatever the user does.  The lines and columns of images
are exchanged in visualize.cpp, so that images are shown as images only if they are square; viewdata.cpp needs almost square images.
-/

namespace Verif.Viewers

open Outcome

noncomputable section

/-! ## What is expected -/

/-- The point is inside of the square (not on the border). -/
def Square.Inside (q : Square) (px py : ℝ) : Prop := q.x < px ∧ px < q.x + q.size ∧ q.y < py ∧ py < q.y + q.size

/-- No point is inside of both squares. -/
def Apart (a b : Square) : Prop := ∀ px py, ¬ (a.Inside px py ∧ b.Inside px py)

/-- The brightness of a value among others: the smallest is 0, the largest 1, and what is in between is proportional. -/
structure Shade (l : List ℝ) (b : ℝ → Option ℝ) : Prop where
  dark : ∀ v ∈ l, (∀ u ∈ l, v ≤ u) → b v = some 0
  bright : ∀ v ∈ l, (∀ u ∈ l, u ≤ v) → b v = some 1
  linear : ∃ k d : ℝ, 0 < k ∧ ∀ v, b v = some (k * v + d)

/-! ## Loops that paint -/

theorem paintLoop_ok {α : Type} {n : ℕ} {f : ℕ → Outcome (List α)} (g : ℕ → List α) (h : ∀ i < n, f i = ok (g i)) :
    paintLoop n f = ok ((List.range n).flatMap g) := by
  have := forLoop_eq (n := n) (body := fun i l => f i >>= fun p => ok (l ++ p)) (fun k => (List.range k).flatMap g)
    fun i hi => by
      rw [h i hi, ok_bind, List.range_succ, List.flatMap_append]
      simp
  simpa [paintLoop] using this

/-- One square in each iteration. -/
theorem paintLoop_single {α : Type} {n : ℕ} {f : ℕ → Outcome (List α)} (g : ℕ → α) (h : ∀ i < n, f i = ok [g i]) :
    paintLoop n f = ok ((List.range n).map g) := by
  rw [paintLoop_ok (fun i => [g i]) h]
  congr 1
  induction List.range n with
  | nil => rfl
  | cons a l ih => simpa using ih

/-- Two nested loops. -/
theorem flatMap_range (n m : ℕ) {α : Type} (g : ℕ → ℕ → α) :
    ((List.range n).flatMap fun i => (List.range m).map (g i)) = (List.range (n * m)).map fun k => g (k / m) (k % m) := by
  induction n with
  | zero => simp
  | succ n ih =>
    rw [List.range_succ, List.flatMap_append, ih, Nat.succ_mul, List.range_add, List.map_append]
    congr 1
    simp only [List.flatMap_cons, List.flatMap_nil, List.append_nil, List.map_map]
    refine List.map_congr_left fun k hk => ?_
    have hk := List.mem_range.mp hk
    simp only [Function.comp]
    rw [Nat.mul_comm n m, Nat.mul_add_div (by omega), Nat.mul_add_mod, Nat.div_eq_of_lt hk, Nat.mod_eq_of_lt hk, Nat.add_zero]

theorem paintLoop_fails {α : Type} {n k : ℕ} {f : ℕ → Outcome (List α)} (hk : k < n) (hok : ∀ i < k, ∃ p, f i = ok p)
    (hf : f k = checkFailed) : paintLoop n f = checkFailed := by
  obtain ⟨m, rfl⟩ : ∃ m, n = k + (m + 1) := ⟨n - k - 1, by omega⟩
  obtain ⟨s, hs, -⟩ := forLoop_inv' (n := k) (body := fun i (l : List α) => f i >>= fun p => ok (l ++ p)) (s := [])
    fun i hi s => by obtain ⟨p, hp⟩ := hok i hi; exact ⟨s ++ p, by rw [hp, ok_bind]⟩
  rw [paintLoop, forLoop_append, hs, ok_bind, forLoop_shift]
  simp [hf]
where
  forLoop_inv' {σ : Type} {n : ℕ} {body : ℕ → σ → Outcome σ} {s : σ} (h : ∀ i < n, ∀ s, ∃ s', body i s = ok s') :
      ∃ s', forLoop n body s = ok s' ∧ True := by
    induction n with
    | zero => exact ⟨s, rfl, trivial⟩
    | succ n ih =>
      obtain ⟨s1, r1, -⟩ := ih fun i hi => h i (Nat.lt_succ_of_lt hi)
      obtain ⟨s2, r2⟩ := h n (Nat.lt_succ_self n) s1
      exact ⟨s2, by rw [forLoop, r1, ok_bind, r2], trivial⟩

/-! ## Brightness -/

theorem minCoeff_spec {l : List ℝ} (hl : l ≠ []) : BenchStats.minCoeff l ∈ l ∧ ∀ u ∈ l, BenchStats.minCoeff l ≤ u := by
  cases l with
  | nil => exact absurd rfl hl
  | cons a l =>
    suffices h : ∀ (l : List ℝ) (a : ℝ), (l.foldl min a = a ∨ l.foldl min a ∈ l) ∧ l.foldl min a ≤ a ∧ ∀ u ∈ l, l.foldl min a ≤ u by
      obtain ⟨h1, h2, h3⟩ := h l a
      refine ⟨?_, ?_⟩
      · rcases h1 with h1 | h1
        · simp [BenchStats.minCoeff, h1]
        · simp [BenchStats.minCoeff, h1]
      · intro u hu
        rcases List.mem_cons.mp hu with rfl | hu
        · exact h2
        · exact h3 u hu
    intro l
    induction l with
    | nil => intro a; simp
    | cons b l ih =>
      intro a
      obtain ⟨h1, h2, h3⟩ := ih (min a b)
      refine ⟨?_, h2.trans (min_le_left a b), ?_⟩
      · rcases h1 with h1 | h1
        · rcases min_choice a b with h | h
          · left; rw [List.foldl_cons, h1, h]
          · right; rw [List.foldl_cons, h1, h]; simp
        · right; simp [List.foldl_cons, h1]
      · intro u hu
        rcases List.mem_cons.mp hu with rfl | hu
        · exact h2.trans (min_le_right a _)
        · exact h3 u hu

theorem maxCoeff_spec {l : List ℝ} (hl : l ≠ []) : BenchStats.maxCoeff l ∈ l ∧ ∀ u ∈ l, u ≤ BenchStats.maxCoeff l := by
  cases l with
  | nil => exact absurd rfl hl
  | cons a l =>
    suffices h : ∀ (l : List ℝ) (a : ℝ), (l.foldl max a = a ∨ l.foldl max a ∈ l) ∧ a ≤ l.foldl max a ∧ ∀ u ∈ l, u ≤ l.foldl max a by
      obtain ⟨h1, h2, h3⟩ := h l a
      refine ⟨?_, ?_⟩
      · rcases h1 with h1 | h1
        · simp [BenchStats.maxCoeff, h1]
        · simp [BenchStats.maxCoeff, h1]
      · intro u hu
        rcases List.mem_cons.mp hu with rfl | hu
        · exact h2
        · exact h3 u hu
    intro l
    induction l with
    | nil => intro a; simp
    | cons b l ih =>
      intro a
      obtain ⟨h1, h2, h3⟩ := ih (max a b)
      refine ⟨?_, (le_max_left a b).trans h2, ?_⟩
      · rcases h1 with h1 | h1
        · rcases max_choice a b with h | h
          · left; rw [List.foldl_cons, h1, h]
          · right; rw [List.foldl_cons, h1, h]; simp
        · right; simp [List.foldl_cons, h1]
      · intro u hu
        rcases List.mem_cons.mp hu with rfl | hu
        · exact (le_max_right a _).trans h2
        · exact h3 u hu

/-- The brightness that is computed is the expected one unless all values are equal. -/
theorem brightness_shade {l : List ℝ} (h : ∃ u ∈ l, ∃ v ∈ l, u ≠ v) :
    Shade l (brightness (BenchStats.minCoeff l) (BenchStats.maxCoeff l)) := by
  obtain ⟨u, hu, v, hv, huv⟩ := h
  have hl : l ≠ [] := List.ne_nil_of_mem hu
  obtain ⟨m1, m2⟩ := minCoeff_spec hl
  obtain ⟨M1, M2⟩ := maxCoeff_spec hl
  set mi := BenchStats.minCoeff l
  set ma := BenchStats.maxCoeff l
  have hlt : 0 < ma - mi := by
    rcases lt_or_gt_of_ne huv with h | h
    · have := m2 u hu; have := M2 v hv; linarith
    · have := m2 v hv; have := M2 u hu; linarith
  have e : ∀ w, brightness mi ma w = some ((w - mi) / (ma - mi)) := fun w => if_neg hlt.ne'
  refine ⟨fun w hw h => ?_, fun w hw h => ?_, (ma - mi)⁻¹, -mi * (ma - mi)⁻¹, inv_pos.mpr hlt, fun w => ?_⟩
  · have : w = mi := le_antisymm (h mi m1) (m2 w hw)
    rw [e, this, sub_self, zero_div]
  · have : w = ma := le_antisymm (M2 w hw) (h ma M1)
    rw [e, this, div_self hlt.ne']
  · rw [e]; congr 1; rw [div_eq_mul_inv]; ring

example : ∃ u ∈ [(2 : ℝ), 5, 3], ∃ v ∈ [(2 : ℝ), 5, 3], u ≠ v := ⟨2, by simp, 5, by simp, by norm_num⟩

/-- Layers in which all units have the same output have no brightness. -/
theorem brightness_constant {l : List ℝ} {a : ℝ} (hl : l ≠ []) (h : ∀ u ∈ l, u = a) (v : ℝ) :
    brightness (BenchStats.minCoeff l) (BenchStats.maxCoeff l) v = none := by
  have h1 := h _ (minCoeff_spec hl).1
  have h2 := h _ (maxCoeff_spec hl).1
  exact if_pos (by rw [h1, h2, sub_self])

/-! ## visualize.cpp: the keys -/

/-- The instance always exists. -/
theorem netRun_range {S : ℤ} (hS : 1 ≤ S) (keys : List Key) : 0 ≤ netRun S keys ∧ netRun S keys < S := by
  suffices h : ∀ (keys : List Key) (i : ℤ), 0 ≤ i ∧ i < S → 0 ≤ keys.foldl (stepInstance S) i ∧
      keys.foldl (stepInstance S) i < S from h keys 0 ⟨le_refl _, by omega⟩
  intro keys
  induction keys with
  | nil => exact fun i h => h
  | cons k keys ih =>
    intro i hi
    refine ih _ ?_
    cases k <;> simp only [stepInstance] <;> (try split) <;> omega

/-- Up goes to the next and Down back to the previous instance, except at the ends. -/
theorem stepInstance_up {S i : ℤ} (h : i + 1 < S) : stepInstance S i .up = i + 1 := if_neg (by omega)

theorem stepInstance_down {S i : ℤ} (h : 1 ≤ i) : stepInstance S i .down = i - 1 := if_neg (by omega)

/-- Every instance can be reached from everywhere. -/
theorem netRun_reaches {S : ℤ} (keys : List Key) (hS : 1 ≤ S) {j : ℤ} (h0 : 0 ≤ j) (hj : j < S) :
    ∃ more : List Key, netRun S (keys ++ more) = j := by
  have up : ∀ (n : ℕ) (i : ℤ), 0 ≤ i → i + n < S → (List.replicate n Key.up).foldl (stepInstance S) i = i + n := by
    intro n
    induction n with
    | zero => intro i _ _; simp
    | succ n ih =>
      intro i hi hn
      rw [List.replicate_succ, List.foldl_cons, stepInstance_up (by push_cast at hn; omega), ih _ (by omega) (by push_cast at hn; omega)]
      push_cast; ring
  have down : ∀ (n : ℕ) (i : ℤ), (n : ℤ) ≤ i → (List.replicate n Key.down).foldl (stepInstance S) i = i - n := by
    intro n
    induction n with
    | zero => intro i _; simp
    | succ n ih =>
      intro i hn
      rw [List.replicate_succ, List.foldl_cons, stepInstance_down (by push_cast at hn; omega), ih _ (by push_cast at hn; omega)]
      push_cast; ring
  obtain ⟨r0, r1⟩ := netRun_range hS keys
  rcases le_total (netRun S keys) j with h | h
  · refine ⟨List.replicate (j - netRun S keys).toNat .up, ?_⟩
    rw [netRun, List.foldl_append]
    rw [← netRun, up _ _ r0 (by omega)]
    omega
  · refine ⟨List.replicate (netRun S keys - j).toNat .down, ?_⟩
    rw [netRun, List.foldl_append]
    rw [← netRun, down _ _ (by omega)]
    omega

example : netRun 3 [.up, .up, .up, .down, .other] = 1 := by decide

/-! ## visualize.cpp: the squares of a layer -/

/-- The square of the unit with index `u` in a layer with `c` columns and `r` rows. -/
def unitSquare (out : List ℝ) (c r : ℕ) (scale tx ty : ℝ) (u : ℕ) : Square :=
  ⟨tx + (u / (r * c) : ℕ) * (((c : ℝ) + 1) * scale) + (u % (r * c) % c : ℕ) * scale,
    ty + ((r : ℝ) - (u % (r * c) / c : ℕ)) * scale, scale,
    brightness (BenchStats.minCoeff out) (BenchStats.maxCoeff out) (out.getD u 0)⟩

theorem paintMaps_eq (out : List ℝ) (f c r : ℕ) (scale tx ty : ℝ) (h : out.length = f * (r * c)) :
    paintMaps out f c r scale tx ty = ok ((List.range (f * (r * c))).map (unitSquare out c r scale tx ty),
      tx + f * (((c : ℝ) + 1) * scale)) := by
  have inner : ∀ fm < f, ∀ x : ℝ, x = tx + fm * (((c : ℝ) + 1) * scale) →
      (paintLoop r fun row => paintLoop c fun col => do
        let v ← read out (fm * r * c + row * c + col)
        ok [(⟨x + col * scale, ty + ((r : ℝ) - row) * scale, scale,
          brightness (BenchStats.minCoeff out) (BenchStats.maxCoeff out) v⟩ : Square)]) =
      ok ((List.range (r * c)).map fun k => unitSquare out c r scale tx ty (fm * (r * c) + k)) := by
    intro fm hfm x hx
    rw [paintLoop_ok (fun row => (List.range c).map fun col => unitSquare out c r scale tx ty (fm * (r * c) + (row * c + col)))]
    · rw [flatMap_range r c fun row col => unitSquare out c r scale tx ty (fm * (r * c) + (row * c + col))]
      congr 1
      refine List.map_congr_left fun k _ => ?_
      rw [Nat.div_add_mod']
    · intro row hrow
      refine paintLoop_single _ fun col hcol => ?_
      have hk : row * c + col < r * c := by
        calc row * c + col < row * c + c := by omega
          _ = (row + 1) * c := by ring
          _ ≤ r * c := Nat.mul_le_mul_right c hrow
      have hu : fm * (r * c) + (row * c + col) < out.length := by
        rw [h]
        calc fm * (r * c) + (row * c + col) < fm * (r * c) + r * c := by omega
          _ = (fm + 1) * (r * c) := by ring
          _ ≤ f * (r * c) := Nat.mul_le_mul_right _ hfm
      rw [show fm * r * c + row * c + col = fm * (r * c) + (row * c + col) by ring, read_of_lt hu, ok_bind]
      have hd : (fm * (r * c) + (row * c + col)) / (r * c) = fm := by
        rw [Nat.mul_comm, Nat.mul_add_div (by omega), Nat.div_eq_of_lt hk, Nat.add_zero]
      have hm : (fm * (r * c) + (row * c + col)) % (r * c) = row * c + col := by
        rw [Nat.mul_comm, Nat.mul_add_mod, Nat.mod_eq_of_lt hk]
      have h1 : (row * c + col) / c = row := by
        rw [Nat.mul_comm, Nat.mul_add_div (by omega), Nat.div_eq_of_lt hcol, Nat.add_zero]
      have h2 : (row * c + col) % c = col := by
        rw [Nat.mul_comm, Nat.mul_add_mod, Nat.mod_eq_of_lt hcol]
      simp only [unitSquare, hd, hm, h1, h2, hx, List.getD, List.getElem?_eq_getElem hu, Option.getD_some]
  have := forLoop_eq (n := f) (body := fun fm (s : List Square × ℝ) => do
      let p ← paintLoop r fun row => paintLoop c fun col => do
        let v ← read out (fm * r * c + row * c + col)
        ok [⟨s.2 + col * scale, ty + ((r : ℝ) - row) * scale, scale,
          brightness (BenchStats.minCoeff out) (BenchStats.maxCoeff out) v⟩]
      ok (s.1 ++ p, s.2 + ((c : ℝ) + 1) * scale))
    (fun k => ((List.range (k * (r * c))).map (unitSquare out c r scale tx ty), tx + k * (((c : ℝ) + 1) * scale)))
    fun fm hfm => by
      rw [inner fm hfm _ rfl, ok_bind]
      congr 1
      refine Prod.ext ?_ ?_
      · rw [Nat.succ_mul, List.range_add, List.map_append, List.map_map]
        rfl
      · push_cast; ring
  simpa [paintMaps] using this

/-- The squares of a layer do not overlap. -/
theorem unitSquare_apart (out : List ℝ) {c r : ℕ} {scale : ℝ} (hs : 0 < scale) (tx ty : ℝ) {u v : ℕ} (huv : u ≠ v)
    (hc : 0 < c) (hr : 0 < r) :
    Apart (unitSquare out c r scale tx ty u) (unitSquare out c r scale tx ty v) := by
  have hrc : 0 < r * c := Nat.mul_pos hr hc
  have key : ∀ (a b : ℕ), a ≠ b → ∀ o z : ℝ, ¬ ((o + a * scale < z ∧ z < o + a * scale + scale) ∧
      (o + b * scale < z ∧ z < o + b * scale + scale)) := by
    intro a b hab o z ⟨⟨h1, h2⟩, h3, h4⟩
    rcases Nat.lt_or_gt_of_ne hab with h | h
    · have : ((a : ℝ) + 1) * scale ≤ b * scale := mul_le_mul_of_nonneg_right (by exact_mod_cast h) hs.le
      nlinarith
    · have : ((b : ℝ) + 1) * scale ≤ a * scale := mul_le_mul_of_nonneg_right (by exact_mod_cast h) hs.le
      nlinarith
  rintro px py ⟨⟨a1, a2, a3, a4⟩, b1, b2, b3, b4⟩
  simp only [unitSquare] at a1 a2 a3 a4 b1 b2 b3 b4
  -- positions in units of the size of a square
  have ex : ∀ w : ℕ, tx + ((w / (r * c) : ℕ) : ℝ) * (((c : ℝ) + 1) * scale) + ((w % (r * c) % c : ℕ) : ℝ) * scale =
      tx + ((w / (r * c) * (c + 1) + w % (r * c) % c : ℕ) : ℝ) * scale := fun w => by push_cast; ring
  rw [ex] at a1 a2 b1 b2
  by_cases hx : u / (r * c) * (c + 1) + u % (r * c) % c = v / (r * c) * (c + 1) + v % (r * c) % c
  · -- same column of squares: the rows differ
    have lu := Nat.mod_lt (u % (r * c)) hc
    have lv := Nat.mod_lt (v % (r * c)) hc
    have hd : u / (r * c) = v / (r * c) := by
      have h1 : ∀ a b : ℕ, b < c → (a * (c + 1) + b) / (c + 1) = a := fun a b hb => by
        rw [Nat.mul_comm, Nat.mul_add_div (by omega), Nat.div_eq_of_lt (by omega), Nat.add_zero]
      exact (h1 _ _ lu).symm.trans ((congrArg (· / (c + 1)) hx).trans (h1 _ _ lv))
    rw [hd] at hx
    have hm : u % (r * c) % c = v % (r * c) % c := by omega
    have hrow : u % (r * c) / c ≠ v % (r * c) / c := by
      intro h
      apply huv
      have e1 := Nat.div_add_mod u (r * c)
      have e2 := Nat.div_add_mod v (r * c)
      have e3 := Nat.div_add_mod (u % (r * c)) c
      have e4 := Nat.div_add_mod (v % (r * c)) c
      rw [hm, h] at e3
      have e5 : u % (r * c) = v % (r * c) := e3.symm.trans e4
      rw [hd, e5] at e1
      omega
    have ru : u % (r * c) / c < r := Nat.div_lt_of_lt_mul ((Nat.mod_lt _ hrc).trans_eq (Nat.mul_comm r c))
    have rv : v % (r * c) / c < r := Nat.div_lt_of_lt_mul ((Nat.mod_lt _ hrc).trans_eq (Nat.mul_comm r c))
    have ey : ∀ w : ℕ, w < r → ty + ((r : ℝ) - (w : ℝ)) * scale = ty + ((r - w : ℕ) : ℝ) * scale := fun w hw => by
      rw [Nat.cast_sub hw.le]
    rw [ey _ ru] at a3 a4
    rw [ey _ rv] at b3 b4
    exact key (r - u % (r * c) / c) (r - v % (r * c) / c) (by omega) ty py ⟨⟨a3, a4⟩, b3, b4⟩
  · exact key _ _ hx tx px ⟨⟨a1, a2⟩, b1, b2⟩

/-- All squares of a layer are between the height where it begins and the height where the next layer begins. -/
theorem unitSquare_height (out : List ℝ) {c r : ℕ} {scale : ℝ} (hs : 0 < scale) (tx ty : ℝ) (u : ℕ) (hc : 0 < c) (hr : 0 < r) :
    ty < (unitSquare out c r scale tx ty u).y ∧
    (unitSquare out c r scale tx ty u).y + (unitSquare out c r scale tx ty u).size ≤ ty + ((r : ℝ) + 1) * scale := by
  have ru : u % (r * c) / c < r :=
    Nat.div_lt_of_lt_mul ((Nat.mod_lt _ (Nat.mul_pos hr hc)).trans_eq (Nat.mul_comm r c))
  have h1 : ((u % (r * c) / c : ℕ) : ℝ) + 1 ≤ r := by exact_mod_cast ru
  have h0 : (0 : ℝ) ≤ ((u % (r * c) / c : ℕ) : ℝ) := Nat.cast_nonneg _
  refine ⟨?_, ?_⟩ <;> simp only [unitSquare] <;> nlinarith

theorem layerScale_pos {f c r : ℕ} (hf : 0 < f) (hc : 0 < c) : 0 < layerScale f c r := by
  unfold layerScale
  split
  · have h1 : (1 : ℝ) ≤ f := by exact_mod_cast hf
    have h2 : (1 : ℝ) ≤ c := by exact_mod_cast hc
    have : 0 < (f : ℝ) * c + f - 1 := by nlinarith
    positivity
  · exact one_pos

/-- Several feature maps, or a layer without rows, are exactly 120 wide, whatever their number is; a single image is in the
middle of the same range. -/
theorem layer_width {f c r : ℕ} (out : List ℝ) (ty : ℝ) (hf : 0 < f) (hc : 0 < c) (hr : 0 < r) {u : ℕ} (hu : u < f * (r * c)) :
    let q := unitSquare out c r (layerScale f c r) (layerStart f c r) ty u
    (f > 1 ∨ r = 1 → 0 ≤ q.x ∧ q.x + q.size ≤ 120) ∧
    (¬ (f > 1 ∨ r = 1) → 60 - (c : ℝ) / 2 ≤ q.x ∧ q.x + q.size ≤ 60 + (c : ℝ) / 2) := by
  have hrc : 0 < r * c := Nat.mul_pos hr hc
  have hfm : u / (r * c) < f := Nat.div_lt_of_lt_mul (by rw [Nat.mul_comm]; exact hu)
  have hcol : u % (r * c) % c < c := Nat.mod_lt _ hc
  have hpos := layerScale_pos (r := r) hf hc
  have e1 : ((u / (r * c) : ℕ) : ℝ) + 1 ≤ f := by exact_mod_cast hfm
  have e2 : ((u % (r * c) % c : ℕ) : ℝ) + 1 ≤ c := by exact_mod_cast hcol
  have z1 : (0 : ℝ) ≤ ((u / (r * c) : ℕ) : ℝ) := Nat.cast_nonneg _
  have z2 : (0 : ℝ) ≤ ((u % (r * c) % c : ℕ) : ℝ) := Nat.cast_nonneg _
  have hc1 : (1 : ℝ) ≤ c := by exact_mod_cast hc
  refine ⟨fun h => ?_, fun h => ?_⟩
  · simp only [unitSquare, layerStart, if_pos h, zero_add]
    refine ⟨by positivity, ?_⟩
    have hw : ((f : ℝ) * c + f - 1) * layerScale f c r = 120 := by
      have h1 : (1 : ℝ) ≤ f := by exact_mod_cast hf
      have : (f : ℝ) * c + f - 1 ≠ 0 := by nlinarith
      rw [layerScale, if_pos h, mul_div_cancel₀ _ this]
    calc ((u / (r * c) : ℕ) : ℝ) * (((c : ℝ) + 1) * layerScale f c r) + ((u % (r * c) % c : ℕ) : ℝ) * layerScale f c r +
          layerScale f c r
        = (((u / (r * c) : ℕ) : ℝ) * ((c : ℝ) + 1) + ((u % (r * c) % c : ℕ) : ℝ) + 1) * layerScale f c r := by ring
      _ ≤ ((f : ℝ) * c + f - 1) * layerScale f c r := mul_le_mul_of_nonneg_right (by nlinarith) hpos.le
      _ = 120 := hw
  · have hf1 : f = 1 := by push Not at h; omega
    have hm0 : u / (r * c) = 0 := by rw [hf1] at hfm; exact Nat.lt_one_iff.mp hfm
    simp only [unitSquare, layerStart, layerScale, if_neg h, hm0, Nat.cast_zero, zero_mul, add_zero, mul_one]
    constructor <;> linarith

/-! ## visualize.cpp: all layers -/

/-- What a layer adds to the height of the picture. -/
def thickness (d : List ℕ) : ℝ :=
  match layout d with
  | .ok (f, c, r) => ((r : ℝ) + 1) * layerScale f c r
  | _ => 0

/-- The height where layer `l` begins. -/
def heightAt (dims : List (List ℕ)) (l : ℕ) : ℝ := ((dims.take l).map thickness).sum

/-- The output of a layer has as many units as its dimensions say, and no dimension is 0. -/
def FitsLayer (d : List ℕ) (out : List ℝ) : Prop :=
  ∃ f c r, layout d = ok (f, c, r) ∧ 0 < f ∧ 0 < c ∧ 0 < r ∧ out.length = f * (r * c)

/-- The layers of a network and their dimensions. -/
def Fits (dims : List (List ℕ)) (outs : List (List ℝ)) : Prop := List.Forall₂ FitsLayer dims outs

/-- The dimensions of the layers of the library: one number, or feature maps, rows and columns. -/
theorem fitsLayer_three {f r c : ℕ} (hf : 0 < f) (hr : 0 < r) (hc : 0 < c) {out : List ℝ} (h : out.length = f * r * c) :
    FitsLayer [f, r, c] out := ⟨f, r, c, rfl, hf, hr, hc, by rw [h, Nat.mul_assoc, Nat.mul_comm r c]⟩

theorem fitsLayer_one {n : ℕ} (hn : 0 < n) {out : List ℝ} (h : out.length = n) : FitsLayer [n] out :=
  ⟨1, n, 1, rfl, one_pos, hn, one_pos, by omega⟩

/-- The squares of layer `l`. -/
def layerSquares (dims : List (List ℕ)) (outs : List (List ℝ)) (l : ℕ) : List Square :=
  match layout (dims.getD l []) with
  | .ok (f, c, r) => (List.range (outs.getD l []).length).map
      (unitSquare (outs.getD l []) c r (layerScale f c r) (layerStart f c r) (heightAt dims l))
  | _ => []

theorem heightAt_succ {dims : List (List ℕ)} {l : ℕ} (h : l < dims.length) :
    heightAt dims (l + 1) = heightAt dims l + thickness dims[l] := by
  rw [heightAt, List.take_add_one, List.map_append, List.sum_append, ← heightAt]
  simp [h]

theorem thickness_nonneg (d : List ℕ) (out : List ℝ) (h : FitsLayer d out) : 0 ≤ thickness d := by
  obtain ⟨f, c, r, hl, hf, hc, -, -⟩ := h
  have := layerScale_pos (r := r) hf hc
  simp only [thickness, hl]
  positivity

theorem fits_get {dims : List (List ℕ)} {outs : List (List ℝ)} (h : Fits dims outs) {l : ℕ} (hl : l < dims.length) :
    ∃ h2 : l < outs.length, FitsLayer dims[l] outs[l] := by
  have hlen := h.length_eq
  exact ⟨by omega, (List.forall₂_iff_get.mp h).2 l hl (by omega)⟩

/-- Every layer is painted completely, one above the other. -/
theorem paintLayers_eq {dims : List (List ℕ)} {outs : List (List ℝ)} (h : Fits dims outs) :
    paintLayers dims outs = ok ((List.range dims.length).map (layerSquares dims outs), heightAt dims dims.length) := by
  have := forLoop_eq (n := dims.length) (body := fun l (s : List (List Square) × ℝ) => do
      let out ← read outs l
      if out = [] then ub else
      let d ← read dims l
      let (f, c, r) ← layout d
      let p ← paintMaps out f c r (layerScale f c r) (layerStart f c r) s.2
      ok (s.1 ++ [p.1], s.2 + ((r : ℝ) + 1) * layerScale f c r))
    (fun k => ((List.range k).map (layerSquares dims outs), heightAt dims k)) fun l hl => by
      obtain ⟨h2, f, c, r, hlay, hf, hc, hr, hlen⟩ := fits_get h hl
      have hne : outs[l] ≠ [] := by
        intro h0
        rw [h0, List.length_nil] at hlen
        have := Nat.mul_pos hf (Nat.mul_pos hr hc)
        omega
      simp only [read_of_lt h2, ok_bind, if_neg hne, read_of_lt hl, hlay, paintMaps_eq _ f c r _ _ _ hlen]
      refine congrArg ok (Prod.ext ?_ ?_)
      · rw [List.range_succ, List.map_append, List.map_cons, List.map_nil]
        refine congrArg (fun q => _ ++ [q]) ?_
        have e1 : dims.getD l [] = dims[l] := by simp [List.getD, hl]
        have e2 : outs.getD l [] = outs[l] := by simp [List.getD, h2]
        simp only [layerSquares, e1, e2, hlay, hlen]
      · rw [heightAt_succ hl, thickness, hlay]
  simpa [paintLayers, heightAt] using this

/-- The squares of two different units - of the same layer or of different layers - do not overlap. -/
theorem layers_apart {dims : List (List ℕ)} {outs : List (List ℝ)} (h : Fits dims outs) {l l' u u' : ℕ} {a b : Square}
    (hl : l < dims.length) (hl' : l' < dims.length) (ha : (layerSquares dims outs l)[u]? = some a)
    (hb : (layerSquares dims outs l')[u']? = some b) (hne : (l, u) ≠ (l', u')) : Apart a b := by
  have get : ∀ {l u : ℕ} {a : Square} (hl : l < dims.length), (layerSquares dims outs l)[u]? = some a →
      ∃ f c r, layout dims[l] = ok (f, c, r) ∧ 0 < f ∧ 0 < c ∧ 0 < r ∧ a = unitSquare (outs.getD l []) c r (layerScale f c r)
        (layerStart f c r) (heightAt dims l) u := by
    intro l u a hl ha
    obtain ⟨h2, f, c, r, hlay, hf, hc, hr, hlen⟩ := fits_get h hl
    have e1 : dims.getD l [] = dims[l] := by simp [List.getD, hl]
    simp only [layerSquares, e1, hlay, List.getElem?_map, Option.map_eq_some_iff] at ha
    obtain ⟨k, hk, rfl⟩ := ha
    have := List.getElem?_eq_some_iff.mp hk
    obtain ⟨hlt, hk⟩ := this
    rw [List.getElem_range] at hk
    exact ⟨f, c, r, hlay, hf, hc, hr, by rw [hk]⟩
  have mono : ∀ {l l' : ℕ}, l ≤ l' → l' ≤ dims.length → heightAt dims l ≤ heightAt dims l' := by
    intro l l' hll
    induction l', hll using Nat.le_induction with
    | base => exact fun _ => le_refl _
    | succ k hk ih =>
      intro hd
      obtain ⟨h2, hf⟩ := fits_get h (show k < dims.length by omega)
      rw [heightAt_succ (by omega)]
      have := thickness_nonneg _ _ hf
      have := ih (by omega)
      linarith
  -- a layer that comes later is above
  have above : ∀ {l l' u u' : ℕ} {a b : Square} (hl : l < dims.length) (hl' : l' < dims.length),
      (layerSquares dims outs l)[u]? = some a → (layerSquares dims outs l')[u']? = some b → l < l' → a.y + a.size ≤ b.y := by
    intro l l' u u' a b hl hl' ha hb hlt
    obtain ⟨f, c, r, hlay, hf, hc, hr, rfl⟩ := get hl ha
    obtain ⟨f', c', r', hlay', hf', hc', hr', rfl⟩ := get hl' hb
    have h1 := (unitSquare_height (outs.getD l []) (layerScale_pos (r := r) hf hc) (layerStart f c r) (heightAt dims l) u hc hr).2
    have h2 := (unitSquare_height (outs.getD l' []) (layerScale_pos (r := r') hf' hc') (layerStart f' c' r') (heightAt dims l') u'
      hc' hr').1
    have h3 := mono (show l + 1 ≤ l' by omega) hl'.le
    rw [heightAt_succ hl, thickness, hlay] at h3
    simp only at h3
    linarith
  rcases lt_trichotomy l l' with hlt | rfl | hlt
  · rintro px py ⟨⟨-, -, -, h1⟩, -, -, h2, -⟩
    have := above hl hl' ha hb hlt
    linarith
  · obtain ⟨f, c, r, hlay, hf, hc, hr, rfl⟩ := get hl ha
    obtain ⟨f', c', r', hlay', hf', hc', hr', rfl⟩ := get hl hb
    rw [hlay] at hlay'
    injection hlay' with hlay'
    obtain ⟨rfl, rfl, rfl⟩ : f = f' ∧ c = c' ∧ r = r' := by simpa using hlay'
    exact unitSquare_apart _ (layerScale_pos hf hc) _ _ (fun hu => hne (by rw [hu])) hc hr
  · rintro px py ⟨⟨-, -, h1, -⟩, -, -, -, h2⟩
    have := above hl' hl hb ha hlt
    linarith

theorem getRow_ok {X : Type} {rows : List X} {i : ℤ} (h0 : 0 ≤ i) (h : i < rows.length) :
    ∃ x, getRow rows i = ok x ∧ rows[i.toNat]? = some x := by
  have hlt : i.toNat < rows.length := by omega
  refine ⟨rows[i.toNat], ?_, List.getElem?_eq_getElem hlt⟩
  rw [getRow, check_true ⟨h0, by omega⟩, ok_bind, readZ, if_neg (by omega), read_of_lt hlt]

theorem getRow_outside {X : Type} {rows : List X} {i : ℤ} (h : i < 0 ∨ (rows.length : ℤ) ≤ i) :
    getRow rows i = checkFailed := by
  rw [getRow, check_false (by omega), checkFailed_bind]

/-- The position of the first largest element. -/
def FirstMax (v : List ℝ) (k : ℕ) : Prop :=
  k < v.length ∧ (∀ j < v.length, v.getD j 0 ≤ v.getD k 0) ∧ ∀ j < k, v.getD j 0 < v.getD k 0

theorem eval_maxCoeff {v : List ℝ} (h : v ≠ []) : ∃ k, Eval.maxCoeff v = ok k ∧ FirstMax v k :=
  Eval.maxCoeff_spec (List.length_pos_iff.mpr h)

/-- **The window of visualize.cpp after any keys**: an instance of the data set with its number, its label, the prediction of the
network for it, and each unit of the network in its place. -/
theorem net_frame (w : NetWindow) (keys : List Key) (hS : w.ins ≠ []) (ht : w.targets.length = w.ins.length)
    (htn : ∀ t ∈ w.targets, t ≠ []) (hout : ∀ x ∈ w.ins, w.output x ≠ []) (hfit : ∀ x ∈ w.ins, Fits w.dims (w.layers x)) :
    ∃ n x t frame, netRun w.ins.length keys = (n : ℕ) ∧ w.ins[n]? = some x ∧ w.targets[n]? = some t ∧
      w.paint (netRun w.ins.length keys) = ok frame ∧ frame.number = n + 1 ∧ FirstMax t frame.label ∧
      FirstMax (w.output x) frame.prediction ∧
      frame.squares = (List.range w.dims.length).map (layerSquares w.dims (w.layers x)) := by
  have hpos : 0 < w.ins.length := List.length_pos_iff.mpr hS
  obtain ⟨h0, h1⟩ := netRun_range (S := w.ins.length) (by omega) keys
  obtain ⟨x, hx, hx'⟩ := getRow_ok (rows := w.ins) h0 h1
  obtain ⟨t, hgt, ht'⟩ := getRow_ok (rows := w.targets) h0 (by rw [ht]; exact h1)
  have hxm := List.mem_of_getElem? hx'
  obtain ⟨p, hp, hp'⟩ := eval_maxCoeff (hout x hxm)
  obtain ⟨q, hq, hq'⟩ := eval_maxCoeff (htn t (List.mem_of_getElem? ht'))
  refine ⟨(netRun w.ins.length keys).toNat, x, t, ⟨_, netRun w.ins.length keys + 1, q, p⟩, by omega, hx', ht', ?_, ?_, hq', hp', rfl⟩
  · rw [NetWindow.paint, hx, ok_bind, hgt, ok_bind, hp, ok_bind, hq, ok_bind, paintLayers_eq (hfit x hxm), ok_bind]
  · show netRun w.ins.length keys + 1 = _
    omega

/-- A network with an input of 2 x 2 pixels, two feature maps of one pixel and three output units. -/
example : ∃ w : NetWindow, w.ins ≠ [] ∧ w.targets.length = w.ins.length ∧ (∀ t ∈ w.targets, t ≠ []) ∧
    (∀ x ∈ w.ins, w.output x ≠ []) ∧ ∀ x ∈ w.ins, Fits w.dims (w.layers x) := by
  refine ⟨⟨[[1, 2, 3, 4], [0, 1, 0, 1]], [[1, 0, 0], [0, 1, 0]], fun _ => [1, 5, 2], fun x => [x, [3, 4], [1, 5, 2]],
    [[1, 2, 2], [2, 1, 1], [3]]⟩, by simp, by simp, by simp, by simp, fun x hx => ?_⟩
  refine .cons ?_ (.cons ?_ (.cons ?_ .nil))
  · refine fitsLayer_three one_pos two_pos two_pos ?_
    rcases List.mem_cons.mp hx with rfl | hx
    · rfl
    · rw [List.mem_singleton.mp hx]; rfl
  · exact fitsLayer_three two_pos one_pos one_pos rfl
  · exact fitsLayer_one (by omega) rfl

/-- A data set without instances cannot be shown: the first paint and every later one fail. -/
theorem net_empty_fails (w : NetWindow) (h : w.ins = []) (i : ℤ) : w.paint i = checkFailed := by
  rw [NetWindow.paint, h, getRow_outside (by simp; omega), checkFailed_bind]

/-! ## visualize.cpp: images -/

/-- The line and the column of the picture in which the square of a unit is, counted from the top left of its feature map. -/
def shownAt (d : List ℕ) (u : ℕ) : Outcome (ℕ × ℕ) := do
  let (_, c, r) ← layout d
  ok (u % (r * c) / c, u % (r * c) % c)

/-- It is indeed the place of the square. -/
theorem shownAt_square {d : List ℕ} {f c r u : ℕ} (hl : layout d = ok (f, c, r)) (out : List ℝ) (scale tx ty : ℝ) :
    ∃ i j, shownAt d u = ok (i, j) ∧
      (unitSquare out c r scale tx ty u).x = tx + (u / (r * c) : ℕ) * (((c : ℝ) + 1) * scale) + j * scale ∧
      (unitSquare out c r scale tx ty u).y = ty + ((r : ℝ) - i) * scale :=
  ⟨_, _, by rw [shownAt, hl]; rfl, rfl, rfl⟩

/-- Pixel `(i, j)` of feature map `m` of a layer with `R` rows and `C` columns has the index `(m * R + i) * C + j`
(e.g. src/Convolutional.cpp).  **The pixels are shown where they are in the image if and only if the image is square.** -/
theorem image_shown_iff {F R C : ℕ} (hF : 0 < F) (hR : 0 < R) (hC : 0 < C) :
    (∀ m < F, ∀ i < R, ∀ j < C, shownAt [F, R, C] ((m * R + i) * C + j) = ok (i, j)) ↔ R = C := by
  have e : ∀ u, shownAt [F, R, C] u = ok (u % (C * R) / R, u % (C * R) % R) := fun u => rfl
  constructor
  · intro h
    by_contra hne
    rcases Nat.lt_or_gt_of_ne hne with hlt | hlt
    · -- the pixel (0, R) of the first line
      have := h 0 hF 0 hR R hlt
      rw [e] at this
      injection this with this
      have h1 := congrArg Prod.fst this
      simp only [Nat.zero_mul, Nat.zero_add] at h1
      rw [Nat.mod_eq_of_lt (by nlinarith), Nat.div_self hR] at h1
      omega
    · -- the pixel (1, 0)
      have := h 0 hF 1 (by omega) 0 hC
      rw [e] at this
      injection this with this
      have h1 := congrArg Prod.fst this
      simp only [Nat.zero_mul, Nat.zero_add, Nat.one_mul, Nat.add_zero] at h1
      rw [Nat.mod_eq_of_lt (by nlinarith), Nat.div_eq_of_lt hlt] at h1
      omega
  · rintro rfl m hm i hi j hj
    have hk : i * R + j < R * R := by
      calc i * R + j < i * R + R := by omega
        _ = (i + 1) * R := by ring
        _ ≤ R * R := Nat.mul_le_mul_right R hi
    rw [e, show (m * R + i) * R + j = R * R * m + (i * R + j) by ring, Nat.mul_add_mod, Nat.mod_eq_of_lt hk, Nat.mul_comm i R,
      Nat.mul_add_div hR, Nat.mul_add_mod, Nat.div_eq_of_lt hj, Nat.mod_eq_of_lt hj, Nat.add_zero]

/-- The second pixel of the second line of an image with two lines of three pixels is shown in the third line. -/
example : shownAt [1, 2, 3] ((0 * 2 + 1) * 3 + 1) = ok (2, 0) := rfl

/-- The same for layers with two dimensions. -/
theorem image_shown_two_iff {R C : ℕ} (hR : 0 < R) (hC : 0 < C) :
    (∀ i < R, ∀ j < C, shownAt [R, C] (i * C + j) = ok (i, j)) ↔ R = C := by
  rw [← image_shown_iff one_pos hR hC]
  constructor
  · intro h m hm i hi j hj
    obtain rfl : m = 0 := by omega
    rw [Nat.zero_mul, Nat.zero_add]
    exact h i hi j hj
  · intro h i hi j hj
    have := h 0 one_pos i hi j hj
    rwa [Nat.zero_mul, Nat.zero_add] at this

example : shownAt [2, 3] (1 * 3 + 1) = ok (2, 0) := rfl

/-! ## viewdata.cpp: the keys -/

theorem dataRun_snoc (S : ℤ) (xI yI : ℕ) (keys : List Key) (k : Key) :
    dataRun S xI yI (keys ++ [k]) = (dataRun S xI yI keys).press S xI yI k := by
  rw [dataRun, List.foldl_append]; rfl

/-- With enough images all that are to be shown exist. -/
theorem dataRun_range {S : ℤ} {xI yI : ℕ} (hS : (xI : ℤ) * yI ≤ S) (keys : List Key) :
    0 ≤ (dataRun S xI yI keys).inst ∧ (dataRun S xI yI keys).inst + (xI : ℤ) * yI ≤ S := by
  have hn : (0 : ℤ) ≤ (xI : ℤ) * yI := by positivity
  generalize hN : (xI : ℤ) * yI = N at *
  induction keys using List.reverseRecOn with
  | nil => simp [dataRun, DataState.start]; omega
  | append_singleton keys k ih =>
    rw [dataRun_snoc]
    cases k <;> simp only [DataState.press, hN] <;> (try split) <;> omega

/-- **C118 (pages).** Up shows the images that follow those in the window, Down those before them; at the ends as many as there
are. -/
theorem dataRun_pages (S : ℤ) (xI yI : ℕ) (keys : List Key) :
    (dataRun S xI yI (keys ++ [.up])).inst =
        min ((dataRun S xI yI keys).inst + (xI : ℤ) * yI) (S - (xI : ℤ) * yI) ∧
      (dataRun S xI yI (keys ++ [.down])).inst = max ((dataRun S xI yI keys).inst - (xI : ℤ) * yI) 0 := by
  rw [dataRun_snoc, dataRun_snoc]
  constructor
  · simp only [DataState.press]
    split <;> omega
  · simp only [DataState.press]
    split <;> omega

example : (dataRun 70 5 5 [.up, .up, .down]).inst = 20 ∧ (dataRun 70 5 5 [.up, .down]).inst = 0 := by decide

/-- Distortions are on after an odd number of presses of Left. -/
theorem dataRun_distortions (S : ℤ) (xI yI : ℕ) (keys : List Key) :
    (dataRun S xI yI keys).distortions = decide (keys.count .left % 2 = 1) := by
  induction keys using List.reverseRecOn with
  | nil => simp [dataRun, DataState.start]
  | append_singleton keys k ih =>
    rw [dataRun_snoc, List.count_append]
    cases k <;> simp [DataState.press, ih]
    have := Nat.mod_two_eq_zero_or_one (keys.count Key.left)
    rcases this with h | h
    · simp [h, Nat.add_mod]
    · simp [h, Nat.add_mod]

theorem up_inst {S : ℤ} {xI yI : ℕ} (d : DataState) (n : ℕ) (h : d.inst + n * ((xI : ℤ) * yI) ≤ S - (xI : ℤ) * yI) :
    ((List.replicate n Key.up).foldl (DataState.press S xI yI) d).inst = d.inst + n * ((xI : ℤ) * yI) := by
  have hn : (0 : ℤ) ≤ (xI : ℤ) * yI := by positivity
  induction n generalizing d with
  | zero => simp
  | succ n ih =>
    have hnn : (0 : ℤ) ≤ n * ((xI : ℤ) * yI) := by positivity
    have e : ((n + 1 : ℕ) : ℤ) * ((xI : ℤ) * yI) = n * ((xI : ℤ) * yI) + (xI : ℤ) * yI := by push_cast; ring
    rw [e] at h ⊢
    have hp : (d.press S xI yI .up).inst = d.inst + (xI : ℤ) * yI := by
      simp only [DataState.press]
      split <;> omega
    rw [List.replicate_succ, List.foldl_cons, ih _ (by rw [hp]; omega), hp]
    omega

theorem down_inst {S : ℤ} {xI yI : ℕ} (hN : 0 < (xI : ℤ) * yI) (d : DataState) (n : ℕ) (h0 : 0 ≤ d.inst) (h : d.inst ≤ n) :
    ((List.replicate n Key.down).foldl (DataState.press S xI yI) d).inst = 0 := by
  induction n generalizing d with
  | zero => simp; omega
  | succ n ih =>
    rw [List.replicate_succ, List.foldl_cons]
    refine ih _ ?_ ?_ <;> simp only [DataState.press] <;> split <;> push_cast at h <;> omega

/-- Every image can be shown, whatever was done before. -/
theorem dataRun_reaches {S : ℤ} {xI yI : ℕ} (hN : 0 < (xI : ℤ) * yI) (hS : (xI : ℤ) * yI ≤ S) (keys : List Key) {j : ℤ}
    (h0 : 0 ≤ j) (hj : j < S) : ∃ more : List Key, (dataRun S xI yI (keys ++ more)).inst ≤ j ∧
      j < (dataRun S xI yI (keys ++ more)).inst + (xI : ℤ) * yI := by
  obtain ⟨r0, r1⟩ := dataRun_range hS keys
  set d := dataRun S xI yI keys with hd
  set a := (List.replicate d.inst.toNat Key.down).foldl (DataState.press S xI yI) d with ha
  have ha0 : a.inst = 0 := down_inst hN d _ r0 (by omega)
  have hq0 : 0 ≤ j / ((xI : ℤ) * yI) := Int.ediv_nonneg h0 hN.le
  have hq1 := Int.mul_ediv_add_emod j ((xI : ℤ) * yI)
  have hq2 := Int.emod_nonneg j hN.ne'
  have hq3 := Int.emod_lt_of_pos j hN
  have run : ∀ ks : List Key, (dataRun S xI yI (keys ++ (List.replicate d.inst.toNat .down ++ ks))) =
      ks.foldl (DataState.press S xI yI) a := fun ks => by
    rw [dataRun, List.foldl_append, List.foldl_append]; rfl
  generalize hNN : (xI : ℤ) * yI = N at *
  by_cases hfull : (j / N) * N + N ≤ S
  · -- a full page
    refine ⟨List.replicate d.inst.toNat .down ++ List.replicate (j / N).toNat .up, ?_⟩
    have hi := up_inst (S := S) (xI := xI) (yI := yI) a (j / N).toNat (by
      rw [ha0, hNN, Int.toNat_of_nonneg hq0]; omega)
    rw [hNN, ha0, Int.toNat_of_nonneg hq0, zero_add] at hi
    rw [run, hi]
    rw [mul_comm] at hq1
    omega
  · -- the last page
    have hq : 1 ≤ j / N := by
      by_contra h
      have : j / N = 0 := by omega
      rw [this] at hfull
      omega
    refine ⟨List.replicate d.inst.toNat .down ++ (List.replicate (j / N - 1).toNat .up ++ [.up]), ?_⟩
    have hmul : (j / N - 1) * N = j / N * N - N := by ring
    rw [mul_comm] at hq1
    have hi := up_inst (S := S) (xI := xI) (yI := yI) a (j / N - 1).toNat (by
      rw [ha0, hNN, Int.toNat_of_nonneg (by omega)]; omega)
    rw [hNN, ha0, Int.toNat_of_nonneg (by omega), zero_add] at hi
    rw [run, List.foldl_append, List.foldl_cons, List.foldl_nil]
    have hlast : (DataState.press S xI yI ((List.replicate (j / N - 1).toNat Key.up).foldl (DataState.press S xI yI) a) .up).inst =
        S - N := by
      simp only [DataState.press, hi, hNN]
      rw [if_pos (by omega)]
    rw [hlast]
    omega

/-- 60 images in pages of 25: the last page has the images 35 to 59. -/
example : (dataRun 60 5 5 [.up, .left, .up, .up]).inst = 35 := by decide

/-! ## viewdata.cpp: the images -/

/-- The square of pixel `k` of an image. -/
def imageSquare (rows cols xIdx yIdx : ℕ) (image : List ℝ) (k : ℕ) : Square :=
  ⟨xIdx * ((rows : ℝ) + 1) + (k % cols : ℕ), yIdx * ((cols : ℝ) + 1) + ((rows : ℝ) - (k / cols : ℕ)), 1, some (image.getD k 0)⟩

theorem paintImage_eq {rows cols : ℕ} (xIdx yIdx : ℕ) {image : List ℝ} (h : image.length = rows * cols) :
    paintImage rows cols xIdx yIdx image = ok ((List.range (rows * cols)).map (imageSquare rows cols xIdx yIdx image)) := by
  unfold paintImage
  rw [paintLoop_ok fun row => (List.range cols).map fun col => imageSquare rows cols xIdx yIdx image (row * cols + col)]
  · rw [flatMap_range rows cols fun row col => imageSquare rows cols xIdx yIdx image (row * cols + col)]
    congr 1
    refine List.map_congr_left fun k _ => ?_
    rw [Nat.div_add_mod']
  · intro row hrow
    refine paintLoop_single _ fun col hcol => ?_
    have hk : row * cols + col < image.length := by
      rw [h]
      calc row * cols + col < row * cols + cols := by omega
        _ = (row + 1) * cols := by ring
        _ ≤ rows * cols := Nat.mul_le_mul_right cols hrow
    have h1 : (row * cols + col) / cols = row := by
      rw [Nat.mul_comm, Nat.mul_add_div (by omega), Nat.div_eq_of_lt hcol, Nat.add_zero]
    have h2 : (row * cols + col) % cols = col := by rw [Nat.mul_comm, Nat.mul_add_mod, Nat.mod_eq_of_lt hcol]
    rw [read_of_lt hk, ok_bind]
    simp only [imageSquare, h1, h2, List.getD, List.getElem?_eq_getElem hk, Option.getD_some]

/-- What place `k` of the window shows. -/
def shownImage (ins : List (List ℝ)) (xI : ℕ) (distort : ℕ → ℕ → List ℝ → List ℝ) (d : DataState) (k : ℕ) : List ℝ :=
  if d.distortions then distort (k % xI) (k / xI) (ins.getD (d.inst + k).toNat []) else ins.getD (d.inst + k).toNat []

/-- **The window of viewdata.cpp after any keys**: the images `inst, inst + 1, ...` of the data set in lines of `xI` images, and
their numbers. -/
theorem data_frame {ins : List (List ℝ)} {rows cols xI yI : ℕ} {distort : ℕ → ℕ → List ℝ → List ℝ} (keys : List Key)
    (hS : xI * yI ≤ ins.length) (himg : ∀ x ∈ ins, x.length = rows * cols)
    (hdist : ∀ a b x, (distort a b x).length = x.length) :
    let d := dataRun ins.length xI yI keys
    0 ≤ d.inst ∧ d.inst + (xI : ℤ) * yI ≤ ins.length ∧ d.distortions = decide (keys.count .left % 2 = 1) ∧
    d.paint ins rows cols xI yI distort = ok
      ((List.range (yI * xI)).map fun k => (List.range (rows * cols)).map
        (imageSquare rows cols (k % xI) (k / xI) (shownImage ins xI distort d k)), d.inst + 1, d.inst + (xI : ℤ) * yI) := by
  intro d
  obtain ⟨h0, h1⟩ : 0 ≤ d.inst ∧ d.inst + (xI : ℤ) * yI ≤ ins.length := dataRun_range (S := ins.length) (xI := xI) (yI := yI) (by exact_mod_cast hS) keys
  refine ⟨h0, h1, dataRun_distortions _ _ _ _, ?_⟩
  rw [DataState.paint, paintLoop_ok fun yIdx => (List.range xI).map fun xIdx => (List.range (rows * cols)).map
    (imageSquare rows cols xIdx yIdx (shownImage ins xI distort d (yIdx * xI + xIdx)))]
  · rw [flatMap_range yI xI fun yIdx xIdx => (List.range (rows * cols)).map
      (imageSquare rows cols xIdx yIdx (shownImage ins xI distort d (yIdx * xI + xIdx))), ok_bind]
    congr 2
    refine List.map_congr_left fun k _ => ?_
    rw [Nat.div_add_mod']
  · intro yIdx hy
    refine paintLoop_single _ fun xIdx hx => ?_
    have hk : yIdx * xI + xIdx < xI * yI := by
      calc yIdx * xI + xIdx < yIdx * xI + xI := by omega
        _ = xI * (yIdx + 1) := by ring
        _ ≤ xI * yI := Nat.mul_le_mul_left xI hy
    have e : d.inst + (xI : ℤ) * yIdx + xIdx = d.inst + (yIdx * xI + xIdx : ℕ) := by push_cast; ring
    have hk' : ((yIdx * xI + xIdx : ℕ) : ℤ) < (xI : ℤ) * yI := by exact_mod_cast hk
    obtain ⟨x, hgx, hx'⟩ := getRow_ok (rows := ins) (i := d.inst + (yIdx * xI + xIdx : ℕ)) (by omega) (by omega)
    have hlen := himg x (List.mem_of_getElem? hx')
    have hgd : ins.getD (d.inst + (yIdx * xI + xIdx : ℕ)).toNat [] = x := by rw [List.getD, hx']; rfl
    have h1 : (yIdx * xI + xIdx) / xI = yIdx := by
      rw [Nat.mul_comm, Nat.mul_add_div (by omega), Nat.div_eq_of_lt hx, Nat.add_zero]
    have h2 : (yIdx * xI + xIdx) % xI = xIdx := by rw [Nat.mul_comm, Nat.mul_add_mod, Nat.mod_eq_of_lt hx]
    have hs : (if d.distortions then distort xIdx yIdx x else x) = shownImage ins xI distort d (yIdx * xI + xIdx) := by
      rw [shownImage, hgd, h1, h2]
    have hl : (shownImage ins xI distort d (yIdx * xI + xIdx)).length = rows * cols := by
      rw [shownImage, hgd]
      split
      · rw [hdist, hlen]
      · exact hlen
    rw [e, hgx, ok_bind, hs]
    simp only [paintImage_eq xIdx yIdx hl, ok_bind]

example : 2 * 1 ≤ [[(1 : ℝ), 2], [3, 4], [5, 6]].length ∧ ∀ x ∈ [[(1 : ℝ), 2], [3, 4], [5, 6]], x.length = 2 * 1 :=
  ⟨by simp, by simp⟩

/-- **With less images than places the window fails after every sequence of keys**, also before the first one. -/
theorem few_images_fails {ins : List (List ℝ)} {rows cols xI yI : ℕ} {distort : ℕ → ℕ → List ℝ → List ℝ} (keys : List Key)
    (hS : ins.length < xI * yI) (himg : ∀ x ∈ ins, x.length = rows * cols)
    (hdist : ∀ a b x, (distort a b x).length = x.length) :
    (dataRun ins.length xI yI keys).paint ins rows cols xI yI distort = checkFailed := by
  have hS' : (ins.length : ℤ) < (xI : ℤ) * yI := by exact_mod_cast hS
  have hcase : (dataRun ins.length xI yI keys).inst = 0 ∨ (dataRun ins.length xI yI keys).inst < 0 := by
    induction keys using List.reverseRecOn with
    | nil => left; rfl
    | append_singleton keys k ih =>
      rw [dataRun_snoc]
      have : (0 : ℤ) ≤ ins.length := by positivity
      cases k <;> simp only [DataState.press] <;> (try split) <;> omega
  set d := dataRun ins.length xI yI keys
  have hx0 : 0 < xI := Nat.pos_of_ne_zero fun h => by rw [h, Nat.zero_mul] at hS; omega
  have hy0 : 0 < yI := Nat.pos_of_ne_zero fun h => by rw [h, Nat.mul_zero] at hS; omega
  have cell : ∀ (yIdx xIdx : ℕ), 0 ≤ d.inst + (xI : ℤ) * yIdx + xIdx → d.inst + (xI : ℤ) * yIdx + xIdx < ins.length →
      ∃ q, (do
        let image ← getRow ins (d.inst + (xI : ℤ) * yIdx + xIdx)
        let image := if d.distortions then distort xIdx yIdx image else image
        let q ← paintImage rows cols xIdx yIdx image
        ok [q] : Outcome (List (List Square))) = ok [q] := by
    intro yIdx xIdx h0 h1
    obtain ⟨x, hgx, hx'⟩ := getRow_ok (rows := ins) h0 h1
    have hlen := himg x (List.mem_of_getElem? hx')
    rw [hgx, ok_bind]
    simp only
    rw [paintImage_eq _ _ (show (if d.distortions then distort xIdx yIdx x else x).length = rows * cols by
      split
      · rw [hdist, hlen]
      · exact hlen), ok_bind]
    exact ⟨_, rfl⟩
  suffices h : (paintLoop yI fun yIdx => paintLoop xI fun xIdx => do
      let image ← getRow ins (d.inst + (xI : ℤ) * yIdx + xIdx)
      let image := if d.distortions then distort xIdx yIdx image else image
      let q ← paintImage rows cols xIdx yIdx image
      ok [q] : Outcome (List (List Square))) = checkFailed by
    rw [DataState.paint, h, checkFailed_bind]
  rcases hcase with h0 | hneg
  · -- the image after the last one
    have hyy : ins.length / xI < yI := Nat.div_lt_of_lt_mul hS
    have hmod := Nat.mod_lt ins.length hx0
    have hdm := Nat.div_add_mod ins.length xI
    have hdm' : (xI : ℤ) * ((ins.length / xI : ℕ) : ℤ) + ((ins.length % xI : ℕ) : ℤ) = ins.length := by exact_mod_cast hdm
    have hxx : (0 : ℤ) ≤ (xI : ℤ) := by positivity
    refine paintLoop_fails hyy (fun y hy => ?_) (paintLoop_fails hmod (fun x hx => ?_) ?_)
    · have hmul : (xI : ℤ) * (y + 1) ≤ xI * ((ins.length / xI : ℕ) : ℤ) := mul_le_mul_of_nonneg_left (by exact_mod_cast hy) hxx
      have hmul0 : (0 : ℤ) ≤ xI * y := by positivity
      have : ∀ x < xI, ∃ q, (do
          let image ← getRow ins (d.inst + (xI : ℤ) * y + x)
          let image := if d.distortions then distort x y image else image
          let q ← paintImage rows cols x y image
          ok [q] : Outcome (List (List Square))) = ok [q] := fun x hx => cell y x (by omega) (by
            rw [mul_add] at hmul
            omega)
      choose! q hq using this
      exact ⟨_, paintLoop_single q hq⟩
    · have hmul0 : (0 : ℤ) ≤ xI * ((ins.length / xI : ℕ) : ℤ) := by positivity
      obtain ⟨q, hq⟩ := cell (ins.length / xI) x (by omega) (by omega)
      exact ⟨_, hq⟩
    · rw [getRow_outside (by omega), checkFailed_bind]
  · refine paintLoop_fails hy0 (fun _ h => absurd h (Nat.not_lt_zero _)) (paintLoop_fails hx0 (fun _ h => absurd h
      (Nat.not_lt_zero _)) ?_)
    rw [getRow_outside (by left; simpa using hneg), checkFailed_bind]

/-- The pixels of almost square images have their own places. -/
theorem images_apart {rows cols : ℕ} (hrc : rows ≤ cols + 1) (hcr : cols ≤ rows + 1) {x y x' y' k k' : ℕ} (im im' : List ℝ)
    (hk : k < rows * cols) (hk' : k' < rows * cols) (hne : (x, y, k) ≠ (x', y', k')) :
    Apart (imageSquare rows cols x y im k) (imageSquare rows cols x' y' im' k') := by
  have hc0 : 0 < cols := Nat.pos_of_ne_zero fun h => by rw [h, Nat.mul_zero] at hk; omega
  rintro px py ⟨⟨a1, a2, a3, a4⟩, b1, b2, b3, b4⟩
  simp only [imageSquare] at a1 a2 a3 a4 b1 b2 b3 b4
  have unit : ∀ {a b : ℤ} {z : ℝ}, (a : ℝ) < z → z < a + 1 → (b : ℝ) < z → z < b + 1 → a = b := by
    intro a b z h1 h2 h3 h4
    have h5 : a < b + 1 := by exact_mod_cast h1.trans h4
    have h6 : b < a + 1 := by exact_mod_cast h3.trans h2
    omega
  have ex : ∀ x m : ℕ, (x : ℝ) * ((rows : ℝ) + 1) + (m : ℝ) = ((x * (rows + 1) + m : ℕ) : ℤ) := fun x m => by
    push_cast; ring
  have ey : ∀ y m : ℕ, (y : ℝ) * ((cols : ℝ) + 1) + ((rows : ℝ) - (m : ℝ)) =
      (((y * (cols + 1) + rows : ℕ) : ℤ) - ((m : ℕ) : ℤ) : ℤ) := fun y m => by push_cast; ring
  rw [ex] at a1 a2 b1 b2
  rw [ey] at a3 a4 b3 b4
  have h1 := unit a1 a2 b1 b2
  have h2 := unit a3 a4 b3 b4
  have m1 := Nat.mod_lt k hc0
  have m2 := Nat.mod_lt k' hc0
  have d1 : k / cols < rows := Nat.div_lt_of_lt_mul (by rw [Nat.mul_comm]; exact hk)
  have d2 : k' / cols < rows := Nat.div_lt_of_lt_mul (by rw [Nat.mul_comm]; exact hk')
  have h1' : x * (rows + 1) + k % cols = x' * (rows + 1) + k' % cols := by exact_mod_cast h1
  have digit : ∀ {a b p q s : ℕ}, p < s → q < s → a * s + p = b * s + q → a = b ∧ p = q := by
    intro a b p q s hp hq h
    have e1 : (a * s + p) / s = a := by rw [Nat.mul_comm, Nat.mul_add_div (by omega), Nat.div_eq_of_lt hp, Nat.add_zero]
    have e2 : (b * s + q) / s = b := by rw [Nat.mul_comm, Nat.mul_add_div (by omega), Nat.div_eq_of_lt hq, Nat.add_zero]
    have : a = b := by rw [← e1, h, e2]
    subst this
    exact ⟨rfl, by omega⟩
  obtain ⟨rfl, hm⟩ := digit (show k % cols < rows + 1 by omega) (show k' % cols < rows + 1 by omega) h1'
  have h2' : y * (cols + 1) + (rows - 1 - k / cols) = y' * (cols + 1) + (rows - 1 - k' / cols) := by
    generalize y * (cols + 1) = A at *
    generalize y' * (cols + 1) = B at *
    omega
  obtain ⟨rfl, hd⟩ := digit (Nat.lt_succ_of_le ((Nat.sub_le (rows - 1) (k / cols)).trans (show rows - 1 ≤ cols by omega)))
    (Nat.lt_succ_of_le ((Nat.sub_le (rows - 1) (k' / cols)).trans (show rows - 1 ≤ cols by omega))) h2'
  have hd' : k / cols = k' / cols := by omega
  apply hne
  have e1 := Nat.div_add_mod k cols
  have e2 := Nat.div_add_mod k' cols
  rw [hd', hm] at e1
  rw [← e1, e2]

/-- The images of the program have 28 x 28 pixels. -/
example (im im' : List ℝ) : Apart (imageSquare 28 28 0 0 im 27) (imageSquare 28 28 1 0 im' 0) :=
  images_apart (by omega) (by omega) im im' (by omega) (by omega) (by decide)

/-- **Wide and high images overlap**: a pixel of the first and one of the next image have the same place. -/
theorem images_overlap_fails {rows cols : ℕ} (h : rows + 1 < cols ∨ cols + 1 < rows) (hr : 0 < rows) (hc : 0 < cols) :
    ∃ x y k k' : ℕ, (x, y) ≠ (0, 0) ∧ x ≤ 1 ∧ y ≤ 1 ∧ k < rows * cols ∧ k' < rows * cols ∧ ∀ im im' : List ℝ,
      ¬ Apart (imageSquare rows cols 0 0 im k) (imageSquare rows cols x y im' k') := by
  rcases h with h | h
  · refine ⟨1, 0, rows + 1, 0, by decide, le_refl _, Nat.zero_le _, ?_, Nat.mul_pos hr hc, fun im im' hap => ?_⟩
    · nlinarith
    · refine hap ((rows : ℝ) + 1 + 1 / 2) ((rows : ℝ) + 1 / 2) ?_
      simp only [Square.Inside, imageSquare, Nat.mod_eq_of_lt h, Nat.div_eq_of_lt h, Nat.zero_mod, Nat.zero_div]
      push_cast
      refine ⟨⟨?_, ?_, ?_, ?_⟩, ?_, ?_, ?_, ?_⟩ <;> linarith
  · refine ⟨0, 1, 0, (cols + 1) * cols, by decide, Nat.zero_le _, le_refl _, Nat.mul_pos hr hc,
      Nat.mul_lt_mul_of_pos_right h hc, fun im im' hap => ?_⟩
    refine hap (1 / 2) ((rows : ℝ) + 1 / 2) ?_
    simp only [Square.Inside, imageSquare, Nat.zero_mod, Nat.zero_div, Nat.mul_mod_left, Nat.mul_div_cancel _ hc]
    push_cast
    refine ⟨⟨?_, ?_, ?_, ?_⟩, ?_, ?_, ?_, ?_⟩ <;> linarith

end

end Verif.Viewers
