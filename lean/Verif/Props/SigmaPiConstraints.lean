import Verif.Props.SigmaPi
import Verif.Model.SigmaPiConstraints
import Mathlib.Geometry.Euclidean.Angle.Unoriented.Basic
import Mathlib.Analysis.InnerProductSpace.PiL2
import Mathlib.Tactic.LinearCombination

/-!
# Constraints of sigma-pi layers (C36)
-/

namespace Verif.SigmaPi

open Outcome

noncomputable section

/-! ## Distance and slope -/

/-- The position of the pixel in column `x` and row `y`. -/
def pixel (width x y : ℕ) : ℕ := y * width + x

theorem coordinates_pixel {width height x y : ℕ} (hx : x < width) (hy : y < height) :
    coordinates width height (pixel width x y) = ok (x, y) := by
  have h0 : 0 < width := by omega
  have h1 : pixel width x y / width = y := by
    rw [pixel, Nat.mul_comm, Nat.mul_add_div h0, Nat.div_eq_of_lt hx, Nat.add_zero]
  have h2 : pixel width x y % width = x := by
    rw [pixel, Nat.mul_comm, Nat.mul_add_mod, Nat.mod_eq_of_lt hx]
  rw [coordinates, if_neg (by omega), h1, h2, check_true hy, ok_bind]

/-- The value of the distance constraint is the square of the Euclidean distance of two pixels. -/
theorem distance_spec {width height x1 y1 x2 y2 : ℕ} (hx1 : x1 < width) (hy1 : y1 < height) (hx2 : x2 < width) (hy2 : y2 < height) :
    distance width height [pixel width x1 y1, pixel width x2 y2] = ok (((x1 : ℝ) - x2) ^ 2 + ((y1 : ℝ) - y2) ^ 2) := by
  rw [distance, coordinates_pixel hx1 hy1, ok_bind, coordinates_pixel hx2 hy2, ok_bind]
  simp only [sq]

/-- **C36, distances (partial)**: symmetric, for all positions, also outside of the image. -/
theorem distance_symm_partial (width height p q : ℕ) : distance width height [p, q] = distance width height [q, p] := by
  rw [distance, distance, coordinates, coordinates]
  by_cases h0 : width = 0
  · simp [h0]
  · rw [if_neg h0, if_neg h0]
    by_cases hp : p / width < height <;> by_cases hq : q / width < height
    · simp only [check_true hp, check_true hq, ok_bind]
      congr 1
      ring
    · simp only [check_true hp, check_false hq, ok_bind, checkFailed_bind]
    · simp only [check_false hp, check_true hq, ok_bind, checkFailed_bind]
    · simp only [check_false hp, check_false hq, checkFailed_bind]

/-- **C36, distances (partial)**: invariant under translations inside of the image. -/
theorem distance_translation_partial {width height x1 y1 x2 y2 x1' y1' x2' y2' : ℕ} {dx dy : ℤ}
    (hx1 : x1 < width) (hy1 : y1 < height) (hx2 : x2 < width) (hy2 : y2 < height)
    (hx1' : x1' < width) (hy1' : y1' < height) (hx2' : x2' < width) (hy2' : y2' < height)
    (tx1 : (x1' : ℤ) = x1 + dx) (ty1 : (y1' : ℤ) = y1 + dy) (tx2 : (x2' : ℤ) = x2 + dx) (ty2 : (y2' : ℤ) = y2 + dy) :
    distance width height [pixel width x1' y1', pixel width x2' y2'] = distance width height [pixel width x1 y1, pixel width x2 y2] := by
  rw [distance_spec hx1 hy1 hx2 hy2, distance_spec hx1' hy1' hx2' hy2']
  have e1 : (x1' : ℝ) = x1 + dx := by exact_mod_cast tx1
  have e2 : (y1' : ℝ) = y1 + dy := by exact_mod_cast ty1
  have e3 : (x2' : ℝ) = x2 + dx := by exact_mod_cast tx2
  have e4 : (y2' : ℝ) = y2 + dy := by exact_mod_cast ty2
  rw [e1, e2, e3, e4]
  congr 1
  ring

/-- The value of the slope constraint is the angle of the line through two pixels. -/
theorem slope_spec {width height x1 y1 x2 y2 : ℕ} (hx1 : x1 < width) (hy1 : y1 < height) (hx2 : x2 < width) (hy2 : y2 < height) :
    slope width height [pixel width x1 y1, pixel width x2 y2] =
      ok (if (x1 : ℝ) = x2 then Real.pi / 2 else Real.arctan (((y2 : ℝ) - y1) / ((x2 : ℝ) - x1))) := by
  rw [slope, coordinates_pixel hx1 hy1, ok_bind, coordinates_pixel hx2 hy2, ok_bind]

/-- **C36, slopes (partial)**: invariant under translation and magnification by `s ≠ 0` inside of the image. -/
theorem slope_similar_partial {width height x1 y1 x2 y2 x1' y1' x2' y2' : ℕ} {dx dy s : ℤ} (hs : s ≠ 0)
    (hx1 : x1 < width) (hy1 : y1 < height) (hx2 : x2 < width) (hy2 : y2 < height)
    (hx1' : x1' < width) (hy1' : y1' < height) (hx2' : x2' < width) (hy2' : y2' < height)
    (tx1 : (x1' : ℤ) = s * x1 + dx) (ty1 : (y1' : ℤ) = s * y1 + dy) (tx2 : (x2' : ℤ) = s * x2 + dx) (ty2 : (y2' : ℤ) = s * y2 + dy) :
    slope width height [pixel width x1' y1', pixel width x2' y2'] = slope width height [pixel width x1 y1, pixel width x2 y2] := by
  rw [slope_spec hx1 hy1 hx2 hy2, slope_spec hx1' hy1' hx2' hy2']
  have hs' : (s : ℝ) ≠ 0 := by exact_mod_cast hs
  have e1 : (x1' : ℝ) = s * x1 + dx := by exact_mod_cast tx1
  have e2 : (y1' : ℝ) = s * y1 + dy := by exact_mod_cast ty1
  have e3 : (x2' : ℝ) = s * x2 + dx := by exact_mod_cast tx2
  have e4 : (y2' : ℝ) = s * y2 + dy := by exact_mod_cast ty2
  rw [e1, e2, e3, e4]
  congr 1
  have h1 : ((s : ℝ) * x1 + dx = s * x2 + dx) ↔ ((x1 : ℝ) = x2) := by
    rw [add_left_inj, mul_right_inj' hs']
  have h2 : ((s : ℝ) * y2 + dy - (s * y1 + dy)) / (s * x2 + dx - (s * x1 + dx)) = (y2 - y1) / (x2 - x1) := by
    have : ((s : ℝ) * y2 + dy - (s * y1 + dy)) / (s * x2 + dx - (s * x1 + dx)) = (s * (y2 - y1)) / (s * (x2 - x1)) := by
      congr 1 <;> ring
    rw [this, mul_div_mul_left _ _ hs']
  rw [h2]
  by_cases h : (x1 : ℝ) = x2
  · rw [if_pos (h1.2 h), if_pos h]
  · rw [if_neg (fun e => h (h1.1 e)), if_neg h]

/-- The slope does not depend on the order of the pixels. -/
theorem slope_symm_partial {width height x1 y1 x2 y2 : ℕ} (hx1 : x1 < width) (hy1 : y1 < height) (hx2 : x2 < width) (hy2 : y2 < height) :
    slope width height [pixel width x1 y1, pixel width x2 y2] = slope width height [pixel width x2 y2, pixel width x1 y1] := by
  rw [slope_spec hx1 hy1 hx2 hy2, slope_spec hx2 hy2 hx1 hy1]
  congr 1
  by_cases h : (x1 : ℝ) = x2
  · rw [if_pos h, if_pos h.symm]
  · rw [if_neg h, if_neg (fun e => h e.symm), ← neg_div_neg_eq]
    congr 2 <;> ring

example : ∃ v, distance 5 4 [pixel 5 0 0, pixel 5 3 2] = ok v ∧ distance 5 4 [pixel 5 1 1, pixel 5 4 3] = ok v :=
  ⟨_, distance_spec (by norm_num) (by norm_num) (by norm_num) (by norm_num),
    (distance_translation_partial (dx := 1) (dy := 1) (by norm_num) (by norm_num) (by norm_num) (by norm_num) (by norm_num) (by norm_num)
      (by norm_num) (by norm_num) (by norm_num) (by norm_num) (by norm_num) (by norm_num)).trans
      (distance_spec (by norm_num) (by norm_num) (by norm_num) (by norm_num))⟩

/-! ## Triangles: the map of angles -/

/-- Cyclic exchange. -/
def rot (k : ℤ × ℤ × ℤ) : ℤ × ℤ × ℤ := (k.2.1, k.2.2, k.1)

theorem rot_rot_rot (k : ℤ × ℤ × ℤ) : rot (rot (rot k)) = k := rfl

theorem rot_const {k : ℤ × ℤ × ℤ} (h : rot k = k) : k.1 = k.2.1 ∧ k.2.1 = k.2.2 := by
  obtain ⟨a, b, c⟩ := k
  simp only [rot, Prod.mk.injEq] at h ⊢
  omega

theorem apart (a b : ℤ) : |(a : ℝ) - b| > 0.001 ↔ a ≠ b := by
  constructor
  · rintro h rfl
    simp at h
    norm_num at h
  · intro h
    have h1 : (1 : ℤ) ≤ |a - b| := Int.one_le_abs (sub_ne_zero.2 h)
    have h2 : (1 : ℝ) ≤ |(a : ℝ) - b| := by exact_mod_cast h1
    have h3 : (0.001 : ℝ) < 1 := by norm_num
    exact lt_of_lt_of_le h3 h2

theorem equiv_iff (k k' : ℤ × ℤ × ℤ) : (tuple k).Equiv (tuple k') ↔ k = k' := by
  obtain ⟨a, b, c⟩ := k
  obtain ⟨a', b', c'⟩ := k'
  have hl : ∀ x y z x' y' z' : ℤ, (tuple (x, y, z)).Less (tuple (x', y', z')) ↔
      if x ≠ x' then x < x' else if y ≠ y' then y < y' else z ≠ z' ∧ z < z' := by
    intro x y z x' y' z'
    unfold AngleTuple.Less tuple
    simp only [apart, Int.cast_lt]
  rw [AngleTuple.Equiv, hl, hl]
  constructor
  · rintro ⟨h1, h2⟩
    simp only [Prod.mk.injEq]
    by_cases ha : a = a'
    · by_cases hb : b = b'
      · simp [ha, hb] at h1 h2
        exact ⟨ha, hb, by omega⟩
      · simp [ha, hb, Ne.symm hb] at h1 h2
        omega
    · simp [ha, Ne.symm ha] at h1 h2
      omega
  · intro h
    simp only [Prod.mk.injEq] at h
    obtain ⟨rfl, rfl, rfl⟩ := h
    simp

/-- Maps with integer keys. -/
abbrev Table := List ((ℤ × ℤ × ℤ) × ℕ)

def lift (q : Table) : Partition := q.map fun e => (tuple e.1, e.2)

theorem lookup_lift (q : Table) (k : ℤ × ℤ × ℤ) : lookup (lift q) (tuple k) = (q.find? fun e => e.1 = k).map Prod.snd := by
  induction q with
  | nil => rfl
  | cons e q ih =>
    unfold lookup at ih ⊢
    rw [lift, List.map_cons, List.find?_cons, List.find?_cons]
    by_cases h : e.1 = k
    · have : (tuple e.1).Equiv (tuple k) := (equiv_iff _ _).2 h
      simp [h, (equiv_iff k k).2 rfl]
    · have : ¬ (tuple e.1).Equiv (tuple k) := fun h' => h ((equiv_iff _ _).1 h')
      simp only [this, h, decide_false]
      exact ih

theorem lookup_none (q : Table) (k : ℤ × ℤ × ℤ) : lookup (lift q) (tuple k) = none ↔ ∀ m, (k, m) ∉ q := by
  rw [lookup_lift, Option.map_eq_none_iff, List.find?_eq_none]
  constructor
  · intro h m hm
    exact h _ hm (by simp)
  · intro h e he
    simp only [decide_eq_true_eq]
    rintro rfl
    exact h e.2 he

theorem lookup_some {q : Table} {k : ℤ × ℤ × ℤ} {m : ℕ} (h : lookup (lift q) (tuple k) = some m) : (k, m) ∈ q := by
  rw [lookup_lift, Option.map_eq_some_iff] at h
  obtain ⟨e, h1, rfl⟩ := h
  have h2 := List.find?_some h1
  simp only [decide_eq_true_eq] at h2
  subst h2
  exact List.mem_of_find?_eq_some h1

theorem assign_new {q : Table} {k : ℤ × ℤ × ℤ} (h : ∀ m, (k, m) ∉ q) (nr : ℕ) : assign (lift q) (tuple k) nr = lift (q ++ [(k, nr)]) := by
  rw [assign, (lookup_none q k).2 h]
  simp [lift]

theorem assign_old {q : Table} {k : ℤ × ℤ × ℤ} {nr : ℕ} (h : (k, nr) ∈ q) (hu : ∀ m, (k, m) ∈ q → m = nr) :
    assign (lift q) (tuple k) nr = lift q := by
  have hs : (lookup (lift q) (tuple k)).isSome := by
    by_contra hn
    rw [Option.not_isSome_iff_eq_none, lookup_none] at hn
    exact hn nr h
  rw [assign, if_pos hs]
  conv_rhs => rw [← List.map_id (lift q)]
  refine List.map_congr_left fun e he => ?_
  rw [lift, List.mem_map] at he
  obtain ⟨f, hf, rfl⟩ := he
  split
  · next h' =>
    have : f.1 = k := (equiv_iff _ _).1 h'
    have : f.2 = nr := hu f.2 (by rw [← this]; exact hf)
    rw [← this]
    rfl
  · rfl

/-- What holds of the map after every history of calls. -/
structure Table.Inv (q : Table) : Prop where
  closed : ∀ k m, (k, m) ∈ q → (rot k, m) ∈ q
  functional : ∀ k m m', (k, m) ∈ q → (k, m') ∈ q → m = m'

/-- The map after a new triple. -/
def extend (q : Table) (k : ℤ × ℤ × ℤ) : Table :=
  if rot k = k then q ++ [(k, q.length / 3)] else q ++ [(k, q.length / 3), (rot k, q.length / 3), (rot (rot k), q.length / 3)]

theorem extend_inv {q : Table} (hq : q.Inv) {k : ℤ × ℤ × ℤ} (h : ∀ m, (k, m) ∉ q) : (extend q k).Inv := by
  have h1 : ∀ m, (rot k, m) ∉ q := fun m hm => h m (hq.closed _ m (hq.closed _ m hm))
  have h2 : ∀ m, (rot (rot k), m) ∉ q := fun m hm => h m (hq.closed _ m hm)
  unfold extend
  split
  · next hc =>
    constructor
    · intro k' m hm
      rw [List.mem_append, List.mem_singleton] at hm ⊢
      rcases hm with hm | hm
      · exact Or.inl (hq.closed k' m hm)
      · injection hm with e1 e2
        subst e1 e2
        right
        rw [hc]
    · intro k' m m' hm hm'
      rw [List.mem_append, List.mem_singleton, Prod.mk.injEq] at hm hm'
      rcases hm with hm | ⟨rfl, rfl⟩
      · rcases hm' with hm' | ⟨rfl, rfl⟩
        · exact hq.functional k' m m' hm hm'
        · exact absurd hm (h m)
      · rcases hm' with hm' | ⟨_, rfl⟩
        · exact absurd hm' (h m')
        · rfl
  · constructor
    · intro k' m hm
      simp only [List.mem_append, List.mem_cons, List.not_mem_nil, or_false, Prod.mk.injEq] at hm ⊢
      rcases hm with hm | ⟨rfl, rfl⟩ | ⟨rfl, rfl⟩ | ⟨rfl, rfl⟩
      · exact Or.inl (hq.closed k' m hm)
      · exact Or.inr (Or.inr (Or.inl ⟨rfl, rfl⟩))
      · exact Or.inr (Or.inr (Or.inr ⟨rfl, rfl⟩))
      · exact Or.inr (Or.inl ⟨rfl, rfl⟩)
    · have hnew : ∀ k' m, ((k' = k ∧ m = q.length / 3) ∨ (k' = rot k ∧ m = q.length / 3) ∨ (k' = rot (rot k) ∧ m = q.length / 3)) →
          m = q.length / 3 ∧ ∀ m', (k', m') ∉ q := by
        rintro k' m (⟨rfl, rfl⟩ | ⟨rfl, rfl⟩ | ⟨rfl, rfl⟩)
        · exact ⟨rfl, h⟩
        · exact ⟨rfl, h1⟩
        · exact ⟨rfl, h2⟩
      intro k' m m' hm hm'
      simp only [List.mem_append, List.mem_cons, List.not_mem_nil, or_false, Prod.mk.injEq] at hm hm'
      rcases hm with hm | hm
      · rcases hm' with hm' | hm'
        · exact hq.functional k' m m' hm hm'
        · exact absurd hm ((hnew k' m' hm').2 m)
      · rcases hm' with hm' | hm'
        · exact absurd hm' ((hnew k' m hm).2 m')
        · rw [(hnew k' m hm).1, (hnew k' m' hm').1]

theorem number_new {q : Table} (hq : q.Inv) {k : ℤ × ℤ × ℤ} (h : ∀ m, (k, m) ∉ q) :
    number (lift q) k = (q.length / 3, lift (extend q k)) := by
  have h1 : ∀ m, (rot k, m) ∉ q := fun m hm => h m (hq.closed _ m (hq.closed _ m hm))
  have h2 : ∀ m, (rot (rot k), m) ∉ q := fun m hm => h m (hq.closed _ m hm)
  have hlen : (lift q).length = q.length := by simp [lift]
  rw [number, (lookup_none q k).2 h]
  simp only [hlen]
  rw [assign_new h]
  congr 1
  show assign (assign (lift (q ++ [(k, q.length / 3)])) (tuple (rot k)) (q.length / 3)) (tuple (rot (rot k))) (q.length / 3) = _
  unfold extend
  split
  · next hc =>
    have hold : assign (lift (q ++ [(k, q.length / 3)])) (tuple k) (q.length / 3) = lift (q ++ [(k, q.length / 3)]) :=
      assign_old (by simp) fun m hm => by
        rw [List.mem_append, List.mem_singleton, Prod.mk.injEq] at hm
        rcases hm with hm | hm
        · exact absurd hm (h m)
        · exact hm.2
    rw [hc, hc, hold, hold]
  · next hc =>
    have hc1 : rot (rot k) ≠ k := fun e => hc (by
      have := congrArg rot e
      rw [rot_rot_rot] at this
      exact this.symm)
    have hc2 : rot (rot k) ≠ rot k := fun e => hc (by
      have := congrArg (fun x => rot (rot x)) e
      simp only [rot_rot_rot] at this
      exact this)
    rw [assign_new (fun m hm => by
        rw [List.mem_append, List.mem_singleton, Prod.mk.injEq] at hm
        rcases hm with hm | hm
        · exact h1 m hm
        · exact hc hm.1),
      assign_new (fun m hm => by
        simp only [List.mem_append, List.mem_singleton, Prod.mk.injEq] at hm
        rcases hm with (hm | hm) | hm
        · exact h2 m hm
        · exact hc1 hm.1
        · exact hc2 hm.1)]
    simp

theorem extend_mem (q : Table) (k : ℤ × ℤ × ℤ) : (k, q.length / 3) ∈ extend q k ∧ ∀ e ∈ q, e ∈ extend q k := by
  unfold extend
  split
  · exact ⟨by simp, fun e he => List.mem_append_left _ he⟩
  · exact ⟨by simp, fun e he => List.mem_append_left _ he⟩

/-- One call. -/
theorem number_step {q : Table} (hq : q.Inv) (k : ℤ × ℤ × ℤ) :
    ∃ m q', number (lift q) k = (m, lift q') ∧ q'.Inv ∧ (∀ e ∈ q, e ∈ q') ∧ (k, m) ∈ q' ∧
      (q' = q ∨ q' = extend q k ∧ (∀ m, (k, m) ∉ q)) := by
  cases hl : lookup (lift q) (tuple k) with
  | some m => exact ⟨m, q, by rw [number, hl], hq, fun _ h => h, lookup_some hl, Or.inl rfl⟩
  | none =>
    have h := (lookup_none q k).1 hl
    exact ⟨_, _, number_new hq h, extend_inv hq h, (extend_mem q k).2, (extend_mem q k).1, Or.inr ⟨rfl, h⟩⟩

/-- What holds in addition as long as no triple has three equal angles. -/
structure Table.Distinct (q : Table) : Prop where
  length : 3 ∣ q.length
  small : ∀ k m, (k, m) ∈ q → m < q.length / 3
  same : ∀ k k' m, (k, m) ∈ q → (k', m) ∈ q → k' = k ∨ k' = rot k ∨ k' = rot (rot k)

theorem extend_distinct {q : Table} (hq : q.Distinct) {k : ℤ × ℤ × ℤ} (hk : rot k ≠ k) : (extend q k).Distinct := by
  have hl : (extend q k).length = q.length + 3 := by rw [extend, if_neg hk]; simp
  obtain ⟨c, hc⟩ := hq.length
  have hd : (q.length + 3) / 3 = q.length / 3 + 1 := by omega
  have hm : ∀ k' m, (k', m) ∈ extend q k → (k', m) ∈ q ∨ (m = q.length / 3 ∧ (k' = k ∨ k' = rot k ∨ k' = rot (rot k))) := by
    intro k' m h
    rw [extend, if_neg hk] at h
    simp only [List.mem_append, List.mem_cons, List.not_mem_nil, or_false, Prod.mk.injEq] at h
    rcases h with h | h | h | h
    · exact Or.inl h
    · exact Or.inr ⟨h.2, Or.inl h.1⟩
    · exact Or.inr ⟨h.2, Or.inr (Or.inl h.1)⟩
    · exact Or.inr ⟨h.2, Or.inr (Or.inr h.1)⟩
  refine ⟨⟨c + 1, by omega⟩, ?_, ?_⟩
  · intro k' m h
    rw [hl, hd]
    rcases hm k' m h with h | ⟨rfl, _⟩
    · have := hq.small k' m h
      omega
    · omega
  · intro k1 k2 m h1 h2
    rcases hm k1 m h1 with h1 | ⟨e1, h1⟩ <;> rcases hm k2 m h2 with h2 | ⟨e2, h2⟩
    · exact hq.same k1 k2 m h1 h2
    · have := hq.small k1 m h1
      omega
    · have := hq.small k2 m h2
      omega
    · rcases h1 with rfl | rfl | rfl <;> rcases h2 with rfl | rfl | rfl <;> simp [rot_rot_rot]

/-! ## Triangles: geometry -/

/-- A pixel as a point of the plane. -/
def point (p : ℤ × ℤ) : EuclideanSpace ℝ (Fin 2) := !₂[(p.1 : ℝ), (p.2 : ℝ)]

/-- The angle at the corner `p` of a triangle. -/
def corner (p q r : ℤ × ℤ) : ℝ := InnerProductGeometry.angle (point q - point p) (point r - point p)

/-- The number of whole steps of the resolution in the angle at the corner `p`. -/
def steps (resolution : ℝ) (p q r : ℤ × ℤ) : ℤ := ⌊corner p q r / resolution⌋

theorem inner_point (p q r : ℤ × ℤ) :
    inner ℝ (point q - point p) (point r - point p) = ((squared p q + squared p r - squared q r : ℤ) : ℝ) / 2 := by
  simp only [point, squared, EuclideanSpace.inner_eq_star_dotProduct]
  simp [Matrix.vecHead, Matrix.vecTail, dotProduct, Fin.sum_univ_two]
  ring

theorem norm_point (p q : ℤ × ℤ) : ‖point q - point p‖ = Real.sqrt (squared p q : ℤ) := by
  rw [EuclideanSpace.norm_eq]
  congr 1
  simp [point, squared, Fin.sum_univ_two]
  ring

theorem squared_nonneg (p q : ℤ × ℤ) : 0 ≤ squared p q := by
  unfold squared
  nlinarith [sq_nonneg (p.1 - q.1), sq_nonneg (p.2 - q.2)]

theorem discreteAngle_eq (resolution : ℝ) (p q r : ℤ × ℤ) :
    discreteAngle resolution (squared q r) (squared p q) (squared p r) = steps resolution p q r := by
  unfold discreteAngle steps corner InnerProductGeometry.angle
  rw [inner_point, norm_point, norm_point, ← Real.sqrt_mul (by exact_mod_cast squared_nonneg p q)]
  congr 3
  push_cast
  generalize Real.sqrt _ = s
  ring

theorem squared_symm (p q : ℤ × ℤ) : squared p q = squared q p := by unfold squared; ring

theorem steps_symm (resolution : ℝ) (p q r : ℤ × ℤ) : steps resolution p q r = steps resolution p r q := by
  unfold steps corner
  rw [InnerProductGeometry.angle_comm]

/-- The discrete angles of the model are the discrete angles at the corners. -/
theorem angles_eq (resolution : ℝ) (a b c : ℤ × ℤ) :
    angles resolution (a, b, c) = (steps resolution a b c, steps resolution c a b, steps resolution b c a) := by
  unfold angles
  simp only
  rw [discreteAngle_eq, ← discreteAngle_eq resolution c a b, ← discreteAngle_eq resolution b c a, squared_symm c a, squared_symm c b,
    squared_symm b a]

/-- Specification: the discrete angles of the triangle with the corners `p1`, `p2`, `p3` in an image, in the order first corner, left one
and right one of the other corners. -/
def shape (width : ℕ) (resolution : ℝ) : List ℕ → ℤ × ℤ × ℤ
  | [p1, p2, p3] =>
    let a : ℤ × ℤ := ((p1 % width : ℕ), (p1 / width : ℕ))
    let b : ℤ × ℤ := ((p2 % width : ℕ), (p2 / width : ℕ))
    let c : ℤ × ℤ := ((p3 % width : ℕ), (p3 / width : ℕ))
    if b.1 < c.1 then (steps resolution a b c, steps resolution b c a, steps resolution c a b)
    else (steps resolution a b c, steps resolution c a b, steps resolution b c a)
  | _ => (0, 0, 0)

theorem shape_eq (width : ℕ) (resolution : ℝ) (p1 p2 p3 : ℕ) :
    angles resolution (corners width p1 p2 p3) = shape width resolution [p1, p2, p3] := by
  unfold shape corners
  simp only [Nat.cast_lt]
  split
  · rw [angles_eq, steps_symm resolution _ _ ((p2 % width : ℕ), (p2 / width : ℕ)),
      steps_symm resolution ((p2 % width : ℕ), (p2 / width : ℕ)) _ _, steps_symm resolution ((p3 % width : ℕ), (p3 / width : ℕ)) _ _]
  · rw [angles_eq]

/-- Specification: equal up to rotation. -/
def Rotated (k k' : ℤ × ℤ × ℤ) : Prop := k' = k ∨ k' = (k.2.1, k.2.2, k.1) ∨ k' = (k.2.2, k.1, k.2.1)

theorem eval_triangle {width : ℕ} {resolution : ℝ} {s s' : Partition} {t : List ℕ} {v : ℝ}
    (h : (triangle width resolution).eval s t = ok (v, s')) :
    v = (number s (shape width resolution t)).1 ∧ s' = (number s (shape width resolution t)).2 := by
  unfold triangle at h
  simp only at h
  split at h
  · split at h
    · cases h
    · rw [shape_eq] at h
      injection h with h
      rw [Prod.mk.injEq] at h
      exact ⟨h.1.symm, h.2.symm⟩
  · cases h

theorem history {width : ℕ} {resolution : ℝ} (ts : List (List ℕ)) {q : Table} (hq : q.Inv) {rs : List ℝ} {s' : Partition}
    (h : refs (triangle width resolution) (lift q) ts = ok (rs, s')) :
    ∃ q' : Table, s' = lift q' ∧ q'.Inv ∧ (∀ e ∈ q, e ∈ q') ∧
      (∀ (i : ℕ) (t : List ℕ) (r : ℝ), ts[i]? = some t → rs[i]? = some r → ∃ m : ℕ, r = m ∧ (shape width resolution t, m) ∈ q') ∧
      (q.Distinct → (∀ t ∈ ts, rot (shape width resolution t) ≠ shape width resolution t) → q'.Distinct) := by
  induction ts generalizing q rs with
  | nil =>
    cases h
    exact ⟨q, rfl, hq, fun _ h => h, by simp, fun h _ => h⟩
  | cons t ts ih =>
    rw [refs, bind_eq_ok] at h
    obtain ⟨⟨v, s1⟩, h1, h⟩ := h
    rw [bind_eq_ok] at h
    obtain ⟨rest, h2, h⟩ := h
    cases h
    obtain ⟨e1, e2⟩ := eval_triangle h1
    obtain ⟨m, q1, f1, f2, f3, f4, f5⟩ := number_step hq (shape width resolution t)
    rw [f1] at e1 e2
    simp only at e1 e2 h2
    subst e2
    obtain ⟨q', g0, g1, g2, g3, g4⟩ := ih f2 h2
    refine ⟨q', g0, g1, fun e he => g2 e (f3 e he), ?_, ?_⟩
    · intro i t' r ht hr
      cases i with
      | zero =>
        simp only [List.getElem?_cons_zero, Option.some.injEq] at ht hr
        subst ht hr
        exact ⟨m, e1, g2 _ f4⟩
      | succ i => exact g3 i t' r (by simpa using ht) (by simpa using hr)
    · intro hd hn
      refine g4 ?_ fun t' ht' => hn t' (List.mem_cons_of_mem _ ht')
      rcases f5 with rfl | ⟨rfl, _⟩
      · exact hd
      · exact extend_distinct hd (hn t (List.mem_cons_self ..))

/-- **C36, triangles (partial)**: whatever the history of calls of a new triangle constraint, triangles with the same discrete angles up to
rotation get the same number.  If no triangle of the history has three equal discrete angles, triangles with the same number have the same
discrete angles up to rotation.  Missing: histories with equal angles (`triangle_fails`) and, because of the order in which the corners are
taken, rotations of the image (`turned_fails`). -/
theorem triangle_partial (width : ℕ) (resolution : ℝ) (ts : List (List ℕ)) {rs : List ℝ} {s' : Partition}
    (h : refs (triangle width resolution) [] ts = ok (rs, s')) (i j : ℕ) (t u : List ℕ) (r v : ℝ)
    (ht : ts[i]? = some t) (hu : ts[j]? = some u) (hr : rs[i]? = some r) (hv : rs[j]? = some v) :
    (Rotated (shape width resolution t) (shape width resolution u) → r = v) ∧
    ((∀ x ∈ ts, ¬ ((shape width resolution x).1 = (shape width resolution x).2.1 ∧ (shape width resolution x).2.1 = (shape width resolution x).2.2)) →
      r = v → Rotated (shape width resolution t) (shape width resolution u)) := by
  obtain ⟨q, _, h1, _, h3, h4⟩ := history ts (q := []) ⟨by simp, by simp⟩ (s' := s') h
  obtain ⟨m, rfl, hm⟩ := h3 i t r ht hr
  obtain ⟨m', rfl, hm'⟩ := h3 j u v hu hv
  constructor
  · intro hrot
    have : (shape width resolution u, m) ∈ q := by
      rcases hrot with e | e | e
      · rw [e]; exact hm
      · rw [e]; exact h1.closed _ _ hm
      · rw [e]; exact h1.closed _ _ (h1.closed _ _ hm)
    rw [h1.functional _ _ _ this hm']
  · intro hne hmm
    have hd := h4 ⟨by simp, by simp, by simp⟩ fun x hx e => hne x hx (rot_const e)
    obtain rfl : m = m' := by exact_mod_cast hmm
    exact hd.same _ _ m hm hm'

/-! ## Counterexamples -/

/-- Discrete angles for a resolution of 45 degrees. -/
theorem discreteAngle_zero {as bs cs : ℤ} (hu : as - bs - cs < 0) (hv : 0 < bs * cs) (h : 2 * (bs * cs) < (as - bs - cs) ^ 2) :
    discreteAngle (Real.pi / 4) as bs cs = 0 := by
  unfold discreteAngle
  generalize as - bs - cs = u at *
  generalize bs * cs = v at *
  have hv' : (0 : ℝ) < v := by exact_mod_cast hv
  have hu' : (u : ℝ) < 0 := by exact_mod_cast hu
  have h' : 2 * (v : ℝ) < (u : ℝ) ^ 2 := by exact_mod_cast h
  have hs : 0 < Real.sqrt v := Real.sqrt_pos.2 hv'
  have hss : Real.sqrt v ^ 2 = v := Real.sq_sqrt hv'.le
  have hc : Real.sqrt 2 / 2 < (u : ℝ) / (-2 * Real.sqrt v) := by
    have e : (u : ℝ) / (-2 * Real.sqrt v) = (-u) / (2 * Real.sqrt v) := by ring
    rw [e, lt_div_iff₀ (by positivity)]
    have : Real.sqrt 2 * Real.sqrt v < -u := by
      rw [← Real.sqrt_mul (by norm_num)]
      exact (Real.sqrt_lt' (by linarith)).2 (by nlinarith)
    linarith
  have ha : Real.arccos ((u : ℝ) / (-2 * Real.sqrt v)) < Real.pi / 4 := by
    by_cases h1 : (u : ℝ) / (-2 * Real.sqrt v) ≤ 1
    · have e : Real.pi / 4 = Real.arccos (Real.sqrt 2 / 2) := by
        rw [← Real.cos_pi_div_four, Real.arccos_cos (by positivity) (by linarith [Real.pi_pos])]
      rw [e]
      refine Real.arccos_lt_arccos ?_ hc h1
      have : 0 ≤ Real.sqrt 2 := Real.sqrt_nonneg 2
      linarith
    · rw [Real.arccos_of_one_le (by linarith)]
      positivity
  rw [Int.floor_eq_iff]
  have hp : 0 < Real.pi / 4 := by positivity
  constructor
  · simp only [Int.cast_zero]
    exact div_nonneg (Real.arccos_nonneg _) hp.le
  · rw [Int.cast_zero, zero_add, div_lt_one hp]
    exact ha

theorem discreteAngle_one {as bs cs : ℤ} (hu : as - bs - cs < 0) (hv : 0 < bs * cs) (h : (as - bs - cs) ^ 2 < 2 * (bs * cs)) :
    discreteAngle (Real.pi / 4) as bs cs = 1 := by
  unfold discreteAngle
  generalize as - bs - cs = u at *
  generalize bs * cs = v at *
  have hv' : (0 : ℝ) < v := by exact_mod_cast hv
  have hu' : (u : ℝ) < 0 := by exact_mod_cast hu
  have h' : (u : ℝ) ^ 2 < 2 * (v : ℝ) := by exact_mod_cast h
  have hs : 0 < Real.sqrt v := Real.sqrt_pos.2 hv'
  have e0 : (u : ℝ) / (-2 * Real.sqrt v) = (-u) / (2 * Real.sqrt v) := by ring
  have hc : (u : ℝ) / (-2 * Real.sqrt v) < Real.sqrt 2 / 2 := by
    rw [e0, div_lt_iff₀ (by positivity)]
    have : -u < Real.sqrt 2 * Real.sqrt v := by
      rw [← Real.sqrt_mul (by norm_num)]
      exact Real.lt_sqrt_of_sq_lt (by nlinarith)
    linarith
  have hpos : 0 < (u : ℝ) / (-2 * Real.sqrt v) := by
    rw [e0]
    exact div_pos (by linarith) (by positivity)
  have ha : Real.pi / 4 < Real.arccos ((u : ℝ) / (-2 * Real.sqrt v)) := by
    have e : Real.pi / 4 = Real.arccos (Real.sqrt 2 / 2) := by
      rw [← Real.cos_pi_div_four, Real.arccos_cos (by positivity) (by linarith [Real.pi_pos])]
    rw [e]
    refine Real.arccos_lt_arccos (by linarith) hc ?_
    have : Real.sqrt 2 ≤ 2 := by
      rw [Real.sqrt_le_left (by norm_num)]
      norm_num
    linarith
  have hb : Real.arccos ((u : ℝ) / (-2 * Real.sqrt v)) < Real.pi / 2 := Real.arccos_lt_pi_div_two.2 hpos
  rw [Int.floor_eq_iff]
  have hp : 0 < Real.pi / 4 := by positivity
  constructor
  · rw [Int.cast_one, le_div_iff₀ hp]
    linarith
  · rw [Int.cast_one, div_lt_iff₀ hp]
    linarith

theorem discreteAngle_two {as bs cs : ℤ} (hu : 0 < as - bs - cs) (hv : 0 < bs * cs) (h : (as - bs - cs) ^ 2 < 2 * (bs * cs)) :
    discreteAngle (Real.pi / 4) as bs cs = 2 := by
  unfold discreteAngle
  generalize as - bs - cs = u at *
  generalize bs * cs = v at *
  have hv' : (0 : ℝ) < v := by exact_mod_cast hv
  have hu' : (0 : ℝ) < u := by exact_mod_cast hu
  have h' : (u : ℝ) ^ 2 < 2 * (v : ℝ) := by exact_mod_cast h
  have hs : 0 < Real.sqrt v := Real.sqrt_pos.2 hv'
  have e0 : (u : ℝ) / (-2 * Real.sqrt v) = -(u / (2 * Real.sqrt v)) := by ring
  have hc : (u : ℝ) / (2 * Real.sqrt v) < Real.sqrt 2 / 2 := by
    rw [div_lt_iff₀ (by positivity)]
    have : u < Real.sqrt 2 * Real.sqrt v := by
      rw [← Real.sqrt_mul (by norm_num)]
      exact Real.lt_sqrt_of_sq_lt (by nlinarith)
    linarith
  have hpos : 0 < (u : ℝ) / (2 * Real.sqrt v) := div_pos hu' (by positivity)
  have h2 : Real.sqrt 2 ≤ 2 := by
    rw [Real.sqrt_le_left (by norm_num)]
    norm_num
  have ha : Real.pi / 4 < Real.arccos ((u : ℝ) / (2 * Real.sqrt v)) := by
    have e : Real.pi / 4 = Real.arccos (Real.sqrt 2 / 2) := by
      rw [← Real.cos_pi_div_four, Real.arccos_cos (by positivity) (by linarith [Real.pi_pos])]
    rw [e]
    exact Real.arccos_lt_arccos (by linarith) hc (by linarith)
  have hb : Real.arccos ((u : ℝ) / (2 * Real.sqrt v)) < Real.pi / 2 := Real.arccos_lt_pi_div_two.2 hpos
  rw [e0, Real.arccos_neg, Int.floor_eq_iff]
  have hp : 0 < Real.pi / 4 := by positivity
  constructor
  · rw [le_div_iff₀ hp]
    push_cast
    linarith
  · rw [div_lt_iff₀ hp]
    push_cast
    linarith

theorem shape_of {p1 p2 p3 : ℕ} {a b c : ℤ} {q : (ℤ × ℤ) × (ℤ × ℤ) × (ℤ × ℤ)} (hq : corners 5 p1 p2 p3 = q)
    (h : angles (Real.pi / 4) q = (a, b, c)) : shape 5 (Real.pi / 4) [p1, p2, p3] = (a, b, c) := by
  rw [← shape_eq, hq, h]

theorem shape_equal : shape 5 (Real.pi / 4) [0, 9, 21] = (1, 1, 1) := by
  refine shape_of (q := ((0, 0), (4, 1), (1, 4))) (by decide) ?_
  have e1 : squared (4, 1) (1, 4) = 18 := by decide
  have e2 : squared (0, 0) (4, 1) = 17 := by decide
  have e3 : squared (0, 0) (1, 4) = 17 := by decide
  simp only [angles, e1, e2, e3]
  rw [discreteAngle_one (by decide) (by decide) (by decide), discreteAngle_one (by decide) (by decide) (by decide),
    discreteAngle_one (by decide) (by decide) (by decide)]

theorem shape_obtuse : shape 5 (Real.pi / 4) [2, 5, 9] = (2, 0, 0) := by
  refine shape_of (q := ((2, 0), (4, 1), (0, 1))) (by decide) ?_
  have e1 : squared (4, 1) (0, 1) = 16 := by decide
  have e2 : squared (2, 0) (4, 1) = 5 := by decide
  have e3 : squared (2, 0) (0, 1) = 5 := by decide
  simp only [angles, e1, e2, e3]
  rw [discreteAngle_two (by decide) (by decide) (by decide), discreteAngle_zero (by decide) (by decide) (by decide),
    discreteAngle_zero (by decide) (by decide) (by decide)]

theorem shape_upright : shape 5 (Real.pi / 4) [0, 1, 23] = (1, 2, 0) := by
  refine shape_of (q := ((0, 0), (3, 4), (1, 0))) (by decide) ?_
  have e1 : squared (3, 4) (1, 0) = 20 := by decide
  have e2 : squared (0, 0) (3, 4) = 25 := by decide
  have e3 : squared (0, 0) (1, 0) = 1 := by decide
  simp only [angles, e1, e2, e3]
  rw [discreteAngle_one (by decide) (by decide) (by decide), discreteAngle_two (by decide) (by decide) (by decide),
    discreteAngle_zero (by decide) (by decide) (by decide)]

theorem shape_turned : shape 5 (Real.pi / 4) [4, 9, 15] = (1, 0, 2) := by
  refine shape_of (q := ((4, 0), (4, 1), (0, 3))) (by decide) ?_
  have e1 : squared (4, 1) (0, 3) = 20 := by decide
  have e2 : squared (4, 0) (4, 1) = 1 := by decide
  have e3 : squared (4, 0) (0, 3) = 25 := by decide
  simp only [angles, e1, e2, e3]
  rw [discreteAngle_one (by decide) (by decide) (by decide), discreteAngle_zero (by decide) (by decide) (by decide),
    discreteAngle_two (by decide) (by decide) (by decide)]

theorem table_nil : Table.Inv [] := ⟨by simp, by simp⟩

theorem eval_eq {s : Partition} {p1 p2 p3 : ℕ} (h : ¬ ((5 : ℕ) = 0 ∨ p1 = p2 ∨ p1 = p3 ∨ p2 = p3)) :
    (triangle 5 (Real.pi / 4)).eval s [p1, p2, p3] = ok (((number s (shape 5 (Real.pi / 4) [p1, p2, p3])).1 : ℝ),
      (number s (shape 5 (Real.pi / 4) [p1, p2, p3])).2) := by
  unfold triangle
  simp only
  rw [if_neg h, shape_eq]

/-- **C36 is false** for triangles: after a triangle with three equal discrete angles the next triangle gets its number, although its angles
differ.  Image of width 5, resolution 45 degrees, triangles (0,0), (4,1), (1,4) and (2,0), (0,1), (4,1). -/
theorem triangle_fails : ∃ s, refs (triangle 5 (Real.pi / 4)) [] [[0, 9, 21], [2, 5, 9]] = ok ([0, 0], s) ∧
    ¬ Rotated (shape 5 (Real.pi / 4) [0, 9, 21]) (shape 5 (Real.pi / 4) [2, 5, 9]) := by
  have n1 : number [] (1, 1, 1) = (0, lift (extend [] (1, 1, 1))) := number_new table_nil (by simp)
  have x1 : extend [] (1, 1, 1) = [((1, 1, 1), 0)] := by decide
  rw [x1] at n1
  have n2 : number (lift [((1, 1, 1), 0)]) (2, 0, 0) = (0, lift (extend [((1, 1, 1), 0)] (2, 0, 0))) :=
    number_new (by rw [← x1]; exact extend_inv table_nil (by simp)) (by simp)
  refine ⟨lift (extend [((1, 1, 1), 0)] (2, 0, 0)), ?_, ?_⟩
  · simp only [refs]
    rw [eval_eq (by decide), shape_equal, n1, ok_bind]
    simp only
    rw [eval_eq (by decide), shape_obtuse, n2]
    simp
  · rw [shape_equal, shape_obtuse, Rotated]
    decide

/-- **C36 is false** for rotated images: the triangle (0,0), (1,0), (3,4) and the same triangle turned by 90 degrees, (4,0), (4,1), (0,3),
get different numbers, although the angles at corresponding corners are equal. -/
theorem turned_fails : (∃ s, refs (triangle 5 (Real.pi / 4)) [] [[0, 1, 23], [4, 9, 15]] = ok ([0, 1], s)) ∧
    corner (0, 0) (1, 0) (3, 4) = corner (4, 0) (4, 1) (0, 3) ∧ corner (1, 0) (0, 0) (3, 4) = corner (4, 1) (4, 0) (0, 3) ∧
    corner (3, 4) (0, 0) (1, 0) = corner (0, 3) (4, 0) (4, 1) := by
  have n1 : number [] (1, 2, 0) = (0, lift (extend [] (1, 2, 0))) := number_new table_nil (by simp)
  have x1 : extend [] (1, 2, 0) = [((1, 2, 0), 0), ((2, 0, 1), 0), ((0, 1, 2), 0)] := by decide
  have i1 : Table.Inv [((1, 2, 0), 0), ((2, 0, 1), 0), ((0, 1, 2), 0)] := by rw [← x1]; exact extend_inv table_nil (by simp)
  rw [x1] at n1
  have n2 := number_new i1 (k := (1, 0, 2)) (by simp)
  refine ⟨⟨lift (extend [((1, 2, 0), 0), ((2, 0, 1), 0), ((0, 1, 2), 0)] (1, 0, 2)), ?_⟩, ?_, ?_, ?_⟩
  · simp only [refs]
    rw [eval_eq (by decide), shape_upright, n1, ok_bind]
    simp only
    rw [eval_eq (by decide), shape_turned, n2]
    simp
  all_goals
    unfold corner InnerProductGeometry.angle
    rw [inner_point, inner_point, norm_point, norm_point, norm_point, norm_point]
    rfl

end

end Verif.SigmaPi
