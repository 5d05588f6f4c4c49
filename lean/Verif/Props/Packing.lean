import Verif.Model.Packing
import Mathlib.Tactic.Linarith
import Mathlib.Algebra.Order.BigOperators.Group.List
import Mathlib.Data.List.TakeDrop

/-!
# C58: packing parameters is lossless
-/

namespace Verif.Pack

open Outcome

noncomputable section

/-! ## Specification -/

/-- number of elements of a matrix -/
def count (m : Mat) : ℕ := m.rows * m.cols

/-- number of elements of all matrices -/
def total (ms : List Mat) : ℕ := (ms.map count).sum

/-- the place of element `(i, j)` of matrix number `k` -/
def place (ms : List Mat) (k i j : ℕ) : ℕ := total (ms.take k) + j * (ms.map Mat.rows).getD k 0 + i

/-- `(k, i, j)` denotes an element -/
def IsElement (ms : List Mat) (t : ℕ × ℕ × ℕ) : Prop :=
  t.1 < ms.length ∧ t.2.1 < (ms.map Mat.rows).getD t.1 0 ∧ t.2.2 < (ms.map Mat.cols).getD t.1 0

/-! ## Lists -/

theorem packFrom_eq (parts : List (List ℝ)) (offset : ℕ) (vec : List ℝ) (h : offset + parts.flatten.length ≤ vec.length)
    (h31 : offset + parts.flatten.length < 2 ^ 31) :
    packFrom offset vec parts = ok (vec.take offset ++ parts.flatten ++ vec.drop (offset + parts.flatten.length)) := by
  induction parts generalizing offset vec with
  | nil => simp [packFrom]
  | cons p ps ih =>
    rw [List.flatten_cons, List.length_append] at h h31
    rw [packFrom, argSize, if_pos (by omega), ok_bind, copyTo, if_pos (by omega), ok_bind, advance, if_pos (by omega), ok_bind]
    have hlen : (vec.take offset ++ p ++ vec.drop (offset + p.length)).length = vec.length := by
      simp
      omega
    rw [ih _ _ (by rw [hlen]; omega) (by omega)]
    congr 1
    have e1 : (vec.take offset).length = offset := by simp; omega
    have t1 : (vec.take offset ++ p ++ vec.drop (offset + p.length)).take (offset + p.length) = vec.take offset ++ p :=
      List.take_left' (by rw [List.length_append, e1])
    have t2 : (vec.take offset ++ p ++ vec.drop (offset + p.length)).drop (offset + p.length + ps.flatten.length) =
        vec.drop (offset + p.length + ps.flatten.length) := by
      rw [← List.drop_drop, List.drop_left' (by rw [List.length_append, e1]), List.drop_drop]
    rw [t1, t2, List.flatten_cons, List.length_append, Nat.add_assoc]
    simp only [List.append_assoc]

theorem unpackFrom_eq (sizes : List ℕ) (offset : ℕ) (parts : List (List ℝ)) (hs : parts.map List.length = sizes) (pre suf : List ℝ)
    (hpre : pre.length = offset) (h31 : offset + parts.flatten.length < 2 ^ 31) :
    unpackFrom (pre ++ parts.flatten ++ suf) offset sizes = ok parts := by
  induction parts generalizing sizes offset pre with
  | nil =>
    subst hs
    rfl
  | cons p ps ih =>
    subst hs
    rw [List.flatten_cons, List.length_append] at h31
    rw [List.map_cons, unpackFrom, argSize, if_pos (by omega), ok_bind, copyFrom,
      if_pos (by simp [List.length_append]; omega), ok_bind, advance, if_pos (by omega), ok_bind]
    have e : pre ++ (p :: ps).flatten ++ suf = (pre ++ p) ++ ps.flatten ++ suf := by simp
    have c : ((pre ++ (p :: ps).flatten ++ suf).drop offset).take p.length = p := by
      rw [List.flatten_cons, List.append_assoc, List.append_assoc, List.drop_left' hpre, List.take_left' rfl]
    rw [c, e, ih _ (offset + p.length) rfl (pre ++ p) (by rw [List.length_append, hpre]) (by omega), ok_bind]

theorem length_data (m : Mat) : (data m).length = count m := by simp [data, count]

theorem length_flatten_data (ms : List Mat) : (ms.map data).flatten.length = total ms := by
  induction ms with
  | nil => rfl
  | cons m ms ih =>
    rw [List.map_cons, List.flatten_cons, List.length_append, ih, length_data]
    simp [total]

theorem data_place (m : Mat) {i j : ℕ} (hi : i < m.rows) (hj : j < m.cols) : (data m)[j * m.rows + i]? = some (m.val i j) := by
  have hb : j * m.rows + i < m.rows * m.cols := by
    calc j * m.rows + i < j * m.rows + m.rows := by omega
      _ = m.rows * (j + 1) := by ring
      _ ≤ m.rows * m.cols := Nat.mul_le_mul_left _ hj
  have h1 : (j * m.rows + i) % m.rows = i := by
    rw [Nat.add_comm, Nat.add_mul_mod_self_right, Nat.mod_eq_of_lt hi]
  have h2 : (j * m.rows + i) / m.rows = j := by
    rw [Nat.add_comm, Nat.add_mul_div_right _ _ (by omega), Nat.div_eq_of_lt hi, Nat.zero_add]
  unfold data
  rw [List.getElem?_map, List.getElem?_range hb, Option.map_some, h1, h2]

theorem ofData_data (m : Mat) : Mat.Same (ofData m.rows m.cols (data m)) m := by
  refine ⟨rfl, rfl, fun i hi j hj => ?_⟩
  simp only [ofData]
  rw [List.getD_eq_getElem?_getD, data_place m hi hj]
  rfl

/-! ## Places -/

theorem place_zero (m : Mat) (ms : List Mat) (i j : ℕ) : place (m :: ms) 0 i j = j * m.rows + i := by
  simp [place, total]

theorem place_succ (m : Mat) (ms : List Mat) (k i j : ℕ) : place (m :: ms) (k + 1) i j = count m + place ms k i j := by
  simp [place, total]
  omega

theorem local_lt {r c i j : ℕ} (hi : i < r) (hj : j < c) : j * r + i < r * c := by
  calc j * r + i < j * r + r := by omega
    _ = r * (j + 1) := by ring
    _ ≤ r * c := Nat.mul_le_mul_left _ hj

/-- Every index below the total number belongs to exactly one element. -/
theorem place_bijective (ms : List Mat) (e : ℕ) (he : e < total ms) : ∃! t : ℕ × ℕ × ℕ, IsElement ms t ∧ place ms t.1 t.2.1 t.2.2 = e := by
  induction ms generalizing e with
  | nil => simp [total] at he
  | cons m ms ih =>
    have htot : total (m :: ms) = count m + total ms := by simp [total]
    by_cases h : e < count m
    · have hr : 0 < m.rows := by
        rcases Nat.eq_zero_or_pos m.rows with h0 | h0
        · rw [count, h0, Nat.zero_mul] at h
          omega
        · exact h0
      refine ⟨(0, e % m.rows, e / m.rows), ⟨⟨by simp, by simpa using Nat.mod_lt _ hr, ?_⟩, ?_⟩, ?_⟩
      · simpa using Nat.div_lt_of_lt_mul h
      · simp only [place_zero]
        rw [Nat.mul_comm]
        exact Nat.div_add_mod e m.rows
      · rintro ⟨k, i, j⟩ ⟨⟨hk, hi, hj⟩, hp⟩
        cases k with
        | zero =>
          simp only [List.map_cons, List.getD_cons_zero] at hi hj
          simp only [place_zero] at hp
          have h1 : e % m.rows = i := by
            rw [← hp, Nat.add_comm, Nat.add_mul_mod_self_right, Nat.mod_eq_of_lt hi]
          have h2 : e / m.rows = j := by
            rw [← hp, Nat.add_comm, Nat.add_mul_div_right _ _ hr, Nat.div_eq_of_lt hi, Nat.zero_add]
          rw [h1, h2]
        | succ k =>
          simp only [place_succ] at hp
          omega
    · obtain ⟨⟨k, i, j⟩, ⟨⟨hk, hi, hj⟩, hp⟩, huniq⟩ := ih (e - count m) (by omega)
      refine ⟨(k + 1, i, j), ⟨⟨by simpa using hk, by simpa using hi, by simpa using hj⟩, ?_⟩, ?_⟩
      · simp only [place_succ]
        simp only at hp
        omega
      · rintro ⟨k', i', j'⟩ ⟨⟨hk', hi', hj'⟩, hp'⟩
        cases k' with
        | zero =>
          simp only [List.map_cons, List.getD_cons_zero] at hi' hj'
          simp only [place_zero] at hp'
          have := local_lt hi' hj'
          rw [count] at h
          omega
        | succ k' =>
          simp only [place_succ] at hp'
          have := huniq (k', i', j') ⟨⟨by simpa using hk', by simpa using hi', by simpa using hj'⟩, by simp only; omega⟩
          simp only [Prod.mk.injEq] at this ⊢
          omega

theorem flatten_place (ms : List Mat) (k i j : ℕ) (m : Mat) (hm : ms[k]? = some m) (hi : i < m.rows) (hj : j < m.cols) :
    (ms.map data).flatten[place ms k i j]? = some (m.val i j) := by
  induction ms generalizing k with
  | nil => simp at hm
  | cons a ms ih =>
    rw [List.map_cons, List.flatten_cons]
    cases k with
    | zero =>
      simp only [List.getElem?_cons_zero, Option.some.injEq] at hm
      subst hm
      rw [place_zero, List.getElem?_append_left (by rw [length_data]; exact local_lt hi hj), data_place a hi hj]
    | succ k =>
      rw [List.getElem?_cons_succ] at hm
      rw [place_succ, List.getElem?_append_right (by rw [length_data]; omega), length_data, Nat.add_sub_cancel_left, ih k hm]

/-! ## C58 -/

/-- **C58 (partial)**: a vector of the right length is filled with the elements, each at its own place.  Missing: `pack` does not
give the vector the right length (`pack_short_ub`, `pack_long`). -/
theorem pack_entries_partial (ms : List Mat) (vec : List ℝ) (hv : vec.length = total ms) (h31 : total ms < 2 ^ 31) :
    ∃ v, pack vec (ms.map data) = ok v ∧ v.length = total ms ∧
      (∀ k m, ms[k]? = some m → ∀ i < m.rows, ∀ j < m.cols, v[place ms k i j]? = some (m.val i j)) ∧
      ∀ e < total ms, ∃! t : ℕ × ℕ × ℕ, IsElement ms t ∧ place ms t.1 t.2.1 t.2.2 = e := by
  have hl := length_flatten_data ms
  refine ⟨(ms.map data).flatten, ?_, hl, fun k m hm i hi j hj => flatten_place ms k i j m hm hi hj, place_bijective ms⟩
  rw [pack, packFrom_eq _ _ _ (by omega) (by omega)]
  congr 1
  rw [List.take_zero, List.nil_append, Nat.zero_add, List.drop_of_length_le (by omega), List.append_nil]

/-- **C58**: unpacking what was packed gives back all matrices, if the vector is large enough. -/
theorem unpack_pack (ms : List Mat) (vec : List ℝ) (hv : total ms ≤ vec.length) (h31 : total ms < 2 ^ 31) :
    ∃ v parts, pack vec (ms.map data) = ok v ∧ unpack v (ms.map count) = ok parts ∧ parts.length = ms.length ∧
      ∀ (k : ℕ) (m : Mat) (p : List ℝ), ms[k]? = some m → parts[k]? = some p → p.length = count m ∧ Mat.Same (ofData m.rows m.cols p) m := by
  have hl := length_flatten_data ms
  refine ⟨(ms.map data).flatten ++ vec.drop (total ms), ms.map data, ?_, ?_, by simp, ?_⟩
  · rw [pack, packFrom_eq _ _ _ (by omega) (by omega), List.take_zero, List.nil_append, Nat.zero_add, hl]
  · have := unpackFrom_eq (ms.map count) 0 (ms.map data) (by
      rw [List.map_map]
      exact List.map_congr_left fun m _ => length_data m) [] (vec.drop (total ms)) rfl (by omega)
    simpa [unpack] using this
  · intro k m p hm hp
    rw [List.getElem?_map, hm] at hp
    cases hp
    exact ⟨length_data m, ofData_data m⟩

/-- **C58**: packing what was unpacked gives back the vector: no entry is lost. -/
theorem pack_unpack (sizes : List ℕ) (v vec : List ℝ) (hv : v.length = sizes.sum) (hvec : vec.length = sizes.sum)
    (h31 : sizes.sum < 2 ^ 31) : ∃ parts, unpack v sizes = ok parts ∧ parts.map List.length = sizes ∧ pack vec parts = ok v := by
  have key : ∀ (sizes : List ℕ) (v : List ℝ), v.length = sizes.sum → ∃ parts : List (List ℝ), parts.map List.length = sizes ∧
      parts.flatten = v := by
    intro sizes
    induction sizes with
    | nil =>
      intro v hv
      rw [List.sum_nil, List.length_eq_zero_iff] at hv
      exact ⟨[], rfl, by rw [hv]; rfl⟩
    | cons n ns ih =>
      intro v hv
      rw [List.sum_cons] at hv
      obtain ⟨ps, h1, h2⟩ := ih (v.drop n) (by rw [List.length_drop]; omega)
      refine ⟨v.take n :: ps, ?_, ?_⟩
      · rw [List.map_cons, h1, List.length_take, Nat.min_eq_left (by omega)]
      · rw [List.flatten_cons, h2, List.take_append_drop]
  obtain ⟨parts, h1, h2⟩ := key sizes v hv
  have hfl : parts.flatten.length = sizes.sum := by rw [h2, hv]
  refine ⟨parts, ?_, h1, ?_⟩
  · have := unpackFrom_eq sizes 0 parts h1 [] [] rfl (by omega)
    simpa [unpack, h2] using this
  · rw [pack, packFrom_eq _ _ _ (by omega) (by omega), List.take_zero, List.nil_append, Nat.zero_add,
      List.drop_of_length_le (by omega), List.append_nil, h2]

/-- a longer vector keeps its length and its last entries -/
theorem pack_long (ms : List Mat) (vec : List ℝ) (hv : total ms < vec.length) (h31 : total ms < 2 ^ 31) :
    ∃ v, pack vec (ms.map data) = ok v ∧ v.length = vec.length ∧ v.length ≠ total ms := by
  have hl := length_flatten_data ms
  refine ⟨_, by rw [pack, packFrom_eq _ _ _ (by omega) (by omega)], ?_, ?_⟩ <;>
  · simp only [List.length_append, List.length_take, List.length_drop, hl]
    omega

/-- A vector that is too short is written out of bounds, whatever the matrices are. -/
theorem pack_short_ub (ms : List Mat) (vec : List ℝ) (hv : vec.length < total ms) : pack vec (ms.map data) = ub := by
  have key : ∀ (parts : List (List ℝ)) (offset : ℕ) (vec : List ℝ), offset ≤ vec.length → vec.length < offset + parts.flatten.length →
      packFrom offset vec parts = ub := by
    intro parts
    induction parts with
    | nil => intro offset vec h1 h2; simp at h2; omega
    | cons p ps ih =>
      intro offset vec h1 h2
      rw [List.flatten_cons, List.length_append] at h2
      rw [packFrom, argSize]
      split
      · rw [ok_bind, copyTo]
        split
        · rename_i h3
          rw [ok_bind, advance]
          split
          · rw [ok_bind]
            have hlen : (vec.take offset ++ p ++ vec.drop (offset + p.length)).length = vec.length := by
              simp
              omega
            exact ih _ _ (by rw [hlen]; exact h3) (by rw [hlen]; omega)
          · rfl
        · rfl
      · rfl
  exact key _ 0 vec (Nat.zero_le _) (by rw [length_flatten_data]; omega)

/-- Matrices with 2 ^ 31 or more elements overflow the offset, whatever the vector is. -/
theorem pack_huge_ub (ms : List Mat) (vec : List ℝ) (h31 : 2 ^ 31 ≤ total ms) : pack vec (ms.map data) = ub := by
  have key : ∀ (parts : List (List ℝ)) (offset : ℕ) (vec : List ℝ), offset < 2 ^ 31 → 2 ^ 31 ≤ offset + parts.flatten.length →
      packFrom offset vec parts = ub := by
    intro parts
    induction parts with
    | nil => intro offset vec h1 h2; simp at h2; omega
    | cons p ps ih =>
      intro offset vec h1 h2
      rw [List.flatten_cons, List.length_append] at h2
      rw [packFrom, argSize]
      split
      · rw [ok_bind, copyTo]
        split
        · rw [ok_bind, advance]
          split
          · rw [ok_bind]
            exact ih _ _ (by assumption) (by omega)
          · rfl
        · rfl
      · rfl
  exact key _ 0 vec (by norm_num) (by rw [length_flatten_data]; omega)

/-- The same holds for unpacking. -/
theorem unpack_huge_ub (sizes : List ℕ) (vec : List ℝ) (h31 : 2 ^ 31 ≤ sizes.sum) : unpack vec sizes = ub := by
  have key : ∀ (sizes : List ℕ) (offset : ℕ), offset < 2 ^ 31 → 2 ^ 31 ≤ offset + sizes.sum → unpackFrom vec offset sizes = ub := by
    intro sizes
    induction sizes with
    | nil => intro offset h1 h2; simp at h2; omega
    | cons n ns ih =>
      intro offset h1 h2
      rw [List.sum_cons] at h2
      rw [unpackFrom, argSize]
      split
      · rw [ok_bind, copyFrom]
        split
        · rw [ok_bind, advance]
          split
          · rw [ok_bind, ih _ (by assumption) (by omega)]
            rfl
          · rfl
        · rfl
      · rfl
  exact key sizes 0 (by norm_num) (by omega)

example : total [⟨2, 3, fun i j => i + 10 * j⟩, ⟨0, 5, fun _ _ => 0⟩, ⟨4, 1, fun i _ => i⟩] = 10 := by
  simp [total, count]

end

end Verif.Pack
