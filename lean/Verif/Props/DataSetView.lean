import Verif.Lemmas.DataSet
import Verif.Model.CrossValidation

/-!
# C01 - C04: splitting, merging and cross-validation sets
-/

namespace Verif.Data

open Outcome

variable {X T : Type}

/-- **C01.** Splitting data set `a` into `k > 1` groups always succeeds, appends `k` new views to `groups`, and there is a
partition of the positions of `a` such that group number `j` shows exactly the rows of part `j`,
inputs with their targets.  Without shuffling the parts are the consecutive positions.
The first `k-1` groups have `n / k` instances each, the last one has the rest.  Nothing that existed before
is changed. -/
theorem split_partition (σ : List ℤ → List ℤ) (hσ : IsShuffle σ) (s : Store X T)
    (groups : List ℕ) (a : ℕ) (ha : a < s.length) (k : ℕ) (hk : 1 < k) (shuffling : Bool) :
    ∃ (s' : Store X T) (new : List ℕ) (parts : List (List ℕ)),
      split σ s groups a (k : ℤ) shuffling = ok (s', groups ++ new) ∧
      Unchanged s s' ∧
      new.length = k ∧ new.Nodup ∧ (∀ g ∈ new, s.length ≤ g ∧ g < s'.length) ∧
      IsPartition (samples s a) parts ∧
      List.Forall₂ (fun g part => Shows s' g s a part) new parts ∧
      (shuffling = false → parts.flatten = List.range (samples s a)) ∧
      new.map (samples s') =
        List.replicate (k - 1) (samples s a / k) ++ [samples s a - (k - 1) * (samples s a / k)] := by
  set n := samples s a with hn
  set order := if shuffling then σ (iota n) else iota n with horder
  have hperm : order.Perm (iota n) := by
    rw [horder]; split
    · exact hσ _
    · exact List.Perm.refl _
  have hlen : order.length = n := by rw [hperm.length_eq, iota_length]
  obtain ⟨pos, hpos, hposperm⟩ := exists_positions hperm
  have hposlen : pos.length = n := by rw [hposperm.length_eq]; simp
  have hloop := split_loop σ s groups a k hk shuffling order horder (by rw [hlen])
  set views := (List.range k).map (fun i => (Obj.view a (piece order k i) : Obj X T)) with hviews
  refine ⟨s ++ views, (List.range k).map (fun i => s.length + i),
    (List.range k).map (piece pos k), hloop, ⟨views, rfl⟩, by simp, ?_, ?_, ?_, ?_, ?_, ?_⟩
  · exact List.Nodup.map (fun x y h => by simpa using h) List.nodup_range
  · intro g hg
    simp only [List.mem_map, List.mem_range] at hg
    obtain ⟨i, hi, rfl⟩ := hg
    simp [hviews]; omega
  · unfold IsPartition
    rw [flatten_piece pos k (by omega)]
    exact hposperm
  · rw [List.forall₂_map_left_iff, List.forall₂_map_right_iff]
    rw [List.forall₂_same]
    intro i hi
    simp only [List.mem_range] at hi
    apply shows_of_view
    · rw [List.getElem?_append_right (by omega)]
      simp only [hviews, Nat.add_sub_cancel_left, List.getElem?_map]
      rw [List.getElem?_range hi]
      simp [hpos, piece_map]
    · omega
    · intro j; exact row_append s views a ha j
  · intro hsh
    rw [flatten_piece pos k (by omega)]
    have : order = iota n := by simp [horder, hsh]
    rw [this] at hpos
    have h2 : (List.range n).map (fun i : ℕ => (i : ℤ)) = pos.map (fun i : ℕ => (i : ℤ)) := hpos
    exact ((List.map_injective_iff.mpr (fun x y h => by simpa using h)) h2).symm
  · obtain ⟨m, rfl⟩ : ∃ m, k = m + 1 := ⟨k - 1, by omega⟩
    have hs : ∀ i, i < m + 1 → samples (s ++ views) (s.length + i) = (piece order (m+1) i).length := by
      intro i hi
      apply samples_view (b := a)
      rw [List.getElem?_append_right (by omega)]
      simp only [hviews, Nat.add_sub_cancel_left, List.getElem?_map]
      rw [List.getElem?_range hi]
      rfl
    rw [List.map_map, List.range_succ, List.map_append]
    congr 1
    · rw [List.eq_replicate_iff]
      refine ⟨by simp, ?_⟩
      intro b hb
      simp only [List.mem_map, List.mem_range, Function.comp] at hb
      obtain ⟨i, hi, rfl⟩ := hb
      rw [hs i (by omega), piece_length_of_lt _ _ _ (by omega), hlen]
    · simp only [List.map_cons, List.map_nil, Function.comp]
      rw [hs m (by omega)]
      simp [piece, hlen]

/-- **C01, rejected calls.** Fewer than two groups are rejected by the check. -/
theorem split_rejects (σ : List ℤ → List ℤ) (s : Store X T) (groups : List ℕ) (a : ℕ) (k : ℤ)
    (hk : k ≤ 1) (shuffling : Bool) : split σ s groups a k shuffling = checkFailed := by
  unfold split
  rw [check_false (by omega)]
  rfl

/-- The hypotheses of `split_partition` are met by a data set with 7 rows, 3 groups and a shuffle that
reverses; the groups have 2, 2 and 3 instances. -/
example : IsShuffle List.reverse ∧
    ∃ s', split (X := ℕ) (T := ℕ) List.reverse
      [.direct [10, 11, 12, 13, 14, 15, 16] (some [0, 1, 0, 1, 0, 1, 0])] [] 0 3 true = ok (s', [1, 2, 3]) ∧
      s'.map (fun o => match o with | .view _ i => i | _ => []) = [[], [6, 5], [4, 3], [2, 1, 0]] := by
  refine ⟨fun l => List.reverse_perm l, _, split_loop _ _ _ _ 3 (by norm_num) _ _ rfl ?_, ?_⟩
  · simp [iota, samples]
  · simp [samples]; decide

/-- **C02.** Splitting by a ratio in `[0, 1]` always succeeds and yields two new views: the first one shows
`⌈ratio * n⌉` rows of the data set, the second one the other rows. -/
theorem splitRatio_partition {K : Type} [Field K] [LinearOrder K] [IsStrictOrderedRing K]
    [FloorRing K] (σ : List ℤ → List ℤ) (hσ : IsShuffle σ) (s : Store X T)
    (groups : List ℕ) (a : ℕ) (ha : a < s.length) (ratio : K) (h0 : 0 ≤ ratio) (h1 : ratio ≤ 1)
    (shuffling : Bool) :
    ∃ (s' : Store X T) (g₁ g₂ : ℕ) (part₁ part₂ : List ℕ),
      splitRatio σ s groups a ratio shuffling = ok (s', groups ++ [g₁, g₂]) ∧
      Unchanged s s' ∧ g₁ ≠ g₂ ∧
      IsPartition (samples s a) [part₁, part₂] ∧
      Shows s' g₁ s a part₁ ∧ Shows s' g₂ s a part₂ ∧
      (samples s' g₁ : ℤ) = ⌈ratio * (samples s a : K)⌉ ∧
      samples s' g₁ + samples s' g₂ = samples s a ∧
      (shuffling = false → part₁ ++ part₂ = List.range (samples s a)) := by
  set n := samples s a with hn
  set order := if shuffling then σ (iota n) else iota n with horder
  have hperm : order.Perm (iota n) := by
    rw [horder]; split
    · exact hσ _
    · exact List.Perm.refl _
  have hlen : order.length = n := by rw [hperm.length_eq, iota_length]
  obtain ⟨pos, hpos, hposperm⟩ := exists_positions hperm
  have hposlen : pos.length = n := by rw [hposperm.length_eq]; simp
  obtain ⟨m, hm⟩ : ∃ m : ℕ, ⌈ratio * (n : K)⌉ = (m : ℤ) :=
    Int.eq_ofNat_of_zero_le (Int.ceil_nonneg (mul_nonneg h0 (Nat.cast_nonneg n)))
  have hmn : m ≤ n := by
    have : ⌈ratio * (n : K)⌉ ≤ (n : ℤ) := by
      rw [Int.ceil_le]
      have : ratio * (n : K) ≤ 1 * (n : K) := mul_le_mul_of_nonneg_right h1 (Nat.cast_nonneg n)
      simpa using this
    rw [hm] at this
    exact_mod_cast this
  have hrun : splitRatio σ s groups a ratio shuffling =
      ok (s ++ [.view a (order.take m), .view a (order.drop m)],
        groups ++ [s.length, s.length + 1]) := by
    unfold splitRatio
    rw [check_true ⟨h0, h1⟩]
    simp only [ok_bind]
    rw [← hn, ← horder, hm]
    have e1 := slice_ok order 0 m (by omega) (by omega)
    have e2 := slice_ok order m order.length (by omega) le_rfl
    simp only [Nat.cast_zero] at e1
    rw [e1, e2]
    simp only [ok_bind, List.drop_zero, Nat.sub_zero]
    rw [List.take_of_length_le (l := order.drop m) (by simp)]
  have hs1 : Shows (s ++ [Obj.view a (order.take m), .view a (order.drop m)]) s.length s a (pos.take m) := by
    apply shows_of_view _ ha (fun i => row_append s _ a ha i)
    rw [List.getElem?_append_right (by omega)]
    simp [hpos, List.map_take]
  have hs2 : Shows (s ++ [Obj.view a (order.take m), .view a (order.drop m)]) (s.length + 1) s a
      (pos.drop m) := by
    apply shows_of_view _ (by omega) (fun i => row_append s _ a ha i)
    rw [List.getElem?_append_right (by omega)]
    simp [hpos, List.map_drop]
  refine ⟨_, s.length, s.length + 1, pos.take m, pos.drop m, hrun, ⟨_, rfl⟩, by omega, ?_, hs1, hs2,
    ?_, ?_, ?_⟩
  · simp [IsPartition, hposperm]
  · rw [hs1.1, hm]; simp [hposlen]; omega
  · rw [hs1.1, hs2.1]; simp [hposlen]; omega
  · intro hsh
    rw [List.take_append_drop]
    have : order = iota n := by simp [horder, hsh]
    rw [this] at hpos
    have h2 : (List.range n).map (fun i : ℕ => (i : ℤ)) = pos.map (fun i : ℕ => (i : ℤ)) := hpos
    exact ((List.map_injective_iff.mpr (fun x y h => by simpa using h)) h2).symm

/-- **C02, rejected calls.** -/
theorem splitRatio_rejects {K : Type} [Field K] [LinearOrder K] [FloorRing K]
    (σ : List ℤ → List ℤ) (s : Store X T) (groups : List ℕ) (a : ℕ) (ratio : K)
    (h : ratio < 0 ∨ 1 < ratio) (shuffling : Bool) :
    splitRatio σ s groups a ratio shuffling = checkFailed := by
  unfold splitRatio
  rw [check_false (by rintro ⟨h1, h2⟩; rcases h with h | h <;> exact absurd h (by simpa using by assumption))]
  rfl

/-- Hypotheses of `splitRatio_partition`: ratio 2/3 of four rows gives 3 + 1 instances. -/
example : (0 : ℚ) ≤ 2 / 3 ∧ (2 / 3 : ℚ) ≤ 1 ∧ ⌈(2 / 3 : ℚ) * ((4 : ℕ) : ℚ)⌉ = 3 := by
  refine ⟨by norm_num, by norm_num, ?_⟩
  rw [Int.ceil_eq_iff]; norm_num

/-- **C03.** Merging a non-empty list of views of data set `b` into another view of `b` succeeds; afterwards the receiving
view shows its old rows followed by the rows of the merged views, and no other data set changes. -/
theorem merge_shows (s : Store X T) (m b : ℕ) (groups : List ℕ) (hne : groups ≠ [])
    (hm : IsViewOf s m b) (hg : ∀ g ∈ groups, g ≠ m ∧ IsViewOf s g b) :
    ∃ s', merge s m groups = ok s' ∧
      readAll s' m = readAll s m ++ groups.flatMap (readAll s) ∧
      samples s' m = samples s m + (groups.map (samples s)).sum ∧
      (∀ c, c ≠ m → s'[c]? = s[c]?) ∧ s'.length = s.length ∧ IsViewOf s' m b := by
  obtain ⟨hbm, idx, hidx⟩ := hm
  have hrun := merge_ok s m b groups idx hne hidx
    (fun g hgm => ⟨(hg g hgm).1, (hg g hgm).2.2⟩)
  have hlt : m < s.length := by
    by_contra hc
    rw [List.getElem?_eq_none (by omega)] at hidx
    cases hidx
  have hread : ∀ g ∈ groups, readAll s g = (idxOf s g).map (row s b) := by
    intro g hgm
    obtain ⟨_, hbg, i', hi'⟩ := hg g hgm
    rw [readAll_view hi' hbg]
    simp [idxOf, hi']
  refine ⟨_, hrun, ?_, ?_, ?_, ?_, hbm, ?_⟩
  · have hself := List.getElem?_set_self
      (a := (Obj.view b (idx ++ groups.flatMap (idxOf s)) : Obj X T)) hlt
    rw [readAll_view hself hbm, readAll_view hidx hbm]
    rw [List.map_append]
    have hrow : row (s.set m (Obj.view b (idx ++ groups.flatMap (idxOf s)))) b = row s b := by
      funext i; exact row_set hbm _ i
    rw [hrow]
    congr 1
    rw [List.map_flatMap]
    rw [List.flatMap_def, List.flatMap_def]
    congr 1
    apply List.map_congr_left
    intro g hgm
    exact (hread g hgm).symm
  · rw [samples_view (List.getElem?_set_self hlt), samples_view hidx]
    rw [List.length_append, List.length_flatMap]
    congr 2
    apply List.map_congr_left
    intro g hgm
    obtain ⟨_, _, i', hi'⟩ := hg g hgm
    rw [samples_view hi']
    simp [idxOf, hi']
  · intro c hc
    rw [List.getElem?_set_ne (by omega)]
  · simp
  · exact ⟨_, List.getElem?_set_self hlt⟩

/-- **C03, rejected calls.** Merging no views, or a view of another data set, is rejected. -/
theorem merge_rejects_empty (s : Store X T) (m : ℕ) : merge s m [] = checkFailed := by
  unfold merge
  rw [check_false (by simp)]
  rfl

theorem merge_rejects_foreign (s : Store X T) (m b b' g : ℕ) (idx idx' : List ℤ) (rest : List ℕ)
    (hm : s[m]? = some (.view b idx)) (hg : s[g]? = some (.view b' idx')) (hgm : g ≠ m) (hb : b ≠ b') :
    merge s m (g :: rest) = checkFailed := by
  unfold merge
  rw [check_true (by simp)]
  simp only [ok_bind, List.foldlM_cons, hgm, if_false, hm, hg]
  rw [check_false hb]
  rfl

/-- A store with a data set, an empty view and two views to be merged meets the hypotheses of `merge_shows`. -/
example :
    let s : Store ℕ ℕ := [.direct [7, 8, 9] (some [0, 1, 1]), .view 0 [], .view 0 [2, 0], .view 0 [1]]
    IsViewOf s 1 0 ∧ (∀ g ∈ [2, 3], g ≠ 1 ∧ IsViewOf s g 0) ∧
      readAll s 1 ++ [2, 3].flatMap (readAll s) = [(ok 9, ok 1), (ok 7, ok 0), (ok 8, ok 1)] := by
  refine ⟨⟨by decide, _, rfl⟩, ?_, ?_⟩
  · intro g hg
    simp only [List.mem_cons, List.not_mem_nil, or_false] at hg
    rcases hg with rfl | rfl
    · exact ⟨by decide, by decide, _, rfl⟩
    · exact ⟨by decide, by decide, _, rfl⟩
  · rw [readAll_view (s := _) (v := 1) (b := 0) (idx := []) rfl (by decide)]
    simp only [List.map_nil, List.nil_append, List.flatMap_cons, List.flatMap_nil, List.append_nil]
    rw [readAll_view (v := 2) (b := 0) (idx := [2, 0]) rfl (by decide)]
    rw [readAll_view (v := 3) (b := 0) (idx := [1]) rfl (by decide)]
    simp [row, getInstance, getTarget, check, readZ, Outcome.read]

end Verif.Data
