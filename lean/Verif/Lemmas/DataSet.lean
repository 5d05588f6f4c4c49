import Verif.Spec.DataSet
import Verif.Lemmas.Prelude

/-! Helper lemmas about data set views. -/

namespace Verif.Data

open Outcome

variable {X T : Type}

theorem samples_append (s t : Store X T) (a : ℕ) (ha : a < s.length) :
    samples (s ++ t) a = samples s a := by
  induction a using Nat.strong_induction_on with
  | _ a ih =>
    rw [samples, samples]
    rw [List.getElem?_append_left ha]
    cases h : s[a]? with
    | none => rfl
    | some o =>
      cases o with
      | direct => rfl
      | view => rfl
      | weighted b o =>
        simp only
        by_cases hb : b < a
        · simp only [hb, if_true]; exact ih b hb (by omega)
        · simp [hb]

theorem getInstance_append (s t : Store X T) (a : ℕ) (ha : a < s.length) (i : ℤ) :
    getInstance (s ++ t) a i = getInstance s a i := by
  induction a using Nat.strong_induction_on generalizing i with
  | _ a ih =>
    rw [getInstance, getInstance]
    rw [List.getElem?_append_left ha]
    cases h : s[a]? with
    | none => rfl
    | some o =>
      cases o with
      | direct => rfl
      | view b o =>
        simp only
        by_cases hb : b < a
        · simp only [hb, if_true]; simp only [ih b hb (by omega)]
        · simp [hb]
      | weighted b o =>
        simp only
        by_cases hb : b < a
        · simp only [hb, if_true]; simp only [ih b hb (by omega)]
        · simp [hb]

theorem getTarget_append (s t : Store X T) (a : ℕ) (ha : a < s.length) (i : ℤ) :
    getTarget (s ++ t) a i = getTarget s a i := by
  induction a using Nat.strong_induction_on generalizing i with
  | _ a ih =>
    rw [getTarget, getTarget]
    rw [List.getElem?_append_left ha]
    cases h : s[a]? with
    | none => rfl
    | some o =>
      cases o with
      | direct _ o => cases o <;> rfl
      | view b o =>
        simp only
        by_cases hb : b < a
        · simp only [hb, if_true]; simp only [ih b hb (by omega)]
        · simp [hb]
      | weighted b o =>
        simp only
        by_cases hb : b < a
        · simp only [hb, if_true]; simp only [ih b hb (by omega)]
        · simp [hb]

theorem row_append (s t : Store X T) (a : ℕ) (ha : a < s.length) (i : ℤ) :
    row (s ++ t) a i = row s a i := by
  simp only [row, getInstance_append s t a ha, getTarget_append s t a ha]

theorem readZ_natCast {α : Type _} (l : List α) (i : ℕ) (h : i < l.length) :
    readZ l (i : ℤ) = ok l[i] := by
  simp [readZ, Outcome.read, h]

theorem samples_view {s : Store X T} {v b : ℕ} {idx : List ℤ}
    (h : s[v]? = some (.view b idx)) : samples s v = idx.length := by
  rw [samples, h]

theorem row_view {s : Store X T} {v b : ℕ} {idx : List ℤ}
    (h : s[v]? = some (.view b idx)) (hb : b < v) (i : ℕ) (hi : i < idx.length) :
    row s v (i : ℤ) = row s b idx[i] := by
  unfold row
  rw [getInstance, getTarget, h]
  have hc : (0 : ℤ) ≤ (i : ℤ) ∧ (i : ℤ) ≤ (idx.length : ℤ) - 1 := by omega
  simp only [hb, if_true, check_true hc, readZ_natCast idx i hi, ok_bind]

theorem readAll_view {s : Store X T} {v b : ℕ} {idx : List ℤ}
    (h : s[v]? = some (.view b idx)) (hb : b < v) :
    readAll s v = idx.map (row s b) := by
  unfold readAll
  rw [samples_view h]
  apply List.ext_getElem
  · simp
  · intro i h1 h2
    simp only [List.getElem_map, List.getElem_range]
    apply row_view h hb

theorem readAll_append (s t : Store X T) (a : ℕ) (ha : a < s.length) :
    readAll (s ++ t) a = readAll s a := by
  unfold readAll
  rw [samples_append s t a ha]
  simp only [row_append s t a ha]

theorem iota_length (n : ℕ) : (iota n).length = n := by simp [iota]

/-- A reordering of `0..n-1` is the image of a list of natural numbers. -/
theorem exists_positions {n : ℕ} {l : List ℤ} (h : l.Perm (iota n)) :
    ∃ pos : List ℕ, l = pos.map (fun i : ℕ => (i : ℤ)) ∧ pos.Perm (List.range n) := by
  refine ⟨l.map Int.toNat, ?_, ?_⟩
  · rw [List.map_map]
    conv_lhs => rw [← List.map_id l]
    apply List.map_congr_left
    intro x hx
    have : x ∈ iota n := h.subset hx
    simp only [iota, List.mem_map, List.mem_range] at this
    obtain ⟨k, _, rfl⟩ := this
    simp
  · have := h.map Int.toNat
    simpa [iota, List.map_map, Function.comp_def] using this

theorem shows_of_view {s' s : Store X T} {v a : ℕ} {pos : List ℕ}
    (h : s'[v]? = some (.view a (pos.map (fun i : ℕ => (i : ℤ))))) (hav : a < v)
    (hrow : ∀ i, row s' a i = row s a i) : Shows s' v s a pos := by
  refine ⟨by rw [samples_view h]; simp, ?_⟩
  rw [readAll_view h hav, List.map_map]
  apply List.map_congr_left
  intro x _
  simp [hrow]

/-- Cutting a list into `m` consecutive pieces of length `w`. -/
theorem flatten_pieces {α : Type _} (l : List α) (w m : ℕ) :
    ((List.range m).map (fun i => (l.drop (i * w)).take w)).flatten = l.take (m * w) := by
  induction m with
  | zero => simp
  | succ m ih =>
    rw [List.range_succ, List.map_append, List.flatten_append, ih]
    simp only [List.map_cons, List.map_nil, List.flatten_cons, List.flatten_nil, List.append_nil]
    rw [Nat.succ_mul, List.take_add]

theorem slice_ok {α : Type _} (l : List α) (b e : ℕ) (h1 : b ≤ e) (h2 : e ≤ l.length) :
    slice l (b : ℤ) (e : ℤ) = ok ((l.drop b).take (e - b)) := by
  unfold slice
  rw [if_pos (by omega)]
  congr 2
  omega

theorem samplesPerGroup_eq (n k : ℕ) :
    ⌊((Int.tdiv (n : ℤ) (k : ℤ) : ℤ) : ℚ) + 1 / 2⌋ = ((n / k : ℕ) : ℤ) := by
  have : Int.tdiv (n : ℤ) (k : ℤ) = ((n / k : ℕ) : ℤ) := by
    rw [Int.natCast_div]; exact Int.tdiv_eq_ediv_of_nonneg (by positivity)
  rw [this, Int.floor_eq_iff]
  constructor <;> push_cast <;> norm_num

/-- The list of positions given to group `i` of `k` by `split`. -/
def piece {α : Type _} (l : List α) (k i : ℕ) : List α :=
  if i < k - 1 then (l.drop (i * (l.length / k))).take (l.length / k)
  else l.drop (i * (l.length / k))

theorem flatten_piece {α : Type _} (l : List α) (k : ℕ) (hk : 0 < k) :
    ((List.range k).map (piece l k)).flatten = l := by
  obtain ⟨m, rfl⟩ : ∃ m, k = m + 1 := ⟨k - 1, by omega⟩
  rw [List.range_succ, List.map_append, List.flatten_append]
  have : (List.range m).map (piece l (m+1)) =
      (List.range m).map (fun i => (l.drop (i * (l.length / (m+1)))).take (l.length / (m+1))) := by
    apply List.map_congr_left
    intro i hi
    simp only [List.mem_range] at hi
    simp [piece, hi]
  rw [this, flatten_pieces]
  simp [piece]

theorem piece_length_of_lt {α : Type _} (l : List α) (k i : ℕ) (h : i < k - 1) :
    (piece l k i).length = l.length / k := by
  have h2 : (i + 1) * (l.length / k) ≤ l.length :=
    le_trans (Nat.mul_le_mul_right _ (by omega : i + 1 ≤ k)) (Nat.mul_div_le _ _)
  rw [Nat.succ_mul] at h2
  simp only [piece, h, if_true, List.length_take, List.length_drop]
  omega

theorem piece_map {α β : Type _} (f : α → β) (l : List α) (k i : ℕ) :
    piece (l.map f) k i = (piece l k i).map f := by
  unfold piece
  split <;> simp [List.map_drop, List.map_take]

/-- The loop of `split`. -/
theorem split_loop (σ : List ℤ → List ℤ) (s : Store X T) (groups : List ℕ) (a : ℕ)
    (k : ℕ) (hk : 1 < k) (shuffling : Bool) (order : List ℤ)
    (horder : order = if shuffling then σ (iota (samples s a)) else iota (samples s a))
    (hlen : order.length = samples s a) :
    split σ s groups a (k : ℤ) shuffling =
      ok (s ++ (List.range k).map (fun i => Obj.view a (piece order k i)),
          groups ++ (List.range k).map (fun i => s.length + i)) := by
  unfold split
  have hc : ((k : ℤ) > 1) := by exact_mod_cast hk
  rw [check_true hc]
  simp only [ok_bind, samplesPerGroup_eq, Int.toNat_natCast, ← horder]
  rw [← hlen]
  have key : ∀ m ≤ k, (List.range m).foldlM (fun (acc : Store X T × List ℕ) (i : ℕ) => do
      let it : ℤ := i * ((order.length / k : ℕ) : ℤ)
      let part ← (if (i : ℤ) < (k : ℤ) - 1 then slice order it (it + ((order.length / k : ℕ) : ℤ))
        else slice order it order.length)
      ok (acc.1 ++ [Obj.view a part], acc.2 ++ [acc.1.length])) (s, groups) =
      ok (s ++ (List.range m).map (fun i => Obj.view a (piece order k i)),
          groups ++ (List.range m).map (fun i => s.length + i)) := by
    intro m
    induction m with
    | zero => intro _; simp
    | succ m ih =>
      intro hm
      rw [List.range_succ, List.foldlM_append, ih (by omega)]
      simp only [ok_bind, List.foldlM_cons, List.foldlM_nil]
      have hpiece : (if (m : ℤ) < (k : ℤ) - 1 then
            slice order ((m : ℤ) * ((order.length / k : ℕ) : ℤ))
              ((m : ℤ) * ((order.length / k : ℕ) : ℤ) + ((order.length / k : ℕ) : ℤ))
          else slice order ((m : ℤ) * ((order.length / k : ℕ) : ℤ)) order.length)
          = ok (piece order k m) := by
        have h2 : (m + 1) * (order.length / k) ≤ order.length :=
          le_trans (Nat.mul_le_mul_right _ hm) (Nat.mul_div_le _ _)
        rw [Nat.succ_mul] at h2
        generalize hw : order.length / k = w at h2 ⊢
        by_cases hlt : m < k - 1
        · have hz : (m : ℤ) < (k : ℤ) - 1 := by omega
          rw [if_pos hz]
          have := slice_ok order (m * w) (m * w + w)
            (by omega) (by omega)
          push_cast at this ⊢
          rw [this]
          simp [piece, hlt, hw]
        · have hz : ¬ (m : ℤ) < (k : ℤ) - 1 := by omega
          rw [if_neg hz]
          have := slice_ok order (m * w) order.length (by omega) le_rfl
          push_cast at this ⊢
          rw [this]
          simp only [piece, hlt, if_false, hw]
          rw [List.take_of_length_le (by simp)]
      rw [hpiece]
      simp
  exact key k le_rfl

end Verif.Data

namespace Verif.Data

open Outcome

variable {X T : Type}

/-- Reading a data set only depends on the objects up to its address. -/
theorem samples_congr {s t : Store X T} (a : ℕ) (h : ∀ c ≤ a, s[c]? = t[c]?) :
    samples s a = samples t a := by
  induction a using Nat.strong_induction_on with
  | _ a ih =>
    rw [samples, samples, h a le_rfl]
    cases ht : t[a]? with
    | none => rfl
    | some o =>
      cases o with
      | direct => rfl
      | view => rfl
      | weighted b o =>
        simp only
        by_cases hb : b < a
        · simp only [hb, if_true]; exact ih b hb (fun c hc => h c (by omega))
        · simp [hb]

theorem row_congr {s t : Store X T} (a : ℕ) (h : ∀ c ≤ a, s[c]? = t[c]?) (i : ℤ) :
    row s a i = row t a i := by
  unfold row
  congr 1
  · induction a using Nat.strong_induction_on generalizing i with
    | _ a ih =>
      rw [getInstance, getInstance, h a le_rfl]
      cases ht : t[a]? with
      | none => rfl
      | some o =>
        cases o with
        | direct => rfl
        | view b o =>
          simp only
          by_cases hb : b < a
          · simp only [hb, if_true, ih b hb (fun c hc => h c (by omega))]
          · simp [hb]
        | weighted b o =>
          simp only
          by_cases hb : b < a
          · simp only [hb, if_true, ih b hb (fun c hc => h c (by omega))]
          · simp [hb]
  · induction a using Nat.strong_induction_on generalizing i with
    | _ a ih =>
      rw [getTarget, getTarget, h a le_rfl]
      cases ht : t[a]? with
      | none => rfl
      | some o =>
        cases o with
        | direct _ o => cases o <;> rfl
        | view b o =>
          simp only
          by_cases hb : b < a
          · simp only [hb, if_true, ih b hb (fun c hc => h c (by omega))]
          · simp [hb]
        | weighted b o =>
          simp only
          by_cases hb : b < a
          · simp only [hb, if_true, ih b hb (fun c hc => h c (by omega))]
          · simp [hb]

theorem row_set {s : Store X T} {m a : ℕ} (h : a < m) (o : Obj X T) (i : ℤ) :
    row (s.set m o) a i = row s a i :=
  row_congr a (fun c hc => by rw [List.getElem?_set_ne (by omega)]) i

/-- The indices of a view. -/
def idxOf (s : Store X T) (g : ℕ) : List ℤ :=
  match s[g]? with
  | some (.view _ idx) => idx
  | _ => []

theorem idxOf_set {s : Store X T} {m g : ℕ} (h : g ≠ m) (o : Obj X T) :
    idxOf (s.set m o) g = idxOf s g := by
  unfold idxOf
  rw [List.getElem?_set_ne (by omega)]

theorem merge_loop (s : Store X T) (m b : ℕ) (groups : List ℕ) (idx : List ℤ)
    (hm : s[m]? = some (.view b idx))
    (hg : ∀ g ∈ groups, g ≠ m ∧ ∃ idx', s[g]? = some (.view b idx')) :
    groups.foldlM (fun (s : Store X T) (g : ℕ) =>
      if g = m then ub else
      match s[m]?, s[g]? with
      | some (.view b idx), some (.view b' idx') => do
          check (b = b')
          ok (s.set m (.view b (idx ++ idx')))
      | _, _ => ub) s
      = ok (s.set m (.view b (idx ++ groups.flatMap (idxOf s)))) := by
  induction groups generalizing s idx with
  | nil =>
    simp only [List.foldlM_nil, List.flatMap_nil, List.append_nil]
    have : s.set m (.view b idx) = s := by
      apply List.ext_getElem?
      intro n
      by_cases h : m = n
      · subst h
        have hlt : m < s.length := by
          by_contra hc
          rw [List.getElem?_eq_none (by omega)] at hm
          cases hm
        rw [List.getElem?_set_self hlt, hm]
      · rw [List.getElem?_set_ne h]
    rw [this]; rfl
  | cons g gs ih =>
    obtain ⟨hne, idx', hidx'⟩ := hg g (by simp)
    rw [List.foldlM_cons]
    simp only [hne, if_false, hm, hidx']
    rw [check_true trivial]
    simp only [ok_bind]
    have hlt : m < s.length := by
      by_contra hc
      rw [List.getElem?_eq_none (by omega)] at hm
      cases hm
    rw [ih (s.set m (.view b (idx ++ idx'))) (idx ++ idx')
      (by rw [List.getElem?_set_self hlt])
      (by
        intro g' hg'
        obtain ⟨h1, i', h2⟩ := hg g' (by simp [hg'])
        exact ⟨h1, i', by rw [List.getElem?_set_ne (by omega)]; exact h2⟩)]
    simp only [List.set_set, List.flatMap_cons, List.append_assoc]
    congr 4
    have h1 : idxOf s g = idx' := by simp [idxOf, hidx']
    rw [h1]
    congr 1
    rw [List.flatMap_def, List.flatMap_def]
    congr 1
    apply List.map_congr_left
    intro g' hg'
    exact idxOf_set (hg g' (by simp [hg'])).1 _

theorem merge_ok (s : Store X T) (m b : ℕ) (groups : List ℕ) (idx : List ℤ)
    (hne : groups ≠ []) (hm : s[m]? = some (.view b idx))
    (hg : ∀ g ∈ groups, g ≠ m ∧ ∃ idx', s[g]? = some (.view b idx')) :
    merge s m groups = ok (s.set m (.view b (idx ++ groups.flatMap (idxOf s)))) := by
  unfold merge
  rw [check_true hne]
  simp only [ok_bind]
  exact merge_loop s m b groups idx hm hg

end Verif.Data
