import Verif.Model.ViewHistory
import Verif.Props.DataSetView

/-!
# C06, C07: views never index outside of their data set; subsampling
-/

namespace Verif.Data

open Outcome

variable {X T : Type}

/-- Every shuffle of the operation is a reordering. -/
def ViewOp.Fair {K : Type} : ViewOp K → Prop
  | .shuffle σ _ => IsShuffle σ
  | .split σ _ _ _ => IsShuffle σ
  | .splitRatio σ _ _ _ => IsShuffle σ
  | .sample σ _ _ _ _ => IsShuffle σ
  | _ => True

/-- The user starts with in-memory data sets that have as many targets as instances. -/
def InMemory (s : Store X T) : Prop :=
  ∀ o ∈ s, ∃ ins outs, o = .direct ins (some outs) ∧ ins.length = outs.length

private theorem foldlM_inv {α β : Type} (P : β → Prop) (f : β → α → Outcome β)
    (l : List α) (hf : ∀ b x b', x ∈ l → P b → f b x = ok b' → P b') (b b' : β) (hb : P b)
    (h : l.foldlM f b = ok b') : P b' := by
  induction l generalizing b with
  | nil => simp at h; exact h ▸ hb
  | cons x xs ih =>
    rw [List.foldlM_cons, bind_eq_ok] at h
    obtain ⟨c, hc, h⟩ := h
    exact ih (fun b x b' hx => hf b x b' (by simp [hx])) c (hf b x c (by simp) hb hc) h

private theorem slice_subset {α : Type} {l r : List α} {b e : ℤ} (h : slice l b e = ok r) :
    ∀ x ∈ r, x ∈ l := by
  unfold slice at h
  split at h
  · cases h
    intro x hx
    exact List.mem_of_mem_drop (List.mem_of_mem_take hx)
  · simp at h

/-- Invariant: views refer to older data sets and their indices are positions of these. -/
private def Inv (s0 s : Store X T) : Prop :=
  s0 <+: s ∧ ∀ v < s.length, s0.length ≤ v →
    ∃ b idx, s[v]? = some (.view b idx) ∧ b < v ∧ ∀ j ∈ idx, 0 ≤ j ∧ j < (samples s b : ℤ)

private theorem inv_append_view {s0 s : Store X T} (h : Inv s0 s) (a : ℕ) (ha : a < s.length)
    (idx : List ℤ) (hidx : ∀ j ∈ idx, 0 ≤ j ∧ j < (samples s a : ℤ)) :
    Inv s0 (s ++ [.view a idx]) := by
  refine ⟨h.1.trans (List.prefix_append _ _), ?_⟩
  intro v hv hv0
  by_cases hvs : v < s.length
  · obtain ⟨b, idx', h1, h2, h3⟩ := h.2 v hvs hv0
    refine ⟨b, idx', by rw [List.getElem?_append_left hvs]; exact h1, h2, ?_⟩
    rw [samples_append s _ b (by omega)]
    exact h3
  · have hvs' : v = s.length := by simp at hv; omega
    subst hvs'
    refine ⟨a, idx, by simp, ha, ?_⟩
    rw [samples_append s _ a ha]
    exact hidx

private theorem inv_set_view {s0 s : Store X T} (h : Inv s0 s) (h0 : InMemory s0) (v b : ℕ) (idx idx' : List ℤ)
    (hv : s[v]? = some (.view b idx)) (hlen : idx.length ≤ idx'.length)
    (hidx : ∀ j ∈ idx', 0 ≤ j ∧ j < (samples s b : ℤ)) :
    Inv s0 (s.set v (.view b idx')) := by
  have hvl : v < s.length := by
    rw [List.getElem?_eq_some_iff] at hv; exact hv.1
  have hv0 : s0.length ≤ v := by
    by_contra hc
    push Not at hc
    obtain ⟨e, rfl⟩ := h.1
    rw [List.getElem?_append_left hc] at hv
    obtain ⟨ins, outs, ho, _⟩ := h0 _ (List.mem_of_getElem? hv)
    cases ho
  have hs : ∀ c, c < s.length → samples s c ≤ samples (s.set v (.view b idx')) c := by
    intro c hc
    by_cases hcv : c = v
    · subst hcv
      rw [samples_view hv, samples_view (b := b) (idx := idx') (by simp [hc])]
      exact hlen
    · have hget : (s.set v (.view b idx'))[c]? = s[c]? := by
        rw [List.getElem?_set_ne (by omega)]
      by_cases hc0 : c < s0.length
      · obtain ⟨e, rfl⟩ := h.1
        have hmem : s0[c] ∈ s0 := List.getElem_mem hc0
        obtain ⟨ins, outs, ho, _⟩ := h0 _ hmem
        rw [samples, samples, hget, List.getElem?_append_left hc0, List.getElem?_eq_getElem hc0, ho]
      · obtain ⟨b', idx2, h1, _, _⟩ := h.2 c hc (by omega)
        rw [samples_view h1, samples_view (hget.trans h1)]
  refine ⟨?_, ?_⟩
  · obtain ⟨e, rfl⟩ := h.1
    rw [List.set_append_right _ _ hv0]
    exact List.prefix_append _ _
  · intro w hw hw0
    rw [List.length_set] at hw
    by_cases hwv : w = v
    · subst hwv
      obtain ⟨b2, idx2, h1, h2, _⟩ := h.2 w hw hw0
      rw [hv] at h1
      cases h1
      refine ⟨b, idx', by simp [hw], h2, fun j hj => ?_⟩
      have := hidx j hj
      have := hs b (by omega)
      omega
    · obtain ⟨b2, idx2, h1, h2, h3⟩ := h.2 w hw hw0
      refine ⟨b2, idx2, by rw [List.getElem?_set_ne (by omega)]; exact h1, h2, fun j hj => ?_⟩
      have := h3 j hj
      have := hs b2 (by omega)
      omega

private theorem mem_iota {n : ℕ} {j : ℤ} (h : j ∈ iota n) : 0 ≤ j ∧ j < (n : ℤ) := by
  simp only [iota, List.mem_map, List.mem_range] at h
  obtain ⟨i, hi, rfl⟩ := h
  omega

private theorem mem_shuffled {σ : List ℤ → List ℤ} (hσ : IsShuffle σ) {n : ℕ} {b : Bool} {j : ℤ}
    (h : j ∈ (if b then σ (iota n) else iota n)) : 0 ≤ j ∧ j < (n : ℤ) := by
  cases b
  · exact mem_iota (by simpa using h)
  · exact mem_iota ((hσ _).mem_iff.mp (by simpa using h))

private theorem inv_step {K : Type} [Field K] [LinearOrder K] [FloorRing K] {s0 s s' : Store X T}
    (h0 : InMemory s0) (h : Inv s0 s) (op : ViewOp K) (hop : op.Fair) (hs : viewStep s op = ok s') :
    Inv s0 s' := by
  cases op with
  | empty a =>
    simp only [viewStep] at hs
    split at hs
    · rename_i ha
      cases hs
      exact inv_append_view h a ha [] (by simp)
    · cases hs
  | copy v =>
    simp only [viewStep, copyView] at hs
    split at hs
    · rename_i b idx hv
      cases hs
      have hvl : v < s.length := by rw [List.getElem?_eq_some_iff] at hv; exact hv.1
      by_cases hv0 : s0.length ≤ v
      · obtain ⟨b2, idx2, h1, h2, h3⟩ := h.2 v hvl hv0
        rw [hv] at h1
        cases h1
        exact inv_append_view h b (by omega) idx h3
      · exfalso
        obtain ⟨e, rfl⟩ := h.1
        rw [List.getElem?_append_left (by omega)] at hv
        obtain ⟨ins, outs, ho, _⟩ := h0 _ (List.mem_of_getElem? hv)
        cases ho
    · cases hs
  | shuffle σ v =>
    simp only [viewStep, shuffle] at hs
    split at hs
    · rename_i b idx hv
      cases hs
      have hvl : v < s.length := by rw [List.getElem?_eq_some_iff] at hv; exact hv.1
      have hperm : (σ idx).Perm idx := hop idx
      by_cases hv0 : s0.length ≤ v
      · obtain ⟨b2, idx2, h1, h2, h3⟩ := h.2 v hvl hv0
        rw [hv] at h1
        cases h1
        exact inv_set_view h h0 v b idx (σ idx) hv hperm.length_eq.ge
          (fun j hj => h3 j (hperm.mem_iff.mp hj))
      · exfalso
        obtain ⟨e, rfl⟩ := h.1
        rw [List.getElem?_append_left (by omega)] at hv
        obtain ⟨ins, outs, ho, _⟩ := h0 _ (List.mem_of_getElem? hv)
        cases ho
    · cases hs
  | split σ a k sh =>
    simp only [viewStep] at hs
    split at hs
    · rename_i ha
      rw [bind_eq_ok] at hs
      obtain ⟨r, hr, hs⟩ := hs
      cases hs
      simp only [split] at hr
      rw [bind_eq_ok] at hr
      obtain ⟨_, _, hr⟩ := hr
      refine (foldlM_inv (fun acc : Store X T × List ℕ => Inv s0 acc.1 ∧ a < acc.1.length ∧
        samples acc.1 a = samples s a) _ _ ?_ _ _ ⟨h, ha, rfl⟩ hr).1
      rintro ⟨t, g⟩ i ⟨t', g'⟩ _ ⟨ht, hat, hsam⟩ hstep
      simp only at hstep ht hat hsam
      rw [bind_eq_ok] at hstep
      obtain ⟨part, hpart, hstep⟩ := hstep
      cases hstep
      refine ⟨inv_append_view ht a hat part ?_, by simp; omega, by rw [samples_append _ _ _ hat, hsam]⟩
      intro j hj
      rw [hsam]
      refine mem_shuffled hop (b := sh) ?_
      split at hpart
      · exact slice_subset hpart j hj
      · exact slice_subset hpart j hj
    · cases hs
  | splitRatio σ a ratio sh =>
    simp only [viewStep] at hs
    split at hs
    · rename_i ha
      rw [bind_eq_ok] at hs
      obtain ⟨r, hr, hs⟩ := hs
      cases hs
      simp only [splitRatio] at hr
      rw [bind_eq_ok] at hr
      obtain ⟨_, _, hr⟩ := hr
      rw [bind_eq_ok] at hr
      obtain ⟨p1, hp1, hr⟩ := hr
      rw [bind_eq_ok] at hr
      obtain ⟨p2, hp2, hr⟩ := hr
      cases hr
      have := inv_append_view (inv_append_view h a ha p1
        (fun j hj => mem_shuffled hop (b := sh) (slice_subset hp1 j hj))) a (by simp; omega) p2
        (fun j hj => by
          rw [samples_append _ _ _ ha]
          exact mem_shuffled hop (b := sh) (slice_subset hp2 j hj))
      simpa using this
    · cases hs
  | merge m groups =>
    simp only [viewStep, merge] at hs
    rw [bind_eq_ok] at hs
    obtain ⟨_, _, hs⟩ := hs
    refine foldlM_inv (fun t : Store X T => Inv s0 t) _ _ ?_ _ _ h hs
    intro t g t' _ ht hstep
    split at hstep
    · cases hstep
    · split at hstep
      · rename_i b idx b' idx' hm hg
        rw [bind_eq_ok] at hstep
        obtain ⟨_, hc, hstep⟩ := hstep
        cases hstep
        have hbb : b = b' := by
          by_contra hne
          rw [check_false hne] at hc
          cases hc
        subst hbb
        have key : ∀ (v b : ℕ) (idx : List ℤ), t[v]? = some (Obj.view b idx) → ∀ j ∈ idx, 0 ≤ j ∧ j < (samples t b : ℤ) := by
          intro v b idx hv
          have hvl : v < t.length := by rw [List.getElem?_eq_some_iff] at hv; exact hv.1
          by_cases hv0 : s0.length ≤ v
          · obtain ⟨b2, idx2, h1, h2, h3⟩ := ht.2 v hvl hv0
            rw [hv] at h1
            cases h1
            exact h3
          · exfalso
            obtain ⟨e, rfl⟩ := ht.1
            rw [List.getElem?_append_left (by omega)] at hv
            obtain ⟨ins, outs, ho, _⟩ := h0 _ (List.mem_of_getElem? hv)
            cases ho
        refine inv_set_view ht h0 m b idx (idx ++ idx') hm (by simp) ?_
        intro j hj
        rcases List.mem_append.mp hj with hj | hj
        · exact key m b idx hm j hj
        · exact key g b idx' hg j hj
      · cases hstep
  | sample σ rand a fraction repl =>
    simp only [viewStep] at hs
    split at hs
    · rename_i ha
      rw [bind_eq_ok] at hs
      obtain ⟨r, hr, hs⟩ := hs
      cases hs
      simp only [sample] at hr
      split at hr
      · cases hr
      · rw [bind_eq_ok] at hr
        obtain ⟨indices, hind, hr⟩ := hr
        rw [bind_eq_ok] at hr
        obtain ⟨part, hpart, hr⟩ := hr
        cases hr
        refine inv_append_view h a ha part (fun j hj => ?_)
        have hj' := slice_subset hpart j hj
        cases repl
        · simp only [Bool.false_eq_true, if_false, Rng.generateIndices, if_true, List.length_nil] at hind
          rw [check_true trivial] at hind
          simp only [ok_bind, List.nil_append] at hind
          cases hind
          exact mem_iota ((hop _).mem_iff.mp hj')
        · simp only [if_true] at hind
          -- the vector stays empty: the first write is undefined behaviour
          have : indices = [] := by
            refine foldlM_inv (fun v : List ℤ => v = []) _ _ ?_ _ _ rfl hind
            intro v n v' _ hv hst
            subst hv
            rw [bind_eq_ok] at hst
            obtain ⟨_, _, hst⟩ := hst
            simp [Outcome.write] at hst
          rw [this] at hj'
          cases hj'
    · cases hs

private theorem inv_rows {s0 s : Store X T} (h0 : InMemory s0) (h : Inv s0 s) (v : ℕ)
    (hv : v < s.length) :
    ∃ (d : ℕ) (ins : List X) (outs : List T), s0[d]? = some (Obj.direct ins (some outs)) ∧
      ∀ i : ℤ, (0 ≤ i ∧ i < (samples s v : ℤ) → ∃ (j : ℕ) (x : X) (t : T),
        ins[j]? = some x ∧ outs[j]? = some t ∧ getInstance s v i = ok x ∧ getTarget s v i = ok t) ∧
      (¬(0 ≤ i ∧ i < (samples s v : ℤ)) →
        getInstance s v i = checkFailed ∧ getTarget s v i = checkFailed) := by
  induction v using Nat.strong_induction_on with
  | _ v ih =>
    by_cases hv0 : v < s0.length
    · obtain ⟨e, rfl⟩ := h.1
      obtain ⟨ins, outs, ho, hlen⟩ := h0 _ (List.getElem_mem hv0)
      have hget0 : s0[v]? = some (.direct ins (some outs)) := by
        rw [List.getElem?_eq_getElem hv0, ho]
      have hget : (s0 ++ e)[v]? = some (.direct ins (some outs)) := by
        rw [List.getElem?_append_left hv0]; exact hget0
      have hsam : samples (s0 ++ e) v = ins.length := by rw [samples, hget]
      refine ⟨v, ins, outs, hget0, fun i => ⟨?_, ?_⟩⟩
      · rintro ⟨hi0, hi1⟩
        rw [hsam] at hi1
        obtain ⟨j, rfl⟩ := Int.eq_ofNat_of_zero_le hi0
        have hj : j < ins.length := by omega
        refine ⟨j, ins[j], outs[j], by simp [hj], by simp [hlen ▸ hj], ?_, ?_⟩
        · rw [getInstance, hget]
          simp only
          rw [check_true (by omega), ok_bind, readZ_natCast _ _ hj]
        · rw [getTarget, hget]
          simp only
          rw [check_true (by omega), ok_bind, readZ_natCast _ _ (by omega)]
      · intro hi
        rw [hsam] at hi
        rw [getInstance, getTarget, hget]
        simp only
        rw [check_false (by omega), check_false (by omega)]
        exact ⟨rfl, rfl⟩
    · obtain ⟨b, idx, h1, h2, h3⟩ := h.2 v hv (by omega)
      obtain ⟨d, ins, outs, hd, hrows⟩ := ih b h2 (by omega)
      have hsam : samples s v = idx.length := samples_view h1
      refine ⟨d, ins, outs, hd, fun i => ⟨?_, ?_⟩⟩
      · rintro ⟨hi0, hi1⟩
        rw [hsam] at hi1
        obtain ⟨k, rfl⟩ := Int.eq_ofNat_of_zero_le hi0
        have hk : k < idx.length := by omega
        obtain ⟨j, x, t, hx, ht, e1, e2⟩ := (hrows idx[k]).1 (h3 _ (List.getElem_mem hk))
        refine ⟨j, x, t, hx, ht, ?_, ?_⟩
        · rw [getInstance, h1]
          simp only
          rw [if_pos h2, check_true (by omega), ok_bind, readZ_natCast _ _ hk, ok_bind, e1]
        · rw [getTarget, h1]
          simp only
          rw [if_pos h2, check_true (by omega), ok_bind, readZ_natCast _ _ hk, ok_bind, e2]
      · intro hi
        rw [hsam] at hi
        rw [getInstance, getTarget, h1]
        simp only
        rw [if_pos h2, if_pos h2, check_false (by omega)]
        exact ⟨rfl, rfl⟩

/-- **C06.** Start with any in-memory data sets and perform any sequence of view operations with any fair shuffles.
Then every data set or view `v` of the resulting program state belongs to one of the in-memory data sets `d` such that every
position `0 ≤ i < samples(v)` delivers instance and target of one and the same row of `d`, and
every other position is rejected. -/
theorem views_stay_inside {K : Type} [Field K] [LinearOrder K] [FloorRing K] (s0 s : Store X T)
    (h0 : InMemory s0) (ops : List (ViewOp K)) (hfair : ∀ op ∈ ops, op.Fair)
    (hrun : viewRun s0 ops = ok s) (v : ℕ) (hv : v < s.length) :
    ∃ (d : ℕ) (ins : List X) (outs : List T), s0[d]? = some (Obj.direct ins (some outs)) ∧
      ∀ i : ℤ, (0 ≤ i ∧ i < (samples s v : ℤ) → ∃ (j : ℕ) (x : X) (t : T),
        ins[j]? = some x ∧ outs[j]? = some t ∧ getInstance s v i = ok x ∧ getTarget s v i = ok t) ∧
      (¬(0 ≤ i ∧ i < (samples s v : ℤ)) →
        getInstance s v i = checkFailed ∧ getTarget s v i = checkFailed) := by
  refine inv_rows h0 ?_ v hv
  refine foldlM_inv (fun t : Store X T => Inv s0 t) viewStep ops ?_ s0 s ?_ hrun
  · intro t op t' hop ht hstep
    exact inv_step h0 ht op (hfair op hop) hstep
  · exact ⟨List.prefix_rfl, fun v h1 h2 => absurd h1 (by omega)⟩

/-- A program that splits a data set of five rows into two shuffled groups, shuffles the first one, merges both
into a new view and draws a subsample meets the hypotheses of `views_stay_inside`. -/
example : ∃ s : Store ℕ ℕ,
    viewRun (K := ℚ) [.direct [10, 11, 12, 13, 14] (some [0, 1, 0, 1, 0])]
      [.split List.reverse 0 2 true, .shuffle List.reverse 1, .empty 0, .merge 3 [1, 2],
        .sample List.reverse (fun _ => 0) 3 (1 / 2) false] = ok s ∧ s.length = 5 ∧ samples s 4 = 3 := by
  have hc : ⌈((5 : ℕ) : ℚ) * (1 / 2)⌉ = 3 := by norm_num [Int.ceil_eq_iff]
  have hf : ⌊((2 : ℤ) : ℚ) + 1 / 2⌋ = 2 := by norm_num [Int.floor_eq_iff]
  refine ⟨[.direct [10, 11, 12, 13, 14] (some [0, 1, 0, 1, 0]), .view 0 [3, 4], .view 0 [2, 1, 0],
    .view 0 [3, 4, 2, 1, 0], .view 3 [4, 3, 2]], ?_, rfl, by simp [samples]⟩
  have h1 : viewStep (K := ℚ) ([.direct [10, 11, 12, 13, 14] (some [0, 1, 0, 1, 0])] : Store ℕ ℕ)
      (.split List.reverse 0 2 true) = ok [.direct [10, 11, 12, 13, 14] (some [0, 1, 0, 1, 0]),
        .view 0 [4, 3], .view 0 [2, 1, 0]] := by
    have : Int.tdiv ((5 : ℕ) : ℤ) 2 = 2 := by decide
    simp only [viewStep, split, samples, List.length_cons, List.length_nil, Nat.zero_lt_one, if_true,
      List.getElem?_cons_zero, Nat.zero_add, Nat.reduceAdd, this, hf]
    rfl
  have h5 : viewStep (K := ℚ) ([.direct [10, 11, 12, 13, 14] (some [0, 1, 0, 1, 0]), .view 0 [3, 4],
      .view 0 [2, 1, 0], .view 0 [3, 4, 2, 1, 0]] : Store ℕ ℕ)
      (.sample List.reverse (fun _ => 0) 3 (1 / 2) false) =
      ok [.direct [10, 11, 12, 13, 14] (some [0, 1, 0, 1, 0]), .view 0 [3, 4],
      .view 0 [2, 1, 0], .view 0 [3, 4, 2, 1, 0], .view 3 [4, 3, 2]] := by
    have hs : samples ([.direct [10, 11, 12, 13, 14] (some [0, 1, 0, 1, 0]), .view 0 [3, 4],
      .view 0 [2, 1, 0], .view 0 [3, 4, 2, 1, 0]] : Store ℕ ℕ) 3 = 5 := by simp [samples]
    simp only [viewStep, sample, hs, hc]
    rfl
  have h2 : viewStep (K := ℚ) ([.direct [10, 11, 12, 13, 14] (some [0, 1, 0, 1, 0]),
      .view 0 [4, 3], .view 0 [2, 1, 0]] : Store ℕ ℕ) (.shuffle List.reverse 1) =
      ok [.direct [10, 11, 12, 13, 14] (some [0, 1, 0, 1, 0]), .view 0 [3, 4], .view 0 [2, 1, 0]] := rfl
  have h3 : viewStep (K := ℚ) ([.direct [10, 11, 12, 13, 14] (some [0, 1, 0, 1, 0]),
      .view 0 [3, 4], .view 0 [2, 1, 0]] : Store ℕ ℕ) (.empty 0) =
      ok [.direct [10, 11, 12, 13, 14] (some [0, 1, 0, 1, 0]), .view 0 [3, 4], .view 0 [2, 1, 0],
        .view 0 []] := rfl
  have h4 : viewStep (K := ℚ) ([.direct [10, 11, 12, 13, 14] (some [0, 1, 0, 1, 0]),
      .view 0 [3, 4], .view 0 [2, 1, 0], .view 0 []] : Store ℕ ℕ) (.merge 3 [1, 2]) =
      ok [.direct [10, 11, 12, 13, 14] (some [0, 1, 0, 1, 0]), .view 0 [3, 4], .view 0 [2, 1, 0],
        .view 0 [3, 4, 2, 1, 0]] := rfl
  simp only [viewRun, List.foldlM_cons, List.foldlM_nil, h1, h2, h3, h4, h5, ok_bind, pure_eq]

/-- **C07, without replacement.** For every data set, every fraction in `[0, 1]` and every shuffle, `sample` yields a view of
`⌈n * fraction⌉` pairwise different positions of the data set. -/
theorem sample_without_replacement_partial {K : Type} [Field K] [LinearOrder K] [IsStrictOrderedRing K] [FloorRing K]
    (σ : List ℤ → List ℤ) (hσ : IsShuffle σ) (rand : ℕ → ℕ) (s : Store X T) (a : ℕ)
    (ha : a < s.length) (fraction : K) (h0 : 0 ≤ fraction) (h1 : fraction ≤ 1) :
    ∃ s' v pos, sample σ rand s a fraction false = ok (s', v) ∧ Unchanged s s' ∧
      Shows s' v s a pos ∧ pos.Nodup ∧ (∀ j ∈ pos, j < samples s a) ∧
      (pos.length : ℤ) = ⌈(samples s a : K) * fraction⌉ := by
  set n := samples s a with hn
  have hn0 : (0 : K) ≤ (n : K) := Nat.cast_nonneg n
  have hm0 : 0 ≤ ⌈(n : K) * fraction⌉ := Int.ceil_nonneg (mul_nonneg hn0 h0)
  have hm1 : ⌈(n : K) * fraction⌉ ≤ n := by
    rw [Int.ceil_le]
    push_cast
    nlinarith
  obtain ⟨m, hm⟩ := Int.eq_ofNat_of_zero_le hm0
  have hperm : (σ (iota n)).Perm (iota n) := hσ _
  obtain ⟨pos, hpos, hpp⟩ := exists_positions hperm
  have hlen : pos.length = n := by rw [hpp.length_eq]; simp
  refine ⟨s ++ [.view a ((pos.take m).map (fun j : ℕ => (j : ℤ)))], s.length, pos.take m, ?_,
    List.prefix_append _ _, ?_, ?_, ?_, ?_⟩
  · unfold sample
    simp only [← hn]
    rw [hm, if_neg (by omega)]
    simp only [Bool.false_eq_true, if_false, Rng.generateIndices, if_true, List.length_nil]
    rw [check_true trivial]
    simp only [ok_bind, List.nil_append]
    have : (List.map (fun i : ℕ => (i : ℤ)) (List.range n)) = iota n := rfl
    rw [this, hpos]
    have hs := slice_ok (pos.map (fun j : ℕ => (j : ℤ))) 0 m (by omega) (by simp; omega)
    simp only [Nat.cast_zero] at hs
    rw [hs]
    simp [List.map_take]
  · exact shows_of_view (by simp) ha (fun i => row_append s _ a ha i)
  · exact ((hpp.symm.nodup List.nodup_range)).sublist (List.take_sublist _ _)
  · intro j hj
    have := hpp.mem_iff.mp (List.mem_of_mem_take hj)
    simpa using this
  · rw [hm, List.length_take]
    omega

/-- **C07 fails with replacement.** Whenever at least one instance is requested from a data set, drawing with
replacement is undefined behaviour, whatever the random numbers are. -/
theorem sample_with_replacement_ub {K : Type} [Field K] [LinearOrder K] [IsStrictOrderedRing K] [FloorRing K]
    (σ : List ℤ → List ℤ) (rand : ℕ → ℕ) (s : Store X T) (a : ℕ) (fraction : K)
    (hn : 0 < samples s a) (h0 : 0 < fraction) :
    sample σ rand s a fraction true = ub := by
  have hn0 : (0 : K) < (samples s a : K) := by exact_mod_cast hn
  have hm0 : 0 < ⌈(samples s a : K) * fraction⌉ := Int.ceil_pos.mpr (mul_pos hn0 h0)
  unfold sample
  rw [if_neg (by omega)]
  obtain ⟨m, hm⟩ : ∃ m : ℕ, ⌈(samples s a : K) * fraction⌉.toNat = m + 1 :=
    ⟨⌈(samples s a : K) * fraction⌉.toNat - 1, by omega⟩
  simp only [if_true, hm]
  rw [List.range_succ_eq_map, List.foldlM_cons]
  have hg : ∃ z, Rng.generateIndex (rand 0) (samples s a) = ok z := by
    unfold Rng.generateIndex Rng.generateInt
    rw [check_true (by omega)]
    simp only [ok_bind]
    split <;> exact ⟨_, rfl⟩
  obtain ⟨z, hz⟩ := hg
  rw [hz]
  simp [Outcome.write]

/-- **C07 fails for fractions above one.** Without replacement, requesting more instances than there are reads
past the end of the index vector. -/
theorem sample_too_many_ub {K : Type} [Field K] [LinearOrder K] [FloorRing K]
    (σ : List ℤ → List ℤ) (hσ : IsShuffle σ) (rand : ℕ → ℕ) (s : Store X T) (a : ℕ) (fraction : K)
    (h : (samples s a : ℤ) < ⌈(samples s a : K) * fraction⌉) :
    sample σ rand s a fraction false = ub := by
  unfold sample
  rw [if_neg (by omega)]
  simp only [Bool.false_eq_true, if_false, Rng.generateIndices, if_true, List.length_nil]
  rw [check_true trivial]
  simp only [ok_bind, List.nil_append, slice]
  have hl : (σ ((List.range (samples s a)).map (fun i : ℕ => (i : ℤ)))).length = samples s a := by
    rw [(hσ _).length_eq]; simp
  rw [if_neg (by rw [hl]; omega)]
  rfl

/-- Half of a data set with three rows satisfies the hypotheses of `sample_without_replacement_partial` and
`sample_with_replacement_ub`, twice the data set those of `sample_too_many_ub`. -/
example : IsShuffle List.reverse ∧ 0 < samples ([.direct [1, 2, 3] none] : Store ℕ ℕ) 0 ∧
    (0 : ℚ) < 1 / 2 ∧ (1 : ℚ) / 2 ≤ 1 ∧ (3 : ℤ) < ⌈((3 : ℕ) : ℚ) * 2⌉ := by
  refine ⟨fun l => List.reverse_perm l, by simp [samples], by norm_num, by norm_num, ?_⟩
  rw [Int.lt_ceil]; norm_num

end Verif.Data
