import Verif.Model.SigmaPi
import Verif.Model.Fill
import Mathlib.Data.List.Nodup
import Mathlib.Data.List.Flatten
import Mathlib.Tactic.Linarith
import Mathlib.Tactic.Ring
import Mathlib.Tactic.NormNum

/-!
# C34: higher-order nodes enumerate all input combinations once
-/

namespace Verif.SigmaPi

open Outcome NN

noncomputable section

/-! ## Enumeration -/

def Order.num : Order → ℕ
  | .second => 2
  | .third => 3
  | .fourth => 4

/-- The increasing tuples of `k` numbers from `lo` on and below `I`. -/
def combos : ℕ → ℕ → ℕ → List (List ℕ)
  | 0, _, _ => [[]]
  | k + 1, lo, I => (List.range (I - lo)).flatMap fun j => (combos k (lo + j + 1) I).map fun t => (lo + j) :: t

theorem mem_combos (k lo I : ℕ) (t : List ℕ) :
    t ∈ combos k lo I ↔ t.length = k ∧ t.Pairwise (· < ·) ∧ ∀ x ∈ t, lo ≤ x ∧ x < I := by
  induction k generalizing lo t with
  | zero =>
    rw [combos, List.mem_singleton]
    constructor
    · rintro rfl
      simp
    · intro h
      exact List.length_eq_zero_iff.1 h.1
  | succ k ih =>
    simp only [combos, List.mem_flatMap, List.mem_range, List.mem_map]
    constructor
    · rintro ⟨j, hj, t', ht', rfl⟩
      obtain ⟨h1, h2, h3⟩ := (ih _ _).1 ht'
      refine ⟨by simp [h1], List.pairwise_cons.2 ⟨fun x hx => by have := h3 x hx; omega, h2⟩, fun x hx => ?_⟩
      rcases List.mem_cons.1 hx with rfl | hx
      · omega
      · have := h3 x hx
        omega
    · rintro ⟨h1, h2, h3⟩
      cases t with
      | nil => simp at h1
      | cons x t =>
        have hx := h3 x (List.mem_cons_self ..)
        obtain ⟨hp, h2⟩ := List.pairwise_cons.1 h2
        refine ⟨x - lo, by omega, t, (ih _ _).2 ⟨by simpa using h1, h2, fun y hy => ?_⟩, by rw [Nat.add_sub_cancel' hx.1]⟩
        have := hp y hy
        have := h3 y (List.mem_cons_of_mem _ hy)
        omega

theorem nodup_combos (k lo I : ℕ) : (combos k lo I).Nodup := by
  induction k generalizing lo with
  | zero => simp [combos]
  | succ k ih =>
    rw [combos, List.nodup_flatMap]
    refine ⟨fun j _ => (ih _).map fun a b h => (List.cons.inj h).2, ?_⟩
    refine (List.nodup_range).imp ?_
    intro i j hij
    rw [Function.onFun, List.disjoint_left]
    intro t h1 h2
    rw [List.mem_map] at h1 h2
    obtain ⟨a, _, rfl⟩ := h1
    obtain ⟨b, _, e⟩ := h2
    have := (List.cons.inj e).1
    omega

theorem combos_short (k lo I : ℕ) (h : I < lo + (k + 1)) : combos (k + 1) lo I = [] := by
  rw [List.eq_nil_iff_forall_not_mem]
  intro t ht
  obtain ⟨h1, h2, h3⟩ := (mem_combos _ _ _ _).1 ht
  have hlen : t.length ≤ I - lo := by
    have hsub : (t.map fun x => x - lo).Nodup := by
      refine (List.nodup_map_iff_inj_on (h2.imp fun h => h.ne)).2 ?_
      intro x hx y hy hxy
      have := h3 x hx
      have := h3 y hy
      omega
    have : (t.map fun x => x - lo) ⊆ List.range (I - lo) := by
      intro x hx
      rw [List.mem_map] at hx
      obtain ⟨y, hy, rfl⟩ := hx
      have := h3 y hy
      rw [List.mem_range]
      omega
    have := (List.subperm_of_subset hsub this).length_le
    simpa using this
  omega

/-- The loops may stop when not enough numbers are left. -/
theorem combos_trim (k lo I m : ℕ) (h1 : I - lo - k ≤ m) (h2 : m ≤ I - lo) :
    combos (k + 1) lo I = (List.range m).flatMap fun j => (combos k (lo + j + 1) I).map fun t => (lo + j) :: t := by
  obtain ⟨d, hd⟩ : ∃ d, I - lo = m + d := ⟨I - lo - m, by omega⟩
  rw [combos, hd, List.range_add, List.flatMap_append]
  have hempty : ((List.range d).map (m + ·)).flatMap (fun j => (combos k (lo + j + 1) I).map fun t => (lo + j) :: t) = [] := by
    rw [List.flatMap_eq_nil_iff]
    intro j hj
    rw [List.mem_map] at hj
    obtain ⟨i, hi, rfl⟩ := hj
    rw [List.mem_range] at hi
    cases k with
    | zero => omega
    | succ k => rw [combos_short _ _ _ (by omega), List.map_nil]
  rw [hempty, List.append_nil]

section

variable {τ : Type}

/-- Adding the units for a list of positions. -/
def runAll (c : Constraint τ) : List (List ℕ) → Building τ → Outcome (Building τ)
  | [], b => ok b
  | t :: ts, b => addUnit c t b >>= runAll c ts

theorem runAll_append (c : Constraint τ) (s t : List (List ℕ)) (b : Building τ) :
    runAll c (s ++ t) b = runAll c s b >>= runAll c t := by
  induction s generalizing b with
  | nil => rfl
  | cons x s ih =>
    simp only [List.cons_append, runAll, bind_assoc]
    congr 1
    funext b'
    exact ih b'

theorem loop_combos (c : Constraint τ) (k lo I m : ℕ) (pre : List ℕ) (body : ℕ → Building τ → Outcome (Building τ))
    (h1 : I - lo - k ≤ m) (h2 : m ≤ I - lo)
    (hb : ∀ j < m, ∀ b, body j b = runAll c ((combos k (lo + j + 1) I).map fun t => pre ++ ((lo + j) :: t)) b) (b : Building τ) :
    forLoop m body b = runAll c ((combos (k + 1) lo I).map fun t => pre ++ t) b := by
  rw [combos_trim k lo I m h1 h2]
  clear h1 h2
  induction m with
  | zero => rfl
  | succ m ih =>
    rw [forLoop, ih fun j hj => hb j (Nat.lt_succ_of_lt hj), List.range_succ, List.flatMap_append, List.map_append, runAll_append]
    congr 1
    funext b'
    rw [hb m (Nat.lt_succ_self m)]
    simp [Function.comp_def]

theorem loop_last (c : Constraint τ) (lo I : ℕ) (pre : List ℕ) (b : Building τ) :
    forLoop (I - lo) (fun j => addUnit c (pre ++ [lo + j])) b = runAll c ((combos 1 lo I).map fun t => pre ++ t) b := by
  refine loop_combos c 0 lo I (I - lo) pre _ (by omega) le_rfl (fun j _ b => ?_) b
  simp only [combos, List.map_cons, List.map_nil, runAll]
  cases addUnit c (pre ++ [lo + j]) b <;> rfl

theorem units_eq (o : Order) (c : Constraint τ) (I : ℕ) (b : Building τ) : units o c I b = runAll c (combos o.num 0 I) b := by
  have hid : ∀ L : List (List ℕ), (L.map fun t => [] ++ t) = L := fun L => by simp
  cases o with
  | second =>
    have := loop_combos c 1 0 I (I - 1) [] (fun p1 => forLoop (I - (p1 + 1)) fun k2 => addUnit c [p1, p1 + 1 + k2]) (by omega) (by omega)
      (fun j _ b => by
        rw [Nat.zero_add]
        exact loop_last c (j + 1) I [j] b |>.trans (by rfl)) b
    rw [hid] at this
    exact this
  | third =>
    have := loop_combos c 2 0 I (I - 2) [] (fun p1 => forLoop (I - 1 - (p1 + 1)) fun k2 =>
      forLoop (I - (p1 + 1 + k2 + 1)) fun k3 => addUnit c [p1, p1 + 1 + k2, p1 + 1 + k2 + 1 + k3]) (by omega) (by omega)
      (fun j _ b => by
        rw [Nat.zero_add]
        exact loop_combos c 1 (j + 1) I _ [j] _ (by omega) (by omega) (fun k _ b =>
          loop_last c (j + 1 + k + 1) I [j, j + 1 + k] b) b) b
    rw [hid] at this
    exact this
  | fourth =>
    have := loop_combos c 3 0 I (I - 3) [] (fun p1 => forLoop (I - 2 - (p1 + 1)) fun k2 =>
      forLoop (I - 1 - (p1 + 1 + k2 + 1)) fun k3 =>
        forLoop (I - (p1 + 1 + k2 + 1 + k3 + 1)) fun k4 =>
          addUnit c [p1, p1 + 1 + k2, p1 + 1 + k2 + 1 + k3, p1 + 1 + k2 + 1 + k3 + 1 + k4]) (by omega) (by omega)
      (fun j _ b => by
        rw [Nat.zero_add]
        exact loop_combos c 2 (j + 1) I _ [j] _ (by omega) (by omega) (fun k _ b =>
          loop_combos c 1 (j + 1 + k + 1) I _ [j, j + 1 + k] _ (by omega) (by omega) (fun i _ b =>
            loop_last c (j + 1 + k + 1 + i + 1) I [j, j + 1 + k, j + 1 + k + 1 + i] b) b) b) b
    rw [hid] at this
    exact this

/-! ## Weights -/

theorem find_ok (w : List ℝ) (r : ℝ) (us : Neuron) (h : ∀ u ∈ us, u.weight < w.length) : ∃ o, find w r us = ok o := by
  induction us with
  | nil => exact ⟨none, rfl⟩
  | cons u us ih =>
    rw [find, read_of_lt (h u (List.mem_cons_self ..)), ok_bind]
    split
    · exact ⟨_, rfl⟩
    · exact ih fun v hv => h v (List.mem_cons_of_mem _ hv)

theorem find_some {w : List ℝ} {r : ℝ} {us : Neuron} {k : ℕ} (h : find w r us = ok (some k)) :
    (∃ u ∈ us, u.weight = k) ∧ ∃ v, w[k]? = some v ∧ |v - r| < 0.001 := by
  induction us with
  | nil => cases h
  | cons u us ih =>
    rw [find, bind_eq_ok] at h
    obtain ⟨v, hv, h⟩ := h
    split at h
    · next hc =>
      cases h
      exact ⟨⟨u, List.mem_cons_self .., rfl⟩, v, read_eq_ok.1 hv, hc⟩
    · obtain ⟨⟨u', h1, h2⟩, h3⟩ := ih h
      exact ⟨⟨u', List.mem_cons_of_mem _ h1, h2⟩, h3⟩

theorem find_append_some {w : List ℝ} {r : ℝ} {us : Neuron} {k : ℕ} (h : find w r us = ok (some k)) (vs : Neuron) :
    find w r (us ++ vs) = ok (some k) := by
  induction us with
  | nil => cases h
  | cons u us ih =>
    rw [find, bind_eq_ok] at h
    obtain ⟨v, hv, h⟩ := h
    rw [List.cons_append, find, hv, ok_bind]
    split at h
    · next hc => rw [if_pos hc]; exact h
    · next hc => rw [if_neg hc]; exact ih h

theorem find_append_none {w : List ℝ} {r : ℝ} {us : Neuron} (h : find w r us = ok none) (vs : Neuron) :
    find w r (us ++ vs) = find w r vs := by
  induction us with
  | nil => rfl
  | cons u us ih =>
    rw [find, bind_eq_ok] at h
    obtain ⟨v, hv, h⟩ := h
    rw [List.cons_append, find, hv, ok_bind]
    split at h
    · cases h
    · next hc => rw [if_neg hc]; exact ih h

theorem find_extend (w : List ℝ) (x r : ℝ) (us : Neuron) (h : ∀ u ∈ us, u.weight < w.length) : find (w ++ [x]) r us = find w r us := by
  induction us with
  | nil => rfl
  | cons u us ih =>
    have hu := h u (List.mem_cons_self ..)
    rw [find, find, read_of_lt hu, read_of_lt (by simp; omega), List.getElem_append_left hu, ok_bind, ok_bind]
    split
    · rfl
    · exact ih fun v hv => h v (List.mem_cons_of_mem _ hv)

/-- Specification: the values of the constraint for a list of units, in order. -/
def refs (c : Constraint τ) : τ → List (List ℕ) → Outcome (List ℝ × τ)
  | s, [] => ok ([], s)
  | s, t :: ts => do
    let r ← c.eval s t
    let rest ← refs c r.2 ts
    ok (r.1 :: rest.1, rest.2)

/-- A neuron that was built for the units `ts` with the values `rs` of the constraint after the weights `w0`. -/
structure Built (w0 : List ℝ) (ts : List (List ℕ)) (rs : List ℝ) (b : Building τ) : Prop where
  positions : b.neuron.map HOUnit.position = ts
  length : rs.length = ts.length
  old : w0 <+: b.w
  own : ∀ u ∈ b.neuron, w0.length ≤ u.weight ∧ u.weight < b.w.length
  first : ∀ (i : ℕ) (u : HOUnit) (r : ℝ), b.neuron[i]? = some u → rs[i]? = some r → find b.w r b.neuron = ok (some u.weight)
  value : ∀ (k : ℕ) (v : ℝ), w0.length ≤ k → b.w[k]? = some v →
    ∃ (i : ℕ) (u : HOUnit), b.neuron[i]? = some u ∧ u.weight = k ∧ rs[i]? = some v

theorem Built.step {c : Constraint τ} (hc : c.isDefault = false) {w0 : List ℝ} {ts : List (List ℕ)} {rs : List ℝ} {b : Building τ}
    (h : Built w0 ts rs b) {t : List ℕ} {r : ℝ} {s' : τ} (he : c.eval b.state t = ok (r, s')) :
    ∃ b', addUnit c t b = ok b' ∧ Built w0 (ts ++ [t]) (rs ++ [r]) b' ∧ b'.state = s' ∧ (b.wd.length = b.w.length → b'.wd.length = b'.w.length) := by
  have hn : b.neuron.length = rs.length := by rw [h.length, ← h.positions, List.length_map]
  obtain ⟨o, ho⟩ := find_ok b.w r b.neuron fun u hu => (h.own u hu).2
  have last : ∀ {α : Type} (l : List α) (x y : α) (i : ℕ), (l ++ [x])[i]? = some y → i < l.length ∧ l[i]? = some y ∨ i = l.length ∧ y = x := by
    intro α l x y i hi
    rcases lt_trichotomy i l.length with hlt | heq | hgt
    · left
      rw [List.getElem?_append_left hlt] at hi
      exact ⟨hlt, hi⟩
    · right
      subst heq
      simp at hi
      exact ⟨rfl, hi.symm⟩
    · rw [List.getElem?_eq_none (by simp; omega)] at hi
      cases hi
  cases o with
  | none =>
    refine ⟨ownWeight b t r s', ?_, ⟨?_, ?_, ?_, ?_, ?_, ?_⟩, rfl, fun hw => by simp [ownWeight, hw]⟩
    · rw [addUnit, hc, if_neg (by simp), he, ok_bind, ho, ok_bind]
    · simp [ownWeight, h.positions]
    · simp [h.length]
    · exact h.old.trans (List.prefix_append _ _)
    · intro u hu
      simp only [ownWeight, List.mem_append, List.mem_singleton] at hu
      simp only [ownWeight, List.length_append, List.length_singleton]
      rcases hu with hu | rfl
      · have := h.own u hu
        omega
      · have := h.old.length_le
        simp only
        omega
    · intro i u r' hu hr'
      simp only [ownWeight] at hu ⊢
      have hlt : ∀ u ∈ b.neuron, u.weight < b.w.length := fun u hu => (h.own u hu).2
      rcases last _ _ _ _ hu with ⟨hi, hu⟩ | ⟨hi, rfl⟩
      · rw [List.getElem?_append_left (by omega)] at hr'
        refine find_append_some ?_ _
        rw [find_extend b.w r r' b.neuron hlt]
        exact h.first i u r' hu hr'
      · have : r' = r := by
          rw [hi, hn] at hr'
          simp at hr'
          exact hr'.symm
        subst this
        rw [find_append_none (by rw [find_extend b.w r' r' b.neuron hlt]; exact ho), find, read_of_lt (by simp), ok_bind]
        rw [if_pos (by norm_num)]
    · intro k v hk hv
      simp only [ownWeight] at hv ⊢
      rcases last _ _ _ _ hv with ⟨hi, hv⟩ | ⟨hi, rfl⟩
      · obtain ⟨i, u, h1, h2, h3⟩ := h.value k v hk hv
        exact ⟨i, u, by rw [List.getElem?_append_left (List.getElem?_eq_some_iff.1 h1).1]; exact h1, h2, by
          rw [List.getElem?_append_left (List.getElem?_eq_some_iff.1 h3).1]; exact h3⟩
      · exact ⟨b.neuron.length, ⟨t, b.w.length⟩, by simp, hi.symm, by rw [hn]; simp⟩
  | some k =>
    refine ⟨sharedWeight b t k s', ?_, ⟨?_, ?_, h.old, ?_, ?_, ?_⟩, rfl, fun hw => hw⟩
    · rw [addUnit, hc, if_neg (by simp), he, ok_bind, ho, ok_bind]
    · simp [sharedWeight, h.positions]
    · simp [h.length]
    · intro u hu
      simp only [sharedWeight, List.mem_append, List.mem_singleton] at hu
      rcases hu with hu | rfl
      · exact h.own u hu
      · obtain ⟨⟨u', h1, h2⟩, _⟩ := find_some ho
        have := h.own u' h1
        rw [h2] at this
        exact this
    · intro i u r' hu hr'
      simp only [sharedWeight] at hu ⊢
      rcases last _ _ _ _ hu with ⟨hi, hu⟩ | ⟨hi, rfl⟩
      · rw [List.getElem?_append_left (by omega)] at hr'
        exact find_append_some (h.first i u r' hu hr') _
      · have : r' = r := by
          rw [hi, hn] at hr'
          simp at hr'
          exact hr'.symm
        subst this
        exact find_append_some ho _
    · intro j v hj hv
      obtain ⟨i, u, h1, h2, h3⟩ := h.value j v hj hv
      exact ⟨i, u, by
        simp only [sharedWeight]
        rw [List.getElem?_append_left (List.getElem?_eq_some_iff.1 h1).1]; exact h1, h2, by
        rw [List.getElem?_append_left (List.getElem?_eq_some_iff.1 h3).1]; exact h3⟩

theorem Built.run {c : Constraint τ} (hc : c.isDefault = false) {w0 : List ℝ} (ts' : List (List ℕ)) {ts : List (List ℕ)} {rs rs' : List ℝ}
    {b : Building τ} {s' : τ} (h : Built w0 ts rs b) (he : refs c b.state ts' = ok (rs', s')) (hw : b.wd.length = b.w.length) :
    ∃ b', runAll c ts' b = ok b' ∧ Built w0 (ts ++ ts') (rs ++ rs') b' ∧ b'.state = s' ∧ b'.wd.length = b'.w.length := by
  induction ts' generalizing ts rs rs' b with
  | nil =>
    cases he
    exact ⟨b, rfl, by simpa using h, rfl, hw⟩
  | cons t ts' ih =>
    rw [refs, bind_eq_ok] at he
    obtain ⟨r, h1, he⟩ := he
    rw [bind_eq_ok] at he
    obtain ⟨rest, h2, he⟩ := he
    cases he
    obtain ⟨b1, e1, f1, s1, w1⟩ := h.step hc h1
    obtain ⟨b2, e2, f2, s2, w2⟩ := ih f1 (by rw [s1]; exact h2) (w1 hw)
    exact ⟨b2, by rw [runAll, e1, ok_bind, e2], by simpa using f2, s2, w2⟩

/-- If a neuron is built, the constraint has answered all calls. -/
theorem runAll_refs {c : Constraint τ} (hc : c.isDefault = false) (ts : List (List ℕ)) {b b' : Building τ} (h : runAll c ts b = ok b') :
    ∃ rs s', refs c b.state ts = ok (rs, s') := by
  induction ts generalizing b with
  | nil => exact ⟨_, _, rfl⟩
  | cons t ts ih =>
    rw [runAll, bind_eq_ok] at h
    obtain ⟨b1, h1, h2⟩ := h
    obtain ⟨rs, s', hr⟩ := ih h2
    rw [addUnit, hc, if_neg (by simp), bind_eq_ok] at h1
    obtain ⟨r, h3, h1⟩ := h1
    rw [bind_eq_ok] at h1
    obtain ⟨o, h4, h1⟩ := h1
    have hs : b1.state = r.2 := by cases o <;> cases h1 <;> rfl
    rw [hs] at hr
    exact ⟨r.1 :: rs, s', by rw [refs, h3, ok_bind, hr, ok_bind]⟩

theorem refs_append (c : Constraint τ) (s : τ) (ts us : List (List ℕ)) {rs vs : List ℝ} {s1 s2 : τ}
    (h1 : refs c s ts = ok (rs, s1)) (h2 : refs c s1 us = ok (vs, s2)) : refs c s (ts ++ us) = ok (rs ++ vs, s2) := by
  induction ts generalizing s rs with
  | nil =>
    cases h1
    exact h2
  | cons t ts ih =>
    rw [refs, bind_eq_ok] at h1
    obtain ⟨r, h3, h1⟩ := h1
    rw [bind_eq_ok] at h1
    obtain ⟨rest, h4, h1⟩ := h1
    cases h1
    rw [List.cons_append, refs, h3, ok_bind, ih r.2 h4, ok_bind]
    rfl

theorem Built.start (b : Building τ) (h : b.neuron = []) : Built b.w [] [] b :=
  ⟨by simp [h], rfl, List.prefix_refl _, by simp [h], by simp [h], fun k v hk hv => by
    have := (List.getElem?_eq_some_iff.1 hv).1
    omega⟩

/-- Specification of weight sharing in one neuron: `rs` are the values of the constraint for the units. -/
structure Shares (neuron : Neuron) (rs : List ℝ) : Prop where
  length : rs.length = neuron.length
  equal : ∀ (i j : ℕ) (u v : HOUnit) (r : ℝ), neuron[i]? = some u → neuron[j]? = some v → rs[i]? = some r → rs[j]? = some r →
    u.weight = v.weight
  close : ∀ (i j : ℕ) (u v : HOUnit) (r s : ℝ), neuron[i]? = some u → neuron[j]? = some v → rs[i]? = some r → rs[j]? = some s →
    u.weight = v.weight → |r - s| < 0.002
  separated : (∀ r ∈ rs, ∀ s ∈ rs, |r - s| < 0.001 → r = s) →
    ∀ (i j : ℕ) (u v : HOUnit) (r s : ℝ), neuron[i]? = some u → neuron[j]? = some v → rs[i]? = some r → rs[j]? = some s →
      (u.weight = v.weight ↔ r = s)

theorem Built.shares {w0 : List ℝ} {ts : List (List ℕ)} {rs : List ℝ} {b : Building τ} (h : Built w0 ts rs b) : Shares b.neuron rs := by
  have heq : ∀ (i j : ℕ) (u v : HOUnit) (r : ℝ), b.neuron[i]? = some u → b.neuron[j]? = some v → rs[i]? = some r → rs[j]? = some r →
      u.weight = v.weight := by
    intro i j u v r hu hv hi hj
    have h1 := h.first i u r hu hi
    have h2 := h.first j v r hv hj
    rw [h1] at h2
    injection h2 with h2
    injection h2
  refine ⟨by rw [h.length, ← h.positions, List.length_map], heq, ?_, ?_⟩
  · intro i j u v r s hu hv hr hs hw
    obtain ⟨_, x, h1, h2⟩ := find_some (h.first i u r hu hr)
    obtain ⟨_, y, h3, h4⟩ := find_some (h.first j v s hv hs)
    rw [hw, h3] at h1
    cases h1
    rw [abs_lt] at *
    constructor <;> norm_num at * <;> linarith
  · intro hsep i j u v r s hu hv hr hs
    constructor
    · intro hw
      obtain ⟨_, x, h1, h2⟩ := find_some (h.first i u r hu hr)
      obtain ⟨_, y, h3, h4⟩ := find_some (h.first j v s hv hs)
      rw [hw, h3] at h1
      cases h1
      obtain ⟨k, _, _, _, hk⟩ := h.value v.weight x (h.own v (List.mem_of_getElem? hv)).1 h3
      have e1 := hsep x (List.mem_of_getElem? hk) r (List.mem_of_getElem? hr) h2
      have e2 := hsep x (List.mem_of_getElem? hk) s (List.mem_of_getElem? hs) h4
      rw [← e1, ← e2]
    · rintro rfl
      exact heq i j u v r hu hv hr hs

/-! ## Layers -/

/-- What is true of every layer that was built by the methods of the class. -/
structure Layer.Valid (l : Layer) : Prop where
  wd : l.wd.length = l.w.length
  bound : ∀ neuron ∈ l.nodes, ∀ u ∈ neuron, u.weight < l.w.length
  disjoint : l.nodes.Pairwise fun a b => ∀ u ∈ a, ∀ v ∈ b, u.weight ≠ v.weight

/-- Specification: the positions of a neuron are the sets of `k` numbers below `I`, in increasing order, each exactly once. -/
def Enumerates (k I : ℕ) (neuron : Neuron) : Prop :=
  (neuron.map HOUnit.position).Nodup ∧
    ∀ t, t ∈ neuron.map HOUnit.position ↔ t.length = k ∧ t.Pairwise (· < ·) ∧ ∀ x ∈ t, x < I

theorem enumerates_of {o : Order} {I : ℕ} {neuron : Neuron} (h : neuron.map HOUnit.position = combos o.num 0 I) :
    Enumerates o.num I neuron := by
  refine ⟨by rw [h]; exact nodup_combos _ _ _, fun t => ?_⟩
  rw [h, mem_combos]
  simp

/-- The weights after adding default units. -/
theorem runAll_default {c : Constraint τ} (hc : c.isDefault = true) (ts : List (List ℕ)) (b : Building τ) :
    runAll c ts b = ok ⟨b.w ++ List.replicate ts.length 0, b.wd ++ List.replicate ts.length 0,
      b.neuron ++ ts.mapIdx fun i t => ⟨t, b.w.length + i⟩, b.state⟩ := by
  induction ts generalizing b with
  | nil => simp [runAll]
  | cons t ts ih =>
    rw [runAll, addUnit, hc, if_pos rfl, ok_bind, ih]
    simp only [ownWeight, List.length_append, List.length_cons, List.length_nil, List.replicate_succ, List.append_assoc,
      List.mapIdx_cons, List.singleton_append, Nat.add_zero, Nat.zero_add]
    congr 4
    refine List.mapIdx_eq_mapIdx_iff.2 fun i hi => ?_
    rw [Nat.add_assoc, Nat.add_comm 1 i]

/-- What adding one neuron does. -/
structure Added (o : Order) (c : Constraint τ) (l l' : Layer) (s s' : τ) (neuron : Neuron) : Prop where
  inputs : l'.inputs = l.inputs
  bias : l'.bias = l.bias
  act : l'.act = l.act
  nodes : l'.nodes = l.nodes ++ [neuron]
  positions : neuron.map HOUnit.position = combos o.num 0 l.width
  wd : l'.wd.length = l'.w.length
  old : l.w <+: l'.w
  own : ∀ u ∈ neuron, l.w.length ≤ u.weight ∧ u.weight < l'.w.length
  default : c.isDefault = true → (neuron.map HOUnit.weight).Nodup
  shares : c.isDefault = false → ∃ rs, refs c s (combos o.num 0 l.width) = ok (rs, s') ∧ Shares neuron rs

theorem addNode_added (o : Order) (c : Constraint τ) {l : Layer} (hl : l.wd.length = l.w.length) {s : τ} {l' : Layer} {s' : τ}
    (h : addNode o c (l, s) = ok (l', s')) : ∃ neuron, Added o c l l' s s' neuron := by
  rw [addNode, units_eq, bind_eq_ok] at h
  obtain ⟨b, hb, h⟩ := h
  cases h
  cases hc : c.isDefault with
  | true =>
    rw [runAll_default hc] at hb
    cases hb
    refine ⟨_, ⟨rfl, rfl, rfl, rfl, ?_, by simp [hl], by simp, ?_, fun _ => ?_, fun h => by rw [hc] at h; cases h⟩⟩
    · simp only [List.nil_append]
      refine List.ext_getElem (by simp) fun i h1 h2 => by simp
    · intro u hu
      simp only [List.nil_append, List.mem_mapIdx] at hu
      obtain ⟨i, hi, rfl⟩ := hu
      simp
      omega
    · simp only [List.nil_append]
      rw [List.nodup_iff_injective_getElem]
      intro a b hab
      simp only [List.getElem_map, List.getElem_mapIdx] at hab
      exact Fin.ext (by omega)
  | false =>
    obtain ⟨rs, s1, hr⟩ := runAll_refs hc _ hb
    obtain ⟨b', e, f, g, hwd⟩ := (Built.start (⟨l.w, l.wd, [], s⟩ : Building τ) rfl).run hc (combos o.num 0 l.width) hr hl
    rw [hb] at e
    cases e
    refine ⟨b.neuron, ⟨rfl, rfl, rfl, rfl, by simpa using f.positions, hwd, f.old, f.own, fun h => ?_, fun _ => ?_⟩⟩
    · rw [hc] at h; cases h
    exact ⟨rs, by rw [hr, g], by simpa using f.shares⟩

theorem Added.valid {o : Order} {c : Constraint τ} {l l' : Layer} {s s' : τ} {neuron : Neuron} (h : Added o c l l' s s' neuron)
    (hl : l.Valid) : l'.Valid := by
  refine ⟨h.wd, ?_, ?_⟩
  · intro n hn u hu
    rw [h.nodes, List.mem_append, List.mem_singleton] at hn
    rcases hn with hn | rfl
    · exact (hl.bound n hn u hu).trans_le h.old.length_le
    · exact (h.own u hu).2
  · rw [h.nodes, List.pairwise_append]
    refine ⟨hl.disjoint, List.pairwise_singleton _ _, fun a ha b hb u hu v hv => ?_⟩
    rw [List.mem_singleton] at hb
    subst hb
    have := hl.bound a ha u hu
    have := (h.own v hv).1
    omega

/-- Specification: `s'` is a state of the constraint after some calls in state `s`. -/
def Later (c : Constraint τ) (s s' : τ) : Prop := c.isDefault = false → ∃ ts rs, refs c s ts = ok (rs, s')

/-- **C34 (partial)**: each call of `secondOrderNodes`, `thirdOrderNodes` or `fourthOrderNodes` that returns appends the wanted number of
neurons.  Each of them has exactly one unit for every set of `k` inputs.  Without constraint all weights of a neuron are different; with a
constraint (of any kind, with or without memory: `rs` are the values it gives after the calls before) units with equal values share their weight, units that share a weight have values that
differ by less than 0.002, and if different values are at least 0.001 apart units share a weight exactly if their values are equal.  Units
of different neurons, old or new, never share weights.  Missing: sharing exactly for values that are within the tolerance of each other,
which is false (`sharing_fails`). -/
theorem nodes_partial (o : Order) (numbers : ℕ) (c : Constraint τ) (l : Layer) (hl : l.Valid) (s : τ) {l' : Layer} {s' : τ}
    (h : addNodes o numbers c (l, s) = ok (l', s')) :
    l'.Valid ∧ l'.inputs = l.inputs ∧ l'.bias = l.bias ∧ l'.act = l.act ∧ ∃ new : List Neuron, l'.nodes = l.nodes ++ new ∧ new.length = numbers ∧
      ∀ neuron ∈ new, Enumerates o.num l.width neuron ∧
        (c.isDefault = true → (neuron.map HOUnit.weight).Nodup) ∧
        (c.isDefault = false → ∃ s0 s1 rs, Later c s s0 ∧ refs c s0 (neuron.map HOUnit.position) = ok (rs, s1) ∧ Shares neuron rs) := by
  suffices hs : Later c s s' ∧ l'.Valid ∧ l'.inputs = l.inputs ∧ l'.bias = l.bias ∧ l'.act = l.act ∧
      ∃ new : List Neuron, l'.nodes = l.nodes ++ new ∧ new.length = numbers ∧
      ∀ neuron ∈ new, Enumerates o.num l.width neuron ∧
        (c.isDefault = true → (neuron.map HOUnit.weight).Nodup) ∧
        (c.isDefault = false → ∃ s0 s1 rs, Later c s s0 ∧ refs c s0 (neuron.map HOUnit.position) = ok (rs, s1) ∧ Shares neuron rs) from hs.2
  induction numbers generalizing l' s' with
  | zero =>
    cases h
    exact ⟨fun _ => ⟨[], [], rfl⟩, hl, rfl, rfl, rfl, [], by simp, rfl, by simp⟩
  | succ n ih =>
    rw [addNodes, forLoop, bind_eq_ok] at h
    obtain ⟨⟨l1, s1⟩, h1, h2⟩ := h
    obtain ⟨later, v1, i1, b1, a1, new, n1, len, p1⟩ := ih h1
    obtain ⟨neuron, ad⟩ := addNode_added o c v1.wd h2
    have hw : l1.width = l.width := by rw [Layer.width, Layer.width, i1, b1]
    have later' : Later c s s' := fun hc => by
      obtain ⟨ts, rs, e⟩ := later hc
      obtain ⟨vs, e', _⟩ := ad.shares hc
      exact ⟨_, _, refs_append c s ts _ e e'⟩
    refine ⟨later', ad.valid v1, by rw [ad.inputs, i1], by rw [ad.bias, b1], by rw [ad.act, a1], new ++ [neuron],
      by rw [ad.nodes, n1, List.append_assoc], by simp [len], ?_⟩
    intro m hm
    rw [List.mem_append, List.mem_singleton] at hm
    rcases hm with hm | rfl
    · exact p1 m hm
    · refine ⟨by rw [← hw]; exact enumerates_of ad.positions, ad.default, fun hc => ?_⟩
      obtain ⟨rs, hr, hs⟩ := ad.shares hc
      exact ⟨s1, s', rs, later, by rw [ad.positions]; exact hr, hs⟩

/-- The calls return: always without constraint, otherwise if the constraint answers. -/
theorem nodes_total (o : Order) (numbers : ℕ) (c : Constraint τ) (l : Layer) (hl : l.Valid) (s : τ)
    (hc : c.isDefault = false → ∀ s, ∀ t ∈ combos o.num 0 l.width, ∃ r, c.eval s t = ok r) :
    ∃ r, addNodes o numbers c (l, s) = ok r := by
  have hrefs : c.isDefault = false → ∀ ts s, (∀ t ∈ ts, t ∈ combos o.num 0 l.width) → ∃ rs s', refs c s ts = ok (rs, s') := by
    intro hd ts
    induction ts with
    | nil => exact fun s _ => ⟨[], s, rfl⟩
    | cons t ts ih =>
      intro s ht
      obtain ⟨r, hr⟩ := hc hd s t (ht t (List.mem_cons_self ..))
      obtain ⟨rs, s', h⟩ := ih r.2 fun t' h' => ht t' (List.mem_cons_of_mem _ h')
      exact ⟨r.1 :: rs, s', by rw [refs, hr, ok_bind, h, ok_bind]⟩
  induction numbers with
  | zero => exact ⟨_, rfl⟩
  | succ n ih =>
    obtain ⟨⟨l1, s1⟩, h1⟩ := ih
    obtain ⟨v1, i1, b1, _⟩ := nodes_partial o n c l hl s h1
    have hw : l1.width = l.width := by rw [Layer.width, Layer.width, i1, b1]
    rw [addNodes, forLoop]
    rw [addNodes] at h1
    rw [h1, ok_bind, addNode, units_eq]
    cases hd : c.isDefault with
    | true =>
      rw [runAll_default hd, ok_bind]
      exact ⟨_, rfl⟩
    | false =>
      obtain ⟨rs, s', hr⟩ := hrefs hd (combos o.num 0 l.width) s1 fun _ h => h
      rw [hw]
      obtain ⟨b', e, _⟩ := (Built.start (⟨l1.w, l1.wd, [], s1⟩ : Building τ) rfl).run hd (combos o.num 0 l.width) hr v1.wd
      simp only
      rw [e, ok_bind]
      exact ⟨_, rfl⟩

example : (⟨4, false, .tanh, [], [], []⟩ : Layer).Valid := ⟨rfl, by simp, by simp⟩

end

/-- **C34 is false** if different values are close to each other: three units with the values 0, 0.0009 and 0.0018 of the constraint.
The last two are within the tolerance of 0.001 and do not share their weight. -/
theorem sharing_fails : ∃ (f : List ℕ → ℝ) (l : Layer) (u v : HOUnit), l.nodes = [[⟨[0, 1], 0⟩, u, v]] ∧
    addNodes .second 1 ⟨false, fun s t => ok (f t, s)⟩ (⟨3, false, .linear, [], [], []⟩, ()) = ok (l, ()) ∧
    |f u.position - f v.position| < 0.001 ∧ u.weight ≠ v.weight := by
  refine ⟨fun t => if t = [0, 1] then 0 else if t = [0, 2] then 0.0009 else 0.0018,
    ⟨3, false, .linear, [0, 0.0018], [0, 0.0018], [[⟨[0, 1], 0⟩, ⟨[0, 2], 0⟩, ⟨[1, 2], 1⟩]]⟩, ⟨[0, 2], 0⟩, ⟨[1, 2], 1⟩, rfl, ?_, ?_, by decide⟩
  · have e0 : |(0 : ℝ) - 0.0009| < 0.001 := by rw [abs_lt]; constructor <;> norm_num
    have e1 : ¬ |(0 : ℝ) - 0.0018| < 0.001 := by rw [abs_lt]; norm_num
    simp only [addNodes, forLoop, addNode, units, secondOrderUnits, Layer.width, ok_bind]
    norm_num [forLoop, addUnit, find, Outcome.read, ownWeight, sharedWeight, abs_lt]
  · norm_num [abs_lt]

end

end Verif.SigmaPi
