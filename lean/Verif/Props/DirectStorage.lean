import Verif.Model.DirectStorage
import Verif.Lemmas.Prelude

/-!
# C09: in-memory data sets return the requested row
-/

namespace Verif.DirectStorage

open Outcome

variable {X T : Type}

/-- The index of the last `getInstance` call of a history. -/
def lastInstance (h : List Access) : Option ℤ :=
  (h.filterMap (fun a => match a with | .instance_ i => some i | .target _ => none)).getLast?

/-- The index of the last `getTarget` call of a history. -/
def lastTarget (h : List Access) : Option ℤ :=
  (h.filterMap (fun a => match a with | .instance_ _ => none | .target i => some i)).getLast?

/-- An access is legal if its index is a row of the matrix and, for targets, there is an output matrix. -/
def Legal (ins : List X) (outs : Option (List T)) : Access → Prop
  | .instance_ i => 0 ≤ i ∧ i < (ins.length : ℤ)
  | .target i => ∃ o, outs = some o ∧ 0 ≤ i ∧ i < (o.length : ℤ)

private theorem step_legal (s : State X T) (a : Access) (ha : Legal s.ins s.outs a) :
    ∃ s', access s a = ok s' ∧ s'.ins = s.ins ∧ s'.outs = s.outs ∧
      (match a with
        | .instance_ i => s.ins[i.toNat]? = some s'.temporaryInput ∧ s'.temporaryOutput = s.temporaryOutput
        | .target i => (∃ o, s.outs = some o ∧ o[i.toNat]? = some s'.temporaryOutput) ∧
            s'.temporaryInput = s.temporaryInput) := by
  cases a with
  | instance_ i =>
    obtain ⟨h0, h1⟩ := ha
    have hl : i.toNat < s.ins.length := by omega
    refine ⟨{ s with temporaryInput := s.ins[i.toNat] }, ?_, rfl, rfl, by simp [hl], rfl⟩
    simp only [access, getInstance]
    rw [check_true (by omega), ok_bind]
    simp only [readZ]
    rw [if_neg (by omega), read_of_lt hl]
    rfl
  | target i =>
    obtain ⟨o, ho, h0, h1⟩ := ha
    have hl : i.toNat < o.length := by omega
    refine ⟨{ s with temporaryOutput := o[i.toNat] }, ?_, rfl, rfl, ⟨o, ho, by simp [hl]⟩, rfl⟩
    simp only [access, getTarget, ho]
    rw [check_true (by omega), ok_bind]
    simp only [readZ]
    rw [if_neg (by omega), read_of_lt hl]
    rfl

/-- **C09.** For every data set and every history of legal accesses, the vector behind the input reference is the row of
the most recent `getInstance` call and the vector behind the output reference is the row of the most recent
`getTarget` call.  In particular each call returns the requested row whatever happened before, and a
returned vector is changed only by the next access of the same kind. -/
theorem access_history (D : ℕ) (ins : List X) (outs : Option (List T)) (x0 : X) (t0 : T) (s : State X T)
    (hc : create D ins outs x0 t0 = ok s) (h : List Access) (hl : ∀ a ∈ h, Legal ins outs a) :
    ∃ s', run s h = ok s' ∧
      (∀ i, lastInstance h = some i → ins[i.toNat]? = some s'.temporaryInput) ∧
      (∀ i, lastTarget h = some i → ∃ o, outs = some o ∧ o[i.toNat]? = some s'.temporaryOutput) := by
  have hs : s.ins = ins ∧ s.outs = outs := by
    unfold create at hc
    rw [bind_eq_ok] at hc
    obtain ⟨_, _, hc⟩ := hc
    rw [bind_eq_ok] at hc
    obtain ⟨_, _, hc⟩ := hc
    cases hc
    exact ⟨rfl, rfl⟩
  have key : ∃ s', run s h = ok s' ∧ s'.ins = ins ∧ s'.outs = outs ∧
      (∀ i, lastInstance h = some i → ins[i.toNat]? = some s'.temporaryInput) ∧
      (∀ i, lastTarget h = some i → ∃ o, outs = some o ∧ o[i.toNat]? = some s'.temporaryOutput) := by
    induction h using List.reverseRecOn with
    | nil => exact ⟨s, rfl, hs.1, hs.2, by simp [lastInstance], by simp [lastTarget]⟩
    | append_singleton h a ih =>
      obtain ⟨s1, r1, e1, e2, h1, h2⟩ := ih (fun b hb => hl b (by simp [hb]))
      have ha : Legal s1.ins s1.outs a := by rw [e1, e2]; exact hl a (by simp)
      obtain ⟨s2, r2, f1, f2, f3⟩ := step_legal s1 a ha
      refine ⟨s2, ?_, f1.trans e1, f2.trans e2, ?_, ?_⟩
      · unfold run at r1 ⊢
        rw [List.foldlM_append, r1, ok_bind, List.foldlM_cons, r2]
        rfl
      · cases a with
        | instance_ i =>
          intro j hj
          simp [lastInstance] at hj
          subst hj
          rw [← e1]; exact f3.1
        | target i =>
          intro j hj
          simp only [lastInstance, List.filterMap_append, List.filterMap_cons_none, List.filterMap_nil,
            List.append_nil] at hj
          rw [f3.2]
          exact h1 j hj
      · cases a with
        | instance_ i =>
          intro j hj
          simp only [lastTarget, List.filterMap_append, List.filterMap_cons_none, List.filterMap_nil,
            List.append_nil] at hj
          rw [f3.2]
          exact h2 j hj
        | target i =>
          intro j hj
          simp [lastTarget] at hj
          subst hj
          rw [← e2]; exact f3.1
  obtain ⟨s', a1, _, _, a2, a3⟩ := key
  exact ⟨s', a1, a2, a3⟩

/-- **C09, rejections.** After every history of accesses, an access that is not legal is rejected by a check. -/
theorem access_rejects (D : ℕ) (ins : List X) (outs : Option (List T)) (x0 : X) (t0 : T) (s s' : State X T)
    (hc : create D ins outs x0 t0 = ok s) (h : List Access) (hrun : run s h = ok s')
    (a : Access) (ha : ¬ Legal ins outs a) : access s' a = checkFailed := by
  have hs : s.ins = ins ∧ s.outs = outs := by
    unfold create at hc
    rw [bind_eq_ok] at hc
    obtain ⟨_, _, hc⟩ := hc
    rw [bind_eq_ok] at hc
    obtain ⟨_, _, hc⟩ := hc
    cases hc
    exact ⟨rfl, rfl⟩
  have hs' : s'.ins = ins ∧ s'.outs = outs := by
    clear ha hc
    unfold run at hrun
    induction h generalizing s with
    | nil => simp at hrun; exact hrun ▸ hs
    | cons b h ih =>
      rw [List.foldlM_cons, bind_eq_ok] at hrun
      obtain ⟨s1, h1, h2⟩ := hrun
      refine ih s1 h2 ?_
      cases b with
      | instance_ i =>
        simp only [access, getInstance] at h1
        rw [bind_eq_ok] at h1
        obtain ⟨_, _, h1⟩ := h1
        rw [bind_eq_ok] at h1
        obtain ⟨_, _, h1⟩ := h1
        cases h1; exact hs
      | target i =>
        simp only [access, getTarget] at h1
        split at h1
        · cases h1
        · rw [bind_eq_ok] at h1
          obtain ⟨_, _, h1⟩ := h1
          rw [bind_eq_ok] at h1
          obtain ⟨_, _, h1⟩ := h1
          cases h1; exact hs
  cases a with
  | instance_ i =>
    simp only [access, getInstance]
    rw [check_false]
    · rfl
    · rw [hs'.1]
      simp only [Legal] at ha
      omega
  | target i =>
    simp only [access, getTarget]
    split
    · rfl
    · rename_i o ho
      rw [check_false]
      · rfl
      · intro hc2
        exact ha ⟨o, hs'.2.symm.trans ho, hc2.1, by omega⟩

/-- **C09, construction.** Matrices with at least one column and the same number of rows are accepted, others rejected. -/
theorem create_ok_iff (D : ℕ) (ins : List X) (outs : Option (List T)) (x0 : X) (t0 : T) :
    (create D ins outs x0 t0 = ok ⟨ins, outs, x0, t0⟩ ↔ 0 < D ∧ ∀ o, outs = some o → o.length = ins.length) ∧
    (create D ins outs x0 t0 ≠ ok ⟨ins, outs, x0, t0⟩ → create D ins outs x0 t0 = checkFailed) := by
  unfold create
  by_cases hD : D > 0
  · rw [check_true hD, ok_bind]
    by_cases ho : ∀ o ∈ outs, ins.length = o.length
    · rw [check_true ho]
      simp only [ok_bind, true_iff]
      refine ⟨⟨hD, fun o h => (ho o (by simp [h])).symm⟩, by simp⟩
    · rw [check_false ho]
      refine ⟨?_, fun _ => rfl⟩
      simp only [checkFailed_bind, reduceCtorEq, false_iff]
      rintro ⟨_, h⟩
      exact ho (fun o h' => (h o (by simpa using h')).symm)
  · rw [check_false hD]
    refine ⟨?_, fun _ => rfl⟩
    simp only [checkFailed_bind, reduceCtorEq, false_iff]
    rintro ⟨h, _⟩
    exact hD h

/-- A data set with three rows and a history of four legal accesses. -/
example : ∃ s, create 1 [10, 20, 30] (some [1, 2, 3]) 0 0 = ok s ∧
    (∀ a ∈ [Access.instance_ 2, .target 0, .instance_ 1, .target 2], Legal [10, 20, 30] (some [1, 2, 3]) a) ∧
    lastInstance [Access.instance_ 2, .target 0, .instance_ 1, .target 2] = some 1 ∧
    ¬ Legal [10, 20, 30] (some [1, 2, 3]) (.instance_ 3) := by
  refine ⟨⟨[10, 20, 30], some [1, 2, 3], 0, 0⟩, rfl, ?_, by decide, by simp [Legal]⟩
  intro a ha
  simp at ha
  rcases ha with rfl | rfl | rfl | rfl <;> simp [Legal]

end Verif.DirectStorage
