import Verif.Model.Learner
import Verif.Lemmas.Prelude

/-!
# C11, C63, C64: ownership of data sets
-/

namespace Verif.Learner

open Outcome

/-- The data sets a learner has created so far. -/
def created (h : Heap) : List Addr := (List.range h.ownSizes.length).map Addr.own

private def owned (flag : Bool) (p : Option Addr) : List Addr :=
  match flag, p with
  | true, some a => [a]
  | _, _ => []

/-- Invariant: freed memory and owned memory together are what was created; pointers that are not owned are
null or point to user memory. -/
private def Inv (userSize : ℕ → ℕ) (s : State) : Prop :=
  s.heap.userSize = userSize ∧
  (s.heap.freed ++ owned s.learner.deleteTrainSet s.learner.trainSet ++
    owned s.learner.deleteValidSet s.learner.validSet).Perm (created s.heap) ∧
  (s.learner.deleteTrainSet = false → ∀ a, s.learner.trainSet = some a → ∃ k, a = .user k) ∧
  (s.learner.deleteValidSet = false → ∀ a, s.learner.validSet = some a → ∃ k, a = .user k) ∧
  (s.learner.trainSet = none → s.learner.N = 0) ∧
  (∀ p, s.learner.trainSet = some p → samples s.heap (some p) = ok s.learner.N)

private theorem created_nodup (h : Heap) : (created h).Nodup :=
  List.Nodup.map (fun a b h => by cases h; rfl) List.nodup_range

private theorem user_not_created (h : Heap) (k : ℕ) : Addr.user k ∉ created h := by
  simp [created]

private theorem deleteIf_ok (h : Heap) (flag : Bool) (p : Option Addr) (rest : List Addr)
    (hn : (h.freed ++ owned flag p ++ rest).Nodup) :
    deleteIf h flag p = ok { h with freed := h.freed ++ owned flag p } := by
  cases flag <;> cases p <;> simp only [deleteIf, owned, List.append_nil]
  rename_i a
  unfold delete
  rw [if_neg]
  intro ha
  simp only [owned] at hn
  have := (List.nodup_append.mp (List.nodup_append.mp hn).1).2.2
  exact this a ha a (by simp) rfl

private theorem deleteIf_ok2 (h : Heap) (flag : Bool) (p : Option Addr) (rest : List Addr)
    (hn : (h.freed ++ rest ++ owned flag p).Nodup) :
    deleteIf h flag p = ok { h with freed := h.freed ++ owned flag p } := by
  refine deleteIf_ok h flag p rest ?_
  refine (List.Perm.nodup_iff ?_).mp hn
  rw [List.append_assoc, List.append_assoc]
  exact List.Perm.append_left _ List.perm_append_comm

private theorem samples_own (h : Heap) (n : ℕ) (hf : Addr.own h.ownSizes.length ∉ h.freed) :
    samples (alloc h n).1 (some (alloc h n).2) = ok n := by
  simp [samples, alloc, hf, Outcome.read]

private theorem own_not_freed {u : ℕ → ℕ} {s : State} (hi : Inv u s) : Addr.own s.heap.ownSizes.length ∉ s.heap.freed := by
  intro hc
  have := hi.2.1.mem_iff.mp (by simp [hc] : Addr.own s.heap.ownSizes.length ∈ s.heap.freed ++
    owned s.learner.deleteTrainSet s.learner.trainSet ++ owned s.learner.deleteValidSet s.learner.validSet)
  simp [created] at this

private theorem user_not_freed {u : ℕ → ℕ} {s : State} (hi : Inv u s) (k : ℕ) : Addr.user k ∉ s.heap.freed := by
  intro hc
  have := hi.2.1.mem_iff.mp (by simp [hc] : Addr.user k ∈ s.heap.freed ++
    owned s.learner.deleteTrainSet s.learner.trainSet ++ owned s.learner.deleteValidSet s.learner.validSet)
  exact user_not_created _ _ this

private theorem created_alloc (h : Heap) (n : ℕ) :
    created (alloc h n).1 = created h ++ [(alloc h n).2] := by
  simp [created, alloc, List.range_succ]

private theorem train_not_valid {u : ℕ → ℕ} {s : State} (hi : Inv u s) (a : Addr)
    (ha : s.learner.trainSet = some a) (hv : a ∈ owned s.learner.deleteValidSet s.learner.validSet) : False := by
  cases hf : s.learner.deleteTrainSet with
  | true =>
    have hn := hi.2.1.nodup_iff.mpr (created_nodup _)
    rw [hf, ha] at hn
    exact (List.nodup_append.mp hn).2.2 a (by simp [owned]) a hv rfl
  | false =>
    obtain ⟨k, rfl⟩ := hi.2.2.1 hf a ha
    have := hi.2.1.mem_iff.mp (by simp [hv] : Addr.user k ∈ s.heap.freed ++
      owned s.learner.deleteTrainSet s.learner.trainSet ++ owned s.learner.deleteValidSet s.learner.validSet)
    exact user_not_created _ _ this

private theorem samples_mono {h h' : Heap} {a : Addr} {N : ℕ} (hs : samples h (some a) = ok N)
    (hu : h'.userSize = h.userSize) (hp : h.ownSizes <+: h'.ownSizes) (hf : a ∉ h'.freed) :
    samples h' (some a) = ok N := by
  unfold samples at hs ⊢
  simp only at hs ⊢
  split at hs
  · cases hs
  · rw [if_neg hf]
    cases a with
    | user k => simp only at hs ⊢; rw [hu]; exact hs
    | own k =>
      simp only at hs ⊢
      obtain ⟨e, he⟩ := hp
      rw [Outcome.read_eq_ok] at hs ⊢
      rw [← he]
      exact List.getElem?_append_left (List.getElem?_eq_some_iff.mp hs).1 ▸ hs

private theorem inv_call (u : ℕ → ℕ) (s : State) (hi : Inv u s) (c : Call) :
    ∃ s', call s c = ok s' ∧ Inv u s' := by
  have hn := hi.2.1.nodup_iff.mpr (created_nodup _)
  have hT := deleteIf_ok s.heap s.learner.deleteTrainSet s.learner.trainSet _ hn
  have hV := deleteIf_ok2 s.heap s.learner.deleteValidSet s.learner.validSet _ hn
  have hown := own_not_freed hi
  have htrainfresh : Addr.own s.heap.ownSizes.length ∉ s.heap.freed ++
      owned s.learner.deleteTrainSet s.learner.trainSet := by
    intro hc
    have := hi.2.1.mem_iff.mp (List.mem_append_left _ hc)
    simp [created] at this
  have huserfresh : ∀ k, Addr.user k ∉ s.heap.freed ++ owned s.learner.deleteTrainSet s.learner.trainSet := by
    intro k hc
    exact user_not_created _ _ (hi.2.1.mem_iff.mp (List.mem_append_left _ hc))
  have hvf : ∀ a, s.learner.trainSet = some a →
      a ∉ s.heap.freed ++ owned s.learner.deleteValidSet s.learner.validSet := by
    intro a ha hc
    rcases List.mem_append.mp hc with hc | hc
    · have := hi.2.2.2.2.2 a ha
      simp only [samples, hc, if_true] at this
      cases this
    · exact train_not_valid hi a ha hc
  cases c with
  | trainingSetMatrix n =>
    refine ⟨⟨(alloc { s.heap with freed := s.heap.freed ++ owned s.learner.deleteTrainSet s.learner.trainSet } n).1,
      { s.learner with trainSet := some (.own s.heap.ownSizes.length), deleteTrainSet := true, N := n }⟩, ?_, ?_⟩
    · simp only [call, trainingSetMatrix, hT, ok_bind]
      have := samples_own { s.heap with freed := s.heap.freed ++ owned s.learner.deleteTrainSet s.learner.trainSet }
        n htrainfresh
      rw [this]
      rfl
    · refine ⟨hi.1, ?_, by simp, hi.2.2.2.1, by simp, ?_⟩
      · rw [created_alloc]
        simp only [owned, alloc]
        have h1 := List.Perm.append_right [Addr.own s.heap.ownSizes.length] hi.2.1
        refine List.Perm.trans ?_ h1
        simp only [List.append_assoc]
        refine List.Perm.append_left _ (List.Perm.append_left _ ?_)
        exact List.perm_append_comm
      · intro p hp
        cases hp
        exact samples_own { s.heap with freed := s.heap.freed ++ owned s.learner.deleteTrainSet s.learner.trainSet }
          n htrainfresh
  | trainingSetRef k =>
    refine ⟨⟨{ s.heap with freed := s.heap.freed ++ owned s.learner.deleteTrainSet s.learner.trainSet },
      { s.learner with trainSet := some (.user k), deleteTrainSet := false, N := s.heap.userSize k }⟩, ?_, ?_⟩
    · simp only [call, trainingSetRef, hT, ok_bind, samples]
      rw [if_neg (huserfresh k)]
      rfl
    · refine ⟨hi.1, ?_, ?_, hi.2.2.2.1, by simp, ?_⟩
      · simpa [owned, created] using hi.2.1
      · intro _ a ha; cases ha; exact ⟨k, rfl⟩
      · intro p hp
        cases hp
        simp only [samples]
        rw [if_neg (huserfresh k)]
  | removeTrainingSet =>
    refine ⟨⟨{ s.heap with freed := s.heap.freed ++ owned s.learner.deleteTrainSet s.learner.trainSet },
      { s.learner with deleteTrainSet := false, trainSet := none, N := 0 }⟩,
      by simp only [call, removeTrainingSet, hT, ok_bind], hi.1, ?_, ?_, hi.2.2.2.1, by simp, by simp⟩
    · simpa [owned, created] using hi.2.1
    · intro _ a ha; cases ha
  | validationSetMatrix n =>
    refine ⟨⟨(alloc { s.heap with freed := s.heap.freed ++ owned s.learner.deleteValidSet s.learner.validSet } n).1,
      { s.learner with validSet := some (.own s.heap.ownSizes.length), deleteValidSet := true }⟩, ?_, ?_⟩
    · simp only [call, validationSetMatrix, hV, ok_bind]
      rfl
    · refine ⟨hi.1, ?_, hi.2.2.1, by simp, hi.2.2.2.2.1, ?_⟩
      · rw [created_alloc]
        simp only [owned, alloc]
        have h1 := List.Perm.append_right [Addr.own s.heap.ownSizes.length] hi.2.1
        refine List.Perm.trans ?_ h1
        refine List.Perm.append_right _ ?_
        simp only [List.append_assoc]
        exact List.Perm.append_left _ List.perm_append_comm
      · intro p hp
        exact samples_mono (hi.2.2.2.2.2 p hp) rfl (List.prefix_append _ _) (hvf p hp)
  | validationSetRef k =>
    refine ⟨⟨{ s.heap with freed := s.heap.freed ++ owned s.learner.deleteValidSet s.learner.validSet },
      { s.learner with validSet := some (.user k), deleteValidSet := false }⟩,
      by simp only [call, validationSetRef, hV, ok_bind], hi.1, ?_, hi.2.2.1, ?_, hi.2.2.2.2.1, ?_⟩
    · have : (s.heap.freed ++ owned s.learner.deleteValidSet s.learner.validSet ++
        owned s.learner.deleteTrainSet s.learner.trainSet).Perm (created s.heap) := by
        refine List.Perm.trans ?_ hi.2.1
        simp only [List.append_assoc]
        exact List.Perm.append_left _ List.perm_append_comm
      simpa [owned, created] using this
    · intro _ a ha; cases ha; exact ⟨k, rfl⟩
    · intro p hp
      exact samples_mono (hi.2.2.2.2.2 p hp) rfl List.prefix_rfl (hvf p hp)
  | removeValidationSet =>
    refine ⟨⟨{ s.heap with freed := s.heap.freed ++ owned s.learner.deleteValidSet s.learner.validSet },
      { s.learner with deleteValidSet := false, validSet := none }⟩,
      by simp only [call, removeValidationSet, hV, ok_bind], hi.1, ?_, hi.2.2.1, ?_, hi.2.2.2.2.1, ?_⟩
    · have : (s.heap.freed ++ owned s.learner.deleteValidSet s.learner.validSet ++
        owned s.learner.deleteTrainSet s.learner.trainSet).Perm (created s.heap) := by
        refine List.Perm.trans ?_ hi.2.1
        simp only [List.append_assoc]
        exact List.Perm.append_left _ List.perm_append_comm
      simpa [owned, created] using this
    · intro _ a ha; cases ha
    · intro p hp
      exact samples_mono (hi.2.2.2.2.2 p hp) rfl List.prefix_rfl (hvf p hp)

private theorem inv_run (u : ℕ → ℕ) (calls : List Call) : ∃ s, run (start u) calls = ok s ∧ Inv u s := by
  induction calls using List.reverseRecOn with
  | nil => exact ⟨_, rfl, rfl, by simp [start, create, owned, created], by simp [start, create],
      by simp [start, create], by simp [start, create], by simp [start, create]⟩
  | append_singleton cs c ih =>
    obtain ⟨s, h1, h2⟩ := ih
    obtain ⟨s', h3, h4⟩ := inv_call u s h2 c
    refine ⟨s', ?_, h4⟩
    unfold run at h1 ⊢
    rw [List.foldlM_append, h1, ok_bind, List.foldlM_cons, h3]
    rfl

/-- **C11.** For every history of calls that set or remove training and validation sets: no call has undefined behaviour (no double
free, no access to freed memory); afterwards
* only data sets that the learner created were freed, each at most once;
* the pointers of the learner do not point to freed memory;
* `N` is the number of instances of the current training set (0 if there is none);
* destroying the learner succeeds, and then exactly the data sets that the learner created were freed, each
  exactly once - no user data set among them. -/
theorem learner_ownership (userSize : ℕ → ℕ) (calls : List Call) :
    ∃ s, run (start userSize) calls = ok s ∧
      s.heap.freed.Nodup ∧ (∀ a ∈ s.heap.freed, a ∈ created s.heap) ∧
      (∀ a, s.learner.trainSet = some a → a ∉ s.heap.freed) ∧
      (∀ a, s.learner.validSet = some a → a ∉ s.heap.freed) ∧
      (match s.learner.trainSet with
        | none => s.learner.N = 0
        | some a => samples s.heap (some a) = ok s.learner.N) ∧
      ∃ h, destroy s = ok h ∧ h.freed.Perm (created s.heap) ∧ h.freed.Nodup ∧ ∀ k, Addr.user k ∉ h.freed := by
  obtain ⟨s, hs, hi⟩ := inv_run userSize calls
  have hn := hi.2.1.nodup_iff.mpr (created_nodup _)
  have hT := deleteIf_ok s.heap s.learner.deleteTrainSet s.learner.trainSet _ hn
  refine ⟨s, hs, (List.nodup_append.mp (List.nodup_append.mp hn).1).1, ?_, ?_, ?_, ?_, ?_⟩
  · intro a ha
    exact hi.2.1.mem_iff.mp (by simp [ha])
  · intro a ha hc
    have := hi.2.2.2.2.2 a ha
    simp only [samples, hc, if_true] at this
    cases this
  · intro a ha hc
    cases hf : s.learner.deleteValidSet with
    | true =>
      rw [hf, ha] at hn
      exact (List.nodup_append.mp hn).2.2 a (by simp [hc]) a (by simp [owned]) rfl
    | false =>
      obtain ⟨k, rfl⟩ := hi.2.2.2.1 hf a ha
      exact user_not_freed hi k hc
  · split
    · rename_i h; exact hi.2.2.2.2.1 h
    · rename_i a h; exact hi.2.2.2.2.2 a h
  · have hV := deleteIf_ok { s.heap with freed := s.heap.freed ++ owned s.learner.deleteTrainSet s.learner.trainSet }
      s.learner.deleteValidSet s.learner.validSet [] (by simpa using hn)
    refine ⟨_, by unfold destroy; rw [hT, ok_bind, hV], ?_, ?_, ?_⟩
    · exact hi.2.1
    · exact hn
    · intro k hc
      exact user_not_created _ _ (hi.2.1.mem_iff.mp hc)

/-- **C63 fails.** After cross-validation with at least one fold (each fold using a fresh local view), whatever happened before, the
learner's training set is a destroyed view: any access to it is undefined behaviour. -/
theorem crossValidation_dangling_ub (s s' : State) (folds : ℕ) (hf : 0 < folds) (views : ℕ → ℕ)
    (hcv : crossValidationSets s folds views = ok s') : samples s'.heap s'.learner.trainSet = ub := by
  obtain ⟨k, rfl⟩ : ∃ k, folds = k + 1 := ⟨folds - 1, by omega⟩
  unfold crossValidationSets at hcv
  rw [List.range_succ, List.foldlM_append, bind_eq_ok] at hcv
  obtain ⟨s1, _, h2⟩ := hcv
  rw [List.foldlM_cons, bind_eq_ok] at h2
  obtain ⟨s2, h2, h3⟩ := h2
  cases h3
  rw [bind_eq_ok] at h2
  obtain ⟨s3, h4, h5⟩ := h2
  rw [bind_eq_ok] at h5
  obtain ⟨h, h6, h7⟩ := h5
  cases h7
  unfold trainingSetRef at h4
  rw [bind_eq_ok] at h4
  obtain ⟨h', _, h4⟩ := h4
  simp only at h4
  rw [bind_eq_ok] at h4
  obtain ⟨N, _, h4⟩ := h4
  cases h4
  unfold delete at h6
  split at h6
  · cases h6
  · cases h6
    simp [samples]

/-- Cross-validation itself succeeds for every learner if the views of the folds are different. -/
theorem crossValidationSets_ok (userSize : ℕ → ℕ) (calls : List Call) (s : State)
    (hs : run (start userSize) calls = ok s) (folds : ℕ) (views : ℕ → ℕ) (hv : Function.Injective views) :
    ∃ s', crossValidationSets s folds views = ok s' := by
  have hI : Inv userSize s := by
    obtain ⟨t, h1, h2⟩ := inv_run userSize calls
    rw [hs] at h1; cases h1; exact h2
  have hn := hI.2.1.nodup_iff.mpr (created_nodup _)
  have key : ∀ m, ∃ s', crossValidationSets s m views = ok s' ∧
      (∀ i, m ≤ i → Addr.user (views i) ∉ s'.heap.freed) ∧
      (m = 0 ∧ s' = s ∨ s'.learner.deleteTrainSet = false) := by
    intro m
    induction m with
    | zero => exact ⟨s, rfl, fun i _ => user_not_freed hI _, Or.inl ⟨rfl, rfl⟩⟩
    | succ m ih =>
      obtain ⟨s1, h1, h2, h3⟩ := ih
      have hdel : ∃ h, deleteIf s1.heap s1.learner.deleteTrainSet s1.learner.trainSet = ok h ∧
          ∀ i, m ≤ i → Addr.user (views i) ∉ h.freed := by
        rcases h3 with ⟨rfl, rfl⟩ | h3
        · refine ⟨_, deleteIf_ok s1.heap s1.learner.deleteTrainSet s1.learner.trainSet _ hn, ?_⟩
          intro i _ hc
          exact user_not_created _ _ (hI.2.1.mem_iff.mp (List.mem_append_left _ hc))
        · refine ⟨s1.heap, by rw [h3]; rfl, h2⟩
      obtain ⟨h, hd1, hd2⟩ := hdel
      refine ⟨⟨{ h with freed := h.freed ++ [.user (views m)] },
        { s1.learner with trainSet := some (.user (views m)), deleteTrainSet := false, N := h.userSize (views m) }⟩,
        ?_, ?_, Or.inr rfl⟩
      · unfold crossValidationSets at h1 ⊢
        rw [List.range_succ, List.foldlM_append, h1, ok_bind, List.foldlM_cons]
        have hnf := hd2 m le_rfl
        simp only [trainingSetRef, hd1, ok_bind, samples, if_neg hnf, delete, List.foldlM_nil, pure_eq]
      · intro i hi hc
        rcases List.mem_append.mp hc with hc | hc
        · exact hd2 i (by omega) hc
        · have : views i = views m := by simpa using hc
          have := hv this
          omega
  obtain ⟨s', h, _⟩ := key folds
  exact ⟨s', h⟩

/-- **C64 fails.** Learners may be copied (no copy constructor is declared, so all fields are copied).  If the learner owns
its training set at that time, destroying the copy and then the original frees the data set twice. -/
theorem learner_copy_ub (s : State) (hown : s.learner.deleteTrainSet = true)
    (hset : s.learner.trainSet ≠ none) (h : Heap) (hd : destroy ⟨s.heap, s.learner⟩ = ok h) :
    destroy ⟨h, s.learner⟩ = ub := by
  obtain ⟨a, ha⟩ := Option.ne_none_iff_exists'.mp hset
  unfold destroy at hd ⊢
  simp only [hown, ha, deleteIf] at hd ⊢
  rw [bind_eq_ok] at hd
  obtain ⟨h1, hd1, hd2⟩ := hd
  have hmem1 : a ∈ h1.freed := by
    unfold delete at hd1
    split at hd1
    · cases hd1
    · cases hd1; simp
  have hmem : a ∈ h.freed := by
    split at hd2
    · unfold delete at hd2
      split at hd2
      · cases hd2
      · cases hd2; simp [hmem1]
    · cases hd2; exact hmem1
  simp [delete, hmem]

/-- A history in which the learner replaces its own training set, uses a user data set for validation
and ends up owning its training set. -/
example : ∃ s, run (start (fun _ => 7)) [.trainingSetMatrix 5, .validationSetRef 3, .trainingSetMatrix 4] = ok s ∧
    s.learner.N = 4 ∧ s.learner.deleteTrainSet = true ∧ s.heap.freed = [.own 0] ∧
    ∃ s', crossValidationSets s 2 (fun i => i) = ok s' := by
  refine ⟨_, rfl, rfl, rfl, rfl, ?_⟩
  exact crossValidationSets_ok (fun _ => 7) [.trainingSetMatrix 5, .validationSetRef 3, .trainingSetMatrix 4] _ rfl 2 _
    (fun _ _ h => h)

end Verif.Learner
