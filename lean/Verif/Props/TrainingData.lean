import Verif.Model.TrainingData
import Verif.Props.DataStream

/-!
# C107: a learner is trained with what is in its training set
-/

namespace Verif.TrainingData

open Outcome

variable {V : Type}

/-! ## Specification -/

/-- The training set that the user has given to the learner is the last one, unless it was removed. -/
def giveStep : Option ℕ → Op V → Option ℕ
  | _, .trainingSet k => some k
  | _, .matrices k => some k
  | _, .removeTrainingSet => none
  | g, _ => g

def given (ops : List (Op V)) : Option ℕ := ops.foldl giveStep none

/-- Operations that do not give another training set. -/
def Op.Keeps : Op V → Prop
  | .trainingSet _ => False
  | .matrices _ => False
  | .removeTrainingSet => False
  | _ => True

/-! ## Lemmas -/

theorem run_append (hook : ℕ → List V → List V) (kind : Kind) (w : World V) (p q : List (Op V)) :
    run hook kind w (p ++ q) = run hook kind (run hook kind w p) q := List.foldl_append

theorem visit_take (rows : List V) : ∀ N, N ≤ rows.length → visit rows N = .ok (rows.take N)
  | 0, _ => rfl
  | N + 1, h => by
    have ih := visit_take rows N (Nat.le_of_succ_le h)
    unfold visit at ih ⊢
    rw [forLoop, ih, ok_bind]
    unfold getInstance
    rw [List.getElem?_eq_getElem (show N < rows.length by omega)]
    dsimp only
    rw [ok_bind, List.take_add_one, List.getElem?_eq_getElem (show N < rows.length by omega)]
    rfl

theorem visit_short (rows : List V) : ∀ N, rows.length < N → visit rows N = .checkFailed
  | 0, h => absurd h (Nat.not_lt_zero _)
  | N + 1, h => by
    by_cases hN : rows.length < N
    · have ih := visit_short rows N hN
      unfold visit at ih ⊢
      rw [forLoop, ih]
      rfl
    · have hv := visit_take rows N (Nat.le_of_not_lt hN)
      unfold visit at hv ⊢
      rw [forLoop, hv, ok_bind]
      unfold getInstance
      rw [List.getElem?_eq_none (show rows.length ≤ N by omega)]
      rfl

/-- `visit` in one formula. -/
theorem visit_eq (rows : List V) (N : ℕ) : visit rows N = if N ≤ rows.length then .ok (rows.take N) else .checkFailed := by
  by_cases h : N ≤ rows.length
  · rw [if_pos h, visit_take rows N h]
  · rw [if_neg h, visit_short rows N (by omega)]

theorem visit_all (rows : List V) : visit rows rows.length = .ok rows := by
  rw [visit_take rows _ le_rfl, List.take_length]

/-- Learners that follow the pointer of `Learner`. -/
theorem step_trainSet (hook : ℕ → List V → List V) {kind : Kind} (hk : kind ≠ .sparseAutoEncoder) (w : World V) (op : Op V) :
    (step hook kind w op).trainSet = giveStep w.trainSet op := by
  cases op with
  | trainingSet k => cases kind <;> first | rfl | exact absurd rfl hk
  | matrices k => rfl
  | removeTrainingSet => rfl
  | change k rows => rfl
  | predict rows => rfl
  | propagate rows => cases kind <;> rfl
  | finishedIteration =>
    show (step hook kind w .finishedIteration).trainSet = w.trainSet
    unfold step
    cases kind <;> cases hw : w.trainSet <;> simp [hw]

theorem run_trainSet (hook : ℕ → List V → List V) {kind : Kind} (hk : kind ≠ .sparseAutoEncoder) (w : World V) (ops : List (Op V)) :
    (run hook kind w ops).trainSet = ops.foldl giveStep w.trainSet := by
  induction ops generalizing w with
  | nil => rfl
  | cons op ops ih => exact (ih (step hook kind w op)).trans (congrArg (fun g => ops.foldl giveStep g) (step_trainSet hook hk w op))

/-! ## RBM and intrinsic plasticity -/

/-- **C107 for RBMs and intrinsic plasticity**: after every history of operations the learner is trained with exactly the instances that
the training set given last contains now; without a training set its error is undefined. -/
theorem live_current (hook : ℕ → List V → List V) {kind : Kind} (hk : kind = .rbm ∨ kind = .intrinsicPlasticity)
    (sets : ℕ → List V) (ops : List (Op V)) :
    seen kind (run hook kind (World.start sets) ops) =
      match given ops with
      | some k => .ok ((run hook kind (World.start sets) ops).sets k)
      | none => .ub := by
  have ht : (run hook kind (World.start sets) ops).trainSet = given ops :=
    run_trainSet hook (by rcases hk with rfl | rfl <;> decide) (World.start sets) ops
  rcases hk with rfl | rfl <;>
  · unfold seen
    rw [ht]
    cases given ops with
    | none => rfl
    | some k => exact visit_all _

/-! ## Networks -/

theorem step_N (hook : ℕ → List V → List V) (w : World V) {op : Op V} (h : op.Keeps) :
    (step hook .net w op).N = w.N ∧ (step hook .net w op).trainSet = w.trainSet := by
  cases op with
  | trainingSet k => exact h.elim
  | matrices k => exact h.elim
  | removeTrainingSet => exact h.elim
  | change k rows => exact ⟨rfl, rfl⟩
  | predict rows => exact ⟨rfl, rfl⟩
  | propagate rows => exact ⟨rfl, rfl⟩
  | finishedIteration =>
    unfold step
    cases hw : w.trainSet <;> simp [hw]

theorem run_N (hook : ℕ → List V → List V) (w : World V) (ops : List (Op V)) (h : ∀ op ∈ ops, op.Keeps) :
    (run hook .net w ops).N = w.N ∧ (run hook .net w ops).trainSet = w.trainSet := by
  induction ops generalizing w with
  | nil => exact ⟨rfl, rfl⟩
  | cons op ops ih =>
    obtain ⟨h1, h2⟩ := step_N hook w (h op List.mem_cons_self)
    obtain ⟨h3, h4⟩ := ih (step hook .net w op) fun o ho => h o (List.mem_cons_of_mem _ ho)
    exact ⟨h3.trans h1, h4.trans h2⟩

/-- What a network sees: as many instances of the present contents as there were when the training set was given. -/
theorem net_seen (hook : ℕ → List V → List V) (w : World V) (k : ℕ) (after : List (Op V)) (h : ∀ op ∈ after, op.Keeps) {now : List V}
    (hnow : now = (run hook .net w (.trainingSet k :: after)).sets k) :
    seen .net (run hook .net w (.trainingSet k :: after)) =
      if (w.sets k).length ≤ now.length then .ok (now.take (w.sets k).length) else .checkFailed := by
  obtain ⟨h1, h2⟩ := run_N hook (step hook .net w (.trainingSet k)) after h
  have e1 : (run hook .net w (.trainingSet k :: after)).N = (w.sets k).length := h1
  have e2 : (run hook .net w (.trainingSet k :: after)).trainSet = some k := h2
  unfold seen
  dsimp only
  rw [e2]
  dsimp only
  rw [e1, ← hnow]
  exact visit_eq _ _

/-- **C107 for networks, as long as the size of the training set does not change**: after any history, a network is trained with
exactly the instances that its training set contains now. -/
theorem net_current_partial (hook : ℕ → List V → List V) (sets : ℕ → List V) (before : List (Op V)) (k : ℕ) (after : List (Op V))
    (h : ∀ op ∈ after, op.Keeps)
    (hsize : ((run hook .net (World.start sets) before).sets k).length =
      ((run hook .net (World.start sets) (before ++ .trainingSet k :: after)).sets k).length) :
    seen .net (run hook .net (World.start sets) (before ++ .trainingSet k :: after)) =
      .ok ((run hook .net (World.start sets) (before ++ .trainingSet k :: after)).sets k) := by
  rw [run_append] at hsize ⊢
  rw [net_seen hook _ k after h rfl, if_pos (le_of_eq hsize), hsize, List.take_length]

/-- **C107 is false of networks whose training set grows**: the instances that were added are never used. -/
theorem net_grown_fails (hook : ℕ → List V → List V) (w : World V) (k : ℕ) (more : List V) :
    seen .net (run hook .net w [.trainingSet k, .change k (w.sets k ++ more)]) = .ok (w.sets k) ∧
      (run hook .net w [.trainingSet k, .change k (w.sets k ++ more)]).sets k = w.sets k ++ more := by
  have hn : (run hook .net w [.trainingSet k, .change k (w.sets k ++ more)]).sets k = w.sets k ++ more := Function.update_self ..
  refine ⟨?_, hn⟩
  rw [net_seen hook w k [.change k (w.sets k ++ more)] (by simp [Op.Keeps]) hn.symm, if_pos (by simp), List.take_left]

/-- **C107 is false of networks whose training set shrinks**: `error()` asks for an instance that does not exist. -/
theorem net_shrunk_fails (hook : ℕ → List V → List V) (w : World V) (k : ℕ) {less : List V} (h : less.length < (w.sets k).length) :
    seen .net (run hook .net w [.trainingSet k, .change k less]) = .checkFailed := by
  have hn : (run hook .net w [.trainingSet k, .change k less]).sets k = less := Function.update_self ..
  rw [net_seen hook w k [.change k less] (by simp [Op.Keeps]) hn.symm, if_neg (by omega)]

/-- **C107 (`finishIteration`)**: a network tells its training set that an iteration is finished ... -/
theorem net_tells (hook : ℕ → List V → List V) (sets : ℕ → List V) (ops : List (Op V)) {k : ℕ} (h : given ops = some k) :
    (run hook .net (World.start sets) (ops ++ [.finishedIteration])).sets k =
      hook k ((run hook .net (World.start sets) ops).sets k) := by
  have ht : (run hook .net (World.start sets) ops).trainSet = some k :=
    (run_trainSet hook (by decide) (World.start sets) ops).trans h
  rw [run_append]
  show (step hook .net (run hook .net (World.start sets) ops) .finishedIteration).sets k = _
  unfold step
  dsimp only
  rw [ht]
  exact Function.update_self ..

/-- **C107 is false of the other learners**: they do not tell their training set that an iteration is finished, so that it is neither
changed nor evaluated. -/
theorem others_silent_fails (hook : ℕ → List V → List V) {kind : Kind} (hk : kind ≠ .net) (w : World V) :
    step hook kind w .finishedIteration = w := by
  cases kind <;> first | rfl | exact absurd rfl hk

/-! ## Sparse autoencoders -/

/-- Operations that leave the copy of an autoencoder alone. -/
def Op.Aside : Op V → Prop
  | .trainingSet _ => False
  | .propagate _ => False
  | _ => True

theorem step_copy (hook : ℕ → List V → List V) (w : World V) {op : Op V} (h : op.Aside) :
    (step hook .sparseAutoEncoder w op).copy = w.copy := by
  cases op with
  | trainingSet k => exact h.elim
  | propagate rows => exact h.elim
  | _ => rfl

theorem run_copy (hook : ℕ → List V → List V) (w : World V) (ops : List (Op V)) (h : ∀ op ∈ ops, op.Aside) :
    (run hook .sparseAutoEncoder w ops).copy = w.copy := by
  induction ops generalizing w with
  | nil => rfl
  | cons op ops ih =>
    exact (ih (step hook .sparseAutoEncoder w op) fun o ho => h o (List.mem_cons_of_mem _ ho)).trans
      (step_copy hook w (h op List.mem_cons_self))

/-- **C107 (the copy of an autoencoder)**: an autoencoder is trained with the instances that the data set contained when it was
given, whatever happens to the data set afterwards, even if it is removed or if matrices are given instead. -/
theorem sae_snapshot (hook : ℕ → List V → List V) (w : World V) (k : ℕ) (after : List (Op V)) (h : ∀ op ∈ after, op.Aside) :
    seen .sparseAutoEncoder (run hook .sparseAutoEncoder w (.trainingSet k :: after)) = .ok (w.sets k) := by
  have := run_copy hook (step hook .sparseAutoEncoder w (.trainingSet k)) after h
  unfold seen
  dsimp only
  rw [show (run hook .sparseAutoEncoder w (.trainingSet k :: after)).copy = some (w.sets k) from this]

/-- **C107 for autoencoders whose data set does not change**: it is trained with the instances of the data set as long as the network
that contains the autoencoder is not used and no other training set is given. -/
theorem sae_current_partial (hook : ℕ → List V → List V) (sets : ℕ → List V) (before : List (Op V)) (k : ℕ) (after : List (Op V))
    (h : ∀ op ∈ after, op.Aside)
    (hsame : (run hook .sparseAutoEncoder (World.start sets) (before ++ .trainingSet k :: after)).sets k =
      (run hook .sparseAutoEncoder (World.start sets) before).sets k) :
    seen .sparseAutoEncoder (run hook .sparseAutoEncoder (World.start sets) (before ++ .trainingSet k :: after)) =
      .ok ((run hook .sparseAutoEncoder (World.start sets) (before ++ .trainingSet k :: after)).sets k) := by
  rw [hsame, run_append]
  exact sae_snapshot hook _ k after h

/-- **C107 is false of autoencoders whose data set changes**: the change is not seen. -/
theorem sae_change_fails (hook : ℕ → List V → List V) (w : World V) (k : ℕ) (rows : List V) :
    seen .sparseAutoEncoder (run hook .sparseAutoEncoder w [.trainingSet k, .change k rows]) = .ok (w.sets k) ∧
      (run hook .sparseAutoEncoder w [.trainingSet k, .change k rows]).sets k = rows :=
  ⟨sae_snapshot hook w k [.change k rows] (by simp [Op.Aside]), Function.update_self ..⟩

/-- **C107 is false of autoencoders that get matrices**: they go on with the training set that they had before. -/
theorem sae_matrices_fails (hook : ℕ → List V → List V) (w : World V) (k k' : ℕ) :
    seen .sparseAutoEncoder (run hook .sparseAutoEncoder w [.trainingSet k, .matrices k']) = .ok (w.sets k) ∧
      given [Op.trainingSet (V := V) k, .matrices k'] = some k' :=
  ⟨sae_snapshot hook w k [.matrices k'] (by simp [Op.Aside]), rfl⟩

/-- ... or have none at all: without `trainingSet(DataSet&)` the error is undefined, whatever else has been called. -/
theorem sae_matrices_ub (hook : ℕ → List V → List V) (sets : ℕ → List V) (ops : List (Op V)) (h : ∀ op ∈ ops, op.Aside) :
    seen .sparseAutoEncoder (run hook .sparseAutoEncoder (World.start sets) ops) = .ub := by
  have := run_copy hook (World.start sets) ops h
  unfold seen
  dsimp only
  rw [this]
  rfl

/-- **C107 is false of autoencoders in a network**: whenever the network is used, the batch that reaches the autoencoder becomes
its training set. -/
theorem sae_propagate_fails (hook : ℕ → List V → List V) (w : World V) (rows : List V) (after : List (Op V))
    (h : ∀ op ∈ after, op.Aside) :
    seen .sparseAutoEncoder (run hook .sparseAutoEncoder w (.propagate rows :: after)) = .ok rows := by
  have := run_copy hook (step hook .sparseAutoEncoder w (.propagate rows)) after h
  unfold seen
  dsimp only
  rw [show (run hook .sparseAutoEncoder w (.propagate rows :: after)).copy = some rows from this]

/-! ## Streams -/

section

variable {K : Type}

theorem initStream_fresh {s s' : DataStream.State K} {i o : ℕ} (h : DataStream.initStream s i o = .ok s') :
    s'.X = List.replicate s.cacheSize.toNat none ∧ s'.cache ≠ none := by
  unfold DataStream.initStream at h
  split at h
  · split at h
    · cases h
    · obtain ⟨_, _, h⟩ := Outcome.bind_eq_ok.1 h
      injection h with h
      subst h
      by_cases ho : o > 0 <;> simp [ho]
  · cases h

theorem step_cache {s s' : DataStream.State K} {o : ℕ} (h : DataStream.step s o = .ok s') : s'.cache = s.cache := by
  unfold DataStream.step at h
  split at h
  · cases h
  · injection h with h
    subst h
    rfl

theorem addSample_cache {s s' : DataStream.State K} {x : List K} {t : Option (List K)} (h : DataStream.addSample s x t = .ok s') :
    s'.cache ≠ none := by
  unfold DataStream.addSample at h
  split at h
  · obtain ⟨s1, h1, h⟩ := Outcome.bind_eq_ok.1 h
    have hc : s1.cache ≠ none := by
      by_cases hn : s.cache = none
      · rw [if_pos hn] at h1
        exact (initStream_fresh h1).2
      · rw [if_neg hn] at h1
        injection h1 with h1
        exact h1 ▸ hn
    obtain ⟨X, _, h⟩ := Outcome.bind_eq_ok.1 h
    obtain ⟨T, _, h⟩ := Outcome.bind_eq_ok.1 h
    dsimp only at h
    split at h
    · obtain ⟨s2, h2, h⟩ := Outcome.bind_eq_ok.1 h
      injection h with h
      subst h
      exact fun h => hc ((step_cache h2).symm.trans h)
    · injection h with h
      subst h
      exact hc
  · cases h

theorem defined_replicate {c : ℕ} (hc : 0 < c) : defined (List.replicate c (none : Option V)) = .ub := by
  cases c with
  | zero => exact absurd hc (lt_irrefl _)
  | succ c => rfl

theorem addSamples_append (p : DataStream.State K × List (Option (List K))) (a b : List (List K × Option (List K))) :
    addSamples p (a ++ b) = addSamples p a >>= fun p => addSamples p b := by
  induction a generalizing p with
  | nil => rfl
  | cons x a ih =>
    show (addSample p x.1 x.2 >>= fun p => addSamples p (a ++ b)) = (addSample p x.1 x.2 >>= fun p => addSamples p a) >>= _
    rw [bind_assoc]
    exact congrArg _ (funext ih)

/-- Until the cache is full for the first time, nothing happens; then the autoencoder works with numbers that were never
written. -/
theorem stream_prefix (c : ℕ) (hc : 0 < c) (l o D F : ℕ) (supervised : Bool) (samples : List (List K × Option (List K)))
    (hu : DataStream.Uniform D F supervised samples) :
    (samples.length < c → ∃ s, DataStream.addSamples (DataStream.setOptimizer (DataStream.setLearner (DataStream.create (c : ℤ)) l) o) samples =
        .ok s ∧ (samples ≠ [] → s.cache ≠ none) ∧
      addSamples (DataStream.setOptimizer (DataStream.setLearner (DataStream.create (c : ℤ)) l) o, []) samples =
        .ok (s, if samples = [] then [] else List.replicate c none)) ∧
    (c ≤ samples.length →
      addSamples (DataStream.setOptimizer (DataStream.setLearner (DataStream.create (c : ℤ)) l) o, []) samples = .ub) := by
  induction samples using List.reverseRecOn with
  | nil =>
    refine ⟨fun _ => ⟨_, rfl, fun h => absurd rfl h, rfl⟩, fun h => ?_⟩
    exact absurd h (by simp; omega)
  | append_singleton pre p ih =>
    have hup : DataStream.Uniform D F supervised pre := ⟨hu.1, hu.2.1, fun q hq => hu.2.2 q (by simp [hq])⟩
    obtain ⟨ih1, ih2⟩ := ih hup
    by_cases hpre : pre.length < c
    · obtain ⟨s, hs, hcache, hm⟩ := ih1 hpre
      obtain ⟨s', hs', hev'⟩ := DataStream.stream_steps_partial c hc l o D F supervised (pre ++ [p]) hu
      obtain ⟨s0, hs0, hev⟩ := DataStream.stream_steps_partial c hc l o D F supervised pre hup
      have e0 : s0 = s := by
        rw [hs] at hs0
        injection hs0 with h
        exact h.symm
      subst e0
      have hadd : DataStream.addSample s0 p.1 p.2 = .ok s' := by
        have h := hs'
        unfold DataStream.addSamples at h hs
        rw [List.foldlM_append, hs, ok_bind, List.foldlM_cons] at h
        obtain ⟨s1, h1, h2⟩ := Outcome.bind_eq_ok.1 h
        rw [h1]
        exact h2
      have hlen0 : s0.events.length = 0 := by
        rw [hev]; simp [DataStream.expectedEvents, Nat.div_eq_of_lt hpre]
      have hlen' : s'.events.length = (pre.length + 1) / c := by
        rw [hev']; simp [DataStream.expectedEvents]
      have hcopy : (if s0.cache = none then
          DataStream.initStream s0 p.1.length ((p.2.map List.length).getD 0) >>= fun s => Outcome.ok s.X
          else .ok (if pre = [] then [] else List.replicate c none)) = .ok (List.replicate c none) := by
        by_cases hp : pre = []
        · subst hp
          have e : DataStream.setOptimizer (DataStream.setLearner (DataStream.create (c : ℤ)) l) o = s0 := by
            injection hs
          have hn : s0.cache = none := by rw [← e]; rfl
          rw [if_pos hn]
          have h := hadd
          unfold DataStream.addSample at h
          split at h
          · obtain ⟨s1, h1, _⟩ := Outcome.bind_eq_ok.1 h
            rw [if_pos hn] at h1
            rw [h1, ok_bind, (initStream_fresh h1).1, ← e]
            rfl
          · cases h
        · rw [if_neg (hcache hp), if_neg hp]
      have hstep : addSamples (DataStream.setOptimizer (DataStream.setLearner (DataStream.create (c : ℤ)) l) o, []) (pre ++ [p]) =
          (if s0.events.length < s'.events.length then defined (List.replicate c (none : Option (List K))) else .ok []) >>= fun _ =>
            .ok (s', List.replicate c none) := by
        rw [addSamples_append, hm, ok_bind]
        unfold addSamples addSample
        dsimp only
        rw [hcopy, ok_bind, hadd, ok_bind, bind_assoc]
        rfl
      rw [hstep, hlen0, hlen']
      refine ⟨fun hlt => ⟨s', hs', fun _ => addSample_cache hadd, ?_⟩, fun hle => ?_⟩
      · rw [if_neg (by simp at hlt; rw [Nat.div_eq_of_lt hlt]; exact lt_irrefl _), ok_bind, if_neg (by simp)]
      · rw [if_pos (by simp at hle; exact Nat.div_pos hle hc), defined_replicate hc]
        rfl
    · refine ⟨fun h => absurd h (by simp; omega), fun _ => ?_⟩
      rw [addSamples_append, ih2 (by omega)]
      rfl

/-- **C107 is false of autoencoders in a data stream**: the copy is made before the first sample is stored, hence the first
optimisation step, after `c` samples, works with numbers that were never written. -/
theorem stream_sae_ub (c : ℕ) (hc : 0 < c) (l o D F : ℕ) (supervised : Bool) (samples : List (List K × Option (List K)))
    (hu : DataStream.Uniform D F supervised samples) (h : c ≤ samples.length) :
    addSamples (DataStream.setOptimizer (DataStream.setLearner (DataStream.create (c : ℤ)) l) o, []) samples = .ub :=
  (stream_prefix c hc l o D F supervised samples hu).2 h

/-- Two samples and a cache for two. -/
example : addSamples (DataStream.setOptimizer (DataStream.setLearner (DataStream.create 2) 0) 0, []) [([1], none), ([(2 : ℕ)], none)] = .ub :=
  stream_sae_ub 2 (by decide) 0 0 1 0 false _ ⟨by decide, by decide, by simp⟩ (by decide)

end

/-! ## Examples -/

section

/-- The data sets of the examples: data set 0 has two instances, all others have one. -/
def twoSets : ℕ → List ℕ := fun k => if k = 0 then [10, 11] else [20]

/-- An RBM sees the changes of its training set ... -/
example : seen .rbm (run (fun _ l => l.reverse) .rbm (World.start twoSets) [.trainingSet 0, .change 0 [1, 2, 3], .finishedIteration]) =
    .ok [1, 2, 3] := live_current _ (Or.inl rfl) twoSets _

/-- ... also a network, if the size is the same; it triggers the hook. -/
example : seen .net (run (fun _ l => l.reverse) .net (World.start twoSets) ([.predict [5]] ++ .trainingSet 0 :: [.change 0 [1, 2], .finishedIteration])) =
    .ok [2, 1] :=
  net_current_partial _ twoSets [.predict [5]] 0 [.change 0 [1, 2], .finishedIteration] (by simp [Op.Keeps]) rfl

example : seen .net (run (fun _ l => l) .net (World.start twoSets) [.trainingSet 0, .change 0 [7]]) = .checkFailed :=
  net_shrunk_fails _ (World.start twoSets) 0 (by decide)

example : (run (fun _ l => l.reverse) .net (World.start twoSets) ([.trainingSet 0] ++ [.finishedIteration])).sets 0 = [11, 10] :=
  net_tells (fun _ l => l.reverse) twoSets [.trainingSet 0] rfl

example : seen .sparseAutoEncoder (run (fun _ l => l) .sparseAutoEncoder (World.start twoSets)
    ([] ++ .trainingSet 0 :: [.change 1 [3], .removeTrainingSet])) = .ok [10, 11] :=
  sae_current_partial _ twoSets [] 0 [.change 1 [3], .removeTrainingSet] (by simp [Op.Aside]) rfl

example : seen .sparseAutoEncoder (run (fun _ l => l) .sparseAutoEncoder (World.start twoSets) [.matrices 0, .predict [1]]) = .ub :=
  sae_matrices_ub _ twoSets _ (by simp [Op.Aside])

end

end Verif.TrainingData

namespace Verif.TrainingData
variable {V : Type}

/-- Without training set the number of instances is zero. -/
theorem step_none (hook : ℕ → List V → List V) (kind : Kind) {w : World V} (h : w.trainSet = none → w.N = 0) (op : Op V) :
    (step hook kind w op).trainSet = none → (step hook kind w op).N = 0 := by
  cases op with
  | trainingSet k =>
    cases kind with
    | sparseAutoEncoder => exact h
    | _ => intro e; cases e
  | matrices k => intro e; cases e
  | removeTrainingSet => exact fun _ => rfl
  | change k rows => exact h
  | predict rows => exact h
  | propagate rows => cases kind <;> exact h
  | finishedIteration =>
    cases kind with
    | net =>
      unfold step
      cases ht : w.trainSet with
      | none => exact fun _ => h ht
      | some k =>
        intro e
        cases e
    | _ => exact h

/-- **C107 (no training set)**: a network that has no training set, or none any more, sums over no instances, whatever else was
called. -/
theorem net_without_set (hook : ℕ → List V → List V) (sets : ℕ → List V) (ops : List (Op V)) (h : given ops = none) :
    seen .net (run hook .net (World.start sets) ops) = .ok [] := by
  have hinv : ∀ (w : World V) (ops : List (Op V)), (w.trainSet = none → w.N = 0) →
      (run hook .net w ops).trainSet = none → (run hook .net w ops).N = 0 := by
    intro w ops
    induction ops generalizing w with
    | nil => exact fun h => h
    | cons op ops ih => exact fun h => ih (step hook .net w op) (step_none hook .net h op)
  have ht : (run hook .net (World.start sets) ops).trainSet = none := (run_trainSet hook (by decide) (World.start sets) ops).trans h
  simp only [seen, ht, hinv (World.start sets) ops (fun _ => rfl) ht]
  rfl

example : given [Op.trainingSet 0, .change 0 [1, 2], .finishedIteration, .removeTrainingSet, .predict [3]] = none := rfl

end Verif.TrainingData
