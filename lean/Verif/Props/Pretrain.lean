import Verif.Model.Pretrain
import Verif.Props.Parameters

/-!
# What becomes of a layer that was trained on its own: C105
-/

namespace Verif.Pretrain

open Verif.NN Verif.Train

noncomputable section

/-! ## Spec -/

/-- Spec: layer number `n` behind the input layer with the number of its inputs. -/
def kindAt : ℕ → List Kind → ℕ → Option (ℕ × Kind)
  | _, [], _ => none
  | I, k :: _, 0 => some (I, k)
  | I, k :: ks, n + 1 => kindAt (k.layer I).outputs ks n

/-- Spec: layer `l` with `I` inputs and `H` hidden units works with the weights and biases of `w`. -/
def Uses (l I H : ℕ) (w : Weights) (mem : Mem) : Prop :=
  (∀ j < H, ∀ i < I, mem l (.w [j, i]) = w (.w [j, i])) ∧ ∀ j < H, mem l (.b [j]) = w (.b [j])

/-- Spec: layer number `n` is a learner with `I` inputs and `H` hidden units whose weights the network trains. -/
def Learner (D : ℕ) (ks : List Kind) (n I H : ℕ) : Prop :=
  kindAt D ks n = some (I, .rbm H true) ∨ ∃ act lambda, kindAt D ks n = some (I, .sparseAutoEncoder H act lambda)

/-- Spec: a program that sets parameters before it evaluates the network for the first time. -/
def SetFirst : Prog → Prop
  | .done _ => True
  | .raise => False
  | .currentParameters next => ∀ v, SetFirst (next v)
  | .setParameters _ _ => True
  | .evaluate _ _ => False
  | .finishedIteration _ => False

/-- Spec: the call does not train layer `l` on its own. -/
def Call.Spares (l : ℕ) (c : Call) : Prop := ∀ w, c ≠ .learn l w

/-! ## Where the weights of a layer are -/

theorem getLayer_kindAt {D : ℕ} {ks : List Kind} {n I : ℕ} {k : Kind} (h : kindAt D ks n = some (I, k)) :
    getLayer D ks (n + 1) = .ok (I, .known k) := by
  have key : ∀ (ks : List Kind) (D n : ℕ), kindAt D ks n = some (I, k) →
      n < ks.length ∧ (getLayer.go D ks)[n]? = some (I, .known k) := by
    intro ks
    induction ks with
    | nil => intro D n h; simp [kindAt] at h
    | cons a ks ih =>
      intro D n h
      cases n with
      | zero => cases h; exact ⟨Nat.succ_pos _, rfl⟩
      | succ n =>
        obtain ⟨h1, h2⟩ := ih _ _ h
        exact ⟨Nat.succ_lt_succ h1, h2⟩
  obtain ⟨h1, h2⟩ := key ks D n h
  obtain ⟨hlt, hel⟩ := List.getElem?_eq_some_iff.1 h2
  rw [getLayer, Outcome.check_true (by omega), Outcome.ok_bind, Outcome.read_of_lt (by simpa using hlt)]
  exact congrArg Outcome.ok hel

theorem isParamFrom_kindAt {D : ℕ} {ks : List Kind} {n I : ℕ} {k : Kind} (h : kindAt D ks n = some (I, k)) (s : Slot) :
    IsParamFrom D ks n s ↔ k.IsParam I s := by
  induction ks generalizing D n with
  | nil => simp [kindAt] at h
  | cons a ks ih =>
    cases n with
    | zero => cases h; rfl
    | succ n => exact ih h

theorem mem_parameters {D : ℕ} {ks : List Kind} {ce : Bool} {n : ℕ} {s : Slot} :
    (n + 1, s) ∈ (buildNet D ks ce).parameters ↔ IsParamFrom D ks n s := by
  show (n + 1, s) ∈ locsFrom 1 (layersFrom D ks) ↔ _
  rw [Nat.add_comm, mem_locs_layersFrom]

theorem layers_kindAt {D : ℕ} {ks : List Kind} {n I : ℕ} {k : Kind} (h : kindAt D ks n = some (I, k)) :
    (layersFrom D ks)[n]? = some (k.layer I) := by
  induction ks generalizing D n with
  | nil => simp [kindAt] at h
  | cons a ks ih =>
    cases n with
    | zero => cases h; rfl
    | succ n => exact ih h

theorem ks_kindAt {D : ℕ} {ks : List Kind} {n I : ℕ} {k : Kind} (h : kindAt D ks n = some (I, k)) : ks[n]? = some k := by
  induction ks generalizing D n with
  | nil => simp [kindAt] at h
  | cons a ks ih =>
    cases n with
    | zero => cases h; rfl
    | succ n => exact ih h

theorem setParameters_kindAt {D : ℕ} {ks : List Kind} {ce : Bool} {n I : ℕ} {k : Kind} (h : kindAt D ks n = some (I, k))
    (hu : ∀ w, (k.layer I).updated w = w) (mem : Mem) (θ : List ℝ) :
    (buildNet D ks ce).setParameters mem θ (n + 1) = mem.writeAll (buildNet D ks ce).parameters θ (n + 1) := by
  obtain ⟨hlt, hel⟩ := List.getElem?_eq_some_iff.1 (layers_kindAt h)
  have hn : n + 1 < (buildNet D ks ce).layers.length := Nat.succ_lt_succ hlt
  have := updatedFrom_getElem (k := 0) (mem := mem.writeAll (buildNet D ks ce).parameters θ) hn
  rw [Nat.zero_add] at this
  rw [Net.setParameters, this]
  show ((layersFrom D ks)[n]).updated _ = _
  rw [hel, hu]

theorem uses_iff {l I H : ℕ} {w : Weights} {mem : Mem} :
    Uses l I H w mem ↔ ∀ s ∈ weightsThenBiases I H, mem l s = w s := by
  constructor
  · intro h s hs
    rcases mem_weightsThenBiases.1 hs with ⟨j, hj, i, hi, rfl⟩ | ⟨j, hj, rfl⟩
    · exact h.1 j hj i hi
    · exact h.2 j hj
  · intro h
    exact ⟨fun j hj i hi => h _ (mem_weightsThenBiases.2 (.inl ⟨j, hj, i, hi, rfl⟩)),
      fun j hj => h _ (mem_weightsThenBiases.2 (.inr ⟨j, hj, rfl⟩))⟩

theorem setOwn_uses (s : Pre) (l I H : ℕ) (w : Weights) : Uses l I H w (s.setOwn l I H w).net.mem :=
  uses_iff.2 fun _ hp => if_pos ⟨rfl, hp⟩

theorem Learner.kindAt {D : ℕ} {ks : List Kind} {n I H : ℕ} (h : Learner D ks n I H) :
    ∃ k, kindAt D ks n = some (I, k) ∧ (∀ w, (k.layer I).updated w = w) ∧
      (∀ s, s ∈ weightsThenBiases I H → k.IsParam I s) ∧
      ∀ ce w s, step D ks ce (.learn (n + 1) w) s = .ok (s.setOwn (n + 1) I H w) := by
  rcases h with h | ⟨act, lambda, h⟩
  · refine ⟨_, h, fun _ => rfl, fun s hs => ⟨rfl, mem_weightsThenBiases.1 hs⟩, fun ce w s => ?_⟩
    rw [step, getLayer_kindAt h, Outcome.ok_bind]
  · refine ⟨_, h, fun _ => rfl, fun s hs => mem_weightsThenBiases.1 hs, fun ce w s => ?_⟩
    rw [step, getLayer_kindAt h, Outcome.ok_bind]

/-- What a layer learned on its own is overwritten by the next parameters of the network. -/
theorem set_setOwn {D : ℕ} {ks : List Kind} {ce : Bool} {n I H : ℕ} (h : Learner D ks n I H) (s : Pre) (w : Weights)
    (θ : List ℝ) : (buildNet D ks ce).set (s.setOwn (n + 1) I H w).net θ = (buildNet D ks ce).set s.net θ := by
  obtain ⟨k, hk, _, hp, _⟩ := h.kindAt
  rw [Net.set, Net.set]
  by_cases hθ : θ.length < (buildNet D ks ce).P
  · rw [if_pos hθ, if_pos hθ]
  rw [if_neg hθ, if_neg hθ]
  refine congrArg (fun m => Outcome.ok (NetState.mk m θ)) (congrArg (updatedFrom 0 (buildNet D ks ce).layers) ?_)
  funext m p
  by_cases hm : (m, p) ∈ (buildNet D ks ce).parameters
  · obtain ⟨i, hi, e⟩ := List.getElem_of_mem hm
    have hi' : i < θ.length := lt_of_lt_of_le hi (not_lt.1 hθ)
    have h1 := writeAll_getElem (mem := (s.setOwn (n + 1) I H w).net.mem) (parameters_nodup D ks ce) hi hi'
    have h2 := writeAll_getElem (mem := s.net.mem) (parameters_nodup D ks ce) hi hi'
    rw [e] at h1 h2
    exact h1.trans h2.symm
  · rw [writeAll_of_notMem (p := (m, p)) hm, writeAll_of_notMem (p := (m, p)) hm]
    refine if_neg fun hc => hm ?_
    rw [show m = n + 1 from hc.1]
    exact mem_parameters.2 ((isParamFrom_kindAt hk p).2 (hp p hc.2))

/-- Setting the parameters that were read from the weights leaves a layer without constraint alone. -/
theorem set_read_uses {D : ℕ} {ks : List Kind} {ce : Bool} {n I H : ℕ} (h : Learner D ks n I H) {w : Weights} {mem : Mem}
    (hw : Uses (n + 1) I H w mem) :
    ∃ t, (buildNet D ks ce).set ((buildNet D ks ce).initialized mem)
        (Net.currentParameters ((buildNet D ks ce).initialized mem)) = .ok t ∧ Uses (n + 1) I H w t.mem := by
  obtain ⟨k, hk, hu, hp, _⟩ := h.kindAt
  have hlen : (Net.currentParameters ((buildNet D ks ce).initialized mem)).length = (buildNet D ks ce).P :=
    List.length_map _
  rw [Net.set, if_neg (by omega)]
  refine ⟨_, rfl, uses_iff.2 fun s hs => ?_⟩
  show (buildNet D ks ce).setParameters mem _ (n + 1) s = w s
  rw [setParameters_kindAt hk hu, ← uses_iff.1 hw s hs]
  obtain ⟨i, hi, e⟩ := List.getElem_of_mem
    ((mem_parameters (ce := ce)).2 ((isParamFrom_kindAt hk s).2 (hp s hs)))
  have h1 := writeAll_getElem (mem := mem) (parameters_nodup D ks ce) hi (lt_of_lt_of_eq hi hlen.symm)
  rw [e] at h1
  refine h1.trans ((List.getElem_map (l := (buildNet D ks ce).parameters) fun p => mem p.1 p.2).trans ?_)
  rw [e]

/-! ## An RBM that the network does not train -/

/-- **C105 (an RBM without backpropagation)**: whatever is done with the network afterwards, in any order and however often
(`initialize`, `setParameters` as in every training, training of other layers), the RBM keeps the weights that it learned. -/
theorem frozen_kept {D : ℕ} {ks : List Kind} {ce : Bool} {n I H : ℕ} (hk : kindAt D ks n = some (I, .rbm H false))
    (s : Pre) (w : Weights) {cs : List Call} (hcs : ∀ c ∈ cs, c.Spares (n + 1)) {t : Pre}
    (ht : run D ks ce (.learn (n + 1) w :: cs) s = .ok t) : Uses (n + 1) I H w t.net.mem ∧ t.own (n + 1) = w := by
  rw [run, step, getLayer_kindAt hk, Outcome.ok_bind, Outcome.ok_bind] at ht
  have key : ∀ (cs : List Call), (∀ c ∈ cs, c.Spares (n + 1)) → ∀ s t : Pre, Uses (n + 1) I H w s.net.mem →
      s.own (n + 1) = w → run D ks ce cs s = .ok t → Uses (n + 1) I H w t.net.mem ∧ t.own (n + 1) = w := by
    intro cs
    induction cs with
    | nil =>
      intro _ s t hs ho ht
      rw [run] at ht
      cases ht
      exact ⟨hs, ho⟩
    | cons c cs ih =>
      intro hcs s t hs ho ht
      rw [run] at ht
      obtain ⟨u, hu, ht⟩ := Outcome.bind_eq_ok.1 ht
      have hc := hcs c List.mem_cons_self
      have ih' := ih (fun c h => hcs c (List.mem_cons_of_mem _ h)) u t
      refine ih' ?_ ?_ ht
      · cases c with
        | learn l w' =>
          have hl : n + 1 ≠ l := fun e => hc w' (by rw [e])
          have hset : ∀ I' H', Uses (n + 1) I H w (s.setOwn l I' H' w').net.mem := by
            intro I' H'
            refine uses_iff.2 fun p hp => ?_
            rw [← uses_iff.1 hs p hp]
            exact if_neg fun h => hl h.1
          rw [step] at hu
          obtain ⟨r, _, hu⟩ := Outcome.bind_eq_ok.1 hu
          split at hu
          · cases hu; exact hset _ _
          · cases hu; exact hset _ _
          · cases hu
        | initializeNet draw =>
          rw [step] at hu
          cases hu
          refine uses_iff.2 fun p hp => ?_
          show initializeAll ks draw s.net.mem (n + 1) p = w p
          rw [initializeAll, ks_kindAt hk]
          exact uses_iff.1 hs p hp
        | setParameters θ =>
          rw [step] at hu
          obtain ⟨v, hv, hu⟩ := Outcome.bind_eq_ok.1 hu
          cases hu
          rw [Net.set] at hv
          split at hv
          · cases hv
          cases hv
          refine uses_iff.2 fun p hp => ?_
          show (buildNet D ks ce).setParameters s.net.mem θ (n + 1) p = w p
          rw [setParameters_kindAt hk fun _ => rfl, writeAll_of_notMem (p := (n + 1, p)), uses_iff.1 hs p hp]
          intro hm
          have := (isParamFrom_kindAt hk p).1 (mem_parameters.1 hm)
          cases this.1
      · cases c with
        | learn l w' =>
          have hl : n + 1 ≠ l := fun e => hc w' (by rw [e])
          have hset : ∀ I' H', (s.setOwn l I' H' w').own (n + 1) = w := fun _ _ => (if_neg hl).trans ho
          rw [step] at hu
          obtain ⟨r, _, hu⟩ := Outcome.bind_eq_ok.1 hu
          split at hu
          · cases hu; exact hset _ _
          · cases hu; exact hset _ _
          · cases hu
        | initializeNet draw => rw [step] at hu; cases hu; exact ho
        | setParameters θ =>
          rw [step] at hu
          obtain ⟨v, hv, hu⟩ := Outcome.bind_eq_ok.1 hu
          cases hu
          exact ho
  exact key cs hcs _ t (setOwn_uses s (n + 1) I H w) (if_pos rfl) ht

/-- Such a history, as in benchmarks/mnist/rbm.cpp but with an initialisation. -/
example (draw : Mem) (w : Weights) (s : Pre) : ∃ t, run 2 [.rbm 3 false, .fullyConnected 1 false .linear ⟨0, 0, 0⟩] false
    [.learn 1 w, .initializeNet draw, .setParameters [1, 2, 3]] s = .ok t := ⟨_, rfl⟩

/-! ## Initialisation of the network -/

/-- **C105 (an RBM survives `initialize`)**: if an RBM of the network was trained on its own and the network is initialised
then, the RBM keeps its weights, and `setParameters(currentParameters())`, with which an optimiser begins, does not change
them either. -/
theorem rbm_kept_by_initialize {D : ℕ} {ks : List Kind} {ce : Bool} {n I H : ℕ}
    (hk : kindAt D ks n = some (I, .rbm H true)) (s : Pre) (w : Weights) (draw : Mem) :
    ∃ t, run D ks ce [.learn (n + 1) w, .initializeNet draw] s = .ok t ∧ Uses (n + 1) I H w t.net.mem ∧
      ∃ u, run D ks ce [.setParameters (Net.currentParameters t.net)] t = .ok u ∧ Uses (n + 1) I H w u.net.mem := by
  obtain ⟨k, hk', _, _, hl⟩ := Learner.kindAt (.inl hk)
  refine ⟨_, by rw [run, hl, Outcome.ok_bind, run, step, Outcome.ok_bind, run], ?_⟩
  have hu : Uses (n + 1) I H w (initializeAll ks draw (s.setOwn (n + 1) I H w).net.mem) := by
    refine uses_iff.2 fun p hp => ?_
    rw [initializeAll, ks_kindAt hk]
    exact uses_iff.1 (setOwn_uses s (n + 1) I H w) p hp
  refine ⟨hu, ?_⟩
  obtain ⟨v, hv, hv'⟩ := set_read_uses (ce := ce) (.inl hk) hu
  refine ⟨⟨v, s.setOwn (n + 1) I H w |>.own⟩, ?_, hv'⟩
  rw [run, step, hv, Outcome.ok_bind, Outcome.ok_bind, run]

/-- What happens to the network does not depend on the copies of the parameters in the layers. -/
theorem run_net {D : ℕ} {ks : List Kind} {ce : Bool} (cs : List Call) {s t : Pre} (h : s.net = t.net) :
    Pre.net <$> run D ks ce cs s = Pre.net <$> run D ks ce cs t := by
  induction cs generalizing s t with
  | nil => exact congrArg Outcome.ok h
  | cons c cs ih =>
    rw [run, run]
    cases c with
    | learn l w =>
      rw [step, step]
      cases hg : getLayer D ks l with
      | ok r =>
        rw [Outcome.ok_bind, Outcome.ok_bind]
        have hset : ∀ I H, (s.setOwn l I H w).net = (t.setOwn l I H w).net := by
          intro I H
          rw [Pre.setOwn, Pre.setOwn, h]
        split
        · rw [Outcome.ok_bind, Outcome.ok_bind]; exact ih (hset _ _)
        · rw [Outcome.ok_bind, Outcome.ok_bind]; exact ih (hset _ _)
        · rfl
      | _ => rfl
    | initializeNet draw =>
      rw [step, step, Outcome.ok_bind, Outcome.ok_bind]
      refine ih ?_
      show (buildNet D ks ce).initialized _ = (buildNet D ks ce).initialized _
      rw [h]
    | setParameters θ =>
      rw [step, step, h]
      cases hg : (buildNet D ks ce).set t.net θ with
      | ok r =>
        simp only [Outcome.ok_bind]
        exact ih rfl
      | _ => rfl

/-- **C105 (an autoencoder does not survive `initialize`)**: if an autoencoder of the network was trained on its own and the
network is initialised then, nothing that the network does from then on depends on what the autoencoder learned. -/
theorem sae_initialize_fails {D : ℕ} {ks : List Kind} {ce : Bool} {n I H : ℕ} {act : Act} {lambda : ℝ}
    (hk : kindAt D ks n = some (I, .sparseAutoEncoder H act lambda)) (s : Pre) (w : Weights) (draw : Mem)
    (cs : List Call) :
    Pre.net <$> run D ks ce (.learn (n + 1) w :: .initializeNet draw :: cs) s =
      Pre.net <$> run D ks ce (.initializeNet draw :: cs) s := by
  obtain ⟨k, hk', _, _, hl⟩ := Learner.kindAt (.inr ⟨act, lambda, hk⟩)
  rw [run, hl, Outcome.ok_bind, run, run, step, step, Outcome.ok_bind, Outcome.ok_bind]
  refine run_net cs (congrArg (buildNet D ks ce).initialized ?_)
  funext m p
  cases m with
  | zero =>
    rw [initializeAll, initializeAll]
    show (if 0 = n + 1 ∧ p ∈ weightsThenBiases I H then w p else s.net.mem 0 p) = _
    exact if_neg fun h => absurd h.1 (Nat.succ_ne_zero n).symm
  | succ m =>
    by_cases hm : m = n
    · subst hm
      rw [initializeAll, initializeAll, ks_kindAt hk]
      cases p <;> rfl
    · have he : (s.setOwn (n + 1) I H w).net.mem (m + 1) = s.net.mem (m + 1) := by
        funext q
        exact if_neg fun h => hm (Nat.succ_injective h.1)
      rw [initializeAll, initializeAll, he]

/-- The weights of the autoencoder are new random numbers then, and the biases zero. -/
theorem sae_initialize_random {D : ℕ} {ks : List Kind} {ce : Bool} {n I H : ℕ} {act : Act} {lambda : ℝ}
    (hk : kindAt D ks n = some (I, .sparseAutoEncoder H act lambda)) (s : Pre) (w : Weights) (draw : Mem) :
    ∃ t, run D ks ce [.learn (n + 1) w, .initializeNet draw] s = .ok t ∧
      (∀ j i, t.net.mem (n + 1) (.w [j, i]) = draw (n + 1) (.w [j, i])) ∧ ∀ j, t.net.mem (n + 1) (.b [j]) = 0 := by
  obtain ⟨k, hk', _, _, hl⟩ := Learner.kindAt (.inr ⟨act, lambda, hk⟩)
  refine ⟨_, by rw [run, hl, Outcome.ok_bind, run, step, Outcome.ok_bind, run], ?_, ?_⟩
  · intro j i
    show initializeAll ks draw (s.setOwn (n + 1) I H w).net.mem (n + 1) _ = _
    rw [initializeAll, ks_kindAt hk]
    rfl
  · intro j
    show initializeAll ks draw (s.setOwn (n + 1) I H w).net.mem (n + 1) _ = _
    rw [initializeAll, ks_kindAt hk]
    rfl

/-! ## Training of the network without initialisation -/

/-- **C105 (training does not start from what the layer learned)**: the parameters from which an optimiser starts are the
same as before the layer was trained, and an optimiser that sets parameters before it evaluates the network for the first
time gets the same results, step by step, as if the layer had never been trained. -/
theorem training_forgets {D : ℕ} {ks : List Kind} {ce : Bool} {n I H : ℕ} (h : Learner D ks n I H)
    (eval : Mem → ℕ → List ℝ) {p : Prog} (hp : SetFirst p) (s : Pre) (w : Weights) :
    ∃ t, run D ks ce [.learn (n + 1) w] s = .ok t ∧ Uses (n + 1) I H w t.net.mem ∧
      Net.currentParameters t.net = Net.currentParameters s.net ∧
      exec (buildNet D ks ce) eval p t.net = exec (buildNet D ks ce) eval p s.net := by
  obtain ⟨k, hk', _, _, hl⟩ := h.kindAt
  refine ⟨s.setOwn (n + 1) I H w, by rw [run, hl, Outcome.ok_bind, run], setOwn_uses s (n + 1) I H w, rfl, ?_⟩
  induction p with
  | done θ => rw [exec, exec, set_setOwn h]
  | raise => exact hp.elim
  | currentParameters next ih =>
    rw [exec, exec]
    exact ih _ (hp _)
  | setParameters θ next ih => rw [exec, exec, set_setOwn h]
  | evaluate q next ih => exact hp.elim
  | finishedIteration next ih => exact hp.elim

/-- The same for single calls: with the first parameters that are set, what the layer learned is gone. -/
theorem setParameters_forgets {D : ℕ} {ks : List Kind} {ce : Bool} {n I H : ℕ} (h : Learner D ks n I H) (s : Pre)
    (w : Weights) (θ : List ℝ) (cs : List Call) :
    Pre.net <$> run D ks ce (.learn (n + 1) w :: .setParameters θ :: cs) s =
      Pre.net <$> run D ks ce (.setParameters θ :: cs) s := by
  obtain ⟨k, hk', _, _, hl⟩ := h.kindAt
  rw [run, hl, Outcome.ok_bind, run, run, step, step, set_setOwn h]
  cases hg : (buildNet D ks ce).set s.net θ with
  | ok r =>
    simp only [Outcome.ok_bind]
    exact run_net cs rfl
  | _ => rfl

/-- **C105 (`MBSGD` mixes both)**: without Nesterov momentum, the first gradient belongs to the weights that the layer
learned, but the step is made from the old parameters: after the first batch the weights of the network are the old parameters
plus that step. -/
theorem mbsgd_forgets {D : ℕ} {ks : List Kind} {ce : Bool} {n I H : ℕ} (h : Learner D ks n I H)
    (eval : Mem → ℕ → List ℝ) (move : List ℝ → List ℝ) (next : List ℝ → Prog) (s : Pre) (w : Weights)
    (hs : (Net.currentParameters s.net).length = (buildNet D ks ce).P)
    (hm : ∀ g, (move g).length = (buildNet D ks ce).P) :
    ∃ t u, run D ks ce [.learn (n + 1) w] s = .ok t ∧ Uses (n + 1) I H w t.net.mem ∧
      exec (buildNet D ks ce) eval (mbsgd move next) t.net =
        exec (buildNet D ks ce) eval (next (Net.currentParameters u)) u ∧
      ∀ (i : ℕ) (hi : i < (buildNet D ks ce).parameters.length), (buildNet D ks ce).parameters[i].1 = n + 1 →
        u.mem (n + 1) (buildNet D ks ce).parameters[i].2 =
          (Net.currentParameters s.net)[i]'(by rw [hs]; exact hi) +
            (move (eval t.net.mem 0))[i]'(by rw [hm]; exact hi) := by
  obtain ⟨k, hk', hu, _, hl⟩ := h.kindAt
  have hlen : (List.zipWith (· + ·) s.net.vector (move (eval (s.setOwn (n + 1) I H w).net.mem 0))).length =
      (buildNet D ks ce).P := by
    rw [List.length_zipWith, hm, show s.net.vector.length = _ from hs, Nat.min_self]
  refine ⟨s.setOwn (n + 1) I H w, ⟨(buildNet D ks ce).setParameters s.net.mem
        (List.zipWith (· + ·) s.net.vector (move (eval (s.setOwn (n + 1) I H w).net.mem 0))),
      List.zipWith (· + ·) s.net.vector (move (eval (s.setOwn (n + 1) I H w).net.mem 0))⟩,
    by rw [run, hl, Outcome.ok_bind, run], setOwn_uses s (n + 1) I H w, ?_, ?_⟩
  · rw [mbsgd, exec, exec, exec]
    have : Net.currentParameters (s.setOwn (n + 1) I H w).net = s.net.vector := rfl
    rw [this, set_setOwn h, Net.set, if_neg (by omega), Outcome.ok_bind]
    rfl
  · intro i hi e
    show (buildNet D ks ce).setParameters s.net.mem _ (n + 1) _ = _
    rw [setParameters_kindAt hk' hu]
    have h1 := writeAll_getElem (mem := s.net.mem) (parameters_nodup D ks ce) hi (lt_of_lt_of_eq hi hlen.symm)
    rw [e] at h1
    rw [h1, List.getElem_zipWith]
    rfl

/-- In a network that was initialised last and has no layer with a bound on its weights, weights and parameters agree, so that
it makes no difference whether the parameters are set before the first gradient or not. -/
theorem initialized_consistent {D : ℕ} {ks : List Kind} {ce : Bool} (h : Unconstrained ks) (mem : Mem) :
    (buildNet D ks ce).set ((buildNet D ks ce).initialized mem)
      (Net.currentParameters ((buildNet D ks ce).initialized mem)) = .ok ((buildNet D ks ce).initialized mem) := by
  have hlen : (Net.currentParameters ((buildNet D ks ce).initialized mem)).length = (buildNet D ks ce).P :=
    List.length_map _
  rw [Net.set, if_neg (by omega)]
  refine congrArg (fun m => Outcome.ok (NetState.mk m _)) ?_
  rw [setParameters_unconstrained (updated_of_unconstrained h)]
  funext m p
  by_cases hm : (m, p) ∈ (buildNet D ks ce).parameters
  · obtain ⟨i, hi, e⟩ := List.getElem_of_mem hm
    have h1 := writeAll_getElem (mem := mem) (parameters_nodup D ks ce) hi (lt_of_lt_of_eq hi hlen.symm)
    rw [e] at h1
    refine h1.trans ((List.getElem_map (l := (buildNet D ks ce).parameters) fun p => mem p.1 p.2).trans ?_)
    rw [e]
  · exact writeAll_of_notMem (p := (m, p)) hm

/-- **C105 (training a layer before the network is complete)**: if the layer was trained on its own before the output layer is
added, so that the parameters of the network are read afterwards, an optimiser that sets the parameters it read starts from
what the layer learned. -/
theorem before_output_layer {D : ℕ} {ks : List Kind} {ce : Bool} {n I H : ℕ} (h : Learner D ks n I H)
    (eval : Mem → ℕ → List ℝ) (next : Prog) {mem : Mem} {w : Weights} (hw : Uses (n + 1) I H w mem) :
    ∃ u, Uses (n + 1) I H w u.mem ∧
      exec (buildNet D ks ce) eval (.currentParameters fun v => .setParameters v next)
        ((buildNet D ks ce).initialized mem) = exec (buildNet D ks ce) eval next u := by
  obtain ⟨t, ht, hu⟩ := set_read_uses (ce := ce) h hw
  refine ⟨t, hu, ?_⟩
  rw [exec, exec, ht, Outcome.ok_bind]

/-- A network that starts with an autoencoder, and a program that sets parameters first. -/
example : Learner 2 [.sparseAutoEncoder 3 .logistic 0, .fullyConnected 1 true .linear ⟨0, 0, 0⟩] 0 2 3 ∧
    Learner 5 [.fullyConnected 2 true .tanh ⟨0, 0, 0⟩, .rbm 4 true] 1 2 4 ∧
    SetFirst (.currentParameters fun v => .setParameters v (.evaluate 0 fun g => .done g)) :=
  ⟨.inr ⟨_, _, rfl⟩, .inl rfl, fun _ => trivial⟩

/-! ## Copies -/

/-- **C105 (fine-tuning is not seen by the layer)**: after any calls other than its own training, `currentParameters` of the
layer, from which its own training starts again, is what it learned on its own. -/
theorem own_stale {D : ℕ} {ks : List Kind} {ce : Bool} {l : ℕ} {cs : List Call} (hcs : ∀ c ∈ cs, c.Spares l) :
    ∀ {s t : Pre}, run D ks ce cs s = .ok t → t.own l = s.own l := by
  induction cs with
  | nil => intro s t h; rw [run] at h; cases h; rfl
  | cons c cs ih =>
    intro s t h
    rw [run] at h
    obtain ⟨u, hu, h⟩ := Outcome.bind_eq_ok.1 h
    refine (ih (fun c h => hcs c (List.mem_cons_of_mem _ h)) h).trans ?_
    cases c with
    | learn m w =>
      have hl : l ≠ m := fun e => hcs _ List.mem_cons_self w (by rw [e])
      rw [step] at hu
      obtain ⟨r, _, hu⟩ := Outcome.bind_eq_ok.1 hu
      split at hu
      · cases hu; exact if_neg hl
      · cases hu; exact if_neg hl
      · cases hu
    | initializeNet draw => rw [step] at hu; cases hu; rfl
    | setParameters θ =>
      rw [step] at hu
      obtain ⟨v, hv, hu⟩ := Outcome.bind_eq_ok.1 hu
      cases hu
      rfl

/-- The network of the example: one RBM with one hidden unit. -/
def demo : Net := buildNet 1 [.rbm 1 true] false

/-- Weight 0 and bias `c`. -/
def demoWeights (c : ℝ) : Weights
  | .w _ => 0
  | .b _ => c

theorem demo_predict (mem : Mem) : demo.predict mem (fun _ => 0) 0 = Act.logistic.apply (mem 1 (.b [0])) := by
  simp [demo, buildNet, Net.predict, Net.output, Net.activations, layersFrom, forwardFrom, Kind.layer, NN.rbm, inputLayer,
    Act.map, dense, Weights.vec]

/-- **C105 (saving)**: `save` writes `currentParameters` (src/Net.cpp lines 217-221), which do not contain what a layer
learned on its own: a network with an RBM that was trained on its own and the network with the saved parameters give
different outputs. -/
theorem saved_parameters_fails : ∃ (s t u : Pre) (w : Weights) (x : ℕ → ℝ),
    s.net = demo.initialized s.net.mem ∧ run 1 [.rbm 1 true] false [.learn 1 w] s = .ok t ∧
    run 1 [.rbm 1 true] false [.setParameters (Net.currentParameters t.net)] t = .ok u ∧
    demo.predict t.net.mem x 0 ≠ demo.predict u.net.mem x 0 := by
  refine ⟨⟨demo.initialized fun _ => demoWeights 0, fun _ => demoWeights 0⟩, _, _, demoWeights 46, fun _ => 0, rfl, rfl, rfl, ?_⟩
  rw [demo_predict, demo_predict]
  intro h
  have h1 : Act.logistic.apply (46 : ℝ) = Act.logistic.apply (0 : ℝ) := h
  rw [Act.apply, Act.apply] at h1
  norm_num at h1

end

end Verif.Pretrain
