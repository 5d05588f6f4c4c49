import Verif.Model.AlglibNet
import Verif.Props.AlglibRuns
import Verif.Props.DeterminedGradient

/-!
# Batch optimisation of a network: C71, C72
-/

namespace Verif.Alglib

open NN

noncomputable section

/-- Spec: the error of the network with the parameters `θ`. -/
def netError (net : Net) (ds : TrainSet) (θ : List ℝ) : ℝ := net.error (net.setParameters (fun _ _ => 0) θ) ds

/-- Spec: value and gradient of the network with the parameters `θ` for a list of examples. -/
def netGradient (net : Net) (ds : TrainSet) (idx : List ℕ) (θ : List ℝ) : ℝ × List ℝ :=
  net.errorGradient (net.setParameters (fun _ _ => 0) θ) ⟨fun _ _ => 0, fun _ _ _ => 0⟩ ds idx

/-- Spec: the errors of the examples. -/
def netErrors (net : Net) (ds : TrainSet) (θ : List ℝ) : List ℝ :=
  (List.range ds.samples).map fun i => net.errorAt (net.setParameters (fun _ _ => 0) θ) ds i

/-- Spec: the errors and gradients of the examples. -/
def netJacobian (net : Net) (ds : TrainSet) (θ : List ℝ) : List ℝ × List (List ℝ) :=
  ((List.range ds.samples).map fun i => (netGradient net ds [i] θ).1, (List.range ds.samples).map fun i => (netGradient net ds [i] θ).2)

/-- What is known about the network: the parameter vector has `P` entries. -/
def HasParameters (net : Net) (t : NetState × Scratch) : Prop := t.1.vector.length = net.P

section

variable {D : ℕ} {ks : List Kind} (ce : Bool) (hf : FitsFrom D ks) (hv : ∀ k ∈ ks, k.Visible) (ds : TrainSet)
  (after : NetState → Scratch → Scratch)

theorem derivatives_length (D : ℕ) (ks : List Kind) (ce : Bool) : (buildNet D ks ce).derivatives.length = (buildNet D ks ce).P := by
  rw [(parameters_one_to_one D ks ce).2.2.2.1, Net.P]

theorem agree_refl (D F : ℕ) (idx : List ℕ) : TrainSet.Agree D F idx ds ds := fun _ _ => ⟨fun _ _ => rfl, fun _ _ => rfl⟩

theorem gradient_length (mem : Mem) (sc : Scratch) (idx : List ℕ) :
    ((buildNet D ks ce).errorGradient mem sc ds idx).2.length = (buildNet D ks ce).P := by
  rw [Net.errorGradient, Net.grad, List.length_map, derivatives_length]

include hf hv

/-- **C71, C72 (network, L-BFGS and CG)**: for every architecture whose weights are all in the parameter vector, every training set
and whatever the buffers contain, a network is an objective function in the sense of `Computes`. -/
theorem net_computes : Computes (netObject (buildNet D ks ce) ds after)
    (scalarAccess (netObject (buildNet D ks ce) ds after) (buildNet D ks ce).P) (HasParameters (buildNet D ks ce))
    (buildNet D ks ce).P (netError (buildNet D ks ce) ds) (netGradient (buildNet D ks ce) ds (List.range ds.samples)) where
  dimension _ := rfl
  current h := h
  set := by
    intro t v ht hl
    have h1 : ¬ v.length < (buildNet D ks ce).P := by omega
    let s : NetState := ⟨(buildNet D ks ce).setParameters t.1.mem v, v⟩
    refine ⟨(s, t.2), by simp [netObject, Net.set, h1, s], hl, ⟨(s, after s t.2), ?_, hl⟩, (s, after s t.2), ?_, hl⟩
    · show Outcome.ok _ = _
      rw [netError, error_determined ce hf hv (fun _ _ => 0) t.1.mem (le_of_eq hl.symm) rfl (agree_refl ds _ _ _)]
    · have h2 := gradient_length (D := D) (ks := ks) ce ds ((buildNet D ks ce).setParameters t.1.mem v) t.2 (List.range ds.samples)
      have h3 := firstEntries_ok h2
      simp only [scalarAccess, netObject, Net.errorGradientAll, Outcome.ok_bind, h3, Outcome.pure_eq, s]
      rw [netGradient, errorGradient_determined ce hf hv t.1.mem (fun _ _ => 0) (le_of_eq hl.symm) t.2 _ (agree_refl ds _ _ _)]
  finished := by
    intro t ht
    exact ⟨(t.1, after t.1 t.2), rfl, ht⟩

/-- **C71, C72 (network, LMA)**: likewise for the errors and gradients of the single examples. -/
theorem net_computes_lma : Computes (netObject (buildNet D ks ce) ds after)
    (vectorAccess (netObject (buildNet D ks ce) ds after)) (HasParameters (buildNet D ks ce))
    (buildNet D ks ce).P (netErrors (buildNet D ks ce) ds) (netJacobian (buildNet D ks ce) ds) where
  dimension _ := rfl
  current h := h
  set := by
    intro t v ht hl
    have h1 : ¬ v.length < (buildNet D ks ce).P := by omega
    let s : NetState := ⟨(buildNet D ks ce).setParameters t.1.mem v, v⟩
    have hV : ∀ k, ∃ sc, vectorValue (netObject (buildNet D ks ce) ds after) k (s, t.2) =
        .ok ((List.range k).map fun i => (buildNet D ks ce).errorAt ((buildNet D ks ce).setParameters (fun _ _ => 0) v) ds i,
          (s, sc)) := by
      intro k
      induction k with
      | zero => exact ⟨t.2, rfl⟩
      | succ k ih =>
        obtain ⟨sc, ih⟩ := ih
        refine ⟨after s sc, ?_⟩
        rw [vectorValue, ih, List.range_succ, List.map_append, List.map_singleton,
          errorAt_determined ce hf hv (fun _ _ => 0) t.1.mem (le_of_eq hl.symm) (n := k) (agree_refl ds _ _ _)]
        rfl
    have hD : ∀ k, ∃ sc, vectorDerivative (netObject (buildNet D ks ce) ds after) k (s, t.2) =
        .ok (((List.range k).map fun i => (netGradient (buildNet D ks ce) ds [i] v).1,
          (List.range k).map fun i => (netGradient (buildNet D ks ce) ds [i] v).2), (s, sc)) := by
      intro k
      induction k with
      | zero => exact ⟨t.2, rfl⟩
      | succ k ih =>
        obtain ⟨sc, ih⟩ := ih
        refine ⟨after s sc, ?_⟩
        have h2 := firstEntries_ok (gradient_length (D := D) (ks := ks) ce ds ((buildNet D ks ce).setParameters t.1.mem v) sc [k])
        rw [vectorDerivative, ih, List.range_succ, List.map_append, List.map_append]
        simp only [netObject, Outcome.ok_bind, h2, Outcome.pure_eq, s, List.map_cons, List.map_nil]
        rw [netGradient,
          errorGradient_determined ce hf hv t.1.mem (fun _ _ => 0) (le_of_eq hl.symm) sc ⟨fun _ _ => 0, fun _ _ _ => 0⟩
            (agree_refl ds _ _ _)]
    obtain ⟨sc, h2⟩ := hV ds.samples
    obtain ⟨sc', h3⟩ := hD ds.samples
    exact ⟨(s, t.2), by simp [netObject, Net.set, h1, s], hl, ⟨(s, sc), h2, hl⟩, (s, sc'), h3, hl⟩
  finished := by
    intro t ht
    exact ⟨(t.1, after t.1 t.2), rfl, ht⟩

/-- **C71 (training a network)**: whenever `optimize()` of an idle L-BFGS optimiser and then `result()` come to an end for a network,
without interrupt, the result is what the library, run on the error of the network as a function of the parameter vector,
returns for the parameters that the network had; the network has these parameters afterwards and computes the outputs that
belong to them. -/
theorem net_lbfgs {σ : Type} {size : σ → ℕ} {default : Stop} {L : Library σ ℝ (List ℝ)} (hL : L.Sized size) (hC : L.Counts)
    (hP : 0 < (buildNet D ks ce).P) {o o' : Opt σ} {t t' t'' : NetState × Scratch} (hi : o.iteration = -1)
    (ht : HasParameters (buildNet D ks ce) t) {x : List ℝ}
    (h : Optimize (lbfgs L (netObject (buildNet D ks ce) ds after)) (netObject (buildNet D ks ce) ds after) default
      (fun _ => false) o t (.ok (o', t')))
    (hr : result (netObject (buildNet D ks ce) ds after) o' t' = .ok (x, t'')) :
    (∃ s₀, L.create (min o.m (buildNet D ks ce).P) t.1.vector (o.stop.cond default) = some s₀ ∧
      Solves L (netError (buildNet D ks ce) ds) (netGradient (buildNet D ks ce) ds (List.range ds.samples)) s₀ x) ∧
    t''.1.vector = x ∧
    ∀ mem N X n, ∀ j < (buildNet D ks ce).outputs, (buildNet D ks ce).predictAll t''.1.mem N X n j =
      (buildNet D ks ce).predictAll ((buildNet D ks ce).setParameters mem x) N X n j := by
  rcases optimize_spec (M := lbfgs L (netObject (buildNet D ks ce) ds after)) hL hC
    (lbfgs_computes (net_computes ce hf hv ds after)) hP hi ht h with ⟨h1, _⟩ | ⟨o₁, t₁, s₀, h1, h2, _, _, _, h3, h4, _⟩
  · cases h1
  · injection h1 with h1
    injection h1 with h1 h5
    subst h1 h5
    have h6 : Solves L (netError (buildNet D ks ce) ds) (netGradient (buildNet D ks ce) ds (List.range ds.samples)) s₀
        o'.optimum := by
      rcases h4 with h4 | ⟨_, _, _, h4, _⟩
      · exact h4
      · cases h4
    by_cases hl : o'.optimum.length < (buildNet D ks ce).P
    · simp [result, netObject, Net.set, hl] at hr
    · simp only [result, netObject, Net.set, if_neg hl, Outcome.ok_bind, Outcome.pure_eq] at hr
      injection hr with hr
      injection hr with hr1 hr2
      subst hr1 hr2
      refine ⟨⟨s₀, h2, h6⟩, rfl, fun mem N X n j hj => ?_⟩
      exact parameters_determine ce hf hv t'.1.mem mem (by omega) N (fun _ _ => rfl) hj

end

end

end Verif.Alglib
