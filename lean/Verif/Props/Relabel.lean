import Verif.Props.Symmetry

/-!
# C133: the order of features, units and classes does not matter

A network with renamed features, hidden units and classes computes the same, with the names changed.
-/

namespace Verif.NN

open Finset

noncomputable section

/-! ## Specification -/

/-- Spec: the weight of a dense layer that takes the place of a weight if inputs are renamed by `α` and outputs by `β`. -/
def renameSlot (α β : ℕ → ℕ) : Slot → Slot
  | .w [j, i] => .w [β j, α i]
  | .b [j] => .b [β j]
  | s => s

/-- Spec: `ρ 0` renames the features, `ρ l` the outputs of layer `l`. -/
def relabel (ρ : ℕ → Equiv.Perm ℕ) (p : Loc) : Loc := (p.1, renameSlot (ρ (p.1 - 1)) (ρ p.1) p.2)

/-- Spec: the weights of the network with the new names. -/
def relabelled (ρ : ℕ → Equiv.Perm ℕ) (mem : Mem) : Mem := fun l s => mem (relabel ρ (l, s)).1 (relabel ρ (l, s)).2

/-- Spec: inputs and outputs of a fully connected layer can be renamed, for a compressed layer the outputs; other layers keep the names. -/
def Kind.Allows (α β : Equiv.Perm ℕ) : Kind → Prop
  | .fullyConnected _ _ _ _ => True
  | .compressed _ _ _ _ _ _ => α = 1
  | _ => α = 1 ∧ β = 1

/-- Spec: the names that `ρ m, ρ (m + 1), …` give in a network with `I` inputs and the layers `ks` are allowed. -/
def AllowsFrom (ρ : ℕ → Equiv.Perm ℕ) : ℕ → ℕ → List Kind → Prop
  | m, I, [] => ∀ i, ρ m i < I ↔ i < I
  | m, I, k :: ks => (∀ i, ρ m i < I ↔ i < I) ∧ k.Allows (ρ m) (ρ (m + 1)) ∧ AllowsFrom ρ (m + 1) (k.layer I).outputs ks

/-- Spec: the training set with renamed features and classes. -/
def TrainSet.relabelled (ds : TrainSet) (α β : ℕ → ℕ) : TrainSet := ⟨ds.samples, fun n i => ds.inst n (α i), fun n j => ds.tgt n (β j)⟩

/-! ## Layers -/

/-- A layer with renamed inputs, weights and outputs. -/
structure LayerSym (α : ℕ → ℕ) (τ : Slot → Slot) (β : ℕ → ℕ) (l : Layer) : Prop where
  forward : ∀ w N x, l.forward (fun s => w (τ s)) N (fun n i => x n (α i)) = fun n j => l.forward w N x n (β j)
  regError : ∀ w, l.regError (fun s => w (τ s)) = l.regError w
  derivs : ∀ w N x e, l.derivs (fun s => w (τ s)) N (fun n i => x n (α i)) (fun n j => e n (β j)) = fun s => l.derivs w N x e (τ s)
  back : ∀ w N x e stale, l.back (fun s => w (τ s)) N (fun n i => x n (α i)) (fun n j => e n (β j)) true stale =
    fun n i => l.back w N x e true stale n (α i)
  updated : ∀ w, l.updated (fun s => w (τ s)) = fun s => l.updated w (τ s)
  pointers : ∀ s ∈ l.pointers, τ s ∈ l.pointers

theorem layerSym_id (l : Layer) : LayerSym id id id l := ⟨fun _ _ _ => rfl, fun _ => rfl, fun _ _ _ _ => rfl, fun _ _ _ _ _ => rfl, fun _ => rfl, fun _ h => h⟩

theorem OutSym.layerSym {π : ℕ → ℕ} {l : Layer} (h : OutSym π l) : LayerSym id (rowSlot π) π l :=
  ⟨h.forward, h.regError, h.derivs, fun w N x e stale => h.back w N x e stale true, h.updated, h.pointers⟩

theorem InSym.layerSym {π : ℕ → ℕ} {l : Layer} (h : InSym π l) : LayerSym π (colSlot π) id l :=
  ⟨h.forward, h.regError, h.derivs, h.back, h.updated, h.pointers⟩

theorem LayerSym.comp {α α' β β' : ℕ → ℕ} {τ τ' : Slot → Slot} {l : Layer} (h : LayerSym α τ β l) (h' : LayerSym α' τ' β' l) :
    LayerSym (α ∘ α') (τ ∘ τ') (β ∘ β') l where
  forward w N x := by
    refine (h'.forward (fun s => w (τ s)) N fun n i => x n (α i)).trans ?_
    rw [h.forward]
    rfl
  regError w := (h'.regError fun s => w (τ s)).trans (h.regError w)
  derivs w N x e := by
    refine (h'.derivs (fun s => w (τ s)) N (fun n i => x n (α i)) fun n j => e n (β j)).trans ?_
    rw [h.derivs]
    rfl
  back w N x e stale := by
    refine (h'.back (fun s => w (τ s)) N (fun n i => x n (α i)) (fun n j => e n (β j)) stale).trans ?_
    rw [h.back]
    rfl
  updated w := by
    refine (h'.updated fun s => w (τ s)).trans ?_
    rw [h.updated]
    rfl
  pointers s hs := h.pointers _ (h'.pointers s hs)

theorem renameSlot_eq (α β : ℕ → ℕ) : colSlot α ∘ rowSlot β = renameSlot α β :=
  funext fun s => match s with
    | .w [] | .w [_] | .w [_, _] | .w (_ :: _ :: _ :: _) | .b [] | .b [_] | .b (_ :: _ :: _) => rfl

theorem renameSlot_id : renameSlot id id = id :=
  funext fun s => match s with
    | .w [] | .w [_] | .w [_, _] | .w (_ :: _ :: _ :: _) | .b [] | .b [_] | .b (_ :: _ :: _) => rfl

theorem colSlot_id : colSlot id = id :=
  funext fun s => match s with
    | .w [] | .w [_] | .w [_, _] | .w (_ :: _ :: _ :: _) | .b _ => rfl

theorem renameSlot_inv (α β : Equiv.Perm ℕ) (s : Slot) : renameSlot α.symm β.symm (renameSlot α β s) = s :=
  match s with
  | .w [] | .w [_] | .w (_ :: _ :: _ :: _) | .b [] | .b (_ :: _ :: _) => rfl
  | .w [j, i] => by simp [renameSlot]
  | .b [j] => by simp [renameSlot]

theorem Kind.Allows.layerSym {α β : Equiv.Perm ℕ} {I : ℕ} {k : Kind} (h : k.Allows α β) (hα : ∀ i, α i < I ↔ i < I)
    (hβ : ∀ j, β j < (k.layer I).outputs ↔ j < (k.layer I).outputs) : LayerSym α (renameSlot α β) β (k.layer I) := by
  cases k with
  | fullyConnected J bias act reg =>
    rw [← renameSlot_eq]
    exact (fullyConnected_inSym hα).layerSym.comp (fullyConnected_outSym hβ).layerSym
  | compressed J M bias act reg phi =>
    cases h
    have := (compressed_outSym (I := I) (M := M) (bias := bias) (act := act) (reg := reg) (phi := phi) hβ).layerSym
    rw [show rowSlot β = renameSlot id β by rw [← renameSlot_eq, colSlot_id]; rfl] at this
    exact this
  | _ =>
    obtain ⟨rfl, rfl⟩ := h
    have e : renameSlot (1 : Equiv.Perm ℕ) (1 : Equiv.Perm ℕ) = id := renameSlot_id
    rw [e]
    exact layerSym_id _

/-! ## Networks -/

/-- The layers `ls` from index `m` allow the names. -/
def ChainFrom (ρ : ℕ → Equiv.Perm ℕ) : ℕ → List Layer → Prop
  | _, [] => True
  | m, l :: ls => LayerSym (ρ m) (renameSlot (ρ m) (ρ (m + 1))) (ρ (m + 1)) l ∧ ChainFrom ρ (m + 1) ls

theorem AllowsFrom.bound {ρ : ℕ → Equiv.Perm ℕ} : ∀ {ks : List Kind} {m I : ℕ}, AllowsFrom ρ m I ks → ∀ i, ρ m i < I ↔ i < I
  | [], _, _, h => h
  | _ :: _, _, _, h => h.1

theorem AllowsFrom.chain {ρ : ℕ → Equiv.Perm ℕ} : ∀ {ks : List Kind} {m I : ℕ}, AllowsFrom ρ m I ks → ChainFrom ρ m (layersFrom I ks)
  | [], _, _, _ => trivial
  | _ :: _, _, _, h => ⟨h.2.1.layerSym h.1 h.2.2.bound, h.2.2.chain⟩

theorem AllowsFrom.last {ρ : ℕ → Equiv.Perm ℕ} : ∀ {ks : List Kind} {m I : ℕ}, AllowsFrom ρ m I ks →
    ∀ j, ρ (m + ks.length) j < outFrom I (layersFrom I ks) ↔ j < outFrom I (layersFrom I ks)
  | [], _, _, h => h
  | k :: ks, m, I, h => by
    have := h.2.2.last
    rwa [show m + 1 + ks.length = m + (k :: ks).length by simp; omega] at this

theorem AllowsFrom.symm {ρ : ℕ → Equiv.Perm ℕ} : ∀ {ks : List Kind} {m I : ℕ}, AllowsFrom ρ m I ks →
    AllowsFrom (fun l => (ρ l).symm) m I ks
  | [], m, I, h => fun i => by
    have := h ((ρ m).symm i)
    rw [Equiv.apply_symm_apply] at this
    exact this.symm
  | k :: ks, m, I, h => by
    refine ⟨fun i => ?_, ?_, h.2.2.symm⟩
    · have := h.1 ((ρ m).symm i)
      rw [Equiv.apply_symm_apply] at this
      exact this.symm
    · have := h.2.1
      cases k <;> simp_all [Kind.Allows, show ∀ σ : Equiv.Perm ℕ, σ.symm = σ⁻¹ from fun _ => rfl]

section

variable {ρ : ℕ → Equiv.Perm ℕ}

theorem relabelled_succ (mem : Mem) (m : ℕ) : relabelled ρ mem (m + 1) = fun s => mem (m + 1) (renameSlot (ρ m) (ρ (m + 1)) s) := rfl

theorem forwardFrom_relabelled (mem : Mem) (N : ℕ) : ∀ (ls : List Layer) (m : ℕ) (x : Batch), ChainFrom ρ m ls →
    forwardFrom (relabelled ρ mem) N (m + 1) ls (fun n i => x n (ρ m i)) =
      fun n j => forwardFrom mem N (m + 1) ls x n (ρ (m + ls.length) j)
  | [], m, x, _ => rfl
  | l :: ls, m, x, h => by
    rw [forwardFrom, forwardFrom, relabelled_succ, h.1.forward, forwardFrom_relabelled mem N ls (m + 1) _ h.2,
      show m + 1 + ls.length = m + (l :: ls).length by simp; omega]

theorem regFrom_relabelled (mem : Mem) : ∀ (ls : List Layer) (m : ℕ), ChainFrom ρ m ls →
    regFrom (relabelled ρ mem) (m + 1) ls = regFrom mem (m + 1) ls
  | [], _, _ => rfl
  | l :: ls, m, h => by rw [regFrom, regFrom, relabelled_succ, h.1.regError, regFrom_relabelled mem ls (m + 1) h.2]

/-- Error signals and derivatives behind the first layer. -/
theorem backFrom_relabelled (mem : Mem) (N : ℕ) (stale : ℕ → Batch) (e : Batch) (d : Mem) : ∀ (ls : List Layer) (m : ℕ) (x : Batch),
    ChainFrom ρ m ls →
    (1 ≤ m → (backFrom (relabelled ρ mem) N stale (m + 1) ls (fun n i => x n (ρ m i)) (fun n j => e n (ρ (m + ls.length) j)) d).1 =
      fun n i => (backFrom mem N stale (m + 1) ls x e d).1 n (ρ m i)) ∧
    ∀ l, m < l → l ≤ m + ls.length →
      (backFrom (relabelled ρ mem) N stale (m + 1) ls (fun n i => x n (ρ m i)) (fun n j => e n (ρ (m + ls.length) j)) d).2 l =
        fun s => (backFrom mem N stale (m + 1) ls x e d).2 l (renameSlot (ρ (l - 1)) (ρ l) s)
  | [], m, x, _ => ⟨fun _ => rfl, fun l h1 h2 => by simp at h2; omega⟩
  | a :: ls, m, x, h => by
    have ih := backFrom_relabelled mem N stale e d ls (m + 1) (a.forward (mem (m + 1)) N x) h.2
    rw [show m + 1 + ls.length = m + (a :: ls).length by simp; omega] at ih
    rw [backFrom_cons, backFrom_cons, relabelled_succ, h.1.forward]
    have ih1 := ih.1 (by omega)
    refine ⟨fun hm => ?_, fun l h1 h2 => ?_⟩
    · simp only [backStep, relabelled_succ, ih1]
      rw [show decide (m + 1 + 1 > 2) = true by simp; omega, h.1.back]
    · simp only [backStep, relabelled_succ, ih1]
      rw [h.1.derivs]
      by_cases hl : l = m + 1
      · subst hl
        rw [Function.update_self, Function.update_self]
        rfl
      · rw [Function.update_of_ne hl, Function.update_of_ne hl]
        exact ih.2 l (by omega) h2

theorem updatedFrom_relabelled {D : ℕ} {ls : List Layer} (hc : ChainFrom ρ 0 ls) (mem : Mem) :
    updatedFrom 0 (inputLayer D :: ls) (relabelled ρ mem) = relabelled ρ (updatedFrom 0 (inputLayer D :: ls) mem) := by
  have hs : ∀ (ls : List Layer) (m : ℕ), ChainFrom ρ m ls → ∀ (n : ℕ) (h : n < ls.length),
      LayerSym (ρ (m + n)) (renameSlot (ρ (m + n)) (ρ (m + n + 1))) (ρ (m + n + 1)) ls[n] := by
    intro ls
    induction ls with
    | nil => intro m _ n h; cases h
    | cons l ls ih =>
      intro m hc n h
      cases n with
      | zero => exact hc.1
      | succ n =>
        have := ih (m + 1) hc.2 n (by simpa using h)
        rw [show m + 1 + n = m + (n + 1) by omega] at this
        exact this
  have key : ∀ (m : Mem) (l : ℕ), updatedFrom 0 (inputLayer D :: ls) m l =
      if h : l < (inputLayer D :: ls).length then (inputLayer D :: ls)[l].updated (m l) else m l := by
    intro m l
    split
    · next h => simpa using updatedFrom_getElem (k := 0) (mem := m) h
    · next h => exact updatedFrom_ge (by omega)
  funext l
  cases l with
  | zero =>
    rw [key, dif_pos (by simp)]
    funext s
    show (relabelled ρ mem) 0 s = updatedFrom 0 (inputLayer D :: ls) mem 0 _
    rw [key, dif_pos (by simp)]
    rfl
  | succ l =>
    rw [key, relabelled_succ, relabelled_succ, key]
    split
    · next h =>
      have := (hs ls 0 hc l (by simpa using h)).updated (mem (l + 1))
      rw [Nat.zero_add] at this
      exact this
    · rfl

end

section

variable {D : ℕ} {ks : List Kind} (ce : Bool) {ρ : ℕ → Equiv.Perm ℕ} (ha : AllowsFrom ρ 0 D ks)

theorem softmax_perm {N F : ℕ} {β : Equiv.Perm ℕ} (hβ : ∀ j, β j < F ↔ j < F) (y : Batch) :
    softmax N F (fun n j => y n (β j)) = fun n j => softmax N F y n (β j) := by
  funext n j
  rw [softmax_eq, softmax_eq, sum_perm hβ fun k => Real.exp (y n k)]

theorem loss_perm (net : Net) {N : ℕ} {β : Equiv.Perm ℕ} (hβ : ∀ j, β j < net.outputs ↔ j < net.outputs) (Y T : Batch) :
    net.loss N (fun n j => Y n (β j)) (fun n j => T n (β j)) = net.loss N Y T := by
  unfold Net.loss crossEntropy meanSquaredError
  split
  · rw [sum_congr rfl fun n _ => sum_perm hβ fun j => T n j * Real.log (Y n j + 1e-10)]
  · rw [sum_congr rfl fun n _ => sum_perm hβ fun j => (Y n j - T n j) ^ 2]

include ha

theorem classes_bound (j : ℕ) : ρ ks.length j < (buildNet D ks ce).outputs ↔ j < (buildNet D ks ce).outputs := by
  rw [outputs_buildNet]
  have := ha.last j
  rwa [Nat.zero_add] at this

theorem output_relabelled (mem : Mem) (N : ℕ) (X : Batch) :
    (buildNet D ks ce).output (relabelled ρ mem) N (fun n i => X n (ρ 0 i)) =
      fun n j => (buildNet D ks ce).output mem N X n (ρ ks.length j) := by
  have h1 : (buildNet D ks ce).activations (relabelled ρ mem) N (fun n i => X n (ρ 0 i)) =
      fun n j => (buildNet D ks ce).activations mem N X n (ρ ks.length j) := by
    have := forwardFrom_relabelled mem N (layersFrom D ks) 0 X ha.chain
    rw [Nat.zero_add, Nat.zero_add, layersFrom_length] at this
    exact this
  unfold Net.output
  rw [h1]
  split
  · exact softmax_perm (classes_bound ce ha) _
  · rfl

theorem reg_relabelled (mem : Mem) :
    regFrom (relabelled ρ mem) 0 (buildNet D ks ce).layers = regFrom mem 0 (buildNet D ks ce).layers :=
  congrArg (0 + ·) (regFrom_relabelled mem (layersFrom D ks) 0 ha.chain)

/-- **C133 (predictions and errors)**: with renamed features, hidden units and classes the network has the same outputs under their new
names, and the same errors for the renamed training set. -/
theorem predict_relabelled (mem : Mem) :
    (∀ N X, (buildNet D ks ce).predictAll (relabelled ρ mem) N (fun n i => X n (ρ 0 i)) =
      fun n j => (buildNet D ks ce).predictAll mem N X n (ρ ks.length j)) ∧
    (∀ N X T, (buildNet D ks ce).value (relabelled ρ mem) N (fun n i => X n (ρ 0 i)) (fun n j => T n (ρ ks.length j)) =
      (buildNet D ks ce).value mem N X T) ∧
    (∀ ds n, (buildNet D ks ce).errorAt (relabelled ρ mem) (ds.relabelled (ρ 0) (ρ ks.length)) n = (buildNet D ks ce).errorAt mem ds n) ∧
    ∀ ds, (buildNet D ks ce).error (relabelled ρ mem) (ds.relabelled (ρ 0) (ρ ks.length)) = (buildNet D ks ce).error mem ds := by
  have hat : ∀ ds n, (buildNet D ks ce).errorAt (relabelled ρ mem) (ds.relabelled (ρ 0) (ρ ks.length)) n =
      (buildNet D ks ce).errorAt mem ds n := by
    intro ds n
    unfold Net.errorAt
    rw [reg_relabelled ce ha mem]
    refine congrArg (· + _) ?_
    have := output_relabelled ce ha mem 1 fun _ => ds.inst n
    rw [show (fun _ => (ds.relabelled (ρ 0) (ρ ks.length)).inst n : Batch) = fun _ i => ds.inst n (ρ 0 i) from rfl, this]
    exact loss_perm _ (classes_bound ce ha) _ fun _ => ds.tgt n
  refine ⟨output_relabelled ce ha mem, fun N X T => ?_, hat, fun ds => ?_⟩
  · rw [Net.value, Net.value, reg_relabelled ce ha, output_relabelled ce ha]
    exact congrArg _ (loss_perm _ (classes_bound ce ha) _ T)
  · unfold Net.error
    simp only [hat]
    rfl

omit ha in
/-- Spec: `σ` tells for each index of the parameter vector where the vector contains the weight that takes its place when features, units and
classes are renamed by `ρ`. -/
def _root_.Verif.NN.Net.Relabels (net : Net) (ρ : ℕ → Equiv.Perm ℕ) (σ : ℕ → ℕ) : Prop :=
  (∀ p, net.P ≤ p → σ p = p) ∧ ∀ (p : ℕ) (l : Loc), net.parameters[p]? = some l → net.parameters[σ p]? = some (relabel ρ l)

theorem relabel_mem {p : Loc} (hp : p ∈ (buildNet D ks ce).parameters) : relabel ρ p ∈ (buildNet D ks ce).parameters := by
  have hs : ∀ (ls : List Layer) (m : ℕ), ChainFrom ρ m ls → ∀ p ∈ locsFrom (m + 1) ls, relabel ρ p ∈ locsFrom (m + 1) ls := by
    intro ls
    induction ls with
    | nil => intro m _ p hp; cases hp
    | cons l ls ih =>
      intro m hc p hp
      rw [locsFrom, List.mem_append] at hp ⊢
      rcases hp with hp | hp
      · obtain ⟨s, hs, rfl⟩ := List.mem_map.1 hp
        exact Or.inl (List.mem_map.2 ⟨_, hc.1.pointers s hs, rfl⟩)
      · exact Or.inr (ih (m + 1) hc.2 p hp)
  exact hs (layersFrom D ks) 0 ha.chain p hp

omit ha in
theorem relabel_inv (p : Loc) : relabel (fun l => (ρ l).symm) (relabel ρ p) = p := Prod.ext rfl (renameSlot_inv _ _ p.2)

/-- **C133 (renaming in the parameter vector)**: every renaming is a permutation of the parameter vector. -/
theorem relabels_exists : ∃ σ : Equiv.Perm ℕ, (buildNet D ks ce).Relabels ρ σ := by
  have hnd := parameters_nodup D ks ce
  have hm : ∀ p ∈ (buildNet D ks ce).parameters, relabel ρ p ∈ (buildNet D ks ce).parameters := fun p hp => relabel_mem ce ha hp
  have hm' : ∀ p ∈ (buildNet D ks ce).parameters, relabel (fun l => (ρ l).symm) p ∈ (buildNet D ks ce).parameters :=
    fun p hp => relabel_mem ce ha.symm hp
  have hinv' : ∀ p, relabel ρ (relabel (fun l => (ρ l).symm) p) = p := relabel_inv (ρ := fun l => (ρ l).symm)
  generalize (buildNet D ks ce) = net at *
  classical
  let f : (Loc → Loc) → ℕ → ℕ := fun τ p => if hp : p < net.parameters.length then net.parameters.idxOf (τ net.parameters[p]) else p
  have hf : ∀ τ, (∀ p ∈ net.parameters, τ p ∈ net.parameters) → ∀ p (hp : p < net.parameters.length),
      ∃ hq : f τ p < net.parameters.length, net.parameters[f τ p] = τ net.parameters[p] := by
    intro τ hτ p hp
    have e : f τ p = net.parameters.idxOf (τ net.parameters[p]) := dif_pos hp
    have hlt := List.idxOf_lt_length_iff.2 (hτ _ (List.getElem_mem hp))
    refine ⟨e ▸ hlt, ?_⟩
    simp only [e]
    exact List.getElem_idxOf hlt
  have hinv : ∀ τ τ', (∀ p ∈ net.parameters, τ p ∈ net.parameters) → (∀ p ∈ net.parameters, τ' p ∈ net.parameters) →
      (∀ p, τ' (τ p) = p) → ∀ p, f τ' (f τ p) = p := by
    intro τ τ' hτ hτ' hi p
    by_cases hp : p < net.parameters.length
    · obtain ⟨hq, e⟩ := hf τ hτ p hp
      obtain ⟨hr, e'⟩ := hf τ' hτ' _ hq
      refine (hnd.getElem_inj_iff (hi := hr) (hj := hp)).1 ?_
      rw [e', e, hi]
    · have e : f τ p = p := dif_neg hp
      rw [e]
      exact dif_neg hp
  refine ⟨⟨f (relabel ρ), f (relabel fun l => (ρ l).symm), hinv _ _ hm hm' relabel_inv, hinv _ _ hm' hm hinv'⟩, ?_, ?_⟩
  · intro p hp
    exact dif_neg (by simpa [Net.P] using hp)
  · intro p l hl
    obtain ⟨hp, rfl⟩ := List.getElem?_eq_some_iff.1 hl
    obtain ⟨hq, e⟩ := hf _ hm p hp
    exact List.getElem?_eq_some_iff.2 ⟨hq, e⟩

/-- Writing the renamed parameters gives the renamed weights. -/
theorem setParameters_relabelled {net : Net} (hn : net = buildNet D ks ce) {σ : ℕ → ℕ} (hσ : net.Relabels ρ σ) (mem : Mem) (w : ℕ → ℝ) :
    net.setParameters (relabelled ρ mem) ((List.range net.P).map fun p => w (σ p)) =
      relabelled ρ (net.setParameters mem ((List.range net.P).map w)) := by
  have hnd : net.parameters.Nodup := by rw [hn]; exact parameters_nodup D ks ce
  have hinj : ∀ l, relabel ρ l ∈ net.parameters → l ∈ net.parameters := by
    intro l hl
    rw [hn] at hl ⊢
    have := relabel_mem ce ha.symm hl
    rwa [relabel_inv] at this
  have hup : ∀ m, updatedFrom 0 net.layers (relabelled ρ m) = relabelled ρ (updatedFrom 0 net.layers m) := by
    rw [hn]
    exact updatedFrom_relabelled ha.chain
  rw [Net.setParameters, Net.setParameters, ← hup]
  congr 1
  funext l s
  by_cases hp : (l, s) ∈ net.parameters
  · obtain ⟨p, hlt, e⟩ := List.getElem_of_mem hp
    have hq := hσ.2 p (l, s) (List.getElem?_eq_some_iff.2 ⟨hlt, e⟩)
    obtain ⟨hq, e'⟩ := List.getElem?_eq_some_iff.1 hq
    have h1 := writeAll_getElem (θ := (List.range net.P).map fun p => w (σ p)) (mem := relabelled ρ mem) hnd hlt
      (by simpa [Net.P] using hlt)
    have h2 := writeAll_getElem (θ := (List.range net.P).map w) (mem := mem) hnd hq (by simpa [Net.P] using hq)
    rw [e] at h1
    rw [e'] at h2
    rw [relabelled, h2]
    refine h1.trans ?_
    simp
  · have h1 := writeAll_of_notMem (θ := (List.range net.P).map fun p => w (σ p)) (mem := relabelled ρ mem) hp
    have h2 := writeAll_of_notMem (θ := (List.range net.P).map w) (mem := mem) (p := relabel ρ (l, s)) fun h => hp (hinj _ h)
    rw [relabelled, h2]
    exact h1

variable (hf : FitsFrom D ks) (hv : ∀ k ∈ ks, k.Visible)

include hf hv

/-- **C133 (gradient)**: with renamed parameters and the renamed training set, `errorGradient` returns the same value and the renamed
gradient, for any examples, whatever the weights and buffers contained before. -/
theorem errorGradient_relabelled {net : Net} (hn : net = buildNet D ks ce) {σ : ℕ → ℕ} (hσ : net.Relabels ρ σ) (mem : Mem) (sc : Scratch)
    (ds : TrainSet) (idx : List ℕ) (w : ℕ → ℝ) :
    (net.errorGradient (net.setParameters mem ((List.range net.P).map fun p => w (σ p))) sc (ds.relabelled (ρ 0) (ρ ks.length)) idx).1 =
      (net.errorGradient (net.setParameters mem ((List.range net.P).map w)) sc ds idx).1 ∧
    ∀ p, (net.errorGradient (net.setParameters mem ((List.range net.P).map fun p => w (σ p))) sc
        (ds.relabelled (ρ 0) (ρ ks.length)) idx).2.getD p 0 =
      (net.errorGradient (net.setParameters mem ((List.range net.P).map w)) sc ds idx).2.getD (σ p) 0 := by
  have hset := setParameters_relabelled ce ha hn hσ mem w
  have hdet := errorGradient_determined ce hf hv mem (relabelled ρ mem)
    (θ := (List.range net.P).map fun p => w (σ p)) (by simp [hn]) sc sc (ds := ds.relabelled (ρ 0) (ρ ks.length))
    (ds' := ds.relabelled (ρ 0) (ρ ks.length)) (idx := idx) fun _ _ => ⟨fun _ _ => rfl, fun _ _ => rfl⟩
  have hder := (parameters_one_to_one D ks ce).2.2.2.1
  rw [← hn] at hdet hder
  rw [hdet, hset]
  generalize net.setParameters mem ((List.range net.P).map w) = m
  have hX : selectRows (ds.relabelled (ρ 0) (ρ ks.length)).inst idx = fun n i => selectRows ds.inst idx n (ρ 0 i) := rfl
  have hT : selectRows (ds.relabelled (ρ 0) (ρ ks.length)).tgt idx = fun n j => selectRows ds.tgt idx n (ρ ks.length j) := rfl
  have hout := output_relabelled ce ha m idx.length (selectRows ds.inst idx)
  have hval := (predict_relabelled ce ha m).2.1 idx.length (selectRows ds.inst idx) (selectRows ds.tgt idx)
  rw [← hn] at hout hval
  refine ⟨hval, fun p => ?_⟩
  show (net.grad _ _ _ _ _).getD p 0 = (net.grad _ _ _ _ _).getD (σ p) 0
  have hb := (backFrom_relabelled (ρ := ρ) m idx.length sc.stale
    (fun n j => net.output m idx.length (selectRows ds.inst idx) n j - selectRows ds.tgt idx n j) sc.derivs (layersFrom D ks) 0
    (selectRows ds.inst idx) ha.chain).2
  rw [Nat.zero_add, Nat.zero_add, layersFrom_length] at hb
  have hlen : ∀ l ∈ net.parameters, 0 < l.1 ∧ l.1 ≤ ks.length := by
    intro l hl
    rw [hn] at hl
    have h1 := locsFrom_index (show l ∈ locsFrom 1 (layersFrom D ks) from hl)
    obtain ⟨n, l', h2, h3, _⟩ := mem_locsFrom_iff.1 (show l ∈ locsFrom 1 (layersFrom D ks) from hl)
    have := (List.getElem?_eq_some_iff.1 h2).1
    rw [layersFrom_length] at this
    omega
  have hback : ∀ (m : Mem) (X e : Batch) (l : Loc), 0 < l.1 → (backFrom m idx.length sc.stale 0 net.layers X e sc.derivs).2 l.1 l.2 =
      (backFrom m idx.length sc.stale 1 (layersFrom D ks) X e sc.derivs).2 l.1 l.2 := by
    intro m X e l hl
    rw [hn]
    show (backFrom m idx.length sc.stale 0 (inputLayer D :: layersFrom D ks) X e sc.derivs).2 l.1 l.2 = _
    rw [backFrom_cons]
    simp only [backStep]
    rw [Function.update_of_ne (by omega)]
    rfl
  rw [Net.grad, Net.grad, hX, hT, hout, hder]
  simp only [List.getD_eq_getElem?_getD, List.getElem?_map]
  cases hl : net.parameters[p]? with
  | some l =>
    have h1 := hlen l (List.mem_of_getElem? hl)
    rw [hσ.2 p l hl]
    simp only [Option.map_some, Option.getD_some]
    refine congrArg (· / _) ?_
    rw [hback _ _ _ _ h1.1, hback _ _ _ _ (show 0 < (relabel ρ l).1 from h1.1)]
    exact congrFun (hb l.1 h1.1 h1.2) l.2
  | none =>
    have hp := List.getElem?_eq_none_iff.1 hl
    rw [hσ.1 p hp, hl]
    rfl

/-- **C133 (parameter vector)**: the renamed parameter vector gives the renamed outputs for the renamed inputs. -/
theorem predictions_relabelled {net : Net} (hn : net = buildNet D ks ce) {σ : ℕ → ℕ} (hσ : net.Relabels ρ σ) (mem : Mem) (w : ℕ → ℝ)
    (N : ℕ) (X : Batch) (n : ℕ) {j : ℕ} (hj : j < net.outputs) :
    net.predictAll (net.setParameters mem ((List.range net.P).map fun p => w (σ p))) N (fun n i => X n (ρ 0 i)) n j =
      net.predictAll (net.setParameters mem ((List.range net.P).map w)) N X n (ρ ks.length j) := by
  have hset := setParameters_relabelled ce ha hn hσ mem w
  subst hn
  rw [parameters_determine ce hf hv mem (relabelled ρ mem) (by simp) N (X' := fun n i => X n (ρ 0 i)) (fun _ _ => rfl) hj, hset,
    (predict_relabelled ce ha _).1]

end

/-! ## Features and classes -/

theorem allows_one : ∀ (ks : List Kind) {ρ : ℕ → Equiv.Perm ℕ} {m I : ℕ}, (∀ l, m ≤ l → l ≤ m + ks.length → ρ l = 1) → AllowsFrom ρ m I ks
  | [], ρ, m, I, h => fun i => by rw [h m le_rfl (by simp)]; rfl
  | k :: ks, ρ, m, I, h => by
    refine ⟨fun i => by rw [h m le_rfl (by simp)]; rfl, ?_, allows_one ks fun l h1 h2 => h l (by omega) (by simp at h2 ⊢; omega)⟩
    have e1 := h m le_rfl (by simp)
    have e2 := h (m + 1) (by omega) (by simp)
    cases k <;> simp [Kind.Allows, e1, e2]

/-- The features of every network that begins with a fully connected layer can be renamed. -/
theorem features_allowed {D K : ℕ} {bias : Bool} {act : Act} {reg : Reg} (post : List Kind) {α : Equiv.Perm ℕ} (hα : ∀ i, α i < D ↔ i < D) :
    AllowsFrom (fun l => if l = 0 then α else 1) 0 D (.fullyConnected K bias act reg :: post) :=
  ⟨hα, trivial, allows_one post fun l h _ => if_neg (by omega)⟩

/-- The classes of every network that ends with a fully connected or compressed layer can be renamed. -/
theorem classes_allowed {D K : ℕ} (pre : List Kind) {h : Kind} (hh : h.Units K) {β : Equiv.Perm ℕ} (hβ : ∀ j, β j < K ↔ j < K) :
    AllowsFrom (fun l => if l = pre.length + 1 then β else 1) 0 D (pre ++ [h]) := by
  have key : ∀ (pre : List Kind) (m I n : ℕ), n = m + pre.length + 1 → AllowsFrom (fun l => if l = n then β else 1) m I (pre ++ [h]) := by
    intro pre
    induction pre with
    | nil =>
      intro m I n hn
      have e1 : (fun l => if l = n then β else 1 : ℕ → Equiv.Perm ℕ) m = 1 := if_neg (by simp at hn; omega)
      have e2 : (fun l => if l = n then β else 1 : ℕ → Equiv.Perm ℕ) (m + 1) = β := if_pos (by simp at hn; omega)
      refine ⟨fun i => by rw [e1]; rfl, ?_, fun i => ?_⟩
      · rw [e1]
        cases h with
        | fullyConnected _ _ _ _ => trivial
        | compressed _ _ _ _ _ _ => rfl
        | _ => exact hh.elim
      · rw [hh.outputs, e2]
        exact hβ i
    | cons k pre ih =>
      intro m I n hn
      have e1 : (fun l => if l = n then β else 1 : ℕ → Equiv.Perm ℕ) m = 1 := if_neg (by simp at hn; omega)
      have e2 : (fun l => if l = n then β else 1 : ℕ → Equiv.Perm ℕ) (m + 1) = 1 := if_neg (by simp at hn; omega)
      refine ⟨fun i => by rw [e1]; rfl, ?_, ih (m + 1) _ n (by simp at hn; omega)⟩
      rw [e1, e2]
      cases k <;> simp [Kind.Allows]
  exact key pre 0 D _ (by omega)

/-- The last feature becomes the first one, and two of three classes are exchanged, in a network with a hidden layer. -/
example : ∃ ρ : ℕ → Equiv.Perm ℕ, AllowsFrom ρ 0 4 [.fullyConnected 5 true .tanh ⟨0, 0, 0⟩, .fullyConnected 3 true .linear ⟨0, 0, 0⟩] ∧
    ρ 0 0 = 3 ∧ ρ 2 1 = 2 := by
  refine ⟨fun l => if l = 0 then Equiv.swap 0 3 else if l = 2 then Equiv.swap 1 2 else 1, ⟨?_, trivial, ?_, trivial, ?_⟩, rfl, rfl⟩
  · exact swap_lt_iff (by omega) (by omega)
  · exact fun _ => Iff.rfl
  · exact swap_lt_iff (J := 3) (by omega) (by omega)

/-- The order of the features matters for convolutional layers: with two pixels exchanged no weights compute the same. -/
theorem conv_order_fails : ∃ (π : Equiv.Perm ℕ) (mem : Mem), (∀ i, π i < 4 ↔ i < 4) ∧ ∀ mem' : Mem, ∃ x : ℕ → ℝ,
    (buildNet 4 [.conv ⟨1, 1, 4, 1, 1, 3, false, .linear, ⟨0, 0, 0⟩⟩] false).predict mem' (fun i => x (π i)) 0 ≠
      (buildNet 4 [.conv ⟨1, 1, 4, 1, 1, 3, false, .linear, ⟨0, 0, 0⟩⟩] false).predict mem x 0 := by
  refine ⟨Equiv.swap 0 3, fun _ s => if s = .w [0, 0, 0, 0] then 1 else 0, swap_lt_iff (by omega) (by omega), fun mem' =>
    ⟨fun i => if i = 0 then 1 else 0, ?_⟩⟩
  have e1 : (Equiv.swap 0 3 : Equiv.Perm ℕ) 0 = 3 := rfl
  have e2 : (Equiv.swap 0 3 : Equiv.Perm ℕ) 1 = 1 := rfl
  have e3 : (Equiv.swap 0 3 : Equiv.Perm ℕ) 2 = 2 := rfl
  simp [Net.predict, Net.output, Net.activations, buildNet, layersFrom, forwardFrom, inputLayer, Kind.layer, Conv.layer, Conv.activation, Conv.window,
    Conv.maxRow, Conv.maxCol, Conv.outIdx, Conv.inIdx, Act.map, Act.apply, Finset.sum_range_succ, e1, e2, e3]

end

end Verif.NN
