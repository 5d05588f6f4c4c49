import Verif.Model.Arch
import Verif.Props.Gradient
import Mathlib.Data.List.Nodup

/-!
# The parameter vector of a network: C17
-/

namespace Verif.NN

open Finset

noncomputable section

/-! ## Spec -/

/-- Spec: the weights and biases that a layer with `I` inputs learns, as a set.  `Extreme`, `IntrinsicPlasticity`, `Dropout`,
`MaxPooling` and `LocalResponseNormalization` have none, and an RBM without `backprop` none that the network trains. -/
def Kind.IsParam (I : ℕ) : Kind → Slot → Prop
  | .fullyConnected J bias _ _, s => (∃ j < J, ∃ i < I, s = .w [j, i]) ∨ (bias = true ∧ ∃ j < J, s = .b [j])
  | .compressed J M _ _ _ _, s => ∃ j < J, ∃ m < M, s = .w [j, m]
  | .rbm H backprop, s => backprop = true ∧ ((∃ j < H, ∃ i < I, s = .w [j, i]) ∨ ∃ j < H, s = .b [j])
  | .sparseAutoEncoder H _ _, s => (∃ j < H, ∃ i < I, s = .w [j, i]) ∨ ∃ j < H, s = .b [j]
  | .conv g, s => ∃ fmo < g.fmout, ∃ fmi < g.fmin,
      (∃ kr < g.kernelRows, ∃ kc < g.kernelCols, s = .w [fmo, fmi, kr, kc]) ∨ (g.bias = true ∧ s = .b [fmo, fmi])
  | .sub g bias _ _, s => ∃ fmo < g.fm, ∃ r < g.outRows, ∃ c < g.outCols,
      s = .w [fmo, r, c] ∨ (bias = true ∧ s = .b [fmo, r, c])
  | _, _ => False

/-- Spec: how many numbers these are. -/
def Kind.count (I : ℕ) : Kind → ℕ
  | .fullyConnected J bias _ _ => J * (I + bias.toNat)
  | .compressed J M _ _ _ _ => J * M
  | .rbm H backprop => if backprop then H * I + H else 0
  | .sparseAutoEncoder H _ _ => H * I + H
  | .conv g => g.fmout * (g.fmin * (g.kernelRows * g.kernelCols + g.bias.toNat))
  | .sub g bias _ _ => g.fm * (g.outRows * (g.outCols * (1 + bias.toNat)))
  | _ => 0

/-- Spec: sum of these counts over the layers of a network. -/
def countFrom : ℕ → List Kind → ℕ
  | _, [] => 0
  | I, k :: ks => k.count I + countFrom (k.layer I).outputs ks

/-- Spec: place `s` in layer `n` is a parameter (`n = 0` is the input layer). -/
def IsParamFrom : ℕ → List Kind → ℕ → Slot → Prop
  | _, [], _, _ => False
  | I, k :: _, 0, s => k.IsParam I s
  | I, k :: ks, n + 1, s => IsParamFrom (k.layer I).outputs ks n s

/-! ## Enumerations without repetitions -/

/-- Index number `i` of a place. -/
def Slot.at (i : ℕ) : Slot → ℕ
  | .w idx => idx.getD i 0
  | .b idx => idx.getD i 0

theorem nodup_flatMap_range {n : ℕ} {g : ℕ → List Slot} (tag : Slot → ℕ) (h1 : ∀ j < n, (g j).Nodup)
    (h2 : ∀ j < n, ∀ s ∈ g j, tag s = j) : ((List.range n).flatMap g).Nodup := by
  rw [List.nodup_flatMap]
  refine ⟨fun j hj => h1 j (List.mem_range.1 hj), ?_⟩
  refine List.Pairwise.imp_of_mem ?_ List.nodup_range
  intro a b ha hb hne s hs1 hs2
  exact hne ((h2 a (List.mem_range.1 ha) s hs1).symm.trans (h2 b (List.mem_range.1 hb) s hs2))

theorem nodup_map_range {n : ℕ} {f : ℕ → Slot} (tag : Slot → ℕ) (h : ∀ j < n, tag (f j) = j) :
    ((List.range n).map f).Nodup := by
  rw [List.map_eq_flatMap]
  refine nodup_flatMap_range tag (fun j _ => List.nodup_singleton _) ?_
  intro j hj s hs
  rw [List.mem_singleton.1 hs]
  exact h j hj

theorem denseSlots_nodup (I J : ℕ) (bias : Bool) : (denseSlots I J bias).Nodup := by
  refine nodup_flatMap_range (Slot.at 0) (fun j _ => ?_) ?_
  · rw [List.nodup_append]
    refine ⟨nodup_map_range (Slot.at 1) fun i _ => rfl, by cases bias <;> simp, ?_⟩
    intro a ha b hb
    obtain ⟨i, _, rfl⟩ := List.mem_map.1 ha
    cases bias
    · simp at hb
    · simp only [if_true, List.mem_singleton] at hb
      rw [hb]
      exact Slot.noConfusion
  · intro j _ s hs
    rcases List.mem_append.1 hs with hs | hs
    · obtain ⟨i, _, rfl⟩ := List.mem_map.1 hs
      rfl
    · cases bias
      · simp at hs
      · simp only [if_true, List.mem_singleton] at hs
        rw [hs]
        rfl

theorem mem_denseSlots {I J : ℕ} {bias : Bool} {s : Slot} :
    s ∈ denseSlots I J bias ↔ (∃ j < J, ∃ i < I, s = .w [j, i]) ∨ (bias = true ∧ ∃ j < J, s = .b [j]) := by
  cases bias <;> simp [denseSlots, eq_comm, exists_or, and_or_left]

theorem length_denseSlots (I J : ℕ) (bias : Bool) : (denseSlots I J bias).length = J * (I + bias.toNat) := by
  cases bias <;> simp [denseSlots, List.length_flatMap]

theorem weightsThenBiases_nodup (I J : ℕ) : (weightsThenBiases I J).Nodup := by
  rw [weightsThenBiases, List.nodup_append]
  refine ⟨?_, nodup_map_range (Slot.at 0) fun j _ => rfl, ?_⟩
  · refine nodup_flatMap_range (Slot.at 0) (fun j _ => nodup_map_range (Slot.at 1) fun i _ => rfl) ?_
    intro j _ s hs
    obtain ⟨i, _, rfl⟩ := List.mem_map.1 hs
    rfl
  · intro a ha b hb
    obtain ⟨j, _, hj⟩ := List.mem_flatMap.1 ha
    obtain ⟨i, _, rfl⟩ := List.mem_map.1 hj
    obtain ⟨j', _, rfl⟩ := List.mem_map.1 hb
    exact Slot.noConfusion

theorem mem_weightsThenBiases {I J : ℕ} {s : Slot} :
    s ∈ weightsThenBiases I J ↔ (∃ j < J, ∃ i < I, s = .w [j, i]) ∨ ∃ j < J, s = .b [j] := by
  simp [weightsThenBiases, eq_comm]

theorem length_weightsThenBiases (I J : ℕ) : (weightsThenBiases I J).length = J * I + J := by
  simp [weightsThenBiases, List.length_flatMap]

theorem Conv.slots_nodup (g : Conv) : g.slots.Nodup := by
  refine nodup_flatMap_range (Slot.at 0) (fun fmo _ => ?_) ?_
  · refine nodup_flatMap_range (Slot.at 1) (fun fmi _ => ?_) ?_
    · rw [List.nodup_append]
      refine ⟨?_, by cases g.bias <;> simp, ?_⟩
      · refine nodup_flatMap_range (Slot.at 2) (fun kr _ => nodup_map_range (Slot.at 3) fun kc _ => rfl) ?_
        intro kr _ s hs
        obtain ⟨kc, _, rfl⟩ := List.mem_map.1 hs
        rfl
      · intro a ha b hb
        obtain ⟨kr, _, h⟩ := List.mem_flatMap.1 ha
        obtain ⟨kc, _, rfl⟩ := List.mem_map.1 h
        cases hg : g.bias
        · simp [hg] at hb
        · simp only [hg, if_true, List.mem_singleton] at hb
          rw [hb]
          exact Slot.noConfusion
    · intro fmi _ s hs
      rcases List.mem_append.1 hs with hs | hs
      · obtain ⟨kr, _, h⟩ := List.mem_flatMap.1 hs
        obtain ⟨kc, _, rfl⟩ := List.mem_map.1 h
        rfl
      · cases hg : g.bias
        · simp [hg] at hs
        · simp only [hg, if_true, List.mem_singleton] at hs
          rw [hs]
          rfl
  · intro fmo _ s hs
    obtain ⟨fmi, _, hs⟩ := List.mem_flatMap.1 hs
    rcases List.mem_append.1 hs with hs | hs
    · obtain ⟨kr, _, h⟩ := List.mem_flatMap.1 hs
      obtain ⟨kc, _, rfl⟩ := List.mem_map.1 h
      rfl
    · cases hg : g.bias
      · simp [hg] at hs
      · simp only [hg, if_true, List.mem_singleton] at hs
        rw [hs]
        rfl

theorem Conv.mem_slots_iff (g : Conv) (s : Slot) :
    s ∈ g.slots ↔ ∃ fmo < g.fmout, ∃ fmi < g.fmin,
      (∃ kr < g.kernelRows, ∃ kc < g.kernelCols, s = .w [fmo, fmi, kr, kc]) ∨ (g.bias = true ∧ s = .b [fmo, fmi]) := by
  cases h : g.bias <;> simp [Conv.slots, h, eq_comm]

theorem Conv.length_slots (g : Conv) :
    g.slots.length = g.fmout * (g.fmin * (g.kernelRows * g.kernelCols + g.bias.toNat)) := by
  cases h : g.bias <;> simp [Conv.slots, h, List.length_flatMap]

theorem Pool.slots_nodup (g : Pool) (bias : Bool) : (g.slots bias).Nodup := by
  have hin : ∀ fmo r c, ∀ s ∈ (Slot.w [fmo, r, c] :: if bias then [Slot.b [fmo, r, c]] else []),
      s = .w [fmo, r, c] ∨ s = .b [fmo, r, c] := by
    intro fmo r c s hs
    cases bias
    · exact Or.inl (by simpa using hs)
    · simpa using hs
  refine nodup_flatMap_range (Slot.at 0) (fun fmo _ => ?_) ?_
  · refine nodup_flatMap_range (Slot.at 1) (fun r _ => ?_) ?_
    · refine nodup_flatMap_range (Slot.at 2) (fun c _ => by cases bias <;> simp) ?_
      intro c _ s hs
      rcases hin fmo r c s hs with h | h <;> rw [h] <;> rfl
    · intro r _ s hs
      obtain ⟨c, _, hs⟩ := List.mem_flatMap.1 hs
      rcases hin fmo r c s hs with h | h <;> rw [h] <;> rfl
  · intro fmo _ s hs
    obtain ⟨r, _, hs⟩ := List.mem_flatMap.1 hs
    obtain ⟨c, _, hs⟩ := List.mem_flatMap.1 hs
    rcases hin fmo r c s hs with h | h <;> rw [h] <;> rfl

theorem Pool.mem_slots_iff (g : Pool) (bias : Bool) (s : Slot) :
    s ∈ g.slots bias ↔ ∃ fmo < g.fm, ∃ r < g.outRows, ∃ c < g.outCols,
      s = .w [fmo, r, c] ∨ (bias = true ∧ s = .b [fmo, r, c]) := by
  cases bias <;> simp [Pool.slots]

theorem Pool.length_slots (g : Pool) (bias : Bool) :
    (g.slots bias).length = g.fm * (g.outRows * (g.outCols * (1 + bias.toNat))) := by
  cases bias <;> simp [Pool.slots, List.length_flatMap]

/-! ## Layers -/

theorem Kind.pointers_nodup (k : Kind) (I : ℕ) : (k.layer I).pointers.Nodup := by
  cases k with
  | fullyConnected J bias act reg => exact denseSlots_nodup I J bias
  | compressed J M bias act reg phi => exact denseSlots_nodup M J false
  | rbm H backprop =>
    cases backprop
    · exact List.nodup_nil
    · exact weightsThenBiases_nodup I H
  | sparseAutoEncoder H act lambda => exact weightsThenBiases_nodup I H
  | conv g => exact g.slots_nodup
  | sub g bias act reg => exact g.slots_nodup bias
  | _ => exact List.nodup_nil

theorem Kind.mem_pointers (k : Kind) (I : ℕ) (s : Slot) : s ∈ (k.layer I).pointers ↔ k.IsParam I s := by
  cases k with
  | fullyConnected J bias act reg => exact mem_denseSlots
  | compressed J M bias act reg phi =>
    show s ∈ denseSlots M J false ↔ _
    rw [mem_denseSlots]
    simp [Kind.IsParam]
  | rbm H backprop =>
    cases backprop
    · simp [Kind.layer, NN.rbm, Kind.IsParam]
    · show s ∈ weightsThenBiases I H ↔ _
      rw [mem_weightsThenBiases]
      simp [Kind.IsParam]
  | sparseAutoEncoder H act lambda => exact mem_weightsThenBiases
  | conv g => exact g.mem_slots_iff s
  | sub g bias act reg => exact g.mem_slots_iff bias s
  | _ => exact ⟨fun h => absurd h List.not_mem_nil, False.elim⟩

theorem Kind.length_pointers (k : Kind) (I : ℕ) : (k.layer I).pointers.length = k.count I := by
  cases k with
  | fullyConnected J bias act reg => exact length_denseSlots I J bias
  | compressed J M bias act reg phi => exact length_denseSlots M J false
  | rbm H backprop =>
    cases backprop
    · rfl
    · exact length_weightsThenBiases I H
  | sparseAutoEncoder H act lambda => exact length_weightsThenBiases I H
  | conv g => exact g.length_slots
  | sub g bias act reg => exact g.length_slots bias
  | _ => rfl

theorem Kind.derivPointers_eq (k : Kind) (I : ℕ) : (k.layer I).derivPointers = (k.layer I).pointers := by
  cases k <;> rfl

/-! ## Networks -/

theorem locsFrom_nodup : ∀ {ls : List Layer} {k : ℕ}, (∀ l ∈ ls, l.pointers.Nodup) → (locsFrom k ls).Nodup
  | [], _, _ => List.nodup_nil
  | l :: ls, k, h => by
    rw [locsFrom, List.nodup_append]
    refine ⟨(h l List.mem_cons_self).map fun a b e => (Prod.mk.inj e).2,
      locsFrom_nodup fun l' h' => h l' (List.mem_cons_of_mem _ h'), ?_⟩
    intro a ha b hb e
    obtain ⟨s, _, rfl⟩ := List.mem_map.1 ha
    have := locsFrom_index hb
    rw [← e] at this
    simp at this

theorem mem_layersFrom {I : ℕ} {ks : List Kind} {l : Layer} (h : l ∈ layersFrom I ks) :
    ∃ k ∈ ks, ∃ I', l = k.layer I' := by
  induction ks generalizing I with
  | nil => cases h
  | cons k ks ih =>
    rcases List.mem_cons.1 h with h | h
    · exact ⟨k, List.mem_cons_self, I, h⟩
    · obtain ⟨k', hk', I', e⟩ := ih h
      exact ⟨k', List.mem_cons_of_mem _ hk', I', e⟩

theorem mem_buildNet {D : ℕ} {ks : List Kind} {ce : Bool} {l : Layer} (h : l ∈ (buildNet D ks ce).layers) :
    l = inputLayer D ∨ ∃ k ∈ ks, ∃ I', l = k.layer I' := by
  rcases List.mem_cons.1 h with h | h
  · exact Or.inl h
  · exact Or.inr (mem_layersFrom h)

theorem parameters_nodup (D : ℕ) (ks : List Kind) (ce : Bool) : (buildNet D ks ce).parameters.Nodup := by
  refine locsFrom_nodup fun l hl => ?_
  rcases mem_buildNet hl with rfl | ⟨k, _, I', rfl⟩
  · exact List.nodup_nil
  · exact k.pointers_nodup I'

theorem mem_locs_layersFrom {I : ℕ} {ks : List Kind} {k n : ℕ} {s : Slot} :
    (k + n, s) ∈ locsFrom k (layersFrom I ks) ↔ IsParamFrom I ks n s := by
  induction ks generalizing I k n with
  | nil => simp [layersFrom, locsFrom, IsParamFrom]
  | cons a ks ih =>
    cases n with
    | zero =>
      rw [layersFrom, Nat.add_zero, mem_locsFrom_cons_self, IsParamFrom, a.mem_pointers]
    | succ n =>
      rw [layersFrom, mem_locsFrom_cons_succ (by omega), show k + (n + 1) = (k + 1) + n by omega, ih, IsParamFrom]

theorem length_locs_layersFrom {I : ℕ} {ks : List Kind} {k : ℕ} :
    (locsFrom k (layersFrom I ks)).length = countFrom I ks := by
  induction ks generalizing I k with
  | nil => rfl
  | cons a ks ih => rw [layersFrom, locsFrom, List.length_append, List.length_map, a.length_pointers, ih, countFrom]

/-- **C17 (one entry per weight)**: for every architecture, a place in the buffers of a layer occurs exactly once in the
parameter vector if it is one of the weights or biases that the layer learns, otherwise not at all; the vector of
derivatives names the same places in the same order; `dimension()` is the number of these weights and biases. -/
theorem parameters_one_to_one (D : ℕ) (ks : List Kind) (ce : Bool) :
    (∀ n s, IsParamFrom D ks n s → (buildNet D ks ce).parameters.count (n + 1, s) = 1) ∧
    (∀ n s, ¬ IsParamFrom D ks n s → (n + 1, s) ∉ (buildNet D ks ce).parameters) ∧
    (∀ s, (0, s) ∉ (buildNet D ks ce).parameters) ∧
    (buildNet D ks ce).derivatives = (buildNet D ks ce).parameters ∧
    (buildNet D ks ce).P = countFrom D ks := by
  have hp : (buildNet D ks ce).parameters = locsFrom 1 (layersFrom D ks) := rfl
  have hm : ∀ n s, (n + 1, s) ∈ (buildNet D ks ce).parameters ↔ IsParamFrom D ks n s := by
    intro n s
    rw [hp, Nat.add_comm, mem_locs_layersFrom]
  refine ⟨?_, ?_, ?_, ?_, ?_⟩
  · intro n s h
    exact List.count_eq_one_of_mem (parameters_nodup D ks ce) ((hm n s).2 h)
  · intro n s h h'
    exact h ((hm n s).1 h')
  · intro s h
    rw [hp] at h
    exact absurd (locsFrom_index h) (by simp)
  · refine derivLocs_eq fun l hl => ?_
    rcases mem_buildNet hl with rfl | ⟨k, _, I', rfl⟩
    · rfl
    · exact k.derivPointers_eq I'
  · rw [Net.P, hp, length_locs_layersFrom]

/-- The parameter vector is the concatenation of the parameters of the layers. -/
theorem parameters_concatenation (D : ℕ) (ks : List Kind) (ce : Bool) :
    (buildNet D ks ce).parameters =
      ((buildNet D ks ce).layers.zipIdx.map fun l => l.1.pointers.map fun s => (l.2, s)).flatten := by
  have : ∀ (ls : List Layer) (k : ℕ),
      locsFrom k ls = ((ls.zipIdx k).map fun l => l.1.pointers.map fun s => (l.2, s)).flatten := by
    intro ls
    induction ls with
    | nil => intro k; rfl
    | cons l ls ih => intro k; rw [locsFrom, ih, List.zipIdx_cons, List.map_cons, List.flatten_cons]
  exact this _ 0

/-! ## Writing and reading -/

theorem writeAll_of_notMem {ps : List Loc} {θ : List ℝ} {mem : Mem} {p : Loc} (h : p ∉ ps) :
    mem.writeAll ps θ p.1 p.2 = mem p.1 p.2 := by
  induction ps generalizing θ mem with
  | nil => rfl
  | cons a ps ih =>
    cases θ with
    | nil => rfl
    | cons v θ =>
      have := ih (θ := θ) (mem := mem.write a v) (fun h' => h (List.mem_cons_of_mem _ h'))
      rw [show mem.writeAll (a :: ps) (v :: θ) = (mem.write a v).writeAll ps θ from rfl, this, Mem.write]
      exact if_neg fun e => h (by rw [show p = a from e]; exact List.mem_cons_self)

theorem writeAll_getElem {ps : List Loc} {θ : List ℝ} {mem : Mem} (hn : ps.Nodup) {i : ℕ} (hi : i < ps.length)
    (hθ : i < θ.length) : mem.writeAll ps θ ps[i].1 ps[i].2 = θ[i] := by
  induction ps generalizing θ mem i with
  | nil => cases hi
  | cons a ps ih =>
    rw [List.nodup_cons] at hn
    cases θ with
    | nil => cases hθ
    | cons v θ =>
      rw [show mem.writeAll (a :: ps) (v :: θ) = (mem.write a v).writeAll ps θ from rfl]
      cases i with
      | zero =>
        simp only [List.getElem_cons_zero]
        rw [writeAll_of_notMem hn.1, Mem.write]
        exact if_pos rfl
      | succ i =>
        simp only [List.getElem_cons_succ]
        exact ih hn.2 _ _

theorem updatedFrom_lt {ls : List Layer} {k n : ℕ} {mem : Mem} (h : n < k) : updatedFrom k ls mem n = mem n := by
  induction ls generalizing k mem with
  | nil => rfl
  | cons l ls ih => rw [updatedFrom, ih (by omega), Function.update_of_ne (by omega)]

/-- `updatedParameters` is called once for each layer. -/
theorem updatedFrom_getElem {ls : List Layer} {k n : ℕ} {mem : Mem} (h : n < ls.length) :
    updatedFrom k ls mem (k + n) = ls[n].updated (mem (k + n)) := by
  induction ls generalizing k n mem with
  | nil => cases h
  | cons l ls ih =>
    rw [updatedFrom]
    cases n with
    | zero =>
      show updatedFrom (k + 1) ls _ k = l.updated (mem k)
      rw [updatedFrom_lt (by omega), Function.update_self]
    | succ n =>
      have := ih (k := k + 1) (n := n) (mem := Function.update mem k (l.updated (mem k)))
        (by simpa using h)
      rw [show k + 1 + n = k + (n + 1) by omega] at this
      rw [this, Function.update_of_ne (by omega)]
      rfl

theorem updatedFrom_ge {ls : List Layer} {k n : ℕ} {mem : Mem} (h : k + ls.length ≤ n) :
    updatedFrom k ls mem n = mem n := by
  induction ls generalizing k mem with
  | nil => rfl
  | cons l ls ih =>
    rw [List.length_cons] at h
    rw [updatedFrom, ih (by omega), Function.update_of_ne (by omega)]

/-- Without constraints, `updatedParameters` changes nothing. -/
theorem setParameters_unconstrained {net : Net} {mem : Mem} {θ : List ℝ}
    (hu : ∀ l ∈ net.layers, ∀ w, l.updated w = w) :
    net.setParameters mem θ = mem.writeAll net.parameters θ := by
  funext n
  rw [Net.setParameters]
  by_cases h : n < net.layers.length
  · have := updatedFrom_getElem (k := 0) (mem := mem.writeAll net.parameters θ) h
    rw [Nat.zero_add] at this
    rw [this, hu _ (List.getElem_mem h)]
  · exact updatedFrom_ge (by omega)

/-- Spec: no layer has a bound on the norm of its weights. -/
def Unconstrained (ks : List Kind) : Prop := ∀ k ∈ ks, ∀ J bias act reg, k = .fullyConnected J bias act reg → reg.maxNorm ≤ 0

theorem maxNormUpdate_nonpos {I : ℕ} {m : ℝ} (h : m ≤ 0) (w : Weights) : maxNormUpdate I m w = w := by
  funext s
  unfold maxNormUpdate
  split
  · exact if_neg fun h' => absurd h'.1 (not_lt.2 h)
  · rfl

theorem updated_of_unconstrained {D : ℕ} {ks : List Kind} {ce : Bool} (h : Unconstrained ks) :
    ∀ l ∈ (buildNet D ks ce).layers, ∀ w, l.updated w = w := by
  intro l hl w
  rcases mem_buildNet hl with rfl | ⟨k, hk, I', rfl⟩
  · rfl
  · cases k with
    | fullyConnected J bias act reg => exact maxNormUpdate_nonpos (h _ hk J bias act reg rfl) w
    | _ => rfl

/-- **C17 (setParameters)**: with `dimension()` entries the call succeeds, `currentParameters` returns the vector, entry `i` is
stored in the place that pointer `i` names, and no other number changes. -/
theorem setParameters_stores {D : ℕ} {ks : List Kind} {ce : Bool} (h : Unconstrained ks) (s : NetState) {θ : List ℝ}
    (hθ : θ.length = (buildNet D ks ce).P) :
    ∃ s', (buildNet D ks ce).set s θ = .ok s' ∧ Net.currentParameters s' = θ ∧
      (∀ (i : ℕ) (hi : i < (buildNet D ks ce).parameters.length),
        s'.mem (buildNet D ks ce).parameters[i].1 (buildNet D ks ce).parameters[i].2 =
          θ[i]'(by rw [hθ]; exact hi)) ∧
      ∀ p, p ∉ (buildNet D ks ce).parameters → s'.mem p.1 p.2 = s.mem p.1 p.2 := by
  refine ⟨⟨(buildNet D ks ce).setParameters s.mem θ, θ⟩, ?_, rfl, ?_, ?_⟩
  · rw [Net.set, if_neg (by omega)]
  · intro i hi
    show (buildNet D ks ce).setParameters s.mem θ _ _ = _
    rw [setParameters_unconstrained (updated_of_unconstrained h)]
    exact writeAll_getElem (parameters_nodup D ks ce) hi _
  · intro p hp
    show (buildNet D ks ce).setParameters s.mem θ _ _ = _
    rw [setParameters_unconstrained (updated_of_unconstrained h)]
    exact writeAll_of_notMem hp

/-- A vector that is too short is read out of bounds. -/
theorem setParameters_short_ub (net : Net) (s : NetState) {θ : List ℝ} (hθ : θ.length < net.P) : net.set s θ = .ub :=
  if_pos hθ

/-- After `initialize` the vector holds the numbers in the weights. -/
theorem initialized_vector (net : Net) (mem : Mem) (i : ℕ) (hi : i < net.P) :
    (Net.currentParameters (net.initialized mem))[i]? = some (mem (net.parameters[i]'hi).1 (net.parameters[i]'hi).2) := by
  show (net.parameters.map fun p => mem p.1 p.2)[i]? = _
  rw [List.getElem?_map, List.getElem?_eq_getElem hi]
  rfl

/-- The first entries of a parameter vector for a small network with an image input. -/
example : ∃ ks : List Kind, Unconstrained ks ∧ (buildNet 36 ks true).P = 2 * (9 + 1) + 3 * (2 * 16 + 1) :=
  ⟨[.conv ⟨1, 6, 6, 2, 3, 3, true, .tanh, ⟨0, 0, 0⟩⟩, .fullyConnected 3 true .linear ⟨0, 0, 0⟩], by
    intro k hk J bias act reg e
    simp only [List.mem_cons, List.not_mem_nil, or_false] at hk
    rcases hk with rfl | rfl
    · cases e
    · cases e
      exact le_refl _, by
    rw [(parameters_one_to_one _ _ _).2.2.2.2]
    rfl⟩

end

end Verif.NN
