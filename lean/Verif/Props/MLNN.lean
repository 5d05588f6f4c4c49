import Verif.Model.MLNN
import Verif.Props.Parameters
import Verif.Props.Activation

/-!
# Multilayer networks compute the textbook function of the parameter vector (C76)
-/

namespace Verif.NN

open Finset

noncomputable section

/-- Spec: number of weights of a multilayer perceptron with `I` inputs and layers of the given sizes. -/
def mlpSize : ℕ → List ℕ → ℕ
  | _, [] => 0
  | I, J :: Js => J * (I + 1) + mlpSize J Js

/-- Spec: the textbook function.  The weights are taken from the sequence `θ`: layer after layer, unit after unit, for each
unit the weights of its inputs and then the bias. -/
def mlp : ℕ → List (ℕ × (ℝ → ℝ)) → (ℕ → ℝ) → (ℕ → ℝ) → ℕ → ℝ
  | _, [], _, x => x
  | I, (J, f) :: ls, θ, x =>
    mlp J ls (fun p => θ (J * (I + 1) + p)) fun j => f (∑ i ∈ range I, θ (j * (I + 1) + i) * x i + θ (j * (I + 1) + I))

/-- The layers of `makeMLNN` for the spec. -/
def shape (g h : ℝ → ℝ) (hidden : List ℕ) (F : ℕ) : List (ℕ × (ℝ → ℝ)) := hidden.map (fun J => (J, g)) ++ [(F, h)]

/-- The calls of `makeMLNN`. -/
def mlnnKinds (reg : Reg) (g h : Act) (hidden : List ℕ) (F : ℕ) : List Kind :=
  hidden.map (fun J => .fullyConnected J true g reg) ++ [.fullyConnected F true h reg]

/-! ## What `makeMLNN` builds -/

theorem hiddenLayers_eq (g : Act) (reg : Reg) (hidden : List ℕ) (more : List ℤ) :
    hiddenLayers g reg (hidden.map (fun j : ℕ => (j : ℤ)) ++ more) hidden.length =
      .ok (hidden.map fun J => .fullyConnected J true g reg) := by
  have h := forLoop_eq (n := hidden.length) (body := fun i (ks : List Kind) => do
    let j ← Outcome.read (hidden.map (fun j : ℕ => (j : ℤ)) ++ more) i
    if j < 0 then .ub else pure (ks ++ [Kind.fullyConnected j.toNat true g reg]))
    (fun i => (hidden.take i).map fun J => Kind.fullyConnected J true g reg) (by
      intro i hi
      have hl : i < (hidden.map (fun j : ℕ => (j : ℤ)) ++ more).length := by
        rw [List.length_append, List.length_map]
        omega
      rw [Outcome.read_of_lt hl, Outcome.ok_bind, List.getElem_append_left (by rw [List.length_map]; exact hi), List.getElem_map,
        if_neg (by omega), Int.toNat_natCast, List.take_add_one, List.getElem?_eq_getElem hi, List.map_append]
      rfl)
  rw [List.take_length] at h
  exact h

/-- **C76 (layers)**: with as many arguments as hidden layers, `makeMLNN` gives a network with the hidden layers in the order
of the arguments and the output layer; further arguments are ignored. -/
theorem makeMLNN_builds (reg : Reg) (ce : Bool) (g h : Act) (D F : ℕ) (hidden : List ℕ) (more : List ℤ) :
    makeMLNN reg ce g h D F hidden.length (hidden.map (fun j : ℕ => (j : ℤ)) ++ more) =
      .ok (buildNet D (mlnnKinds reg g h hidden F) ce) := by
  rw [makeMLNN, if_neg (by omega), hiddenLayers_eq, Outcome.ok_bind, if_neg (by omega), Int.toNat_natCast, Int.toNat_natCast]
  rfl

/-- A number of hidden layers that is not positive gives a network without hidden layers. -/
theorem makeMLNN_none (reg : Reg) (ce : Bool) (g h : Act) (D F : ℕ) {H : ℤ} (hH : H ≤ 0) (args : List ℤ) :
    makeMLNN reg ce g h D F H args = .ok (buildNet D [.fullyConnected F true h reg] ce) := by
  rw [makeMLNN, if_neg (by omega), hiddenLayers, Int.toNat_of_nonpos hH, forLoop, Outcome.ok_bind, if_neg (by omega),
    Int.toNat_natCast, Int.toNat_natCast]
  rfl

/-- With fewer arguments than hidden layers, arguments that do not exist are read. -/
theorem makeMLNN_few_ub (reg : Reg) (ce : Bool) (g h : Act) (D F : ℕ) {H : ℤ} {hidden : List ℕ} (hH : (hidden.length : ℤ) < H) :
    makeMLNN reg ce g h D F H (hidden.map fun j : ℕ => (j : ℤ)) = .ub := by
  have h1 := hiddenLayers_eq g reg hidden []
  rw [List.append_nil] at h1
  obtain ⟨m, hm⟩ : ∃ m, H.toNat = hidden.length + 1 + m := ⟨H.toNat - (hidden.length + 1), by omega⟩
  have h2 : hiddenLayers g reg (hidden.map fun j : ℕ => (j : ℤ)) H = .ub := by
    rw [hiddenLayers, hm]
    clear hm
    induction m with
    | zero =>
      rw [Nat.add_zero, forLoop]
      rw [hiddenLayers, Int.toNat_natCast] at h1
      rw [h1, Outcome.ok_bind, Outcome.read_of_ge (by rw [List.length_map])]
      rfl
    | succ m ih =>
      rw [← Nat.add_assoc, forLoop, ih]
      rfl
  rw [makeMLNN, if_neg (by omega), h2]
  rfl

/-- **C76 (number of parameters)** -/
theorem mlnn_size (reg : Reg) (ce : Bool) (g h : Act) (D F : ℕ) (hidden : List ℕ) :
    (buildNet D (mlnnKinds reg g h hidden F) ce).P = mlpSize D (hidden ++ [F]) := by
  rw [(parameters_one_to_one D _ ce).2.2.2.2]
  induction hidden generalizing D with
  | nil => simp [mlnnKinds, mlpSize, countFrom, Kind.count]
  | cons J hidden ih =>
    have := ih J
    simp only [mlnnKinds, List.map_cons, List.cons_append, countFrom, mlpSize] at this ⊢
    rw [show ((Kind.fullyConnected J true g reg).layer D).outputs = J from rfl, this]
    rfl

/-! ## What it computes -/

theorem denseSlots_get {I J j : ℕ} (hj : j < J) :
    (∀ i < I, (denseSlots I J true)[j * (I + 1) + i]? = some (.w [j, i])) ∧ (denseSlots I J true)[j * (I + 1) + I]? = some (.b [j]) := by
  induction J with
  | zero => omega
  | succ J ih =>
    have hl := length_denseSlots I J true
    have hs : denseSlots I (J + 1) true = denseSlots I J true ++ ((List.range I).map (fun i => Slot.w [J, i]) ++ [Slot.b [J]]) := by
      simp [denseSlots, List.range_succ]
    rw [hs]
    rw [show true.toNat = 1 from rfl] at hl
    by_cases h : j < J
    · have hb : ∀ i ≤ I, j * (I + 1) + i < (denseSlots I J true).length := by
        intro i hi
        rw [hl]
        have : (j + 1) * (I + 1) ≤ J * (I + 1) := Nat.mul_le_mul_right _ h
        rw [Nat.add_mul, Nat.one_mul] at this
        omega
      exact ⟨fun i hi => by rw [List.getElem?_append_left (hb i hi.le)]; exact (ih h).1 i hi,
        by rw [List.getElem?_append_left (hb I le_rfl)]; exact (ih h).2⟩
    · obtain rfl : j = J := by omega
      refine ⟨fun i hi => ?_, ?_⟩
      · rw [List.getElem?_append_right (by omega), hl, Nat.add_sub_cancel_left, List.getElem?_append_left (by simpa using hi),
          List.getElem?_map, List.getElem?_range hi]
        rfl
      · rw [List.getElem?_append_right (by omega), hl, Nat.add_sub_cancel_left, List.getElem?_append_right (by simp)]
        simp

/-- The kinds of `makeMLNN`, for the induction. -/
def denseKinds (reg : Reg) (ls : List (ℕ × Act)) : List Kind := ls.map fun l => .fullyConnected l.1 true l.2 reg

theorem forward_mlp (reg : Reg) (N : ℕ) : ∀ (ls : List (ℕ × Act)) (I k : ℕ) (mem : Mem) (θ : ℕ → ℝ) (X : Batch) (x : ℕ → ℝ) (n : ℕ),
    (∀ q p, (locsFrom k (layersFrom I (denseKinds reg ls)))[q]? = some p → mem p.1 p.2 = θ q) → (∀ i < I, X n i = x i) →
    ∀ j < (ls.getLast?.map Prod.fst).getD I,
      forwardFrom mem N k (layersFrom I (denseKinds reg ls)) X n j = mlp I (ls.map fun l => (l.1, l.2.apply)) θ x j
  | [], _, _, _, _, _, _, _, _, hX, j, hj => hX j hj
  | (J, f) :: ls, I, k, mem, θ, X, x, n, hm, hX, j, hj => by
    have hlocs : locsFrom k (layersFrom I (denseKinds reg ((J, f) :: ls))) =
        (denseSlots I J true).map (fun s => (k, s)) ++ locsFrom (k + 1) (layersFrom J (denseKinds reg ls)) := rfl
    rw [hlocs] at hm
    have hlen : ((denseSlots I J true).map (fun s => (k, s))).length = J * (I + 1) := by
      rw [List.length_map, length_denseSlots]
      rfl
    have hfirst : ∀ q s, (denseSlots I J true)[q]? = some s → mem k s = θ q := by
      intro q s hq
      refine hm q (k, s) ?_
      rw [List.getElem?_append_left (by
        rw [List.length_map]
        exact (List.getElem?_eq_some_iff.1 hq).1), List.getElem?_map, hq]
      rfl
    refine forward_mlp reg N ls J (k + 1) mem _ _ _ n ?_ ?_ j ?_
    · intro q p hq
      refine hm _ p ?_
      rw [← hlen, List.getElem?_append_right (Nat.le_add_right _ _), Nat.add_sub_cancel_left]
      exact hq
    · intro j hj
      show f.apply (∑ i ∈ range I, X n i * mem k (.w [j, i]) + mem k (.b [j])) = _
      rw [hfirst _ _ (denseSlots_get hj).2]
      congr 2
      refine sum_congr rfl fun i hi => ?_
      rw [hfirst _ _ ((denseSlots_get hj).1 i (mem_range.1 hi)), hX i (mem_range.1 hi), mul_comm]
    · cases ls with
      | nil => exact hj
      | cons l ls =>
        rw [List.getLast?_cons_cons] at hj
        cases h : (l :: ls).getLast? with
        | none => simp at h
        | some z =>
          rw [h] at hj
          exact hj

theorem mlnn_activations (ce : Bool) {reg : Reg} (hreg : reg.maxNorm ≤ 0) (g h : Act) (D F : ℕ) (hidden : List ℕ) (mem : Mem) {θ : List ℝ}
    (hθ : mlpSize D (hidden ++ [F]) ≤ θ.length) (N : ℕ) (X : Batch) (n : ℕ) {j : ℕ} (hj : j < F) :
    (buildNet D (mlnnKinds reg g h hidden F) ce).activations
      ((buildNet D (mlnnKinds reg g h hidden F) ce).setParameters mem θ) N X n j =
      mlp D (shape g.apply h.apply hidden F) (fun p => θ.getD p 0) (X n) j := by
  have hk : mlnnKinds reg g h hidden F = denseKinds reg (hidden.map (fun J => (J, g)) ++ [(F, h)]) := by
    simp [mlnnKinds, denseKinds]
  have hu : Unconstrained (mlnnKinds reg g h hidden F) := by
    intro k hk' J bias act reg' e
    rw [hk, denseKinds, List.mem_map] at hk'
    obtain ⟨l, _, rfl⟩ := hk'
    injection e with _ _ _ e4
    rw [← e4]
    exact hreg
  rw [setParameters_unconstrained (updated_of_unconstrained hu)]
  have hP := mlnn_size reg ce g h D F hidden
  have hsh : shape g.apply h.apply hidden F = (hidden.map (fun J => (J, g)) ++ [(F, h)]).map fun l => (l.1, l.2.apply) := by
    simp [shape]
  rw [hsh]
  show forwardFrom _ N 1 (layersFrom D (mlnnKinds reg g h hidden F)) X n j = _
  rw [hk]
  refine forward_mlp reg N _ D 1 _ _ X (X n) n ?_ (fun _ _ => rfl) j ?_
  · intro q p hq
    have hq' : (buildNet D (mlnnKinds reg g h hidden F) ce).parameters[q]? = some p := by
      rw [hk]
      exact hq
    obtain ⟨hlt, rfl⟩ := List.getElem?_eq_some_iff.1 hq'
    have hlt' : q < θ.length := by
      have : (buildNet D (mlnnKinds reg g h hidden F) ce).parameters.length = mlpSize D (hidden ++ [F]) := hP
      omega
    rw [← hk, writeAll_getElem (parameters_nodup D _ ce) hlt hlt']
    rw [List.getD, List.getElem?_eq_getElem hlt']
    rfl
  · rw [List.getLast?_append]
    exact hj

/-- **C76 (function)**: for every parameter vector, every batch and every row, the outputs of a network that was made with
`makeMLNN` are the textbook function of the parameters and of the row (mean squared error). -/
theorem mlnn_computes {reg : Reg} (hreg : reg.maxNorm ≤ 0) (g h : Act) (D F : ℕ) (hidden : List ℕ) (mem : Mem) {θ : List ℝ}
    (hθ : mlpSize D (hidden ++ [F]) ≤ θ.length) (N : ℕ) (X : Batch) (n : ℕ) {j : ℕ} (hj : j < F) :
    (buildNet D (mlnnKinds reg g h hidden F) false).predictAll
      ((buildNet D (mlnnKinds reg g h hidden F) false).setParameters mem θ) N X n j =
      mlp D (shape g.apply h.apply hidden F) (fun p => θ.getD p 0) (X n) j :=
  mlnn_activations false hreg g h D F hidden mem hθ N X n hj

theorem mlnn_outputs (reg : Reg) (ce : Bool) (g h : Act) (D F : ℕ) (hidden : List ℕ) :
    (buildNet D (mlnnKinds reg g h hidden F) ce).outputs = F := by
  have : ∀ D, layersFrom D (mlnnKinds reg g h hidden F) ≠ [] ∧
      ((layersFrom D (mlnnKinds reg g h hidden F)).getLast?.map Layer.outputs).getD 0 = F := by
    induction hidden with
    | nil => exact fun D => ⟨by simp [mlnnKinds, layersFrom], rfl⟩
    | cons J hidden ih =>
      intro D
      obtain ⟨h1, h2⟩ := ih J
      have e : layersFrom D (mlnnKinds reg g h (J :: hidden) F) =
          NN.fullyConnected D J true g reg :: layersFrom J (mlnnKinds reg g h hidden F) := rfl
      rw [e]
      refine ⟨by simp, ?_⟩
      obtain ⟨a, l, hl⟩ := List.exists_cons_of_ne_nil h1
      rw [hl, List.getLast?_cons_cons, ← hl]
      exact h2
  obtain ⟨h1, h2⟩ := this D
  show ((inputLayer D :: layersFrom D (mlnnKinds reg g h hidden F)).getLast?.map Layer.outputs).getD 0 = F
  obtain ⟨a, l, hl⟩ := List.exists_cons_of_ne_nil h1
  rw [hl, List.getLast?_cons_cons, ← hl]
  exact h2

/-- **C76 (function, cross entropy)**: with the error function `CE` the outputs are the softmax of the textbook function. -/
theorem mlnn_computes_ce {reg : Reg} (hreg : reg.maxNorm ≤ 0) (g h : Act) (D F : ℕ) (hidden : List ℕ) (mem : Mem) {θ : List ℝ}
    (hθ : mlpSize D (hidden ++ [F]) ≤ θ.length) (N : ℕ) (X : Batch) (n : ℕ) {j : ℕ} (hj : j < F) :
    (buildNet D (mlnnKinds reg g h hidden F) true).predictAll
      ((buildNet D (mlnnKinds reg g h hidden F) true).setParameters mem θ) N X n j =
      Real.exp (mlp D (shape g.apply h.apply hidden F) (fun p => θ.getD p 0) (X n) j) /
        ∑ k ∈ range F, Real.exp (mlp D (shape g.apply h.apply hidden F) (fun p => θ.getD p 0) (X n) k) := by
  show softmax N (buildNet D (mlnnKinds reg g h hidden F) true).outputs _ n j = _
  rw [softmax_eq, mlnn_outputs, mlnn_activations true hreg g h D F hidden mem hθ N X n hj]
  congr 1
  refine sum_congr rfl fun k hk => ?_
  rw [mlnn_activations true hreg g h D F hidden mem hθ N X n (mem_range.1 hk)]

/-- XOR-like network: two inputs, one hidden layer of two units, one output, nine weights. -/
example : mlpSize 2 [2, 1] = 9 ∧ ∃ θ : List ℝ, mlpSize 2 ([2] ++ [1]) ≤ θ.length ∧ (⟨0, 0, 0⟩ : Reg).maxNorm ≤ 0 :=
  ⟨rfl, [1, 2, 3, 4, 5, 6, 7, 8, 9], le_rfl, le_rfl⟩

example (x y : ℝ) : mlp 2 [(2, id), (1, id)] (fun p => p + 1) (fun i => if i = 0 then x else y) 0 =
    7 * (1 * x + 2 * y + 3) + 8 * (4 * x + 5 * y + 6) + 9 := by
  simp [mlp, sum_range_succ]
  ring

end

end Verif.NN
