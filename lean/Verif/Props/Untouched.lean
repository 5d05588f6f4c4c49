import Verif.Props.SymmetryTraining
import Verif.Props.NetBatch

/-!
# C126: training changes only what took part in an error

The gradient of a weight is a sum over the examples of products of the error signal behind the weight and the value in front of it.
Weights of an input that is 0 in all examples, the weights into and out of a rectifier that is silent for all examples and all
weights of a network without error have gradient 0.  Mini-batch descent starts with momentum 0, so that whatever has gradient 0 stays
exactly where it is, with every batch size, shuffle, learning rate, momentum (also Nesterov's) and gain.
-/

namespace Verif.Opt

open Finset

noncomputable section

/-! ## Optimiser -/

/-- Spec: as long as the parameters in `S` have the values `w0`, their derivatives are 0 for every batch of examples. -/
def Problem.Still (A : Problem) (S : ℕ → Prop) (w0 : Vec) : Prop :=
  ∀ k w b, (∀ p, S p → w p = w0 p) → (∀ n ∈ b, n < A.examples) → ∀ p, S p → (A.errorGradient k w b).2 p = 0

section

variable {S : ℕ → Prop} {w0 : Vec}

/-- The parameters in `S` are where they were and do not move. -/
structure MBSGD.Rests (o : MBSGD) (S : ℕ → Prop) (w0 : Vec) : Prop where
  parameters : ∀ p, S p → o.parameters p = w0 p
  momentum : ∀ p, S p → o.momentum p = 0

theorem update_rests {o : MBSGD} {obj : Obj} (h : obj.problem.Still S w0) (ho : o.Rests S w0) (hw : ∀ p, S p → obj.w p = w0 p)
    {b : List ℕ} (hb : ∀ n ∈ b, n < obj.problem.examples) :
    (o.update obj b).1.Rests S w0 ∧ ∀ p, S p → (o.update obj b).2.w p = w0 p := by
  have hw1 : ∀ p, S p → (o.lookAhead obj).w p = w0 p := by
    intro p hp
    unfold MBSGD.lookAhead
    cases o.nesterov
    · exact hw p hp
    · show o.parameters p + o.eta * o.momentum p = w0 p
      rw [ho.parameters p hp, ho.momentum p hp, mul_zero, add_zero]
  have hg : ∀ p, S p → ((o.lookAhead obj).result b).2 p = 0 := by
    intro p hp
    rw [Obj.result]
    rw [← lookAhead_problem o obj] at h hb
    exact h _ _ _ hw1 hb p hp
  have hs : ∀ p, S p → o.scaled ((o.lookAhead obj).result b).2 p = 0 := by
    intro p hp
    unfold MBSGD.scaled
    split
    · show _ * _ = (0 : ℝ)
      rw [hg p hp, zero_mul]
    · exact hg p hp
  have hm : ∀ p, S p → (o.update obj b).1.momentum p = 0 := by
    intro p hp
    show o.eta * o.momentum p - o.alpha * o.scaled ((o.lookAhead obj).result b).2 p = 0
    rw [ho.momentum p hp, hs p hp, mul_zero, mul_zero, sub_zero]
  have hp' : ∀ p, S p → (o.update obj b).1.parameters p = w0 p := by
    intro p hp
    show o.parameters p + (o.eta * o.momentum p - o.alpha * o.scaled ((o.lookAhead obj).result b).2 p) = w0 p
    rw [ho.parameters p hp, ho.momentum p hp, hs p hp, mul_zero, mul_zero, sub_zero, add_zero]
  refine ⟨⟨hp', hm⟩, fun p hp => ?_⟩
  have h2 : (o.update obj b).2 = if o.nesterov then (o.lookAhead obj).evaluate b
      else { (o.lookAhead obj).evaluate b with w := (o.update obj b).1.parameters } := rfl
  rw [h2]
  split
  · exact hw1 p hp
  · exact hp' p hp

theorem updates_rests {o : MBSGD} {obj : Obj} (h : obj.problem.Still S w0) (ho : o.Rests S w0) (hw : ∀ p, S p → obj.w p = w0 p)
    (hi : ∀ n ∈ o.randomIndices, n < obj.problem.examples) :
    ∀ n, (o.updates obj n).1.Rests S w0 ∧ ∀ p, S p → (o.updates obj n).2.w p = w0 p
  | 0 => ⟨ho, hw⟩
  | n + 1 => by
    have ih := updates_rests h ho hw hi n
    refine update_rests (by rw [updates_problem]; exact h) ih.1 ih.2 fun m hm => ?_
    rw [updates_problem]
    exact hi m (List.mem_of_mem_drop (List.mem_of_mem_take hm))

/-- **C126 (optimiser)**: parameters whose derivatives are 0 as long as they stay where they are stay where they are: after every
number of steps of a fresh optimiser, in the object and in the result, whatever happens to the other parameters. -/
theorem steps_still {o : MBSGD} (hfair : o.Fair) (hn : o.iteration < 0) {obj : Obj} (h : obj.problem.Still S obj.w) {n : ℕ} {c : Bool}
    {o1 : MBSGD} {obj1 : Obj} (hs : Steps o obj n c o1 obj1) :
    (∀ p, S p → obj1.w p = obj.w p) ∧ (0 < n → ∀ p, S p → (o1.result obj1).1 p = obj.w p) := by
  have key : ∀ {n : ℕ} {c : Bool} {o1 : MBSGD} {obj1 : Obj}, Steps o obj n c o1 obj1 →
      obj1.problem = obj.problem ∧ (∀ p, S p → obj1.w p = obj.w p) ∧ o1.Fair ∧
      (0 < n ∨ 0 ≤ o1.iteration → o1.Rests S obj.w ∧ ∀ n ∈ o1.randomIndices, n < obj.problem.examples) := by
    intro n c o1 obj1 hs
    induction hs with
    | zero => exact ⟨rfl, fun _ _ => rfl, hfair, fun h => by omega⟩
    | @succ n o1 obj1 c o2 obj2 _ hstep ih =>
      obtain ⟨hp, hw1, hf1, ho1⟩ := ih
      have hr : (o1.ready obj1).Rests S obj.w ∧ (∀ n ∈ (o1.ready obj1).randomIndices, n < obj.problem.examples) ∧
          (o1.ready obj1).Fair := by
        by_cases hi : o1.iteration < 0
        · rw [ready_of_lt hi]
          refine ⟨⟨hw1, fun _ _ => rfl⟩, fun m hm => ?_, fun k => hf1 (k + 1)⟩
          have : m ∈ List.range obj1.problem.examples := (hf1 0 _).subset hm
          rw [← hp]
          exact List.mem_range.1 this
        · rw [ready_of_ge (by omega)]
          exact ⟨(ho1 (Or.inr (by omega))).1, (ho1 (Or.inr (by omega))).2, hf1⟩
      obtain ⟨_, _, _, _, _, rfl, rfl, rfl⟩ := step_eq hstep
      have hi : ∀ n ∈ (o1.ready obj1).reshuffle.randomIndices, n < obj1.problem.examples := by
        intro m hm
        rw [hp]
        exact hr.2.1 m ((hr.2.2 0 _).subset hm)
      have hu := updates_rests (o := (o1.ready obj1).reshuffle) (obj := obj1) (by rw [hp]; exact h)
        ⟨hr.1.parameters, hr.1.momentum⟩ hw1 hi (o1.ready obj1).batches
      have hsame := updates_same (o1.ready obj1).reshuffle obj1 (o1.ready obj1).batches
      have hf := finish_same ((o1.ready obj1).reshuffle.updates obj1 (o1.ready obj1).batches).1
      refine ⟨(updates_problem _ _ _).trans hp, hu.2, fun k l => ?_, fun _ => ⟨⟨fun p hp => ?_, fun p hp => ?_⟩, fun m hm => ?_⟩⟩
      · rw [hf.2.2.2.2.2.2.2.2.2.2.2, hsame.rng]
        exact hr.2.2 (k + 1) l
      · rw [hf.2.2.2.2.2.1]
        exact hu.1.parameters p hp
      · rw [hf.2.2.2.2.2.2.1]
        exact hu.1.momentum p hp
      · rw [hf.2.2.2.2.2.2.2.2.2.2.1, hsame.randomIndices] at hm
        rw [← hp]
        exact hi m hm
  obtain ⟨_, h1, _, h2⟩ := key hs
  exact ⟨h1, fun hn => (h2 (Or.inl hn)).1.parameters⟩

end

/-! ## Networks -/

section

open NN

variable {D : ℕ}

theorem grad_entry (net : Net) (m : Mem) (sc : Scratch) (ds : TrainSet) (idx : List ℕ) {p : ℕ} {q : Loc}
    (hp : net.derivatives[p]? = some q) : (net.errorGradient m sc ds idx).2.getD p 0 =
      (backFrom m idx.length sc.stale 0 net.layers (selectRows ds.inst idx)
        (fun n j => net.output m idx.length (selectRows ds.inst idx) n j - selectRows ds.tgt idx n j) sc.derivs).2 q.1 q.2 /
          idx.length := by
  show (net.grad _ _ _ _ _).getD p 0 = _
  rw [Net.grad, List.getD_eq_getElem?_getD, List.getElem?_map, hp]
  rfl

/-- The gradient of a weight of the first layer, if the layer is fully connected. -/
theorem grad_first {J : ℕ} {bias : Bool} {act : Act} {reg : Reg} (ks : List Kind) (ce : Bool) (m : Mem) (sc : Scratch)
    (ds : TrainSet) (idx : List ℕ) {p : ℕ} {s : Slot} {net : Net} (hn : net = buildNet D (.fullyConnected J bias act reg :: ks) ce)
    (hp : net.parameters[p]? = some (1, s)) : ∃ e : Batch, (net.errorGradient m sc ds idx).2.getD p 0 =
      (NN.fullyConnected D J bias act reg).derivs (m 1) idx.length (selectRows ds.inst idx) e s / idx.length := by
  have hder : net.derivatives = net.parameters := by rw [hn]; exact (parameters_one_to_one D _ ce).2.2.2.1
  rw [← hder] at hp
  rw [grad_entry net m sc ds idx hp, hn]
  generalize (fun n j => Net.output _ _ _ _ n j - _) = e0
  refine ⟨(backFrom m idx.length sc.stale 2 (layersFrom J ks)
    ((NN.fullyConnected D J bias act reg).forward (m 1) idx.length (selectRows ds.inst idx)) e0 sc.derivs).1,
    congrArg (· / (idx.length : ℝ)) ?_⟩
  rw [show (buildNet D (.fullyConnected J bias act reg :: ks) ce).layers =
    inputLayer D :: NN.fullyConnected D J bias act reg :: layersFrom J ks from rfl, backFrom_cons, backFrom_cons]
  rfl

/-- The gradient of a weight of the second layer, if the first two layers are fully connected. -/
theorem grad_second {J K : ℕ} {bias bias' : Bool} {act act' : Act} {reg reg' : Reg} (ks : List Kind) (ce : Bool) (m : Mem)
    (sc : Scratch) (ds : TrainSet) (idx : List ℕ) {p : ℕ} {s : Slot} {net : Net}
    (hn : net = buildNet D (.fullyConnected J bias act reg :: .fullyConnected K bias' act' reg' :: ks) ce)
    (hp : net.parameters[p]? = some (2, s)) : ∃ e : Batch, (net.errorGradient m sc ds idx).2.getD p 0 =
      (NN.fullyConnected J K bias' act' reg').derivs (m 2) idx.length
        ((NN.fullyConnected D J bias act reg).forward (m 1) idx.length (selectRows ds.inst idx)) e s / idx.length := by
  have hder : net.derivatives = net.parameters := by rw [hn]; exact (parameters_one_to_one D _ ce).2.2.2.1
  rw [← hder] at hp
  rw [grad_entry net m sc ds idx hp, hn]
  generalize (fun n j => Net.output _ _ _ _ n j - _) = e0
  refine ⟨(backFrom m idx.length sc.stale 3 (layersFrom K ks) ((NN.fullyConnected J K bias' act' reg').forward (m 2) idx.length
    ((NN.fullyConnected D J bias act reg).forward (m 1) idx.length (selectRows ds.inst idx))) e0 sc.derivs).1,
    congrArg (· / (idx.length : ℝ)) ?_⟩
  rw [show (buildNet D (.fullyConnected J bias act reg :: .fullyConnected K bias' act' reg' :: ks) ce).layers = inputLayer D ::
    NN.fullyConnected D J bias act reg :: NN.fullyConnected J K bias' act' reg' :: layersFrom K ks from rfl, backFrom_cons,
    backFrom_cons, backFrom_cons]
  rfl

/-- Spec: no penalty on the size of the weights. -/
def NoPenalty (reg : Reg) : Prop := reg.l1 ≤ 0 ∧ reg.l2 ≤ 0

theorem NoPenalty.deriv {reg : Reg} (h : NoPenalty reg) (w : ℝ) : reg.deriv w = 0 := by
  rw [Reg.deriv, if_neg (not_lt.2 h.1), if_neg (not_lt.2 h.2), add_zero]

theorem selectRows_mem {P : ℕ → Prop} {idx : List ℕ} (h : ∀ n ∈ idx, P n) {n : ℕ} (hn : n < idx.length) : P (idx.getD n 0) :=
  h _ (getD_mem hn)

/-! ### Silent inputs -/

/-- **C126 (gradient of silent inputs)**: if input `i` is 0 in all examples of a batch, then the data say nothing about its weights:
the gradient of the weight to unit `j` of the first layer is the derivative of the penalty. -/
theorem silent_input_grad {J : ℕ} {bias : Bool} {act : Act} {reg : Reg} (ks : List Kind) (ce : Bool) (m : Mem) (sc : Scratch)
    (ds : TrainSet) {idx : List ℕ} {p i j : ℕ} (hi : ∀ n ∈ idx, ds.inst n i = 0) {net : Net}
    (hn : net = buildNet D (.fullyConnected J bias act reg :: ks) ce) (hp : net.parameters[p]? = some (1, .w [j, i])) :
    (net.errorGradient m sc ds idx).2.getD p 0 = reg.deriv (m 1 (.w [j, i])) / idx.length := by
  obtain ⟨e, he⟩ := grad_first ks ce m sc ds idx hn hp
  rw [he]
  refine congrArg (· / (idx.length : ℝ)) ?_
  show ∑ n ∈ range idx.length, _ * selectRows ds.inst idx n i + reg.deriv _ = _
  rw [sum_eq_zero fun n hn => ?_, zero_add]
  · rfl
  · rw [selectRows, selectRows_mem hi (mem_range.1 hn), mul_zero]

/-- **C126 (silent inputs)**: if input `i` is 0 in all examples and the first layer is fully connected without penalty, then every
number of steps of a fresh optimiser leaves the weights of the input as they are. -/
theorem silent_input {J : ℕ} {bias : Bool} {act : Act} {reg : Reg} (hreg : NoPenalty reg) (ks : List Kind) (ce : Bool) (mem : Mem)
    (sc : ℕ → Scratch) {ds : TrainSet} {i : ℕ} (hi : ∀ n < ds.samples, ds.inst n i = 0) {net : Net}
    (hn : net = buildNet D (.fullyConnected J bias act reg :: ks) ce) {o : MBSGD} (hfair : o.Fair) (ho : o.iteration < 0) (w : Vec)
    (calls : ℕ) (log : List Event) {n : ℕ} {c : Bool} {o1 : MBSGD} {obj1 : Obj}
    (hs : Steps o ⟨netProblem net mem sc ds, w, calls, log⟩ n c o1 obj1) {p j : ℕ}
    (hp : net.parameters[p]? = some (1, .w [j, i])) :
    obj1.w p = w p ∧ (0 < n → (o1.result obj1).1 p = w p) := by
  have := steps_still (S := fun p => ∃ j, net.parameters[p]? = some (1, .w [j, i])) hfair ho (obj := ⟨netProblem net mem sc ds, w, calls, log⟩)
    (fun k w b _ hb p hp => by
      obtain ⟨j, hp⟩ := hp
      show (net.errorGradient _ (sc k) ds b).2.getD p 0 = 0
      rw [silent_input_grad ks ce _ _ ds (fun n hn => hi n (hb n hn)) hn hp, hreg.deriv, zero_div]) hs
  exact ⟨this.1 p ⟨j, hp⟩, fun h0 => this.2 h0 p ⟨j, hp⟩⟩

/-! ### Silent rectifiers -/

/-- What unit `j` of a fully connected first layer computes depends on its own weights only. -/
theorem first_forward_congr {J : ℕ} {bias : Bool} {act : Act} {reg : Reg} (ks : List Kind) (ce : Bool) (mem : Mem) {net : Net}
    (hn : net = buildNet D (.fullyConnected J bias act reg :: ks) ce) {w w' : Vec} {j : ℕ} (hj : j < J)
    (h : ∀ p i, (net.parameters[p]? = some (1, .w [j, i]) ∨ net.parameters[p]? = some (1, .b [j])) → w p = w' p) (N : ℕ) (x : Batch)
    (n : ℕ) :
    (NN.fullyConnected D J bias act reg).forward (net.setParameters mem ((List.range net.P).map w) 1) N x n j =
      (NN.fullyConnected D J bias act reg).forward (net.setParameters mem ((List.range net.P).map w') 1) N x n j := by
  have hnd : net.parameters.Nodup := by rw [hn]; exact parameters_nodup _ _ _
  have hwr : ∀ s, (Kind.fullyConnected J bias act reg).IsParam D s → ((∃ i, s = .w [j, i]) ∨ s = .b [j]) →
      mem.writeAll net.parameters ((List.range net.P).map w) 1 s = mem.writeAll net.parameters ((List.range net.P).map w') 1 s := by
    intro s hs hjs
    have hmem : (1, s) ∈ net.parameters := by
      rw [hn]
      exact (mem_locs_layersFrom (k := 1) (n := 0)).2 hs
    obtain ⟨p, hp, e⟩ := List.getElem_of_mem hmem
    have h1 := writeAll_getElem (mem := mem) (θ := (List.range net.P).map w) hnd hp (by rw [List.length_map, List.length_range]; exact hp)
    have h2 := writeAll_getElem (mem := mem) (θ := (List.range net.P).map w') hnd hp (by rw [List.length_map, List.length_range]; exact hp)
    rw [e] at h1 h2
    rw [h1, h2]
    simp only [List.getElem_map, List.getElem_range]
    have hp' : net.parameters[p]? = some (1, s) := by rw [List.getElem?_eq_getElem hp, e]
    rcases hjs with ⟨i, rfl⟩ | rfl
    · exact h p i (Or.inl hp')
    · exact h p 0 (Or.inr hp')
  have hu : ∀ v : Vec, net.setParameters mem ((List.range net.P).map v) 1 =
      maxNormUpdate D reg.maxNorm (mem.writeAll net.parameters ((List.range net.P).map v) 1) := by
    intro v
    have hlen : 1 < net.layers.length := by
      rw [hn]
      show 1 < (inputLayer D :: layersFrom D _).length
      simp [layersFrom]
    have := updatedFrom_getElem (k := 0) (mem := mem.writeAll net.parameters ((List.range net.P).map v)) hlen
    rw [Nat.zero_add] at this
    rw [Net.setParameters, this]
    subst hn
    rfl
  have hW : ∀ i < D, net.setParameters mem ((List.range net.P).map w) 1 (.w [j, i]) =
      net.setParameters mem ((List.range net.P).map w') 1 (.w [j, i]) := by
    intro i hi
    have hr : ∀ i < D, mem.writeAll net.parameters ((List.range net.P).map w) 1 (.w [j, i]) =
        mem.writeAll net.parameters ((List.range net.P).map w') 1 (.w [j, i]) :=
      fun i hi => hwr _ (Or.inl ⟨j, hj, i, hi, rfl⟩) (Or.inl ⟨i, rfl⟩)
    rw [hu, hu, maxNormUpdate_w, maxNormUpdate_w, hr i hi, sum_congr rfl fun i hi => by rw [hr i (mem_range.1 hi)]]
  have hB : bias = true → net.setParameters mem ((List.range net.P).map w) 1 (.b [j]) =
      net.setParameters mem ((List.range net.P).map w') 1 (.b [j]) := by
    intro hb
    rw [hu, hu]
    exact hwr _ (Or.inr ⟨hb, j, hj, rfl⟩) (Or.inr rfl)
  show act.apply (dense D _ _ x n j) = act.apply (dense D _ _ x n j)
  rw [dense, dense]
  congr 2
  · exact sum_congr rfl fun i hi => by rw [Weights.mat, Weights.mat, hW i (mem_range.1 hi)]
  · rw [Weights.vec, Weights.vec]
    cases bias
    · rfl
    · exact hB rfl

/-- Spec: the weights into and out of unit `j` of the first layer, and its bias. -/
def Net.OfUnit (net : Net) (j p : ℕ) : Prop :=
  ∃ i, net.parameters[p]? = some (1, .w [j, i]) ∨ net.parameters[p]? = some (1, .b [j]) ∨ net.parameters[p]? = some (2, .w [i, j])

/-- **C126 (silent rectifiers)**: a rectifier of the first layer whose output is 0 for all examples never learns: every number of
steps of a fresh optimiser leaves its weights, its bias and the weights behind it as they are, and its output for all examples is 0
for ever. -/
theorem silent_unit {J K : ℕ} {bias bias' : Bool} {act' : Act} {reg reg' : Reg} (hreg : NoPenalty reg) (hreg' : NoPenalty reg')
    (ks : List Kind) (ce : Bool) (mem : Mem) (sc : ℕ → Scratch) {ds : TrainSet} {net : Net}
    (hn : net = buildNet D (.fullyConnected J bias .rectifier reg :: .fullyConnected K bias' act' reg' :: ks) ce) {j : ℕ} (hj : j < J)
    {w : Vec} (hsil : ∀ n < ds.samples, (NN.fullyConnected D J bias .rectifier reg).forward
      (net.setParameters mem ((List.range net.P).map w) 1) ds.samples ds.inst n j = 0)
    {o : MBSGD} (hfair : o.Fair) (ho : o.iteration < 0) (calls : ℕ) (log : List Event) {n : ℕ} {c : Bool} {o1 : MBSGD} {obj1 : Obj}
    (hs : Steps o ⟨netProblem net mem sc ds, w, calls, log⟩ n c o1 obj1) :
    (∀ p, Net.OfUnit net j p → obj1.w p = w p ∧ (0 < n → (o1.result obj1).1 p = w p)) ∧
    ∀ k < ds.samples, (NN.fullyConnected D J bias .rectifier reg).forward
      (net.setParameters mem ((List.range net.P).map obj1.w) 1) ds.samples ds.inst k j = 0 := by
  have hst : (netProblem net mem sc ds).Still (Net.OfUnit net j) w := by
    intro k v b hv hb p hp
    show (net.errorGradient _ (sc k) ds b).2.getD p 0 = 0
    have hcong := first_forward_congr _ ce mem hn hj (w := v) (w' := w) (fun p i hp => hv p ⟨i, by
      rcases hp with h | h
      · exact Or.inl h
      · exact Or.inr (Or.inl h)⟩)
    generalize net.setParameters mem ((List.range net.P).map v) = m at hcong ⊢
    have hz : ∀ n < b.length, (NN.fullyConnected D J bias .rectifier reg).forward (m 1) b.length (selectRows ds.inst b) n j = 0 := by
      intro n hn
      rw [hcong]
      exact hsil _ (hb _ (getD_mem hn))
    obtain ⟨i, hp | hp | hp⟩ := hp
    · obtain ⟨e, he⟩ := grad_first _ ce m (sc k) ds b hn hp
      rw [he]
      refine div_eq_zero_iff.2 (Or.inl ?_)
      show ∑ n ∈ range b.length, deltas _ _ e n j * selectRows ds.inst b n i + reg.deriv _ = 0
      rw [hreg.deriv, add_zero]
      refine sum_eq_zero fun n hn => ?_
      rw [deltas, show Act.map .rectifier _ n j = 0 from hz n (mem_range.1 hn)]
      simp [Act.deriv]
    · obtain ⟨e, he⟩ := grad_first _ ce m (sc k) ds b hn hp
      rw [he]
      refine div_eq_zero_iff.2 (Or.inl ?_)
      show ∑ n ∈ range b.length, deltas _ _ e n j = 0
      refine sum_eq_zero fun n hn => ?_
      rw [deltas, show Act.map .rectifier _ n j = 0 from hz n (mem_range.1 hn)]
      simp [Act.deriv]
    · obtain ⟨e, he⟩ := grad_second _ ce m (sc k) ds b hn hp
      rw [he]
      refine div_eq_zero_iff.2 (Or.inl ?_)
      show ∑ n ∈ range b.length, _ * (NN.fullyConnected D J bias .rectifier reg).forward (m 1) b.length (selectRows ds.inst b) n j +
        reg'.deriv _ = 0
      rw [hreg'.deriv, add_zero]
      refine sum_eq_zero fun n hn => ?_
      rw [hz n (mem_range.1 hn), mul_zero]
  have key := steps_still (S := Net.OfUnit net j) hfair ho (obj := ⟨netProblem net mem sc ds, w, calls, log⟩) hst hs
  refine ⟨fun p hp => ⟨key.1 p hp, fun h0 => key.2 h0 p hp⟩, fun k hk => ?_⟩
  rw [first_forward_congr _ ce mem hn hj (w := obj1.w) (w' := w) fun p i hp => key.1 p ⟨i, by
      rcases hp with h | h
      · exact Or.inl h
      · exact Or.inr (Or.inl h)⟩]
  exact hsil k hk

/-! ### No error, no change -/

/-- Spec: no penalties. -/
def Unpenalised : Kind → Prop
  | .fullyConnected _ _ _ reg => NoPenalty reg
  | .compressed _ _ _ _ reg _ => NoPenalty reg
  | .sparseAutoEncoder _ _ lambda => lambda = 0
  | .conv g => NoPenalty g.reg
  | .sub _ _ _ reg => NoPenalty reg
  | _ => True

theorem deltas_zero (act : Act) (y : Batch) : deltas act y (fun _ _ => 0) = fun _ _ => 0 := by
  funext n j
  exact mul_zero _

/-- Without error signal nothing is passed back, ... -/
theorem Kind.zero_back (k : Kind) (I : ℕ) (w : Weights) (N : ℕ) (x stale : Batch) :
    (k.layer I).back w N x (fun _ _ => 0) true stale = fun _ _ => 0 := by
  funext n i
  cases k with
  | conv g =>
    show g.errorSignal w (deltas _ _ _) n i = 0
    rw [deltas_zero]
    simp [Conv.errorSignal]
  | sub g bias act reg =>
    show g.subError w (deltas _ _ _) n i = 0
    rw [deltas_zero]
    simp [Pool.subError]
  | _ => simp [Kind.layer, NN.fullyConnected, NN.compressed, NN.extreme, NN.intrinsicPlasticity, NN.rbm, NN.sparseAutoEncoder,
      NN.dropout, Pool.maxLayer, LRN.layer, LRN.backward, LRN.etmp, deltas]

/-- ... and without penalty all derivatives are 0. -/
theorem Kind.zero_derivs {k : Kind} (h : Unpenalised k) (I : ℕ) (w : Weights) (N : ℕ) (x : Batch) (s : Slot) :
    (k.layer I).derivs w N x (fun _ _ => 0) s = 0 := by
  cases k with
  | fullyConnected J bias act reg =>
    simp only [Kind.layer, NN.fullyConnected, deltas_zero]
    split <;> simp [NoPenalty.deriv (show NoPenalty reg from h)]
  | compressed J M bias act reg phi =>
    simp only [Kind.layer, NN.compressed, deltas_zero]
    split <;> simp [NoPenalty.deriv (show NoPenalty reg from h)]
  | rbm H backprop =>
    simp only [Kind.layer, NN.rbm, deltas_zero]
    split <;> simp
  | sparseAutoEncoder H act lambda =>
    simp only [Kind.layer, NN.sparseAutoEncoder, deltas_zero, show lambda = 0 from h]
    split <;> simp
  | conv g =>
    simp only [Kind.layer, Conv.layer, deltas_zero]
    split <;> simp [NoPenalty.deriv (show NoPenalty g.reg from h), Conv.weightDerivs] <;> split <;> simp
  | sub g bias act reg =>
    simp only [Kind.layer, Pool.subLayer, deltas_zero]
    split <;> simp [NoPenalty.deriv (show NoPenalty reg from h), Pool.subDerivs] <;> split <;> rfl
  | _ => rfl

theorem zero_backFrom (mem : Mem) (N : ℕ) (stale : ℕ → Batch) (d : Mem) : ∀ (ks : List Kind) (I m : ℕ) (x : Batch), 1 ≤ m →
    (∀ k ∈ ks, Unpenalised k) →
      (2 ≤ m → (backFrom mem N stale m (layersFrom I ks) x (fun _ _ => 0) d).1 = fun _ _ => 0) ∧
      ∀ l s, IsParamFrom I ks l s → (backFrom mem N stale m (layersFrom I ks) x (fun _ _ => 0) d).2 (m + l) s = 0
  | [], _, _, _, _, _ => ⟨fun _ => rfl, fun l s hs => by simp [IsParamFrom] at hs⟩
  | k :: ks, I, m, x, hm, hk => by
    obtain ⟨ih1, ih2⟩ := zero_backFrom mem N stale d ks (k.layer I).outputs (m + 1) ((k.layer I).forward (mem m) N x) (by omega)
      fun k' hk' => hk k' (List.mem_cons_of_mem _ hk')
    replace ih1 := ih1 (by omega)
    refine ⟨fun h2 => ?_, fun l s hs => ?_⟩
    · show (k.layer I).back (mem m) N x (backFrom mem N stale (m + 1) (layersFrom (k.layer I).outputs ks)
        ((k.layer I).forward (mem m) N x) (fun _ _ => 0) d).1 (decide (m + 1 > 2)) (stale m) = _
      rw [decide_eq_true (by omega : m + 1 > 2), ih1, Kind.zero_back]
    · cases l with
      | zero =>
        show (Function.update (β := fun _ => Weights) _ m _) m s = 0
        rw [Function.update_self]
        show (k.layer I).derivs (mem m) N x (backFrom mem N stale (m + 1) (layersFrom (k.layer I).outputs ks)
          ((k.layer I).forward (mem m) N x) (fun _ _ => 0) d).1 s = 0
        rw [ih1, Kind.zero_derivs (hk k List.mem_cons_self)]
      | succ l =>
        show (Function.update (β := fun _ => Weights) _ m _) (m + (l + 1)) s = 0
        rw [Function.update_of_ne (by omega)]
        have := ih2 l s hs
        rwa [show m + 1 + l = m + (l + 1) by omega] at this

/-- **C126 (gradient without error)**: if the predictions for all examples of a batch are their targets, then the gradient is 0. -/
theorem fitted_grad {ks : List Kind} (ce : Bool) (hf : FitsFrom D ks) (hv : ∀ k ∈ ks, k.Visible) (hr : ∀ k ∈ ks, k.RowWise)
    (hpen : ∀ k ∈ ks, Unpenalised k) (m : Mem) (sc : Scratch) {ds : TrainSet} {idx : List ℕ} {net : Net}
    (hn : net = buildNet D ks ce) (hfit : ∀ n ∈ idx, ∀ j < net.outputs, net.predict m (ds.inst n) j = ds.tgt n j) (p : ℕ) :
    (net.errorGradient m sc ds idx).2.getD p 0 = 0 := by
  cases hp : net.derivatives[p]? with
  | none =>
    show (net.grad _ _ _ _ _).getD p 0 = _
    rw [Net.grad, List.getD_eq_getElem?_getD, List.getElem?_map, hp]
    rfl
  | some q =>
    rw [grad_entry net m sc ds idx hp]
    refine div_eq_zero_iff.2 (Or.inl ?_)
    have hq : q ∈ net.derivatives := List.mem_of_getElem? hp
    subst hn
    rw [(parameters_one_to_one D ks ce).2.2.2.1, show (buildNet D ks ce).parameters = locsFrom 1 (layersFrom D ks) from rfl] at hq
    have h1 := locsFrom_index hq
    obtain ⟨l, s⟩ := q
    obtain ⟨l, rfl⟩ : ∃ l', l = 1 + l' := ⟨l - 1, by simp only at h1; omega⟩
    have hl := mem_locs_layersFrom.1 hq
    have key := (backFrom_congr (mem := m) (mem' := m) sc.stale sc.stale sc.derivs sc.derivs ks D 1 le_rfl hf hv (fun _ _ _ => rfl)
      (selectRows ds.inst idx) (selectRows ds.inst idx)
      (fun n j => (buildNet D ks ce).output m idx.length (selectRows ds.inst idx) n j - selectRows ds.tgt idx n j)
      (fun _ _ => 0) (N := idx.length) (fun _ _ _ _ => rfl) (fun n hn j hj => by
        rw [← outputs_buildNet D ks ce] at hj
        have := batch_prediction_partial (ce := ce) hr (D := D) m idx.length (selectRows ds.inst idx) n j
        rw [Net.predictAll] at this
        rw [this, sub_eq_zero]
        exact hfit _ (getD_mem hn) j hj)).2 l s hl
    show (Function.update (β := fun _ => Weights) _ 0 _) (1 + l) s = 0
    rw [Function.update_of_ne (by omega)]
    exact key.trans ((zero_backFrom m idx.length sc.stale sc.derivs ks D 1 _ le_rfl hpen).2 l s hl)

/-- **C126 (no error, no change)**: if a network predicts the targets of all examples and has no penalties, then every number of
steps of a fresh optimiser leaves all parameters as they are. -/
theorem fitted_stays {ks : List Kind} (ce : Bool) (hf : FitsFrom D ks) (hv : ∀ k ∈ ks, k.Visible) (hr : ∀ k ∈ ks, k.RowWise)
    (hpen : ∀ k ∈ ks, Unpenalised k) (mem : Mem) (sc : ℕ → Scratch) {ds : TrainSet} {net : Net} (hn : net = buildNet D ks ce) {w : Vec}
    (hfit : ∀ n < ds.samples, ∀ j < net.outputs,
      net.predict (net.setParameters mem ((List.range net.P).map w)) (ds.inst n) j = ds.tgt n j)
    {o : MBSGD} (hfair : o.Fair) (ho : o.iteration < 0) (calls : ℕ) (log : List Event) {n : ℕ} {c : Bool} {o1 : MBSGD} {obj1 : Obj}
    (hs : Steps o ⟨netProblem net mem sc ds, w, calls, log⟩ n c o1 obj1) :
    obj1.w = w ∧ (0 < n → (o1.result obj1).1 = w) := by
  have key := steps_still (S := fun _ => True) hfair ho (obj := ⟨netProblem net mem sc ds, w, calls, log⟩)
    (fun k v b hv' hb p _ => by
      have e : v = w := funext fun p => hv' p trivial
      subst e
      exact fitted_grad ce hf hv hr hpen _ (sc k) hn (fun n hn => hfit n (hb n hn)) p) hs
  exact ⟨funext fun p => key.1 p trivial, fun h0 => funext fun p => key.2 h0 p trivial⟩

/-! ## The hypotheses can be met -/

/-- One input, a rectifier and a linear output. -/
def oneRectifier : Net := buildNet 1 [.fullyConnected 1 false .rectifier ⟨0, 0, 0⟩, .fullyConnected 1 false .linear ⟨0, 0, 0⟩] false

theorem oneRectifier_weight (mem : Mem) (w : Vec) :
    oneRectifier.setParameters mem ((List.range oneRectifier.P).map w) 1 (.w [0, 0]) = w 0 ∧
    oneRectifier.setParameters mem ((List.range oneRectifier.P).map w) 2 (.w [0, 0]) = w 1 := by
  have hP : oneRectifier.P = 2 := rfl
  have hp : oneRectifier.parameters = [(1, .w [0, 0]), (2, .w [0, 0])] := rfl
  have hl : oneRectifier.layers = [inputLayer 1, NN.fullyConnected 1 1 false .rectifier ⟨0, 0, 0⟩,
    NN.fullyConnected 1 1 false .linear ⟨0, 0, 0⟩] := rfl
  rw [Net.setParameters, hP, hp, hl]
  constructor <;>
  simp [updatedFrom, NN.fullyConnected, inputLayer, maxNormUpdate, Mem.writeAll, Mem.write, List.range_succ]

theorem oneRectifier_predict (m : Mem) (x : ℕ → ℝ) :
    oneRectifier.predict m x 0 = max 0 (x 0 * m 1 (.w [0, 0])) * m 2 (.w [0, 0]) := by
  simp [oneRectifier, Net.predict, Net.output, Net.activations, buildNet, layersFrom, forwardFrom, Kind.layer, NN.fullyConnected,
    inputLayer, dense, Act.map, Act.apply, Weights.mat, Weights.vec]

/-- With the weight -1 the rectifier is silent for positive inputs; with the weight 1 and the output weight 2 the network doubles
positive inputs. -/
example (mem : Mem) : NoPenalty ⟨0, 0, 0⟩ ∧
    (∀ n < 3, (NN.fullyConnected 1 1 false .rectifier ⟨0, 0, 0⟩).forward
      (oneRectifier.setParameters mem ((List.range oneRectifier.P).map fun _ => -1) 1) 3 (fun n _ => n) n 0 = 0) ∧
    (∃ p, Net.OfUnit oneRectifier 0 p) ∧
    (∀ n : ℕ, n < 3 → ∀ j < oneRectifier.outputs,
      oneRectifier.predict (oneRectifier.setParameters mem ((List.range oneRectifier.P).map fun p : ℕ => (p : ℝ) + 1)) (fun _ => (n : ℝ)) j =
        2 * n) := by
  refine ⟨⟨le_rfl, le_rfl⟩, fun n _ => ?_, ⟨0, 0, Or.inl rfl⟩, fun n _ j hj => ?_⟩
  · show max 0 (∑ i ∈ range 1, (n : ℝ) * _ + _) = 0
    rw [sum_range_one]
    show max 0 ((n : ℝ) * oneRectifier.setParameters mem _ 1 (.w [0, 0]) + 0) = 0
    rw [(oneRectifier_weight mem fun _ => -1).1]
    simp
  · obtain rfl : j = 0 := by
      have : oneRectifier.outputs = 1 := rfl
      omega
    rw [oneRectifier_predict, (oneRectifier_weight mem _).1, (oneRectifier_weight mem _).2]
    rw [max_eq_right (by simp)]
    norm_num
    ring

end

end

end Verif.Opt
