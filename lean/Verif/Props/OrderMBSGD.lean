import Verif.Props.MBSGDReuse
import Verif.Props.Order

/-!
# The order of the examples does not matter (C74): gradient descent with one batch

If a batch is as large as the training set, the shuffles of `MBSGD` have no influence on the optimisation.
-/

namespace Verif.Opt

noncomputable section

/-- Spec: two problems of the same size; value and gradient for all examples, in any order, are the same. -/
structure SameUpToOrder (A B : Problem) : Prop where
  dimension : A.dimension = B.dimension
  examples : A.examples = B.examples
  errorGradient : ∀ k w b b', b.Perm (List.range A.examples) → b'.Perm (List.range A.examples) →
    A.errorGradient k w b = B.errorGradient k w b'

/-- Spec: `o'` is `o` with another order of the examples and other future shuffles. -/
def MBSGD.twin (o : MBSGD) (l : List ℕ) (r : ℕ → List ℕ → List ℕ) : MBSGD := { o with randomIndices := l, rng := r }

/-- Spec: `obj` with another problem and another history. -/
def Obj.twin (obj : Obj) (B : Problem) (log : List Event) : Obj := { obj with problem := B, log := log }

theorem update_twin {o : MBSGD} {obj : Obj} {B : Problem} (h : SameUpToOrder obj.problem B) {b b' : List ℕ}
    (hb : b.Perm (List.range obj.problem.examples)) (hl : b'.Perm (List.range obj.problem.examples)) (l : List ℕ) (r : ℕ → List ℕ → List ℕ) (log : List Event) :
    ∃ log', (o.twin l r).update (obj.twin B log) b' = ((o.update obj b).1.twin l r, (o.update obj b).2.twin B log') := by
  have hres : ((o.twin l r).lookAhead (obj.twin B log)).result b' = (o.lookAhead obj).result b := by
    unfold MBSGD.lookAhead MBSGD.twin Obj.result Obj.twin
    cases o.nesterov
    · exact (h.errorGradient _ _ _ _ hb hl).symm
    · exact (h.errorGradient _ _ _ _ hb hl).symm
  refine ⟨log ++ [.evaluate (o.lookAhead obj).w b'], ?_⟩
  unfold MBSGD.update
  simp only [hres]
  refine Prod.ext rfl ?_
  unfold MBSGD.lookAhead MBSGD.twin Obj.twin Obj.evaluate
  cases o.nesterov <;> rfl

/-- The state of a run in which every epoch is one batch. -/
structure OneBatch (o : MBSGD) (A : Problem) : Prop where
  N : o.N = A.examples
  batches : o.batches = 1
  indices : o.randomIndices.Perm (List.range A.examples)
  size : A.examples ≤ o.batchSize

theorem oneBatch_init {o : MBSGD} (hv : o.Valid) (hf : o.Fair) {obj : Obj} (hs : obj.problem.examples ≤ o.batchSize) :
    OneBatch (o.init obj) obj.problem where
  N := rfl
  batches := by
    show max (obj.problem.examples / o.batchSize) 1 = 1
    have : obj.problem.examples / o.batchSize ≤ 1 := by
      calc obj.problem.examples / o.batchSize ≤ o.batchSize / o.batchSize := Nat.div_le_div_right hs
        _ = 1 := Nat.div_self (by have := hv.batch; omega)
    omega
  indices := hf 0 _
  size := hs

theorem init_twin {o : MBSGD} {obj : Obj} {B : Problem} (h : SameUpToOrder obj.problem B) (l : List ℕ)
    (r : ℕ → List ℕ → List ℕ) (log : List Event) :
    (o.twin l r).init (obj.twin B log) = (o.init obj).twin (r 0 (List.range B.examples)) fun k => r (k + 1) := by
  unfold MBSGD.init MBSGD.twin Obj.twin
  simp only [h.dimension, h.examples]

theorem finish_twin (o : MBSGD) (l : List ℕ) (r : ℕ → List ℕ → List ℕ) :
    (o.twin l r).finish = (o.finish.1, o.finish.2.twin l r) := by
  have hrun : ({ o.twin l r with iteration := (o.twin l r).iteration + 1 } : MBSGD).run ↔
      ({ o with iteration := o.iteration + 1 } : MBSGD).run := Iff.rfl
  unfold MBSGD.finish
  by_cases h : ({ o with iteration := o.iteration + 1 } : MBSGD).run
  · rw [if_pos h, if_pos (hrun.2 h)]
    rfl
  · rw [if_neg h, if_neg (fun h' => h (hrun.1 h'))]
    rfl

/-- One step of both optimisers, after the initialisation. -/
theorem step_twin {o : MBSGD} {obj : Obj} {B : Problem} (h : SameUpToOrder obj.problem B) (ho : OneBatch (o.ready obj) obj.problem)
    {l : List ℕ} {r : ℕ → List ℕ → List ℕ} {log : List Event}
    (hready : ∃ l' r', (o.twin l r).ready (obj.twin B log) = (o.ready obj).twin l' r' ∧ l'.Perm (o.ready obj).randomIndices ∧
      ∀ k l, (r' k l).Perm l) (hf : ∀ k l, ((o.ready obj).rng k l).Perm l)
    {c : Bool} {o1 : MBSGD} {obj1 : Obj} (hs : o.step obj = .ok (c, o1, obj1)) :
    ∃ l1 r1 log1, (o.twin l r).step (obj.twin B log) = .ok (c, o1.twin l1 r1, obj1.twin B log1) ∧
      l1.Perm o1.randomIndices ∧ (∀ k l, (r1 k l).Perm l) ∧ (∀ k l, (o1.rng k l).Perm l) ∧ OneBatch o1 obj1.problem ∧
      obj1.problem = obj.problem := by
  obtain ⟨l', r', hr, hl, hr'⟩ := hready
  obtain ⟨h1, h2, h3, h4, h5, rfl, rfl, rfl⟩ := step_eq hs
  set p := o.ready obj with hp
  have e1 : batchOf p.reshuffle.randomIndices p.batchSize 0 = p.rng 0 p.randomIndices := by
    show (List.drop (0 * p.batchSize) (p.rng 0 p.randomIndices)).take p.batchSize = _
    rw [Nat.zero_mul, List.drop_zero]
    refine List.take_of_length_le ?_
    rw [(hf 0 _).length_eq, ho.indices.length_eq, List.length_range]
    exact ho.size
  have e2 : batchOf (p.twin l' r').reshuffle.randomIndices p.batchSize 0 = r' 0 l' := by
    show (List.drop (0 * p.batchSize) (r' 0 l')).take p.batchSize = _
    rw [Nat.zero_mul, List.drop_zero]
    refine List.take_of_length_le ?_
    rw [(hr' 0 _).length_eq, hl.length_eq, ho.indices.length_eq, List.length_range]
    exact ho.size
  have hu : p.reshuffle.updates obj p.batches = p.reshuffle.update obj (p.rng 0 p.randomIndices) := by
    rw [ho.batches, ← e1]
    rfl
  have hperm : (p.rng 0 p.randomIndices).Perm (r' 0 l') := (hf 0 _).trans (hl.symm.trans (hr' 0 _).symm)
  obtain ⟨log', ht⟩ := update_twin (o := p.reshuffle) h ((hf 0 _).trans ho.indices)
    ((hr' 0 _).trans (hl.trans ho.indices)) (r' 0 l') (fun k => r' (k + 1)) log
  have htu : (p.twin l' r').reshuffle.updates (obj.twin B log) p.batches =
      ((p.reshuffle.updates obj p.batches).1.twin (r' 0 l') fun k => r' (k + 1), (p.reshuffle.updates obj p.batches).2.twin B log') := by
    rw [hu, ← ht, ho.batches]
    show (p.twin l' r').reshuffle.update (obj.twin B log) (batchOf (p.twin l' r').reshuffle.randomIndices p.batchSize 0) = _
    rw [e2]
    rfl
  have hsame := updates_same p.reshuffle obj p.batches
  have hfin := finish_same (p.reshuffle.updates obj p.batches).1
  have hprob : (p.reshuffle.updates obj p.batches).2.problem = obj.problem := by
    rw [hu]
    unfold MBSGD.update MBSGD.lookAhead Obj.evaluate
    cases p.reshuffle.nesterov <;> rfl
  have hri : ((p.reshuffle.updates obj p.batches).1.finish.2).randomIndices = p.rng 0 p.randomIndices := by
    rw [hfin.2.2.2.2.2.2.2.2.2.2.1, hsame.randomIndices]
    rfl
  have hrg : ((p.reshuffle.updates obj p.batches).1.finish.2).rng = fun k => p.rng (k + 1) := by
    rw [hfin.2.2.2.2.2.2.2.2.2.2.2, hsame.rng]
    rfl
  refine ⟨r' 0 l', fun k => r' (k + 1), log' ++ [.finished (p.reshuffle.updates obj p.batches).2.w], ?_, ?_, ?_, ?_, ?_, hprob⟩
  · rw [step_ok (by rw [hr]; exact h1) (by rw [hr]; exact h2) (by rw [hr]; exact h3)
      (by
        rw [hr]
        show l'.length = p.N
        rw [hl.length_eq]
        exact h4)
      (by
        rw [hr]
        show B.dimension = p.P
        rw [← h.dimension]
        exact h5), hr, show (p.twin l' r').batches = p.batches from rfl, htu, finish_twin]
    rfl
  · rw [hri]
    exact hperm.symm
  · exact fun k l => hr' (k + 1) l
  · rw [hrg]
    exact fun k l => hf (k + 1) l
  · have hc := hfin.1
    constructor
    · show _ = (p.reshuffle.updates obj p.batches).2.problem.examples
      rw [hprob]
      have hN : (p.reshuffle.updates obj p.batches).1.finish.2.N = (p.reshuffle.updates obj p.batches).1.N := by
        unfold MBSGD.finish
        split <;> rfl
      rw [hN, hsame.N]
      exact ho.N
    · have hB : (p.reshuffle.updates obj p.batches).1.finish.2.batches = (p.reshuffle.updates obj p.batches).1.batches := by
        unfold MBSGD.finish
        split <;> rfl
      rw [hB, hsame.batches]
      exact ho.batches
    · show List.Perm _ (List.range (p.reshuffle.updates obj p.batches).2.problem.examples)
      rw [hri, hprob]
      exact (hf 0 _).trans ho.indices
    · show (p.reshuffle.updates obj p.batches).2.problem.examples ≤ _
      rw [hprob, hc.batchSize, hsame.batchSize]
      exact ho.size

/-- **C74 (gradient descent)**: if a batch is at least as large as the training set, then whatever the shuffles are (of the
optimiser and of the examples in the training set), every number of steps gives the same parameters, the same answers of
`step()` and the same parameters in the optimised object. -/
theorem full_batch_order {o : MBSGD} (hv : o.Valid) (hf : o.Fair) (hn : o.iteration < 0) {obj : Obj}
    (hs : obj.problem.examples ≤ o.batchSize) {B : Problem} (h : SameUpToOrder obj.problem B) {r : ℕ → List ℕ → List ℕ}
    (hr : ∀ k l, (r k l).Perm l) (l : List ℕ) (log : List Event) {n : ℕ} {c : Bool} {o1 : MBSGD} {obj1 : Obj}
    (hsteps : Steps o obj n c o1 obj1) :
    ∃ l1 r1 log1, Steps (o.twin l r) (obj.twin B log) n c (o1.twin l1 r1) (obj1.twin B log1) ∧
      ((o1.twin l1 r1).result (obj1.twin B log1)).1 = (o1.result obj1).1 ∧ (obj1.twin B log1).w = obj1.w := by
  have key : ∀ {n : ℕ} {c : Bool} {o1 : MBSGD} {obj1 : Obj}, Steps o obj n c o1 obj1 →
      obj1.problem = obj.problem ∧ ∃ l1 r1 log1, Steps (o.twin l r) (obj.twin B log) n c (o1.twin l1 r1) (obj1.twin B log1) ∧
        ((n = 0 ∧ o1 = o ∧ obj1 = obj ∧ (∀ k l, (r1 k l).Perm l)) ∨ (0 < n ∧ (c = true → 0 ≤ o1.iteration) ∧
          l1.Perm o1.randomIndices ∧ (∀ k l, (r1 k l).Perm l) ∧ (∀ k l, (o1.rng k l).Perm l) ∧ OneBatch o1 obj1.problem)) := by
    intro n c o1 obj1 hst
    induction hst with
    | zero => exact ⟨rfl, l, r, log, .zero, .inl ⟨rfl, rfl, rfl, hr⟩⟩
    | @succ n o1 obj1 c o2 obj2 hst hstep ih =>
      obtain ⟨hprob, l1, r1, log1, hs1, hcase⟩ := ih
      have hit : c = true → 0 ≤ o2.iteration := by
        intro hc
        rcases steps_runInv hv hn (Steps.succ hst hstep) with ⟨h0, _, _⟩ | ⟨_, _, hi, _⟩
        · omega
        · have := hi hc
          omega
      have hgo : ∃ l2 r2 log2, (o1.twin l1 r1).step (obj1.twin B log1) = .ok (c, o2.twin l2 r2, obj2.twin B log2) ∧
          l2.Perm o2.randomIndices ∧ (∀ k l, (r2 k l).Perm l) ∧ (∀ k l, (o2.rng k l).Perm l) ∧ OneBatch o2 obj2.problem ∧
          obj2.problem = obj1.problem := by
        rcases hcase with ⟨_, rfl, rfl, hr1⟩ | ⟨_, hi, hl1, hr1, hf1, hob⟩
        · refine step_twin h (by rw [ready_of_lt hn]; exact oneBatch_init hv hf hs) ⟨r1 0 (List.range B.examples), fun k => r1 (k + 1), ?_, ?_, ?_⟩ ?_
            hstep
          · rw [ready_of_lt hn, ready_of_lt (show (o1.twin l1 r1).iteration < 0 from hn)]
            exact init_twin h _ _ _
          · rw [ready_of_lt hn, ← h.examples]
            exact (hr1 0 _).trans (hf 0 _).symm
          · exact fun k l => hr1 (k + 1) l
          · rw [ready_of_lt hn]
            exact fun k l => hf (k + 1) l
        · have hi' := hi rfl
          refine step_twin (by rw [hprob]; exact h) (by rw [ready_of_ge hi']; exact hob) ⟨l1, r1, ?_, ?_, hr1⟩ ?_ hstep
          · rw [ready_of_ge hi', ready_of_ge (show 0 ≤ (o1.twin l1 r1).iteration from hi')]
          · rw [ready_of_ge hi']
            exact hl1
          · rw [ready_of_ge hi']
            exact hf1
      obtain ⟨l2, r2, log2, g1, g2, g3, g4, g5, g6⟩ := hgo
      exact ⟨g6.trans hprob, l2, r2, log2, .succ hs1 g1, .inr ⟨Nat.succ_pos n, hit, g2, g3, g4, g5⟩⟩
  obtain ⟨_, l1, r1, log1, hs1, _⟩ := key hsteps
  exact ⟨l1, r1, log1, hs1, rfl, rfl⟩

/-- **C74 (training of a network)**: a network whose layers treat the rows of a batch alike is the same problem, up to the
order, for two training sets that contain the same examples in different orders, whatever the buffers contain. -/
theorem net_same_up_to_order {D : ℕ} {ks : List NN.Kind} (ce : Bool) (hr : ∀ k ∈ ks, k.RowWise) (mem : NN.Mem)
    (sc sc' : ℕ → NN.Scratch) {ds ds' : NN.TrainSet} {π : List ℕ} (h : NN.Reordered π ds ds') (hN : 0 < ds.samples) :
    SameUpToOrder (netProblem (NN.buildNet D ks ce) mem sc ds) (netProblem (NN.buildNet D ks ce) mem sc' ds') where
  dimension := rfl
  examples := h.2.1.symm
  errorGradient k w b b' hb hb' := by
    have hne : ∀ l : List ℕ, l.Perm (List.range ds.samples) → l ≠ [] := by
      intro l hl e
      have := hl.length_eq
      rw [e, List.length_range] at this
      simp at this
      omega
    have hall := NN.errorGradient_order (D := D) ce
      ((NN.buildNet D ks ce).setParameters mem ((List.range (NN.buildNet D ks ce).P).map w)) h hr (sc k) (sc' k) hN
    have h1 := NN.batch_order (D := D) ce hr
      ((NN.buildNet D ks ce).setParameters mem ((List.range (NN.buildNet D ks ce).P).map w)) ds (sc k) (sc k) hb (hne b hb)
    have h2 := NN.batch_order (D := D) ce hr
      ((NN.buildNet D ks ce).setParameters mem ((List.range (NN.buildNet D ks ce).P).map w)) ds' (sc' k) (sc' k) hb' (hne b' hb')
    rw [NN.Net.errorGradientAll, NN.Net.errorGradientAll, h.2.1] at hall
    have he := h1.trans (hall.trans h2.symm)
    refine Prod.ext (congrArg (fun q => q.1) he) (funext fun p => ?_)
    exact congrArg (fun q => q.2.getD p 0) he

/-- **C74 (end to end)**: training with batches that are at least as large as the training set gives, after every number of
steps, the same parameters for every order of the training set and for every sequence of shuffles. -/
theorem net_training_order {D : ℕ} {ks : List NN.Kind} (ce : Bool) (hr : ∀ k ∈ ks, k.RowWise) (mem : NN.Mem)
    (sc sc' : ℕ → NN.Scratch) {ds ds' : NN.TrainSet} {π : List ℕ} (h : NN.Reordered π ds ds') (hN : 0 < ds.samples)
    {o : MBSGD} (hv : o.Valid) (hf : o.Fair) (hn : o.iteration < 0) (hs : ds.samples ≤ o.batchSize)
    {r : ℕ → List ℕ → List ℕ} (hrng : ∀ k l, (r k l).Perm l) (w : Vec) (calls : ℕ) {n : ℕ} {c : Bool} {o1 : MBSGD} {obj1 : Obj}
    (hsteps : Steps o ⟨netProblem (NN.buildNet D ks ce) mem sc ds, w, calls, []⟩ n c o1 obj1) :
    ∃ o2 obj2, Steps { o with rng := r } ⟨netProblem (NN.buildNet D ks ce) mem sc' ds', w, calls, []⟩ n c o2 obj2 ∧
      (o2.result obj2).1 = (o1.result obj1).1 ∧ obj2.w = obj1.w := by
  obtain ⟨l1, r1, log1, h1, h2, h3⟩ := full_batch_order hv hf hn hs (net_same_up_to_order ce hr mem sc sc' h hN) hrng
    o.randomIndices [] hsteps
  exact ⟨_, _, h1, h2, h3⟩

/-- Two examples with the minima 0 and 1. -/
def twoMinima : Problem := ⟨1, 2, fun _ w b => (0, fun p => (b.map fun n : ℕ => w p - (n : ℝ)).sum)⟩

/-- The hypotheses of `full_batch_order` are met: batches of two, two examples, shuffles that keep and that reverse the order. -/
example : ∃ (o : MBSGD) (obj : Obj) (r : ℕ → List ℕ → List ℕ) (c : Bool) (o' : MBSGD) (obj' : Obj), o.Valid ∧ o.Fair ∧
    o.iteration < 0 ∧ obj.problem.examples = 2 ∧ obj.problem.examples ≤ o.batchSize ∧ SameUpToOrder obj.problem obj.problem ∧
    (∀ k l, (r k l).Perm l) ∧ (r 0 [0, 1] ≠ o.rng 0 [0, 1]) ∧ Steps o obj 1 c o' obj' := by
  have hv : MBSGD.Valid { example1 false 1 5 with batchSize := 2 } := ⟨by decide, one_pos, le_rfl, le_rfl, le_rfl⟩
  have hf : MBSGD.Fair { example1 false 1 5 with batchSize := 2 } := fun _ _ => List.Perm.refl _
  have hn : ({ example1 false 1 5 with batchSize := 2 } : MBSGD).iteration < 0 := by show (-1 : ℤ) < 0; norm_num
  obtain ⟨c, o', obj', _, hst⟩ := steps_progress hv hf hn (obj := ⟨twoMinima, fun _ => 0, 0, []⟩) ⟨Nat.one_pos, Nat.two_pos⟩ .zero
  refine ⟨_, _, fun _ l => l.reverse, c, o', obj', hv, hf, hn, rfl, le_rfl, ⟨rfl, rfl, ?_⟩, fun _ l => l.reverse_perm, by decide, hst⟩
  intro k w b b' hb hb'
  show ((0 : ℝ), _) = ((0 : ℝ), _)
  congr 1
  funext p
  exact ((hb.trans hb'.symm).map fun n : ℕ => w p - (n : ℝ)).sum_eq

/-- **The condition on the size of the batches is necessary**: with batches of one, two fair shuffles give different parameters
after one epoch. -/
theorem small_batch_order_fails : ∃ (o : MBSGD) (obj : Obj) (r : ℕ → List ℕ → List ℕ), o.Valid ∧ o.Fair ∧ (∀ k l, (r k l).Perm l) ∧
    o.iteration < 0 ∧ SameUpToOrder obj.problem obj.problem ∧ ∃ (c c' : Bool) (o1 o2 : MBSGD) (obj1 obj2 : Obj),
      o.step obj = .ok (c, o1, obj1) ∧ (o.twin [] r).step obj = .ok (c', o2, obj2) ∧
        (o1.result obj1).1 0 ≠ (o2.result obj2).1 0 := by
  have hr : ∀ (k : ℕ) (l : List ℕ), ((fun k l => if k = 1 then l.reverse else l : ℕ → List ℕ → List ℕ) k l).Perm l := by
    intro k l
    show List.Perm (if k = 1 then l.reverse else l) l
    split
    · exact l.reverse_perm
    · exact .refl _
  have hn : (example1 false 1 5).iteration < 0 := by show (-1 : ℤ) < 0; norm_num
  have key : ∀ (r : ℕ → List ℕ → List ℕ) (a b : ℕ), (∀ k l, (r k l).Perm l) → r 1 (r 0 (List.range 2)) = [a, b] →
      ∃ c o1 obj1, ((example1 false 1 5).twin [] r).step ⟨twoMinima, fun _ => 0, 0, []⟩ = .ok (c, o1, obj1) ∧
        o1.parameters 0 = (a : ℝ) / 4 + b / 2 := by
    intro r a b hr hab
    have hab' : (((example1 false 1 5).twin [] r).init ⟨twoMinima, fun _ => 0, 0, []⟩).reshuffle.randomIndices = [a, b] := hab
    have hready : ((example1 false 1 5).twin [] r).ready ⟨twoMinima, fun _ => 0, 0, []⟩ =
        ((example1 false 1 5).twin [] r).init ⟨twoMinima, fun _ => 0, 0, []⟩ := ready_of_lt (show ((example1 false 1 5).twin [] r).iteration < 0 from hn) _
    have hbatches : (((example1 false 1 5).twin [] r).init ⟨twoMinima, fun _ => 0, 0, []⟩).batches = 2 := by
      show max (2 / 1) 1 = 2
      norm_num
    refine ⟨_, _, _, step_ok (by rw [hready]; exact Nat.one_pos) (by rw [hready]; exact Nat.two_pos)
      (by rw [hready, hbatches]; exact Nat.two_pos) (by
        rw [hready]
        show (r 0 (List.range 2)).length = 2
        rw [(hr 0 _).length_eq, List.length_range]) (by rw [hready]; rfl), ?_⟩
    have hfin : ∀ q : MBSGD, q.finish.2.parameters = q.parameters := by
      intro q
      unfold MBSGD.finish
      split <;> rfl
    rw [hfin, hready, hbatches]
    set q := (((example1 false 1 5).twin [] r).init ⟨twoMinima, fun _ => 0, 0, []⟩).reshuffle with hq
    show ((q.updates _ 1).1.update (q.updates _ 1).2 (batchOf q.randomIndices 1 1)).1.parameters 0 = _
    have hstep : ∀ (x : MBSGD) (ob : Obj) (n : ℕ), x.nesterov = false → x.minGain = 1 → x.maxGain = 1 → x.eta = 0 → x.alpha = 1 / 2 →
        ob.problem = twoMinima → (x.update ob [n]).1.parameters 0 = x.parameters 0 - (ob.w 0 - n) / 2 := by
      intro x ob n h1 h2 h3 h4 h5 h6
      have hsc : ∀ g : Vec, x.scaled g 0 = g 0 := by
        intro g
        unfold MBSGD.scaled
        split
        · show g 0 * x.newGains g 0 = g 0
          unfold MBSGD.newGains
          rw [if_pos (by assumption)]
          show g 0 * min x.maxGain (max x.minGain _) = g 0
          rw [h2, h3, min_eq_left (le_max_left _ _), mul_one]
        · rfl
      show x.parameters 0 + (x.eta * x.momentum 0 - x.alpha * x.scaled ((x.lookAhead ob).result [n]).2 0) = _
      rw [hsc, h4, h5]
      have : ((x.lookAhead ob).result [n]).2 0 = ob.w 0 - n := by
        unfold MBSGD.lookAhead
        rw [h1]
        show (ob.problem.errorGradient _ _ _).2 0 = _
        rw [h6]
        show ([n].map fun n : ℕ => ob.w 0 - (n : ℝ)).sum = _
        simp
      rw [this]
      ring
    have hb0 : batchOf q.randomIndices 1 0 = [a] := by rw [hab']; rfl
    have hb1 : batchOf q.randomIndices 1 1 = [b] := by rw [hab']; rfl
    have hu1 : q.updates ⟨twoMinima, fun _ => 0, 0, []⟩ 1 = q.update ⟨twoMinima, fun _ => 0, 0, []⟩ [a] := by
      show q.update _ (batchOf q.randomIndices 1 0) = _
      rw [hb0]
      rfl
    have hp1 : (q.update ⟨twoMinima, fun _ => 0, 0, []⟩ [a]).1.parameters 0 = a / 2 := by
      rw [hstep _ _ _ rfl rfl rfl rfl rfl rfl]
      show (0 : ℝ) - ((0 : ℝ) - a) / 2 = _
      ring
    have hw1 : (q.update ⟨twoMinima, fun _ => 0, 0, []⟩ [a]).2.w = (q.update ⟨twoMinima, fun _ => 0, 0, []⟩ [a]).1.parameters := rfl
    rw [hb1, hu1, hstep _ _ _ rfl rfl rfl ?_ ?_ rfl, hw1, hp1]
    · ring
    · show min ((0 : ℝ) + 0) 1 = 0
      norm_num
    · show max ((1 / 2 : ℝ) * 1) 0 = 1 / 2
      norm_num
  obtain ⟨c, o1, obj1, h1, e1⟩ := key (fun _ l => l) 0 1 (fun _ _ => .refl _) rfl
  obtain ⟨c', o2, obj2, h2, e2⟩ := key (fun k l => if k = 1 then l.reverse else l) 1 0 hr rfl
  refine ⟨example1 false 1 5, ⟨twoMinima, fun _ => 0, 0, []⟩, fun k l => if k = 1 then l.reverse else l,
    example1_valid false one_pos le_rfl 5, example1_fair false 1 5, hr, hn, ⟨rfl, rfl, ?_⟩, c, c', o1, o2, obj1, obj2, h1, h2, ?_⟩
  · intro k w b b' hb hb'
    show ((0 : ℝ), _) = ((0 : ℝ), _)
    congr 1
    funext p
    exact ((hb.trans hb'.symm).map fun n : ℕ => w p - (n : ℝ)).sum_eq
  · show o1.parameters 0 ≠ o2.parameters 0
    rw [e1, e2]
    norm_num

end

end Verif.Opt
