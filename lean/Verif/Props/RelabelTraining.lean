import Verif.Props.SymmetryTraining
import Verif.Props.Relabel

/-!
# C133: the order of features, units and classes does not matter (training)
-/

namespace Verif.Opt

open Finset

noncomputable section

/-! ## Optimiser -/

/-- Spec: with parameters renamed by `σ`, problem `B` has the values and the renamed gradients of problem `A`. -/
def Problem.RenamedTo (A B : Problem) (σ : Equiv.Perm ℕ) : Prop :=
  B.dimension = A.dimension ∧ B.examples = A.examples ∧ (∀ p, σ p < A.dimension ↔ p < A.dimension) ∧
  ∀ k w b, (B.errorGradient k (fun p => w (σ p)) b).1 = (A.errorGradient k w b).1 ∧
    ∀ p, (B.errorGradient k (fun p => w (σ p)) b).2 p = (A.errorGradient k w b).2 (σ p)

/-- Spec: the optimised object with renamed parameters and the other problem. -/
def Obj.renamedTo (obj : Obj) (B : Problem) (σ : ℕ → ℕ) : Obj := { obj.renamed σ with problem := B }

section

variable {σ : Equiv.Perm ℕ} {B : Problem}

theorem lookAhead_renamedTo (o : MBSGD) (obj : Obj) : (o.renamed σ).lookAhead (obj.renamedTo B σ) = (o.lookAhead obj).renamedTo B σ := by
  unfold MBSGD.lookAhead
  show (if o.nesterov = true then _ else _) = _
  cases o.nesterov <;> rfl

theorem result_renamedTo {obj : Obj} (h : obj.problem.RenamedTo B σ) (b : List ℕ) :
    (obj.renamedTo B σ).result b = ((obj.result b).1, fun p => (obj.result b).2 (σ p)) :=
  Prod.ext (h.2.2.2 obj.calls obj.w b).1 (funext (h.2.2.2 obj.calls obj.w b).2)

theorem update_renamedTo (o : MBSGD) {obj : Obj} (h : obj.problem.RenamedTo B σ) (b : List ℕ) :
    (o.renamed σ).update (obj.renamedTo B σ) b = ((o.update obj b).1.renamed σ, (o.update obj b).2.renamedTo B σ) := by
  have hres : ((o.lookAhead obj).renamedTo B σ).result b =
      (((o.lookAhead obj).result b).1, fun p => ((o.lookAhead obj).result b).2 (σ p)) :=
    result_renamedTo (by rw [lookAhead_problem]; exact h) b
  have hlog : ∀ ob : Obj, (ob.renamedTo B σ).evaluate b = (ob.evaluate b).renamedTo B σ := by
    intro ob
    unfold Obj.evaluate Obj.renamedTo Obj.renamed
    simp [Event.renamed]
  unfold MBSGD.update
  simp only [lookAhead_renamedTo, hres, newGains_renamed, scaled_renamed, hlog]
  refine Prod.ext rfl ?_
  show (if o.nesterov = true then _ else _) = _
  cases o.nesterov <;> rfl

theorem updates_renamedTo (o : MBSGD) {obj : Obj} (h : obj.problem.RenamedTo B σ) : ∀ n,
    (o.renamed σ).updates (obj.renamedTo B σ) n = ((o.updates obj n).1.renamed σ, (o.updates obj n).2.renamedTo B σ)
  | 0 => rfl
  | n + 1 => by
    rw [MBSGD.updates, updates_renamedTo o h n]
    exact update_renamedTo _ (by rw [updates_problem]; exact h) _

theorem ready_renamedTo (o : MBSGD) {obj : Obj} (h : obj.problem.RenamedTo B σ) :
    (o.renamed σ).ready (obj.renamedTo B σ) = (o.ready obj).renamed σ := by
  unfold MBSGD.ready
  by_cases hi : o.iteration < 0
  · rw [if_pos hi, if_pos (show (o.renamed σ).iteration < 0 from hi)]
    unfold MBSGD.init
    simp only [Obj.renamedTo, h.1, h.2.1]
    rfl
  · rw [if_neg hi, if_neg (show ¬(o.renamed σ).iteration < 0 from hi)]

theorem step_renamedTo {o : MBSGD} {obj : Obj} (h : obj.problem.RenamedTo B σ) {c : Bool} {o1 : MBSGD} {obj1 : Obj}
    (hs : o.step obj = .ok (c, o1, obj1)) :
    (o.renamed σ).step (obj.renamedTo B σ) = .ok (c, o1.renamed σ, obj1.renamedTo B σ) ∧ obj1.problem = obj.problem := by
  obtain ⟨h1, h2, h3, h4, h5, rfl, rfl, rfl⟩ := step_eq hs
  have hu := updates_renamedTo (o.ready obj).reshuffle h (o.ready obj).batches
  have hP := (updates_same (o.ready obj).reshuffle obj (o.ready obj).batches).P
  have hr := ready_renamedTo o h
  refine ⟨?_, updates_problem _ _ _⟩
  rw [step_ok (by rw [hr]; exact h1) (by rw [hr]; exact h2) (by rw [hr]; exact h3)
    (by rw [hr]; exact h4) (by rw [hr]; exact h.1.trans h5), hr]
  rw [show ((o.ready obj).renamed σ).reshuffle.updates (obj.renamedTo B σ) ((o.ready obj).renamed σ).batches =
    ((o.ready obj).reshuffle.renamed σ).updates (obj.renamedTo B σ) (o.ready obj).batches from rfl, hu, finish_renamed (by
      intro p
      rw [hP]
      show σ p < (o.ready obj).P ↔ p < (o.ready obj).P
      rw [← h5]
      exact h.2.2.1 p)]
  refine congrArg Outcome.ok (Prod.ext rfl (Prod.ext rfl ?_))
  unfold Obj.finishedIteration Obj.renamedTo Obj.renamed
  simp [Event.renamed]

/-- **C133 (optimiser)**: every number of steps on the renamed problem from renamed parameters gives the renamed parameters, with the same
answers of `step()`. -/
theorem steps_renamedTo {o : MBSGD} {obj : Obj} (h : obj.problem.RenamedTo B σ) {n : ℕ} {c : Bool} {o1 : MBSGD} {obj1 : Obj}
    (hs : Steps o obj n c o1 obj1) : Steps (o.renamed σ) (obj.renamedTo B σ) n c (o1.renamed σ) (obj1.renamedTo B σ) ∧
      obj1.problem = obj.problem := by
  induction hs with
  | zero => exact ⟨.zero, rfl⟩
  | succ _ hstep ih =>
    have := step_renamedTo (σ := σ) (by rw [ih.2]; exact h) hstep
    exact ⟨.succ ih.1 this.1, this.2.trans ih.2⟩

theorem loop_renamedTo {signaled : ℕ → Bool} : ∀ (fuel k : ℕ) {o : MBSGD} {obj : Obj}, obj.problem.RenamedTo B σ →
    ∀ {r : Option (MBSGD × Obj)}, MBSGD.loop signaled fuel k o obj = .ok r →
      MBSGD.loop signaled fuel k (o.renamed σ) (obj.renamedTo B σ) = .ok (r.map fun q => (q.1.renamed σ, q.2.renamedTo B σ))
  | 0, _, _, _, _, _, hl => by cases hl; rfl
  | fuel + 1, k, o, obj, h, r, hl => by
    rw [MBSGD.loop, Outcome.bind_eq_ok] at hl
    obtain ⟨⟨c, o1, obj1⟩, hs, hl⟩ := hl
    obtain ⟨hs', hp⟩ := step_renamedTo h hs
    rw [MBSGD.loop, hs', Outcome.ok_bind]
    dsimp only at hl ⊢
    split at hl
    · next hc =>
      rw [if_pos hc]
      exact loop_renamedTo fuel (k + 1) (by rw [hp]; exact h) hl
    · next hc =>
      rw [if_neg hc]
      cases hl
      rfl

/-- **C133 (`optimize`)**: the same for a whole call of `optimize`, ended by a stop criterion or by an interrupt. -/
theorem optimize_renamedTo {signaled : ℕ → Bool} {fuel : ℕ} {o : MBSGD} {obj : Obj} (h : obj.problem.RenamedTo B σ)
    {r : Option (MBSGD × Obj)} (hr : o.optimize signaled fuel obj = .ok r) :
    (o.renamed σ).optimize signaled fuel (obj.renamedTo B σ) = .ok (r.map fun q => (q.1.renamed σ, q.2.renamedTo B σ)) :=
  loop_renamedTo fuel 0 h hr

end

/-! ## Networks -/

section

open NN

variable {D : ℕ} {ks : List Kind} (ce : Bool) {ρ : ℕ → Equiv.Perm ℕ} (ha : AllowsFrom ρ 0 D ks) (hf : FitsFrom D ks)
  (hv : ∀ k ∈ ks, k.Visible) {net : Net} (hn : net = buildNet D ks ce)

include ha hf hv hn

theorem net_renamedTo {σ : Equiv.Perm ℕ} (hσ : net.Relabels ρ σ) (mem : Mem) (sc : ℕ → Scratch) (ds : TrainSet) :
    (netProblem net mem sc ds).RenamedTo (netProblem net mem sc (ds.relabelled (ρ 0) (ρ ks.length))) σ := by
  refine ⟨rfl, rfl, fun p => ?_, fun k w b => ?_⟩
  · show σ p < net.P ↔ p < net.P
    by_cases hp : p < net.P
    · have := hσ.2 p _ (List.getElem?_eq_getElem hp)
      exact ⟨fun _ => hp, fun _ => (List.getElem?_eq_some_iff.1 this).1⟩
    · rw [hσ.1 p (by omega)]
  · have := errorGradient_relabelled ce ha hf hv hn hσ mem (sc k) ds b w
    exact ⟨this.1, this.2⟩

/-- **C133 (training)**: if features, hidden units and classes are renamed in the training set and in the initial weights, then after every
number of steps of a fresh optimiser the parameters are the renamed ones, the answers of `step()` are the same, and so are the
predictions under their new names. -/
theorem training_relabelled {σ : Equiv.Perm ℕ} (hσ : net.Relabels ρ σ) (mem : Mem) (sc : ℕ → Scratch) (ds : TrainSet) {o : MBSGD}
    (ho : o.iteration < 0) (w : Vec) (calls : ℕ) {n : ℕ} (hpos : 0 < n) {c : Bool} {o1 : MBSGD} {obj1 : Obj}
    (hs : Steps o ⟨netProblem net mem sc ds, w, calls, []⟩ n c o1 obj1) :
    ∃ o2 obj2, Steps o ⟨netProblem net mem sc (ds.relabelled (ρ 0) (ρ ks.length)), fun p => w (σ p), calls, []⟩ n c o2 obj2 ∧
      (∀ p, (o2.result obj2).1 p = (o1.result obj1).1 (σ p)) ∧ (∀ p, obj2.w p = obj1.w (σ p)) ∧
      ∀ N X m, ∀ j < net.outputs,
        net.predictAll (net.setParameters mem ((List.range net.P).map (o2.result obj2).1)) N (fun n i => X n (ρ 0 i)) m j =
          net.predictAll (net.setParameters mem ((List.range net.P).map (o1.result obj1).1)) N X m (ρ ks.length j) := by
  have hs' := (steps_renamedTo (net_renamedTo ce ha hf hv hn hσ mem sc ds) hs).1
  exact ⟨_, _, steps_fresh ho hpos hs', fun _ => rfl, fun _ => rfl, fun N X m j hj =>
    predictions_relabelled ce ha hf hv hn hσ mem o1.parameters N X m hj⟩

/-- **C133 (symmetric data)**: if renaming changes neither the training set nor the initial parameters, it does not change the parameters
after any number of steps. -/
theorem symmetric_forever {σ : Equiv.Perm ℕ} (hσ : net.Relabels ρ σ) (mem : Mem) (sc : ℕ → Scratch) {ds : TrainSet}
    (hds : ds.relabelled (ρ 0) (ρ ks.length) = ds) {o : MBSGD} (ho : o.iteration < 0) {w : Vec} (hw : ∀ p, w (σ p) = w p) (calls : ℕ)
    (log : List Event) {n : ℕ} {c : Bool} {o1 : MBSGD} {obj1 : Obj} (hs : Steps o ⟨netProblem net mem sc ds, w, calls, log⟩ n c o1 obj1) :
    (∀ p, obj1.w (σ p) = obj1.w p) ∧ (0 < n → ∀ p, (o1.result obj1).1 (σ p) = (o1.result obj1).1 p) := by
  have h := net_renamedTo ce ha hf hv hn hσ mem sc ds
  rw [hds] at h
  exact steps_sym ho ⟨h.2.2.1, h.2.2.2⟩ hw hs

omit ha hf hv hn in
/-- Spec: features `a` and `b` have the same weights in all units of the first layer. -/
def _root_.Verif.NN.Net.EqualFeatures (net : Net) (w : ℕ → ℝ) (a b : ℕ) : Prop :=
  ∀ j p q, net.parameters[p]? = some (1, .w [j, a]) → net.parameters[q]? = some (1, .w [j, b]) → w p = w q

omit ha hf hv hn in
theorem equalFeatures_iff {net : Net} {a b : ℕ} {σ : ℕ → ℕ} (hnd : net.parameters.Nodup)
    (hσ : net.Relabels (fun l => if l = 0 then Equiv.swap a b else 1) σ) (hpos : ∀ p ∈ net.parameters, p.1 ≠ 0) (w : ℕ → ℝ) :
    net.EqualFeatures w a b ↔ ∀ p, w (σ p) = w p := by
  have hplace : ∀ {p q : ℕ} {l : Loc}, net.parameters[p]? = some l → net.parameters[q]? = some l → p = q := fun h1 h2 => by
    obtain ⟨h1, e1⟩ := List.getElem?_eq_some_iff.1 h1
    obtain ⟨h2, e2⟩ := List.getElem?_eq_some_iff.1 h2
    exact (hnd.getElem_inj_iff (hi := h1) (hj := h2)).1 (e1.trans e2.symm)
  have hfix : ∀ s, renameSlot (1 : Equiv.Perm ℕ) (1 : Equiv.Perm ℕ) s = s := congrFun renameSlot_id
  constructor
  · intro h p
    by_cases hp : p < net.P
    swap
    · rw [hσ.1 p (by omega)]
    have h1 := List.getElem?_eq_getElem hp
    have h2 := hσ.2 p _ h1
    have h0 := hpos _ (List.getElem_mem hp)
    generalize net.parameters[p] = l at h1 h2 h0
    obtain ⟨l, s⟩ := l
    have same : relabel (fun l => if l = 0 then Equiv.swap a b else 1) (l, s) = (l, s) → w (σ p) = w p := fun e => by
      rw [e] at h2
      rw [hplace h2 h1]
    by_cases hl : l = 1
    swap
    · refine same (Prod.ext rfl ?_)
      show renameSlot (if l - 1 = 0 then Equiv.swap a b else 1 : Equiv.Perm ℕ) (if l = 0 then Equiv.swap a b else 1 : Equiv.Perm ℕ) s = s
      rw [if_neg (by simp only at h0; omega), if_neg h0]
      exact hfix s
    subst hl
    match s, h1, h2, same with
    | .w [], _, _, same | .w [_], _, _, same | .w (_ :: _ :: _ :: _), _, _, same | .b [], _, _, same | .b [_], _, _, same |
      .b (_ :: _ :: _), _, _, same => exact same rfl
    | .w [j, i], h1, h2, same =>
      by_cases hia : i = a
      · subst hia
        refine (h j p (σ p) h1 ?_).symm
        rw [h2]
        show some (1, Slot.w [j, Equiv.swap i b i]) = _
        rw [Equiv.swap_apply_left]
      by_cases hib : i = b
      · subst hib
        refine h j (σ p) p ?_ h1
        rw [h2]
        show some (1, Slot.w [j, Equiv.swap a i i]) = _
        rw [Equiv.swap_apply_right]
      refine same ?_
      show (1, Slot.w [j, Equiv.swap a b i]) = _
      rw [Equiv.swap_apply_of_ne_of_ne hia hib]
  · intro h j p q hp hq
    have h2 := hσ.2 p _ hp
    rw [show relabel (fun l => if l = 0 then Equiv.swap a b else 1) (1, Slot.w [j, a]) = (1, Slot.w [j, Equiv.swap a b a]) from rfl,
      Equiv.swap_apply_left] at h2
    rw [← h p, hplace h2 hq]

omit ha hf hv hn in
/-- **C133 (equal features)**: two features that agree in all training instances and that have equal weights in the beginning have equal
weights after every number of steps, in all networks that begin with a fully connected layer, for all data, batch sizes, shuffles,
learning rates, momentum and gains. -/
theorem equal_features_forever {D K : ℕ} {bias : Bool} {act : Act} {reg : Reg} {post : List Kind} (ce : Bool)
    (hf : FitsFrom D (.fullyConnected K bias act reg :: post)) (hv : ∀ k ∈ post, k.Visible) {net : Net}
    (hn : net = buildNet D (.fullyConnected K bias act reg :: post) ce) (mem : Mem) (sc : ℕ → Scratch) {ds : TrainSet} {a b : ℕ} (ha : a < D)
    (hb : b < D) (hds : ∀ n, ds.inst n a = ds.inst n b) {o : MBSGD} (ho : o.iteration < 0) {w : Vec} (hw : net.EqualFeatures w a b) (calls : ℕ)
    (log : List Event) {n : ℕ} {c : Bool} {o1 : MBSGD} {obj1 : Obj} (hs : Steps o ⟨netProblem net mem sc ds, w, calls, log⟩ n c o1 obj1) :
    net.EqualFeatures obj1.w a b ∧ (0 < n → net.EqualFeatures (o1.result obj1).1 a b) := by
  have hal := features_allowed (K := K) (bias := bias) (act := act) (reg := reg) post (swap_lt_iff ha hb)
  obtain ⟨σ, hσ⟩ := relabels_exists ce hal
  rw [← hn] at hσ
  have hnd : net.parameters.Nodup := by rw [hn]; exact parameters_nodup _ _ _
  have hpos : ∀ p ∈ net.parameters, p.1 ≠ 0 := by
    intro p hp
    rw [hn] at hp
    have := locsFrom_index (show p ∈ locsFrom 1 (layersFrom D (.fullyConnected K bias act reg :: post)) from hp)
    omega
  have hds' : ds.relabelled (if 0 = 0 then Equiv.swap a b else 1 : Equiv.Perm ℕ)
      (if (Kind.fullyConnected K bias act reg :: post).length = 0 then Equiv.swap a b else 1 : Equiv.Perm ℕ) = ds := by
    rw [if_pos rfl, if_neg (by simp)]
    obtain ⟨N, X, T⟩ := ds
    refine congrArg₂ (TrainSet.mk N) ?_ rfl
    funext m i
    show X m (Equiv.swap a b i) = X m i
    rw [Equiv.swap_apply_def]
    split
    · next h => rw [h]; exact (hds m).symm
    · split
      · next h => rw [h]; exact hds m
      · rfl
  have := symmetric_forever ce hal hf (fun k hk => by
    rcases List.mem_cons.1 hk with rfl | hk
    · trivial
    · exact hv k hk) hn hσ mem sc hds' ho ((equalFeatures_iff hnd hσ hpos w).1 hw) calls log hs
  exact ⟨(equalFeatures_iff hnd hσ hpos _).2 this.1, fun h0 => (equalFeatures_iff hnd hσ hpos _).2 (this.2 h0)⟩

end

/-- A network with two inputs, two hidden units and one output. -/
def twoInputs : List NN.Kind := [.fullyConnected 2 true .tanh ⟨0, 0, 0⟩, .fullyConnected 1 true .linear ⟨0, 0, 0⟩]

/-- The hypotheses of `training_relabelled`, `symmetric_forever` and `equal_features_forever` are met: one step with one example that has two
equal features. -/
example : ∃ (o : MBSGD) (c : Bool) (o1 : MBSGD) (obj1 : Obj), o.iteration < 0 ∧
    NN.AllowsFrom (fun l => if l = 0 then Equiv.swap 0 1 else 1) 0 2 twoInputs ∧ NN.FitsFrom 2 twoInputs ∧ (∀ k ∈ twoInputs, k.Visible) ∧
    (NN.buildNet 2 twoInputs false).EqualFeatures (fun _ => 1) 0 1 ∧
    Steps o ⟨netProblem (NN.buildNet 2 twoInputs false) (fun _ _ => 0) (fun _ => ⟨fun _ _ => 0, fun _ _ _ => 0⟩)
      ⟨1, fun _ _ => 1, fun _ _ => 2⟩, fun _ => 1, 0, []⟩ 1 c o1 obj1 := by
  have hn : (example1 false 1 5).iteration < 0 := by show (-1 : ℤ) < 0; norm_num
  obtain ⟨c, o', obj', _, hst⟩ := steps_progress (example1_valid false one_pos le_rfl 5) (example1_fair false 1 5) hn
    (obj := ⟨netProblem (NN.buildNet 2 twoInputs false) (fun _ _ => 0) (fun _ => ⟨fun _ _ => 0, fun _ _ _ => 0⟩)
      ⟨1, fun _ _ => 1, fun _ _ => 2⟩, fun _ => 1, 0, []⟩) ⟨by show 0 < 9; norm_num, Nat.one_pos⟩ .zero
  refine ⟨_, c, o', obj', hn, NN.features_allowed _ (NN.swap_lt_iff (by omega) (by omega)), ⟨trivial, trivial, trivial⟩, ?_,
    fun _ _ _ _ _ => rfl, hst⟩
  intro k hk
  simp only [twoInputs, List.mem_cons, List.not_mem_nil, or_false] at hk
  rcases hk with rfl | rfl <;> trivial

end

end Verif.Opt
