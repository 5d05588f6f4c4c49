import Verif.Model.ParallelLayers
import Verif.Props.Parallel
import Verif.Props.Conv
import Verif.Props.MaxPool
import Verif.Props.Subsampling
import Verif.Props.SigmaPiGradient
import Verif.Props.Patches
import Verif.Props.LRN

/-!
# C94: the parallel loops of the layers

Each loop with `#pragma omp parallel for` stays within its footprint (a row of the result per iteration), and its sequential execution
is the sequential model of the layer.  With `parallel_for` all executions by several threads are safe and have this result.
-/

namespace Verif.Par

open Outcome Prog NN

/-! ## Simulation -/

/-- The memory with given matrices. -/
def mem (x : Batch) (w : Weights) (y z e t : Batch) : Mem Cell
  | .x n j => x n j
  | .w s => w s
  | .y n j => y n j
  | .z n j => z n j
  | .e n j => e n j
  | .t n j => t n j

theorem update_y (x : Batch) (w : Weights) (y z e t : Batch) (n j : ℕ) (v : ℝ) :
    Function.update (mem x w y z e t) (.y n j) v = mem x w (setEntry y n j v) z e t := by
  funext l
  cases l with
  | y n' j' =>
    simp only [mem, setEntry, Function.update_apply, Cell.y.injEq]
  | _ => rfl

theorem update_z (x : Batch) (w : Weights) (y z e t : Batch) (n j : ℕ) (v : ℝ) :
    Function.update (mem x w y z e t) (.z n j) v = mem x w y (setEntry z n j v) e t := by
  funext l
  cases l with
  | z n' j' =>
    simp only [mem, setEntry, Function.update_apply, Cell.z.injEq]
  | _ => rfl

theorem update_w (x : Batch) (w : Weights) (y z e t : Batch) (s : Slot) (v : ℝ) :
    Function.update (mem x w y z e t) (.w s) v = mem x (Function.update w s v) y z e t := by
  funext l
  cases l with
  | w s' =>
    simp only [mem, Function.update_apply, Cell.w.injEq]
  | _ => rfl

/-- A program with private variables `τ` does on states that are decoded from `σ` what the function `F` does. -/
def Sim {L σ τ : Type} [DecidableEq L] (dec : σ → τ × Mem L) (I : σ → Prop) (p : τ → Prog L τ) (F : σ → Outcome σ) : Prop :=
  ∀ s, I s → ((p (dec s).1).run (dec s).2 = F s >>= fun r => ok (dec r)) ∧ ∀ r, F s = ok r → I r

theorem Sim.loop {L σ τ : Type} [DecidableEq L] {dec : σ → τ × Mem L} {I : σ → Prop} {p : ℕ → τ → Prog L τ} {F : ℕ → σ → Outcome σ}
    {n : ℕ} (h : ∀ i < n, Sim dec I (p i) (F i)) : Sim dec I (Prog.loop n p) (forLoop n F) := by
  induction n with
  | zero =>
    intro s hs
    refine ⟨rfl, ?_⟩
    rintro r ⟨⟩
    exact hs
  | succ n ih =>
    intro s hs
    obtain ⟨h1, h2⟩ := ih (fun i hi => h i (by omega)) s hs
    rw [Prog.loop, run_bind, h1, forLoop]
    cases hF : forLoop n F s with
    | ok r => exact h n (by omega) r (h2 r hF)
    | _ => exact ⟨rfl, fun r h => by cases h⟩

theorem Sim.steps {L σ τ : Type} [DecidableEq L] {dec : σ → τ × Mem L} {I : σ → Prop} {p : ℕ → τ → Prog L τ} {F : ℕ → σ → Outcome σ}
    {hi st : ℕ} (h : ∀ i, Sim dec I (p i) (F i)) (i : ℕ) : Sim dec I (Prog.steps hi st p i) (stepLoop hi st F i) := by
  intro s hs
  rw [Prog.steps, stepLoop]
  by_cases hc : i < hi ∧ 0 < st
  · rw [dif_pos hc, dif_pos hc, run_bind]
    obtain ⟨h1, h2⟩ := h i s hs
    rw [h1]
    cases hF : F i s with
    | ok r => exact Sim.steps h (i + st) r (h2 r hF)
    | _ => exact ⟨rfl, fun r h => by cases h⟩
  · rw [dif_neg hc, dif_neg hc]
    refine ⟨rfl, ?_⟩
    rintro r ⟨⟩
    exact hs
termination_by hi - i

/-- A loop without access to the memory. -/
theorem run_pure_loop {L τ : Type} [DecidableEq L] {n : ℕ} {p : ℕ → τ → Prog L τ} {F : ℕ → τ → Outcome τ} {m : Mem L}
    (h : ∀ i < n, ∀ s, (p i s).run m = F i s >>= fun r => ok (r, m)) (s : τ) :
    (loop n p s).run m = forLoop n F s >>= fun r => ok (r, m) :=
  (Sim.loop (dec := fun s : τ => (s, m)) (I := fun _ => True) (fun i hi s _ => ⟨h i hi s, fun _ _ => trivial⟩) s trivial).1

section conv

variable {g : Conv} {x z e t : Batch} {w : Weights}

theorem run_kernelRow (n fmo fmi kr base : ℕ) (y : Batch) :
    (kernelRow g n fmo fmi kr base).run (mem x w y z e t) = (if base + g.kernelCols ≤ g.inputs then
      ok (∑ kc ∈ Finset.range g.kernelCols, w (.w [fmo, fmi, kr, kc]) * x n (base + kc), mem x w y z e t) else ub) := by
  unfold kernelRow
  by_cases h : base + g.kernelCols ≤ g.inputs
  · rw [if_pos h, if_pos h, run_pure_loop (F := fun kc s => ok (s + w (.w [fmo, fmi, kr, kc]) * x n (base + kc))) (fun i _ s => rfl),
      forLoop_add (fun kc => w (.w [fmo, fmi, kr, kc]) * x n (base + kc)) (fun i _ s => rfl), zero_add]
    rfl
  · rw [if_neg h, if_neg h]
    rfl

theorem run_kernelRows (n fmo fmi idx k base : ℕ) (y : Batch) :
    (kernelRows g n fmo fmi idx k base).run (mem x w y z e t) =
      forLoop k (fun kr (s : ℝ × ℕ) => if s.2 + g.kernelCols ≤ g.inputs then
        ok (s.1 + ∑ kc ∈ Finset.range g.kernelCols, w (.w [fmo, fmi, kr, kc]) * x n (s.2 + kc), s.2 + g.inCols)
        else ub) (y n idx, base) >>= fun r => ok (r.2, mem x w (setEntry y n idx r.1) z e t) := by
  have hy : ∀ v, setEntry (setEntry y n idx v) n idx = setEntry y n idx := by
    intro v
    funext u n' j'
    simp only [setEntry]
    split <;> rfl
  have h0 : setEntry y n idx (y n idx) = y := by
    funext n' j'
    simp only [setEntry]
    split
    · rename_i h
      rw [h.1, h.2]
    · rfl
  have := (Sim.loop (dec := fun s : ℝ × ℕ => (s.2, mem x w (setEntry y n idx s.1) z e t)) (I := fun _ => True)
    (p := fun kr base => do
      let s ← kernelRow g n fmo fmi kr base
      let out ← get (.y n idx)
      Prog.set (.y n idx) (out + s)
      pure (base + g.inCols))
    (F := fun kr (s : ℝ × ℕ) => if s.2 + g.kernelCols ≤ g.inputs then
        ok (s.1 + ∑ kc ∈ Finset.range g.kernelCols, w (.w [fmo, fmi, kr, kc]) * x n (s.2 + kc), s.2 + g.inCols)
        else ub) (n := k) (fun kr _ s _ => ⟨?_, fun _ _ => trivial⟩) (y n idx, base) trivial).1
  · simp only [h0] at this
    exact this
  · dsimp only
    rw [run_bind, run_kernelRow]
    by_cases h : s.2 + g.kernelCols ≤ g.inputs
    · rw [if_pos h, if_pos h, ok_bind, run_bind, run_get, ok_bind, run_bind, run_set, ok_bind, update_y, hy]
      simp [mem, setEntry]
    · rw [if_neg h, if_neg h]
      rfl

/-- The decoding of matrix and private index. -/
abbrev decode (x : Batch) (w : Weights) (z e t : Batch) (s : Batch × ℕ) : ℕ × Mem Cell := (s.2, mem x w s.1 z e t)

theorem sim_columns (n fmo fmi fmInBase row : ℕ) :
    Sim (decode x w z e t) (fun _ => True) (columns g n fmo fmi fmInBase row) (g.colLoop w x n fmo fmi fmInBase row) := by
  refine Sim.loop fun col _ s _ => ⟨?_, fun _ _ => trivial⟩
  simp only [decode]
  rw [run_bind, run_lift]
  by_cases h : s.2 < g.outputs
  · rw [check_true h, ok_bind, ok_bind, ok_bind, run_bind, run_kernelRows, Conv.krLoop, bind_assoc, bind_assoc]
    rfl
  · rw [check_false h]
    rfl

theorem sim_biases (n fmo fmi : ℕ) :
    Sim (decode x w z e t) (fun _ => True) (biases g n fmo fmi) (g.biasLoop w n fmo fmi) := by
  refine Sim.loop fun row _ => Sim.loop fun col _ s _ => ⟨?_, fun _ _ => trivial⟩
  simp only [decode]
  by_cases h : s.2 < g.outputs
  · rw [if_pos h, if_pos h, run_bind, run_get, ok_bind, run_bind, run_get, ok_bind, run_bind, run_set, ok_bind, update_y]
    rfl
  · rw [if_neg h, if_neg h]
    rfl

theorem sim_inputMap (n fmo fmi : ℕ) :
    Sim (decode x w z e t) (fun _ => True) (inputMap g n fmo fmi) (g.fmiStep w x n fmo fmi) := by
  intro s _
  refine ⟨?_, fun _ _ => trivial⟩
  unfold inputMap Conv.fmiStep
  have h1 := (Sim.loop (n := g.maxRow) (fun row _ => sim_columns (g := g) (x := x) (w := w) (z := z) (e := e) (t := t) n fmo fmi s.2 row)
    (s.1, fmo * g.fmOutSize) trivial).1
  simp only [decode] at h1 ⊢
  rw [run_bind, h1, bind_assoc, bind_assoc]
  congr 1
  funext r
  rw [ok_bind]
  cases g.bias with
  | true =>
    have h2 := (sim_biases (g := g) (x := x) (w := w) (z := z) (e := e) (t := t) n fmo fmi (r.1, fmo * g.fmOutSize) trivial).1
    simp only [decode] at h2
    simp only [if_true]
    rw [run_bind, h2, bind_assoc, bind_assoc]
    rfl
  | false => rfl

theorem sim_unit {p : ℕ → Prog Cell Unit} {F : ℕ → Batch → Outcome Batch}
    (h : ∀ n y, (p n).run (mem x w y z e t) = F n y >>= fun r => ok ((), mem x w r z e t)) (N : ℕ) (y : Batch) :
    (loop N (fun n _ => p n) ()).run (mem x w y z e t) = forLoop N F y >>= fun r => ok ((), mem x w r z e t) :=
  (Sim.loop (dec := fun y : Batch => ((), mem x w y z e t)) (I := fun _ => True) (fun n _ y _ => ⟨h n y, fun _ _ => trivial⟩) y trivial).1

/-- The sequential execution of the loop of the convolution is the sequential model. -/
theorem run_conv (N : ℕ) :
    (loop N (fun n _ => convBody g n) ()).run (mem x w (fun _ _ => 0) z e t) =
      g.forwardLoops w N x >>= fun r => ok ((), mem x w r z e t) := by
  refine sim_unit (fun n y => sim_unit (fun fmo y => ?_) g.fmout y) N _
  have := (Sim.loop (n := g.fmin) (fun fmi _ => sim_inputMap (g := g) (x := x) (w := w) (z := z) (e := e) (t := t) n fmo fmi)
    (y, 0) trivial).1
  simp only [decode] at this
  rw [run_bind, this, bind_assoc, bind_assoc]
  rfl

end conv

/-! ## Footprints -/

/-- The cells of row `n`. -/
def own (n : ℕ) : Cell → Prop
  | .y m _ => m = n
  | .z m _ => m = n
  | _ => False

/-- The cells that no loop over the rows writes. -/
def shared : Cell → Prop
  | .y _ _ => False
  | .z _ _ => False
  | _ => True

theorem separated : Separated own shared := by
  refine ⟨fun i j l hi hj => ?_, fun i l hi hs => ?_⟩
  · cases l <;> simp_all [own]
  · cases l <;> simp_all [own, shared]

/-- The program is an iteration that stays within its row. -/
abbrev InRow {α : Type} (n : ℕ) (p : Prog Cell α) : Prop := Within (fun l => shared l ∨ own n l) (own n) p

theorem inRow_x (n m j : ℕ) : InRow n (get (.x m j)) := .get (Or.inl trivial)
theorem inRow_w (n : ℕ) (s : Slot) : InRow n (get (.w s)) := .get (Or.inl trivial)
theorem inRow_e (n m j : ℕ) : InRow n (get (.e m j)) := .get (Or.inl trivial)
theorem inRow_t (n m j : ℕ) : InRow n (get (.t m j)) := .get (Or.inl trivial)
theorem inRow_y (n j : ℕ) : InRow n (get (.y n j)) := .get (Or.inr rfl)
theorem inRow_z (n j : ℕ) : InRow n (get (.z n j)) := .get (Or.inr rfl)
theorem inRow_setY (n j : ℕ) (v : ℝ) : InRow n (Prog.set (.y n j) v) := ⟨rfl, trivial⟩
theorem inRow_setZ (n j : ℕ) (v : ℝ) : InRow n (Prog.set (.z n j) v) := ⟨rfl, trivial⟩

theorem inRow_ite {α : Type} {n : ℕ} {c : Prop} [Decidable c] {p q : Prog Cell α} (hp : InRow n p) (hq : InRow n q) :
    InRow n (if c then p else q) := by
  split
  · exact hp
  · exact hq

theorem conv_inRow (g : Conv) (n : ℕ) : InRow n (convBody g n) := by
  refine .loop _ (fun fmo _ => .bind (.loop _ (fun fmi base => ?_) _) fun _ => .pure _) _
  refine .bind (.loop _ (fun row => .loop _ fun col idx => ?_) _) fun _ =>
    inRow_ite (.bind (.loop _ (fun _ => .loop _ fun _ idx => ?_) _) fun _ => .pure _) (.pure _)
  · refine .bind (.lift _) fun _ => .bind (.loop _ (fun kr base => ?_) _) fun _ => .pure _
    refine .bind (inRow_ite (.loop _ (fun kc s => ?_) _) (.lift _)) fun _ => .bind (inRow_y _ _) fun _ =>
      .bind (inRow_setY _ _ _) fun _ => .pure _
    exact .bind (inRow_w _ _) fun _ => .bind (inRow_x _ _ _) fun _ => .pure _
  · exact inRow_ite (.bind (inRow_y _ _) fun _ => .bind (inRow_w _ _) fun _ => .bind (inRow_setY _ _ _) fun _ => .pure _) (.lift _)

/-! ## Pooling -/

section pool

variable {g : Pool} {x z e t : Batch} {w : Weights}

theorem run_windows {P : ℕ → ℕ → ℕ → ℕ → ℕ → Prog Cell Unit} {B : ℕ → ℕ → ℕ → ℕ → ℕ → Batch → Outcome Batch}
    (h : ∀ fmo ro co base idx y, (P fmo ro co base idx).run (mem x w y z e t) =
      B fmo ro co base idx y >>= fun r => ok ((), mem x w r z e t)) (y : Batch) :
    (windows g P).run (mem x w y z e t) = g.windowLoop B y >>= fun r => ok ((), mem x w r z e t) := by
  have key := (Sim.loop (n := g.fm) (dec := fun c : Cursor Batch => ((⟨(), c.ro, c.co, c.outputIdx⟩ : Cursor Unit), mem x w c.st z e t))
    (I := fun _ => True) (p := fun fmo c =>
      steps g.maxRow g.kernelRows (fun ri c => do
        let c' ← steps g.maxCol g.kernelCols (fun ci (c : Cursor Unit) => do
          let _ ← P fmo c.ro c.co (fmo * g.fmInSize + ri * g.inCols + ci) c.outputIdx
          pure { c with co := c.co + 1, outputIdx := c.outputIdx + 1 }) 0 { c with co := 0 }
        pure { c' with ro := c'.ro + 1 }) 0 { c with ro := 0 })
    (F := fun fmo c =>
      stepLoop g.maxRow g.kernelRows (fun ri c => do
        let c' ← stepLoop g.maxCol g.kernelCols (fun ci c => do
          let t ← B fmo c.ro c.co (fmo * g.fmInSize + ri * g.inCols + ci) c.outputIdx c.st
          pure { c with st := t, co := c.co + 1, outputIdx := c.outputIdx + 1 }) 0 { c with co := 0 }
        pure { c' with ro := c'.ro + 1 }) 0 { c with ro := 0 })
    (fun fmo _ c _ => ⟨(Sim.steps (dec := fun c : Cursor Batch => ((⟨(), c.ro, c.co, c.outputIdx⟩ : Cursor Unit), mem x w c.st z e t))
        (I := fun _ => True) (fun ri c _ => ⟨?_, fun _ _ => trivial⟩) 0 { c with ro := 0 } trivial).1, fun _ _ => trivial⟩)
    (⟨y, 0, 0, 0⟩ : Cursor Batch) trivial).1
  · rw [windows, Pool.windowLoop, run_bind, key, bind_assoc, bind_assoc]
    rfl
  · have inner := (Sim.steps (hi := g.maxCol) (st := g.kernelCols)
      (dec := fun c : Cursor Batch => ((⟨(), c.ro, c.co, c.outputIdx⟩ : Cursor Unit), mem x w c.st z e t))
      (I := fun _ => True) (p := fun ci (c : Cursor Unit) => do
          let _ ← P fmo c.ro c.co (fmo * g.fmInSize + ri * g.inCols + ci) c.outputIdx
          pure { c with co := c.co + 1, outputIdx := c.outputIdx + 1 })
      (F := fun ci c => do
          let t ← B fmo c.ro c.co (fmo * g.fmInSize + ri * g.inCols + ci) c.outputIdx c.st
          pure { c with st := t, co := c.co + 1, outputIdx := c.outputIdx + 1 })
      (fun ci c _ => ⟨by
        dsimp only
        rw [run_bind, h, bind_assoc, bind_assoc]
        rfl, fun _ _ => trivial⟩) 0 { c with co := 0 } trivial).1
    dsimp only at inner ⊢
    rw [run_bind, inner, bind_assoc, bind_assoc]
    rfl

theorem run_input (I n j : ℕ) (y : Batch) :
    (input I n j).run (mem x w y z e t) = (if j < I then ok (x n j) else ub) >>= fun v => ok (v, mem x w y z e t) := by
  unfold input
  by_cases h : j < I
  · rw [if_pos h, if_pos h]
    rfl
  · rw [if_neg h, if_neg h]
    rfl

theorem run_windowMax (n base : ℕ) (y : Batch) :
    (windowMax g n base).run (mem x w y z e t) = g.maxLoop x n base >>= fun r => ok (r, mem x w y z e t) := by
  refine run_pure_loop (fun _ _ m => ?_) _
  rw [run_bind, run_pure_loop (F := fun _ (s : ℝ × ℕ) => if s.2 < g.inputs then .ok (max s.1 (x n s.2), s.2 + 1) else .ub)
    (fun _ _ s => by
      rw [run_bind, run_input]
      by_cases h : s.2 < g.inputs
      · rw [if_pos h, if_pos h]
        rfl
      · rw [if_neg h, if_neg h]
        rfl), bind_assoc, bind_assoc]
  rfl

theorem run_max (N : ℕ) (y : Batch) : (loop N (fun n _ => maxBody g n) ()).run (mem x w y z e t) =
    g.maxForward N x y >>= fun r => ok ((), mem x w r z e t) := by
  refine sim_unit (fun n y => run_windows (fun _ _ _ base idx y => ?_) y) N y
  rw [run_bind, run_windowMax, bind_assoc, bind_assoc]
  congr 1
  funext m
  rw [ok_bind]
  by_cases h : idx < g.outputs
  · rw [if_pos h, if_pos h, run_set, update_y]
    rfl
  · rw [if_neg h, if_neg h]
    rfl

theorem run_windowArg (n base : ℕ) (y : Batch) :
    (windowArg g n base).run (mem x w y z e t) = g.argLoop x n base >>= fun r => ok (r, mem x w y z e t) := by
  refine run_pure_loop (fun _ _ m => ?_) _
  rw [run_bind, run_pure_loop (F := fun _ (s : (ℝ × Option ℕ) × ℕ) =>
      if s.2 < g.inputs then .ok (if s.1.1 < x n s.2 then (x n s.2, some s.2) else s.1, s.2 + 1) else .ub)
    (fun _ _ s => by
      rw [run_bind, run_input]
      by_cases h : s.2 < g.inputs
      · rw [if_pos h, if_pos h, ok_bind, ok_bind, ok_bind]
        by_cases h' : s.1.1 < x n s.2
        · rw [if_pos h', if_pos h', run_bind, run_input, if_pos h]
          rfl
        · rw [if_neg h', if_neg h']
          rfl
      · rw [if_neg h, if_neg h]
        rfl), bind_assoc, bind_assoc]
  rfl

theorem run_maxBack (N : ℕ) : (loop N (fun n _ => maxBackBody g n) ()).run (mem x w (fun _ _ => 0) z e t) =
    g.maxBackward N x e >>= fun r => ok ((), mem x w r z e t) := by
  refine sim_unit (fun n y => run_windows (fun _ _ _ base idx y => ?_) y) N _
  rw [run_bind, run_windowArg, bind_assoc, bind_assoc]
  congr 1
  funext m
  rw [ok_bind]
  by_cases h : idx < g.outputs
  · rw [if_pos h, if_pos h, run_bind, run_get, ok_bind]
    obtain ⟨m, i⟩ := m
    cases i with
    | none => rfl
    | some i =>
      simp only [assign, Pool.writeError]
      by_cases hi : i < g.inputs
      · rw [if_pos hi, if_pos hi, run_set, update_y]
        rfl
      · rw [if_neg hi, if_neg hi]
        rfl
  · rw [if_neg h, if_neg h]
    rfl

theorem setEntry_set (y : Batch) (n j : ℕ) (u v : ℝ) : setEntry (setEntry y n j u) n j v = setEntry y n j v := by
  funext n' j'
  simp only [setEntry]
  split <;> rfl

theorem setEntry_self (y : Batch) (n j : ℕ) : setEntry y n j (y n j) = y := by
  funext n' j'
  simp only [setEntry]
  split
  · rename_i h
    rw [h.1, h.2]
  · rfl

theorem setEntry_get (y : Batch) (n j : ℕ) (v : ℝ) : setEntry y n j v n j = v := if_pos ⟨rfl, rfl⟩

theorem run_windowSum (n fmo ro co base idx : ℕ) (y : Batch) :
    (windowSum g n fmo ro co base idx).run (mem x w y z e t) =
      g.sumLoop (w (.w [fmo, ro, co])) x n base (y n idx) >>= fun v => ok ((), mem x w (setEntry y n idx v) z e t) := by
  have key := (Sim.loop (n := g.kernelRows) (dec := fun v : ℝ => ((), mem x w (setEntry y n idx v) z e t)) (I := fun _ => True)
    (p := fun _ _ => do
      let _ ← loop g.kernelCols (fun _ j => do
        let x ← input g.inputs n j
        let w ← get (.w (.w [fmo, ro, co]))
        let a ← get (.y n idx)
        Prog.set (.y n idx) (a + x * w)
        pure (j + 1)) base
      pure ())
    (F := fun _ v => do
      let r ← forLoop g.kernelCols (fun _ s =>
        if s.2 < g.inputs then .ok (s.1 + x n s.2 * w (.w [fmo, ro, co]), s.2 + 1) else .ub) (v, base)
      pure r.1)
    (fun _ _ v _ => ⟨?_, fun _ _ => trivial⟩) (y n idx) trivial).1
  · dsimp only at key
    rw [setEntry_self] at key
    exact key
  · have inner := (Sim.loop (n := g.kernelCols) (dec := fun s : ℝ × ℕ => (s.2, mem x w (setEntry y n idx s.1) z e t)) (I := fun _ => True)
      (p := fun _ j => do
        let x ← input g.inputs n j
        let w ← get (.w (.w [fmo, ro, co]))
        let a ← get (.y n idx)
        Prog.set (.y n idx) (a + x * w)
        pure (j + 1))
      (F := fun _ s => if s.2 < g.inputs then .ok (s.1 + x n s.2 * w (.w [fmo, ro, co]), s.2 + 1) else .ub)
      (fun _ _ s _ => ⟨by
        dsimp only
        rw [run_bind, run_input]
        by_cases h : s.2 < g.inputs
        · rw [if_pos h, if_pos h, ok_bind, ok_bind, ok_bind, run_bind, run_get, ok_bind, run_bind, run_get, ok_bind, run_bind, run_set,
            ok_bind, update_y, setEntry_set]
          simp only [mem, setEntry_get]
          rfl
        · rw [if_neg h, if_neg h]
          rfl, fun _ _ => trivial⟩) (v, base) trivial).1
    dsimp only at inner ⊢
    rw [run_bind, inner, bind_assoc, bind_assoc]
    rfl

theorem run_sub (bias : Bool) (N : ℕ) : (loop N (fun n _ => subBody g bias n) ()).run (mem x w (fun _ _ => 0) z e t) =
    g.subForward bias w N x >>= fun r => ok ((), mem x w r z e t) := by
  refine sim_unit (fun n y => run_windows (fun fmo ro co base idx y => ?_) y) N _
  by_cases h : idx < g.outputs ∧ fmo < g.fm ∧ ro < g.outRows ∧ co < g.outCols
  · rw [if_pos h, if_pos h, run_bind, run_windowSum, bind_assoc, bind_assoc]
    congr 1
    funext v
    rw [ok_bind]
    cases bias with
    | true =>
      simp only [if_true]
      rw [run_bind, run_get, ok_bind, run_bind, run_get, ok_bind, run_set, update_y, setEntry_set]
      simp only [mem, setEntry_get]
      rfl
    | false => rfl
  · rw [if_neg h, if_neg h]
    rfl

theorem windows_inRow (g : Pool) (n : ℕ) {P : ℕ → ℕ → ℕ → ℕ → ℕ → Prog Cell Unit} (h : ∀ fmo ro co base idx, InRow n (P fmo ro co base idx)) :
    InRow n (windows g P) :=
  .bind (.loop _ (fun _ _ => .steps _ _ (fun _ _ => .bind (.steps _ _ (fun _ _ => .bind (h _ _ _ _ _) fun _ => .pure _) _ _)
    fun _ => .pure _) _ _) _) fun _ => .pure _

theorem input_inRow (n I j : ℕ) : InRow n (input I n j) := inRow_ite (inRow_x _ _ _) (.lift _)

theorem max_inRow (g : Pool) (n : ℕ) : InRow n (maxBody g n) :=
  windows_inRow g n fun _ _ _ _ _ => .bind (.loop _ (fun _ _ => .bind (.loop _ (fun _ _ => .bind (input_inRow _ _ _) fun _ => .pure _) _)
    fun _ => .pure _) _) fun _ => inRow_ite (inRow_setY _ _ _) (.lift _)

theorem maxBack_inRow (g : Pool) (n : ℕ) : InRow n (maxBackBody g n) := by
  refine windows_inRow g n fun _ _ _ _ _ => .bind (.loop _ (fun _ _ => .bind (.loop _ (fun _ _ => .bind (input_inRow _ _ _) fun _ => ?_) _)
    fun _ => .pure _) _) fun r => inRow_ite (.bind (inRow_e _ _ _) fun v => ?_) (.lift _)
  · exact inRow_ite (.bind (input_inRow _ _ _) fun _ => .pure _) (.pure _)
  · cases r.2 with
    | none => exact .lift _
    | some i => exact inRow_ite (inRow_setY _ _ _) (.lift _)

theorem sub_inRow (g : Pool) (bias : Bool) (n : ℕ) : InRow n (subBody g bias n) := by
  refine windows_inRow g n fun _ _ _ _ _ => inRow_ite (.bind (.loop _ (fun _ _ => .bind (.loop _ (fun _ _ => .bind (input_inRow _ _ _)
    fun _ => .bind (inRow_w _ _) fun _ => .bind (inRow_y _ _) fun _ => .bind (inRow_setY _ _ _) fun _ => .pure _) _) fun _ => .pure _) _)
    fun _ => ?_) (.lift _)
  exact inRow_ite (.bind (inRow_y _ _) fun _ => .bind (inRow_w _ _) fun _ => inRow_setY _ _ _) (.pure _)

end pool

/-! ## Local response normalisation -/

section lrn

variable {g : LRN}

/-- The loops over the places visit the indices in order. -/
theorem run_places {body : ℕ → ℕ → ℕ → ℕ → Prog Cell Unit} (M : ℕ → Mem Cell)
    (h : ∀ f < g.fm, ∀ r < g.rows, ∀ c < g.cols, (body f r c (f * (g.rows * g.cols) + r * g.cols + c)).run
      (M (f * (g.rows * g.cols) + r * g.cols + c)) = ok ((), M (f * (g.rows * g.cols) + r * g.cols + c + 1))) :
    (places g body).run (M 0) = ok ((), M g.inputs) := by
  have h3 : ∀ f < g.fm, ∀ r < g.rows, (loop g.cols (fun c idx => do
      let _ ← body f r c idx
      pure (idx + 1)) (f * (g.rows * g.cols) + r * g.cols)).run (M (f * (g.rows * g.cols) + r * g.cols)) =
      ok (f * (g.rows * g.cols) + (r + 1) * g.cols, M (f * (g.rows * g.cols) + (r + 1) * g.cols)) := by
    intro f hf r hr
    rw [run_loop]
    have := forLoop_eq (n := g.cols) (body := fun c (s : ℕ × Mem Cell) => (do
        let _ ← body f r c s.1
        pure (s.1 + 1) : Prog Cell ℕ).run s.2)
      (fun c => (f * (g.rows * g.cols) + r * g.cols + c, M (f * (g.rows * g.cols) + r * g.cols + c))) (fun c hc => by
        dsimp only
        rw [run_bind, h f hf r hr c hc]
        rfl)
    rw [Nat.add_zero] at this
    rw [this, show f * (g.rows * g.cols) + (r + 1) * g.cols = f * (g.rows * g.cols) + r * g.cols + g.cols by ring]
  have h2 : ∀ f < g.fm, (loop g.rows (fun r => loop g.cols fun c idx => do
      let _ ← body f r c idx
      pure (idx + 1)) (f * (g.rows * g.cols))).run (M (f * (g.rows * g.cols))) =
      ok ((f + 1) * (g.rows * g.cols), M ((f + 1) * (g.rows * g.cols))) := by
    intro f hf
    rw [run_loop]
    have := forLoop_eq (n := g.rows) (body := fun r (s : ℕ × Mem Cell) => (loop g.cols (fun c idx => do
        let _ ← body f r c idx
        pure (idx + 1) : ℕ → ℕ → Prog Cell ℕ) s.1).run s.2)
      (fun r => (f * (g.rows * g.cols) + r * g.cols, M (f * (g.rows * g.cols) + r * g.cols))) (fun r hr => h3 f hf r hr)
    rw [Nat.zero_mul, Nat.add_zero] at this
    rw [this, show (f + 1) * (g.rows * g.cols) = f * (g.rows * g.cols) + g.rows * g.cols by ring]
  have h1 := forLoop_eq (n := g.fm) (body := fun f (s : ℕ × Mem Cell) => (loop g.rows (fun r => loop g.cols (fun c idx => do
        let _ ← body f r c idx
        pure (idx + 1) : ℕ → ℕ → Prog Cell ℕ)) s.1).run s.2)
    (fun f => (f * (g.rows * g.cols), M (f * (g.rows * g.cols)))) h2
  rw [Nat.zero_mul] at h1
  rw [places, run_bind, run_loop, h1, LRN.inputs, Nat.mul_assoc]
  rfl

/-- A matrix whose row `n` is filled up to column `k`. -/
def fill (y : Batch) (n : ℕ) (v : ℕ → ℝ) (k : ℕ) : Batch := fun n' o => if n' = n ∧ o < k then v o else y n' o

theorem fill_zero (y : Batch) (n : ℕ) (v : ℕ → ℝ) : fill y n v 0 = y := by
  funext n' o
  exact if_neg (by simp)

theorem fill_succ (y : Batch) (n : ℕ) (v : ℕ → ℝ) (k : ℕ) : setEntry (fill y n v k) n k (v k) = fill y n v (k + 1) := by
  funext n' o
  simp only [fill, setEntry]
  by_cases h1 : n' = n
  · by_cases h2 : o = k
    · rw [if_pos ⟨h1, h2⟩, if_pos ⟨h1, by omega⟩, h2]
    · rw [if_neg (fun h => h2 h.2)]
      by_cases h3 : o < k
      · rw [if_pos ⟨h1, h3⟩, if_pos ⟨h1, by omega⟩]
      · rw [if_neg (fun h => h3 h.2), if_neg (fun h => h3 (by omega))]
  · rw [if_neg (fun h => h1 h.1), if_neg (fun h => h1 h.1), if_neg (fun h => h1 h.1)]

/-- A matrix whose first `n` rows are filled up to column `k`. -/
def fillRows (y : Batch) (v : Batch) (k n : ℕ) : Batch := fun n' o => if n' < n ∧ o < k then v n' o else y n' o

theorem fillRows_succ (y v : Batch) (k n : ℕ) : fill (fillRows y v k n) n (v n) k = fillRows y v k (n + 1) := by
  funext n' o
  simp only [fill, fillRows]
  by_cases h2 : o < k
  · by_cases h1 : n' = n
    · rw [if_pos ⟨h1, h2⟩, if_pos ⟨by omega, h2⟩, h1]
    · rw [if_neg (fun h => h1 h.1)]
      by_cases h3 : n' < n
      · rw [if_pos ⟨h3, h2⟩, if_pos ⟨by omega, h2⟩]
      · rw [if_neg (fun h => h3 h.1), if_neg (fun h => h3 (by omega))]
  · rw [if_neg (fun h => h2 h.2), if_neg (fun h => h2 h.2), if_neg (fun h => h2 h.2)]

/-- The sum of a loop over the maps. -/
theorem sum_maps (g : LRN) (n f : ℕ) (v : ℕ → ℝ) :
    ∑ i ∈ Finset.range (mapMax g n f - mapMin n f), v (mapMin n f + i) = ∑ k ∈ g.maps n f, v k := by
  rw [LRN.maps, Finset.sum_Ico_eq_sum_range]
  rfl

theorem place_lt {f r c : ℕ} (hf : f < g.fm) (hr : r < g.rows) (hc : c < g.cols) :
    f * (g.rows * g.cols) + r * g.cols + c < g.inputs := by
  have := NN.idx_bound (a := f) (A := g.fm) (r := r) (R := g.rows) (c := c) (k := 1) (C := g.cols) hf hr (by omega)
  rw [LRN.inputs]
  omega

theorem place_split {f r c : ℕ} (hr : r < g.rows) (hc : c < g.cols) :
    (f * (g.rows * g.cols) + r * g.cols + c) / g.fmSize = f ∧ (f * (g.rows * g.cols) + r * g.cols + c) % g.fmSize = r * g.cols + c := by
  have hp : r * g.cols + c < g.rows * g.cols := by
    have : (r + 1) * g.cols ≤ g.rows * g.cols := Nat.mul_le_mul_right _ hr
    rw [Nat.add_mul, Nat.one_mul] at this
    omega
  rw [LRN.fmSize, Nat.add_assoc]
  exact LRN.split hp

variable (x z e t : Batch) (w : Weights)

theorem map_lt {n f k : ℕ} (hk : mapMin n f + k < mapMax g n f) : mapMin n f + k < g.fm := by
  unfold mapMax at hk
  omega

theorem run_lrnRow (n : ℕ) (y : Batch) :
    (lrnBody g n).run (mem x w y z e t) = ok ((), mem x w (fill y n (g.forward x n) g.inputs) (fill z n (g.denomAt x n) g.inputs) e t) := by
  have := run_places (g := g) (body := fun fmOut r c idx => do
    let sum ← loop (mapMax g n fmOut - mapMin n fmOut) (fun i d => do
      let a ← input g.inputs n ((mapMin n fmOut + i) * g.fmSize + r * g.cols + c)
      pure (d + a * a)) 0
    if idx < g.inputs then
      let _ ← Prog.set (.z n idx) (g.k + g.alpha * sum)
      let v ← get (.x n idx)
      Prog.set (.y n idx) (v * (g.k + g.alpha * sum) ^ (-g.beta))
    else lift .ub)
    (fun k => mem x w (fill y n (g.forward x n) k) (fill z n (g.denomAt x n) k) e t) (fun f hf r hr c hc => by
      rw [run_bind, run_pure_loop (F := fun i d => ok (d + x n ((mapMin n f + i) * g.fmSize + (r * g.cols + c)) *
          x n ((mapMin n f + i) * g.fmSize + (r * g.cols + c)))) (fun i hi s => by
          have hlt := place_lt (g := g) (map_lt (g := g) (n := n) (f := f) (k := i) (by omega)) hr hc
          rw [run_bind, run_input, if_pos (by rw [LRN.fmSize]; exact hlt), Nat.add_assoc]
          rfl),
        forLoop_add (fun i => x n ((mapMin n f + i) * g.fmSize + (r * g.cols + c)) *
          x n ((mapMin n f + i) * g.fmSize + (r * g.cols + c))) (fun _ _ _ => rfl),
        zero_add, sum_maps g n f (fun k => x n (k * g.fmSize + (r * g.cols + c)) * x n (k * g.fmSize + (r * g.cols + c))), ok_bind, ok_bind,
        if_pos (place_lt hf hr hc), run_bind, run_set, ok_bind, update_z, run_bind, run_get, ok_bind, run_set, update_y]
      have hd : g.denomAt x n (f * (g.rows * g.cols) + r * g.cols + c) = g.k + g.alpha * ∑ k ∈ g.maps n f,
          x n (k * g.fmSize + (r * g.cols + c)) * x n (k * g.fmSize + (r * g.cols + c)) := by
        rw [LRN.denomAt, (place_split hr hc).1, (place_split hr hc).2]
        rfl
      rw [← hd, fill_succ]
      simp only [mem]
      rw [show x n (f * (g.rows * g.cols) + r * g.cols + c) * g.denomAt x n (f * (g.rows * g.cols) + r * g.cols + c) ^ (-g.beta) =
        g.forward x n (f * (g.rows * g.cols) + r * g.cols + c) from rfl, fill_succ])
  simp only [fill_zero] at this
  exact this

theorem run_lrn (N : ℕ) (y : Batch) : (loop N (fun n _ => lrnBody g n) ()).run (mem x w y z e t) =
    ok ((), mem x w (fillRows y (g.forward x) g.inputs N) (fillRows z (g.denomAt x) g.inputs N) e t) := by
  have := forLoop_eq (n := N) (body := fun n (s : Unit × Mem Cell) => (lrnBody g n).run s.2)
    (fun n => ((), mem x w (fillRows y (g.forward x) g.inputs n) (fillRows z (g.denomAt x) g.inputs n) e t)) (fun n _ => by
      dsimp only
      rw [run_lrnRow, fillRows_succ, fillRows_succ])
  rw [run_loop]
  refine Eq.trans ?_ this
  congr 3

theorem run_lrnBackRow {N n : ℕ} (hn : n < N) (y : Batch) (hz : ∀ o < g.inputs, z n o = g.denomAt x n o) :
    (lrnBackBody g N n).run (mem x w y z e (g.etmp x e)) = ok ((), mem x w (fill y n (g.backward N x e n) g.inputs) z e (g.etmp x e)) := by
  have := run_places (g := g) (body := fun fmOut r c idx => do
    let nom ← loop (mapMax g n fmOut - mapMin n fmOut) (fun i s =>
      let j := (mapMin n fmOut + i) * g.fmSize + r * g.cols + c
      if j < N * g.inputs then do
        let v ← get (.t (j % N) (j / N))
        pure (s + v)
      else lift .ub) 0
    if idx < g.inputs then
      let x ← get (.x n idx)
      let ein ← get (.e n idx)
      let d ← get (.z n idx)
      Prog.set (.y n idx) (x * nom + ein * d ^ (-g.beta))
    else lift .ub)
    (fun k => mem x w (fill y n (g.backward N x e n) k) z e (g.etmp x e)) (fun f hf r hr c hc => by
      rw [run_bind, run_pure_loop (F := fun i s => ok (s + g.etmp x e (((mapMin n f + i) * g.fmSize + (r * g.cols + c)) % N)
          (((mapMin n f + i) * g.fmSize + (r * g.cols + c)) / N))) (fun i hi s => by
          have hlt := place_lt (g := g) (map_lt (g := g) (n := n) (f := f) (k := i) (by omega)) hr hc
          have hle : g.inputs ≤ N * g.inputs := Nat.le_mul_of_pos_left _ (by omega)
          dsimp only
          rw [if_pos (by rw [LRN.fmSize]; omega), Nat.add_assoc]
          rfl),
        forLoop_add (fun i => g.etmp x e (((mapMin n f + i) * g.fmSize + (r * g.cols + c)) % N)
          (((mapMin n f + i) * g.fmSize + (r * g.cols + c)) / N)) (fun _ _ _ => rfl),
        zero_add, sum_maps g n f (fun k => g.etmp x e ((k * g.fmSize + (r * g.cols + c)) % N) ((k * g.fmSize + (r * g.cols + c)) / N)),
        ok_bind, ok_bind, if_pos (place_lt hf hr hc), run_bind, run_get, ok_bind, run_bind, run_get, ok_bind, run_bind, run_get, ok_bind,
        run_set, update_y]
      have hb : g.backward N x e n (f * (g.rows * g.cols) + r * g.cols + c) = x n (f * (g.rows * g.cols) + r * g.cols + c) *
          (∑ k ∈ g.maps n f, g.etmp x e ((k * g.fmSize + (r * g.cols + c)) % N) ((k * g.fmSize + (r * g.cols + c)) / N)) +
          e n (f * (g.rows * g.cols) + r * g.cols + c) * z n (f * (g.rows * g.cols) + r * g.cols + c) ^ (-g.beta) := by
        rw [LRN.backward, (place_split hr hc).1, (place_split hr hc).2, hz _ (place_lt hf hr hc)]
      simp only [mem]
      rw [← hb, fill_succ])
  simp only [fill_zero] at this
  exact this

theorem run_lrnBack (N : ℕ) (y : Batch) (hz : ∀ n < N, ∀ o < g.inputs, z n o = g.denomAt x n o) :
    (loop N (fun n _ => lrnBackBody g N n) ()).run (mem x w y z e (g.etmp x e)) =
      ok ((), mem x w (fillRows y (g.backward N x e) g.inputs N) z e (g.etmp x e)) := by
  have := forLoop_eq (n := N) (body := fun n (s : Unit × Mem Cell) => (lrnBackBody g N n).run s.2)
    (fun n => ((), mem x w (fillRows y (g.backward N x e) g.inputs n) z e (g.etmp x e))) (fun n hn => by
      dsimp only
      rw [run_lrnBackRow x z e w hn _ (hz n hn), fillRows_succ])
  rw [run_loop]
  refine Eq.trans ?_ this
  congr 3

theorem places_inRow (g : LRN) (n : ℕ) {P : ℕ → ℕ → ℕ → ℕ → Prog Cell Unit} (h : ∀ f r c idx, InRow n (P f r c idx)) :
    InRow n (places g P) :=
  .bind (.loop _ (fun _ => .loop _ fun _ => .loop _ fun _ _ => .bind (h _ _ _ _) fun _ => .pure _) _) fun _ => .pure _

theorem lrn_inRow (g : LRN) (n : ℕ) : InRow n (lrnBody g n) :=
  places_inRow g n fun _ _ _ _ => .bind (.loop _ (fun _ _ => .bind (input_inRow _ _ _) fun _ => .pure _) _) fun _ =>
    inRow_ite (.bind (inRow_setZ _ _ _) fun _ => .bind (inRow_x _ _ _) fun _ => inRow_setY _ _ _) (.lift _)

theorem lrnBack_inRow (g : LRN) (N n : ℕ) : InRow n (lrnBackBody g N n) :=
  places_inRow g n fun _ _ _ _ => .bind (.loop _ (fun _ _ => inRow_ite (.bind (inRow_t _ _ _) fun _ => .pure _) (.lift _)) _) fun _ =>
    inRow_ite (.bind (inRow_x _ _ _) fun _ => .bind (inRow_e _ _ _) fun _ => .bind (inRow_z _ _) fun _ => inRow_setY _ _ _) (.lift _)

end lrn

/-! ## The derivatives of the convolution -/

section clear

/-- The program sets the cells `S` to zero and does nothing else. -/
def Zeroes (S : Cell → Prop) (p : Prog Cell Unit) : Prop :=
  ∀ m, ∃ m', p.run m = ok ((), m') ∧ (∀ l, S l → m' l = 0) ∧ ∀ l, ¬ S l → m' l = m l

theorem Zeroes.set (l : Cell) : Zeroes (fun l' => l' = l) (Prog.set l 0) := fun m =>
  ⟨_, rfl, fun l' h => by rw [h, Function.update_self], fun l' h => Function.update_of_ne h _ _⟩

theorem Zeroes.loop {n : ℕ} {S : ℕ → Cell → Prop} {p : ℕ → Prog Cell Unit} (h : ∀ i < n, Zeroes (S i) (p i)) :
    Zeroes (fun l => ∃ i < n, S i l) (Prog.loop n (fun i _ => p i) ()) := by
  induction n with
  | zero => exact fun m => ⟨m, rfl, fun l ⟨i, hi, _⟩ => by omega, fun l _ => rfl⟩
  | succ n ih =>
    intro m
    obtain ⟨m1, h1, h2, h3⟩ := ih (fun i hi => h i (by omega)) m
    obtain ⟨m2, g1, g2, g3⟩ := h n (by omega) m1
    refine ⟨m2, ?_, fun l hl => ?_, fun l hl => ?_⟩
    · rw [Prog.loop, run_bind, h1]
      exact g1
    · by_cases hn : S n l
      · exact g2 l hn
      · obtain ⟨i, hi, hs⟩ := hl
        rw [g3 l hn]
        refine h2 l ⟨i, ?_, hs⟩
        rcases Nat.lt_succ_iff_lt_or_eq.1 hi with h' | rfl
        · exact h'
        · exact absurd hs hn
    · rw [g3 l fun hs => hl ⟨n, by omega, hs⟩]
      exact h3 l fun ⟨i, hi, hs⟩ => hl ⟨i, by omega, hs⟩

variable {g : Conv}

theorem clear_zeroes (fmo : ℕ) : Zeroes (fun l => ∃ fmi < g.fmin, ∃ kr < g.kernelRows, ∃ kc < g.kernelCols, l = .w (.w [fmo, fmi, kr, kc]))
    (clearBody g fmo) :=
  Zeroes.loop fun _ _ => Zeroes.loop fun _ _ => Zeroes.loop fun _ _ => Zeroes.set _

/-- The derivatives of the weights of output map `fmo`. -/
def ownMap (fmo : ℕ) : Cell → Prop
  | .w (.w (a :: _)) => a = fmo
  | _ => False

theorem separatedMap : Separated ownMap (fun _ => False) := by
  refine ⟨fun i j l hi hj => ?_, fun _ _ _ h => h⟩
  match l, hi, hj with
  | .w (.w (a :: _)), hi, hj => exact (Eq.symm hi).trans hj

theorem clear_within (fmo : ℕ) : Within (fun l => False ∨ ownMap fmo l) (ownMap fmo) (clearBody g fmo) := by
  refine .loop _ (fun _ _ => .loop _ (fun _ _ => .loop _ (fun _ _ => ?_) _) _) _
  exact ⟨rfl, trivial⟩

end clear

/-! ## Sigma-pi -/

section sigma

open SigmaPi

variable {X : Mat} {l : SigmaPi.Layer} {z e t y : Batch} {w : Weights}

theorem run_product {n : ℕ} (hn : n < X.rows) (ps : List ℕ) (k : ℝ) : (productOf X.cols n ps k).run (mem X.val w y z e t) =
    product X n ps k >>= fun r => ok (r, mem X.val w y z e t) := by
  induction ps generalizing k with
  | nil => rfl
  | cons p ps ih =>
    rw [productOf, product, run_bind, run_input]
    by_cases h : p < X.cols
    · rw [if_pos h, Mat.get_nat hn h]
      exact ih _
    · rw [if_neg h, Mat.get_ub (by omega)]
      rfl

theorem run_unitSum (hw : ∀ k < l.w.length, w (.w [k]) = l.w.getD k 0) {n : ℕ} (hn : n < X.rows) (us : Neuron) (s : ℝ) :
    (unitSum X.cols l.w.length n us s).run (mem X.val w y z e t) =
      weightedSum l.w X n us s >>= fun r => ok (r, mem X.val w y z e t) := by
  induction us generalizing s with
  | nil => rfl
  | cons u us ih =>
    rw [unitSum, weightedSum, run_bind, run_product hn, bind_assoc, bind_assoc]
    congr 1
    funext k
    rw [ok_bind]
    by_cases h : u.weight < l.w.length
    · rw [if_pos h, read_of_lt h, run_bind, run_get, ok_bind, ok_bind]
      have : mem X.val w y z e t (.w (.w [u.weight])) = l.w[u.weight] := (hw _ h).trans (List.getElem_eq_getD (h := h) 0).symm
      dsimp only
      rw [this]
      exact ih _
    · rw [if_neg h, read_of_ge (by omega)]
      rfl

theorem run_sigma (hw : ∀ k < l.w.length, w (.w [k]) = l.w.getD k 0) (y : Batch) :
    (loop X.rows (fun n _ => sigmaBody l X.cols n) ()).run (mem X.val w y z e t) =
      activations l X y >>= fun a => ok ((), mem X.val w a.val z e t) := by
  refine (Sim.loop (dec := fun a : Mat => ((), mem X.val w a.val z e t)) (I := fun a => a.rows = X.rows ∧ a.cols = l.nodes.length)
    (fun n hn a ha => ?_) ⟨X.rows, l.nodes.length, y⟩ ⟨rfl, rfl⟩).1
  unfold sigmaBody
  by_cases h : l.nodes = []
  · rw [if_pos h, if_pos h]
    exact ⟨rfl, fun r hr => by cases hr⟩
  · rw [if_neg h, if_neg h]
    refine Sim.loop (dec := fun a : Mat => ((), mem X.val w a.val z e t)) (I := fun a => a.rows = X.rows ∧ a.cols = l.nodes.length)
      (fun i hi a ha => ?_) a ha
    have hv : (if l.nodes.getD i [] = [] then lift .ub else unitSum X.cols l.w.length n (l.nodes.getD i []) 0 : Prog Cell ℝ).run
        (mem X.val w a.val z e t) = activation l.w X n (l.nodes.getD i []) >>= fun r => ok (r, mem X.val w a.val z e t) := by
      cases hu : l.nodes.getD i [] with
      | nil => rfl
      | cons u us =>
        rw [if_neg (by simp)]
        exact run_unitSum hw hn _ _
    have hset : ∀ v, a.set n i v = ok ⟨a.rows, a.cols, setEntry a.val n i v⟩ := fun v =>
      Mat.set_ok (by omega) (by omega) v
    dsimp only
    rw [run_bind, hv]
    constructor
    · rw [bind_assoc, bind_assoc]
      congr 1
      funext v
      rw [hset, ok_bind, run_set, update_y]
      rfl
    · intro r hr
      obtain ⟨v, _, hr⟩ := bind_eq_ok.1 hr
      rw [hset] at hr
      cases hr
      exact ha

theorem sigma_inRow (l : SigmaPi.Layer) (I n : ℕ) : InRow n (sigmaBody l I n) := by
  have hp : ∀ (ps : List ℕ) k, InRow n (productOf I n ps k) := by
    intro ps
    induction ps with
    | nil => exact fun k => .pure _
    | cons p ps ih => exact fun k => .bind (input_inRow _ _ _) fun _ => ih _
  have hu : ∀ (us : Neuron) s, InRow n (unitSum I l.w.length n us s) := by
    intro us
    induction us with
    | nil => exact fun s => .pure _
    | cons u us ih => exact fun s => .bind (hp _ _) fun _ => inRow_ite (.bind (inRow_w _ _) fun _ => ih _) (.lift _)
  exact inRow_ite (.lift _) (.loop _ (fun _ _ => .bind (inRow_ite (.lift _) (hu _ _)) fun _ => inRow_setY _ _ _) _)

end sigma

/-! ## Random patches -/

section patches

open Pre

variable {images : Mat} {p : Patch} {corners : List (ℤ × ℤ)} {z e t : Batch} {w : Weights}

theorem forLoop_foldlM {σ : Type} (n : ℕ) (f : ℕ → σ → Outcome σ) (s : σ) :
    forLoop n f s = (List.range n).foldlM (fun s i => f i s) s := by
  induction n with
  | zero => rfl
  | succ n ih =>
    rw [forLoop, ih, List.range_succ, List.foldlM_append]
    congr 1
    funext s'
    rw [List.foldlM_cons]
    cases f n s' <;> rfl

theorem run_patches (P C : ℕ) (y : Batch) :
    (loop images.rows (fun m _ => patchBody p corners images.cols P C m) ()).run (mem images.val w y z e t) =
      (List.range images.rows).foldlM (fun q m => imagePatches p images corners m q) ⟨P, C, y⟩ >>=
        fun q => ok ((), mem images.val w q.val z e t) := by
  rw [← forLoop_foldlM images.rows (fun m q => imagePatches p images corners m q)]
  refine (Sim.loop (dec := fun a : Mat => ((), mem images.val w a.val z e t)) (I := fun a => a.rows = P ∧ a.cols = C)
    (fun m hm => Sim.loop (fun n _ a ha => ?_)) ⟨P, C, y⟩ ⟨rfl, rfl⟩).1
  dsimp only
  rw [run_bind, run_lift]
  cases Outcome.read corners (m * p.samples + n) with
  | ok corner =>
    have key := Sim.loop (n := p.channels) (dec := fun s : Mat × ℕ => (s.2, mem images.val w s.1.val z e t))
      (I := fun s => s.1.rows = P ∧ s.1.cols = C)
      (p := fun chan => loop p.patchRows fun row => loop p.patchCols fun col pxIdx => do
        let j := ((chan * (p.rows * p.cols) : ℕ) : ℤ) + (corner.1 + row) * p.cols + corner.2 + col
        if 0 ≤ j ∧ j < images.cols then
          let v ← get (.x m j.toNat)
          if m * p.samples + n < P ∧ pxIdx < C then
            let _ ← Prog.set (.y (m * p.samples + n) pxIdx) v
            pure (pxIdx + 1)
          else lift .ub
        else lift .ub)
      (F := fun chan s => forLoop p.patchRows (fun row s => forLoop p.patchCols (fun col (s : Mat × ℕ) => do
        let v ← images.get m (((chan * (p.rows * p.cols) : ℕ) : ℤ) + (corner.1 + row) * p.cols + corner.2 + col)
        let q ← s.1.set (m * p.samples + n) s.2 v
        ok (q, s.2 + 1)) s) s)
      (fun chan _ => Sim.loop fun row _ => Sim.loop fun col _ s hs => ?_) (a, 0) ha
    · obtain ⟨k1, k2⟩ := key
      rw [ok_bind, ok_bind, run_bind]
      dsimp only at k1 ⊢
      rw [k1, ok_bind]
      constructor
      · rw [copyPatch, bind_assoc, bind_assoc]
        rfl
      · intro r hr
        obtain ⟨v, hv, hr⟩ := bind_eq_ok.1 hr
        cases hr
        exact k2 _ hv
    · generalize ((chan * (p.rows * p.cols) : ℕ) : ℤ) + (corner.1 + row) * p.cols + corner.2 + col = j
      dsimp only
      by_cases hj : 0 ≤ j ∧ j < images.cols
      · rw [if_pos hj, Mat.get_ok (by omega) (by omega) hj.1 hj.2, ok_bind, run_bind, run_get, ok_bind]
        dsimp only
        by_cases hi : m * p.samples + n < P ∧ s.2 < C
        · rw [if_pos hi, Mat.set_ok (by omega) (by omega), ok_bind, run_bind, run_set, ok_bind, update_y]
          refine ⟨rfl, fun r hr => ?_⟩
          cases hr
          exact hs
        · rw [if_neg hi]
          have : s.1.set (m * p.samples + n) s.2 (images.val (m : ℤ).toNat j.toNat) = ub := if_neg (by rw [hs.1, hs.2]; exact hi)
          rw [this]
          exact ⟨rfl, fun r hr => by cases hr⟩
      · rw [if_neg hj, Mat.get_ub (by omega)]
        exact ⟨rfl, fun r hr => by cases hr⟩
  | _ => exact ⟨rfl, fun r hr => by cases hr⟩

/-- The rows of the patches of image `m`. -/
def ownImage (samples m : ℕ) : Cell → Prop
  | .y i _ => ∃ n < samples, i = m * samples + n
  | _ => False

theorem separatedImage (samples : ℕ) : Separated (ownImage samples) shared := by
  refine ⟨fun i j l hi hj => ?_, fun i l hi hs => ?_⟩
  · match l, hi, hj with
    | .y a b, ⟨n, hn, h1⟩, ⟨n', hn', h2⟩ =>
      have e1 : a / samples = i := by
        rw [h1, Nat.add_comm, Nat.add_mul_div_right _ _ (by omega), Nat.div_eq_of_lt hn, Nat.zero_add]
      have e2 : a / samples = j := by
        rw [h2, Nat.add_comm, Nat.add_mul_div_right _ _ (by omega), Nat.div_eq_of_lt hn', Nat.zero_add]
      exact e1.symm.trans e2
  · match l, hi, hs with
    | .y a b, _, hs => exact hs

/-- A loop whose body has to stay within its footprint only for the iterations that are executed. -/
theorem within_loop {L σ : Type} {R W : L → Prop} (n : ℕ) {body : ℕ → σ → Prog L σ} (h : ∀ i < n, ∀ s, Within R W (body i s)) (s : σ) :
    Within R W (loop n body s) := by
  induction n with
  | zero => exact .pure _
  | succ n ih => exact .bind (ih fun i hi => h i (by omega)) fun s' => h n (by omega) s'

theorem patches_within (p : Patch) (corners : List (ℤ × ℤ)) (I P C m : ℕ) :
    Within (fun l => shared l ∨ ownImage p.samples m l) (ownImage p.samples m) (patchBody p corners I P C m) := by
  refine within_loop _ (fun n hn _ => .bind (.lift _) fun corner => .bind (.loop _ (fun chan => .loop _ fun row => .loop _ fun col px => ?_) _)
    fun _ => .pure _) _
  dsimp only
  split
  · refine .bind (.get (Or.inl trivial)) fun v => ?_
    split
    · exact .bind (.set ⟨n, hn, rfl⟩ _) fun _ => .pure _
    · exact .lift _
  · exact .lift _

end patches

/-! ## The loops are safe -/

/-- Spec: for every number of threads and every distribution of the `N` iterations over them, all interleavings are safe: there is no
race, exception or undefined behaviour, the loop ends, and it turns the memory `m0` into `m`. -/
def Computes (body : ℕ → Prog Cell Unit) (N : ℕ) (m0 m : Mem Cell) : Prop :=
  ∀ T its, Distributed T N its → ∃ total, ∀ k c, Exec T (fork body its m0) k c → Safe T k total c m

/-- There are complete executions: whatever has been executed, the threads can go on until the loop has ended with the memory `m`. -/
theorem Computes.ends {body : ℕ → Prog Cell Unit} {N : ℕ} {m0 m : Mem Cell} (h : Computes body N m0 m) {T : ℕ} {its : ℕ → List ℕ}
    (hd : Distributed T N its) : ∃ k c, Exec T (fork body its m0) k c ∧ Finished T c ∧ c.mem = m := by
  obtain ⟨total, hs⟩ := h T its hd
  have : ∀ d k c, Exec T (fork body its m0) k c → total - k = d → ∃ k c, Exec T (fork body its m0) k c ∧ Finished T c := by
    intro d
    induction d with
    | zero =>
      intro k c he hk
      rcases (hs k c he).progress with hf | ⟨c', hc⟩
      · exact ⟨k, c, he, hf⟩
      · have := (hs _ _ (he.step hc)).bounded
        omega
    | succ d ih =>
      intro k c he hk
      rcases (hs k c he).progress with hf | ⟨c', hc⟩
      · exact ⟨k, c, he, hf⟩
      · exact ih _ _ (he.step hc) (by omega)
  obtain ⟨k, c, he, hf⟩ := this _ 0 _ (.start _) rfl
  exact ⟨k, c, he, hf, (hs k c he).result hf⟩

/-- **C94**: the convolution. -/
theorem conv_parallel {g : Conv} (hg : g.Valid) (x : Batch) (w : Weights) (z e t : Batch) (N : ℕ) :
    ∃ a, (∀ n < N, ∀ o, a n o = g.activation w x n o) ∧
      Computes (convBody g) N (mem x w (fun _ _ => 0) z e t) (mem x w a z e t) := by
  obtain ⟨a, ha, hv⟩ := Conv.conv_forward hg w N x
  refine ⟨a, hv, fun T its hd => parallel_for separated (conv_inRow g) hd ?_⟩
  rw [run_conv, ha]
  rfl

/-- **C94**: the loop that clears the derivatives of the convolution. -/
theorem clear_parallel (g : Conv) (m : Mem Cell) :
    ∃ m', (∀ fmo < g.fmout, ∀ fmi < g.fmin, ∀ kr < g.kernelRows, ∀ kc < g.kernelCols, m' (.w (.w [fmo, fmi, kr, kc])) = 0) ∧
      (∀ l, (∀ fmo < g.fmout, ∀ fmi < g.fmin, ∀ kr < g.kernelRows, ∀ kc < g.kernelCols, l ≠ .w (.w [fmo, fmi, kr, kc])) → m' l = m l) ∧
      Computes (clearBody g) g.fmout m m' := by
  obtain ⟨m', h1, h2, h3⟩ := (Zeroes.loop (n := g.fmout) fun fmo _ => clear_zeroes (g := g) fmo) m
  refine ⟨m', fun fmo ho fmi hi kr hr kc hc => h2 _ ⟨fmo, ho, fmi, hi, kr, hr, kc, hc, rfl⟩, fun l hl => h3 l ?_,
    fun T its hd => parallel_for separatedMap clear_within hd h1⟩
  rintro ⟨fmo, ho, fmi, hi, kr, hr, kc, hc, he⟩
  exact hl fmo ho fmi hi kr hr kc hc he

/-- **C94**: the forward pass of max-pooling. -/
theorem max_parallel {g : Pool} (hg : g.Valid) (x : Batch) (w : Weights) (y z e t : Batch) (N : ℕ) :
    ∃ y', (∀ n < N, ∀ o < g.outputs, y' n o = g.maxLayer.forward w N x n o) ∧
      Computes (maxBody g) N (mem x w y z e t) (mem x w y' z e t) := by
  obtain ⟨y', h, hv⟩ := Pool.maxPool_forward hg w N x y
  refine ⟨y', hv, fun T its hd => parallel_for separated (max_inRow g) hd ?_⟩
  rw [run_max, h]
  rfl

/-- **C94**: the backward pass of max-pooling, where it is defined (see C24). -/
theorem maxBack_parallel {g : Pool} (hg : g.Valid) (x : Batch) (w : Weights) (z ein t : Batch) (N : ℕ)
    (hx : ∀ n < N, ∀ o < g.outputs, ∃ kc < g.kernelCols, Pool.lowest < x n (g.base o + kc)) (flag : Bool) (stale : Batch) :
    ∃ e', (∀ n < N, ∀ i, e' n i = g.maxLayer.back w N x ein flag stale n i) ∧
      Computes (maxBackBody g) N (mem x w (fun _ _ => 0) z ein t) (mem x w e' z ein t) := by
  obtain ⟨e', h, hv⟩ := Pool.maxPool_backward hg w N x ein stale flag hx
  refine ⟨e', hv, fun T its hd => parallel_for separated (maxBack_inRow g) hd ?_⟩
  rw [run_maxBack, h]
  rfl

/-- **C94**: the forward pass of subsampling. -/
theorem sub_parallel {g : Pool} (hg : g.Valid) (bias : Bool) (x : Batch) (w : Weights) (z e t : Batch) (N : ℕ) :
    ∃ a, (∀ n < N, ∀ o < g.outputs, a n o = g.subActivation bias w x n o) ∧
      Computes (subBody g bias) N (mem x w (fun _ _ => 0) z e t) (mem x w a z e t) := by
  obtain ⟨a, h, hv⟩ := Pool.sub_forward hg bias w N x
  refine ⟨a, hv, fun T its hd => parallel_for separated (sub_inRow g bias) hd ?_⟩
  rw [run_sub, h]
  rfl

/-- **C94**: the forward pass of the local response normalisation. -/
theorem lrn_parallel (g : LRN) (x : Batch) (w : Weights) (y z e t : Batch) (N : ℕ) :
    ∃ y' z', (∀ n < N, ∀ o < g.inputs, y' n o = g.forward x n o ∧ z' n o = g.denomAt x n o) ∧
      Computes (lrnBody g) N (mem x w y z e t) (mem x w y' z' e t) :=
  ⟨_, _, fun _ hn _ ho => ⟨if_pos ⟨hn, ho⟩, if_pos ⟨hn, ho⟩⟩,
    fun _ _ hd => parallel_for separated (lrn_inRow g) hd (run_lrn x z e t w N y)⟩

/-- **C94**: the backward pass of the local response normalisation, after a forward pass. -/
theorem lrnBack_parallel (g : LRN) (x : Batch) (w : Weights) (y z ein : Batch) (N : ℕ)
    (hz : ∀ n < N, ∀ o < g.inputs, z n o = g.denomAt x n o) :
    ∃ e', (∀ n < N, ∀ o < g.inputs, e' n o = g.backward N x ein n o) ∧
      Computes (lrnBackBody g N) N (mem x w y z ein (g.etmp x ein)) (mem x w e' z ein (g.etmp x ein)) :=
  ⟨_, fun _ hn _ ho => if_pos ⟨hn, ho⟩,
    fun _ _ hd => parallel_for separated (lrnBack_inRow g N) hd (run_lrnBack x z ein w N y hz)⟩

/-- **C94**: the activations of a sigma-pi layer. -/
theorem sigma_parallel {l : SigmaPi.Layer} (hl : l.Ready) {X : Mat} (hx : X.cols = l.inputs) (w : Weights)
    (hw : ∀ k < l.w.length, w (.w [k]) = l.w.getD k 0) (y z e t : Batch) :
    ∃ a, (∀ n < X.rows, ∀ i < l.nodes.length, a n i = SigmaPi.net l.w X n (l.nodes.getD i [])) ∧
      Computes (sigmaBody l X.cols) X.rows (mem X.val w y z e t) (mem X.val w a z e t) := by
  obtain ⟨a, h, _, _, hv⟩ := SigmaPi.activations_ok hl hx y
  refine ⟨a.val, hv, fun T its hd => parallel_for separated (sigma_inRow l X.cols) hd ?_⟩
  rw [run_sigma hw, h]
  rfl

/-- **C94**: `sampleRandomPatches`. -/
theorem patches_parallel (p : Pre.Patch) (images : Mat) (r s : ℕ → ℕ) (hcols : images.cols = p.channels * (p.rows * p.cols))
    (hr : p.patchRows ≤ p.rows) (hc : p.patchCols ≤ p.cols) (w : Weights) (y z e t : Batch) :
    ∃ corners q, Pre.patchIndices p r s (images.rows * p.samples) = ok corners ∧
      (∀ m < images.rows, ∀ n < p.samples, Pre.IsPatch p images q m n) ∧
      Computes (patchBody p corners images.cols (images.rows * p.samples) (p.channels * p.patchRows * p.patchCols)) images.rows
        (mem images.val w y z e t) (mem images.val w q.val z e t) := by
  obtain ⟨q, h, _, _, hv⟩ := Pre.patches_are_windows p images r s (List.range images.rows) y (List.Perm.refl _) hcols hr hc
  unfold Pre.sampleRandomPatches at h
  obtain ⟨corners, h1, h2⟩ := bind_eq_ok.1 h
  refine ⟨corners, q, h1, hv, fun T its hd => parallel_for (separatedImage p.samples) (patches_within p corners _ _ _) hd ?_⟩
  rw [run_patches, h2]
  rfl

/-- Layers and distributions that meet the hypotheses: two threads for three instances, a convolution, a pooling layer, and inputs for
the backward pass of max-pooling. -/
example : Distributed 2 3 (fun i => if i = 0 then [2, 0] else [1]) ∧ (Conv.mk 2 5 4 3 3 2 true .tanh ⟨0, 0, 0⟩).Valid ∧
    (Pool.mk 2 4 6 2 3).Valid ∧ ∀ n < 3, ∀ o < (Pool.mk 2 4 6 2 3).outputs, ∃ kc < (Pool.mk 2 4 6 2 3).kernelCols,
      Pool.lowest < (fun n j => (n + j : ℝ) : Batch) n ((Pool.mk 2 4 6 2 3).base o + kc) := by
  refine ⟨by unfold Distributed; decide, ⟨by decide, by decide⟩, ⟨by decide, by decide, by decide, by decide⟩,
    fun n _ o _ => ⟨0, by decide, ?_⟩⟩
  have h : Pool.lowest < 0 := by
    unfold Pool.lowest
    have : (2 : ℝ) ^ 971 < 2 ^ 1024 := pow_lt_pow_right₀ (by norm_num) (by norm_num)
    exact neg_lt_zero.2 (sub_pos.2 this)
  exact h.trans_le (by positivity)

/-- Weights and patches that meet the hypotheses. -/
example : (∀ k < [(2 : ℝ), 3].length, (fun s : Slot => if s = .w [0] then (2 : ℝ) else 3) (.w [k]) = [2, 3].getD k 0) ∧
    (⟨2, 3, 3, 2, 2, 2⟩ : Pre.Patch).patchRows ≤ (⟨2, 3, 3, 2, 2, 2⟩ : Pre.Patch).rows := by
  refine ⟨fun k hk => ?_, by decide⟩
  have : k = 0 ∨ k = 1 := by
    simp only [List.length_cons, List.length_nil] at hk
    omega
  rcases this with rfl | rfl <;> simp

end Verif.Par
