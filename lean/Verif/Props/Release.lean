import Verif.Model.Release
import Mathlib.Tactic.Linarith

/-!
# C111: the default build does what the checked build does

`Same d r`: the checked build ends with a failed check, or both builds do the same.
-/

namespace Verif.Release

open Outcome

/-- The default build does the same as the checked build unless the checked build ends with a failed check. -/
def Same {α : Type} (d r : Outcome α) : Prop := d = checkFailed ∨ r = d

namespace Same

theorem refl {α : Type} (d : Outcome α) : Same d d := Or.inr rfl

theorem bind {α β : Type} {d r : Outcome α} {f g : α → Outcome β} (h : Same d r) (hf : ∀ a, d = ok a → Same (f a) (g a)) :
    Same (d >>= f) (r >>= g) := by
  rcases h with rfl | rfl
  · exact Or.inl rfl
  · cases r with
    | ok a => exact hf a rfl
    | throws => exact Or.inr rfl
    | checkFailed => exact Or.inl rfl
    | ub => exact Or.inr rfl

theorem require (c : Prop) [Decidable c] : Same (Release.require true c) (Release.require false c) := by
  by_cases h : c
  · exact Or.inr (by simp [Release.require, h])
  · exact Or.inl (by simp [Release.require, h])

theorem failed {α : Type} (rest : Outcome α) : Same (Release.failed true rest) (Release.failed false rest) := Or.inl rfl

theorem foldlM {α σ : Type} {f g : σ → α → Outcome σ} (h : ∀ s a, Same (f s a) (g s a)) (l : List α) (s : σ) :
    Same (l.foldlM f s) (l.foldlM g s) := by
  induction l generalizing s with
  | nil => exact refl _
  | cons a l ih => simpa only [List.foldlM_cons] using bind (h s a) fun s' _ => ih s'

theorem forLoop {σ : Type} {f g : ℕ → σ → Outcome σ} (h : ∀ i s, Same (f i s) (g i s)) (n : ℕ) (s : σ) :
    Same (Verif.forLoop n f s) (Verif.forLoop n g s) := by
  induction n with
  | zero => exact refl _
  | succ n ih => exact bind ih fun s' _ => h n s'

end Same

/-- the rules for the shape of the code -/
macro "same" : tactic => `(tactic| repeat' first
  | exact Same.refl _
  | exact Same.require _
  | exact Same.failed _
  | (refine Same.bind ?_ fun _ _ => ?_)
  | split)

@[simp] theorem require_true (c : Prop) [Decidable c] : require true c = check c := rfl
@[simp] theorem require_false (c : Prop) [Decidable c] : require false c = ok () := rfl
@[simp] theorem failed_true {α : Type} (r : Outcome α) : failed true r = checkFailed := rfl
@[simp] theorem failed_false {α : Type} (r : Outcome α) : failed false r = r := rfl

variable {X T : Type}

theorem at_eq {α : Type} (l : List α) (i : ℤ) (h : 0 ≤ i ∧ i ≤ (l.length : ℤ) - 1) : at_ l i = readZ l i := by
  have h1 : i.toNat < l.length := by omega
  rw [at_, readZ, if_neg (by omega), if_neg (by omega), Outcome.read]
  simp [h1]

theorem at_outside {α : Type} (l : List α) (i : ℤ) (h : i < 0 ∨ (l.length : ℤ) ≤ i) : at_ l i = throws := by
  rcases h with h | h
  · simp [at_, h]
  · have h1 : ¬ i < 0 := by omega
    have h2 : l.length ≤ i.toNat := by omega
    simp [at_, h1, h2]

theorem getInstance_checked (s : Data.Store X T) (a : ℕ) (i : ℤ) : getInstance true s a i = Data.getInstance s a i := by
  induction a using Nat.strongRecOn generalizing i with
  | _ a ih =>
    unfold getInstance Data.getInstance
    rcases s[a]? with _ | ⟨ins, outs⟩ | ⟨b, indices⟩ | ⟨b, orig⟩
    · rfl
    · rfl
    · dsimp only
      split
      · next hb =>
        by_cases hc : 0 ≤ i ∧ i ≤ (indices.length : ℤ) - 1
        · simp only [require_true, check_true hc, ok_bind, at_eq _ _ hc]
          congr 1
          funext j
          exact ih b hb j
        · simp only [require_true, check_false hc, checkFailed_bind]
      · rfl
    · dsimp only
      split
      · next hb =>
        congr 1
        funext j
        exact ih b hb j
      · rfl

theorem getTarget_checked (s : Data.Store X T) (a : ℕ) (i : ℤ) : getTarget true s a i = Data.getTarget s a i := by
  induction a using Nat.strongRecOn generalizing i with
  | _ a ih =>
    unfold getTarget Data.getTarget
    rcases s[a]? with _ | ⟨ins, outs⟩ | ⟨b, indices⟩ | ⟨b, orig⟩
    · rfl
    · cases outs <;> rfl
    · dsimp only
      split
      · next hb =>
        by_cases hc : 0 ≤ i ∧ i ≤ (indices.length : ℤ) - 1
        · simp only [require_true, check_true hc, ok_bind, at_eq _ _ hc]
          congr 1
          funext j
          exact ih b hb j
        · simp only [require_true, check_false hc, checkFailed_bind]
      · rfl
    · dsimp only
      split
      · next hb =>
        congr 1
        funext j
        exact ih b hb j
      · rfl

theorem getInstance_builds (s : Data.Store X T) (a : ℕ) (i : ℤ) : Same (getInstance true s a i) (getInstance false s a i) := by
  induction a using Nat.strongRecOn generalizing i with
  | _ a ih =>
    unfold getInstance
    rcases s[a]? with _ | ⟨ins, outs⟩ | ⟨b, indices⟩ | ⟨b, orig⟩
    · same
    · same
    · dsimp only
      split
      · next hb => exact Same.bind (Same.require _) fun _ _ => Same.bind (Same.refl _) fun j _ => ih _ hb j
      · same
    · dsimp only
      split
      · next hb => exact Same.bind (Same.refl _) fun j _ => ih _ hb j
      · same

theorem getTarget_builds (s : Data.Store X T) (a : ℕ) (i : ℤ) : Same (getTarget true s a i) (getTarget false s a i) := by
  induction a using Nat.strongRecOn generalizing i with
  | _ a ih =>
    unfold getTarget
    rcases s[a]? with _ | ⟨ins, outs⟩ | ⟨b, indices⟩ | ⟨b, orig⟩
    · same
    · cases outs <;> same
    · dsimp only
      split
      · next hb => exact Same.bind (Same.require _) fun _ _ => Same.bind (Same.refl _) fun j _ => ih _ hb j
      · same
    · dsimp only
      split
      · next hb => exact Same.bind (Same.refl _) fun j _ => ih _ hb j
      · same

theorem split_checked (σ : List ℤ → List ℤ) (s : Data.Store X T) (groups : List ℕ) (a : ℕ) (n : ℤ) (shuffling : Bool) :
    split true σ s groups a n shuffling = Data.split σ s groups a n shuffling := by
  unfold split Data.split
  by_cases h : n > 1
  · rw [require_true, check_true h, ok_bind, ok_bind, if_neg (by omega), if_neg (by omega)]
  · rw [require_true, check_false h, checkFailed_bind, checkFailed_bind]

theorem split_builds (σ : List ℤ → List ℤ) (s : Data.Store X T) (groups : List ℕ) (a : ℕ) (n : ℤ) (shuffling : Bool) :
    Same (split true σ s groups a n shuffling) (split false σ s groups a n shuffling) := by
  unfold split
  refine Same.bind (Same.require _) fun _ _ => Same.refl _

theorem splitRatio_checked {K : Type} [Field K] [LinearOrder K] [FloorRing K] (σ : List ℤ → List ℤ) (s : Data.Store X T)
    (groups : List ℕ) (a : ℕ) (ratio : K) (shuffling : Bool) :
    splitRatio true σ s groups a ratio shuffling = Data.splitRatio σ s groups a ratio shuffling := rfl

theorem splitRatio_builds {K : Type} [Field K] [LinearOrder K] [FloorRing K] (σ : List ℤ → List ℤ) (s : Data.Store X T)
    (groups : List ℕ) (a : ℕ) (ratio : K) (shuffling : Bool) :
    Same (splitRatio true σ s groups a ratio shuffling) (splitRatio false σ s groups a ratio shuffling) := by
  unfold splitRatio
  same

theorem merge_checked (s : Data.Store X T) (merging : ℕ) (groups : List ℕ) : merge true s merging groups = Data.merge s merging groups := by
  unfold merge Data.merge
  congr 1

theorem merge_builds (s : Data.Store X T) (merging : ℕ) (groups : List ℕ) :
    Same (merge true s merging groups) (merge false s merging groups) := by
  unfold merge
  refine Same.bind (Same.require _) fun _ _ => Same.foldlM (fun s g => ?_) _ _
  unfold mergeOne
  same

theorem create_checked (D : ℕ) (ins : List X) (outs : Option (List T)) (x0 : X) (t0 : T) :
    create true D ins outs x0 t0 = DirectStorage.create D ins outs x0 t0 := rfl

theorem create_builds (D : ℕ) (ins : List X) (outs : Option (List T)) (x0 : X) (t0 : T) :
    Same (create true D ins outs x0 t0) (create false D ins outs x0 t0) := by
  unfold create
  same

theorem generateInt_checked (r : ℕ) (min range : ℤ) : generateInt true r min range = Rng.generateInt r min range := rfl

theorem generateInt_builds (r : ℕ) (min range : ℤ) : Same (generateInt true r min range) (generateInt false r min range) := by
  unfold generateInt
  same

theorem generate_checked {K : Type} [Field K] [LinearOrder K] (randMax r : ℕ) (min range : K) :
    generate true randMax r min range = Rng.generate randMax r min range := rfl

theorem generate_builds {K : Type} [Field K] [LinearOrder K] (randMax r : ℕ) (min range : K) :
    Same (generate true randMax r min range) (generate false randMax r min range) := by
  unfold generate
  same

theorem generateIndices_checked (σ : List ℤ → List ℤ) (n : ℕ) (result : List ℤ) (i : Bool) :
    generateIndices true σ n result i = Rng.generateIndices σ n result i := rfl

theorem generateIndices_builds (σ : List ℤ → List ℤ) (n : ℕ) (result : List ℤ) (i : Bool) :
    Same (generateIndices true σ n result i) (generateIndices false σ n result i) := by
  unfold generateIndices
  same

section

open Verif.Text

variable {K : Type} [IntCast K] [Zero K]

theorem fannRows_eq (F : NumFormat K) (xs ts : List (List K)) (h : xs.length ≤ ts.length) :
    fannRows F xs ts = ok ((List.zip xs ts).flatMap fun r => printRow (r.1.map F.fmt) ++ ['\n'] ++ printRow (r.2.map F.fmt) ++ ['\n']) := by
  induction xs generalizing ts with
  | nil => simp [fannRows]
  | cons x xs ih =>
    cases ts with
    | nil => simp at h
    | cons t ts =>
      simp only [fannRows, ih ts (by simpa using h), ok_bind, List.zip_cons_cons, List.flatMap_cons]

theorem fannRows_ub (F : NumFormat K) (xs ts : List (List K)) (h : ts.length < xs.length) : fannRows F xs ts = ub := by
  induction xs generalizing ts with
  | nil => simp at h
  | cons x xs ih =>
    cases ts with
    | nil => rfl
    | cons t ts => simp only [fannRows, ih ts (by simpa using h), ub_bind]

theorem fannSave_checked (F : NumFormat K) (input output : Text.Mat K) : fannSave true F input output = FANN.save F input output := by
  unfold fannSave FANN.save
  by_cases h : input.rows.length = output.rows.length
  · simp only [require_true, check_true h, ok_bind, fannRows_eq F _ _ h.le, pure_eq]
  · simp only [require_true, check_false h, checkFailed_bind]

theorem fannSave_builds (F : NumFormat K) (input output : Text.Mat K) :
    Same (fannSave true F input output) (fannSave false F input output) := by
  unfold fannSave
  same

variable [LinearOrder K]

theorem svmRows_eq (F : NumFormat K) (c : ℕ) (xs ts : List (List K)) (h : xs.length ≤ ts.length) :
    svmRows F c xs ts = LibSVM.saveRows F c xs ts := by
  induction xs generalizing ts with
  | nil => simp [svmRows, LibSVM.saveRows]
  | cons x xs ih =>
    cases ts with
    | nil => simp at h
    | cons t ts => simp only [svmRows, LibSVM.saveRows, ih ts (by simpa using h), pure_eq]

theorem svmSave_checked (F : NumFormat K) (input output : Text.Mat K) : svmSave true F input output = LibSVM.save F input output := by
  unfold svmSave LibSVM.save
  by_cases h : input.rows.length = output.rows.length
  · simp only [require_true, check_true h, ok_bind, svmRows_eq F _ _ _ h.le]
  · simp only [require_true, check_false h, checkFailed_bind]

theorem svmSave_builds (F : NumFormat K) (input output : Text.Mat K) :
    Same (svmSave true F input output) (svmSave false F input output) := by
  unfold svmSave
  same

end

theorem magic_checked (s : List Img.Byte) (d : Img.Byte) : magic true s d = Img.magic s d := by
  unfold magic Img.magic require
  rfl

theorem magic_builds (s : List Img.Byte) (d : Img.Byte) : Same (magic true s d) (magic false s d) := by
  unfold magic
  dsimp only
  exact Same.bind (Same.require _) fun _ _ => Same.bind (Same.require _) fun _ _ => Same.bind (Same.require _) fun _ _ =>
    Same.bind (Same.require _) fun _ _ => Same.refl _

theorem idxLoad_checked (px py : ℕ) (maxN : ℤ) (f g : List Img.Byte) (j1 j2 : ℕ → ℕ → ℝ) :
    idxLoad true px py maxN f g j1 j2 = Img.load px py maxN f g j1 j2 := by
  unfold idxLoad Img.load
  rw [magic_checked]
  refine congrArg _ (funext fun s => ?_)
  dsimp only
  refine congrArg _ (funext fun st => ?_)
  rw [magic_checked]
  refine congrArg _ (funext fun l => ?_)
  rw [require_true]

theorem idxLoad_builds (px py : ℕ) (maxN : ℤ) (f g : List Img.Byte) (j1 j2 : ℕ → ℕ → ℝ) :
    Same (idxLoad true px py maxN f g j1 j2) (idxLoad false px py maxN f g j1 j2) := by
  unfold idxLoad
  refine Same.bind (magic_builds _ _) fun s _ => ?_
  dsimp only
  refine Same.bind (Same.refl _) fun st _ => Same.bind (magic_builds _ _) fun l _ => ?_
  refine Same.bind (Same.require _) fun _ _ => ?_
  exact Same.bind (Same.refl _) fun _ _ => Same.refl _

theorem kmeansInit_checked (m : KM.KMeans) (σ : List ℤ → List ℤ) (X : Mat) (h : X.cols = m.D) :
    kmeansInit true m σ X = m.init σ X := by
  unfold kmeansInit KM.KMeans.init
  simp only [generateIndices_checked, h, if_true]

theorem kmeansFind_eq (m : KM.KMeans) (huge : ℝ) (X : Mat) (hc : X.cols = m.D) (hr : X.rows = m.clusterIndices.length) :
    kmeansFind m huge X = ok (m.findClusters huge X) := by
  have hd : m.clusterIndices.drop X.rows = [] := by simp [hr]
  rw [kmeansFind, if_pos ⟨hr.le, Or.inl hc⟩, hd, List.append_nil]
  rfl

theorem init_D (m m1 : KM.KMeans) (σ : List ℤ → List ℤ) (X : Mat) (h : m.init σ X = ok m1) : m1.D = m.D := by
  unfold KM.KMeans.init at h
  obtain ⟨idx, -, h⟩ := bind_eq_ok.mp h
  obtain ⟨C, -, h⟩ := bind_eq_ok.mp h
  injection h with h
  rw [← h]

theorem kmeansFit_checked (huge : ℝ) (σ : List ℤ → List ℤ) (m : KM.KMeans) (X : Mat) :
    kmeansFit true huge σ m X = m.fit huge σ X := by
  unfold kmeansFit KM.KMeans.fit
  by_cases h : X.cols = m.D
  · rw [require_true, check_true h, ok_bind, ok_bind, kmeansInit_checked m σ X h]
    cases hm : (if m.initialized = true then ok m else m.init σ X) with
    | ok m1 =>
      have hD : m1.D = m.D := by
        split at hm
        · injection hm with hm
          rw [hm]
        · exact init_D m m1 σ X hm
      rw [ok_bind, ok_bind]
      by_cases h1 : X.rows = m1.clusterIndices.length
      · rw [require_true, check_true h1, ok_bind, ok_bind, kmeansFind_eq m1 huge X (h.trans hD.symm) h1, ok_bind]
      · rw [require_true, check_false h1, checkFailed_bind, checkFailed_bind]
    | throws => rfl
    | checkFailed => rfl
    | ub => rfl
  · rw [require_true, check_false h, checkFailed_bind, checkFailed_bind]

theorem kmeansFit_builds (huge : ℝ) (σ : List ℤ → List ℤ) (m : KM.KMeans) (X : Mat) :
    Same (kmeansFit true huge σ m X) (kmeansFit false huge σ m X) := by
  unfold kmeansFit
  refine Same.bind (Same.require _) fun _ _ => Same.bind ?_ fun _ _ => ?_
  · unfold kmeansInit generateIndices
    same
  · same

theorem normTransform_checked (N : Pre.Normalization) (X : Mat) : normTransform true N X = N.transform X := by
  unfold normTransform Pre.Normalization.transform
  by_cases h : X.cols = N.cols
  · rw [if_pos (Or.inr h)]
    rfl
  · simp only [require_true, check_false h, checkFailed_bind]

theorem normTransform_builds (N : Pre.Normalization) (X : Mat) : Same (normTransform true N X) (normTransform false N X) := by
  unfold normTransform
  same

theorem pcaTransform_checked {D M D' : ℕ} (c : ℕ) (p : Option (White.Fitted D)) (X : Matrix (Fin M) (Fin D') ℝ) :
    pcaTransform true c p X = White.pcaTransform c p X := by
  cases p with
  | none => rfl
  | some p =>
    unfold pcaTransform White.pcaTransform
    dsimp only
    by_cases h : 0 < D
    · rw [require_true, check_true h, ok_bind, if_pos h]
      rfl
    · rw [require_true, check_false h, checkFailed_bind, if_neg h]

theorem pcaTransform_builds {D M D' : ℕ} (c : ℕ) (p : Option (White.Fitted D)) (X : Matrix (Fin M) (Fin D') ℝ) :
    Same (pcaTransform true c p X) (pcaTransform false c p X) := by
  unfold pcaTransform
  same

theorem zcaTransform_checked {D M D' : ℕ} (p : Option (White.Zca D)) (X : Matrix (Fin M) (Fin D') ℝ) :
    zcaTransform true p X = White.zcaTransform p X := by
  cases p with
  | none => rfl
  | some p =>
    unfold zcaTransform White.zcaTransform
    dsimp only
    by_cases h : 0 < D
    · rw [require_true, check_true h, ok_bind, if_pos h]
      rfl
    · rw [require_true, check_false h, checkFailed_bind, if_neg h]

theorem zcaTransform_builds {D M D' : ℕ} (p : Option (White.Zca D)) (X : Matrix (Fin M) (Fin D') ℝ) :
    Same (zcaTransform true p X) (zcaTransform false p X) := by
  unfold zcaTransform
  same

theorem sgdStep_checked (o : Opt.MBSGD) (obj : Opt.Obj) : sgdStep true o (some obj) = o.step obj := rfl

theorem sgdStep_builds (o : Opt.MBSGD) (obj : Option Opt.Obj) : Same (sgdStep true o obj) (sgdStep false o obj) := by
  unfold sgdStep
  same

theorem addSamples_checked {K : Type} (s : DataStream.State K) (l : List (List K × Option (List K))) :
    addSamples true s l = DataStream.addSamples s l := rfl

theorem addSamples_builds {K : Type} (s : DataStream.State K) (l : List (List K × Option (List K))) :
    Same (addSamples true s l) (addSamples false s l) := by
  refine Same.foldlM (fun s p => ?_) _ _
  unfold addSample initStream streamStep
  dsimp only
  same

theorem getLayer_checked (D : ℕ) (ks : List NN.Kind) (l : ℕ) : getLayer true D ks l = NN.getLayer D ks l := rfl

theorem getLayer_builds (D : ℕ) (ks : List NN.Kind) (l : ℕ) : Same (getLayer true D ks l) (getLayer false D ks l) := by
  unfold getLayer
  same

theorem convInit_checked (fmin inRows inCols fmout kr kc : ℤ) :
    convInit true fmin inRows inCols fmout kr kc = NN.convInit fmin inRows inCols fmout kr kc := rfl

theorem convInit_builds (fmin inRows inCols fmout kr kc : ℤ) :
    Same (convInit true fmin inRows inCols fmout kr kc) (convInit false fmin inRows inCols fmout kr kc) := by
  unfold convInit
  same

theorem poolChecks_checked (fm inRows inCols kr kc : ℤ) : poolChecks true fm inRows inCols kr kc = NN.poolChecks fm inRows inCols kr kc := rfl

theorem poolChecks_builds (fm inRows inCols kr kc : ℤ) :
    Same (poolChecks true fm inRows inCols kr kc) (poolChecks false fm inRows inCols kr kc) := by
  unfold poolChecks
  same

theorem coordinates_checked (w h p : ℕ) : coordinates true w h p = SigmaPi.coordinates w h p := rfl

theorem coordinates_builds (w h p : ℕ) : Same (coordinates true w h p) (coordinates false w h p) := by
  unfold coordinates
  same

theorem log_checked (compiled : Logging.Level) (g : Logging.Global) (l : Logging.Level) (text : String) :
    log true compiled g l text = Logging.step compiled g (.log l text) := rfl

theorem log_builds (compiled : Logging.Level) (g : Logging.Global) (l : Logging.Level) (text : String) :
    Same (log true compiled g l text) (log false compiled g l text) := by
  unfold log emit
  same

theorem construct_builds (s : Loggers) (t : Logging.Target) (opens : Bool) : Same (construct true s t opens) (construct false s t opens) := by
  unfold construct
  same

/-! ## The default build does the same as the checked one

All other theorems are about the checked build.  As long as no check fails they hold for the default build as well. -/

/-- Accesses to all kinds of data sets -/
theorem access_same (s : Data.Store X T) (a : ℕ) (i : ℤ) :
    Same (Data.getInstance s a i) (getInstance false s a i) ∧ Same (Data.getTarget s a i) (getTarget false s a i) :=
  ⟨getInstance_checked s a i ▸ getInstance_builds s a i, getTarget_checked s a i ▸ getTarget_builds s a i⟩

/-- New data sets -/
theorem create_same (D : ℕ) (ins : List X) (outs : Option (List T)) (x0 : X) (t0 : T) :
    Same (DirectStorage.create D ins outs x0 t0) (create false D ins outs x0 t0) := create_builds D ins outs x0 t0

/-- What a program can do with data sets and views. -/
inductive Op (K : Type) where
  | split (σ : List ℤ → List ℤ) (a : ℕ) (n : ℤ) (shuffling : Bool)
  | splitRatio (σ : List ℤ → List ℤ) (a : ℕ) (ratio : K) (shuffling : Bool)
  | merge (merging : ℕ) (groups : List ℕ)
  | shuffle (σ : List ℤ → List ℤ) (v : ℕ)
  | getInstance (a : ℕ) (i : ℤ)
  | getTarget (a : ℕ) (i : ℤ)

/-- The data sets, all groups that were made, all instances and targets that were seen. -/
structure Seen (X T : Type) where
  store : Data.Store X T
  groups : List ℕ
  instances : List X
  targets : List T

/-- One step of a program in the checked build, with the functions of the other properties. -/
def stepChecked {K : Type} [Field K] [LinearOrder K] [FloorRing K] (s : Seen X T) : Op K → Outcome (Seen X T)
  | .split σ a n sh => Data.split σ s.store s.groups a n sh >>= fun r => ok { s with store := r.1, groups := r.2 }
  | .splitRatio σ a q sh => Data.splitRatio σ s.store s.groups a q sh >>= fun r => ok { s with store := r.1, groups := r.2 }
  | .merge m gs => Data.merge s.store m gs >>= fun r => ok { s with store := r }
  | .shuffle σ v => Data.shuffle σ s.store v >>= fun r => ok { s with store := r }
  | .getInstance a i => Data.getInstance s.store a i >>= fun x => ok { s with instances := s.instances ++ [x] }
  | .getTarget a i => Data.getTarget s.store a i >>= fun t => ok { s with targets := s.targets ++ [t] }

/-- One step of a program in the default build. -/
def stepDefault {K : Type} [Field K] [LinearOrder K] [FloorRing K] (s : Seen X T) : Op K → Outcome (Seen X T)
  | .split σ a n sh => split false σ s.store s.groups a n sh >>= fun r => ok { s with store := r.1, groups := r.2 }
  | .splitRatio σ a q sh => splitRatio false σ s.store s.groups a q sh >>= fun r => ok { s with store := r.1, groups := r.2 }
  | .merge m gs => merge false s.store m gs >>= fun r => ok { s with store := r }
  | .shuffle σ v => Data.shuffle σ s.store v >>= fun r => ok { s with store := r }
  | .getInstance a i => getInstance false s.store a i >>= fun x => ok { s with instances := s.instances ++ [x] }
  | .getTarget a i => getTarget false s.store a i >>= fun t => ok { s with targets := s.targets ++ [t] }

/-- **C111**, all programs with data sets: if the checked build gets to the end, the default build has seen the same. -/
theorem program_same {K : Type} [Field K] [LinearOrder K] [FloorRing K] (ops : List (Op K)) (s : Seen X T) :
    Same (ops.foldlM stepChecked s) (ops.foldlM stepDefault s) := by
  refine Same.foldlM (fun s op => ?_) _ _
  cases op with
  | split σ a n sh => exact Same.bind (split_checked σ s.store s.groups a n sh ▸ split_builds σ s.store s.groups a n sh) fun _ _ => Same.refl _
  | splitRatio σ a q sh => exact Same.bind (splitRatio_builds σ s.store s.groups a q sh) fun _ _ => Same.refl _
  | merge m gs => exact Same.bind (merge_checked s.store m gs ▸ merge_builds s.store m gs) fun _ _ => Same.refl _
  | shuffle σ v => exact Same.refl _
  | getInstance a i => exact Same.bind (access_same s.store a i).1 fun _ _ => Same.refl _
  | getTarget a i => exact Same.bind (access_same s.store a i).2 fun _ _ => Same.refl _

example : (([.split id 0 2 false, .merge 1 [2], .getInstance 1 1] : List (Op ℚ)).foldlM stepDefault
    (⟨[.direct [10, 11] none], [], [], []⟩ : Seen ℕ ℕ)) = ok ⟨[.direct [10, 11] none, .view 0 [0, 1], .view 0 [1]], [1, 2], [11], []⟩ := by
  have h := program_same ([.split id 0 2 false, .merge 1 [2], .getInstance 1 1] : List (Op ℚ)) (⟨[.direct [10, 11] none], [], [], []⟩ : Seen ℕ ℕ)
  have e : (([.split id 0 2 false, .merge 1 [2], .getInstance 1 1] : List (Op ℚ)).foldlM stepChecked
    (⟨[.direct [10, 11] none], [], [], []⟩ : Seen ℕ ℕ)) = ok ⟨[.direct [10, 11] none, .view 0 [0, 1], .view 0 [1]], [1, 2], [11], []⟩ := by
    have hs : Data.samples ([.direct [10, 11] none] : Data.Store ℕ ℕ) 0 = 2 := by
      rw [Data.samples]
      rfl
    have hg : Data.getInstance ([.direct [10, 11] none, .view 0 [0, 1], .view 0 [1]] : Data.Store ℕ ℕ) 1 1 = ok 11 := by
      rw [Data.getInstance]
      simp [readZ, Outcome.read, Data.getInstance]
    have h2 : ⌊((Int.tdiv ((2 : ℕ) : ℤ) 2 : ℤ) : ℚ) + 1 / 2⌋ = 1 := by norm_num
    have h1 : Data.split id ([.direct [10, 11] none] : Data.Store ℕ ℕ) [] 0 2 false =
        ok ([.direct [10, 11] none, .view 0 [0], .view 0 [1]], [1, 2]) := by
      unfold Data.split
      rw [hs]
      dsimp only
      rw [h2]
      rfl
    simp only [List.foldlM_cons, List.foldlM_nil, stepChecked, h1, ok_bind]
    have h3 : Data.merge ([.direct [10, 11] none, .view 0 [0], .view 0 [1]] : Data.Store ℕ ℕ) 1 [2] =
        ok [.direct [10, 11] none, .view 0 [0, 1], .view 0 [1]] := by decide
    rw [h3, ok_bind, ok_bind]
    dsimp only
    rw [hg]
    rfl
  rw [e] at h
  rcases h with h | h
  · exact absurd h (by simp)
  · exact h

/-- Random numbers -/
theorem random_same (σ : List ℤ → List ℤ) (r n : ℕ) (min range : ℤ) (result : List ℤ) (i : Bool) :
    Same (Rng.generateInt r min range) (generateInt false r min range) ∧
    Same (Rng.generateIndices σ n result i) (generateIndices false σ n result i) ∧
    ∀ (K : Type) [Field K] [LinearOrder K] (randMax : ℕ) (min range : K),
      Same (Rng.generate randMax r min range) (generate false randMax r min range) :=
  ⟨generateInt_builds r min range, generateIndices_builds σ n result i, fun _ _ _ randMax min range => generate_builds randMax r min range⟩

/-- Files -/
theorem save_same {K : Type} [IntCast K] [Zero K] [LinearOrder K] (F : Text.NumFormat K) (input output : Text.Mat K) :
    Same (FANN.save F input output) (fannSave false F input output) ∧ Same (LibSVM.save F input output) (svmSave false F input output) :=
  ⟨fannSave_checked F input output ▸ fannSave_builds F input output, svmSave_checked F input output ▸ svmSave_builds F input output⟩

theorem idxLoad_same (px py : ℕ) (maxN : ℤ) (f g : List Img.Byte) (j1 j2 : ℕ → ℕ → ℝ) :
    Same (Img.load px py maxN f g j1 j2) (idxLoad false px py maxN f g j1 j2) :=
  idxLoad_checked px py maxN f g j1 j2 ▸ idxLoad_builds px py maxN f g j1 j2

/-- Clustering -/
theorem kmeans_same (huge : ℝ) (σ : List ℤ → List ℤ) (m : KM.KMeans) (X : Mat) : Same (m.fit huge σ X) (kmeansFit false huge σ m X) :=
  kmeansFit_checked huge σ m X ▸ kmeansFit_builds huge σ m X

/-- Transformations -/
theorem transform_same {D M D' c : ℕ} (N : Pre.Normalization) (X : Mat) (p : Option (White.Fitted D)) (z : Option (White.Zca D))
    (Y : Matrix (Fin M) (Fin D') ℝ) :
    Same (N.transform X) (normTransform false N X) ∧ Same (White.pcaTransform c p Y) (pcaTransform false c p Y) ∧
    Same (White.zcaTransform z Y) (zcaTransform false z Y) :=
  ⟨normTransform_checked N X ▸ normTransform_builds N X, pcaTransform_checked c p Y ▸ pcaTransform_builds c p Y,
    zcaTransform_checked z Y ▸ zcaTransform_builds z Y⟩

/-- Training: an iteration of MBSGD and all streams of samples -/
theorem training_same {K : Type} (o : Opt.MBSGD) (obj : Opt.Obj) (s : DataStream.State K) (l : List (List K × Option (List K))) :
    Same (o.step obj) (sgdStep false o (some obj)) ∧ Same (DataStream.addSamples s l) (addSamples false s l) :=
  ⟨sgdStep_builds o (some obj), addSamples_builds s l⟩

/-- Networks -/
theorem network_same (D : ℕ) (ks : List NN.Kind) (l : ℕ) (fm inRows inCols fmout kr kc : ℤ) (w h p : ℕ) :
    Same (NN.getLayer D ks l) (getLayer false D ks l) ∧
    Same (NN.convInit fm inRows inCols fmout kr kc) (convInit false fm inRows inCols fmout kr kc) ∧
    Same (NN.poolChecks fm inRows inCols kr kc) (poolChecks false fm inRows inCols kr kc) ∧
    Same (SigmaPi.coordinates w h p) (coordinates false w h p) :=
  ⟨getLayer_builds D ks l, convInit_builds fm inRows inCols fmout kr kc, poolChecks_builds fm inRows inCols kr kc, coordinates_builds w h p⟩

/-- Logging -/
theorem log_same (compiled : Logging.Level) (g : Logging.Global) (l : Logging.Level) (text : String) (s : Loggers) (t : Logging.Target)
    (opens : Bool) : Same (Logging.step compiled g (.log l text)) (log false compiled g l text) ∧
    Same (construct true s t opens) (construct false s t opens) ∧
    (construct true s t opens >>= fun s' => ok s'.base) = Logging.construct s.base t opens := by
  refine ⟨log_builds compiled g l text, construct_builds s t opens, ?_⟩
  unfold construct Logging.construct
  split
  · rfl
  · split
    · cases opens <;> rfl
    · rfl

/-! ## Mistakes in the default build -/

/-- An index that a view does not have is reported by `std::vector::at`. -/
theorem view_throws (s : Data.Store X T) {a b : ℕ} {indices : List ℤ} (hs : s[a]? = some (.view b indices)) (hb : b < a) (i : ℤ)
    (hi : i < 0 ∨ (indices.length : ℤ) ≤ i) : getInstance false s a i = throws ∧ getTarget false s a i = throws := by
  constructor
  · unfold getInstance
    rw [hs]
    simp only [if_pos hb, require_false, ok_bind, at_outside _ _ hi, throws_bind]
  · unfold getTarget
    rw [hs]
    simp only [if_pos hb, require_false, ok_bind, at_outside _ _ hi, throws_bind]

example : getInstance false [.direct [1, 2] (none : Option (List ℕ)), .view 0 [0, 1]] 1 2 = (throws : Outcome ℕ) :=
  (view_throws _ rfl (by decide) 2 (by decide)).1

theorem readZ_outside {α : Type} (l : List α) (i : ℤ) (h : i < 0 ∨ (l.length : ℤ) ≤ i) : readZ l i = ub := by
  unfold readZ
  split
  · rfl
  · exact read_of_ge (by omega)

/-- An index that a matrix does not have, and the target of a data set without targets, are undefined behaviour. -/
theorem direct_ub (s : Data.Store X T) {a : ℕ} {ins : List X} {outs : Option (List T)} (hs : s[a]? = some (.direct ins outs)) (i : ℤ) :
    ((i < 0 ∨ (ins.length : ℤ) ≤ i) → getInstance false s a i = ub) ∧
    ((∀ o ∈ outs, i < 0 ∨ (o.length : ℤ) ≤ i) → getTarget false s a i = ub) := by
  constructor
  · intro h
    unfold getInstance
    rw [hs]
    simp only [require_false, ok_bind, readZ_outside _ _ h]
  · intro h
    unfold getTarget
    rw [hs]
    cases outs with
    | none => rfl
    | some o => simp only [require_false, ok_bind, readZ_outside _ _ (h o rfl)]

example : getTarget false [.direct [1, 2] (none : Option (List ℕ))] 0 1 = ub := (direct_ub _ rfl 1).2 (by simp)

/-- One group: a view with all instances, not an error. -/
theorem split_one (σ : List ℤ → List ℤ) (s : Data.Store X T) (groups : List ℕ) (a : ℕ) (shuffling : Bool) :
    Data.split σ s groups a 1 shuffling = checkFailed ∧ split false σ s groups a 1 shuffling =
      ok (s ++ [.view a (if shuffling then σ (Data.iota (Data.samples s a)) else Data.iota (Data.samples s a))], groups ++ [s.length]) := by
  constructor
  · rfl
  · unfold split
    simp [slice]

/-- Division by zero; a negative number is reported by `std::vector::reserve`. -/
theorem split_wrong (σ : List ℤ → List ℤ) (s : Data.Store X T) (groups : List ℕ) (a : ℕ) (shuffling : Bool) :
    split false σ s groups a 0 shuffling = ub ∧ ∀ n : ℤ, n < 0 → split false σ s groups a n shuffling = throws := by
  constructor
  · rfl
  · intro n hn
    unfold split
    rw [require_false, ok_bind, if_pos hn]

/-- A wrong ratio is undefined behaviour, except that a ratio so little below 0 that it is rounded to no instance is taken for 0. -/
theorem splitRatio_wrong {K : Type} [Field K] [LinearOrder K] [IsStrictOrderedRing K] [FloorRing K] (σ : List ℤ → List ℤ)
    (hσ : ∀ l, (σ l).length = l.length) (s : Data.Store X T) (groups : List ℕ) (a : ℕ) (ratio : K) (shuffling : Bool)
    (hn : 0 < Data.samples s a) (hr : ¬ (0 ≤ ratio ∧ ratio ≤ 1)) :
    splitRatio false σ s groups a ratio shuffling =
      if -1 < ratio * Data.samples s a ∧ ratio < 0 then splitRatio false σ s groups a (0 : K) shuffling else ub := by
  have hlen : (if shuffling = true then σ (Data.iota (Data.samples s a)) else Data.iota (Data.samples s a)).length = Data.samples s a := by
    split <;> simp [hσ, Data.iota]
  have hK : (0 : K) < Data.samples s a := by exact_mod_cast hn
  split
  · next h =>
    have e : ⌈ratio * (Data.samples s a : K)⌉ = 0 := by
      rw [Int.ceil_eq_iff]
      exact ⟨by push_cast; linarith [h.1], by push_cast; exact (mul_neg_of_neg_of_pos h.2 hK).le⟩
    unfold splitRatio
    simp only [e, zero_mul, Int.ceil_zero, require_false]
  · next h =>
    have hb : ⌈ratio * (Data.samples s a : K)⌉ < 0 ∨ (Data.samples s a : ℤ) < ⌈ratio * (Data.samples s a : K)⌉ := by
      rcases lt_or_ge ratio 0 with h0 | h0
      · left
        have h1 : ratio * (Data.samples s a : K) ≤ -1 := not_lt.mp fun h1 => h ⟨h1, h0⟩
        have : ⌈ratio * (Data.samples s a : K)⌉ ≤ -1 := Int.ceil_le.mpr (by push_cast; exact h1)
        omega
      · right
        have h1 : 1 < ratio := lt_of_not_ge fun h1 => hr ⟨h0, h1⟩
        refine Int.lt_ceil.mpr ?_
        push_cast
        nlinarith
    unfold splitRatio
    rw [require_false, ok_bind]
    dsimp only
    have : slice (if shuffling = true then σ (Data.iota (Data.samples s a)) else Data.iota (Data.samples s a)) 0
        ⌈ratio * (Data.samples s a : K)⌉ = ub := by
      unfold slice
      rw [if_neg]
      rw [hlen]
      omega
    rw [this, ub_bind]

example : splitRatio false id [.direct [1, 2] (none : Option (List ℕ))] [] 0 (2 : ℚ) false = (ub : Outcome (Data.Store ℕ ℕ × List ℕ)) := by
  rw [splitRatio_wrong id (fun _ => rfl) _ _ _ _ _ (by simp [Data.samples]) (by norm_num), if_neg (by norm_num)]

/-- Views of other data sets are merged: their indices are appended. -/
theorem merge_other (s : Data.Store X T) {merging g b b' : ℕ} {idx idx' : List ℤ} (h1 : s[merging]? = some (.view b idx))
    (h2 : s[g]? = some (.view b' idx')) (hg : g ≠ merging) : merge false s merging [g] = ok (s.set merging (.view b (idx ++ idx'))) := by
  unfold merge mergeOne
  simp only [require_false, ok_bind, List.foldlM_cons, List.foldlM_nil, if_neg hg, h1, h2, pure_eq]

/-- two data sets with a view of each -/
def twoSets : Data.Store ℕ ℕ := [.direct [10, 11] none, .direct [20, 21] none, .view 0 [0], .view 1 [1]]

/-- After the merge the view contains an instance of its own data set instead of the one that was added. -/
theorem merge_other_fails : Data.merge twoSets 2 [3] = checkFailed ∧ Data.getInstance twoSets 3 0 = ok 21 ∧
    (merge false twoSets 2 [3] >>= fun s => getInstance false s 2 1) = ok 11 := by
  refine ⟨by decide, ?_, ?_⟩
  · rw [Data.getInstance]
    simp [twoSets, readZ, Outcome.read, Data.getInstance]
  · rw [merge_other twoSets rfl rfl (by decide), ok_bind, getInstance]
    simp [twoSets, at_, readZ, Outcome.read, getInstance]

/-- Nothing to merge is not reported. -/
theorem merge_nothing (s : Data.Store X T) (merging : ℕ) : Data.merge s merging [] = checkFailed ∧ merge false s merging [] = ok s :=
  ⟨rfl, rfl⟩

/-- A negative range gives numbers from `min` up to `min - range`. -/
theorem generateInt_negative (r : ℕ) (min range : ℤ) (h : range < 0) :
    Rng.generateInt r min range = checkFailed ∧ ∃ v, generateInt false r min range = ok v ∧ min ≤ v ∧ v < min - range := by
  refine ⟨?_, ?_⟩
  · unfold Rng.generateInt
    rw [check_false (by omega)]
    rfl
  · refine ⟨Int.tmod r range + min, ?_, ?_, ?_⟩
    · unfold generateInt
      rw [require_false, ok_bind, if_neg (by omega)]
    · have := Int.tmod_nonneg range (Int.natCast_nonneg r)
      omega
    · have h1 := Int.tmod_lt_of_pos r (b := -range) (by omega)
      rw [Int.tmod_neg] at h1
      omega

example : ∃ v, generateInt false 5 0 (-3) = ok v ∧ 0 ≤ v ∧ v < 0 - -3 := (generateInt_negative 5 0 (-3) (by decide)).2

/-- Indices are added to a container that is not empty, and a container of another size is only shuffled. -/
theorem generateIndices_wrong (σ : List ℤ → List ℤ) (n : ℕ) (result : List ℤ) :
    generateIndices false σ n result false = ok (σ (result ++ Data.iota n)) ∧ generateIndices false σ n result true = ok (σ result) :=
  ⟨rfl, rfl⟩

/-- The default build gives something else than the `n` indices that were asked for. -/
theorem generateIndices_fails (σ : List ℤ → List ℤ) (hσ : ∀ l, (σ l).Perm l) (n : ℕ) (result : List ℤ) (initialized : Bool) (l : List ℤ)
    (hd : Rng.generateIndices σ n result initialized = checkFailed) (hr : generateIndices false σ n result initialized = ok l) :
    ¬ l.Perm (Data.iota n) := by
  intro hp
  have hl := hp.length_eq
  cases initialized with
  | false =>
    rw [(generateIndices_wrong σ n result).1] at hr
    injection hr with hr
    rw [← hr, (hσ _).length_eq, List.length_append] at hl
    have h0 : result.length = 0 := by omega
    unfold Rng.generateIndices at hd
    simp [h0] at hd
  | true =>
    rw [(generateIndices_wrong σ n result).2] at hr
    injection hr with hr
    rw [← hr, (hσ _).length_eq] at hl
    have h0 : result.length = n := by simpa [Data.iota] using hl
    unfold Rng.generateIndices at hd
    simp [h0] at hd

example : ¬ ([7, 0, 1] : List ℤ).Perm (Data.iota 2) :=
  generateIndices_fails id (fun _ => List.Perm.refl _) 2 [7] false [7, 0, 1] (by decide) (by decide)

section

open Verif.Text

variable {K : Type} [IntCast K] [Zero K]

/-- Additional targets are dropped without a word, missing ones are read from outside of the matrix. -/
theorem fannSave_wrong (F : NumFormat K) (input output : Text.Mat K) :
    (input.rows.length < output.rows.length → fannSave false F input output =
      FANN.save F input ⟨output.cols, output.rows.take input.rows.length⟩) ∧
    (output.rows.length < input.rows.length → fannSave false F input output = ub) := by
  constructor
  · intro h
    have hl : input.rows.length ≤ (output.rows.take input.rows.length).length := by simp; omega
    rw [← fannSave_checked]
    unfold fannSave
    rw [require_false, ok_bind, fannRows_eq F _ _ h.le, ok_bind, require_true, check_true (by simp; omega), ok_bind,
      fannRows_eq F _ _ hl, ok_bind]
    dsimp only
    have : List.zip input.rows (output.rows.take input.rows.length) = List.zip input.rows output.rows := by
      have h1 := List.take_zipWith (f := Prod.mk) (i := input.rows.length) (l := input.rows) (l' := output.rows)
      rw [List.take_length] at h1
      have h2 : (List.zipWith Prod.mk input.rows output.rows).take input.rows.length = List.zipWith Prod.mk input.rows output.rows :=
        List.take_of_length_le (by simp)
      rw [h2] at h1
      exact h1.symm
    rw [this]
  · intro h
    unfold fannSave
    rw [require_false, ok_bind, fannRows_ub F _ _ h, ub_bind]

example (F : NumFormat ℚ) : fannSave false F ⟨1, [[1]]⟩ ⟨1, [[1], [2]]⟩ = FANN.save F ⟨1, [[1]]⟩ ⟨1, [[1]]⟩ := (fannSave_wrong F _ _).1 (by decide)

variable [LinearOrder K]

theorem svmRows_ub (F : NumFormat K) (c : ℕ) (xs ts : List (List K)) (h : ts.length < xs.length) : svmRows F c xs ts = ub := by
  induction xs generalizing ts with
  | nil => simp at h
  | cons x xs ih =>
    cases ts with
    | nil => rfl
    | cons t ts =>
      rw [svmRows, ih ts (by simpa using h)]
      unfold LibSVM.saveLabel
      split
      · rfl
      · split <;> rfl

theorem svmRows_take (F : NumFormat K) (c : ℕ) (xs ts : List (List K)) (h : xs.length ≤ ts.length) :
    svmRows F c xs ts = LibSVM.saveRows F c xs (ts.take xs.length) := by
  induction xs generalizing ts with
  | nil => rfl
  | cons x xs ih =>
    cases ts with
    | nil => simp at h
    | cons t ts => simp only [svmRows, ih ts (by simpa using h), List.length_cons, List.take_succ_cons, LibSVM.saveRows, pure_eq]

/-- The same for the other format. -/
theorem svmSave_wrong (F : NumFormat K) (input output : Text.Mat K) :
    (input.rows.length < output.rows.length → svmSave false F input output =
      LibSVM.save F input ⟨output.cols, output.rows.take input.rows.length⟩) ∧
    (output.rows.length < input.rows.length → svmSave false F input output = ub) := by
  constructor
  · intro h
    unfold svmSave LibSVM.save
    rw [require_false, ok_bind, svmRows_take F _ _ _ h.le, check_true (by simp; omega), ok_bind]
  · intro h
    unfold svmSave
    rw [require_false, ok_bind, svmRows_ub F _ _ _ h]

example (F : NumFormat ℚ) : svmSave false F ⟨1, [[1], [2]]⟩ ⟨1, [[1]]⟩ = ub := (svmSave_wrong F _ _).2 (by decide)

end

/-- The first four bytes of the files and the number of labels have no effect. -/
theorem idx_ignored (px py : ℕ) (maxN : ℤ) (m1 m2 m3 m4 n1 n2 : List Img.Byte) (f g : List Img.Byte) (j1 j2 : ℕ → ℕ → ℝ)
    (h1 : m1.length = 4) (h2 : m2.length = 4) (h3 : m3.length = 4) (h4 : m4.length = 4) (h5 : n1.length = 4) (h6 : n2.length = 4) :
    idxLoad false px py maxN (m1 ++ f) (m2 ++ n1 ++ g) j1 j2 = idxLoad false px py maxN (m3 ++ f) (m4 ++ n2 ++ g) j1 j2 := by
  have hm : ∀ (s : List Img.Byte) d, magic false s d = ok (s.drop 4) := by
    intro s d
    unfold magic Img.readRaw
    dsimp only
    rw [require_false, ok_bind, require_false, ok_bind, require_false, ok_bind, require_false, ok_bind, List.drop_drop, List.drop_drop,
      List.drop_drop]
  have hd : ∀ a b : List Img.Byte, a.length = 4 → (a ++ b).drop 4 = b := by
    intro a b h
    rw [← h, List.drop_left]
  have hi : ∀ a b : List Img.Byte, a.length = 4 → (Img.readInt (a ++ b)).1 = b := fun a b h => hd a b h
  have key : ∀ F G : List Img.Byte, idxLoad false px py maxN F G j1 j2 =
      Img.images px py maxN (Img.readInt (F.drop 4)).2 (Img.readInt (Img.readInt (F.drop 4)).1).2
        (Img.readInt (Img.readInt (Img.readInt (F.drop 4)).1).1).2 (Img.readInt (Img.readInt (Img.readInt (F.drop 4)).1).1).1 j1 >>= fun input =>
      Img.labels (Img.sizeN (Img.readInt (F.drop 4)).2 maxN).toNat (Img.readInt (G.drop 4)).1 input.tmp j2 >>= fun output =>
      ok (input.m, output.m) := by
    intro F G
    unfold idxLoad
    rw [hm, ok_bind]
    dsimp only
    refine congrArg _ (funext fun st => ?_)
    rw [hm, ok_bind, require_false, ok_bind]
  rw [key, key, List.append_assoc, List.append_assoc, hd _ _ h1, hd _ _ h2, hd _ _ h3, hd _ _ h4, hi _ _ h5, hi _ _ h6]

private theorem update_ext (m : KM.KMeans) (X : Mat) (tail : List ℤ) (n : ℕ) (hn : n ≤ m.clusterIndices.length) {r : KM.KMeans}
    (h : forLoop n (fun n m => m.update X n) m = ok r) : r.clusterIndices = m.clusterIndices ∧
    forLoop n (fun n m => m.update X n) { m with clusterIndices := m.clusterIndices ++ tail } =
      ok { r with clusterIndices := r.clusterIndices ++ tail } := by
  induction n generalizing r with
  | zero =>
    injection h with h
    subst h
    exact ⟨rfl, rfl⟩
  | succ n ih =>
    rw [forLoop] at h
    obtain ⟨q, hq, h⟩ := bind_eq_ok.mp h
    obtain ⟨e, hl⟩ := ih (by omega) hq
    rw [forLoop, hl, ok_bind]
    unfold KM.KMeans.update at h ⊢
    have hlt : n < q.clusterIndices.length := by rw [e]; omega
    rw [read_of_lt hlt, ok_bind] at h
    dsimp only
    rw [read_of_lt (by simp; omega), ok_bind, List.getElem_append_left hlt]
    split at h
    · next hc =>
      rw [if_pos hc]
      injection h with h
      subst h
      exact ⟨e, rfl⟩
    · simp at h

/-- A later batch with fewer rows is clustered like a batch of its own, only the entries of the old batch behind it remain. -/
theorem kmeans_smaller (huge : ℝ) (σ : List ℤ → List ℤ) (m : KM.KMeans) (X : Mat) (hi : m.initialized = true) (hc : X.cols = m.D)
    (hr : X.rows < m.clusterIndices.length) :
    m.fit huge σ X = checkFailed ∧ ∀ r, ({ m with clusterIndices := m.clusterIndices.take X.rows } : KM.KMeans).fit huge σ X = ok r →
      kmeansFit false huge σ m X = ok { r with clusterIndices := r.clusterIndices ++ m.clusterIndices.drop X.rows } := by
  constructor
  · unfold KM.KMeans.fit
    rw [check_true hc, ok_bind, if_pos hi, ok_bind, check_false (by omega)]
    rfl
  · intro r h
    unfold KM.KMeans.fit at h
    dsimp only at h
    rw [check_true hc, ok_bind, if_pos hi, ok_bind, check_true (by simp; omega), ok_bind] at h
    unfold kmeansFit
    rw [require_false, ok_bind, if_pos hi, ok_bind, require_false, ok_bind, kmeansFind, if_pos ⟨hr.le, Or.inl hc⟩, ok_bind]
    exact (update_ext _ X (m.clusterIndices.drop X.rows) X.rows (by simp [KM.KMeans.findClusters]) h).2

example : (⟨1, 1, fun _ _ => 0, fun _ => 1, true, [0, 0]⟩ : KM.KMeans).fit 10 id ⟨1, 1, fun _ _ => 1⟩ = checkFailed :=
  (kmeans_smaller 10 id ⟨1, 1, fun _ _ => 0, fun _ => 1, true, [0, 0]⟩ ⟨1, 1, fun _ _ => 1⟩ rfl rfl (by decide)).1

/-- A later batch with more rows, and data of another dimension, are undefined behaviour. -/
theorem kmeans_ub (huge : ℝ) (σ : List ℤ → List ℤ) (m : KM.KMeans) (X : Mat) :
    (m.initialized = true → m.clusterIndices.length < X.rows → kmeansFit false huge σ m X = ub) ∧
    (X.cols ≠ m.D → 0 < m.K → 0 < X.rows → kmeansFit false huge σ m X = ub) := by
  constructor
  · intro hi hr
    unfold kmeansFit
    rw [require_false, ok_bind, if_pos hi, ok_bind, require_false, ok_bind, kmeansFind, if_neg (by omega), ub_bind]
  · intro hc hK hr
    unfold kmeansFit
    rw [require_false, ok_bind]
    by_cases hi : m.initialized = true
    · rw [if_pos hi, ok_bind, require_false, ok_bind, kmeansFind, if_neg (by omega), ub_bind]
    · have hl : ∀ (idx : List ℤ) (n : ℕ), forLoop (n + 1) (fun k C => do
          let i ← Outcome.read idx k
          let r ← KM.row X i
          if X.cols = m.D then ok (KM.setRow C k r) else ub) m.C = ub := by
        intro idx n
        have hb : ∀ k C, (do
            let i ← Outcome.read idx k
            let r ← KM.row X i
            if X.cols = m.D then ok (KM.setRow C k r) else ub) = (ub : Outcome (ℕ → ℕ → ℝ)) := by
          intro k C
          unfold Outcome.read KM.row
          simp only [if_neg hc]
          split
          · rw [ok_bind]
            split <;> rfl
          · rfl
        induction n with
        | zero => rw [forLoop, forLoop, ok_bind, hb]
        | succ n ih => rw [forLoop, ih, ub_bind]
      rw [if_neg hi]
      unfold kmeansInit generateIndices
      obtain ⟨n, hn⟩ : ∃ n, m.K = n + 1 := ⟨m.K - 1, by omega⟩
      simp only [if_true, require_false, ok_bind]
      rw [hn, hl, ub_bind, ub_bind]

example : kmeansFit false 10 id (KM.KMeans.new 1 1 (fun _ _ => 0) fun _ => 0) ⟨1, 2, fun _ _ => 1⟩ = ub :=
  (kmeans_ub 10 id _ _).2 (by decide) (by decide) (by decide)

/-- A matrix of another width than the one that was used to fit: undefined behaviour for all transformers. -/
theorem transform_ub (N : Pre.Normalization) (X : Mat) (h : X.cols ≠ N.cols) (h0 : 0 < X.rows) : normTransform false N X = ub := by
  unfold normTransform
  rw [require_false, ok_bind, require_false, ok_bind, if_neg]
  rintro (h1 | h1)
  · omega
  · exact h h1

example : normTransform false Pre.Normalization.new ⟨1, 2, fun _ _ => 1⟩ = ub := transform_ub _ _ (by decide) (by decide)

theorem whiten_ub {D M D' : ℕ} (c : ℕ) (X : Matrix (Fin M) (Fin D') ℝ) (h : 0 < D') :
    pcaTransform false c (none : Option (White.Fitted D)) X = ub ∧ zcaTransform false (none : Option (White.Zca D)) X = ub ∧
    (D' ≠ D → (∀ p : White.Fitted D, pcaTransform false c (some p) X = ub) ∧ ∀ p : White.Zca D, zcaTransform false (some p) X = ub) := by
  refine ⟨?_, ?_, fun hD => ⟨fun p => ?_, fun p => ?_⟩⟩
  · simp [pcaTransform, h.ne']
  · simp [zcaTransform, h.ne']
  · simp [pcaTransform, hD]
  · simp [zcaTransform, hD]

/-- Without `fit` only a matrix without columns is transformed, to one without columns. -/
theorem pca_unfitted {D M D' : ℕ} (c : ℕ) (X : Matrix (Fin M) (Fin D') ℝ) :
    (pcaTransform false c (none : Option (White.Fitted D)) X = ub ↔ 0 < D' ∨ 0 < c) ∧
    (D' = 0 → c = 0 → pcaTransform false c (none : Option (White.Fitted D)) X = ok 0) := by
  refine ⟨?_, fun h1 h2 => by subst h1; simp [pcaTransform, h2]⟩
  by_cases h : D' = 0 ∧ c = 0
  · simp [pcaTransform, h]
  · simp only [pcaTransform, if_neg h]
    simp
    omega

/-- A layer that the network does not have. -/
theorem getLayer_ub (D : ℕ) (ks : List NN.Kind) (l : ℕ) (h : ks.length < l) : getLayer false D ks l = ub := by
  have hl : ∀ (ks : List NN.Kind) D, (NN.getLayer.go D ks).length = ks.length := by
    intro ks
    induction ks with
    | nil => intro D; rfl
    | cons k ks ih => intro D; simp [NN.getLayer.go, ih]
  unfold getLayer
  rw [require_false, ok_bind, read_of_ge (by simp [hl]; omega)]

example : getLayer false 3 [] 1 = ub := getLayer_ub 3 [] 1 (by decide)

/-- A stream without learner or optimiser calls through a null pointer. -/
theorem addSample_ub {K : Type} (s : DataStream.State K) (h : s.learner = none ∨ s.opt = none) (x : List K) (t : Option (List K)) :
    addSample false s x t = ub := by
  unfold addSample
  rcases h with h | h
  · rw [h]
    rfl
  · rw [h]
    cases s.learner <;> rfl

example : addSample false (DataStream.create 5 : DataStream.State ℚ) [1] none = ub := addSample_ub _ (Or.inl rfl) _ _

/-- An optimiser without optimised object calls through a null pointer. -/
theorem sgd_none_ub (o : Opt.MBSGD) : sgdStep false o none = ub := rfl

/-- With an empty training set the default build makes an update with an empty mini-batch. -/
theorem sgd_empty (o : Opt.MBSGD) (obj : Opt.Obj) (ho : o.iteration < 0) (hn : obj.problem.examples = 0) (hP : 0 < obj.problem.dimension)
    (hrng : ∀ k, o.rng k [] = []) (hnest : o.nesterov = false) :
    o.step obj = checkFailed ∧ ∃ b o' obj' w', sgdStep false o (some obj) = ok (b, o', obj') ∧
      obj'.log = obj.log ++ [.evaluate obj.w [], .finished w'] := by
  have hr : o.ready obj = o.init obj := by rw [Opt.MBSGD.ready, if_pos ho]
  constructor
  · unfold Opt.MBSGD.step
    simp only [hr]
    rw [check_true (show 0 < (o.init obj).P from hP), ok_bind, check_false (show ¬ 0 < (o.init obj).N by simp [Opt.MBSGD.init, hn])]
    rfl
  · unfold sgdStep
    simp only [hr, require_false, ok_bind]
    rw [if_neg (by simp [Opt.MBSGD.init])]
    refine ⟨_, _, _, ((o.init obj).reshuffle.updates obj (o.init obj).batches).2.w, rfl, ?_⟩
    simp [Opt.MBSGD.init, hn, hrng, Opt.MBSGD.reshuffle, Opt.MBSGD.updates, Opt.MBSGD.update, Opt.Obj.finishedIteration, Opt.Obj.evaluate,
      Opt.MBSGD.lookAhead, hnest, Opt.batchOf]

/-- A kernel that is larger than the image in both directions: the default build accepts it, because the product of two negative numbers
is positive. -/
theorem conv_negative (fmin inRows inCols fmout kr kc : ℤ) (h1 : 0 ≤ fmin) (h2 : 0 < fmout) (hr : 0 < inRows) (hc : 0 < inCols)
    (hkr : inRows < kr.tdiv 2 * 2) (hkc : inCols < kc.tdiv 2 * 2) :
    NN.convInit fmin inRows inCols fmout kr kc = checkFailed ∧
    convInit false fmin inRows inCols fmout kr kc = ok (fmout, inRows - kr.tdiv 2 * 2, inCols - kc.tdiv 2 * 2) := by
  have nn : ∀ k x : ℤ, 0 < x → x < k.tdiv 2 * 2 → 0 ≤ k := by
    intro k x hx h
    by_contra hk
    obtain ⟨m, rfl⟩ : ∃ m, k = -m := ⟨-k, by omega⟩
    have := Int.tdiv_nonneg (a := m) (b := 2) (by omega) (by omega)
    rw [Int.neg_tdiv] at h
    omega
  have p1 := nn kr inRows hr hkr
  have p2 := nn kc inCols hc hkc
  obtain ⟨a, ha⟩ : ∃ a, a = inRows - kr.tdiv 2 * 2 := ⟨_, rfl⟩
  obtain ⟨b, hb⟩ : ∃ b, b = inCols - kc.tdiv 2 * 2 := ⟨_, rfl⟩
  have ha0 : a < 0 := by omega
  have hb0 : b < 0 := by omega
  have hab : 0 < a * b := mul_pos_of_neg_of_neg ha0 hb0
  have hp : 0 < fmout * a * b := by
    rw [mul_assoc]
    exact mul_pos h2 hab
  have hin : inRows * inCols > 0 := mul_pos hr hc
  constructor
  · unfold NN.convInit
    rw [← ha, ← hb, if_neg (by omega), if_neg (by omega), if_neg (by omega), if_neg (by omega), check_true hin, ok_bind,
      check_false (by omega)]
    rfl
  · unfold convInit
    rw [← ha, ← hb, if_neg (by omega), if_neg (by omega), if_neg (by omega), if_neg (by omega)]
    rfl

example : convInit false 1 2 2 1 5 5 = ok (1, -2, -2) := (conv_negative 1 2 2 1 5 5 (by decide) (by decide) (by decide) (by decide)
  (by decide) (by decide)).2

/-- For positive sizes this is the only mistake of this kind: whatever else the default build accepts has the size that the checked
build computes. -/
theorem conv_only (fmin inRows inCols fmout kr kc : ℤ) (hr : 0 < inRows) (hc : 0 < inCols)
    (hk : ¬ (inRows < kr.tdiv 2 * 2 ∧ inCols < kc.tdiv 2 * 2)) :
    convInit false fmin inRows inCols fmout kr kc = NN.convInit fmin inRows inCols fmout kr kc := by
  unfold convInit NN.convInit
  split
  · rfl
  next hkn =>
  split
  · rfl
  next hf =>
  obtain ⟨a, ha⟩ : ∃ a, a = inRows - kr.tdiv 2 * 2 := ⟨_, rfl⟩
  obtain ⟨b, hb⟩ : ∃ b, b = inCols - kc.tdiv 2 * 2 := ⟨_, rfl⟩
  rw [← ha, ← hb]
  split
  · rfl
  split
  · rfl
  next hp =>
  have hin : inRows * inCols > 0 := mul_pos hr hc
  have hpos : 0 < a ∧ 0 < b := by
    have h1 : 0 < fmout * (a * b) := by rw [← mul_assoc]; omega
    have h0 : 0 ≤ fmout := by omega
    have h2 : 0 < a * b := by
      by_contra h2
      have := mul_nonpos_of_nonneg_of_nonpos h0 (not_lt.mp h2)
      omega
    rcases pos_and_pos_or_neg_and_neg_of_mul_pos h2 with h | h
    · exact h
    · exact absurd ⟨by omega, by omega⟩ hk
  have e : ∀ k : ℤ, 0 ≤ k → k.tdiv 2 * 2 + k.tmod 2 = k := by
    intro k _
    have := Int.mul_tdiv_add_tmod k 2
    omega
  have t1 := e kr (by omega)
  have t2 := e kc (by omega)
  have t3 := Int.tmod_nonneg (a := kr) 2 (by omega)
  have t4 := Int.tmod_nonneg (a := kc) 2 (by omega)
  rw [check_true hin, check_true hpos.1, check_true hpos.2, check_true (mul_pos hpos.1 hpos.2), check_true (by omega), check_true (by omega)]
  rfl

example : convInit false 1 4 4 1 3 3 = ok (1, 2, 2) := (conv_only 1 4 4 1 3 3 (by decide) (by decide) (by decide)).trans (by decide)

/-- The checks of the pooling layers never fail for positive sizes. -/
theorem pool_redundant (fm inRows inCols kr kc : ℤ) (h1 : 0 < inRows) (h2 : 0 < inCols) (h3 : 0 < kr) (h4 : 0 < kc) :
    poolChecks false fm inRows inCols kr kc = NN.poolChecks fm inRows inCols kr kc := by
  unfold poolChecks NN.poolChecks
  split
  · rfl
  next h =>
  have hin : inRows * inCols > 0 := mul_pos h1 h2
  have n1 := Int.tdiv_nonneg h1.le h3.le
  have n2 := Int.tdiv_nonneg h2.le h4.le
  have pos : 0 < inRows.tdiv kr ∧ 0 < inCols.tdiv kc := by
    constructor
    · rcases n1.lt_or_eq with h' | h'
      · exact h'
      · rw [← h'] at h
        simp at h
    · rcases n2.lt_or_eq with h' | h'
      · exact h'
      · rw [← h'] at h
        simp at h
  have le : ∀ x k : ℤ, 0 < x → 0 < k → 0 < x.tdiv k → x - k + 1 > 0 := by
    intro x k hx hk ht
    by_contra hlt
    rw [Int.tdiv_eq_zero_of_lt hx.le (by omega)] at ht
    omega
  rw [check_true hin, check_true pos.1, check_true pos.2, check_true (mul_pos pos.1 pos.2), check_true (le _ _ h1 h3 pos.1),
    check_true (le _ _ h2 h4 pos.2)]
  rfl

example : poolChecks false 1 4 4 2 2 = ok (1, 2, 2) :=
  (pool_redundant 1 4 4 2 2 (by decide) (by decide) (by decide) (by decide)).trans (by decide)

/-- A position below the image is accepted: the constraint sees a larger image. -/
theorem coordinates_outside (w h h' p : ℕ) (hp : p / w < h') : coordinates false w h p = SigmaPi.coordinates w h' p := by
  unfold coordinates SigmaPi.coordinates
  split
  · rfl
  · rw [require_false, check_true hp]

/-- A message of level `DISABLED` is written whatever the levels are. -/
theorem log_disabled (compiled : Logging.Level) (g : Logging.Global) (text : String) :
    log false compiled g .disabled text = ok { g with out := g.out ++ [⟨g.stream, .disabled, text⟩] } := by
  unfold log emit
  rw [if_neg (by simp [Logging.Level.num]), if_neg (by simp [Logging.Level.num])]
  rfl

/-- The messages of a logger whose file could not be opened are lost, although the logger is active. -/
theorem logger_lost (s : Loggers) (hd : s.base.deactivate = false) (t : Logging.Target) (ht : t = .file ∨ t = .appendFile) (texts : List String) :
    ∃ s', construct false s t false = ok s' ∧ Logging.isActive s'.base s.base.targets.length = ok true ∧
      texts.foldlM (fun s' text => write s' s.base.targets.length text) s' = ok s' := by
  refine ⟨{ base := { s.base with targets := s.base.targets ++ [t] }, broken := s.base.targets.length :: s.broken }, ?_, ?_, ?_⟩
  · unfold construct
    rw [if_neg (by simp [hd]), if_pos ht]
    rfl
  · unfold Logging.isActive
    dsimp only
    rw [read_of_lt (by simp)]
    rcases ht with rfl | rfl <;> simp [hd]
  · induction texts with
    | nil => rfl
    | cons x xs ih =>
      rw [List.foldlM_cons]
      have : write { base := { s.base with targets := s.base.targets ++ [t] }, broken := s.base.targets.length :: s.broken }
          s.base.targets.length x = ok { base := { s.base with targets := s.base.targets ++ [t] }, broken := s.base.targets.length :: s.broken } := by
        unfold write Logging.write
        dsimp only
        rw [read_of_lt (by simp)]
        rcases ht with rfl | rfl <;> simp
      rw [this, ok_bind, ih]

end Verif.Release
