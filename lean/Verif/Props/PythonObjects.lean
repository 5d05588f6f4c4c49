import Verif.Model.PythonObjects

/-!
# C108: a Python program never makes the library use an object that does not exist any more
-/

namespace Verif.PyObj

open Outcome State

/-! ## Specification: classes of programs -/

/-- Statements of programs that use learners, data sets and optimisers only. -/
def Op.Core : Op → Prop
  | .dataSet input => input = true
  | .net | .rbm | .sparseAutoEncoder | .optimizer => True
  | .hiddenLayer _ _ | .drop _ | .optimize _ _ _ | .predict _ | .evaluate _ _ | .crossValidation _ _ _ => True
  | _ => False

/-- Statements of programs that keep all objects and use streams, but neither cross-validation nor layers of their own. -/
def Op.Held : Op → Prop
  | .dataSet input => input = true
  | .drop _ | .crossValidation _ _ _ | .reconstructProb _ | .sigmaPi _ | .addLayer _ _ => False
  | _ => True

/-- Statements that do not end the life of an object. -/
def Op.Keeps : Op → Prop
  | .drop _ => False
  | _ => True

/-- The layers that a program adds to networks. -/
def adds : List Op → List ℕ
  | [] => []
  | .addLayer _ k :: ops => k :: adds ops
  | _ :: ops => adds ops

/-! ## Lemmas -/

theorem run_ok {s s' : State} {op : Op} (h : step s op = .ok s') (ops : List Op) : run s (op :: ops) = run s' ops := by
  conv_lhs => unfold run
  rw [h]

theorem run_throws {s : State} {op : Op} (h : step s op = .throws) (ops : List Op) : run s (op :: ops) = run s ops := by
  conv_lhs => unfold run
  rw [h]

theorem run_ne_throws (s : State) (p : List Op) : run s p ≠ .throws := by
  induction p generalizing s with
  | nil => intro e; cases e
  | cons op p ih =>
    cases hs : step s op with
    | ok t => rw [run_ok hs]; exact ih t
    | throws => rw [run_throws hs]; exact ih s
    | checkFailed => unfold run; rw [hs]; intro e; cases e
    | ub => unfold run; rw [hs]; intro e; cases e

theorem run_append_checkFailed (s : State) (p q : List Op) (h : run s p = .checkFailed) : run s (p ++ q) = .checkFailed := by
  induction p generalizing s with
  | nil => cases h
  | cons op p ih =>
    cases hs : step s op with
    | ok t => rw [run_ok hs] at h; exact (run_ok hs _).trans (ih t h)
    | throws => rw [run_throws hs] at h; exact (run_throws hs _).trans (ih s h)
    | checkFailed => rw [List.cons_append]; unfold run; rw [hs]
    | ub => unfold run at h; rw [hs] at h; cases h

theorem run_append (s : State) (p q : List Op) {s' : State} (h : run s p = .ok s') : run s (p ++ q) = run s' q := by
  induction p generalizing s with
  | nil => injection h with h; rw [h]; rfl
  | cons op p ih =>
    cases hs : step s op with
    | ok t => rw [run_ok hs] at h; exact (run_ok hs _).trans (ih t h)
    | throws => rw [run_throws hs] at h; exact (run_throws hs _).trans (ih s h)
    | checkFailed => unfold run at h; rw [hs] at h; cases h
    | ub => unfold run at h; rw [hs] at h; cases h

/-! ## Programs without streams and layer objects -/

/-- What all objects of a core program satisfy. -/
def Good : Obj → Prop
  | .dataSet storage => storage = true
  | .learner _ _ _ added => added = []
  | _ => True

def Inv (s : State) : Prop := ∀ k x, s.objs k = some x → Good x

theorem set_self (s : State) (k : ℕ) (x : Obj) : (s.set k x).objs k = some x := Function.update_self ..

theorem set_of_ne (s : State) {k j : ℕ} (h : k ≠ j) (x : Obj) : (s.set j x).objs k = s.objs k := Function.update_of_ne h ..

theorem add_self (s : State) (x : Obj) : (s.add x).objs s.next = some x := Function.update_self ..

theorem add_of_ne (s : State) {k : ℕ} (h : k ≠ s.next) (x : Obj) : (s.add x).objs k = s.objs k := Function.update_of_ne h ..

theorem Inv.add {s : State} (h : Inv s) {x : Obj} (hx : Good x) : Inv (s.add x) := by
  intro k y hk
  by_cases e : k = s.next
  · subst e
    rw [add_self] at hk
    cases hk
    exact hx
  · rw [add_of_ne s e] at hk
    exact h k y hk

theorem Inv.set {s : State} (h : Inv s) (j : ℕ) {x : Obj} (hx : Good x) : Inv (s.set j x) := by
  intro k y hk
  by_cases e : k = j
  · subst e
    rw [set_self] at hk
    cases hk
    exact hx
  · rw [set_of_ne s e] at hk
    exact h k y hk

theorem Inv.drop {s : State} (h : Inv s) (j : ℕ) (f : ℕ → Bool) : Inv { s with objs := Function.update s.objs j none, freed := f } := by
  intro k y hk
  dsimp only at hk
  by_cases e : k = j
  · subst e
    rw [Function.update_self] at hk
    cases hk
  · rw [Function.update_of_ne e] at hk
    exact h k y hk

/-- After `optimize` has set the pointers, they are valid. -/
theorem optimize_learn {s : State} {o l d : ℕ} {x : Option ℕ} {kind : Kind} {train : Ref} {dims added : List ℕ} (ho : s.objs o = some (.optimizer x))
    (hl : s.objs l = some (.learner kind train dims added)) (hd : s.objs d = some (.dataSet true)) (hadd : added.any s.freed = false) :
    ((s.set l (.learner kind (give kind train (.dataSet d)) dims added)).set o (.optimizer (some l))).learn l = .ok () := by
  have hlo : l ≠ o := fun e => by subst e; rw [ho] at hl; cases hl
  have hdo : d ≠ o := fun e => by subst e; rw [ho] at hd; cases hd
  have hdl : d ≠ l := fun e => by subst e; rw [hl] at hd; cases hd
  unfold learn
  rw [set_of_ne _ hlo, set_self]
  dsimp only
  have hf : ((s.set l (.learner kind (give kind train (.dataSet d)) dims added)).set o (.optimizer (some l))).forward added = .ok () := by
    unfold forward
    rw [show ((s.set l (.learner kind (give kind train (.dataSet d)) dims added)).set o (.optimizer (some l))).freed = s.freed from rfl, hadd]
    rfl
  rw [hf, ok_bind]
  have hv : ((s.set l (.learner kind (give kind train (.dataSet d)) dims added)).set o (.optimizer (some l))).valid (.dataSet d) = true := by
    unfold valid
    dsimp only
    rw [set_of_ne _ hdo, set_of_ne _ hdl, hd]
  cases kind with
  | net => exact (if_pos hv : (if _ then _ else _) = _)
  | rbm => exact (if_pos hv : (if _ then _ else _) = _)
  | sparseAutoEncoder => rfl

theorem core_step {s : State} (h : Inv s) {op : Op} (hop : op.Core) :
    (∃ s', step s op = .ok s' ∧ Inv s') ∨ step s op = .throws := by
  cases op with
  | dataSet input => exact Or.inl ⟨_, rfl, h.add hop⟩
  | net => exact Or.inl ⟨_, rfl, h.add rfl⟩
  | rbm => exact Or.inl ⟨_, rfl, h.add rfl⟩
  | sparseAutoEncoder => exact Or.inl ⟨_, rfl, h.add rfl⟩
  | optimizer => exact Or.inl ⟨_, rfl, h.add trivial⟩
  | stream size => exact hop.elim
  | sigmaPi n => exact hop.elim
  | getLayer n l => exact hop.elim
  | addLayer n k => exact hop.elim
  | getOutput k => exact hop.elim
  | setLearner k l => exact hop.elim
  | setOptimizer k o => exact hop.elim
  | addSample k => exact hop.elim
  | reconstructProb l => exact hop.elim
  | load n f => exact hop.elim
  | hiddenLayer n d =>
    dsimp only [step]
    split
    · next hn => exact Or.inl ⟨_, rfl, h.set n (x := .learner .net _ _ _) (show _ = [] from h n _ hn)⟩
    · exact Or.inr rfl
  | drop k =>
    dsimp only [step]
    split
    · next hk =>
      have := h k _ hk
      unfold Good at this
      subst this
      exact Or.inl ⟨_, rfl, h.drop k _⟩
    · exact Or.inl ⟨_, rfl, h.drop k _⟩
    · exact Or.inr rfl
  | optimize o l d =>
    dsimp only [step]
    split
    · next ho hl hd =>
      have hs := h d _ hd
      unfold Good at hs
      subst hs
      have ha := h l _ hl
      unfold Good at ha
      subst ha
      rw [if_pos rfl, optimize_learn ho hl hd rfl, ok_bind]
      exact Or.inl ⟨_, rfl, (h.set l (x := .learner _ _ _ []) rfl).set o (x := .optimizer _) trivial⟩
    · exact Or.inr rfl
  | predict l =>
    dsimp only [step]
    split
    · next hl =>
      have ha := h l _ hl
      unfold Good at ha
      subst ha
      exact Or.inl ⟨s, rfl, h⟩
    · exact Or.inr rfl
  | evaluate l d =>
    dsimp only [step]
    split
    · next hl hd =>
      have hs := h d _ hd
      unfold Good at hs
      subst hs
      have ha := h l _ hl
      unfold Good at ha
      subst ha
      exact Or.inl ⟨s, rfl, h⟩
    · exact Or.inr rfl
  | crossValidation l d o =>
    dsimp only [step]
    split
    · next hl hd ho =>
      have hs := h d _ hd
      unfold Good at hs
      subst hs
      have ha := h l _ hl
      unfold Good at ha
      subst ha
      exact Or.inl ⟨_, rfl, (h.set l (x := .learner _ _ _ []) rfl).set o (x := .optimizer _) trivial⟩
    · exact Or.inr rfl

/-- **C108 for programs without streams and layer objects**: whatever is created, trained, evaluated, cross-validated and given up in whatever
order, the library never uses an object that does not exist any more, and the interpreter never ends; not even if a
data set is given up while it is the training set of a network. -/
theorem core_safe (ops : List Op) (h : ∀ op ∈ ops, op.Core) : ∃ s, run start ops = .ok s := by
  suffices ∀ (ops : List Op) (s : State), Inv s → (∀ op ∈ ops, op.Core) → ∃ s', run s ops = .ok s' from
    this ops start (fun k x hk => by cases hk) h
  intro ops
  induction ops with
  | nil => exact fun s _ _ => ⟨s, rfl⟩
  | cons op ops ih =>
    intro s hs hops
    rcases core_step hs (hops op List.mem_cons_self) with ⟨s', hs', hi⟩ | ht
    · rw [run_ok hs']
      exact ih s' hi fun o ho => hops o (List.mem_cons_of_mem _ ho)
    · rw [run_throws ht]
      exact ih s hs fun o ho => hops o (List.mem_cons_of_mem _ ho)

/-- A data set is given up after the training, the network is evaluated with another one, trained again and given up. -/
example : ∃ s, run start [.net, .hiddenLayer 0 1, .dataSet true, .optimizer, .optimize 2 0 1, .drop 1, .predict 0, .dataSet true, .evaluate 0 3,
    .crossValidation 0 3 2, .drop 3, .dataSet true, .optimize 2 0 4, .drop 0] = .ok s := core_safe _ (by simp [Op.Core])

/-! ## Programs that keep their objects -/

def IsLearner (s : State) (l : ℕ) : Prop := ∃ kind train dims added, s.objs l = some (.learner kind train dims added)

def IsOptimizer (s : State) (o : ℕ) : Prop := ∃ x, s.objs o = some (.optimizer x)

/-- The learner exists and its training set exists. -/
def Trained (s : State) (l : ℕ) : Prop :=
  ∃ kind train dims added, s.objs l = some (.learner kind train dims added) ∧ (kind = .sparseAutoEncoder ∨ s.valid train = true)

/-- All pointers of the object are valid. -/
def Sound (s : State) : Obj → Prop
  | .dataSet storage => storage = true
  | .learner _ train _ _ => train = .null ∨ s.valid train = true
  | .optimizer x => ∀ l, x = some l → Trained s l
  | .stream _ _ learner opt _ => (∀ l, learner = some l → IsLearner s l) ∧ ∀ o, opt = some o → IsOptimizer s o
  | .layer n => ∀ l, n = some l → IsLearner s l

def HInv (s : State) : Prop :=
  (∀ c, s.freed c = false) ∧ (∀ k, s.next ≤ k → s.objs k = none) ∧ ∀ k x, s.objs k = some x → Sound s x

/-- In the second state everything exists that exists in the first one. -/
structure Ext (s s' : State) : Prop where
  valid : ∀ r, s.valid r = true → s'.valid r = true
  learner : ∀ l, IsLearner s l → IsLearner s' l
  optimizer : ∀ o, IsOptimizer s o → IsOptimizer s' o
  trained : ∀ l, Trained s l → Trained s' l

theorem Sound.mono {s s' : State} (h : Ext s s') {x : Obj} (hx : Sound s x) : Sound s' x := by
  cases x with
  | dataSet storage => exact hx
  | learner kind train dims added => exact hx.imp_right (h.valid train)
  | optimizer x => exact fun l hl => h.trained l (hx l hl)
  | stream size collected learner opt cache => exact ⟨fun l hl => h.learner l (hx.1 l hl), fun o ho => h.optimizer o (hx.2 o ho)⟩
  | layer n => exact fun l hl => h.learner l (hx l hl)

/-- Changes that an object may undergo. -/
def Compat (s : State) : Obj → Obj → Prop
  | .dataSet a, .dataSet b => a = b
  | .learner k t _ _, .learner k' t' _ _ => k = k' ∧ (t' = t ∨ s.valid t' = true)
  | .optimizer _, .optimizer _ => True
  | .stream _ _ _ _ a, .stream _ _ _ _ b => a = true → b = true
  | _, _ => False

theorem ext_set {s : State} {k : ℕ} {x y : Obj} (hy : s.objs k = some y) (hc : Compat (s.set k x) y x) : Ext s (s.set k x) := by
  have hv : ∀ r, s.valid r = true → (s.set k x).valid r = true := by
    intro r hr
    cases r with
    | null => exact hr
    | gone => exact hr
    | dataSet j =>
      unfold valid at hr ⊢
      dsimp only at hr ⊢
      by_cases e : j = k
      · subst e
        rw [set_self]
        rw [hy] at hr
        cases y with
        | dataSet a =>
          cases x with
          | dataSet b =>
            have : a = b := hc
            subst this
            exact hr
          | _ => exact hc.elim
        | _ => simp at hr
      · rw [set_of_ne s e]; exact hr
    | cache j =>
      unfold valid at hr ⊢
      dsimp only at hr ⊢
      by_cases e : j = k
      · subst e
        rw [set_self]
        rw [hy] at hr
        cases y with
        | stream a b c d f =>
          cases x with
          | stream a' b' c' d' f' =>
            cases f with
            | true =>
              have : f' = true := hc rfl
              subst this
              rfl
            | false => simp at hr
          | _ => exact hc.elim
        | _ => simp at hr
      · rw [set_of_ne s e]; exact hr
  refine ⟨hv, ?_, ?_, ?_⟩
  · rintro l ⟨kind, train, dims, added, hl⟩
    by_cases e : l = k
    · subst e
      rw [hl] at hy
      cases hy
      cases x with
      | learner k' t' d' a' => exact ⟨_, _, _, _, set_self ..⟩
      | _ => exact hc.elim
    · exact ⟨_, _, _, _, (set_of_ne s e x).trans hl⟩
  · rintro o ⟨z, ho⟩
    by_cases e : o = k
    · subst e
      rw [ho] at hy
      cases hy
      cases x with
      | optimizer z' => exact ⟨_, set_self ..⟩
      | _ => exact hc.elim
    · exact ⟨_, (set_of_ne s e x).trans ho⟩
  · rintro l ⟨kind, train, dims, added, hl, ht⟩
    by_cases e : l = k
    · subst e
      rw [hl] at hy
      cases hy
      cases x with
      | learner k' t' d' a' =>
        obtain ⟨rfl, h⟩ := hc
        refine ⟨_, _, _, _, set_self .., ht.imp_right fun hr => ?_⟩
        rcases h with rfl | h
        · exact hv _ hr
        · exact h
      | _ => exact hc.elim
    · exact ⟨_, _, _, _, (set_of_ne s e x).trans hl, ht.imp_right (hv _)⟩

theorem ext_add {s : State} (h : s.objs s.next = none) (x : Obj) : Ext s (s.add x) := by
  have hne : ∀ k y, s.objs k = some y → (s.add x).objs k = some y := by
    intro k y hk
    have : k ≠ s.next := fun e => by subst e; rw [h] at hk; cases hk
    rw [add_of_ne s this, hk]
  have hv : ∀ r, s.valid r = true → (s.add x).valid r = true := by
    intro r hr
    cases r with
    | null => exact hr
    | gone => exact hr
    | dataSet j =>
      unfold valid at hr ⊢
      dsimp only at hr ⊢
      cases hj : s.objs j with
      | none => rw [hj] at hr; simp at hr
      | some y => rw [hne j y hj]; rw [hj] at hr; exact hr
    | cache j =>
      unfold valid at hr ⊢
      dsimp only at hr ⊢
      cases hj : s.objs j with
      | none => rw [hj] at hr; simp at hr
      | some y => rw [hne j y hj]; rw [hj] at hr; exact hr
  exact ⟨hv, fun l ⟨a, b, c, d, hl⟩ => ⟨a, b, c, d, hne _ _ hl⟩, fun o ⟨z, ho⟩ => ⟨z, hne _ _ ho⟩,
    fun l ⟨a, b, c, d, hl, ht⟩ => ⟨a, b, c, d, hne _ _ hl, ht.imp_right (hv _)⟩⟩

theorem HInv.add {s : State} (h : HInv s) {x : Obj} (hx : Sound (s.add x) x) : HInv (s.add x) := by
  have he := ext_add (h.2.1 s.next (Nat.le_refl _)) x
  refine ⟨h.1, fun k hk => ?_, fun k y hk => ?_⟩
  · have : s.next + 1 ≤ k := hk
    rw [add_of_ne s (by omega)]
    exact h.2.1 k (by omega)
  · by_cases e : k = s.next
    · subst e
      rw [add_self] at hk
      cases hk
      exact hx
    · rw [add_of_ne s e] at hk
      exact (h.2.2 k y hk).mono he

theorem HInv.set {s : State} (h : HInv s) {k : ℕ} {x y : Obj} (hy : s.objs k = some y) (hc : Compat (s.set k x) y x)
    (hx : Sound (s.set k x) x) : HInv (s.set k x) := by
  have he := ext_set hy hc
  refine ⟨h.1, fun j hj => ?_, fun j z hj => ?_⟩
  · have hj' : s.next ≤ j := hj
    rw [set_of_ne s (fun e => by subst e; rw [h.2.1 j hj'] at hy; cases hy)]
    exact h.2.1 j hj'
  · by_cases e : j = k
    · subst e
      rw [set_self] at hj
      cases hj
      exact hx
    · rw [set_of_ne s e] at hj
      exact (h.2.2 j z hj).mono he

theorem HInv.forward {s : State} (h : HInv s) (added : List ℕ) : s.forward added = .ok () := by
  unfold State.forward
  rw [show s.freed = fun _ => false from funext h.1]
  simp

theorem HInv.learn {s : State} (h : HInv s) {l : ℕ} (hl : Trained s l) : s.learn l = .ok () := by
  obtain ⟨kind, train, dims, added, ho, ht⟩ := hl
  unfold State.learn
  rw [ho]
  dsimp only
  rw [h.forward, ok_bind]
  unfold training
  rcases ht with rfl | hv
  · rfl
  · cases kind with
    | sparseAutoEncoder => rfl
    | net =>
      cases train with
      | null => cases hv
      | _ => exact if_pos hv
    | rbm => cases train <;> exact if_pos hv

/-- One statement: either everything is sound afterwards, or there is an exception, or a check fails. -/
def Fine (o : Outcome State) : Prop := (∃ s, o = .ok s ∧ HInv s) ∨ o = .throws ∨ o = .checkFailed

theorem Fine.ok {s : State} (h : HInv s) : Fine (.ok s) := Or.inl ⟨s, rfl, h⟩

theorem store_fine {s : State} (h : HInv s) {k l o : ℕ} {size c c' : ℕ} {l' o' : Option ℕ} (hk : s.objs k = some (.stream size c' l' o' true)) (hl : IsLearner s l)
    (ho : IsOptimizer s o) : Fine (s.store k l o size c) := by
  have hset : ∀ c, HInv (s.set k (.stream size c (some l) (some o) true)) := fun c => by
    have hc : Compat (s.set k (.stream size c (some l) (some o) true)) (.stream size c' l' o' true) (.stream size c (some l) (some o) true) := fun _ => rfl
    refine h.set hk hc ⟨fun j hj => ?_, fun j hj => ?_⟩
    · cases hj; exact (ext_set hk hc).learner l hl
    · cases hj; exact (ext_set hk hc).optimizer o ho
  unfold store
  by_cases hs : size ≤ c + 1
  · rw [if_pos hs]
    obtain ⟨x, hx⟩ := ho
    unfold stepOptimizer
    rw [hx]
    cases x with
    | none => exact Or.inr (Or.inr rfl)
    | some j =>
      dsimp only
      rw [h.learn ((h.2.2 o _ hx) j rfl), ok_bind]
      exact Fine.ok (hset 0)
  · rw [if_neg hs]
    exact Fine.ok (hset (c + 1))

/-- A learner gets an existing training set and an optimiser gets the learner. -/
theorem assign_fine {s : State} (h : HInv s) {l o : ℕ} {kind : Kind} {train r : Ref} {dims added : List ℕ} {x : Option ℕ}
    (hl : s.objs l = some (.learner kind train dims added)) (ho : s.objs o = some (.optimizer x)) (hv : ∀ z, (s.set l z).valid r = true) :
    HInv ((s.set l (.learner kind (give kind train r) dims added)).set o (.optimizer (some l))) ∧
      Trained ((s.set l (.learner kind (give kind train r) dims added)).set o (.optimizer (some l))) l := by
  have hlo : l ≠ o := fun e => by subst e; rw [ho] at hl; cases hl
  have c2 : Compat (s.set l (.learner kind (give kind train r) dims added)) (.learner kind train dims added)
      (.learner kind (give kind train r) dims added) := by
    refine ⟨rfl, ?_⟩
    by_cases hs : kind = .sparseAutoEncoder
    · exact Or.inl (if_pos hs)
    · rw [show give kind train r = r from if_neg hs]
      exact Or.inr (hv _)
  have e2 := ext_set hl c2
  have h2 : HInv (s.set l (.learner kind (give kind train r) dims added)) := by
    refine h.set hl c2 ?_
    by_cases hs : kind = .sparseAutoEncoder
    · have hg : give kind train r = train := if_pos hs
      rw [hg] at e2 ⊢
      exact (h.2.2 l _ hl).imp_right (e2.valid _)
    · rw [show give kind train r = r from if_neg hs]
      exact Or.inr (hv _)
  have ht : Trained (s.set l (.learner kind (give kind train r) dims added)) l := by
    refine ⟨_, _, _, _, set_self .., ?_⟩
    by_cases hs : kind = .sparseAutoEncoder
    · exact Or.inl hs
    · rw [show give kind train r = r from if_neg hs]
      exact Or.inr (hv _)
  have ho2 : (s.set l (.learner kind (give kind train r) dims added)).objs o = some (.optimizer x) := (set_of_ne _ hlo.symm _).trans ho
  have c3 : Compat ((s.set l (.learner kind (give kind train r) dims added)).set o (.optimizer (some l))) (.optimizer x) (.optimizer (some l)) :=
    trivial
  have e3 := ext_set ho2 c3
  exact ⟨h2.set ho2 c3 fun j hj => by cases hj; exact e3.trained l ht, e3.trained l ht⟩

theorem initStream_fine {s : State} (h : HInv s) {k l o : ℕ} {size c : ℕ} (hk : s.objs k = some (.stream size c (some l) (some o) false)) :
    ∃ s', s.initStream k l o size c = .ok s' ∧ HInv s' ∧ s'.objs k = some (.stream size c (some l) (some o) true) ∧
      IsLearner s' l ∧ IsOptimizer s' o := by
  obtain ⟨hlk, hok⟩ := h.2.2 k _ hk
  obtain ⟨kind, train, dims, added, hl⟩ := hlk l rfl
  obtain ⟨x, ho⟩ := hok o rfl
  have hkl : k ≠ l := fun e => by subst e; rw [hl] at hk; cases hk
  have hko : k ≠ o := fun e => by subst e; rw [ho] at hk; cases hk
  have c1 : Compat (s.set k (.stream size c (some l) (some o) true)) (.stream size c (some l) (some o) false) (.stream size c (some l) (some o) true) :=
    fun _ => rfl
  have e1 := ext_set hk c1
  have h1 : HInv (s.set k (.stream size c (some l) (some o) true)) := h.set hk c1
    ⟨fun j hj => by cases hj; exact e1.learner l ⟨_, _, _, _, hl⟩, fun j hj => by cases hj; exact e1.optimizer o ⟨_, ho⟩⟩
  have hl1 : (s.set k (.stream size c (some l) (some o) true)).objs l = some (.learner kind train dims added) := by
    rw [set_of_ne _ hkl.symm, hl]
  have ho1 : (s.set k (.stream size c (some l) (some o) true)).objs o = some (.optimizer x) := by rw [set_of_ne _ hko.symm, ho]
  obtain ⟨h2, t2⟩ := assign_fine h1 hl1 ho1 (r := .cache k) fun z => by
    unfold valid
    dsimp only
    rw [set_of_ne _ hkl, set_self]
  refine ⟨_, ?_, h2, ?_, ?_, ⟨_, set_self ..⟩⟩
  · unfold initStream
    rw [hl, ho]
  · rw [set_of_ne _ hko, set_of_ne _ hkl, set_self]
  · obtain ⟨a, b, c, d, e, _⟩ := t2
    exact ⟨a, b, c, d, e⟩

theorem held_step {s : State} (h : HInv s) {op : Op} (hop : op.Held) : Fine (step s op) := by
  cases op with
  | dataSet input => exact Fine.ok (h.add hop)
  | net => exact Fine.ok (h.add (Or.inl rfl))
  | rbm => exact Fine.ok (h.add (Or.inl rfl))
  | sparseAutoEncoder => exact Fine.ok (h.add (Or.inl rfl))
  | optimizer => exact Fine.ok (h.add fun l hl => by cases hl)
  | stream size => exact Fine.ok (h.add ⟨fun l hl => (by cases hl), fun o ho => by cases ho⟩)
  | sigmaPi n => exact hop.elim
  | drop k => exact hop.elim
  | crossValidation l d o => exact hop.elim
  | reconstructProb l => exact hop.elim
  | hiddenLayer n d =>
    dsimp only [step]
    split
    · next train dims added hn =>
      have c : Compat (s.set n (.learner .net train (dims ++ [d]) added)) (.learner .net train dims added)
        (.learner .net train (dims ++ [d]) added) := ⟨rfl, Or.inl rfl⟩
      exact Fine.ok (h.set hn c ((h.2.2 n _ hn).imp_right ((ext_set hn c).valid _)))
    · exact Or.inr (Or.inl rfl)
  | getLayer n l =>
    dsimp only [step]
    split
    · split
      · next hn _ =>
        exact Fine.ok (h.add fun j hj => by cases hj; exact (ext_add (h.2.1 s.next (Nat.le_refl _)) _).learner n ⟨_, _, _, _, hn⟩)
      · exact Or.inr (Or.inr rfl)
    · exact Or.inr (Or.inl rfl)
  | addLayer n k => exact hop.elim
  | getOutput k =>
    dsimp only [step]
    split
    · next n hk =>
      obtain ⟨a, b, c, d, hn⟩ := h.2.2 k _ hk n rfl
      rw [hn]
      exact Fine.ok h
    · rw [if_neg (by rw [h.1 k]; simp)]
      exact Fine.ok h
    · exact Or.inr (Or.inl rfl)
  | setLearner k l =>
    dsimp only [step]
    split
    · next size c l' opt cache kind train dims added hk hl =>
      have hc : Compat (s.set k (.stream size c (some l) opt cache)) (.stream size c l' opt cache) (.stream size c (some l) opt cache) := id
      refine Fine.ok (h.set hk hc ⟨fun j hj => ?_, fun j hj => (ext_set hk hc).optimizer j ((h.2.2 k _ hk).2 j hj)⟩)
      cases hj
      exact (ext_set hk hc).learner l ⟨_, _, _, _, hl⟩
    · exact Or.inr (Or.inl rfl)
  | setOptimizer k o =>
    dsimp only [step]
    split
    · next size c l o' cache x hk ho =>
      have hc : Compat (s.set k (.stream size c l (some o) cache)) (.stream size c l o' cache) (.stream size c l (some o) cache) := id
      refine Fine.ok (h.set hk hc ⟨fun j hj => (ext_set hk hc).learner j ((h.2.2 k _ hk).1 j hj), fun j hj => ?_⟩)
      cases hj
      exact (ext_set hk hc).optimizer o ⟨_, ho⟩
    · exact Or.inr (Or.inl rfl)
  | addSample k =>
    dsimp only [step]
    split
    · next size c l o cache hk =>
      cases cache with
      | true =>
        obtain ⟨h1, h2⟩ := h.2.2 k _ hk
        exact store_fine h hk (h1 l rfl) (h2 o rfl)
      | false =>
        obtain ⟨s', hs', hi, hk', hl', ho'⟩ := initStream_fine h hk
        rw [if_neg (by simp), hs', ok_bind]
        exact store_fine hi hk' hl' ho'
    · exact Or.inr (Or.inr rfl)
    · exact Or.inr (Or.inl rfl)
  | optimize o l d =>
    dsimp only [step]
    split
    · next ho hl hd =>
      have hs : _ = true := h.2.2 d _ hd
      subst hs
      have hdl : d ≠ l := fun e => by subst e; rw [hl] at hd; cases hd
      obtain ⟨h2, t2⟩ := assign_fine h hl ho (r := .dataSet d) fun z => by
        unfold valid
        dsimp only
        rw [set_of_ne _ hdl, hd]
      rw [if_pos rfl, h2.learn t2, ok_bind]
      exact Fine.ok h2
    · exact Or.inr (Or.inl rfl)
  | predict l =>
    dsimp only [step]
    split
    · rw [h.forward, ok_bind]; exact Fine.ok h
    · exact Or.inr (Or.inl rfl)
  | evaluate l d =>
    dsimp only [step]
    split
    · next hl hd =>
      have hs : _ = true := h.2.2 d _ hd
      rw [if_pos hs, h.forward, ok_bind]
      exact Fine.ok h
    · exact Or.inr (Or.inl rfl)
  | load n file =>
    dsimp only [step]
    split
    · split
      · exact Fine.ok h
      · exact Or.inr (Or.inr rfl)
    · exact Or.inr (Or.inl rfl)

theorem held_run {s : State} (h : HInv s) (ops : List Op) (hops : ∀ op ∈ ops, op.Held) : run s ops ≠ .ub := by
  induction ops generalizing s with
  | nil => intro e; cases e
  | cons op ops ih =>
    have hr : ∀ o ∈ ops, o.Held := fun o ho => hops o (List.mem_cons_of_mem _ ho)
    rcases held_step h (hops op List.mem_cons_self) with ⟨s', hs', hi⟩ | ht | hc
    · rw [run_ok hs']; exact ih hi hr
    · rw [run_throws ht]; exact ih h hr
    · unfold run
      rw [hc]
      intro e
      cases e

theorem hinv_start : HInv start := ⟨fun _ => rfl, fun _ _ => rfl, fun k x hk => by cases hk⟩

/-! ## The end of a program -/

def objLayers : Obj → List ℕ
  | .learner _ _ _ added => added
  | _ => []

/-- The layers that a network deletes. -/
def layersOf (s : State) (n : ℕ) : List ℕ := ((s.objs n).map objLayers).getD []

/-- Every layer belongs to one network. -/
def Owned (s : State) : Prop :=
  (∀ n, (layersOf s n).Nodup) ∧ ∀ n m c, c ∈ layersOf s n → c ∈ layersOf s m → n = m

/-- No network gets a layer. -/
def Shrink (s s' : State) : Prop := s'.freed = s.freed ∧ ∀ n, layersOf s' n = layersOf s n ∨ layersOf s' n = []

theorem Shrink.refl (s : State) : Shrink s s := ⟨rfl, fun _ => Or.inl rfl⟩

theorem Shrink.trans {a b c : State} (h : Shrink a b) (h' : Shrink b c) : Shrink a c := by
  refine ⟨h'.1.trans h.1, fun n => ?_⟩
  rcases h'.2 n with e | e
  · rw [e]; exact h.2 n
  · exact Or.inr e

theorem shrink_set (s : State) {k : ℕ} {x : Obj} (hx : objLayers x = layersOf s k ∨ objLayers x = []) : Shrink s (s.set k x) := by
  refine ⟨rfl, fun n => ?_⟩
  by_cases e : n = k
  · subst e
    have : layersOf (s.set n x) n = objLayers x := by unfold layersOf; rw [set_self]; rfl
    rw [this]
    exact hx
  · unfold layersOf
    rw [set_of_ne s e]
    exact Or.inl rfl

theorem shrink_add (s : State) {x : Obj} (hx : objLayers x = []) : Shrink s (s.add x) := by
  refine ⟨rfl, fun n => ?_⟩
  by_cases e : n = s.next
  · subst e
    have : layersOf (s.add x) s.next = objLayers x := by unfold layersOf; rw [add_self]; rfl
    rw [this]
    exact Or.inr hx
  · unfold layersOf
    rw [add_of_ne s e]
    exact Or.inl rfl

theorem layersOf_learner {s : State} {n : ℕ} {kind : Kind} {train : Ref} {dims added : List ℕ} (h : s.objs n = some (.learner kind train dims added)) :
    layersOf s n = added := by unfold layersOf; rw [h]; rfl

/-- All statements but `addLayer` and `drop`. -/
theorem step_shrink {s s' : State} {op : Op} (h : step s op = .ok s') (hk : op.Keeps) (ha : adds [op] = []) : Shrink s s' := by
  cases op with
  | dataSet input => injection h with h; subst h; exact shrink_add s rfl
  | net => injection h with h; subst h; exact shrink_add s rfl
  | rbm => injection h with h; subst h; exact shrink_add s rfl
  | sparseAutoEncoder => injection h with h; subst h; exact shrink_add s rfl
  | optimizer => injection h with h; subst h; exact shrink_add s rfl
  | stream size => injection h with h; subst h; exact shrink_add s rfl
  | drop k => exact hk.elim
  | addLayer n k => cases ha
  | hiddenLayer n d =>
    dsimp only [step] at h
    split at h
    · next hn => injection h with h; subst h; exact shrink_set s (Or.inl (layersOf_learner hn).symm)
    · cases h
  | sigmaPi n =>
    dsimp only [step] at h
    split at h
    · split at h
      · injection h with h; subst h; exact shrink_add s rfl
      · cases h
    · cases h
  | getLayer n l =>
    dsimp only [step] at h
    split at h
    · split at h
      · injection h with h; subst h; exact shrink_add s rfl
      · cases h
    · cases h
  | getOutput k =>
    dsimp only [step] at h
    split at h
    · split at h
      · injection h with h; subst h; exact Shrink.refl _
      · cases h
    · split at h
      · cases h
      · injection h with h; subst h; exact Shrink.refl _
    · cases h
  | setLearner k l =>
    dsimp only [step] at h
    split at h
    · injection h with h; subst h; exact shrink_set s (Or.inr rfl)
    · cases h
  | setOptimizer k o =>
    dsimp only [step] at h
    split at h
    · injection h with h; subst h; exact shrink_set s (Or.inr rfl)
    · cases h
  | addSample k =>
    dsimp only [step] at h
    split at h
    · next size c l o cache hk =>
      obtain ⟨s1, h1, h2⟩ := bind_eq_ok.1 h
      have e1 : Shrink s s1 := by
        cases cache with
        | true => injection h1 with h1; subst h1; exact Shrink.refl _
        | false =>
          rw [if_neg (by simp)] at h1
          unfold initStream at h1
          split at h1
          · next hl ho =>
            injection h1 with h1
            subst h1
            have hkl : l ≠ k := fun e => by subst e; rw [hl] at hk; cases hk
            refine ((shrink_set s (Or.inr rfl)).trans (shrink_set _ (Or.inl ?_))).trans (shrink_set _ (Or.inr rfl))
            exact (layersOf_learner ((set_of_ne s hkl _).trans hl)).symm
          · cases h1
      refine e1.trans ?_
      unfold store at h2
      split at h2
      · obtain ⟨u, _, h3⟩ := bind_eq_ok.1 h2
        injection h3 with h3
        subst h3
        exact shrink_set _ (Or.inr rfl)
      · injection h2 with h2
        subst h2
        exact shrink_set _ (Or.inr rfl)
    · cases h
    · cases h
  | optimize o l d =>
    dsimp only [step] at h
    split at h
    · next ho hl hd =>
      split at h
      · obtain ⟨u, _, h3⟩ := bind_eq_ok.1 h
        injection h3 with h3
        subst h3
        have e := layersOf_learner hl
        refine Shrink.trans (shrink_set s (Or.inl ?_)) (shrink_set _ (Or.inr rfl))
        exact e.symm
      · cases h
    · cases h
  | predict l =>
    dsimp only [step] at h
    split at h
    · obtain ⟨u, _, h3⟩ := bind_eq_ok.1 h
      injection h3 with h3
      subst h3
      exact Shrink.refl _
    · cases h
  | evaluate l d =>
    dsimp only [step] at h
    split at h
    · split at h
      · obtain ⟨u, _, h3⟩ := bind_eq_ok.1 h
        injection h3 with h3
        subst h3
        exact Shrink.refl _
      · cases h
    · cases h
  | crossValidation l d o =>
    dsimp only [step] at h
    split at h
    · next hl hd ho =>
      split at h
      · obtain ⟨u, _, h3⟩ := bind_eq_ok.1 h
        injection h3 with h3
        subst h3
        have e := layersOf_learner hl
        refine Shrink.trans (shrink_set s (Or.inl ?_)) (shrink_set _ (Or.inr rfl))
        exact e.symm
      · cases h
    · cases h
  | reconstructProb l =>
    dsimp only [step] at h
    split at h
    · split at h
      · injection h with h; subst h; exact Shrink.refl _
      · cases h
    · cases h
  | load n file =>
    dsimp only [step] at h
    split at h
    · split at h
      · injection h with h; subst h; exact Shrink.refl _
      · cases h
    · cases h

/-- The state before a program that will add the layers `R`. -/
def DInv (R : List ℕ) (s : State) : Prop := (∀ c, s.freed c = false) ∧ Owned s ∧ ∀ n, ∀ c ∈ layersOf s n, c ∉ R

theorem DInv.shrink {R : List ℕ} {s s' : State} (h : DInv R s) (hs : Shrink s s') : DInv R s' := by
  have hm : ∀ n c, c ∈ layersOf s' n → c ∈ layersOf s n := fun n c hc => by
    rcases hs.2 n with e | e
    · rw [e] at hc; exact hc
    · rw [e] at hc; cases hc
  refine ⟨fun c => by rw [hs.1]; exact h.1 c, ⟨fun n => ?_, fun n m c hn hm' => h.2.1.2 n m c (hm n c hn) (hm m c hm')⟩,
    fun n c hc => h.2.2 n c (hm n c hc)⟩
  rcases hs.2 n with e | e
  · rw [e]; exact h.2.1.1 n
  · rw [e]; exact List.nodup_nil

theorem step_addLayer {s s' : State} {n k : ℕ} (h : step s (.addLayer n k) = .ok s') :
    s'.freed = s.freed ∧ layersOf s' n = layersOf s n ++ [k] ∧ ∀ m, m ≠ n → layersOf s' m = layersOf s m := by
  dsimp only [step] at h
  split at h
  · next hn hk =>
    split at h
    · cases h
    · injection h with h
      subst h
      refine ⟨rfl, ?_, fun m hm => ?_⟩
      · rw [layersOf_learner hn, layersOf_learner (set_self ..)]
      · unfold layersOf
        rw [set_of_ne s hm]
  · cases h
  · cases h

theorem DInv.addLayer {R : List ℕ} {s s' : State} {n k : ℕ} (h : DInv (k :: R) s) (hR : k ∉ R) (hs : step s (.addLayer n k) = .ok s') : DInv R s' := by
  obtain ⟨h1, h2, h3⟩ := step_addLayer hs
  have hk : ∀ m, k ∉ layersOf s m := fun m hm => h.2.2 m k hm List.mem_cons_self
  have hmem : ∀ m c, c ∈ layersOf s' m → c ∈ layersOf s m ∨ (m = n ∧ c = k) := fun m c hc => by
    by_cases e : m = n
    · subst e
      rw [h2] at hc
      rcases List.mem_append.1 hc with hc | hc
      · exact Or.inl hc
      · exact Or.inr ⟨rfl, List.mem_singleton.1 hc⟩
    · rw [h3 m e] at hc
      exact Or.inl hc
  refine ⟨fun c => by rw [h1]; exact h.1 c, ⟨fun m => ?_, fun m m' c hm hm' => ?_⟩, fun m c hc => ?_⟩
  · by_cases e : m = n
    · subst e
      rw [h2]
      exact List.nodup_append.2 ⟨h.2.1.1 m, List.nodup_cons.2 ⟨by simp, List.nodup_nil⟩, fun a ha b hb e => by
        rw [List.mem_singleton.1 hb] at e; subst e; exact hk m ha⟩
    · rw [h3 m e]; exact h.2.1.1 m
  · rcases hmem m c hm with a | ⟨rfl, rfl⟩
    · rcases hmem m' c hm' with b | ⟨rfl, rfl⟩
      · exact h.2.1.2 m m' c a b
      · exact absurd a (hk m)
    · rcases hmem m' c hm' with b | ⟨rfl, _⟩
      · exact absurd b (hk m')
      · rfl
  · rcases hmem m c hc with a | ⟨rfl, rfl⟩
    · exact fun hr => h.2.2 m c a (List.mem_cons_of_mem _ hr)
    · exact hR

theorem dinv_run (ops : List Op) {s s' : State} (h : DInv (adds ops) s) (hn : (adds ops).Nodup) (hk : ∀ op ∈ ops, op.Keeps)
    (hr : run s ops = .ok s') : DInv [] s' := by
  induction ops generalizing s with
  | nil => injection hr with hr; subst hr; exact h
  | cons op ops ih =>
    have hk' : ∀ o ∈ ops, o.Keeps := fun o ho => hk o (List.mem_cons_of_mem _ ho)
    have hsub : ∀ c, c ∈ adds ops → c ∈ adds (op :: ops) := fun c hc => by
      cases op <;> first | exact hc | exact List.mem_cons_of_mem _ hc
    have hn' : (adds ops).Nodup := by
      cases op <;> first | exact hn | exact (List.nodup_cons.1 hn).2
    have hweak : DInv (adds ops) s := ⟨h.1, h.2.1, fun n c hc hr => h.2.2 n c hc (hsub c hr)⟩
    cases hs : step s op with
    | ok t =>
      rw [run_ok hs] at hr
      refine ih ?_ hn' hk' hr
      by_cases ha : adds [op] = []
      · exact hweak.shrink (step_shrink hs (hk op List.mem_cons_self) ha)
      · cases op with
        | addLayer n k => exact DInv.addLayer h (List.nodup_cons.1 hn).1 hs
        | _ => exact absurd rfl ha
    | throws => rw [run_throws hs] at hr; exact ih hweak hn' hk' hr
    | checkFailed => unfold run at hr; rw [hs] at hr; cases hr
    | ub => unfold run at hr; rw [hs] at hr; cases hr

theorem freeLayers_ok : ∀ (l : List ℕ) (f : ℕ → Bool), l.Nodup → (∀ c ∈ l, f c = false) →
    ∃ f', freeLayers f l = .ok f' ∧ ∀ c, c ∉ l → f' c = f c
  | [], f, _, _ => ⟨f, rfl, fun _ _ => rfl⟩
  | c :: l, f, hn, hf => by
    obtain ⟨hc, hn'⟩ := List.nodup_cons.1 hn
    obtain ⟨f', h1, h2⟩ := freeLayers_ok l (Function.update f c true) hn' fun d hd => by
      have e : d ≠ c := fun e => hc (e ▸ hd)
      rw [Function.update_of_ne e]
      exact hf d (List.mem_cons_of_mem _ hd)
    refine ⟨f', ?_, fun d hd => ?_⟩
    · unfold freeLayers
      rw [if_neg (by rw [hf c List.mem_cons_self]; simp)]
      exact h1
    · have e : d ≠ c := fun e => hd (e ▸ List.mem_cons_self)
      rw [h2 d fun h => hd (List.mem_cons_of_mem _ h), Function.update_of_ne e]

/-- No layer of a living network has been deleted. -/
def EInv (s : State) : Prop := Owned s ∧ ∀ n, ∀ c ∈ layersOf s n, s.freed c = false

theorem layersOf_drop (s : State) (k : ℕ) (f : ℕ → Bool) (n : ℕ) :
    layersOf { s with objs := Function.update s.objs k none, freed := f } n = if n = k then [] else layersOf s n := by
  unfold layersOf
  dsimp only
  by_cases e : n = k
  · subst e; rw [Function.update_self, if_pos rfl]; rfl
  · rw [Function.update_of_ne e, if_neg e]

theorem EInv.drop {s : State} (h : EInv s) (k : ℕ) {f : ℕ → Bool} (hf : ∀ c, c ∉ layersOf s k → f c = s.freed c) :
    EInv { s with objs := Function.update s.objs k none, freed := f } := by
  refine ⟨⟨fun n => ?_, fun n m c hn hm => ?_⟩, fun n c hc => ?_⟩
  · rw [layersOf_drop]
    by_cases e : n = k
    · rw [if_pos e]; exact List.nodup_nil
    · rw [if_neg e]; exact h.1.1 n
  · rw [layersOf_drop] at hn hm
    by_cases e : n = k
    · rw [if_pos e] at hn; cases hn
    · by_cases e' : m = k
      · rw [if_pos e'] at hm; cases hm
      · rw [if_neg e] at hn
        rw [if_neg e'] at hm
        exact h.1.2 n m c hn hm
  · rw [layersOf_drop] at hc
    by_cases e : n = k
    · rw [if_pos e] at hc; cases hc
    · rw [if_neg e] at hc
      show f c = false
      rw [hf c fun hk => e (h.1.2 n k c hc hk)]
      exact h.2 n c hc

theorem drop_step {s : State} (h : EInv s) (k : ℕ) : (∃ s', step s (.drop k) = .ok s' ∧ EInv s') ∨ step s (.drop k) = .throws := by
  dsimp only [step]
  split
  · next added hk =>
    have hl := layersOf_learner hk
    obtain ⟨f, h1, h2⟩ := freeLayers_ok added s.freed (hl ▸ h.1.1 k) fun c hc => h.2 k c (hl.symm ▸ hc)
    rw [h1, ok_bind]
    exact Or.inl ⟨_, rfl, h.drop k (by rw [hl]; exact h2)⟩
  · exact Or.inl ⟨_, rfl, h.drop k fun _ _ => rfl⟩
  · exact Or.inr rfl

theorem drops_run {s : State} (h : EInv s) (ks : List ℕ) : ∃ s', run s (ks.map .drop) = .ok s' := by
  induction ks generalizing s with
  | nil => exact ⟨s, rfl⟩
  | cons k ks ih =>
    rcases drop_step h k with ⟨s', hs', hi⟩ | ht
    · rw [List.map_cons, run_ok hs']; exact ih hi
    · rw [List.map_cons, run_throws ht]; exact ih h

/-- **C108 for the end of a program**: if no object was given up before and no layer was added twice, then the objects can be given up in any
order. -/
theorem end_safe (ops : List Op) (hk : ∀ op ∈ ops, op.Keeps) (hn : (adds ops).Nodup) {s : State} (hr : run start ops = .ok s) (ks : List ℕ) :
    ∃ s', run start (ops ++ ks.map .drop) = .ok s' := by
  have h0 : DInv (adds ops) start := ⟨fun _ => rfl, ⟨fun _ => List.nodup_nil, fun n m c hc => by cases hc⟩, fun n c hc => by cases hc⟩
  have hd : DInv [] s := dinv_run ops h0 hn hk hr
  rw [run_append start ops _ hr]
  exact drops_run ⟨hd.2.1, fun _ c _ => hd.1 c⟩ ks

/-- **C108 for programs that keep their objects**: streams can be used with all learners and optimisers and can be combined with `optimize`,
as long as nothing is given up; at the end everything can be given up in any order. -/
theorem held_safe (ops : List Op) (h : ∀ op ∈ ops, op.Held) (ks : List ℕ) : run start (ops ++ ks.map .drop) ≠ .ub := by
  have hnub := held_run hinv_start ops h
  cases hr : run start ops with
  | ok s =>
    have hk : ∀ op ∈ ops, op.Keeps := fun op ho => by
      have := h op ho
      cases op <;> trivial
    have ha : adds ops = [] := by
      clear hk hr hnub
      induction ops with
      | nil => rfl
      | cons op ops ih =>
        have h1 := h op List.mem_cons_self
        have h2 := ih fun o ho => h o (List.mem_cons_of_mem _ ho)
        cases op <;> first | exact h2 | exact h1.elim
    obtain ⟨s', hs'⟩ := end_safe ops hk (by rw [ha]; exact List.nodup_nil) hr ks
    rw [hs']
    intro e
    cases e
  | throws => exact absurd hr (run_ne_throws start ops)
  | checkFailed => rw [run_append_checkFailed start ops _ hr]; intro e; cases e
  | ub => exact absurd hr hnub

/-- A stream, its learner and its optimiser: two updates, an optimisation with a data set of its own in between. -/
example : run start ([.net, .optimizer, .stream 1, .setLearner 2 0, .setOptimizer 2 1, .addSample 2, .dataSet true, .optimize 1 0 3,
    .addSample 2] ++ [1, 0, 3, 2].map .drop) ≠ .ub :=
  held_safe _ (by simp [Op.Held]) _

/-- Two networks with one sigma-pi layer each. -/
example : ∃ s', run start ([.net, .sigmaPi 0, .addLayer 0 1, .net, .sigmaPi 2, .addLayer 2 3, .predict 0] ++ [3, 0, 1, 2].map .drop) = .ok s' :=
  end_safe _ (by simp [Op.Keeps]) (by decide) rfl _

/-! ## What goes wrong

Every list is a complete program; all but the last statement are harmless. -/

/-- A stream does not keep its learner alive: the training set is given to a network that was deleted. -/
theorem stream_learner_ub : run start [.net, .optimizer, .stream 5, .setLearner 2 0, .setOptimizer 2 1, .drop 0, .addSample 2] = .ub := rfl

theorem stream_optimizer_ub : run start [.net, .optimizer, .stream 5, .setLearner 2 0, .setOptimizer 2 1, .drop 1, .addSample 2] = .ub := rfl

/-- A learner does not keep the cache of its stream alive: another stream is given the optimiser of the first one, which still optimises
the network of the first one. -/
theorem stream_cache_ub : run start [.net, .net, .optimizer, .stream 5, .setLearner 3 0, .setOptimizer 3 2, .addSample 3,
    .optimizer, .stream 2, .setLearner 5 1, .setOptimizer 5 4, .addSample 5, .setOptimizer 5 2, .drop 3, .addSample 5] = .ub := rfl

/-- Without giving up anything: after cross-validation the network refers to a part of the data set that does not exist any more. -/
theorem stream_crossValidation_ub : run start [.net, .optimizer, .stream 2, .setLearner 2 0, .setOptimizer 2 1, .addSample 2, .dataSet true,
    .crossValidation 0 3 1, .addSample 2] = .ub := rfl

/-- A stream whose network was optimised with a data set goes on with that data set, even when it is gone. -/
theorem stream_optimize_ub : run start [.net, .optimizer, .stream 2, .setLearner 2 0, .setOptimizer 2 1, .addSample 2, .dataSet true,
    .optimize 1 0 3, .drop 3, .addSample 2] = .ub := rfl

/-- `reconstruct_prob` refers to the training set: there is none, or it is gone. -/
theorem reconstructProb_ub : run start [.rbm, .reconstructProb 0] = .ub ∧
    run start [.rbm, .optimizer, .dataSet true, .optimize 1 0 2, .drop 2, .reconstructProb 0] = .ub := ⟨rfl, rfl⟩

/-- `DataSet()` has no storage. -/
theorem emptyDataSet_ub : run start [.net, .optimizer, .dataSet false, .optimize 1 0 2] = .ub ∧
    run start [.net, .dataSet false, .evaluate 0 1] = .ub := ⟨rfl, rfl⟩

/-- A layer does not keep its network alive, no matter whether the network created the layer or the program did. -/
theorem layer_ub : run start [.net, .getLayer 0 0, .drop 0, .getOutput 1] = .ub ∧
    run start [.net, .sigmaPi 0, .addLayer 0 1, .drop 0, .getOutput 1] = .ub ∧
    run start [.net, .sigmaPi 0, .addLayer 0 1, .drop 0, .net, .addLayer 2 1] = .ub := ⟨rfl, rfl, rfl⟩

/-- A layer that was added twice is deleted twice. -/
theorem addTwice_ub : run start [.net, .sigmaPi 0, .addLayer 0 1, .addLayer 0 1, .drop 0] = .ub ∧
    run start [.net, .net, .sigmaPi 0, .addLayer 0 2, .addLayer 1 2, .drop 0, .predict 1] = .ub ∧
    run start [.net, .net, .sigmaPi 0, .addLayer 0 2, .addLayer 1 2, .drop 0, .drop 1] = .ub := ⟨rfl, rfl, rfl⟩

/-- A sigma-pi layer cannot be put on a fully connected layer or on another sigma-pi layer. -/
theorem sigmaPi_ub : run start [.net, .hiddenLayer 0 1, .sigmaPi 0] = .ub ∧ run start [.net, .sigmaPi 0, .addLayer 0 1, .sigmaPi 0] = .ub :=
  ⟨rfl, rfl⟩

/-- Mistakes that Python programs expect to be exceptions end the interpreter. -/
theorem exceptions_fails : run start [.net, .load 0 false] = .checkFailed ∧ run start [.stream 3, .addSample 0] = .checkFailed ∧
    run start [.net, .getLayer 0 0, .addLayer 0 1] = .checkFailed ∧ run start [.net, .getLayer 0 7] = .checkFailed := ⟨rfl, rfl, rfl, rfl⟩

/-- More generally: a stream whose learner or optimiser is given up before the first sample is undefined, whatever else the program did. -/
theorem stream_dropped_ub {s : State} {k size c l o : ℕ} (hk : s.objs k = some (.stream size c (some l) (some o) false))
    (h : s.objs l = none ∨ s.objs o = none) : step s (.addSample k) = .ub := by
  dsimp only [step]
  rw [hk]
  dsimp only
  rw [if_neg (by simp)]
  unfold initStream
  rcases h with h | h
  · rw [h]; rfl
  · rw [h]
    cases s.objs l with
    | none => rfl
    | some x => cases x <;> rfl

example : step { start with objs := Function.update start.objs 2 (some (.stream 5 0 (some 0) (some 1) false)) } (.addSample 2) = .ub :=
  stream_dropped_ub (l := 0) (o := 1) (size := 5) (c := 0) rfl (Or.inl rfl)

/-- The classes of the interface. -/
inductive Class where
  | dataSet | net | rbm | sparseAutoEncoder | optimizer | stream | layer
  deriving DecidableEq

def Obj.class : Obj → Class
  | .dataSet _ => .dataSet
  | .learner .net _ _ _ => .net
  | .learner .rbm _ _ _ => .rbm
  | .learner .sparseAutoEncoder _ _ _ => .sparseAutoEncoder
  | .optimizer _ => .optimizer
  | .stream _ _ _ _ _ => .stream
  | .layer _ => .layer

def learners : List Class := [.net, .rbm, .sparseAutoEncoder]

/-- Spec: the objects that a statement names and the classes that they may have. -/
def Op.operands : Op → List (ℕ × List Class)
  | .dataSet _ | .net | .rbm | .sparseAutoEncoder | .optimizer | .stream _ => []
  | .hiddenLayer n _ | .sigmaPi n | .getLayer n _ | .load n _ => [(n, [.net])]
  | .addLayer n k => [(n, [.net]), (k, [.layer])]
  | .getOutput k => [(k, [.layer])]
  | .drop k => [(k, [.dataSet, .net, .rbm, .sparseAutoEncoder, .optimizer, .stream, .layer])]
  | .setLearner s l => [(s, [.stream]), (l, learners)]
  | .setOptimizer s o => [(s, [.stream]), (o, [.optimizer])]
  | .addSample s => [(s, [.stream])]
  | .optimize o l d => [(o, [.optimizer]), (l, learners), (d, [.dataSet])]
  | .predict l => [(l, learners)]
  | .evaluate l d => [(l, [.net]), (d, [.dataSet])]
  | .crossValidation l d o => [(l, [.net]), (d, [.dataSet]), (o, [.optimizer])]
  | .reconstructProb l => [(l, [.rbm])]

/-- Spec: object `k` exists and has one of the classes. -/
def State.Has (s : State) (k : ℕ) (cs : List Class) : Prop := ∃ x, s.objs k = some x ∧ x.class ∈ cs

theorem Obj.learner_class (kind : Kind) (train : Ref) (dims added : List ℕ) : (Obj.learner kind train dims added).class ∈ learners := by
  cases kind <;> simp [Obj.class, learners]

theorem Obj.class_all (x : Obj) : x.class ∈ [Class.dataSet, .net, .rbm, .sparseAutoEncoder, .optimizer, .stream, .layer] := by
  generalize x.class = c
  cases c <;> simp

/-- A statement that names an object that does not exist any more, or one of a wrong class, is an exception and nothing else, in every state. -/
theorem wrong_operand_throws (s : State) (op : Op) (h : ∃ p ∈ op.operands, ¬ s.Has p.1 p.2) : step s op = .throws := by
  have bad : ∀ {k : ℕ} {cs : List Class}, ¬ s.Has k cs → ∀ {x}, s.objs k = some x → x.class ∉ cs := fun h _ hx hm => h ⟨_, hx, hm⟩
  obtain ⟨p, hp, hb⟩ := h
  cases op <;> simp only [Op.operands, List.mem_cons, List.not_mem_nil, or_false] at hp
  all_goals
    dsimp only [step]
    rcases hp with rfl | rfl | rfl
  all_goals
    have hb' := fun x => @bad _ _ hb x
    clear bad
    dsimp only at hb'
    (repeat' split)
    all_goals first
      | rfl
      | (exfalso
         have h := hb' _ (by assumption)
         first
           | exact h (Obj.learner_class _ _ _ _)
           | exact h (Obj.class_all _)
           | exact h (by simp [Obj.class]))

/-- The network was dropped; its layer can still be named, but not be added to it. -/
example : step { start with objs := Function.update start.objs 1 (some (.layer none)) } (.addLayer 0 1) = .throws :=
  wrong_operand_throws _ _ ⟨(0, [.net]), by simp [Op.operands], by rintro ⟨x, hx, -⟩; simp [start] at hx⟩

end Verif.PyObj
