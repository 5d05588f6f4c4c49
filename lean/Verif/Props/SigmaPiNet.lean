import Verif.Model.SigmaPiNet
import Verif.Props.SigmaPiGradient

/-!
# C110: the parameters of a network with a sigma-pi layer are the weights of the layer
-/

namespace Verif.SigmaPiNet

open Outcome SigmaPi NN

noncomputable section

variable {τ : Type}

/-! ## Lemmas -/

/-- Every weight belongs to a unit. -/
def Covered (l : Layer) : Prop := ∀ i < l.w.length, ∃ u ∈ l.nodes.flatten, u.weight = i

theorem cover_unit {c : Constraint τ} {t : List ℕ} {b b' : Building τ} {k : ℕ} (h : addUnit c t b = .ok b')
    (hb : ∀ i, k ≤ i → i < b.w.length → ∃ u ∈ b.neuron, u.weight = i) : ∀ i, k ≤ i → i < b'.w.length → ∃ u ∈ b'.neuron, u.weight = i := by
  have own : ∀ r s, b' = ownWeight b t r s → ∀ i, k ≤ i → i < b'.w.length → ∃ u ∈ b'.neuron, u.weight = i := by
    rintro r s rfl i hk hi
    have hi' : i < b.w.length + 1 := by simpa [ownWeight] using hi
    by_cases e : i < b.w.length
    · obtain ⟨u, hu, rfl⟩ := hb i hk e
      exact ⟨u, List.mem_append_left _ hu, rfl⟩
    · exact ⟨⟨t, b.w.length⟩, List.mem_append_right _ (List.mem_singleton.2 rfl), by dsimp only; omega⟩
  unfold addUnit at h
  split at h
  · injection h with h
    exact own _ _ h.symm
  · obtain ⟨r, _, h⟩ := bind_eq_ok.1 h
    obtain ⟨found, _, h⟩ := bind_eq_ok.1 h
    cases found with
    | none => injection h with h; exact own _ _ h.symm
    | some weight =>
      injection h with h
      subst h
      intro i hk hi
      obtain ⟨u, hu, e⟩ := hb i hk hi
      exact ⟨u, List.mem_append_left _ hu, e⟩

theorem cover_all {c : Constraint τ} (ts : List (List ℕ)) {b b' : Building τ} {k : ℕ} (h : runAll c ts b = .ok b')
    (hb : ∀ i, k ≤ i → i < b.w.length → ∃ u ∈ b.neuron, u.weight = i) : ∀ i, k ≤ i → i < b'.w.length → ∃ u ∈ b'.neuron, u.weight = i := by
  induction ts generalizing b with
  | nil => cases h; exact hb
  | cons t ts ih =>
    rw [runAll] at h
    obtain ⟨b1, h1, h2⟩ := bind_eq_ok.1 h
    exact ih h2 (cover_unit h1 hb)

theorem cover_nodes {o : Order} {numbers : ℕ} {c : Constraint τ} {l l' : Layer} {s s' : τ} (h : SigmaPi.addNodes o numbers c (l, s) = .ok (l', s'))
    (hl : Covered l) : Covered l' := by
  induction numbers generalizing l' s' with
  | zero => cases h; exact hl
  | succ n ih =>
    rw [SigmaPi.addNodes, forLoop] at h
    obtain ⟨⟨l1, s1⟩, h1, h2⟩ := bind_eq_ok.1 h
    have c1 := ih h1
    rw [addNode, units_eq] at h2
    obtain ⟨b, hb, h3⟩ := bind_eq_ok.1 h2
    cases h3
    have hc := cover_all (k := l1.w.length) _ hb fun i h1 h2 => absurd h2 (Nat.not_lt.2 h1)
    intro i hi
    by_cases e : i < l1.w.length
    · obtain ⟨u, hu, e⟩ := c1 i e
      exact ⟨u, by simp only [List.flatten_append, List.mem_append]; exact Or.inl hu, e⟩
    · obtain ⟨u, hu, e⟩ := hc i (Nat.not_lt.1 e) hi
      exact ⟨u, by simp only [List.flatten_append, List.mem_append]; exact Or.inr (by simpa using hu), e⟩

theorem drawWeights_ok (stdDev : ℝ) (draws : ℕ → ℝ) (us : List HOUnit) (k : ℕ) (w : List ℝ) (h : ∀ u ∈ us, u.weight < w.length) :
    ∃ w', drawWeights stdDev draws us k w = .ok w' ∧ w'.length = w.length ∧
      ∀ i < w.length, (∃ j, w'.getD i 0 = draws j * stdDev) ∨ ((∀ u ∈ us, u.weight ≠ i) ∧ w'.getD i 0 = w.getD i 0) := by
  induction us generalizing k w with
  | nil => exact ⟨w, rfl, rfl, fun i _ => Or.inr ⟨by simp, rfl⟩⟩
  | cons u us ih =>
    have hu := h u List.mem_cons_self
    obtain ⟨w', h1, h2, h3⟩ := ih (k + 1) (w.set u.weight (draws k * stdDev)) fun v hv => by
      rw [List.length_set]; exact h v (List.mem_cons_of_mem _ hv)
    refine ⟨w', ?_, by rw [h2, List.length_set], fun i hi => ?_⟩
    · unfold drawWeights
      rw [Outcome.write, if_pos hu, ok_bind, h1]
    · rcases h3 i (by rw [List.length_set]; exact hi) with hj | ⟨h4, h5⟩
      · exact Or.inl hj
      · by_cases e : u.weight = i
        · left
          refine ⟨k, h5.trans ?_⟩
          subst e
          simp [List.getD_eq_getElem?_getD, hu]
        · right
          refine ⟨fun v hv => ?_, h5.trans ?_⟩
          · rcases List.mem_cons.1 hv with rfl | hv
            · exact e
            · exact h4 v hv
          · simp [List.getD_eq_getElem?_getD, e]

theorem derefAll_ok (place : Place) (v : List ℝ) (ps : List (ℕ × ℕ)) (h : ∀ p ∈ ps, p.1 = place.gen ∧ p.2 < v.length) :
    derefAll place v ps = .ok (ps.map fun p => v.getD p.2 0) := by
  induction ps with
  | nil => rfl
  | cons p ps ih =>
    obtain ⟨h1, h2⟩ := h p List.mem_cons_self
    unfold derefAll
    rw [deref, if_pos h1, read_of_lt h2, ok_bind, ih fun q hq => h q (List.mem_cons_of_mem _ hq), ok_bind, List.map_cons]
    congr 2
    simp [List.getD_eq_getElem?_getD, h2]

/-- The pointers to all elements of a vector. -/
def pointers (gen n : ℕ) : List (ℕ × ℕ) := (List.range n).map fun i => (gen, i)

theorem pointers_length (gen n : ℕ) : (pointers gen n).length = n := by simp [pointers]

theorem mem_pointers {gen n : ℕ} {p : ℕ × ℕ} (h : p ∈ pointers gen n) : p.1 = gen ∧ p.2 < n := by
  obtain ⟨i, hi, rfl⟩ := List.mem_map.1 h
  exact ⟨rfl, List.mem_range.1 hi⟩

theorem deref_pointers (place : Place) (v : List ℝ) : derefAll place v (pointers place.gen v.length) = .ok v := by
  rw [derefAll_ok _ _ _ fun p hp => mem_pointers hp]
  congr 1
  refine List.ext_getElem (by simp [pointers]) fun i h1 h2 => ?_
  simp [pointers, List.getD_eq_getElem?_getD, h2]

theorem assign_from (place : Place) (as : List ℝ) (a : ℕ) (v : List ℝ) (h : a + as.length ≤ v.length) (rest : List (ℕ × ℕ)) (more : List ℝ) :
    assignAll place ((List.range' a as.length).map (fun i => (place.gen, i)) ++ rest) (as ++ more) v =
      assignAll place rest more (v.take a ++ as ++ v.drop (a + as.length)) := by
  induction as generalizing a v with
  | nil => simp
  | cons x as ih =>
    have ha : a < v.length := by simp at h; omega
    rw [List.length_cons, List.range'_succ, List.map_cons, List.cons_append, List.cons_append, assignAll, if_pos rfl, Outcome.write, if_pos ha, ok_bind,
      ih (a + 1) (v.set a x) (by rw [List.length_set]; simp at h; omega)]
    congr 1
    rw [List.take_set, List.drop_set_of_lt (by omega)]
    have e1 : (List.take (a + 1) v).set a x = List.take a v ++ [x] := by
      rw [List.take_add_one, List.getElem?_eq_getElem ha, Option.toList_some, List.set_append_right _ _ (by simp),
        List.length_take, Nat.min_eq_left (by omega), Nat.sub_self, List.set_cons_zero]
    rw [e1, List.append_assoc, List.append_assoc, List.append_assoc, List.singleton_append, List.cons_append, Nat.add_right_comm a 1, Nat.add_assoc a]

theorem assign_pointers (place : Place) (p v : List ℝ) (h : p.length = v.length) (rest : List (ℕ × ℕ)) (more : List ℝ) :
    assignAll place (pointers place.gen v.length ++ rest) (p ++ more) v = assignAll place rest more p := by
  have := assign_from place p 0 v (by omega) rest more
  rw [← List.range_eq_range', h] at this
  rw [pointers, this]
  simp

/-! ## Invariants -/

/-- What holds after building a layer. -/
structure Fresh (s : State τ) : Prop where
  valid : s.layer.Valid
  covered : Covered s.layer
  params : s.params = []
  derivs : s.derivs = []

/-- What holds while the network is used. -/
structure Good (s : State τ) : Prop where
  valid : s.layer.Valid
  covered : Covered s.layer
  params : s.params = pointers s.w.gen s.layer.w.length
  derivs : s.derivs = pointers s.wd.gen s.layer.w.length
  cols : s.cols = s.layer.nodes.length
  vec : s.vec = s.layer.w

theorem fresh_create (inputs : ℕ) (bias : Bool) (act : Act) (con : τ) : Fresh (create inputs bias act con) :=
  ⟨⟨rfl, by simp [create], by simp [create]⟩, fun i hi => by simp [create] at hi, rfl, rfl⟩

theorem addNodes_inv {alloc : ℕ → ℕ} {o : Order} {numbers : ℕ} {c : Constraint τ} {s s' : State τ} (h : addNodes alloc o numbers c s = .ok s') :
    SigmaPi.addNodes o numbers c (s.layer, s.con) = .ok (s'.layer, s'.con) ∧ s'.params = s.params ∧ s'.derivs = s.derivs ∧ s'.cols = s.cols ∧
      s'.vec = s.vec ∧ s'.w = s.w.grow alloc s'.layer.w.length ∧ s'.wd = s.wd.grow alloc s'.layer.wd.length := by
  obtain ⟨r, h1, h2⟩ := bind_eq_ok.1 h
  injection h2 with h2
  subst h2
  exact ⟨h1, rfl, rfl, rfl, rfl, rfl, rfl⟩

theorem build_fresh {alloc : ℕ → ℕ} (ops : List (BuildOp τ)) {s s' : State τ} (hs : Fresh s) (h : build alloc s ops = .ok s') : Fresh s' := by
  induction ops generalizing s with
  | nil => cases h; exact hs
  | cons op ops ih =>
    cases op with
    | nodes o numbers c =>
      unfold build at h
      obtain ⟨s1, h1, h2⟩ := bind_eq_ok.1 h
      obtain ⟨e, e1, e2, _⟩ := addNodes_inv h1
      exact ih ⟨(nodes_partial o numbers c _ hs.valid _ e).1, cover_nodes e hs.covered, by rw [e1, hs.params], by rw [e2, hs.derivs]⟩ h2

theorem Valid.withWeights {l : Layer} (h : l.Valid) {w : List ℝ} (hw : w.length = l.w.length) : ({ l with w := w } : Layer).Valid :=
  ⟨h.wd.trans hw.symm, fun n hn u hu => by rw [hw]; exact h.bound n hn u hu, h.disjoint⟩

theorem Covered.withWeights {l : Layer} (h : Covered l) {w : List ℝ} (hw : w.length = l.w.length) : Covered { l with w := w } :=
  fun i hi => h i (by rw [← hw]; exact hi)

theorem draw_layer {l : Layer} (hv : l.Valid) (hc : Covered l) (stdDev : ℝ) (draws : ℕ → ℝ) :
    ∃ w, drawWeights stdDev draws l.nodes.flatten 0 l.w = .ok w ∧ w.length = l.w.length ∧ ∀ i < l.w.length, ∃ j, w.getD i 0 = draws j * stdDev := by
  obtain ⟨w, h1, h2, h3⟩ := drawWeights_ok stdDev draws l.nodes.flatten 0 l.w fun u hu => by
    obtain ⟨n, hn, hu⟩ := List.mem_flatten.1 hu
    exact hv.bound n hn u hu
  refine ⟨w, h1, h2, fun i hi => ?_⟩
  rcases h3 i hi with h | ⟨h, _⟩
  · exact h
  · obtain ⟨u, hu, e⟩ := hc i hi
    exact absurd e (h u hu)

/-- Adding the layer to a network. -/
theorem output_good (stdDev : ℝ) (draws : ℕ → ℝ) {s : State τ} (hs : Fresh s) :
    ∃ s', addOutputLayer stdDev draws s = .ok s' ∧ Good s' ∧ s'.layer.nodes = s.layer.nodes ∧ s'.layer.w.length = s.layer.w.length ∧
      ∀ i < s.layer.w.length, ∃ j, s'.layer.w.getD i 0 = draws j * stdDev := by
  obtain ⟨w, h1, h2, h3⟩ := draw_layer hs.valid hs.covered stdDev draws
  refine ⟨{ s with layer := { s.layer with w := w }, cols := s.layer.nodes.length, params := pointers s.w.gen s.layer.w.length,
                    derivs := pointers s.wd.gen s.layer.w.length, vec := w }, ?_, ?_, rfl, h2, h3⟩
  · unfold addOutputLayer
    rw [hs.params, hs.derivs, List.nil_append, List.nil_append, h1, ok_bind]
    have := deref_pointers s.w w
    rw [h2] at this
    show (derefAll s.w w (pointers s.w.gen s.layer.w.length) >>= _) = _
    rw [this, ok_bind]
    rfl
  · exact ⟨Valid.withWeights hs.valid h2, Covered.withWeights hs.covered h2, by rw [h2], by rw [h2], rfl, rfl⟩

theorem initNet_good (stdDev : ℝ) (draws : ℕ → ℝ) {s : State τ} (hs : Good s) :
    ∃ s', initNet stdDev draws s = .ok s' ∧ Good s' ∧ s'.layer.nodes = s.layer.nodes ∧ s'.layer.w.length = s.layer.w.length ∧
      ∀ i < s.layer.w.length, ∃ j, s'.layer.w.getD i 0 = draws j * stdDev := by
  obtain ⟨w, h1, h2, h3⟩ := draw_layer hs.valid hs.covered stdDev draws
  refine ⟨{ s with layer := { s.layer with w := w }, vec := w }, ?_, ?_, rfl, h2, h3⟩
  · unfold initNet
    have := deref_pointers s.w w
    rw [h2] at this
    rw [h1, ok_bind, hs.params, this, ok_bind]
  · exact ⟨Valid.withWeights hs.valid h2, Covered.withWeights hs.covered h2, by rw [h2]; exact hs.params, by rw [h2]; exact hs.derivs, hs.cols, rfl⟩

theorem setParameters_good {s : State τ} (hs : Good s) {p : List ℝ} (hp : p.length = dimension s) :
    ∃ s', setParameters p s = .ok s' ∧ Good s' ∧ s'.layer.nodes = s.layer.nodes ∧ s'.layer.w = p := by
  have hp' : p.length = s.layer.w.length := by rw [hp, dimension, hs.params, pointers_length]
  refine ⟨{ s with layer := { s.layer with w := p }, vec := p }, ?_, ?_, rfl, rfl⟩
  · unfold setParameters
    have := assign_pointers s.w p s.layer.w hp' [] []
    rw [List.append_nil, List.append_nil] at this
    rw [hs.params, this]
    rfl
  · exact ⟨Valid.withWeights hs.valid hp', Covered.withWeights hs.covered hp', by rw [hp']; exact hs.params, by rw [hp']; exact hs.derivs, hs.cols, rfl⟩

theorem dimension_good {s : State τ} (hs : Good s) : dimension s = s.layer.w.length := by rw [dimension, hs.params, pointers_length]

/-- Vectors have the right length. -/
def Fits (d : ℕ) : UseOp → Prop
  | .init _ => True
  | .set p => p.length = d

theorem use_good (stdDev : ℝ) (ops : List UseOp) {s : State τ} (hs : Good s) (hf : ∀ op ∈ ops, Fits (dimension s) op) :
    ∃ s', use stdDev s ops = .ok s' ∧ Good s' ∧ s'.layer.nodes = s.layer.nodes ∧ dimension s' = dimension s := by
  induction ops generalizing s with
  | nil => exact ⟨s, rfl, hs, rfl, rfl⟩
  | cons op ops ih =>
    have hr : ∀ o ∈ ops, Fits (dimension s) o := fun o ho => hf o (List.mem_cons_of_mem _ ho)
    cases op with
    | init draws =>
      obtain ⟨s1, h1, g1, n1, w1, _⟩ := initNet_good stdDev draws hs
      have d1 : dimension s1 = dimension s := by rw [dimension_good g1, w1, dimension_good hs]
      obtain ⟨s2, h2, g2, n2, d2⟩ := ih g1 (by rw [d1]; exact hr)
      exact ⟨s2, by unfold use; rw [h1, ok_bind, h2], g2, by rw [n2, n1], by rw [d2, d1]⟩
    | set p =>
      have hp := hf _ List.mem_cons_self
      obtain ⟨s1, h1, g1, n1, w1⟩ := setParameters_good hs hp
      have d1 : dimension s1 = dimension s := by rw [dimension_good g1, w1]; exact hp
      obtain ⟨s2, h2, g2, n2, d2⟩ := ih g1 (by rw [d1]; exact hr)
      exact ⟨s2, by unfold use; rw [h1, ok_bind, h2], g2, by rw [n2, n1], by rw [d2, d1]⟩

/-! ## The network -/

theorem predict_good {s : State τ} (hs : Good s) (x : Mat) (junk : ℕ → ℕ → ℝ) : predict s x junk = forward s.layer x junk := by
  unfold predict activationsIn forward activations
  rw [hs.cols]

theorem forLoop_keeps {σ : Type} {P : σ → Prop} {body : ℕ → σ → Outcome σ} (hb : ∀ i s s', P s → body i s = .ok s' → P s') (n : ℕ) {s s' : σ} (hs : P s)
    (h : forLoop n body s = .ok s') : P s' := by
  induction n generalizing s' with
  | zero => cases h; exact hs
  | succ n ih =>
    rw [forLoop] at h
    obtain ⟨t, h1, h2⟩ := bind_eq_ok.1 h
    exact hb n t s' (ih h1) h2

theorem backUnits_length {w : List ℝ} {x : Mat} {n : ℕ} {d : ℝ} (us : Neuron) {g g' : Grads} (h : backUnits w x n d us g = .ok g') :
    g'.wd.length = g.wd.length := by
  induction us generalizing g with
  | nil => cases h; rfl
  | cons u us ih =>
    rw [backUnits] at h
    obtain ⟨g1, h1, h2⟩ := bind_eq_ok.1 h
    rw [ih h2]
    unfold backUnit at h1
    obtain ⟨_, _, h1⟩ := bind_eq_ok.1 h1
    obtain ⟨_, _, h1⟩ := bind_eq_ok.1 h1
    obtain ⟨_, _, h1⟩ := bind_eq_ok.1 h1
    obtain ⟨wd', hw, h1⟩ := bind_eq_ok.1 h1
    cases h1
    unfold Outcome.write at hw
    split at hw
    · injection hw with hw
      rw [← hw, List.length_set]
    · cases hw

theorem backward_length {l : Layer} {x y ein : Mat} {g : Grads} (h : backward l x y ein = .ok g) : g.wd.length = l.wd.length := by
  refine forLoop_keeps (P := fun g : Grads => g.wd.length = l.wd.length) (fun n s s' hs hb => ?_) x.rows (by simp) h
  split at hb
  · cases hb
  · refine forLoop_keeps (P := fun g : Grads => g.wd.length = l.wd.length) (fun i t t' ht hb => ?_) _ hs hb
    unfold backNeuron at hb
    obtain ⟨_, _, hb⟩ := bind_eq_ok.1 hb
    obtain ⟨_, _, hb⟩ := bind_eq_ok.1 hb
    split at hb
    · cases hb
    · rw [backUnits_length _ hb, ht]

theorem gradient_good {s : State τ} (hs : Good s) (x y ein : Mat) :
    gradient s x y ein = backward s.layer x y ein >>= fun g => .ok g.wd := by
  unfold gradient
  cases hg : backward s.layer x y ein with
  | ok g =>
    have hw : g.wd.length = s.layer.w.length := by rw [backward_length hg, hs.valid.wd]
    have := deref_pointers s.wd g.wd
    rw [hw] at this
    rw [ok_bind, ok_bind, hs.derivs, this]
  | throws => rfl
  | checkFailed => rfl
  | ub => rfl

/-- **C110**: the layer was built by any calls and then added to the network; the network was initialised and its parameters were set any number of
times.  Then the parameters are exactly the weights, predictions are made with them, and the gradient consists of the derivatives of the weights. -/
theorem network_exact (alloc : ℕ → ℕ) (inputs : ℕ) (bias : Bool) (act : Act) (con : τ) (ops : List (BuildOp τ)) {s : State τ}
    (hb : build alloc (create inputs bias act con) ops = .ok s) (stdDev : ℝ) (draws : ℕ → ℝ) (us : List UseOp)
    (hf : ∀ op ∈ us, Fits s.layer.w.length op) :
    ∃ s1 s2, addOutputLayer stdDev draws s = .ok s1 ∧ use stdDev s1 us = .ok s2 ∧ s2.layer.nodes = s.layer.nodes ∧
      dimension s2 = s.layer.w.length ∧ s2.vec = s2.layer.w ∧
      (∀ x junk, predict s2 x junk = forward s2.layer x junk) ∧
      (∀ p, p.length = dimension s2 → ∃ s3, setParameters p s2 = .ok s3 ∧ s3.vec = p ∧
        ∀ x junk, predict s3 x junk = forward { s2.layer with w := p } x junk) ∧
      ∀ x y ein, gradient s2 x y ein = backward s2.layer x y ein >>= fun g => .ok g.wd := by
  have hfresh := build_fresh ops (fresh_create inputs bias act con) hb
  obtain ⟨s1, h1, g1, n1, w1, _⟩ := output_good stdDev draws hfresh
  obtain ⟨s2, h2, g2, n2, d2⟩ := use_good stdDev us g1 (by rw [dimension_good g1, w1]; exact hf)
  refine ⟨s1, s2, h1, h2, by rw [n2, n1], by rw [d2, dimension_good g1, w1], g2.vec, predict_good g2, fun p hp => ?_, gradient_good g2⟩
  · have hp' : p.length = s2.layer.w.length := by rw [hp, dimension_good g2]
    have := assign_pointers s2.w p s2.layer.w hp' [] []
    rw [List.append_nil, List.append_nil] at this
    refine ⟨{ s2 with layer := { s2.layer with w := p }, vec := p }, ?_, rfl, fun x junk => ?_⟩
    · unfold setParameters
      rw [g2.params, this]
      rfl
    · unfold predict activationsIn forward activations
      dsimp only
      rw [g2.cols]

/-- Every weight is drawn from the normal distribution with the standard deviation of the layer, when the layer is added and whenever the network is
initialised. -/
theorem network_drawn (alloc : ℕ → ℕ) (inputs : ℕ) (bias : Bool) (act : Act) (con : τ) (ops : List (BuildOp τ)) {s : State τ}
    (hb : build alloc (create inputs bias act con) ops = .ok s) (stdDev : ℝ) (draws draws' : ℕ → ℝ) (us : List UseOp)
    (hf : ∀ op ∈ us, Fits s.layer.w.length op) :
    ∃ s1 s2, addOutputLayer stdDev draws s = .ok s1 ∧ (∀ i < s.layer.w.length, ∃ j, s1.layer.w.getD i 0 = draws j * stdDev) ∧
      use stdDev s1 (us ++ [.init draws']) = .ok s2 ∧ ∀ i < s.layer.w.length, ∃ j, s2.layer.w.getD i 0 = draws' j * stdDev := by
  have hfresh := build_fresh ops (fresh_create inputs bias act con) hb
  obtain ⟨s1, h1, g1, n1, w1, e1⟩ := output_good stdDev draws hfresh
  have key : ∀ (us : List UseOp) (s1 : State τ), Good s1 → (∀ op ∈ us, Fits (dimension s1) op) →
      ∃ s2, use stdDev s1 (us ++ [.init draws']) = .ok s2 ∧ ∀ i < dimension s1, ∃ j, s2.layer.w.getD i 0 = draws' j * stdDev := by
    intro us
    induction us with
    | nil =>
      intro s1 g1 _
      obtain ⟨s2, h2, _, _, _, e2⟩ := initNet_good stdDev draws' g1
      refine ⟨s2, ?_, by rw [dimension_good g1]; exact e2⟩
      rw [List.nil_append]
      unfold use
      rw [h2, ok_bind]
      rfl
    | cons op us ih =>
      intro s1 g1 hf
      have hr : ∀ o ∈ us, Fits (dimension s1) o := fun o ho => hf o (List.mem_cons_of_mem _ ho)
      cases op with
      | init d =>
        obtain ⟨s2, h2, g2, _, w2, _⟩ := initNet_good stdDev d g1
        have d2 : dimension s2 = dimension s1 := by rw [dimension_good g2, w2, dimension_good g1]
        obtain ⟨s3, h3, e3⟩ := ih s2 g2 (by rw [d2]; exact hr)
        exact ⟨s3, by rw [List.cons_append]; unfold use; rw [h2, ok_bind, h3], by rw [← d2]; exact e3⟩
      | set p =>
        have hp := hf _ List.mem_cons_self
        obtain ⟨s2, h2, g2, _, w2⟩ := setParameters_good g1 hp
        have d2 : dimension s2 = dimension s1 := by rw [dimension_good g2, w2]; exact hp
        obtain ⟨s3, h3, e3⟩ := ih s2 g2 (by rw [d2]; exact hr)
        exact ⟨s3, by rw [List.cons_append]; unfold use; rw [h2, ok_bind, h3], by rw [← d2]; exact e3⟩
  obtain ⟨s2, h2, e2⟩ := key us s1 g1 (by rw [dimension_good g1, w1]; exact hf)
  exact ⟨s1, s2, h1, e1, h2, by rw [dimension_good g1, w1] at e2; exact e2⟩

/-! ## Nodes that are added afterwards -/

/-- The layer was built by any calls and added to the network, then the network was initialised and its parameters were set any number of times. -/
def Reached (alloc : ℕ → ℕ) (stdDev : ℝ) (s : State τ) : Prop :=
  ∃ inputs bias act con ops s0 draws s1 us, build alloc (create inputs bias act con) ops = .ok s0 ∧ addOutputLayer stdDev draws s0 = .ok s1 ∧
    (∀ op ∈ us, Fits s0.layer.w.length op) ∧ use stdDev s1 us = .ok s

theorem reached_good {alloc : ℕ → ℕ} {stdDev : ℝ} {s : State τ} (h : Reached alloc stdDev s) : Good s := by
  obtain ⟨inputs, bias, act, con, ops, s0, draws, s1, us, hb, ho, hf, hu⟩ := h
  obtain ⟨s1', h1, g1, n1, w1, _⟩ := output_good stdDev draws (build_fresh ops (fresh_create inputs bias act con) hb)
  rw [ho] at h1
  cases h1
  obtain ⟨s2, h2, g2, _⟩ := use_good stdDev us g1 (by rw [dimension_good g1, w1]; exact hf)
  rw [hu] at h2
  cases h2
  exact g2

theorem forLoop_ub_inv {σ : Type} {P : σ → Prop} {body : ℕ → σ → Outcome σ} {n i0 : ℕ} (hi : i0 < n)
    (hb : ∀ i < n, ∀ s, P s → body i s = .ub ∨ ∃ s', body i s = .ok s' ∧ P s') (h0 : ∀ s, P s → body i0 s = .ub) {s : σ} (hs : P s) :
    forLoop n body s = .ub := by
  have key : ∀ m ≤ n, forLoop m body s = .ub ∨ ∃ s', forLoop m body s = .ok s' ∧ P s' := by
    intro m
    induction m with
    | zero => exact fun _ => Or.inr ⟨s, rfl, hs⟩
    | succ m ih =>
      intro hm
      rw [forLoop]
      rcases ih (by omega) with h | ⟨t, h, ht⟩
      · rw [h]; exact Or.inl rfl
      · rw [h, ok_bind]; exact hb m (by omega) t ht
  have stays : ∀ k, i0 + 1 + k ≤ n → forLoop (i0 + 1 + k) body s = .ub := by
    intro k
    induction k with
    | zero =>
      intro _
      rw [Nat.add_zero, forLoop]
      rcases key i0 (by omega) with h | ⟨t, h, ht⟩
      · rw [h]; rfl
      · rw [h, ok_bind]; exact h0 t ht
    | succ k ih =>
      intro hk
      rw [← Nat.add_assoc, forLoop, ih (by omega)]
      rfl
  have := stays (n - (i0 + 1)) (by omega)
  rwa [show i0 + 1 + (n - (i0 + 1)) = n by omega] at this

/-- **C110**, first limit: nodes that are added to the layer afterwards.  Every prediction writes beyond the activations. -/
theorem late_ub {alloc : ℕ → ℕ} {stdDev : ℝ} {s s' : State τ} (hr : Reached alloc stdDev s) {o : Order} {numbers : ℕ} {c : Constraint τ}
    (h : addNodes alloc o numbers c s = .ok s') (hn : 0 < numbers) (x : Mat) (hx : 0 < x.rows) (junk : ℕ → ℕ → ℝ) : predict s' x junk = .ub := by
  have hs := reached_good hr
  obtain ⟨e, _, _, ec, _⟩ := addNodes_inv h
  obtain ⟨hv, _, _, _, new, en, hl, _⟩ := nodes_partial o numbers c _ hs.valid _ e
  have hlt : s'.cols < s'.layer.nodes.length := by rw [ec, hs.cols, en, List.length_append]; omega
  unfold predict
  split
  · rfl
  · have : activationsIn s'.cols s'.layer x junk = .ub := by
      have hcases : ∀ n i, i < s'.layer.nodes.length → activation s'.layer.w x n (s'.layer.nodes.getD i []) = ub ∨
          ∃ v, activation s'.layer.w x n (s'.layer.nodes.getD i []) = ok v := by
        intro n i hi
        unfold activation
        split
        · exact Or.inl rfl
        · exact weightedSum_cases x n _ (hv.bound _ (getD_mem [] hi)) 0
      have inner : ∀ n (a : Mat), a.cols = s'.cols → forLoop s'.layer.nodes.length (fun i (a : Mat) => do
          let v ← activation s'.layer.w x n (s'.layer.nodes.getD i [])
          a.set n i v) a = ub := by
        intro n a ha
        refine forLoop_ub_inv (P := fun a : Mat => a.cols = s'.cols) hlt (fun i hi a ha => ?_) (fun a ha => ?_) ha
        · rcases hcases n i hi with h | ⟨v, h⟩
          · rw [h]; exact Or.inl rfl
          · rw [h, ok_bind, Mat.set]
            split
            · exact Or.inr ⟨_, rfl, ha⟩
            · exact Or.inl rfl
        · rcases hcases n _ hlt with h | ⟨v, h⟩
          · rw [h]; rfl
          · rw [h, ok_bind, Mat.set, if_neg (by rw [ha]; omega)]
      have hne : s'.layer.nodes ≠ [] := fun e => by rw [e] at hlt; simp at hlt
      unfold activationsIn
      refine forLoop_ub_inv (P := fun a : Mat => a.cols = s'.cols) hx (fun i _ a ha => Or.inl ?_) (fun a ha => ?_) rfl
      · rw [if_neg hne]; exact inner i a ha
      · rw [if_neg hne]; exact inner 0 a ha
    rw [this]
    rfl

theorem nodes_grow (o : Order) (numbers : ℕ) (c : Constraint τ) {l l' : Layer} (hl : l.Valid) {s s' : τ}
    (h : SigmaPi.addNodes o numbers c (l, s) = .ok (l', s')) : l.w.length ≤ l'.w.length := by
  refine (forLoop_keeps (P := fun r : Layer × τ => r.1.wd.length = r.1.w.length ∧ l.w.length ≤ r.1.w.length) (fun _ r r' hr hb => ?_) numbers
    ⟨hl.wd, Nat.le_refl _⟩ h).2
  obtain ⟨neuron, ha⟩ := addNode_added o c hr.1 (s := r.2) (l' := r'.1) (s' := r'.2) hb
  exact ⟨ha.wd, hr.2.trans ha.old.length_le⟩

/-- The new weights are not parameters, and the old ones stay where the parameters are only if the vector has enough capacity. -/
theorem late_unseen_fails {alloc : ℕ → ℕ} {stdDev : ℝ} {s s' : State τ} (hr : Reached alloc stdDev s) {o : Order} {numbers : ℕ} {c : Constraint τ}
    (h : addNodes alloc o numbers c s = .ok s') : dimension s' = s.layer.w.length ∧ s'.vec = s.layer.w ∧ s.layer.w.length ≤ s'.layer.w.length := by
  have hs := reached_good hr
  obtain ⟨e, e1, _, _, e4, _⟩ := addNodes_inv h
  refine ⟨by rw [dimension, e1, hs.params, pointers_length], by rw [e4, hs.vec], ?_⟩
  exact nodes_grow o numbers c hs.valid e

/-- **C110**, second limit: the vector of the weights had to be moved.  Then the parameters can neither be set nor initialised. -/
theorem late_moved_ub {alloc : ℕ → ℕ} {stdDev : ℝ} {s s' : State τ} (hr : Reached alloc stdDev s) {o : Order} {numbers : ℕ} {c : Constraint τ}
    (h : addNodes alloc o numbers c s = .ok s') (hw : 0 < s.layer.w.length) (hc : s.w.cap < s'.layer.w.length) :
    (∀ p, setParameters p s' = .ub) ∧ ∀ draws, initNet stdDev draws s' = .ub := by
  have hs := reached_good hr
  obtain ⟨e, e1, _, _, _, e5, _⟩ := addNodes_inv h
  have hv := (nodes_partial o numbers c _ hs.valid _ e).1
  have hg : s.w.gen ≠ s'.w.gen := by rw [e5, Place.grow, if_neg (by omega)]; dsimp only; omega
  obtain ⟨ps, hps⟩ : ∃ ps, s'.params = (s.w.gen, 0) :: ps := by
    rw [e1, hs.params, pointers]
    obtain ⟨k, hk⟩ : ∃ k, s.layer.w.length = k + 1 := ⟨s.layer.w.length - 1, by omega⟩
    rw [hk, List.range_succ_eq_map]
    exact ⟨_, rfl⟩
  constructor
  · intro p
    unfold setParameters
    rw [hps]
    cases p with
    | nil => rfl
    | cons a p => rw [assignAll, if_neg hg]; rfl
  · intro draws
    obtain ⟨w, h1, _⟩ := draw_layer hv (cover_nodes e hs.covered) stdDev draws
    unfold initNet
    rw [h1, ok_bind, hps, derefAll, deref, if_neg hg]
    rfl

/-! ## Examples -/

/-- A layer of one neuron on two inputs, without constraints. -/
def one : State Unit := ⟨⟨2, false, .linear, [0], [0], [[⟨[0, 1], 0⟩]]⟩, (), ⟨1, 1⟩, ⟨1, 1⟩, 0, [], [], []⟩

/-- No constraint. -/
def free : Constraint Unit := ⟨true, fun _ _ => .ok (0, ())⟩

/-- The capacity is the size. -/
theorem build_one : build (fun n => n) (create 2 false .linear ()) [.nodes .second 1 free] = .ok one := by
  simp [build, addNodes, SigmaPi.addNodes, forLoop, addNode, units, secondOrderUnits, addUnit, free, ownWeight, create, Layer.width, Place.grow, one]

/-- The parameter is set to 3: the hypotheses of `network_exact` are met. -/
example (draws : ℕ → ℝ) : ∃ s1 s2, addOutputLayer 0.5 draws one = .ok s1 ∧ use 0.5 s1 [.set [3]] = .ok s2 ∧ dimension s2 = 1 := by
  obtain ⟨s1, s2, h1, h2, _, h3, _⟩ := network_exact _ 2 false .linear () _ build_one 0.5 draws [.set [3]] (by simp [Fits, one])
  exact ⟨s1, s2, h1, h2, by rw [h3]; rfl⟩

/-- The hypotheses of `late_ub`, `late_unseen_fails` and `late_moved_ub` are met. -/
example : ∃ s s' : State Unit, Reached (fun n => n) 0.5 s ∧ addNodes (fun n => n) .second 1 free s = .ok s' ∧ 0 < s.layer.w.length ∧
    s.w.cap < s'.layer.w.length := by
  refine ⟨{ one with layer := { one.layer with w := [0.5] }, cols := 1, params := [(1, 0)], derivs := [(1, 0)], vec := [0.5] },
    { one with layer := { one.layer with w := [0.5, 0], wd := [0, 0], nodes := [[⟨[0, 1], 0⟩], [⟨[0, 1], 1⟩]] }, cols := 1,
               params := [(1, 0)], derivs := [(1, 0)], vec := [0.5], w := ⟨2, 2⟩, wd := ⟨2, 2⟩ },
    ⟨2, false, .linear, (), _, one, fun _ => 1, _, [], build_one, ?_, by simp, rfl⟩, ?_, by simp, by simp [one]⟩
  · simp [addOutputLayer, one, drawWeights, Outcome.write, derefAll, deref, Outcome.read]
  · simp [addNodes, SigmaPi.addNodes, forLoop, addNode, units, secondOrderUnits, addUnit, free, ownWeight, Layer.width, Place.grow, one]

end

end Verif.SigmaPiNet
