import Verif.Props.Loaded

/-!
# Loaded networks that compute something else: C70

Networks with an `Extreme` layer, a random compression matrix, an `IntrinsicPlasticity` layer or an RBM without `backprop`
have numbers that are not in the file; numbers in the file are rounded.
-/

namespace Verif.NetSem

open Finset Verif.NN Verif.NetFile Verif.Text

noncomputable section

/-! ## Spec -/

/-- Spec: the calls `cs` build a network; with parameters `v` it is saved and loaded, and for one row of ones the first output
of the network that was saved (with the numbers `hid` and buffers `mem`) and of the one that was loaded (`hid'`, `mem'`)
are `y` and `y'`. -/
def SaveLoad (F : NumFormat ℝ) (init init' : ℕ → ℝ) (cs : List (Cmd ℝ)) (v : List ℝ) (hid hid' : ℕ → Hidden) (mem mem' : Mem)
    (y y' : ℝ) : Prop :=
  ∃ net saved loaded S S', run F init cs empty = .ok net ∧ setParameters net v = .ok saved ∧
    Loads F init' empty (IStream.of (save F saved)) (.ok loaded) ∧
    sem hid saved = some S ∧ sem hid' loaded = some S' ∧ 0 < S.net.outputs ∧ S'.net.outputs = S.net.outputs ∧
    S.predict mem saved.params 1 (fun _ _ => 1) 0 0 = y ∧ S'.predict mem' loaded.params 1 (fun _ _ => 1) 0 0 = y'

/-! ## Small networks -/

/-- One layer without parameters and a linear output. -/
theorem predict_two (k : NN.Kind) (hp : (k.layer 1).pointers = []) (ho : (k.layer 1).outputs = 1)
    (hu : ∀ w, (k.layer 1).updated w = w) (mem : Mem) (w : ℝ) :
    Sem.predict ⟨1, [k, .fullyConnected 1 false .linear ⟨0, 0, 0⟩], false⟩ mem [w] 1 (fun _ _ => 1) 0 0 =
      (k.layer 1).forward (mem 1) 1 (fun _ _ => 1) 0 0 * w := by
  have hlayers : (buildNet 1 [k, .fullyConnected 1 false .linear ⟨0, 0, 0⟩] false).layers =
      [inputLayer 1, k.layer 1, NN.fullyConnected 1 1 false .linear ⟨0, 0, 0⟩] := by
    show inputLayer 1 :: k.layer 1 :: NN.fullyConnected (k.layer 1).outputs 1 false .linear ⟨0, 0, 0⟩ :: [] = _
    rw [ho]
  have hpar : (buildNet 1 [k, .fullyConnected 1 false .linear ⟨0, 0, 0⟩] false).parameters = [(2, .w [0, 0])] := by
    rw [NN.Net.parameters, hlayers]
    show (inputLayer 1).pointers.map _ ++ ((k.layer 1).pointers.map _ ++ _) = _
    rw [hp]
    rfl
  have hset : (buildNet 1 [k, .fullyConnected 1 false .linear ⟨0, 0, 0⟩] false).setParameters mem [w] =
      mem.write (2, .w [0, 0]) w := by
    rw [setParameters_unconstrained, hpar]
    · rfl
    · intro l hl w
      rw [hlayers] at hl
      simp only [List.mem_cons, List.not_mem_nil, or_false] at hl
      rcases hl with rfl | rfl | rfl
      · rfl
      · exact hu w
      · exact maxNormUpdate_nonpos (le_refl _) w
  rw [Sem.predict, Sem.net, hset]
  show NN.Net.activations _ _ _ _ _ _ = _
  rw [NN.Net.activations, hlayers]
  have h1 : mem.write (2, .w [0, 0]) w 1 = mem 1 := by
    funext s
    exact if_neg (by simp)
  have h2 : mem.write (2, .w [0, 0]) w 2 (.w [0, 0]) = w := if_pos rfl
  show Act.linear.apply (∑ i ∈ range 1, (k.layer 1).forward (mem.write (2, .w [0, 0]) w 1) 1 (fun _ _ => 1) 0 i *
      mem.write (2, .w [0, 0]) w 2 (.w [0, i]) + 0) = _
  rw [sum_range_one, h1, h2, add_zero]
  rfl

/-- With exact numbers the loaded network is described by the same layers. -/
theorem loaded_same (F : NumFormat ℝ) (init init' : ℕ → ℝ) (cs : List (Cmd ℝ)) (hcs : ∀ c ∈ cs, c.WordArgs)
    {net : NetFile.Net ℝ} (hrun : run F init cs empty = .ok net) {p : ℕ} (hp : net.P = some p) (hex : Exact F cs)
    (v : List ℝ) (hv : v.length = p) :
    ∃ saved loaded, setParameters net v = .ok saved ∧ saved = { net with params := v } ∧
      Loads F init' empty (IStream.of (save F saved)) (.ok loaded) ∧ loaded.params = v.map F.round ∧
      ∀ hid, sem hid loaded = sem hid saved := by
  obtain ⟨saved, loaded, h1, h2, h3, h4, _⟩ := net_round_trip F init init' cs hcs hrun hp v hv
  have hs : saved = { net with params := v } := by
    rw [setParameters, hp] at h1
    simp only [hv, le_refl, if_true, Outcome.ok.injEq] at h1
    rw [← h1, ← hp]
  have hr : saved.layers.map (fun l => (l.1.round F, l.2.round F)) = saved.layers := by
    rw [hs]
    exact congrArg NetFile.Net.layers (roundNet_exact (v := []) hrun hex (by simp))
  exact ⟨saved, loaded, h1, hs, h2, h4, fun hid => sem_congr (h3.layers.trans hr) h3.infos h3.errFn hid⟩

/-- The calls of a network with one input, one hidden layer and one linear output without bias. -/
def twoLayers (c : Cmd ℝ) : List (Cmd ℝ) := [.input 1 1 1, c, .output 1 4 0 false]

/-- Saving and loading such a network. -/
theorem saveLoad_two (F : NumFormat ℝ) (init init' : ℕ → ℝ) {c : Cmd ℝ} (hc : c.WordArgs) (he : c.round F = c) {w : ℝ}
    (hw : F.round w = w) (k : Hidden → NN.Kind) (hp : ∀ h, ((k h).layer 1).pointers = []) (ho : ∀ h, ((k h).layer 1).outputs = 1)
    (hu : ∀ h v, ((k h).layer 1).updated v = v)
    (hrun : ∃ net, run F init (twoLayers c) empty = .ok net ∧ net.P = some 1 ∧
      ∀ h, sem h { net with params := [w] } = some ⟨1, [k (h 1), .fullyConnected 1 false .linear ⟨0, 0, 0⟩], false⟩)
    (hid hid' : ℕ → Hidden) (mem mem' : Mem) :
    SaveLoad F init init' (twoLayers c) [w] hid hid' mem mem'
      (((k (hid 1)).layer 1).forward (mem 1) 1 (fun _ _ => 1) 0 0 * w)
      (((k (hid' 1)).layer 1).forward (mem' 1) 1 (fun _ _ => 1) 0 0 * w) := by
  obtain ⟨net, h1, h2, h3⟩ := hrun
  obtain ⟨saved, loaded, h4, rfl, h5, h6, h7⟩ := loaded_same F init init' (twoLayers c)
    (by
      intro x hx
      simp only [twoLayers, List.mem_cons, List.not_mem_nil, or_false] at hx
      rcases hx with rfl | rfl | rfl
      · exact trivial
      · exact hc
      · exact trivial) h1 h2
    (by
      intro x hx
      simp only [twoLayers, List.mem_cons, List.not_mem_nil, or_false] at hx
      rcases hx with rfl | rfl | rfl
      · rfl
      · exact he
      · simp [Cmd.round, F.round_zero]) [w] rfl
  refine ⟨net, _, loaded, _, _, h1, h4, h5, h3 hid, (h7 hid').trans (h3 hid'), Nat.one_pos, rfl,
    predict_two _ (hp _) (ho _) (hu _) mem w, ?_⟩
  rw [h6, List.map_singleton, hw]
  exact predict_two _ (hp _) (ho _) (hu _) mem' w

/-! ## The refutations -/

/-- **C70 fails (Extreme)**: an `Extreme` layer draws new weights (a normally distributed number times the standard
deviation) when the network is loaded; whenever the numbers differ, the loaded network gives another output. -/
theorem extreme_fails (F : NumFormat ℝ) (init init' : ℕ → ℝ) {w s : ℝ} (hw : w ≠ 0) (hr : F.round w = w) (hs : s ≠ 0)
    (hrs : F.round s = s) {d d' : ℝ} (hne : d ≠ d') (hid hid' : ℕ → Hidden) (h1 : (hid 1).extreme 0 0 = d * s)
    (h2 : (hid' 1).extreme 0 0 = d' * s) (mem mem' : Mem) :
    ∃ y y', SaveLoad F init init' (twoLayers (.extreme 1 4 s false)) [w] hid hid' mem mem' y y' ∧ y ≠ y' := by
  refine ⟨_, _, saveLoad_two F init init' (by simp [Cmd.WordArgs]) (by simp [Cmd.round, hrs]) hr
    (fun h => .extreme 1 false .linear h.extreme) (fun _ => rfl) (fun _ => rfl) (fun _ _ => rfl)
    ⟨_, rfl, rfl, fun h => rfl⟩ hid hid' mem mem', ?_⟩
  have hval : ∀ (h : Hidden) (m : Weights), ((NN.Kind.extreme 1 false .linear h.extreme).layer 1).forward m 1 (fun _ _ => 1) 0 0 =
      h.extreme 0 0 := by
    intro h m
    show (∑ i ∈ range 1, (1 : ℝ) * h.extreme 0 i + 0) = _
    rw [sum_range_one]
    ring
  rw [hval, hval, h1, h2]
  intro he
  exact hne (mul_right_cancel₀ hs (mul_right_cancel₀ hw he))

/-- The logistic function is injective. -/
theorem logistic_injective {a b : ℝ} (h : Act.logistic.apply a = Act.logistic.apply b) (ha : -45 ≤ a ∧ a ≤ 45)
    (hb : -45 ≤ b ∧ b ≤ 45) : a = b := by
  have e : ∀ x : ℝ, -45 ≤ x ∧ x ≤ 45 → Act.logistic.apply x = 1 / (1 + Real.exp (-x)) := fun x hx => by
    simp [Act.apply, not_lt.2 hx.1, not_lt.2 hx.2]
  rw [e a ha, e b hb, one_div, one_div, inv_inj, add_right_inj, Real.exp_eq_exp, neg_inj] at h
  exact h

/-- **C70 fails (IntrinsicPlasticity)**: the layer starts with slopes 1 and random biases (src/IntrinsicPlasticity.cpp lines
32-37); the slopes and biases that it had, trained or not, are not saved. -/
theorem intrinsicPlasticity_fails (F : NumFormat ℝ) (init init' : ℕ → ℝ) {w mu sd : ℝ} (hw : w ≠ 0) (hr : F.round w = w)
    (hmu : F.round mu = mu) (hsd : F.round sd = sd) (hid hid' : ℕ → Hidden)
    (h1 : abs ((hid 1).slopes 0 + (hid 1).biases 0) ≤ 45) (h2 : abs ((hid' 1).slopes 0 + (hid' 1).biases 0) ≤ 45)
    (hne : (hid 1).slopes 0 + (hid 1).biases 0 ≠ (hid' 1).slopes 0 + (hid' 1).biases 0) (mem mem' : Mem) :
    ∃ y y', SaveLoad F init init' (twoLayers (.intrinsicPlasticity mu sd)) [w] hid hid' mem mem' y y' ∧ y ≠ y' := by
  refine ⟨_, _, saveLoad_two F init init' (by simp [Cmd.WordArgs]) (by simp [Cmd.round, hmu, hsd]) hr
    (fun h => .intrinsicPlasticity h.slopes h.biases) (fun _ => rfl) (fun _ => rfl) (fun _ _ => rfl)
    ⟨_, rfl, rfl, fun h => rfl⟩ hid hid' mem mem', ?_⟩
  intro he
  have h3 : Act.logistic.apply (1 * (hid 1).slopes 0 + (hid 1).biases 0) =
      Act.logistic.apply (1 * (hid' 1).slopes 0 + (hid' 1).biases 0) := mul_right_cancel₀ hw he
  rw [one_mul, one_mul] at h3
  exact hne (logistic_injective h3 (abs_le.1 h1) (abs_le.1 h2))

/-- **C70 fails (RBM without `backprop`)**: its weights and biases are buffers (`mem`, `mem'`) that are not in the parameter
vector; a network built for further training on top of a trained RBM is loaded with the initial random weights instead. -/
theorem frozen_rbm_fails (F : NumFormat ℝ) (init init' : ℕ → ℝ) {w s : ℝ} (hw : w ≠ 0) (hr : F.round w = w)
    (hrs : F.round s = s) (hid hid' : ℕ → Hidden) (mem mem' : Mem)
    (h1 : abs (mem 1 (.w [0, 0]) + mem 1 (.b [0])) ≤ 45) (h2 : abs (mem' 1 (.w [0, 0]) + mem' 1 (.b [0])) ≤ 45)
    (hne : mem 1 (.w [0, 0]) + mem 1 (.b [0]) ≠ mem' 1 (.w [0, 0]) + mem' 1 (.b [0])) :
    ∃ y y', SaveLoad F init init' (twoLayers (.rbm 1 1 s false)) [w] hid hid' mem mem' y y' ∧ y ≠ y' := by
  refine ⟨_, _, saveLoad_two F init init' (by simp [Cmd.WordArgs]) (by simp [Cmd.round, hrs]) hr
    (fun h => .rbm 1 false) (fun _ => rfl) (fun _ => rfl) (fun _ _ => rfl)
    ⟨_, rfl, rfl, fun h => rfl⟩ hid hid' mem mem', ?_⟩
  intro he
  have h3 : Act.logistic.apply (∑ i ∈ range 1, 1 * mem 1 (.w [0, i]) + mem 1 (.b [0])) =
      Act.logistic.apply (∑ i ∈ range 1, 1 * mem' 1 (.w [0, i]) + mem' 1 (.b [0])) := mul_right_cancel₀ hw he
  rw [sum_range_one, sum_range_one, one_mul, one_mul] at h3
  exact hne (logistic_injective h3 (abs_le.1 h1) (abs_le.1 h2))

/-- The output of a network with one layer without bias and constraint and one weight. -/
theorem predict_one (k : NN.Kind) (hp : (k.layer 1).pointers = [.w [0, 0]]) (hu : ∀ w, (k.layer 1).updated w = w) (mem : Mem)
    (w : ℝ) : ∃ m : Weights, m (.w [0, 0]) = w ∧
      Sem.predict ⟨1, [k], false⟩ mem [w] 1 (fun _ _ => 1) 0 0 = (k.layer 1).forward m 1 (fun _ _ => 1) 0 0 := by
  have hpar : (buildNet 1 [k] false).parameters = [(1, .w [0, 0])] := by
    rw [NN.Net.parameters]
    show (inputLayer 1).pointers.map _ ++ ((k.layer 1).pointers.map _ ++ _) = _
    rw [hp]
    rfl
  have hset : (buildNet 1 [k] false).setParameters mem [w] = mem.write (1, .w [0, 0]) w := by
    rw [setParameters_unconstrained, hpar]
    · rfl
    · intro l hl w
      simp only [buildNet, layersFrom, List.mem_cons, List.not_mem_nil, or_false] at hl
      rcases hl with rfl | rfl
      · rfl
      · exact hu w
  refine ⟨mem.write (1, .w [0, 0]) w 1, if_pos rfl, ?_⟩
  rw [Sem.predict, Sem.net, hset]
  rfl

/-- **C70 fails (random compression)**: a compression matrix of normally distributed numbers is drawn again. -/
theorem compressed_fails (F : NumFormat ℝ) (init init' : ℕ → ℝ) {w : ℝ} (hw : w ≠ 0) (hr : F.round w = w)
    (hid hid' : ℕ → Hidden) (hne : (hid 1).phi 0 0 ≠ (hid' 1).phi 0 0) (mem mem' : Mem) :
    ∃ y y', SaveLoad F init init' [.input 1 1 1, .compressedOutput 1 1 4 "gaussian".toList 0 false] [w] hid hid' mem mem' y y' ∧
      y ≠ y' := by
  have hrun : ∃ net, run F init [.input 1 1 1, .compressedOutput 1 1 4 "gaussian".toList 0 false] empty = .ok net ∧
      net.P = some 1 ∧ ∀ h, sem h { net with params := [w] } = some ⟨1, [.compressed 1 1 false .linear ⟨0, 0, 0⟩
        (phiOf .gaussian 1 1 (h 1).phi)], false⟩ := ⟨_, rfl, rfl, fun h => rfl⟩
  obtain ⟨net, h1, h2, h3⟩ := hrun
  obtain ⟨saved, loaded, h4, rfl, h5, h6, h7⟩ := loaded_same F init init' _
    (by simp [Cmd.WordArgs]; decide) h1 h2
    (by simp [Exact, Cmd.round, F.round_zero]) [w] rfl
  have hval : ∀ (h : Hidden) (mem : Mem), Sem.predict ⟨1, [.compressed 1 1 false .linear ⟨0, 0, 0⟩
      (phiOf .gaussian 1 1 h.phi)], false⟩ mem [w] 1 (fun _ _ => 1) 0 0 = w * h.phi 0 0 := by
    intro h mem
    obtain ⟨m, hm, e⟩ := predict_one (.compressed 1 1 false .linear ⟨0, 0, 0⟩ (phiOf .gaussian 1 1 h.phi)) rfl
      (fun _ => rfl) mem w
    rw [e]
    show (∑ i ∈ range 1, (1 : ℝ) * (∑ m' ∈ range 1, m (.w [0, m']) * phiOf .gaussian 1 1 h.phi m' i) + 0) = _
    have hphi : phiOf .gaussian 1 1 h.phi 0 0 = h.phi 0 0 / ((1 : ℕ) : ℝ) := rfl
    rw [sum_range_one, sum_range_one, hm, hphi]
    simp
  refine ⟨w * (hid 1).phi 0 0, w * (hid' 1).phi 0 0, ⟨net, _, loaded, _, _, h1, h4, h5, h3 hid, (h7 hid').trans (h3 hid'),
    Nat.one_pos, rfl, hval (hid 1) mem, by rw [h6, List.map_singleton, hr]; exact hval (hid' 1) mem'⟩, ?_⟩
  intro he
  exact hne (mul_left_cancel₀ hw he)

/-- **C70 fails (numbers)**: `save` prints the parameters with the default precision of a stream; a network with one weight
that this text does not denote exactly gives another output after loading. -/
theorem rounding_fails (F : NumFormat ℝ) (init init' : ℕ → ℝ) {w : ℝ} (hr : F.round w ≠ w) (hid hid' : ℕ → Hidden)
    (mem mem' : Mem) :
    ∃ y y', SaveLoad F init init' [.input 1 1 1, .output 1 4 0 false] [w] hid hid' mem mem' y y' ∧ y ≠ y' := by
  refine ⟨w, F.round w, ?_, fun h => hr h.symm⟩
  have hrun : ∃ net, run F init [.input 1 1 1, .output 1 4 0 false] empty = .ok net ∧
      net.P = some 1 ∧ ∀ h v, sem h { net with params := v } = some ⟨1, [.fullyConnected 1 false .linear ⟨0, 0, 0⟩], false⟩ :=
    ⟨_, rfl, rfl, fun h v => rfl⟩
  obtain ⟨net, h1, h2, h3⟩ := hrun
  obtain ⟨saved, loaded, h4, rfl, h5, h6, h7⟩ := loaded_same F init init' _ (by simp [Cmd.WordArgs]) h1 h2
    (by simp [Exact, Cmd.round, F.round_zero]) [w] rfl
  have hval : ∀ (mem : Mem) (w : ℝ), Sem.predict ⟨1, [.fullyConnected 1 false .linear ⟨0, 0, 0⟩], false⟩ mem [w] 1
      (fun _ _ => 1) 0 0 = w := by
    intro mem w
    obtain ⟨m, hm, e⟩ := predict_one (.fullyConnected 1 false .linear ⟨0, 0, 0⟩) rfl
      (fun w => maxNormUpdate_nonpos (le_refl _) w) mem w
    rw [e]
    show (∑ i ∈ range 1, (1 : ℝ) * m (.w [0, i]) + 0) = _
    rw [sum_range_one, hm]
    simp
  exact ⟨net, _, loaded, _, _, h1, h4, h5, h3 hid [w], (h7 hid').trans (h3 hid' [w]), Nat.one_pos, rfl, hval mem w,
    by rw [h6, List.map_singleton]; exact hval mem' _⟩

/-! ## The hypotheses are met -/

/-- A number format for real numbers that prints the integer part. -/
def realFormat : NumFormat ℝ where
  fmt := fun x => printInt ⌊x⌋
  scan := fun l => ((scanInt l).1.map (fun z : ℤ => (z : ℝ)), (scanInt l).2)
  atof := fun l => (atoi l : ℝ)
  round := fun x => (⌊x⌋ : ℝ)
  fmt_ne := fun x => printInt_ne_nil _
  fmt_no_space := fun x => printInt_no_space _
  scan_fmt := fun x rest h => by rw [scanInt_printInt _ rest (not_digit_head h)]; rfl
  scan_le := fun l => scanInt_le l
  atof_fmt := fun x => by rw [atoi_printInt]
  round_zero := by simp
  fmt_int := fun z _ => by simp

/-- A convolutional network with pooling and dropout. -/
def exampleNet : List (Cmd ℝ) :=
  [.regularization 0 1 0, .input 1 6 6, .convolutional 2 3 3 1 1 true, .maxPooling 2 2, .dropout 0, .output 3 0 1 true,
    .errorFunction 2]

/-- It satisfies the hypotheses of `loaded_predicts_exact`. -/
example (init : ℕ → ℝ) : ∃ net, run realFormat init exampleNet empty = .ok net ∧ net.P = some net.nParams ∧
    net.nParams = 47 ∧ Described net.layers ∧ (∀ c ∈ exampleNet, Kept c) ∧ (∀ c ∈ exampleNet, c.WordArgs) ∧
    Exact realFormat exampleNet ∧ ∀ x ∈ List.replicate 47 (-3 : ℝ), realFormat.round x = x := by
  refine ⟨_, rfl, rfl, rfl, ⟨1, 6, 6, ⟨0, 1, 0⟩, [(.convolutional 2 3 3 1 1 true, ⟨0, 1, 0⟩),
    (.maxPooling 2 2, ⟨0, 1, 0⟩), (.dropout 0, ⟨0, 1, 0⟩), (.output 3 0 1 true, ⟨0, 1, 0⟩)], rfl, by norm_num, by norm_num,
    by norm_num, ?_⟩, ?_, ?_, ?_, ?_⟩
  · intro l hl
    simp only [List.mem_cons, List.not_mem_nil, or_false] at hl
    rcases hl with rfl | rfl | rfl | rfl <;> simp
  · simp [exampleNet, Kept]
  · simp [exampleNet, Cmd.WordArgs]
  · simp [Exact, exampleNet, Cmd.round, realFormat]
  · intro x hx
    rw [List.eq_of_mem_replicate hx]
    show ((⌊(-3 : ℝ)⌋ : ℤ) : ℝ) = -3
    rw [show (-3 : ℝ) = ((-3 : ℤ) : ℝ) by norm_num, Int.floor_intCast]

/-- An `Extreme` layer whose two draws are 1 and 2. -/
example (init init' : ℕ → ℝ) (mem mem' : Mem) : ∃ y y', SaveLoad realFormat init init' (twoLayers (.extreme 1 4 1 false)) [1]
    (fun _ => ⟨fun _ _ => 1, fun _ _ => 0, fun _ => 1, fun _ => 0⟩)
    (fun _ => ⟨fun _ _ => 2, fun _ _ => 0, fun _ => 1, fun _ => 0⟩) mem mem' y y' ∧ y ≠ y' :=
  extreme_fails realFormat init init' one_ne_zero (by simp [realFormat]) one_ne_zero (by simp [realFormat])
    (d := 1) (d' := 2) (by norm_num) _ _ (by norm_num) (by norm_num) mem mem'

/-- The weight `1 / 2` in this format. -/
example (init init' : ℕ → ℝ) (hid hid' : ℕ → Hidden) (mem mem' : Mem) : ∃ y y', SaveLoad realFormat init init'
    [.input 1 1 1, .output 1 4 0 false] [1 / 2] hid hid' mem mem' y y' ∧ y ≠ y' :=
  rounding_fails realFormat init init' (by norm_num [realFormat]) hid hid' mem mem'

end

end Verif.NetSem
