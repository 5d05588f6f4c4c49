import Verif.Props.LoadedFails
import Verif.Props.Robust
import Verif.Props.Formatter

/-!
# A network that was saved with few digits: C116, second part

`loaded_predicts_partial` (C70) says that a loaded network computes what the saved one would compute with rounded
numbers.  Here the outputs of the loaded network are compared with those of the saved one.
-/

namespace Verif.NetSem

open Finset Verif.NN Verif.NetFile Verif.Text

noncomputable section

theorem facts_of_run {F : NumFormat ℝ} {init : ℕ → ℝ} {cs : List (Cmd ℝ)} {net : NetFile.Net ℝ} {hid : ℕ → Hidden} {S : Sem}
    (hrun : run F init cs empty = .ok net) (hd : Described net.layers) (hk : ∀ c ∈ cs, Kept c) (hsem : sem hid net = some S) :
    FitsFrom S.D S.kinds ∧ countFrom S.D S.kinds = net.nParams ∧ ∀ k ∈ S.kinds, k.Visible := by
  have hlay : net.layers = layersOf (empty : NetFile.Net ℝ).reg cs := (run_layers F init cs hrun).1
  have hinv : Inv net := Inv.run (Or.inl ⟨rfl, rfl, rfl⟩) hrun
  have hm : ∀ l ∈ net.layers, l.1 ∈ cs ∧ (∀ e, l.1 ≠ .errorFunction e) ∧ ∀ x y z, l.1 ≠ .regularization x y z := by
    intro l hl
    rw [hlay] at hl
    exact layersOf_mem hl
  obtain ⟨S', s1, s2, s3, s4⟩ := sem_facts hinv hd (fun l hl => (hm l hl).2) hid
  rw [hsem] at s1
  injection s1 with s1
  subst s1
  exact ⟨s2, s3, (s4 fun l hl => hk _ (hm l hl).1).1⟩

/-- **C116 (files)**: for every kind of network and every bound `B` there is a number `L` such that, with a number format of
relative precision `η`, the loaded network gives the outputs of the saved one up to `L (η B + jump)`, for all parameters and
inputs between `-B` and `B`.  The hyperparameters of the layers must have exact texts. -/
theorem loaded_close_partial (S : Sem) (hr : ∀ k ∈ S.kinds, k.Regular) (N n : ℕ) (B : ℝ) (hB0 : 0 ≤ B) :
    ∃ L, 0 ≤ L ∧ ∀ (F : NumFormat ℝ) (init init' : ℕ → ℝ) (cs : List (Cmd ℝ)) (net : NetFile.Net ℝ) (hid₀ : ℕ → Hidden)
      (η : ℝ) (v : List ℝ), (∀ c ∈ cs, c.WordArgs) → run F init cs empty = .ok net → net.P = some net.nParams →
      Described net.layers → (∀ c ∈ cs, Kept c) → Exact F cs → sem hid₀ net = some S → v.length = net.nParams →
      0 ≤ η → η ≤ 1 → (∀ x ∈ v, |x| ≤ B ∧ |F.round x - x| ≤ η * |x|) →
      ∃ saved loaded, setParameters net v = .ok saved ∧
        Loads F init' empty (IStream.of (save F saved)) (.ok loaded) ∧
        ∀ (hid hid' : ℕ → Hidden), sem hid saved = some S ∧ sem hid' loaded = some S ∧
          ∀ (mem mem' : Mem) (X : Batch), (∀ i < S.D, |X n i| ≤ B) → ∀ j < S.net.outputs,
            |S.predict mem' loaded.params N X n j - S.predict mem saved.params N X n j| ≤ L * (η * B + jump) := by
  by_cases hf : FitsFrom S.D S.kinds
  swap
  · refine ⟨0, le_refl _, ?_⟩
    intro F init init' cs net hid₀ η v hcs hrun hp hd hk hex hsem hv hη hη1 hx
    exact absurd (facts_of_run hrun hd hk hsem).1 hf
  obtain ⟨L, hL, h⟩ := robust_partial S.ce hf hr (fun _ _ => 0) N n (2 * B)
  refine ⟨L, hL, ?_⟩
  intro F init init' cs net hid₀ η v hcs hrun hp hd hk hex hsem hv hη hη1 hx
  obtain ⟨saved, loaded, S', h1, h2, h3⟩ := loaded_predicts_partial F init init' cs hcs hrun hp hd hk v hv
  have hs : saved = { net with params := v } := by
    rw [setParameters, hp] at h1
    simp only [hv, le_refl, if_true, Outcome.ok.injEq] at h1
    rw [← h1, ← hp]
  have hround : roundNet F saved = { net with params := v.map F.round } := by
    have e := roundNet_exact (v := []) hrun hex (by simp)
    rw [hs]
    simp only [roundNet, List.map_nil, NetFile.Net.mk.injEq, and_true] at e ⊢
    tauto
  have hsaved : ∀ hid, sem hid saved = sem hid (roundNet F saved) := fun hid => by
    rw [hround, hs]
    exact sem_congr rfl rfl rfl hid
  have hSS : S' = S := by
    have e1 := (h3 hid₀ hid₀).1
    rw [hround, sem_congr (A := { net with params := v.map F.round }) (B := net) rfl rfl rfl hid₀, hsem] at e1
    injection e1 with e1
    exact e1.symm
  subst hSS
  refine ⟨saved, loaded, h1, h2, fun hid hid' => ⟨(hsaved hid).trans (h3 hid hid').1, (h3 hid hid').2.1, ?_⟩⟩
  intro mem mem' X hX j hj
  obtain ⟨_, hcount, hvis⟩ := facts_of_run hrun hd hk hsem
  have hP : (buildNet S'.D S'.kinds S'.ce).P = v.length := by
    rw [(parameters_one_to_one S'.D S'.kinds S'.ce).2.2.2.2, hcount, hv]
  have hpar : (roundNet F saved).params = v.map F.round := by rw [hround]
  have hpar' : saved.params = v := by rw [hs]
  have e1 : S'.predict mem' loaded.params N X n j = S'.predict (fun _ _ => 0) (v.map F.round) N X n j := by
    rw [(h3 hid hid').2.2 (fun _ _ => 0) mem' N X n j hj, hpar]
  have e2 : S'.predict mem saved.params N X n j = S'.predict (fun _ _ => 0) v N X n j := by
    rw [hpar']
    exact parameters_determine S'.ce hf hvis mem (fun _ _ => 0) (by rw [hP]) N (fun _ _ => rfl) hj
  rw [e1, e2]
  have hB : 0 ≤ η * B := mul_nonneg hη hB0
  have key := h (η * B) (v.map F.round) v X X hB ⟨⟨by rw [hP]; simp, by rw [hP]⟩, ?_, ?_⟩ j hj
  · exact key
  · intro i hi
    rw [hP] at hi
    have hg : v.getD i 0 = v[i] := by simp [List.getD, hi]
    have hg' : (v.map F.round).getD i 0 = F.round v[i] := by simp [List.getD, hi]
    obtain ⟨a1, a2⟩ := hx v[i] (List.getElem_mem hi)
    have a4 : η * |v[i]| ≤ η * B := mul_le_mul_of_nonneg_left a1 hη
    have a5 : η * B ≤ 1 * B := mul_le_mul_of_nonneg_right hη1 hB0
    show |(v.map F.round).getD i 0| ≤ _ ∧ |v.getD i 0| ≤ _ ∧ |(v.map F.round).getD i 0 - v.getD i 0| ≤ _
    rw [hg, hg']
    refine ⟨?_, by linarith, a2.trans a4⟩
    have := abs_add_le (F.round v[i] - v[i]) v[i]
    rw [sub_add_cancel] at this
    linarith
  · intro i hi
    have := hX i hi
    refine ⟨this.trans (by linarith), this.trans (by linarith), ?_⟩
    show |X n i - X n i| ≤ _
    rw [sub_self, abs_zero]
    exact hB

/-- **C116 (files, digits)**: a format with `d` significant digits; the difference shrinks with every digit until only the jump of
the logistic function is left. -/
theorem loaded_digits_partial (S : Sem) (hr : ∀ k ∈ S.kinds, k.Regular) (N n : ℕ) (B : ℝ) (hB0 : 0 ≤ B) :
    ∃ L, 0 ≤ L ∧ ∀ (F : NumFormat ℝ) (init init' : ℕ → ℝ) (cs : List (Cmd ℝ)) (net : NetFile.Net ℝ) (hid₀ : ℕ → Hidden)
      (d : ℕ) (v : List ℝ), (∀ c ∈ cs, c.WordArgs) → run F init cs empty = .ok net → net.P = some net.nParams →
      Described net.layers → (∀ c ∈ cs, Kept c) → Exact F cs → sem hid₀ net = some S → v.length = net.nParams →
      1 ≤ d → (∀ x ∈ v, |x| ≤ B ∧ Formatter.Significant x d (F.round x)) →
      ∃ saved loaded, setParameters net v = .ok saved ∧
        Loads F init' empty (IStream.of (save F saved)) (.ok loaded) ∧
        ∀ (hid hid' : ℕ → Hidden), sem hid saved = some S ∧ sem hid' loaded = some S ∧
          ∀ (mem mem' : Mem) (X : Batch), (∀ i < S.D, |X n i| ≤ B) → ∀ j < S.net.outputs,
            |S.predict mem' loaded.params N X n j - S.predict mem saved.params N X n j| ≤ L * (1 / 10 ^ d + jump) := by
  obtain ⟨L, hL, h⟩ := loaded_close_partial S hr N n B hB0
  refine ⟨L * (5 * B + 1), by positivity, ?_⟩
  intro F init init' cs net hid₀ d v hcs hrun hp hd hk hex hsem hv h1 hx
  have h10 : (10 : ℝ) ≤ 10 ^ d := by
    have := pow_le_pow_right₀ (show (1 : ℝ) ≤ 10 by norm_num) h1
    simpa using this
  have hpos : (0 : ℝ) < 10 ^ d := by positivity
  have hη1 : (10 / 10 ^ d / 2 : ℝ) ≤ 1 := by
    have : (10 / 10 ^ d : ℝ) ≤ 1 := (div_le_one hpos).2 h10
    linarith
  obtain ⟨saved, loaded, e1, e2, e3⟩ := h F init init' cs net hid₀ (10 / 10 ^ d / 2) v hcs hrun hp hd hk hex hsem hv (by positivity)
    hη1 fun x hxv => ⟨(hx x hxv).1, by
      have := (hx x hxv).2
      unfold Formatter.Significant at this
      linarith⟩
  refine ⟨saved, loaded, e1, e2, fun hid hid' => ⟨(e3 hid hid').1, (e3 hid hid').2.1, fun mem mem' X hX j hj => ?_⟩⟩
  refine ((e3 hid hid').2.2 mem mem' X hX j hj).trans ?_
  have hj := jump_small.1
  rw [mul_assoc]
  refine mul_le_mul_of_nonneg_left ?_ hL
  have e : (10 / 10 ^ d / 2 * B : ℝ) = 5 * B * (1 / 10 ^ d) := by ring
  rw [e]
  have h3 : (0 : ℝ) ≤ 1 / 10 ^ d := by positivity
  nlinarith [mul_nonneg hB0 hj.le]

/-- The network of the example in `Verif.Props.LoadedFails` with all parameters 21 / 20 and the format used there: the texts have one
significant digit and do not denote the parameters. -/
example (init : ℕ → ℝ) (hid : ℕ → Hidden) : ∃ net S, run realFormat init exampleNet empty = .ok net ∧ sem hid net = some S ∧
    (∀ k ∈ S.kinds, k.Regular) ∧ ∀ x ∈ List.replicate 47 (21 / 20 : ℝ), |x| ≤ 2 ∧
      Formatter.Significant x 1 (realFormat.round x) ∧ realFormat.round x ≠ x := by
  refine ⟨_, _, rfl, rfl, ?_, ?_⟩
  · intro k hk
    simp only [List.mem_cons, List.not_mem_nil, or_false] at hk
    rcases hk with rfl | rfl | rfl | rfl <;> trivial
  · intro x hx
    rw [List.eq_of_mem_replicate hx]
    have e : realFormat.round (21 / 20 : ℝ) = 1 := by
      show ((⌊(21 / 20 : ℝ)⌋ : ℤ) : ℝ) = 1
      rw [show ⌊(21 / 20 : ℝ)⌋ = 1 by rw [Int.floor_eq_iff]; norm_num]
      norm_num
    rw [e]
    unfold Formatter.Significant
    norm_num [abs_of_nonneg, abs_of_neg]

end

end Verif.NetSem
