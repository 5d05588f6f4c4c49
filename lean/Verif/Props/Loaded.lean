import Verif.Model.NetSem
import Verif.Props.NetFile
import Verif.Props.Determined

/-!
# A loaded network computes what the saved one computed: C70

`net_round_trip` (C15) compares the two networks as far as the file format is concerned.  Here the comparison is made for
the outputs.  The parameter vector determines them (`parameters_determine`), provided that all weights are in it.
-/

namespace Verif.NetSem

open Finset Verif.NN Verif.NetFile Verif.Text

set_option linter.unusedSectionVars false

noncomputable section

/-! ## Spec -/

/-- Spec: everything that decides what the layer computes is in the file: its hyperparameters and its weights.  This is not
the case for `Extreme` and for random compression matrices (drawn in the constructor), for `IntrinsicPlasticity` (with
parameters of its own) and for an RBM without `backprop`. -/
def Kept : Cmd ℝ → Prop
  | .extreme .. => False
  | .intrinsicPlasticity .. => False
  | .rbm _ _ _ backprop => backprop = true
  | .compressed _ _ _ c _ _ => c = "dct".toList ∨ c = "average".toList ∨ c = "edge".toList
  | .compressedOutput _ _ _ c _ _ => c = "dct".toList ∨ c = "average".toList ∨ c = "edge".toList
  | _ => True

/-- Spec: the network with every number replaced by the number that its text denotes. -/
def roundNet (F : NumFormat ℝ) (A : NetFile.Net ℝ) : NetFile.Net ℝ :=
  { A with
    layers := A.layers.map fun l => (l.1.round F, l.2.round F)
    params := A.params.map F.round }

/-- Spec: the first layer is an input layer with sizes that are not negative; no other layer is an input layer or an
`AlphaBetaFilter`. -/
def Described (ls : List (Cmd ℝ × NetFile.Reg ℝ)) : Prop :=
  ∃ a b c r ls', ls = (.input a b c, r) :: ls' ∧ 0 ≤ a ∧ 0 ≤ b ∧ 0 ≤ c ∧
    ∀ l ∈ ls', (∀ x y z, l.1 ≠ .input x y z) ∧ ∀ x y, l.1 ≠ .alphaBetaFilter x y

/-- Spec: the text of every number in the calls denotes the number itself. -/
def Exact (F : NumFormat ℝ) (cs : List (Cmd ℝ)) : Prop := ∀ c ∈ cs, c.round F = c

/-! ## Shapes -/

theorem alloc_ok {z : ℤ} {n : ℕ} (h : alloc z = .ok n) : 0 ≤ z ∧ n = z.toNat := by
  unfold alloc at h
  split at h
  · cases h
  · injection h with h
    exact ⟨by omega, h.symm⟩

theorem sizeChecks_ok {fm R C iR iC mR mC : ℤ} {u : Unit} (h : sizeChecks fm R C iR iC mR mC = .ok u) :
    0 < iR * iC ∧ 0 < R ∧ 0 < C ∧ 0 < mR ∧ 0 < mC := by
  unfold sizeChecks at h
  obtain ⟨_, _, h⟩ := Outcome.bind_eq_ok.mp h
  split at h
  · cases h
  · obtain ⟨_, h1, h⟩ := Outcome.bind_eq_ok.mp h
    obtain ⟨_, h2, h⟩ := Outcome.bind_eq_ok.mp h
    obtain ⟨_, h3, h⟩ := Outcome.bind_eq_ok.mp h
    obtain ⟨_, h4, h⟩ := Outcome.bind_eq_ok.mp h
    obtain ⟨_, h5, h⟩ := Outcome.bind_eq_ok.mp h
    have chk : ∀ {p : Prop} [Decidable p] {u : Unit}, Outcome.check p = .ok u → p := by
      intro p _ u hp
      by_contra hn
      rw [Outcome.check_false hn] at hp
      cases hp
    exact ⟨chk h1, chk h2, chk h3, chk h5, chk h⟩

theorem toNat_three {a b c : ℤ} (ha : 0 ≤ a) (hb : 0 ≤ b) (hc : 0 ≤ c) : (outputs [a, b, c]).toNat = a.toNat * b.toNat * c.toNat := by
  have e : outputs [a, b, c] = a * b * c := by simp [outputs]
  rw [e, Int.toNat_mul (mul_nonneg ha hb) hc, Int.toNat_mul ha hb]

theorem toNat_one (a : ℤ) : (outputs [a]).toNat = a.toNat := by
  have e : outputs [a] = a := by simp [outputs]
  rw [e]

theorem pos_kernel {a k : ℤ} (ha : 0 ≤ a) (h : 0 < a.tdiv k) : ∃ m : ℕ, k = m ∧ 0 < m := by
  have hk : 0 < k := by
    by_contra hn
    have h1 : 0 ≤ a.tdiv (-k) := Int.tdiv_nonneg ha (by omega)
    rw [Int.tdiv_neg] at h1
    omega
  exact ⟨k.toNat, by omega, by omega⟩

/-- `initialize` of a layer and the layer that it creates agree on number of outputs and parameters; the image layers that
`initialize` accepts fit. -/
theorem link {h : Hidden} {dims dims' : List ℤ} {r : NetFile.Reg ℝ} {c : Cmd ℝ} {k : NN.Kind} {n : ℕ}
    (hd : ∀ z ∈ dims, 0 ≤ z) (hk : kindOf h dims r c = some k) (hb : buildOn dims c = .ok (dims', n)) :
    k.Fits (outputs dims).toNat ∧ (k.layer (outputs dims).toNat).outputs = (outputs dims').toNat ∧
      k.count (outputs dims).toNat = n ∧ ∀ z ∈ dims', 0 ≤ z := by
  have full : ∀ {u : ℤ} {b : Bool} {act : Act} {reg : NN.Reg}, k = .fullyConnected u.toNat b act reg →
      buildFullyConnected dims u b = .ok (dims', n) → k.Fits (outputs dims).toNat ∧
        (k.layer (outputs dims).toNat).outputs = (outputs dims').toNat ∧
        k.count (outputs dims).toNat = n ∧ ∀ z ∈ dims', 0 ≤ z := by
    intro u b act reg e hb
    subst e
    unfold buildFullyConnected at hb
    obtain ⟨I, h1, hb⟩ := Outcome.bind_eq_ok.mp hb
    obtain ⟨J, h2, hb⟩ := Outcome.bind_eq_ok.mp hb
    obtain ⟨_, rfl⟩ := alloc_ok h1
    obtain ⟨hu, rfl⟩ := alloc_ok h2
    injection hb with hb
    injection hb with e1 e2
    subst e1 e2
    refine ⟨trivial, (toNat_one u).symm, ?_, by simpa using hu⟩
    cases b <;> rfl
  have comp : ∀ {u p : ℤ} {name : List Char} {b : Bool} {act : Act} {reg : NN.Reg} {phi : Batch},
      k = .compressed u.toNat p.toNat b act reg phi →
      buildCompressed dims u p name = .ok (dims', n) → k.Fits (outputs dims).toNat ∧
        (k.layer (outputs dims).toNat).outputs = (outputs dims').toNat ∧
        k.count (outputs dims).toNat = n ∧ ∀ z ∈ dims', 0 ≤ z := by
    intro u p name b act reg phi e hb
    subst e
    unfold buildCompressed at hb
    obtain ⟨I, h1, hb⟩ := Outcome.bind_eq_ok.mp hb
    obtain ⟨J, h2, hb⟩ := Outcome.bind_eq_ok.mp hb
    obtain ⟨M, h3, hb⟩ := Outcome.bind_eq_ok.mp hb
    obtain ⟨_, rfl⟩ := alloc_ok h1
    obtain ⟨hu, rfl⟩ := alloc_ok h2
    obtain ⟨_, rfl⟩ := alloc_ok h3
    split at hb
    · cases hb
    split at hb
    · cases hb
    injection hb with hb
    injection hb with e1 e2
    subst e1 e2
    exact ⟨trivial, (toNat_one u).symm, rfl, by simpa using hu⟩
  cases c with
  | fullyConnected u a s b =>
    injection hk with hk
    exact full hk.symm hb
  | output u a s b =>
    injection hk with hk
    exact full hk.symm hb
  | compressed u p a c s b =>
    injection hk with hk
    exact comp hk.symm hb
  | compressedOutput u p a c s b =>
    injection hk with hk
    exact comp hk.symm hb
  | extreme u a s b =>
    injection hk with hk
    subst hk
    obtain ⟨I, h1, hb⟩ := Outcome.bind_eq_ok.mp hb
    obtain ⟨J, h2, hb⟩ := Outcome.bind_eq_ok.mp hb
    obtain ⟨hu, rfl⟩ := alloc_ok h2
    injection hb with hb
    injection hb with e1 e2
    subst e1 e2
    exact ⟨trivial, (toNat_one u).symm, rfl, by simpa using hu⟩
  | intrinsicPlasticity t s =>
    injection hk with hk
    subst hk
    obtain ⟨I, h1, hb⟩ := Outcome.bind_eq_ok.mp hb
    obtain ⟨_, rfl⟩ := alloc_ok h1
    injection hb with hb
    injection hb with e1 e2
    subst e1 e2
    refine ⟨trivial, ?_, rfl, by simp⟩
    rw [toNat_one]
    rfl
  | rbm H cd s bp =>
    injection hk with hk
    subst hk
    obtain ⟨I, h1, hb⟩ := Outcome.bind_eq_ok.mp hb
    obtain ⟨J, h2, hb⟩ := Outcome.bind_eq_ok.mp hb
    obtain ⟨_, rfl⟩ := alloc_ok h1
    obtain ⟨hu, rfl⟩ := alloc_ok h2
    injection hb with hb
    injection hb with e1 e2
    subst e1 e2
    exact ⟨trivial, (toNat_one H).symm, rfl, by simpa using hu⟩
  | sae H be rho a =>
    injection hk with hk
    subst hk
    obtain ⟨I, h1, hb⟩ := Outcome.bind_eq_ok.mp hb
    obtain ⟨J, h2, hb⟩ := Outcome.bind_eq_ok.mp hb
    obtain ⟨_, rfl⟩ := alloc_ok h1
    obtain ⟨hu, rfl⟩ := alloc_ok h2
    injection hb with hb
    injection hb with e1 e2
    subst e1 e2
    exact ⟨trivial, (toNat_one H).symm, rfl, by simpa using hu⟩
  | dropout p =>
    injection hk with hk
    subst hk
    obtain ⟨I, h1, hb⟩ := Outcome.bind_eq_ok.mp hb
    injection hb with hb
    injection hb with e1 e2
    subst e1 e2
    exact ⟨trivial, rfl, rfl, hd⟩
  | convolutional f kr kc a s b =>
    simp only [kindOf] at hk
    split at hk
    · rename_i fm rows cols
      injection hk with hk
      subst hk
      have hfm : 0 ≤ fm := hd fm (by simp)
      have hro : 0 ≤ rows := hd rows (by simp)
      have hco : 0 ≤ cols := hd cols (by simp)
      change buildConvolutional _ f kr kc b = _ at hb
      unfold buildConvolutional at hb
      obtain ⟨_, h1, hb⟩ := Outcome.bind_eq_ok.mp hb
      simp only [dims3, Outcome.ok_bind] at hb
      obtain ⟨nfo, h2, hb⟩ := Outcome.bind_eq_ok.mp hb
      obtain ⟨nfi, h3, hb⟩ := Outcome.bind_eq_ok.mp hb
      obtain ⟨nkr, h4, hb⟩ := Outcome.bind_eq_ok.mp hb
      obtain ⟨nkc, h5, hb⟩ := Outcome.bind_eq_ok.mp hb
      obtain ⟨u, h6, hb⟩ := Outcome.bind_eq_ok.mp hb
      obtain ⟨hf, rfl⟩ := alloc_ok h2
      obtain ⟨_, rfl⟩ := alloc_ok h3
      obtain ⟨hkr, rfl⟩ := alloc_ok h4
      obtain ⟨hkc, rfl⟩ := alloc_ok h5
      obtain ⟨_, hR, hC, _, _⟩ := sizeChecks_ok h6
      injection hb with hb
      injection hb with e1 e2
      subst e1 e2
      rw [Int.tdiv_eq_ediv_of_nonneg hkr] at hR ⊢
      rw [Int.tdiv_eq_ediv_of_nonneg hkc] at hC ⊢
      refine ⟨⟨?_, ?_⟩, ?_, ?_, ?_⟩
      · rw [toNat_three hfm hro hco]
        rfl
      · constructor
        · show kr.toNat / 2 * 2 < rows.toNat
          omega
        · show kc.toNat / 2 * 2 < cols.toNat
          omega
      · rw [toNat_three hf hR.le hC.le]
        have er : rows.toNat - kr.toNat / 2 * 2 = (rows - kr / 2 * 2).toNat := by omega
        have ec : cols.toNat - kc.toNat / 2 * 2 = (cols - kc / 2 * 2).toNat := by omega
        rw [← er, ← ec]
        rfl
      · cases b <;> rfl
      · intro z hz
        simp only [List.mem_cons, List.not_mem_nil, or_false] at hz
        rcases hz with rfl | rfl | rfl
        · exact hf
        · exact hR.le
        · exact hC.le
    · cases hk
  | subsampling kr kc a s b =>
    simp only [kindOf] at hk
    split at hk
    · rename_i fm rows cols
      injection hk with hk
      subst hk
      have hfm : 0 ≤ fm := hd fm (by simp)
      have hro : 0 ≤ rows := hd rows (by simp)
      have hco : 0 ≤ cols := hd cols (by simp)
      change buildSubsampling _ kr kc b = _ at hb
      unfold buildSubsampling at hb
      obtain ⟨_, h1, hb⟩ := Outcome.bind_eq_ok.mp hb
      simp only [dims3, Outcome.ok_bind] at hb
      split at hb
      · cases hb
      rename_i h0
      push Not at h0
      obtain ⟨nfm, h2, hb⟩ := Outcome.bind_eq_ok.mp hb
      obtain ⟨nor, h3, hb⟩ := Outcome.bind_eq_ok.mp hb
      obtain ⟨noc, h4, hb⟩ := Outcome.bind_eq_ok.mp hb
      obtain ⟨u, h6, hb⟩ := Outcome.bind_eq_ok.mp hb
      obtain ⟨_, rfl⟩ := alloc_ok h2
      obtain ⟨_, rfl⟩ := alloc_ok h3
      obtain ⟨_, rfl⟩ := alloc_ok h4
      obtain ⟨_, hR, hC, hmr, hmc⟩ := sizeChecks_ok h6
      injection hb with hb
      injection hb with e1 e2
      subst e1 e2
      obtain ⟨kr, rfl, hkr⟩ := pos_kernel hro hR
      obtain ⟨kc, rfl, hkc⟩ := pos_kernel hco hC
      obtain ⟨rows, rfl⟩ := Int.eq_ofNat_of_zero_le hro
      obtain ⟨cols, rfl⟩ := Int.eq_ofNat_of_zero_le hco
      refine ⟨⟨?_, ?_⟩, ?_, ?_, ?_⟩
      · rw [toNat_three hfm hro hco]
        rfl
      · refine ⟨hkr, ?_, hkc, ?_⟩
        · show kr ≤ rows
          omega
        · show kc ≤ cols
          omega
      · rw [toNat_three hfm hR.le hC.le]
        rfl
      · cases b <;> rfl
      · intro z hz
        simp only [List.mem_cons, List.not_mem_nil, or_false] at hz
        rcases hz with rfl | rfl | rfl
        · exact hfm
        · exact hR.le
        · exact hC.le
    · cases hk
  | maxPooling kr kc =>
    simp only [kindOf] at hk
    split at hk
    · rename_i fm rows cols
      injection hk with hk
      subst hk
      have hfm : 0 ≤ fm := hd fm (by simp)
      have hro : 0 ≤ rows := hd rows (by simp)
      have hco : 0 ≤ cols := hd cols (by simp)
      change buildMaxPooling _ kr kc = _ at hb
      unfold buildMaxPooling at hb
      obtain ⟨_, h1, hb⟩ := Outcome.bind_eq_ok.mp hb
      simp only [dims3, Outcome.ok_bind] at hb
      split at hb
      · cases hb
      obtain ⟨u, h6, hb⟩ := Outcome.bind_eq_ok.mp hb
      obtain ⟨_, hR, hC, hmr, hmc⟩ := sizeChecks_ok h6
      injection hb with hb
      injection hb with e1 e2
      subst e1 e2
      obtain ⟨kr, rfl, hkr⟩ := pos_kernel hro hR
      obtain ⟨kc, rfl, hkc⟩ := pos_kernel hco hC
      obtain ⟨rows, rfl⟩ := Int.eq_ofNat_of_zero_le hro
      obtain ⟨cols, rfl⟩ := Int.eq_ofNat_of_zero_le hco
      refine ⟨⟨?_, ?_⟩, ?_, rfl, ?_⟩
      · rw [toNat_three hfm hro hco]
        rfl
      · refine ⟨hkr, ?_, hkc, ?_⟩
        · show kr ≤ rows
          omega
        · show kc ≤ cols
          omega
      · rw [toNat_three hfm hR.le hC.le]
        rfl
      · intro z hz
        simp only [List.mem_cons, List.not_mem_nil, or_false] at hz
        rcases hz with rfl | rfl | rfl
        · exact hfm
        · exact hR.le
        · exact hC.le
    · cases hk
  | localResponseNormalization kk nn al be =>
    simp only [kindOf] at hk
    split at hk
    · rename_i fm rows cols
      injection hk with hk
      subst hk
      have hfm : 0 ≤ fm := hd fm (by simp)
      have hro : 0 ≤ rows := hd rows (by simp)
      have hco : 0 ≤ cols := hd cols (by simp)
      obtain ⟨_, h1, hb⟩ := Outcome.bind_eq_ok.mp hb
      simp only [dims3, Outcome.ok_bind] at hb
      obtain ⟨_, _, hb⟩ := Outcome.bind_eq_ok.mp hb
      injection hb with hb
      injection hb with e1 e2
      subst e1 e2
      refine ⟨?_, ?_, rfl, hd⟩
      · rw [toNat_three hfm hro hco]
        rfl
      · rw [toNat_three hfm hro hco]
        rfl
    · cases hk
  | input a b c => cases hk
  | alphaBetaFilter a b => cases hk
  | errorFunction e => cases hk
  | regularization a b c => cases hk

/-- A layer has one or three dimensions. -/
def Shape (d : List ℤ) : Prop := d.length = 1 ∨ d.length = 3

/-- Every layer that `initialize` accepts is described. -/
theorem link_some {dims dims' : List ℤ} {c : Cmd ℝ} {n : ℕ} (hs : Shape dims) (hb : buildOn dims c = .ok (dims', n))
    (h1 : ∀ x y z, c ≠ .input x y z) (h2 : ∀ x y, c ≠ .alphaBetaFilter x y)
    (h3 : ∀ e, c ≠ .errorFunction e) (h4 : ∀ x y z, c ≠ .regularization x y z) (h : Hidden) (r : NetFile.Reg ℝ) :
    (∃ k, kindOf h dims r c = some k) ∧ Shape dims' := by
  have one : ∀ {z : ℤ} {m : ℕ}, (Outcome.ok ([z], m) : Outcome (List ℤ × ℕ)) = .ok (dims', n) → Shape dims' := by
    intro z m e
    injection e with e
    injection e with e1 e2
    subst e1
    exact Or.inl rfl
  have full : ∀ {u : ℤ} {b : Bool}, buildFullyConnected dims u b = .ok (dims', n) → Shape dims' := by
    intro u b hb
    unfold buildFullyConnected at hb
    obtain ⟨I, _, hb⟩ := Outcome.bind_eq_ok.mp hb
    obtain ⟨J, _, hb⟩ := Outcome.bind_eq_ok.mp hb
    exact one hb
  have comp : ∀ {u p : ℤ} {name : List Char}, buildCompressed dims u p name = .ok (dims', n) → Shape dims' := by
    intro u p name hb
    unfold buildCompressed at hb
    obtain ⟨I, _, hb⟩ := Outcome.bind_eq_ok.mp hb
    obtain ⟨J, _, hb⟩ := Outcome.bind_eq_ok.mp hb
    obtain ⟨M, _, hb⟩ := Outcome.bind_eq_ok.mp hb
    split at hb
    · cases hb
    split at hb
    · cases hb
    exact one hb
  have three : ∀ {t : ℤ × ℤ × ℤ}, dims3 dims = .ok t → dims = [t.1, t.2.1, t.2.2] := by
    intro t ht
    match dims, hs, ht with
    | [a], _, ht => cases ht
    | [a, b, c], _, ht =>
      injection ht with ht
      subst ht
      rfl
  cases c with
  | fullyConnected u a s b => exact ⟨⟨_, rfl⟩, full hb⟩
  | output u a s b => exact ⟨⟨_, rfl⟩, full hb⟩
  | compressed u p a c s b => exact ⟨⟨_, rfl⟩, comp hb⟩
  | compressedOutput u p a c s b => exact ⟨⟨_, rfl⟩, comp hb⟩
  | extreme u a s b =>
    obtain ⟨I, _, hb⟩ := Outcome.bind_eq_ok.mp hb
    obtain ⟨J, _, hb⟩ := Outcome.bind_eq_ok.mp hb
    exact ⟨⟨_, rfl⟩, one hb⟩
  | intrinsicPlasticity t s =>
    obtain ⟨I, _, hb⟩ := Outcome.bind_eq_ok.mp hb
    exact ⟨⟨_, rfl⟩, one hb⟩
  | rbm H cd s bp =>
    obtain ⟨I, _, hb⟩ := Outcome.bind_eq_ok.mp hb
    obtain ⟨J, _, hb⟩ := Outcome.bind_eq_ok.mp hb
    exact ⟨⟨_, rfl⟩, one hb⟩
  | sae H be rho a =>
    obtain ⟨I, _, hb⟩ := Outcome.bind_eq_ok.mp hb
    obtain ⟨J, _, hb⟩ := Outcome.bind_eq_ok.mp hb
    exact ⟨⟨_, rfl⟩, one hb⟩
  | dropout p =>
    obtain ⟨I, _, hb⟩ := Outcome.bind_eq_ok.mp hb
    injection hb with hb
    injection hb with e1 e2
    exact ⟨⟨_, rfl⟩, e1 ▸ hs⟩
  | convolutional f kr kc a s b =>
    change buildConvolutional dims f kr kc b = _ at hb
    unfold buildConvolutional at hb
    obtain ⟨_, _, hb⟩ := Outcome.bind_eq_ok.mp hb
    obtain ⟨t, ht, hb⟩ := Outcome.bind_eq_ok.mp hb
    obtain ⟨nfo, _, hb⟩ := Outcome.bind_eq_ok.mp hb
    obtain ⟨nfi, _, hb⟩ := Outcome.bind_eq_ok.mp hb
    obtain ⟨nkr, _, hb⟩ := Outcome.bind_eq_ok.mp hb
    obtain ⟨nkc, _, hb⟩ := Outcome.bind_eq_ok.mp hb
    obtain ⟨u, _, hb⟩ := Outcome.bind_eq_ok.mp hb
    injection hb with hb
    injection hb with e1 e2
    rw [three ht]
    exact ⟨⟨_, rfl⟩, e1 ▸ Or.inr rfl⟩
  | subsampling kr kc a s b =>
    change buildSubsampling dims kr kc b = _ at hb
    unfold buildSubsampling at hb
    obtain ⟨_, _, hb⟩ := Outcome.bind_eq_ok.mp hb
    obtain ⟨t, ht, hb⟩ := Outcome.bind_eq_ok.mp hb
    simp only at hb
    split at hb
    · cases hb
    obtain ⟨nfm, _, hb⟩ := Outcome.bind_eq_ok.mp hb
    obtain ⟨nor, _, hb⟩ := Outcome.bind_eq_ok.mp hb
    obtain ⟨noc, _, hb⟩ := Outcome.bind_eq_ok.mp hb
    obtain ⟨u, _, hb⟩ := Outcome.bind_eq_ok.mp hb
    injection hb with hb
    injection hb with e1 e2
    rw [three ht]
    exact ⟨⟨_, rfl⟩, e1 ▸ Or.inr rfl⟩
  | maxPooling kr kc =>
    change buildMaxPooling dims kr kc = _ at hb
    unfold buildMaxPooling at hb
    obtain ⟨_, _, hb⟩ := Outcome.bind_eq_ok.mp hb
    obtain ⟨t, ht, hb⟩ := Outcome.bind_eq_ok.mp hb
    simp only at hb
    split at hb
    · cases hb
    obtain ⟨u, _, hb⟩ := Outcome.bind_eq_ok.mp hb
    injection hb with hb
    injection hb with e1 e2
    rw [three ht]
    exact ⟨⟨_, rfl⟩, e1 ▸ Or.inr rfl⟩
  | localResponseNormalization kk nn al be =>
    obtain ⟨_, _, hb⟩ := Outcome.bind_eq_ok.mp hb
    obtain ⟨t, ht, hb⟩ := Outcome.bind_eq_ok.mp hb
    obtain ⟨u, _, hb⟩ := Outcome.bind_eq_ok.mp hb
    injection hb with hb
    injection hb with e1 e2
    rw [three ht]
    exact ⟨⟨_, rfl⟩, e1 ▸ Or.inr rfl⟩
  | input a b c => exact absurd rfl (h1 a b c)
  | alphaBetaFilter a b => exact absurd rfl (h2 a b)
  | errorFunction e => exact absurd rfl (h3 e)
  | regularization a b c => exact absurd rfl (h4 a b c)

/-! ## Networks built by calls -/

/-- The layers `ls` were built on top of outputs of shape `dims`; `ds` are the shapes, `m` is the number of parameters. -/
def Built : List ℤ → List (Cmd ℝ × NetFile.Reg ℝ) → List (List ℤ) → ℕ → Prop
  | _, [], [], m => m = 0
  | dims, l :: ls, d :: ds, m => ∃ n m', buildOn dims l.1 = .ok (d, n) ∧ Built d ls ds m' ∧ m = n + m'
  | _, _, _, _ => False

theorem Built.snoc {c : Cmd ℝ} {r : NetFile.Reg ℝ} {d : List ℤ} {n : ℕ} :
    ∀ {ls : List (Cmd ℝ × NetFile.Reg ℝ)} {ds : List (List ℤ)} {dims : List ℤ} {m : ℕ}, Built dims ls ds m →
      buildOn ((dims :: ds).getLast (by simp)) c = .ok (d, n) → Built dims (ls ++ [(c, r)]) (ds ++ [d]) (m + n) := by
  intro ls
  induction ls with
  | nil =>
    intro ds dims m h hb
    cases ds with
    | nil =>
      have hm : m = 0 := h
      subst hm
      exact ⟨n, 0, hb, rfl, by omega⟩
    | cons a ds => exact absurd h (by simp [Built])
  | cons l ls ih =>
    intro ds dims m h hb
    cases ds with
    | nil => exact absurd h (by simp [Built])
    | cons a ds =>
      obtain ⟨n', m', h1, h2, e⟩ := h
      refine ⟨n', m' + n, h1, ih h2 ?_, by omega⟩
      rwa [List.getLast_cons (by simp)] at hb

/-- What holds of every network. -/
def Inv (A : NetFile.Net ℝ) : Prop :=
  (A.layers = [] ∧ A.infos = [] ∧ A.nParams = 0) ∨
    ∃ a b c r ls ds, A.layers = (.input a b c, r) :: ls ∧ A.infos = [a, b, c] :: ds ∧ Built [a, b, c] ls ds A.nParams

theorem Inv.addLayer {A A' : NetFile.Net ℝ} {c : Cmd ℝ} (h : Inv A) (ha : NetFile.addLayer A c = .ok A') : Inv A' := by
  unfold NetFile.addLayer at ha
  obtain ⟨d, h1, ha⟩ := Outcome.bind_eq_ok.mp ha
  obtain ⟨⟨d', n⟩, h2, ha⟩ := Outcome.bind_eq_ok.mp ha
  simp only [Outcome.pure_eq, Outcome.ok.injEq] at ha
  subst ha
  rcases h with ⟨e1, e2, e3⟩ | ⟨a, b, c', r, ls, ds, e1, e2, e3⟩
  · cases c with
    | input a b c =>
      injection h2 with h2
      injection h2 with f1 f2
      subst f1 f2
      exact Or.inr ⟨a, b, c, A.reg, [], [], by simp [e1], by simp [e2], by simp [Built, e3]⟩
    | _ =>
      simp only [lastInfo, e2, List.getLast?_nil] at h1
      cases h1
  · refine Or.inr ⟨a, b, c', r, ls ++ [(c, A.reg)], ds ++ [d'], by simp [e1], by simp [e2], e3.snoc ?_⟩
    cases c with
    | input x y z => exact h2
    | _ =>
      simp only [lastInfo, e2] at h1
      rw [List.getLast?_eq_getLast_of_ne_nil (by simp)] at h1
      exact (congrArg (fun x => buildOn x _) (Outcome.ok.inj h1)).trans h2

theorem Inv.exec {F : NumFormat ℝ} {init : ℕ → ℝ} {A A' : NetFile.Net ℝ} {c : Cmd ℝ} (h : Inv A)
    (ha : NetFile.exec F init A c = .ok A') : Inv A' := by
  have h' : Inv { A with arch := A.arch ++ c.text F } := h
  have out : ∀ {B : NetFile.Net ℝ}, Inv B → initializeNetwork init B = .ok A' → Inv A' := by
    intro B hB hi
    unfold initializeNetwork at hi
    cases hf : B.infos.head? with
    | none => rw [hf] at hi; simp at hi
    | some f =>
      cases hl : B.infos.getLast? with
      | none => rw [hf, hl] at hi; simp at hi
      | some l =>
        rw [hf, hl] at hi
        simp only at hi
        obtain ⟨n1, _, hi⟩ := alloc_bind_ok hi
        obtain ⟨n2, _, hi⟩ := alloc_bind_ok hi
        simp only [Outcome.pure_eq, Outcome.ok.injEq] at hi
        subst hi
        exact hB
  cases c with
  | errorFunction e =>
    simp only [NetFile.exec, Outcome.ok.injEq] at ha
    subst ha
    exact h
  | regularization x y z =>
    simp only [NetFile.exec, Outcome.ok.injEq] at ha
    subst ha
    exact h
  | output u x s y =>
    obtain ⟨B, h1, h2⟩ := Outcome.bind_eq_ok.mp ha
    exact out (h'.addLayer h1) h2
  | compressedOutput u p x y s z =>
    obtain ⟨B, h1, h2⟩ := Outcome.bind_eq_ok.mp ha
    exact out (h'.addLayer h1) h2
  | _ => exact h'.addLayer ha

theorem Inv.run {F : NumFormat ℝ} {init : ℕ → ℝ} {cs : List (Cmd ℝ)} {A A' : NetFile.Net ℝ} (h : Inv A)
    (ha : NetFile.run F init cs A = .ok A') : Inv A' := by
  induction cs generalizing A with
  | nil =>
    injection ha with ha
    exact ha ▸ h
  | cons c cs ih =>
    obtain ⟨B, h1, h2⟩ := Outcome.bind_eq_ok.mp ha
    exact ih (h.exec h1) h2

theorem layersOf_mem {r : NetFile.Reg ℝ} {cs : List (Cmd ℝ)} {l : Cmd ℝ × NetFile.Reg ℝ} (h : l ∈ layersOf r cs) :
    l.1 ∈ cs ∧ (∀ e, l.1 ≠ .errorFunction e) ∧ ∀ x y z, l.1 ≠ .regularization x y z := by
  induction cs generalizing r with
  | nil => cases h
  | cons c cs ih =>
    have layer : layersOf r (c :: cs) = (c, r) :: layersOf r cs → (∀ e, c ≠ .errorFunction e) →
        (∀ x y z, c ≠ .regularization x y z) → l.1 ∈ c :: cs ∧ (∀ e, l.1 ≠ .errorFunction e) ∧
          ∀ x y z, l.1 ≠ .regularization x y z := by
      intro e h1 h2
      rw [e] at h
      rcases List.mem_cons.1 h with rfl | h
      · exact ⟨List.mem_cons_self, h1, h2⟩
      · exact ⟨List.mem_cons_of_mem _ (ih h).1, (ih h).2⟩
    cases c with
    | errorFunction e => exact ⟨List.mem_cons_of_mem _ (ih h).1, (ih h).2⟩
    | regularization x y z => exact ⟨List.mem_cons_of_mem _ (ih h).1, (ih h).2⟩
    | _ => exact layer rfl (fun e he => by cases he) (fun x y z he => by cases he)

theorem layersOf_exact {F : NumFormat ℝ} {r : NetFile.Reg ℝ} {cs : List (Cmd ℝ)} (hr : r.round F = r) (he : Exact F cs)
    {l : Cmd ℝ × NetFile.Reg ℝ} (h : l ∈ layersOf r cs) : l.2.round F = l.2 := by
  induction cs generalizing r with
  | nil => cases h
  | cons c cs ih =>
    have he' : Exact F cs := fun c hc => he c (List.mem_cons_of_mem _ hc)
    have layer : layersOf r (c :: cs) = (c, r) :: layersOf r cs → l.2.round F = l.2 := by
      intro e
      rw [e] at h
      rcases List.mem_cons.1 h with rfl | h
      · exact hr
      · exact ih hr he' h
    cases c with
    | errorFunction e => exact ih hr he' h
    | regularization x y z =>
      have hc := he _ List.mem_cons_self
      simp only [Cmd.round, Cmd.regularization.injEq] at hc
      refine ih ?_ he' h
      rw [NetFile.Reg.round, hc.1, hc.2.1, hc.2.2]
    | _ => exact layer rfl

/-! ## What the network computes -/

theorem kindsFrom_facts {hid : ℕ → Hidden} :
    ∀ {ls : List (Cmd ℝ × NetFile.Reg ℝ)} {ds : List (List ℤ)} {dims : List ℤ} {m k : ℕ} {ks : List NN.Kind},
      Built dims ls ds m → (∀ z ∈ dims, 0 ≤ z) → kindsFrom hid k dims ls ds = some ks →
        FitsFrom (outputs dims).toNat ks ∧ countFrom (outputs dims).toNat ks = m := by
  intro ls
  induction ls with
  | nil =>
    intro ds dims m k ks h hd hk
    cases ds with
    | nil =>
      injection hk with hk
      subst hk
      exact ⟨trivial, (show m = 0 from h).symm⟩
    | cons d ds => cases hk
  | cons l ls ih =>
    intro ds dims m k ks h hd hk
    cases ds with
    | nil => cases hk
    | cons d ds =>
      obtain ⟨n, m', h1, h2, e⟩ := h
      simp only [kindsFrom, Option.bind_eq_bind, Option.bind_eq_some_iff] at hk
      obtain ⟨a, ha, as, has, hk⟩ := hk
      injection hk with hk
      subst hk
      obtain ⟨l1, l2, l3, l4⟩ := link hd ha h1
      obtain ⟨i1, i2⟩ := ih h2 l4 has
      refine ⟨⟨l1, by rw [l2]; exact i1⟩, ?_⟩
      rw [countFrom, l2, i2, l3, e]

theorem kindsFrom_some {hid : ℕ → Hidden} :
    ∀ {ls : List (Cmd ℝ × NetFile.Reg ℝ)} {ds : List (List ℤ)} {dims : List ℤ} {m k : ℕ},
      Built dims ls ds m → Shape dims →
      (∀ l ∈ ls, (∀ x y z, l.1 ≠ .input x y z) ∧ (∀ x y, l.1 ≠ .alphaBetaFilter x y) ∧ (∀ e, l.1 ≠ .errorFunction e) ∧
        ∀ x y z, l.1 ≠ .regularization x y z) → ∃ ks, kindsFrom hid k dims ls ds = some ks := by
  intro ls
  induction ls with
  | nil =>
    intro ds dims m k h _ _
    cases ds with
    | nil => exact ⟨[], rfl⟩
    | cons d ds => exact absurd h (by simp [Built])
  | cons l ls ih =>
    intro ds dims m k h hs hl
    cases ds with
    | nil => exact absurd h (by simp [Built])
    | cons d ds =>
      obtain ⟨n, m', h1, h2, e⟩ := h
      obtain ⟨c1, c2, c3, c4⟩ := hl l List.mem_cons_self
      obtain ⟨⟨a, ha⟩, hs'⟩ := link_some hs h1 c1 c2 c3 c4 (hid k) l.2
      obtain ⟨as, has⟩ := ih (k := k + 1) h2 hs' fun l hl' => hl l (List.mem_cons_of_mem _ hl')
      exact ⟨a :: as, by simp only [kindsFrom, ha, has]; rfl⟩

theorem fill_draw {t : Compression.Transformation} (ht : t = .dct ∨ t = .average ∨ t = .edge) (I M : ℕ)
    (draw draw' : Batch) (cm : Compression.Mat) : Compression.fill t I M draw cm = Compression.fill t I M draw' cm := by
  unfold Compression.fill
  split
  · rfl
  · have e : ∀ i m, Compression.fillStep t I M (cm.cols / cm.rows) draw i m =
        Compression.fillStep t I M (cm.cols / cm.rows) draw' i m := by
      intro i m
      funext c
      rcases ht with rfl | rfl | rfl <;> rfl
    simp only [e]

theorem phiOf_draw {t : Compression.Transformation} (ht : t = .dct ∨ t = .average ∨ t = .edge) (I M : ℕ)
    (draw draw' : Batch) : phiOf t I M draw = phiOf t I M draw' := by
  unfold phiOf
  have e : (do
      let f ← Compression.Factory.new (I + 1) M t
      f.create draw ⟨M, I + 1, fun _ _ => 0⟩ : Outcome Compression.Mat) = (do
      let f ← Compression.Factory.new (I + 1) M t
      f.create draw' ⟨M, I + 1, fun _ _ => 0⟩) := by
    unfold Compression.Factory.new
    split
    · rfl
    split
    · rfl
    · simp only [Outcome.ok_bind, Compression.Factory.create, if_true]
      exact fill_draw ht _ _ _ _ _
  rw [e]

theorem transformationOf_kept {c : List Char} (h : c = "dct".toList ∨ c = "average".toList ∨ c = "edge".toList) :
    transformationOf c = .dct ∨ transformationOf c = .average ∨ transformationOf c = .edge := by
  rcases h with rfl | rfl | rfl
  · exact Or.inl (by rw [transformationOf, if_neg (by decide), if_pos rfl])
  · exact Or.inr (Or.inl (by rw [transformationOf, if_neg (by decide), if_neg (by decide), if_pos rfl]))
  · exact Or.inr (Or.inr (by
      rw [transformationOf, if_neg (by decide), if_neg (by decide), if_neg (by decide), if_pos rfl]))

theorem kindOf_kept {c : Cmd ℝ} (hc : Kept c) (h h' : Hidden) (dims : List ℤ) (r : NetFile.Reg ℝ) :
    kindOf h dims r c = kindOf h' dims r c := by
  cases c with
  | compressed u p a c s b => simp only [kindOf, phiOf_draw (transformationOf_kept hc) _ _ h.phi h'.phi]
  | compressedOutput u p a c s b => simp only [kindOf, phiOf_draw (transformationOf_kept hc) _ _ h.phi h'.phi]
  | extreme u a s b => exact absurd hc id
  | intrinsicPlasticity t s => exact absurd hc id
  | _ => rfl

theorem kindOf_visible {c : Cmd ℝ} (hc : Kept c) {h : Hidden} {dims : List ℤ} {r : NetFile.Reg ℝ} {k : NN.Kind}
    (hk : kindOf h dims r c = some k) : k.Visible := by
  cases c with
  | rbm H cd s bp =>
    injection hk with hk
    subst hk
    exact hc
  | convolutional f kr kc a s b =>
    simp only [kindOf] at hk
    split at hk
    · injection hk with hk
      subst hk
      trivial
    · cases hk
  | subsampling kr kc a s b =>
    simp only [kindOf] at hk
    split at hk
    · injection hk with hk
      subst hk
      trivial
    · cases hk
  | maxPooling kr kc =>
    simp only [kindOf] at hk
    split at hk
    · injection hk with hk
      subst hk
      trivial
    · cases hk
  | localResponseNormalization kk nn al be =>
    simp only [kindOf] at hk
    split at hk
    · injection hk with hk
      subst hk
      trivial
    · cases hk
  | input a b c => cases hk
  | alphaBetaFilter a b => cases hk
  | errorFunction e => cases hk
  | regularization a b c => cases hk
  | _ =>
    injection hk with hk
    subst hk
    trivial

theorem kindsFrom_kept (hid hid' : ℕ → Hidden) :
    ∀ (ls : List (Cmd ℝ × NetFile.Reg ℝ)) (ds : List (List ℤ)) (dims : List ℤ) (k : ℕ), (∀ l ∈ ls, Kept l.1) →
      kindsFrom hid k dims ls ds = kindsFrom hid' k dims ls ds := by
  intro ls
  induction ls with
  | nil => intro ds dims k _; cases ds <;> rfl
  | cons l ls ih =>
    intro ds dims k h
    cases ds with
    | nil => rfl
    | cons d ds =>
      simp only [kindsFrom]
      rw [kindOf_kept (h l List.mem_cons_self) (hid k) (hid' k),
        ih ds d (k + 1) fun l hl => h l (List.mem_cons_of_mem _ hl)]

theorem kindsFrom_visible {hid : ℕ → Hidden} :
    ∀ {ls : List (Cmd ℝ × NetFile.Reg ℝ)} {ds : List (List ℤ)} {dims : List ℤ} {k : ℕ} {ks : List NN.Kind},
      (∀ l ∈ ls, Kept l.1) → kindsFrom hid k dims ls ds = some ks → ∀ a ∈ ks, a.Visible := by
  intro ls
  induction ls with
  | nil =>
    intro ds dims k ks _ hk
    cases ds with
    | nil =>
      injection hk with hk
      subst hk
      intro a ha
      cases ha
    | cons d ds => cases hk
  | cons l ls ih =>
    intro ds dims k ks h hk
    cases ds with
    | nil => cases hk
    | cons d ds =>
      simp only [kindsFrom, Option.bind_eq_bind, Option.bind_eq_some_iff] at hk
      obtain ⟨a, ha, as, has, hk⟩ := hk
      injection hk with hk
      subst hk
      intro b hb
      rcases List.mem_cons.1 hb with rfl | hb
      · exact kindOf_visible (h l List.mem_cons_self) ha
      · exact ih (fun l hl => h l (List.mem_cons_of_mem _ hl)) has b hb

theorem kept_round (F : NumFormat ℝ) {c : Cmd ℝ} (h : Kept c) : Kept (c.round F) := by cases c <;> exact h

/-- The facts about a described network whose layers are all in the file. -/
theorem sem_facts {A : NetFile.Net ℝ} (hi : Inv A) (hd : Described A.layers)
    (hl : ∀ l ∈ A.layers, (∀ e, l.1 ≠ .errorFunction e) ∧ ∀ x y z, l.1 ≠ .regularization x y z) (hid : ℕ → Hidden) :
    ∃ S, sem hid A = some S ∧ FitsFrom S.D S.kinds ∧ countFrom S.D S.kinds = A.nParams ∧
      ((∀ l ∈ A.layers, Kept l.1) → (∀ k ∈ S.kinds, k.Visible) ∧ ∀ hid', sem hid' A = some S) := by
  obtain ⟨a, b, c, r, ls, e, ha, hb, hc, ho⟩ := hd
  rcases hi with ⟨e1, _⟩ | ⟨a', b', c', r', ls', ds, e1, e2, e3⟩
  · rw [e] at e1
    cases e1
  · rw [e] at e1
    injection e1 with e4 e5
    injection e4 with e4 e6
    injection e4 with f1 f2 f3
    subst f1 f2 f3 e5
    have hdims : ∀ z ∈ [a, b, c], 0 ≤ z := by
      intro z hz
      simp only [List.mem_cons, List.not_mem_nil, or_false] at hz
      rcases hz with rfl | rfl | rfl <;> assumption
    obtain ⟨ks, hks⟩ := kindsFrom_some (hid := hid) (k := 1) e3 (Or.inr rfl) fun l hl' =>
      ⟨(ho l hl').1, (ho l hl').2, hl l (e ▸ List.mem_cons_of_mem _ hl')⟩
    obtain ⟨g1, g2⟩ := kindsFrom_facts e3 hdims hks
    have hsem : ∀ hid' : ℕ → Hidden, kindsFrom hid' 1 [a, b, c] ls ds = some ks →
        sem hid' A = some ⟨(outputs [a, b, c]).toNat, ks, decide (A.errFn = 2)⟩ := by
      intro hid' hk
      unfold sem
      rw [e, e2]
      simp only [if_pos (show 0 ≤ a ∧ 0 ≤ b ∧ 0 ≤ c from ⟨ha, hb, hc⟩), hk, Option.map_some]
    refine ⟨_, hsem hid hks, g1, g2, fun hk => ⟨?_, fun hid' => ?_⟩⟩
    · exact kindsFrom_visible (fun l hl' => hk l (e ▸ List.mem_cons_of_mem _ hl')) hks
    · refine hsem hid' ?_
      rw [kindsFrom_kept hid' hid ls ds _ 1 fun l hl' => hk l (e ▸ List.mem_cons_of_mem _ hl')]
      exact hks

theorem sem_congr {A B : NetFile.Net ℝ} (h1 : A.layers = B.layers) (h2 : A.infos = B.infos) (h3 : A.errFn = B.errFn)
    (hid : ℕ → Hidden) : sem hid A = sem hid B := by
  unfold sem
  rw [h1, h2, h3]

theorem Built.round (F : NumFormat ℝ) :
    ∀ {ls : List (Cmd ℝ × NetFile.Reg ℝ)} {ds : List (List ℤ)} {dims : List ℤ} {m : ℕ}, Built dims ls ds m →
      Built dims (ls.map fun l => (l.1.round F, l.2.round F)) ds m := by
  intro ls
  induction ls with
  | nil => intro ds dims m h; exact h
  | cons l ls ih =>
    intro ds dims m h
    cases ds with
    | nil => exact absurd h (by simp [Built])
    | cons d ds =>
      obtain ⟨n, m', h1, h2, e⟩ := h
      exact ⟨n, m', by rw [← h1]; exact buildOn_round F dims l.1, ih h2, e⟩

theorem Inv.roundNet (F : NumFormat ℝ) {A : NetFile.Net ℝ} {v : List ℝ} (h : Inv A) :
    Inv (NetSem.roundNet F { A with params := v }) := by
  rcases h with ⟨e1, e2, e3⟩ | ⟨a, b, c, r, ls, ds, e1, e2, e3⟩
  · exact Or.inl ⟨by simp [NetSem.roundNet, e1], e2, e3⟩
  · exact Or.inr ⟨a, b, c, r.round F, ls.map fun l => (l.1.round F, l.2.round F), ds,
      by simp [NetSem.roundNet, e1, Cmd.round], e2, e3.round F⟩

theorem roundNet_exact {F : NumFormat ℝ} {init : ℕ → ℝ} {cs : List (Cmd ℝ)} {net : NetFile.Net ℝ}
    (hrun : run F init cs empty = .ok net) (hex : Exact F cs) {v : List ℝ} (hexv : ∀ x ∈ v, F.round x = x) :
    roundNet F { net with params := v } = { net with params := v } := by
  have hlay : net.layers = layersOf (empty : NetFile.Net ℝ).reg cs := (run_layers F init cs hrun).1
  have e1 : net.layers.map (fun l => (l.1.round F, l.2.round F)) = net.layers := by
    conv_rhs => rw [← List.map_id net.layers]
    refine List.map_congr_left fun l hl => ?_
    rw [hlay] at hl
    rw [hex _ (layersOf_mem hl).1, layersOf_exact (round_zero_reg F) hex hl]
    rfl
  have e2 : v.map F.round = v := by
    conv_rhs => rw [← List.map_id v]
    exact List.map_congr_left hexv
  simp only [roundNet, e1, e2]

/-! ## Main theorems -/

/-- **C70.**  Take any network that a sequence of calls builds and whose last layer with parameters is an output layer, any
parameter vector, and load what `save` writes into an empty network.  For every batch the loaded network gives exactly the
outputs of the saved network with all its numbers replaced by the numbers that their texts denote, whatever random numbers
were drawn and whatever the layers contained before.

Missing for the full claim: the layers that are not `Kept` (refuted below), and that the texts denote the numbers themselves
(refuted by `rounding_fails`; `loaded_predicts_exact` is the case where they do).  `AlphaBetaFilter` is not described. -/
theorem loaded_predicts_partial (F : NumFormat ℝ) (init init' : ℕ → ℝ) (cs : List (Cmd ℝ)) (hcs : ∀ c ∈ cs, c.WordArgs)
    {net : NetFile.Net ℝ} (hrun : run F init cs empty = .ok net) (hp : net.P = some net.nParams) (hd : Described net.layers)
    (hk : ∀ c ∈ cs, Kept c) (v : List ℝ) (hv : v.length = net.nParams) :
    ∃ saved loaded S, setParameters net v = .ok saved ∧
      Loads F init' empty (IStream.of (save F saved)) (.ok loaded) ∧
      ∀ (hid hid' : ℕ → Hidden), sem hid (roundNet F saved) = some S ∧ sem hid' loaded = some S ∧
        ∀ (mem mem' : Mem) (N : ℕ) (X : Batch) (n : ℕ), ∀ j < S.net.outputs,
          S.predict mem' loaded.params N X n j = S.predict mem (roundNet F saved).params N X n j := by
  obtain ⟨saved, loaded, h1, h2, h3, h4, _⟩ := net_round_trip F init init' cs hcs hrun hp v hv
  have hs : saved = { net with params := v } := by
    rw [setParameters, hp] at h1
    simp only [hv, le_refl, if_true, Outcome.ok.injEq] at h1
    rw [← h1, ← hp]
  have hlay : net.layers = layersOf (empty : NetFile.Net ℝ).reg cs := (run_layers F init cs hrun).1
  have hinv : Inv net := Inv.run (Or.inl ⟨rfl, rfl, rfl⟩) hrun
  obtain ⟨a, b, c, r, ls, e, ha, hb, hc, ho⟩ := hd
  have hR : (roundNet F saved).layers = net.layers.map fun l => (l.1.round F, l.2.round F) := by rw [hs]; rfl
  have hinv' : Inv (roundNet F saved) := by
    rw [hs]
    exact Inv.roundNet F hinv
  have hdesc : Described (roundNet F saved).layers := by
    refine ⟨a, b, c, r.round F, ls.map fun l => (l.1.round F, l.2.round F), by rw [hR, e]; rfl, ha, hb, hc, ?_⟩
    intro l hl
    obtain ⟨l', hl', rfl⟩ := List.mem_map.1 hl
    obtain ⟨o1, o2⟩ := ho l' hl'
    constructor
    · intro x y z he
      cases hcmd : l'.1 <;> simp [hcmd, Cmd.round] at he
      exact o1 _ _ _ hcmd
    · intro x y he
      cases hcmd : l'.1 <;> simp [hcmd, Cmd.round] at he
      exact o2 _ _ hcmd
  have hlr : ∀ l ∈ (roundNet F saved).layers, Kept l.1 ∧ (∀ e, l.1 ≠ .errorFunction e) ∧
      ∀ x y z, l.1 ≠ .regularization x y z := by
    intro l hl
    rw [hR] at hl
    obtain ⟨l', hl', rfl⟩ := List.mem_map.1 hl
    rw [hlay] at hl'
    obtain ⟨m1, m2, m3⟩ := layersOf_mem hl'
    refine ⟨kept_round F (hk _ m1), ?_, ?_⟩
    · intro x he
      cases hcmd : l'.1 <;> simp [hcmd, Cmd.round] at he
      exact m2 _ hcmd
    · intro x y z he
      cases hcmd : l'.1 <;> simp [hcmd, Cmd.round] at he
      exact m3 _ _ _ hcmd
  obtain ⟨S, s1, s2, s3, s4⟩ := sem_facts hinv' hdesc (fun l hl => (hlr l hl).2) fun _ =>
    ⟨fun _ _ => 0, fun _ _ => 0, fun _ => 0, fun _ => 0⟩
  obtain ⟨t1, t2⟩ := s4 fun l hl => (hlr l hl).1
  have hsame : ∀ hid, sem hid loaded = sem hid (roundNet F saved) := fun hid =>
    sem_congr (by rw [h3.layers]; rfl) (by rw [h3.infos]; rfl) (by rw [h3.errFn]; rfl) hid
  have hpar : (roundNet F saved).params = v.map F.round := by rw [hs]; rfl
  have hnp : (roundNet F saved).nParams = net.nParams := by rw [hs]; rfl
  refine ⟨saved, loaded, S, h1, h2, fun hid hid' => ⟨t2 hid, (hsame hid').trans (t2 hid'), ?_⟩⟩
  intro mem mem' N X n j hj
  rw [h4, hpar]
  refine parameters_determine S.ce s2 t1 mem' mem ?_ N (fun _ _ => rfl) hj
  rw [(parameters_one_to_one S.D S.kinds S.ce).2.2.2.2, s3, hnp, List.length_map, hv]

/-- **C70 (exact numbers)**: if the text of every number of the network denotes the number, the loaded network gives for every
batch exactly the outputs of the saved one. -/
theorem loaded_predicts_exact (F : NumFormat ℝ) (init init' : ℕ → ℝ) (cs : List (Cmd ℝ)) (hcs : ∀ c ∈ cs, c.WordArgs)
    {net : NetFile.Net ℝ} (hrun : run F init cs empty = .ok net) (hp : net.P = some net.nParams) (hd : Described net.layers)
    (hk : ∀ c ∈ cs, Kept c) (hex : Exact F cs) (v : List ℝ) (hv : v.length = net.nParams)
    (hexv : ∀ x ∈ v, F.round x = x) :
    ∃ saved loaded S, setParameters net v = .ok saved ∧
      Loads F init' empty (IStream.of (save F saved)) (.ok loaded) ∧
      ∀ (hid hid' : ℕ → Hidden), sem hid saved = some S ∧ sem hid' loaded = some S ∧
        ∀ (mem mem' : Mem) (N : ℕ) (X : Batch) (n : ℕ), ∀ j < S.net.outputs,
          S.predict mem' loaded.params N X n j = S.predict mem saved.params N X n j := by
  obtain ⟨saved, loaded, S, h1, h2, h3⟩ := loaded_predicts_partial F init init' cs hcs hrun hp hd hk v hv
  have hs : saved = { net with params := v } := by
    rw [setParameters, hp] at h1
    simp only [hv, le_refl, if_true, Outcome.ok.injEq] at h1
    rw [← h1, ← hp]
  have hr : roundNet F saved = saved := by rw [hs]; exact roundNet_exact hrun hex hexv
  rw [hr] at h3
  exact ⟨saved, loaded, S, h1, h2, h3⟩


end

end Verif.NetSem

namespace Verif.NetFile
variable {K : Type}

/-- Compression with more parameters than inputs (and bias): the two block-wise matrices divide by zero. -/
theorem compressed_blocks_ub {dims : List ℤ} {units params : ℤ} (hd : 0 ≤ outputs dims) (hu : 0 ≤ units) (hp : outputs dims + 1 < params)
    {compression : List Char} (hc : compression = "average".toList ∨ compression = "edge".toList) :
    buildCompressed dims units params compression = .ub := by
  have e1 : alloc (outputs dims) = .ok (outputs dims).toNat := if_neg (by omega)
  have e2 : alloc units = .ok units.toNat := if_neg (by omega)
  have e3 : alloc params = .ok params.toNat := if_neg (by omega)
  have hdiv : ((outputs dims).toNat + 1) / params.toNat = 0 := Nat.div_eq_of_lt (by omega)
  rw [buildCompressed, e1, Outcome.ok_bind, e2, Outcome.ok_bind, e3, Outcome.ok_bind, if_neg (by omega), if_pos ⟨hc, hdiv⟩]

example : (0 : ℤ) ≤ outputs [2, 3] ∧ outputs [2, 3] + 1 < 8 := by decide

theorem sizeChecks_hold {fm r c R C a b : ℤ} (hf : 1 ≤ fm) (hr : 1 ≤ r) (hc : 1 ≤ c) (hR : 1 ≤ R) (hC : 1 ≤ C) (ha : 0 < a) (hb : 0 < b) :
    sizeChecks fm r c R C a b = .ok () := by
  have h1 : outputs [fm, r, c] = fm * (r * c) := by simp [outputs, mul_assoc]
  have h2 : 1 ≤ fm * (r * c) := one_le_mul_of_one_le_of_one_le hf (one_le_mul_of_one_le_of_one_le hr hc)
  have e1 : alloc (outputs [fm, r, c]) = .ok (outputs [fm, r, c]).toNat := if_neg (by omega)
  have h3 : (0 : ℤ) < R * C := by positivity
  have h4 : (0 : ℤ) < r * c := by positivity
  rw [sizeChecks, e1, Outcome.ok_bind, if_neg (by omega), Outcome.check_true h3, Outcome.check_true (by omega), Outcome.check_true (by omega),
    Outcome.check_true h4, Outcome.check_true ha, Outcome.check_true hb]
  rfl

/-- Pooling layers on images: every kernel that fits into the image is possible, a kernel without rows or columns divides by zero. -/
theorem pooling_kernels {fm R C kr kc : ℤ} (hf : 1 ≤ fm) (hR : 1 ≤ R) (hC : 1 ≤ C) (bias : Bool) :
    (1 ≤ kr → kr ≤ R → 1 ≤ kc → kc ≤ C → buildMaxPooling [fm, R, C] kr kc = .ok ([fm, R / kr, C / kc], 0) ∧
      buildSubsampling [fm, R, C] kr kc bias =
        .ok ([fm, R / kr, C / kc], fm.toNat * ((R / kr).toNat * ((C / kc).toNat * (1 + bias.toNat))))) ∧
    (kr = 0 ∨ kc = 0 → buildMaxPooling [fm, R, C] kr kc = .ub ∧ buildSubsampling [fm, R, C] kr kc bias = .ub) := by
  have h1 : outputs [fm, R, C] = fm * (R * C) := by simp [outputs, mul_assoc]
  have h2 : 1 ≤ fm * (R * C) := one_le_mul_of_one_le_of_one_le hf (one_le_mul_of_one_le_of_one_le hR hC)
  have e1 : alloc (outputs [fm, R, C]) = .ok (outputs [fm, R, C]).toNat := if_neg (by omega)
  refine ⟨fun a1 a2 b1 b2 => ?_, fun h => ⟨?_, ?_⟩⟩
  · have hr : 1 ≤ R / kr := (Int.le_ediv_iff_mul_le (by omega)).2 (by omega)
    have hc : 1 ≤ C / kc := (Int.le_ediv_iff_mul_le (by omega)).2 (by omega)
    have tr : Int.tdiv R kr = R / kr := Int.tdiv_eq_ediv_of_nonneg (by omega)
    have tc : Int.tdiv C kc = C / kc := Int.tdiv_eq_ediv_of_nonneg (by omega)
    have e2 : alloc fm = .ok fm.toNat := if_neg (by omega)
    have e3 : alloc (R / kr) = .ok (R / kr).toNat := if_neg (by omega)
    have e4 : alloc (C / kc) = .ok (C / kc).toNat := if_neg (by omega)
    have hs := sizeChecks_hold (a := R - kr + 1) (b := C - kc + 1) hf hr hc hR hC (by omega) (by omega)
    constructor
    · rw [buildMaxPooling, e1, Outcome.ok_bind]
      show (if kr = 0 ∨ kc = 0 then Outcome.ub else _) = _
      rw [if_neg (by omega), tr, tc, hs]
      rfl
    · rw [buildSubsampling, e1, Outcome.ok_bind]
      show (if kr = 0 ∨ kc = 0 then Outcome.ub else _) = _
      rw [if_neg (by omega), tr, tc, e2, e3, e4]
      simp only [Outcome.ok_bind, hs]
      cases bias <;> rfl
  · rw [buildMaxPooling, e1, Outcome.ok_bind]
    exact if_pos h
  · rw [buildSubsampling, e1, Outcome.ok_bind]
    exact if_pos h

example : buildMaxPooling [3, 28, 27] 2 1 = .ok ([3, 14, 27], 0) ∧ buildMaxPooling [3, 28, 28] 2 0 = .ub :=
  ⟨((pooling_kernels (by omega) (by omega) (by omega) true).1 (by omega) (by omega) (by omega) (by omega)).1,
    ((pooling_kernels (by omega) (by omega) (by omega) true).2 (Or.inr rfl)).1⟩

end Verif.NetFile
