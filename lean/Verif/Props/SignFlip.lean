import Verif.Props.Symmetry

/-!
# Signs of hidden units (C130): the network

If the activation function of a hidden layer is odd (`tanh`, scaled `tanh`, linear), the signs of all incoming weights, of the bias and of
all outgoing weights of a unit can be changed at once.  Predictions and errors remain the same, and the entries of the gradient change
their signs in the same way.
-/

namespace Verif.NN

open Finset

noncomputable section

/-! ## Spec -/

/-- Spec: the odd activation functions of the library. -/
def Act.Odd : Act → Prop
  | .tanh => True
  | .tanhScaled => True
  | .linear => True
  | _ => False

/-- Spec: the sign that a weight gets if unit `j` of layer `k` gets the sign `ε j`. -/
def signAt (k : ℕ) (ε : ℕ → ℝ) : Loc → ℝ
  | (l, .w [j, i]) => if l = k then ε j else if l = k + 1 then ε i else 1
  | (l, .b [j]) => if l = k then ε j else 1
  | _ => 1

/-- Spec: the weights after the units of layer `k` got signs. -/
def flipped (k : ℕ) (ε : ℕ → ℝ) (mem : Mem) : Mem := fun l s => signAt k ε (l, s) * mem l s

/-- Spec: a choice of signs. -/
def Signs (ε : ℕ → ℝ) : Prop := ∀ j, ε j = 1 ∨ ε j = -1

theorem Signs.sq {ε : ℕ → ℝ} (h : Signs ε) (j : ℕ) : ε j * ε j = 1 := by
  rcases h j with h | h <;> rw [h] <;> norm_num

theorem Signs.abs {ε : ℕ → ℝ} (h : Signs ε) (j : ℕ) (x : ℝ) : |ε j * x| = |x| := by
  rcases h j with h | h <;> rw [h] <;> simp

theorem Signs.pow {ε : ℕ → ℝ} (h : Signs ε) (j : ℕ) (x : ℝ) : (ε j * x) ^ 2 = x ^ 2 := by
  rcases h j with h | h <;> rw [h] <;> ring

/-! ## Activation functions -/

theorem Act.Odd.apply {act : Act} (ha : act.Odd) {ε : ℕ → ℝ} (h : Signs ε) (j : ℕ) (a : ℝ) : act.apply (ε j * a) = ε j * act.apply a := by
  rcases h j with h | h <;> rw [h]
  · rw [one_mul, one_mul]
  · rw [neg_one_mul, neg_one_mul]
    cases act with
    | tanh => exact Real.tanh_neg a
    | tanhScaled =>
      show 1.7159 * Real.tanh (0.66666667 * -a) = -(1.7159 * Real.tanh (0.66666667 * a))
      rw [mul_neg, Real.tanh_neg, mul_neg]
    | linear => rfl
    | logistic => exact ha.elim
    | rectifier => exact ha.elim

theorem Act.Odd.deriv {act : Act} (ha : act.Odd) {ε : ℕ → ℝ} (h : Signs ε) (j : ℕ) (z : ℝ) : act.deriv (ε j * z) = act.deriv z := by
  rcases h j with h | h <;> rw [h]
  · rw [one_mul]
  · rw [neg_one_mul]
    cases act with
    | tanh => show 1 - -z * -z = 1 - z * z; ring
    | tanhScaled =>
      show 0.66666667 / 1.7159 * (1.7159 + -z) * (1.7159 - -z) = 0.66666667 / 1.7159 * (1.7159 + z) * (1.7159 - z)
      ring
    | linear => rfl
    | logistic => exact ha.elim
    | rectifier => exact ha.elim

theorem Reg.deriv_sign (r : Reg) {ε : ℕ → ℝ} (h : Signs ε) (j : ℕ) (x : ℝ) : r.deriv (ε j * x) = ε j * r.deriv x := by
  rw [Reg.deriv, Reg.deriv, h.abs]
  split <;> split <;> ring

/-! ## Layers -/

/-- Signs of rows and biases -/
def rowSign (ε : ℕ → ℝ) : Slot → ℝ
  | .w [j, _] => ε j
  | .b [j] => ε j
  | _ => 1

/-- Signs of columns -/
def colSign (ε : ℕ → ℝ) : Slot → ℝ
  | .w [_, i] => ε i
  | _ => 1

/-- A layer whose outputs change their signs with the signs of its rows. -/
structure OutFlip (ε : ℕ → ℝ) (l : Layer) : Prop where
  forward : ∀ w N x, l.forward (fun s => rowSign ε s * w s) N x = fun n j => ε j * l.forward w N x n j
  regError : ∀ w, l.regError (fun s => rowSign ε s * w s) = l.regError w
  derivs : ∀ w N x e, l.derivs (fun s => rowSign ε s * w s) N x (fun n j => ε j * e n j) =
    fun s => rowSign ε s * l.derivs w N x e s
  back : ∀ w N x e stale f, l.back (fun s => rowSign ε s * w s) N x (fun n j => ε j * e n j) f stale = l.back w N x e f stale
  updated : ∀ w, l.updated (fun s => rowSign ε s * w s) = fun s => rowSign ε s * l.updated w s

/-- A layer that does not notice if its inputs and its columns change their signs. -/
structure InFlip (ε : ℕ → ℝ) (l : Layer) : Prop where
  forward : ∀ w N x, l.forward (fun s => colSign ε s * w s) N (fun n j => ε j * x n j) = l.forward w N x
  regError : ∀ w, l.regError (fun s => colSign ε s * w s) = l.regError w
  derivs : ∀ w N x e, l.derivs (fun s => colSign ε s * w s) N (fun n j => ε j * x n j) e =
    fun s => colSign ε s * l.derivs w N x e s
  back : ∀ w N x e stale, l.back (fun s => colSign ε s * w s) N (fun n j => ε j * x n j) e true stale =
    fun n j => ε j * l.back w N x e true stale n j
  updated : ∀ w, l.updated (fun s => colSign ε s * w s) = fun s => colSign ε s * l.updated w s

theorem dense_sign {ε : ℕ → ℝ} (I : ℕ) (W : Batch) (b : ℕ → ℝ) (x : Batch) :
    dense I (fun j i => ε j * W j i) (fun j => ε j * b j) x = fun n j => ε j * dense I W b x n j := by
  funext n j
  simp only [dense, mul_add, mul_sum]
  congr 1
  exact sum_congr rfl fun i _ => by ring

theorem map_sign {act : Act} (ha : act.Odd) {ε : ℕ → ℝ} (h : Signs ε) (a : Batch) :
    act.map (fun n j => ε j * a n j) = fun n j => ε j * act.map a n j := by
  funext n j
  exact ha.apply h j _

theorem deltas_sign {act : Act} (ha : act.Odd) {ε : ℕ → ℝ} (h : Signs ε) (y e : Batch) :
    deltas act (fun n j => ε j * y n j) (fun n j => ε j * e n j) = fun n j => ε j * deltas act y e n j := by
  funext n j
  simp only [deltas, ha.deriv h]
  ring

theorem vec_sign (ε : ℕ → ℝ) (w : Weights) (bias : Bool) : Weights.vec (fun s => rowSign ε s * w s) bias = fun j => ε j * w.vec bias j := by
  funext j
  cases bias
  · exact (mul_zero _).symm
  · rfl

theorem fullyConnected_outFlip {I J : ℕ} {bias : Bool} {act : Act} {reg : Reg} (ha : act.Odd) {ε : ℕ → ℝ} (h : Signs ε) :
    OutFlip ε (fullyConnected I J bias act reg) := by
  have hd : ∀ (w : Weights) (x : Batch), act.map (dense I (Weights.mat fun s => rowSign ε s * w s)
      (Weights.vec (fun s => rowSign ε s * w s) bias) x) = fun n j => ε j * act.map (dense I w.mat (w.vec bias) x) n j := by
    intro w x
    rw [vec_sign, ← map_sign ha h, ← dense_sign]
    rfl
  refine ⟨fun w N x => hd w x, fun w => ?_, fun w N x e => ?_, fun w N x e stale f => ?_, fun w => ?_⟩
  · show reg.error (∑ j ∈ range J, ∑ i ∈ range I, |ε j * w (.w [j, i])|) (∑ j ∈ range J, ∑ i ∈ range I, (ε j * w (.w [j, i])) ^ 2) =
      reg.error (∑ j ∈ range J, ∑ i ∈ range I, |w (.w [j, i])|) (∑ j ∈ range J, ∑ i ∈ range I, w (.w [j, i]) ^ 2)
    simp only [h.abs, h.pow]
  · funext s
    cases s with
    | w idx =>
      match idx with
      | [] => exact (mul_zero _).symm
      | [_] => exact (mul_zero _).symm
      | [j, i] =>
        show ∑ n ∈ range N, deltas act (act.map (dense I _ _ x)) _ n j * x n i + reg.deriv (ε j * w (.w [j, i])) =
          ε j * (∑ n ∈ range N, deltas act (act.map (dense I w.mat (w.vec bias) x)) e n j * x n i + reg.deriv (w (.w [j, i])))
        rw [hd, deltas_sign ha h, reg.deriv_sign h, mul_add, mul_sum]
        congr 1
        exact sum_congr rfl fun n _ => by ring
      | _ :: _ :: _ :: _ => exact (mul_zero _).symm
    | b idx =>
      match idx with
      | [] => exact (mul_zero _).symm
      | [j] =>
        show ∑ n ∈ range N, deltas act (act.map (dense I _ _ x)) _ n j =
          ε j * ∑ n ∈ range N, deltas act (act.map (dense I w.mat (w.vec bias) x)) e n j
        rw [hd, deltas_sign ha h, mul_sum]
      | _ :: _ :: _ => exact (mul_zero _).symm
  · cases f
    · rfl
    · funext n i
      show ∑ j ∈ range J, deltas act (act.map (dense I _ _ x)) _ n j * (ε j * w (.w [j, i])) =
        ∑ j ∈ range J, deltas act (act.map (dense I w.mat (w.vec bias) x)) e n j * w (.w [j, i])
      rw [hd, deltas_sign ha h]
      refine sum_congr rfl fun j _ => ?_
      calc ε j * deltas act (act.map (dense I w.mat (w.vec bias) x)) e n j * (ε j * w (.w [j, i]))
          = (ε j * ε j) * (deltas act (act.map (dense I w.mat (w.vec bias) x)) e n j * w (.w [j, i])) := by ring
        _ = _ := by rw [h.sq, one_mul]
  · funext s
    cases s with
    | w idx =>
      match idx with
      | [] => rfl
      | [_] => rfl
      | [j, i] =>
        show maxNormUpdate I reg.maxNorm (fun s => rowSign ε s * w s) (.w [j, i]) = ε j * maxNormUpdate I reg.maxNorm w (.w [j, i])
        rw [maxNormUpdate_w, maxNormUpdate_w]
        have e : ∑ i' ∈ range I, (fun s => rowSign ε s * w s) (.w [j, i']) ^ 2 = ∑ i' ∈ range I, w (.w [j, i']) ^ 2 :=
          sum_congr rfl fun i' _ => h.pow j _
        rw [e]
        split
        · show ε j * w (.w [j, i]) * _ = _
          ring
        · rfl
      | _ :: _ :: _ :: _ => rfl
    | b idx => rfl

theorem fullyConnected_inFlip {J K : ℕ} {bias : Bool} {act : Act} {reg : Reg} {ε : ℕ → ℝ} (h : Signs ε) :
    InFlip ε (fullyConnected J K bias act reg) := by
  have hv : ∀ w : Weights, Weights.vec (fun s => colSign ε s * w s) bias = w.vec bias := by
    intro w
    funext j
    cases bias
    · rfl
    · exact one_mul _
  have hd : ∀ (w : Weights) (x : Batch), dense J (Weights.mat fun s => colSign ε s * w s) (Weights.vec (fun s => colSign ε s * w s) bias)
      (fun n j => ε j * x n j) = dense J w.mat (w.vec bias) x := by
    intro w x
    rw [hv]
    funext n j
    refine congrArg (· + w.vec bias j) (sum_congr rfl fun i _ => ?_)
    show ε i * x n i * (ε i * w (.w [j, i])) = x n i * w (.w [j, i])
    calc ε i * x n i * (ε i * w (.w [j, i])) = (ε i * ε i) * (x n i * w (.w [j, i])) := by ring
      _ = _ := by rw [h.sq, one_mul]
  refine ⟨fun w N x => ?_, fun w => ?_, fun w N x e => ?_, fun w N x e stale => ?_, fun w => ?_⟩
  · show act.map (dense J _ _ _) = _
    rw [hd]
    rfl
  · show reg.error (∑ j ∈ range K, ∑ i ∈ range J, |ε i * w (.w [j, i])|) (∑ j ∈ range K, ∑ i ∈ range J, (ε i * w (.w [j, i])) ^ 2) =
      reg.error (∑ j ∈ range K, ∑ i ∈ range J, |w (.w [j, i])|) (∑ j ∈ range K, ∑ i ∈ range J, w (.w [j, i]) ^ 2)
    simp only [h.abs, h.pow]
  · funext s
    cases s with
    | w idx =>
      match idx with
      | [] => exact (mul_zero _).symm
      | [_] => exact (mul_zero _).symm
      | [j, i] =>
        show ∑ n ∈ range N, deltas act (act.map (dense J _ _ _)) e n j * (ε i * x n i) + reg.deriv (ε i * w (.w [j, i])) =
          ε i * (∑ n ∈ range N, deltas act (act.map (dense J w.mat (w.vec bias) x)) e n j * x n i + reg.deriv (w (.w [j, i])))
        rw [hd, reg.deriv_sign h, mul_add, mul_sum]
        congr 1
        exact sum_congr rfl fun n _ => by ring
      | _ :: _ :: _ :: _ => exact (mul_zero _).symm
    | b idx =>
      match idx with
      | [] => exact (mul_zero _).symm
      | [j] =>
        show ∑ n ∈ range N, deltas act (act.map (dense J _ _ _)) e n j =
          1 * ∑ n ∈ range N, deltas act (act.map (dense J w.mat (w.vec bias) x)) e n j
        rw [hd, one_mul]
      | _ :: _ :: _ => exact (mul_zero _).symm
  · funext n i
    show ∑ j ∈ range K, deltas act (act.map (dense J _ _ _)) e n j * (ε i * w (.w [j, i])) =
      ε i * ∑ j ∈ range K, deltas act (act.map (dense J w.mat (w.vec bias) x)) e n j * w (.w [j, i])
    rw [hd, mul_sum]
    exact sum_congr rfl fun j _ => by ring
  · funext s
    cases s with
    | w idx =>
      match idx with
      | [] => rfl
      | [_] => rfl
      | [j, i] =>
        show maxNormUpdate J reg.maxNorm (fun s => colSign ε s * w s) (.w [j, i]) = ε i * maxNormUpdate J reg.maxNorm w (.w [j, i])
        rw [maxNormUpdate_w, maxNormUpdate_w]
        have e : ∑ i' ∈ range J, (fun s => colSign ε s * w s) (.w [j, i']) ^ 2 = ∑ i' ∈ range J, w (.w [j, i']) ^ 2 :=
          sum_congr rfl fun i' _ => h.pow i' _
        rw [e]
        split
        · show ε i * w (.w [j, i]) * _ = _
          ring
        · rfl
      | _ :: _ :: _ :: _ => rfl
    | b idx => rfl

theorem compressed_outFlip {I J M : ℕ} {bias : Bool} {act : Act} {reg : Reg} {phi : Batch} (ha : act.Odd) {ε : ℕ → ℝ} (h : Signs ε) :
    OutFlip ε (compressed I J M bias act reg phi) := by
  have hW : ∀ w : Weights, compressedW M phi (fun s => rowSign ε s * w s) = fun j i => ε j * compressedW M phi w j i := by
    intro w
    funext j i
    simp only [compressedW, mul_sum]
    refine sum_congr rfl fun m _ => ?_
    show ε j * w (.w [j, m]) * phi m i = ε j * (w (.w [j, m]) * phi m i)
    ring
  have hb : ∀ w : Weights, compressedBias I M bias phi (fun s => rowSign ε s * w s) = fun j => ε j * compressedBias I M bias phi w j := by
    intro w
    funext j
    rw [compressedBias, compressedBias, hW]
    cases bias
    · exact (mul_zero _).symm
    · rfl
  have hd : ∀ (w : Weights) (x : Batch), act.map (dense I (compressedW M phi fun s => rowSign ε s * w s)
      (compressedBias I M bias phi fun s => rowSign ε s * w s) x) =
      fun n j => ε j * act.map (dense I (compressedW M phi w) (compressedBias I M bias phi w) x) n j := by
    intro w x
    rw [hW, hb, ← map_sign ha h, ← dense_sign]
  refine ⟨fun w N x => hd w x, fun w => ?_, fun w N x e => ?_, fun w N x e stale f => ?_, fun w => rfl⟩
  · show reg.error (∑ j ∈ range J, ∑ i ∈ range M, |ε j * w (.w [j, i])|) (∑ j ∈ range J, ∑ i ∈ range M, (ε j * w (.w [j, i])) ^ 2) =
      reg.error (∑ j ∈ range J, ∑ i ∈ range M, |w (.w [j, i])|) (∑ j ∈ range J, ∑ i ∈ range M, w (.w [j, i]) ^ 2)
    simp only [h.abs, h.pow]
  · funext s
    cases s with
    | w idx =>
      match idx with
      | [] => exact (mul_zero _).symm
      | [_] => exact (mul_zero _).symm
      | [j, m] =>
        show ∑ i ∈ range I, (∑ n ∈ range N, deltas act (act.map (dense I _ _ x)) _ n j * x n i) * phi m i
            + (if bias then (∑ n ∈ range N, deltas act (act.map (dense I _ _ x)) _ n j) * phi m I else 0) + reg.deriv (ε j * w (.w [j, m])) =
          ε j * (∑ i ∈ range I, (∑ n ∈ range N, deltas act (act.map (dense I _ _ x)) _ n j * x n i) * phi m i
            + (if bias then (∑ n ∈ range N, deltas act (act.map (dense I _ _ x)) _ n j) * phi m I else 0) + reg.deriv (w (.w [j, m])))
        rw [hd, deltas_sign ha h, reg.deriv_sign h, mul_add, mul_add, mul_sum]
        congr 2
        · refine sum_congr rfl fun i _ => ?_
          rw [← mul_assoc, mul_sum]
          congr 1
          exact sum_congr rfl fun n _ => by ring
        · split
          · rw [← mul_assoc, mul_sum]
          · exact (mul_zero _).symm
      | _ :: _ :: _ :: _ => exact (mul_zero _).symm
    | b idx => exact (mul_zero _).symm
  · cases f
    · rfl
    · funext n i
      show ∑ j ∈ range J, deltas act (act.map (dense I _ _ x)) _ n j * compressedW M phi (fun s => rowSign ε s * w s) j i =
        ∑ j ∈ range J, deltas act (act.map (dense I (compressedW M phi w) (compressedBias I M bias phi w) x)) e n j * compressedW M phi w j i
      rw [hd, deltas_sign ha h, hW]
      refine sum_congr rfl fun j _ => ?_
      calc ε j * deltas act (act.map (dense I (compressedW M phi w) (compressedBias I M bias phi w) x)) e n j * (ε j * compressedW M phi w j i)
          = (ε j * ε j) * (deltas act (act.map (dense I (compressedW M phi w) (compressedBias I M bias phi w) x)) e n j * compressedW M phi w j i) := by ring
        _ = _ := by rw [h.sq, one_mul]

/-! ## Weights with signs -/

theorem signAt_row (k : ℕ) (ε : ℕ → ℝ) (s : Slot) : signAt k ε (k, s) = rowSign ε s := by
  cases s with
  | w idx =>
    match idx with
    | [] => rfl
    | [_] => rfl
    | [j, i] => exact if_pos rfl
    | _ :: _ :: _ :: _ => rfl
  | b idx =>
    match idx with
    | [] => rfl
    | [j] => exact if_pos rfl
    | _ :: _ :: _ => rfl

theorem signAt_col (k : ℕ) (ε : ℕ → ℝ) (s : Slot) : signAt k ε (k + 1, s) = colSign ε s := by
  cases s with
  | w idx =>
    match idx with
    | [] => rfl
    | [_] => rfl
    | [j, i] => exact (if_neg (by omega)).trans (if_pos rfl)
    | _ :: _ :: _ :: _ => rfl
  | b idx =>
    match idx with
    | [] => rfl
    | [j] => exact if_neg (by omega)
    | _ :: _ :: _ => rfl

theorem signAt_other {k l : ℕ} (ε : ℕ → ℝ) (h1 : l ≠ k) (h2 : l ≠ k + 1) (s : Slot) : signAt k ε (l, s) = 1 := by
  cases s with
  | w idx =>
    match idx with
    | [] => rfl
    | [_] => rfl
    | [j, i] => exact (if_neg h1).trans (if_neg h2)
    | _ :: _ :: _ :: _ => rfl
  | b idx =>
    match idx with
    | [] => rfl
    | [j] => exact if_neg h1
    | _ :: _ :: _ => rfl

theorem signAt_sign {ε : ℕ → ℝ} (h : Signs ε) (k : ℕ) (p : Loc) : signAt k ε p = 1 ∨ signAt k ε p = -1 := by
  obtain ⟨l, s⟩ := p
  unfold signAt
  split
  · split
    · exact h _
    · split
      · exact h _
      · exact Or.inl rfl
  · split
    · exact h _
    · exact Or.inl rfl
  · exact Or.inl rfl

theorem flipped_row (k : ℕ) (ε : ℕ → ℝ) (mem : Mem) : flipped k ε mem k = fun s => rowSign ε s * mem k s := by
  funext s
  rw [flipped, signAt_row]

theorem flipped_col (k : ℕ) (ε : ℕ → ℝ) (mem : Mem) : flipped k ε mem (k + 1) = fun s => colSign ε s * mem (k + 1) s := by
  funext s
  rw [flipped, signAt_col]

theorem flipped_other {k l : ℕ} (ε : ℕ → ℝ) (mem : Mem) (h1 : l ≠ k) (h2 : l ≠ k + 1) : flipped k ε mem l = mem l := by
  funext s
  rw [flipped, signAt_other ε h1 h2, one_mul]

theorem flipped_update (k : ℕ) (ε : ℕ → ℝ) (mem : Mem) (l : ℕ) (w : Weights) :
    flipped k ε (Function.update mem l w) = Function.update (flipped k ε mem) l fun s => signAt k ε (l, s) * w s := by
  funext l' s
  by_cases h : l' = l
  · subst h
    rw [flipped, Function.update_self, Function.update_self]
  · rw [flipped, Function.update_of_ne h, Function.update_of_ne h, flipped]

/-! ## Networks -/

/-- The layers before the one with signs -/
theorem backFrom_before_flip {k : ℕ} {ε : ℕ → ℝ} {mem : Mem} {N : ℕ} (stale : ℕ → Batch) {B : List Layer} {e : Batch} {d : Mem}
    (hB : ∀ x, backFrom (flipped k ε mem) N stale k B x e d =
      ((backFrom mem N stale k B x e d).1, flipped k ε (backFrom mem N stale k B x e d).2)) :
    ∀ (A : List Layer) (m : ℕ) (x : Batch), m + A.length = k →
      backFrom (flipped k ε mem) N stale m (A ++ B) x e d =
        ((backFrom mem N stale m (A ++ B) x e d).1, flipped k ε (backFrom mem N stale m (A ++ B) x e d).2)
  | [], m, x, hm => by
    have : m = k := by simpa using hm
    subst this
    exact hB x
  | a :: A, m, x, hm => by
    rw [List.length_cons] at hm
    have h1 : m ≠ k := by omega
    have h2 : m ≠ k + 1 := by omega
    rw [List.cons_append, backFrom_cons, backFrom_cons, flipped_other ε mem h1 h2,
      backFrom_before_flip stale hB A (m + 1) _ (by omega)]
    simp only [backStep, flipped_other ε mem h1 h2, flipped_update, signAt_other ε h1 h2, one_mul]

section

variable {net : Net} {A B : List Layer} {l1 l2 : Layer} {ε : ℕ → ℝ} (hnet : net.layers = A ++ l1 :: l2 :: B)
  (ho : OutFlip ε l1) (hi : InFlip ε l2)

include hnet ho hi

theorem activations_flipped (mem : Mem) (N : ℕ) (X : Batch) :
    net.activations (flipped A.length ε mem) N X = net.activations mem N X := by
  rw [Net.activations, Net.activations, hnet, forwardFrom_append, forwardFrom_append]
  rw [Nat.zero_add, forwardFrom_agree (mem := flipped A.length ε mem) (mem' := mem) A 0 X
    fun l _ h => flipped_other ε mem (by omega) (by omega)]
  rw [forwardFrom, forwardFrom, forwardFrom, forwardFrom, flipped_row, ho.forward, flipped_col, hi.forward]
  exact forwardFrom_agree B _ _ fun l h _ => flipped_other ε mem (by omega) (by omega)

theorem output_flipped (mem : Mem) (N : ℕ) (X : Batch) :
    net.output (flipped A.length ε mem) N X = net.output mem N X := by
  rw [Net.output, Net.output, activations_flipped hnet ho hi]

theorem reg_flipped (mem : Mem) : regFrom (flipped A.length ε mem) 0 net.layers = regFrom mem 0 net.layers := by
  rw [hnet, regFrom_append, regFrom_append, Nat.zero_add, regFrom_agree (mem := flipped A.length ε mem) (mem' := mem) A 0
    fun l _ h => flipped_other ε mem (by omega) (by omega)]
  rw [regFrom, regFrom, regFrom, regFrom, flipped_row, ho.regError, flipped_col, hi.regError,
    regFrom_agree (mem := flipped A.length ε mem) (mem' := mem) B _
      fun l h _ => flipped_other ε mem (by omega) (by omega)]

theorem backFrom_flipped (hA : 0 < A.length) (mem : Mem) (N : ℕ) (stale : ℕ → Batch) (X e : Batch) (d : Mem) :
    backFrom (flipped A.length ε mem) N stale 0 net.layers X e d =
      ((backFrom mem N stale 0 net.layers X e d).1, flipped A.length ε (backFrom mem N stale 0 net.layers X e d).2) := by
  rw [hnet]
  refine backFrom_before_flip stale (fun x => ?_) A 0 X (Nat.zero_add _)
  rw [backFrom_cons, backFrom_cons, backFrom_cons, backFrom_cons, flipped_row, ho.forward, flipped_col, hi.forward,
    backFrom_agree (mem := flipped A.length ε mem) (mem' := mem) stale e d B _ _
      fun l h _ => flipped_other ε mem (by omega) (by omega)]
  generalize backFrom mem N stale (A.length + 1 + 1) B _ e d = r
  have hf1 : decide (A.length + 1 + 1 > 2) = true := by simp; omega
  simp only [backStep, flipped_row, flipped_col, hf1, hi.derivs, hi.back, ho.derivs, ho.back, flipped_update, signAt_row, signAt_col]
  refine Prod.ext rfl ?_
  funext l s
  dsimp only
  by_cases h1 : l = A.length
  · subst h1
    rw [Function.update_self, Function.update_self]
  · by_cases h2 : l = A.length + 1
    · subst h2
      rw [Function.update_of_ne (by omega), Function.update_self, Function.update_of_ne (by omega), Function.update_self]
    · rw [Function.update_of_ne h1, Function.update_of_ne h2, Function.update_of_ne h1, Function.update_of_ne h2,
        flipped_other ε _ h1 h2]

theorem value_flipped (mem : Mem) (N : ℕ) (X T : Batch) :
    net.value (flipped A.length ε mem) N X T = net.value mem N X T := by
  rw [Net.value, Net.value, reg_flipped hnet ho hi, output_flipped hnet ho hi]

omit ho hi in
theorem updatedFrom_flipped (ho : OutFlip ε l1) (hi : InFlip ε l2) (mem : Mem) :
    updatedFrom 0 net.layers (flipped A.length ε mem) = flipped A.length ε (updatedFrom 0 net.layers mem) := by
  have key : ∀ (m : Mem) (l : ℕ), updatedFrom 0 net.layers m l =
      if h : l < net.layers.length then net.layers[l].updated (m l) else m l := by
    intro m l
    split
    · next h => simpa using updatedFrom_getElem (k := 0) (mem := m) h
    · next h => exact updatedFrom_ge (by omega)
  have hk : net.layers[A.length]? = some l1 := by rw [hnet]; simp
  have hk1 : net.layers[A.length + 1]? = some l2 := by rw [hnet]; simp
  funext l
  by_cases h1 : l = A.length
  · subst h1
    obtain ⟨h, e⟩ := List.getElem?_eq_some_iff.1 hk
    rw [flipped_row, key, dif_pos h, e, flipped_row, ho.updated, key, dif_pos h, e]
  · by_cases h2 : l = A.length + 1
    · subst h2
      obtain ⟨h, e⟩ := List.getElem?_eq_some_iff.1 hk1
      rw [flipped_col, key, dif_pos h, e, flipped_col, hi.updated, key, dif_pos h, e]
    · rw [flipped_other ε _ h1 h2, key, key, flipped_other ε _ h1 h2]

end

/-! ## Parameter vectors -/

/-- Spec: the sign of entry `p` of the parameter vector. -/
def Net.signs (net : Net) (k : ℕ) (ε : ℕ → ℝ) (p : ℕ) : ℝ := (net.parameters[p]?).elim 1 (signAt k ε)

theorem Net.signs_sign {ε : ℕ → ℝ} (h : Signs ε) (net : Net) (k : ℕ) : Signs (net.signs k ε) := by
  intro p
  unfold Net.signs
  cases net.parameters[p]? with
  | none => exact Or.inl rfl
  | some l => exact signAt_sign h k l

/-- Writing parameters with signs gives the weights with signs. -/
theorem setParameters_flipped {net : Net} {A B : List Layer} {l1 l2 : Layer} {ε : ℕ → ℝ}
    (hnet : net.layers = A ++ l1 :: l2 :: B) (ho : OutFlip ε l1) (hi : InFlip ε l2) (hnd : net.parameters.Nodup) (mem : Mem) (w : ℕ → ℝ) :
    net.setParameters (flipped A.length ε mem) ((List.range net.P).map fun p => net.signs A.length ε p * w p) =
      flipped A.length ε (net.setParameters mem ((List.range net.P).map w)) := by
  rw [Net.setParameters, Net.setParameters, ← updatedFrom_flipped hnet ho hi]
  congr 1
  funext l s
  by_cases hp : (l, s) ∈ net.parameters
  · obtain ⟨p, hlt, e⟩ := List.getElem_of_mem hp
    have h1 := writeAll_getElem (θ := (List.range net.P).map fun p => net.signs A.length ε p * w p) (mem := flipped A.length ε mem) hnd hlt
      (by simpa [Net.P] using hlt)
    have h2 := writeAll_getElem (θ := (List.range net.P).map w) (mem := mem) hnd hlt (by simpa [Net.P] using hlt)
    have hs : net.signs A.length ε p = signAt A.length ε (l, s) := by
      rw [Net.signs, List.getElem?_eq_getElem hlt, e]
      rfl
    rw [e] at h1 h2
    rw [flipped, h2]
    refine h1.trans ?_
    simp [hs]
  · have h1 := writeAll_of_notMem (θ := (List.range net.P).map fun p => net.signs A.length ε p * w p) (mem := flipped A.length ε mem) hp
    have h2 := writeAll_of_notMem (θ := (List.range net.P).map w) (mem := mem) hp
    rw [flipped, h2]
    exact h1

/-! ## Architectures -/

/-- Spec: a layer whose units have an odd activation function, each with its own row of weights. -/
def Kind.OddUnits : Kind → Prop
  | .fullyConnected _ _ act _ => act.Odd
  | .compressed _ _ _ act _ _ => act.Odd
  | _ => False

section

variable {D K : ℕ} {pre post : List Kind} {h : Kind} {bias : Bool} {act : Act} {reg : Reg} (ce : Bool) {ε : ℕ → ℝ}
  (hh : h.OddUnits) (hε : Signs ε)

include hh hε in
theorem Kind.OddUnits.outFlip (I : ℕ) : OutFlip ε (h.layer I) := by
  cases h with
  | fullyConnected J' b a r => exact fullyConnected_outFlip hh hε
  | compressed J' M b a r phi => exact compressed_outFlip hh hε
  | _ => exact hh.elim

include hh hε in
theorem layers_withOdd : ∃ A l1 l2 B, (buildNet D (withHidden pre h K bias act reg post) ce).layers = A ++ l1 :: l2 :: B ∧
    A.length = pre.length + 1 ∧ OutFlip ε l1 ∧ InFlip ε l2 := by
  refine ⟨inputLayer D :: layersFrom D pre, h.layer (outFrom D (layersFrom D pre)),
    NN.fullyConnected (h.layer (outFrom D (layersFrom D pre))).outputs K bias act reg,
    layersFrom K post, ?_, ?_, hh.outFlip hε _, ?_⟩
  · show inputLayer D :: layersFrom D (pre ++ h :: .fullyConnected K bias act reg :: post) = _
    rw [layersFrom_append, layersFrom, layersFrom]
    rfl
  · rw [List.length_cons, layersFrom_length]
  · exact fullyConnected_inFlip hε

include hh hε in
/-- **C130 (predictions and errors)**: changing the signs of all weights of some units of a hidden layer with an odd activation function
changes neither the outputs for any batch nor the value of `errorGradient`, `error(n)` and `error()`, penalties included. -/
theorem predict_flipped (mem : Mem) :
    (∀ N X, (buildNet D (withHidden pre h K bias act reg post) ce).predictAll (flipped (pre.length + 1) ε mem) N X =
      (buildNet D (withHidden pre h K bias act reg post) ce).predictAll mem N X) ∧
    (∀ N X T, (buildNet D (withHidden pre h K bias act reg post) ce).value (flipped (pre.length + 1) ε mem) N X T =
      (buildNet D (withHidden pre h K bias act reg post) ce).value mem N X T) ∧
    (∀ ds n, (buildNet D (withHidden pre h K bias act reg post) ce).errorAt (flipped (pre.length + 1) ε mem) ds n =
      (buildNet D (withHidden pre h K bias act reg post) ce).errorAt mem ds n) ∧
    ∀ ds, (buildNet D (withHidden pre h K bias act reg post) ce).error (flipped (pre.length + 1) ε mem) ds =
      (buildNet D (withHidden pre h K bias act reg post) ce).error mem ds := by
  obtain ⟨A, l1, l2, B, hnet, hA, ho, hi⟩ := layers_withOdd (D := D) (pre := pre) (post := post) (K := K) (bias := bias)
    (act := act) (reg := reg) ce hh hε
  rw [← hA]
  have hat : ∀ ds n, (buildNet D (withHidden pre h K bias act reg post) ce).errorAt (flipped A.length ε mem) ds n =
      (buildNet D (withHidden pre h K bias act reg post) ce).errorAt mem ds n := fun ds n => by
    rw [Net.errorAt, Net.errorAt, output_flipped hnet ho hi, reg_flipped hnet ho hi]
  refine ⟨fun N X => output_flipped hnet ho hi mem N X, fun N X T => value_flipped hnet ho hi mem N X T, hat, fun ds => ?_⟩
  rw [Net.error, Net.error]
  simp only [hat]

variable (hf : FitsFrom D (withHidden pre h K bias act reg post))
  (hv : ∀ k ∈ withHidden pre h K bias act reg post, k.Visible)

include hh hε in
theorem setParameters_withOdd (mem : Mem) (w : ℕ → ℝ)
    {net : Net} (hn : net = buildNet D (withHidden pre h K bias act reg post) ce) :
    net.setParameters (flipped (pre.length + 1) ε mem) ((List.range net.P).map fun p => net.signs (pre.length + 1) ε p * w p) =
      flipped (pre.length + 1) ε (net.setParameters mem ((List.range net.P).map w)) := by
  obtain ⟨A, l1, l2, B, hnet, hA, ho, hi⟩ := layers_withOdd (D := D) (pre := pre) (post := post) (K := K) (bias := bias)
    (act := act) (reg := reg) ce hh hε
  have hnd := parameters_nodup D (withHidden pre h K bias act reg post) ce
  rw [← hn] at hnet hnd
  rw [← hA]
  exact setParameters_flipped hnet ho hi hnd mem w

include hh hε hf hv in
/-- **C130 (gradient)**: with the other signs `errorGradient` returns the same value and the gradient with the other signs, for any
examples, whatever the weights and buffers contained before. -/
theorem errorGradient_flipped (mem : Mem) (sc : Scratch)
    (ds : TrainSet) (idx : List ℕ) (w : ℕ → ℝ) {net : Net} (hn : net = buildNet D (withHidden pre h K bias act reg post) ce) :
    (net.errorGradient (net.setParameters mem ((List.range net.P).map fun p => net.signs (pre.length + 1) ε p * w p)) sc ds idx).1 =
      (net.errorGradient (net.setParameters mem ((List.range net.P).map w)) sc ds idx).1 ∧
    ∀ p, (net.errorGradient (net.setParameters mem ((List.range net.P).map fun p => net.signs (pre.length + 1) ε p * w p)) sc ds idx).2.getD p 0 =
      net.signs (pre.length + 1) ε p * (net.errorGradient (net.setParameters mem ((List.range net.P).map w)) sc ds idx).2.getD p 0 := by
  obtain ⟨A, l1, l2, B, hnet, hA, ho, hi⟩ := layers_withOdd (D := D) (pre := pre) (post := post) (K := K) (bias := bias)
    (act := act) (reg := reg) ce hh hε
  have hset := setParameters_withOdd ce hh hε mem w hn
  have hdet := errorGradient_determined ce hf hv mem (flipped (pre.length + 1) ε mem)
    (θ := (List.range net.P).map fun p => net.signs (pre.length + 1) ε p * w p) (by simp [hn]) sc sc (ds := ds) (ds' := ds) (idx := idx)
    fun _ _ => ⟨fun _ _ => rfl, fun _ _ => rfl⟩
  have hder := (parameters_one_to_one D (withHidden pre h K bias act reg post) ce).2.2.2.1
  rw [← hn] at hdet hnet hder
  rw [hdet, hset]
  rw [← hA]
  generalize net.setParameters mem ((List.range net.P).map w) = m
  refine ⟨value_flipped hnet ho hi m _ _ _, fun p => ?_⟩
  show (net.grad _ _ _ _ _).getD p 0 = _ * (net.grad _ _ _ _ _).getD p 0
  have hb := backFrom_flipped hnet ho hi (by omega) m idx.length sc.stale (selectRows ds.inst idx)
    (fun n j => net.output m idx.length (selectRows ds.inst idx) n j - selectRows ds.tgt idx n j) sc.derivs
  rw [Net.grad, Net.grad, output_flipped hnet ho hi, hb, hder]
  simp only [List.getD_eq_getElem?_getD, List.getElem?_map, Net.signs]
  cases hl : net.parameters[p]? with
  | some l => exact mul_div_assoc _ _ _
  | none => exact (mul_zero _).symm

include hh hε hf hv in
/-- **C130 (parameter vector)**: the parameter vector with the other signs gives the same outputs. -/
theorem predictions_flipped (mem : Mem) (w : ℕ → ℝ)
    {net : Net} (hn : net = buildNet D (withHidden pre h K bias act reg post) ce) (N : ℕ) (X : Batch) (n : ℕ) {j : ℕ}
    (hj : j < net.outputs) :
    net.predictAll (net.setParameters mem ((List.range net.P).map fun p => net.signs (pre.length + 1) ε p * w p)) N X n j =
      net.predictAll (net.setParameters mem ((List.range net.P).map w)) N X n j := by
  have hset := setParameters_withOdd ce hh hε mem w hn
  subst hn
  rw [parameters_determine ce hf hv mem (flipped (pre.length + 1) ε mem) (by simp) N (X' := X) (fun _ _ => rfl) hj, hset,
    (predict_flipped ce hh hε _).1]

end

/-! ## Dead units -/

/-- Spec: all incoming weights, the bias and all outgoing weights of unit `a` of layer `k` are zero in the parameter vector `w`. -/
def Net.Dead (net : Net) (k : ℕ) (w : ℕ → ℝ) (a : ℕ) : Prop :=
  ∀ p i : ℕ, (net.parameters[p]? = some (k, .w [a, i]) → w p = 0) ∧ (net.parameters[p]? = some (k, .b [a]) → w p = 0) ∧
    (net.parameters[p]? = some (k + 1, .w [i, a]) → w p = 0)

/-- The sign of one unit is changed. -/
def only (a : ℕ) : ℕ → ℝ := fun j => if j = a then -1 else 1

theorem only_signs (a : ℕ) : Signs (only a) := by
  intro j
  unfold only
  split
  · exact Or.inr rfl
  · exact Or.inl rfl

theorem only_self (a : ℕ) : only a a = -1 := if_pos rfl

theorem dead_iff {net : Net} {k a : ℕ} (w : ℕ → ℝ) : net.Dead k w a ↔ ∀ p, net.signs k (only a) p * w p = w p := by
  have neg : ∀ x : ℝ, -1 * x = x → x = 0 := fun x h => by linarith
  constructor
  · intro hd p
    unfold Net.signs
    cases hl : net.parameters[p]? with
    | none => exact one_mul _
    | some l =>
      show signAt k (only a) l * w p = w p
      have key : signAt k (only a) l = 1 ∨ w p = 0 := by
        obtain ⟨m, s⟩ := l
        by_cases h1 : m = k
        · subst h1
          rw [signAt_row]
          unfold rowSign
          split
          · next j i =>
            by_cases hj : j = a
            · subst hj
              exact Or.inr ((hd p i).1 hl)
            · exact Or.inl (if_neg hj)
          · next j =>
            by_cases hj : j = a
            · subst hj
              exact Or.inr ((hd p 0).2.1 hl)
            · exact Or.inl (if_neg hj)
          · exact Or.inl rfl
        · by_cases h2 : m = k + 1
          · subst h2
            rw [signAt_col]
            unfold colSign
            split
            · next i j =>
              by_cases hj : j = a
              · subst hj
                exact Or.inr ((hd p i).2.2 hl)
              · exact Or.inl (if_neg hj)
            · exact Or.inl rfl
          · exact Or.inl (signAt_other _ h1 h2 s)
      rcases key with e | e
      · rw [e, one_mul]
      · rw [e, mul_zero]
  · intro h p i
    have hp := h p
    unfold Net.signs at hp
    refine ⟨fun e => ?_, fun e => ?_, fun e => ?_⟩ <;> rw [e] at hp
    · refine neg _ (Eq.trans ?_ hp)
      show -1 * w p = signAt k (only a) (k, .w [a, i]) * w p
      rw [signAt_row, rowSign, only_self]
    · refine neg _ (Eq.trans ?_ hp)
      show -1 * w p = signAt k (only a) (k, .b [a]) * w p
      rw [signAt_row, rowSign, only_self]
    · refine neg _ (Eq.trans ?_ hp)
      show -1 * w p = signAt k (only a) (k + 1, .w [i, a]) * w p
      rw [signAt_col, colSign, only_self]

/-- **C130 (dead units are silent)**: a dead unit of a layer with an odd activation function has the output 0 for every input. -/
theorem dead_silent {D K : ℕ} {pre post : List Kind} {h : Kind} {bias : Bool} {act : Act} {reg : Reg} (ce : Bool) (hh : h.OddUnits)
    (hf : FitsFrom D (withHidden pre h K bias act reg post)) (hv : ∀ k ∈ withHidden pre h K bias act reg post, k.Visible) {net : Net}
    (hn : net = buildNet D (withHidden pre h K bias act reg post) ce) {a : ℕ} (ha : a < (h.layer (outFrom D (layersFrom D pre))).outputs)
    {w : ℕ → ℝ} (hd : net.Dead (pre.length + 1) w a) (mem : Mem) (N : ℕ) (x : Batch) (n : ℕ) :
    (h.layer (outFrom D (layersFrom D pre))).forward (net.setParameters mem ((List.range net.P).map w) (pre.length + 1)) N x n a = 0 := by
  have hset := setParameters_withOdd ce hh (only_signs a) mem w hn
  rw [funext ((dead_iff w).1 hd)] at hset
  have hw : ∀ s, h.IsParam (outFrom D (layersFrom D pre)) s →
      net.setParameters mem ((List.range net.P).map w) (pre.length + 1) s =
        rowSign (only a) s * net.setParameters mem ((List.range net.P).map w) (pre.length + 1) s := by
    intro s hp
    have h1 : net.setParameters mem ((List.range net.P).map w) (pre.length + 1) s =
        net.setParameters (flipped (pre.length + 1) (only a) mem) ((List.range net.P).map w) (pre.length + 1) s := by
      subst hn
      exact setParameters_determined ce _ _ (by simp) ((isParamFrom_append pre).2 hp)
    rw [hset, flipped_row] at h1
    exact h1
  have := Kind.forward_congr (N := N) (fitsFrom_append pre hf) (hv h (by simp [withHidden])) hw (x := x) (x' := x) (n := n)
    (fun _ _ => rfl) (j := a) ha
  rw [(hh.outFlip (only_signs a) _).forward] at this
  dsimp only at this
  rw [only_self] at this
  linarith

/-! ## Examples -/

/-- The hypotheses are met by signs that change weights. -/
example : (Kind.fullyConnected 2 true .tanh ⟨0, 0, 0⟩).OddUnits ∧ Signs (only 0) ∧ flipped 1 (only 0) firstUnit ≠ firstUnit ∧
    flipped 1 (only 0) firstUnit 1 (.w [0, 0]) = -1 ∧ flipped 1 (only 0) firstUnit 2 (.w [0, 0]) = -1 := by
  refine ⟨trivial, only_signs 0, fun e => ?_, ?_, ?_⟩
  · have := congrFun (congrFun e 1) (.w [0, 0])
    simp [flipped, signAt, only, firstUnit] at this
    norm_num at this
  · simp [flipped, signAt, only, firstUnit]
  · simp [flipped, signAt, only, firstUnit]

/-- A rectifier is not odd: the signs of its weights cannot be changed. -/
theorem rectifier_flip_fails : ∃ (mem : Mem) (x : ℕ → ℝ),
    (buildNet 1 (withHidden [] (.fullyConnected 1 true .rectifier ⟨0, 0, 0⟩) 1 true .linear ⟨0, 0, 0⟩ []) false).predict
        (flipped 1 (only 0) mem) x 0 ≠
      (buildNet 1 (withHidden [] (.fullyConnected 1 true .rectifier ⟨0, 0, 0⟩) 1 true .linear ⟨0, 0, 0⟩ []) false).predict mem x 0 := by
  refine ⟨firstUnit, fun _ => 1, ?_⟩
  simp [Net.predict, Net.output, Net.activations, buildNet, withHidden, layersFrom, Kind.layer, NN.fullyConnected,
    forwardFrom, inputLayer, Act.map, Act.apply, dense, Weights.mat, Weights.vec, firstUnit, flipped, signAt, only, Finset.filter_singleton]

/-- Unit 1 of `twoUnits` is dead although other weights are not zero. -/
example : (buildNet 1 twoUnits false).Dead 1 (fun p => if p = 2 ∨ p = 3 ∨ p = 5 then 0 else 7) 1 := by
  have hp : (buildNet 1 twoUnits false).parameters =
      [(1, .w [0, 0]), (1, .b [0]), (1, .w [1, 0]), (1, .b [1]), (2, .w [0, 0]), (2, .w [0, 1]), (2, .b [0])] := rfl
  intro p i
  rw [hp]
  rcases p with _ | _ | _ | _ | _ | _ | _ | p <;> simp

end

end Verif.NN
