import Verif.Model.PythonArrays

/-!
# C109: arrays and stopping criteria pass the Python interface unchanged
-/

namespace Verif.PyArr

open Outcome

variable {α : Type}

/-! ## Specification -/

/-- `x` is a matrix of numbers: `n` rows, `m` columns, entries `v`. -/
def IsMatrix (x : Arg α) (n m : ℕ) (v : ℕ → ℕ → α) : Prop :=
  ∃ get, x = .array [n, m] get ∧ ∀ r < n, ∀ c < m, get [r, c] = some (v r c)

/-- `x` is a vector of `n` numbers. -/
def IsVector (x : Arg α) (n : ℕ) (v : ℕ → α) : Prop :=
  ∃ get, x = .array [n] get ∧ ∀ r < n, get [r] = some (v r)

/-- `M` is the matrix with `n` rows, `m` columns and the entries `v`. -/
def Mat.Is (M : Mat α) (n m : ℕ) (v : ℕ → ℕ → α) : Prop := M.rows = n ∧ M.cols = m ∧ ∀ r < n, ∀ c < m, M.coeff r c = v r c

/-! ## Lemmas -/

theorem int_of_lt {n : ℕ} (h : n < 2 ^ 31) : int n = .ok n := if_pos h

theorem int_of_ge {n : ℕ} (h : 2 ^ 31 ≤ n) : int n = .ub := if_neg (Nat.not_lt.2 h)

theorem store_of_lt {size i : ℕ} (data : ℕ → α) (v : α) (h : i < size) : store size data i v = .ok (Function.update data i v) := if_pos h

theorem toInt_of_lt {n : ℕ} (h : n < 2 ^ 31) : toInt n = n := by
  have e : n % 2 ^ 32 = n := Nat.mod_eq_of_lt (by omega)
  unfold toInt
  rw [e, if_pos h]

theorem cell_lt {n m r c : ℕ} (hr : r < n) (hc : c < m) : n * c + r < n * m := by
  have : n * (c + 1) ≤ n * m := Nat.mul_le_mul_left n hc
  rw [Nat.mul_succ] at this
  omega

theorem cell_inj {n r c r' c' : ℕ} (hr : r < n) (hr' : r' < n) (h : n * c + r = n * c' + r') : r = r' ∧ c = c' := by
  have e1 : (n * c + r) % n = r := by rw [Nat.mul_add_mod, Nat.mod_eq_of_lt hr]
  have e2 : (n * c' + r') % n = r' := by rw [Nat.mul_add_mod, Nat.mod_eq_of_lt hr']
  have e : r = r' := by rw [← e1, ← e2, h]
  refine ⟨e, ?_⟩
  subst e
  exact Nat.eq_of_mul_eq_mul_left (Nat.lt_of_le_of_lt (Nat.zero_le _) hr) (Nat.add_right_cancel h)

/-- A loop over all cells that writes `v` into distinct places. -/
theorem fill_loop {n m size : ℕ} {pos : ℕ → ℕ → ℕ} (v : ℕ → ℕ → α) (body : ℕ → ℕ → (ℕ → α) → Outcome (ℕ → α)) (mem : ℕ → α)
    (hpos : ∀ r < n, ∀ c < m, pos r c < size)
    (hinj : ∀ r < n, ∀ c < m, ∀ r' < n, ∀ c' < m, pos r c = pos r' c' → r = r' ∧ c = c')
    (hbody : ∀ r < n, ∀ c < m, ∀ data, body r c data = store size data (pos r c) (v r c)) :
    ∃ data, forLoop n (fun r data => forLoop m (fun c data => body r c data) data) mem = .ok data ∧
      ∀ r < n, ∀ c < m, data (pos r c) = v r c := by
  have inner : ∀ r < n, ∀ k ≤ m, ∀ data, ∃ data', forLoop k (fun c data => body r c data) data = .ok data' ∧
      (∀ c < k, data' (pos r c) = v r c) ∧ ∀ i, (∀ c < k, i ≠ pos r c) → data' i = data i := by
    intro r hr k
    induction k with
    | zero => intro _ data; exact ⟨data, rfl, fun c hc => absurd hc (Nat.not_lt_zero _), fun _ _ => rfl⟩
    | succ k ih =>
      intro hk data
      obtain ⟨d, h1, h2, h3⟩ := ih (by omega) data
      refine ⟨Function.update d (pos r k) (v r k), ?_, fun c hc => ?_, fun i hi => ?_⟩
      · rw [forLoop, h1, ok_bind, hbody r hr k hk, store_of_lt _ _ (hpos r hr k hk)]
      · by_cases e : c = k
        · subst e; exact Function.update_self ..
        · have hne : pos r c ≠ pos r k := fun e' => e (hinj r hr c (by omega) r hr k hk e').2
          rw [Function.update_of_ne hne]
          exact h2 c (by omega)
      · rw [Function.update_of_ne (hi k (by omega))]
        exact h3 i fun c hc => hi c (by omega)
  have outer : ∀ k ≤ n, ∃ data, forLoop k (fun r data => forLoop m (fun c data => body r c data) data) mem = .ok data ∧
      ∀ r < k, ∀ c < m, data (pos r c) = v r c := by
    intro k
    induction k with
    | zero => intro _; exact ⟨mem, rfl, fun r hr => absurd hr (Nat.not_lt_zero _)⟩
    | succ k ih =>
      intro hk
      obtain ⟨d, h1, h2⟩ := ih (by omega)
      obtain ⟨d', h3, h4, h5⟩ := inner k hk m (Nat.le_refl _) d
      refine ⟨d', ?_, fun r hr c hc => ?_⟩
      · rw [forLoop, h1, ok_bind]; exact h3
      · by_cases e : r = k
        · subst e; exact h4 c hc
        · rw [h5 _ fun c' hc' e' => e (hinj r (by omega) c hc k hk c' hc' e').1]
          exact h2 r (by omega) c hc
  exact outer n (Nat.le_refl _)

/-! ## From Python to C++ -/

/-- **C109**: a matrix arrives with the same entries, if it has at most 2³¹ of them. -/
theorem matrix_exact (k : Compiler) (mem : ℕ → α) {x : Arg α} {n m : ℕ} {v : ℕ → ℕ → α} (hx : IsMatrix x n m v) (hn : n < 2 ^ 31)
    (hm : m < 2 ^ 31) (h : n * m ≤ 2 ^ 31) : ∃ M, matrixToEigen k mem x = .ok (some M) ∧ M.Is n m v := by
  obtain ⟨get, rfl, hv⟩ := hx
  obtain ⟨data, h1, h2⟩ := fill_loop (n := n) (m := m) (size := n * m) (pos := fun r c => n * c + r) v
    (fun r c data => number (get [r, c]) >>= fun v => int (n * c) >>= fun p => int (p + r) >>= fun i => store (n * m) data i v) mem
    (fun r hr c hc => cell_lt hr hc) (fun r hr c hc r' hr' c' hc' e => cell_inj hr hr' e) (fun r hr c hc data => by
      have hlt := cell_lt hr hc
      rw [hv r hr c hc]
      show (int (n * c) >>= fun p => int (p + r) >>= fun i => store (n * m) data i (v r c)) = _
      rw [int_of_lt (by omega), ok_bind, int_of_lt (by omega), ok_bind])
  refine ⟨⟨n, m, data⟩, ?_, rfl, rfl, fun r hr c hc => h2 r hr c hc⟩
  unfold matrixToEigen
  dsimp only
  rw [int_of_lt hn, ok_bind, int_of_lt hm, ok_bind, h1, ok_bind]
  rfl

theorem vector_exact (k : Compiler) (mem : ℕ → α) {x : Arg α} {n : ℕ} {v : ℕ → α} (hx : IsVector x n v) (hn : n < 2 ^ 31) :
    ∃ M, vectorToEigen k mem x = .ok (some M) ∧ M.rows = n ∧ M.cols = 1 ∧ ∀ r < n, M.data r = v r := by
  obtain ⟨get, rfl, hv⟩ := hx
  obtain ⟨data, h1, h2⟩ := fill_loop (n := n) (m := 1) (size := n) (pos := fun r _ => r) (fun r _ => v r)
    (fun r _ data => number (get [r]) >>= fun v => store n data r v) mem
    (fun r hr c hc => hr) (fun r hr c hc r' hr' c' hc' e => ⟨e, by omega⟩) (fun r hr c hc data => by
      rw [hv r hr]; rfl)
  have h3 : forLoop n (fun r data => number (get [r]) >>= fun v => store n data r v) mem = .ok data := h1
  refine ⟨⟨n, 1, data⟩, ?_, rfl, rfl, fun r hr => h2 r hr 0 Nat.one_pos⟩
  unfold vectorToEigen
  dsimp only
  have e : ¬ (toInt n < 0) := by rw [toInt_of_lt hn]; omega
  rw [if_neg e, toInt_of_lt hn, Int.toNat_natCast, h3, ok_bind]
  rfl

/-! ## From C++ to Python -/

theorem matrix_back (mem : ℕ → α) {M : Mat α} {n m : ℕ} {v : ℕ → ℕ → α} (hM : M.Is n m v) (hn : n < 2 ^ 31) (hm : m < 2 ^ 31) :
    ∃ y, matrixToNumpy mem M = .ok y ∧ IsMatrix y n m v := by
  obtain ⟨rfl, rfl, hv⟩ := hM
  obtain ⟨data, h1, h2⟩ := fill_loop (n := M.rows) (m := M.cols) (size := M.rows * M.cols) (pos := fun r c => M.cols * r + c) M.coeff
    (fun r c out => store (M.rows * M.cols) out (M.cols * r + c) (M.coeff r c)) mem
    (fun r hr c hc => by rw [Nat.mul_comm M.rows]; exact cell_lt hc hr)
    (fun r hr c hc r' hr' c' hc' e => (cell_inj hc hc' e).symm) (fun r hr c hc data => rfl)
  unfold matrixToNumpy
  rw [int_of_lt hn, ok_bind, int_of_lt hm, ok_bind, h1, ok_bind]
  refine ⟨_, rfl, _, rfl, fun r hr c hc => ?_⟩
  dsimp only
  rw [if_pos ⟨hr, hc⟩, h2 r hr c hc, hv r hr c hc]

theorem vector_back (mem : ℕ → α) (x : Mat α) (hn : x.rows < 2 ^ 31) : ∃ y, vectorToNumpy mem x = .ok y ∧ IsVector y x.rows x.data := by
  obtain ⟨data, h1, h2⟩ := fill_loop (n := x.rows) (m := 1) (size := x.rows) (pos := fun r _ => r) (fun r _ => x.data r)
    (fun r _ out => store x.rows out r (x.data r)) mem
    (fun r hr c hc => hr) (fun r hr c hc r' hr' c' hc' e => ⟨e, by omega⟩) (fun r hr c hc data => rfl)
  have h3 : forLoop x.rows (fun r out => store x.rows out r (x.data r)) mem = .ok data := h1
  unfold vectorToNumpy
  rw [int_of_lt hn, ok_bind, h3, ok_bind]
  refine ⟨_, rfl, _, rfl, fun r hr => ?_⟩
  dsimp only
  rw [if_pos hr, h2 r hr 0 Nat.one_pos]

/-- **C109, round trip.** -/
theorem matrix_roundtrip (k : Compiler) (mem mem' : ℕ → α) {x : Arg α} {n m : ℕ} {v : ℕ → ℕ → α} (hx : IsMatrix x n m v) (hn : n < 2 ^ 31)
    (hm : m < 2 ^ 31) (h : n * m ≤ 2 ^ 31) :
    ∃ M y, matrixToEigen k mem x = .ok (some M) ∧ matrixToNumpy mem' M = .ok y ∧ IsMatrix y n m v := by
  obtain ⟨M, h1, h2⟩ := matrix_exact k mem hx hn hm h
  obtain ⟨y, h3, h4⟩ := matrix_back mem' h2 hn hm
  exact ⟨M, y, h1, h3, h4⟩

example : ∃ M y, matrixToEigen .ignores (fun _ => 0) (.array [2, 3] fun idx => some (10 * idx.headD 0 + idx.getLastD 0)) = .ok (some M) ∧
    matrixToNumpy (fun _ => 7) M = .ok y ∧ IsMatrix y 2 3 fun r c => 10 * r + c :=
  matrix_roundtrip .ignores _ _ ⟨_, rfl, fun _ _ _ _ => rfl⟩ (by decide) (by decide) (by decide)

/-! ## Data sets -/

/-- What an optional argument becomes. -/
theorem optional_matrix (k : Compiler) (mem : ℕ → α) {x : Arg α} {n m : ℕ} {v : ℕ → ℕ → α} (hx : IsMatrix x n m v) (hn : n < 2 ^ 31)
    (hm : m < 2 ^ 31) (h : n * m ≤ 2 ^ 31) : ∃ M, optional k mem x = .ok (some M) ∧ M.Is n m v := by
  have := matrix_exact k mem hx hn hm h
  obtain ⟨get, rfl, _⟩ := hx
  exact this

/-- **C109 for data sets**: each row is an instance. -/
theorem dataSet_exact (k : Compiler) (mem mem' : ℕ → α) {x t : Arg α} {n d f : ℕ} {v w : ℕ → ℕ → α} (hx : IsMatrix x n d v)
    (ht : IsMatrix t n f w) (hn : n < 2 ^ 31) (hd : d < 2 ^ 31) (hf : f < 2 ^ 31) (hd0 : 0 < d) (h : n * d ≤ 2 ^ 31) (h' : n * f ≤ 2 ^ 31) :
    ∃ D, dataSet k mem x t = .ok D ∧ D.samples = n ∧ D.inputs = d ∧ D.outputs = f ∧
      (∀ i < n, ∃ a, D.instance mem' i = .ok (some a) ∧ IsVector a d (v i)) ∧
      (∀ i < n, ∃ a, D.target mem' i = .ok (some a) ∧ IsVector a f (w i)) := by
  obtain ⟨X, hX, rfl, rfl, hX3⟩ := optional_matrix k mem hx hn hd h
  obtain ⟨T, hT, hT1, rfl, hT3⟩ := optional_matrix k mem ht hn hf h'
  refine ⟨⟨some X, some T, true⟩, ?_, rfl, rfl, rfl, fun i hi => ?_, fun i hi => ?_⟩
  · unfold dataSet
    rw [hX, ok_bind, hT, ok_bind]
    dsimp only
    have hc : ∀ T', some T = some T' → X.rows = T'.rows := fun T' e => by injection e with e; rw [← e]; exact hT1.symm
    rw [check_true hd0, ok_bind, check_true hc, ok_bind]
  · obtain ⟨y, hy, get, rfl, hv⟩ := vector_back mem' (X.row i) hd
    refine ⟨_, ?_, get, rfl, fun c hc => (hv c hc).trans (congrArg some (hX3 i hi c hc))⟩
    have hc : (0 : ℤ) ≤ (i : ℤ) ∧ (i : ℤ) ≤ (X.rows : ℤ) - 1 := by omega
    unfold DataSet.instance
    dsimp only
    rw [check_true hc, ok_bind, Int.toNat_natCast, hy, ok_bind]
    rfl
  · obtain ⟨y, hy, get, rfl, hv⟩ := vector_back mem' (T.row i) hf
    refine ⟨_, ?_, get, rfl, fun c hc => (hv c hc).trans (congrArg some (hT3 i hi c hc))⟩
    have hc : (0 : ℤ) ≤ (i : ℤ) ∧ (i : ℤ) ≤ (T.rows : ℤ) - 1 := by omega
    unfold DataSet.target
    dsimp only
    rw [check_true hc, ok_bind, Int.toNat_natCast, hy, ok_bind]
    rfl

example : ∃ D, dataSet .raises (fun _ => 0) (.array [2, 3] fun idx => some (10 * idx.headD 0 + idx.getLastD 0))
    (.array [2, 1] fun idx => some (idx.headD 0)) = .ok D ∧ D.samples = 2 ∧ D.inputs = 3 ∧ D.outputs = 1 ∧
    (∀ i : ℕ, i < 2 → ∃ a, D.instance (fun _ => 0) i = .ok (some a) ∧ IsVector a 3 fun c => 10 * i + c) ∧
    ∀ i : ℕ, i < 2 → ∃ a, D.target (fun _ => 0) i = .ok (some a) ∧ IsVector a 1 fun _ => i :=
  dataSet_exact (v := fun r c => 10 * r + c) (w := fun r _ => r) .raises _ _ ⟨_, rfl, fun _ _ _ _ => rfl⟩ ⟨_, rfl, fun _ _ _ _ => rfl⟩
    (by decide) (by decide) (by decide) (by decide) (by decide) (by decide)

/-! ## Predictions and transformations -/

/-- **C109 for predictions**: the learner gets the rows and its answer comes back. -/
theorem predict_exact (k : Compiler) (mem : ℕ → α) {x : Arg α} {n m n' m' : ℕ} {v w : ℕ → ℕ → α} (hx : IsMatrix x n m v) (hn : n < 2 ^ 31)
    (hm : m < 2 ^ 31) (h : n * m ≤ 2 ^ 31) (hn' : n' < 2 ^ 31) (hm' : m' < 2 ^ 31) {f : Mat α → Outcome (Mat α)}
    (hf : ∀ M, M.Is n m v → ∃ Y, f M = .ok Y ∧ Y.Is n' m' w) :
    (∃ y, predict k mem f x = .ok y ∧ IsMatrix y n' m' w) ∧ ∃ y, transform k mem f x = .ok y ∧ IsMatrix y n' m' w := by
  have hx' := hx
  obtain ⟨get, rfl, _⟩ := hx'
  obtain ⟨M, h1, h2⟩ := matrix_exact k mem hx hn hm h
  obtain ⟨Y, h3, h4⟩ := hf M h2
  obtain ⟨y, h5, h6⟩ := matrix_back mem h4 hn' hm'
  constructor
  · refine ⟨y, ?_, h6⟩
    unfold predict
    show (matrixToEigen k mem (.array [n, m] get) >>= _) = _
    rw [h1, ok_bind]
    dsimp only
    rw [h3, ok_bind, h5]
  · refine ⟨y, ?_, h6⟩
    unfold transform
    rw [h1, ok_bind]
    dsimp only
    rw [h3, ok_bind, h5]

/-- A vector is predicted as a matrix with one row. -/
theorem predict_vector (k : Compiler) (mem : ℕ → α) {x : Arg α} {m n' m' : ℕ} {v : ℕ → α} {w : ℕ → ℕ → α} (hx : IsVector x m v)
    (hm : m < 2 ^ 31) (hn' : n' < 2 ^ 31) (hm' : m' < 2 ^ 31) {f : Mat α → Outcome (Mat α)}
    (hf : ∀ M, M.Is 1 m (fun _ => v) → ∃ Y, f M = .ok Y ∧ Y.Is n' m' w) : ∃ y, predict k mem f x = .ok y ∧ IsMatrix y n' m' w := by
  obtain ⟨get, rfl, hv⟩ := hx
  have h1 : IsMatrix (atleast2d (.array [m] get)) 1 m fun _ => v := ⟨_, rfl, fun r hr c hc => by
    have e : r = 0 := by omega
    subst e
    exact hv c hc⟩
  exact (predict_exact k mem h1 (by decide) hm (by omega) hn' hm' hf).1

example : ∃ y, predict .ignores (fun _ => 0) (fun M => .ok ⟨M.rows, M.cols, fun i => 2 * M.data i⟩) (.array [3] fun idx => some (idx.headD 0)) = .ok y ∧
    IsMatrix y 1 3 fun _ c => 2 * c :=
  predict_vector .ignores _ (v := fun c => c) ⟨_, rfl, fun _ _ => rfl⟩ (by decide) (by decide) (by decide)
    fun M hM => ⟨_, rfl, hM.1, hM.2.1, fun r hr c hc => by
      have := hM.2.2 r hr c hc
      exact congrArg (2 * ·) this⟩

/-- An array without dimensions is predicted as its only element. -/
theorem predict_scalar (k : Compiler) (mem : ℕ → α) {get : List ℕ → Option α} {a : α} (hx : get [] = some a) {n' m' : ℕ}
    {w : ℕ → ℕ → α} (hn' : n' < 2 ^ 31) (hm' : m' < 2 ^ 31) {f : Mat α → Outcome (Mat α)}
    (hf : ∀ M, M.Is 1 1 (fun _ _ => a) → ∃ Y, f M = .ok Y ∧ Y.Is n' m' w) :
    ∃ y, predict k mem f (.array [] get) = .ok y ∧ IsMatrix y n' m' w := by
  have h1 : IsMatrix (atleast2d (.array [] get)) 1 1 fun _ _ => a := ⟨_, rfl, fun r hr c hc => by
    have e : r = 0 := by omega
    have e' : c = 0 := by omega
    subst e
    subst e'
    exact hx⟩
  exact (predict_exact k mem h1 (by decide) (by decide) (by decide) hn' hm' hf).1

example : ∃ y, predict .ignores (fun _ => 0) (fun M => .ok ⟨M.rows, M.cols, fun i => 2 * M.data i⟩) (.array [] fun _ => some 4) = .ok y ∧
    IsMatrix y 1 1 fun _ _ => 8 :=
  predict_scalar .ignores _ (a := 4) rfl (by decide) (by decide) fun M hM => ⟨_, rfl, hM.1, hM.2.1, fun r hr c hc => by
    have := hM.2.2 r hr c hc
    exact congrArg (2 * ·) this⟩

/-! ## Arguments that are not matrices of numbers -/

/-- With Cython 3, an array with a wrong number of dimensions is an exception, whatever the operation. -/
theorem shape_throws (mem : ℕ → α) {shape : List ℕ} {get : List ℕ → Option α} (h : shape.length ≠ 2) (t : Arg α) (f : Mat α → Outcome (Mat α)) :
    matrixToEigen .raises mem (.array shape get) = .throws ∧ dataSet .raises mem (.array shape get) t = .throws ∧
    transform .raises mem f (.array shape get) = .throws := by
  have h1 : matrixToEigen .raises mem (.array shape get) = .throws := by
    unfold matrixToEigen
    dsimp only
    split
    · simp at h
    · rfl
  refine ⟨h1, ?_, ?_⟩
  · unfold dataSet optional
    dsimp only
    rw [h1]
    rfl
  · unfold transform
    rw [h1]
    rfl

example : dataSet .raises (fun _ => 0) (.array [4] fun _ => some 1) .none = .throws :=
  (shape_throws (fun _ => 0) (by decide) .none (fun M => .ok M)).2.1

/-- Before, the array is ignored: the data set is empty or has lost its targets. -/
theorem shape_ignored_fails (mem : ℕ → α) {shape : List ℕ} {get : List ℕ → Option α} (h : shape.length ≠ 2) :
    (∃ D, dataSet .ignores mem (.array shape get) .none = .ok D ∧ D.samples = 0) ∧
    (∀ x (n d : ℕ) (v : ℕ → ℕ → α), IsMatrix x n d v → n < 2 ^ 31 → d < 2 ^ 31 → 0 < d → n * d ≤ 2 ^ 31 →
      ∃ D, dataSet .ignores mem x (.array shape get) = .ok D ∧ D.samples = n ∧ D.outputs = 0 ∧ ∀ i, D.target mem i = .checkFailed) ∧
    ∀ f, transform .ignores mem f (.array shape get) = .ub := by
  have h1 : matrixToEigen .ignores mem (.array shape get) = .ok none := by
    unfold matrixToEigen
    dsimp only
    split
    · simp at h
    · rfl
  refine ⟨⟨⟨none, none, false⟩, ?_, rfl⟩, fun x n d v hx hn hd h0 hnd => ?_, fun f => ?_⟩
  · unfold dataSet optional
    dsimp only
    rw [h1]
    rfl
  · obtain ⟨X, hX, rfl, rfl, _⟩ := optional_matrix .ignores mem hx hn hd hnd
    refine ⟨⟨some X, none, true⟩, ?_, rfl, rfl, fun i => rfl⟩
    have h2 : optional .ignores mem (.array shape get) = .ok none := h1
    unfold dataSet
    rw [hX, ok_bind, h2, ok_bind]
    dsimp only
    rw [check_true h0, ok_bind, check_true (fun T' e => by cases e), ok_bind]
  · unfold transform
    rw [h1]
    rfl

/-- The targets of a classification as a vector, as most libraries expect them. -/
example : ∃ D, dataSet .ignores (fun _ => 0) (.array [2, 3] fun idx => some (10 * idx.headD 0 + idx.getLastD 0)) (.array [2] fun idx => some (idx.headD 0)) =
    .ok D ∧ D.samples = 2 ∧ D.outputs = 0 ∧ ∀ i, D.target (fun _ => 0) i = .checkFailed :=
  (shape_ignored_fails (fun _ => 0) (shape := [2]) (by decide)).2.1 _ 2 3 (fun r c => 10 * r + c) ⟨_, rfl, fun _ _ _ _ => rfl⟩ (by decide) (by decide)
    (by decide) (by decide)

/-- A matrix with an entry that is no number: an exception with Cython 3, else a null pointer that is followed. -/
theorem entry_outcome (mem : ℕ → α) {n m r0 c0 : ℕ} {get : List ℕ → Option α} (hr : r0 < n) (hc : c0 < m) (hn : n < 2 ^ 31) (hm : m < 2 ^ 31)
    (h : n * m ≤ 2 ^ 31) (hnone : get [r0, c0] = none) (f : Mat α → Outcome (Mat α)) :
    predict .raises mem f (.array [n, m] get) = .throws ∧ predict .ignores mem f (.array [n, m] get) = .ub := by
  have key : ∀ k, matrixToEigen k mem (.array [n, m] get) = cfun k .throws := by
    intro k
    have step : ∀ r < n, ∀ c < m, ∀ data : ℕ → α,
        (∃ d, (number (get [r, c]) >>= fun v => int (n * c) >>= fun p => int (p + r) >>= fun i => store (n * m) data i v) = .ok d) ∨
        (number (get [r, c]) >>= fun v => int (n * c) >>= fun p => int (p + r) >>= fun i => store (n * m) data i v) = .throws := by
      intro r hr c hc data
      have hlt := cell_lt hr hc
      cases get [r, c] with
      | none => exact Or.inr rfl
      | some v =>
        left
        show ∃ d, (int (n * c) >>= fun p => int (p + r) >>= fun i => store (n * m) data i v) = .ok d
        rw [int_of_lt (by omega), ok_bind, int_of_lt (by omega), ok_bind, store_of_lt _ _ hlt]
        exact ⟨_, rfl⟩
    have inner : ∀ r < n, ∀ k ≤ m, ∀ data : ℕ → α,
        (∃ d, forLoop k (fun c data => number (get [r, c]) >>= fun v => int (n * c) >>= fun p => int (p + r) >>= fun i =>
          store (n * m) data i v) data = .ok d ∧ (r = r0 → k ≤ c0)) ∨
        forLoop k (fun c data => number (get [r, c]) >>= fun v => int (n * c) >>= fun p => int (p + r) >>= fun i =>
          store (n * m) data i v) data = .throws := by
      intro r hr k
      induction k with
      | zero => intro _ data; exact Or.inl ⟨data, rfl, fun _ => Nat.zero_le _⟩
      | succ k ih =>
        intro hk data
        rcases ih (by omega) data with ⟨d, h1, h2⟩ | h1
        · rw [forLoop, h1, ok_bind]
          by_cases e : r = r0 ∧ k = c0
          · right
            rw [e.1, e.2, hnone]
            rfl
          · rcases step r hr k hk d with ⟨d', h3⟩ | h3
            · exact Or.inl ⟨d', h3, fun e' => by have := h2 e'; omega⟩
            · exact Or.inr h3
        · right
          rw [forLoop, h1]
          rfl
    have outer : ∀ k ≤ n,
        (∃ d, forLoop k (fun r data => forLoop m (fun c data => number (get [r, c]) >>= fun v => int (n * c) >>= fun p => int (p + r) >>= fun i =>
          store (n * m) data i v) data) mem = .ok d ∧ k ≤ r0) ∨
        forLoop k (fun r data => forLoop m (fun c data => number (get [r, c]) >>= fun v => int (n * c) >>= fun p => int (p + r) >>= fun i =>
          store (n * m) data i v) data) mem = .throws := by
      intro k
      induction k with
      | zero => intro _; exact Or.inl ⟨mem, rfl, Nat.zero_le _⟩
      | succ k ih =>
        intro hk
        rcases ih (by omega) with ⟨d, h1, h2⟩ | h1
        · rw [forLoop, h1, ok_bind]
          rcases inner k hk m (Nat.le_refl _) d with ⟨d', h3, h4⟩ | h3
          · refine Or.inl ⟨d', h3, ?_⟩
            by_cases e : k = r0
            · have := h4 e; omega
            · omega
          · exact Or.inr h3
        · right
          rw [forLoop, h1]
          rfl
    rcases outer n (Nat.le_refl _) with ⟨d, _, h1⟩ | h1
    · omega
    · unfold matrixToEigen
      dsimp only
      rw [int_of_lt hn, ok_bind, int_of_lt hm, ok_bind, h1]
      rfl
  constructor
  · unfold predict
    show (matrixToEigen .raises mem (.array [n, m] get) >>= _) = _
    rw [key]
    rfl
  · unfold predict
    show (matrixToEigen .ignores mem (.array [n, m] get) >>= _) = _
    rw [key]
    rfl

example : predict .ignores (fun _ => 0) (fun M => .ok M) (.array [2, 2] fun idx => if idx = [1, 0] then none else some 1) = .ub :=
  (entry_outcome (fun _ => 0) (r0 := 1) (c0 := 0) (by decide) (by decide) (by decide) (by decide) (by decide) rfl _).2

/-- `None` is followed like an array. -/
theorem none_ub (k : Compiler) (mem : ℕ → α) (f : Mat α → Outcome (Mat α)) {σ : Type} (g : Mat α → Outcome σ) :
    transform k mem f .none = .ub ∧ setParameters k mem g .none = .ub := ⟨rfl, rfl⟩

/-! ## Large arrays -/

theorem loop_last_ub {σ : Type} {n : ℕ} {body : ℕ → σ → Outcome σ} (h : ∀ i < n, ∀ s, (∃ s', body i s = .ok s') ∨ body i s = .ub) (s : σ) :
    (∃ s', forLoop n body s = .ok s') ∨ forLoop n body s = .ub := by
  induction n with
  | zero => exact Or.inl ⟨s, rfl⟩
  | succ n ih =>
    rw [forLoop]
    rcases ih fun i hi => h i (Nat.lt_succ_of_lt hi) with ⟨s', e⟩ | e
    · rw [e, ok_bind]; exact h n (Nat.lt_succ_self n) s'
    · rw [e]; exact Or.inr rfl

/-- **C109 fails for more than 2³¹ numbers** (16 GiB): the place of a number is computed with `int`. -/
theorem large_ub (k : Compiler) (mem : ℕ → α) {x : Arg α} {n m : ℕ} {v : ℕ → ℕ → α} (hx : IsMatrix x n m v) (hn : n < 2 ^ 31) (hm : m < 2 ^ 31)
    (h : 2 ^ 31 < n * m) : matrixToEigen k mem x = .ub := by
  obtain ⟨get, rfl, hv⟩ := hx
  have hcell : ∀ r < n, ∀ c < m, ∀ data : ℕ → α,
      (number (get [r, c]) >>= fun v => int (n * c) >>= fun p => int (p + r) >>= fun i => store (n * m) data i v) =
      if n * c + r < 2 ^ 31 then .ok (Function.update data (n * c + r) (v r c)) else .ub := by
    intro r hr c hc data
    rw [hv r hr c hc]
    show (int (n * c) >>= fun p => int (p + r) >>= fun i => store (n * m) data i (v r c)) = _
    by_cases h1 : n * c < 2 ^ 31
    · rw [int_of_lt h1, ok_bind]
      by_cases h2 : n * c + r < 2 ^ 31
      · rw [int_of_lt h2, ok_bind, store_of_lt _ _ (cell_lt hr hc), if_pos h2]
      · rw [int_of_ge (Nat.not_lt.1 h2), if_neg h2]; rfl
    · rw [int_of_ge (Nat.not_lt.1 h1), if_neg (by omega)]; rfl
  have hinner : ∀ r < n, ∀ c < m, ∀ data : ℕ → α, (∃ d,
      (number (get [r, c]) >>= fun v => int (n * c) >>= fun p => int (p + r) >>= fun i => store (n * m) data i v) = .ok d) ∨
      (number (get [r, c]) >>= fun v => int (n * c) >>= fun p => int (p + r) >>= fun i => store (n * m) data i v) = .ub := by
    intro r hr c hc data
    rw [hcell r hr c hc]
    by_cases e : n * c + r < 2 ^ 31
    · rw [if_pos e]; exact Or.inl ⟨_, rfl⟩
    · rw [if_neg e]; exact Or.inr rfl
  have n0 : 0 < n := Nat.pos_of_ne_zero fun e => by subst e; simp at h
  have m0 : 0 < m := Nat.pos_of_ne_zero fun e => by subst e; simp at h
  obtain ⟨n', rfl⟩ : ∃ n', n = n' + 1 := ⟨n - 1, by omega⟩
  obtain ⟨m', rfl⟩ : ∃ m', m = m' + 1 := ⟨m - 1, by omega⟩
  have hlast : ¬ ((n' + 1) * m' + n' < 2 ^ 31) := by
    rw [Nat.mul_succ] at h
    omega
  unfold matrixToEigen
  dsimp only
  rw [int_of_lt hn, ok_bind, int_of_lt hm, ok_bind]
  have hub : forLoop (n' + 1) (fun r data => forLoop (m' + 1) (fun c data =>
      number (get [r, c]) >>= fun v => int ((n' + 1) * c) >>= fun p => int (p + r) >>= fun i => store ((n' + 1) * (m' + 1)) data i v) data) mem = .ub := by
    rw [forLoop]
    rcases loop_last_ub (n := n') (fun r hr s => loop_last_ub (n := m' + 1) (fun c hc s => hinner r (Nat.lt_succ_of_lt hr) c hc s) s) mem with ⟨d, e⟩ | e
    · rw [e, ok_bind, forLoop]
      rcases loop_last_ub (n := m') (fun c hc s => hinner n' (Nat.lt_succ_self _) c (Nat.lt_succ_of_lt hc) s) d with ⟨d', e'⟩ | e'
      · rw [e', ok_bind, hcell n' (Nat.lt_succ_self _) m' (Nat.lt_succ_self _), if_neg hlast]
      · rw [e']; rfl
    · rw [e]; rfl
  rw [hub]
  rfl

example : matrixToEigen .raises (fun _ => 0) (.array [65536, 32769] fun _ => some 1) = .ub :=
  large_ub .raises _ (v := fun _ _ => 1) ⟨_, rfl, fun _ _ _ _ => rfl⟩ (by decide) (by decide) (by decide)

/-- A vector with 2³² + m numbers arrives with m numbers. -/
theorem vector_cut_fails (k : Compiler) (mem : ℕ → α) {x : Arg α} {n m : ℕ} {v : ℕ → α} (hx : IsVector x n v) (hn : n = 2 ^ 32 + m)
    (hm : m < 2 ^ 31) : ∃ M, vectorToEigen k mem x = .ok (some M) ∧ M.rows = m := by
  obtain ⟨get, rfl, hv⟩ := hx
  obtain ⟨M, h1, h2, _⟩ := vector_exact k mem (x := .array [m] get) ⟨get, rfl, fun r hr => hv r (by omega)⟩ hm
  refine ⟨M, ?_, h2⟩
  rw [← h1]
  have e : toInt n = toInt m := by
    have : n % 2 ^ 32 = m % 2 ^ 32 := by rw [hn]; exact Nat.add_mod_left _ _
    unfold toInt
    rw [this]
  unfold vectorToEigen
  dsimp only
  rw [e]

example : ∃ M, vectorToEigen .raises (fun _ => 0) (.array [2 ^ 32 + 5] fun _ => some 1) = .ok (some M) ∧ M.rows = 5 :=
  vector_cut_fails .raises _ (v := fun _ => 1) ⟨_, rfl, fun _ _ => rfl⟩ rfl (by decide)

/-- For a vector with 2³¹ to 2³² - 1 numbers the converted length is negative. -/
theorem vector_large_ub (k : Compiler) (mem : ℕ → α) {x : Arg α} {n : ℕ} {v : ℕ → α} (hx : IsVector x n v) (hn : 2 ^ 31 ≤ n)
    (hm : n < 2 ^ 32) : vectorToEigen k mem x = .ub := by
  obtain ⟨get, rfl, hv⟩ := hx
  have h : toInt n < 0 := by
    unfold toInt
    rw [Nat.mod_eq_of_lt hm, if_neg (by omega)]
    omega
  unfold vectorToEigen
  dsimp only
  rw [if_pos h]
  rfl

example : vectorToEigen .raises (fun _ => 0) (.array [2 ^ 31] fun _ => some 1) = .ub :=
  vector_large_ub .raises _ (v := fun _ => 1) ⟨_, rfl, fun _ _ => rfl⟩ (by decide) (by decide)

/-! ## Stopping criteria -/

/-- The names of the criteria. -/
def criteria {β : Type} : List (String × (Criteria β → β)) :=
  [("maximal_function_evaluations", Criteria.maximalFunctionEvaluations), ("maximal_iterations", Criteria.maximalIterations),
   ("maximal_restarts", Criteria.maximalRestarts), ("minimal_value", Criteria.minimalValue),
   ("minimal_value_differences", Criteria.minimalValueDifferences), ("minimal_search_space_step", Criteria.minimalSearchSpaceStep)]

/-- **C109 for stopping criteria**: every criterion that is in the dictionary gets its value, the other ones keep theirs, and all other keys are
reported. -/
theorem criteria_exact {β : Type} (c : Criteria β) (stop : List (String × β)) :
    (∀ p ∈ criteria, (∀ b, stop.lookup p.1 = some b → p.2 (configure c stop).2 = b) ∧
      (stop.lookup p.1 = none → p.2 (configure c stop).2 = p.2 c)) ∧
    ∀ key, key ∈ (configure c stop).1 ↔ (∃ b, (key, b) ∈ stop) ∧ ∀ p ∈ (criteria : List (String × (Criteria β → β))), p.1 ≠ key := by
  constructor
  · intro p hp
    simp only [criteria, List.mem_cons, List.not_mem_nil, or_false] at hp
    rcases hp with rfl | rfl | rfl | rfl | rfl | rfl <;>
    · refine ⟨fun b hb => ?_, fun hb => ?_⟩ <;>
      · dsimp only [configure, get] at hb ⊢
        rw [hb]
        rfl
  · intro key
    simp only [configure, List.mem_filter, List.mem_map, criteria, availableKeys]
    constructor
    · rintro ⟨⟨⟨k, b⟩, h1, rfl⟩, h2⟩
      refine ⟨⟨b, h1⟩, fun p hp e => ?_⟩
      subst e
      simp only [List.mem_cons, List.not_mem_nil, or_false] at hp
      rcases hp with rfl | rfl | rfl | rfl | rfl | rfl <;> simp at h2
    · rintro ⟨⟨b, h1⟩, h2⟩
      refine ⟨⟨(key, b), h1, rfl⟩, ?_⟩
      simp only [List.mem_cons, List.not_mem_nil, or_false, forall_eq_or_imp, forall_eq] at h2
      simp only [Bool.not_eq_true', List.contains_eq_mem, List.mem_cons, List.not_mem_nil, or_false, decide_eq_false_iff_not, not_or]
      obtain ⟨a1, a2, a3, a4, a5, a6⟩ := h2
      exact ⟨Ne.symm a2, Ne.symm a1, Ne.symm a3, Ne.symm a4, Ne.symm a5, Ne.symm a6⟩

/-- A misspelt name is reported and has no effect. -/
example : let stop := [("maximal_iterations", (50 : ℤ)), ("minimal_valu", 3)]
    (∀ c : Criteria ℤ, (configure c stop).2.maximalIterations = 50 ∧ (configure c stop).2.minimalValue = c.minimalValue) ∧
    ∀ c : Criteria ℤ, "minimal_valu" ∈ (configure c stop).1 := by
  intro stop
  have h1 : stop.lookup "maximal_iterations" = some 50 := by simp [stop, List.lookup]
  have h2 : stop.lookup "minimal_value" = none := by simp [stop, List.lookup]
  refine ⟨fun c => ⟨?_, ?_⟩, fun c => ?_⟩
  · exact ((criteria_exact c stop).1 ("maximal_iterations", Criteria.maximalIterations) (by simp [criteria])).1 50 h1
  · exact ((criteria_exact c stop).1 ("minimal_value", Criteria.minimalValue) (by simp [criteria])).2 h2
  · exact ((criteria_exact c stop).2 _).2 ⟨⟨3, by simp [stop]⟩, by simp [criteria]⟩

end Verif.PyArr

namespace Verif.PyArr
variable {α : Type}

/-- **C109**: vectors that are not arrays with one dimension are refused, ... -/
theorem vector_shape_throws (mem : ℕ → α) {shape : List ℕ} {get : List ℕ → Option α} (h : shape.length ≠ 1) {σ : Type}
    (f : Mat α → Outcome σ) :
    vectorToEigen .raises mem (.array shape get) = .throws ∧ setParameters .raises mem f (.array shape get) = .throws := by
  have h1 : vectorToEigen .raises mem (.array shape get) = .throws := by
    match shape, h with
    | [], _ => rfl
    | [_], h => exact absurd rfl h
    | _ :: _ :: _, _ => rfl
  exact ⟨h1, by rw [setParameters, h1]; rfl⟩

/-- ... if the compiler of the module propagates exceptions; otherwise a null pointer is used. -/
theorem vector_shape_ub (mem : ℕ → α) {shape : List ℕ} {get : List ℕ → Option α} (h : shape.length ≠ 1) {σ : Type}
    (f : Mat α → Outcome σ) : setParameters .ignores mem f (.array shape get) = .ub := by
  match shape, h with
  | [], _ => rfl
  | [_], h => exact absurd rfl h
  | _ :: _ :: _, _ => rfl

example : vectorToEigen .raises (fun _ => 0) (.array [2, 3] fun _ => some 1) = .throws :=
  (vector_shape_throws (fun _ => 0) (by decide) (fun M => .ok M)).1

end Verif.PyArr
