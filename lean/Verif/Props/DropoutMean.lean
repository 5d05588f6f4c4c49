import Verif.Model.DropoutNet
import Verif.Props.Contrastive
import Verif.Props.Determined

/-!
# Dropout: what training sees on average (C81)
-/

namespace Verif.NN

open Finset Verif.Boltz

noncomputable section

/-! ## Spec -/

/-- Spec: `F` maps mixtures of two batches to the mixtures of the results. -/
def Mixes (F : Batch → Batch) : Prop := ∀ (t : ℝ) (x y : Batch) (n j : ℕ),
  F (fun n i => t * x n i + (1 - t) * y n i) n j = t * F x n j + (1 - t) * F y n j

/-- Spec: layers without nonlinearity. -/
def Kind.Affine (I : ℕ) : Kind → Prop
  | .fullyConnected _ _ act _ => act = .linear
  | .compressed _ _ _ act _ _ => act = .linear
  | .extreme _ _ act _ => act = .linear
  | .conv g => g.act = .linear ∧ g.inputs = I ∧ g.Valid
  | .sub g _ act _ => act = .linear ∧ g.inputs = I ∧ g.Valid
  | .dropout _ => True
  | _ => False

def AffineFrom : ℕ → List Plan → Prop
  | _, [] => True
  | I, .fixed k :: ps => k.Affine I ∧ AffineFrom (k.layer I).outputs ps
  | I, .dropout _ :: ps => AffineFrom I ps

/-- Spec: behind the first dropout layer there is no nonlinearity. -/
def AffineAfter : ℕ → List Plan → Prop
  | _, [] => True
  | I, .fixed k :: ps => AffineAfter (k.layer I).outputs ps
  | I, .dropout _ :: ps => AffineFrom I ps

/-- Spec: every dropout layer multiplies by the probability to keep a unit, when a unit is dropped with probability `q p`. -/
def scaled (q : ℝ → ℝ) : List Plan → List Kind
  | [] => []
  | .fixed k :: ps => k :: scaled q ps
  | .dropout p :: ps => .dropout (fun _ _ => 1 - q p) :: scaled q ps

/-! ## Masks -/

theorem dropCells_sample (q : ℝ → ℝ) (p : ℝ) : ∀ (cs : List (ℕ × ℕ)) (m : Batch) (f : Batch → ℝ), cs.Nodup → (∀ c ∈ cs, m c.1 c.2 = 1) →
    (dropCells p cs m).expect q f = (sampleCells (fun _ _ => p) cs fun n i => 1 - m n i).expect q fun h => f fun n i => 1 - h n i := by
  intro cs
  induction cs with
  | nil =>
    intro m f _ _
    show f m = f fun n i => 1 - (1 - m n i)
    congr 1
    funext n i
    ring
  | cons c cs ih =>
    intro m f hn hm
    rw [List.nodup_cons] at hn
    have h1 : (dropCells p cs (setEntry m c.1 c.2 0)).expect q f = (sampleCells (fun _ _ => p) cs
        (setEntry (fun n i => 1 - m n i) c.1 c.2 1)).expect q fun h => f fun n i => 1 - h n i := by
      rw [ih _ _ hn.2]
      · congr 2
        funext n i
        unfold setEntry
        split <;> ring
      · intro c' hc'
        rw [setEntry, if_neg, hm c' (List.mem_cons_of_mem _ hc')]
        rintro ⟨e1, e2⟩
        exact hn.1 (Prod.ext e1 e2 ▸ hc')
    have h2 : (dropCells p cs m).expect q f = (sampleCells (fun _ _ => p) cs
        (setEntry (fun n i => 1 - m n i) c.1 c.2 0)).expect q fun h => f fun n i => 1 - h n i := by
      rw [ih _ _ hn.2 fun c' hc' => hm c' (List.mem_cons_of_mem _ hc')]
      congr 2
      funext n i
      unfold setEntry
      split
      · rename_i h
        rw [h.1, h.2, hm c List.mem_cons_self, sub_self]
      · rfl
    show q p * (dropCells p cs (setEntry m c.1 c.2 0)).expect q f + (1 - q p) * (dropCells p cs m).expect q f = _
    rw [h1, h2]
    rfl

theorem cells_nodup (N K : ℕ) : (cells N K).Nodup := List.nodup_range.product List.nodup_range

/-- One row of a mask: every unit is dropped with probability `q p`, independently. -/
theorem mask_row (q : ℝ → ℝ) (p : ℝ) {N I n : ℕ} (hn : n < N) {F : (ℕ → ℝ) → ℝ} (hF : Local I F) :
    (drawMask true p N I).expect q (fun m => F (m n)) = bernoulli I (fun _ => q p) fun h => F fun i => 1 - h i := by
  show (dropCells p (cells N I) fun _ _ => 1).expect q _ = _
  rw [dropCells_sample q p _ _ _ (cells_nodup N I) fun _ _ => rfl]
  exact sampleCells_cells q (fun _ _ => p) hn _ (F := fun h => F fun i => 1 - h i) fun x y h => hF _ _ fun k hk => by rw [h k hk]

/-- Rows are independent. -/
theorem mask_rows (q : ℝ → ℝ) (p : ℝ) (N I : ℕ) {F : ℕ → (ℕ → ℝ) → ℝ} (hF : ∀ n, Local I (F n)) :
    (drawMask true p N I).expect q (fun m => ∏ n ∈ range N, F n (m n)) =
      ∏ n ∈ range N, bernoulli I (fun _ => q p) fun h => F n fun i => 1 - h i := by
  show (dropCells p (cells N I) fun _ _ => 1).expect q _ = _
  rw [dropCells_sample q p _ _ _ (cells_nodup N I) fun _ _ => rfl]
  exact sampleCells_rows q (fun _ _ => p) I (F := fun n h => F n fun i => 1 - h i)
    (fun n x y h => hF n _ _ fun k hk => by rw [h k hk]) N _

theorem bernoulli_one_sub (K : ℕ) (p : ℕ → ℝ) {k : ℕ} (hk : k < K) : bernoulli K p (fun h => 1 - h k) = 1 - p k := by
  have h2 := bernoulli_const K p 1
  rw [← bernoulli_unit p hk]
  refine Eq.trans ?_ (congrArg (· - bernoulli K p fun x => x k) h2)
  unfold bernoulli
  simp only
  rw [← sum_sub_distrib]
  exact sum_congr rfl fun S _ => by ring

/-- Every unit is kept with probability `1 - q p`. -/
theorem mask_mean (q : ℝ → ℝ) (p : ℝ) {N I n i : ℕ} (hn : n < N) (hi : i < I) :
    (drawMask true p N I).expect q (fun m => m n i) = 1 - q p := by
  rw [mask_row q p hn (F := fun x => x i) fun x y h => h i hi]
  exact bernoulli_one_sub I _ hi

/-- **C81 (link)**: for every sequence of random numbers the mask is that of C27, with the random numbers taken row by row. -/
theorem mask_run (M : ℕ) (p : ℝ) (N I : ℕ) (r : ℕ → ℕ) : ∃ m, (drawMask true p N I).run M r = .ok m ∧
    ∀ n < N, ∀ i < I, m n i = dropoutMask true p (fun n i => (r (n * I + i) : ℝ) / M) n i := by
  have key : ∀ (cs : List (ℕ × ℕ)) (m0 : Batch) (r : ℕ → ℕ), cs.Nodup → ∃ m, (dropCells p cs m0).run M r = .ok m ∧
      (∀ n i, (n, i) ∉ cs → m n i = m0 n i) ∧
      ∀ t (h : t < cs.length), m cs[t].1 cs[t].2 = if (r t : ℝ) / M < p then 0 else m0 cs[t].1 cs[t].2 := by
    intro cs
    induction cs with
    | nil => exact fun m0 r _ => ⟨m0, rfl, fun _ _ _ => rfl, fun t h => absurd h (Nat.not_lt_zero t)⟩
    | cons c cs ih =>
      intro m0 r hn
      rw [List.nodup_cons] at hn
      obtain ⟨m, h1, h2, h3⟩ := ih (if (r 0 : ℝ) / M < p then setEntry m0 c.1 c.2 0 else m0) (fun t => r (t + 1)) hn.2
      have hoff : ∀ n i, (n, i) ≠ c → (if (r 0 : ℝ) / M < p then setEntry m0 c.1 c.2 0 else m0) n i = m0 n i := by
        intro n i h
        split
        · rw [setEntry, if_neg]
          rintro ⟨rfl, rfl⟩
          exact h rfl
        · rfl
      refine ⟨m, ?_, fun n i h => ?_, fun t h => ?_⟩
      · rw [dropCells, Draw.run, Draw.fires_eq, Outcome.ok_bind]
        simp only [decide_eq_true_eq, gt_iff_lt]
        exact h1
      · rw [h2 n i fun h' => h (List.mem_cons_of_mem _ h'), hoff n i fun e => h (e ▸ List.mem_cons_self)]
      · cases t with
        | zero =>
          show m c.1 c.2 = _
          rw [h2 c.1 c.2 hn.1]
          show _ = if (r 0 : ℝ) / M < p then 0 else m0 c.1 c.2
          split
          · rw [setEntry, if_pos ⟨rfl, rfl⟩]
          · rfl
        | succ t =>
          have h' : t < cs.length := by simpa using h
          simp only [List.getElem_cons_succ]
          rw [h3 t h', hoff]
          intro e
          have : cs[t] = c := e
          exact hn.1 (this ▸ List.getElem_mem h')
  obtain ⟨m, h1, _, h3⟩ := key (cells N I) (fun _ _ => 1) r (cells_nodup N I)
  refine ⟨m, h1, fun n hn i hi => ?_⟩
  have hidx : ∀ N, n < N → (cells N I)[n * I + i]? = some (n, i) := by
    intro N
    induction N with
    | zero => intro h; omega
    | succ N ih =>
      intro hN
      rw [cells_succ]
      by_cases h : n < N
      · rw [List.getElem?_append_left, ih h]
        rw [cells_length]
        calc n * I + i < n * I + I := by omega
          _ = (n + 1) * I := by ring
          _ ≤ N * I := Nat.mul_le_mul_right I h
      · obtain rfl : n = N := by omega
        rw [List.getElem?_append_right (by rw [cells_length]; omega), cells_length, Nat.add_sub_cancel_left]
        simp [hi]
  have hlt : n * I + i < (cells N I).length := (List.getElem?_eq_some_iff.1 (hidx N hn)).1
  have hget : (cells N I)[n * I + i] = (n, i) := (List.getElem?_eq_some_iff.1 (hidx N hn)).2
  have := h3 (n * I + i) hlt
  rw [hget] at this
  rw [this]
  simp [dropoutMask]

/-- Exactly `c` comparisons on every path. -/
def Exactly {α : Type} : ℕ → Draw α → Prop
  | c, .ret _ => c = 0
  | c, .compare _ k => ∃ c', c = c' + 1 ∧ ∀ b, Exactly c' (k b)

theorem run_bind {α β : Type} (M : ℕ) (f : α → Draw β) : ∀ (c : ℕ) (d : Draw α) (r : ℕ → ℕ), Exactly c d →
    (d.bind f).run M r = (d.run M r >>= fun a => (f a).run M fun t => r (c + t)) := by
  intro c d
  induction d generalizing c with
  | ret a =>
    intro r h
    obtain rfl : c = 0 := h
    simp only [zero_add]
    rfl
  | compare p k ih =>
    rintro r ⟨c', rfl, h⟩
    rw [Draw.bind, Draw.run, Draw.run, Draw.fires_eq, Outcome.ok_bind, Outcome.ok_bind, ih _ c' _ (h _)]
    simp only [add_right_comm]

theorem dropCells_exactly (p : ℝ) : ∀ (cs : List (ℕ × ℕ)) (m : Batch), Exactly cs.length (dropCells p cs m) := by
  intro cs
  induction cs with
  | nil => exact fun m => rfl
  | cons c cs ih => exact fun m => ⟨cs.length, rfl, fun b => ih _⟩

/-- Spec: the masks of the dropout layers, made of consecutive random numbers; `I` is the number of inputs of the first layer. -/
def Masked (M N : ℕ) : (ℕ → ℕ) → ℕ → List Plan → List Kind → Prop
  | _, _, [], [] => True
  | r, I, .fixed k :: ps, k' :: ks => k' = k ∧ Masked M N r (k.layer I).outputs ps ks
  | r, I, .dropout p :: ps, .dropout m :: ks =>
    (∀ n < N, ∀ i < I, m n i = dropoutMask true p (fun n i => (r (n * I + i) : ℝ) / M) n i) ∧ Masked M N (fun t => r (N * I + t)) I ps ks
  | _, _, _, _ => False

/-- **C81 (link)**: the masks of a forward pass for every sequence of random numbers. -/
theorem masks_run (M N : ℕ) : ∀ (ps : List Plan) (I : ℕ) (r : ℕ → ℕ), ∃ ks, (drawKinds true N I ps).run M r = .ok ks ∧ Masked M N r I ps ks := by
  intro ps
  induction ps with
  | nil => exact fun I r => ⟨[], rfl, trivial⟩
  | cons a ps ih =>
    intro I r
    have hb : ∀ (d : Draw (List Kind)) (k : Kind) (ks : List Kind) (r : ℕ → ℕ), d.run M r = .ok ks →
        (d.bind fun ks => Draw.ret (k :: ks)).run M r = .ok (k :: ks) := by
      intro d
      induction d with
      | ret a =>
        intro k ks r h
        obtain rfl : a = ks := by simpa [Draw.run] using h
        rfl
      | compare p f ihd =>
        intro k ks r h
        rw [Draw.run, Draw.fires_eq, Outcome.ok_bind] at h
        rw [Draw.bind, Draw.run, Draw.fires_eq, Outcome.ok_bind]
        exact ihd _ k ks _ h
    cases a with
    | fixed k =>
      obtain ⟨ks, h1, h2⟩ := ih (k.layer I).outputs r
      exact ⟨k :: ks, hb _ k ks r h1, rfl, h2⟩
    | dropout p =>
      obtain ⟨m, h1, h2⟩ := mask_run M p N I r
      obtain ⟨ks, h3, h4⟩ := ih I fun t => r (N * I + t)
      refine ⟨.dropout m :: ks, ?_, h2, h4⟩
      have hx : Exactly (N * I) (drawMask true p N I) := by
        have := dropCells_exactly p (cells N I) fun _ _ => 1
        rwa [cells_length] at this
      rw [drawKinds, run_bind M _ _ _ _ hx, h1, Outcome.ok_bind]
      exact hb _ _ ks _ h3

/-! ## Mixtures -/

/-- The mean of an affine function is the function of the mean. -/
theorem Mixes.expect {F : Batch → Batch} (hF : Mixes F) {α : Type} (q : ℝ → ℝ) (d : Draw α) (g : α → Batch) (n j : ℕ) :
    d.expect q (fun a => F (g a) n j) = F (fun n i => d.expect q fun a => g a n i) n j := by
  induction d with
  | ret a => rfl
  | compare p k ih =>
    simp only [Draw.expect]
    rw [ih true, ih false, ← hF]

theorem Mixes.comp {F G : Batch → Batch} (hF : Mixes F) (hG : Mixes G) : Mixes fun x => F (G x) := by
  intro t x y n j
  have : G (fun n i => t * x n i + (1 - t) * y n i) = fun n i => t * G x n i + (1 - t) * G y n i := by
    funext n i
    exact hG t x y n i
  simp only [this]
  exact hF t _ _ n j

theorem dense_mixes (I : ℕ) (W : Batch) (b : ℕ → ℝ) : Mixes (dense I W b) := by
  intro t x y n j
  have : ∑ i ∈ range I, (t * x n i + (1 - t) * y n i) * W j i =
      t * ∑ i ∈ range I, x n i * W j i + (1 - t) * ∑ i ∈ range I, y n i * W j i := by
    rw [mul_sum, mul_sum, ← sum_add_distrib]
    exact sum_congr rfl fun i _ => by ring
  simp only [dense, this]
  ring

theorem sum_mixes {ι : Type} (s : Finset ι) (t : ℝ) {f g h : ι → ℝ} (e : ∀ i ∈ s, f i = t * g i + (1 - t) * h i) :
    ∑ i ∈ s, f i = t * ∑ i ∈ s, g i + (1 - t) * ∑ i ∈ s, h i := by
  rw [mul_sum, mul_sum, ← sum_add_distrib]
  exact sum_congr rfl e

theorem Kind.mixes {k : Kind} {I : ℕ} (h : k.Affine I) (w : Weights) (N : ℕ) : Mixes ((k.layer I).forward w N) := by
  cases k with
  | fullyConnected J bias act reg =>
    obtain rfl : act = .linear := h
    exact dense_mixes _ _ _
  | compressed J M bias act reg phi =>
    obtain rfl : act = .linear := h
    exact dense_mixes _ _ _
  | extreme J bias act W =>
    obtain rfl : act = .linear := h
    exact dense_mixes _ _ _
  | conv g =>
    intro t x y n j
    show g.act.apply (g.activation w _ n j) = t * g.act.apply (g.activation w x n j) + (1 - t) * g.act.apply (g.activation w y n j)
    rw [h.1]
    show g.activation w _ n j = t * g.activation w x n j + (1 - t) * g.activation w y n j
    unfold Conv.activation
    refine sum_mixes _ t fun fmo _ => sum_mixes _ t fun fmi _ => sum_mixes _ t fun row _ => sum_mixes _ t fun col _ => ?_
    have : g.window w (fun n i => t * x n i + (1 - t) * y n i) n fmo fmi row col =
        t * g.window w x n fmo fmi row col + (1 - t) * g.window w y n fmo fmi row col := by
      unfold Conv.window
      exact sum_mixes _ t fun kr _ => sum_mixes _ t fun kc _ => by ring
    rw [this]
    split <;> ring
  | sub g bias act reg =>
    obtain ⟨rfl, _⟩ := h
    intro t x y n j
    show g.subActivation bias w _ n j = t * g.subActivation bias w x n j + (1 - t) * g.subActivation bias w y n j
    have : g.rowSum (fun n i => t * x n i + (1 - t) * y n i) n (g.base j) =
        t * g.rowSum x n (g.base j) + (1 - t) * g.rowSum y n (g.base j) := by
      unfold Pool.rowSum
      exact sum_mixes _ t fun kr _ => sum_mixes _ t fun kc _ => rfl
    unfold Pool.subActivation
    rw [this]
    ring
  | dropout mask =>
    intro t x y n j
    show mask n j * (t * x n j + (1 - t) * y n j) = t * (mask n j * x n j) + (1 - t) * (mask n j * y n j)
    ring
  | intrinsicPlasticity s b => exact h.elim
  | rbm H backprop => exact h.elim
  | sparseAutoEncoder H act lambda => exact h.elim
  | maxPool g => exact h.elim
  | lrn g => exact h.elim

theorem scaled_mixes (q : ℝ → ℝ) (mem : Mem) (N : ℕ) : ∀ (ps : List Plan) (I l : ℕ), AffineFrom I ps →
    Mixes fun x => forwardFrom mem N l (layersFrom I (scaled q ps)) x := by
  intro ps
  induction ps with
  | nil => intro I l _ t x y n j; rfl
  | cons a ps ih =>
    intro I l h
    cases a with
    | fixed k => exact (ih _ (l + 1) h.2).comp (Kind.mixes h.1 (mem l) N)
    | dropout p => exact (ih I (l + 1) h).comp (Kind.mixes (k := .dropout fun _ _ => 1 - q p) (I := I) trivial (mem l) N)

theorem scaled_fits (q : ℝ → ℝ) : ∀ (ps : List Plan) (I : ℕ), AffineFrom I ps →
    FitsFrom I (scaled q ps) ∧ ∀ k ∈ scaled q ps, k.Visible := by
  intro ps
  induction ps with
  | nil => exact fun I _ => ⟨trivial, fun k hk => by cases hk⟩
  | cons a ps ih =>
    intro I h
    cases a with
    | fixed k =>
      obtain ⟨h1, h2⟩ := ih _ h.2
      refine ⟨⟨?_, h1⟩, fun k' hk' => ?_⟩
      · have := h.1
        cases k with
        | conv g => exact this.2
        | sub g bias act reg => exact this.2
        | maxPool g => exact this.elim
        | lrn g => exact this.elim
        | _ => trivial
      · rcases List.mem_cons.1 hk' with rfl | hk'
        · have := h.1
          cases k' with
          | rbm H b => exact this.elim
          | _ => trivial
        · exact h2 k' hk'
    | dropout p =>
      obtain ⟨h1, h2⟩ := ih I h
      refine ⟨⟨trivial, h1⟩, fun k' hk' => ?_⟩
      rcases List.mem_cons.1 hk' with rfl | hk'
      · trivial
      · exact h2 k' hk'

theorem affine_mean (q : ℝ → ℝ) (mem : Mem) (N : ℕ) {n : ℕ} (hn : n < N) : ∀ (ps : List Plan) (I l : ℕ), AffineFrom I ps → ∀ x,
    ∀ j < outFrom I (layersFrom I (scaled q ps)),
      (drawKinds true N I ps).expect q (fun ks => forwardFrom mem N l (layersFrom I ks) x n j) =
        forwardFrom mem N l (layersFrom I (scaled q ps)) x n j := by
  intro ps
  induction ps with
  | nil => intro I l _ x j _; rfl
  | cons a ps ih =>
    intro I l h x j hj
    cases a with
    | fixed k =>
      rw [drawKinds, Draw.bind_expect]
      exact ih _ (l + 1) h.2 _ j hj
    | dropout p =>
      have hj' : j < outFrom I (layersFrom I (scaled q ps)) := hj
      rw [drawKinds, Draw.bind_expect]
      have e : ∀ m : Batch, ((drawKinds true N I ps).bind fun ks => Draw.ret (Kind.dropout m :: ks)).expect q
          (fun ks => forwardFrom mem N l (layersFrom I ks) x n j) =
          forwardFrom mem N (l + 1) (layersFrom I (scaled q ps)) (fun n i => m n i * x n i) n j := by
        intro m
        rw [Draw.bind_expect]
        exact ih I (l + 1) h _ j hj'
      simp only [e]
      rw [(scaled_mixes q mem N ps I (l + 1) h).expect q (drawMask true p N I) (fun (m : Batch) n i => m n i * x n i) n j]
      obtain ⟨h1, h2⟩ := scaled_fits q ps I h
      refine forwardFrom_congr _ I (l + 1) h1 h2 (fun _ _ _ => rfl) _ _ (fun i hi => ?_) j hj'
      have : ∀ m : Batch, m n i * x n i = x n i * m n i := fun m => mul_comm _ _
      simp only [this]
      rw [Draw.expect_mul, mask_mean q p hn hi, mul_comm]
      rfl

theorem mean_from (q : ℝ → ℝ) (mem : Mem) (N : ℕ) {n : ℕ} (hn : n < N) : ∀ (ps : List Plan) (I l : ℕ), AffineAfter I ps → ∀ x,
    ∀ j < outFrom I (layersFrom I (scaled q ps)),
      (drawKinds true N I ps).expect q (fun ks => forwardFrom mem N l (layersFrom I ks) x n j) =
        forwardFrom mem N l (layersFrom I (scaled q ps)) x n j := by
  intro ps
  induction ps with
  | nil => intro I l _ x j _; rfl
  | cons a ps ih =>
    intro I l h x j hj
    cases a with
    | fixed k =>
      rw [drawKinds, Draw.bind_expect]
      exact ih _ (l + 1) h _ j hj
    | dropout p => exact affine_mean q mem N hn (.dropout p :: ps) I l h x j hj

/-! ## The theorems -/

/-- Spec: the probabilities of the dropout layers. -/
def Probabilities (ps : List Plan) : Prop := ∀ p, Plan.dropout p ∈ ps → 0 ≤ p ∧ p ≤ 1

/-- Without dropout nothing is random. -/
theorem prediction_eq (q : ℝ → ℝ) (N : ℕ) (f : List Kind → ℝ) : ∀ (ps : List Plan) (I : ℕ), Probabilities ps →
    ∀ g : List Kind → List Kind, (drawKinds false N I ps).expect q (fun ks => f (g ks)) = f (g (scaled id ps)) := by
  intro ps
  induction ps with
  | nil => exact fun I _ g => rfl
  | cons a ps ih =>
    intro I h g
    have h' : Probabilities ps := fun p hp => h p (List.mem_cons_of_mem _ hp)
    cases a with
    | fixed k =>
      rw [drawKinds, Draw.bind_expect]
      exact ih _ h' fun ks => g (k :: ks)
    | dropout p =>
      have e : dropoutMask false p (fun _ _ => 0) = fun _ _ => 1 - p := by
        funext n i
        rcases (h p List.mem_cons_self).1.eq_or_lt with h0 | h0
        · simp [dropoutMask, ← h0]
        · simp [dropoutMask, h0]
      rw [drawKinds, Draw.bind_expect]
      show ((drawKinds false N I ps).bind fun ks => Draw.ret (Kind.dropout (dropoutMask false p fun _ _ => 0) :: ks)).expect q
        (fun ks => f (g ks)) = _
      rw [Draw.bind_expect, e]
      exact ih I h' fun ks => g (.dropout (fun _ _ => 1 - p) :: ks)

/-- **C81 (mean)**: in a network without nonlinearities behind its first dropout layer, the mean of the outputs in training over
all masks is the output of the prediction after training, for every number of dropout layers. -/
theorem training_mean {D : ℕ} {ps : List Plan} (hp : Probabilities ps) (hA : AffineAfter D ps) (mem : Mem) {N : ℕ} (X : Batch) {n : ℕ}
    (hn : n < N) {j : ℕ} (hj : j < (buildNet D (scaled id ps) false).outputs) :
    (drawKinds true N D ps).expect id (fun ks => (buildNet D ks false).predictAll mem N X n j) =
      (drawKinds false N D ps).expect id fun ks => (buildNet D ks false).predictAll mem N X n j := by
  rw [outputs_buildNet] at hj
  exact (mean_from id mem N hn ps D 1 hA X j hj).trans
    (prediction_eq id N (fun ks => (buildNet D ks false).predictAll mem N X n j) ps D hp id).symm

/-- **C81 (generator)**: with the random numbers of the library the mean is exactly the output for the probabilities `rate`, which
differ from the requested ones by at most `1 / (RAND_MAX + 1)`. -/
theorem training_average (M : ℕ) {D : ℕ} {ps : List Plan} (hA : AffineAfter D ps) (mem : Mem) {N : ℕ} (X : Batch) {n : ℕ}
    (hn : n < N) {j : ℕ} (hj : j < (buildNet D (scaled (Draw.rate M) ps) false).outputs) :
    (drawKinds true N D ps).average M (fun ks => (buildNet D ks false).predictAll mem N X n j) =
      (buildNet D (scaled (Draw.rate M) ps) false).predictAll mem N X n j := by
  rw [outputs_buildNet] at hj
  rw [Draw.average_eq]
  exact mean_from (Draw.rate M) mem N hn ps D 1 hA X j hj

/-- Two inputs, a hidden layer of three units with any activation function, dropout, a linear layer, dropout, a linear output. -/
example (act : Act) : Probabilities [.fixed (.fullyConnected 3 true act ⟨0, 0, 0⟩), .dropout (1 / 2), .fixed (.fullyConnected 4 true .linear ⟨0, 0, 0⟩),
      .dropout (1 / 5), .fixed (.fullyConnected 1 true .linear ⟨0, 0, 0⟩)] ∧
    AffineAfter 2 [.fixed (.fullyConnected 3 true act ⟨0, 0, 0⟩), .dropout (1 / 2), .fixed (.fullyConnected 4 true .linear ⟨0, 0, 0⟩),
      .dropout (1 / 5), .fixed (.fullyConnected 1 true .linear ⟨0, 0, 0⟩)] := by
  refine ⟨?_, rfl, rfl, trivial⟩
  intro p hp
  simp only [List.mem_cons, Plan.dropout.injEq, reduceCtorEq, false_or, List.not_mem_nil, or_false] at hp
  rcases hp with rfl | rfl <;> norm_num

/-! ## The error in training -/

theorem bernoulli_add (K : ℕ) (p : ℕ → ℝ) (F G : (ℕ → ℝ) → ℝ) (a b : ℝ) :
    bernoulli K p (fun x => a * F x + b * G x) = a * bernoulli K p F + b * bernoulli K p G := by
  unfold bernoulli
  rw [mul_sum, mul_sum, ← sum_add_distrib]
  exact sum_congr rfl fun S _ => by ring

theorem bernoulli_square (p : ℝ) (a : ℕ → ℝ) : ∀ (K : ℕ) (c : ℝ),
    bernoulli K (fun _ => p) (fun h => (∑ i ∈ range K, (1 - h i) * a i + c) ^ 2) =
      ((1 - p) * ∑ i ∈ range K, a i + c) ^ 2 + p * (1 - p) * ∑ i ∈ range K, a i ^ 2 := by
  intro K
  induction K with
  | zero =>
    intro c
    simp only [range_zero, sum_empty, zero_add, mul_zero, add_zero]
    exact bernoulli_const 0 _ _
  | succ K ih =>
    intro c
    rw [bernoulli_succ K _ (fun x y h => by
      have : ∑ i ∈ range (K + 1), (1 - x i) * a i = ∑ i ∈ range (K + 1), (1 - y i) * a i :=
        sum_congr rfl fun i hi => by rw [h i (mem_range.1 hi)]
      rw [this])]
    have e : ∀ (x : ℕ → ℝ) (b : ℝ), ∑ i ∈ range (K + 1), (1 - if i = K then b else x i) * a i =
        ∑ i ∈ range K, (1 - x i) * a i + (1 - b) * a K := by
      intro x b
      rw [sum_range_succ, if_pos rfl]
      congr 1
      exact sum_congr rfl fun i hi => by rw [if_neg (ne_of_lt (mem_range.1 hi))]
    simp only [e, add_assoc]
    rw [bernoulli_add, ih, ih, sum_range_succ, sum_range_succ]
    ring

theorem forwardFrom_append (mem : Mem) (N : ℕ) : ∀ (A B : List Layer) (l : ℕ) (x : Batch),
    forwardFrom mem N l (A ++ B) x = forwardFrom mem N (l + A.length) B (forwardFrom mem N l A x) := by
  intro A
  induction A with
  | nil => intro B l x; rfl
  | cons a A ih =>
    intro B l x
    rw [List.cons_append, forwardFrom, ih, List.length_cons, forwardFrom, add_assoc, add_comm 1]

theorem layersFrom_append : ∀ (A B : List Kind) (I : ℕ),
    layersFrom I (A ++ B) = layersFrom I A ++ layersFrom (outFrom I (layersFrom I A)) B := by
  intro A
  induction A with
  | nil => intro B I; rfl
  | cons a A ih =>
    intro B I
    rw [List.cons_append, layersFrom, ih]
    rfl

theorem layersFrom_length : ∀ (A : List Kind) (I : ℕ), (layersFrom I A).length = A.length := by
  intro A
  induction A with
  | nil => intro I; rfl
  | cons a A ih => intro I; rw [layersFrom, List.length_cons, ih, List.length_cons]

theorem drawKinds_fixed (q : ℝ → ℝ) (on : Bool) (N : ℕ) (rest : List Plan) : ∀ (pre : List Kind) (I : ℕ) (f : List Kind → ℝ),
    (drawKinds on N I (pre.map .fixed ++ rest)).expect q f =
      (drawKinds on N (outFrom I (layersFrom I pre)) rest).expect q fun ks => f (pre ++ ks) := by
  intro pre
  induction pre with
  | nil => intro I f; rfl
  | cons k pre ih =>
    intro I f
    rw [List.map_cons, List.cons_append, drawKinds, Draw.bind_expect]
    exact ih _ fun ks => f (k :: ks)

/-- The outputs of a network that ends with dropout and a linear layer. -/
theorem last_activations (pre : List Kind) (D J : ℕ) (bias : Bool) (reg : Reg) (m : Batch) (mem : Mem) (N : ℕ) (X : Batch) :
    (buildNet D (pre ++ [.dropout m, .fullyConnected J bias .linear reg]) false).activations mem N X =
      dense (outFrom D (layersFrom D pre)) (mem (pre.length + 2)).mat ((mem (pre.length + 2)).vec bias)
        fun n i => m n i * (buildNet D pre false).activations mem N X n i := by
  show forwardFrom mem N 1 (layersFrom D (pre ++ _)) X = _
  rw [layersFrom_append, forwardFrom_append, layersFrom_length]
  have : 1 + pre.length + 1 = pre.length + 2 := by omega
  show dense _ (mem (1 + pre.length + 1)).mat ((mem (1 + pre.length + 1)).vec bias) _ = _
  rw [this]
  rfl

/-- Its error. -/
theorem last_error (pre : List Kind) (D J : ℕ) (bias : Bool) (reg : Reg) (m : Batch) (mem : Mem) (ds : TrainSet) (idx : List ℕ) :
    dataError (buildNet D (pre ++ [.dropout m, .fullyConnected J bias .linear reg]) false) mem ds idx =
      (∑ n ∈ range idx.length, ∑ j ∈ range J, (∑ i ∈ range (outFrom D (layersFrom D pre)),
        m n i * ((buildNet D pre false).activations mem idx.length (selectRows ds.inst idx) n i * (mem (pre.length + 2)).mat j i) +
          ((mem (pre.length + 2)).vec bias j - selectRows ds.tgt idx n j)) ^ 2) / (2 * idx.length) := by
  have ho : (buildNet D (pre ++ [.dropout m, .fullyConnected J bias .linear reg]) false).outputs = J := by
    rw [outputs_buildNet, layersFrom_append]
    have : ∀ (A B : List Layer) (d : ℕ), outFrom d (A ++ B) = outFrom (outFrom d A) B := by
      intro A
      induction A with
      | nil => intro B d; rfl
      | cons a A ih => intro B d; exact ih B _
    rw [this]
    rfl
  rw [dataError, last_activations, ho]
  show (∑ n ∈ range idx.length, ∑ j ∈ range J, (dense _ _ _ _ n j - selectRows ds.tgt idx n j) ^ 2) / (2 * (idx.length : ℝ)) = _
  refine congrArg (· / (2 * (idx.length : ℝ))) (sum_congr rfl fun n _ => sum_congr rfl fun j _ => ?_)
  rw [dense, add_sub_assoc]
  simp only [mul_assoc]

/-- The mean of the squared error over the masks. -/
theorem mask_error (p : ℝ) (N H J : ℕ) (x W T : Batch) (b : ℕ → ℝ) :
    (drawMask true p N H).expect id (fun m => (∑ n ∈ range N, ∑ j ∈ range J,
        (∑ i ∈ range H, m n i * (x n i * W j i) + (b j - T n j)) ^ 2) / (2 * N)) =
      (∑ n ∈ range N, ∑ j ∈ range J, (∑ i ∈ range H, (1 - p) * (x n i * W j i) + (b j - T n j)) ^ 2) / (2 * N) +
        p * (1 - p) * (∑ n ∈ range N, ∑ j ∈ range J, ∑ i ∈ range H, W j i ^ 2 * x n i ^ 2) / (2 * N) := by
  have hdiv : ∀ f : Batch → ℝ, (drawMask true p N H).expect id (fun m => f m / (2 * N)) = (drawMask true p N H).expect id f / (2 * N) := by
    intro f
    have := Draw.expect_mul id (drawMask true p N H) (1 / (2 * (N : ℝ))) f
    simp only [one_div_mul_eq_div] at this
    exact this
  rw [hdiv, ← add_div]
  congr 1
  rw [Draw.expect_sum, mul_sum, ← sum_add_distrib]
  refine sum_congr rfl fun n hn => ?_
  rw [Draw.expect_sum, mul_sum, ← sum_add_distrib]
  refine sum_congr rfl fun j _ => ?_
  rw [mask_row id p (mem_range.1 hn) (F := fun m => (∑ i ∈ range H, m i * (x n i * W j i) + (b j - T n j)) ^ 2) fun u v h => by
    have : ∑ i ∈ range H, u i * (x n i * W j i) = ∑ i ∈ range H, v i * (x n i * W j i) :=
      sum_congr rfl fun i hi => by rw [h i (mem_range.1 hi)]
    simp only [this]]
  refine (bernoulli_square p (fun i => x n i * W j i) H (b j - T n j)).trans ?_
  rw [mul_sum]
  congr 2
  exact sum_congr rfl fun i _ => by ring

/-- **C81 (error)**: with dropout before a linear output layer, the error in training is on average the error of the prediction
plus a penalty: `p (1 - p)` times the squared weights of the output layer, each times the squared unit that it belongs to. -/
theorem training_error {p : ℝ} (hp : 0 ≤ p ∧ p ≤ 1) (pre : List Kind) (D J : ℕ) (bias : Bool) (reg : Reg) (mem : Mem) (ds : TrainSet)
    (idx : List ℕ) :
    (drawKinds true idx.length D (pre.map .fixed ++ [.dropout p, .fixed (.fullyConnected J bias .linear reg)])).expect id
        (fun ks => dataError (buildNet D ks false) mem ds idx) =
      (drawKinds false idx.length D (pre.map .fixed ++ [.dropout p, .fixed (.fullyConnected J bias .linear reg)])).expect id
        (fun ks => dataError (buildNet D ks false) mem ds idx) +
      p * (1 - p) * (∑ n ∈ range idx.length, ∑ j ∈ range J, ∑ i ∈ range (buildNet D pre false).outputs,
        ((mem (pre.length + 2)).mat j i) ^ 2 *
          ((buildNet D pre false).activations mem idx.length (selectRows ds.inst idx) n i) ^ 2) / (2 * idx.length) := by
  rw [drawKinds_fixed, drawKinds_fixed]
  have e2 := prediction_eq id idx.length (fun ks => dataError (buildNet D ks false) mem ds idx)
    [.dropout p, .fixed (.fullyConnected J bias .linear reg)] (outFrom D (layersFrom D pre)) (by
      intro p' hp'
      simp only [List.mem_cons, Plan.dropout.injEq, reduceCtorEq, List.not_mem_nil, or_false] at hp'
      rw [hp']
      exact hp) fun ks => pre ++ ks
  rw [e2, drawKinds, Draw.bind_expect]
  simp only [drawKinds, Draw.bind, Draw.expect, scaled, id, last_error]
  rw [outputs_buildNet]
  exact mask_error p idx.length _ J _ _ _ _

/-! ## The gradient in training -/

/-- Spec: `ks` are the layers `ps` with some masks. -/
def Drawn : List Plan → List Kind → Prop
  | [], [] => True
  | .fixed k :: ps, k' :: ks => k' = k ∧ Drawn ps ks
  | .dropout _ :: ps, .dropout _ :: ks => Drawn ps ks
  | _, _ => False

theorem all_drawn (on : Bool) (N : ℕ) : ∀ (ps : List Plan) (I : ℕ), (drawKinds on N I ps).All (Drawn ps) := by
  intro ps
  induction ps with
  | nil => exact fun I => trivial
  | cons a ps ih =>
    intro I
    cases a with
    | fixed k => exact (ih _).bind fun ks h => ⟨rfl, h⟩
    | dropout p => exact (Draw.All.trivial _).bind fun m _ => (ih I).bind fun ks h => h

theorem expect_hasDerivAt {α : Type} (q : ℝ → ℝ) {d : Draw α} {P : α → Prop} (hd : d.All P) {f : α → ℝ → ℝ} {f' : α → ℝ} {t : ℝ}
    (h : ∀ a, P a → HasDerivAt (f a) (f' a) t) : HasDerivAt (fun t => d.expect q fun a => f a t) (d.expect q f') t := by
  induction d with
  | ret a => exact h a hd
  | compare p k ih => exact ((ih true (hd true)).const_mul _).add ((ih false (hd false)).const_mul _)

/-- **C81 (gradient)**: on average, the gradient that `errorGradient` computes with dropout is the gradient of the average error
(plus penalties) over all masks. -/
theorem expected_gradient (q : ℝ → ℝ) {D : ℕ} {ps : List Plan} {ce : Bool} (mem0 : Mem) (sc : Scratch) (ds : TrainSet) {idx : List ℕ}
    (hidx : idx ≠ []) {θ : List ℝ} (hf : ∀ ks, Drawn ps ks → FitsFrom D ks ∧ Unconstrained ks ∧ θ.length = (buildNet D ks ce).P ∧
      SmoothFrom ((buildNet D ks ce).setParameters mem0 θ) idx.length 1 D ks (selectRows ds.inst idx))
    (hT : ce = true → ∀ ks, Drawn ps ks → ∀ n ∈ idx, ∑ j ∈ range (buildNet D ks ce).outputs, ds.tgt n j = 1) {i : ℕ} (hi : i < θ.length) :
    HasDerivAt (fun t => (drawKinds true idx.length D ps).expect q fun ks =>
        dataError (buildNet D ks ce) ((buildNet D ks ce).setParameters mem0 (θ.set i t)) ds idx +
          penalty (buildNet D ks ce) ((buildNet D ks ce).setParameters mem0 (θ.set i t)) / idx.length)
      ((drawKinds true idx.length D ps).expect q fun ks =>
        ((buildNet D ks ce).errorGradient ((buildNet D ks ce).setParameters mem0 θ) sc ds idx).2.getD i 0) θ[i] := by
  refine expect_hasDerivAt q (all_drawn true _ ps D) (f := fun ks t =>
    dataError (buildNet D ks ce) ((buildNet D ks ce).setParameters mem0 (θ.set i t)) ds idx +
      penalty (buildNet D ks ce) ((buildNet D ks ce).setParameters mem0 (θ.set i t)) / idx.length) fun ks hk => ?_
  obtain ⟨h1, h2, h3, h4⟩ := hf ks hk
  obtain ⟨h, hd⟩ := errorGradient_hasDerivAt h1 h2 mem0 sc ds hidx (fun hce => hT hce ks hk) h3 h4 (i := i) (by omega)
  rw [← List.getElem_eq_getD (h := h) 0]
  exact hd

/-- The hypotheses hold for every content of the buffers and every training set in a network with a `tanh` layer, dropout and a linear
output. -/
example (ds : TrainSet) (idx : List ℕ) (mem0 : Mem) (θ : List ℝ) (hθ : θ.length = 13) (ks : List Kind)
    (h : Drawn [.fixed (.fullyConnected 3 true .tanh ⟨0, 0, 0⟩), .dropout (1 / 2), .fixed (.fullyConnected 1 true .linear ⟨0, 0, 0⟩)] ks) :
    FitsFrom 2 ks ∧ Unconstrained ks ∧ θ.length = (buildNet 2 ks false).P ∧
      SmoothFrom ((buildNet 2 ks false).setParameters mem0 θ) idx.length 1 2 ks (selectRows ds.inst idx) := by
  match ks, h with
  | [_, .dropout m, _], ⟨rfl, rfl, _⟩ =>
    have hr : ∀ v : ℝ, (⟨0, 0, 0⟩ : Reg).Smooth v := fun v => by simp [Reg.Smooth]
    refine ⟨⟨trivial, trivial, trivial, trivial⟩, ?_, hθ, ⟨?_, fun _ _ _ _ => hr _⟩, trivial, ⟨?_, fun _ _ _ _ => hr _⟩, trivial⟩
    · intro k hk J bias act reg e
      simp only [List.mem_cons, List.not_mem_nil, or_false] at hk
      rcases hk with rfl | rfl | rfl
      · cases e; exact le_rfl
      · cases e
      · cases e; exact le_rfl
    · exact fun n _ j _ => by simp [Act.Kink]
    · exact fun n _ j _ => by simp [Act.Kink]

/-! ## Where it is false -/

/-- **C81 is false behind a nonlinearity**: one input 1, dropout with probability 1/2, a rectifier unit with weight 1 and bias -1/2.
The mean in training is 1/4, the prediction is 0. -/
theorem nonlinear_fails : ∃ mem : Mem,
    (drawKinds true 1 1 [.dropout (1 / 2), .fixed (.fullyConnected 1 true .rectifier ⟨0, 0, 0⟩)]).expect id
        (fun ks => (buildNet 1 ks false).predictAll mem 1 (fun _ _ => 1) 0 0) = 1 / 4 ∧
      (drawKinds false 1 1 [.dropout (1 / 2), .fixed (.fullyConnected 1 true .rectifier ⟨0, 0, 0⟩)]).expect id
        (fun ks => (buildNet 1 ks false).predictAll mem 1 (fun _ _ => 1) 0 0) = 0 := by
  refine ⟨fun _ s => if s = .b [0] then -1 / 2 else 1, ?_, ?_⟩
  · show (1 / 2 : ℝ) * max 0 (∑ i ∈ range 1, (if (0 : ℕ) = 0 ∧ i = 0 then (0 : ℝ) else 1) * 1 * 1 + -1 / 2) +
      (1 - 1 / 2) * max 0 (∑ i ∈ range 1, 1 * 1 * 1 + -1 / 2) = 1 / 4
    norm_num
  · show max 0 (∑ i ∈ range 1, (if (0 : ℝ) < 1 / 2 then 1 * (1 - 1 / 2) else 1) * 1 * 1 + -1 / 2 : ℝ) = 0
    norm_num

/-- **C81 is false for probabilities above 1**, which are not rejected: in training every unit is dropped, after it the units are
multiplied by a negative number. -/
theorem probability_fails {p : ℝ} (hp : 1 < p) {M : ℕ} (hM : 0 < M) (N I : ℕ) {r : ℕ → ℕ} (hr : ∀ t, r t ≤ M) :
    (∃ m, (drawMask true p N I).run M r = .ok m ∧ ∀ n < N, ∀ i < I, m n i = 0) ∧
      ∃ m, (drawMask false p N I).run M r = .ok m ∧ ∀ n i, m n i < 0 := by
  constructor
  · obtain ⟨m, h1, h2⟩ := mask_run M p N I r
    refine ⟨m, h1, fun n hn i hi => ?_⟩
    rw [h2 n hn i hi]
    have : (r (n * I + i) : ℝ) / M < p := by
      refine lt_of_le_of_lt ?_ hp
      rw [div_le_one (by exact_mod_cast hM)]
      exact_mod_cast hr _
    simp [dropoutMask, this]
  · refine ⟨_, rfl, fun n i => ?_⟩
    have : (0 : ℝ) < p := by linarith
    simp only [dropoutMask, Bool.false_eq_true, if_false, if_pos this]
    linarith

end

end Verif.NN
