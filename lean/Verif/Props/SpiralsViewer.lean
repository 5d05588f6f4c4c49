import Verif.Model.SpiralsViewer
import Verif.Props.TwoSpirals

/-!
# The two spirals window shows the network of the last iteration: C124
-/

namespace Verif.SpiralsViewer

noncomputable section

/-! ## Spec -/

/-- Spec: the predictions of a network on the grid. -/
def gridOf (f : ℝ → ℝ → ℝ) : ℕ → ℕ → ℝ := fun x y => f ((x : ℝ) / 100) ((y : ℝ) / 100)

/-- Spec: the networks at the ends of all iterations of a session, in order. -/
def networksOf (keys : List (Key × List (ℝ → ℝ → ℝ))) : List (ℝ → ℝ → ℝ) :=
  (keys.filter fun k => decide (k.1 = .a)).flatMap Prod.snd

/-- Spec: how often a key was pressed. -/
def presses (keys : List (Key × List (ℝ → ℝ → ℝ))) (k : Key) : ℕ := (keys.map Prod.fst).count k

/-- Spec: the last network, or the constant 0 before the first iteration. -/
def lastOf (fs : List (ℝ → ℝ → ℝ)) : ℝ → ℝ → ℝ := fs.getLast?.getD fun _ _ => 0

/-- Spec: the point `(u, v)` is in the square. -/
def Covers (u v : ℝ) : Item → Prop
  | .quad a b c d _ => a ≤ u ∧ u < b ∧ c ≤ v ∧ v < d
  | .point _ _ _ => False

/-! ## Predictions -/

theorem row_fold (f : ℝ → ℝ → ℝ) (x : ℕ) (s : Window × List (List Item)) : ∀ m, (x ≠ 99 ∨ m ≤ 99) →
    (List.range m).foldl (fun s y => predictClass s x y (f ((x : ℝ) / 100) ((y : ℝ) / 100))) s =
      ({ s.1 with classes := fun i j => if i = x ∧ j < m then gridOf f i j else s.1.classes i j }, s.2) := by
  intro m
  induction m with
  | zero =>
    intro _
    simp
  | succ m ih =>
    intro h
    rw [List.range_succ, List.foldl_append, ih (h.imp id fun h => by omega), List.foldl_cons, List.foldl_nil, predictClass,
      if_neg (by rintro ⟨h1, h2⟩; rcases h with h | h; exact h h1; omega)]
    refine Prod.ext ?_ rfl
    simp only [Window.mk.injEq, and_true]
    funext i j
    by_cases hx : i = x
    · subst hx
      by_cases hj : j = m
      · subst hj
        simp [gridOf]
      · have : j < m + 1 ↔ j < m := by omega
        simp [hj, this]
    · simp [hx]

theorem rows_fold (f : ℝ → ℝ → ℝ) (s : Window × List (List Item)) : ∀ m, m ≤ 99 →
    (List.range m).foldl (fun s x => (List.range 100).foldl (fun s y =>
      predictClass s x y (f ((x : ℝ) / 100) ((y : ℝ) / 100))) s) s =
        ({ s.1 with classes := fun i j => if i < m ∧ j < 100 then gridOf f i j else s.1.classes i j }, s.2) := by
  intro m
  induction m with
  | zero =>
    intro _
    simp
  | succ m ih =>
    intro h
    rw [List.range_succ (n := m), List.foldl_append, ih (by omega), List.foldl_cons, List.foldl_nil,
      row_fold f m _ 100 (.inl (by omega))]
    refine Prod.ext ?_ rfl
    simp only [Window.mk.injEq, and_true]
    funext i j
    by_cases hj : j < 100
    · by_cases hi : i = m
      · subst hi
        simp [hj]
      · have : i < m + 1 ↔ i < m := by omega
        simp [hi, this]
    · simp [hj]

/-- **C124 (iterations)**: the end of an iteration paints exactly one picture, and this picture shows the predictions of one
network, the network of this iteration, whatever was shown before. -/
theorem finishIteration_paints (f : ℝ → ℝ → ℝ) (s : Window × List (List Item)) :
    ∃ w, finishIteration f s = (w, s.2 ++ [w.paint]) ∧
      w = { s.1 with classes := fun i j => if i < 100 ∧ j < 100 then gridOf f i j else s.1.classes i j } := by
  refine ⟨_, ?_, rfl⟩
  have h99 := rows_fold f s 99 le_rfl
  generalize hs : (({ s.1 with classes := fun i j => if i < 99 ∧ j < 100 then gridOf f i j else s.1.classes i j }, s.2) :
    Window × List (List Item)) = t at h99
  have e1 : finishIteration f s = (List.range 100).foldl (fun s y => predictClass s 99 y (f ((99 : ℕ) / 100) ((y : ℝ) / 100)))
      ((List.range 99).foldl (fun s x => (List.range 100).foldl (fun s y =>
        predictClass s x y (f ((x : ℝ) / 100) ((y : ℝ) / 100))) s) s) := by
    unfold finishIteration
    generalize hg : (fun (s : Window × List (List Item)) (x : ℕ) => (List.range 100).foldl (fun s y =>
        predictClass s x y (f ((x : ℝ) / 100) ((y : ℝ) / 100))) s) = g
    rw [show List.range 100 = List.range 99 ++ [99] from List.range_succ (n := 99), List.foldl_append, List.foldl_cons,
      List.foldl_nil, ← hg]
    rfl
  rw [e1, h99, show List.range 100 = List.range 99 ++ [99] from List.range_succ (n := 99), List.foldl_append,
    row_fold f 99 t 99 (.inr le_rfl), List.foldl_cons, List.foldl_nil, predictClass]
  have hw : ({ t.1 with classes := fun i j => if i = 99 ∧ j = 99 then f ((99 : ℕ) / 100) ((99 : ℕ) / 100) else
      if i = 99 ∧ j < 99 then gridOf f i j else t.1.classes i j } : Window) =
      { s.1 with classes := fun i j => if i < 100 ∧ j < 100 then gridOf f i j else s.1.classes i j } := by
    rw [← hs]
    simp only [Window.mk.injEq, and_true]
    funext i j
    by_cases hi : i = 99
    · subst hi
      by_cases hj : j = 99
      · subst hj
        simp [gridOf]
      · have : j < 100 ↔ j < 99 := by omega
        simp [hj, this]
    · have : i < 100 ↔ i < 99 := by omega
      simp [hi, this]
  have ht : t.2 = s.2 := by rw [← hs]
  simp only [hw, ht, and_self, if_true]

/-! ## Sessions -/

/-- Spec: what the window knows, given the networks that were sent and the parities of the keys. -/
def shown (training test : Samples) (fs : List (ℝ → ℝ → ℝ)) (q w e r : ℕ) : Window where
  classes := fun i j => if i < 100 ∧ j < 100 then gridOf (lastOf fs) i j else 0
  training := training
  test := test
  showTraining := decide (q % 2 = 0)
  showTest := decide (w % 2 = 0)
  showPrediction := decide (e % 2 = 0)
  showSmooth := decide (r % 2 = 0)

theorem lastOf_snoc (fs : List (ℝ → ℝ → ℝ)) (f : ℝ → ℝ → ℝ) : lastOf (fs ++ [f]) = f := by
  rw [lastOf, List.getLast?_append]
  rfl

theorem training_shows {training test : Samples} {q w e r : ℕ} (gs : List (ℝ → ℝ → ℝ)) :
    ∀ (fs : List (ℝ → ℝ → ℝ)) (pics : List (List Item)), pics.getLast? = some (shown training test fs q w e r).paint →
      ∃ pics', gs.foldl (fun s f => finishIteration f s) (shown training test fs q w e r, pics) =
          (shown training test (fs ++ gs) q w e r, pics') ∧
        pics'.getLast? = some (shown training test (fs ++ gs) q w e r).paint ∧ pics'.length = pics.length + gs.length := by
  induction gs with
  | nil =>
    intro fs pics h
    exact ⟨pics, by rw [List.append_nil]; rfl, by rwa [List.append_nil], rfl⟩
  | cons g gs ih =>
    intro fs pics h
    obtain ⟨w', h1, h2⟩ := finishIteration_paints g (shown training test fs q w e r, pics)
    have hw : w' = shown training test (fs ++ [g]) q w e r := by
      rw [h2]
      simp only [shown, Window.mk.injEq, and_true, lastOf_snoc]
      funext i j
      by_cases hij : i < 100 ∧ j < 100
      · rw [if_pos hij, if_pos hij]
      · rw [if_neg hij, if_neg hij, if_neg hij]
    rw [hw] at h1
    obtain ⟨pics', h3, h4, h5⟩ := ih (fs ++ [g]) (pics ++ [(shown training test (fs ++ [g]) q w e r).paint]) (by simp)
    rw [List.append_assoc, List.singleton_append] at h3 h4
    refine ⟨pics', ?_, h4, ?_⟩
    · rw [List.foldl_cons, h1]
      exact h3
    · rw [h5, List.length_append, List.length_cons, List.length_cons, List.length_nil]
      omega

theorem decide_flip (n : ℕ) : (!decide (n % 2 = 0)) = decide ((n + 1) % 2 = 0) := by
  rcases Nat.mod_two_eq_zero_or_one n with h | h
  · have : (n + 1) % 2 = 1 := by omega
    simp [h, this]
  · have : (n + 1) % 2 = 0 := by omega
    simp [h, this]

theorem presses_snoc (keys : List (Key × List (ℝ → ℝ → ℝ))) (k : Key × List (ℝ → ℝ → ℝ)) (c : Key) :
    presses (keys ++ [k]) c = presses keys c + if k.1 = c then 1 else 0 := by
  rw [presses, presses, List.map_append, List.count_append, List.map_singleton, List.count_singleton]
  simp only [beq_iff_eq]

theorem networksOf_snoc (keys : List (Key × List (ℝ → ℝ → ℝ))) (k : Key × List (ℝ → ℝ → ℝ)) :
    networksOf (keys ++ [k]) = networksOf keys ++ if k.1 = .a then k.2 else [] := by
  rw [networksOf, List.filter_append, List.flatMap_append]
  by_cases h : k.1 = .a <;> simp [networksOf, h]

/-- **C124 (sessions)**: after any sequence of keys and trainings the window shows the network at the end of the last iteration,
the data sets, the predictions and the grey values are shown if their keys were pressed an even number of times, the screen
shows this state, and there was one picture for the start, for every iteration and every key that changes something. -/
theorem session_shows (training test : Samples) (keys : List (Key × List (ℝ → ℝ → ℝ))) :
    ∃ pics, session training test keys = (shown training test (networksOf keys) (presses keys .q) (presses keys .w) (presses keys .e)
        (presses keys .r), pics) ∧
      pics.getLast? = some (shown training test (networksOf keys) (presses keys .q) (presses keys .w) (presses keys .e)
        (presses keys .r)).paint ∧
      pics.length = 1 + presses keys .q + presses keys .w + presses keys .e + presses keys .r + (networksOf keys).length := by
  induction keys using List.reverseRecOn with
  | nil =>
    have e : Window.new training test = shown training test (networksOf []) (presses [] .q) (presses [] .w) (presses [] .e)
        (presses [] .r) := by
      show Window.new training test = shown training test [] 0 0 0 0
      unfold Window.new shown
      simp only [Window.mk.injEq, true_and]
      refine ⟨?_, by decide, by decide, by decide, by decide⟩
      funext i j
      simp [lastOf, gridOf]
    exact ⟨[(Window.new training test).paint], by rw [← e]; rfl, by rw [← e]; rfl, rfl⟩
  | append_singleton keys k ih =>
    obtain ⟨pics, h1, h2, h3⟩ := ih
    have hs : session training test (keys ++ [k]) = keyPress (session training test keys) k.2 k.1 := by
      rw [session, List.foldl_append]
      rfl
    rw [hs, h1, networksOf_snoc]
    simp only [presses_snoc]
    obtain ⟨key, fs⟩ := k
    cases key with
    | a =>
      obtain ⟨pics', h4, h5, h6⟩ := training_shows (training := training) (test := test) fs _ pics h2
      refine ⟨pics', h4, h5, ?_⟩
      rw [h6, h3]
      simp
      omega
    | escape => exact ⟨pics, by simp [keyPress], by simpa using h2, by simpa using h3⟩
    | other => exact ⟨pics, by simp [keyPress], by simpa using h2, by simpa using h3⟩
    | q =>
      refine ⟨pics ++ [_], ?_, List.getLast?_concat .., ?_⟩
      · simp [keyPress, shown, decide_flip]
      · simp [h3]
        omega
    | w =>
      refine ⟨pics ++ [_], ?_, List.getLast?_concat .., ?_⟩
      · simp [keyPress, shown, decide_flip]
      · simp [h3]
        omega
    | e =>
      refine ⟨pics ++ [_], ?_, List.getLast?_concat .., ?_⟩
      · simp [keyPress, shown, decide_flip]
      · simp [h3]
        omega
    | r =>
      refine ⟨pics ++ [_], ?_, List.getLast?_concat .., ?_⟩
      · simp [keyPress, shown, decide_flip]
      · simp [h3]
        omega

/-! ## Geometry -/

theorem mem_paintPrediction {w : Window} {it : Item} : it ∈ w.paintPrediction ↔ ∃ x < 100, ∃ y < 100, it = w.quadAt x y := by
  simp only [Window.paintPrediction, List.mem_flatMap, List.mem_map, List.mem_range]
  constructor
  · rintro ⟨x, hx, y, hy, rfl⟩
    exact ⟨x, hx, y, hy, rfl⟩
  · rintro ⟨x, hx, y, hy, rfl⟩
    exact ⟨x, hx, y, hy, rfl⟩

/-- One coordinate: exactly one of the intervals of length 1/100 around the numbers 0, 1/100, ... contains `u`. -/
theorem interval_unique {u : ℝ} (h0 : -0.005 ≤ u) : ∃ x : ℕ, ((x : ℝ) / 100 - 0.005 ≤ u ∧ u < (x : ℝ) / 100 - 0.005 + 0.01) ∧
    ∀ x' : ℕ, (x' : ℝ) / 100 - 0.005 ≤ u → u < (x' : ℝ) / 100 - 0.005 + 0.01 → x' = x := by
  refine ⟨⌊100 * u + 0.5⌋₊, ?_, ?_⟩
  · have h1 := Nat.floor_le (show 0 ≤ 100 * u + 0.5 by linarith)
    have h2 := Nat.lt_floor_add_one (100 * u + 0.5)
    constructor <;> linarith
  · intro x' h1 h2
    refine ((Nat.floor_eq_iff (by linarith)).2 ⟨?_, ?_⟩).symm <;> linarith

/-- **C124 (surface)**: every point of the surface `[-0.005, 0.995)` is in exactly one square, and the square belongs to a grid
point that is at most 0.005 away in both coordinates. -/
theorem surface_covered (w : Window) {u v : ℝ} (hu : -0.005 ≤ u) (hu' : u < 0.995) (hv : -0.005 ≤ v) (hv' : v < 0.995) :
    ∃ x < 100, ∃ y < 100, Covers u v (w.quadAt x y) ∧ |u - (x : ℝ) / 100| ≤ 0.005 ∧ |v - (y : ℝ) / 100| ≤ 0.005 ∧
      ∀ it ∈ w.paintPrediction, Covers u v it → it = w.quadAt x y := by
  obtain ⟨x, ⟨hx1, hx2⟩, hx3⟩ := interval_unique hu
  obtain ⟨y, ⟨hy1, hy2⟩, hy3⟩ := interval_unique hv
  have hx : x < 100 := by
    have : (x : ℝ) < 100 := by linarith
    exact_mod_cast this
  have hy : y < 100 := by
    have : (y : ℝ) < 100 := by linarith
    exact_mod_cast this
  refine ⟨x, hx, y, hy, ⟨hx1, hx2, hy1, hy2⟩, abs_le.2 ⟨by linarith, by linarith⟩, abs_le.2 ⟨by linarith, by linarith⟩, ?_⟩
  intro it hit hc
  obtain ⟨x', _, y', _, rfl⟩ := mem_paintPrediction.1 hit
  obtain ⟨h1, h2, h3, h4⟩ := hc
  rw [hx3 x' h1 h2, hy3 y' h3 h4]

/-- Beyond 0.995 nothing is predicted. -/
theorem surface_border (w : Window) {u v : ℝ} (h : 0.995 ≤ u ∨ 0.995 ≤ v) : ∀ it ∈ w.paintPrediction, ¬Covers u v it := by
  intro it hit hc
  obtain ⟨x, hx, y, hy, rfl⟩ := mem_paintPrediction.1 hit
  obtain ⟨_, h2, _, h4⟩ := hc
  have hx' : (x : ℝ) ≤ 99 := by exact_mod_cast Nat.le_of_lt_succ hx
  have hy' : (y : ℝ) ≤ 99 := by exact_mod_cast Nat.le_of_lt_succ hy
  rcases h with h | h <;> linarith

/-- **C124 (brightness)**: grey values are between black and white for outputs in [-1, 1] and increase with the output; without
grey values a square is white exactly if the output is not negative. -/
theorem brightness_spec (w : Window) (x y : ℕ) :
    (w.showSmooth = true → w.brightness x y = (w.classes x y + 1) / 2 ∧
      (|w.classes x y| ≤ 1 → 0 ≤ w.brightness x y ∧ w.brightness x y ≤ 1)) ∧
    (w.showSmooth = false → (w.brightness x y = 1 ∨ w.brightness x y = 0) ∧ (w.brightness x y = 1 ↔ 0 ≤ w.classes x y)) := by
  constructor
  · intro h
    rw [Window.brightness, if_pos h]
    refine ⟨by ring, fun h1 => ?_⟩
    have := abs_le.1 h1
    constructor <;> linarith
  · intro h
    rw [Window.brightness, if_neg (by rw [h]; exact Bool.false_ne_true)]
    by_cases hc : w.classes x y < 0
    · rw [if_pos hc]
      exact ⟨.inr rfl, ⟨fun h => absurd h (by norm_num), fun h => absurd h (not_le.2 hc)⟩⟩
    · rw [if_neg hc]
      exact ⟨.inl rfl, ⟨fun _ => not_lt.1 hc, fun _ => rfl⟩⟩

/-- **C124 (points)**: the points of the data sets are at their coordinates, in their order, red for positive targets and yellow
for others, and they are painted after the predictions. -/
theorem points_spec (w : Window) (ht : w.showTraining = true) (he : w.showTest = true) :
    ∃ below, w.paint = below ++ (w.training ++ w.test).map fun p => .point p.1 p.2.1 (decide (0 < p.2.2)) := by
  refine ⟨if w.showPrediction then w.paintPrediction else [], ?_⟩
  rw [Window.paint, if_pos ht, if_pos he, List.map_append, List.append_assoc]
  rfl

/-- The samples of a matrix of inputs and a matrix of targets (lines 176-179). -/
def samplesOf (X Y : Mat) : Samples := (List.range X.rows).map fun r => (X.val r 0, X.val r 1, Y.val r 0)

/-- **C124 (the whole surface) is false**: of the data sets of the program, for every density and diameter, the first training
instance is outside of the surface for which predictions are shown, in every session. -/
theorem whole_surface_fails {d : ℕ} (hd : 0 < d) {D : ℝ} (hD : 0 < D) (junk : ℕ → ℕ → ℝ) :
    ∃ U Y V Z, Spirals.createTwoSpiralsDataSet d D junk = .ok ⟨some U, Y, some V, Z⟩ ∧
      ∀ keys, ∃ p, (samplesOf U Y)[0]? = some p ∧
        ∀ it ∈ (session (samplesOf U Y) (samplesOf V Z) keys).1.paintPrediction, ¬Covers p.1 p.2.1 it := by
  obtain ⟨U, Y, V, Z, s, o, h, _, hr, _, _, _, _, _, _, _, hrow⟩ := Spirals.create_spec hd hD junk
  refine ⟨U, Y, V, Z, h, fun keys => ⟨(U.val 0 0, U.val 0 1, Y.val 0 0), ?_, surface_border _ (.inl ?_)⟩⟩
  · rw [samplesOf, List.getElem?_map, List.getElem?_range (by rw [hr]; omega)]
    rfl
  · have tr0 : Spirals.trainingOf d 0 = (true, 0) := if_neg (by omega)
    have p0 := (hrow 0 (by omega)).1
    rw [tr0] at p0
    have hx : (Spirals.point d D true 0).1 = D := Spirals.x_zero d D hd
    show 0.995 ≤ U.val 0 0
    rw [p0, hx]
    have : 1 / (2 * D) * D = 1 / 2 := by
      field_simp
    rw [this]
    norm_num

/-! ## Examples -/

/-- A session: training with two iterations, the keys R and Q, and R again. -/
example : ∃ pics, session [(0, 1, 1)] [] [(.a, [fun x _ => x, fun _ y => y]), (.r, []), (.q, []), (.r, [])] =
    (shown [(0, 1, 1)] [] [fun x _ => x, fun _ y => y] 1 0 0 2, pics) ∧ pics.length = 6 := by
  obtain ⟨pics, h1, _, h3⟩ := session_shows [(0, 1, 1)] []
    [(.a, [fun x _ => x, fun _ y => y]), (.r, []), (.q, []), (.r, [])]
  exact ⟨pics, h1, h3⟩

/-- The point (0.5, 0.25) is in the square of the grid point (50, 25). -/
example (w : Window) : Covers 0.5 0.25 (w.quadAt 50 25) := by
  refine ⟨?_, ?_, ?_, ?_⟩ <;> norm_num

end

end Verif.SpiralsViewer
