import Verif.Props.SigmaPiGradient
import Verif.Props.SigmaPiConstraints
import Mathlib.Algebra.BigOperators.Fin

/-!
# Sigma-pi layers with constraints ignore the place of a pattern (C68)
-/

namespace Verif.SigmaPi

open Outcome NN Finset

noncomputable section

/-- The row `n` of `x'` is the row `n` of `x` with the pattern (everything that is not zero) moved by `φ`. -/
structure Moved (I : ℕ) (φ : ℕ → ℕ) (x x' : Mat) (n : ℕ) : Prop where
  mono : ∀ p q, p < I → q < I → x.val n p ≠ 0 → x.val n q ≠ 0 → p < q → φ p < φ q
  inside : ∀ p < I, x.val n p ≠ 0 → φ p < I
  value : ∀ p < I, x.val n p ≠ 0 → x'.val n (φ p) = x.val n p
  rest : ∀ q < I, x'.val n q ≠ 0 → ∃ p < I, x.val n p ≠ 0 ∧ φ p = q

theorem prodAt_ne_zero {x : Mat} {n : ℕ} {ps : List ℕ} : prodAt x n ps ≠ 0 ↔ ∀ p ∈ ps, x.val n p ≠ 0 := by
  rw [prodAt, Ne, List.prod_eq_zero_iff]
  simp only [List.mem_map, not_exists, not_and]

theorem prodAt_moved {I : ℕ} {φ : ℕ → ℕ} {x x' : Mat} {n : ℕ} (h : Moved I φ x x' n) {ps : List ℕ} (hi : ∀ p ∈ ps, p < I)
    (hz : ∀ p ∈ ps, x.val n p ≠ 0) : prodAt x' n (ps.map φ) = prodAt x n ps := by
  rw [prodAt, prodAt, List.map_map]
  congr 1
  exact List.map_congr_left fun p hp => h.value p (hi p hp) (hz p hp)

/-- The weighted sum of a neuron does not change if the pattern is moved in a way that the weights of the units follow. -/
theorem net_moved {k I : ℕ} {neuron : Neuron} (he : Enumerates k I neuron) {φ : ℕ → ℕ} {x x' : Mat} {n : ℕ} (h : Moved I φ x x' n)
    (hw : ∀ u ∈ neuron, ∀ v ∈ neuron, (∀ p ∈ u.position, x.val n p ≠ 0) → v.position = u.position.map φ → v.weight = u.weight) (w : List ℝ) :
    net w x' n neuron = net w x n neuron := by
  obtain ⟨hnd, hen⟩ := he
  have hin : ∀ i : Fin neuron.length, ∀ p ∈ (neuron[i.1]).position, p < I := fun i =>
    ((hen _).1 (List.mem_map_of_mem (List.getElem_mem i.2))).2.2
  have hinj : ∀ i j : Fin neuron.length, (neuron[i.1]).position = (neuron[j.1]).position → i = j := by
    intro i j hij
    refine Fin.ext ((List.Nodup.getElem_inj_iff hnd (i := i.1) (hi := by simp) (j := j.1) (hj := by simp)).1 ?_)
    simpa using hij
  have hidx : ∀ t : List ℕ, t.length = k → t.Pairwise (· < ·) → (∀ p ∈ t, p < I) → ∃ j : Fin neuron.length, (neuron[j.1]).position = t := by
    intro t h1 h2 h3
    obtain ⟨u, hu, e⟩ := List.mem_map.1 ((hen t).2 ⟨h1, h2, h3⟩)
    obtain ⟨j, hj, e'⟩ := List.getElem_of_mem hu
    exact ⟨⟨j, hj⟩, by rw [e', e]⟩
  have target : ∀ i : Fin neuron.length, prodAt x n (neuron[i.1]).position ≠ 0 →
      ∃ j : Fin neuron.length, (neuron[j.1]).position = (neuron[i.1]).position.map φ := by
    intro i hi
    rw [prodAt_ne_zero] at hi
    have hp := (hen _).1 (List.mem_map_of_mem (f := HOUnit.position) (List.getElem_mem i.2))
    refine hidx _ (by rw [List.length_map, hp.1]) ?_ ?_
    · rw [List.pairwise_map]
      exact hp.2.1.imp_of_mem fun {a b} ha hb hab => h.mono a b (hp.2.2 a ha) (hp.2.2 b hb) (hi a ha) (hi b hb) hab
    · intro q hq
      obtain ⟨p, hp', rfl⟩ := List.mem_map.1 hq
      exact h.inside p (hp.2.2 p hp') (hi p hp')
  have hφ : ∀ p q, p < I → q < I → x.val n p ≠ 0 → x.val n q ≠ 0 → φ p = φ q → p = q := by
    intro p q hp hq zp zq e
    rcases lt_trichotomy p q with hlt | heq | hgt
    · have := h.mono p q hp hq zp zq hlt
      omega
    · exact heq
    · have := h.mono q p hq hp zq zp hgt
      omega
  have value : ∀ i j : Fin neuron.length, prodAt x n (neuron[i.1]).position ≠ 0 → (neuron[j.1]).position = (neuron[i.1]).position.map φ →
      w.getD (neuron[i.1]).weight 0 * prodAt x n (neuron[i.1]).position = w.getD (neuron[j.1]).weight 0 * prodAt x' n (neuron[j.1]).position := by
    intro i j hi e
    rw [prodAt_ne_zero] at hi
    rw [e, prodAt_moved h (hin i) hi, hw _ (List.getElem_mem i.2) _ (List.getElem_mem j.2) hi e]
  rw [net, net, ← Fin.sum_univ_fun_getElem, ← Fin.sum_univ_fun_getElem]
  symm
  refine Finset.sum_bij_ne_zero (fun i _ hi => (target i (right_ne_zero_of_mul hi)).choose) (fun _ _ _ => mem_univ _) ?_ ?_ ?_
  · intro i1 _ h1 i2 _ h2 e
    have e1 := (target i1 (right_ne_zero_of_mul h1)).choose_spec
    have e2 := (target i2 (right_ne_zero_of_mul h2)).choose_spec
    rw [e, e2] at e1
    refine hinj i1 i2 ?_
    have z1 := prodAt_ne_zero.1 (right_ne_zero_of_mul h1)
    have z2 := prodAt_ne_zero.1 (right_ne_zero_of_mul h2)
    have aux : ∀ l1 l2 : List ℕ, (∀ p ∈ l1, p < I ∧ x.val n p ≠ 0) → (∀ p ∈ l2, p < I ∧ x.val n p ≠ 0) → l1.map φ = l2.map φ → l1 = l2 := by
      intro l1
      induction l1 with
      | nil =>
        intro l2 _ _ e
        cases l2 with
        | nil => rfl
        | cons => simp at e
      | cons a l1 ih =>
        intro l2 ha hb e
        cases l2 with
        | nil => simp at e
        | cons b l2 =>
          simp only [List.map_cons, List.cons.injEq] at e
          have p1 := ha a (List.mem_cons_self ..)
          have p2 := hb b (List.mem_cons_self ..)
          rw [hφ a b p1.1 p2.1 p1.2 p2.2 e.1, ih l2 (fun p hp => ha p (List.mem_cons_of_mem _ hp)) (fun p hp => hb p (List.mem_cons_of_mem _ hp)) e.2]
    exact aux _ _ (fun p hp => ⟨hin i1 p hp, z1 p hp⟩) (fun p hp => ⟨hin i2 p hp, z2 p hp⟩) e1.symm
  · intro j _ hj
    have zj := prodAt_ne_zero.1 (right_ne_zero_of_mul hj)
    have hp := (hen _).1 (List.mem_map_of_mem (f := HOUnit.position) (List.getElem_mem j.2))
    have hex : ∀ q, ∃ p, (q ∈ (neuron[j.1]).position → p < I ∧ x.val n p ≠ 0 ∧ φ p = q) := by
      intro q
      by_cases hq : q ∈ (neuron[j.1]).position
      · obtain ⟨p, h1, h2⟩ := h.rest q (hp.2.2 q hq) (zj q hq)
        exact ⟨p, fun _ => ⟨h1, h2⟩⟩
      · exact ⟨0, fun h => absurd h hq⟩
    choose ψ hψ using hex
    have hmap : ((neuron[j.1]).position.map ψ).map φ = (neuron[j.1]).position := by
      rw [List.map_map]
      conv_rhs => rw [← List.map_id (neuron[j.1]).position]
      exact List.map_congr_left fun q hq => (hψ q hq).2.2
    obtain ⟨i, hi⟩ := hidx ((neuron[j.1]).position.map ψ) (by rw [List.length_map, hp.1]) (by
      rw [List.pairwise_map]
      refine hp.2.1.imp_of_mem fun {a b} ha hb hab => ?_
      obtain ⟨a1, a2, a3⟩ := hψ a ha
      obtain ⟨b1, b2, b3⟩ := hψ b hb
      rcases lt_trichotomy (ψ a) (ψ b) with hlt | heq | hgt
      · exact hlt
      · rw [heq, b3] at a3
        omega
      · have := h.mono _ _ b1 a1 b2 a2 hgt
        omega) (by
      intro p hp'
      obtain ⟨q, hq, rfl⟩ := List.mem_map.1 hp'
      exact (hψ q hq).1)
    have hz : prodAt x n (neuron[i.1]).position ≠ 0 := by
      rw [prodAt_ne_zero, hi]
      intro p hp'
      obtain ⟨q, hq, rfl⟩ := List.mem_map.1 hp'
      exact (hψ q hq).2.1
    have hji : (neuron[j.1]).position = (neuron[i.1]).position.map φ := by rw [hi, hmap]
    have hv := value i j hz hji
    have hne : w.getD (neuron[i.1]).weight 0 * prodAt x n (neuron[i.1]).position ≠ 0 := by rw [hv]; exact hj
    refine ⟨i, mem_univ _, hne, hinj _ _ ?_⟩
    rw [(target i (right_ne_zero_of_mul hne)).choose_spec, hji]
  · intro i _ hi
    exact value i _ (right_ne_zero_of_mul hi) (target i (right_ne_zero_of_mul hi)).choose_spec

/-! ## Layers -/

theorem shares_weight {neuron : Neuron} {rs : List ℝ} (hs : Shares neuron rs) {u v : HOUnit} (hu : u ∈ neuron) (hv : v ∈ neuron)
    (h : ∀ (i j : ℕ) (r s : ℝ), (neuron.map HOUnit.position)[i]? = some u.position → (neuron.map HOUnit.position)[j]? = some v.position →
      rs[i]? = some r → rs[j]? = some s → r = s) : v.weight = u.weight := by
  obtain ⟨i, hi, ei⟩ := List.getElem_of_mem hu
  obtain ⟨j, hj, ej⟩ := List.getElem_of_mem hv
  have hi' : i < rs.length := by rw [hs.length]; exact hi
  have hj' : j < rs.length := by rw [hs.length]; exact hj
  have e := h i j rs[i] rs[j] (by simp [hi, ei]) (by simp [hj, ej]) (List.getElem?_eq_getElem hi') (List.getElem?_eq_getElem hj')
  refine (hs.equal i j u v rs[i] (by rw [List.getElem?_eq_getElem hi, ei]) (by rw [List.getElem?_eq_getElem hj, ej])
    (List.getElem?_eq_getElem hi') (by rw [List.getElem?_eq_getElem hj', e])).symm

theorem layer_moved {τ : Type} (o : Order) (numbers : ℕ) (c : Constraint τ) (hc : c.isDefault = false) (l : Layer) (s : τ)
    (hl : l.nodes = []) (hw0 : l.w = []) (hwd0 : l.wd = []) (hb : l.bias = false) (hn : 0 < numbers) (hi : o.num ≤ l.inputs) {l' : Layer} {s' : τ}
    (h : addNodes o numbers c (l, s) = ok (l', s')) (x x' : Mat) (hr : x'.rows = x.rows) (hx : x.cols = l.inputs) (hx' : x'.cols = l.inputs)
    (φ : ℕ → ℕ → ℕ) (hm : ∀ n < x.rows, Moved l.inputs (φ n) x x' n)
    (hresp : ∀ n < x.rows, ∀ s0 neuron rs s1, Later c s s0 → neuron ∈ l'.nodes → refs c s0 (neuron.map HOUnit.position) = ok (rs, s1) →
      ∀ (i j : ℕ) (t : List ℕ) (r v : ℝ), (neuron.map HOUnit.position)[i]? = some t → (neuron.map HOUnit.position)[j]? = some (t.map (φ n)) →
      (∀ p ∈ t, p < l.inputs ∧ x.val n p ≠ 0) → rs[i]? = some r → rs[j]? = some v → r = v)
    (w : List ℝ) (hw : w.length = l'.w.length) (junk junk' : ℕ → ℕ → ℝ) :
    ∃ y y', forward { l' with w := w } x junk = ok y ∧ forward { l' with w := w } x' junk' = ok y' ∧ y.rows = x.rows ∧ y'.rows = x.rows ∧
      y.cols = numbers ∧ y'.cols = numbers ∧ ∀ n < x.rows, ∀ i < numbers, y'.val n i = y.val n i := by
  have hv : l.Valid := ⟨by rw [hw0, hwd0], by simp [hl], by simp [hl]⟩
  obtain ⟨v, i1, b1, _, new, n1, len, p1⟩ := nodes_partial o numbers c l hv s h
  have hready := ready_of_nodes o numbers c l hv s h hb hn hi (by simp [hl])
  have ready : ({ l' with w := w } : Layer).Ready :=
    ⟨by rw [hready.wd, hw], hready.nodes, fun neuron hm => ⟨(hready.units neuron hm).1, fun u hu => by
      simp only [hw]
      exact (hready.units neuron hm).2 u hu⟩⟩
  have hlen : l'.nodes.length = numbers := by rw [n1, hl, List.nil_append, len]
  obtain ⟨y, hy, y1, y2, y3⟩ := forward_ok ready (x := x) (by rw [hx]; exact i1.symm) junk
  obtain ⟨y', hy', y1', y2', y3'⟩ := forward_ok ready (x := x') (by rw [hx']; exact i1.symm) junk'
  refine ⟨y, y', hy, hy', y1, by rw [y1', hr], by rw [y2, ← hlen], by rw [y2', ← hlen], fun n hn' i hi' => ?_⟩
  simp only [hlen] at y3 y3'
  rw [y3 n hn' i hi', y3' n (by rw [hr]; exact hn') i hi']
  have hmem : l'.nodes.getD i [] ∈ l'.nodes := getD_mem [] (by rw [hlen]; exact hi')
  have hmem' : l'.nodes.getD i [] ∈ new := by
    have := hmem
    rw [n1, hl, List.nil_append] at this
    rw [n1, hl, List.nil_append]
    exact this
  obtain ⟨en, _, sh⟩ := p1 _ hmem'
  obtain ⟨s0, s1, rs, later, hrefs, hsh⟩ := sh hc
  have hwidth : l.width = l.inputs := by simp [Layer.width, hb]
  rw [hwidth] at en
  congr 1
  refine net_moved en (hm n hn') (fun u hu v hv hz he => ?_) w
  refine shares_weight hsh hu hv fun i' j' r r' h1 h2 h3 h4 => ?_
  rw [he] at h2
  refine hresp n hn' s0 _ rs s1 later hmem hrefs i' j' u.position r r' h1 h2 (fun p hp => ⟨?_, hz p hp⟩) h3 h4
  exact ((en.2 _).1 (List.mem_map_of_mem hu)).2.2 p hp

/-! ## Translations -/

/-- Row `n` of `x'` shows the pattern of row `n` of `x` moved by `dx` columns and `dy` rows, on a background of zeros. -/
structure Shifted (width height : ℕ) (dx dy : ℤ) (x x' : Mat) (n : ℕ) : Prop where
  inside : ∀ a b, a < width → b < height → x.val n (pixel width a b) ≠ 0 → 0 ≤ a + dx ∧ a + dx < width ∧ 0 ≤ b + dy ∧ b + dy < height
  value : ∀ a b a' b' : ℕ, a < width → b < height → a' < width → b' < height → (a' : ℤ) = a + dx → (b' : ℤ) = b + dy →
    x.val n (pixel width a b) ≠ 0 → x'.val n (pixel width a' b') = x.val n (pixel width a b)
  rest : ∀ a' b', a' < width → b' < height → x'.val n (pixel width a' b') ≠ 0 →
    ∃ a b, a < width ∧ b < height ∧ x.val n (pixel width a b) ≠ 0 ∧ (a' : ℤ) = a + dx ∧ (b' : ℤ) = b + dy

/-- The movement of the positions. -/
def shift (width : ℕ) (dx dy : ℤ) (p : ℕ) : ℕ := ((p : ℤ) + dy * width + dx).toNat

theorem exists_pixel {width height p : ℕ} (h : p < width * height) : ∃ a b, a < width ∧ b < height ∧ p = pixel width a b := by
  have hw : 0 < width := by
    rcases Nat.eq_zero_or_pos width with e | e
    · simp [e] at h
    · exact e
  refine ⟨p % width, p / width, Nat.mod_lt _ hw, Nat.div_lt_of_lt_mul h, ?_⟩
  rw [pixel, Nat.mul_comm]
  exact (Nat.div_add_mod p width).symm

theorem pixel_lt {width height a b : ℕ} (ha : a < width) (hb : b < height) : pixel width a b < width * height := by
  rw [pixel]
  have : (b + 1) * width ≤ height * width := Nat.mul_le_mul_right _ hb
  rw [Nat.add_mul, Nat.one_mul] at this
  rw [Nat.mul_comm width height]
  omega

theorem shift_pixel {width : ℕ} {dx dy : ℤ} {a b a' b' : ℕ} (ha : (a' : ℤ) = a + dx) (hb : (b' : ℤ) = b + dy) :
    shift width dx dy (pixel width a b) = pixel width a' b' := by
  have : ((pixel width a b : ℕ) : ℤ) + dy * width + dx = (pixel width a' b' : ℕ) := by
    simp only [pixel]
    push_cast
    rw [ha, hb]
    ring
  rw [shift, this]
  exact Int.toNat_natCast _

theorem Shifted.moved {width height : ℕ} {dx dy : ℤ} {x x' : Mat} {n : ℕ} (h : Shifted width height dx dy x x' n) :
    Moved (width * height) (shift width dx dy) x x' n := by
  have dest : ∀ p < width * height, x.val n p ≠ 0 → ∃ a b a' b' : ℕ, a < width ∧ b < height ∧ a' < width ∧ b' < height ∧
      p = pixel width a b ∧ (a' : ℤ) = a + dx ∧ (b' : ℤ) = b + dy := by
    intro p hp hz
    obtain ⟨a, b, ha, hb, rfl⟩ := exists_pixel hp
    obtain ⟨h1, h2, h3, h4⟩ := h.inside a b ha hb hz
    exact ⟨a, b, (a + dx).toNat, (b + dy).toNat, ha, hb, by omega, by omega, rfl, by omega, by omega⟩
  refine ⟨?_, ?_, ?_, ?_⟩
  · intro p q hp hq zp zq hpq
    obtain ⟨a, b, a', b', _, _, _, _, rfl, e1, e2⟩ := dest p hp zp
    obtain ⟨c, d, c', d', _, _, _, _, rfl, e3, e4⟩ := dest q hq zq
    rw [shift_pixel e1 e2, shift_pixel e3 e4]
    have : ((pixel width a b : ℕ) : ℤ) < (pixel width c d : ℕ) := by exact_mod_cast hpq
    have g : ((pixel width a' b' : ℕ) : ℤ) < (pixel width c' d' : ℕ) := by
      simp only [pixel] at this ⊢
      push_cast at this ⊢
      rw [e1, e2, e3, e4]
      linarith
    exact_mod_cast g
  · intro p hp zp
    obtain ⟨a, b, a', b', _, _, h3, h4, rfl, e1, e2⟩ := dest p hp zp
    rw [shift_pixel e1 e2]
    exact pixel_lt h3 h4
  · intro p hp zp
    obtain ⟨a, b, a', b', h1, h2, h3, h4, rfl, e1, e2⟩ := dest p hp zp
    rw [shift_pixel e1 e2]
    exact h.value a b a' b' h1 h2 h3 h4 e1 e2 zp
  · intro q hq zq
    obtain ⟨a', b', h1, h2, rfl⟩ := exists_pixel hq
    obtain ⟨a, b, h3, h4, h5, e1, e2⟩ := h.rest a' b' h1 h2 zq
    exact ⟨_, pixel_lt h3 h4, h5, shift_pixel e1 e2⟩

theorem refs_stateless {f : List ℕ → Outcome ℝ} (ts : List (List ℕ)) {rs : List ℝ} {s s' : Unit}
    (h : refs (stateless f) s ts = ok (rs, s')) (i : ℕ) (t : List ℕ) (r : ℝ) (ht : ts[i]? = some t) (hr : rs[i]? = some r) : f t = ok r := by
  induction ts generalizing rs i s with
  | nil => simp at ht
  | cons a ts ih =>
    rw [refs, bind_eq_ok] at h
    obtain ⟨⟨v, s1⟩, h1, h⟩ := h
    rw [bind_eq_ok] at h
    obtain ⟨rest, h2, h⟩ := h
    cases h
    cases i with
    | zero =>
      simp only [List.getElem?_cons_zero, Option.some.injEq] at ht hr
      subst ht hr
      simp only [stateless, bind_eq_ok] at h1
      obtain ⟨v', h3, h4⟩ := h1
      cases h4
      exact h3
    | succ i => exact ih h2 i (by simpa using ht) (by simpa using hr)

/-- The corners of a unit of order two or three inside of the pattern, and where they go. -/
theorem Shifted.dest {width height : ℕ} {dx dy : ℤ} {x x' : Mat} {n : ℕ} (h : Shifted width height dx dy x x' n) {p : ℕ}
    (hp : p < width * height) (hz : x.val n p ≠ 0) : ∃ a b a' b' : ℕ, a < width ∧ b < height ∧ a' < width ∧ b' < height ∧
      p = pixel width a b ∧ shift width dx dy p = pixel width a' b' ∧ (a' : ℤ) = a + dx ∧ (b' : ℤ) = b + dy := by
  obtain ⟨a, b, ha, hb, rfl⟩ := exists_pixel hp
  obtain ⟨h1, h2, h3, h4⟩ := h.inside a b ha hb hz
  have e1 : (((a + dx).toNat : ℕ) : ℤ) = a + dx := by omega
  have e2 : (((b + dy).toNat : ℕ) : ℤ) = b + dy := by omega
  exact ⟨a, b, (a + dx).toNat, (b + dy).toNat, ha, hb, by omega, by omega, rfl, shift_pixel e1 e2, e1, e2⟩

/-- What a constraint of two positions has to obey. -/
theorem pair_respects {width height : ℕ} {dx dy : ℤ} {x x' : Mat} {n : ℕ} (h : Shifted width height dx dy x x' n) {f : List ℕ → Outcome ℝ}
    (hlen : ∀ t r, f t = ok r → ∃ p q, t = [p, q])
    (hf : ∀ x1 y1 x2 y2 x1' y1' x2' y2' : ℕ, x1 < width → y1 < height → x2 < width → y2 < height → x1' < width → y1' < height → x2' < width →
      y2' < height → (x1' : ℤ) = x1 + dx → (y1' : ℤ) = y1 + dy → (x2' : ℤ) = x2 + dx → (y2' : ℤ) = y2 + dy →
      f [pixel width x1' y1', pixel width x2' y2'] = f [pixel width x1 y1, pixel width x2 y2])
    {s s' : Unit} {ts : List (List ℕ)} {rs : List ℝ} (hr : refs (stateless f) s ts = ok (rs, s')) (i j : ℕ) (t : List ℕ) (r v : ℝ)
    (hi : ts[i]? = some t) (hj : ts[j]? = some (t.map (shift width dx dy))) (ht : ∀ p ∈ t, p < width * height ∧ x.val n p ≠ 0)
    (h1 : rs[i]? = some r) (h2 : rs[j]? = some v) : r = v := by
  have e1 := refs_stateless ts hr i t r hi h1
  have e2 := refs_stateless ts hr j _ v hj h2
  obtain ⟨p, q, rfl⟩ := hlen t r e1
  obtain ⟨hp, zp⟩ := ht p (by simp)
  obtain ⟨hq, zq⟩ := ht q (by simp)
  obtain ⟨a, b, a', b', a1, a2, a3, a4, ep, ep', ea, eb⟩ := h.dest hp zp
  obtain ⟨c, d, c', d', c1, c2, c3, c4, eq, eq', ec, ed⟩ := h.dest hq zq
  have e := hf a b c d a' b' c' d' a1 a2 c1 c2 a3 a4 c3 c4 ea eb ec ed
  simp only [List.map_cons, List.map_nil] at e2
  rw [ep', eq', e, ← ep, ← eq, e1] at e2
  injection e2

/-- **C68**: a sigma-pi layer with second order nodes and distance constraint computes the same outputs for a batch of patterns and the
patterns shifted inside of the image, for all weights (of the right number, so throughout training), and stays within bounds. -/
theorem distance_invariant (width height numbers : ℕ) (act : Act) (hn : 0 < numbers) (hi : 2 ≤ width * height) {l : Layer} {s' : Unit}
    (h : addNodes .second numbers (stateless (distance width height)) (⟨width * height, false, act, [], [], []⟩, ()) = ok (l, s'))
    (x x' : Mat) (hr : x'.rows = x.rows) (hx : x.cols = width * height) (hx' : x'.cols = width * height) (dx dy : ℕ → ℤ)
    (hm : ∀ n < x.rows, Shifted width height (dx n) (dy n) x x' n) (w : List ℝ) (hw : w.length = l.w.length) (junk junk' : ℕ → ℕ → ℝ) :
    ∃ y y', forward { l with w := w } x junk = ok y ∧ forward { l with w := w } x' junk' = ok y' ∧ y.rows = x.rows ∧ y'.rows = x.rows ∧
      y.cols = numbers ∧ y'.cols = numbers ∧ ∀ n < x.rows, ∀ i < numbers, y'.val n i = y.val n i := by
  refine layer_moved .second numbers _ rfl ⟨width * height, false, act, [], [], []⟩ () rfl rfl rfl rfl hn hi h x x' hr hx hx'
    (fun n => shift width (dx n) (dy n)) (fun n hn' => (hm n hn').moved) ?_ w hw junk junk'
  intro n hn' s0 neuron rs s1 _ _ hrefs i j t r v h1 h2 h3 h4 h5
  refine pair_respects (hm n hn') ?_ ?_ hrefs i j t r v h1 h2 h3 h4 h5
  · intro t r ht
    unfold distance at ht
    split at ht
    · exact ⟨_, _, rfl⟩
    · cases ht
  · intros
    apply distance_translation_partial <;> assumption

/-- **C68**: the same for the slope constraint. -/
theorem slope_invariant (width height numbers : ℕ) (act : Act) (hn : 0 < numbers) (hi : 2 ≤ width * height) {l : Layer} {s' : Unit}
    (h : addNodes .second numbers (stateless (slope width height)) (⟨width * height, false, act, [], [], []⟩, ()) = ok (l, s'))
    (x x' : Mat) (hr : x'.rows = x.rows) (hx : x.cols = width * height) (hx' : x'.cols = width * height) (dx dy : ℕ → ℤ)
    (hm : ∀ n < x.rows, Shifted width height (dx n) (dy n) x x' n) (w : List ℝ) (hw : w.length = l.w.length) (junk junk' : ℕ → ℕ → ℝ) :
    ∃ y y', forward { l with w := w } x junk = ok y ∧ forward { l with w := w } x' junk' = ok y' ∧ y.rows = x.rows ∧ y'.rows = x.rows ∧
      y.cols = numbers ∧ y'.cols = numbers ∧ ∀ n < x.rows, ∀ i < numbers, y'.val n i = y.val n i := by
  refine layer_moved .second numbers _ rfl ⟨width * height, false, act, [], [], []⟩ () rfl rfl rfl rfl hn hi h x x' hr hx hx'
    (fun n => shift width (dx n) (dy n)) (fun n hn' => (hm n hn').moved) ?_ w hw junk junk'
  intro n hn' s0 neuron rs s1 _ _ hrefs i j t r v h1 h2 h3 h4 h5
  refine pair_respects (hm n hn') ?_ ?_ hrefs i j t r v h1 h2 h3 h4 h5
  · intro t r ht
    unfold slope at ht
    split at ht
    · exact ⟨_, _, rfl⟩
    · cases ht
  · intro x1 y1 x2 y2 x1' y1' x2' y2' a1 a2 a3 a4 a5 a6 a7 a8 e1 e2 e3 e4
    exact slope_similar_partial (s := 1) (by decide) a1 a2 a3 a4 a5 a6 a7 a8 (by rw [one_mul]; exact e1) (by rw [one_mul]; exact e2)
      (by rw [one_mul]; exact e3) (by rw [one_mul]; exact e4)

theorem corner_shift (p q r d : ℤ × ℤ) : corner (p + d) (q + d) (r + d) = corner p q r := by
  have h : ∀ a b : ℤ × ℤ, point (a + d) - point (b + d) = point a - point b := by
    intro a b
    ext i
    fin_cases i <;> simp [point]
  rw [corner, corner, h, h]

theorem steps_shift (resolution : ℝ) (p q r d : ℤ × ℤ) : steps resolution (p + d) (q + d) (r + d) = steps resolution p q r := by
  rw [steps, steps, corner_shift]

theorem pixel_mod {width a b : ℕ} (ha : a < width) : pixel width a b % width = a := by
  rw [pixel, Nat.mul_comm, Nat.mul_add_mod, Nat.mod_eq_of_lt ha]

theorem pixel_div {width a b : ℕ} (ha : a < width) : pixel width a b / width = b := by
  rw [pixel, Nat.mul_comm, Nat.mul_add_div (by omega), Nat.div_eq_of_lt ha, Nat.add_zero]

/-- Triangles keep their discrete angles if they are shifted. -/
theorem shape_shift {width : ℕ} (resolution : ℝ) {dx dy : ℤ} {a b a' b' c d c' d' e f e' f' : ℕ} (ha : a < width) (ha' : a' < width)
    (hc : c < width) (hc' : c' < width) (he : e < width) (he' : e' < width) (h1 : (a' : ℤ) = a + dx) (h2 : (b' : ℤ) = b + dy)
    (h3 : (c' : ℤ) = c + dx) (h4 : (d' : ℤ) = d + dy) (h5 : (e' : ℤ) = e + dx) (h6 : (f' : ℤ) = f + dy) :
    shape width resolution [pixel width a' b', pixel width c' d', pixel width e' f'] =
      shape width resolution [pixel width a b, pixel width c d, pixel width e f] := by
  unfold shape
  simp only [pixel_mod ha, pixel_mod ha', pixel_mod hc, pixel_mod hc', pixel_mod he, pixel_mod he', pixel_div ha, pixel_div ha', pixel_div hc,
    pixel_div hc', pixel_div he, pixel_div he']
  have g1 : (((a' : ℕ) : ℤ), ((b' : ℕ) : ℤ)) = ((a : ℤ), (b : ℤ)) + (dx, dy) := by rw [h1, h2]; rfl
  have g2 : (((c' : ℕ) : ℤ), ((d' : ℕ) : ℤ)) = ((c : ℤ), (d : ℤ)) + (dx, dy) := by rw [h3, h4]; rfl
  have g3 : (((e' : ℕ) : ℤ), ((f' : ℕ) : ℤ)) = ((e : ℤ), (f : ℤ)) + (dx, dy) := by rw [h5, h6]; rfl
  rw [g1, g2, g3, steps_shift, steps_shift, steps_shift]
  have hlt : ((c' : ℤ) < e') ↔ ((c : ℤ) < e) := by omega
  by_cases h : (c : ℤ) < e
  · rw [if_pos (hlt.2 h), if_pos h]
  · rw [if_neg (fun h' => h (hlt.1 h')), if_neg h]

/-- **C68**: the same for third order nodes and the triangle constraint, which keeps the numbers of the triangles from neuron to neuron. -/
theorem triangle_invariant (width height numbers : ℕ) (resolution : ℝ) (act : Act) (hn : 0 < numbers) (hi : 3 ≤ width * height) {l : Layer}
    {s' : Partition}
    (h : addNodes .third numbers (triangle width resolution) (⟨width * height, false, act, [], [], []⟩, []) = ok (l, s'))
    (x x' : Mat) (hr : x'.rows = x.rows) (hx : x.cols = width * height) (hx' : x'.cols = width * height) (dx dy : ℕ → ℤ)
    (hm : ∀ n < x.rows, Shifted width height (dx n) (dy n) x x' n) (w : List ℝ) (hw : w.length = l.w.length) (junk junk' : ℕ → ℕ → ℝ) :
    ∃ y y', forward { l with w := w } x junk = ok y ∧ forward { l with w := w } x' junk' = ok y' ∧ y.rows = x.rows ∧ y'.rows = x.rows ∧
      y.cols = numbers ∧ y'.cols = numbers ∧ ∀ n < x.rows, ∀ i < numbers, y'.val n i = y.val n i := by
  refine layer_moved .third numbers _ rfl ⟨width * height, false, act, [], [], []⟩ [] rfl rfl rfl rfl hn hi h x x' hr hx hx'
    (fun n => shift width (dx n) (dy n)) (fun n hn' => (hm n hn').moved) ?_ w hw junk junk'
  intro n hn' s0 neuron rs s1 later hmem hrefs i j t r v h1 h2 h3 h4 h5
  obtain ⟨ts0, rs0, e0⟩ := later rfl
  obtain ⟨q0, rfl, inv0, _⟩ := history ts0 (q := []) table_nil e0
  obtain ⟨q, _, inv, _, hval, _⟩ := history _ inv0 hrefs
  obtain ⟨m, rfl, hm1⟩ := hval i t r h1 h4
  obtain ⟨m', rfl, hm2⟩ := hval j _ v h2 h5
  have hlen : t.length = 3 := by
    obtain ⟨v1, i1, _, _, new, n1, _, p1⟩ := nodes_partial .third numbers (triangle width resolution)
      (⟨width * height, false, act, [], [], []⟩ : Layer) ⟨rfl, by simp, by simp⟩ [] h
    rw [n1, List.nil_append] at hmem
    exact (((p1 neuron hmem).1.2 t).1 (List.mem_of_getElem? h1)).1
  obtain ⟨p1, p2, p3, rfl⟩ := List.length_eq_three.1 hlen
  obtain ⟨g1, z1⟩ := h3 p1 (by simp)
  obtain ⟨g2, z2⟩ := h3 p2 (by simp)
  obtain ⟨g3, z3⟩ := h3 p3 (by simp)
  obtain ⟨a, b, a', b', a1, a2, a3, a4, ep, ep', ea, eb⟩ := (hm n hn').dest g1 z1
  obtain ⟨c, d, c', d', c1, c2, c3, c4, eq, eq', ec, ed⟩ := (hm n hn').dest g2 z2
  obtain ⟨e, f, e', f', e1, e2, e3, e4, er, er', ee, ef⟩ := (hm n hn').dest g3 z3
  have hshape := shape_shift resolution a1 a3 c1 c3 e1 e3 ea eb ec ed ee ef
  simp only [List.map_cons, List.map_nil] at hm2
  rw [ep', eq', er', hshape, ← ep, ← eq, ← er] at hm2
  rw [inv.functional _ _ _ hm1 hm2]

/-- A pattern of two pixels and the same pattern one column to the right. -/
example : Shifted 3 1 1 0 ⟨1, 3, fun _ j => if j = 0 then 5 else if j = 1 then 7 else 0⟩ ⟨1, 3, fun _ j => if j = 1 then 5 else if j = 2 then 7 else 0⟩ 0 := by
  constructor
  · intro a b ha hb hz
    have : a = 0 ∨ a = 1 ∨ a = 2 := by omega
    obtain rfl : b = 0 := by omega
    rcases this with rfl | rfl | rfl <;> simp [pixel] at hz ⊢
  · intro a b a' b' ha hb ha' hb' e1 e2 hz
    have : a = 0 ∨ a = 1 ∨ a = 2 := by omega
    obtain rfl : b = 0 := by omega
    obtain rfl : b' = 0 := by omega
    obtain rfl : a' = a + 1 := by omega
    rcases this with rfl | rfl | rfl <;> simp [pixel] at hz ⊢
  · intro a' b' ha hb hz
    have : a' = 0 ∨ a' = 1 ∨ a' = 2 := by omega
    obtain rfl : b' = 0 := by omega
    rcases this with rfl | rfl | rfl
    · simp [pixel] at hz
    · exact ⟨0, 0, by norm_num, by norm_num, by simp [pixel], by norm_num, by norm_num⟩
    · exact ⟨1, 0, by norm_num, by norm_num, by simp [pixel], by norm_num, by norm_num⟩

/-- The nodes of the theorem can be created for every image. -/
theorem distance_nodes (width height numbers : ℕ) (act : Act) :
    ∃ r, addNodes .second numbers (stateless (distance width height)) (⟨width * height, false, act, [], [], []⟩, ()) = ok r := by
  refine nodes_total .second numbers _ _ ⟨rfl, by simp, by simp⟩ () fun _ s t ht => ?_
  rw [mem_combos] at ht
  obtain ⟨h1, _, h3⟩ := ht
  obtain ⟨p, q, rfl⟩ := List.length_eq_two.1 h1
  have hp := (h3 p (by simp)).2
  have hq := (h3 q (by simp)).2
  simp only [Layer.width, Bool.false_eq_true, if_false, Nat.add_zero] at hp hq
  obtain ⟨a, b, ha, hb, rfl⟩ := exists_pixel hp
  obtain ⟨c, d, hc, hd, rfl⟩ := exists_pixel hq
  exact ⟨_, by simp only [stateless]; rw [distance_spec ha hb hc hd, ok_bind]⟩

theorem slope_nodes (width height numbers : ℕ) (act : Act) :
    ∃ r, addNodes .second numbers (stateless (slope width height)) (⟨width * height, false, act, [], [], []⟩, ()) = ok r := by
  refine nodes_total .second numbers _ _ ⟨rfl, by simp, by simp⟩ () fun _ s t ht => ?_
  rw [mem_combos] at ht
  obtain ⟨h1, _, h3⟩ := ht
  obtain ⟨p, q, rfl⟩ := List.length_eq_two.1 h1
  have hp := (h3 p (by simp)).2
  have hq := (h3 q (by simp)).2
  simp only [Layer.width, Bool.false_eq_true, if_false, Nat.add_zero] at hp hq
  obtain ⟨a, b, ha, hb, rfl⟩ := exists_pixel hp
  obtain ⟨c, d, hc, hd, rfl⟩ := exists_pixel hq
  exact ⟨_, by simp only [stateless]; rw [slope_spec ha hb hc hd, ok_bind]⟩

theorem triangle_nodes (width height numbers : ℕ) (hw : width ≠ 0) (resolution : ℝ) (act : Act) :
    ∃ r, addNodes .third numbers (triangle width resolution) (⟨width * height, false, act, [], [], []⟩, []) = ok r := by
  refine nodes_total .third numbers _ _ ⟨rfl, by simp, by simp⟩ [] fun _ s t ht => ?_
  rw [mem_combos] at ht
  obtain ⟨h1, h2, _⟩ := ht
  obtain ⟨p, q, r, rfl⟩ := List.length_eq_three.1 h1
  simp only [List.pairwise_cons, List.mem_cons, List.not_mem_nil, or_false] at h2
  have a1 := h2.1 q (by simp)
  have a2 := h2.1 r (by simp)
  have a3 := h2.2.1 r rfl
  refine ⟨_, if_neg ?_⟩
  omega

end

end Verif.SigmaPi
