import Verif.Model.BCIDataSet
import Verif.Props.Filter
import Mathlib.Algebra.BigOperators.Fin

/-!
# The data set of the P300 speller (C90, C91)
-/

namespace Verif.BCI

open Outcome

noncomputable section

/-! ## Spec -/

/-- Spec: a flash begins in epoch `e` at time `t`. -/
def Onset (r : Recording) (e t : ℕ) : Prop := 0 < r.flashing t e ∧ (t = 0 ∨ trunc (r.flashing (t - 1) e) = 0)

instance (r : Recording) (e : ℕ) : DecidablePred (Onset r e) := fun _ => Classical.propDecidable _

/-- Spec: the times at which flashes begin in an epoch, in order. -/
def onsets (r : Recording) (e : ℕ) : List ℕ := (List.range r.maxT).filter fun t => decide (Onset r e t)

/-- Spec: the label of a flash: -1 or 1 for the types 0 and 1. -/
def labelOf (r : Recording) (e t : ℕ) : ℝ := ((trunc (r.type t e) * 2 - 1 : ℤ) : ℝ)

/-- Spec: what decides about the instances: downsampling factor, compression. -/
structure Settings where
  factor : Option ℕ
  comp : Option Mat

/-- Spec: settings after a call. -/
def Settings.after (s : Settings) : Call → Settings
  | .decimate factor => { s with factor := some factor }
  | .compress cm => { s with comp := some cm }
  | .reset => ⟨none, none⟩
  | _ => s

/-- Spec: settings after a sequence of calls on a new object. -/
def settings (cs : List Call) : Settings := cs.foldl Settings.after ⟨none, none⟩

/-- Spec: number of samples per channel. -/
def Settings.width (s : Settings) (r : Recording) : ℕ :=
  match s.factor with
  | none => r.sampling
  | some k => r.sampling / k

/-- Spec: sample `k` of channel `c` of the instance that begins at `t0`: the signal, or the low-pass filtered signal at each
`factor`-th time. -/
def Settings.sample (s : Settings) (r : Recording) (e t0 c k : ℕ) : ℝ :=
  match s.factor with
  | none => r.signal e c (t0 + k)
  | some f => ∑ p ∈ Finset.range 31, b1.getD p 0 * r.signal e c (t0 + Pre.reflected (k * f) p)

/-- Spec: the uncompressed instance, channel after channel. -/
def Settings.raw (s : Settings) (r : Recording) (e t0 : ℕ) : List ℝ :=
  (List.range (r.channels * s.width r)).map fun i => s.sample r e t0 (i / s.width r) (i % s.width r)

/-- Spec: the instance. -/
def Settings.instance (s : Settings) (r : Recording) (e t0 : ℕ) : List ℝ :=
  match s.comp with
  | none => s.raw r e t0
  | some cm => (List.range cm.rows).map fun j => ((List.range cm.cols).map fun k => (s.raw r e t0).getD k 0 * cm.val j k).sum

/-- Spec: the settings make sense for the recording. -/
structure Settings.Fits (s : Settings) (r : Recording) : Prop where
  factor : ∀ f, s.factor = some f → 0 < f ∧ 31 ≤ r.sampling
  comp : ∀ cm, s.comp = some cm → cm.cols = r.channels * s.width r

/-! ## The cache -/

/-- The settings of an object. -/
def Data.settings (d : Data) : Settings := ⟨if d.decimated then some d.factor else none, d.comp⟩

/-- Everything in the cache is what would be computed now. -/
def Data.Coherent (d : Data) : Prop := ∀ k v, d.cache.lookup k = some v → d.computed k.1 k.2 = ok v

/-- `d'` differs from `d` in `tempInstance` and in the contents of the cache only. -/
def Touched (d d' : Data) : Prop := d' = { d with temp := d'.temp, cache := d'.cache }

theorem Touched.refl (d : Data) : Touched d d := rfl

theorem Touched.trans {a b c : Data} (h : Touched a b) (g : Touched b c) : Touched a c := by
  unfold Touched at h g ⊢
  rw [g, h]

theorem Touched.computed {d d' : Data} (h : Touched d d') (e t0 : ℕ) : d'.computed e t0 = d.computed e t0 := by
  rw [h]
  rfl

theorem Touched.start {d d' : Data} (h : Touched d d') : d'.start = d.start := by rw [h]

theorem Touched.recording {d d' : Data} (h : Touched d d') : d'.recording = d.recording := by rw [h]

theorem Touched.loaded {d d' : Data} (h : Touched d d') : d'.loaded = d.loaded := by rw [h]

theorem Touched.settings {d d' : Data} (h : Touched d d') : d'.settings = d.settings := by
  rw [h]
  rfl

theorem build_ok {d d' : Data} {e t0 : ℕ} (hc : d.Coherent) (h : d.buildInstance e t0 = ok d') :
    Touched d d' ∧ d'.Coherent ∧ d.computed e t0 = ok d'.temp := by
  unfold Data.buildInstance at h
  cases hl : d.cache.lookup (e, t0) with
  | some v =>
    rw [hl] at h
    injection h with h
    subst h
    exact ⟨rfl, hc, hc (e, t0) v hl⟩
  | none =>
    rw [hl] at h
    obtain ⟨v, hv, h'⟩ := bind_eq_ok.1 h
    injection h' with h'
    subst h'
    refine ⟨rfl, fun k w hw => ?_, hv⟩
    show d.computed k.1 k.2 = ok w
    dsimp only at hw
    split at hw
    · rw [List.lookup_cons] at hw
      by_cases hk : k = (e, t0)
      · subst hk
        rw [beq_self_eq_true] at hw
        injection hw with hw
        rw [← hw]
        exact hv
      · rw [beq_eq_false_iff_ne.2 hk] at hw
        exact hc k w hw
    · exact hc k w hw

/-- With a coherent cache, the result of `buildInstance` is the computed instance, also if that is undefined. -/
theorem build_value {d : Data} (hc : d.Coherent) (e t0 : ℕ) :
    (d.buildInstance e t0 >>= fun d' => ok d'.temp) = d.computed e t0 := by
  unfold Data.buildInstance
  cases hl : d.cache.lookup (e, t0) with
  | some v => exact (hc (e, t0) v hl).symm
  | none =>
    show ((d.computed e t0 >>= _) >>= _) = _
    cases d.computed e t0 <;> rfl

theorem scores_run {f : List ℝ → ℝ} {trials e : ℕ} : ∀ (ts : List ℕ) {s s' : Scores}, s.data.Coherent →
    Scores.run f trials e ts s = ok s' → Touched s.data s'.data ∧ s'.data.Coherent
  | [], s, s', hc, h => by
    injection h with h
    subst h
    exact ⟨rfl, hc⟩
  | t0 :: ts, s, s', hc, h => by
    obtain ⟨s1, h1, h2⟩ := bind_eq_ok.1 h
    unfold Scores.step at h1
    obtain ⟨d, hd, h3⟩ := bind_eq_ok.1 h1
    obtain ⟨k1, k2, _⟩ := build_ok hc hd
    have hs1 : s1.data = d := by
      dsimp only at h3
      split at h3
      · split at h3
        · injection h3 with h3
          rw [← h3]
        · injection h3 with h3
          rw [← h3]
      · cases h3
    obtain ⟨g1, g2⟩ := scores_run ts (by rw [hs1]; exact k2) h2
    rw [hs1] at g1
    exact ⟨k1.trans g1, g2⟩

theorem evaluateEpoch_touched {d : Data} {f : List ℝ → ℝ} {trials e : ℕ} {q : Data × Bool} (hc : d.Coherent)
    (h : d.evaluateEpoch f trials e = ok q) : Touched d q.1 ∧ q.1.Coherent := by
  unfold Data.evaluateEpoch at h
  obtain ⟨s, hs, h2⟩ := bind_eq_ok.1 h
  obtain ⟨k1, k2⟩ := scores_run _ hc hs
  have : q.1 = s.data := by
    split at h2
    · obtain ⟨l, _, h3⟩ := bind_eq_ok.1 h2
      obtain ⟨c, _, h4⟩ := bind_eq_ok.1 h3
      injection h4 with h4
      rw [← h4]
    · cases h2
  rw [this]
  exact ⟨k1, k2⟩

theorem evaluate_loop {d : Data} {f : List ℝ → ℝ} {trials : ℕ} (hc : d.Coherent) : ∀ (n : ℕ) {p : Data × ℕ},
    forLoop n (fun e p => do
      let q ← p.1.evaluateEpoch f trials e
      ok (q.1, if q.2 then p.2 + 1 else p.2)) (d, 0) = ok p → Touched d p.1 ∧ p.1.Coherent
  | 0, p, h => by
    injection h with h
    subst h
    exact ⟨rfl, hc⟩
  | n + 1, p, h => by
    rw [forLoop] at h
    obtain ⟨p', h1, h2⟩ := bind_eq_ok.1 h
    obtain ⟨k1, k2⟩ := evaluate_loop hc n h1
    obtain ⟨q, h3, h4⟩ := bind_eq_ok.1 h2
    injection h4 with h4
    obtain ⟨g1, g2⟩ := evaluateEpoch_touched k2 h3
    subst h4
    exact ⟨k1.trans g1, g2⟩

theorem evaluate_touched {d : Data} {f : List ℝ → ℝ} {trials : ℕ} {p : Data × ℕ} (hc : d.Coherent)
    (h : d.evaluate f trials = ok p) : Touched d p.1 ∧ p.1.Coherent := by
  unfold Data.evaluate at h
  split at h
  · exact evaluate_loop hc _ h
  · cases h

theorem coherent_nil {d : Data} (h : d.cache = []) : d.Coherent := fun k v hv => by
  rw [h] at hv
  cases hv

/-- Every call keeps the recording and the coherence of the cache and changes the settings as specified. -/
theorem call_coherent {d d' : Data} {c : Call} (hc : d.Coherent) (h : d.call c = ok d') :
    d'.Coherent ∧ d'.recording = d.recording ∧ d'.settings = d.settings.after c := by
  cases c with
  | load =>
    injection h with h
    subst h
    exact ⟨coherent_nil rfl, rfl, rfl⟩
  | decimate factor =>
    have h : d.decimate factor = ok d' := h
    unfold Data.decimate at h
    split at h
    · cases h
    · injection h with h
      subst h
      exact ⟨coherent_nil rfl, rfl, rfl⟩
  | compress cm =>
    injection h with h
    subst h
    exact ⟨coherent_nil rfl, rfl, rfl⟩
  | reset =>
    injection h with h
    subst h
    exact ⟨coherent_nil rfl, rfl, rfl⟩
  | getInstance i =>
    have h : d.getInstance i = ok d' := h
    obtain ⟨o, _, h2⟩ := bind_eq_ok.1 h
    obtain ⟨k1, k2, _⟩ := build_ok hc h2
    exact ⟨k2, k1.recording, k1.settings⟩
  | evaluate f trials =>
    obtain ⟨p, h1, h2⟩ := bind_eq_ok.1 (show (d.evaluate f trials >>= fun p => ok p.1) = ok d' from h)
    injection h2 with h2
    subst h2
    obtain ⟨k1, k2⟩ := evaluate_touched hc h1
    exact ⟨k2, k1.recording, k1.settings⟩

theorem calls_coherent : ∀ (cs : List Call) {d d' : Data}, d.Coherent → d.calls cs = ok d' →
    d'.Coherent ∧ d'.recording = d.recording ∧ d'.settings = cs.foldl Settings.after d.settings
  | [], d, d', hc, h => by
    injection h with h
    subst h
    exact ⟨hc, rfl, rfl⟩
  | c :: cs, d, d', hc, h => by
    obtain ⟨d1, h1, h2⟩ := bind_eq_ok.1 h
    obtain ⟨k1, k2, k3⟩ := call_coherent hc h1
    obtain ⟨g1, g2, g3⟩ := calls_coherent cs k1 h2
    exact ⟨g1, g2.trans k2, by rw [g3, k3]; rfl⟩

theorem new_facts (r : Recording) (l : Bool) : (Data.new r l).Coherent ∧ (Data.new r l).recording = r ∧
    (Data.new r l).settings = ⟨none, none⟩ := by
  cases l
  · exact ⟨coherent_nil rfl, rfl, rfl⟩
  · exact ⟨coherent_nil rfl, rfl, rfl⟩

/-! ## The instances -/

theorem decimateSignal_value {m : Mat} {f : ℕ} (hf : 0 < f) (hm : 31 ≤ m.cols) : ∃ y, decimateSignal f m = ok y ∧
    y.rows = m.rows ∧ y.cols = m.cols / f ∧ ∀ c < m.rows, ∀ k < m.cols / f,
      y.val c k = ∑ p ∈ Finset.range 31, b1.getD p 0 * m.val c (Pre.reflected (k * f) p) := by
  have hmul : ∀ k < m.cols / f, k * f < m.cols := fun k hk =>
    lt_of_lt_of_le (Nat.mul_lt_mul_of_pos_right hk hf) (Nat.div_mul_le_self _ _)
  obtain ⟨z, h1, h2, h3, h4⟩ := Pre.filter_value m ⟨m.rows, m.cols, fun _ _ => 0⟩ b1 [1] le_rfl le_rfl
    (show 31 ≤ m.cols from hm) (show 1 ≤ m.cols by omega) (by simp)
  obtain ⟨y, g1, g2, g3, g4⟩ := Pre.downsample_value z ⟨m.rows, m.cols / f, fun _ _ => 0⟩ f (by rw [h2]) (by
    intro k hk
    rw [h3]
    exact hmul k hk)
  refine ⟨y, ?_, g2, g3, fun c hc k hk => ?_⟩
  · unfold decimateSignal
    rw [h1, ok_bind]
    exact g1
  · rw [g4 c (by rw [h2]; exact hc) k hk, h4 c hc _ (hmul k hk)]
    show (∑ p ∈ Finset.range 31, Pre.coefficient b1 [1] p * _) / 1 = _
    rw [div_one]
    refine Finset.sum_congr rfl fun p _ => ?_
    congr 1
    unfold Pre.coefficient
    cases p <;> simp

theorem toVector_congr {m m' : Mat} (hr : m.rows = m'.rows) (hc : m.cols = m'.cols)
    (h : ∀ c < m.rows, ∀ k < m.cols, m.val c k = m'.val c k) : toVector m = toVector m' := by
  unfold toVector
  rw [← hr, ← hc]
  refine List.map_congr_left fun i hi => ?_
  rw [List.mem_range] at hi
  have hpos : 0 < m.cols := Nat.pos_of_ne_zero fun e => by
    rw [e, Nat.mul_zero] at hi
    omega
  exact h _ ((Nat.div_lt_iff_lt_mul hpos).2 hi) _ (Nat.mod_lt _ hpos)

/-- An instance is what the settings say. -/
theorem computed_value {d : Data} {e t0 : ℕ} (hf : d.settings.Fits d.recording) (he : e < d.recording.epochs)
    (ht : t0 + d.recording.sampling ≤ d.recording.maxT) :
    d.computed e t0 = ok (d.settings.instance d.recording e t0) := by
  have hraw : (extractInstance d.recording e t0 >>= fun o => if d.decimated then decimateSignal d.factor o else ok o) >>=
      (fun m => ok (toVector m)) = ok (d.settings.raw d.recording e t0) := by
    unfold extractInstance
    rw [if_pos ⟨he, Or.inr (Or.inr ht)⟩, ok_bind]
    by_cases hd : d.decimated = true
    · have hs : d.settings.factor = some d.factor := by
        unfold Data.settings
        rw [if_pos hd]
      obtain ⟨h1, h2⟩ := hf.factor _ hs
      obtain ⟨y, g1, g2, g3, g4⟩ := decimateSignal_value
        (m := ⟨d.recording.channels, d.recording.sampling, fun c t => d.recording.signal e c (t0 + t)⟩) h1 h2
      rw [if_pos hd, g1, ok_bind]
      congr 1
      unfold Settings.raw Settings.width Settings.sample
      rw [hs]
      exact toVector_congr (m' := ⟨d.recording.channels, d.recording.sampling / d.factor, fun c k =>
        ∑ p ∈ Finset.range 31, b1.getD p 0 * d.recording.signal e c (t0 + Pre.reflected (k * d.factor) p)⟩) g2 g3
        fun c hc k hk => g4 c (by rw [g2] at hc; exact hc) k (by rw [g3] at hk; exact hk)
    · have hs : d.settings.factor = none := by
        unfold Data.settings
        rw [if_neg hd]
      rw [if_neg hd, ok_bind]
      congr 1
      unfold Settings.raw Settings.width Settings.sample
      rw [hs]
      rfl
  have hlen : (d.settings.raw d.recording e t0).length = d.recording.channels * d.settings.width d.recording := by
    unfold Settings.raw
    rw [List.length_map, List.length_range]
  unfold Data.computed
  cases hx : extractInstance d.recording e t0 with
  | ok o =>
    rw [hx, ok_bind] at hraw
    rw [ok_bind]
    cases hm : (if d.decimated then decimateSignal d.factor o else ok o) with
    | ok m =>
      rw [hm, ok_bind] at hraw
      rw [ok_bind]
      injection hraw with hraw
      have hcs : d.settings.comp = d.comp := rfl
      cases hcomp : d.comp with
      | none =>
        dsimp only
        unfold Settings.instance
        rw [hcs, hcomp, hraw]
      | some cm =>
        dsimp only
        unfold Settings.instance transform
        rw [hcs, hcomp, hraw, hlen, if_pos (hf.comp cm (hcs.trans hcomp))]
    | throws => rw [hm] at hraw; cases hraw
    | checkFailed => rw [hm] at hraw; cases hraw
    | ub => rw [hm] at hraw; cases hraw
  | throws => rw [hx] at hraw; cases hraw
  | checkFailed => rw [hx] at hraw; cases hraw
  | ub => rw [hx] at hraw; cases hraw

/-- **C90 (cache, all cases)**: whatever was called before, the cache does not change what `getInstance` returns or whether it is
undefined. -/
theorem cache_transparent {r : Recording} {l : Bool} {cs : List Call} {d : Data} (h : (Data.new r l).calls cs = ok d) (i : ℕ) :
    (d.getInstance i >>= fun d' => ok d'.temp) = (d.getOffsets i >>= fun o => { d with cache := [] }.computed o.1 o.2) := by
  have hc := (calls_coherent cs (new_facts r l).1 h).1
  unfold Data.getInstance
  rw [bind_assoc]
  congr 1
  funext o
  exact build_value hc o.1 o.2

/-- **C90 (instances)**: after any sequence of calls the instance that belongs to a flash is the one of the recording for the
current settings. -/
theorem instance_history {r : Recording} {l : Bool} {cs : List Call} {d : Data} (h : (Data.new r l).calls cs = ok d)
    (hf : (settings cs).Fits r) {i e t0 : ℕ} (ho : d.getOffsets i = ok (e, t0)) (ht : t0 + r.sampling ≤ r.maxT) :
    ∃ d', d.getInstance i = ok d' ∧ d'.temp = (settings cs).instance r e t0 := by
  obtain ⟨hc, hr, hs⟩ := calls_coherent cs (new_facts r l).1 h
  rw [(new_facts r l).2.1] at hr
  rw [(new_facts r l).2.2] at hs
  have hs : d.settings = settings cs := hs
  have he : e < r.epochs := by
    unfold Data.getOffsets at ho
    split at ho
    · next hi =>
      obtain ⟨t, _, h2⟩ := bind_eq_ok.1 ho
      injection h2 with h2
      rw [← (Prod.mk.inj h2).1, ← hr]
      exact hi.2.2.2
    · cases ho
  have hv := computed_value (d := d) (e := e) (t0 := t0) (by rw [hs, hr]; exact hf) (by rw [hr]; exact he) (by rw [hr]; exact ht)
  have hb := build_value hc e t0
  rw [hv] at hb
  obtain ⟨d', h1, h2⟩ := bind_eq_ok.1 hb
  refine ⟨d', ?_, ?_⟩
  · unfold Data.getInstance
    rw [ho, ok_bind]
    exact h1
  · injection h2 with h2
    rw [h2, hs, hr]

/-! ## Flashes -/

theorem step_other {r : Recording} {t e k : ℕ} {s : Scan} (h : k ≠ e) : (Scan.step r t s e).start k = s.start k ∧
    (Scan.step r t s e).label k = s.label k ∧ (Scan.step r t s e).last k = s.last k := by
  unfold Scan.step
  by_cases hc : 0 < r.flashing t e ∧ s.last e = 0
  · simp only [if_pos hc, if_neg h, and_self]
  · simp only [if_neg hc, if_neg h, and_self]

theorem step_self (r : Recording) (t e : ℕ) (s : Scan) :
    (Scan.step r t s e).start e = s.start e ++ (if 0 < r.flashing t e ∧ s.last e = 0 then [t] else []) ∧
    (Scan.step r t s e).label e = s.label e ++ (if 0 < r.flashing t e ∧ s.last e = 0 then [labelOf r e t] else []) ∧
    (Scan.step r t s e).last e = trunc (r.flashing t e) ∧
    (Scan.step r t s e).N = s.N + (if 0 < r.flashing t e ∧ s.last e = 0 then [t] else []).length := by
  unfold Scan.step
  by_cases hc : 0 < r.flashing t e ∧ s.last e = 0
  · simp only [if_pos hc, if_true]
    exact ⟨trivial, rfl, trivial, rfl⟩
  · simp only [if_neg hc, if_true, List.append_nil]
    exact ⟨trivial, trivial, trivial, rfl⟩

/-- One time step for the first `E` epochs. -/
theorem scan_epochs (r : Recording) (t : ℕ) (s : Scan) (E : ℕ) :
    (∀ k, E ≤ k → ((List.range E).foldl (Scan.step r t) s).start k = s.start k ∧
      ((List.range E).foldl (Scan.step r t) s).label k = s.label k ∧ ((List.range E).foldl (Scan.step r t) s).last k = s.last k) ∧
    (∀ k < E,
      ((List.range E).foldl (Scan.step r t) s).start k = s.start k ++ (if 0 < r.flashing t k ∧ s.last k = 0 then [t] else []) ∧
      ((List.range E).foldl (Scan.step r t) s).label k =
        s.label k ++ (if 0 < r.flashing t k ∧ s.last k = 0 then [labelOf r k t] else []) ∧
      ((List.range E).foldl (Scan.step r t) s).last k = trunc (r.flashing t k)) ∧
    ((List.range E).foldl (Scan.step r t) s).N =
      s.N + ∑ k ∈ Finset.range E, (if 0 < r.flashing t k ∧ s.last k = 0 then [t] else []).length := by
  induction E with
  | zero => exact ⟨fun _ _ => ⟨rfl, rfl, rfl⟩, fun k hk => absurd hk (Nat.not_lt_zero k), rfl⟩
  | succ E ih =>
    obtain ⟨i1, i2, i3⟩ := ih
    rw [List.range_succ, List.foldl_append, List.foldl_cons, List.foldl_nil]
    generalize (List.range E).foldl (Scan.step r t) s = s' at i1 i2 i3
    obtain ⟨e1, e2, e3⟩ := i1 E le_rfl
    obtain ⟨f1, f2, f3, f4⟩ := step_self r t E s'
    rw [e1, e3] at f1
    rw [e2, e3] at f2
    rw [e3, i3] at f4
    refine ⟨fun k hk => ?_, fun k hk => ?_, ?_⟩
    · obtain ⟨g1, g2, g3⟩ := step_other (r := r) (t := t) (s := s') (show k ≠ E by omega)
      obtain ⟨h1, h2, h3⟩ := i1 k (by omega)
      exact ⟨g1.trans h1, g2.trans h2, g3.trans h3⟩
    · by_cases hk' : k = E
      · subst hk'
        exact ⟨f1, f2, f3⟩
      · obtain ⟨g1, g2, g3⟩ := step_other (r := r) (t := t) (s := s') hk'
        obtain ⟨h1, h2, h3⟩ := i2 k (by omega)
        exact ⟨g1.trans h1, g2.trans h2, g3.trans h3⟩
    · rw [f4, Finset.sum_range_succ, Nat.add_assoc]

/-- The scan finds the onsets. -/
theorem scan_times (r : Recording) (s : Scan) (h0 : ∀ k, s.last k = 0) (T : ℕ) :
    let s' := (List.range T).foldl (fun s t => (List.range r.epochs).foldl (Scan.step r t) s) s
    (∀ k < r.epochs, s'.start k = s.start k ++ (List.range T).filter (fun t => decide (Onset r k t)) ∧
      s'.label k = s.label k ++ ((List.range T).filter (fun t => decide (Onset r k t))).map (labelOf r k) ∧
      s'.last k = if T = 0 then 0 else trunc (r.flashing (T - 1) k)) ∧
    s'.N = s.N + ∑ k ∈ Finset.range r.epochs, ((List.range T).filter (fun t => decide (Onset r k t))).length := by
  induction T with
  | zero =>
    refine ⟨fun k _ => ⟨?_, ?_, ?_⟩, ?_⟩
    · simp
    · simp
    · simp [h0]
    · simp
  | succ T ih =>
    dsimp only at ih ⊢
    rw [List.range_succ, List.foldl_append, List.foldl_cons, List.foldl_nil]
    generalize (List.range T).foldl (fun s t => (List.range r.epochs).foldl (Scan.step r t) s) s = s' at ih
    obtain ⟨i1, i2⟩ := ih
    obtain ⟨_, g2, g3⟩ := scan_epochs r T s' r.epochs
    have hcond : ∀ k < r.epochs, (0 < r.flashing T k ∧ s'.last k = 0) ↔ Onset r k T := fun k hk => by
      rw [(i1 k hk).2.2]
      unfold Onset
      by_cases hT : T = 0
      · rw [if_pos hT]
        simp [hT]
      · rw [if_neg hT]
        simp [hT]
    have hfil : ∀ k < r.epochs, ∀ {α : Type} (a : α), (if 0 < r.flashing T k ∧ s'.last k = 0 then [a] else []) =
        if Onset r k T then [a] else [] := fun k hk α a => by
      by_cases h : Onset r k T
      · rw [if_pos h, if_pos ((hcond k hk).2 h)]
      · rw [if_neg h, if_neg fun h' => h ((hcond k hk).1 h')]
    have hsingle : ∀ k, List.filter (fun t => decide (Onset r k t)) [T] = if Onset r k T then [T] else [] := fun k => by
      by_cases h : Onset r k T
      · rw [if_pos h, List.filter_cons_of_pos (by simpa using h), List.filter_nil]
      · rw [if_neg h, List.filter_cons_of_neg (by simpa using h), List.filter_nil]
    refine ⟨fun k hk => ⟨?_, ?_, ?_⟩, ?_⟩
    · rw [(g2 k hk).1, (i1 k hk).1, hfil k hk, List.filter_append, hsingle, List.append_assoc]
    · rw [(g2 k hk).2.1, (i1 k hk).2.1, hfil k hk, List.filter_append, hsingle, List.map_append, List.append_assoc]
      congr 2
      by_cases h : Onset r k T
      · rw [if_pos h, if_pos h]
        rfl
      · rw [if_neg h, if_neg h]
        rfl
    · rw [(g2 k hk).2.2, if_neg (by omega), Nat.add_sub_cancel]
    · rw [g3, i2, Nat.add_assoc, ← Finset.sum_add_distrib]
      congr 1
      refine Finset.sum_congr rfl fun k hk => ?_
      rw [hfil k (Finset.mem_range.1 hk), List.filter_append, hsingle, List.length_append]

/-- **C90 (flashes)**: `load` appends to the lists of the epochs the times at which flashes begin, in order, with their labels;
`samples()` is their number. -/
theorem load_flashes (d : Data) : (∀ e < d.recording.epochs, d.load.start e = d.start e ++ onsets d.recording e ∧
      d.load.label e = d.label e ++ (onsets d.recording e).map (labelOf d.recording e)) ∧
    d.load.N = ∑ e ∈ Finset.range d.recording.epochs, (onsets d.recording e).length ∧ d.load.loaded = true := by
  obtain ⟨h1, h2⟩ := scan_times d.recording ⟨0, fun _ => 0, d.start, d.label⟩ (fun _ => rfl) d.recording.maxT
  refine ⟨fun e he => ⟨(h1 e he).1, (h1 e he).2.1⟩, ?_, rfl⟩
  have : d.load.N = (Scan.run d.recording ⟨0, fun _ => 0, d.start, d.label⟩).N := rfl
  rw [this]
  exact h2.trans (Nat.zero_add _)

/-! ## Indices -/

/-- Spec: number of flashes in an epoch. -/
def flashes (r : Recording) (e : ℕ) : ℕ := (onsets r e).length

/-- The call is not `load`. -/
def Call.Keeps : Call → Prop
  | .load => False
  | _ => True

theorem call_keeps {d d' : Data} {c : Call} (hc : d.Coherent) (hk : c.Keeps) (h : d.call c = ok d') :
    d'.start = d.start ∧ d'.label = d.label ∧ d'.N = d.N ∧ d'.loaded = d.loaded := by
  have touched : ∀ {d' : Data}, Touched d d' → d'.start = d.start ∧ d'.label = d.label ∧ d'.N = d.N ∧ d'.loaded = d.loaded :=
    fun h => by
      rw [h]
      exact ⟨rfl, rfl, rfl, rfl⟩
  cases c with
  | load => exact absurd hk id
  | decimate factor =>
    have h : d.decimate factor = ok d' := h
    unfold Data.decimate at h
    split at h
    · cases h
    · injection h with h
      subst h
      exact ⟨rfl, rfl, rfl, rfl⟩
  | compress cm =>
    injection h with h
    subst h
    exact ⟨rfl, rfl, rfl, rfl⟩
  | reset =>
    injection h with h
    subst h
    exact ⟨rfl, rfl, rfl, rfl⟩
  | getInstance i =>
    have h : d.getInstance i = ok d' := h
    obtain ⟨o, _, h2⟩ := bind_eq_ok.1 h
    exact touched (build_ok hc h2).1
  | evaluate f trials =>
    obtain ⟨p, h1, h2⟩ := bind_eq_ok.1 (show (d.evaluate f trials >>= fun p => ok p.1) = ok d' from h)
    injection h2 with h2
    subst h2
    exact touched (evaluate_touched hc h1).1

theorem calls_keep : ∀ (cs : List Call) {d d' : Data}, d.Coherent → (∀ c ∈ cs, c.Keeps) → d.calls cs = ok d' →
    d'.start = d.start ∧ d'.label = d.label ∧ d'.N = d.N ∧ d'.loaded = d.loaded
  | [], d, d', _, _, h => by
    injection h with h
    subst h
    exact ⟨rfl, rfl, rfl, rfl⟩
  | c :: cs, d, d', hc, hk, h => by
    obtain ⟨d1, h1, h2⟩ := bind_eq_ok.1 h
    obtain ⟨a1, a2, a3, a4⟩ := call_keeps hc (hk c (List.mem_cons_self ..)) h1
    obtain ⟨b1, b2, b3, b4⟩ := calls_keep cs (call_coherent hc h1).1 (fun c hc => hk c (List.mem_cons_of_mem _ hc)) h2
    exact ⟨b1.trans a1, b2.trans a2, b3.trans a3, b4.trans a4⟩

/-- The lists of an object that has been loaded once. -/
theorem loaded_once {r : Recording} {cs : List Call} {d : Data} (h : (Data.new r true).calls cs = ok d)
    (hk : ∀ c ∈ cs, c.Keeps) : d.loaded = true ∧ d.recording = r ∧
      d.N = ∑ e ∈ Finset.range r.epochs, flashes r e ∧
      ∀ e < r.epochs, d.start e = onsets r e ∧ d.label e = (onsets r e).map (labelOf r e) := by
  obtain ⟨k1, k2, k3, k4⟩ := calls_keep cs (new_facts r true).1 hk h
  obtain ⟨_, hr, _⟩ := calls_coherent cs (new_facts r true).1 h
  obtain ⟨f1, f2, f3⟩ := load_flashes (Data.new r false)
  have hn : Data.new r true = (Data.new r false).load := rfl
  rw [hn] at k1 k2 k3 k4
  refine ⟨k4.trans f3, hr, k3.trans f2, fun e he => ?_⟩
  obtain ⟨g1, g2⟩ := f1 e he
  rw [k1, k2]
  exact ⟨g1, g2⟩

theorem getOffsets_of {d : Data} {n i : ℕ} (hl : d.loaded = true) (hn : (d.label 0).length = n) (hpos : 0 < n)
    (he : i / n < d.recording.epochs) (hi : i % n < (d.start (i / n)).length) :
    d.getOffsets i = ok (i / n, (d.start (i / n)).getD (i % n) 0) := by
  unfold Data.getOffsets
  rw [hn, if_pos ⟨hl, Nat.lt_of_le_of_lt (Nat.zero_le _) he, hpos, he⟩, read_of_lt hi, ok_bind]
  rw [← List.getElem_eq_getD (h := hi) 0]

/-- **C90 (indices, part)**: if all epochs have the same positive number `n` of flashes, then after any sequence of calls without
another `load` exactly `epochs * n` indices are valid, index `e * n + k` is flash `k` of epoch `e`, and instance, target and
character belong together. -/
theorem index_partial {r : Recording} {cs : List Call} {d : Data} (h : (Data.new r true).calls cs = ok d)
    (hk : ∀ c ∈ cs, c.Keeps) {n : ℕ} (hpos : 0 < n) (hn : ∀ e < r.epochs, flashes r e = n) :
    d.N = r.epochs * n ∧ ∀ e < r.epochs, ∀ k < n,
      d.getOffsets (e * n + k) = ok (e, (onsets r e).getD k 0) ∧
      d.getTarget (e * n + k) = ok (labelOf r e ((onsets r e).getD k 0)) ∧
      d.getTargetChar (e * n + k) = ok (r.target e) := by
  obtain ⟨h1, h2, h3, h4⟩ := loaded_once h hk
  refine ⟨?_, fun e he k hkn => ?_⟩
  · rw [h3, Finset.sum_congr rfl fun e he => hn e (Finset.mem_range.1 he), Finset.sum_const, Finset.card_range, smul_eq_mul]
  · have hdiv : (e * n + k) / n = e := by
      rw [Nat.mul_comm, Nat.mul_add_div hpos, Nat.div_eq_of_lt hkn, Nat.add_zero]
    have hmod : (e * n + k) % n = k := by
      rw [Nat.mul_comm, Nat.mul_add_mod, Nat.mod_eq_of_lt hkn]
    have hlen : (d.label 0).length = n := by
      rw [(h4 0 (by omega)).2, List.length_map]
      exact hn 0 (by omega)
    have hlt : k < (onsets r e).length := by
      have := hn e he
      unfold flashes at this
      omega
    have hoff : d.getOffsets (e * n + k) = ok (e, (onsets r e).getD k 0) := by
      rw [getOffsets_of h1 hlen hpos (by rw [hdiv, h2]; exact he) (by rw [hdiv, hmod, (h4 e he).1]; exact hlt), hdiv, hmod,
        (h4 e he).1]
    refine ⟨hoff, ?_, ?_⟩
    · have hl : k < (d.label e).length := by
        rw [(h4 e he).2, List.length_map]
        exact hlt
      unfold Data.getTarget
      rw [hlen, hdiv, hmod, if_pos ⟨h1, by rw [h2]; omega, hpos, by rw [h2]; exact he⟩, read_of_lt hl]
      congr 1
      rw [← List.getElem_eq_getD (h := hlt) 0]
      simp only [(h4 e he).2, List.getElem_map]
    · unfold Data.getTargetChar
      rw [hoff, ok_bind, h2]

/-- **C90 (indices, main)**: for the same number of flashes in all epochs, index `e * n + k` gives the instance of flash `k` of
epoch `e` for the current settings, after any sequence of calls without another `load`. -/
theorem getInstance_index_partial {r : Recording} {cs : List Call} {d : Data} (h : (Data.new r true).calls cs = ok d)
    (hk : ∀ c ∈ cs, c.Keeps) (hf : (settings cs).Fits r) {n : ℕ} (hpos : 0 < n) (hn : ∀ e < r.epochs, flashes r e = n)
    (hend : ∀ e < r.epochs, ∀ t ∈ onsets r e, t + r.sampling ≤ r.maxT) {e k : ℕ} (he : e < r.epochs) (hkn : k < n) :
    ∃ d', d.getInstance (e * n + k) = ok d' ∧ d'.temp = (settings cs).instance r e ((onsets r e).getD k 0) := by
  have hlt : k < (onsets r e).length := by
    have := hn e he
    unfold flashes at this
    omega
  refine instance_history h hf ((index_partial h hk hpos hn).2 e he k hkn).1 (hend e he _ ?_)
  rw [← List.getElem_eq_getD (h := hlt) 0]
  exact List.getElem_mem hlt

/-- **C90 (indices, false)**: if the epochs have more flashes on average than the first one, an index below `samples()` is
outside of the lists. -/
theorem uneven_ub {r : Recording} {cs : List Call} {d : Data} (h : (Data.new r true).calls cs = ok d)
    (hk : ∀ c ∈ cs, c.Keeps) (hu : r.epochs * flashes r 0 < ∑ e ∈ Finset.range r.epochs, flashes r e) :
    ∃ i < d.N, d.getInstance i = ub ∧ d.getTarget i = ub := by
  obtain ⟨h1, h2, h3, h4⟩ := loaded_once h hk
  refine ⟨r.epochs * flashes r 0, by rw [h3]; exact hu, ?_⟩
  have hpos : 0 < r.epochs := Nat.pos_of_ne_zero fun e => by
    rw [e] at hu
    simp at hu
  have hlen : (d.label 0).length = flashes r 0 := by
    rw [(h4 0 hpos).2, List.length_map]
    rfl
  have hneg : ¬(d.loaded = true ∧ 0 < d.recording.epochs ∧ 0 < (d.label 0).length ∧
      r.epochs * flashes r 0 / (d.label 0).length < d.recording.epochs) := fun ⟨_, _, g1, g2⟩ => by
    rw [hlen] at g1 g2
    rw [Nat.mul_div_cancel _ g1, h2] at g2
    omega
  constructor
  · unfold Data.getInstance Data.getOffsets
    rw [if_neg hneg]
    rfl
  · unfold Data.getTarget
    rw [if_neg hneg]

/-- **C90 (indices, false)**: an epoch with fewer flashes than the first one has indices outside of its list. -/
theorem missing_flash_ub {r : Recording} {cs : List Call} {d : Data} (h : (Data.new r true).calls cs = ok d)
    (hk : ∀ c ∈ cs, c.Keeps) {e : ℕ} (he : e < r.epochs) (hu : flashes r e < flashes r 0) :
    d.getInstance (e * flashes r 0 + flashes r e) = ub ∧ d.getTarget (e * flashes r 0 + flashes r e) = ub := by
  obtain ⟨h1, h2, h3, h4⟩ := loaded_once h hk
  have hlen : (d.label 0).length = flashes r 0 := by
    rw [(h4 0 (by omega)).2, List.length_map]
    rfl
  have hdiv : (e * flashes r 0 + flashes r e) / flashes r 0 = e := by
    rw [Nat.mul_comm, Nat.mul_add_div (by omega), Nat.div_eq_of_lt hu, Nat.add_zero]
  have hmod : (e * flashes r 0 + flashes r e) % flashes r 0 = flashes r e := by
    rw [Nat.mul_comm, Nat.mul_add_mod, Nat.mod_eq_of_lt hu]
  have hE : d.recording.epochs = r.epochs := by rw [h2]
  constructor
  · unfold Data.getInstance Data.getOffsets
    rw [hlen, hdiv, hmod, if_pos ⟨h1, by rw [hE]; omega, by omega, by rw [hE]; exact he⟩, (h4 e he).1]
    unfold Outcome.read
    rw [List.getElem?_eq_none (by exact le_rfl)]
    rfl
  · unfold Data.getTarget
    rw [hlen, hdiv, hmod, if_pos ⟨h1, by rw [hE]; omega, by omega, by rw [hE]; exact he⟩, (h4 e he).2]
    unfold Outcome.read
    rw [List.getElem?_eq_none (by rw [List.length_map]; exact le_rfl)]

/-- **C90 (recording, false)**: the instance of a flash that begins less than `sampling` before the end is outside of the
signal. -/
theorem late_flash_ub {r : Recording} {l : Bool} {cs : List Call} {d : Data} (h : (Data.new r l).calls cs = ok d) {i e t0 : ℕ}
    (ho : d.getOffsets i = ok (e, t0)) (hc : 0 < r.channels) (hs : 0 < r.sampling) (ht : r.maxT < t0 + r.sampling) :
    d.getInstance i = ub := by
  obtain ⟨hco, hr, _⟩ := calls_coherent cs (new_facts r l).1 h
  rw [(new_facts r l).2.1] at hr
  have hcomp : d.computed e t0 = ub := by
    unfold Data.computed extractInstance
    rw [hr, if_neg fun g => by omega]
    rfl
  unfold Data.getInstance
  rw [ho, ok_bind]
  dsimp only
  unfold Data.buildInstance
  cases hl : d.cache.lookup (e, t0) with
  | some v =>
    have := hco (e, t0) v hl
    rw [hcomp] at this
    cases this
  | none =>
    dsimp only
    rw [hcomp]
    rfl

/-- **C90 (loading, false)**: a second `load` doubles the lists but not `samples()`: the index of the first flash of the second
epoch is now the first flash of the first epoch. -/
theorem reload_fails {r : Recording} {n : ℕ} (hpos : 0 < n) (hn : ∀ e < r.epochs, flashes r e = n) (he : 2 ≤ r.epochs) :
    (Data.new r true).getOffsets n = ok (1, (onsets r 1).getD 0 0) ∧
    (Data.new r true).load.getOffsets n = ok (0, (onsets r 0).getD 0 0) ∧
    (Data.new r true).load.N = (Data.new r true).N := by
  have h := index_partial (r := r) (cs := []) (d := Data.new r true) rfl (fun c hc => absurd hc (List.not_mem_nil)) hpos hn
  have hlen : ∀ e < r.epochs, (onsets r e).length = n := hn
  obtain ⟨g1, g2, g3⟩ := load_flashes (Data.new r true)
  obtain ⟨f1, f2, _⟩ := load_flashes (Data.new r false)
  have hs : ∀ e < r.epochs, (Data.new r true).load.start e = onsets r e ++ onsets r e ∧
      (Data.new r true).load.label e = (onsets r e).map (labelOf r e) ++ (onsets r e).map (labelOf r e) := fun e he => by
    obtain ⟨a1, a2⟩ := g1 e he
    obtain ⟨b1, b2⟩ := f1 e he
    have b1 : (Data.new r true).start e = onsets r e := b1
    have b2 : (Data.new r true).label e = (onsets r e).map (labelOf r e) := b2
    rw [a1, a2, b1, b2]
    exact ⟨rfl, rfl⟩
  refine ⟨?_, ?_, g2.trans f2.symm⟩
  · have := (h.2 1 he 0 hpos).1
    rw [Nat.one_mul, Nat.add_zero] at this
    exact this
  · have h0 : 0 < r.epochs := by omega
    have hll : ((Data.new r true).load.label 0).length = n + n := by
      rw [(hs 0 h0).2, List.length_append, List.length_map, hlen 0 h0]
    have hd : n / (n + n) = 0 := Nat.div_eq_of_lt (by omega)
    have hm : n % (n + n) = n := Nat.mod_eq_of_lt (by omega)
    rw [getOffsets_of g3 hll (by omega) (by rw [hd]; exact h0)
      (by rw [hd, hm, (hs 0 h0).1, List.length_append, hlen 0 h0]; omega), hd, hm, (hs 0 h0).1,
      List.getD_eq_getElem?_getD, List.getElem?_append_right (by rw [hlen 0 h0]), hlen 0 h0, Nat.sub_self,
      List.getD_eq_getElem?_getD]

/-- **C90 (loading, false)**: without `load` every instance is undefined. -/
theorem unloaded_ub {r : Recording} {cs : List Call} {d : Data} (h : (Data.new r false).calls cs = ok d)
    (hk : ∀ c ∈ cs, c.Keeps) (i : ℕ) : d.getInstance i = ub := by
  obtain ⟨_, _, _, k4⟩ := calls_keep cs (new_facts r false).1 hk h
  have : ¬d.loaded = true := by
    rw [k4]
    exact Bool.false_ne_true
  unfold Data.getInstance Data.getOffsets
  rw [if_neg fun g => this g.1]
  rfl

/-! ## Sizes -/

theorem instance_length (s : Settings) (r : Recording) (e t0 : ℕ) : (s.instance r e t0).length =
    match s.comp with
    | none => r.channels * s.width r
    | some cm => cm.rows := by
  unfold Settings.instance
  cases s.comp with
  | none =>
    dsimp only
    unfold Settings.raw
    rw [List.length_map, List.length_range]
  | some cm =>
    dsimp only
    rw [List.length_map, List.length_range]

/-- Spec: `decimate` is not called while a compressor is in use. -/
def Ordered : Settings → List Call → Prop
  | _, [] => True
  | s, c :: cs => (∀ f, c = .decimate f → s.comp = none) ∧ Ordered (s.after c) cs

/-- `inputs()` is the size of the instances for the settings. -/
def Data.Sized (d : Data) : Prop := ∀ e t0, d.D = (d.settings.instance d.recording e t0).length

theorem call_sized {d d' : Data} {c : Call} (hc : d.Coherent) (hs : d.Sized) (ho : ∀ f, c = .decimate f → d.settings.comp = none)
    (h : d.call c = ok d') : d'.Sized := by
  have touched : ∀ {d' : Data}, Touched d d' → d'.Sized := fun h => by
    rw [h]
    exact hs
  cases c with
  | load =>
    injection h with h
    subst h
    exact hs
  | decimate factor =>
    have hcomp := ho factor rfl
    have h : d.decimate factor = ok d' := h
    unfold Data.decimate at h
    split at h
    · cases h
    · injection h with h
      subst h
      intro e t0
      rw [instance_length]
      have : (Data.settings (Data.clear { d with factor := factor, D := d.recording.sampling / factor * d.recording.channels, decimated := true })) =
        ⟨some factor, none⟩ := congrArg (Settings.mk (some factor)) hcomp
      rw [this]
      exact Nat.mul_comm _ _
  | compress cm =>
    injection h with h
    subst h
    intro e t0
    rw [instance_length]
    rfl
  | reset =>
    injection h with h
    subst h
    intro e t0
    rw [instance_length]
    exact Nat.mul_comm _ _
  | getInstance i =>
    have h : d.getInstance i = ok d' := h
    obtain ⟨o, _, h2⟩ := bind_eq_ok.1 h
    exact touched (build_ok hc h2).1
  | evaluate f trials =>
    obtain ⟨p, h1, h2⟩ := bind_eq_ok.1 (show (d.evaluate f trials >>= fun p => ok p.1) = ok d' from h)
    injection h2 with h2
    subst h2
    exact touched (evaluate_touched hc h1).1

theorem calls_sized : ∀ (cs : List Call) {d d' : Data}, d.Coherent → d.Sized → Ordered d.settings cs → d.calls cs = ok d' → d'.Sized
  | [], d, d', _, hs, _, h => by
    injection h with h
    subst h
    exact hs
  | c :: cs, d, d', hc, hs, ho, h => by
    obtain ⟨d1, h1, h2⟩ := bind_eq_ok.1 h
    obtain ⟨k1, _, k3⟩ := call_coherent hc h1
    exact calls_sized cs k1 (call_sized hc hs ho.1 h1) (by rw [k3]; exact ho.2) h2

/-- **C90 (size, part)**: if `decimate` is called before `compress`, `inputs()` is the size of the instances. -/
theorem inputs_partial {r : Recording} {l : Bool} {cs : List Call} {d : Data} (h : (Data.new r l).calls cs = ok d)
    (ho : Ordered ⟨none, none⟩ cs) (e t0 : ℕ) : d.D = ((settings cs).instance r e t0).length := by
  obtain ⟨n1, n2, n3⟩ := new_facts r l
  obtain ⟨_, hr, hs⟩ := calls_coherent cs n1 h
  have hnew : (Data.new r l).Sized := fun e t0 => by
    rw [instance_length, n3, n2]
    cases l <;> exact Nat.mul_comm _ _
  have := calls_sized cs n1 hnew (by rw [n3]; exact ho) h e t0
  rw [hs, n3, hr, n2] at this
  exact this

/-- **C90 (size, false)**: after `compress` and then `decimate`, `inputs()` is the size before compression although the instances
are compressed. -/
theorem inputs_fails {r : Recording} {l : Bool} {cm : Mat} {f : ℕ} (hf : 0 < f) (hne : cm.rows ≠ r.sampling / f * r.channels) :
    ∃ d, (Data.new r l).calls [.compress cm, .decimate f] = ok d ∧
      ∀ e t0, d.D ≠ ((settings [.compress cm, .decimate f]).instance r e t0).length := by
  have hr := (new_facts r l).2.1
  refine ⟨Data.clear { (Data.new r l).compress cm with factor := f, D := (Data.new r l).recording.sampling / f * (Data.new r l).recording.channels, decimated := true }, ?_, fun e t0 => ?_⟩
  · show ((Data.new r l).compress cm).decimate f >>= _ = _
    unfold Data.decimate
    rw [if_neg (by omega)]
    rfl
  · rw [instance_length]
    show (Data.new r l).recording.sampling / f * (Data.new r l).recording.channels ≠ cm.rows
    rw [hr]
    exact hne.symm

end

end Verif.BCI
