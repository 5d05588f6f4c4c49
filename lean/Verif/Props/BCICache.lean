import Verif.Props.BCIDataSet

/-!
# C132: the cache of the P300 data set keeps its memory limit
-/

namespace Verif.BCI

open Outcome

noncomputable section

/-! ## Specification -/

/-- Bytes of the numbers in the cache. -/
def Data.bytes (d : Data) : ℕ := (d.cache.map fun p => 8 * p.2.length).sum

/-- 1000 megabytes. -/
def limit : ℕ := 1000 * 1024 * 1024

/-- Spec: a history of calls in which no instance is read between a `reset` that changes the settings (`stale`) and the next call of `load`,
`decimate` or `compress`. -/
def Careful : Prop → Settings → List Call → Prop
  | _, _, [] => True
  | stale, s, .reset :: cs => Careful (stale ∨ s ≠ ⟨none, none⟩) (s.after .reset) cs
  | stale, s, .getInstance i :: cs => ¬ stale ∧ Careful stale (s.after (.getInstance i)) cs
  | stale, s, .evaluate f trials :: cs => ¬ stale ∧ Careful stale (s.after (.evaluate f trials)) cs
  | _, s, .load :: cs => Careful False (s.after .load) cs
  | _, s, .decimate factor :: cs => Careful False (s.after (.decimate factor)) cs
  | _, s, .compress cm :: cs => Careful False (s.after (.compress cm)) cs

/-! ## Sizes of computed instances -/

theorem loop_keeps {σ : Type} {body : ℕ → σ → Outcome σ} (P : σ → Prop) (hb : ∀ i s s', P s → body i s = ok s' → P s') :
    ∀ (n : ℕ) {s s' : σ}, P s → forLoop n body s = ok s' → P s'
  | 0, s, s', h, e => by rw [← Outcome.ok.inj e]; exact h
  | n + 1, s, s', h, e => by
    rw [forLoop] at e
    obtain ⟨s1, e1, e2⟩ := bind_eq_ok.1 e
    exact hb n s1 s' (loop_keeps P hb n h e1) e2

theorem decimateSignal_shape {m y : Mat} {f : ℕ} (h : decimateSignal f m = ok y) : y.rows = m.rows ∧ y.cols = m.cols / f := by
  unfold decimateSignal at h
  obtain ⟨y1, _, h2⟩ := bind_eq_ok.1 h
  unfold Pre.downsample at h2
  have hset : ∀ {d d' : Mat} {c t : ℕ} {v : ℝ}, d.set c t v = ok d' → d'.rows = d.rows ∧ d'.cols = d.cols := by
    intro d d' c t v h
    unfold Mat.set at h
    split at h
    · rw [← Outcome.ok.inj h]; exact ⟨rfl, rfl⟩
    · cases h
  refine loop_keeps (fun d : Mat => d.rows = m.rows ∧ d.cols = m.cols / f) (fun c d d' hd hb => ?_) _
    (s := ⟨m.rows, m.cols / f, fun _ _ => 0⟩) ⟨rfl, rfl⟩ h2
  obtain ⟨r, h3, h4⟩ := bind_eq_ok.1 hb
  rw [← Outcome.ok.inj h4]
  refine loop_keeps (fun s : Mat × ℤ => s.1.rows = m.rows ∧ s.1.cols = m.cols / f) (fun t s s' hs hb => ?_) _ hd h3
  obtain ⟨v, _, h5⟩ := bind_eq_ok.1 hb
  obtain ⟨d2, h6, h7⟩ := bind_eq_ok.1 h5
  rw [← Outcome.ok.inj h7]
  obtain ⟨a, b⟩ := hset h6
  exact ⟨a.trans hs.1, b.trans hs.2⟩

theorem computed_length {d : Data} {e t0 : ℕ} {v : List ℝ} (h : d.computed e t0 = ok v) :
    v.length = (d.settings.instance d.recording e t0).length := by
  unfold Data.computed at h
  obtain ⟨o, h1, h2⟩ := bind_eq_ok.1 h
  obtain ⟨m, h3, h4⟩ := bind_eq_ok.1 h2
  have ho : o.rows = d.recording.channels ∧ o.cols = d.recording.sampling := by
    unfold extractInstance at h1
    split at h1
    · rw [← Outcome.ok.inj h1]; exact ⟨rfl, rfl⟩
    · cases h1
  have hm : m.rows * m.cols = d.recording.channels * d.settings.width d.recording := by
    unfold Settings.width Data.settings
    by_cases hd : d.decimated = true
    · rw [if_pos hd] at h3
      obtain ⟨a, b⟩ := decimateSignal_shape h3
      rw [if_pos hd, a, b, ho.1, ho.2]
    · rw [if_neg hd] at h3
      rw [if_neg hd, ← Outcome.ok.inj h3, ho.1, ho.2]
  have hv : (toVector m).length = m.rows * m.cols := by simp [toVector]
  rw [instance_length]
  show v.length = match d.comp with
    | none => _
    | some cm => cm.rows
  cases hc : d.comp with
  | none =>
    rw [hc] at h4
    rw [← Outcome.ok.inj h4, hv, hm]
  | some cm =>
    rw [hc] at h4
    simp only [transform] at h4
    split at h4
    · rw [← Outcome.ok.inj h4]; simp
    · cases h4

/-! ## Reading -/

/-- `d'` is `d` after some instances have been read. -/
inductive Reads : Data → Data → Prop
  | refl (d : Data) : Reads d d
  | step {d d' d'' : Data} {e t0 : ℕ} : Reads d d' → d'.buildInstance e t0 = ok d'' → Reads d d''

theorem Reads.trans {a b c : Data} (h : Reads a b) (g : Reads b c) : Reads a c := by
  induction g with
  | refl => exact h
  | step _ h2 ih => exact ih.step h2

theorem run_reads {f : List ℝ → ℝ} {trials e : ℕ} : ∀ (ts : List ℕ) {s s' : Scores}, Scores.run f trials e ts s = ok s' →
    Reads s.data s'.data
  | [], s, s', h => by rw [← Outcome.ok.inj h]; exact .refl _
  | t0 :: ts, s, s', h => by
    obtain ⟨s1, h1, h2⟩ := bind_eq_ok.1 h
    unfold Scores.step at h1
    obtain ⟨d, hd, h3⟩ := bind_eq_ok.1 h1
    have hs1 : s1.data = d := by
      dsimp only at h3
      split at h3
      · split at h3
        · rw [← Outcome.ok.inj h3]
        · rw [← Outcome.ok.inj h3]
      · cases h3
    have := run_reads ts h2
    rw [hs1] at this
    exact ((Reads.refl _).step hd).trans this

theorem evaluate_reads {d : Data} {f : List ℝ → ℝ} {trials : ℕ} {p : Data × ℕ} (h : d.evaluate f trials = ok p) : Reads d p.1 := by
  unfold Data.evaluate at h
  split at h
  · refine loop_keeps (fun p : Data × ℕ => Reads d p.1) (fun e p p' hp hb => ?_) _ (.refl d) h
    obtain ⟨q, h1, h2⟩ := bind_eq_ok.1 hb
    rw [← Outcome.ok.inj h2]
    unfold Data.evaluateEpoch at h1
    obtain ⟨s, hs, h3⟩ := bind_eq_ok.1 h1
    have : q.1 = s.data := by
      split at h3
      · obtain ⟨l, _, h4⟩ := bind_eq_ok.1 h3
        obtain ⟨c, _, h5⟩ := bind_eq_ok.1 h4
        rw [← Outcome.ok.inj h5]
      · cases h3
    dsimp only
    rw [this]
    exact hp.trans (run_reads _ hs)
  · cases h

/-- What the cache satisfies. -/
structure Data.Held (d : Data) : Prop where
  size : d.cacheSize = limit
  width : ∀ p ∈ d.cache, p.2.length ≤ d.cacheD
  count : d.cache.length * d.cacheD * 8 ≤ limit
  keys : (d.cache.map Prod.fst).Nodup

theorem held_empty {d : Data} (hs : d.cacheSize = limit) (h : d.cache = []) : d.Held :=
  ⟨hs, by rw [h]; simp, by rw [h]; simp, by rw [h]; simp⟩

theorem Data.Held.bytes_le {d : Data} (h : d.Held) : d.bytes ≤ limit := by
  refine le_trans ?_ h.count
  have : ∀ l : List ((ℕ × ℕ) × List ℝ), (∀ p ∈ l, p.2.length ≤ d.cacheD) → (l.map fun p => 8 * p.2.length).sum ≤ l.length * d.cacheD * 8 := by
    intro l
    induction l with
    | nil => intro _; simp
    | cons p l ih =>
      intro hl
      have h1 := ih fun q hq => hl q (List.mem_cons_of_mem _ hq)
      have h2 := hl p List.mem_cons_self
      rw [List.map_cons, List.sum_cons, List.length_cons, Nat.add_mul, Nat.add_mul]
      omega
  exact this _ h.width

theorem lookup_none {β : Type} {l : List ((ℕ × ℕ) × β)} {k : ℕ × ℕ} (h : l.lookup k = none) : k ∉ l.map Prod.fst := by
  induction l with
  | nil => simp
  | cons p l ih =>
    obtain ⟨a, b⟩ := p
    rw [List.lookup_cons] at h
    by_cases hk : k = a
    · subst hk
      rw [beq_self_eq_true] at h
      cases h
    · rw [beq_eq_false_iff_ne.2 hk] at h
      rw [List.map_cons, List.mem_cons]
      exact fun hh => hh.elim hk (ih h)

theorem build_held {d d' : Data} {e t0 : ℕ} (hw : ∀ v, d.computed e t0 = ok v → v.length ≤ d.cacheD) (hd : d.Held)
    (h : d.buildInstance e t0 = ok d') : d'.Held := by
  unfold Data.buildInstance at h
  cases hl : d.cache.lookup (e, t0) with
  | some v =>
    rw [hl] at h
    rw [← Outcome.ok.inj h]
    exact ⟨hd.size, hd.width, hd.count, hd.keys⟩
  | none =>
    rw [hl] at h
    obtain ⟨v, hv, h'⟩ := bind_eq_ok.1 h
    rw [← Outcome.ok.inj h']
    by_cases hs : d.hasSpace = true
    · simp only [if_pos hs]
      refine ⟨hd.size, fun p hp => ?_, ?_, ?_⟩
      · rcases List.mem_cons.1 hp with rfl | hp
        · exact hw v hv
        · exact hd.width p hp
      · have := of_decide_eq_true hs
        rw [hd.size] at this
        simpa using this
      · rw [List.map_cons]
        exact List.nodup_cons.2 ⟨lookup_none hl, hd.keys⟩
    · simp only [if_neg hs]
      exact ⟨hd.size, hd.width, hd.count, hd.keys⟩

theorem reads_held {d d' : Data} (hr : Reads d d') (hc : d.Coherent) (hw : ∀ e t0 v, d.computed e t0 = ok v → v.length ≤ d.cacheD)
    (hd : d.Held) : d'.Held ∧ d'.Coherent ∧ Touched d d' := by
  induction hr with
  | refl => exact ⟨hd, hc, rfl⟩
  | step _ h2 ih =>
    obtain ⟨k1, k2, k3⟩ := ih
    obtain ⟨g1, g2, _⟩ := build_ok k2 h2
    refine ⟨build_held (fun v hv => ?_) k1 h2, g2, k3.trans g1⟩
    rw [k3.computed] at hv
    have := hw _ _ v hv
    rw [k3]
    exact this

/-! ## Histories -/

/-- The invariant of careful histories. -/
structure Data.Kept (stale : Prop) (d : Data) : Prop where
  coherent : d.Coherent
  sized : d.Sized
  held : d.Held
  dim : ¬ stale → d.loaded = true → d.cacheD = d.D

theorem Data.Kept.width {stale : Prop} {d : Data} (h : d.Kept stale) (hs : ¬ stale) (hl : d.loaded = true) (e t0 : ℕ) (v : List ℝ)
    (hv : d.computed e t0 = ok v) : v.length ≤ d.cacheD := by
  rw [h.dim hs hl, h.sized e t0, computed_length hv]

theorem Data.Kept.reads {stale : Prop} {d d' : Data} (h : d.Kept stale) (hs : ¬ stale) (hl : d.loaded = true) (hr : Reads d d') :
    d'.Kept stale := by
  obtain ⟨h1, h2, h3⟩ := reads_held hr h.coherent (h.width hs hl) h.held
  refine ⟨h2, ?_, h1, ?_⟩
  · rw [h3]; exact h.sized
  · rw [h3]; exact h.dim

theorem calls_kept : ∀ (cs : List Call) {stale : Prop} {d d' : Data}, d.Kept stale → Ordered d.settings cs → Careful stale d.settings cs →
    d.calls cs = ok d' → d'.Held
  | [], _, d, d', hd, _, _, h => by rw [← Outcome.ok.inj h]; exact hd.held
  | c :: cs, stale, d, d', hd, ho, hk, h => by
    obtain ⟨d1, h1, h2⟩ := bind_eq_ok.1 h
    obtain ⟨k1, _, k3⟩ := call_coherent hd.coherent h1
    have hz := call_sized hd.coherent hd.sized ho.1 h1
    have ho' : Ordered d1.settings cs := by rw [k3]; exact ho.2
    cases c with
    | load =>
      refine calls_kept cs (stale := False) ⟨k1, hz, ?_, ?_⟩ ho' (by rw [k3]; exact hk) h2
      · rw [← Outcome.ok.inj h1]; exact held_empty hd.held.size rfl
      · rw [← Outcome.ok.inj h1]; exact fun _ _ => rfl
    | compress cm =>
      refine calls_kept cs (stale := False) ⟨k1, hz, ?_, ?_⟩ ho' (by rw [k3]; exact hk) h2
      · rw [← Outcome.ok.inj h1]; exact held_empty hd.held.size rfl
      · rw [← Outcome.ok.inj h1]; exact fun _ _ => rfl
    | decimate factor =>
      have h1' : d.decimate factor = ok d1 := h1
      unfold Data.decimate at h1'
      split at h1'
      · cases h1'
      · refine calls_kept cs (stale := False) ⟨k1, hz, ?_, ?_⟩ ho' (by rw [k3]; exact hk) h2
        · rw [← Outcome.ok.inj h1']; exact held_empty hd.held.size rfl
        · rw [← Outcome.ok.inj h1']; exact fun _ _ => rfl
    | reset =>
      refine calls_kept cs (stale := stale ∨ d.settings ≠ ⟨none, none⟩) ⟨k1, hz, ?_, ?_⟩ ho' (by rw [k3]; exact hk) h2
      · rw [← Outcome.ok.inj h1]; exact held_empty hd.held.size rfl
      · intro hn hl
        obtain ⟨n1, n2⟩ := not_or.1 hn
        have hset := not_not.1 n2
        rw [← Outcome.ok.inj h1] at hl ⊢
        have e1 := hd.dim n1 hl
        have e2 := hd.sized 0 0
        rw [instance_length, hset] at e2
        show d.cacheD = d.recording.sampling * d.recording.channels
        rw [e1, e2, Nat.mul_comm]
        rfl
    | getInstance i =>
      have hg : d.getInstance i = ok d1 := h1
      obtain ⟨o, h3, h4⟩ := bind_eq_ok.1 hg
      have hl : d.loaded = true := by
        unfold Data.getOffsets at h3
        split at h3
        · rename_i h5; exact h5.1
        · cases h3
      exact calls_kept cs (hd.reads hk.1 hl ((Reads.refl d).step h4)) ho' (by rw [k3]; exact hk.2) h2
    | evaluate f trials =>
      obtain ⟨p, h3, h4⟩ := bind_eq_ok.1 (show (d.evaluate f trials >>= fun p => ok p.1) = ok d1 from h1)
      have hl : d.loaded = true := by
        unfold Data.evaluate at h3
        split at h3
        · assumption
        · cases h3
      have hr := evaluate_reads h3
      rw [Outcome.ok.inj h4] at hr
      exact calls_kept cs (hd.reads hk.1 hl hr) ho' (by rw [k3]; exact hk.2) h2

theorem new_kept (r : Recording) (l : Bool) : (Data.new r l).Kept False := by
  refine ⟨(new_facts r l).1, fun e t0 => ?_, ?_, ?_⟩
  · rw [instance_length, (new_facts r l).2.2, (new_facts r l).2.1]
    cases l <;> exact Nat.mul_comm _ _
  · cases l <;> exact held_empty rfl rfl
  · cases l
    · exact fun _ h => by cases h
    · exact fun _ _ => rfl

/-- **C132**: if `decimate` is not called after `compress` and nothing is read after `reset` before the next `load`, `decimate` or `compress`, the
instances in the cache never need more than 1000 megabytes, and no instance is stored twice. -/
theorem cache_limit {r : Recording} {l : Bool} {cs : List Call} {d : Data} (h : (Data.new r l).calls cs = ok d)
    (ho : Ordered ⟨none, none⟩ cs) (hk : Careful False ⟨none, none⟩ cs) : d.bytes ≤ limit ∧ (d.cache.map Prod.fst).Nodup := by
  have n3 := (new_facts r l).2.2
  have := calls_kept cs (new_kept r l) (by rw [n3]; exact ho) (by rw [n3]; exact hk) h
  exact ⟨this.bytes_le, this.keys⟩

/-- **C132**: an instance that has been read is in the cache if there was space for one more instance; everything that was in the cache stays
there. -/
theorem cache_used {d d' : Data} {e t0 : ℕ} (h : d.buildInstance e t0 = ok d') :
    ((d.cache.length + 1) * d.cacheD * 8 ≤ d.cacheSize → d'.cache.lookup (e, t0) = some d'.temp) ∧
    ∀ k v, d.cache.lookup k = some v → d'.cache.lookup k = some v := by
  unfold Data.buildInstance at h
  cases hl : d.cache.lookup (e, t0) with
  | some v =>
    rw [hl] at h
    rw [← Outcome.ok.inj h]
    exact ⟨fun _ => hl, fun _ _ hv => hv⟩
  | none =>
    rw [hl] at h
    obtain ⟨v, hv, h'⟩ := bind_eq_ok.1 h
    rw [← Outcome.ok.inj h']
    refine ⟨fun hs => ?_, fun k w hw => ?_⟩
    · simp only [Data.hasSpace, decide_eq_true hs, if_true, List.lookup_cons, beq_self_eq_true]
    · dsimp only
      split
      · rw [List.lookup_cons]
        have hne : k ≠ (e, t0) := fun hh => by subst hh; rw [hl] at hw; cases hw
        rw [beq_eq_false_iff_ne.2 hne]
        exact hw
      · exact hw

theorem calls_append : ∀ (cs cs' : List Call) (d : Data), d.calls (cs ++ cs') = d.calls cs >>= fun d' => d'.calls cs'
  | [], _, _ => rfl
  | c :: cs, cs', d => by
    show (d.call c >>= fun d' => d'.calls (cs ++ cs')) = (d.call c >>= fun d' => d'.calls cs) >>= _
    cases d.call c with
    | ok d1 => exact calls_append cs cs' d1
    | throws => rfl
    | checkFailed => rfl
    | ub => rfl

/-- Epoch and beginning of instance `i` if all epochs have `n` flashes. -/
def offset (r : Recording) (n i : ℕ) : ℕ × ℕ := (i / n, (onsets r (i / n)).getD (i % n) 0)

theorem offset_inj {r : Recording} {n : ℕ} (hpos : 0 < n) (hn : ∀ e < r.epochs, flashes r e = n) {i j : ℕ} (hi : i < r.epochs * n)
    (h : offset r n i = offset r n j) : i = j := by
  have h1 : i / n = j / n := congrArg Prod.fst h
  have h2 : (onsets r (i / n)).getD (i % n) 0 = (onsets r (j / n)).getD (j % n) 0 := congrArg Prod.snd h
  have he := (Nat.div_lt_iff_lt_mul hpos).2 hi
  have hl : (onsets r (i / n)).length = n := hn _ he
  have hni : i % n < (onsets r (i / n)).length := by rw [hl]; exact Nat.mod_lt _ hpos
  have hnj : j % n < (onsets r (i / n)).length := by rw [hl]; exact Nat.mod_lt _ hpos
  rw [← h1, ← List.getElem_eq_getD (h := hni) 0, ← List.getElem_eq_getD (h := hnj) 0] at h2
  have hnd : (onsets r (i / n)).Nodup := List.nodup_range.filter _
  have h3 := (hnd.getElem_inj_iff).1 h2
  rw [← Nat.div_add_mod' i n, ← Nat.div_add_mod' j n, h1, h3]

theorem lookup_some {β : Type} {l : List ((ℕ × ℕ) × β)} {k : ℕ × ℕ} {v : β} (h : l.lookup k = some v) : k ∈ l.map Prod.fst := by
  by_contra hh
  induction l with
  | nil => cases h
  | cons p l ih =>
    obtain ⟨a, b⟩ := p
    rw [List.map_cons, List.mem_cons, not_or] at hh
    rw [List.lookup_cons, beq_eq_false_iff_ne.2 hh.1] at h
    exact ih h hh.2

/-- **C132, false**: after `compress` and `reset` the cache still calculates with the size of the compressed instances: all instances of a
recording are stored if the compressed ones would fit, whatever their size is. -/
theorem reset_fails {r : Recording} {n : ℕ} (hpos : 0 < n) (hn : ∀ e < r.epochs, flashes r e = n)
    (hend : ∀ e < r.epochs, ∀ t ∈ onsets r e, t + r.sampling ≤ r.maxT) {cm : Mat} (hfit : r.epochs * n * cm.rows * 8 ≤ limit) :
    ∃ d, (Data.new r true).calls ([.compress cm, .reset] ++ (List.range (r.epochs * n)).map .getInstance) = ok d ∧
      d.bytes = r.epochs * n * (r.sampling * r.channels * 8) := by
  have hkeep : ∀ m, ∀ c ∈ [.compress cm, .reset] ++ (List.range m).map Call.getInstance, c.Keeps := by
    intro m c hc
    rcases List.mem_append.1 hc with h | h
    · rcases List.mem_cons.1 h with rfl | h
      · trivial
      · rw [List.mem_singleton.1 h]; trivial
    · obtain ⟨i, _, rfl⟩ := List.mem_map.1 h
      trivial
  have key : ∀ m ≤ r.epochs * n, ∃ d, (Data.new r true).calls ([.compress cm, .reset] ++ (List.range m).map .getInstance) = ok d ∧
      d.cache.length = m ∧ d.cacheD = cm.rows ∧ d.cacheSize = limit ∧ d.settings = ⟨none, none⟩ ∧
      (∀ p ∈ d.cache, p.2.length = r.sampling * r.channels) ∧ ∀ k ∈ d.cache.map Prod.fst, ∃ i < m, k = offset r n i := by
    intro m
    induction m with
    | zero =>
      refine fun _ => ⟨((Data.new r true).compress cm).reset, rfl, rfl, rfl, rfl, rfl, fun p hp => ?_, fun k hk => ?_⟩
      · cases hp
      · cases hk
    | succ m ih =>
      intro hm
      obtain ⟨d, h1, h2, h3, h4, h5, h6, h7⟩ := ih (by omega)
      have hrec : d.recording = r := (loaded_once h1 (hkeep m)).2.1
      have he : m / n < r.epochs := (Nat.div_lt_iff_lt_mul hpos).2 (by omega)
      have hmod : m % n < n := Nat.mod_lt _ hpos
      have hoff : d.getOffsets m = ok (offset r n m) := by
        have := ((index_partial h1 (hkeep m) hpos hn).2 (m / n) he (m % n) hmod).1
        rwa [Nat.div_add_mod'] at this
      have hlt : m % n < (onsets r (m / n)).length := by
        have := hn (m / n) he
        unfold flashes at this
        omega
      have hmem : (offset r n m).2 ∈ onsets r (offset r n m).1 := by
        show (onsets r (m / n)).getD (m % n) 0 ∈ onsets r (m / n)
        rw [← List.getElem_eq_getD (h := hlt) 0]
        exact List.getElem_mem hlt
      have hcomp := computed_value (d := d) (e := (offset r n m).1) (t0 := (offset r n m).2)
        (by rw [h5]; exact ⟨fun f h => (nomatch h), fun c h => (nomatch h)⟩) (by rw [hrec]; exact he)
        (by rw [hrec]; exact hend _ he _ hmem)
      have hlook : d.cache.lookup ((offset r n m).1, (offset r n m).2) = none := by
        cases hl : d.cache.lookup (offset r n m) with
        | none => rfl
        | some v =>
          exfalso
          obtain ⟨i, hi, hk⟩ := h7 _ (lookup_some hl)
          have := offset_inj hpos hn (by omega) hk
          omega
      have hspace : d.hasSpace = true := by
        refine decide_eq_true ?_
        rw [h2, h3, h4]
        refine le_trans ?_ hfit
        gcongr
      have hcall : d.call (.getInstance m) = ok { d with temp := d.settings.instance d.recording (offset r n m).1 (offset r n m).2, cache :=
          (offset r n m, d.settings.instance d.recording (offset r n m).1 (offset r n m).2) :: d.cache } := by
        show d.getInstance m = _
        unfold Data.getInstance
        rw [hoff, ok_bind]
        unfold Data.buildInstance
        rw [hlook]
        dsimp only
        rw [hcomp, ok_bind, if_pos hspace]
      refine ⟨{ d with temp := d.settings.instance d.recording (offset r n m).1 (offset r n m).2, cache :=
          (offset r n m, d.settings.instance d.recording (offset r n m).1 (offset r n m).2) :: d.cache },
        ?_, ?_, h3, h4, h5, fun p hp => ?_, fun k hk => ?_⟩
      rotate_left
      · simp [h2]
      · rcases List.mem_cons.1 hp with rfl | hp
        · dsimp only
          rw [instance_length, h5, hrec, Nat.mul_comm]
          rfl
        · exact h6 p hp
      · rcases List.mem_cons.1 hk with rfl | hk
        · exact ⟨m, by omega, rfl⟩
        · obtain ⟨i, hi, e⟩ := h7 k hk
          exact ⟨i, by omega, e⟩
      · rw [List.range_succ, List.map_append, ← List.append_assoc, calls_append, h1, ok_bind]
        show (d.call (.getInstance m) >>= fun d' => d'.calls []) = _
        rw [hcall]
        rfl
  obtain ⟨d, h1, h2, _, _, _, h6, _⟩ := key _ (le_refl _)
  refine ⟨d, h1, ?_⟩
  unfold Data.bytes
  rw [List.map_congr_left (g := fun _ => r.sampling * r.channels * 8) fun p hp => by rw [h6 p hp, Nat.mul_comm], List.map_const', List.sum_replicate, h2,
    smul_eq_mul]

/-- One flash at time 0; as many channels as the limit allows numbers, and one more. -/
def wide : Recording := ⟨1, 131072001, 1, 1, fun _ _ => 1, fun _ _ => 1, fun _ _ => 1, fun _ => 'A', fun _ _ _ => 0⟩

theorem wide_onsets (e : ℕ) : onsets wide e = [0] := by
  have : decide (Onset wide e 0) = true := decide_eq_true ⟨one_pos, Or.inl rfl⟩
  show (List.range 1).filter _ = _
  rw [List.range_one, List.filter_cons, if_pos this]
  rfl

/-- The only instance of this recording is stored, although it alone needs more than the limit. -/
example : ∃ d, (Data.new wide true).calls [.compress ⟨4, 131072001, fun _ _ => 1⟩, .reset, .getInstance 0] = ok d ∧ limit < d.bytes := by
  obtain ⟨d, h1, h2⟩ := reset_fails (r := wide) (n := 1) (cm := ⟨4, 131072001, fun _ _ => 1⟩) (by omega)
    (fun e _ => by rw [flashes, wide_onsets]; rfl) (fun e _ t ht => by
      rw [wide_onsets, List.mem_singleton] at ht
      rw [ht]
      exact le_refl _) (by show 1 * 1 * 4 * 8 ≤ _; unfold limit; omega)
  refine ⟨d, h1, ?_⟩
  rw [h2]
  show limit < 1 * 1 * (1 * 131072001 * 8)
  unfold limit
  omega

/-- A careful history: decimate before compress, reset, decimate again. -/
example (cm : Mat) (f : List ℝ → ℝ) {r : Recording} {d : Data}
    (h : (Data.new r true).calls [.getInstance 3, .reset, .getInstance 3, .decimate 4, .compress cm, .evaluate f 5, .reset, .decimate 2, .getInstance 7] = ok d) :
    d.bytes ≤ limit :=
  (cache_limit h ⟨by simp, by simp, by simp, fun _ _ => rfl, by simp, by simp, by simp, fun _ _ => rfl, by simp, trivial⟩
    ⟨id, fun h => h.elim id (fun h => h rfl), id, id, trivial⟩).1

end

end Verif.BCI
