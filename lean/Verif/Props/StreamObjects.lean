import Verif.Model.StreamObjects
import Mathlib.Tactic.Ring

/-!
# C139: a data stream can be passed on before its first sample, and must not be copied afterwards

`streams_are_values` is a refinement: the memory of a program (`Heap`) behaves like streams that are values (`Spec`, `Next`), as long as streams are
copied before their first samples.  `late_copy_ub`, `late_copy_loses` and `outlived_ub` show for all earlier histories what happens otherwise.
-/

namespace Verif.StreamObjects

open Outcome

variable {V : Type}

/-! ## Specification: streams as values -/

/-- Spec: row `i` of a cache with `c` rows is the latest of the samples number `i`, `i + c`, `i + 2 * c`, ... -/
def shown (c : ℕ) (g : List V) : List (Option V) :=
  (List.range c).map fun i => if i < g.length then g[i + c * ((g.length - 1 - i) / c)]? else none

/-- Spec: a stream is its cache size, learner and optimiser, and the samples that it was given. -/
structure Value (V : Type) where
  size : ℕ
  learner : Option ℕ
  opt : Option ℕ
  given : List V

structure Spec (V : Type) where
  streams : ℕ → Slot (Value V) := fun _ => .unborn
  events : List (Event V) := []

def Spec.put (S : Spec V) (s : ℕ) (v : Slot (Value V)) : Spec V := { S with streams := Function.update S.streams s v }

/-- Spec: no stream but `s` that has got samples uses the learner `l` or the optimiser `o`. -/
def Spec.Exclusive (S : Spec V) (s l o : ℕ) : Prop :=
  ∀ s' v', s' ≠ s → S.streams s' = .live v' → v'.given ≠ [] → v'.learner ≠ some l ∧ v'.opt ≠ some o

/-- Spec: what each statement shall do, and when it may be used: streams are copied, assigned and configured before their first sample, with a learner
and an optimiser of their own; the learner is used as long as the stream exists. -/
inductive Next : Spec V → Cmd V → Spec V → Prop
  | create {S : Spec V} {s c : ℕ} : S.streams s = .unborn → 1 ≤ c → Next S (.create s c) (S.put s (.live ⟨c, none, none, []⟩))
  | copy {S : Spec V} {s s' : ℕ} {v : Value V} : S.streams s = .live v → v.given = [] → S.streams s' = .unborn →
      Next S (.copy s s') (S.put s' (.live v))
  | assign {S : Spec V} {s s' : ℕ} {v v' : Value V} : S.streams s = .live v → v.given = [] → S.streams s' = .live v' → v'.given = [] →
      Next S (.assign s s') (S.put s' (.live v))
  | setLearner {S : Spec V} {s l : ℕ} {v : Value V} : S.streams s = .live v → v.given = [] →
      Next S (.setLearner s l) (S.put s (.live { v with learner := some l }))
  | setOptimizer {S : Spec V} {s o : ℕ} {v : Value V} : S.streams s = .live v → v.given = [] →
      Next S (.setOptimizer s o) (S.put s (.live { v with opt := some o }))
  | addSample {S : Spec V} {s l o : ℕ} {v : Value V} {x : V} : S.streams s = .live v → v.learner = some l → v.opt = some o →
      (v.given = [] → S.Exclusive s l o) → (v.given.length + 1) % v.size ≠ 0 →
      Next S (.addSample s x) (S.put s (.live { v with given := v.given ++ [x] }))
  | addLast {S : Spec V} {s l o : ℕ} {v : Value V} {x : V} : S.streams s = .live v → v.learner = some l → v.opt = some o →
      (v.given = [] → S.Exclusive s l o) → (v.given.length + 1) % v.size = 0 →
      Next S (.addSample s x) { S.put s (.live { v with given := v.given ++ [x] }) with
        events := S.events ++ [.step o l (((v.given ++ [x]).drop (v.given.length + 1 - v.size)).map some)] }
  | destroy {S : Spec V} {s : ℕ} {v : Value V} : S.streams s = .live v → Next S (.destroy s) (S.put s .dead)
  | error {S : Spec V} {s l : ℕ} {v : Value V} : S.streams s = .live v → v.given ≠ [] → v.learner = some l →
      Next S (.error l) { S with events := S.events ++ [.error l (shown v.size v.given)] }

inductive Runs : Spec V → List (Cmd V) → Spec V → Prop
  | nil {S : Spec V} : Runs S [] S
  | cons {S S' S'' : Spec V} {c : Cmd V} {cs : List (Cmd V)} : Next S c S' → Runs S' cs S'' → Runs S (c :: cs) S''

/-! ## The cache -/

theorem shown_length (c : ℕ) (g : List V) : (shown c g).length = c := by simp [shown]

theorem shown_nil (c : ℕ) : shown c ([] : List V) = List.replicate c none := by
  simp [shown]

theorem shown_getElem? (c : ℕ) (g : List V) {i : ℕ} (h : i < c) :
    (shown c g)[i]? = some (if i < g.length then g[i + c * ((g.length - 1 - i) / c)]? else none) := by
  simp [shown, h]

theorem shown_append {c : ℕ} (hc : 1 ≤ c) (g : List V) (x : V) :
    shown c (g ++ [x]) = (shown c g).set (g.length % c) (some x) := by
  refine List.ext_getElem? fun i => ?_
  by_cases hi : i < c
  swap
  · rw [List.getElem?_eq_none (by rw [shown_length]; omega), List.getElem?_eq_none (by rw [List.length_set, shown_length]; omega)]
  rw [List.getElem?_set, shown_getElem? c _ hi, shown_getElem? c _ hi, shown_length]
  have hm := Nat.mod_lt g.length hc
  have hd := Nat.div_add_mod g.length c
  by_cases he : g.length % c = i
  · rw [if_pos he, if_pos hm]
    have h1 : i ≤ g.length := he ▸ Nat.mod_le _ _
    have h2 : (g.length - i) / c = g.length / c := by
      have : g.length - i = c * (g.length / c) := by omega
      rw [this, Nat.mul_div_cancel_left _ hc]
    rw [if_pos (by simp; omega)]
    have h3 : i + c * (((g ++ [x]).length - 1 - i) / c) = g.length := by
      rw [List.length_append, List.length_singleton, Nat.add_sub_cancel, h2]
      omega
    rw [h3]
    simp
  · rw [if_neg he]
    by_cases hl : i < g.length
    · rw [if_pos hl, if_pos (by simp; omega)]
      have h2 : ((g ++ [x]).length - 1 - i) / c = (g.length - 1 - i) / c := by
        rw [List.length_append, List.length_singleton, Nat.add_sub_cancel]
        have : g.length - i = (g.length - 1 - i) + 1 := by omega
        rw [this, Nat.succ_div, if_neg, Nat.add_zero]
        rintro ⟨q, hq⟩
        apply he
        have : g.length = i + c * q := by omega
        rw [this, Nat.add_mul_mod_self_left, Nat.mod_eq_of_lt hi]
      rw [h2, List.getElem?_append_left]
      have := Nat.div_mul_le_self (g.length - 1 - i) c
      rw [Nat.mul_comm] at this
      omega
    · rw [if_neg hl, if_neg]
      simp only [List.length_append, List.length_singleton]
      intro hlt
      have : g.length = i := by omega
      exact he (by rw [this, Nat.mod_eq_of_lt hi])

theorem shown_full {c : ℕ} (hc : 1 ≤ c) (g : List V) (h0 : 0 < g.length) (hm : g.length % c = 0) :
    shown c g = (g.drop (g.length - c)).map some := by
  obtain ⟨q, hq⟩ := Nat.dvd_of_mod_eq_zero hm
  obtain ⟨q, rfl⟩ : ∃ r, q = r + 1 := by
    rcases q with _ | q
    · rw [Nat.mul_zero] at hq; omega
    · exact ⟨q, rfl⟩
  rw [Nat.mul_add, Nat.mul_one] at hq
  refine List.ext_getElem? fun i => ?_
  by_cases hi : i < c
  swap
  · rw [List.getElem?_eq_none (by rw [shown_length]; omega), List.getElem?_eq_none]
    rw [List.length_map, List.length_drop]
    omega
  have h1 : (g.length - 1 - i) / c = q := by
    have : g.length - 1 - i = (c - 1 - i) + c * q := by omega
    rw [this, Nat.add_mul_div_left _ _ hc, Nat.div_eq_of_lt (by omega), Nat.zero_add]
  rw [shown_getElem? c _ hi, if_pos (by omega), h1, List.getElem?_map, List.getElem?_drop]
  have h2 : g.length - c + i = i + c * q := by omega
  rw [h2, List.getElem?_eq_getElem (by omega)]
  rfl

/-! ## Refinement -/

/-- What stream `s` with the value `v` looks like in memory. -/
structure Shows (m : Heap V) (s : ℕ) (v : Value V) (st : Stream V) : Prop where
  size : 1 ≤ v.size
  cacheSize : st.cacheSize = v.size
  learner : st.learner = v.learner
  opt : st.opt = v.opt
  collected : st.collected = v.given.length % v.size
  fresh : v.given = [] → st.cache = none ∧ st.X = []
  active : v.given ≠ [] → ∃ a l o, st.cache = some a ∧ m.caches a = some (s, v.size) ∧ a < m.next ∧ v.learner = some l ∧ v.opt = some o ∧
    m.trainSet l = some a ∧ m.optimizable o = some l ∧ st.X = shown v.size v.given

structure Refines (m : Heap V) (S : Spec V) : Prop where
  events : m.events = S.events
  unborn : ∀ s, S.streams s = .unborn → m.streams s = .unborn
  live : ∀ s v, S.streams s = .live v → ∃ st, m.streams s = .live st ∧ Shows m s v st

theorem refines_start : Refines ({} : Heap V) {} := ⟨rfl, fun _ _ => rfl, fun _ _ h => by cases h⟩

/-- A stream without samples may change. -/
theorem Refines.put_fresh {m : Heap V} {S : Spec V} (h : Refines m S) (s : ℕ) {v : Value V} {st : Stream V} (hv : v.given = [])
    (hs : Shows m s v st) : Refines (m.put s (.live st)) (S.put s (.live v)) := by
  refine ⟨h.events, fun s' h' => ?_, fun s' v' h' => ?_⟩
  · by_cases e : s' = s
    · subst e; simp [Spec.put] at h'
    · simp only [Spec.put, Heap.put, Function.update_of_ne e] at h' ⊢
      exact h.unborn s' h'
  · by_cases e : s' = s
    · subst e
      simp only [Spec.put, Function.update_self, Slot.live.injEq] at h'
      subst h'
      exact ⟨st, by simp [Heap.put], hs.1, hs.2, hs.3, hs.4, hs.5, hs.6, fun hne => absurd hv hne⟩
    · simp only [Spec.put, Heap.put, Function.update_of_ne e] at h' ⊢
      obtain ⟨st', h1, h2⟩ := h.live s' v' h'
      exact ⟨st', h1, h2.1, h2.2, h2.3, h2.4, h2.5, h2.6, h2.7⟩

theorem Shows.mono {m m1 : Heap V} {s : ℕ} {v : Value V} {st : Stream V} (h : Shows m s v st) (hc : ∀ a, a < m.next → m1.caches a = m.caches a)
    (hn : m.next ≤ m1.next) (ht : v.given ≠ [] → ∀ l, v.learner = some l → m1.trainSet l = m.trainSet l)
    (ho : v.given ≠ [] → ∀ o, v.opt = some o → m1.optimizable o = m.optimizable o) : Shows m1 s v st := by
  refine ⟨h.1, h.2, h.3, h.4, h.5, h.6, fun hne => ?_⟩
  obtain ⟨a, l, o, h1, h2, h3, h4, h5, h6, h7, h8⟩ := h.active hne
  exact ⟨a, l, o, h1, (hc a h3).trans h2, lt_of_lt_of_le h3 hn, h4, h5, (ht hne l h4).trans h6, (ho hne o h5).trans h7, h8⟩

/-- The cache is there before the sample is stored. -/
theorem prepared {m : Heap V} {S : Spec V} {s l o : ℕ} {v : Value V} {st : Stream V}
    (hs : Shows m s v st) (hl : v.learner = some l) (ho : v.opt = some o) (hex : v.given = [] → S.Exclusive s l o) :
    ∃ (m1 : Heap V) (st1 : Stream V) (a : ℕ), (if st.cache = none then m.initStream s l o st else (m, st)) = (m1, st1) ∧
      m1.streams = m.streams ∧ m1.events = m.events ∧ st1.cacheSize = v.size ∧ st1.learner = some l ∧ st1.opt = some o ∧
      st1.collected = v.given.length % v.size ∧ st1.X = shown v.size v.given ∧ st1.cache = some a ∧ m1.caches a = some (s, v.size) ∧
      a < m1.next ∧ m1.trainSet l = some a ∧ m1.optimizable o = some l ∧
      ∀ s' v' st', s' ≠ s → S.streams s' = .live v' → Shows m s' v' st' → Shows m1 s' v' st' := by
  by_cases hg : v.given = []
  · obtain ⟨hc, hX⟩ := hs.fresh hg
    refine ⟨_, _, m.next, if_pos hc, rfl, rfl, hs.cacheSize, hs.learner.trans hl, hs.opt.trans ho, hs.collected, ?_, rfl, ?_, Nat.lt_succ_self _, ?_, ?_,
      fun s' v' st' hne hv' hs' => hs'.mono (fun a ha => ?_) (Nat.le_succ _) (fun hne' k hk => ?_) (fun hne' k hk => ?_)⟩
    · show resize st.cacheSize st.X = _
      rw [hX, hg, shown_nil, hs.cacheSize]
      simp [resize]
    · simp [hs.cacheSize]
    · simp
    · simp
    · simp only [Function.update_of_ne (Nat.ne_of_lt ha)]
    · have := (hex hg s' v' hne hv' hne').1
      rw [hk] at this
      exact Function.update_of_ne (fun e => this (congrArg some e)) _ _
    · have := (hex hg s' v' hne hv' hne').2
      rw [hk] at this
      exact Function.update_of_ne (fun e => this (congrArg some e)) _ _
  · obtain ⟨a, l', o', h1, h2, h3, h4, h5, h6, h7, h8⟩ := hs.active hg
    rw [hl] at h4
    rw [ho] at h5
    cases h4
    cases h5
    exact ⟨m, st, a, if_neg (by simp [h1]), rfl, rfl, hs.cacheSize, hs.learner.trans hl, hs.opt.trans ho, hs.collected, h8, h1, h2, h3, h6, h7,
      fun _ _ _ _ _ h => h⟩

theorem mod_succ_cases {n c : ℕ} (hc : 1 ≤ c) :
    (n % c + 1 < c ∧ (n + 1) % c = n % c + 1) ∨ (n % c + 1 = c ∧ (n + 1) % c = 0) := by
  have hm := Nat.mod_lt n hc
  rcases Nat.lt_or_ge (n % c + 1) c with h | h
  · left
    refine ⟨h, ?_⟩
    rw [← Nat.div_add_mod n c, Nat.add_assoc, Nat.mul_add_mod, Nat.mul_add_mod, Nat.mod_mod, Nat.mod_eq_of_lt h]
  · right
    have e : n % c + 1 = c := by omega
    refine ⟨e, ?_⟩
    have h2 : n + 1 = c * (n / c + 1) := by
      have := Nat.div_add_mod n c
      rw [Nat.mul_add, Nat.mul_one]
      omega
    rw [h2, Nat.mul_mod_right]

/-- The memory after a sample. -/
theorem refines_added {m m1 : Heap V} {S : Spec V} (h : Refines m S) {s l o a : ℕ} {v : Value V} {x : V} {st2 : Stream V}
    (hsize : 1 ≤ v.size) (hl : v.learner = some l) (ho : v.opt = some o) (hstr : m1.streams = m.streams) (h1 : st2.cacheSize = v.size)
    (h2 : st2.learner = some l) (h3 : st2.opt = some o) (h4 : st2.collected = (v.given.length + 1) % v.size)
    (h5 : st2.X = shown v.size (v.given ++ [x])) (h6 : st2.cache = some a) (h7 : m1.caches a = some (s, v.size)) (h8 : a < m1.next)
    (h9 : m1.trainSet l = some a) (h10 : m1.optimizable o = some l)
    (hoth : ∀ s' v' st', s' ≠ s → S.streams s' = .live v' → Shows m s' v' st' → Shows m1 s' v' st') :
    (∀ s', (S.put s (.live { v with given := v.given ++ [x] })).streams s' = .unborn → (m1.put s (.live st2)).streams s' = .unborn) ∧
    ∀ s' v', (S.put s (.live { v with given := v.given ++ [x] })).streams s' = .live v' →
      ∃ st, (m1.put s (.live st2)).streams s' = .live st ∧ Shows (m1.put s (.live st2)) s' v' st := by
  refine ⟨fun s' h' => ?_, fun s' v' h' => ?_⟩
  · by_cases e : s' = s
    · subst e; simp [Spec.put] at h'
    · simp only [Spec.put, Heap.put, Function.update_of_ne e, hstr] at h' ⊢
      exact h.unborn s' h'
  · by_cases e : s' = s
    · subst e
      simp only [Spec.put, Function.update_self, Slot.live.injEq] at h'
      subst h'
      refine ⟨st2, by simp [Heap.put], hsize, h1, h2.trans hl.symm, h3.trans ho.symm, ?_, fun hne => by simp at hne, fun _ =>
        ⟨a, l, o, h6, h7, h8, hl, ho, h9, h10, h5⟩⟩
      rw [h4]
      simp
    · simp only [Spec.put, Heap.put, Function.update_of_ne e, hstr] at h' ⊢
      obtain ⟨st', e1, e2⟩ := h.live s' v' h'
      have := hoth s' v' st' e h' e2
      exact ⟨st', e1, this.1, this.2, this.3, this.4, this.5, this.6, this.7⟩

/-- Every allowed statement does what it shall do. -/
theorem next_refines {m : Heap V} {S S' : Spec V} {c : Cmd V} (h : Refines m S) (hn : Next S c S') :
    ∃ m', m.exec c = ok m' ∧ Refines m' S' := by
  cases hn with
  | @create s c hu hc =>
    refine ⟨_, by rw [Heap.exec, h.unborn s hu], h.put_fresh s rfl ⟨hc, rfl, rfl, rfl, by simp, fun _ => ⟨rfl, rfl⟩, fun hne => absurd rfl hne⟩⟩
  | @copy s s' v hv hg hu =>
    obtain ⟨st, e, hs⟩ := h.live s v hv
    exact ⟨_, by rw [Heap.exec, e, h.unborn s' hu], h.put_fresh s' hg ⟨hs.1, hs.2, hs.3, hs.4, hs.5, hs.6, fun hne => absurd hg hne⟩⟩
  | @assign s s' v v' hv hg hv' hg' =>
    obtain ⟨st, e, hs⟩ := h.live s v hv
    obtain ⟨st', e', hs'⟩ := h.live s' v' hv'
    exact ⟨_, by rw [Heap.exec, e, e'], h.put_fresh s' hg ⟨hs.1, hs.2, hs.3, hs.4, hs.5, hs.6, fun hne => absurd hg hne⟩⟩
  | @setLearner s l v hv hg =>
    obtain ⟨st, e, hs⟩ := h.live s v hv
    exact ⟨m.put s (.live { st with learner := some l }), by rw [Heap.exec, e],
      h.put_fresh s hg ⟨hs.1, hs.2, rfl, hs.4, hs.5, hs.6, fun hne => absurd hg hne⟩⟩
  | @setOptimizer s o v hv hg =>
    obtain ⟨st, e, hs⟩ := h.live s v hv
    exact ⟨m.put s (.live { st with opt := some o }), by rw [Heap.exec, e],
      h.put_fresh s hg ⟨hs.1, hs.2, hs.3, rfl, hs.5, hs.6, fun hne => absurd hg hne⟩⟩
  | @addSample s l o v x hv hl ho hex hmod =>
    obtain ⟨st, e, hs⟩ := h.live s v hv
    obtain ⟨m1, st1, a, e1, hstr, hev, c1, c2, c3, c4, c5, c6, c7, c8, c9, c10, hoth⟩ := prepared hs hl ho hex
    rcases mod_succ_cases (n := v.given.length) hs.size with ⟨hlt, hm⟩ | ⟨_, hm⟩
    swap
    · exact absurd hm hmod
    refine ⟨m1.put s (.live { st1 with X := st1.X.set st1.collected (some x), collected := st1.collected + 1 }), ?_, ?_⟩
    · rw [Heap.exec, e]
      simp only [Heap.addSample, hs.learner, hl, hs.opt, ho, e1]
      rw [if_pos (by rw [c5, shown_length, c4]; exact Nat.mod_lt _ hs.size), if_neg (by rw [c1, c4]; omega)]
    · obtain ⟨r1, r2⟩ := refines_added (x := x) (st2 := { st1 with X := st1.X.set st1.collected (some x), collected := st1.collected + 1 }) h hs.size hl ho hstr
        c1 c2 c3 (by rw [hm, ← c4]) (by rw [shown_append hs.size, ← c4, ← c5]) c6 c7 c8 c9 c10 hoth
      exact ⟨hev.trans h.events, r1, r2⟩
  | @addLast s l o v x hv hl ho hex hmod =>
    obtain ⟨st, e, hs⟩ := h.live s v hv
    obtain ⟨m1, st1, a, e1, hstr, hev, c1, c2, c3, c4, c5, c6, c7, c8, c9, c10, hoth⟩ := prepared hs hl ho hex
    rcases mod_succ_cases (n := v.given.length) hs.size with ⟨_, hm⟩ | ⟨heq, hm⟩
    · omega
    have hX : st1.X.set st1.collected (some x) = shown v.size (v.given ++ [x]) := by rw [shown_append hs.size, ← c4, ← c5]
    have hfull := shown_full hs.size (v.given ++ [x]) (by simp) (by simpa using hm)
    have hrows : (m1.put s (.live { st1 with X := st1.X.set st1.collected (some x), collected := st1.collected + 1 })).rows l =
        ok (((v.given ++ [x]).drop (v.given.length + 1 - v.size)).map some) := by
      simp only [Heap.rows, Heap.put, c9, c7, Function.update_self, hX, shown_length, le_refl, if_true]
      rw [List.take_of_length_le (by rw [shown_length]), hfull]
      simp
    obtain ⟨r1, r2⟩ := refines_added (x := x) (st2 := { st1 with X := st1.X.set st1.collected (some x), collected := 0 }) h hs.size hl ho hstr
      c1 c2 c3 hm.symm hX c6 c7 c8 c9 c10 hoth
    refine ⟨{ m1.put s (.live { st1 with X := st1.X.set st1.collected (some x), collected := 0 }) with
      events := m1.events ++ [.step o l (((v.given ++ [x]).drop (v.given.length + 1 - v.size)).map some)] }, ?_, ?_, r1, fun s' v' h' => ?_⟩
    · rw [Heap.exec, e]
      simp only [Heap.addSample, hs.learner, hl, hs.opt, ho, e1]
      rw [if_pos (by rw [c5, shown_length, c4]; exact Nat.mod_lt _ hs.size), if_pos (by rw [c1, c4]; omega)]
      have ho' : (m1.put s (.live { st1 with X := st1.X.set st1.collected (some x), collected := st1.collected + 1 })).optimizable o = some l := c10
      simp only [Heap.step, ho', hrows, ok_bind]
      simp [Heap.put]
    · show m1.events ++ _ = S.events ++ _
      rw [hev, h.events]
    · obtain ⟨st', e1, e2⟩ := r2 s' v' h'
      exact ⟨st', e1, e2.1, e2.2, e2.3, e2.4, e2.5, e2.6, e2.7⟩
  | @destroy s v hv =>
    obtain ⟨st, e, hs⟩ := h.live s v hv
    by_cases hg : v.given = []
    · refine ⟨m.put s .dead, by rw [Heap.exec, e]; simp only [(hs.fresh hg).1], h.events, fun s' h' => ?_, fun s' v' h' => ?_⟩
      · by_cases e : s' = s
        · subst e; simp [Spec.put] at h'
        · simp only [Spec.put, Heap.put, Function.update_of_ne e] at h' ⊢
          exact h.unborn s' h'
      · by_cases e : s' = s
        · subst e; simp [Spec.put] at h'
        · simp only [Spec.put, Heap.put, Function.update_of_ne e] at h' ⊢
          obtain ⟨st', h1, h2⟩ := h.live s' v' h'
          exact ⟨st', h1, h2.1, h2.2, h2.3, h2.4, h2.5, h2.6, h2.7⟩
    · obtain ⟨a, l, o, h1, h2, h3, h4, h5, h6, h7, h8⟩ := hs.active hg
      refine ⟨{ m.put s .dead with caches := Function.update m.caches a none }, by rw [Heap.exec, e]; simp only [h1, h2], h.events, fun s' h' => ?_, fun s' v' h' => ?_⟩
      · by_cases e : s' = s
        · subst e; simp [Spec.put] at h'
        · simp only [Spec.put, Heap.put, Function.update_of_ne e] at h' ⊢
          exact h.unborn s' h'
      · by_cases e : s' = s
        · subst e; simp [Spec.put] at h'
        · simp only [Spec.put, Function.update_of_ne e] at h'
          obtain ⟨st', e1, e2⟩ := h.live s' v' h'
          refine ⟨st', by simp only [Heap.put, Function.update_of_ne e]; exact e1, e2.1, e2.2, e2.3, e2.4, e2.5, e2.6, fun hne => ?_⟩
          obtain ⟨a', l', o', g1, g2, g3⟩ := e2.active hne
          refine ⟨a', l', o', g1, ?_, g3⟩
          have : a' ≠ a := by
            rintro rfl
            rw [g2] at h2
            simp only [Option.some.injEq, Prod.mk.injEq] at h2
            exact e h2.1
          simp only [Function.update_of_ne this]
          exact g2
  | @error s l v hv hg hl =>
    obtain ⟨st, e, hs⟩ := h.live s v hv
    obtain ⟨a, l', o, h1, h2, h3, h4, h5, h6, h7, h8⟩ := hs.active hg
    rw [hl] at h4
    cases h4
    refine ⟨{ m with events := m.events ++ [.error l (shown v.size v.given)] }, ?_, ?_, h.unborn, fun s' v' h' => ?_⟩
    · have : m.rows l = ok (shown v.size v.given) := by
        simp only [Heap.rows, h6, h2, e, h8, shown_length, le_refl, if_true]
        rw [List.take_of_length_le (by rw [shown_length])]
      simp only [Heap.exec, this, ok_bind]
    · show m.events ++ _ = S.events ++ _
      rw [h.events]
    · obtain ⟨st', e1, e2⟩ := h.live s' v' h'
      exact ⟨st', e1, e2.1, e2.2, e2.3, e2.4, e2.5, e2.6, e2.7⟩

theorem runs_refines {S S' : Spec V} {prog : List (Cmd V)} (h : Runs S prog S') :
    ∀ {m : Heap V}, Refines m S → ∃ m', m.run prog = ok m' ∧ Refines m' S' := by
  induction h with
  | nil => exact fun hr => ⟨_, rfl, hr⟩
  | cons hn _ ih =>
    intro m hr
    obtain ⟨m1, e1, hr1⟩ := next_refines hr hn
    obtain ⟨m2, e2, hr2⟩ := ih hr1
    refine ⟨m2, ?_, hr2⟩
    rw [Heap.run, List.foldlM_cons, e1]
    exact e2

/-- **C139 (streams as values)**: every program that copies, assigns and configures its streams before their first samples, gives each stream a learner
and an optimiser of its own, and uses a learner only as long as its stream exists, runs without undefined behaviour, and every optimiser
step and every `error()` sees the samples of the stream of its learner. -/
theorem streams_are_values {prog : List (Cmd V)} {S : Spec V} (h : Runs {} prog S) : ∃ m, ({} : Heap V).run prog = ok m ∧ m.events = S.events := by
  obtain ⟨m, e, hr⟩ := runs_refines h refines_start
  exact ⟨m, e, hr.events⟩

/-! ## The benchmark program -/

theorem Runs.append {S S' S'' : Spec V} {p p' : List (Cmd V)} (h : Runs S p S') (h' : Runs S' p' S'') : Runs S (p ++ p') S'' := by
  induction h with
  | nil => exact h'
  | cons hn _ ih => exact .cons hn (ih h')

/-- `s` is the only stream that has got samples. -/
def Alone (S : Spec V) (s : ℕ) : Prop := ∀ s' v', s' ≠ s → S.streams s' = .live v' → v'.given = []

theorem Alone.put {S : Spec V} {s : ℕ} (h : Alone S s) (v : Slot (Value V)) : Alone (S.put s v) s := fun s' v' hne h' => by
  simp only [Spec.put, Function.update_of_ne hne] at h'
  exact h s' v' hne h'

theorem Spec.put_put (S : Spec V) (s : ℕ) (v v' : Slot (Value V)) : (S.put s v).put s v' = S.put s v' := by
  simp [Spec.put]

/-- Samples that do not fill the cache. -/
theorem runs_some {s l o : ℕ} : ∀ (xs : List V) {S : Spec V} {v : Value V}, Alone S s → S.streams s = .live v → v.learner = some l → v.opt = some o →
    1 ≤ v.size → v.given.length % v.size + xs.length < v.size →
    Runs S (xs.map (.addSample s)) (S.put s (.live { v with given := v.given ++ xs }))
  | [], S, v, _, hv, _, _, _, _ => by
    have : S.put s (.live { v with given := v.given ++ [] }) = S := by
      simp only [Spec.put, List.append_nil]
      rw [← hv, Function.update_eq_self]
    rw [this]
    exact .nil
  | x :: xs, S, v, ha, hv, hl, ho, hs, hlen => by
    rw [List.length_cons] at hlen
    rcases mod_succ_cases (n := v.given.length) hs with ⟨_, hm⟩ | ⟨heq, _⟩
    swap
    · omega
    have hr := runs_some xs (S := S.put s (.live { v with given := v.given ++ [x] })) (v := { v with given := v.given ++ [x] }) (ha.put _)
      (by simp [Spec.put]) hl ho hs (by simp only [List.length_append, List.length_singleton]; omega)
    rw [Spec.put_put] at hr
    simp only [List.append_assoc, List.singleton_append] at hr
    exact .cons (.addSample hv hl ho (fun _ s' v' hne h1 h2 => absurd (ha s' v' hne h1) h2) (by omega)) hr

/-- A full cache. -/
theorem runs_chunk {s l o : ℕ} {xs : List V} {S : Spec V} {v : Value V} (ha : Alone S s) (hv : S.streams s = .live v) (hl : v.learner = some l)
    (ho : v.opt = some o) (hs : 1 ≤ v.size) (hg : v.given.length % v.size = 0) (hx : xs.length = v.size) :
    Runs S (xs.map (.addSample s)) { S.put s (.live { v with given := v.given ++ xs }) with events := S.events ++ [.step o l (xs.map some)] } := by
  rcases List.eq_nil_or_concat xs with rfl | ⟨ys, y, rfl⟩
  · rw [List.length_nil] at hx
    omega
  rw [List.concat_eq_append, List.length_append, List.length_singleton] at hx
  rw [List.concat_eq_append, List.map_append]
  refine (runs_some ys ha hv hl ho hs (by omega)).append ?_
  have hlen : (v.given ++ ys).length + 1 = v.given.length + v.size := by rw [List.length_append]; omega
  have hn := Next.addLast (S := S.put s (.live { v with given := v.given ++ ys })) (s := s) (l := l) (o := o)
    (v := { v with given := v.given ++ ys }) (x := y) (by simp [Spec.put]) hl ho
    (fun _ s' v' hne h1 h2 => absurd ((ha.put _) s' v' hne h1) h2) (by rw [hlen, Nat.add_mod_right]; exact hg)
  rw [hlen, Nat.add_sub_cancel, Spec.put_put, List.append_assoc, List.drop_left] at hn
  exact .cons hn .nil

theorem runs_chunks {s l o : ℕ} : ∀ (ps : List (List V)) {S : Spec V} {v : Value V}, Alone S s → S.streams s = .live v → v.learner = some l →
    v.opt = some o → 1 ≤ v.size → v.given.length % v.size = 0 → (∀ p ∈ ps, p.length = v.size) →
    Runs S (ps.flatten.map (.addSample s))
      { S.put s (.live { v with given := v.given ++ ps.flatten }) with events := S.events ++ ps.map fun p => .step o l (p.map some) }
  | [], S, v, _, hv, _, _, _, _, _ => by
    have : ({ S.put s (.live { v with given := v.given ++ [].flatten }) with
        events := S.events ++ [].map fun p : List V => .step o l (p.map some) } : Spec V) = S := by
      simp only [Spec.put, List.flatten_nil, List.append_nil, List.map_nil]
      rw [← hv, Function.update_eq_self]
    rw [this]
    exact .nil
  | p :: ps, S, v, ha, hv, hl, ho, hs, hg, hp => by
    have h1 := runs_chunk ha hv hl ho hs hg (hp p (by simp))
    have hr := runs_chunks ps (S := { S.put s (.live { v with given := v.given ++ p }) with events := S.events ++ [.step o l (p.map some)] })
      (v := { v with given := v.given ++ p }) (ha.put _) (by simp [Spec.put]) hl ho hs
      (by simp only [List.length_append, hp p (by simp), Nat.add_mod_right]; exact hg) (fun q hq => hp q (by simp [hq]))
    rw [List.flatten_cons, List.map_append]
    have := h1.append hr
    simp only [Spec.put, Function.update_idem, List.append_assoc, List.singleton_append] at this
    exact this

/-- The statements of benchmarks/mnist/mnist.cpp lines 84-85 for a cache of `c` samples, with the temporary stream 0. -/
def chained (c l o : ℕ) : List (Cmd V) := [.create 0 c, .setLearner 0 l, .setOptimizer 0 o, .copy 0 1, .destroy 0]

theorem runs_chained {c : ℕ} (hc : 1 ≤ c) (l o : ℕ) : ∃ S : Spec V, Runs {} (chained c l o) S ∧ Alone S 1 ∧
    S.streams 1 = .live ⟨c, some l, some o, []⟩ ∧ S.events = [] := by
  refine ⟨_, .cons (.create rfl hc) (.cons (.setLearner (v := ⟨c, none, none, []⟩) (by simp [Spec.put]) rfl)
    (.cons (.setOptimizer (v := ⟨c, some l, none, []⟩) (by simp [Spec.put]) rfl)
    (.cons (.copy (v := ⟨c, some l, some o, []⟩) (by simp [Spec.put]) rfl (by simp [Spec.put]))
    (.cons (.destroy (v := ⟨c, some l, some o, []⟩) (by simp [Spec.put])) .nil)))), fun s' v' hne h => ?_, by simp [Spec.put], rfl⟩
  simp only [Spec.put] at h
  by_cases h0 : s' = 0
  · subst h0; simp at h
  · simp [Function.update_of_ne hne, Function.update_of_ne h0] at h

/-- **C139 (the benchmark)**: with a chained stream, as in the MNIST program, every epoch is one optimiser step with all images of this epoch in their
order; the error that is reported in the end is the one of the images of the last epoch, and the ends of both streams are harmless. -/
theorem benchmark_epochs {c : ℕ} (hc : 1 ≤ c) (l o : ℕ) (epochs : List (List V)) (last : List V) (hl : last.length = c)
    (he : ∀ p ∈ epochs, p.length = c) :
    ∃ m, ({} : Heap V).run (chained c l o ++ (epochs ++ [last]).flatten.map (.addSample 1) ++ [.error l, .destroy 1]) = ok m ∧
      m.events = (epochs ++ [last]).map (fun p => .step o l (p.map some)) ++ [.error l (last.map some)] := by
  obtain ⟨S, h1, ha, hv, hev⟩ := runs_chained (V := V) hc l o
  have h2 := runs_chunks (epochs ++ [last]) ha hv rfl rfl hc (by simp) (fun p hp => by
    rcases List.mem_append.1 hp with hp | hp
    · exact he p hp
    · rw [List.mem_singleton.1 hp]; exact hl)
  have hmod : ∀ ps : List (List V), (∀ p ∈ ps, p.length = c) → ps.flatten.length % c = 0 := by
    intro ps h
    induction ps with
    | nil => simp
    | cons p ps ih =>
      rw [List.flatten_cons, List.length_append, h p (by simp), Nat.add_mod_left]
      exact ih fun q hq => h q (by simp [hq])
  have hne : (epochs ++ [last]).flatten ≠ [] := by
    intro h
    have := congrArg List.length h
    rw [List.flatten_append, List.flatten_singleton, List.length_append, hl, List.length_nil] at this
    omega
  have hshown : shown c (epochs ++ [last]).flatten = last.map some := by
    rw [shown_full hc _ (List.length_pos_iff.2 hne)]
    · rw [List.flatten_append, List.flatten_singleton, List.length_append, hl, Nat.add_sub_cancel, List.drop_left]
    · rw [List.flatten_append, List.flatten_singleton, List.length_append, hl, Nat.add_mod_right]
      exact hmod _ he
  have h3 := (h1.append h2).append (.cons (.error (s := 1) (l := l) (v := ⟨c, some l, some o, [] ++ (epochs ++ [last]).flatten⟩) (by simp [Spec.put])
    (by simpa using hne) rfl) (.cons (.destroy (s := 1) (v := ⟨c, some l, some o, [] ++ (epochs ++ [last]).flatten⟩) (by simp [Spec.put])) .nil))
  obtain ⟨m, e, hm⟩ := streams_are_values h3
  refine ⟨m, e, ?_⟩
  rw [hm]
  simp only [Spec.put, hev, List.nil_append, hshown]

/-! ## What goes wrong -/

theorem run_append {m m1 : Heap V} {p : List (Cmd V)} (h : m.run p = ok m1) (q : List (Cmd V)) : m.run (p ++ q) = m1.run q := by
  rw [Heap.run, List.foldlM_append]
  rw [Heap.run] at h
  rw [h]
  rfl

section

variable {prog : List (Cmd V)} {S : Spec V} (h : Runs {} prog S) {s : ℕ} {v : Value V} (hv : S.streams s = .live v) (hg : v.given ≠ [])

include h hv hg

/-- **C139 (late copies are deleted twice)**: whatever the program did before, a copy of a stream that has got a sample cannot end besides the original:
the cache is deleted twice. -/
theorem late_copy_ub {s' : ℕ} (hs' : S.streams s' = .unborn) :
    ({} : Heap V).run (prog ++ [.copy s s', .destroy s, .destroy s']) = ub ∧
    ({} : Heap V).run (prog ++ [.copy s s', .destroy s', .destroy s]) = ub := by
  obtain ⟨m, e, hr⟩ := runs_refines h refines_start
  obtain ⟨st, e1, hs⟩ := hr.live s v hv
  obtain ⟨a, _, _, h1, h2, _⟩ := hs.active hg
  have hu := hr.unborn s' hs'
  have hne : s ≠ s' := by
    rintro rfl
    rw [hv] at hs'
    cases hs'
  rw [run_append e, run_append e]
  constructor
  · simp [Heap.run, Heap.exec, e1, hu, Heap.put, Function.update_of_ne hne, Function.update_of_ne hne.symm, h1, h2]
  · simp [Heap.run, Heap.exec, e1, hu, Heap.put, Function.update_of_ne hne, h1, h2]

/-- **C139 (a learner must not outlive its stream)**: after the end of the stream the training set of the learner is gone. -/
theorem outlived_ub {l : ℕ} (hl : v.learner = some l) : ({} : Heap V).run (prog ++ [.destroy s, .error l]) = ub := by
  obtain ⟨m, e, hr⟩ := runs_refines h refines_start
  obtain ⟨st, e1, hs⟩ := hr.live s v hv
  obtain ⟨a, l', _, h1, h2, _, h4, _, h6, _⟩ := hs.active hg
  rw [hl] at h4
  cases h4
  rw [run_append e]
  simp [Heap.run, Heap.exec, e1, Heap.put, h1, h2, Heap.rows, h6]

/-- **C139 (late copies lose samples)**: if the cache is filled through a late copy, then the optimiser sees the cache of the original without
these samples. -/
theorem late_copy_loses {s' l o : ℕ} (hs' : S.streams s' = .unborn) (hl : v.learner = some l) (ho : v.opt = some o) (xs : List V)
    (hx : v.given.length % v.size + xs.length = v.size) :
    ∃ m, ({} : Heap V).run (prog ++ .copy s s' :: xs.map (.addSample s')) = ok m ∧
      m.events = S.events ++ [.step o l (shown v.size v.given)] := by
  obtain ⟨m, e, hr⟩ := runs_refines h refines_start
  obtain ⟨st, e1, hs⟩ := hr.live s v hv
  obtain ⟨a, l', o', h1, h2, _, h4, h5, h6, h7, h8⟩ := hs.active hg
  rw [hl] at h4
  rw [ho] at h5
  cases h4
  cases h5
  have hu := hr.unborn s' hs'
  have hne : s ≠ s' := by
    rintro rfl
    rw [hv] at hs'
    cases hs'
  have key : ∀ (ys : List V) (m1 : Heap V) (st1 : Stream V), m1.streams s = .live st → m1.streams s' = .live st1 → m1.caches a = some (s, v.size) →
      m1.trainSet l = some a → m1.optimizable o = some l → st1.cacheSize = v.size → st1.learner = some l → st1.opt = some o →
      st1.cache = some a → st1.X.length = v.size → ys ≠ [] → st1.collected + ys.length = v.size →
      ∃ m2, m1.run (ys.map (.addSample s')) = ok m2 ∧ m2.events = m1.events ++ [.step o l (shown v.size v.given)] := by
    intro ys
    induction ys with
    | nil => intro m1 st1 _ _ _ _ _ _ _ _ _ _ h; exact absurd rfl h
    | cons y ys ih =>
      intro m1 st1 g1 g2 g3 g4 g5 g6 g7 g8 g9 g10 _ g11
      obtain ⟨size, k, X, cache, opt, learner⟩ := st1
      simp only at g6 g7 g8 g9 g10 g11
      subst g6 g7 g8 g9
      rw [List.length_cons] at g11
      by_cases hy : ys = []
      · subst hy
        have hrows : (m1.put s' (.live ⟨v.size, k + 1, X.set k (some y), some a, some o, some l⟩)).rows l =
            ok (shown v.size v.given) := by
          simp only [Heap.rows, Heap.put, g4, g3, Function.update_of_ne hne, g1, h8, shown_length, le_refl, if_true]
          rw [List.take_of_length_le (by rw [shown_length])]
        refine ⟨{ (m1.put s' (.live ⟨v.size, 0, X.set k (some y), some a, some o, some l⟩)) with
          events := m1.events ++ [.step o l (shown v.size v.given)] }, ?_, rfl⟩
        rw [List.map_cons, List.map_nil, Heap.run, List.foldlM_cons, Heap.exec, g2]
        simp only [Heap.addSample, reduceCtorEq, if_false]
        rw [if_pos (by rw [g10]; simp at g11; omega), if_pos (by simp at g11; omega)]
        have hstep : (m1.put s' (.live ⟨v.size, k + 1, X.set k (some y), some a, some o, some l⟩)).step o =
            ok { m1.put s' (.live ⟨v.size, k + 1, X.set k (some y), some a, some o, some l⟩) with
              events := m1.events ++ [.step o l (shown v.size v.given)] } := by
          have ho' : (m1.put s' (.live ⟨v.size, k + 1, X.set k (some y), some a, some o, some l⟩)).optimizable o = some l := g5
          simp only [Heap.step, ho', hrows, ok_bind]
          rfl
        rw [hstep]
        simp [Heap.put]
      · have hpos := List.length_pos_iff.2 hy
        obtain ⟨m2, r1, r2⟩ := ih (m1.put s' (.live ⟨v.size, k + 1, X.set k (some y), some a, some o, some l⟩))
          ⟨v.size, k + 1, X.set k (some y), some a, some o, some l⟩
          (by simp only [Heap.put, Function.update_of_ne hne]; exact g1) (by simp [Heap.put]) g3 g4 g5 rfl rfl rfl rfl (by simpa using g10) hy
          (by simp only; omega)
        refine ⟨m2, ?_, r2⟩
        rw [List.map_cons, Heap.run, List.foldlM_cons, Heap.exec, g2]
        simp only [Heap.addSample, reduceCtorEq, if_false]
        rw [if_pos (by rw [g10]; omega), if_neg (by omega)]
        exact r1
  have hlt := Nat.mod_lt v.given.length hs.size
  obtain ⟨m2, r1, r2⟩ := key xs (m.put s' (.live st)) st (by simp only [Heap.put, Function.update_of_ne hne]; exact e1) (by simp [Heap.put]) h2 h6 h7
    hs.cacheSize (hs.learner.trans hl) (hs.opt.trans ho) h1 (by rw [h8, shown_length]) (by rintro rfl; simp at hx; omega) (by rw [hs.collected]; exact hx)
  refine ⟨m2, ?_, by rw [r2]; show m.events ++ _ = _; rw [hr.events]⟩
  rw [run_append e, Heap.run, List.foldlM_cons, Heap.exec, e1, hu]
  exact r1

end

/-- The hypotheses are met: the benchmark's stream with three samples and a cache for two. -/
example : ∃ S : Spec ℕ, Runs {} (chained 2 0 0 ++ [[5, 6]].flatten.map (.addSample 1) ++ [.addSample 1 7]) S ∧
    S.streams 1 = .live ⟨2, some 0, some 0, [5, 6, 7]⟩ ∧ S.streams 2 = .unborn ∧ S.events = [.step 0 0 [some 5, some 6]] := by
  obtain ⟨S, h1, ha, hv, hev⟩ := runs_chained (V := ℕ) (c := 2) (by norm_num) 0 0
  have h0 : S.streams 2 = .unborn := by
    cases h1 with
    | cons a b => cases a; cases b with
      | cons a b => cases a; cases b with
        | cons a b => cases a; cases b with
          | cons a b => cases a; cases b with
            | cons a b => cases a; cases b; simp [Spec.put]
  have h2 := runs_chunks [[5, 6]] ha hv rfl rfl (by norm_num) rfl (by simp)
  refine ⟨_, (h1.append h2).append (.cons (.addSample (s := 1) (l := 0) (o := 0) (v := ⟨2, some 0, some 0, [5, 6]⟩) (by simp [Spec.put]) rfl rfl (by simp) (by simp)) .nil),
    by simp [Spec.put], ?_, ?_⟩
  · simpa [Spec.put] using h0
  · simp [Spec.put, hev]

end Verif.StreamObjects
