import Verif.Model.Parallel
import Mathlib.Algebra.BigOperators.Group.Finset.Basic
import Mathlib.Data.List.Nodup
import Mathlib.Tactic.Linarith

/-!
# C94: parallel loops do what the sequential loops do

A loop whose iterations write only cells of their own and read only these and cells that no iteration writes has no data race,
and every interleaving of every distribution of the iterations over threads ends with the memory of the sequential loop.
-/

namespace Verif.Par

open Outcome Prog

variable {L α β : Type}

/-! ## Footprints -/

/-- The program reads only cells in `R` and writes only cells in `W`, whatever it reads. -/
def Within (R W : L → Prop) : Prog L α → Prop
  | .leaf _ => True
  | .read l k => R l ∧ ∀ v, Within R W (k v)
  | .write l _ k => W l ∧ Within R W k

variable {R W R' W' : L → Prop}

theorem Within.bind {p : Prog L α} {f : α → Prog L β} (hp : Within R W p) (hf : ∀ a, Within R W (f a)) : Within R W (p >>= f) := by
  show Within R W (p.bind f)
  induction p with
  | leaf o => cases o <;> first | exact hf _ | trivial
  | read l k ih => exact ⟨hp.1, fun v => ih v (hp.2 v)⟩
  | write l v k ih => exact ⟨hp.1, ih hp.2⟩

theorem Within.pure (a : α) : Within R W (Pure.pure a : Prog L α) := trivial

theorem Within.lift (o : Outcome α) : Within R W (Prog.lift o : Prog L α) := trivial

theorem Within.get {l : L} (h : R l) : Within R W (Prog.get l) := ⟨h, fun _ => trivial⟩

theorem Within.set {l : L} (h : W l) (v : ℝ) : Within R W (Prog.set l v) := ⟨h, trivial⟩

theorem Within.loop {σ : Type} (n : ℕ) {body : ℕ → σ → Prog L σ} (h : ∀ i s, Within R W (body i s)) (s : σ) :
    Within R W (Prog.loop n body s) := by
  induction n with
  | zero => trivial
  | succ n ih => exact ih.bind fun s' => h n s'

theorem Within.steps {σ : Type} (hi st : ℕ) {body : ℕ → σ → Prog L σ} (h : ∀ i s, Within R W (body i s)) (i : ℕ) (s : σ) :
    Within R W (Prog.steps hi st body i s) := by
  rw [Prog.steps]
  by_cases hc : i < hi ∧ 0 < st
  · rw [dif_pos hc]
    exact (h i s).bind fun s' => Within.steps hi st h (i + st) s'
  · rw [dif_neg hc]
    trivial
termination_by hi - i

theorem Within.mono {p : Prog L α} (hR : ∀ l, R l → R' l) (hW : ∀ l, W l → W' l) (h : Within R W p) : Within R' W' p := by
  induction p with
  | leaf o => trivial
  | read l k ih => exact ⟨hR l h.1, fun v => ih v (h.2 v)⟩
  | write l v k ih => exact ⟨hW l h.1, ih h.2⟩

theorem within_next {p : Prog L α} (h : Within R W p) {b : Bool} {l : L} (hn : p.next = some (b, l)) : if b then W l else R l := by
  cases p with
  | leaf o => exact absurd hn (by simp [Prog.next])
  | read l' k =>
    simp only [Prog.next, Option.some.injEq, Prod.mk.injEq] at hn
    obtain ⟨rfl, rfl⟩ := hn
    exact h.1
  | write l' v k =>
    simp only [Prog.next, Option.some.injEq, Prod.mk.injEq] at hn
    obtain ⟨rfl, rfl⟩ := hn
    exact h.1

/-! ## Sequential execution -/

@[simp] theorem bind_leaf_ok (a : α) (f : α → Prog L β) : ((leaf (ok a) : Prog L α) >>= f) = f a := rfl

@[simp] theorem pure_eq_leaf (a : α) : (pure a : Prog L α) = leaf (ok a) := rfl

variable [DecidableEq L]

theorem run_bind (p : Prog L α) (f : α → Prog L β) (m : Mem L) : (p >>= f).run m = p.run m >>= fun r => (f r.1).run r.2 := by
  show (p.bind f).run m = _
  induction p generalizing m with
  | leaf o => cases o <;> rfl
  | read l k ih => exact ih _ m
  | write l v k ih => exact ih _

@[simp] theorem run_pure (a : α) (m : Mem L) : (pure a : Prog L α).run m = ok (a, m) := rfl

@[simp] theorem run_leaf (a : α) (m : Mem L) : (leaf (ok a) : Prog L α).run m = ok (a, m) := rfl

@[simp] theorem run_get (l : L) (m : Mem L) : (get l).run m = ok (m l, m) := rfl

@[simp] theorem run_set (l : L) (v : ℝ) (m : Mem L) : (Prog.set l v).run m = ok ((), Function.update m l v) := rfl

theorem run_lift (o : Outcome α) (m : Mem L) : (lift o : Prog L α).run m = o >>= fun a => ok (a, m) := by
  cases o <;> rfl

/-- The sequential execution of a loop is a loop over private variables and memory. -/
theorem run_loop {σ : Type} (n : ℕ) (body : ℕ → σ → Prog L σ) (s : σ) (m : Mem L) :
    (loop n body s).run m = forLoop n (fun i (r : σ × Mem L) => (body i r.1).run r.2) (s, m) := by
  induction n with
  | zero => rfl
  | succ n ih =>
    rw [loop, run_bind, ih]
    rfl

theorem run_steps {σ : Type} (hi st : ℕ) (body : ℕ → σ → Prog L σ) (i : ℕ) (s : σ) (m : Mem L) :
    (steps hi st body i s).run m = stepLoop hi st (fun i (r : σ × Mem L) => (body i r.1).run r.2) i (s, m) := by
  rw [steps, stepLoop]
  by_cases h : i < hi ∧ 0 < st
  · rw [dif_pos h, dif_pos h, run_bind]
    congr 1
    funext r
    exact run_steps hi st body (i + st) r.1 r.2
  · rw [dif_neg h, dif_neg h]
    rfl
termination_by hi - i

/-- Execution changes only cells that are written. -/
theorem run_frame {p : Prog L α} (h : Within R W p) {m : Mem L} {r : α × Mem L} (hr : p.run m = ok r) {l : L} (hl : ¬ W l) :
    r.2 l = m l := by
  induction p generalizing m with
  | leaf o =>
    cases o with
    | ok a =>
      cases hr
      rfl
    | _ => cases hr
  | read l' k ih => exact ih _ (h.2 _) hr
  | write l' v k ih =>
    rw [ih h.2 hr, Function.update_of_ne]
    rintro rfl
    exact hl h.1

/-- Execution depends only on the cells that are read. -/
theorem run_local {p : Prog L α} (h : Within R W p) {m m' : Mem L} (hm : ∀ l, R l ∨ W l → m l = m' l) {r : α × Mem L}
    (hr : p.run m = ok r) : ∃ r', p.run m' = ok r' ∧ r.1 = r'.1 ∧ (∀ l, R l ∨ W l → r.2 l = r'.2 l) ∧ p.accesses m = p.accesses m' := by
  induction p generalizing m m' with
  | leaf o =>
    cases o with
    | ok a =>
      cases hr
      exact ⟨(_, m'), rfl, rfl, hm, rfl⟩
    | _ => cases hr
  | read l' k ih =>
    obtain ⟨r', h1, h2, h3, h4⟩ := ih _ (h.2 _) hm hr
    rw [hm l' (Or.inl h.1)] at h1 h4
    refine ⟨r', h1, h2, h3, ?_⟩
    simp only [accesses, hm l' (Or.inl h.1)]
    rw [h4]
  | write l' v k ih =>
    obtain ⟨r', h1, h2, h3, h4⟩ := ih h.2 (m' := Function.update m' l' v) (fun l hl => by
      by_cases he : l = l'
      · subst he
        simp
      · rw [Function.update_of_ne he, Function.update_of_ne he]
        exact hm l hl) hr
    refine ⟨r', h1, h2, h3, ?_⟩
    simp only [accesses]
    rw [h4]

/-! ## Interleavings -/

/-- Spec: every thread has cells of its own, and there are cells that nobody writes. -/
structure Separated (own : ℕ → L → Prop) (shared : L → Prop) : Prop where
  disjoint : ∀ i j l, own i l → own j l → i = j
  shared : ∀ i l, own i l → ¬ shared l

/-- What holds after every step: the rest of every thread, executed alone, ends as the whole thread would have. -/
structure Progress (T : ℕ) (own : ℕ → L → Prop) (shared : L → Prop) (m0 : Mem L) (final : ℕ → Mem L) (n total : ℕ) (c : Config L) :
    Prop where
  within : ∀ i < T, Within (fun l => shared l ∨ own i l) (own i) (c.threads i)
  others : ∀ l, (∀ i < T, ¬ own i l) → c.mem l = m0 l
  rest : ∀ i < T, ∃ r, (c.threads i).run c.mem = ok ((), r) ∧ ∀ l, own i l → r l = final i l
  count : n + ∑ i ∈ Finset.range T, (c.threads i).accesses c.mem = total

theorem progress_step {T : ℕ} {own : ℕ → L → Prop} {shared : L → Prop} (hsep : Separated own shared) {m0 : Mem L}
    {final : ℕ → Mem L} {n total : ℕ} {c c' : Config L} (h : Progress T own shared m0 final n total c) (hs : Step T c c') :
    Progress T own shared m0 final (n + 1) total c' := by
  cases hs with
  | read i hi l k hp =>
    have hw := h.within i hi
    rw [hp] at hw
    refine ⟨fun j hj => ?_, h.others, fun j hj => ?_, ?_⟩
    · by_cases hij : j = i
      · subst hij
        simpa using hw.2 _
      · simpa [hij] using h.within j hj
    · by_cases hij : j = i
      · subst hij
        have := h.rest j hj
        rw [hp] at this
        simpa [run] using this
      · simpa [hij] using h.rest j hj
    · have hc := h.count
      rw [← Finset.add_sum_erase _ _ (Finset.mem_range.2 hi)] at hc ⊢
      rw [hp, accesses] at hc
      simp only [Function.update_self]
      have he : ∑ j ∈ (Finset.range T).erase i, (Function.update c.threads i (k (c.mem l)) j).accesses c.mem =
          ∑ j ∈ (Finset.range T).erase i, (c.threads j).accesses c.mem :=
        Finset.sum_congr rfl fun j hj => by rw [Function.update_of_ne (Finset.ne_of_mem_erase hj)]
      rw [he]
      omega
  | write i hi l v k hp =>
    have hw := h.within i hi
    rw [hp] at hw
    have hother : ∀ j < T, j ≠ i → ∀ l', (shared l' ∨ own j l') ∨ own j l' → c.mem l' = Function.update c.mem l v l' := by
      intro j hj hij l' hl'
      rw [Function.update_of_ne]
      rintro rfl
      have : shared l' ∨ own j l' := by tauto
      rcases this with g | g
      · exact hsep.shared i l' hw.1 g
      · exact hij (hsep.disjoint j i l' g hw.1)
    refine ⟨fun j hj => ?_, fun l' hl' => ?_, fun j hj => ?_, ?_⟩
    · by_cases hij : j = i
      · subst hij
        simpa using hw.2
      · simpa [hij] using h.within j hj
    · have : l' ≠ l := by
        rintro rfl
        exact hl' i hi hw.1
      simp only [Function.update_of_ne this]
      exact h.others l' hl'
    · by_cases hij : j = i
      · subst hij
        have := h.rest j hj
        rw [hp] at this
        simpa [run] using this
      · obtain ⟨r, h1, h2⟩ := h.rest j hj
        obtain ⟨r', h3, _, h5, _⟩ := run_local (h.within j hj) (hother j hj hij) h1
        refine ⟨r'.2, by simpa [hij] using h3, fun l' hl' => ?_⟩
        rw [← h2 l' hl']
        exact (h5 l' (Or.inr hl')).symm
    · have hc := h.count
      rw [← Finset.add_sum_erase _ _ (Finset.mem_range.2 hi)] at hc ⊢
      rw [hp, accesses] at hc
      simp only [Function.update_self]
      have he : ∑ j ∈ (Finset.range T).erase i, (Function.update c.threads i k j).accesses (Function.update c.mem l v) =
          ∑ j ∈ (Finset.range T).erase i, (c.threads j).accesses c.mem :=
        Finset.sum_congr rfl fun j hj => by
          have hij := Finset.ne_of_mem_erase hj
          have hj' := Finset.mem_range.1 (Finset.mem_of_mem_erase hj)
          rw [Function.update_of_ne hij]
          obtain ⟨r, h1, _⟩ := h.rest j hj'
          obtain ⟨_, _, _, _, h6⟩ := run_local (h.within j hj') (hother j hj' hij) h1
          exact h6.symm
      rw [he]
      omega

theorem progress {T : ℕ} {own : ℕ → L → Prop} {shared : L → Prop} (hsep : Separated own shared) {m0 : Mem L}
    {final : ℕ → Mem L} {total : ℕ} {c : Config L} (h : Progress T own shared m0 final 0 total c) {n : ℕ} {c' : Config L}
    (he : Exec T c n c') : Progress T own shared m0 final n total c' := by
  induction he with
  | start => exact h
  | step _ hs ih => exact progress_step hsep ih hs

/-- Spec: what a user may expect of an execution that has come to `c` after `n` steps. -/
structure Safe (T n total : ℕ) (c : Config L) (final : Mem L) : Prop where
  /-- no data race -/
  race : ¬ Race T c
  /-- no thread has ended with an exception or undefined behaviour -/
  broken : ¬ Broken T c
  /-- no execution is longer -/
  bounded : n ≤ total
  /-- the only way to stop is the end of the loop -/
  progress : Finished T c ∨ ∃ c', Step T c c'
  /-- the end of the loop is the end of the sequential loop -/
  result : Finished T c → c.mem = final

/-! ## Parallel loops -/

/-- The cells of iteration `n` after a sequence of iterations. -/
theorem sequence_spec {own : ℕ → L → Prop} {shared : L → Prop} (hsep : Separated own shared) {body : ℕ → Prog L Unit}
    (hb : ∀ n, Within (fun l => shared l ∨ own n l) (own n) (body n)) (l : List ℕ) (hl : l.Nodup) (m0 m : Mem L)
    (hm : ∀ c, (shared c ∨ ∃ n ∈ l, own n c) → m c = m0 c) (r : ℕ → Mem L)
    (hr : ∀ n ∈ l, (body n).run m0 = ok ((), r n)) :
    ∃ m', (sequence body l).run m = ok ((), m') ∧ (∀ n ∈ l, ∀ c, own n c → m' c = r n c) ∧ ∀ c, (∀ n ∈ l, ¬ own n c) → m' c = m c := by
  induction l generalizing m with
  | nil => exact ⟨m, rfl, by simp, fun _ _ => rfl⟩
  | cons a l ih =>
    rw [List.nodup_cons] at hl
    obtain ⟨r', h1, _, h3, _⟩ := run_local (hb a) (m := m0) (m' := m) (fun c hc => by
      have hc' : shared c ∨ own a c := by tauto
      exact (hm c (hc'.imp id fun h => ⟨a, by simp, h⟩)).symm) (hr a (by simp))
    have hframe : ∀ c, ¬ own a c → r'.2 c = m c := fun c hc => run_frame (hb a) h1 hc
    obtain ⟨m', g1, g2, g3⟩ := ih hl.2 r'.2 (fun c hc2 => by
      have hna : ¬ own a c := by
        intro ho
        rcases hc2 with hc2 | ⟨n, hn, hc2⟩
        · exact hsep.shared a c ho hc2
        · have := hsep.disjoint a n c ho hc2
          subst this
          exact hl.1 hn
      rw [hframe c hna]
      exact hm c (hc2.imp id fun ⟨n, hn, h⟩ => ⟨n, List.mem_cons_of_mem _ hn, h⟩)) fun n hn => hr n (List.mem_cons_of_mem _ hn)
    refine ⟨m', ?_, fun n hn c ho => ?_, fun c hc => ?_⟩
    · rw [sequence, run_bind, h1, ok_bind]
      exact g1
    · rcases List.mem_cons.1 hn with rfl | hn
      · rw [g3 c fun k hk hk' => hl.1 (hsep.disjoint n k c ho hk' ▸ hk), ← h3 c (Or.inr ho)]
      · exact g2 n hn c ho
    · rw [g3 c fun n hn => hc n (List.mem_cons_of_mem _ hn), hframe c (hc a (by simp))]

/-- Every iteration of a sequential loop does what it would have done at the beginning. -/
theorem loop_spec {own : ℕ → L → Prop} {shared : L → Prop} (hsep : Separated own shared) {body : ℕ → Prog L Unit}
    (hb : ∀ n, Within (fun l => shared l ∨ own n l) (own n) (body n)) {N : ℕ} {m0 m : Mem L}
    (h : (loop N (fun n _ => body n) ()).run m0 = ok ((), m)) :
    ∃ r : ℕ → Mem L, (∀ n < N, (body n).run m0 = ok ((), r n)) ∧ (∀ n < N, ∀ c, own n c → m c = r n c) ∧
      ∀ c, (∀ n < N, ¬ own n c) → m c = m0 c := by
  induction N generalizing m with
  | zero =>
    cases h
    exact ⟨fun _ => m0, by simp, by simp, fun _ _ => rfl⟩
  | succ N ih =>
    rw [loop, run_bind] at h
    obtain ⟨⟨_, m1⟩, h1, h2⟩ := bind_eq_ok.1 h
    obtain ⟨r, g1, g2, g3⟩ := ih h1
    have hsame : ∀ c, shared c ∨ own N c → m1 c = m0 c := fun c hc => g3 c fun n hn ho => by
      rcases hc with hc | hc
      · exact hsep.shared n c ho hc
      · exact absurd (hsep.disjoint n N c ho hc) hn.ne
    obtain ⟨r', e1, _, e3, _⟩ := run_local (hb N) (m' := m0) (fun c hc => hsame c (by tauto)) h2
    have hframe : ∀ c, ¬ own N c → m c = m1 c := fun c hc => run_frame (hb N) h2 hc
    refine ⟨Function.update r N r'.2, fun n hn => ?_, fun n hn c ho => ?_, fun c hc => ?_⟩
    · by_cases he : n = N
      · subst he
        rw [Function.update_self, e1]
      · rw [Function.update_of_ne he]
        exact g1 n (by omega)
    · by_cases he : n = N
      · subst he
        rw [Function.update_self]
        exact e3 c (Or.inr ho)
      · rw [Function.update_of_ne he, hframe c fun h' => he (hsep.disjoint n N c ho h')]
        exact g2 n (by omega) c ho
    · rw [hframe c (hc N (by omega))]
      exact g3 c fun n hn => hc n (by omega)

/-- Spec: the threads `0, ..., T - 1` execute every iteration below `N` once. -/
def Distributed (T N : ℕ) (its : ℕ → List ℕ) : Prop := ((List.range T).flatMap its).Perm (List.range N)

theorem Distributed.nodup {T N : ℕ} {its : ℕ → List ℕ} (h : Distributed T N its) : ((List.range T).flatMap its).Nodup :=
  (h.nodup_iff).2 List.nodup_range

/-- **C94 (loops)**: a loop whose iterations write only cells of their own and read only these and cells that are not written has no
data race, ends after a fixed number of accesses, and ends with the memory of the sequential loop - for every number of threads,
distribution of the iterations and interleaving. -/
theorem parallel_for {own : ℕ → L → Prop} {shared : L → Prop} (hsep : Separated own shared) {body : ℕ → Prog L Unit}
    (hb : ∀ n, Within (fun l => shared l ∨ own n l) (own n) (body n)) {T N : ℕ} {its : ℕ → List ℕ} (hd : Distributed T N its)
    {m0 m : Mem L} (h : (loop N (fun n _ => body n) ()).run m0 = ok ((), m)) :
    ∃ total, ∀ n c, Exec T (fork body its m0) n c → Safe T n total c m := by
  obtain ⟨r, h1, h2, h3⟩ := loop_spec hsep hb h
  have hmem : ∀ i < T, ∀ n ∈ its i, n < N := fun i hi n hn =>
    List.mem_range.1 (hd.mem_iff.1 (List.mem_flatMap.2 ⟨i, List.mem_range.2 hi, hn⟩))
  have hnd := List.nodup_flatMap.1 hd.nodup
  let own' : ℕ → L → Prop := fun i c => i < T ∧ ∃ n ∈ its i, own n c
  have hsep' : Separated own' shared := by
    refine ⟨fun i j c ⟨hi, n, hn, ho⟩ ⟨hj, k, hk, ho'⟩ => ?_, fun i c ⟨_, n, _, ho⟩ => hsep.shared n c ho⟩
    have := hsep.disjoint n k c ho ho'
    subst this
    by_contra hij
    have hp := List.pairwise_iff_getElem.1 hnd.2
    rcases lt_or_gt_of_ne hij with hlt | hlt
    · have := hp i j (by simpa using hi) (by simpa using hj) hlt
      simp only [Function.onFun, List.getElem_range] at this
      exact this hn hk
    · have := hp j i (by simpa using hj) (by simpa using hi) hlt
      simp only [Function.onFun, List.getElem_range] at this
      exact this hk hn
  have hstart : Progress T own' shared m0 (fun _ => m) 0 (∑ i ∈ Finset.range T, ((sequence body (its i)).accesses m0))
      (fork body its m0) := by
    refine ⟨fun i hi => ?_, fun _ _ => rfl, fun i hi => ?_, by simp [fork]⟩
    · have : ∀ l : List ℕ, (∀ n ∈ l, n ∈ its i) → Within (fun c => shared c ∨ own' i c) (own' i) (sequence body l) := by
        intro l
        induction l with
        | nil => exact fun _ => trivial
        | cons a l ih =>
          intro hl
          refine Within.bind (Within.mono (fun c hc => hc.imp id fun ho => ⟨hi, a, hl a (by simp), ho⟩)
            (fun c ho => ⟨hi, a, hl a (by simp), ho⟩) (hb a)) fun _ => ih fun n hn => hl n (List.mem_cons_of_mem _ hn)
      exact this (its i) fun n hn => hn
    · obtain ⟨m', g1, g2, _⟩ := sequence_spec hsep hb (its i) (hnd.1 i (List.mem_range.2 hi)) m0 m0 (fun _ _ => rfl) r
        fun n hn => h1 n (hmem i hi n hn)
      refine ⟨m', g1, fun c ⟨_, n, hn, ho⟩ => ?_⟩
      rw [g2 n hn c ho]
      exact (h2 n (hmem i hi n hn) c ho).symm
  refine ⟨∑ i ∈ Finset.range T, ((sequence body (its i)).accesses m0), fun n c he => ?_⟩
  have hp := progress hsep' hstart he
  have hbroken : ¬ Broken T c := by
    rintro ⟨i, hi, o, ho, hne⟩
    obtain ⟨r, hr, _⟩ := hp.rest i hi
    rw [ho] at hr
    cases o with
    | ok u => exact hne rfl
    | _ => cases hr
  refine ⟨?_, hbroken, by have := hp.count; omega, ?_, fun hf => ?_⟩
  · rintro ⟨i, hi, j, hj, hij, l, b, hw, ha⟩
    have g1 := within_next (hp.within i hi) hw
    have g2 := within_next (hp.within j hj) ha
    simp only [if_true] at g1
    have g3 : shared l ∨ own' j l := by
      cases b
      · simpa using g2
      · exact Or.inr (by simpa using g2)
    rcases g3 with g3 | g3
    · exact hsep'.shared i l g1 g3
    · exact hij (hsep'.disjoint i j l g1 g3)
  · by_cases hf : Finished T c
    · exact Or.inl hf
    · right
      unfold Finished at hf
      push Not at hf
      obtain ⟨i, hi, hne⟩ := hf
      cases ht : c.threads i with
      | leaf o =>
        refine absurd ⟨i, hi, o, ht, fun ho => hne ?_⟩ hbroken
        rw [ht, ho]
      | read l k => exact ⟨_, .read c i hi l k ht⟩
      | write l v k => exact ⟨_, .write c i hi l v k ht⟩
  · funext l
    by_cases hl : ∃ i < T, own' i l
    · obtain ⟨i, hi, ho⟩ := hl
      obtain ⟨r, hr, hr2⟩ := hp.rest i hi
      rw [hf i hi] at hr
      cases hr
      exact hr2 l ho
    · rw [hp.others l fun i hi ho => hl ⟨i, hi, ho⟩]
      refine (h3 l fun n hn ho => hl ?_).symm
      obtain ⟨i, hi, hin⟩ := List.mem_flatMap.1 (hd.mem_iff.2 (List.mem_range.2 hn))
      exact ⟨i, List.mem_range.1 hi, List.mem_range.1 hi, n, hin, ho⟩

/-! ## Examples -/

/-- Two threads that take the even and the odd iterations. -/
example : Distributed 2 4 (fun i => if i = 0 then [0, 2] else [1, 3]) := by
  unfold Distributed
  decide

/-- `y(n) = 2 * x(n)`; cells `(false, n)` are `x`, `(true, n)` are `y` -/
def double (n : ℕ) : Prog (Bool × ℕ) Unit := do
  let v ← get (false, n)
  Prog.set (true, n) (2 * v)

/-- The hypotheses of `parallel_for` are satisfiable. -/
example : Separated (fun n (l : Bool × ℕ) => l = (true, n)) (fun l => l.1 = false) ∧
    (∀ n, Within (fun l => l.1 = false ∨ l = (true, n)) (fun l => l = (true, n)) (double n)) ∧
    ∃ m, (loop 2 (fun n _ => double n) ()).run (fun l => l.2) = ok ((), m) ∧ m (true, 1) = 2 := by
  refine ⟨⟨fun i j l hi hj => ?_, fun i l hi => ?_⟩, fun n => ⟨Or.inl rfl, fun v => ⟨rfl, trivial⟩⟩, _, rfl, ?_⟩
  · rw [hi] at hj
    exact congrArg Prod.snd hj
  · simp [hi]
  · show 2 * ((1 : ℕ) : ℝ) = 2
    norm_num

/-- `sum += x(n)` for a common variable `sum` -/
def accumulate (n : ℕ) : Prog (Option ℕ) Unit := do
  let s ← get none
  let v ← get (some n)
  Prog.set none (s + v)

/-- The definitions tell a race: a loop with a common accumulator reaches a state with a race, and an end with another result than the
sequential loop. -/
theorem accumulate_race : (∃ n c, Exec 2 (fork accumulate (fun i => [i]) fun _ => 1) n c ∧ Race 2 c) ∧
    ∃ m, (loop 2 (fun n _ => accumulate n) ()).run (fun _ => 1) = ok ((), m) ∧ m none = 3 ∧
      ∃ n c, Exec 2 (fork accumulate (fun i => [i]) fun _ => 1) n c ∧ Finished 2 c ∧ c.mem none = 2 := by
  have e0 := Exec.start (T := 2) (fork accumulate (fun i => [i]) fun _ => 1)
  have e1 := e0.step (.read _ 0 (by norm_num) none _ rfl)
  have e2 := e1.step (.read _ 1 (by norm_num) none _ rfl)
  have e3 := e2.step (.read _ 0 (by norm_num) (some 0) _ rfl)
  have e4 := e3.step (.read _ 1 (by norm_num) (some 1) _ rfl)
  have e5 := e4.step (.write _ 0 (by norm_num) none _ _ rfl)
  have e6 := e5.step (.write _ 1 (by norm_num) none _ _ rfl)
  refine ⟨⟨_, _, e4, 0, by norm_num, 1, by norm_num, by norm_num, none, true, rfl, rfl⟩, _, rfl, ?_, _, _, e6, ?_, ?_⟩
  · show ((1 : ℝ) + 1) + 1 = 3
    norm_num
  · intro i hi
    have : i = 0 ∨ i = 1 := by omega
    rcases this with rfl | rfl <;> rfl
  · show (1 : ℝ) + 1 = 2
    norm_num

end Verif.Par
