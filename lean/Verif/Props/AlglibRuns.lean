import Verif.Props.Alglib

/-!
# Optimisers that wrap ALGLIB: termination, stopping criteria, reuse (C71)
-/

namespace Verif.Alglib

variable {σ τ V J : Type} {M : Method σ τ V J} {O : Object τ} {inv : τ → Prop} {n : ℕ} {f : List ℝ → V} {d : List ℝ → V × J}
  {size : σ → ℕ} {default : Stop}

/-! ## Spec -/

/-- Spec of the library: a positive number of iterations in its conditions is a limit for its counter. -/
def Library.Limits (L : Library σ V J) : Prop :=
  ∀ (f : List ℝ → V) (d : List ℝ → V × J) {a x c s₀ s}, L.create a x c = some s₀ → 0 < c.maxits → Reaches L f d s₀ s →
    L.count s ≤ c.maxits

/-- Spec: two sets of criteria that differ at most in the limits of function evaluations and restarts and in the minimal value. -/
def Stop.SameUsed (s s' : Stop) : Prop :=
  s.maximalIterations = s'.maximalIterations ∧ s.minimalValueDifferences = s'.minimalValueDifferences ∧
    s.minimalSearchSpaceStep = s'.minimalSearchSpaceStep

/-! ## Determinism -/

theorem Looped.unique {o : Opt σ} {t : τ} {r r' : Outcome (Bool × Opt σ × τ)} (h : Looped M O o t r) (h' : Looped M O o t r') :
    r = r' := by
  induction h with
  | ub h0 =>
    cases h' with
    | ub => rfl
    | again h1 => rw [h0] at h1; cases h1
    | returned h1 => rw [h0] at h1; cases h1
    | ended h1 => rw [h0] at h1; cases h1
    | failed h1 => rw [h0] at h1; cases h1
  | again h0 h1 _ ih =>
    cases h' with
    | ub h2 => rw [h0] at h2; cases h2
    | again h2 h3 h4 =>
      rw [h0] at h2; injection h2 with h2; subst h2
      rw [h1] at h3; injection h3 with h3; injection h3 with h3 h5; subst h3 h5
      exact ih h4
    | returned h2 h3 => rw [h0] at h2; injection h2 with h2; subst h2; rw [h1] at h3; cases h3
    | ended h2 h3 => rw [h0] at h2; injection h2 with h2; subst h2; rw [h1] at h3; cases h3
    | failed h2 h3 => rw [h0] at h2; injection h2 with h2; subst h2; exact absurd h1 (h3 _)
  | returned h0 h1 =>
    cases h' with
    | ub h2 => rw [h0] at h2; cases h2
    | again h2 h3 h4 => rw [h0] at h2; injection h2 with h2; subst h2; rw [h1] at h3; cases h3
    | returned h2 h3 =>
      rw [h0] at h2; injection h2 with h2; subst h2
      rw [h1] at h3; injection h3 with h3; injection h3 with h3 h5; subst h3 h5
      rfl
    | ended h2 h3 => rw [h0] at h2; injection h2 with h2; subst h2; rw [h1] at h3; cases h3
    | failed h2 h3 => rw [h0] at h2; injection h2 with h2; subst h2; exact absurd h1 (h3 _)
  | ended h0 h1 =>
    cases h' with
    | ub h2 => rw [h0] at h2; cases h2
    | again h2 h3 h4 => rw [h0] at h2; injection h2 with h2; subst h2; rw [h1] at h3; cases h3
    | returned h2 h3 => rw [h0] at h2; injection h2 with h2; subst h2; rw [h1] at h3; cases h3
    | ended h2 h3 =>
      rw [h0] at h2; injection h2 with h2; subst h2
      rw [h1] at h3; injection h3 with h3; injection h3 with h3 h5; subst h3 h5
      rfl
    | failed h2 h3 => rw [h0] at h2; injection h2 with h2; subst h2; exact absurd h1 (h3 _)
  | failed h0 h1 =>
    cases h' with
    | ub h2 => rw [h0] at h2; cases h2
    | again h2 h3 h4 => rw [h0] at h2; injection h2 with h2; subst h2; exact absurd h3 (h1 _)
    | returned h2 h3 => rw [h0] at h2; injection h2 with h2; subst h2; exact absurd h3 (h1 _)
    | ended h2 h3 => rw [h0] at h2; injection h2 with h2; subst h2; exact absurd h3 (h1 _)
    | failed h2 h3 => rw [h0] at h2; injection h2 with h2; subst h2; rfl

theorem Step.unique {o : Opt σ} {t : τ} {r r' : Outcome (Bool × Opt σ × τ)} (h : Step M O default o t r)
    (h' : Step M O default o t r') : r = r' := by
  cases h with
  | looped h1 h2 =>
    cases h' with
    | looped h3 h4 =>
      rw [h1] at h3
      injection h3 with h3
      subst h3
      exact h2.unique h4
    | failed h3 => exact absurd h1 (h3 _)
  | failed h1 =>
    cases h' with
    | looped h3 h4 => exact absurd h3 (h1 _)
    | failed h3 => rfl

theorem Optimize.unique {signals : ℕ → Bool} {o : Opt σ} {t : τ} {r r' : Outcome (Opt σ × τ)}
    (h : Optimize M O default signals o t r) (h' : Optimize M O default signals o t r') : r = r' := by
  induction h with
  | last h1 =>
    cases h' with
    | last h2 => have := h1.unique h2; simp_all
    | interrupted h2 _ => have := h1.unique h2; simp_all
    | next h2 _ _ => have := h1.unique h2; simp_all
    | failed h2 h3 => exact absurd (h2.unique h1) (h3 _)
  | interrupted h1 h4 =>
    cases h' with
    | last h2 => have := h1.unique h2; simp_all
    | interrupted h2 _ =>
      have := h1.unique h2
      injection this with this
      injection this with _ this
      injection this with a b
      rw [a, b]
    | next h2 h5 _ => rw [h4] at h5; cases h5
    | failed h2 h3 => exact absurd (h2.unique h1) (h3 _)
  | next h1 h4 _ ih =>
    cases h' with
    | last h2 => have := h1.unique h2; simp_all
    | interrupted h2 h5 => rw [h4] at h5; cases h5
    | next h2 h5 h6 =>
      have := h1.unique h2
      injection this with this
      injection this with _ this
      injection this with a b
      subst a b
      exact ih h6
    | failed h2 h3 => exact absurd (h2.unique h1) (h3 _)
  | failed h1 h4 =>
    cases h' with
    | last h2 => exact absurd (h1.unique h2) (h4 _)
    | interrupted h2 _ => exact absurd (h1.unique h2) (h4 _)
    | next h2 _ _ => exact absurd (h1.unique h2) (h4 _)
    | failed h2 h3 => rw [h1.unique h2]

/-! ## `optimize()` ends when the library does -/

theorem loop_solves (hL : M.lib.Sized size) (hC : M.lib.Counts)
    (hO : ∀ o : Opt σ, o.n = n → Computes O (M.access o) inv n f d) (hn : 0 < n) {s s' : σ} (h : Reaches M.lib f d s s')
    (hd : (M.lib.next s').2 = .done) :
    ∀ (o : Opt σ) (t : τ), o.state = some s → o.n = n → size s = n → inv t → 0 ≤ M.lib.count s →
      ∃ r, Looped M O o t r ∧
        ((∃ o' t', r = .ok (false, o', t') ∧ o'.optimum = M.lib.results (M.lib.next s').1 ∧ inv t') ∨
          ∃ o₁ t₁ o' t', r = .ok (true, o₁, t₁) ∧ Optimize M O default (fun _ => false) o₁ t₁ (.ok (o', t')) ∧
            o'.optimum = M.lib.results (M.lib.next s').1 ∧ inv t') := by
  induction h using Relation.ReflTransGen.head_induction_on with
  | refl =>
    intro o t hst hon hs ht _
    rcases pass_spec hL (hO o hon) hon hs ht with ⟨_, h2⟩ | ⟨h3, h2⟩ | ⟨s₁, t₁, h2, _⟩
    · have hr : (M.lib.results (M.lib.next s').1).length = n := by rw [hL.results, hL.next, hs]
      refine ⟨_, .ended hst h2, Or.inl ?_⟩
      cases hset : M.set with
      | false =>
        exact ⟨{ o with state := some (M.lib.next s').1, optimum := M.lib.results (M.lib.next s').1, iteration := -1 }, t, by
          simp [reset, hon, firstEntries_ok hr], rfl, ht⟩
      | true =>
        obtain ⟨t₁, h7, h8, _⟩ := (hO o hon).set ht hr
        exact ⟨{ o with state := some (M.lib.next s').1, optimum := M.lib.results (M.lib.next s').1, iteration := -1 }, t₁, by
          simp [reset, hon, firstEntries_ok hr, h7], rfl, h8⟩
    · rw [hd] at h3; cases h3
    · exact absurd hd h2.not_done
  | @head a c hac hcs ih =>
    intro o t hst hon hs ht hcount
    have hc1 : 0 ≤ M.lib.count c := le_trans hcount (Reaches.count hC (.single hac))
    have hs1 : size c = n := (hac.size hL).trans hs
    rcases pass_spec hL (hO o hon) hon hs ht with ⟨h3, _⟩ | ⟨h3, _⟩ | ⟨s₁, t₁, h2, h3, h4⟩
    · exact absurd h3 hac.not_done
    · cases hac <;> simp_all
    · have := hac.unique h2
      subst this
      rcases h4 with h4 | ⟨_, h4⟩
      · obtain ⟨r, h5, h6⟩ := ih { o with state := some c } t₁ rfl hon hs1 h3 hc1
        exact ⟨r, .again hst h4 h5, h6⟩
      · refine ⟨_, .returned hst h4, Or.inr ?_⟩
        obtain ⟨r, h5, h6⟩ := ih { o with state := some c, iteration := M.lib.count c } t₁ rfl hon hs1 h3 hc1
        have hstep : Step M O default { o with state := some c, iteration := M.lib.count c } t₁ r :=
          .looped (prepare_busy hn hon (not_lt.2 hc1)) h5
        rcases h6 with ⟨o', t', rfl, h7, h8⟩ | ⟨o₂, t₂, o', t', rfl, h7, h8, h9⟩
        · exact ⟨_, _, o', t', rfl, .last hstep, h7, h8⟩
        · exact ⟨_, _, o', t', rfl, .next hstep rfl h7, h8, h9⟩

/-- **C71 (termination)**: if the library, run on the objective alone, ends with `x`, then `optimize()` without interrupt ends,
and every end of it has the optimum `x`. -/
theorem optimize_solves (hL : M.lib.Sized size) (hC : M.lib.Counts)
    (hO : ∀ o : Opt σ, o.n = n → Computes O (M.access o) inv n f d) (hn : 0 < n) {o : Opt σ} {t : τ} (hi : o.iteration = -1)
    (ht : inv t) {s₀ : σ} (hs : M.lib.create (M.arg O o t) (O.current t) (o.stop.cond default) = some s₀) {x : List ℝ}
    (hx : Solves M.lib f d s₀ x) :
    ∃ o' t', Optimize M O default (fun _ => false) o t (.ok (o', t')) ∧ o'.optimum = x ∧
      ∀ r, Optimize M O default (fun _ => false) o t r → r = .ok (o', t') := by
  suffices H : ∃ o' t', Optimize M O default (fun _ => false) o t (.ok (o', t')) ∧ o'.optimum = x by
    obtain ⟨o', t', h1, h2⟩ := H
    exact ⟨o', t', h1, h2, fun r hr => hr.unique h1⟩
  rcases prepare_idle (default := default) hO ht hn (by rw [hi]; norm_num : o.iteration < 0) with ⟨h1, _⟩ | ⟨s, h1, h2⟩
  · rw [hs] at h1; cases h1
  · rw [hs] at h1
    injection h1 with h1
    subst h1
    obtain ⟨s', h3, h4, rfl⟩ := hx
    have hsz : size s₀ = n := (hL.create hs).trans ((hO { o with n := n } rfl).current ht)
    obtain ⟨r, h5, h6⟩ := loop_solves (default := default) hL hC hO hn h3 h4
      { o with n := n, m := M.m O o t, state := some s₀, iteration := if M.start then 0 else o.iteration } t rfl rfl hsz ht
      (le_of_eq (hC.create hs).symm)
    have hstep : Step M O default o t r := .looped h2 h5
    rcases h6 with ⟨o', t', rfl, h7, _⟩ | ⟨o₂, t₂, o', t', rfl, h7, h8, _⟩
    · exact ⟨o', t', .last hstep, h7⟩
    · exact ⟨o', t', .next hstep rfl h7, h8⟩

/-! ## Number of iterations -/

/-- **C71 (budget)**: with a positive limit of iterations, LBFGS and CG finish at most that many iterations (steps that return
`true`), LMA one more. -/
theorem steps_budget (hL : M.lib.Sized size) (hC : M.lib.Counts) (hM : M.lib.Limits)
    (hO : ∀ o : Opt σ, o.n = n → Computes O (M.access o) inv n f d) (hn : 0 < n) {o o' : Opt σ} {t t' : τ} {k : ℕ}
    (h : Session M O default inv o t k o' t') (hi : o.iteration = -1) (ht : inv t)
    (hb : 0 < o.stop.maximalIterations) (hdef : default.maximalIterations = -1) :
    (k : ℤ) ≤ o.stop.maximalIterations + if M.start then 0 else 1 := by
  obtain ⟨_, h2⟩ := session_inv hL hC hO hn h hi ht
  rcases h2 with ⟨rfl, _⟩ | ⟨s₀, s, h3, _, h5, _, h6⟩
  · split <;> simp <;> omega
  · have hc : (o.stop.cond default).maxits = o.stop.maximalIterations := by
      rw [Stop.cond, hdef]
      exact if_pos (by omega)
    have := hM f d h3 (by rw [hc]; exact hb) h5.to_reflTransGen
    rw [hc] at this
    linarith

/-! ## What a run depends on -/

/-- Other values of the members that do not influence the steps. -/
def Opt.upd (p : List ℝ) (q : Stop) (o : Opt σ) : Opt σ := { o with optimum := p, stop := q }

def Pass.upd (p : List ℝ) (q : Stop) : Pass σ τ → Pass σ τ
  | .again o t => .again (o.upd p q) t
  | .returned o t => .returned (o.upd p q) t
  | .ended o t => .ended (o.upd p q) t

/-- The result of a step for other values of these members. -/
def stepUpd (p : List ℝ) (q : Stop) (x : Bool × Opt σ × τ) : Bool × Opt σ × τ :=
  (x.1, if x.1 then x.2.1.upd p q else { x.2.1 with stop := q }, x.2.2)

theorem pass_upd {L : Library σ V J} {A : Access τ V J} (p : List ℝ) (q : Stop) (o : Opt σ) (s : σ) (t : τ) :
    pass L O A (o.upd p q) s t = Pass.upd p q <$> pass L O A o s t := by
  have hA : ∀ s t, afterAnswer L O (o.upd p q) s t = Pass.upd p q <$> afterAnswer L O o s t := by
    intro s t
    unfold afterAnswer
    by_cases h : o.iteration = L.count s
    · simp [Opt.upd, h, Pass.upd]
    · cases O.finishedIteration t <;> simp [Opt.upd, h, Pass.upd, Functor.map, Outcome.bind]
  unfold pass
  cases (L.next s).2 with
  | done => rfl
  | report => rfl
  | other => rfl
  | value =>
    simp only [hA]
    show _ = Pass.upd p q <$> (do
      let p ← firstEntries o.n (L.x (L.next s).1)
      let t₁ ← O.setParameters t p
      let r ← A.value t₁
      afterAnswer L O o (L.putValue (L.next s).1 r.1) r.2)
    simp only [map_bind]
    rfl
  | derivative =>
    simp only [hA, map_bind]
    rfl

theorem reset_upd {L : Library σ V J} (b : Bool) (p : List ℝ) (q : Stop) (o : Opt σ) (t : τ) :
    reset L O b (o.upd p q) t = (fun x : Opt σ × τ => ({ x.1 with stop := q }, x.2)) <$> reset L O b o t := by
  obtain ⟨it, n, m, st, op, sp⟩ := o
  cases st with
  | none => rfl
  | some s =>
    simp only [reset, Opt.upd, map_bind]
    cases b with
    | false => rfl
    | true => simp only [if_true, map_bind]; rfl

theorem Looped.upd (hA : ∀ o o' : Opt σ, o.n = o'.n → M.access o = M.access o') {o : Opt σ} {t : τ}
    {r : Outcome (Bool × Opt σ × τ)} (h : Looped M O o t r) (p : List ℝ) (q : Stop) :
    Looped M O (o.upd p q) t (stepUpd p q <$> r) := by
  induction h with
  | ub h0 => exact .ub h0
  | @again o t s o' t' r h0 h1 _ ih =>
    refine .again (s := s) h0 ?_ ih
    rw [hA (o.upd p q) o rfl, pass_upd, h1]
    rfl
  | @returned o t s o' t' h0 h1 =>
    refine .returned (s := s) h0 ?_
    rw [hA (o.upd p q) o rfl, pass_upd, h1]
    rfl
  | @ended o t s o' t' h0 h1 =>
    have := Looped.ended (M := M) (O := O) (o := o.upd p q) (t := t) (s := s) (o' := o'.upd p q) (t' := t') h0
      (by rw [hA (o.upd p q) o rfl, pass_upd, h1]; rfl)
    rw [reset_upd] at this
    convert this using 1
    cases reset M.lib O M.set o' t' <;> rfl
  | @failed o t s h0 h1 =>
    have := Looped.failed (M := M) (O := O) (o := o.upd p q) (t := t) (s := s) h0 (by
      intro x hx
      rw [hA (o.upd p q) o rfl, pass_upd] at hx
      cases hp : pass M.lib O (M.access o) o s t with
      | ok y => exact h1 y hp
      | throws => rw [hp] at hx; cases hx
      | checkFailed => rw [hp] at hx; cases hx
      | ub => rw [hp] at hx; cases hx)
    rw [hA (o.upd p q) o rfl, pass_upd] at this
    convert this using 1
    cases pass M.lib O (M.access o) o s t <;> rfl

/-- What a method may use of the members: its first argument and `m` depend on `m`, its access on `n`. -/
structure Method.Plain (M : Method σ τ V J) (O : Object τ) : Prop where
  access : ∀ o o' : Opt σ, o.n = o'.n → M.access o = M.access o'
  arg : ∀ (o o' : Opt σ) t, o.m = o'.m → M.arg O o t = M.arg O o' t
  m : ∀ (o o' : Opt σ) t, o.m = o'.m → M.m O o t = M.m O o' t

theorem prepare_upd (hM : M.Plain O) {o o' : Opt σ} {t : τ} (hi : o.iteration = -1) (hi' : o'.iteration = -1) (hm : o.m = o'.m)
    (hc : o.stop.cond default = o'.stop.cond default) :
    prepare M O default o' t = Opt.upd o'.optimum o'.stop <$> prepare M O default o t := by
  have h1 : create M.lib O default (M.arg O o' t) (M.m O o' t) M.start o' t =
      Opt.upd o'.optimum o'.stop <$> create M.lib O default (M.arg O o t) (M.m O o t) M.start o t := by
    unfold create
    rw [hM.arg o o' t hm, hM.m o o' t hm, hc, hi, hi', map_bind]
    congr 1
    funext x
    cases M.lib.create (M.arg O o' t) x (o'.stop.cond default) <;> rfl
  unfold prepare
  rw [if_pos (by rw [hi']; norm_num), if_pos (by rw [hi]; norm_num), h1]
  cases create M.lib O default (M.arg O o t) (M.m O o t) M.start o t with
  | ok y =>
    show (Outcome.check (y.n > 0) >>= fun _ => _) = Opt.upd _ _ <$> (Outcome.check (y.n > 0) >>= fun _ => _)
    cases Outcome.check (y.n > 0) <;> rfl
  | _ => rfl

theorem prepare_upd' (hM : M.Plain O) {o : Opt σ} {p : List ℝ} {q : Stop} {t : τ}
    (hc : o.stop.cond default = q.cond default) :
    prepare M O default (o.upd p q) t = Opt.upd p q <$> prepare M O default o t := by
  have h1 : create M.lib O default (M.arg O (o.upd p q) t) (M.m O (o.upd p q) t) M.start (o.upd p q) t =
      Opt.upd p q <$> create M.lib O default (M.arg O o t) (M.m O o t) M.start o t := by
    unfold create
    rw [hM.arg o (o.upd p q) t rfl, hM.m o (o.upd p q) t rfl, hc, map_bind]
    congr 1
    funext x
    show (match M.lib.create _ x (q.cond default) with | none => _ | some s => _) = _
    cases M.lib.create (M.arg O (o.upd p q) t) x (q.cond default) <;> rfl
  unfold prepare
  by_cases hi : o.iteration < 0
  · rw [if_pos (show (o.upd p q).iteration < 0 from hi), if_pos hi, h1]
    cases create M.lib O default (M.arg O o t) (M.m O o t) M.start o t with
    | ok y =>
      show (Outcome.check (y.n > 0) >>= fun _ => _) = Opt.upd _ _ <$> (Outcome.check (y.n > 0) >>= fun _ => _)
      cases Outcome.check (y.n > 0) <;> rfl
    | _ => rfl
  · rw [if_neg (show ¬ (o.upd p q).iteration < 0 from hi), if_neg hi]
    show (Outcome.check (o.n > 0) >>= fun _ => _) = Opt.upd _ _ <$> (Outcome.check (o.n > 0) >>= fun _ => _)
    cases Outcome.check (o.n > 0) <;> rfl

theorem Step.upd (hM : M.Plain O) {o o' : Opt σ} {p : List ℝ} {q : Stop} {t : τ}
    (hp : prepare M O default o' t = Opt.upd p q <$> prepare M O default o t) {r : Outcome (Bool × Opt σ × τ)}
    (h : Step M O default o t r) : Step M O default o' t (stepUpd p q <$> r) := by
  cases h with
  | looped h1 h2 =>
    rw [h1] at hp
    exact .looped hp (h2.upd hM.access _ _)
  | failed h1 =>
    have h2 : ∀ y, prepare M O default o' t ≠ .ok y := by
      intro y hy
      cases hpo : prepare M O default o t with
      | ok y => exact absurd hpo (h1 y)
      | _ => rw [hy, hpo] at hp; cases hp
    have := Step.failed h2
    convert this using 1
    cases hpo : prepare M O default o t with
    | ok y => exact absurd hpo (h1 y)
    | _ => rw [hp, hpo]; rfl

/-- A step does not change the criteria. -/
theorem Step.stop (hM : M.Plain O) {o o' : Opt σ} {t t' : τ} (h : Step M O default o t (.ok (true, o', t'))) : o'.stop = o.stop := by
  have h1 : Step M O default o t (stepUpd o.optimum o.stop <$> .ok (true, o', t')) :=
    h.upd hM (prepare_upd' hM (o := o) (p := o.optimum) (q := o.stop) rfl)
  have := Outcome.ok.inj (h.unique h1)
  have := congrArg (fun x => x.2.1.stop) this
  exact this

/-- The end of `optimize()` for other criteria. -/
def withStop (q : Stop) (x : Opt σ × τ) : Opt σ × τ := ({ x.1 with stop := q }, x.2)

theorem Optimize.upd (hM : M.Plain O) {signals : ℕ → Bool} {o : Opt σ} {t : τ} {r : Outcome (Opt σ × τ)}
    (h : Optimize M O default signals o t r) : ∀ (o' : Opt σ) (p : List ℝ) (q : Stop), 
    prepare M O default o' t = Opt.upd p q <$> prepare M O default o t → q.cond default = o.stop.cond default →
    Optimize M O default signals o' t (withStop q <$> r) := by
  induction h with
  | last h1 =>
    intro o' p q hp _
    exact .last (h1.upd hM hp)
  | interrupted h1 h2 =>
    intro o' p q hp _
    have := Optimize.interrupted (h1.upd hM hp) h2
    simp only [if_true, reset_upd] at this
    exact this
  | next h1 h2 _ ih =>
    intro o' p q hp hc
    have h3 := h1.stop hM
    refine .next (h1.upd hM hp) h2 (ih _ p q (prepare_upd' hM ?_) ?_)
    · rw [h3, hc]
    · rw [h3, hc]
  | @failed _ _ _ r h1 h2 =>
    intro o' p q hp _
    have h3 := Optimize.failed (signals := ‹_›) (h1.upd hM hp) (by
      intro x hx
      cases r with
      | ok y => exact absurd rfl (h2 y)
      | _ => cases hx)
    convert h3 using 1
    cases r with
    | ok y => exact absurd rfl (h2 y)
    | _ => rfl

/-- **C71 (what matters)**: the end of `optimize()` of an idle optimiser depends only on the object, on `m` and on the three
conditions for the library; it does not depend on earlier runs. -/
theorem optimize_depends (hM : M.Plain O) {signals : ℕ → Bool} {o o' : Opt σ} {t : τ} (hi : o.iteration = -1)
    (hi' : o'.iteration = -1) (hm : o.m = o'.m) (hc : o.stop.cond default = o'.stop.cond default) {r : Outcome (Opt σ × τ)}
    (h : Optimize M O default signals o t r) : Optimize M O default signals o' t (withStop o'.stop <$> r) :=
  h.upd hM o' o'.optimum o'.stop (prepare_upd hM hi hi' hm hc) hc.symm

theorem lbfgs_plain (L : Library σ ℝ (List ℝ)) (O : Object τ) : (lbfgs L O).Plain O :=
  ⟨fun _ _ h => by simp only [lbfgs, h], fun _ _ _ h => by simp only [lbfgs, h], fun _ _ _ h => by simp only [lbfgs, h]⟩

theorem cg_plain (L : Library σ ℝ (List ℝ)) (O : Object τ) : (cg L O).Plain O :=
  ⟨fun _ _ h => by simp only [cg, h], fun _ _ _ _ => rfl, fun _ _ _ h => by simp only [cg, h]⟩

theorem lma_plain (L : Library σ (List ℝ) (List (List ℝ))) (O : Object τ) : (lma L O).Plain O :=
  ⟨fun _ _ _ => rfl, fun _ _ _ _ => rfl, fun _ _ _ h => by simp only [lma, h]⟩

theorem lbfgs_computes {L : Library σ ℝ (List ℝ)} {f : List ℝ → ℝ} {d : List ℝ → ℝ × List ℝ}
    (h : Computes O (scalarAccess O n) inv n f d) (o : Opt σ) (ho : o.n = n) : Computes O ((lbfgs L O).access o) inv n f d := by
  show Computes O (scalarAccess O o.n) inv n f d
  rw [ho]
  exact h

theorem cg_computes {L : Library σ ℝ (List ℝ)} {f : List ℝ → ℝ} {d : List ℝ → ℝ × List ℝ}
    (h : Computes O (scalarAccess O n) inv n f d) (o : Opt σ) (ho : o.n = n) : Computes O ((cg L O).access o) inv n f d := by
  show Computes O (scalarAccess O o.n) inv n f d
  rw [ho]
  exact h

/-- **C71 (ignored criteria)**: limits of function evaluations and restarts and the minimal value have no influence. -/
theorem criteria_ignored (hM : M.Plain O) {signals : ℕ → Bool} {o : Opt σ} {t : τ} (hi : o.iteration = -1) {q : Stop}
    (hq : o.stop.SameUsed q) {r : Outcome (Opt σ × τ)} (h : Optimize M O default signals o t r) :
    Optimize M O default signals { o with stop := q } t (withStop q <$> r) := by
  refine optimize_depends (o' := { o with stop := q }) hM hi hi rfl ?_ h
  simp only [Stop.cond, hq.1, hq.2.1, hq.2.2]

/-- **C71 (negation: a limit of zero iterations)**: is the same as no limit. -/
theorem zero_iterations_fails (hM : M.Plain O) {signals : ℕ → Bool} {o : Opt σ} {t : τ} (hi : o.iteration = -1)
    (ho : o.stop.maximalIterations = default.maximalIterations) {r : Outcome (Opt σ × τ)}
    (h : Optimize M O default signals o t r) :
    Optimize M O default signals { o with stop := { o.stop with maximalIterations := 0 } } t
      (withStop { o.stop with maximalIterations := 0 } <$> r) := by
  refine optimize_depends (o' := { o with stop := { o.stop with maximalIterations := 0 } }) hM hi hi rfl ?_ h
  simp [Stop.cond, ho]

/-! ## Reuse of an optimiser -/

/-- After a run, an optimiser that keeps `m` behaves like a new one. -/
theorem reuse_of {M' : Method σ τ V J} {O' : Object τ} (hM : M'.Plain O') {m : ℤ} {q : Stop} {o : Opt σ}
    (hi : o.iteration = -1) (hm : o.m = m) (hq : o.stop = q) {signals : ℕ → Bool} {t : τ} {r : Outcome (Opt σ × τ)} :
    Optimize M' O' default signals o t r ↔ Optimize M' O' default signals { Opt.new σ m default with stop := q } t r := by
  constructor
  · intro h
    have h1 := optimize_depends (o' := { Opt.new σ m default with stop := q }) hM hi rfl hm (by rw [hq]) h
    have h2 := optimize_depends (o' := o) hM rfl hi hm.symm (by rw [hq]) h1
    have := h.unique h2
    rw [this]
    convert h1 using 1
    cases r <;> simp [withStop, hq, Functor.map, Outcome.bind]
  · intro h
    have h1 := optimize_depends (o' := o) hM rfl hi hm.symm (by rw [hq]) h
    have h2 := optimize_depends (o' := { Opt.new σ m default with stop := q }) hM hi rfl hm (by rw [hq]) h1
    have := h.unique h2
    rw [this]
    convert h1 using 1
    cases r <;> simp [withStop, hq, Functor.map, Outcome.bind]

/-- **C71 (reuse, CG)**: after a run on one problem, `optimize()` does on any other problem what that of a new optimiser with the
same criteria does. -/
theorem cg_reuse {L : Library σ ℝ (List ℝ)} {O O' : Object τ} {inv : τ → Prop} {n : ℕ} {f : List ℝ → ℝ}
    {d : List ℝ → ℝ × List ℝ} (hL : L.Sized size) (hC : L.Counts) (hO : Computes O (scalarAccess O n) inv n f d) (hn : 0 < n)
    {m : ℤ} {q : Stop} {t t₁ : τ} (ht : inv t) {signals : ℕ → Bool} {o : Opt σ}
    (h : Optimize (cg L O) O default signals { Opt.new σ m default with stop := q } t (.ok (o, t₁)))
    {signals' : ℕ → Bool} {t' : τ} {r : Outcome (Opt σ × τ)} :
    Optimize (cg L O') O' default signals' o t' r ↔
      Optimize (cg L O') O' default signals' { Opt.new σ m default with stop := q } t' r := by
  rcases optimize_spec (M := cg L O) hL hC (cg_computes hO) hn rfl ht h with ⟨h1, _⟩ | ⟨o', _, _, h1, _, h2, h3, h4, _⟩
  · cases h1
  · injection h1 with h1
    injection h1 with h1 _
    subst h1
    exact reuse_of (cg_plain L O') h2 h4 h3

/-- **C71 (reuse, LMA)**: as for CG. -/
theorem lma_reuse {L : Library σ (List ℝ) (List (List ℝ))} {O O' : Object τ} {inv : τ → Prop} {n : ℕ} {f : List ℝ → List ℝ}
    {d : List ℝ → List ℝ × List (List ℝ)} (hL : L.Sized size) (hC : L.Counts) (hO : Computes O (vectorAccess O) inv n f d)
    (hn : 0 < n) {m : ℤ} {q : Stop} {t t₁ : τ} (ht : inv t) {signals : ℕ → Bool} {o : Opt σ}
    (h : Optimize (lma L O) O default signals { Opt.new σ m default with stop := q } t (.ok (o, t₁)))
    {signals' : ℕ → Bool} {t' : τ} {r : Outcome (Opt σ × τ)} :
    Optimize (lma L O') O' default signals' o t' r ↔
      Optimize (lma L O') O' default signals' { Opt.new σ m default with stop := q } t' r := by
  rcases optimize_spec (M := lma L O) hL hC (fun _ _ => hO) hn rfl ht h with ⟨h1, _⟩ | ⟨o', _, _, h1, _, h2, h3, h4, _⟩
  · cases h1
  · injection h1 with h1
    injection h1 with h1 _
    subst h1
    exact reuse_of (lma_plain L O') h2 h4 h3

/-- **C71 (reuse, LBFGS)**: as for CG if the first problem has at least `m` parameters. -/
theorem lbfgs_reuse_partial {L : Library σ ℝ (List ℝ)} {O O' : Object τ} {inv : τ → Prop} {n : ℕ} {f : List ℝ → ℝ}
    {d : List ℝ → ℝ × List ℝ} (hL : L.Sized size) (hC : L.Counts) (hO : Computes O (scalarAccess O n) inv n f d) (hn : 0 < n)
    {m : ℤ} (hm : m ≤ n) {q : Stop} {t t₁ : τ} (ht : inv t) {signals : ℕ → Bool} {o : Opt σ}
    (h : Optimize (lbfgs L O) O default signals { Opt.new σ m default with stop := q } t (.ok (o, t₁)))
    {signals' : ℕ → Bool} {t' : τ} {r : Outcome (Opt σ × τ)} :
    Optimize (lbfgs L O') O' default signals' o t' r ↔
      Optimize (lbfgs L O') O' default signals' { Opt.new σ m default with stop := q } t' r := by
  rcases optimize_spec (M := lbfgs L O) hL hC (lbfgs_computes hO) hn rfl ht h with ⟨h1, _⟩ | ⟨o', _, _, h1, _, h2, h3, h4, _⟩
  · cases h1
  · injection h1 with h1
    injection h1 with h1 _
    subst h1
    refine reuse_of (lbfgs_plain L O') h2 ?_ h3
    rw [h4]
    simp only [lbfgs, Opt.new, hO.dimension ht]
    exact min_eq_left hm

/-- **C71 (negation: reuse of LBFGS)**: the number of corrections stays reduced after a problem with fewer than `m` parameters:
for every library that gives different results for the two numbers of corrections, the reused optimiser ends with another
optimum than a new one. -/
theorem lbfgs_reuse_fails {L : Library σ ℝ (List ℝ)} {O O' : Object τ} {inv inv' : τ → Prop} {n n' : ℕ} {f f' : List ℝ → ℝ}
    {d d' : List ℝ → ℝ × List ℝ} (hL : L.Sized size) (hC : L.Counts) (hO : Computes O (scalarAccess O n) inv n f d) (hn : 0 < n)
    (hO' : Computes O' (scalarAccess O' n') inv' n' f' d') (hn' : 0 < n')
    {m : ℤ} {q : Stop} {t t₁ : τ} (ht : inv t) {signals : ℕ → Bool} {o : Opt σ}
    (h : Optimize (lbfgs L O) O default signals { Opt.new σ m default with stop := q } t (.ok (o, t₁)))
    {t' : τ} (ht' : inv' t') {s₀ s₁ : σ} {x y : List ℝ}
    (hs₀ : L.create (min m n') (O'.current t') (q.cond default) = some s₀) (hx : Solves L f' d' s₀ x)
    (hs₁ : L.create (min (min m n) n') (O'.current t') (q.cond default) = some s₁) (hy : Solves L f' d' s₁ y) (hxy : x ≠ y) :
    ∃ o₁ o₂ t₂ t₃, Optimize (lbfgs L O') O' default (fun _ => false) { Opt.new σ m default with stop := q } t' (.ok (o₁, t₂)) ∧
      Optimize (lbfgs L O') O' default (fun _ => false) o t' (.ok (o₂, t₃)) ∧ o₁.optimum ≠ o₂.optimum := by
  rcases optimize_spec (M := lbfgs L O) hL hC (lbfgs_computes hO) hn rfl ht h with ⟨h1, _⟩ | ⟨o', _, _, h1, _, h2, h3, h4, _⟩
  · cases h1
  · injection h1 with h1
    injection h1 with h1 _
    subst h1
    have hdim := hO'.dimension ht'
    obtain ⟨o₁, t₂, a, b, _⟩ := optimize_solves (M := lbfgs L O') (default := default) (o := { Opt.new σ m default with stop := q })
      hL hC (lbfgs_computes hO') hn' rfl ht'
      (by simpa only [lbfgs, Opt.new, hdim] using hs₀) hx
    obtain ⟨o₂, t₃, a', b', _⟩ := optimize_solves (M := lbfgs L O') (default := default) (o := o)
      hL hC (lbfgs_computes hO') hn' h2 ht'
      (by rw [h3]; simp only [lbfgs, hdim, h4]; simpa only [lbfgs, Opt.new, hO.dimension ht] using hs₁) hy
    exact ⟨o₁, o₂, t₂, t₃, a, a', by rw [b, b']; exact hxy⟩

end Verif.Alglib
