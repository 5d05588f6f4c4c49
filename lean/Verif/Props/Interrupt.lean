import Verif.Model.Interrupt
import Mathlib.Tactic.Common
import Mathlib.Data.List.Induction
import Mathlib.Data.List.Infix
import Mathlib.Order.Basic
import Mathlib.Data.Int.Order.Basic

/-!
# C43: interrupt observation protocol

The specification counts objects in the history (`alive`) and looks for signals in the part of the history since the number of
observers became positive; it does not mention the static members.
-/

namespace Verif.Interrupt

/-- Change of the number of existing observers. -/
def delta : Ev → ℤ
  | .construct _ _ => 1
  | .destroy _ _ => -1
  | .copy => 1
  | .query => 0
  | .signal => 0

/-- Number of existing observers after a history. -/
def alive (t : List Ev) : ℤ := (t.map delta).sum

/-- A signal arrives during the event. -/
def hasSignal : Ev → Bool
  | .construct a b => a || b
  | .destroy a b => a || b
  | .signal => true
  | _ => false

/-- Objects are destroyed once: no history has destroyed more observers than were created. -/
def Proper (t : List Ev) : Prop := ∀ p, p <+: t → 0 ≤ alive p

/-- Observers are only created by the constructor. -/
def NoCopy (t : List Ev) : Prop := Ev.copy ∉ t

/-- `seg` is the observation that goes on at the end of the history `pre ++ seg`: it starts when no observer exists and there
is one ever since. -/
def Observation (pre seg : List Ev) : Prop :=
  alive pre = 0 ∧ seg ≠ [] ∧ ∀ p, p <+: seg → p ≠ [] → 0 < alive p

theorem alive_nil : alive [] = 0 := rfl

theorem alive_cons (e : Ev) (t : List Ev) : alive (e :: t) = delta e + alive t := by simp [alive]

theorem alive_append (a b : List Ev) : alive (a ++ b) = alive a + alive b := by simp [alive]

theorem run_append (debug : Bool) (a b : List Ev) (s : State) :
    run debug (a ++ b) s = (run debug a s).bind (run debug b) := by
  induction a generalizing s with
  | nil => rfl
  | cons e a ih =>
    simp only [List.cons_append, run]
    cases step debug s e with
    | running s' => exact ih s'
    | aborted => rfl
    | killed => rfl

theorem bind_running {r : Res} {f : State → Res} {s : State} (h : r.bind f = .running s) :
    ∃ s', r = .running s' ∧ f s' = .running s := by
  cases r with
  | running s' => exact ⟨s', rfl, h⟩
  | aborted => cases h
  | killed => cases h

/-- The state of a process with `n` observers: the handler is installed iff there is one. -/
structure Inv (n : ℤ) (s : State) : Prop where
  observers : s.observers = n
  handler : s.handler = decide (0 < n)
  flag : n = 0 → s.flag = false

theorem raiseIf_running {b : Bool} {s s' : State} (h : raiseIf b s = .running s') :
    s' = { s with flag := s.flag || b } ∧ (b = true → s.handler = true) := by
  obtain ⟨f, o, g⟩ := s
  unfold raiseIf raise at h
  cases b <;> cases g <;> simp_all

/-- One event, for a process that survives it. -/
theorem step_inv {debug : Bool} {n : ℤ} (hn : 0 ≤ n) {s s' : State} {e : Ev} (hc : e ≠ .copy) (hi : Inv n s)
    (h : step debug s e = .running s') (hpos : 0 ≤ n + delta e) :
    Inv (n + delta e) s' ∧ (0 < n + delta e → s'.flag = (s.flag || hasSignal e)) := by
  obtain ⟨f, o, g⟩ := s
  obtain ⟨ho, hg, hf⟩ := hi
  simp only at ho hg hf
  subst ho
  cases e with
  | copy => exact absurd rfl hc
  | query =>
    simp only [step] at h
    split at h
    · cases h
      simp only [delta, Int.add_zero, hasSignal, Bool.or_false]
      exact ⟨⟨rfl, hg, hf⟩, fun _ => trivial⟩
    · cases h
  | signal =>
    simp only [step, raise] at h
    split at h
    · cases h
      rename_i hh
      subst hh
      have : 0 < o := by simpa using hg.symm
      simp only [delta, Int.add_zero, hasSignal, Bool.or_true]
      exact ⟨⟨rfl, hg, fun h0 => by omega⟩, fun _ => trivial⟩
    · cases h
  | construct a b =>
    simp only [step, construct] at h
    split at h
    · cases h
    · obtain ⟨s1, h1, h⟩ := bind_running h
      obtain ⟨s2, h2, h⟩ := bind_running h
      obtain ⟨e1, i1⟩ := raiseIf_running h1
      obtain ⟨e2, i2⟩ := raiseIf_running h2
      cases h
      subst e2
      subst e1
      by_cases h0 : o = 0
      · subst h0
        simp only [install, if_true, delta, hasSignal] at *
        have ha : a = false := by cases a <;> simp_all
        exact ⟨⟨by simp, by simp, by omega⟩, fun _ => by simp [Bool.or_assoc]⟩
      · simp only [install, if_neg h0, delta, hasSignal] at *
        refine ⟨⟨rfl, ?_, by omega⟩, fun _ => by simp [Bool.or_assoc]⟩
        rw [hg, decide_eq_decide]
        omega
  | destroy a b =>
    simp only [step, destroy] at h
    obtain ⟨s1, h1, h⟩ := bind_running h
    obtain ⟨s2, h2, h⟩ := bind_running h
    obtain ⟨e1, i1⟩ := raiseIf_running h1
    obtain ⟨e2, i2⟩ := raiseIf_running h2
    cases h
    subst e2
    subst e1
    simp only [delta] at hpos ⊢
    by_cases h0 : o - 1 = 0
    · simp only [restore, h0, if_true, clear]
      exact ⟨⟨by simp only; omega, by simp; omega, fun _ => rfl⟩, fun hp => by omega⟩
    · simp only [restore, if_neg h0, clear, hasSignal]
      refine ⟨⟨rfl, ?_, by omega⟩, fun _ => by simp [Bool.or_assoc]⟩
      simp only
      rw [hg, decide_eq_decide]
      omega

/-- A history from a process with `n` observers: the invariant, and what the flag says if there is an observer all the time. -/
theorem run_inv {debug : Bool} (t : List Ev) : ∀ {n : ℤ} (_ : 0 ≤ n) {s s' : State} (_ : NoCopy t) (_ : Inv n s)
    (_ : run debug t s = .running s') (_ : ∀ p, p <+: t → 0 ≤ n + alive p),
    Inv (n + alive t) s' ∧ ((∀ p, p <+: t → p ≠ [] → 0 < n + alive p) → s'.flag = (s.flag || t.any hasSignal)) := by
  induction t with
  | nil =>
    intro n hn s s' _ hi h _
    cases h
    exact ⟨by simpa [alive] using hi, fun _ => by simp⟩
  | cons e t ih =>
    intro n hn s s' hc hi h hp
    obtain ⟨s1, h1, h2⟩ := bind_running h
    have hne : e ≠ .copy := fun hh => hc (by rw [hh]; exact List.mem_cons_self)
    have hpos : 0 ≤ n + delta e := by
      have := hp [e] (by simp)
      simpa [alive] using this
    obtain ⟨hi1, hf1⟩ := step_inv hn hne hi h1 hpos
    have hp' : ∀ p, p <+: t → 0 ≤ n + delta e + alive p := by
      intro p hpt
      have := hp (e :: p) (by simpa using hpt)
      rw [alive_cons] at this
      omega
    obtain ⟨hi2, hf2⟩ := ih hpos (fun hm => hc (List.mem_cons_of_mem _ hm)) hi1 h2 hp'
    refine ⟨by rw [alive_cons, ← Int.add_assoc]; exact hi2, fun hall => ?_⟩
    have h0 : 0 < n + delta e := by
      have := hall [e] (by simp) (by simp)
      simpa [alive] using this
    rw [hf2 (fun p hpt hpn => by
      have := hall (e :: p) (by simpa using hpt) (by simp)
      rw [alive_cons] at this
      omega), hf1 h0, List.any_cons, Bool.or_assoc]

theorem initial_inv : Inv 0 State.initial := ⟨rfl, rfl, fun _ => rfl⟩

theorem reachable_inv {debug : Bool} {t : List Ev} (hp : Proper t) (hc : NoCopy t) {s : State}
    (h : run debug t State.initial = .running s) : Inv (alive t) s := by
  have := (run_inv t (Int.le_refl 0) hc initial_inv h (fun p hpt => by simpa using hp p hpt)).1
  simpa using this

/-- **C43 (partial)**: for every history of any number of nested observers, with signals at any place (also inside of the
constructors and destructors), an observer reports an interrupt exactly if one arrived since the observation started.
Missing: copies of observers (`copy_fails`). -/
theorem reports_iff_partial {debug : Bool} {pre seg : List Ev} (hp : Proper (pre ++ seg)) (hc : NoCopy (pre ++ seg))
    (ho : Observation pre seg) {s : State} (h : run debug (pre ++ seg) State.initial = .running s) :
    isSignaled debug s = some (seg.any hasSignal) := by
  obtain ⟨h0, hne, hpos⟩ := ho
  rw [run_append] at h
  obtain ⟨s1, h1, h2⟩ := bind_running h
  have hi := reachable_inv (fun p hpp => hp p (hpp.trans (List.prefix_append _ _)))
    (fun hm => hc (List.mem_append_left _ hm)) h1
  rw [h0] at hi
  obtain ⟨hi2, hf⟩ := run_inv seg (Int.le_refl 0) (fun hm => hc (List.mem_append_right _ hm)) hi h2 (fun p hpp => by
    rcases eq_or_ne p [] with rfl | hpn
    · simp [alive]
    · have := hpos p hpp hpn
      omega)
  have hs := hpos seg (List.prefix_refl _) hne
  have hobs := hi2.observers
  unfold isSignaled
  rw [hf (fun p hpp hpn => by simpa using hpos p hpp hpn), hi.flag rfl, hobs]
  simp [hs]

/-- Whenever an observer exists there is an observation that goes on, so `reports_iff_partial` speaks about every such moment. -/
theorem observation_exists {t : List Ev} (hp : Proper t) (h : 0 < alive t) :
    ∃ pre seg, t = pre ++ seg ∧ Observation pre seg := by
  induction t using List.reverseRecOn with
  | nil => simp [alive] at h
  | append_singleton t e ih =>
    have hpt : Proper t := fun p hpp => hp p (hpp.trans (List.prefix_append _ _))
    have h0 := hpt t (List.prefix_refl _)
    rcases eq_or_lt_of_le h0 with hz | hpos
    · refine ⟨t, [e], rfl, hz.symm, by simp, fun p hpp hpn => ?_⟩
      have : p = [e] := by
        rcases List.prefix_cons_iff.1 hpp with rfl | ⟨q, rfl, hq⟩
        · exact absurd rfl hpn
        · rw [List.prefix_nil.1 hq]
      rw [this]
      rw [alive_append] at h
      omega
    · obtain ⟨pre, seg, rfl, ha, hne, hall⟩ := ih hpt hpos
      refine ⟨pre, seg ++ [e], by simp, ha, by simp, fun p hpp hpn => ?_⟩
      rcases List.prefix_concat_iff.1 hpp with rfl | hq
      · rw [List.append_assoc, alive_append, ha] at h
        omega
      · exact hall p hq hpn

/-- **C43**: when the last observer is destroyed the default handling is restored and the flag is cleared; as long as there is an
observer the handler is installed. -/
theorem restored {debug : Bool} {t : List Ev} (hp : Proper t) (hc : NoCopy t) {s : State}
    (h : run debug t State.initial = .running s) :
    (alive t = 0 → s = State.initial) ∧ (0 < alive t → s.handler = true) := by
  have hi := reachable_inv hp hc h
  obtain ⟨f, o, g⟩ := s
  obtain ⟨ho, hg, hf⟩ := hi
  simp only at ho hg hf
  refine ⟨fun h0 => ?_, fun hpos => by simp [hg, hpos]⟩
  simp [State.initial, ho, hg, hf h0, h0]

/-- **C43**: outside of any observer an interrupt is handled by the default action. -/
theorem unobserved_kills {debug : Bool} {t : List Ev} (hp : Proper t) (hc : NoCopy t) (h0 : alive t = 0) {s : State}
    (h : run debug t State.initial = .running s) : run debug (t ++ [.signal]) State.initial = .killed := by
  rw [run_append, h, (restored hp hc h).1 h0]
  rfl

/-- A process with an observer is not killed by an interrupt. -/
theorem observed_survives {debug : Bool} {t : List Ev} (hp : Proper t) (hc : NoCopy t) (h0 : 0 < alive t) {s : State}
    (h : run debug t State.initial = .running s) :
    ∃ s', run debug (t ++ [.signal]) State.initial = .running s' ∧ isSignaled debug s' = some true := by
  have hi := reachable_inv hp hc h
  refine ⟨{ s with flag := true }, ?_, ?_⟩
  · rw [run_append, h]
    simp [Res.bind, run, step, raise, (restored hp hc h).2 h0]
  · simp [isSignaled, hi.observers, h0]

/-- Creating and destroying a nested observer without an interrupt in between does not change what the others see. -/
theorem nested_quiet {debug : Bool} {t : List Ev} (hp : Proper t) (hc : NoCopy t) (h0 : 0 < alive t) {s : State}
    (h : run debug t State.initial = .running s) (hf : debug = false ∨ s.flag = false) :
    run debug (t ++ [.construct false false, .destroy false false]) State.initial = .running s := by
  have hi := reachable_inv hp hc h
  have ho := hi.observers
  rw [run_append, h]
  obtain ⟨f, o, g⟩ := s
  simp only at ho
  subst ho
  have hz : ¬ alive t = 0 := by omega
  have hd : (debug && f) = false := by rcases hf with hf | hf <;> simp_all
  simp [Res.bind, run, step, construct, destroy, raiseIf, install, restore, clear, hd, hz]

/-- **C43 is false**: observers disturb each other.  After an interrupt nobody may create a nested observer; the process is
aborted, whatever happened before. -/
theorem nested_after_signal_fails {pre seg : List Ev} (hp : Proper (pre ++ seg)) (hc : NoCopy (pre ++ seg))
    (ho : Observation pre seg) {s : State} (h : run true (pre ++ seg) State.initial = .running s)
    (hs : seg.any hasSignal = true) (a b : Bool) :
    run true (pre ++ seg ++ [.construct a b]) State.initial = .aborted := by
  have hq := reports_iff_partial hp hc ho h
  rw [run_append, h]
  unfold isSignaled at hq
  split at hq
  · cases hq
  · rw [hs, Option.some.injEq] at hq
    simp [Res.bind, run, step, construct, hq]

/-- **C43 is false** for copies: the copy is not counted, destroying it ends the observation of the original, and the next
interrupt kills the process although an observer exists. -/
theorem copy_fails (debug : Bool) :
    0 < alive [.construct false false, .copy, .destroy false false] ∧
    run debug [.construct false false, .copy, .destroy false false, .signal] State.initial = .killed := by
  cases debug <;> decide

/-- Two nested observers, an interrupt inside of the inner destructor. -/
example : Proper ([.construct false false, .destroy false false] ++ [.construct false false, .construct false false,
      .destroy true false, .query]) ∧
    NoCopy ([.construct false false, .destroy false false] ++ [.construct false false, .construct false false,
      .destroy true false, .query]) ∧
    Observation [.construct false false, .destroy false false] [.construct false false, .construct false false,
      .destroy true false, .query] ∧
    run true ([.construct false false, .destroy false false] ++ [.construct false false, .construct false false,
      .destroy true false, .query]) State.initial = .running ⟨true, 1, true⟩ := by
  refine ⟨fun p hp => ?_, by unfold NoCopy; decide, ⟨by decide, by decide, fun p hp hn => ?_⟩, by decide⟩
  · rw [← List.mem_inits] at hp
    revert p
    decide
  · rw [← List.mem_inits] at hp
    revert p
    decide

end Verif.Interrupt
