import Verif.Model.SeededNet
import Verif.Props.LoadedFails

/-!
# Random numbers of saved networks come back with the seed: C142

OpenANN/Net.h lines 295-309: `Extreme` layers and random compression matrices are not in the file; to get them back, the
generator has to be seeded alike before the network is constructed and before it is loaded.
-/

namespace Verif.NetSem

open Finset Verif.NN Verif.NetFile Verif.Text

noncomputable section

/-! ## Spec -/

/-- Spec: the weights of the layer are in the parameter vector or in `Hidden`. -/
def Restored : Cmd ℝ → Prop
  | .rbm _ _ _ backprop => backprop = true
  | _ => True

/-- Spec: a layer that keeps multiples of its standard deviation has one whose text denotes the number itself. -/
def Spread (F : NumFormat ℝ) : Cmd ℝ → Prop
  | .extreme _ _ stdDev _ => F.round stdDev = stdDev
  | .intrinsicPlasticity _ stdDev => F.round stdDev = stdDev
  | _ => True

/-- Spec: an `Extreme` layer. -/
def IsExtreme : Cmd ℝ → Prop
  | .extreme .. => True
  | _ => False

/-- Spec: what happens to a network between construction and `save`. -/
inductive Event where
  /-- the generators are used or seeded by anybody -/
  | draw (s : Rng.State)
  /-- the parameters are set, for example by an optimiser -/
  | train (v : List ℝ)
  /-- `initialize()` -/
  | reinitialize (clock : ℕ → ℕ)

/-- Spec: the effect of an event. -/
def Proc.event (S : Source) (p : Proc) : Event → Proc
  | .draw s => { p with rng := s }
  | .train v => { p with net := { p.net with params := v } }
  | .reinitialize clock => p.initialize S clock

/-- Spec: a sequence of events. -/
def Proc.events (S : Source) (p : Proc) (es : List Event) : Proc := es.foldl (Proc.event S) p

/-- Spec: `RandomNumberGenerator().seed(n)` at time `t` in the state `s`. -/
def seeded (n t : ℕ) (s : Rng.State) : Rng.State := Rng.seed s.objects.length n (Rng.construct t s)

/-! ## What is drawn depends on the layers only -/

/-- The layers with the shapes below them. -/
def layerList (net : NetFile.Net ℝ) : List (Cmd ℝ × List ℤ) := (net.layers.map Prod.fst).zip ([] :: net.infos)

/-- Creating the layers in turn. -/
def createAll (S : Source) (clock : ℕ → ℕ) : ℕ → List (Cmd ℝ × List ℤ) → Rng.State → List Hidden × Rng.State
  | _, [], s => ([], s)
  | k, l :: ls, s =>
    ((create S (clock k) l.2 l.1 s).1 :: (createAll S clock (k + 1) ls (create S (clock k) l.2 l.1 s).2).1,
      (createAll S clock (k + 1) ls (create S (clock k) l.2 l.1 s).2).2)

theorem createAll_snoc (S : Source) (clock : ℕ → ℕ) (l : Cmd ℝ × List ℤ) (ls : List (Cmd ℝ × List ℤ)) :
    ∀ (k : ℕ) (s : Rng.State), createAll S clock k (ls ++ [l]) s =
      ((createAll S clock k ls s).1 ++ [(create S (clock (k + ls.length)) l.2 l.1 (createAll S clock k ls s).2).1],
        (create S (clock (k + ls.length)) l.2 l.1 (createAll S clock k ls s).2).2) := by
  induction ls with
  | nil => intro k s; rfl
  | cons a ls ih =>
    intro k s
    simp only [List.cons_append, createAll, ih, List.length_cons]
    rw [show k + 1 + ls.length = k + (ls.length + 1) by omega]

/-- The random numbers of a process that started with state `s` and an empty network. -/
structure Drawn (S : Source) (clock : ℕ → ℕ) (s : Rng.State) (p : Proc) : Prop where
  sizes : p.net.layers.length = p.net.infos.length
  hid : p.hid = (createAll S clock 0 (layerList p.net) s).1
  rng : p.rng = (createAll S clock 0 (layerList p.net) s).2
  count : p.hid.length = p.net.layers.length

theorem drawn_new (S : Source) (clock : ℕ → ℕ) (s : Rng.State) : Drawn S clock s (Proc.new s) := ⟨rfl, rfl, rfl, rfl⟩

/-- The call adds no layer. -/
def NoLayer : Cmd ℝ → Prop
  | .errorFunction _ => True
  | .regularization .. => True
  | _ => False

theorem addLayer_facts {a a' : NetFile.Net ℝ} {c : Cmd ℝ} (h : addLayer a c = .ok a') :
    ∃ d d', lastInfo a c = .ok d ∧ a'.layers = a.layers ++ [(c, a.reg)] ∧ a'.infos = a.infos ++ [d'] := by
  unfold addLayer at h
  obtain ⟨d, h1, h⟩ := Outcome.bind_eq_ok.mp h
  obtain ⟨⟨d', n⟩, h2, h⟩ := Outcome.bind_eq_ok.mp h
  simp only [Outcome.pure_eq, Outcome.ok.injEq] at h
  subst h
  exact ⟨d, d', h1, rfl, rfl⟩

theorem initializeNetwork_facts {init : ℕ → ℝ} {a a' : NetFile.Net ℝ} (h : initializeNetwork init a = .ok a') :
    a'.layers = a.layers ∧ a'.infos = a.infos := by
  unfold initializeNetwork at h
  cases hf : a.infos.head? with
  | none => rw [hf] at h; simp at h
  | some f =>
    cases hl : a.infos.getLast? with
    | none => rw [hf, hl] at h; simp at h
    | some l =>
      rw [hf, hl] at h
      simp only at h
      obtain ⟨n1, _, h⟩ := alloc_bind_ok h
      obtain ⟨n2, _, h⟩ := alloc_bind_ok h
      simp only [Outcome.pure_eq, Outcome.ok.injEq] at h
      subst h
      exact ⟨rfl, rfl⟩

theorem exec_layer {F : NumFormat ℝ} {init : ℕ → ℝ} {a a' : NetFile.Net ℝ} {c : Cmd ℝ} (hc : ¬ NoLayer c)
    (h : exec F init a c = .ok a') :
    ∃ d d', lastInfo a c = .ok d ∧ a'.layers = a.layers ++ [(c, a.reg)] ∧ a'.infos = a.infos ++ [d'] := by
  have out : ∀ {B : NetFile.Net ℝ}, addLayer { a with arch := a.arch ++ c.text F } c = .ok B →
      initializeNetwork init B = .ok a' →
      ∃ d d', lastInfo a c = .ok d ∧ a'.layers = a.layers ++ [(c, a.reg)] ∧ a'.infos = a.infos ++ [d'] := by
    intro B h1 h2
    obtain ⟨d, d', e1, e2, e3⟩ := addLayer_facts h1
    obtain ⟨g1, g2⟩ := initializeNetwork_facts h2
    refine ⟨d, d', ?_, g1.trans e2, g2.trans e3⟩
    rw [← e1]
    cases c <;> rfl
  have add : addLayer { a with arch := a.arch ++ c.text F } c = .ok a' →
      ∃ d d', lastInfo a c = .ok d ∧ a'.layers = a.layers ++ [(c, a.reg)] ∧ a'.infos = a.infos ++ [d'] := by
    intro h1
    obtain ⟨d, d', e1, e2, e3⟩ := addLayer_facts h1
    refine ⟨d, d', ?_, e2, e3⟩
    rw [← e1]
    cases c <;> rfl
  cases c with
  | errorFunction e => exact absurd trivial hc
  | regularization x y z => exact absurd trivial hc
  | output u x s y =>
    obtain ⟨B, h1, h2⟩ := Outcome.bind_eq_ok.mp h
    exact out h1 h2
  | compressedOutput u p x y s z =>
    obtain ⟨B, h1, h2⟩ := Outcome.bind_eq_ok.mp h
    exact out h1 h2
  | _ => exact add h

theorem zip_snoc {α β : Type} (b0 : β) (x : α) (d : β) : ∀ (as : List α) (bs : List β), as.length = bs.length →
    (as ++ [x]).zip (b0 :: (bs ++ [d])) = as.zip (b0 :: bs) ++ [(x, (b0 :: bs).getLast (by simp))] := by
  intro as
  induction as generalizing b0 with
  | nil =>
    intro bs h
    cases bs with
    | nil => rfl
    | cons b bs => simp at h
  | cons a as ih =>
    intro bs h
    cases bs with
    | nil => simp at h
    | cons b bs =>
      have e := ih b bs (by simpa using h)
      simp only [List.cons_append, List.zip_cons_cons]
      rw [e]
      simp only [List.getLast_cons (List.cons_ne_nil b bs)]

/-- Input layers draw nothing, other layers ask for the shape below them. -/
theorem create_last {S : Source} {t : ℕ} {net : NetFile.Net ℝ} {c : Cmd ℝ} {d : List ℤ} (h : lastInfo net c = .ok d)
    (s : Rng.State) : create S t d c s = create S t (([] :: net.infos).getLast (by simp)) c s := by
  cases c with
  | input x y z => rfl
  | _ =>
    simp only [lastInfo] at h
    cases hl : net.infos.getLast? with
    | none => rw [hl] at h; cases h
    | some l =>
      rw [hl] at h
      injection h with h
      subst h
      have hne : net.infos ≠ [] := by
        intro e
        rw [e] at hl
        cases hl
      rw [List.getLast_cons hne]
      rw [List.getLast?_eq_getLast_of_ne_nil hne] at hl
      rw [Option.some.inj hl]

/-- A call, if the network allows it, with its random numbers. -/
theorem exec_lift {F : NumFormat ℝ} {init : ℕ → ℝ} {S : Source} {clock : ℕ → ℕ} {s : Rng.State} {p : Proc} {c : Cmd ℝ}
    {net' : NetFile.Net ℝ} (hp : Drawn S clock s p) (h : NetFile.exec F init p.net c = .ok net') :
    ∃ p', p.exec F init S clock c = .ok p' ∧ p'.net = net' ∧ Drawn S clock s p' := by
  by_cases hc : NoLayer c
  · have hl : net'.layers = p.net.layers ∧ net'.infos = p.net.infos := by
      cases c with
      | errorFunction e =>
        simp only [NetFile.exec, Outcome.ok.injEq] at h
        subst h
        exact ⟨rfl, rfl⟩
      | regularization x y z =>
        simp only [NetFile.exec, Outcome.ok.injEq] at h
        subst h
        exact ⟨rfl, rfl⟩
      | _ => exact absurd hc id
    refine ⟨{ p with net := net' }, ?_, rfl, ?_⟩
    · unfold Proc.exec
      rw [h, Outcome.ok_bind]
      cases c with
      | errorFunction e => rfl
      | regularization x y z => rfl
      | _ => exact absurd hc id
    · have e : layerList net' = layerList p.net := by rw [layerList, layerList, hl.1, hl.2]
      exact ⟨by show net'.layers.length = net'.infos.length; rw [hl.1, hl.2]; exact hp.sizes,
        by show p.hid = (createAll S clock 0 (layerList net') s).1; rw [e]; exact hp.hid,
        by show p.rng = (createAll S clock 0 (layerList net') s).2; rw [e]; exact hp.rng,
        by show p.hid.length = net'.layers.length; rw [hl.1]; exact hp.count⟩
  · obtain ⟨d, d', h1, h2, h3⟩ := exec_layer hc h
    refine ⟨⟨net', p.hid ++ [(create S (clock p.hid.length) d c p.rng).1], (create S (clock p.hid.length) d c p.rng).2⟩, ?_, rfl, ?_⟩
    · unfold Proc.exec
      rw [h, Outcome.ok_bind]
      cases c with
      | errorFunction e => exact absurd trivial hc
      | regularization x y z => exact absurd trivial hc
      | _ => rw [h1]; rfl
    · have e : layerList net' = layerList p.net ++ [(c, ([] :: p.net.infos).getLast (by simp))] := by
        rw [layerList, h2, h3, List.map_append]
        exact zip_snoc _ _ _ _ _ (by rw [List.length_map]; exact hp.sizes)
      have hlen : (layerList p.net).length = p.hid.length := by
        rw [layerList, List.length_zip, List.length_map, List.length_cons, hp.count, hp.sizes]
        omega
      have key := createAll_snoc S clock (c, ([] :: p.net.infos).getLast (by simp)) (layerList p.net) 0 s
      rw [hlen, ← hp.hid, ← hp.rng, Nat.zero_add] at key
      simp only at key
      rw [← create_last h1] at key
      refine ⟨?_, ?_, ?_, ?_⟩
      · show net'.layers.length = net'.infos.length
        rw [h2, h3, List.length_append, List.length_append, hp.sizes]
        rfl
      · show _ = (createAll S clock 0 (layerList net') s).1
        rw [e, key]
      · show _ = (createAll S clock 0 (layerList net') s).2
        rw [e, key]
      · show (p.hid ++ [_]).length = net'.layers.length
        rw [h2, List.length_append, List.length_append, hp.count]
        rfl

theorem exec_net {F : NumFormat ℝ} {init : ℕ → ℝ} {S : Source} {clock : ℕ → ℕ} {p p' : Proc} {c : Cmd ℝ}
    (h : p.exec F init S clock c = .ok p') : NetFile.exec F init p.net c = .ok p'.net := by
  unfold Proc.exec at h
  obtain ⟨net', h1, h⟩ := Outcome.bind_eq_ok.mp h
  rw [h1]
  cases c with
  | errorFunction e =>
    simp only [Outcome.pure_eq, Outcome.ok.injEq] at h
    rw [← h]
  | regularization x y z =>
    simp only [Outcome.pure_eq, Outcome.ok.injEq] at h
    rw [← h]
  | _ =>
    obtain ⟨d, _, h⟩ := Outcome.bind_eq_ok.mp h
    simp only [Outcome.pure_eq, Outcome.ok.injEq] at h
    rw [← h]

theorem run_net {F : NumFormat ℝ} {init : ℕ → ℝ} {S : Source} {clock : ℕ → ℕ} {s : Rng.State} :
    ∀ {cs : List (Cmd ℝ)} {p p' : Proc}, Drawn S clock s p → p.run F init S clock cs = .ok p' →
      NetFile.run F init cs p.net = .ok p'.net ∧ Drawn S clock s p' := by
  intro cs
  induction cs with
  | nil =>
    intro p p' hp h
    injection h with h
    subst h
    exact ⟨rfl, hp⟩
  | cons c cs ih =>
    intro p p' hp h
    obtain ⟨p1, h1, h2⟩ := Outcome.bind_eq_ok.mp h
    have e := exec_net h1
    obtain ⟨p2, g1, g2, g3⟩ := exec_lift hp e
    rw [h1] at g1
    injection g1 with g1
    subst g1
    obtain ⟨i1, i2⟩ := ih g3 h2
    exact ⟨by rw [NetFile.run, e, Outcome.ok_bind, i1], i2⟩

theorem run_lift {F : NumFormat ℝ} {init : ℕ → ℝ} {S : Source} {clock : ℕ → ℕ} {s : Rng.State} :
    ∀ {cs : List (Cmd ℝ)} {p : Proc} {net' : NetFile.Net ℝ}, Drawn S clock s p → NetFile.run F init cs p.net = .ok net' →
      ∃ p', p.run F init S clock cs = .ok p' ∧ p'.net = net' ∧ Drawn S clock s p' := by
  intro cs
  induction cs with
  | nil =>
    intro p net' hp h
    injection h with h
    exact ⟨p, rfl, h, hp⟩
  | cons c cs ih =>
    intro p net' hp h
    obtain ⟨n1, h1, h2⟩ := Outcome.bind_eq_ok.mp h
    obtain ⟨p1, g1, g2, g3⟩ := exec_lift (S := S) (clock := clock) hp h1
    obtain ⟨p', i1, i2, i3⟩ := ih g3 (g2 ▸ h2)
    exact ⟨p', by rw [Proc.run, g1, Outcome.ok_bind, i1], i2, i3⟩

theorem loadStep_lift {F : NumFormat ℝ} {init : ℕ → ℝ} {S : Source} {clock : ℕ → ℕ} {s : Rng.State} {p : Proc} {type type' : List Char}
    {i i' : IStream} {net' : NetFile.Net ℝ} (hp : Drawn S clock s p)
    (h : NetFile.loadStep F init p.net type i = .ok (net', type', i')) :
    ∃ p', p.loadStep F init S clock type i = .ok (p', type', i') ∧ p'.net = net' ∧ Drawn S clock s p' := by
  unfold NetFile.loadStep NetFile.dispatch at h
  unfold Proc.loadStep Proc.dispatch
  cases hk : kinds.find? (fun k => k.word = (extractWord i).1.getD type) with
  | some k =>
    rw [hk] at h
    simp only at h ⊢
    obtain ⟨cmd, h1, h⟩ := Outcome.bind_eq_ok.mp h
    obtain ⟨n1, h2, h⟩ := Outcome.bind_eq_ok.mp h
    simp only [Outcome.pure_eq, Outcome.ok.injEq, Prod.mk.injEq] at h
    obtain ⟨rfl, rfl, rfl⟩ := h
    obtain ⟨p', g1, g2, g3⟩ := exec_lift (S := S) (clock := clock) hp h2
    refine ⟨p', ?_, g2, g3⟩
    rw [h1, Outcome.ok_bind, g1, Outcome.ok_bind]
    rfl
  | none =>
    rw [hk] at h
    simp only at h ⊢
    split at h
    · rename_i ht
      obtain ⟨r, h1, h⟩ := Outcome.bind_eq_ok.mp h
      simp only [Outcome.pure_eq, Outcome.ok.injEq, Prod.mk.injEq] at h
      obtain ⟨rfl, rfl, rfl⟩ := h
      refine ⟨{ p with net := r.1 }, by rw [if_pos ht, h1, Outcome.ok_bind]; rfl, rfl, ?_⟩
      have hl : r.1.layers = p.net.layers ∧ r.1.infos = p.net.infos := by
        unfold loadParameters at h1
        split at h1
        · cases h1
        · split at h1
          · injection h1 with h1
            subst h1
            exact ⟨rfl, rfl⟩
          · cases h1
      have e : layerList r.1 = layerList p.net := by rw [layerList, layerList, hl.1, hl.2]
      exact ⟨by show r.1.layers.length = r.1.infos.length; rw [hl.1, hl.2]; exact hp.sizes,
        by show p.hid = (createAll S clock 0 (layerList r.1) s).1; rw [e]; exact hp.hid,
        by show p.rng = (createAll S clock 0 (layerList r.1) s).2; rw [e]; exact hp.rng,
        by show p.hid.length = r.1.layers.length; rw [hl.1]; exact hp.count⟩
    · cases h

/-- `load` with its random numbers. -/
theorem loads_lift {F : NumFormat ℝ} {init : ℕ → ℝ} {S : Source} {clock : ℕ → ℕ} {s : Rng.State} {p : Proc} {i : IStream}
    {net' : NetFile.Net ℝ} (hp : Drawn S clock s p) (h : NetFile.Loads F init p.net i (.ok net')) :
    ∃ p', p.Loads F init S clock i (.ok p') ∧ p'.net = net' ∧ Drawn S clock s p' := by
  obtain ⟨fuel, h⟩ := h
  suffices H : ∀ (fuel : ℕ) (p : Proc) (type : List Char) (i : IStream), Drawn S clock s p →
      NetFile.loadLoop F init fuel p.net type i = some (.ok net') →
      ∃ p', p.loadLoop F init S clock fuel type i = some (.ok p') ∧ p'.net = net' ∧ Drawn S clock s p' by
    obtain ⟨p', g1, g2, g3⟩ := H fuel p [] i hp h
    exact ⟨p', ⟨fuel, g1⟩, g2, g3⟩
  intro fuel
  induction fuel with
  | zero =>
    intro p type i hp h
    unfold NetFile.loadLoop at h
    unfold Proc.loadLoop
    split at h
    · rename_i he
      simp only [Option.some.injEq, Outcome.ok.injEq] at h
      exact ⟨p, if_pos he, h, hp⟩
    · cases h
  | succ fuel ih =>
    intro p type i hp h
    unfold NetFile.loadLoop at h
    unfold Proc.loadLoop
    split at h
    · rename_i he
      simp only [Option.some.injEq, Outcome.ok.injEq] at h
      exact ⟨p, if_pos he, h, hp⟩
    · rename_i he
      cases hs : NetFile.loadStep F init p.net type i with
      | ok r =>
        obtain ⟨n1, t1, i1⟩ := r
        rw [hs] at h
        simp only at h
        obtain ⟨p1, g1, g2, g3⟩ := loadStep_lift (S := S) (clock := clock) hp hs
        obtain ⟨p', j1, j2, j3⟩ := ih p1 t1 i1 g3 (g2 ▸ h)
        exact ⟨p', by rw [if_neg he, g1]; exact j1, j2, j3⟩
      | throws => rw [hs] at h; cases h
      | checkFailed => rw [hs] at h; cases h
      | ub => rw [hs] at h; cases h

/-! ## Equal seeds give equal numbers -/

theorem seeded_crand (n t : ℕ) (s : Rng.State) : (seeded n t s).crand = (n, 0) := rfl

theorem seeded_started (n t : ℕ) (s : Rng.State) : (seeded n t s).seedInitialized = true := rfl

/-- A program that seeded the generator keeps that seed. -/
theorem started_crand {t : ℕ} {c : Cmd ℝ} {s : Rng.State} (hs : s.seedInitialized = true) :
    (started t c s).crand = s.crand ∧ (started t c s).seedInitialized = true := by
  unfold started
  split
  · simp [Rng.construct, hs]
  · exact ⟨rfl, hs⟩

theorem hiddenOf_same (F : NumFormat ℝ) (S : Source) {s s' : Rng.State} (h : s.crand = s'.crand) {c : Cmd ℝ} (hc : Spread F c) :
    hiddenOf S s' (c.round F) = hiddenOf S s c := by
  have hraw : S.raw s' = S.raw s := by
    funext k
    rw [Source.raw, Source.raw, h]
  have hn : S.normalAt s' = S.normalAt s := by
    funext k
    rw [Source.normalAt, Source.normalAt, hraw]
  have hcomp : ∀ t M, S.compression s' t M = S.compression s t M := by
    intro t M
    cases t <;> simp only [Source.compression, hn, hraw]
  cases c with
  | extreme u a sd b =>
    have hsd : F.round sd = sd := hc
    have hf : S.filled s' u.toNat sd = S.filled s u.toNat sd := by
      funext j i
      rw [Source.filled, Source.filled, hn]
    simp only [Cmd.round, hiddenOf, hf, hsd]
  | intrinsicPlasticity m sd =>
    have hsd : F.round sd = sd := hc
    simp only [Cmd.round, hiddenOf, hn, hsd]
  | compressed u p a c sd b => simp only [Cmd.round, hiddenOf, hcomp]
  | compressedOutput u p a c sd b => simp only [Cmd.round, hiddenOf, hcomp]
  | _ => rfl

/-- How much is drawn does not depend on the standard deviations. -/
theorem calls_round (F : NumFormat ℝ) (dims : List ℤ) (c : Cmd ℝ) :
    constructorCalls dims (c.round F) + initializeCalls dims (c.round F) = constructorCalls dims c + initializeCalls dims c := by
  cases c <;> rfl

theorem createAll_same (F : NumFormat ℝ) (S : Source) (clock clock' : ℕ → ℕ) :
    ∀ (ls : List (Cmd ℝ × List ℤ)) (k : ℕ) {s s' : Rng.State}, s.crand = s'.crand → s.seedInitialized = true →
      s'.seedInitialized = true → (∀ l ∈ ls, Spread F l.1) →
      (createAll S clock' k (ls.map fun l => (l.1.round F, l.2)) s').1 = (createAll S clock k ls s).1 := by
  intro ls
  induction ls with
  | nil => intro k s s' _ _ _ _; rfl
  | cons l ls ih =>
    intro k s s' h hs hs' hl
    simp only [List.map_cons, createAll]
    obtain ⟨a1, a2⟩ := started_crand (t := clock k) (c := l.1) hs
    obtain ⟨b1, b2⟩ := started_crand (t := clock' k) (c := l.1.round F) hs'
    have hc : (started (clock k) l.1 s).crand = (started (clock' k) (l.1.round F) s').crand := by rw [a1, b1, h]
    rw [ih (k + 1) (s := (create S (clock k) l.2 l.1 s).2) (s' := (create S (clock' k) l.2 (l.1.round F) s').2) ?_ a2 b2 fun x hx => hl x (List.mem_cons_of_mem _ hx)]
    · congr 1
      exact hiddenOf_same F S hc (hl l List.mem_cons_self)
    · show ((started (clock k) l.1 s).crand.1, (started (clock k) l.1 s).crand.2 + _) =
        ((started (clock' k) (l.1.round F) s').crand.1, (started (clock' k) (l.1.round F) s').crand.2 + _)
      rw [hc, calls_round]

/-! ## Events -/

theorem redrawAll_hid (S : Source) (clock : ℕ → ℕ) : ∀ (ls : List (Cmd ℝ × NetFile.Reg ℝ)) (k : ℕ) (dims : List ℤ) (ds : List (List ℤ))
    (hs : List Hidden) (s : Rng.State), (∀ l ∈ ls, ¬ IsExtreme l.1) → (redrawAll S clock k dims ls ds hs s).1 = hs := by
  intro ls
  induction ls with
  | nil => intro k dims ds hs s _; simp [redrawAll]
  | cons l ls ih =>
    intro k dims ds hs s hl
    cases ds with
    | nil => simp [redrawAll]
    | cons d ds =>
      cases hs with
      | nil => simp [redrawAll]
      | cons h hs =>
        simp only [redrawAll]
        rw [ih _ _ _ _ _ fun x hx => hl x (List.mem_cons_of_mem _ hx)]
        congr 1
        have := hl l List.mem_cons_self
        unfold redraw
        cases hc : l.1 with
        | extreme u a sd b => rw [hc] at this; exact absurd trivial this
        | _ => rfl

theorem events_facts (S : Source) : ∀ (es : List Event) (p : Proc),
    (∀ l ∈ p.net.layers, IsExtreme l.1 → ∀ clock, Event.reinitialize clock ∉ es) →
    (p.events S es).hid = p.hid ∧ ∃ v, (p.events S es).net = { p.net with params := v } := by
  intro es
  induction es with
  | nil => intro p _; exact ⟨rfl, p.net.params, rfl⟩
  | cons e es ih =>
    intro p h
    have hrec : ∀ l ∈ (p.event S e).net.layers, IsExtreme l.1 → ∀ clock, Event.reinitialize clock ∉ es := by
      have : (p.event S e).net.layers = p.net.layers := by cases e <;> rfl
      rw [this]
      exact fun l hl hx clock hm => h l hl hx clock (List.mem_cons_of_mem _ hm)
    obtain ⟨i1, v, i2⟩ := ih (p.event S e) hrec
    have e0 : p.events S (e :: es) = (p.event S e).events S es := rfl
    rw [e0, i1, i2]
    cases e with
    | draw s => exact ⟨rfl, v, rfl⟩
    | train w => exact ⟨rfl, v, rfl⟩
    | reinitialize clock =>
      refine ⟨redrawAll_hid S clock _ _ _ _ _ _ ?_, v, rfl⟩
      intro l hl hx
      exact h l hl hx clock List.mem_cons_self

/-! ## Main theorems -/

theorem kindOf_restored {c : Cmd ℝ} (hc : Restored c) {h : Hidden} {dims : List ℤ} {r : NetFile.Reg ℝ} {k : NN.Kind}
    (hk : kindOf h dims r c = some k) : k.Visible := by
  cases c with
  | rbm H cd s bp =>
    injection hk with hk
    subst hk
    exact hc
  | convolutional f kr kc a s b =>
    simp only [kindOf] at hk
    split at hk
    · injection hk with hk
      subst hk
      trivial
    · cases hk
  | subsampling kr kc a s b =>
    simp only [kindOf] at hk
    split at hk
    · injection hk with hk
      subst hk
      trivial
    · cases hk
  | maxPooling kr kc =>
    simp only [kindOf] at hk
    split at hk
    · injection hk with hk
      subst hk
      trivial
    · cases hk
  | localResponseNormalization kk nn al be =>
    simp only [kindOf] at hk
    split at hk
    · injection hk with hk
      subst hk
      trivial
    · cases hk
  | input a b c => cases hk
  | alphaBetaFilter a b => cases hk
  | errorFunction e => cases hk
  | regularization a b c => cases hk
  | _ =>
    injection hk with hk
    subst hk
    trivial

theorem kindsFrom_restored {hid : ℕ → Hidden} :
    ∀ {ls : List (Cmd ℝ × NetFile.Reg ℝ)} {ds : List (List ℤ)} {dims : List ℤ} {k : ℕ} {ks : List NN.Kind},
      (∀ l ∈ ls, Restored l.1) → kindsFrom hid k dims ls ds = some ks → ∀ a ∈ ks, a.Visible := by
  intro ls
  induction ls with
  | nil =>
    intro ds dims k ks _ hk
    cases ds with
    | nil =>
      injection hk with hk
      subst hk
      intro a ha
      cases ha
    | cons d ds => cases hk
  | cons l ls ih =>
    intro ds dims k ks h hk
    cases ds with
    | nil => cases hk
    | cons d ds =>
      simp only [kindsFrom, Option.bind_eq_bind, Option.bind_eq_some_iff] at hk
      obtain ⟨a, ha, as, has, hk⟩ := hk
      injection hk with hk
      subst hk
      intro b hb
      rcases List.mem_cons.1 hb with rfl | hb
      · exact kindOf_restored (h l List.mem_cons_self) ha
      · exact ih (fun l hl => h l (List.mem_cons_of_mem _ hl)) has b hb

theorem sem_restored {A : NetFile.Net ℝ} {hid : ℕ → Hidden} {Z : Sem} (h : sem hid A = some Z) (hr : ∀ l ∈ A.layers, Restored l.1) :
    ∀ k ∈ Z.kinds, k.Visible := by
  unfold sem at h
  split at h
  · rename_i a b c r ls d ds e1 e2
    split at h
    · simp only [Option.map_eq_some_iff] at h
      obtain ⟨ks, h1, rfl⟩ := h
      exact kindsFrom_restored (fun l hl => hr l (e1 ▸ List.mem_cons_of_mem _ hl)) h1
    · cases h
  · cases h

theorem layerList_round (F : NumFormat ℝ) {a b : NetFile.Net ℝ} (hl : b.layers = a.layers.map fun l => (l.1.round F, l.2.round F))
    (hi : b.infos = a.infos) : layerList b = (layerList a).map fun l => (l.1.round F, l.2) := by
  rw [layerList, layerList, hl, hi]
  generalize ([] :: a.infos) = ds
  induction a.layers generalizing ds with
  | nil => rfl
  | cons l ls ih =>
    cases ds with
    | nil => rfl
    | cons d ds =>
      simp only [List.map_cons, List.zip_cons_cons]
      rw [ih ds]

theorem layerList_mem {a : NetFile.Net ℝ} {l : Cmd ℝ × List ℤ} (h : l ∈ layerList a) : ∃ r, (l.1, r) ∈ a.layers := by
  obtain ⟨x, hx, hx'⟩ := List.mem_map.1 (List.of_mem_zip (show (l.1, l.2) ∈ _ from h)).1
  exact ⟨x.2, by rw [← hx']; exact hx⟩

/-- The numbers of the loaded network. -/
theorem recipe_hidden (F : NumFormat ℝ) (init init' : ℕ → ℝ) (S : Source) (clock clock' : ℕ → ℕ) (n t t' : ℕ) (s s' : Rng.State)
    (cs : List (Cmd ℝ)) (hcs : ∀ c ∈ cs, c.WordArgs) {p : Proc} (hrun : (Proc.new (seeded n t s)).run F init S clock cs = .ok p)
    {P : ℕ} (hp : p.net.P = some P) (hsp : ∀ c ∈ cs, Spread F c) (v : List ℝ) (hv : v.length = P) :
    ∃ q, (Proc.new (seeded n t' s')).Loads F init' S clock' (IStream.of (save F { p.net with params := v })) (.ok q) ∧
      q.hid = p.hid ∧ SameStructure F { p.net with params := v } q.net ∧ q.net.params = v.map F.round := by
  obtain ⟨hrun', hdp⟩ := run_net (drawn_new S clock _) hrun
  obtain ⟨saved, loaded, h1, h2, h3, h4, _⟩ := net_round_trip F init init' cs hcs hrun' hp v hv
  have hs : saved = { p.net with params := v } := by
    rw [setParameters, hp] at h1
    simp only [hv, le_refl, if_true, Outcome.ok.injEq] at h1
    rw [← h1, ← hp]
  subst hs
  obtain ⟨q, q1, q2, q3⟩ := loads_lift (S := S) (clock := clock') (drawn_new S clock' (seeded n t' s')) h2
  subst q2
  refine ⟨q, q1, ?_, h3, h4⟩
  have hlay : p.net.layers = layersOf (empty : NetFile.Net ℝ).reg cs := (run_layers F init cs hrun').1
  rw [q3.hid, hdp.hid, layerList_round F (a := p.net) h3.layers h3.infos]
  refine createAll_same F S clock clock' _ 0 (s := seeded n t s) (s' := seeded n t' s') rfl rfl rfl fun l hl => ?_
  obtain ⟨r, hr⟩ := layerList_mem hl
  rw [hlay] at hr
  exact hsp _ (layersOf_mem hr).1

/-- **C142**: seed the generator with `n`, construct a network (any calls `cs`), let anything happen to it (`es`: training,
random numbers drawn or seeded by anybody, `initialize()` unless there is an `Extreme` layer), save it, seed with `n` again in any
process, and load it.  All random numbers of the layers are those of the saved network, and for every batch the loaded
network gives exactly the outputs of the saved one with the numbers that the texts in the file denote.  `IntrinsicPlasticity`
layers must not have been trained, RBMs must take part in backpropagation. -/
theorem recipe_predicts (F : NumFormat ℝ) (init init' : ℕ → ℝ) (S : Source) (clock clock' : ℕ → ℕ) (n t t' : ℕ) (s s' : Rng.State)
    (cs : List (Cmd ℝ)) (hcs : ∀ c ∈ cs, c.WordArgs) {p : Proc} (hrun : (Proc.new (seeded n t s)).run F init S clock cs = .ok p)
    (hp : p.net.P = some p.net.nParams) (hd : Described p.net.layers) (hr : ∀ c ∈ cs, Restored c) (hsp : ∀ c ∈ cs, Spread F c)
    (es : List Event) (hes : ∀ c ∈ cs, IsExtreme c → ∀ clock, Event.reinitialize clock ∉ es)
    (hv : (p.events S es).net.params.length = p.net.nParams) :
    ∃ q Z, (Proc.new (seeded n t' s')).Loads F init' S clock' (IStream.of (save F (p.events S es).net)) (.ok q) ∧
      q.hid = (p.events S es).hid ∧
      sem (p.events S es).hidden (roundNet F (p.events S es).net) = some Z ∧ sem q.hidden q.net = some Z ∧
      ∀ (mem mem' : Mem) (N : ℕ) (X : Batch) (i : ℕ), ∀ j < Z.net.outputs,
        Z.predict mem' q.net.params N X i j = Z.predict mem (roundNet F (p.events S es).net).params N X i j := by
  obtain ⟨hrun', hdp⟩ := run_net (drawn_new S clock _) hrun
  have hlay : p.net.layers = layersOf (empty : NetFile.Net ℝ).reg cs := (run_layers F init cs hrun').1
  obtain ⟨ev1, v, ev2⟩ := events_facts S es p fun l hl => hes _ (layersOf_mem (hlay ▸ hl)).1
  rw [ev2] at hv ⊢
  simp only at hv
  obtain ⟨q, q1, q2, q3, q4⟩ := recipe_hidden F init init' S clock clock' n t t' s s' cs hcs hrun hp hsp v hv
  have hhid : q.hidden = (p.events S es).hidden := by
    funext k
    rw [Proc.hidden, Proc.hidden, q2, ev1]
  have hinv : Inv p.net := Inv.run (Or.inl ⟨rfl, rfl, rfl⟩) hrun'
  obtain ⟨a, b, c, r, ls, e, ha, hb, hc, ho⟩ := hd
  obtain ⟨A, hA⟩ : ∃ A, A = roundNet F { p.net with params := v } := ⟨_, rfl⟩
  have hR : A.layers = p.net.layers.map fun l => (l.1.round F, l.2.round F) := by rw [hA]; rfl
  have hinv' : Inv A := by
    rw [hA]
    exact Inv.roundNet F hinv
  have hdesc : Described A.layers := by
    refine ⟨a, b, c, r.round F, ls.map fun l => (l.1.round F, l.2.round F), by rw [hR, e]; rfl, ha, hb, hc, ?_⟩
    intro l hl
    obtain ⟨l', hl', rfl⟩ := List.mem_map.1 hl
    obtain ⟨o1, o2⟩ := ho l' hl'
    constructor
    · intro x y z he
      cases hcmd : l'.1 <;> simp [hcmd, Cmd.round] at he
      exact o1 _ _ _ hcmd
    · intro x y he
      cases hcmd : l'.1 <;> simp [hcmd, Cmd.round] at he
      exact o2 _ _ hcmd
  have hlr : ∀ l ∈ A.layers, Restored l.1 ∧ (∀ e, l.1 ≠ .errorFunction e) ∧
      ∀ x y z, l.1 ≠ .regularization x y z := by
    intro l hl
    rw [hR] at hl
    obtain ⟨l', hl', rfl⟩ := List.mem_map.1 hl
    rw [hlay] at hl'
    obtain ⟨m1, m2, m3⟩ := layersOf_mem hl'
    refine ⟨?_, ?_, ?_⟩
    · have := hr _ m1
      cases hcmd : l'.1 <;> rw [hcmd] at this <;> exact this
    · intro x he
      cases hcmd : l'.1 <;> simp [hcmd, Cmd.round] at he
      exact m2 _ hcmd
    · intro x y z he
      cases hcmd : l'.1 <;> simp [hcmd, Cmd.round] at he
      exact m3 _ _ _ hcmd
  obtain ⟨Z, s1, s2, s3, _⟩ := sem_facts hinv' hdesc (fun l hl => (hlr l hl).2) (p.events S es).hidden
  have hvis := sem_restored s1 fun l hl => (hlr l hl).1
  refine ⟨q, Z, q1, q2.trans ev1.symm, hA ▸ s1, ?_, ?_⟩
  · rw [hhid, ← s1, hA]
    exact sem_congr (B := roundNet F { p.net with params := v }) q3.layers q3.infos q3.errFn _
  · intro mem mem' N X i j hj
    rw [q4]
    show Z.predict mem' (v.map F.round) N X i j = Z.predict mem (v.map F.round) N X i j
    refine parameters_determine Z.ce s2 hvis mem' mem ?_ N (fun _ _ => rfl) hj
    rw [(parameters_one_to_one Z.D Z.kinds Z.ce).2.2.2.2, s3, hA, List.length_map, hv]
    exact le_refl _

/-- **C142 (exact numbers)**: if in addition the texts denote the numbers themselves, the outputs are those of the saved
network. -/
theorem recipe_predicts_exact (F : NumFormat ℝ) (init init' : ℕ → ℝ) (S : Source) (clock clock' : ℕ → ℕ) (n t t' : ℕ) (s s' : Rng.State)
    (cs : List (Cmd ℝ)) (hcs : ∀ c ∈ cs, c.WordArgs) {p : Proc} (hrun : (Proc.new (seeded n t s)).run F init S clock cs = .ok p)
    (hp : p.net.P = some p.net.nParams) (hd : Described p.net.layers) (hr : ∀ c ∈ cs, Restored c) (hex : Exact F cs)
    (es : List Event) (hes : ∀ c ∈ cs, IsExtreme c → ∀ clock, Event.reinitialize clock ∉ es)
    (hv : (p.events S es).net.params.length = p.net.nParams) (hexv : ∀ x ∈ (p.events S es).net.params, F.round x = x) :
    ∃ q Z, (Proc.new (seeded n t' s')).Loads F init' S clock' (IStream.of (save F (p.events S es).net)) (.ok q) ∧
      sem (p.events S es).hidden (p.events S es).net = some Z ∧ sem q.hidden q.net = some Z ∧
      ∀ (mem mem' : Mem) (N : ℕ) (X : Batch) (i : ℕ), ∀ j < Z.net.outputs,
        Z.predict mem' q.net.params N X i j = Z.predict mem (p.events S es).net.params N X i j := by
  have hsp : ∀ c ∈ cs, Spread F c := by
    intro c hc
    have := hex c hc
    cases c with
    | extreme u a sd b =>
      simp only [Cmd.round, Cmd.extreme.injEq, true_and, and_true] at this
      exact this
    | intrinsicPlasticity m sd =>
      simp only [Cmd.round, Cmd.intrinsicPlasticity.injEq] at this
      exact this.2
    | _ => trivial
  obtain ⟨q, Z, h1, _, h3, h4, h5⟩ := recipe_predicts F init init' S clock clock' n t t' s s' cs hcs hrun hp hd hr hsp es hes hv
  obtain ⟨hrun', _⟩ := run_net (drawn_new S clock _) hrun
  have hlay : p.net.layers = layersOf (empty : NetFile.Net ℝ).reg cs := (run_layers F init cs hrun').1
  obtain ⟨_, v, ev2⟩ := events_facts S es p fun l hl => hes _ (layersOf_mem (hlay ▸ hl)).1
  have hround : roundNet F (p.events S es).net = (p.events S es).net := by
    rw [ev2] at hexv ⊢
    exact roundNet_exact hrun' hex hexv
  rw [hround] at h3 h5
  exact ⟨q, Z, h1, h3, h4, h5⟩

/-! ## When the recipe does not help -/

/-- The network of the counterexamples: one `Extreme` unit and a linear output. -/
theorem extreme_built (F : NumFormat ℝ) (init : ℕ → ℝ) (S : Source) (clock : ℕ → ℕ) (sd : ℝ) (s : Rng.State)
    (hs : s.seedInitialized = true) :
    ∃ p, (Proc.new s).run F init S clock (twoLayers (.extreme 1 4 sd false)) = .ok p ∧ p.net.P = some 1 ∧ p.net.nParams = 1 ∧
      (p.hidden 1).extreme 0 0 = S.normalAt s 0 * sd ∧ p.rng.crand = (s.crand.1, s.crand.2 + 4) ∧
      p.rng.seedInitialized = true ∧
      ∀ h v, sem h { p.net with params := v } =
        some ⟨1, [.extreme 1 false .linear (h 1).extreme, .fullyConnected 1 false .linear ⟨0, 0, 0⟩], false⟩ := by
  obtain ⟨⟨a, b⟩, i, o, vw⟩ := s
  simp only at hs
  subst hs
  exact ⟨_, rfl, rfl, rfl, rfl, rfl, rfl, fun _ _ => rfl⟩

/-- Loading it after seeding with `n`: the `Extreme` unit has the first normally distributed number after the seed as its
weight; a saved network with another weight gave another output. -/
theorem extreme_loaded (F : NumFormat ℝ) (init init' : ℕ → ℝ) (S : Source) (clock clock' : ℕ → ℕ) (n t t' : ℕ) (s s' : Rng.State)
    {w sd : ℝ} (hw : w ≠ 0) (hrw : F.round w = w) (hsd : sd ≠ 0) (hrsd : F.round sd = sd) {p : Proc}
    (hrun : (Proc.new (seeded n t s)).run F init S clock (twoLayers (.extreme 1 4 sd false)) = .ok p) :
    ∃ q Z', (Proc.new (seeded n t' s')).Loads F init' S clock' (IStream.of (save F { p.net with params := [w] })) (.ok q) ∧
      sem q.hidden q.net = some Z' ∧
      ∀ (hid : ℕ → Hidden) (x : ℝ), (hid 1).extreme 0 0 = x * sd → x ≠ S.normalAt (seeded n t s) 0 →
        ∃ Z, sem hid { p.net with params := [w] } = some Z ∧ 0 < Z.net.outputs ∧ Z'.net.outputs = Z.net.outputs ∧
          ∀ mem mem', Z.predict mem [w] 1 (fun _ _ => 1) 0 0 ≠ Z'.predict mem' q.net.params 1 (fun _ _ => 1) 0 0 := by
  obtain ⟨p0, h1, h2, h3, h4, _, _, h5⟩ := extreme_built F init S clock sd (seeded n t s) rfl
  rw [hrun] at h1
  injection h1 with h1
  subst h1
  have hex : Exact F (twoLayers (.extreme 1 4 sd false)) := by
    intro x hx
    simp only [twoLayers, List.mem_cons, List.not_mem_nil, or_false] at hx
    rcases hx with rfl | rfl | rfl
    · rfl
    · simp [Cmd.round, hrsd]
    · simp [Cmd.round, F.round_zero]
  obtain ⟨hrun', _⟩ := run_net (drawn_new S clock _) hrun
  obtain ⟨q, q1, q2, q3, q4⟩ := recipe_hidden F init init' S clock clock' n t t' s s' _
    (by
      intro x hx
      simp only [twoLayers, List.mem_cons, List.not_mem_nil, or_false] at hx
      rcases hx with rfl | rfl | rfl <;> exact trivial) hrun h2
    (by
      intro x hx
      simp only [twoLayers, List.mem_cons, List.not_mem_nil, or_false] at hx
      rcases hx with rfl | rfl | rfl
      · exact trivial
      · exact hrsd
      · exact trivial) [w] rfl
  have hq : q.hidden = p.hidden := by
    funext k
    rw [Proc.hidden, Proc.hidden, q2]
  have hlay : p.net.layers.map (fun l => (l.1.round F, l.2.round F)) = p.net.layers :=
    congrArg NetFile.Net.layers (roundNet_exact (v := []) hrun' hex (by simp))
  have hsem : sem q.hidden q.net = sem p.hidden { p.net with params := [w] } := by
    rw [hq]
    exact sem_congr (q3.layers.trans hlay) q3.infos q3.errFn _
  have hval : ∀ (h : ℕ → Hidden) (m : Mem),
      Sem.predict ⟨1, [.extreme 1 false .linear (h 1).extreme, .fullyConnected 1 false .linear ⟨0, 0, 0⟩], false⟩ m [w] 1 (fun _ _ => 1) 0 0 =
        (h 1).extreme 0 0 * w := by
    intro h m
    rw [predict_two _ rfl rfl (fun _ => rfl)]
    congr 1
    show (∑ i ∈ range 1, (1 : ℝ) * (h 1).extreme 0 i + 0) = _
    rw [sum_range_one]
    ring
  refine ⟨q, _, q1, hsem.trans (h5 _ _), fun hid x hx hne => ⟨_, h5 hid _, Nat.one_pos, rfl, fun mem mem' => ?_⟩⟩
  rw [q4, List.map_singleton, hrw, hval, hval, hx, h4]
  intro he
  exact hne (mul_right_cancel₀ hsd (mul_right_cancel₀ hw he))

/-- **C142 needs that nothing is drawn between the seed and the construction**: `d` numbers (noise of a data set, another
network) and the `Extreme` layer has other weights than the loaded one. -/
theorem shifted_fails (F : NumFormat ℝ) (init init' : ℕ → ℝ) (S : Source) (clock clock' : ℕ → ℕ) (n t t' : ℕ) (s s' : Rng.State)
    {w sd : ℝ} (hw : w ≠ 0) (hrw : F.round w = w) (hsd : sd ≠ 0) (hrsd : F.round sd = sd) (d : ℕ)
    (hne : S.normal (S.lib.rand n d) (S.lib.rand n (d + 1)) ≠ S.normal (S.lib.rand n 0) (S.lib.rand n 1)) :
    ∃ p q Z Z', (Proc.new (advance d (seeded n t s))).run F init S clock (twoLayers (.extreme 1 4 sd false)) = .ok p ∧
      (Proc.new (seeded n t' s')).Loads F init' S clock' (IStream.of (save F { p.net with params := [w] })) (.ok q) ∧
      sem p.hidden { p.net with params := [w] } = some Z ∧ sem q.hidden q.net = some Z' ∧ 0 < Z.net.outputs ∧
      ∀ mem mem', Z.predict mem [w] 1 (fun _ _ => 1) 0 0 ≠ Z'.predict mem' q.net.params 1 (fun _ _ => 1) 0 0 := by
  obtain ⟨p, h1, _, _, h4, _⟩ := extreme_built F init S clock sd (advance d (seeded n t s)) rfl
  obtain ⟨g1, _⟩ := run_net (drawn_new S clock _) h1
  obtain ⟨p0, f1, f2, _⟩ := run_lift (S := S) (clock := clock) (drawn_new S clock (seeded n t s)) g1
  obtain ⟨q, Z', e1, e2, e3⟩ := extreme_loaded F init init' S clock clock' n t t' s s' hw hrw hsd hrsd f1
  rw [f2] at e1 e3
  obtain ⟨Z, i1, i2, _, i4⟩ := e3 p.hidden _ h4 (by
    simpa [Source.normalAt, Source.raw, advance, seeded, Rng.seed] using hne)
  exact ⟨p, q, Z, Z', h1, e1, i1, e2, i2, i4⟩

/-- **C142 needs that `Extreme` layers are not initialised again**: `net.initialize()` (for example
`train(net, algorithm, errorFunction, stop, true)`, src/Convenience.cpp lines 17-18) draws other weights than those that the
loaded network will have. -/
theorem reinitialized_fails (F : NumFormat ℝ) (init init' : ℕ → ℝ) (S : Source) (clock clock' clock'' : ℕ → ℕ) (n t t' : ℕ) (s s' : Rng.State)
    {w sd : ℝ} (hw : w ≠ 0) (hrw : F.round w = w) (hsd : sd ≠ 0) (hrsd : F.round sd = sd)
    (hne : S.normal (S.lib.rand n 4) (S.lib.rand n 5) ≠ S.normal (S.lib.rand n 0) (S.lib.rand n 1)) :
    ∃ p q Z Z', (Proc.new (seeded n t s)).run F init S clock (twoLayers (.extreme 1 4 sd false)) = .ok p ∧
      (Proc.new (seeded n t' s')).Loads F init' S clock'
        (IStream.of (save F (p.events S [.reinitialize clock'', .train [w]]).net)) (.ok q) ∧
      sem (p.events S [.reinitialize clock'', .train [w]]).hidden (p.events S [.reinitialize clock'', .train [w]]).net = some Z ∧
      sem q.hidden q.net = some Z' ∧ 0 < Z.net.outputs ∧
      ∀ mem mem', Z.predict mem [w] 1 (fun _ _ => 1) 0 0 ≠ Z'.predict mem' q.net.params 1 (fun _ _ => 1) 0 0 := by
  obtain ⟨p, h1, _⟩ := extreme_built F init S clock sd (seeded n t s) rfl
  have hh : ((p.events S [.reinitialize clock'', .train [w]]).hidden 1).extreme 0 0 =
      S.normal (S.lib.rand n 4) (S.lib.rand n 5) * sd := by
    injection h1 with h1
    subst h1
    rfl
  obtain ⟨q, Z', e1, e2, e3⟩ := extreme_loaded F init init' S clock clock' n t t' s s' hw hrw hsd hrsd h1
  obtain ⟨Z, i1, i2, _, i4⟩ := e3 (p.events S [.reinitialize clock'', .train [w]]).hidden _ hh (by
    simpa [Source.normalAt, Source.raw, seeded, Rng.seed] using hne)
  exact ⟨p, q, Z, Z', h1, e1, i1, e2, i2, i4⟩

/-- **A generator that was not seeded through `RandomNumberGenerator`**: the first object that is constructed seeds `rand()`
with the time (src/Random.cpp lines 9-14); a call of `srand` before that is lost, the network of every run has other
numbers. -/
theorem unseeded_time (S : Source) (time : ℕ) (s : Rng.State) (hs : s.seedInitialized = false) (dims : List ℤ) (u a : ℤ) (sd : ℝ) (b : Bool) :
    ((create S time dims (.extreme u a sd b) s).1.extreme 0 0) = S.normal (S.lib.rand time 0) (S.lib.rand time 1) * sd := by
  simp [create, hiddenOf, Source.filled, Source.normalAt, Source.raw, started, usesGenerator, Rng.construct, hs]

/-! ## Examples -/

/-- A source whose numbers count the calls. -/
def counting : Source := ⟨⟨fun n k => n + k, fun _ _ l => l⟩, fun r => r, fun a _ => a⟩

/-- A network with an `Extreme` layer, a Gaussian compression matrix and an output. -/
def seededCalls : List (Cmd ℝ) :=
  [.input 2 1 1, .extreme 2 1 0 true, .compressed 2 1 1 "gaussian".toList 0 true, .output 1 4 0 false]

/-- The hypotheses of `recipe_predicts_exact` hold for it, and the numbers are not all zero. -/
example (F : NumFormat ℝ) (init : ℕ → ℝ) (s : Rng.State) :
    ∃ p, (Proc.new (seeded 7 3 s)).run F init counting (fun k => k) seededCalls = .ok p ∧ p.net.P = some p.net.nParams ∧
      p.net.nParams = 4 ∧ Described p.net.layers ∧ (∀ c ∈ seededCalls, c.WordArgs) ∧ (∀ c ∈ seededCalls, Restored c) ∧
      Exact F seededCalls ∧ (p.hidden 2).phi 0 0 ≠ 0 ∧
      (p.events counting [.draw s, .train [0, 0, 0, 0]]).net.params.length = p.net.nParams := by
  obtain ⟨p, hp⟩ : ∃ p, (Proc.new (seeded 7 3 s)).run F init counting (fun k => k) seededCalls = .ok p := ⟨_, rfl⟩
  refine ⟨p, hp, ?_⟩
  injection hp with hp
  subst hp
  refine ⟨rfl, rfl, ⟨2, 1, 1, ⟨0, 0, 0⟩, [(.extreme 2 1 0 true, ⟨0, 0, 0⟩),
    (.compressed 2 1 1 "gaussian".toList 0 true, ⟨0, 0, 0⟩), (.output 1 4 0 false, ⟨0, 0, 0⟩)], rfl, by norm_num, by norm_num, by norm_num, ?_⟩, ?_, ?_, ?_, ?_, rfl⟩
  · intro l hl
    simp only [List.mem_cons, List.not_mem_nil, or_false] at hl
    rcases hl with rfl | rfl | rfl <;> exact ⟨fun _ _ _ h => (by cases h), fun _ _ h => (by cases h)⟩
  · intro c hc
    simp only [seededCalls, List.mem_cons, List.not_mem_nil, or_false] at hc
    rcases hc with rfl | rfl | rfl | rfl
    · trivial
    · trivial
    · exact ⟨by decide, by decide⟩
    · trivial
  · intro c hc
    simp only [seededCalls, List.mem_cons, List.not_mem_nil, or_false] at hc
    rcases hc with rfl | rfl | rfl | rfl <;> trivial
  · intro c hc
    simp only [seededCalls, List.mem_cons, List.not_mem_nil, or_false] at hc
    rcases hc with rfl | rfl | rfl | rfl <;> simp [Cmd.round, F.round_zero]
  · show ((7 + (0 + 12 + 2 * (0 * 1 + 0)) : ℕ) : ℝ) ≠ 0
    norm_num

/-- The conditions of the counterexamples can be met. -/
example : counting.normal (counting.lib.rand 7 4) (counting.lib.rand 7 5) ≠ counting.normal (counting.lib.rand 7 0) (counting.lib.rand 7 1) := by
  show ((7 + 4 : ℕ) : ℝ) ≠ ((7 + 0 : ℕ) : ℝ)
  norm_num

end

end Verif.NetSem
