import Verif.Lemmas.NetFile

/-!
# C15, C16: saving and loading networks

C15 holds for networks with an output layer whose parameter vector has the right length.  C16 is false: a parameter section
with something that is not a number makes `load` run forever; this is also the only way in which that can happen.
-/

set_option linter.unusedSectionVars false

namespace Verif.NetFile

open Verif.Text

variable {K : Type} [IntCast K] [Zero K]

/-! ## The loop and its fuel -/

theorem loadLoop_mono (F : NumFormat K) (init : ℕ → K) (fuel : ℕ) (net : Net K) (type : List Char) (s : IStream)
    {r : Outcome (Net K)} (h : loadLoop F init fuel net type s = some r) (k : ℕ) :
    loadLoop F init (fuel + k) net type s = some r := by
  induction fuel generalizing net type s with
  | zero =>
    rw [loadLoop] at h
    cases k with
    | zero => exact h
    | succ k =>
      rw [Nat.zero_add, loadLoop]
      cases he : s.eof <;> simp_all
  | succ fuel ih =>
    rw [Nat.add_right_comm, loadLoop]
    rw [loadLoop] at h
    cases he : s.eof with
    | true => simp_all
    | false =>
      simp only [he, Bool.false_eq_true, if_false] at h ⊢
      cases hs : loadStep F init net type s with
      | ok r => rw [hs] at h; exact ih _ _ _ h
      | throws => rw [hs] at h; exact h
      | checkFailed => rw [hs] at h; exact h
      | ub => rw [hs] at h; exact h

/-- `load` has at most one outcome. -/
theorem loads_unique (F : NumFormat K) (init : ℕ → K) (net : Net K) (s : IStream) {r r' : Outcome (Net K)}
    (h : Loads F init net s r) (h' : Loads F init net s r') : r = r' := by
  obtain ⟨n, h⟩ := h
  obtain ⟨n', h'⟩ := h'
  have h1 := loadLoop_mono F init n net [] s h n'
  have h2 := loadLoop_mono F init n' net [] s h' n
  rw [Nat.add_comm, h1] at h2
  exact Option.some.inj h2

/-- `load` diverges iff it has no outcome. -/
theorem diverges_iff_no_outcome (F : NumFormat K) (init : ℕ → K) (net : Net K) (s : IStream) :
    Diverges F init net s ↔ ¬ ∃ r, Loads F init net s r := by
  constructor
  · rintro h ⟨r, n, hn⟩
    rw [h n] at hn
    cases hn
  · intro h n
    cases hn : loadLoop F init n net [] s with
    | none => rfl
    | some r => exact absurd ⟨r, n, hn⟩ h

/-! ## C15 -/

theorem addLayer_layers {a a' : Net K} {c : Cmd K} (h : addLayer a c = .ok a') :
    a'.layers = a.layers ++ [(c, a.reg)] ∧ a'.reg = a.reg ∧ a'.errFn = a.errFn := by
  unfold addLayer at h
  obtain ⟨d, _, h⟩ := Outcome.bind_eq_ok.mp h
  obtain ⟨r, _, h⟩ := Outcome.bind_eq_ok.mp h
  simp only [Outcome.pure_eq, Outcome.ok.injEq] at h
  subst h
  exact ⟨rfl, rfl, rfl⟩

theorem initializeNetwork_layers (init : ℕ → K) {a a' : Net K} (h : initializeNetwork init a = .ok a') :
    a'.layers = a.layers ∧ a'.reg = a.reg ∧ a'.errFn = a.errFn := by
  unfold initializeNetwork at h
  cases hf : a.infos.head? with
  | none => rw [hf] at h; simp at h
  | some f =>
    cases hl : a.infos.getLast? with
    | none => rw [hf, hl] at h; simp at h
    | some l =>
      rw [hf, hl] at h
      simp only at h
      obtain ⟨n1, h1, h⟩ := alloc_bind_ok h
      obtain ⟨n2, h2, h⟩ := alloc_bind_ok h
      simp only [Outcome.pure_eq, Outcome.ok.injEq] at h
      subst h
      exact ⟨rfl, rfl, rfl⟩

/-- A network built by a sequence of calls consists of the layers asked for, in that order, each with the regularisation
settings in force at that point, and uses the error function selected last. -/
theorem run_layers (F : NumFormat K) (init : ℕ → K) (cs : List (Cmd K)) {a a' : Net K}
    (h : run F init cs a = .ok a') :
    a'.layers = a.layers ++ layersOf a.reg cs ∧ a'.errFn = errorFunctionOf a.errFn cs := by
  induction cs generalizing a with
  | nil =>
    simp only [run, Outcome.ok.injEq] at h
    subst h
    simp [layersOf, errorFunctionOf]
  | cons c cs ih =>
    obtain ⟨a1, h1, h2⟩ := Outcome.bind_eq_ok.mp h
    obtain ⟨i1, i2⟩ := ih h2
    have hidden : addLayer { a with arch := a.arch ++ c.text F } c = .ok a1 →
        layersOf a.reg (c :: cs) = (c, a.reg) :: layersOf a.reg cs →
        errorFunctionOf a.errFn (c :: cs) = errorFunctionOf a.errFn cs →
        a'.layers = a.layers ++ layersOf a.reg (c :: cs) ∧ a'.errFn = errorFunctionOf a.errFn (c :: cs) := by
      intro h e1 e2
      obtain ⟨g1, g2, g3⟩ := addLayer_layers h
      simp only at g1 g2 g3
      rw [i1, i2, e1, e2, g1, g2, g3]
      simp
    have out : (addLayer { a with arch := a.arch ++ c.text F } c >>= initializeNetwork init) = .ok a1 →
        layersOf a.reg (c :: cs) = (c, a.reg) :: layersOf a.reg cs →
        errorFunctionOf a.errFn (c :: cs) = errorFunctionOf a.errFn cs →
        a'.layers = a.layers ++ layersOf a.reg (c :: cs) ∧ a'.errFn = errorFunctionOf a.errFn (c :: cs) := by
      intro h e1 e2
      obtain ⟨a2, h3, h4⟩ := Outcome.bind_eq_ok.mp h
      obtain ⟨g1, g2, g3⟩ := addLayer_layers h3
      obtain ⟨k1, k2, k3⟩ := initializeNetwork_layers init h4
      simp only at g1 g2 g3
      rw [i1, i2, e1, e2, k1, k2, k3, g1, g2, g3]
      simp
    cases c with
    | errorFunction e =>
      simp only [exec, Outcome.ok.injEq] at h1
      subst h1
      exact ⟨i1, i2⟩
    | regularization x y z =>
      simp only [exec, Outcome.ok.injEq] at h1
      subst h1
      exact ⟨i1, i2⟩
    | output u x s y => exact out h1 rfl rfl
    | compressedOutput u p x y s z => exact out h1 rfl rfl
    | input x y z => exact hidden h1 rfl rfl
    | alphaBetaFilter x y => exact hidden h1 rfl rfl
    | fullyConnected x y z w => exact hidden h1 rfl rfl
    | rbm x y z w => exact hidden h1 rfl rfl
    | sae x y z w => exact hidden h1 rfl rfl
    | compressed x y z w u v => exact hidden h1 rfl rfl
    | extreme x y z w => exact hidden h1 rfl rfl
    | intrinsicPlasticity x y => exact hidden h1 rfl rfl
    | convolutional x y z w u v => exact hidden h1 rfl rfl
    | subsampling x y z w u => exact hidden h1 rfl rfl
    | maxPooling x y => exact hidden h1 rfl rfl
    | localResponseNormalization x y z w => exact hidden h1 rfl rfl
    | dropout x => exact hidden h1 rfl rfl

theorem empty_same (F : NumFormat K) : SameStructure F (empty : Net K) empty :=
  ⟨rfl, rfl, rfl, rfl, (round_zero_reg F).symm, rfl⟩

theorem sized_empty : Sized (empty : Net K) := fun p hp => by cases hp

theorem round_text (F : NumFormat K) (hF : ∀ x, F.fmt (F.round x) = F.fmt x) (c : Cmd K) :
    (c.round F).text F = c.text F := by
  have hn : (c.round F).name = c.name := by cases c <;> rfl
  have ha : (c.round F).args = c.args.map (Arg.round F) := by cases c <;> rfl
  have ht : ∀ a : Arg K, (a.round F).text F = a.text F := by
    intro a
    cases a with
    | dbl x => exact hF x
    | int z => rfl
    | bool b => rfl
    | word w => rfl
  rw [Cmd.text, Cmd.text, hn, ha, List.flatMap_map]
  simp only [ht]

/-- The parameter section. -/
theorem loadLoop_parameters (F : NumFormat K) (init : ℕ → K) (b : Net K) (p : ℕ) (hp : b.P = some p) (hs : Sized b)
    (v : List K) (hv : v.length = p) (type ws : List Char) (hws : ∀ c ∈ ws, isSpace c = true) :
    loadLoop F init 2 b type { rest := ws ++ ("parameters ".toList ++ printCol (v.map F.fmt)) } =
      some (.ok { b with params := v.map F.round }) := by
  have hb : b.params.length = p := hs p hp
  have e : ws ++ ("parameters ".toList ++ printCol (v.map F.fmt)) =
      ws ++ ("parameters".toList ++ ' ' :: printCol (v.map F.fmt)) := by
    have : "parameters ".toList = "parameters".toList ++ [' '] := by decide
    rw [this]; simp
  have hstep := loadStep_parameters F init b type ws (printCol (v.map F.fmt)) hws
  rw [e]
  by_cases h0 : v = []
  · subst h0
    have hp0 : p = 0 := by simpa using hv.symm
    subst hp0
    have hb0 : b.params = [] := List.length_eq_zero_iff.mp hb
    have hl : ∀ s, loadParameters F b s = .ok (b, s) := by
      intro s
      simp only [loadParameters, hp, hb0]
      simp only [List.length_nil, le_refl, if_true, List.take_nil, List.drop_nil, readParams, List.append_nil]
      congr 2
      rw [← hb0, ← hp]
    rw [hl] at hstep
    simp only [Outcome.ok_bind, Outcome.pure_eq] at hstep
    rw [loadLoop_succ_ok F init 1 _ _ _ rfl hstep]
    have hstep2 : loadStep F init b "parameters".toList { rest := [' '] } =
        .ok (b, "parameters".toList, { rest := [], eof := true, fail := true }) := by
      have hw : extractWord { rest := [' '] } = (none, { rest := [], eof := true, fail := true }) := by decide
      rw [loadStep, hw, Option.getD_none, dispatch_parameters, hl]
      rfl
    simp only [List.map_nil, printCol, joinWith]
    rw [loadLoop_succ_ok F init 0 _ _ _ rfl hstep2]
    simp only [loadLoop, if_true]
    rw [← hb0]
  · have hr := readParams_ok F (maxWidth (v.map F.fmt)) b.params v (by omega) h0 [' '] (by simp [isSpace_blank])
    simp only [List.cons_append, List.nil_append] at hr
    have hl : loadParameters F b { rest := ' ' :: printCol (v.map F.fmt) } =
        .ok ({ b with params := v.map F.round }, { rest := [], eof := true, fail := false }) := by
      simp only [loadParameters, hp]
      rw [if_pos (by omega), List.take_of_length_le (by omega), List.drop_of_length_le (by omega)]
      unfold printCol
      rw [hr]
      simp
    rw [hl] at hstep
    simp only [Outcome.ok_bind, Outcome.pure_eq] at hstep
    rw [loadLoop_succ_ok F init 1 _ _ _ rfl hstep]
    rfl

/-- **C15.** Take any network that some sequence of calls builds, with an output layer, and any parameter vector.  Loading
what `save` writes into an empty network ends, whatever random numbers are drawn meanwhile, and gives a network with the
same layers, hyperparameters, regularisation settings and error function, and with the same parameters, each number as
denoted by its text.  If printing is stable, saving again gives the same text. -/
theorem net_round_trip (F : NumFormat K) (init init' : ℕ → K) (cs : List (Cmd K)) (hcs : ∀ c ∈ cs, c.WordArgs)
    {net : Net K} (hrun : run F init cs empty = .ok net) {p : ℕ} (hp : net.P = some p) (v : List K) (hv : v.length = p) :
    ∃ saved loaded, setParameters net v = .ok saved ∧
      Loads F init' empty (IStream.of (save F saved)) (.ok loaded) ∧
      SameStructure F saved loaded ∧ loaded.params = v.map F.round ∧
      ((∀ x, F.fmt (F.round x) = F.fmt x) → save F loaded = save F saved) := by
  obtain ⟨b, type, ws, h1, h2, h3, h4, h5⟩ := loadLoop_cmds F init init' cs hcs (empty_same F) sized_empty hrun [] []
    ("parameters ".toList ++ printCol (v.map F.fmt)) (by simp)
  obtain ⟨g1, -⟩ := run_arch F init cs hrun
  have hbp : b.P = some p := by rw [h1.P, hp]
  refine ⟨{ net with params := v }, { b with params := v.map F.round }, ?_, ⟨2 + cs.length, ?_⟩, ?_, rfl, ?_⟩
  · simp [setParameters, hp, hv]
  · have e : save F { net with params := v } =
        [] ++ (cs.flatMap (·.text F) ++ ("parameters ".toList ++ printCol (v.map F.fmt))) := by
      simp only [save, g1, empty, List.nil_append, List.append_assoc]
    rw [IStream.of, e, h5 2]
    exact loadLoop_parameters F init' b p hbp h2 v hv type ws h4
  · exact ⟨h1.layers, h1.infos, h1.nParams, h1.P, h1.reg, h1.errFn⟩
  · intro hF
    have hm : (v.map F.round).map F.fmt = v.map F.fmt := by
      rw [List.map_map]
      exact List.map_congr_left (fun x _ => hF x)
    have ht : (fun c : Cmd K => (c.round F).text F) = fun c => c.text F := by
      funext c
      exact round_text F hF c
    simp only [save, hm, h3, g1, ht, empty]

theorem round_of_id (F : NumFormat K) (hF : ∀ x, F.round x = x) (c : Cmd K) : c.round F = c := by
  cases c <;> simp [Cmd.round, hF]

/-- With numbers that are printed exactly the loaded network is the saved one. -/
theorem net_round_trip_exact (F : NumFormat K) (hF : ∀ x, F.round x = x) (init init' : ℕ → K) (cs : List (Cmd K))
    (hcs : ∀ c ∈ cs, c.WordArgs) {net : Net K} (hrun : run F init cs empty = .ok net) {p : ℕ} (hp : net.P = some p)
    (v : List K) (hv : v.length = p) :
    ∃ saved, setParameters net v = .ok saved ∧ Loads F init' empty (IStream.of (save F saved)) (.ok saved) := by
  obtain ⟨b, type, ws, h1, h2, h3, h4, h5⟩ := loadLoop_cmds F init init' cs hcs (empty_same F) sized_empty hrun [] []
    ("parameters ".toList ++ printCol (v.map F.fmt)) (by simp)
  obtain ⟨g1, -⟩ := run_arch F init cs hrun
  have hbp : b.P = some p := by rw [h1.P, hp]
  have hvr : v.map F.round = v := by
    conv_rhs => rw [← List.map_id v]
    exact List.map_congr_left (fun x _ => hF x)
  have hlay : net.layers.map (fun l => (l.1.round F, l.2.round F)) = net.layers := by
    conv_rhs => rw [← List.map_id net.layers]
    refine List.map_congr_left (fun x _ => ?_)
    rw [round_of_id F hF, Reg.round, hF, hF, hF]
    rfl
  have hb : ({ b with params := v.map F.round } : Net K) = { net with params := v } := by
    have hr : b.reg = net.reg := by rw [h1.reg, Reg.round, hF, hF, hF]
    have ha : b.arch = net.arch := by
      have ht : (fun c : Cmd K => (c.round F).text F) = fun c => c.text F := by
        funext c
        rw [round_of_id F hF]
      rw [h3, g1, ht]
    have hl : b.layers = net.layers := h1.layers.trans hlay
    have hi := h1.infos
    have hn := h1.nParams
    have hP := h1.P
    have he := h1.errFn
    cases b
    cases net
    simp_all
  refine ⟨{ net with params := v }, by simp [setParameters, hp, hv], 2 + cs.length, ?_⟩
  have e : save F { net with params := v } =
      [] ++ (cs.flatMap (·.text F) ++ ("parameters ".toList ++ printCol (v.map F.fmt))) := by
    simp only [save, g1, empty, List.nil_append, List.append_assoc]
  rw [IStream.of, e, h5 2, loadLoop_parameters F init' b p hbp h2 v hv type ws h4, hb]

/-- A network without output layer can be saved but loading the file is undefined behaviour (`dimension` is a huge number
and `parameterVector` is empty). -/
theorem net_without_output_ub (F : NumFormat K) (init init' : ℕ → K) (cs : List (Cmd K)) (hcs : ∀ c ∈ cs, c.WordArgs)
    {net : Net K} (hrun : run F init cs empty = .ok net) (hp : net.P = none) :
    Loads F init' empty (IStream.of (save F net)) .ub := by
  obtain ⟨b, type, ws, h1, h2, h3, h4, h5⟩ := loadLoop_cmds F init init' cs hcs (empty_same F) sized_empty hrun [] []
    ("parameters ".toList ++ printCol (net.params.map F.fmt)) (by simp)
  obtain ⟨g1, -⟩ := run_arch F init cs hrun
  refine ⟨1 + cs.length, ?_⟩
  have e : save F net =
      [] ++ (cs.flatMap (·.text F) ++ ("parameters ".toList ++ printCol (net.params.map F.fmt))) := by
    simp only [save, g1, empty, List.nil_append, List.append_assoc]
  have e' : ws ++ ("parameters ".toList ++ printCol (net.params.map F.fmt)) =
      ws ++ ("parameters".toList ++ ' ' :: printCol (net.params.map F.fmt)) := by
    have : "parameters ".toList = "parameters".toList ++ [' '] := by decide
    rw [this]; simp
  have hstep := loadStep_parameters F init' b type ws (printCol (net.params.map F.fmt)) h4
  have hl : ∀ s, loadParameters F b s = .ub := by
    intro s
    rw [loadParameters, h1.P, hp]
  rw [hl] at hstep
  rw [IStream.of, e, h5 1, e', loadLoop, hstep]
  simp

/-! ## C16 -/

/-- `Passes F init a b`: the loop of `load` gets from `a` to `b` (network, variable `type`, stream). -/
inductive Passes (F : NumFormat K) (init : ℕ → K) :
    Net K × List Char × IStream → Net K × List Char × IStream → Prop
  | refl (a) : Passes F init a a
  | step {a b c} : a.2.2.eof = false → loadStep F init a.1 a.2.1 a.2.2 = .ok b → Passes F init b c → Passes F init a c

/-- A stream that has failed before its end while `type` is `parameters`. -/
def Stuck (a : Net K × List Char × IStream) : Prop :=
  a.2.1 = "parameters".toList ∧ a.2.2.fail = true ∧ a.2.2.eof = false ∧ ∃ p, a.1.P = some p ∧ p ≤ a.1.params.length

theorem stuck_forever (F : NumFormat K) (init : ℕ → K) (a : Net K × List Char × IStream) (h : Stuck a) (fuel : ℕ) :
    loadLoop F init fuel a.1 a.2.1 a.2.2 = none := by
  obtain ⟨net, type, s⟩ := a
  obtain ⟨ht, hf, he, p, hp, hl⟩ := h
  simp only at ht hf he hp hl ⊢
  subst ht
  induction fuel with
  | zero => simp [loadLoop, he]
  | succ fuel ih =>
    have hstep : loadStep F init net "parameters".toList s = .ok (net, "parameters".toList, s) := by
      rw [loadStep_failed F init net _ s hf, if_pos rfl]
      have : loadParameters F net s = .ok (net, s) := by
        rcases loadParameters_failed F net s hf with h | h
        · exact h
        · simp [loadParameters, hp, hl] at h
      rw [this]
      rfl
    rw [loadLoop_succ_ok F init fuel _ _ _ he hstep]
    exact ih

theorem passes_diverges (F : NumFormat K) (init : ℕ → K) {a b : Net K × List Char × IStream} (h : Passes F init a b)
    (hb : ∀ fuel, loadLoop F init fuel b.1 b.2.1 b.2.2 = none) (fuel : ℕ) :
    loadLoop F init fuel a.1 a.2.1 a.2.2 = none := by
  induction h generalizing fuel with
  | refl a => exact hb fuel
  | step h1 h2 _ ih =>
    cases fuel with
    | zero => simp [loadLoop, h1]
    | succ fuel =>
      rw [loadLoop_succ_ok F init fuel _ _ _ h1 h2]
      exact ih hb fuel

theorem diverges_stuck (F : NumFormat K) (init : ℕ → K) (n : ℕ) (a : Net K × List Char × IStream)
    (hn : a.2.2.rest.length ≤ n) (h : ∀ fuel, loadLoop F init fuel a.1 a.2.1 a.2.2 = none) :
    ∃ b, Passes F init a b ∧ Stuck b := by
  induction n using Nat.strong_induction_on generalizing a with
  | _ n ih =>
    obtain ⟨net, type, s⟩ := a
    simp only at hn h
    have he : s.eof = false := by
      have := h 0
      cases hs : s.eof with
      | false => rfl
      | true => simp [loadLoop, hs] at this
    cases hf : s.fail with
    | true =>
      have hstep := loadStep_failed F init net type s hf
      by_cases ht : type = "parameters".toList
      · refine ⟨_, .refl _, ht, hf, he, ?_⟩
        subst ht
        rw [if_pos rfl] at hstep
        simp only
        have h1 := h 1
        rw [loadLoop, he, hstep] at h1
        cases hp : net.P with
        | none => simp [loadParameters, hp] at h1
        | some p =>
          refine ⟨p, rfl, ?_⟩
          by_contra hlt
          have : loadParameters F net s = .ub := by
            simp only [loadParameters, hp]
            exact if_neg hlt
          rw [this] at h1
          simp at h1
      · rw [if_neg ht] at hstep
        have h1 := h 1
        rw [loadLoop, he, hstep] at h1
        by_cases hk : (kinds.find? (fun k => decide (k.word = type))).isSome = true
        · rw [if_pos hk] at h1; simp at h1
        · rw [if_neg hk] at h1; simp at h1
    | false =>
      have hg : s.good = true := by simp [IStream.good, he, hf]
      have hprog := extractWord_progress s hg
      cases hstep : loadStep F init net type s with
      | throws => have h1 := h 1; rw [loadLoop, he, hstep] at h1; simp at h1
      | checkFailed => have h1 := h 1; rw [loadLoop, he, hstep] at h1; simp at h1
      | ub => have h1 := h 1; rw [loadLoop, he, hstep] at h1; simp at h1
      | ok r =>
        have hnext : ∀ fuel, loadLoop F init fuel r.1 r.2.1 r.2.2 = none := by
          intro fuel
          rw [← loadLoop_succ_ok F init fuel _ _ _ he hstep]
          exact h _
        obtain ⟨hle, heo⟩ := loadStep_stream F init net type s hstep
        rcases hprog with hlt | ⟨heof, _⟩
        · obtain ⟨b, hb, hst⟩ := ih r.2.2.rest.length (by omega) r (le_refl _) hnext
          exact ⟨b, .step he hstep hb, hst⟩
        · have := hnext 0
          rw [loadLoop, heo heof] at this
          simp at this

/-- **C16, exact characterisation.** For every network and every stream: `load` runs forever iff it gets to a point where,
within a parameter section, the stream has failed although its end was not reached; in all other cases it ends with a
network, an exception or undefined behaviour. -/
theorem load_diverges_iff_partial (F : NumFormat K) (init : ℕ → K) (net : Net K) (s : IStream) :
    Diverges F init net s ↔ ∃ b, Passes F init (net, [], s) b ∧ Stuck b := by
  constructor
  · intro h
    exact diverges_stuck F init _ (net, [], s) (le_refl _) h
  · rintro ⟨b, h, hb⟩ fuel
    exact passes_diverges F init h (fun fuel => stuck_forever F init b hb fuel) fuel

/-- **C16 is false.** For every network with at least one parameter: a file with its architecture and anything that is not a
number in place of the first parameter (`nan`, a comma, a word) makes `load` run forever. -/
theorem load_malformed_parameter_diverges (F : NumFormat K) (init init' : ℕ → K) (cs : List (Cmd K))
    (hcs : ∀ c ∈ cs, c.WordArgs) {net : Net K} (hrun : run F init cs empty = .ok net) {p : ℕ} (hp : net.P = some p)
    (hpos : 0 < p) (bad : List Char) (hb0 : ∀ c ∈ bad.head?, isSpace c = false)
    (hbad : (F.scan bad).1 = none) (hrest : (F.scan bad).2 ≠ []) :
    Diverges F init' empty (IStream.of (net.arch ++ "parameters ".toList ++ bad)) := by
  obtain ⟨b, type, ws, h1, h2, h3, h4, h5⟩ := loadLoop_cmds F init init' cs hcs (empty_same F) sized_empty hrun [] []
    ("parameters ".toList ++ bad) (by simp)
  obtain ⟨g1, -⟩ := run_arch F init cs hrun
  have hbp : b.P = some p := by rw [h1.P, hp]
  have hbl : b.params.length = p := h2 p hbp
  have e : net.arch ++ "parameters ".toList ++ bad = [] ++ (cs.flatMap (·.text F) ++ ("parameters ".toList ++ bad)) := by
    simp only [g1, empty, List.nil_append, List.append_assoc]
  have e' : ws ++ ("parameters ".toList ++ bad) = ws ++ ("parameters".toList ++ ' ' :: bad) := by
    have : "parameters ".toList = "parameters".toList ++ [' '] := by decide
    rw [this]; simp
  have hstep := loadStep_parameters F init' b type ws bad h4
  have hne : bad ≠ [] := by
    intro h
    subst h
    have := F.scan_le []
    exact hrest (List.length_eq_zero_iff.mp (by simpa using this))
  have hdrop : (' ' :: bad).dropWhile isSpace = bad := by
    cases bad with
    | nil => exact absurd rfl hne
    | cons c cs => simp [isSpace_blank, hb0 c (by simp)]
  have hext : F.extract { rest := ' ' :: bad } = (some 0, { rest := (F.scan bad).2, eof := false, fail := true }) := by
    obtain ⟨r, hsc⟩ : ∃ r, F.scan bad = (none, r) := ⟨(F.scan bad).2, by rw [← hbad]⟩
    have hemp : r.isEmpty = false := by simpa [hsc] using hrest
    unfold NumFormat.extract extractNum
    simp only [IStream.good, hdrop]
    cases bad with
    | nil => exact absurd rfl hne
    | cons c cs => simp [hemp, hsc]
  obtain ⟨x, xs, hx⟩ : ∃ x xs, b.params = x :: xs := by
    cases hb : b.params with
    | nil => simp [hb] at hbl; omega
    | cons x xs => exact ⟨x, xs, rfl⟩
  have hl : ∃ q, loadParameters F b { rest := ' ' :: bad } =
      .ok ({ b with params := q }, { rest := (F.scan bad).2, eof := false, fail := true }) ∧ q.length = p := by
    simp only [loadParameters, hbp]
    rw [if_pos (by omega), List.take_of_length_le (by omega), List.drop_of_length_le (by omega), hx, readParams, hext]
    simp only
    rw [readParams_failed F xs _ rfl]
    refine ⟨_, rfl, ?_⟩
    simp only [hx, List.length_cons] at hbl
    simp [hbl]
  obtain ⟨q, hq, hql⟩ := hl
  rw [hq] at hstep
  simp only [Outcome.ok_bind, Outcome.pure_eq] at hstep
  have hstuck : ∀ fuel, loadLoop F init' fuel b type { rest := ws ++ ("parameters ".toList ++ bad) } = none := by
    intro fuel
    cases fuel with
    | zero => rfl
    | succ fuel =>
      rw [e', loadLoop_succ_ok F init' fuel _ _ _ rfl hstep]
      exact stuck_forever F init' ({ b with params := q }, "parameters".toList,
        { rest := (F.scan bad).2, eof := false, fail := true }) ⟨rfl, rfl, rfl, p, hbp, le_of_eq hql.symm⟩ fuel
  intro fuel
  cases hr : loadLoop F init' fuel empty [] (IStream.of (net.arch ++ "parameters ".toList ++ bad)) with
  | none => rfl
  | some r =>
    have h6 := loadLoop_mono F init' fuel _ _ _ hr cs.length
    rw [IStream.of, e, h5 fuel, hstuck fuel] at h6
    cases h6

/-! ## Examples -/

/-- A network with an input layer, regularisation, a hidden layer, a compressed layer, error function and output layer. -/
def exampleCalls : List (Cmd ℤ) :=
  [.input 2 1 1, .regularization 0 1 0, .fullyConnected 3 0 1 true, .compressed 2 2 1 "dct".toList 1 false,
   .errorFunction 2, .output 1 4 1 true]

example : (∀ c ∈ exampleCalls, c.WordArgs) ∧
    ((match run intFormat (fun _ => 0) exampleCalls empty with | .ok n => n.P | _ => none) = some 16) := by
  refine ⟨?_, by decide⟩
  intro c hc
  simp only [exampleCalls, List.mem_cons, List.not_mem_nil, or_false] at hc
  rcases hc with rfl | rfl | rfl | rfl | rfl | rfl <;> simp only [Cmd.WordArgs]
  decide

/-- The loaded network is the saved one for this network and a given parameter vector. -/
example (net : Net ℤ) (h : run intFormat (fun _ => 0) exampleCalls empty = .ok net) (hp : net.P = some 16)
    (hw : ∀ c ∈ exampleCalls, c.WordArgs) :
    ∃ saved, setParameters net ((List.range 16).map (fun i : ℕ => (i : ℤ) - 8)) = .ok saved ∧
      Loads intFormat (fun i => i) empty (IStream.of (save intFormat saved)) (.ok saved) :=
  net_round_trip_exact intFormat (fun _ => rfl) _ _ _ hw h hp _ (by simp)

/-- `nan` is such a text. -/
example (net : Net ℤ) (h : run intFormat (fun _ => 0) exampleCalls empty = .ok net) (hp : net.P = some 16)
    (hw : ∀ c ∈ exampleCalls, c.WordArgs) :
    Diverges intFormat (fun _ => 0) empty (IStream.of (net.arch ++ "parameters ".toList ++ "nan".toList)) :=
  load_malformed_parameter_diverges intFormat _ _ _ hw h hp (by norm_num) _ (by decide) (by decide) (by decide)

end Verif.NetFile
