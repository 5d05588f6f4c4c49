import Verif.Spec.NetFile
import Verif.Lemmas.Text

/-! Lemmas about `Net::save` and `Net::load`. -/

set_option linter.unusedSectionVars false

namespace Verif.NetFile

open Verif.Text

variable {K : Type} [IntCast K] [Zero K]

def Arg.round (F : NumFormat K) : Arg K → Arg K
  | .dbl x => .dbl (F.round x)
  | a => a

def Arg.Valid : Arg K → Prop
  | .word w => w ≠ [] ∧ ∀ x ∈ w, isSpace x = false
  | _ => True

def Cmd.kind : Cmd K → Kind
  | .input .. => .input
  | .alphaBetaFilter .. => .alphaBetaFilter
  | .fullyConnected .. => .fullyConnected
  | .rbm .. => .rbm
  | .sae .. => .sae
  | .compressed .. => .compressed
  | .extreme .. => .extreme
  | .intrinsicPlasticity .. => .intrinsicPlasticity
  | .convolutional .. => .convolutional
  | .subsampling .. => .subsampling
  | .maxPooling .. => .maxPooling
  | .localResponseNormalization .. => .localResponseNormalization
  | .dropout .. => .dropout
  | .output .. => .output
  | .compressedOutput .. => .compressedOutput
  | .errorFunction .. => .errorFunction
  | .regularization .. => .regularization

theorem find_word (k' : Kind) : kinds.find? (fun k => k.word = k'.word) = some k' := by
  cases k' <;> decide

theorem kind_word (c : Cmd K) : c.kind.word = c.name := by cases c <;> rfl

theorem find_kind (c : Cmd K) : kinds.find? (fun k => k.word = c.name) = some c.kind := by
  rw [← kind_word]; exact find_word _

theorem find_kind_parameters : kinds.find? (fun k => k.word = "parameters".toList) = none := by decide

theorem name_word (c : Cmd K) : c.name ≠ [] ∧ ∀ x ∈ c.name, isSpace x = false := by
  rw [← kind_word]
  cases c.kind <;> decide

theorem types_kind (c : Cmd K) : c.kind.types = c.args.map Arg.type := by
  cases c <;> rfl

theorem call_kind (F : NumFormat K) (c : Cmd K) :
    c.kind.call (c.args.map (fun a => some (a.round F))) = .ok (c.round F) := by
  cases c <;> rfl

theorem args_valid (c : Cmd K) (h : c.WordArgs) : ∀ a ∈ c.args, a.Valid := by
  cases c <;> simp_all [Cmd.args, Arg.Valid, Cmd.WordArgs]

theorem args_ne_nil (c : Cmd K) : c.args ≠ [] := by cases c <;> simp [Cmd.args]

theorem readArg_ok (F : NumFormat K) (a : Arg K) (ws rest : List Char) (hv : a.Valid)
    (hws : ∀ c ∈ ws, isSpace c = true) (hr : ∀ c ∈ rest.head?, isSpace c = true) :
    readArg F a.type { rest := ws ++ (a.text F ++ rest) } =
      (some (a.round F), { rest := rest, eof := rest.isEmpty, fail := false }) := by
  cases a with
  | int z => simp only [readArg, Arg.type, Arg.text, extractInt_ok ws rest z hws hr]; rfl
  | dbl x => simp only [readArg, Arg.type, Arg.text, F.extract_ok ws rest x hws hr]; rfl
  | bool b => simp only [readArg, Arg.type, Arg.text, extractBool_ok ws rest b hws hr]; rfl
  | word w => simp only [readArg, Arg.type, Arg.text, extractWord_ok ws w rest hws hv.1 hv.2 hr]; rfl

theorem readArgs_ok (F : NumFormat K) (as : List (Arg K)) (rest : List Char) (hv : ∀ a ∈ as, a.Valid) :
    readArgs F (as.map Arg.type) { rest := ' ' :: (as.flatMap (fun a => a.text F ++ [' ']) ++ rest) } =
      (as.map (fun a => some (a.round F)), { rest := ' ' :: rest }) := by
  induction as with
  | nil => rfl
  | cons a as ih =>
    have h := readArg_ok F a [' '] (' ' :: (as.flatMap (fun a => a.text F ++ [' ']) ++ rest)) (hv a (by simp))
      (by simp [isSpace_blank]) (by simp [isSpace_blank])
    have e : ' ' :: ((a :: as).flatMap (fun a => a.text F ++ [' ']) ++ rest) =
        [' '] ++ (a.text F ++ ' ' :: (as.flatMap (fun a => a.text F ++ [' ']) ++ rest)) := by simp
    rw [List.map_cons, e, readArgs, h]
    simp only [List.isEmpty_cons]
    rw [ih (fun b hb => hv b (by simp [hb]))]
    rfl

theorem dispatch_kind (F : NumFormat K) (init : ℕ → K) (net : Net K) (type : List Char) (s : IStream) {k : Kind}
    (hk : kinds.find? (fun k => k.word = type) = some k) :
    dispatch F init net type s = (do
      let cmd ← k.call (readArgs F k.types s).1
      let net' ← exec F init net cmd
      return (net', type, (readArgs F k.types s).2)) := by
  rw [dispatch, hk]

theorem dispatch_parameters (F : NumFormat K) (init : ℕ → K) (net : Net K) (s : IStream) :
    dispatch F init net "parameters".toList s = (do
      let r ← loadParameters F net s
      return (r.1, "parameters".toList, r.2)) := by
  rw [dispatch, find_kind_parameters]
  exact if_pos rfl

theorem dispatch_none (F : NumFormat K) (init : ℕ → K) (net : Net K) (type : List Char) (s : IStream)
    (hk : kinds.find? (fun k => k.word = type) = none) (ht : type ≠ "parameters".toList) :
    dispatch F init net type s = .throws := by
  rw [dispatch, hk]
  exact if_neg ht

/-- One pass of the loop on the text of a command. -/
theorem loadStep_cmd (F : NumFormat K) (init : ℕ → K) (net : Net K) (type : List Char) (c : Cmd K)
    (hc : c.WordArgs) (ws rest : List Char) (hws : ∀ c ∈ ws, isSpace c = true) :
    loadStep F init net type { rest := ws ++ (c.text F ++ rest) } = (do
      let net' ← exec F init net (c.round F)
      return (net', c.name, { rest := ' ' :: rest })) := by
  have h := extractWord_ok ws c.name (' ' :: (c.args.flatMap (fun a => a.text F ++ [' ']) ++ rest)) hws
    (name_word c).1 (name_word c).2 (by simp [isSpace_blank])
  have e : ws ++ (c.text F ++ rest) =
      ws ++ (c.name ++ ' ' :: (c.args.flatMap (fun a => a.text F ++ [' ']) ++ rest)) := by simp [Cmd.text]
  rw [loadStep, e, h]
  simp only [Option.getD_some, List.isEmpty_cons]
  rw [dispatch_kind F init net _ _ (find_kind c), types_kind]
  rw [readArgs_ok F c.args rest (args_valid c hc)]
  simp only
  rw [call_kind F c]
  rfl

theorem buildOn_round (F : NumFormat K) (dims : List ℤ) (c : Cmd K) : buildOn dims (c.round F) = buildOn dims c := by
  cases c <;> rfl

theorem round_zero_reg (F : NumFormat K) : (Reg.mk 0 0 0 : Reg K).round F = ⟨0, 0, 0⟩ := by
  simp [Reg.round, F.round_zero]

theorem lastInfo_round (F : NumFormat K) {a b : Net K} (h : SameStructure F a b) (c : Cmd K) :
    lastInfo b (c.round F) = lastInfo a c := by
  cases c <;> simp [lastInfo, Cmd.round, h.infos]

theorem addLayer_round (F : NumFormat K) {a b : Net K} (h : SameStructure F a b) (c : Cmd K) {a' : Net K}
    (ha : addLayer a c = .ok a') :
    ∃ b', addLayer b (c.round F) = .ok b' ∧ SameStructure F a' b' ∧ b'.arch = b.arch ∧ b'.params = b.params := by
  unfold addLayer at ha ⊢
  rw [lastInfo_round F h c]
  cases hd : lastInfo a c with
  | ok d =>
    rw [hd] at ha
    simp only [Outcome.ok_bind] at ha ⊢
    rw [buildOn_round F d c]
    cases hb : buildOn d c with
    | ok r =>
      rw [hb] at ha
      simp only [Outcome.ok_bind, Outcome.pure_eq, Outcome.ok.injEq] at ha ⊢
      subst ha
      exact ⟨_, rfl, ⟨by simp [h.layers, h.reg], by simp [h.infos], by simp [h.nParams], h.P, h.reg, h.errFn⟩,
        rfl, rfl⟩
    | throws => rw [hb] at ha; simp at ha
    | checkFailed => rw [hb] at ha; simp at ha
    | ub => rw [hb] at ha; simp at ha
  | throws => rw [hd] at ha; simp at ha
  | checkFailed => rw [hd] at ha; simp at ha
  | ub => rw [hd] at ha; simp at ha

theorem alloc_bind_ok {β : Type} {z : ℤ} {f : ℕ → Outcome β} {b : β} (h : (alloc z >>= f) = .ok b) :
    ∃ n, alloc z = .ok n ∧ f n = .ok b := Outcome.bind_eq_ok.mp h

theorem initializeNetwork_round (F : NumFormat K) (init init' : ℕ → K) {a b : Net K} (h : SameStructure F a b)
    {a' : Net K} (ha : initializeNetwork init a = .ok a') :
    ∃ b', initializeNetwork init' b = .ok b' ∧ SameStructure F a' b' ∧ b'.arch = b.arch := by
  unfold initializeNetwork at ha ⊢
  rw [h.infos]
  cases hf : a.infos.head? with
  | none => rw [hf] at ha; simp at ha
  | some f =>
    cases hl : a.infos.getLast? with
    | none => rw [hf, hl] at ha; simp at ha
    | some l =>
      rw [hf, hl] at ha
      simp only at ha ⊢
      obtain ⟨n1, h1, ha⟩ := alloc_bind_ok ha
      obtain ⟨n2, h2, ha⟩ := alloc_bind_ok ha
      simp only [Outcome.pure_eq, Outcome.ok.injEq] at ha
      subst ha
      rw [h1, h2]
      exact ⟨_, rfl, ⟨h.layers, by simp [h.infos], h.nParams, by simp [h.nParams], h.reg, h.errFn⟩, rfl⟩

/-- `net` after a call was recorded. -/
theorem same_arch (F : NumFormat K) {a b : Net K} (h : SameStructure F a b) (t t' : List Char) :
    SameStructure F { a with arch := t } { b with arch := t' } :=
  ⟨h.layers, h.infos, h.nParams, h.P, h.reg, h.errFn⟩

theorem exec_round (F : NumFormat K) (init init' : ℕ → K) {a b : Net K} (h : SameStructure F a b) (c : Cmd K)
    {a' : Net K} (ha : exec F init a c = .ok a') :
    ∃ b', exec F init' b (c.round F) = .ok b' ∧ SameStructure F a' b' ∧ b'.arch = b.arch ++ (c.round F).text F := by
  have hs := same_arch F h (a.arch ++ c.text F) (b.arch ++ (c.round F).text F)
  have hidden : ∀ d : Cmd K, addLayer { a with arch := a.arch ++ c.text F } d = .ok a' →
      ∃ b', addLayer { b with arch := b.arch ++ (c.round F).text F } (d.round F) = .ok b' ∧
        SameStructure F a' b' ∧ b'.arch = b.arch ++ (c.round F).text F := by
    intro d hd
    obtain ⟨b', h1, h2, h3, _⟩ := addLayer_round F hs d hd
    exact ⟨b', h1, h2, h3⟩
  have out : ∀ d : Cmd K, (addLayer { a with arch := a.arch ++ c.text F } d >>= initializeNetwork init) = .ok a' →
      ∃ b', (addLayer { b with arch := b.arch ++ (c.round F).text F } (d.round F) >>= initializeNetwork init') = .ok b' ∧
        SameStructure F a' b' ∧ b'.arch = b.arch ++ (c.round F).text F := by
    intro d hd
    obtain ⟨a1, h1, h2⟩ := Outcome.bind_eq_ok.mp hd
    obtain ⟨b1, g1, g2, g3, _⟩ := addLayer_round F hs d h1
    obtain ⟨b2, k1, k2, k3⟩ := initializeNetwork_round F init init' g2 h2
    refine ⟨b2, ?_, k2, k3.trans g3⟩
    rw [g1]; exact k1
  cases c with
  | errorFunction e =>
    simp only [exec, Outcome.ok.injEq] at ha
    subst ha
    exact ⟨_, rfl, ⟨h.layers, h.infos, h.nParams, h.P, h.reg, rfl⟩, rfl⟩
  | regularization x y z =>
    simp only [exec, Outcome.ok.injEq] at ha
    subst ha
    exact ⟨_, rfl, ⟨h.layers, h.infos, h.nParams, h.P, rfl, h.errFn⟩, rfl⟩
  | output u x s y => exact out _ ha
  | compressedOutput u p x y s z => exact out _ ha
  | input x y z => exact hidden _ ha
  | alphaBetaFilter x y => exact hidden _ ha
  | fullyConnected x y z w => exact hidden _ ha
  | rbm x y z w => exact hidden _ ha
  | sae x y z w => exact hidden _ ha
  | compressed x y z w u v => exact hidden _ ha
  | extreme x y z w => exact hidden _ ha
  | intrinsicPlasticity x y => exact hidden _ ha
  | convolutional x y z w u v => exact hidden _ ha
  | subsampling x y z w u => exact hidden _ ha
  | maxPooling x y => exact hidden _ ha
  | localResponseNormalization x y z w => exact hidden _ ha
  | dropout x => exact hidden _ ha

theorem initializeNetwork_arch (init : ℕ → K) {a a' : Net K} (h : initializeNetwork init a = .ok a') :
    a'.arch = a.arch ∧ a'.P = some a.nParams ∧ a'.params.length = a.nParams ∧ a'.nParams = a.nParams := by
  unfold initializeNetwork at h
  cases hf : a.infos.head? with
  | none => rw [hf] at h; simp at h
  | some f =>
    cases hl : a.infos.getLast? with
    | none => rw [hf, hl] at h; simp at h
    | some l =>
      rw [hf, hl] at h
      simp only at h
      obtain ⟨n1, h1, h⟩ := alloc_bind_ok h
      obtain ⟨n2, h2, h⟩ := alloc_bind_ok h
      simp only [Outcome.pure_eq, Outcome.ok.injEq] at h
      subst h
      exact ⟨rfl, rfl, by simp, rfl⟩

theorem addLayer_arch {a a' : Net K} {c : Cmd K} (h : addLayer a c = .ok a') :
    a'.arch = a.arch ∧ a'.P = a.P ∧ a'.params = a.params := by
  unfold addLayer at h
  obtain ⟨d, _, h⟩ := Outcome.bind_eq_ok.mp h
  obtain ⟨r, _, h⟩ := Outcome.bind_eq_ok.mp h
  simp only [Outcome.pure_eq, Outcome.ok.injEq] at h
  subst h
  exact ⟨rfl, rfl, rfl⟩

/-- The parameter vector has the announced length. -/
def Sized (net : Net K) : Prop := ∀ p, net.P = some p → net.params.length = p

theorem exec_arch (F : NumFormat K) (init : ℕ → K) {a a' : Net K} (c : Cmd K) (h : exec F init a c = .ok a') :
    a'.arch = a.arch ++ c.text F ∧ (Sized a → Sized a') := by
  have hidden : addLayer { a with arch := a.arch ++ c.text F } c = .ok a' →
      a'.arch = a.arch ++ c.text F ∧ (Sized a → Sized a') := by
    intro h
    obtain ⟨h1, h2, h3⟩ := addLayer_arch h
    refine ⟨h1, fun hs p hp => ?_⟩
    rw [h3]
    exact hs p (h2 ▸ hp)
  have out : (addLayer { a with arch := a.arch ++ c.text F } c >>= initializeNetwork init) = .ok a' →
      a'.arch = a.arch ++ c.text F ∧ (Sized a → Sized a') := by
    intro h
    obtain ⟨a1, h1, h2⟩ := Outcome.bind_eq_ok.mp h
    obtain ⟨g1, -, -⟩ := addLayer_arch h1
    obtain ⟨k1, k2, k3, k4⟩ := initializeNetwork_arch init h2
    refine ⟨k1.trans g1, fun _ p hp => ?_⟩
    rw [k2, Option.some.injEq] at hp
    omega
  cases c with
  | errorFunction e =>
    simp only [exec, Outcome.ok.injEq] at h
    subst h
    exact ⟨rfl, fun hs => hs⟩
  | regularization x y z =>
    simp only [exec, Outcome.ok.injEq] at h
    subst h
    exact ⟨rfl, fun hs => hs⟩
  | output u x s y => exact out h
  | compressedOutput u p x y s z => exact out h
  | input x y z => exact hidden h
  | alphaBetaFilter x y => exact hidden h
  | fullyConnected x y z w => exact hidden h
  | rbm x y z w => exact hidden h
  | sae x y z w => exact hidden h
  | compressed x y z w u v => exact hidden h
  | extreme x y z w => exact hidden h
  | intrinsicPlasticity x y => exact hidden h
  | convolutional x y z w u v => exact hidden h
  | subsampling x y z w u => exact hidden h
  | maxPooling x y => exact hidden h
  | localResponseNormalization x y z w => exact hidden h
  | dropout x => exact hidden h

theorem run_arch (F : NumFormat K) (init : ℕ → K) (cs : List (Cmd K)) {a a' : Net K}
    (h : run F init cs a = .ok a') : a'.arch = a.arch ++ cs.flatMap (·.text F) ∧ (Sized a → Sized a') := by
  induction cs generalizing a with
  | nil =>
    simp only [run, Outcome.ok.injEq] at h
    subst h
    simp
  | cons c cs ih =>
    obtain ⟨a1, h1, h2⟩ := Outcome.bind_eq_ok.mp h
    obtain ⟨g1, g2⟩ := exec_arch F init c h1
    obtain ⟨k1, k2⟩ := ih h2
    refine ⟨by rw [k1, g1]; simp, fun hs => k2 (g2 hs)⟩

theorem loadLoop_succ_ok (F : NumFormat K) (init : ℕ → K) (fuel : ℕ) (net : Net K) (type : List Char) (s : IStream)
    (heof : s.eof = false) {r : Net K × List Char × IStream} (h : loadStep F init net type s = .ok r) :
    loadLoop F init (fuel + 1) net type s = loadLoop F init fuel r.1 r.2.1 r.2.2 := by
  rw [loadLoop, heof, h]
  simp

/-- The loop on the text of a sequence of commands. -/
theorem loadLoop_cmds (F : NumFormat K) (init init' : ℕ → K) (cs : List (Cmd K)) (hcs : ∀ c ∈ cs, c.WordArgs)
    {a a' b : Net K} (h : SameStructure F a b) (hs : Sized b) (ha : run F init cs a = .ok a') (type ws rest : List Char)
    (hws : ∀ c ∈ ws, isSpace c = true) :
    ∃ b' type' ws', SameStructure F a' b' ∧ Sized b' ∧ b'.arch = b.arch ++ cs.flatMap (fun c => (c.round F).text F) ∧
      (∀ c ∈ ws', isSpace c = true) ∧
      ∀ fuel, loadLoop F init' (fuel + cs.length) b type { rest := ws ++ (cs.flatMap (·.text F) ++ rest) } =
        loadLoop F init' fuel b' type' { rest := ws' ++ rest } := by
  induction cs generalizing a b type ws with
  | nil =>
    simp only [run, Outcome.ok.injEq] at ha
    subst ha
    exact ⟨b, type, ws, h, hs, by simp, hws, fun fuel => by simp⟩
  | cons c cs ih =>
    obtain ⟨a1, h1, h2⟩ := Outcome.bind_eq_ok.mp ha
    obtain ⟨b1, g1, g2, g3⟩ := exec_round F init init' h c h1
    obtain ⟨b', type', ws', k1, k2, k3, k4, k5⟩ := ih (fun d hd => hcs d (by simp [hd])) g2
      ((exec_arch F init' _ g1).2 hs) h2 c.name [' '] (by simp [isSpace_blank])
    refine ⟨b', type', ws', k1, k2, by rw [k3, g3]; simp, k4, fun fuel => ?_⟩
    have e : ws ++ ((c :: cs).flatMap (·.text F) ++ rest) = ws ++ (c.text F ++ (cs.flatMap (·.text F) ++ rest)) := by
      simp
    have hstep := loadStep_cmd F init' b type c (hcs c (by simp)) ws (cs.flatMap (·.text F) ++ rest) hws
    rw [g1] at hstep
    simp only [Outcome.ok_bind, Outcome.pure_eq] at hstep
    rw [List.length_cons, ← Nat.add_assoc, e, loadLoop_succ_ok F init' _ _ _ _ rfl hstep]
    have := k5 fuel
    simp only [List.cons_append, List.nil_append] at this
    exact this

theorem readParams_ok (F : NumFormat K) (w : ℕ) (xs v : List K) (hlen : xs.length = v.length) (hv : v ≠ [])
    (ws : List Char) (hws : ∀ c ∈ ws, isSpace c = true) :
    readParams F xs { rest := ws ++ joinWith ['\n'] ((v.map F.fmt).map (padLeft w)) } =
      (v.map F.round, { rest := [], eof := true, fail := false }) := by
  induction v generalizing xs ws with
  | nil => exact absurd rfl hv
  | cons y ys ih =>
    cases xs with
    | nil => simp at hlen
    | cons x xs =>
      obtain ⟨p, hp, hpe⟩ := padLeft_eq w (F.fmt y)
      have hwsp : ∀ c ∈ ws ++ p, isSpace c = true := by
        intro c hc
        rcases List.mem_append.mp hc with h | h
        · exact hws c h
        · exact hp c h
      cases ys with
      | nil =>
        have hx : xs = [] := by simpa using hlen
        subst hx
        have h := F.extract_ok (ws ++ p) [] y hwsp (by simp)
        have e : ws ++ joinWith ['\n'] (([y].map F.fmt).map (padLeft w)) = ws ++ p ++ (F.fmt y ++ []) := by
          simp [joinWith, hpe]
        rw [e, readParams, h]
        rfl
      | cons z zs =>
        have e : ws ++ joinWith ['\n'] (((y :: z :: zs).map F.fmt).map (padLeft w)) =
            ws ++ p ++ (F.fmt y ++ ('\n' :: joinWith ['\n'] (((z :: zs).map F.fmt).map (padLeft w)))) := by
          simp [joinWith, hpe]
        have h := F.extract_ok (ws ++ p) ('\n' :: joinWith ['\n'] (((z :: zs).map F.fmt).map (padLeft w))) y hwsp
          (by simp [isSpace_newline])
        have h' := ih xs (by simpa using hlen) (by simp) ['\n'] (by simp [isSpace_newline])
        rw [e, readParams, h]
        simp only [List.isEmpty_cons]
        simp only [List.cons_append, List.nil_append] at h'
        rw [h']
        rfl

theorem parameters_word : ("parameters".toList) ≠ [] ∧ ∀ x ∈ "parameters".toList, isSpace x = false := by decide

/-- The pass over the word `parameters`. -/
theorem loadStep_parameters (F : NumFormat K) (init : ℕ → K) (net : Net K) (type ws rest : List Char)
    (hws : ∀ c ∈ ws, isSpace c = true) :
    loadStep F init net type { rest := ws ++ ("parameters".toList ++ ' ' :: rest) } = (do
      let r ← loadParameters F net { rest := ' ' :: rest }
      return (r.1, "parameters".toList, r.2)) := by
  have h := extractWord_ok ws "parameters".toList (' ' :: rest) hws parameters_word.1 parameters_word.2
    (by simp [isSpace_blank])
  rw [loadStep, h]
  exact dispatch_parameters F init net _

/-! ### A failed stream -/

theorem readParams_failed (F : NumFormat K) (xs : List K) (s : IStream) (h : s.fail = true) :
    readParams F xs s = (xs, s) := by
  induction xs with
  | nil => rfl
  | cons x xs ih =>
    rw [readParams, NumFormat.extract, extractNum_failed 0 F.scan s h]
    simp only
    rw [ih]
    rfl

theorem readArg_failed (F : NumFormat K) (t : ArgType) (s : IStream) (h : s.fail = true) (ht : t ≠ .word) :
    readArg F t s = (none, s) := by
  cases t with
  | int => simp [readArg, extractInt, extractNum_failed 0 scanInt s h]
  | dbl => simp [readArg, NumFormat.extract, extractNum_failed 0 F.scan s h]
  | bool => simp [readArg, extractBool_failed s h]
  | word => exact absurd rfl ht

/-- Every branch starts by reading a number. -/
theorem types_head (k : Kind) : ∃ t ts, k.types = t :: ts ∧ t ≠ .word := by
  cases k <;> exact ⟨_, _, rfl, by decide⟩

theorem call_none (k : Kind) (as : List (Option (Arg K))) : k.call (none :: as) = .ub := by
  cases k <;> rfl

theorem loadStep_failed (F : NumFormat K) (init : ℕ → K) (net : Net K) (type : List Char) (s : IStream)
    (h : s.fail = true) :
    loadStep F init net type s =
      if type = "parameters".toList then (do
        let r ← loadParameters F net s
        return (r.1, type, r.2))
      else if (kinds.find? (fun k => k.word = type)).isSome then .ub
      else .throws := by
  rw [loadStep, extractWord_failed s h]
  by_cases ht : type = "parameters".toList
  · rw [if_pos ht]
    subst ht
    exact dispatch_parameters F init net s
  · rw [if_neg ht]
    cases hk : kinds.find? (fun k => decide (k.word = type)) with
    | none => exact dispatch_none F init net type s hk ht
    | some k =>
      obtain ⟨t, ts, hts, htw⟩ := types_head k
      refine (dispatch_kind F init net type s hk).trans ?_
      rw [hts, readArgs, readArg_failed F t s h htw, call_none]
      rfl

theorem loadParameters_failed (F : NumFormat K) (net : Net K) (s : IStream) (h : s.fail = true) :
    loadParameters F net s = .ok (net, s) ∨ loadParameters F net s = .ub := by
  unfold loadParameters
  cases hp : net.P with
  | none => exact Or.inr rfl
  | some p =>
    simp only
    split
    · left
      rw [readParams_failed F _ s h]
      rw [List.take_append_drop, ← hp]
    · exact Or.inr rfl

/-! ### Progress -/

theorem readArg_le (F : NumFormat K) (t : ArgType) (s : IStream) :
    (readArg F t s).2.rest.length ≤ s.rest.length := by
  cases t with
  | int => exact extractInt_le s
  | dbl => exact F.extract_le s
  | bool => exact extractBool_le s
  | word => exact extractWord_le s

theorem readArgs_le (F : NumFormat K) (ts : List ArgType) (s : IStream) :
    (readArgs F ts s).2.rest.length ≤ s.rest.length := by
  induction ts generalizing s with
  | nil => exact le_refl _
  | cons t ts ih =>
    rw [readArgs]
    simp only
    exact le_trans (ih _) (readArg_le F t s)

theorem readParams_le (F : NumFormat K) (xs : List K) (s : IStream) :
    (readParams F xs s).2.rest.length ≤ s.rest.length := by
  induction xs generalizing s with
  | nil => exact le_refl _
  | cons x xs ih =>
    rw [readParams]
    simp only
    exact le_trans (ih _) (F.extract_le s)

theorem extractNum_eof {α : Type} (zero : α) (scan : List Char → Option α × List Char) (s : IStream)
    (h : s.eof = true) : (extractNum zero scan s).2.eof = true := by
  cases s
  simp_all [extractNum, IStream.good]

theorem extractBool_eof (s : IStream) (h : s.eof = true) : (extractBool s).2.eof = true := by
  have := extractNum_eof 0 scanInt s h
  unfold extractBool extractInt
  split
  · rename_i heq; rw [heq] at this; exact this
  · rename_i heq
    rw [heq] at this
    split
    · exact this
    · split
      · exact this
      · split <;> exact this

theorem extractWord_eof (s : IStream) (h : s.eof = true) : (extractWord s).2.eof = true := by
  cases s
  simp_all [extractWord, IStream.good]

theorem readArg_eof (F : NumFormat K) (t : ArgType) (s : IStream) (h : s.eof = true) :
    (readArg F t s).2.eof = true := by
  cases t with
  | int => exact extractNum_eof 0 scanInt s h
  | dbl => exact extractNum_eof 0 F.scan s h
  | bool => exact extractBool_eof s h
  | word => exact extractWord_eof s h

theorem readArgs_eof (F : NumFormat K) (ts : List ArgType) (s : IStream) (h : s.eof = true) :
    (readArgs F ts s).2.eof = true := by
  induction ts generalizing s with
  | nil => exact h
  | cons t ts ih =>
    rw [readArgs]
    exact ih _ (readArg_eof F t s h)

theorem readParams_eof (F : NumFormat K) (xs : List K) (s : IStream) (h : s.eof = true) :
    (readParams F xs s).2.eof = true := by
  induction xs generalizing s with
  | nil => exact h
  | cons x xs ih =>
    rw [readParams]
    exact ih _ (extractNum_eof 0 F.scan s h)

/-- What a pass does to the stream. -/
theorem loadStep_stream (F : NumFormat K) (init : ℕ → K) (net : Net K) (type : List Char) (s : IStream)
    {r : Net K × List Char × IStream} (h : loadStep F init net type s = .ok r) :
    r.2.2.rest.length ≤ (extractWord s).2.rest.length ∧ ((extractWord s).2.eof = true → r.2.2.eof = true) := by
  rw [loadStep] at h
  generalize (extractWord s).2 = s₁ at *
  generalize (extractWord s).1.getD type = type' at *
  cases hk : kinds.find? (fun k => decide (k.word = type')) with
  | some k =>
    rw [dispatch_kind F init net type' s₁ hk] at h
    obtain ⟨c, _, h⟩ := Outcome.bind_eq_ok.mp h
    obtain ⟨n, _, h⟩ := Outcome.bind_eq_ok.mp h
    simp only [Outcome.pure_eq, Outcome.ok.injEq] at h
    subst h
    exact ⟨readArgs_le F _ _, readArgs_eof F _ _⟩
  | none =>
    by_cases ht : type' = "parameters".toList
    · subst ht
      rw [dispatch_parameters] at h
      obtain ⟨n, hn, h⟩ := Outcome.bind_eq_ok.mp h
      simp only [Outcome.pure_eq, Outcome.ok.injEq] at h
      subst h
      unfold loadParameters at hn
      cases hp : net.P with
      | none => rw [hp] at hn; simp at hn
      | some p =>
        rw [hp] at hn
        simp only at hn
        by_cases hl : p ≤ net.params.length
        · rw [if_pos hl] at hn
          simp only [Outcome.ok.injEq] at hn
          subst hn
          exact ⟨readParams_le F _ _, readParams_eof F _ _⟩
        · rw [if_neg hl] at hn
          simp at hn
    · rw [dispatch_none F init net type' s₁ hk ht] at h
      simp at h

end Verif.NetFile
