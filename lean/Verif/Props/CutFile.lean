import Verif.Model.CutFile
import Verif.Props.NetFile

/-!
# C99: a network file that was not written completely

`Net::save` writes over the old file and does not look whether the characters arrive; `Net::load` does not look whether the
numbers it reads are there.  Here is what `load` makes of a file that ends too early, for every network and for every
position at which the text can break off.
-/

set_option linter.unusedSectionVars false

namespace Verif.NetFile

open Verif.Text

variable {K : Type} [IntCast K] [Zero K]

/-! ## Specification -/

/-- The reader of numbers takes everything of a number whose end is missing.  (`std::num_get` collects characters as long
as they may be part of a number.) -/
def Greedy (F : NumFormat K) : Prop := ∀ x n, 0 < n → (F.scan ((F.fmt x).take n)).2 = []

/-- The value read for the beginning of a number; 0 if that is not a number. -/
def valueOf (F : NumFormat K) (l : List Char) : K := ((F.scan l).1).getD 0

/-- The parameter `x` in a section that breaks off within its field of `w` characters, after `m` characters including
the separator: what has been there before if no character of the number is left, otherwise the value of the rest. -/
def lastValue (F : NumFormat K) (w : ℕ) (before x : K) (m : ℕ) : K :=
  if m ≤ 1 + (w - (F.fmt x).length) then before
  else valueOf F ((F.fmt x).take (m - (1 + (w - (F.fmt x).length))))

/-- The parameters after the word `parameters` and `m` more characters were read: all numbers that are complete, then
`lastValue`, then the initial values. -/
def cutParams (F : NumFormat K) (v : List K) (init : ℕ → K) (m : ℕ) (i : ℕ) : K :=
  let w := maxWidth (v.map F.fmt)
  if i < m / (w + 1) then F.round (v.getD i 0)
  else if i = m / (w + 1) then lastValue F w (init i) (v.getD i 0) (m % (w + 1))
  else init i

/-! ## Numbers -/

theorem extractNum_spaces {α : Type} (zero : α) (scan : List Char → Option α × List Char) (l : List Char) (e : Bool)
    (hl : ∀ c ∈ l, isSpace c = true) :
    ∃ s', extractNum zero scan { rest := l, eof := e } = (none, s') ∧ s'.eof = true ∧ s'.fail = true ∨
      e = true := by
  cases e with
  | true => exact ⟨{ rest := [] }, Or.inr rfl⟩
  | false =>
    refine ⟨{ rest := [], eof := true, fail := true }, Or.inl ⟨?_, rfl, rfl⟩⟩
    have hd : l.dropWhile isSpace = [] := by
      have := dropWhile_isSpace_append (l := []) hl
      simpa using this
    simp [extractNum, IStream.good, hd]

/-- Nothing but whitespace: no parameter is assigned. -/
theorem readParams_spaces (F : NumFormat K) (xs : List K) (hx : xs ≠ []) (l : List Char) (e : Bool)
    (hl : ∀ c ∈ l, isSpace c = true) :
    ∃ s', readParams F xs { rest := l, eof := e } = (xs, s') ∧ s'.eof = true := by
  cases xs with
  | nil => exact absurd rfl hx
  | cons x xs =>
    cases e with
    | true =>
      have h1 : F.extract { rest := l, eof := true } = (none, { rest := l, eof := true, fail := true }) := by
        simp [NumFormat.extract, extractNum, IStream.good]
      refine ⟨{ rest := l, eof := true, fail := true }, ?_, rfl⟩
      rw [readParams, h1]
      simp only [readParams_failed F xs { rest := l, eof := true, fail := true } rfl]
      rfl
    | false =>
      obtain ⟨s', h | h⟩ := extractNum_spaces (0 : K) F.scan l false hl
      · obtain ⟨h1, h2, h3⟩ := h
        refine ⟨s', ?_, h2⟩
        rw [readParams, NumFormat.extract, h1]
        simp only [readParams_failed F xs s' h3]
        rfl
      · cases h

/-- The recursive form of `cutParams`. -/
def cutList (F : NumFormat K) (w : ℕ) : List K → List K → ℕ → List K
  | x :: xs, y :: ys, m =>
    if w + 1 ≤ m then F.round y :: cutList F w xs ys (m - (w + 1)) else lastValue F w x y m :: xs
  | xs, _, _ => xs

theorem length_le_maxWidth {l : List Char} {ls : List (List Char)} (h : l ∈ ls) : l.length ≤ maxWidth ls := by
  induction ls with
  | nil => cases h
  | cons a ls ih =>
    have e : maxWidth (a :: ls) = max a.length (maxWidth ls) := rfl
    rw [e]
    rcases List.mem_cons.mp h with rfl | h
    · exact le_max_left _ _
    · exact (ih h).trans (le_max_right _ _)

theorem padLeft_length {w : ℕ} {l : List Char} (h : l.length ≤ w) : (padLeft w l).length = w := by
  rw [padLeft, List.length_append, List.length_replicate]
  omega

theorem replicate_space (n : ℕ) : ∀ c ∈ List.replicate n ' ', isSpace c = true := by
  intro c hc
  rw [List.eq_of_mem_replicate hc]
  decide

theorem take_space {l : List Char} (h : ∀ c ∈ l, isSpace c = true) (m : ℕ) : ∀ c ∈ l.take m, isSpace c = true :=
  fun c hc => h c (List.mem_of_mem_take hc)

/-- One field that breaks off. -/
theorem readParams_field (F : NumFormat K) (hF : Greedy F) (w : ℕ) (x y : K) (xs : List K) (c : Char)
    (hc : isSpace c = true) (m : ℕ) :
    ∃ s', readParams F (x :: xs) { rest := (c :: padLeft w (F.fmt y)).take m, eof := decide (m = 0) } =
      (lastValue F w x y m :: xs, s') ∧ s'.eof = true := by
  by_cases h : m ≤ 1 + (w - (F.fmt y).length)
  · have hs : ∀ d ∈ (c :: padLeft w (F.fmt y)).take m, isSpace d = true := by
      have e : (c :: padLeft w (F.fmt y)).take m = (c :: List.replicate (w - (F.fmt y).length) ' ').take m := by
        rw [padLeft, ← List.cons_append]
        exact List.take_append_of_le_length (by simp; omega)
      rw [e]
      apply take_space
      intro d hd
      rcases List.mem_cons.mp hd with rfl | hd
      · exact hc
      · exact replicate_space _ d hd
    obtain ⟨s', h1, h2⟩ := readParams_spaces F (x :: xs) (by simp) _ (decide (m = 0)) hs
    refine ⟨s', ?_, h2⟩
    rw [h1, lastValue, if_pos h]
  · have hm0 : m ≠ 0 := by omega
    have e : (c :: padLeft w (F.fmt y)).take m = (c :: List.replicate (w - (F.fmt y).length) ' ') ++
        (F.fmt y).take (m - (1 + (w - (F.fmt y).length))) := by
      rw [padLeft, ← List.cons_append, List.take_append, List.take_of_length_le (by simp; omega)]
      congr 2
      simp
      omega
    generalize hn : m - (1 + (w - (F.fmt y).length)) = n at e
    have hn0 : 0 < n := by omega
    have hne : (F.fmt y).take n ≠ [] := by
      rw [Ne, List.take_eq_nil_iff, not_or]
      exact ⟨by omega, F.fmt_ne y⟩
    have hnos : ∀ d ∈ (F.fmt y).take n, isSpace d = false := fun d hd => F.fmt_no_space y d (List.mem_of_mem_take hd)
    have hsp : ∀ d ∈ (c :: List.replicate (w - (F.fmt y).length) ' '), isSpace d = true := by
      intro d hd
      rcases List.mem_cons.mp hd with rfl | hd
      · exact hc
      · exact replicate_space _ d hd
    have hg := hF y n hn0
    have hx : ∃ f, F.extract { rest := (c :: padLeft w (F.fmt y)).take m, eof := decide (m = 0) } =
        (some (valueOf F ((F.fmt y).take n)), { rest := [], eof := true, fail := f }) := by
      rw [e]
      have hd : ((c :: List.replicate (w - (F.fmt y).length) ' ') ++ (F.fmt y).take n).dropWhile isSpace =
          (F.fmt y).take n := by
        rw [dropWhile_isSpace_append hsp]
        have := dropWhile_isSpace_of_no_space (rest := []) hne hnos
        simpa using this
      obtain ⟨d, ds, hds⟩ : ∃ d ds, (F.fmt y).take n = d :: ds := List.exists_cons_of_ne_nil hne
      rw [NumFormat.extract, extractNum]
      simp only [IStream.good, hm0, decide_false, Bool.not_false, Bool.and_self, Bool.not_true, Bool.false_eq_true,
        if_false]
      rw [hd, hds]
      simp only
      rw [hds] at hg
      rcases hs : F.scan (d :: ds) with ⟨o, r⟩
      rw [hs] at hg
      simp only at hg
      subst hg
      cases o with
      | none => exact ⟨true, by simp [valueOf, hs]⟩
      | some a => exact ⟨false, by simp [valueOf, hs]⟩
    obtain ⟨f, hx⟩ := hx
    have hl : lastValue F w x y m = valueOf F ((F.fmt y).take n) := by
      rw [lastValue, if_neg h, hn]
    rw [readParams, hx, hl]
    cases xs with
    | nil => exact ⟨{ rest := [], eof := true, fail := f }, rfl, rfl⟩
    | cons z zs =>
      cases f with
      | true =>
        refine ⟨{ rest := [], eof := true, fail := true }, ?_, rfl⟩
        simp only [readParams_failed F (z :: zs) { rest := [], eof := true, fail := true } rfl]
        rfl
      | false =>
        obtain ⟨s', h1, h2⟩ := readParams_spaces F (z :: zs) (by simp) [] true (by simp)
        refine ⟨s', ?_, h2⟩
        simp only [h1]
        rfl

/-- The parameter section up to any position. -/
theorem readParams_cut (F : NumFormat K) (hF : Greedy F) (w : ℕ) (xs v : List K) (hlen : xs.length = v.length)
    (hv : v ≠ []) (hw : ∀ y ∈ v, (F.fmt y).length ≤ w) (c : Char) (hc : isSpace c = true) (m : ℕ) :
    ∃ s', readParams F xs
        { rest := (c :: joinWith ['\n'] ((v.map F.fmt).map (padLeft w))).take m, eof := decide (m = 0) } =
      (cutList F w xs v m, s') ∧ s'.eof = true := by
  induction v generalizing xs c m with
  | nil => exact absurd rfl hv
  | cons y ys ih =>
    cases xs with
    | nil => simp at hlen
    | cons x xs =>
      have hwy := hw y (by simp)
      have hpl := padLeft_length hwy
      obtain ⟨tl, htl, htl2⟩ : ∃ tl, c :: joinWith ['\n'] (((y :: ys).map F.fmt).map (padLeft w)) =
          (c :: padLeft w (F.fmt y)) ++ tl ∧
          (ys = [] ∧ tl = [] ∨ ys ≠ [] ∧ tl = '\n' :: joinWith ['\n'] ((ys.map F.fmt).map (padLeft w))) := by
        cases ys with
        | nil => exact ⟨[], by simp [joinWith], Or.inl ⟨rfl, rfl⟩⟩
        | cons z zs => exact ⟨_, by simp [joinWith], Or.inr ⟨by simp, rfl⟩⟩
      rw [htl]
      by_cases hm : w + 1 ≤ m
      · have e : ((c :: padLeft w (F.fmt y)) ++ tl).take m = (c :: List.replicate (w - (F.fmt y).length) ' ') ++
            (F.fmt y ++ tl.take (m - (w + 1))) := by
          rw [List.take_append, List.take_of_length_le (by simp [hpl]; omega), List.length_cons, hpl, padLeft]
          simp
        have hsp : ∀ d ∈ (c :: List.replicate (w - (F.fmt y).length) ' '), isSpace d = true := by
          intro d hd
          rcases List.mem_cons.mp hd with rfl | hd
          · exact hc
          · exact replicate_space _ d hd
        have hhead : ∀ d ∈ (tl.take (m - (w + 1))).head?, isSpace d = true := by
          rcases htl2 with ⟨_, h⟩ | ⟨_, h⟩
          · simp [h]
          · rw [h]
            cases m - (w + 1) with
            | zero => simp
            | succ k => simp [isSpace_newline]
        have hx := F.extract_ok _ (tl.take (m - (w + 1))) y hsp hhead
        have hd0 : decide (m = 0) = false := by simp; omega
        rw [e, hd0, readParams, hx]
        simp only [cutList, if_pos hm, Option.getD_some]
        rcases htl2 with ⟨hys, h⟩ | ⟨hys, h⟩
        · subst hys
          have hxs : xs = [] := by simpa using hlen
          subst hxs
          subst h
          refine ⟨{ rest := [], eof := true, fail := false }, ?_, rfl⟩
          simp [readParams, cutList]
        · obtain ⟨s', h1, h2⟩ := ih xs (by simpa using hlen) hys (fun z hz => hw z (by simp [hz])) '\n' isSpace_newline
            (m - (w + 1))
          refine ⟨s', ?_, h2⟩
          have he : (tl.take (m - (w + 1))).isEmpty = decide (m - (w + 1) = 0) := by
            rw [h]
            cases m - (w + 1) <;> simp
          rw [he, h, h1]
      · obtain ⟨s', h1, h2⟩ := readParams_field F hF w x y xs c hc m
        refine ⟨s', ?_, h2⟩
        have e : ((c :: padLeft w (F.fmt y)) ++ tl).take m = (c :: padLeft w (F.fmt y)).take m :=
          List.take_append_of_le_length (by simp [hpl]; omega)
        rw [e, h1, cutList, if_neg hm]

theorem cutList_length (F : NumFormat K) (w : ℕ) (xs v : List K) (m : ℕ) (hlen : xs.length = v.length) :
    (cutList F w xs v m).length = v.length := by
  induction v generalizing xs m with
  | nil => cases xs <;> simp_all [cutList]
  | cons y ys ih =>
    cases xs with
    | nil => simp at hlen
    | cons x xs =>
      simp only [List.length_cons, Nat.add_right_cancel_iff] at hlen
      rw [cutList]
      split
      · simp [ih xs _ hlen]
      · simp [hlen]

theorem cutList_getD (F : NumFormat K) (w : ℕ) (xs v : List K) (m : ℕ) (hlen : xs.length = v.length) (i : ℕ)
    (hi : i < v.length) :
    (cutList F w xs v m).getD i 0 = if i < m / (w + 1) then F.round (v.getD i 0)
      else if i = m / (w + 1) then lastValue F w (xs.getD i 0) (v.getD i 0) (m % (w + 1)) else xs.getD i 0 := by
  induction v generalizing xs m i with
  | nil => simp at hi
  | cons y ys ih =>
    cases xs with
    | nil => simp at hlen
    | cons x xs =>
      simp only [List.length_cons, Nat.add_right_cancel_iff] at hlen
      rw [cutList]
      by_cases hm : w + 1 ≤ m
      · have hq : m / (w + 1) = (m - (w + 1)) / (w + 1) + 1 := Nat.div_eq_sub_div (by omega) hm
        have hr : m % (w + 1) = (m - (w + 1)) % (w + 1) := Nat.mod_eq_sub_mod hm
        rw [if_pos hm, hq, hr]
        cases i with
        | zero => simp
        | succ i =>
          simp only [List.getD_cons_succ, Nat.add_lt_add_iff_right, Nat.add_right_cancel_iff]
          exact ih xs (m - (w + 1)) hlen i (by simpa using hi)
      · have hq : m / (w + 1) = 0 := Nat.div_eq_of_lt (by omega)
        have hr : m % (w + 1) = m := Nat.mod_eq_of_lt (by omega)
        rw [if_neg hm, hq, hr]
        cases i with
        | zero => simp
        | succ i => simp

/-! ## Commands -/

/-- The text of some commands. -/
abbrev texts (F : NumFormat K) (cs : List (Cmd K)) : List Char := cs.flatMap (·.text F)

/-- The text of some arguments: each is followed by a blank. -/
abbrev argTexts (F : NumFormat K) (as : List (Arg K)) : List Char := as.flatMap (fun a => a.text F ++ [' '])

theorem run_append (F : NumFormat K) (init : ℕ → K) (cs ds : List (Cmd K)) (a : Net K) :
    run F init (cs ++ ds) a = (run F init cs a >>= fun b => run F init ds b) := by
  induction cs generalizing a with
  | nil => rfl
  | cons c cs ih =>
    rw [List.cons_append, run, run]
    cases h : exec F init a c with
    | ok b => simp only [Outcome.ok_bind, ih]
    | _ => rfl

/-- The calls made while loading have the structure of the calls made before saving. -/
theorem run_round (F : NumFormat K) (init init' : ℕ → K) (cs : List (Cmd K)) {a a' b : Net K}
    (h : SameStructure F a b) (ha : run F init cs a = .ok a') :
    ∃ b', run F init' (cs.map (·.round F)) b = .ok b' ∧ SameStructure F a' b' := by
  induction cs generalizing a b with
  | nil =>
    simp only [run, Outcome.ok.injEq] at ha
    subst ha
    exact ⟨b, rfl, h⟩
  | cons c cs ih =>
    obtain ⟨a1, h1, h2⟩ := Outcome.bind_eq_ok.mp ha
    obtain ⟨b1, g1, g2, -⟩ := exec_round F init init' h c h1
    obtain ⟨b', k1, k2⟩ := ih g2 h2
    exact ⟨b', by rw [List.map_cons, run, g1]; exact k1, k2⟩

/-- The variable `type` after some commands. -/
def lastName (type : List Char) (cs : List (Cmd K)) : List Char := cs.foldl (fun _ c => c.name) type

/-- The whitespace in front of the next word. -/
def lead (ws : List Char) (cs : List (Cmd K)) : List Char := if cs.isEmpty then ws else [' ']

theorem loadLoop_run (F : NumFormat K) (init : ℕ → K) (cs : List (Cmd K)) (hcs : ∀ c ∈ cs, c.WordArgs) {b b' : Net K}
    (hb : run F init (cs.map (·.round F)) b = .ok b') (type ws rest : List Char) (hws : ∀ c ∈ ws, isSpace c = true)
    (fuel : ℕ) :
    loadLoop F init (fuel + cs.length) b type { rest := ws ++ (texts F cs ++ rest) } =
      loadLoop F init fuel b' (lastName type cs) { rest := lead ws cs ++ rest } := by
  induction cs generalizing b type ws with
  | nil =>
    simp only [List.map_nil, run, Outcome.ok.injEq] at hb
    subst hb
    simp [lastName, lead]
  | cons c cs ih =>
    rw [List.map_cons] at hb
    obtain ⟨b1, h1, h2⟩ := Outcome.bind_eq_ok.mp hb
    have e : ws ++ (texts F (c :: cs) ++ rest) = ws ++ (c.text F ++ (texts F cs ++ rest)) := by
      simp
    have hstep := loadStep_cmd F init b type c (hcs c (by simp)) ws (texts F cs ++ rest) hws
    rw [h1] at hstep
    simp only [Outcome.ok_bind, Outcome.pure_eq] at hstep
    rw [List.length_cons, ← Nat.add_assoc, e, loadLoop_succ_ok F init _ _ _ _ rfl hstep]
    have := ih (fun d hd => hcs d (by simp [hd])) h2 c.name [' '] (by simp [isSpace_blank])
    simp only [List.cons_append, List.nil_append] at this
    refine this.trans ?_
    have hl : lead [' '] cs = lead ws (c :: cs) := by
      simp [lead]
    rw [hl]
    rfl

/-- Until parameters are set they are the initial ones. -/
def Initial (init : ℕ → K) (net : Net K) : Prop := ∀ p, net.P = some p → net.params = (List.range p).map init

theorem exec_initial (F : NumFormat K) (init : ℕ → K) {a a' : Net K} (c : Cmd K) (h : exec F init a c = .ok a')
    (hi : Initial init a) : Initial init a' := by
  have hidden : addLayer { a with arch := a.arch ++ c.text F } c = .ok a' → Initial init a' := by
    intro h p hp
    obtain ⟨-, h2, h3⟩ := addLayer_arch h
    rw [h3]
    exact hi p (by rw [← hp, h2])
  have out : (addLayer { a with arch := a.arch ++ c.text F } c >>= initializeNetwork init) = .ok a' →
      Initial init a' := by
    intro h p hp
    obtain ⟨a2, h3, h4⟩ := Outcome.bind_eq_ok.mp h
    unfold initializeNetwork at h4
    cases hf : a2.infos.head? with
    | none => rw [hf] at h4; simp at h4
    | some f =>
      cases hl : a2.infos.getLast? with
      | none => rw [hf, hl] at h4; simp at h4
      | some l =>
        rw [hf, hl] at h4
        simp only at h4
        obtain ⟨n1, h1, h4⟩ := alloc_bind_ok h4
        obtain ⟨n2, h2, h4⟩ := alloc_bind_ok h4
        simp only [Outcome.pure_eq, Outcome.ok.injEq] at h4
        subst h4
        cases hp
        rfl
  cases c with
  | errorFunction e =>
    simp only [exec, Outcome.ok.injEq] at h
    subst h
    exact hi
  | regularization x y z =>
    simp only [exec, Outcome.ok.injEq] at h
    subst h
    exact hi
  | output => exact out h
  | compressedOutput => exact out h
  | _ => exact hidden h

theorem run_initial (F : NumFormat K) (init : ℕ → K) (cs : List (Cmd K)) {a a' : Net K} (h : run F init cs a = .ok a')
    (hi : Initial init a) : Initial init a' := by
  induction cs generalizing a with
  | nil =>
    simp only [run, Outcome.ok.injEq] at h
    subst h
    exact hi
  | cons c cs ih =>
    obtain ⟨a1, h1, h2⟩ := Outcome.bind_eq_ok.mp h
    exact ih h2 (exec_initial F init c h1 hi)

theorem initial_empty (init : ℕ → K) : Initial init (empty : Net K) := fun p hp => by cases hp

/-- Everything up to the place where the text breaks off. -/
theorem loads_after (F : NumFormat K) (init : ℕ → K) (cs : List (Cmd K)) (hcs : ∀ c ∈ cs, c.WordArgs) {b : Net K}
    (hb : run F init (cs.map (·.round F)) empty = .ok b) (rest : List Char) {r : Outcome (Net K)} (fuel : ℕ)
    (h : loadLoop F init fuel b (lastName [] cs) { rest := lead [] cs ++ rest } = some r) :
    Loads F init empty (IStream.of (texts F cs ++ rest)) r := by
  refine ⟨fuel + cs.length, ?_⟩
  have := loadLoop_run F init cs hcs hb [] [] rest (by simp) fuel
  rw [List.nil_append] at this
  rw [IStream.of, this, h]

theorem lead_space (cs : List (Cmd K)) : ∀ c ∈ lead [] cs, isSpace c = true := by
  intro c hc
  unfold lead at hc
  split at hc
  · cases hc
  · rw [List.mem_singleton.mp hc]
    decide

/-- **C99, the parameter section.** Whatever the position behind the word `parameters` at which a file breaks off, `load`
reports success.  The network has the right structure; its parameters are right as long as their text is complete, one
may be made of the beginning of its text, and all others are the random numbers that the new network started with. -/
theorem cut_in_parameters (F : NumFormat K) (hF : Greedy F) (init init' : ℕ → K) (cs : List (Cmd K))
    (hcs : ∀ c ∈ cs, c.WordArgs) {net : Net K} (hrun : run F init cs empty = .ok net) {p : ℕ} (hp : net.P = some p)
    (v : List K) (hv : v.length = p) (m : ℕ) :
    ∃ loaded, Loads F init' empty (IStream.of (texts F cs ++ ("parameters".toList ++
        (' ' :: printCol (v.map F.fmt)).take m))) (.ok loaded) ∧
      SameStructure F net loaded ∧ loaded.params = (List.range p).map (cutParams F v init' m) := by
  obtain ⟨b, hb, hs⟩ := run_round F init init' cs (empty_same F) hrun
  have hbp : b.P = some p := by rw [hs.P, hp]
  have hbi := run_initial F init' _ hb (initial_empty init') p hbp
  have hbl : b.params.length = p := by rw [hbi]; simp
  by_cases h0 : v = []
  · subst h0
    have hp0 : p = 0 := by simpa using hv.symm
    subst hp0
    refine ⟨b, ?_, hs, hbi⟩
    cases m with
    | zero =>
      refine loads_after F init' cs hcs hb _ 1 ?_
      have h := extractWord_ok (lead [] cs) "parameters".toList [] (lead_space cs) parameters_word.1 parameters_word.2
        (by simp)
      have hl : ∀ s, loadParameters F b s = .ok (b, s) := by
        intro s
        have hb0 : b.params = [] := hbi
        simp only [loadParameters, hbp, hb0]
        simp only [List.length_nil, le_refl, if_true, List.take_nil, List.drop_nil, readParams, List.append_nil]
        congr 2
        rw [← hb0, ← hbp]
      have hstep : loadStep F init' b (lastName [] cs) { rest := lead [] cs ++ ("parameters".toList ++ []) } =
          .ok (b, "parameters".toList, { rest := [], eof := true, fail := false }) := by
        rw [loadStep, h]
        refine (dispatch_parameters F init' b _).trans ?_
        rw [hl]
        rfl
      rw [List.take_zero, loadLoop_succ_ok F init' _ _ _ _ rfl hstep]
      rfl
    | succ m =>
      have e : (' ' :: printCol (([] : List K).map F.fmt)).take (m + 1) = ' ' :: printCol (([] : List K).map F.fmt) := by
        simp [printCol, joinWith]
      have hsz : Sized b := (run_arch F init' _ hb).2 sized_empty
      have h := loadLoop_parameters F init' b 0 hbp hsz [] rfl (lastName [] cs) (lead [] cs) (lead_space cs)
      have e2 : "parameters".toList ++ ' ' :: printCol (([] : List K).map F.fmt) =
          "parameters ".toList ++ printCol (([] : List K).map F.fmt) := by
        have : "parameters ".toList = "parameters".toList ++ [' '] := by decide
        rw [this]; simp
      rw [e, e2]
      refine loads_after F init' cs hcs hb _ 2 (h.trans ?_)
      have hb0 : b.params = [] := hbi
      rw [List.map_nil, ← hb0]
  · have h := extractWord_ok (lead [] cs) "parameters".toList ((' ' :: printCol (v.map F.fmt)).take m) (lead_space cs)
      parameters_word.1 parameters_word.2 (by cases m <;> simp [isSpace_blank])
    obtain ⟨s', h1, h2⟩ := readParams_cut F hF (maxWidth (v.map F.fmt)) b.params v (by rw [hbl, hv]) h0
      (fun y hy => length_le_maxWidth (List.mem_map_of_mem hy)) ' ' isSpace_blank m
    have he : ((' ' :: printCol (v.map F.fmt)).take m).isEmpty = decide (m = 0) := by cases m <;> simp
    have hstep : loadStep F init' b (lastName [] cs)
        { rest := lead [] cs ++ ("parameters".toList ++ (' ' :: printCol (v.map F.fmt)).take m) } =
        .ok ({ b with params := cutList F (maxWidth (v.map F.fmt)) b.params v m }, "parameters".toList, s') := by
      rw [loadStep, h]
      refine (dispatch_parameters F init' b _).trans ?_
      rw [loadParameters, hbp]
      simp only
      rw [if_pos (by omega), List.take_of_length_le (by omega), List.drop_of_length_le (by omega), he]
      unfold printCol
      rw [h1]
      simp
    refine ⟨{ b with params := cutList F (maxWidth (v.map F.fmt)) b.params v m },
      loads_after F init' cs hcs hb _ 1 ?_, ⟨hs.layers, hs.infos, hs.nParams, hs.P, hs.reg, hs.errFn⟩, ?_⟩
    · rw [loadLoop_succ_ok F init' _ _ _ _ rfl hstep, loadLoop, h2]
      rfl
    · apply List.ext_getElem
      · simp [cutList_length F _ b.params v m (by rw [hbl, hv]), hv]
      · intro i hi1 hi2
        have hi : i < v.length := by simpa [hv] using hi2
        have hg := cutList_getD F (maxWidth (v.map F.fmt)) b.params v m (by rw [hbl, hv]) i hi
        rw [← List.getElem_eq_getD (h := hi1) 0] at hg
        have hbg : b.params.getD i 0 = init' i := by
          rw [hbi, ← List.getElem_eq_getD (h := by simpa [hv] using hi) 0]
          simp
        rw [hg, hbg]
        simp [cutParams]

/-! ## Keywords -/

theorem name_prefix (k : Kind) (n : ℕ) (hn : n < k.word.length) (h0 : 0 < n) :
    kinds.find? (fun k' => k'.word = k.word.take n) =
      if k.word.take n = "compressed".toList then some .compressed else none := by
  revert n
  cases k <;> decide

theorem parameters_prefix (n : ℕ) (hn : n < 10) :
    kinds.find? (fun k' => k'.word = "parameters".toList.take n) = none ∧
      "parameters".toList.take n ≠ "parameters".toList := by
  revert n
  decide

theorem prefix_not_parameters (k : Kind) (n : ℕ) (hn : n < k.word.length) :
    k.word.take n ≠ "parameters".toList := by
  revert n
  cases k <;> decide

theorem loadStep_throws (F : NumFormat K) (init : ℕ → K) (net : Net K) (type ws w : List Char)
    (hws : ∀ c ∈ ws, isSpace c = true) (hne : w ≠ []) (hw : ∀ c ∈ w, isSpace c = false)
    (hk : kinds.find? (fun k => k.word = w) = none) (ht : w ≠ "parameters".toList) :
    loadStep F init net type { rest := ws ++ w } = .throws := by
  have h := extractWord_ok ws w [] hws hne hw (by simp)
  rw [List.append_nil] at h
  rw [loadStep, h]
  exact dispatch_none F init net _ _ hk ht

/-! ## Arguments -/

theorem readArg_bad (F : NumFormat K) (t : ArgType) (s : IStream) (h : s.good = false) :
    (readArg F t s).2.good = false ∧ (t ≠ .word → (readArg F t s).1 = none) := by
  have h1 : ∀ {α : Type} (z : α) (scan : List Char → Option α × List Char),
      extractNum z scan s = (none, { s with fail := true }) := by
    intro α z scan
    simp [extractNum, h]
  cases t with
  | int => simp [readArg, extractInt, h1, IStream.good]
  | dbl => simp [readArg, NumFormat.extract, h1, IStream.good]
  | bool => simp [readArg, extractBool, extractInt, h1, IStream.good]
  | word =>
    have h2 : extractWord s = (none, { s with fail := true }) := by simp [extractWord, h]
    simp [readArg, h2, IStream.good]

/-- After the end of the file the last argument is not assigned. -/
theorem readArgs_bad (F : NumFormat K) (ts : List ArgType) (t : ArgType) (ht : t ≠ .word) (s : IStream)
    (h : s.good = false) : (readArgs F (ts ++ [t]) s).1.getLast? = some none := by
  induction ts generalizing s with
  | nil =>
    have := (readArg_bad F t s h).2 ht
    simp [readArgs, this]
  | cons u ts ih =>
    have hi := ih (readArg F u s).2 (readArg_bad F u s h).1
    rw [List.cons_append, readArgs]
    simp only
    rw [List.getLast?_cons, hi]
    rfl

theorem call_ub (k : Kind) (l : List (Option (Arg K))) (h : l.getLast? = some none) : k.call l = .ub := by
  unfold Kind.call
  split <;> first | rfl | (simp at h)

theorem types_last (c : Cmd K) {as : List (Arg K)} {a : Arg K} (h : c.args = as ++ [a]) : a.type ≠ .word := by
  have h1 : c.args.getLast? = some a := by rw [h]; simp
  cases c <;> simp only [Cmd.args, List.getLast?_cons_cons, List.getLast?_singleton, Option.some.injEq] at h1 <;>
    (subst h1; simp [Arg.type])

theorem scanDigits_all (acc : ℕ) (l : List Char) (h : ∀ c ∈ l, isDigit c = true) : (scanDigits acc l).2 = [] := by
  have := scanDigits_append acc l [] h (by simp)
  rw [List.append_nil] at this
  rw [this]

/-- The reader of integers takes everything of a number whose end is missing. -/
theorem scanInt_greedy (z : ℤ) (n : ℕ) : (scanInt ((printInt z).take n)).2 = [] := by
  have hd : ∀ k, ∀ c ∈ (printNat z.natAbs).take k, isDigit c = true :=
    fun k c hc => printNat_digits _ c (List.mem_of_mem_take hc)
  have key : ∀ l : List Char, (∀ c ∈ l, isDigit c = true) → (scanInt l).2 = [] ∧ (scanInt ('-' :: l)).2 = [] := by
    intro l hl
    cases l with
    | nil => decide
    | cons c cs =>
      have hc := hl c (by simp)
      have h2 := scanDigits_all 0 (c :: cs) hl
      constructor
      · unfold scanInt
        rw [scanSign_of_digit hc]
        simp only [hc, if_true]
        exact h2
      · unfold scanInt
        simp only [scanSign, hc, if_true]
        exact h2
  unfold printInt
  split
  · cases n with
    | zero => rfl
    | succ n => exact (key _ (hd n)).2
  · exact (key _ (hd n)).1

theorem printBool_length (b : Bool) : (printBool b).length = 1 := by cases b <;> rfl

theorem arg_no_space (F : NumFormat K) (a : Arg K) (h : a.Valid) : ∀ c ∈ a.text F, isSpace c = false := by
  cases a with
  | int z => exact printInt_no_space z
  | dbl x => exact F.fmt_no_space x
  | bool b => cases b <;> (show ∀ c ∈ [_], _) <;> decide
  | word w => exact h.2

theorem arg_ne_nil (F : NumFormat K) (a : Arg K) (h : a.Valid) : a.text F ≠ [] := by
  cases a with
  | int z => exact printInt_ne_nil z
  | dbl x => exact F.fmt_ne x
  | bool b => cases b <;> (show [_] ≠ []) <;> simp
  | word w => exact h.1

/-- The value of an argument of whose text `n` characters are left. -/
def cutArg (F : NumFormat K) (n : ℕ) : Arg K → Arg K
  | .int z => .int (((scanInt ((printInt z).take n)).1).getD 0)
  | .dbl x => .dbl (valueOf F ((F.fmt x).take n))
  | .bool b => .bool b
  | .word w => .word (w.take n)

theorem extractNum_cut {α : Type} (zero : α) (scan : List Char → Option α × List Char) (l : List Char) (hne : l ≠ [])
    (hl : ∀ c ∈ l, isSpace c = false) (hs : (scan l).2 = []) :
    ∃ f, extractNum zero scan { rest := ' ' :: l } =
      (some (((scan l).1).getD zero), { rest := [], eof := true, fail := f }) := by
  have hd : (' ' :: l).dropWhile isSpace = l := by
    have := dropWhile_isSpace_append (ws := [' ']) (l := l) (by simp [isSpace_blank])
    have h2 := dropWhile_isSpace_of_no_space (rest := []) hne hl
    rw [List.append_nil] at h2
    rw [h2] at this
    exact this
  obtain ⟨d, ds, rfl⟩ := List.exists_cons_of_ne_nil hne
  rw [extractNum]
  simp only [IStream.good, Bool.not_false, Bool.and_self, Bool.not_true, Bool.false_eq_true, if_false]
  rw [hd]
  simp only
  rcases hsc : scan (d :: ds) with ⟨o, r⟩
  rw [hsc] at hs
  simp only at hs
  subst hs
  cases o with
  | none => exact ⟨true, rfl⟩
  | some a => exact ⟨false, rfl⟩

/-- An argument that breaks off ends the stream. -/
theorem readArg_cut (F : NumFormat K) (hF : Greedy F) (a : Arg K) (hv : a.Valid) (n : ℕ) (hn : 0 < n)
    (hl : n ≤ (a.text F).length) :
    ∃ s', readArg F a.type { rest := ' ' :: (a.text F).take n } = (some (cutArg F n a), s') ∧ s'.eof = true := by
  have hne : (a.text F).take n ≠ [] := by
    rw [Ne, List.take_eq_nil_iff, not_or]
    exact ⟨by omega, arg_ne_nil F a hv⟩
  have hnos : ∀ c ∈ (a.text F).take n, isSpace c = false :=
    fun c hc => arg_no_space F a hv c (List.mem_of_mem_take hc)
  cases a with
  | int z =>
    obtain ⟨f, h⟩ := extractNum_cut (0 : ℤ) scanInt _ hne hnos (scanInt_greedy z n)
    refine ⟨{ rest := [], eof := true, fail := f }, ?_, rfl⟩
    simp only [readArg, Arg.type, Arg.text, extractInt] at h ⊢
    rw [h]
    rfl
  | dbl x =>
    obtain ⟨f, h⟩ := extractNum_cut (0 : K) F.scan _ hne hnos (hF x n hn)
    refine ⟨{ rest := [], eof := true, fail := f }, ?_, rfl⟩
    simp only [readArg, Arg.type, Arg.text, NumFormat.extract] at h ⊢
    rw [h]
    rfl
  | bool b =>
    have hb : (Arg.bool b : Arg K).text F = printBool b := rfl
    rw [hb, printBool_length] at hl
    have h1 : n = 1 := by omega
    subst h1
    have h := extractBool_ok [' '] [] b (by simp [isSpace_blank]) (by simp)
    refine ⟨{ rest := [], eof := true, fail := false }, ?_, rfl⟩
    have e : (Arg.text F (Arg.bool b : Arg K)).take 1 = printBool b := by cases b <;> rfl
    rw [e]
    simp only [List.append_nil, List.cons_append, List.nil_append] at h
    simp only [readArg, Arg.type, h]
    rfl
  | word w =>
    have h := extractWord_ok [' '] _ [] (by simp [isSpace_blank]) hne hnos (by simp)
    refine ⟨{ rest := [], eof := true, fail := false }, ?_, rfl⟩
    simp only [List.append_nil, List.cons_append, List.nil_append] at h
    simp only [readArg, Arg.type, h]
    rfl

/-- If the text breaks off before the last argument, that is not assigned. -/
theorem readArgs_missing (F : NumFormat K) (hF : Greedy F) (as : List (Arg K)) (hv : ∀ a ∈ as, a.Valid) (t : ArgType)
    (ht : t ≠ .word) (m : ℕ) (hm : m ≤ 1 + (argTexts F as).length) :
    (readArgs F (as.map Arg.type ++ [t]) { rest := (' ' :: argTexts F as).take m, eof := decide (m = 0) }).1.getLast? =
      some none := by
  induction as generalizing m with
  | nil =>
    cases m with
    | zero => exact readArgs_bad F [] t ht _ (by simp [IStream.good])
    | succ m =>
      have hd : (([' '] : List Char)).dropWhile isSpace = [] := by decide
      have e : (' ' :: argTexts F ([] : List (Arg K))).take (m + 1) = [' '] := by simp
      rw [e]
      cases t with
      | int => simp [readArgs, readArg, extractInt, extractNum, IStream.good, hd]
      | dbl => simp [readArgs, readArg, NumFormat.extract, extractNum, IStream.good, hd]
      | bool => simp [readArgs, readArg, extractBool, extractInt, extractNum, IStream.good, hd]
      | word => exact absurd rfl ht
  | cons a as ih =>
    have hva := hv a (by simp)
    have e : ' ' :: argTexts F (a :: as) = ' ' :: (a.text F ++ (' ' :: argTexts F as)) := by simp
    rw [e, List.map_cons, List.cons_append]
    by_cases h0 : m = 0
    · subst h0
      exact readArgs_bad F (a.type :: as.map Arg.type) t ht _ (by simp [IStream.good])
    · have hd0 : decide (m = 0) = false := by simp [h0]
      rw [hd0]
      obtain ⟨m, rfl⟩ := Nat.exists_eq_succ_of_ne_zero h0
      rw [List.take_succ_cons, readArgs]
      simp only
      rw [List.getLast?_cons]
      by_cases h1 : (a.text F).length ≤ m
      · have hr := readArg_ok F a [' '] ((' ' :: argTexts F as).take (m - (a.text F).length)) hva
          (by simp [isSpace_blank]) (by cases m - (a.text F).length <;> simp [isSpace_blank])
        have e2 : (a.text F ++ (' ' :: argTexts F as)).take m =
            a.text F ++ (' ' :: argTexts F as).take (m - (a.text F).length) := by
          rw [List.take_append, List.take_of_length_le h1]
        rw [List.cons_append, List.nil_append] at hr
        rw [e2, hr]
        have he : ((' ' :: argTexts F as).take (m - (a.text F).length)).isEmpty =
            decide (m - (a.text F).length = 0) := by
          cases m - (a.text F).length <;> simp
        have hi := ih (fun b hb => hv b (by simp [hb])) (m - (a.text F).length) (by
          have hm' : (argTexts F (a :: as)).length = (a.text F).length + 1 + (argTexts F as).length := by
            simp [argTexts]
            omega
          rw [hm'] at hm
          omega)
        simp only
        rw [he, hi]
        rfl
      · have e2 : (a.text F ++ (' ' :: argTexts F as)).take m = (a.text F).take m :=
          List.take_append_of_le_length (by omega)
        rw [e2]
        have hg : (readArg F a.type { rest := ' ' :: (a.text F).take m }).2.good = false := by
          cases m with
          | zero =>
            have hd : (([' '] : List Char)).dropWhile isSpace = [] := by decide
            cases a with
            | int => simp [readArg, Arg.type, extractInt, extractNum, IStream.good, hd]
            | dbl => simp [readArg, Arg.type, NumFormat.extract, extractNum, IStream.good, hd]
            | bool => simp [readArg, Arg.type, extractBool, extractInt, extractNum, IStream.good, hd]
            | word => simp [readArg, Arg.type, extractWord, IStream.good, hd]
          | succ m =>
            obtain ⟨s', h2, h3⟩ := readArg_cut F hF a hva (m + 1) (by omega) (by omega)
            rw [h2]
            simp [IStream.good, h3]
        have := readArgs_bad F (as.map Arg.type) t ht _ hg
        rw [this]
        rfl

theorem readArgs_append (F : NumFormat K) (ts : List ArgType) (t : ArgType) (s : IStream) :
    readArgs F (ts ++ [t]) s = ((readArgs F ts s).1 ++ [(readArg F t (readArgs F ts s).2).1],
      (readArg F t (readArgs F ts s).2).2) := by
  induction ts generalizing s with
  | nil => rfl
  | cons u ts ih =>
    rw [List.cons_append, readArgs]
    simp only [ih]
    rfl

/-- A command is determined by its name and its arguments; any arguments of the right types will do. -/
theorem call_args (c : Cmd K) (bs : List (Arg K)) (h : bs.map Arg.type = c.args.map Arg.type) :
    ∃ c' : Cmd K, c.kind.call (bs.map some) = .ok c' ∧ c'.name = c.name ∧ c'.args = bs := by
  cases c <;> simp only [Cmd.args, List.map_cons, List.map_nil, Arg.type] at h <;>
    (repeat
      have h' := List.map_eq_cons_iff.mp h
      clear h
      obtain ⟨b, bs', rfl, hb, h⟩ := h'
      cases b <;> simp only [Arg.type, reduceCtorEq] at hb) <;>
    (rw [List.map_eq_nil_iff] at h; subst h; exact ⟨_, rfl, rfl, rfl⟩)

/-! ## The architecture -/

/-- An empty file is refused. -/
theorem cut_at_start (F : NumFormat K) (init : ℕ → K) : Loads F init empty (IStream.of []) .throws := by
  refine ⟨1, ?_⟩
  have hw : extractWord (IStream.of []) = (none, { rest := [], eof := true, fail := true }) := by decide
  have hk : kinds.find? (fun k => k.word = ([] : List Char)) = none := by decide
  have hstep : loadStep F init (empty : Net K) [] (IStream.of []) = .throws := by
    rw [loadStep, hw]
    exact dispatch_none F init empty _ _ hk (by decide)
  rw [loadLoop, hstep]
  rfl

theorem lastName_append (cs : List (Cmd K)) (c : Cmd K) : lastName [] (cs ++ [c]) = c.name := by
  simp [lastName]

theorem args_split (c : Cmd K) : ∃ as a, c.args = as ++ [a] :=
  ⟨c.args.dropLast, c.args.getLast (args_ne_nil c), (List.dropLast_append_getLast (args_ne_nil c)).symm⟩

theorem dispatch_bad (F : NumFormat K) (init : ℕ → K) (net : Net K) (k : Kind) (s : IStream)
    (h : (readArgs F k.types s).1.getLast? = some none) : dispatch F init net k.word s = .ub := by
  rw [dispatch_kind F init net k.word s (find_word k), call_ub k _ h]
  rfl

theorem kind_types_last (k : Kind) : ∃ ts t, k.types = ts ++ [t] ∧ t ≠ .word := by
  cases k
  case input => exact ⟨[.int, .int], _, rfl, by decide⟩
  case alphaBetaFilter => exact ⟨[.dbl], _, rfl, by decide⟩
  case fullyConnected => exact ⟨[.int, .int, .dbl], _, rfl, by decide⟩
  case rbm => exact ⟨[.int, .int, .dbl], _, rfl, by decide⟩
  case sae => exact ⟨[.int, .dbl, .dbl], _, rfl, by decide⟩
  case compressed => exact ⟨[.int, .int, .int, .word, .dbl], _, rfl, by decide⟩
  case extreme => exact ⟨[.int, .int, .dbl], _, rfl, by decide⟩
  case intrinsicPlasticity => exact ⟨[.dbl], _, rfl, by decide⟩
  case convolutional => exact ⟨[.int, .int, .int, .int, .dbl], _, rfl, by decide⟩
  case subsampling => exact ⟨[.int, .int, .int, .dbl], _, rfl, by decide⟩
  case maxPooling => exact ⟨[.int], _, rfl, by decide⟩
  case localResponseNormalization => exact ⟨[.dbl, .int, .dbl], _, rfl, by decide⟩
  case dropout => exact ⟨[], _, rfl, by decide⟩
  case output => exact ⟨[.int, .int, .dbl], _, rfl, by decide⟩
  case compressedOutput => exact ⟨[.int, .int, .int, .word, .dbl], _, rfl, by decide⟩
  case errorFunction => exact ⟨[], _, rfl, by decide⟩
  case regularization => exact ⟨[.dbl, .dbl], _, rfl, by decide⟩

/-- **C99, between two commands.** A file that ends behind a complete command (with its blank) is undefined behaviour: the
word of the last command is acted upon once more, with variables that were not assigned. -/
theorem cut_between_ub (F : NumFormat K) (init init' : ℕ → K) (cs : List (Cmd K)) (c : Cmd K)
    (hcs : ∀ d ∈ cs ++ [c], d.WordArgs) {net : Net K} (hrun : run F init (cs ++ [c]) empty = .ok net) :
    Loads F init' empty (IStream.of (texts F (cs ++ [c]))) .ub := by
  obtain ⟨b, hb, -⟩ := run_round F init init' (cs ++ [c]) (empty_same F) hrun
  rw [← List.append_nil (texts F (cs ++ [c]))]
  refine loads_after F init' (cs ++ [c]) hcs hb [] 1 ?_
  have hl : lead [] (cs ++ [c]) = [' '] := by
    simp [lead]
  have hw : extractWord { rest := [' '] } = (none, { rest := [], eof := true, fail := true }) := by decide
  have hstep : loadStep F init' b (lastName [] (cs ++ [c])) { rest := [' '] } = .ub := by
    rw [loadStep, hw, lastName_append, ← kind_word]
    obtain ⟨ts, t, h1, h2⟩ := kind_types_last c.kind
    refine dispatch_bad F init' b c.kind _ ?_
    rw [h1]
    exact readArgs_bad F ts t h2 _ (by simp [IStream.good])
  rw [hl, List.append_nil, loadLoop, hstep]
  rfl

/-- **C99, within a keyword.** A file that ends within the first word of a command is refused, unless what is left is the
word `compressed` (of `compressed_output`): that is undefined behaviour. -/
theorem cut_in_keyword (F : NumFormat K) (init init' : ℕ → K) (cs : List (Cmd K)) (c : Cmd K)
    (hcs : ∀ d ∈ cs, d.WordArgs) {net : Net K} (hrun : run F init cs empty = .ok net) (n : ℕ) (h0 : 0 < n)
    (hn : n < c.name.length) :
    Loads F init' empty (IStream.of (texts F cs ++ c.name.take n))
      (if c.name.take n = "compressed".toList then .ub else .throws) := by
  obtain ⟨b, hb, -⟩ := run_round F init init' cs (empty_same F) hrun
  refine loads_after F init' cs hcs hb _ 1 ?_
  have hne : c.name.take n ≠ [] := by
    rw [Ne, List.take_eq_nil_iff, not_or]
    exact ⟨by omega, (name_word c).1⟩
  have hw : ∀ x ∈ c.name.take n, isSpace x = false := fun x hx => (name_word c).2 x (List.mem_of_mem_take hx)
  rw [← kind_word] at hn
  have hk := name_prefix c.kind n hn h0
  have hp := prefix_not_parameters c.kind n hn
  rw [kind_word] at hk hp
  by_cases hc : c.name.take n = "compressed".toList
  · rw [if_pos hc]
    have h := extractWord_ok (lead [] cs) (c.name.take n) [] (lead_space cs) hne hw (by simp)
    rw [List.append_nil] at h
    have hstep : loadStep F init' b (lastName [] cs) { rest := lead [] cs ++ c.name.take n } = .ub := by
      rw [loadStep, h, Option.getD_some, hc]
      refine dispatch_bad F init' b .compressed _ ?_
      exact readArgs_bad F [.int, .int, .int, .word, .dbl] .bool (by decide) _ (by simp [IStream.good])
    rw [loadLoop, hstep]
    rfl
  · rw [if_neg hc] at hk ⊢
    have hstep := loadStep_throws F init' b (lastName [] cs) (lead [] cs) (c.name.take n) (lead_space cs) hne hw hk hp
    rw [loadLoop, hstep]
    rfl

/-- **C99, within the word `parameters`.** Such a file is refused. -/
theorem cut_in_parameters_word (F : NumFormat K) (init init' : ℕ → K) (cs : List (Cmd K))
    (hcs : ∀ d ∈ cs, d.WordArgs) {net : Net K} (hrun : run F init cs empty = .ok net) (n : ℕ) (h0 : 0 < n)
    (hn : n < 10) :
    Loads F init' empty (IStream.of (texts F cs ++ "parameters".toList.take n)) .throws := by
  obtain ⟨b, hb, -⟩ := run_round F init init' cs (empty_same F) hrun
  refine loads_after F init' cs hcs hb _ 1 ?_
  have hne : "parameters".toList.take n ≠ [] := by
    rw [Ne, List.take_eq_nil_iff, not_or]
    exact ⟨by omega, parameters_word.1⟩
  obtain ⟨hk, hp⟩ := parameters_prefix n hn
  have hstep := loadStep_throws F init' b (lastName [] cs) (lead [] cs) ("parameters".toList.take n) (lead_space cs) hne
    (fun x hx => parameters_word.2 x (List.mem_of_mem_take hx)) hk hp
  rw [loadLoop, hstep]
  rfl

/-- **C99, an argument is missing.** A file that ends behind the first word of a command and before its last argument is
undefined behaviour: a variable that was not assigned is used. -/
theorem cut_missing_ub (F : NumFormat K) (hF : Greedy F) (init init' : ℕ → K) (cs : List (Cmd K)) (c : Cmd K)
    (hcs : ∀ d ∈ cs ++ [c], d.WordArgs) {net : Net K} (hrun : run F init cs empty = .ok net) {as : List (Arg K)}
    {a : Arg K} (ha : c.args = as ++ [a]) (m : ℕ) (hm : m ≤ 1 + (argTexts F as).length) :
    Loads F init' empty (IStream.of (texts F cs ++ (c.name ++ (' ' :: argTexts F as).take m))) .ub := by
  obtain ⟨b, hb, -⟩ := run_round F init init' cs (empty_same F) hrun
  refine loads_after F init' cs (fun d hd => hcs d (by simp [hd])) hb _ 1 ?_
  have hva := args_valid c (hcs c (by simp))
  have h := extractWord_ok (lead [] cs) c.name ((' ' :: argTexts F as).take m) (lead_space cs) (name_word c).1
    (name_word c).2 (by cases m <;> simp [isSpace_blank])
  have he : ((' ' :: argTexts F as).take m).isEmpty = decide (m = 0) := by cases m <;> simp
  have hstep : loadStep F init' b (lastName [] cs)
      { rest := lead [] cs ++ (c.name ++ (' ' :: argTexts F as).take m) } = .ub := by
    rw [loadStep, h, he, Option.getD_some, ← kind_word]
    refine dispatch_bad F init' b c.kind _ ?_
    rw [types_kind, ha, List.map_append]
    exact readArgs_missing F hF as (fun d hd => hva d (by rw [ha]; simp [hd])) a.type (types_last c ha) m hm
  rw [loadLoop, hstep]
  rfl

theorem cutArg_type (F : NumFormat K) (n : ℕ) (a : Arg K) : (cutArg F n a).type = a.type := by cases a <;> rfl

theorem round_type (F : NumFormat K) (a : Arg K) : (a.round F).type = a.type := by cases a <;> rfl

/-- **C99, within the last argument.** A file that ends within or directly behind the last argument of a command is
accepted if the command is: the last argument is what its remaining characters say, and the commands that followed and all
parameters are missing. -/
theorem cut_in_last_argument (F : NumFormat K) (hF : Greedy F) (init init' : ℕ → K) (cs : List (Cmd K)) (c : Cmd K)
    (hcs : ∀ d ∈ cs ++ [c], d.WordArgs) {net : Net K} (hrun : run F init cs empty = .ok net) {as : List (Arg K)}
    {a : Arg K} (ha : c.args = as ++ [a]) (n : ℕ) (h0 : 0 < n) (hn : n ≤ (a.text F).length) :
    ∃ (b : Net K) (c' : Cmd K), SameStructure F net b ∧ run F init' (cs.map (·.round F)) empty = .ok b ∧
      c'.name = c.name ∧ c'.args = as.map (Arg.round F) ++ [cutArg F n a] ∧
      Loads F init' empty (IStream.of (texts F cs ++ (c.name ++ ' ' :: (argTexts F as ++ (a.text F).take n))))
        (exec F init' b c') := by
  obtain ⟨b, hb, hs⟩ := run_round F init init' cs (empty_same F) hrun
  have hva := args_valid c (hcs c (by simp))
  obtain ⟨c', h1, h2, h3⟩ := call_args c (as.map (Arg.round F) ++ [cutArg F n a]) (by
    rw [ha]
    simp [cutArg_type, round_type, Function.comp_def])
  refine ⟨b, c', hs, hb, h2, h3, loads_after F init' cs (fun d hd => hcs d (by simp [hd])) hb _ 1 ?_⟩
  have h := extractWord_ok (lead [] cs) c.name (' ' :: (argTexts F as ++ (a.text F).take n)) (lead_space cs)
    (name_word c).1 (name_word c).2 (by simp [isSpace_blank])
  obtain ⟨s', h4, h5⟩ := readArg_cut F hF a (hva a (by rw [ha]; simp)) n h0 hn
  have hr := readArgs_ok F as ((a.text F).take n) (fun d hd => hva d (by rw [ha]; simp [hd]))
  have hstep : loadStep F init' b (lastName [] cs)
      { rest := lead [] cs ++ (c.name ++ ' ' :: (argTexts F as ++ (a.text F).take n)) } = (do
        let net' ← exec F init' b c'
        return (net', c.name, s')) := by
    rw [loadStep, h, Option.getD_some]
    refine (dispatch_kind F init' b c.name _ (find_kind c)).trans ?_
    rw [types_kind, ha, List.map_append, List.map_singleton, readArgs_append, List.isEmpty_cons, hr]
    simp only
    rw [h4]
    simp only
    have e : as.map (fun a => some (a.round F)) ++ [some (cutArg F n a)] =
        (as.map (Arg.round F) ++ [cutArg F n a]).map some := by simp
    rw [e, h1]
    rfl
  rw [loadLoop, hstep]
  cases hx : exec F init' b c' with
  | ok b' => simp [loadLoop, h5]
  | _ => simp

/-- If all of the last argument is there, only its blank is missing, it has the right value. -/
theorem cutArg_full (F : NumFormat K) (a : Arg K) : cutArg F (a.text F).length a = a.round F := by
  cases a with
  | int z =>
    have h := scanInt_printInt z [] (by simp)
    rw [List.append_nil] at h
    simp [cutArg, Arg.text, Arg.round, h]
  | dbl x =>
    have h := F.scan_fmt x [] (by simp)
    rw [List.append_nil] at h
    simp [cutArg, Arg.text, Arg.round, valueOf, h]
  | bool b => rfl
  | word w => simp [cutArg, Arg.text, Arg.round]

/-! ## Every position -/

/-- The positions at which the file of a network with the commands `cs` and the parameters `v` can break off. -/
inductive Break (F : NumFormat K) (cs : List (Cmd K)) (v : List K) : List Char → Prop
  /-- Nothing has been written. -/
  | start : Break F cs v []
  /-- Behind a command. -/
  | between (pre : List (Cmd K)) (c : Cmd K) (post : List (Cmd K)) : cs = pre ++ [c] ++ post →
      Break F cs v (texts F (pre ++ [c]))
  /-- Within the first word of a command. -/
  | keyword (pre : List (Cmd K)) (c : Cmd K) (post : List (Cmd K)) (n : ℕ) : cs = pre ++ [c] ++ post → 0 < n →
      n < c.name.length → Break F cs v (texts F pre ++ c.name.take n)
  /-- Before the last argument of a command. -/
  | missing (pre : List (Cmd K)) (c : Cmd K) (post : List (Cmd K)) (as : List (Arg K)) (a : Arg K) (m : ℕ) :
      cs = pre ++ [c] ++ post → c.args = as ++ [a] → m ≤ 1 + (argTexts F as).length →
      Break F cs v (texts F pre ++ (c.name ++ (' ' :: argTexts F as).take m))
  /-- Within or directly behind the last argument of a command. -/
  | argument (pre : List (Cmd K)) (c : Cmd K) (post : List (Cmd K)) (as : List (Arg K)) (a : Arg K) (n : ℕ) :
      cs = pre ++ [c] ++ post → c.args = as ++ [a] → 0 < n → n ≤ (a.text F).length →
      Break F cs v (texts F pre ++ (c.name ++ ' ' :: (argTexts F as ++ (a.text F).take n)))
  /-- Within the word `parameters`. -/
  | word (n : ℕ) : 0 < n → n < 10 → Break F cs v (texts F cs ++ "parameters".toList.take n)
  /-- In the parameter section, or nowhere. -/
  | parameters (m : ℕ) :
      Break F cs v (texts F cs ++ ("parameters".toList ++ (' ' :: printCol (v.map F.fmt)).take m))

theorem take_texts (F : NumFormat K) (cs : List (Cmd K)) (n : ℕ) (hn : n < (texts F cs).length) :
    ∃ pre c post m, cs = pre ++ [c] ++ post ∧ m < (c.text F).length ∧
      (texts F cs).take n = texts F pre ++ (c.text F).take m := by
  induction cs generalizing n with
  | nil => simp at hn
  | cons c cs ih =>
    have e : texts F (c :: cs) = c.text F ++ texts F cs := by simp
    rw [e] at hn ⊢
    by_cases h : n < (c.text F).length
    · exact ⟨[], c, cs, n, rfl, h, by rw [List.take_append_of_le_length (by omega)]; simp⟩
    · rw [List.length_append] at hn
      obtain ⟨pre, d, post, m, h1, h2, h3⟩ := ih (n - (c.text F).length) (by omega)
      refine ⟨c :: pre, d, post, m, by rw [h1]; simp, h2, ?_⟩
      rw [List.take_append, List.take_of_length_le (by omega), h3]
      simp

/-- The list of positions is complete: whatever number of characters is written, the file is one of those. -/
theorem every_break (F : NumFormat K) (cs : List (Cmd K)) (v : List K) (n : ℕ) :
    Break F cs v ((texts F cs ++ ("parameters ".toList ++ printCol (v.map F.fmt))).take n) := by
  have hpar : "parameters ".toList ++ printCol (v.map F.fmt) = "parameters".toList ++ ' ' :: printCol (v.map F.fmt) := by
    have : "parameters ".toList = "parameters".toList ++ [' '] := by decide
    rw [this]; simp
  rw [hpar]
  by_cases h : n < (texts F cs).length
  · obtain ⟨pre, c, post, m, h1, h2, h3⟩ := take_texts F cs n h
    rw [List.take_append_of_le_length (by omega), h3]
    by_cases hm0 : m = 0
    · subst hm0
      rw [List.take_zero, List.append_nil]
      rcases List.eq_nil_or_concat pre with rfl | ⟨pre', d, rfl⟩
      · exact .start
      · rw [List.concat_eq_append] at h1 ⊢
        exact .between pre' d ([c] ++ post) (by rw [h1]; simp)
    · by_cases hm1 : m < c.name.length
      · have e : (c.text F).take m = c.name.take m := by
          rw [Cmd.text, List.take_append_of_le_length (by omega)]
        rw [e]
        exact .keyword pre c post m h1 (by omega) hm1
      · obtain ⟨as, a, ha⟩ := args_split c
        have e : (c.text F).take m = c.name ++ (' ' :: (argTexts F as ++ (a.text F ++ [' ']))).take (m - c.name.length) := by
          rw [Cmd.text, ha, List.take_append, List.take_of_length_le (by omega)]
          simp
        have hlen : (c.text F).length = c.name.length + (1 + (argTexts F as).length + ((a.text F).length + 1)) := by
          rw [Cmd.text, ha, List.flatMap_append, List.length_append, List.length_cons, List.length_append]
          simp only [argTexts, List.flatMap_cons, List.flatMap_nil, List.append_nil, List.length_append,
            List.length_cons, List.length_nil]
          omega
        rw [hlen] at h2
        rw [e]
        by_cases hm2 : m - c.name.length ≤ 1 + (argTexts F as).length
        · have e2 : (' ' :: (argTexts F as ++ (a.text F ++ [' ']))).take (m - c.name.length) =
              (' ' :: argTexts F as).take (m - c.name.length) := by
            rw [← List.cons_append, List.take_append_of_le_length (by rw [List.length_cons]; omega)]
          rw [e2]
          exact .missing pre c post as a _ h1 ha hm2
        · have e2 : (' ' :: (argTexts F as ++ (a.text F ++ [' ']))).take (m - c.name.length) =
              ' ' :: (argTexts F as ++ (a.text F).take (m - c.name.length - (1 + (argTexts F as).length))) := by
            rw [← List.cons_append, List.take_append, List.take_of_length_le (by rw [List.length_cons]; omega),
              List.length_cons, List.take_append_of_le_length (by omega), List.cons_append, Nat.add_comm 1]
          rw [e2]
          exact .argument pre c post as a _ h1 ha (by omega) (by omega)
  · rw [List.take_append, List.take_of_length_le (by omega)]
    generalize n - (texts F cs).length = k
    by_cases hk : k < 10
    · have e : ("parameters".toList ++ ' ' :: printCol (v.map F.fmt)).take k = "parameters".toList.take k :=
        List.take_append_of_le_length (by show k ≤ 10; omega)
      rw [e]
      by_cases hk0 : k = 0
      · subst hk0
        rw [List.take_zero, List.append_nil]
        rcases List.eq_nil_or_concat cs with rfl | ⟨pre', d, rfl⟩
        · exact .start
        · rw [List.concat_eq_append]
          exact .between pre' d [] (by simp)
      · exact .word k (by omega) hk
    · have e : ("parameters".toList ++ ' ' :: printCol (v.map F.fmt)).take k =
          "parameters".toList ++ (' ' :: printCol (v.map F.fmt)).take (k - 10) := by
        rw [List.take_append, List.take_of_length_le (by show 10 ≤ k; omega)]
        rfl
      rw [e]
      exact .parameters (k - 10)

/-- The file of a network. -/
theorem save_eq (F : NumFormat K) (init : ℕ → K) (cs : List (Cmd K)) {net saved : Net K} (v : List K)
    (hrun : run F init cs empty = .ok net) (hs : setParameters net v = .ok saved) :
    save F saved = texts F cs ++ ("parameters ".toList ++ printCol (v.map F.fmt)) := by
  obtain ⟨g1, -⟩ := run_arch F init cs hrun
  have h : saved = { net with params := v } := by
    unfold setParameters at hs
    cases hp : net.P with
    | none => rw [hp] at hs; simpa using hs.symm
    | some p =>
      rw [hp] at hs
      simp only at hs
      split at hs
      · simpa [hp] using hs.symm
      · cases hs
  subst h
  simp only [save, g1, empty, List.nil_append, List.append_assoc]

theorem run_prefix (F : NumFormat K) (init : ℕ → K) (pre post : List (Cmd K)) {a net : Net K}
    (h : run F init (pre ++ post) a = .ok net) : ∃ b, run F init pre a = .ok b := by
  rw [run_append] at h
  obtain ⟨b, h1, -⟩ := Outcome.bind_eq_ok.mp h
  exact ⟨b, h1⟩

/-- **C99.** Loading a file that breaks off anywhere always ends. -/
theorem cut_ends (F : NumFormat K) (hF : Greedy F) (init init' : ℕ → K) (cs : List (Cmd K)) (hcs : ∀ c ∈ cs, c.WordArgs)
    {net : Net K} (hrun : run F init cs empty = .ok net) {p : ℕ} (hp : net.P = some p) (v : List K) (hv : v.length = p)
    {saved : Net K} (hs : setParameters net v = .ok saved) (n : ℕ) :
    ∃ r, Loads F init' empty (IStream.of ((save F saved).take n)) r := by
  rw [save_eq F init cs v hrun hs]
  have hb := every_break F cs v n
  revert hb
  generalize (texts F cs ++ ("parameters ".toList ++ printCol (v.map F.fmt))).take n = file
  intro hb
  cases hb with
  | start => exact ⟨_, cut_at_start F init'⟩
  | between pre c post h =>
    subst h
    obtain ⟨b, h1⟩ := run_prefix F init (pre ++ [c]) post hrun
    exact ⟨_, cut_between_ub F init init' pre c (fun d hd => hcs d (List.mem_append_left _ hd)) h1⟩
  | keyword pre c post n h h0 hn =>
    subst h
    rw [List.append_assoc] at hrun hcs
    obtain ⟨b, h1⟩ := run_prefix F init pre ([c] ++ post) hrun
    exact ⟨_, cut_in_keyword F init init' pre c (fun d hd => hcs d (List.mem_append_left _ hd)) h1 n h0 hn⟩
  | missing pre c post as a m h ha hm =>
    subst h
    have h2 : ∀ d ∈ pre ++ [c], d.WordArgs := fun d hd => hcs d (List.mem_append_left _ hd)
    rw [List.append_assoc] at hrun
    obtain ⟨b, h1⟩ := run_prefix F init pre ([c] ++ post) hrun
    exact ⟨_, cut_missing_ub F hF init init' pre c h2 h1 ha m hm⟩
  | argument pre c post as a n h ha h0 hn =>
    subst h
    have h2 : ∀ d ∈ pre ++ [c], d.WordArgs := fun d hd => hcs d (List.mem_append_left _ hd)
    rw [List.append_assoc] at hrun
    obtain ⟨b, h1⟩ := run_prefix F init pre ([c] ++ post) hrun
    obtain ⟨b', c', -, -, -, -, h3⟩ := cut_in_last_argument F hF init init' pre c h2 h1 ha n h0 hn
    exact ⟨_, h3⟩
  | word n h0 hn => exact ⟨_, cut_in_parameters_word F init init' cs hcs hrun n h0 hn⟩
  | parameters m =>
    obtain ⟨loaded, h1, -⟩ := cut_in_parameters F hF init init' cs hcs hrun hp v hv m
    exact ⟨_, h1⟩

theorem printCol_length (w : ℕ) (ls : List (List Char)) (hne : ls ≠ []) (h : ∀ l ∈ ls, l.length ≤ w) :
    (joinWith ['\n'] (ls.map (padLeft w))).length + 1 = ls.length * (w + 1) := by
  induction ls with
  | nil => exact absurd rfl hne
  | cons l ls ih =>
    have hl := padLeft_length (h l (by simp))
    cases ls with
    | nil => simp [joinWith, hl]
    | cons l' ls =>
      have hi := ih (by simp) (fun d hd => h d (by simp [hd]))
      rw [List.map_cons, List.map_cons, joinWith, ← List.map_cons, List.length_append, List.length_append, hl,
        Nat.add_assoc, hi, List.length_cons (a := l), Nat.add_mul, List.length_singleton]
      · omega
      · simp

/-- **C99 fails.** Of every network with parameters there are incomplete files that are loaded without complaint, after a
crash and after a full disk that `save` did not report: without the text of the last parameter, that parameter is whatever
the new network started with. -/
theorem cut_accepted_fails (F : NumFormat K) (hF : Greedy F) (init init' : ℕ → K) (cs : List (Cmd K))
    (hcs : ∀ c ∈ cs, c.WordArgs) {net : Net K} (hrun : run F init cs empty = .ok net) {p : ℕ} (hp : net.P = some (p + 1))
    (v : List K) (hv : v.length = p + 1) (old : Option (List Char)) :
    ∃ saved n file loaded, setParameters net v = .ok saved ∧ n < (save F saved).length ∧
      saveFile F saved true n = .ok file ∧ crashed F saved old (some n) = some file ∧
      LoadsFile F init' (some file) (.ok loaded) ∧ SameStructure F saved loaded ∧
      loaded.params = (List.range p).map (fun i => F.round (v.getD i 0)) ++ [init' p] := by
  have hs : setParameters net v = .ok { net with params := v } := by simp [setParameters, hp, hv]
  have hsave := save_eq F init cs v hrun hs
  obtain ⟨loaded, h1, h2, h3⟩ := cut_in_parameters F hF init init' cs hcs hrun hp v hv
    (p * (maxWidth (v.map F.fmt) + 1))
  have hpar : "parameters ".toList ++ printCol (v.map F.fmt) = "parameters".toList ++ ' ' :: printCol (v.map F.fmt) := by
    have : "parameters ".toList = "parameters".toList ++ [' '] := by decide
    rw [this]; simp
  have hlen := printCol_length (maxWidth (v.map F.fmt)) (v.map F.fmt)
    (by intro h; rw [List.map_eq_nil_iff] at h; rw [h] at hv; simp at hv) (fun l hl => length_le_maxWidth hl)
  rw [List.length_map, hv, Nat.add_mul] at hlen
  have h10 : "parameters".toList.length = 10 := rfl
  rw [hpar] at hsave
  generalize hW : maxWidth (v.map F.fmt) = w at hlen h1 h3
  have htake : (save F { net with params := v }).take ((texts F cs).length + (10 + p * (w + 1))) =
      texts F cs ++ ("parameters".toList ++ (' ' :: printCol (v.map F.fmt)).take (p * (w + 1))) := by
    rw [hsave, List.take_append, List.take_of_length_le (by omega), Nat.add_sub_cancel_left, List.take_append,
      List.take_of_length_le (by omega), h10, Nat.add_sub_cancel_left]
  refine ⟨_, (texts F cs).length + (10 + p * (w + 1)), _, loaded, hs, ?_, rfl, rfl, ?_,
    ⟨h2.layers, h2.infos, h2.nParams, h2.P, h2.reg, h2.errFn⟩, ?_⟩
  · rw [hsave, List.length_append, List.length_append, List.length_cons, h10, printCol, hW, hlen]
    omega
  · rw [htake]
    exact h1
  · rw [h3, List.range_succ, List.map_append, List.map_singleton]
    have hq : p * (w + 1) / (w + 1) = p := Nat.mul_div_cancel p (by omega)
    have hr : p * (w + 1) % (w + 1) = 0 := Nat.mul_mod_left p (w + 1)
    congr 1
    · apply List.map_congr_left
      intro i hi
      simp only [cutParams, hW, hq]
      rw [if_pos (List.mem_range.mp hi)]
    · simp [cutParams, hW, hq, hr, lastValue]

/-- A crash right after the file was opened loses the old network as well. -/
theorem crash_loses_old (F : NumFormat K) (init : ℕ → K) (saved : Net K) (old : List Char) :
    LoadsFile F init (crashed F saved (some old) (some 0)) .throws := by
  rw [crashed, List.take_zero]
  exact cut_at_start F init

/-! ## The hypotheses are met -/

/-- A number format for integers. -/
def intFormat : NumFormat ℤ where
  fmt := printInt
  scan := scanInt
  atof := atoi
  round := id
  fmt_ne := printInt_ne_nil
  fmt_no_space := printInt_no_space
  scan_fmt := fun x rest h => scanInt_printInt x rest (not_digit_head h)
  scan_le := scanInt_le
  atof_fmt := atoi_printInt
  round_zero := rfl
  fmt_int := fun _ _ => rfl

theorem intFormat_greedy : Greedy intFormat := fun x n _ => scanInt_greedy x n

/-- A network with two inputs, one output and three parameters. -/
def smallNet : List (Cmd ℤ) := [.input 2 1 1, .dropout 12, .output 1 0 1 true]

example (init : ℕ → ℤ) : ∃ net, run intFormat init smallNet empty = .ok net ∧ net.P = some 3 ∧
    ∀ c ∈ smallNet, c.WordArgs := ⟨_, rfl, rfl, by simp [smallNet, Cmd.WordArgs]⟩

theorem fmt5 : printInt 5 = ['5'] := by simp [printInt, printNat]; decide
theorem fmt12 : printInt 12 = ['1', '2'] := by simp [printInt, printNat]; decide
theorem fmt17 : printInt (-17) = ['-', '1', '7'] := by simp [printInt, printNat]; decide
theorem fmt123 : printInt 123 = ['1', '2', '3'] := by simp [printInt, printNat]; decide

/-- Of the parameters 5, -17, 123 the file `... parameters   5\n-1` gives 5, -1 and a random number. -/
example : (List.range 3).map (cutParams intFormat [5, -17, 123] (fun i => 1000 + i) 7) = [5, -1, 1002] := by
  have hs : scanInt ['-', '1'] = (some (-1), []) := by decide
  have hw : maxWidth [['5'], ['-', '1', '7'], ['1', '2', '3']] = 3 := by decide
  simp [List.range_succ, cutParams, intFormat, lastValue, valueOf, fmt5, fmt17, fmt123, hw, hs]

/-- What is left of `dropout 12` when the file ends one character early. -/
theorem cut_dropout : cutArg intFormat 1 (.dbl 12) = .dbl 1 := by
  have hs : scanInt ['1'] = (some 1, []) := by decide
  simp [cutArg, intFormat, valueOf, fmt12, hs]

example (init init' : ℕ → ℤ) : ∃ (b : Net ℤ) (c' : Cmd ℤ), c'.name = "dropout".toList ∧ c'.args = [.dbl 1] ∧
    Loads intFormat init' empty (IStream.of (texts intFormat [.input 2 1 1] ++ "dropout 1".toList))
      (exec intFormat init' b c') := by
  have h12 : (Arg.dbl 12 : Arg ℤ).text intFormat = ['1', '2'] := fmt12
  obtain ⟨b, c', h1, h2, h3, h4, h5⟩ := cut_in_last_argument intFormat intFormat_greedy init init' [.input 2 1 1]
    (.dropout 12) (by simp [Cmd.WordArgs]) rfl (as := []) (a := .dbl 12) rfl 1 (by decide) (by rw [h12]; decide)
  rw [cut_dropout] at h4
  rw [h12] at h5
  exact ⟨b, c', h3, h4, h5⟩

end Verif.NetFile
