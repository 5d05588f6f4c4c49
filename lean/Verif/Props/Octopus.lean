import Verif.Model.Octopus
import Mathlib.Tactic.Linarith
import Mathlib.Data.List.Infix

/-!
# C97: the conversation of the octopus arm client with the environment

A conversation is described by what the server sends and by the calls of the agent and the bytes that belong to it.  The client
follows the description for every server, agent and number of episodes.  If `recv` or `send` fails after any number of bytes, the
agent has seen a beginning of the undisturbed conversation and no end of an episode that was cut.
-/

namespace Verif.Octopus

noncomputable section

variable {A α β : Type}

/-! ## Specification -/

def Call.run (M : Mind A) (a : A) : Call → A
  | .start s => M.start a s
  | .step s r => M.step a s r
  | .finish r => M.finish a r

/-- A token with the line break that ends it. -/
def line (t : List Char) : List Char := t ++ ['\n']

/-- Tokens that fit into the buffer. -/
def Short (t : List Char) : Prop := t.length ≤ 1022 ∧ '\n' ∉ t

/-- What the server tells about a state. -/
structure Reading where
  flag : List Char
  count : List Char
  values : List (List Char)

def Reading.bytes (r : Reading) : List Char := line r.flag ++ (line r.count ++ r.values.flatMap line)

def Reading.states (T : Text) (r : Reading) : List ℝ := r.values.map T.atof

structure Reading.Valid (T : Text) (n : ℕ) (terminal : Bool) (r : Reading) : Prop where
  flag : ∃ t, r.flag = (if terminal then '1' else '0') :: t
  count : T.atoi r.count = n
  values : r.values.length = n
  short : ∀ t ∈ r.flag :: r.count :: r.values, Short t

/-- The answer to a step. -/
structure Turn where
  reward : List Char
  reading : Reading

def Turn.bytes (t : Turn) : List Char := line t.reward ++ t.reading.bytes

/-- What the server sends during an episode. -/
inductive Script where
  /-- the first state is terminal -/
  | over (first : Reading)
  | run (first : Reading) (turns : List Turn) (last : Turn)

def Script.bytes : Script → List Char
  | .over first => first.bytes
  | .run first turns last => first.bytes ++ (turns.flatMap Turn.bytes ++ last.bytes)

def Script.Valid (T : Text) (n : ℕ) : Script → Prop
  | .over first => first.Valid T n true
  | .run first turns last => first.Valid T n false ∧ (∀ t ∈ turns, Short t.reward ∧ t.reading.Valid T n false) ∧
      Short last.reward ∧ last.reading.Valid T n true

/-- The number of steps. -/
def Script.length : Script → ℕ
  | .over _ => 0
  | .run _ turns _ => turns.length + 1

def turnCalls (T : Text) (turns : List Turn) : List Call :=
  turns.map fun t => .step (t.reading.states T) (T.atof t.reward)

/-- The calls that belong to an episode. -/
def Script.calls (T : Text) : Script → List Call
  | .over _ => [.finish 0]
  | .run first turns last => .start (first.states T) :: (turnCalls T turns ++ [.finish (T.atof last.reward)])

/-- The message of an agent that acts. -/
def message (T : Text) (M : Mind A) (m : ℕ) (a : A) : List Char :=
  line "STEP".toList ++ (line (T.showInt m) ++ (List.range m).flatMap fun i => line (T.showReal (M.actions a i)))

/-- The messages of all steps after the agent has seen `a`. -/
def messages (T : Text) (M : Mind A) (m : ℕ) (a : A) : List Turn → List Char
  | [] => message T M m a
  | t :: ts => message T M m a ++ messages T M m (M.step a (t.reading.states T) (T.atof t.reward)) ts

def Script.answer (T : Text) (M : Mind A) (m : ℕ) (a : A) : Script → List Char
  | .over _ => line "START".toList
  | .run first turns _ => line "START".toList ++ messages T M m (M.start a (first.states T)) turns

/-- The numbers fit into the buffer of the client: `%.16g` writes at most 23 and `%d` at most 11 characters. -/
structure Fits (T : Text) (m : ℕ) : Prop where
  real : ∀ x, (T.showReal x).length ≤ 23
  int : (T.showInt m).length ≤ 11
  actions : m ≤ 426

/-- An agent that keeps a list of its calls. -/
def logged (M : Mind A) : Mind (A × List Call) where
  start a s := (M.start a.1 s, a.2 ++ [.start s])
  step a s r := (M.step a.1 s r, a.2 ++ [.step s r])
  finish a r := (M.finish a.1 r, a.2 ++ [.finish r])
  actions a := M.actions a.1

/-! ## Programs -/

theorem bind_some {p : Io A α} {f : α → Io A β} {w v : Client A} {a : α} (h : p w = .ok (some a, v)) :
    Io.bind p f w = f a v := by
  unfold Io.bind; rw [h]; rfl

theorem bind_none {p : Io A α} {f : α → Io A β} {w v : Client A} (h : p w = .ok (none, v)) :
    Io.bind p f w = .ok (none, v) := by
  unfold Io.bind; rw [h]; rfl

theorem bind_ub {p : Io A α} {f : α → Io A β} {w : Client A} (h : p w = .ub) : Io.bind p f w = .ub := by
  unfold Io.bind; rw [h]; rfl

theorem bind_ok {p : Io A α} {f : α → Io A β} {w v : Client A} {r : Option β} (h : Io.bind p f w = .ok (r, v)) :
    (∃ a u, p w = .ok (some a, u) ∧ f a u = .ok (r, v)) ∨ (p w = .ok (none, v) ∧ r = none) := by
  unfold Io.bind at h
  cases hp : p w with
  | ok x =>
    obtain ⟨o, u⟩ := x
    rw [hp] at h
    cases o with
    | some a => exact Or.inl ⟨a, u, rfl, h⟩
    | none =>
      right
      have h' : (Outcome.ok ((none : Option β), u)) = .ok (r, v) := h
      injection h' with h'
      injection h' with h1 h2
      exact ⟨by rw [h2], h1.symm⟩
  | _ => rw [hp] at h; cases h

/-! ## Tokens -/

theorem tokenLoop_line (t rest : List Char) (ht : '\n' ∉ t) : ∀ (n : ℕ) (c : Option Char) (acc : List Char) (w : Client A),
    t.length < n → w.input = t ++ '\n' :: rest →
    tokenLoop n c acc w = .ok (some (acc ++ t), { w with input := rest }) := by
  induction t with
  | nil =>
    intro n c acc w hn hw
    obtain ⟨n, rfl⟩ := Nat.exists_eq_add_of_lt hn
    rw [show (([] : List Char).length + n + 1) = n + 1 by simp]
    unfold tokenLoop
    rw [hw]
    simp [separator]
  | cons d t ih =>
    intro n c acc w hn hw
    cases n with
    | zero => simp at hn
    | succ n =>
      unfold tokenLoop
      rw [hw]
      have hd : d ≠ separator := fun h => ht (by rw [h]; exact List.mem_cons_self)
      simp only [List.cons_append]
      rw [if_neg hd, ih (fun h => ht (List.mem_cons_of_mem _ h)) n _ _ _ (by simp at hn; omega) rfl]
      simp

/-- A token arrives. -/
theorem getToken_line {t rest : List Char} (ht : Short t) {w : Client A} (hw : w.input = line t ++ rest) :
    getToken w = .ok (some t, { w with input := rest }) := by
  have := tokenLoop_line t rest ht.2 1023 none [] w (by have := ht.1; omega) (by rw [hw]; simp [line])
  simpa [getToken] using this

theorem getInt_line (T : Text) {t rest : List Char} (ht : Short t) {w : Client A} (hw : w.input = line t ++ rest) :
    getInt T w = .ok (some (T.atoi t), { w with input := rest }) := by
  unfold getInt
  rw [bind_some (getToken_line ht hw)]
  rfl

theorem getDouble_line (T : Text) {t rest : List Char} (ht : Short t) {w : Client A} (hw : w.input = line t ++ rest) :
    getDouble T w = .ok (some (T.atof t), { w with input := rest }) := by
  unfold getDouble
  rw [bind_some (getToken_line ht hw)]
  rfl

theorem getFlag_line {t rest : List Char} (ht : Short t) {w : Client A} (hw : w.input = line t ++ rest) :
    getFlag w = .ok (flagOf t, { w with input := rest }) := by
  unfold getFlag
  rw [bind_some (getToken_line ht hw)]

theorem getValues_lines (T : Text) (ts : List (List Char)) (rest : List Char) : ∀ (w : Client A), (∀ t ∈ ts, Short t) →
    w.input = ts.flatMap line ++ rest →
    getValues T ts.length w = .ok (some (ts.map T.atof), { w with input := rest }) := by
  induction ts with
  | nil =>
    intro w _ hw
    have : w = { w with input := rest } := by
      cases w; simp at hw; simp [hw]
    rw [← this]; rfl
  | cons t ts ih =>
    intro w hs hw
    simp only [List.length_cons, getValues]
    rw [bind_some (getDouble_line T (hs t List.mem_cons_self) (rest := ts.flatMap line ++ rest) (by rw [hw]; simp)),
      bind_some (ih _ (fun u hu => hs u (List.mem_cons_of_mem _ hu)) rfl)]
    rfl

theorem reading_received (T : Text) {n : ℕ} {terminal : Bool} {r : Reading} (h : r.Valid T n terminal) {rest : List Char}
    (f : Bool → List ℝ → Io A β) {w : Client A} (hw : w.input = r.bytes ++ rest) :
    (Io.bind getFlag fun t => Io.bind (getStates T n) fun s => f t s) w = f terminal (r.states T) { w with input := rest } := by
  have hf := h.short r.flag (by simp)
  have hc := h.short r.count (by simp)
  have hflag : flagOf r.flag = some terminal := by
    obtain ⟨t, ht⟩ := h.flag
    rw [ht]
    cases terminal <;> rfl
  rw [bind_some (a := terminal) (v := { w with input := line r.count ++ (r.values.flatMap line ++ rest) })
    (by rw [← hflag]; exact getFlag_line hf (by rw [hw]; simp [Reading.bytes]))]
  have : getStates T n { w with input := line r.count ++ (r.values.flatMap line ++ rest) }
      = .ok (some (r.states T), { w with input := rest }) := by
    unfold getStates
    rw [bind_some (getInt_line T hc (w := { w with input := line r.count ++ (r.values.flatMap line ++ rest) }) rfl),
      h.count, if_pos rfl]
    have := getValues_lines T r.values rest { w with input := r.values.flatMap line ++ rest }
      (fun t ht => h.short t (by simp [ht])) rfl
    rw [h.values] at this
    exact this
  rw [bind_some this]

/-! ## Messages -/

theorem send_ok {bytes : List Char} {w : Client A} (h : bytes.length ≤ w.room) :
    send bytes w = .ok (some (), { w with room := w.room - bytes.length, sent := w.sent ++ bytes }) := if_pos h

theorem sendToken_ok {t : List Char} {w : Client A} (h : (line t).length ≤ w.room) :
    sendToken t w = .ok (some (), { w with room := w.room - (line t).length, sent := w.sent ++ line t }) := by
  simp only [line, List.length_append, List.length_singleton] at h ⊢
  unfold sendToken
  rw [bind_some (send_ok (by omega)), send_ok (by simp; omega)]
  simp [separator, Nat.sub_sub]

theorem formatActions_ok (T : Text) (f : ℕ → ℝ) (hr : ∀ x, (T.showReal x).length ≤ 23) :
    ∀ (k i : ℕ) (buffer : List Char), buffer.length + 24 * k ≤ 10239 →
    formatActions T f k i buffer = .ok (buffer ++ (List.range k).flatMap fun j => line (T.showReal (f (i + j)))) := by
  intro k
  induction k with
  | zero => intro i buffer _; simp [formatActions]
  | succ k ih =>
    intro i buffer h
    have := hr (f i)
    unfold formatActions
    rw [if_pos (by omega), ih (i + 1) _ (by simp; omega)]
    rw [List.range_succ_eq_map, List.flatMap_cons, List.flatMap_map]
    simp [line, separator, Nat.add_assoc, Nat.add_comm 1]

theorem flatMap_line_dropLast {γ : Type} (l : List γ) (g : γ → List Char) (t : List Char) :
    line ((line t ++ l.flatMap fun x => line (g x)).dropLast) = line t ++ l.flatMap fun x => line (g x) := by
  have key : ∃ s, line t ++ l.flatMap (fun x => line (g x)) = s ++ ['\n'] := by
    rcases l.eq_nil_or_concat with rfl | ⟨l', x, rfl⟩
    · exact ⟨t, by simp [line]⟩
    · exact ⟨line t ++ (l'.flatMap (fun x => line (g x)) ++ g x), by simp [line]⟩
  obtain ⟨s, hs⟩ := key
  rw [hs]
  simp [line]

theorem sendActions_ok (T : Text) (M : Mind A) {m : ℕ} (hm : Fits T m) {w : Client A}
    (h : (line (T.showInt m) ++ (List.range m).flatMap fun i => line (T.showReal (M.actions w.agent i))).length ≤ w.room) :
    sendActions T M m w = .ok (some (), { w with
      room := w.room - (line (T.showInt m) ++ (List.range m).flatMap fun i => line (T.showReal (M.actions w.agent i))).length,
      sent := w.sent ++ (line (T.showInt m) ++ (List.range m).flatMap fun i => line (T.showReal (M.actions w.agent i))) }) := by
  have h1 := hm.int
  have h2 := hm.actions
  unfold sendActions
  rw [if_pos (by omega), formatActions_ok T _ hm.real m 0 _ (by simp; omega)]
  simp only [Outcome.ok_bind, Nat.zero_add]
  rw [show T.showInt m ++ [separator] = line (T.showInt m) from rfl]
  rw [sendToken_ok (by rw [flatMap_line_dropLast]; exact h), flatMap_line_dropLast]

theorem message_sent (T : Text) (M : Mind A) {m : ℕ} (hm : Fits T m) (f : Io A β) {w : Client A}
    (h : (message T M m w.agent).length ≤ w.room) :
    (Io.bind (sendToken "STEP".toList) fun _ => Io.bind (sendActions T M m) fun _ => f) w
      = f { w with room := w.room - (message T M m w.agent).length, sent := w.sent ++ message T M m w.agent } := by
  unfold message at h ⊢
  rw [List.length_append] at h ⊢
  rw [bind_some (sendToken_ok (by omega)), bind_some (sendActions_ok T M hm (by dsimp only; omega))]
  simp [Nat.sub_sub]

/-! ## Episodes -/

theorem steps_follow (T : Text) (M : Mind A) {n m : ℕ} (hm : Fits T m) (last : Turn) (hs : Short last.reward)
    (hl : last.reading.Valid T n true) (rest : List Char) (turns : List Turn) :
    ∀ (fuel : ℕ) (w : Client A), turns.length < fuel →
    (∀ t ∈ turns, Short t.reward ∧ t.reading.Valid T n false) →
    w.input = turns.flatMap Turn.bytes ++ (last.bytes ++ rest) →
    (messages T M m w.agent turns).length ≤ w.room →
    steps T M n m fuel w = .ok (some (some (T.atof last.reward)), { w with
      input := rest, room := w.room - (messages T M m w.agent turns).length,
      sent := w.sent ++ messages T M m w.agent turns, agent := (turnCalls T turns).foldl (Call.run M) w.agent }) := by
  induction turns with
  | nil =>
    intro fuel w hf _ hw hr
    obtain ⟨fuel, rfl⟩ : ∃ k, fuel = k + 1 := ⟨fuel - 1, by simp at hf; omega⟩
    unfold steps
    rw [message_sent T M hm _ (by simpa [messages] using hr)]
    rw [bind_some (getDouble_line T hs (rest := last.reading.bytes ++ rest) (by rw [hw]; simp [Turn.bytes]))]
    rw [reading_received T hl _ rfl]
    simp [Io.pure, messages, turnCalls]
  | cons t turns ih =>
    intro fuel w hf hv hw hr
    obtain ⟨fuel, rfl⟩ : ∃ k, fuel = k + 1 := ⟨fuel - 1, by simp at hf; omega⟩
    obtain ⟨h1, h2⟩ := hv t List.mem_cons_self
    simp only [messages, List.length_append] at hr
    unfold steps
    rw [message_sent T M hm _ (by omega)]
    rw [bind_some (getDouble_line T h1 (rest := t.reading.bytes ++ (turns.flatMap Turn.bytes ++ (last.bytes ++ rest)))
      (by rw [hw]; simp [Turn.bytes]))]
    rw [reading_received T h2 _ rfl]
    simp only [Bool.false_eq_true, if_false]
    rw [bind_some (by rfl)]
    rw [ih fuel _ (by simp at hf; omega) (fun u hu => hv u (List.mem_cons_of_mem _ hu)) rfl (by dsimp only; omega)]
    simp [messages, turnCalls, Call.run, Nat.sub_sub]

/-- One episode: the client reads exactly the bytes of the episode, calls the agent as described and sends its actions. -/
theorem episode_follows (T : Text) (M : Mind A) {n m : ℕ} (hm : Fits T m) (s : Script) (hs : s.Valid T n) (rest : List Char)
    (fuel : ℕ) (hf : s.length ≤ fuel) (w : Client A) (hw : w.input = s.bytes ++ rest)
    (hr : (s.answer T M m w.agent).length ≤ w.room) :
    performEpisode T M n m fuel w = .ok (some true, { w with
      input := rest, room := w.room - (s.answer T M m w.agent).length, sent := w.sent ++ s.answer T M m w.agent,
      agent := (s.calls T).foldl (Call.run M) w.agent, blocks := w.blocks + 2 }) := by
  unfold performEpisode
  rw [bind_some (by rfl)]
  cases s with
  | over first =>
    simp only [Script.answer, Script.calls] at hr ⊢
    rw [bind_some (sendToken_ok (by exact hr))]
    rw [reading_received T hs _ (by exact hw)]
    rfl
  | run first turns last =>
    obtain ⟨h1, h2, h3, h4⟩ := hs
    simp only [Script.answer, List.length_append] at hr ⊢
    rw [bind_some (sendToken_ok (by dsimp only; omega))]
    rw [reading_received T h1 (rest := turns.flatMap Turn.bytes ++ (last.bytes ++ rest)) _
      (by dsimp only; rw [hw]; simp [Script.bytes])]
    simp only [Bool.false_eq_true, if_false]
    rw [bind_some (by rfl)]
    rw [bind_some (steps_follow T M hm last h3 h4 rest turns fuel _ hf h2 rfl (by dsimp only; omega))]
    simp [Io.bind, act, Io.pure, Script.calls, Call.run, Nat.sub_sub]

/-- The answers of several episodes. -/
def answers (T : Text) (M : Mind A) (m : ℕ) (a : A) : List Script → List Char
  | [] => []
  | s :: ss => s.answer T M m a ++ answers T M m ((s.calls T).foldl (Call.run M) a) ss

/-- Any number of episodes.  Every episode leaves two blocks of memory behind. -/
theorem episodes_follow_partial (T : Text) (M : Mind A) {n m : ℕ} (hm : Fits T m) (rest : List Char) (fuel : ℕ)
    (ss : List Script) : ∀ (w : Client A), (∀ s ∈ ss, s.Valid T n ∧ s.length ≤ fuel) →
    w.input = ss.flatMap Script.bytes ++ rest → (answers T M m w.agent ss).length ≤ w.room →
    episodes T M n m fuel ss.length w = .ok (some true, { w with
      input := rest, room := w.room - (answers T M m w.agent ss).length, sent := w.sent ++ answers T M m w.agent ss,
      agent := (ss.flatMap (Script.calls T)).foldl (Call.run M) w.agent, blocks := w.blocks + 2 * ss.length }) := by
  induction ss with
  | nil =>
    intro w _ hw _
    have : w = { w with input := rest } := by
      cases w; simp at hw; simp [hw]
    conv_lhs => rw [this]
    simp [episodes, Io.pure, answers]
  | cons s ss ih =>
    intro w hv hw hr
    obtain ⟨h1, h2⟩ := hv s List.mem_cons_self
    simp only [answers, List.length_append] at hr
    simp only [List.length_cons, episodes]
    rw [bind_some (episode_follows T M hm s h1 (ss.flatMap Script.bytes ++ rest) fuel h2 w (by rw [hw]; simp) (by omega))]
    rw [if_pos rfl, ih _ (fun u hu => hv u (List.mem_cons_of_mem _ hu)) rfl (by dsimp only; omega)]
    simp [answers, List.foldl_append, Nat.sub_sub]
    omega

/-! ## A connection that fails -/

/-- The agent and the server have seen at most as much. -/
def Grown (v v' : Client (A × List Call)) : Prop := v.agent.2 <+: v'.agent.2 ∧ v.sent <+: v'.sent

theorem Grown.refl (v : Client (A × List Call)) : Grown v v := ⟨List.prefix_rfl, List.prefix_rfl⟩

theorem Grown.trans {u v w : Client (A × List Call)} (h : Grown u v) (h' : Grown v w) : Grown u w :=
  ⟨h.1.trans h'.1, h.2.trans h'.2⟩

/-- `w` is `w'` with a connection that fails earlier. -/
structure Below (w w' : Client (A × List Call)) : Prop where
  input : w.input <+: w'.input
  ending : w.ending = .error
  room : w.room ≤ w'.room
  sent : w.sent = w'.sent
  agent : w.agent = w'.agent

theorem Below.grown {w w' : Client (A × List Call)} (h : Below w w') : Grown w w' :=
  ⟨by rw [h.agent], by rw [h.sent]⟩

def Grow (p : Io (A × List Call) α) : Prop := ∀ w r v, p w = .ok (r, v) → Grown w v

/-- What a program does with the worse connection is a beginning of what it does with the better one. -/
def Mono (p : Io (A × List Call) α) : Prop := ∀ w w', Below w w' →
  (∀ a v, p w = .ok (some a, v) → ∃ v', p w' = .ok (some a, v') ∧ Below v v') ∧
  (∀ v, p w = .ok (none, v) → ∀ r v', p w' = .ok (r, v') → Grown v v')

theorem Grow.bind {p : Io (A × List Call) α} {f : α → Io (A × List Call) β} (hp : Grow p) (hf : ∀ a, Grow (f a)) :
    Grow (Io.bind p f) := by
  intro w r v h
  rcases bind_ok h with ⟨a, u, h1, h2⟩ | ⟨h1, -⟩
  · exact (hp _ _ _ h1).trans (hf a _ _ _ h2)
  · exact hp _ _ _ h1

theorem Mono.bind {p : Io (A × List Call) α} {f : α → Io (A × List Call) β} (hp : Mono p) (hf : ∀ a, Mono (f a))
    (gf : ∀ a, Grow (f a)) : Mono (Io.bind p f) := by
  intro w w' hw
  obtain ⟨h1, h2⟩ := hp w w' hw
  refine ⟨?_, ?_⟩
  · intro a v h
    rcases bind_ok h with ⟨b, u, hb, hu⟩ | ⟨-, h⟩
    · obtain ⟨u', hb', hbelow⟩ := h1 b u hb
      obtain ⟨v', hv', hv⟩ := (hf b u u' hbelow).1 a v hu
      exact ⟨v', by rw [bind_some hb', hv'], hv⟩
    · cases h
  · intro v h r v' h'
    rcases bind_ok h with ⟨b, u, hb, hu⟩ | ⟨hn, -⟩
    · obtain ⟨u', hb', hbelow⟩ := h1 b u hb
      rw [bind_some hb'] at h'
      exact (hf b u u' hbelow).2 v hu r v' h'
    · rcases bind_ok h' with ⟨b, u, hb, hu⟩ | ⟨hn', -⟩
      · exact (h2 v hn _ _ hb).trans (gf b _ _ _ hu)
      · exact h2 v hn _ _ hn'

/-- Programs whose behaviour can only be cut. -/
structure Regular (p : Io (A × List Call) α) : Prop where
  grow : Grow p
  mono : Mono p

theorem Regular.bind {p : Io (A × List Call) α} {f : α → Io (A × List Call) β} (hp : Regular p) (hf : ∀ a, Regular (f a)) :
    Regular (Io.bind p f) :=
  ⟨hp.grow.bind fun a => (hf a).grow, hp.mono.bind (fun a => (hf a).mono) fun a => (hf a).grow⟩

theorem Regular.result (o : Option α) : Regular (fun w : Client (A × List Call) => .ok (o, w)) := by
  refine ⟨?_, ?_⟩
  · intro w r v h
    injection h with h; injection h with _ h; subst h
    exact Grown.refl _
  · intro w w' hw
    refine ⟨?_, ?_⟩
    · intro a v h
      injection h with h; injection h with h1 h; subst h; subst h1
      exact ⟨w', rfl, hw⟩
    · intro v h r v' h'
      injection h with h; injection h with _ h; subst h
      injection h' with h'; injection h' with _ h'; subst h'
      exact hw.grown

theorem Regular.pure (a : α) : Regular (Io.pure a : Io (A × List Call) α) := Regular.result (some a)

theorem Regular.act {f : A × List Call → A × List Call} (hf : ∀ a, a.2 <+: (f a).2) : Regular (act f) := by
  refine ⟨?_, ?_⟩
  · intro w r v h
    injection h with h; injection h with _ h; subst h
    exact ⟨hf _, List.prefix_rfl⟩
  · intro w w' hw
    refine ⟨?_, ?_⟩
    · intro a v h
      injection h with h; injection h with h1 h; subst h; cases h1
      exact ⟨_, rfl, hw.input, hw.ending, hw.room, hw.sent, by dsimp only; rw [hw.agent]⟩
    · intro v h
      injection h with h; injection h with h _; cases h

theorem Regular.allocate : Regular (allocate : Io (A × List Call) Unit) := by
  refine ⟨?_, ?_⟩
  · intro w r v h
    injection h with h; injection h with _ h; subst h
    exact Grown.refl _
  · intro w w' hw
    refine ⟨?_, ?_⟩
    · intro a v h
      injection h with h; injection h with h1 h; subst h; cases h1
      exact ⟨_, rfl, hw.input, hw.ending, hw.room, hw.sent, hw.agent⟩
    · intro v h
      injection h with h; injection h with h _; cases h

/-- Reading a token changes nothing but the input. -/
theorem tokenLoop_frame : ∀ (n : ℕ) (c : Option Char) (acc : List Char) (w : Client A) (r : Option (List Char)) (v : Client A),
    tokenLoop n c acc w = .ok (r, v) → v.agent = w.agent ∧ v.sent = w.sent := by
  intro n
  induction n with
  | zero =>
    intro c acc w r v h
    injection h with h; injection h with _ h; subst h; exact ⟨rfl, rfl⟩
  | succ n ih =>
    intro c acc w r v h
    unfold tokenLoop at h
    cases hi : w.input with
    | cons d rest =>
      rw [hi] at h
      dsimp only at h
      by_cases hd : d = separator
      · rw [if_pos hd] at h
        injection h with h; injection h with _ h; subst h; exact ⟨rfl, rfl⟩
      · rw [if_neg hd] at h
        exact ih (some d) (acc ++ [d]) { w with input := rest } r v h
    | nil =>
      rw [hi] at h
      cases he : w.ending <;> cases c <;> rw [he] at h <;> dsimp only at h
      · injection h with h; injection h with _ h; subst h; exact ⟨rfl, rfl⟩
      · injection h with h; injection h with _ h; subst h; exact ⟨rfl, rfl⟩
      · cases h
      · exact ih _ _ _ _ _ h

theorem Regular.tokenLoop : ∀ (n : ℕ) (c : Option Char) (acc : List Char),
    Regular (tokenLoop n c acc : Io (A × List Call) (List Char)) := by
  intro n c acc
  have grow : ∀ n c acc, Grow (Octopus.tokenLoop n c acc : Io (A × List Call) (List Char)) := by
    intro n c acc w r v h
    obtain ⟨h1, h2⟩ := tokenLoop_frame n c acc w r v h
    exact ⟨by rw [h1], by rw [h2]⟩
  refine ⟨grow n c acc, ?_⟩
  induction n generalizing c acc with
  | zero => exact (Regular.result (some acc)).mono
  | succ n ih =>
    intro w w' hw
    obtain ⟨extra, hex⟩ := hw.input
    cases hi : w.input with
    | cons d rest =>
      have hi' : w'.input = d :: (rest ++ extra) := by rw [← hex, hi]; rfl
      have hb : Below { w with input := rest } { w' with input := rest ++ extra } :=
        ⟨⟨extra, rfl⟩, hw.ending, hw.room, hw.sent, hw.agent⟩
      by_cases hd : d = separator
      · have e1 : Octopus.tokenLoop (n + 1) c acc w = .ok (some acc, { w with input := rest }) := by
          unfold Octopus.tokenLoop; rw [hi]; dsimp only; rw [if_pos hd]
        have e2 : Octopus.tokenLoop (n + 1) c acc w' = .ok (some acc, { w' with input := rest ++ extra }) := by
          unfold Octopus.tokenLoop; rw [hi']; dsimp only; rw [if_pos hd]
        refine ⟨?_, ?_⟩
        · intro a v h
          rw [e1] at h
          injection h with h; injection h with h1 h; subst h; cases h1
          exact ⟨_, e2, hb⟩
        · intro v h
          rw [e1] at h
          injection h with h; injection h with h _; cases h
      · have e1 : Octopus.tokenLoop (n + 1) c acc w = Octopus.tokenLoop n (some d) (acc ++ [d]) { w with input := rest } := by
          conv_lhs => unfold Octopus.tokenLoop
          rw [hi]; dsimp only; rw [if_neg hd]
        have e2 : Octopus.tokenLoop (n + 1) c acc w'
            = Octopus.tokenLoop n (some d) (acc ++ [d]) { w' with input := rest ++ extra } := by
          conv_lhs => unfold Octopus.tokenLoop
          rw [hi']; dsimp only; rw [if_neg hd]
        rw [e1, e2]
        exact ih _ _ _ _ hb
    | nil =>
      have e1 : Octopus.tokenLoop (n + 1) c acc w = .ok (none, w) := by
        unfold Octopus.tokenLoop; rw [hi]; dsimp only; rw [hw.ending]
      refine ⟨?_, ?_⟩
      · intro a v h
        rw [e1] at h
        injection h with h; injection h with h _; cases h
      · intro v h r v' h'
        rw [e1] at h
        injection h with h; injection h with _ h; subst h
        exact hw.grown.trans (grow _ _ _ _ _ _ h')

theorem Regular.send (bytes : List Char) : Regular (send bytes : Io (A × List Call) Unit) := by
  have grow : Grow (Octopus.send bytes : Io (A × List Call) Unit) := by
    intro w r v h
    unfold Octopus.send at h
    by_cases hl : bytes.length ≤ w.room
    · rw [if_pos hl] at h
      injection h with h; injection h with _ h; subst h
      exact ⟨List.prefix_rfl, List.prefix_append _ _⟩
    · rw [if_neg hl] at h
      injection h with h; injection h with _ h; subst h
      exact ⟨List.prefix_rfl, List.prefix_append _ _⟩
  refine ⟨grow, ?_⟩
  intro w w' hw
  unfold Octopus.send
  have hroom := hw.room
  refine ⟨?_, ?_⟩
  · intro a v h
    by_cases hl : bytes.length ≤ w.room
    · rw [if_pos hl] at h
      injection h with h; injection h with h1 h; subst h
      refine ⟨_, if_pos (hl.trans hw.room), hw.input, hw.ending, by dsimp only; omega, by dsimp only; rw [hw.sent], hw.agent⟩
    · rw [if_neg hl] at h
      injection h with h; injection h with h1 h; cases h1
  · intro v h r v' h'
    by_cases hl : bytes.length ≤ w.room
    · rw [if_pos hl] at h
      injection h with h; injection h with h1 h; cases h1
    · rw [if_neg hl] at h
      injection h with h; injection h with _ h; subst h
      by_cases hl' : bytes.length ≤ w'.room
      · rw [if_pos hl'] at h'
        injection h' with h'; injection h' with _ h'; subst h'
        refine ⟨by dsimp only; rw [hw.agent], ?_⟩
        dsimp only
        rw [hw.sent]
        exact (List.prefix_append_right_inj _).2 (List.take_prefix _ _)
      · rw [if_neg hl'] at h'
        injection h' with h'; injection h' with _ h'; subst h'
        refine ⟨by dsimp only; rw [hw.agent], ?_⟩
        dsimp only
        rw [hw.sent]
        refine (List.prefix_append_right_inj _).2 ?_
        exact List.take_prefix_take_left hw.room

theorem Regular.sendToken (t : List Char) : Regular (sendToken t : Io (A × List Call) Unit) :=
  (Regular.send t).bind fun _ => Regular.send _

theorem formatActions_ne (T : Text) (f : ℕ → ℝ) : ∀ (k i : ℕ) (b : List Char),
    formatActions T f k i b = .ub ∨ ∃ c, formatActions T f k i b = .ok c := by
  intro k
  induction k with
  | zero => intro i b; exact Or.inr ⟨b, rfl⟩
  | succ k ih =>
    intro i b
    unfold formatActions
    by_cases h : b.length + (T.showReal (f i)).length + 2 ≤ 10240
    · rw [if_pos h]; exact ih _ _
    · rw [if_neg h]; exact Or.inl rfl

theorem sendActions_eq (T : Text) (M : Mind A) (m : ℕ) (w : Client A) :
    sendActions T M m w = .ub ∨ ∃ b, ∀ w' : Client A, w'.agent = w.agent → sendActions T M m w' = sendToken b w' := by
  by_cases hl : (T.showInt m).length + 2 ≤ 10240
  · rcases formatActions_ne T (M.actions w.agent) m 0 (T.showInt m ++ [separator]) with hf | ⟨b, hf⟩
    · left; unfold sendActions; rw [if_pos hl, hf]; rfl
    · right
      refine ⟨b.dropLast, fun w' hw' => ?_⟩
      unfold sendActions
      rw [if_pos hl, hw', hf]; rfl
  · left; unfold sendActions; rw [if_neg hl]

theorem Regular.sendActions (T : Text) (M : Mind A) (m : ℕ) : Regular (sendActions T (logged M) m) := by
  refine ⟨?_, ?_⟩
  · intro w r v h
    rcases sendActions_eq T (logged M) m w with hu | ⟨b, hb⟩
    · rw [hu] at h; cases h
    · rw [hb w rfl] at h
      exact (Regular.sendToken b).grow _ _ _ h
  · intro w w' hw
    rcases sendActions_eq T (logged M) m w with hu | ⟨b, hb⟩
    · rw [hu]
      refine ⟨?_, ?_⟩
      · intro _ _ h; cases h
      · intro _ h; cases h
    · rw [hb w rfl, hb w' hw.agent.symm]
      exact (Regular.sendToken b).mono _ _ hw

theorem Regular.getDouble (T : Text) : Regular (getDouble T : Io (A × List Call) ℝ) :=
  (Regular.tokenLoop _ _ _).bind fun _ => Regular.pure _

theorem Regular.getInt (T : Text) : Regular (getInt T : Io (A × List Call) ℤ) :=
  (Regular.tokenLoop _ _ _).bind fun _ => Regular.pure _

theorem Regular.getFlag : Regular (getFlag : Io (A × List Call) Bool) :=
  (Regular.tokenLoop _ _ _).bind fun t => Regular.result (flagOf t)

theorem Regular.getValues (T : Text) : ∀ n, Regular (getValues T n : Io (A × List Call) (List ℝ))
  | 0 => Regular.pure _
  | n + 1 => (Regular.getDouble T).bind fun _ => (Regular.getValues T n).bind fun _ => Regular.pure _

theorem Regular.getStates (T : Text) (n : ℕ) : Regular (getStates T n : Io (A × List Call) (List ℝ)) := by
  refine (Regular.getInt T).bind fun k => ?_
  by_cases h : k = n
  · rw [if_pos h]; exact Regular.getValues T n
  · rw [if_neg h]; exact Regular.result none

theorem Regular.steps (T : Text) (M : Mind A) (n m : ℕ) : ∀ fuel, Regular (steps T (logged M) n m fuel)
  | 0 => Regular.pure _
  | fuel + 1 => by
    refine (Regular.sendToken _).bind fun _ => (Regular.sendActions T M m).bind fun _ => (Regular.getDouble T).bind fun r =>
      Regular.getFlag.bind fun t => (Regular.getStates T n).bind fun s => ?_
    cases t with
    | true => exact Regular.pure _
    | false => exact (Regular.act fun a => List.prefix_append _ _).bind fun _ => Regular.steps T M n m fuel

theorem Regular.performEpisode (T : Text) (M : Mind A) (n m fuel : ℕ) : Regular (performEpisode T (logged M) n m fuel) := by
  refine Regular.allocate.bind fun _ => (Regular.sendToken _).bind fun _ => Regular.getFlag.bind fun t =>
    (Regular.getStates T n).bind fun s => ?_
  cases t with
  | true => exact (Regular.act fun a => List.prefix_append _ _).bind fun _ => Regular.pure _
  | false =>
    refine (Regular.act fun a => List.prefix_append _ _).bind fun _ => (Regular.steps T M n m fuel).bind fun r => ?_
    cases r with
    | none => exact Regular.pure _
    | some x => exact (Regular.act fun a => List.prefix_append _ _).bind fun _ => Regular.pure _

theorem Regular.episodes (T : Text) (M : Mind A) (n m fuel : ℕ) : ∀ k, Regular (episodes T (logged M) n m fuel k)
  | 0 => Regular.pure _
  | k + 1 => by
    refine (Regular.performEpisode T M n m fuel).bind fun d => ?_
    cases d with
    | true => exact Regular.episodes T M n m fuel k
    | false => exact Regular.pure _

theorem foldl_logged (M : Mind A) (cs : List Call) : ∀ (a : A) (l : List Call),
    cs.foldl (Call.run (logged M)) (a, l) = (cs.foldl (Call.run M) a, l ++ cs) := by
  induction cs with
  | nil => intro a l; simp
  | cons c cs ih =>
    intro a l
    have : Call.run (logged M) (a, l) c = (Call.run M a c, l ++ [c]) := by cases c <;> rfl
    rw [List.foldl_cons, this, ih]
    simp

theorem message_logged (T : Text) (M : Mind A) (m : ℕ) (a : A × List Call) :
    message T (logged M) m a = message T M m a.1 := rfl

theorem messages_logged (T : Text) (M : Mind A) (m : ℕ) (ts : List Turn) : ∀ (a : A × List Call),
    messages T (logged M) m a ts = messages T M m a.1 ts := by
  induction ts with
  | nil => intro a; rfl
  | cons t ts ih => intro a; simp only [messages, message_logged, ih]; rfl

theorem answer_logged (T : Text) (M : Mind A) (m : ℕ) (a : A × List Call) (s : Script) :
    s.answer T (logged M) m a = s.answer T M m a.1 := by
  cases s with
  | over _ => rfl
  | run first turns last => simp only [Script.answer, messages_logged]; rfl

theorem answers_logged (T : Text) (M : Mind A) (m : ℕ) (ss : List Script) : ∀ (a : A × List Call),
    answers T (logged M) m a ss = answers T M m a.1 ss := by
  induction ss with
  | nil => intro a; rfl
  | cons s ss ih =>
    intro a
    obtain ⟨a, l⟩ := a
    simp only [answers, answer_logged, ih, foldl_logged]

/-- Programs that end without undefined behaviour if `recv` reports an error after the last byte. -/
def Safe (p : Io A α) : Prop := ∀ w, w.ending = .error →
  ∃ r v, p w = .ok (r, v) ∧ v.ending = .error ∧ v.input.length ≤ w.input.length

theorem Safe.bind {p : Io A α} {f : α → Io A β} (hp : Safe p) (hf : ∀ a, Safe (f a)) : Safe (Io.bind p f) := by
  intro w hw
  obtain ⟨r, v, h1, h2, h3⟩ := hp w hw
  cases r with
  | none => exact ⟨none, v, bind_none h1, h2, h3⟩
  | some a =>
    obtain ⟨r', v', h1', h2', h3'⟩ := hf a v h2
    exact ⟨r', v', by rw [bind_some h1, h1'], h2', h3'.trans h3⟩

theorem Safe.result (o : Option α) : Safe (fun w : Client A => .ok (o, w)) := fun w hw => ⟨o, w, rfl, hw, le_rfl⟩

theorem Safe.tokenLoop : ∀ (n : ℕ) (c : Option Char) (acc : List Char), Safe (tokenLoop n c acc : Io A (List Char)) := by
  intro n
  induction n with
  | zero => intro c acc w hw; exact ⟨_, _, rfl, hw, le_rfl⟩
  | succ n ih =>
    intro c acc w hw
    unfold Octopus.tokenLoop
    cases hi : w.input with
    | cons d rest =>
      dsimp only
      by_cases hd : d = separator
      · rw [if_pos hd]
        exact ⟨_, _, rfl, hw, by simp⟩
      · rw [if_neg hd]
        obtain ⟨r, v, h1, h2, h3⟩ := ih (some d) (acc ++ [d]) { w with input := rest } hw
        exact ⟨r, v, h1, h2, by simp only [List.length_cons]; exact h3.trans (Nat.le_succ _)⟩
    | nil =>
      rw [hw]
      exact ⟨_, _, rfl, hw, by rw [hi]⟩

/-- A token takes at least one byte. -/
theorem getToken_consumes {w v : Client A} {t : List Char} (hw : w.ending = .error) (h : getToken w = .ok (some t, v)) :
    v.input.length < w.input.length := by
  unfold getToken tokenLoop at h
  cases hi : w.input with
  | cons d rest =>
    rw [hi] at h
    dsimp only at h
    by_cases hd : d = separator
    · rw [if_pos hd] at h
      injection h with h; injection h with _ h; subst h; simp
    · rw [if_neg hd] at h
      obtain ⟨r, v', h1, h2, h3⟩ := Safe.tokenLoop 1022 (some d) ([] ++ [d]) { w with input := rest } hw
      rw [h1] at h
      injection h with h; injection h with _ h; subst h
      simp only [List.length_cons]
      exact Nat.lt_succ_of_le h3
  | nil =>
    rw [hi, hw] at h
    injection h with h; injection h with h _; cases h

theorem Safe.getDouble (T : Text) : Safe (getDouble T : Io A ℝ) := (Safe.tokenLoop _ _ _).bind fun _ => Safe.result _

theorem Safe.getFlag : Safe (getFlag : Io A Bool) := (Safe.tokenLoop _ _ _).bind fun _ => Safe.result _

theorem Safe.getValues (T : Text) : ∀ n, Safe (getValues T n : Io A (List ℝ))
  | 0 => Safe.result _
  | n + 1 => (Safe.getDouble T).bind fun _ => (Safe.getValues T n).bind fun _ => Safe.result _

theorem Safe.getStates (T : Text) (n : ℕ) : Safe (getStates T n : Io A (List ℝ)) := by
  refine Safe.bind ((Safe.tokenLoop _ _ _).bind fun _ => Safe.result _) fun k => ?_
  by_cases h : k = n
  · rw [if_pos h]; exact Safe.getValues T n
  · rw [if_neg h]; exact Safe.result none

theorem Safe.send (bytes : List Char) : Safe (send bytes : Io A Unit) := by
  intro w hw
  unfold Octopus.send
  by_cases hl : bytes.length ≤ w.room
  · rw [if_pos hl]; exact ⟨_, _, rfl, hw, le_rfl⟩
  · rw [if_neg hl]; exact ⟨_, _, rfl, hw, le_rfl⟩

theorem Safe.sendToken (t : List Char) : Safe (sendToken t : Io A Unit) := (Safe.send t).bind fun _ => Safe.send _

theorem Safe.sendActions (T : Text) (M : Mind A) {m : ℕ} (hm : Fits T m) : Safe (sendActions T M m) := by
  intro w hw
  have h1 := hm.int
  have h2 := hm.actions
  unfold Octopus.sendActions
  rw [if_pos (by omega), formatActions_ok T _ hm.real m 0 _ (by simp; omega)]
  exact Safe.sendToken _ w hw

theorem Safe.act (f : A → A) : Safe (act f) := fun _ hw => ⟨_, _, rfl, hw, le_rfl⟩

/-- Every step takes at least one byte, so that the episode ends. -/
theorem steps_end (T : Text) (M : Mind A) {n m : ℕ} (hm : Fits T m) : ∀ (fuel : ℕ) (w : Client A), w.ending = .error →
    ∃ r v, steps T M n m fuel w = .ok (r, v) ∧ v.ending = .error ∧ v.input.length ≤ w.input.length ∧
      (w.input.length < fuel → r ≠ some none)
  | 0, w, hw => ⟨_, _, rfl, hw, le_rfl, fun h => absurd h (Nat.not_lt_zero _)⟩
  | fuel + 1, w, hw => by
    obtain ⟨r1, v1, e1, g1, l1⟩ := Safe.sendToken "STEP".toList w hw
    unfold steps
    cases r1 with
    | none => exact ⟨none, v1, bind_none e1, g1, l1, fun _ => by simp⟩
    | some _ =>
    rw [bind_some e1]
    obtain ⟨r2, v2, e2, g2, l2⟩ := Safe.sendActions T M hm v1 g1
    cases r2 with
    | none => exact ⟨none, v2, bind_none e2, g2, l2.trans l1, fun _ => by simp⟩
    | some _ =>
    rw [bind_some e2]
    obtain ⟨r3, v3, e3, g3, l3⟩ := Safe.tokenLoop 1023 none [] v2 g2
    cases r3 with
    | none => exact ⟨none, v3, bind_none (bind_none e3), g3, l3.trans (l2.trans l1), fun _ => by simp⟩
    | some t =>
    have c3 := getToken_consumes g2 e3
    rw [bind_some (show getDouble T v2 = .ok (some (T.atof t), v3) from bind_some e3)]
    obtain ⟨r4, v4, e4, g4, l4⟩ := Safe.getFlag v3 g3
    cases r4 with
    | none => exact ⟨none, v4, bind_none e4, g4, by omega, fun _ => by simp⟩
    | some b =>
    rw [bind_some e4]
    obtain ⟨r5, v5, e5, g5, l5⟩ := Safe.getStates T n v4 g4
    cases r5 with
    | none => exact ⟨none, v5, bind_none e5, g5, by omega, fun _ => by simp⟩
    | some s =>
    rw [bind_some e5]
    cases b with
    | true => exact ⟨_, v5, rfl, g5, by omega, fun _ => by simp⟩
    | false =>
      simp only [Bool.false_eq_true, if_false]
      rw [bind_some (by rfl)]
      obtain ⟨r, v, e, g, l, q⟩ := steps_end T M hm fuel
        { v5 with agent := M.step v5.agent s (T.atof t) } g5
      dsimp only at l q
      exact ⟨r, v, e, g, by omega, fun h => q (by omega)⟩

/-- With errors of the connection at any place the client reaches the end of the episode or an error. -/
theorem episode_ends (T : Text) (M : Mind A) {n m : ℕ} (hm : Fits T m) (fuel : ℕ) (w : Client A) (hw : w.ending = .error)
    (hf : w.input.length < fuel) :
    ∃ r v, performEpisode T M n m fuel w = .ok (r, v) ∧ v.ending = .error ∧ v.input.length ≤ w.input.length ∧
      r ≠ some false := by
  unfold performEpisode
  rw [bind_some (by rfl)]
  obtain ⟨r1, v1, e1, g1, l1⟩ := Safe.sendToken "START".toList { w with blocks := w.blocks + 2 } hw
  dsimp only at l1
  cases r1 with
  | none => exact ⟨none, v1, bind_none e1, g1, l1, by simp⟩
  | some _ =>
  rw [bind_some e1]
  obtain ⟨r4, v4, e4, g4, l4⟩ := Safe.getFlag v1 g1
  cases r4 with
  | none => exact ⟨none, v4, bind_none e4, g4, by omega, by simp⟩
  | some b =>
  rw [bind_some e4]
  obtain ⟨r5, v5, e5, g5, l5⟩ := Safe.getStates T n v4 g4
  cases r5 with
  | none => exact ⟨none, v5, bind_none e5, g5, by omega, by simp⟩
  | some s =>
  rw [bind_some e5]
  cases b with
  | true => exact ⟨some true, _, rfl, g5, by dsimp only; omega, by simp⟩
  | false =>
    simp only [Bool.false_eq_true, if_false]
    rw [bind_some (by rfl)]
    obtain ⟨r, v, e, g, l, q⟩ := steps_end T M (n := n) hm fuel { v5 with agent := M.start v5.agent s } g5
    dsimp only at l q
    cases r with
    | none => exact ⟨none, v, bind_none e, g, by omega, by simp⟩
    | some o =>
    rw [bind_some e]
    cases o with
    | none => exact absurd rfl (q (by omega))
    | some x => exact ⟨some true, _, rfl, g, by dsimp only; omega, by simp⟩

/-- Any number of episodes with errors at any place. -/
theorem episodes_end (T : Text) (M : Mind A) {n m : ℕ} (hm : Fits T m) (fuel : ℕ) : ∀ (k : ℕ) (w : Client A),
    w.ending = .error → w.input.length < fuel →
    ∃ r v, episodes T M n m fuel k w = .ok (r, v) ∧ r ≠ some false
  | 0, w, _, _ => ⟨some true, w, rfl, by simp⟩
  | k + 1, w, hw, hf => by
    obtain ⟨r, v, e, g, l, q⟩ := episode_ends T M (n := n) hm fuel w hw hf
    unfold episodes
    cases r with
    | none => exact ⟨none, v, bind_none e, by simp⟩
    | some b =>
      cases b with
      | false => exact absurd rfl q
      | true =>
        rw [bind_some e, if_pos rfl]
        exact episodes_end T M hm fuel k v g (by omega)

/-- The connection fails at any byte in either direction: the client ends and the agent has been called with a beginning of
the calls of the undisturbed conversation, the server has received a beginning of the messages. -/
theorem failure_cuts_partial (T : Text) (M : Mind A) {n m : ℕ} (hm : Fits T m) (ss : List Script) (fuel : ℕ)
    (hv : ∀ s ∈ ss, s.Valid T n ∧ s.length ≤ fuel) (a : A) (input : List Char) (hi : input <+: ss.flatMap Script.bytes)
    (hf : input.length < fuel) (room blocks : ℕ) :
    ∃ r v, episodes T (logged M) n m fuel ss.length ⟨input, .error, room, [], (a, []), blocks⟩ = .ok (r, v) ∧
      r ≠ some false ∧ v.agent.2 <+: ss.flatMap (Script.calls T) ∧ v.sent <+: answers T M m a ss := by
  obtain ⟨r, v, e, q⟩ := episodes_end T (logged M) (n := n) hm fuel ss.length ⟨input, .error, room, [], (a, []), blocks⟩ rfl hf
  refine ⟨r, v, e, q, ?_⟩
  have hlen : answers T (logged M) m (a, []) ss = answers T M m a ss := answers_logged T M m ss (a, [])
  have full := episodes_follow_partial T (logged M) hm [] fuel ss
    ⟨ss.flatMap Script.bytes, .error, room + (answers T M m a ss).length, [], (a, []), blocks⟩ hv (by simp)
    (by dsimp only; rw [hlen]; omega)
  dsimp only at full
  rw [foldl_logged, hlen] at full
  have below : Below (A := A) ⟨input, .error, room, [], (a, []), blocks⟩
      ⟨ss.flatMap Script.bytes, .error, room + (answers T M m a ss).length, [], (a, []), blocks⟩ :=
    ⟨hi, rfl, by dsimp only; omega, rfl, rfl⟩
  obtain ⟨h1, h2⟩ := (Regular.episodes T M n m fuel ss.length).mono _ _ below
  have grown : Grown v ⟨[], .error, room + (answers T M m a ss).length - (answers T M m a ss).length,
      [] ++ answers T M m a ss, ((ss.flatMap (Script.calls T)).foldl (Call.run M) a, [] ++ ss.flatMap (Script.calls T)),
      blocks + 2 * ss.length⟩ := by
    cases r with
    | none => exact h2 v e _ _ full
    | some b =>
      obtain ⟨v', e', hb⟩ := h1 b v e
      rw [full] at e'
      injection e' with e'
      injection e' with _ e'
      rw [← e'] at hb
      exact hb.grown
  simpa [Grown] using grown

/-! ## The calls of the agent, for every server -/

/-- Programs that do not call the agent. -/
def Silent (p : Io A α) : Prop := ∀ w r v, p w = .ok (r, v) → v.agent = w.agent

theorem Silent.bind {p : Io A α} {f : α → Io A β} (hp : Silent p) (hf : ∀ a, Silent (f a)) : Silent (Io.bind p f) := by
  intro w r v h
  rcases bind_ok h with ⟨a, u, h1, h2⟩ | ⟨h1, -⟩
  · rw [hf a _ _ _ h2, hp _ _ _ h1]
  · exact hp _ _ _ h1

theorem Silent.result (o : Option α) : Silent (fun w : Client A => .ok (o, w)) := by
  intro w r v h
  injection h with h; injection h with _ h; subst h; rfl

theorem Silent.getToken : Silent (getToken : Io A (List Char)) := fun _ _ _ h => (tokenLoop_frame _ _ _ _ _ _ h).1

theorem Silent.getDouble (T : Text) : Silent (getDouble T : Io A ℝ) := Silent.getToken.bind fun _ => Silent.result _

theorem Silent.getFlag : Silent (getFlag : Io A Bool) := Silent.getToken.bind fun _ => Silent.result _

theorem Silent.getValues (T : Text) : ∀ n, Silent (getValues T n : Io A (List ℝ))
  | 0 => Silent.result _
  | n + 1 => (Silent.getDouble T).bind fun _ => (Silent.getValues T n).bind fun _ => Silent.result _

theorem Silent.getStates (T : Text) (n : ℕ) : Silent (getStates T n : Io A (List ℝ)) := by
  refine Silent.bind (Silent.getToken.bind fun _ => Silent.result _) fun k => ?_
  by_cases h : k = n
  · rw [if_pos h]; exact Silent.getValues T n
  · rw [if_neg h]; exact Silent.result none

theorem Silent.send (bytes : List Char) : Silent (send bytes : Io A Unit) := by
  intro w r v h
  unfold Octopus.send at h
  by_cases hl : bytes.length ≤ w.room
  · rw [if_pos hl] at h
    injection h with h; injection h with _ h; subst h; rfl
  · rw [if_neg hl] at h
    injection h with h; injection h with _ h; subst h; rfl

theorem Silent.sendToken (t : List Char) : Silent (sendToken t : Io A Unit) := (Silent.send t).bind fun _ => Silent.send _

theorem Silent.sendActions (T : Text) (M : Mind A) (m : ℕ) : Silent (sendActions T M m) := by
  intro w r v h
  rcases sendActions_eq T M m w with hu | ⟨b, hb⟩
  · rw [hu] at h; cases h
  · rw [hb w rfl] at h
    exact Silent.sendToken b _ _ _ h

theorem getValues_length (T : Text) : ∀ (n : ℕ) (w v : Client A) (s : List ℝ), getValues T n w = .ok (some s, v) → s.length = n
  | 0, w, v, s, h => by
    injection h with h; injection h with h _; cases h; rfl
  | n + 1, w, v, s, h => by
    rcases bind_ok h with ⟨x, u, -, h2⟩ | ⟨-, h⟩
    · rcases bind_ok h2 with ⟨xs, u', h3, h4⟩ | ⟨-, h⟩
      · injection h4 with h4; injection h4 with h4 _; cases h4
        simp [getValues_length T n _ _ _ h3]
      · cases h
    · cases h

theorem getStates_length (T : Text) (n : ℕ) (w v : Client A) (s : List ℝ) (h : getStates T n w = .ok (some s, v)) :
    s.length = n := by
  rcases bind_ok h with ⟨k, u, -, h2⟩ | ⟨-, h⟩
  · by_cases hk : k = n
    · rw [if_pos hk] at h2; exact getValues_length T n _ _ _ h2
    · rw [if_neg hk] at h2
      injection h2 with h2; injection h2 with h2 _; cases h2
  · cases h

/-- Calls of steps with states of the right size. -/
def Steps (n : ℕ) (cs : List Call) : Prop := ∀ c ∈ cs, ∃ s x, c = .step s x ∧ s.length = n

theorem steps_calls (T : Text) (M : Mind A) (n m : ℕ) : ∀ (fuel : ℕ) (w v : Client (A × List Call)) (r : Option (Option ℝ)),
    steps T (logged M) n m fuel w = .ok (r, v) → ∃ cs, v.agent.2 = w.agent.2 ++ cs ∧ Steps n cs
  | 0, w, v, r, h => by
    injection h with h; injection h with _ h; subst h
    exact ⟨[], by simp, by intro c hc; cases hc⟩
  | fuel + 1, w, v, r, h => by
    have none_case : ∀ u : Client (A × List Call), u.agent = w.agent → ∃ cs, u.agent.2 = w.agent.2 ++ cs ∧ Steps n cs :=
      fun u hu => ⟨[], by simp [hu], by intro c hc; cases hc⟩
    unfold steps at h
    rcases bind_ok h with ⟨_, u1, h1, h⟩ | ⟨h1, -⟩
    swap
    · exact none_case _ (Silent.sendToken _ _ _ _ h1)
    have a1 := Silent.sendToken _ _ _ _ h1
    rcases bind_ok h with ⟨_, u2, h2, h⟩ | ⟨h2, -⟩
    swap
    · exact none_case _ ((Silent.sendActions _ _ _ _ _ _ h2).trans a1)
    have a2 := (Silent.sendActions _ _ _ _ _ _ h2).trans a1
    rcases bind_ok h with ⟨x, u3, h3, h⟩ | ⟨h3, -⟩
    swap
    · exact none_case _ ((Silent.getDouble _ _ _ _ h3).trans a2)
    have a3 := (Silent.getDouble _ _ _ _ h3).trans a2
    rcases bind_ok h with ⟨b, u4, h4, h⟩ | ⟨h4, -⟩
    swap
    · exact none_case _ ((Silent.getFlag _ _ _ h4).trans a3)
    have a4 := (Silent.getFlag _ _ _ h4).trans a3
    rcases bind_ok h with ⟨s, u5, h5, h⟩ | ⟨h5, -⟩
    swap
    · exact none_case _ ((Silent.getStates _ _ _ _ _ h5).trans a4)
    have a5 := (Silent.getStates _ _ _ _ _ h5).trans a4
    cases b with
    | true =>
      injection h with h; injection h with _ h; subst h
      exact none_case _ a5
    | false =>
      simp only [Bool.false_eq_true, if_false] at h
      rw [bind_some (by rfl)] at h
      obtain ⟨cs, hcs, hs⟩ := steps_calls T M n m fuel _ _ _ h
      refine ⟨.step s x :: cs, ?_, ?_⟩
      · rw [hcs]; simp [logged, a5]
      · intro c hc
        rcases List.mem_cons.1 hc with rfl | hc
        · exact ⟨s, x, rfl, getStates_length T n _ _ _ h5⟩
        · exact hs c hc

/-- The calls of one episode: it is finished if and only if the client reports success, and it starts with `agent_start` unless the
first state is terminal. -/
def Episode (n : ℕ) (r : Option Bool) (cs : List Call) : Prop :=
  (r = some true ∧ (cs = [.finish 0] ∨ ∃ s ts x, cs = .start s :: (ts ++ [.finish x]) ∧ s.length = n ∧ Steps n ts)) ∨
  (r ≠ some true ∧ (cs = [] ∨ ∃ s ts, cs = .start s :: ts ∧ s.length = n ∧ Steps n ts))

theorem episode_calls (T : Text) (M : Mind A) (n m fuel : ℕ) (w v : Client (A × List Call)) (r : Option Bool)
    (h : performEpisode T (logged M) n m fuel w = .ok (r, v)) : ∃ cs, v.agent.2 = w.agent.2 ++ cs ∧ Episode n r cs := by
  have none_case : ∀ u : Client (A × List Call), u.agent = w.agent →
      ∃ cs, u.agent.2 = w.agent.2 ++ cs ∧ Episode n none cs :=
    fun u hu => ⟨[], by simp [hu], Or.inr ⟨by simp, Or.inl rfl⟩⟩
  unfold performEpisode at h
  rw [bind_some (by rfl)] at h
  rcases bind_ok h with ⟨_, u1, h1, h⟩ | ⟨h1, rfl⟩
  swap
  · exact none_case _ (Silent.sendToken _ _ _ _ h1 :)
  have a1 := Silent.sendToken _ _ _ _ h1
  rcases bind_ok h with ⟨b, u4, h4, h⟩ | ⟨h4, rfl⟩
  swap
  · exact none_case _ ((Silent.getFlag _ _ _ h4).trans a1)
  have a4 := (Silent.getFlag _ _ _ h4).trans a1
  rcases bind_ok h with ⟨s, u5, h5, h⟩ | ⟨h5, rfl⟩
  swap
  · exact none_case _ ((Silent.getStates _ _ _ _ _ h5).trans a4)
  have a5 := (Silent.getStates _ _ _ _ _ h5).trans a4
  dsimp only at a5
  cases b with
  | true =>
    injection h with h; injection h with h h'; subst h; subst h'
    exact ⟨[.finish 0], by simp [logged, a5], Or.inl ⟨rfl, Or.inl rfl⟩⟩
  | false =>
    simp only [Bool.false_eq_true, if_false] at h
    rw [bind_some (by rfl)] at h
    have hlen := getStates_length T n _ _ _ h5
    rcases bind_ok h with ⟨o, u6, h6, h⟩ | ⟨h6, rfl⟩
    · obtain ⟨cs, hcs, hs⟩ := steps_calls T M n m fuel _ _ _ h6
      have hcs' : u6.agent.2 = w.agent.2 ++ .start s :: cs := by rw [hcs]; simp [logged, a5]
      cases o with
      | none =>
        injection h with h; injection h with h h'; subst h; subst h'
        exact ⟨_, hcs', Or.inr ⟨by simp, Or.inr ⟨s, cs, rfl, hlen, hs⟩⟩⟩
      | some x =>
        injection h with h; injection h with h h'; subst h; subst h'
        refine ⟨.start s :: (cs ++ [.finish x]), ?_, Or.inl ⟨rfl, Or.inr ⟨s, cs, x, rfl, hlen, hs⟩⟩⟩
        simp [logged, hcs']
    · obtain ⟨cs, hcs, hs⟩ := steps_calls T M n m fuel _ _ _ h6
      refine ⟨.start s :: cs, by rw [hcs]; simp [logged, a5], Or.inr ⟨by simp, Or.inr ⟨s, cs, rfl, hlen, hs⟩⟩⟩

/-! ## Every successful episode is a valid one -/

/-- All lines of the input fit into the buffer. -/
def Lines (input : List Char) : Prop := ∃ (ts : List (List Char)) (t : List Char), (∀ u ∈ ts, Short u) ∧ Short t ∧ input = ts.flatMap line ++ t

theorem tokenLoop_cut (t : List Char) (ht : '\n' ∉ t) : ∀ (n : ℕ) (c : Option Char) (acc : List Char) (w : Client A),
    t.length < n → w.input = t → w.ending = .error → ∃ v, tokenLoop n c acc w = .ok (none, v) := by
  induction t with
  | nil =>
    intro n c acc w hn hw he
    obtain ⟨n, rfl⟩ : ∃ k, n = k + 1 := ⟨n - 1, by simp at hn; omega⟩
    unfold tokenLoop
    rw [hw, he]
    exact ⟨_, rfl⟩
  | cons d t ih =>
    intro n c acc w hn hw he
    obtain ⟨n, rfl⟩ : ∃ k, n = k + 1 := ⟨n - 1, by simp at hn; omega⟩
    unfold tokenLoop
    rw [hw]
    dsimp only
    rw [if_neg (fun h => ht (by rw [h]; exact List.mem_cons_self))]
    exact ih (fun h => ht (List.mem_cons_of_mem _ h)) n _ _ _ (by simp at hn; omega) rfl he

/-- The token is the first line. -/
theorem getToken_inv {w v : Client A} {t : List Char} (he : w.ending = .error) (hl : Lines w.input)
    (h : getToken w = .ok (some t, v)) : Short t ∧ w.input = line t ++ v.input ∧ v.ending = .error ∧ Lines v.input := by
  obtain ⟨ts, u, h1, h2, h3⟩ := hl
  cases ts with
  | nil =>
    obtain ⟨v', e⟩ := tokenLoop_cut u h2.2 1023 none [] w (by have := h2.1; omega) (by simpa using h3) he
    rw [getToken, e] at h
    injection h with h; injection h with h _; cases h
  | cons s ts =>
    have e := getToken_line (h1 s List.mem_cons_self) (rest := ts.flatMap line ++ u) (w := w) (by rw [h3]; simp)
    rw [e] at h
    injection h with h; injection h with h h'; cases h; subst h'
    exact ⟨h1 _ List.mem_cons_self, by rw [h3]; simp, he, ts, u, fun x hx => h1 x (List.mem_cons_of_mem _ hx), h2, rfl⟩

theorem getDouble_inv (T : Text) {w v : Client A} {x : ℝ} (he : w.ending = .error) (hl : Lines w.input)
    (h : getDouble T w = .ok (some x, v)) :
    ∃ t, Short t ∧ x = T.atof t ∧ w.input = line t ++ v.input ∧ v.ending = .error ∧ Lines v.input := by
  rcases bind_ok h with ⟨t, u, h1, h2⟩ | ⟨-, h⟩
  · injection h2 with h2; injection h2 with h2 h3; cases h2; subst h3
    obtain ⟨g1, g2, g3, g4⟩ := getToken_inv he hl h1
    exact ⟨t, g1, rfl, g2, g3, g4⟩
  · cases h

theorem getValues_inv (T : Text) : ∀ (n : ℕ) (w v : Client A) (s : List ℝ), w.ending = .error → Lines w.input →
    getValues T n w = .ok (some s, v) → ∃ ts : List (List Char), ts.length = n ∧ (∀ t ∈ ts, Short t) ∧ s = ts.map T.atof ∧
      w.input = ts.flatMap line ++ v.input ∧ v.ending = .error ∧ Lines v.input
  | 0, w, v, s, he, hl, h => by
    injection h with h; injection h with h h'; cases h; subst h'
    exact ⟨[], rfl, by simp, rfl, by simp, he, hl⟩
  | n + 1, w, v, s, he, hl, h => by
    rcases bind_ok h with ⟨x, u, h1, h2⟩ | ⟨-, h⟩
    · obtain ⟨t, g1, g2, g3, g4, g5⟩ := getDouble_inv T he hl h1
      rcases bind_ok h2 with ⟨xs, u', h3, h4⟩ | ⟨-, h⟩
      · obtain ⟨ts, k1, k2, k3, k4, k5, k6⟩ := getValues_inv T n _ _ _ g4 g5 h3
        injection h4 with h4; injection h4 with h4 h5; cases h4; subst h5
        refine ⟨t :: ts, by simp [k1], ?_, by simp [g2, k3], by rw [g3, k4]; simp, k5, k6⟩
        intro y hy
        rcases List.mem_cons.1 hy with rfl | hy
        · exact g1
        · exact k2 y hy
      · cases h
    · cases h

theorem flagOf_some {t : List Char} {b : Bool} (h : flagOf t = some b) : ∃ u, t = (if b then '1' else '0') :: u := by
  unfold flagOf at h
  split at h
  · cases h; exact ⟨_, rfl⟩
  · cases h; exact ⟨_, rfl⟩
  · cases h

theorem reading_inv (T : Text) (n : ℕ) {w u v : Client A} {b : Bool} {s : List ℝ} (he : w.ending = .error) (hl : Lines w.input)
    (h1 : getFlag w = .ok (some b, u)) (h2 : getStates T n u = .ok (some s, v)) :
    ∃ r : Reading, r.Valid T n b ∧ s = r.states T ∧ w.input = r.bytes ++ v.input ∧ v.ending = .error ∧ Lines v.input := by
  rcases bind_ok h1 with ⟨t, u', g1, g2⟩ | ⟨-, h⟩
  swap
  · cases h
  injection g2 with g2; injection g2 with g2 g3; subst g3
  obtain ⟨a1, a2, a3, a4⟩ := getToken_inv he hl g1
  rcases bind_ok h2 with ⟨k, u2, g4, g5⟩ | ⟨-, h⟩
  swap
  · cases h
  rcases bind_ok g4 with ⟨t2, u3, g6, g7⟩ | ⟨-, h⟩
  swap
  · cases h
  injection g7 with g7; injection g7 with g7 g8; cases g7; subst g8
  obtain ⟨b1, b2, b3, b4⟩ := getToken_inv a3 a4 g6
  by_cases hk : T.atoi t2 = n
  · rw [if_pos hk] at g5
    obtain ⟨ts, c1, c2, c3, c4, c5, c6⟩ := getValues_inv T n _ _ _ b3 b4 g5
    refine ⟨⟨t, t2, ts⟩, ⟨flagOf_some g2, hk, c1, ?_⟩, c3, ?_, c5, c6⟩
    · intro x hx
      simp only [List.mem_cons] at hx
      rcases hx with rfl | rfl | hx
      · exact a1
      · exact b1
      · exact c2 x hx
    · rw [a2, b2, c4]
      simp [Reading.bytes]
  · rw [if_neg hk] at g5
    injection g5 with g5; injection g5 with g5 _; cases g5

/-- Programs that do not read. -/
def Deaf (p : Io A α) : Prop := ∀ w r v, p w = .ok (r, v) → v.input = w.input ∧ v.ending = w.ending

theorem Deaf.send (bytes : List Char) : Deaf (send bytes : Io A Unit) := by
  intro w r v h
  unfold Octopus.send at h
  by_cases hl : bytes.length ≤ w.room
  · rw [if_pos hl] at h
    injection h with h; injection h with _ h; subst h; exact ⟨rfl, rfl⟩
  · rw [if_neg hl] at h
    injection h with h; injection h with _ h; subst h; exact ⟨rfl, rfl⟩

theorem Deaf.sendToken (t : List Char) : Deaf (sendToken t : Io A Unit) := by
  intro w r v h
  rcases bind_ok h with ⟨_, u, h1, h2⟩ | ⟨h1, -⟩
  · obtain ⟨a1, a2⟩ := Deaf.send _ _ _ _ h1
    obtain ⟨b1, b2⟩ := Deaf.send _ _ _ _ h2
    exact ⟨b1.trans a1, b2.trans a2⟩
  · exact Deaf.send _ _ _ _ h1

theorem Deaf.sendActions (T : Text) (M : Mind A) (m : ℕ) : Deaf (sendActions T M m) := by
  intro w r v h
  rcases sendActions_eq T M m w with hu | ⟨b, hb⟩
  · rw [hu] at h; cases h
  · rw [hb w rfl] at h
    exact Deaf.sendToken b _ _ _ h

theorem steps_valid (T : Text) (M : Mind A) (n m : ℕ) : ∀ (fuel : ℕ) (w v : Client A) (x : ℝ), w.ending = .error → Lines w.input →
    steps T M n m fuel w = .ok (some (some x), v) → ∃ (turns : List Turn) (last : Turn),
      (∀ t ∈ turns, Short t.reward ∧ t.reading.Valid T n false) ∧ Short last.reward ∧ last.reading.Valid T n true ∧
      w.input = turns.flatMap Turn.bytes ++ (last.bytes ++ v.input) ∧ turns.length < fuel
  | 0, w, v, x, he, hl, h => by
    injection h with h; injection h with h _; cases h
  | fuel + 1, w, v, x, he, hl, h => by
    unfold steps at h
    rcases bind_ok h with ⟨_, u1, h1, h⟩ | ⟨-, h1⟩
    swap
    · cases h1
    obtain ⟨i1, e1⟩ := Deaf.sendToken _ _ _ _ h1
    rcases bind_ok h with ⟨_, u2, h2, h⟩ | ⟨-, h2⟩
    swap
    · cases h2
    obtain ⟨i2, e2⟩ := Deaf.sendActions _ _ _ _ _ _ h2
    have i : u2.input = w.input := i2.trans i1
    have e : u2.ending = .error := (e2.trans e1).trans he
    rcases bind_ok h with ⟨y, u3, h3, h⟩ | ⟨-, h3⟩
    swap
    · cases h3
    obtain ⟨t, a1, a2, a3, a4, a5⟩ := getDouble_inv T e (i ▸ hl) h3
    rcases bind_ok h with ⟨b, u4, h4, h⟩ | ⟨-, h4⟩
    swap
    · cases h4
    rcases bind_ok h with ⟨s, u5, h5, h⟩ | ⟨-, h5⟩
    swap
    · cases h5
    obtain ⟨r, b1, b2, b3, b4, b5⟩ := reading_inv T n a4 a5 h4 h5
    cases b with
    | true =>
      injection h with h; injection h with _ h; subst h
      exact ⟨[], ⟨t, r⟩, by simp, a1, b1, by rw [← i, a3, b3]; simp [Turn.bytes], by simp⟩
    | false =>
      simp only [Bool.false_eq_true, if_false] at h
      rw [bind_some (by rfl)] at h
      obtain ⟨turns, last, c1, c2, c3, c4, c5⟩ := steps_valid T M n m fuel _ _ _ (by exact b4) (by exact b5) h
      refine ⟨⟨t, r⟩ :: turns, last, ?_, c2, c3, ?_, by simp; omega⟩
      · intro q hq
        rcases List.mem_cons.1 hq with rfl | hq
        · exact ⟨a1, b1⟩
        · exact c1 q hq
      · dsimp only at c4
        rw [← i, a3, b3, c4]
        simp [Turn.bytes]

/-- If the client reports success, the server has sent a valid episode (which the client followed by `episode_follows`): wrong flags,
wrong numbers of states and missing values are never accepted. -/
theorem success_valid (T : Text) (M : Mind A) (n m fuel : ℕ) (w v : Client A) (he : w.ending = .error) (hl : Lines w.input)
    (h : performEpisode T M n m fuel w = .ok (some true, v)) :
    ∃ s : Script, s.Valid T n ∧ s.length ≤ fuel ∧ w.input = s.bytes ++ v.input := by
  unfold performEpisode at h
  rw [bind_some (by rfl)] at h
  rcases bind_ok h with ⟨_, u1, h1, h⟩ | ⟨-, h1⟩
  swap
  · cases h1
  obtain ⟨i, e⟩ := Deaf.sendToken _ _ _ _ h1
  dsimp only at i e
  rcases bind_ok h with ⟨b, u4, h4, h⟩ | ⟨-, h4⟩
  swap
  · cases h4
  rcases bind_ok h with ⟨s, u5, h5, h⟩ | ⟨-, h5⟩
  swap
  · cases h5
  obtain ⟨r, b1, b2, b3, b4, b5⟩ := reading_inv T n (e.trans he) (i ▸ hl) h4 h5
  cases b with
  | true =>
    injection h with h; injection h with _ h; subst h
    exact ⟨.over r, b1, by simp [Script.length], by rw [← i, b3]; rfl⟩
  | false =>
    simp only [Bool.false_eq_true, if_false] at h
    rw [bind_some (by rfl)] at h
    rcases bind_ok h with ⟨o, u6, h6, h⟩ | ⟨-, h6⟩
    swap
    · cases h6
    cases o with
    | none =>
      injection h with h; injection h with h _; cases h
    | some x =>
      injection h with h; injection h with _ h; subst h
      obtain ⟨turns, last, c1, c2, c3, c4, c5⟩ := steps_valid T M n m fuel _ _ _ (by exact b4) (by exact b5) h6
      refine ⟨.run r turns last, ⟨b1, c1, c2, c3⟩, c5, ?_⟩
      dsimp only at c4
      rw [← i, b3, c4]
      simp [Script.bytes]

/-! ## Where the client fails -/

/-- The server closes the connection in the middle of a token: the last byte is repeated until the buffer is full. -/
theorem closed_garbage (c : Char) : ∀ (n : ℕ) (acc : List Char) (w : Client A), w.ending = .closed →
    w.input = [] → tokenLoop n (some c) acc w = .ok (some (acc ++ List.replicate n c), w) := by
  intro n
  induction n with
  | zero => intro acc w _ _; simp [tokenLoop]
  | succ n ih =>
    intro acc w hw hi
    unfold tokenLoop
    rw [hi, hw]
    dsimp only
    rw [ih _ w hw hi, List.replicate_succ]
    simp

/-- The server closes the connection between two tokens: a variable without a value is compared. -/
theorem closed_ub (w : Client A) (hw : w.ending = .closed) (hi : w.input = []) : getToken w = .ub := by
  unfold getToken tokenLoop
  rw [hi, hw]

/-- The server closes the connection before an episode. -/
theorem episode_closed_ub (T : Text) (M : Mind A) (n m fuel : ℕ) (w : Client A) (hw : w.ending = .closed) (hi : w.input = [])
    (hr : 6 ≤ w.room) : performEpisode T M n m fuel w = .ub := by
  unfold performEpisode
  rw [bind_some (by rfl), bind_some (sendToken_ok (by simpa [line] using hr))]
  exact bind_ub (bind_ub (closed_ub _ hw hi))

/-- Digits that the server did not send: `1` arrives as a number with 1023 digits. -/
theorem closed_digits (w : Client A) (hw : w.ending = .closed) (hi : w.input = ['1']) :
    getToken w = .ok (some (List.replicate 1023 '1'), { w with input := [] }) := by
  unfold getToken tokenLoop
  rw [hi]
  dsimp only
  rw [if_neg (by decide), closed_garbage '1' 1022 _ { w with input := [] } hw rfl]
  rfl

/-- A token of 1023 characters is followed by an empty token that the server did not send. -/
theorem long_token_splits (t rest : List Char) (ht : '\n' ∉ t) (hl : t.length = 1023) (w : Client A)
    (hw : w.input = line t ++ rest) :
    (Io.bind getToken fun a => Io.bind getToken fun b => Io.pure (a, b)) w = .ok (some (t, []), { w with input := rest }) := by
  have key : ∀ (t : List Char), '\n' ∉ t → ∀ (c : Option Char) (acc : List Char) (w : Client A), w.input = t ++ ('\n' :: rest) →
      tokenLoop t.length c acc w = .ok (some (acc ++ t), { w with input := '\n' :: rest }) := by
    intro t
    induction t with
    | nil =>
      intro _ c acc w hw
      have : w = { w with input := '\n' :: rest } := by
        cases w; simp at hw; simp [hw]
      rw [← this]; simp [tokenLoop]
    | cons d t ih =>
      intro hd c acc w hw
      simp only [List.length_cons]
      unfold tokenLoop
      rw [hw]
      simp only [List.cons_append]
      rw [if_neg (fun h => hd (by rw [h]; exact List.mem_cons_self)), ih (fun h => hd (List.mem_cons_of_mem _ h)) _ _ _ rfl]
      simp
  have h1 : getToken w = .ok (some t, { w with input := '\n' :: rest }) := by
    have := key t ht none [] w (by rw [hw]; simp [line])
    rw [hl] at this
    simpa [getToken] using this
  rw [bind_some h1, bind_some (getToken_line (t := []) (rest := rest) ⟨by simp, by simp⟩ (by simp [line]))]
  rfl

/-- The buffer overflows if there are many actions. -/
theorem actions_ub (T : Text) (M : Mind A) (h : ∀ x, 1 ≤ (T.showReal x).length) (m : ℕ) (hm : 5120 ≤ m) (w : Client A) :
    sendActions T M m w = .ub := by
  have key : ∀ (k i : ℕ) (b : List Char), 10240 ≤ b.length + 2 * k → 1 ≤ k → formatActions T (M.actions w.agent) k i b = .ub := by
    intro k
    induction k with
    | zero => intro i b _ h; omega
    | succ k ih =>
      intro i b hb _
      have h1 := h (M.actions w.agent i)
      unfold formatActions
      by_cases hl : b.length + (T.showReal (M.actions w.agent i)).length + 2 ≤ 10240
      · rw [if_pos hl]
        refine ih _ _ ?_ ?_
        · simp; omega
        · by_contra hk
          omega
      · rw [if_neg hl]
  unfold sendActions
  by_cases hl : (T.showInt m).length + 2 ≤ 10240
  · rw [if_pos hl, key m 0 _ (by omega) (by omega)]; rfl
  · rw [if_neg hl]

/-- After a successful `agent_init` the name of the agent is read from a string that no longer exists. -/
theorem init_ub (T : Text) (init : ℤ → ℤ → A → Outcome (Option A)) (n m rest : List Char) (hn : Short n) (hm : Short m)
    (w : Client A) (a : A) (hi : init (T.atoi n) (T.atoi m) w.agent = .ok (some a)) (hw : w.input = line n ++ (line m ++ rest))
    (hr : 9 ≤ w.room) : performInit T init w = .ub := by
  unfold performInit
  rw [bind_some (sendToken_ok (by simpa [line] using hr)), bind_some (getInt_line T hn (rest := line m ++ rest) (by exact hw)),
    bind_some (getInt_line T hm (rest := rest) rfl)]
  dsimp only
  rw [hi]; rfl

/-! ## Examples -/

/-- A C library that only knows the numbers 0 and 1. -/
def tiny : Text where
  atoi t := if t = ['1'] then 1 else 0
  atof t := if t = ['1'] then 1 else 0
  showInt _ := ['1']
  showReal x := if x = 1 then ['1'] else ['0']

/-- Server with one state component: a step that is not terminal and a terminal one, and an episode that is over. -/
def tinyRun : Script := .run ⟨['0'], ['1'], [['0']]⟩ [⟨['1'], ⟨['0'], ['1'], [['1']]⟩⟩] ⟨['1'], ⟨['1'], ['1'], [['0']]⟩⟩

def tinyOver : Script := .over ⟨['1'], ['1'], [['0']]⟩

example : Fits tiny 1 := ⟨fun x => by unfold tiny; dsimp only; split <;> simp, by simp [tiny], by norm_num⟩

example : ∀ s ∈ [tinyRun, tinyOver, tinyRun], s.Valid tiny 1 ∧ s.length ≤ 2 := by
  have v : ∀ (b : Bool) (x : Char), x = '0' ∨ x = '1' →
      Reading.Valid tiny 1 b ⟨[if b then '1' else '0'], ['1'], [[x]]⟩ := by
    intro b x hx
    refine ⟨⟨[], rfl⟩, by simp [tiny], rfl, ?_⟩
    intro t ht
    simp only [List.mem_cons, List.not_mem_nil, or_false] at ht
    rcases ht with rfl | rfl | rfl
    · cases b <;> exact ⟨by simp, by decide⟩
    · exact ⟨by simp, by decide⟩
    · rcases hx with rfl | rfl <;> exact ⟨by simp, by decide⟩
  have h1 : tinyRun.Valid tiny 1 := by
    refine ⟨v false '0' (Or.inl rfl), ?_, ⟨by simp, by decide⟩, v true '0' (Or.inl rfl)⟩
    intro t ht
    rw [List.mem_singleton.1 ht]
    exact ⟨⟨by simp, by decide⟩, v false '1' (Or.inr rfl)⟩
  have h2 : tinyOver.Valid tiny 1 := v true '0' (Or.inl rfl)
  intro s hs
  simp only [List.mem_cons, List.not_mem_nil, or_false] at hs
  rcases hs with rfl | rfl | rfl
  · exact ⟨h1, le_rfl⟩
  · exact ⟨h2, by simp [tinyOver, Script.length]⟩
  · exact ⟨h1, le_rfl⟩

example : tinyRun.calls tiny = [.start [0], .step [1] 1, .finish 1] := by
  simp [tinyRun, Script.calls, turnCalls, Reading.states, tiny]

end

end Verif.Octopus
