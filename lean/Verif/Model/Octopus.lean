import Verif.Model.Outcome
import Mathlib.Data.Real.Basic

/-!
# The client of the octopus arm benchmark (benchmarks/octopusarm/protocol.cpp)

The connection is a list of bytes that the server sends, after which `recv` fails or reports the end of the stream, and a
number of bytes that can be sent before `send` fails (a `send` that only sends a part of its bytes is an error for the client).
`atoi`, `atof` and the formats `%d` and `%.16g` are arbitrary functions.  The numbers of states and actions are not negative
(otherwise `agent_init` fails).  The agent is arbitrary, its functions return 0 like those of agent.cpp.
-/

namespace Verif.Octopus

noncomputable section

/-- What happens after the last byte. -/
inductive Ending where
  /-- `recv` returns -1 -/
  | error
  /-- `recv` returns 0 -/
  | closed
  deriving DecidableEq

/-- Functions of the C library. -/
structure Text where
  atoi : List Char → ℤ
  atof : List Char → ℝ
  /-- `sprintf("%d")` -/
  showInt : ℕ → List Char
  /-- `sprintf("%.16g")` -/
  showReal : ℝ → List Char

/-- agent.h lines 26-46: the functions that are called during episodes.  `actions` are the entries of `out_action`. -/
structure Mind (A : Type) where
  start : A → List ℝ → A
  step : A → List ℝ → ℝ → A
  finish : A → ℝ → A
  /-- what the agent has written to `out_action` -/
  actions : A → ℕ → ℝ

/-- A call of one of these functions. -/
inductive Call where
  | start (states : List ℝ)
  | step (states : List ℝ) (reward : ℝ)
  | finish (reward : ℝ)

/-- The state of the program: connection, agent and number of blocks that were allocated and not freed. -/
structure Client (A : Type) where
  input : List Char
  ending : Ending
  room : ℕ
  sent : List Char
  agent : A
  blocks : ℕ

/-- Part of the program: `none` is a negative return code. -/
abbrev Io (A α : Type) := Client A → Outcome (Option α × Client A)

variable {A α β : Type}

def Io.bind (p : Io A α) (f : α → Io A β) : Io A β := fun w =>
  p w >>= fun r => match r.1 with
    | some a => f a r.2
    | none => .ok (none, r.2)

def Io.pure (a : α) : Io A α := fun w => .ok (some a, w)

/-- line 12 -/
def separator : Char := '\n'

/-- lines 37-55: `recv` for byte `i`, where `n = BUFFER_LENGTH - 1 - i`; `current` has no value before the first byte.  At the end
of the stream `recv` leaves `current` as it is. -/
def tokenLoop : ℕ → Option Char → List Char → Io A (List Char)
  | 0, _, acc, w => .ok (some acc, w)
  | n + 1, current, acc, w =>
    match w.input with
    | c :: rest =>
      if c = separator then .ok (some acc, { w with input := rest })
      else tokenLoop n (some c) (acc ++ [c]) { w with input := rest }
    | [] =>
      match w.ending, current with
      | .error, _ => .ok (none, w)
      | .closed, none => .ub
      | .closed, some c => tokenLoop n (some c) (acc ++ [c]) w

/-- lines 29-58: `getNextTokenFromSocket` -/
def getToken : Io A (List Char) := tokenLoop 1023 none []

/-- lines 61-74 -/
def getInt (T : Text) : Io A ℤ := Io.bind getToken fun t => Io.pure (T.atoi t)

/-- lines 77-90 -/
def getDouble (T : Text) : Io A ℝ := Io.bind getToken fun t => Io.pure (T.atof t)

/-- lines 93-117; an empty token starts with the terminating zero -/
def flagOf : List Char → Option Bool
  | '0' :: _ => some false
  | '1' :: _ => some true
  | _ => none

/-- lines 93-117 -/
def getFlag : Io A Bool := Io.bind getToken fun t w => .ok (flagOf t, w)

/-- lines 126-130 -/
def getValues (T : Text) : ℕ → Io A (List ℝ)
  | 0 => Io.pure []
  | n + 1 => Io.bind (getDouble T) fun v => Io.bind (getValues T n) fun vs => Io.pure (v :: vs)

/-- lines 120-141; `n` is `numStates` -/
def getStates (T : Text) (n : ℕ) : Io A (List ℝ) :=
  Io.bind (getInt T) fun k => if k = n then getValues T n else fun w => .ok (none, w)

/-- `send` -/
def send (bytes : List Char) : Io A Unit := fun w =>
  if bytes.length ≤ w.room then .ok (some (), { w with room := w.room - bytes.length, sent := w.sent ++ bytes })
  else .ok (none, { w with room := 0, sent := w.sent ++ bytes.take w.room })

/-- lines 144-161 -/
def sendToken (token : List Char) : Io A Unit := Io.bind (send token) fun _ => send [separator]

/-- lines 186-190: the loop over the actions, `buffer` is what the buffer of 10240 bytes contains (and a terminating zero) -/
def formatActions (T : Text) (actions : ℕ → ℝ) : ℕ → ℕ → List Char → Outcome (List Char)
  | 0, _, buffer => .ok buffer
  | n + 1, i, buffer =>
    if buffer.length + (T.showReal (actions i)).length + 2 ≤ 10240 then
      formatActions T actions n (i + 1) (buffer ++ (T.showReal (actions i) ++ [separator]))
    else .ub

/-- lines 178-195; `m` is `numActions`.  The last separator is removed and sent by `sendToken`. -/
def sendActions (T : Text) (M : Mind A) (m : ℕ) : Io A Unit := fun w =>
  if (T.showInt m).length + 2 ≤ 10240 then
    formatActions T (M.actions w.agent) m 0 (T.showInt m ++ [separator]) >>= fun buffer => sendToken buffer.dropLast w
  else .ub

/-- A call of the agent. -/
def act (f : A → A) : Io A Unit := fun w => .ok (some (), { w with agent := f w.agent })

/-- lines 271-288, for a state that is not terminal; `fuel` limits the number of steps (`none` inside: still running).  Result is
the reward of the last step. -/
def steps (T : Text) (M : Mind A) (n m : ℕ) : ℕ → Io A (Option ℝ)
  | 0 => Io.pure none
  | fuel + 1 =>
    Io.bind (sendToken "STEP".toList) fun _ => Io.bind (sendActions T M m) fun _ =>
    Io.bind (getDouble T) fun reward => Io.bind getFlag fun terminal => Io.bind (getStates T n) fun states =>
      if terminal then Io.pure (some reward)
      else Io.bind (act fun a => M.step a states reward) fun _ => steps T M n m fuel

/-- lines 245-246: two blocks are allocated, nothing is freed -/
def allocate : Io A Unit := fun w => .ok (some (), { w with blocks := w.blocks + 2 })

/-- lines 240-298: `performEpisode`; false: still running after `fuel` steps.  The blocks of lines 245-246 are allocated even if the
first `sendToken` fails, which makes no difference for what follows. -/
def performEpisode (T : Text) (M : Mind A) (n m fuel : ℕ) : Io A Bool :=
  Io.bind allocate fun _ => Io.bind (sendToken "START".toList) fun _ => Io.bind getFlag fun terminal =>
  Io.bind (getStates T n) fun states =>
    if terminal then Io.bind (act fun a => M.finish a 0) fun _ => Io.pure true
    else Io.bind (act fun a => M.start a states) fun _ => Io.bind (steps T M n m fuel) fun r =>
      match r with
      | none => Io.pure false
      | some reward => Io.bind (act fun a => M.finish a reward) fun _ => Io.pure true

/-- tcpClient.cpp lines 109-113: `k` episodes -/
def episodes (T : Text) (M : Mind A) (n m fuel : ℕ) : ℕ → Io A Bool
  | 0 => Io.pure true
  | k + 1 => Io.bind (performEpisode T M n m fuel) fun done => if done then episodes T M n m fuel k else Io.pure false

/-- lines 213-237 with agent.cpp lines 108-113: after the task has been received, `agent_get_name` returns a pointer into a string that
no longer exists, and `strdup` reads it. -/
def performInit (T : Text) (init : ℤ → ℤ → A → Outcome (Option A)) : Io A Unit :=
  Io.bind (sendToken "GET_TASK".toList) fun _ => Io.bind (getInt T) fun n => Io.bind (getInt T) fun m => fun w =>
    init n m w.agent >>= fun r => match r with
      | none => .ok (none, w)
      | some _ => .ub

end

end Verif.Octopus
