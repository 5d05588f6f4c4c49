import Verif.Model.Loop
import Mathlib.Data.Real.Basic
import Mathlib.Logic.Function.Basic

/-!
# Parallel loops

`#pragma omp parallel for` lets several threads execute the iterations of a loop.  The body of a loop is a program that reads and
writes cells of the shared memory one at a time; variables that are declared in the body are private and part of the program.
Threads are interleaved between any two accesses.  According to the memory model of C++ the behaviour is undefined if two threads
can access the same cell at the same time and one of them writes (`Race`); without such a state all executions are interleavings.

An exception that leaves an iteration ends the program (`std::terminate`).
-/

namespace Verif.Par

/-- A program with access to the cells `L`: it ends with an outcome or reads or writes a cell and goes on. -/
inductive Prog (L : Type) (α : Type) where
  | leaf (o : Outcome α)
  | read (l : L) (k : ℝ → Prog L α)
  | write (l : L) (v : ℝ) (k : Prog L α)

abbrev Mem (L : Type) := L → ℝ

namespace Prog

variable {L α β : Type}

/-- Sequencing; programs end with the first outcome that is not a normal end. -/
def bind : Prog L α → (α → Prog L β) → Prog L β
  | leaf (.ok a), f => f a
  | leaf .throws, _ => leaf .throws
  | leaf .checkFailed, _ => leaf .checkFailed
  | leaf .ub, _ => leaf .ub
  | read l k, f => read l fun v => (k v).bind f
  | write l v k, f => write l v (k.bind f)

instance : Monad (Prog L) where
  pure a := leaf (.ok a)
  bind := bind

/-- read access -/
def get (l : L) : Prog L ℝ := read l fun v => leaf (.ok v)

/-- write access -/
def set (l : L) (v : ℝ) : Prog L Unit := write l v (leaf (.ok ()))

/-- a computation without access to the memory -/
def lift (o : Outcome α) : Prog L α := leaf o

/-- Sequential execution. -/
def run [DecidableEq L] : Prog L α → Mem L → Outcome (α × Mem L)
  | leaf (.ok a), m => .ok (a, m)
  | leaf .throws, _ => .throws
  | leaf .checkFailed, _ => .checkFailed
  | leaf .ub, _ => .ub
  | read l k, m => (k (m l)).run m
  | write l v k, m => k.run (Function.update m l v)

/-- Number of accesses in the sequential execution. -/
def accesses [DecidableEq L] : Prog L α → Mem L → ℕ
  | leaf _, _ => 0
  | read l k, m => (k (m l)).accesses m + 1
  | write l v k, m => k.accesses (Function.update m l v) + 1

/-- `for(int i = 0; i < n; i++)` with the private variables `s` -/
def loop {σ : Type} : ℕ → (ℕ → σ → Prog L σ) → σ → Prog L σ
  | 0, _, s => pure s
  | n + 1, body, s => loop n body s >>= body n

/-- `for(; i < hi; i += st)` with the private variables `s` -/
def steps {σ : Type} (hi st : ℕ) (body : ℕ → σ → Prog L σ) (i : ℕ) (s : σ) : Prog L σ :=
  if _h : i < hi ∧ 0 < st then body i s >>= fun s' => steps hi st body (i + st) s' else pure s
termination_by hi - i

/-- the iterations of a thread -/
def sequence (body : ℕ → Prog L Unit) : List ℕ → Prog L Unit
  | [] => pure ()
  | n :: l => body n >>= fun _ => sequence body l

end Prog

/-- The threads `0, ..., T - 1` and the shared memory. -/
structure Config (L : Type) where
  mem : Mem L
  threads : ℕ → Prog L Unit

variable {L : Type}

/-- One of the threads executes its next access. -/
inductive Step [DecidableEq L] (T : ℕ) : Config L → Config L → Prop
  | read (c : Config L) (i : ℕ) (hi : i < T) (l : L) (k : ℝ → Prog L Unit) (h : c.threads i = .read l k) :
      Step T c ⟨c.mem, Function.update c.threads i (k (c.mem l))⟩
  | write (c : Config L) (i : ℕ) (hi : i < T) (l : L) (v : ℝ) (k : Prog L Unit) (h : c.threads i = .write l v k) :
      Step T c ⟨Function.update c.mem l v, Function.update c.threads i k⟩

/-- Executions with their number of steps. -/
inductive Exec [DecidableEq L] (T : ℕ) : Config L → ℕ → Config L → Prop
  | start (c : Config L) : Exec T c 0 c
  | step {c c' c'' : Config L} {n : ℕ} (h : Exec T c n c') (h' : Step T c' c'') : Exec T c (n + 1) c''

/-- The next access of a program: whether it writes, and where. -/
def Prog.next {α : Type} : Prog L α → Option (Bool × L)
  | .leaf _ => none
  | .read l _ => some (false, l)
  | .write l _ _ => some (true, l)

/-- Two threads are about to access the same cell, at least one of them writes. -/
def Race (T : ℕ) (c : Config L) : Prop :=
  ∃ i < T, ∃ j < T, i ≠ j ∧ ∃ l b, (c.threads i).next = some (true, l) ∧ (c.threads j).next = some (b, l)

/-- All threads are at the end of their iterations. -/
def Finished (T : ℕ) (c : Config L) : Prop := ∀ i < T, c.threads i = .leaf (.ok ())

/-- A thread has ended in another way. -/
def Broken (T : ℕ) (c : Config L) : Prop := ∃ i < T, ∃ o, c.threads i = .leaf o ∧ o ≠ .ok ()

/-- The beginning of a parallel loop; `its i` are the iterations of thread `i`. -/
def fork (body : ℕ → Prog L Unit) (its : ℕ → List ℕ) (m : Mem L) : Config L := ⟨m, fun i => Prog.sequence body (its i)⟩

end Verif.Par
