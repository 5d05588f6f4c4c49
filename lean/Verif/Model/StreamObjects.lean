import Verif.Model.Outcome
import Mathlib.Data.List.Basic
import Mathlib.Logic.Function.Basic

/-!
# Data streams as C++ objects

`DataStream` (OpenANN/io/DataStream.h, src/DataStream.cpp) has a destructor but no copy constructor and no assignment operator, so that copies are
made member by member, also in `DataStream stream = DataStream(n).setLearner(net).setOptimizer(optimizer)` (benchmarks/mnist/mnist.cpp lines
84-85), where `setOptimizer` returns a reference to the temporary object.

Streams, learners and optimisers have numbers as names; names of streams are not used again.  The caches are data sets on the heap (addresses are not
used again) that point to the matrices of the stream that has created them (src/DirectStorageDataSet.cpp lines 8-19).

Simplifications: a sample is one value instead of a pair of vectors; sizes of vectors and unsupervised streams are left to `Model/DataStream.lean`.
A learner has only the pointer to its training set (src/Learner.cpp lines 21-37, which deletes only data sets that the learner has created).
-/

namespace Verif.StreamObjects

open Outcome

/-- Life of a named object. -/
inductive Slot (α : Type) where
  | unborn
  | live (a : α)
  | dead

/-- OpenANN/io/DataStream.h lines 27-31; `X` also stands for `T`; a row that was never written is `none`. -/
structure Stream (V : Type) where
  cacheSize : ℕ
  collected : ℕ
  X : List (Option V)
  cache : Option ℕ
  opt : Option ℕ
  learner : Option ℕ

/-- What can be observed: the rows that an optimiser sees in a step and that a learner sees in `error()`. -/
inductive Event (V : Type) where
  | step (optimizer learner : ℕ) (rows : List (Option V))
  | error (learner : ℕ) (rows : List (Option V))

/-- * `streams` - the stream objects
* `caches a` - the stream whose matrices the data set at address `a` shows, and their number of rows when the data set was created; `none` if there is
  no such data set (any more)
* `trainSet l` - `trainSet` of learner `l`
* `optimizable o` - `opt` of optimiser `o` -/
structure Heap (V : Type) where
  streams : ℕ → Slot (Stream V) := fun _ => .unborn
  caches : ℕ → Option (ℕ × ℕ) := fun _ => none
  next : ℕ := 0
  trainSet : ℕ → Option ℕ := fun _ => none
  optimizable : ℕ → Option ℕ := fun _ => none
  events : List (Event V) := []

/-- Statements of a program. -/
inductive Cmd (V : Type) where
  /-- `DataStream s(c)` -/
  | create (s c : ℕ)
  /-- `DataStream s' = s` -/
  | copy (s s' : ℕ)
  /-- `s' = s` -/
  | assign (s s' : ℕ)
  | setLearner (s l : ℕ)
  | setOptimizer (s o : ℕ)
  | addSample (s : ℕ) (x : V)
  /-- the end of the life of a stream -/
  | destroy (s : ℕ)
  /-- `error()` of a learner -/
  | error (l : ℕ)

variable {V : Type}

def Heap.put (m : Heap V) (s : ℕ) (st : Slot (Stream V)) : Heap V := { m with streams := Function.update m.streams s st }

/-- The rows of the training set of learner `l`: src/DirectStorageDataSet.cpp lines 21-34, for the indices up to `N` that src/Learner.cpp
line 36 has stored.  A learner without training set has `N = 0`.  A data set that was deleted, or whose matrices do not exist any more or have become too
small, must not be used. -/
def Heap.rows (m : Heap V) (l : ℕ) : Outcome (List (Option V)) :=
  match m.trainSet l with
  | none => ok []
  | some a =>
    match m.caches a with
    | none => ub
    | some (s, n) =>
      match m.streams s with
      | .live st => if n ≤ st.X.length then ok (st.X.take n) else ub
      | _ => ub

/-- `M.conservativeResize(n, ...)`: the new rows have arbitrary contents. -/
def resize (n : ℕ) (X : List (Option V)) : List (Option V) := X.take n ++ List.replicate (n - X.length) none

/-- src/DataStream.cpp lines 54-71: `initialize` -/
def Heap.initStream (m : Heap V) (s l o : ℕ) (st : Stream V) : Heap V × Stream V :=
  ({ m with
      caches := Function.update m.caches m.next (some (s, st.cacheSize))
      next := m.next + 1
      trainSet := Function.update m.trainSet l (some m.next)
      optimizable := Function.update m.optimizable o (some l) },
    { st with X := resize st.cacheSize st.X, cache := some m.next })

/-- `opt->step()`: an optimiser without optimizable fails a check, e.g. src/MBSGD.cpp line 82. -/
def Heap.step (m : Heap V) (o : ℕ) : Outcome (Heap V) :=
  match m.optimizable o with
  | none => checkFailed
  | some l => m.rows l >>= fun rows => ok { m with events := m.events ++ [.step o l rows] }

/-- src/DataStream.cpp lines 37-52 -/
def Heap.addSample (m : Heap V) (s : ℕ) (st : Stream V) (x : V) : Outcome (Heap V) :=
  match st.learner, st.opt with
  | some l, some o =>
    let (m, st) := if st.cache = none then m.initStream s l o st else (m, st)
    if st.collected < st.X.length then
      let st := { st with X := st.X.set st.collected (some x), collected := st.collected + 1 }
      if st.cacheSize ≤ st.collected then
        (m.put s (.live st)).step o >>= fun m => ok (m.put s (.live { st with collected := 0 }))
      else ok (m.put s (.live st))
    else ub
  | _, _ => checkFailed

/-- One statement; a name that is not in scope (or taken) does not compile and is no program, the model says `throws`. -/
def Heap.exec (m : Heap V) : Cmd V → Outcome (Heap V)
  | .create s c =>
    -- src/DataStream.cpp lines 12-15
    match m.streams s with
    | .unborn => ok (m.put s (.live ⟨c, 0, [], none, none, none⟩))
    | _ => throws
  | .copy s s' =>
    -- the implicit copy constructor
    match m.streams s, m.streams s' with
    | .live st, .unborn => ok (m.put s' (.live st))
    | _, _ => throws
  | .assign s s' =>
    -- the implicit assignment operator
    match m.streams s, m.streams s' with
    | .live st, .live _ => ok (m.put s' (.live st))
    | _, _ => throws
  | .setLearner s l =>
    -- src/DataStream.cpp lines 23-27
    match m.streams s with
    | .live st => ok (m.put s (.live { st with learner := some l }))
    | _ => throws
  | .setOptimizer s o =>
    -- src/DataStream.cpp lines 29-35
    match m.streams s with
    | .live st => ok (m.put s (.live { st with opt := some o }))
    | _ => throws
  | .addSample s x =>
    match m.streams s with
    | .live st => m.addSample s st x
    | _ => throws
  | .destroy s =>
    -- src/DataStream.cpp lines 17-21
    match m.streams s with
    | .live st =>
      match st.cache with
      | none => ok (m.put s .dead)
      | some a =>
        match m.caches a with
        | none => ub
        | some _ => ok { m.put s .dead with caches := Function.update m.caches a none }
    | _ => throws
  | .error l => m.rows l >>= fun rows => ok { m with events := m.events ++ [.error l rows] }

/-- A program. -/
def Heap.run (m : Heap V) (prog : List (Cmd V)) : Outcome (Heap V) := prog.foldlM Heap.exec m

end Verif.StreamObjects
