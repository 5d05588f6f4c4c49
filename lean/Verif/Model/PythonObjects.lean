import Verif.Model.Outcome
import Mathlib.Logic.Function.Basic
import Mathlib.Data.List.Basic

/-!
# Lifetime of the objects of the Python interface (python/*.pxi)

A Python object of the interface owns one C++ object, which is deleted when the last reference to the Python object is gone
(`__dealloc__`).  The C++ objects refer to each other by pointers; the Python objects do not keep the objects alive that they were given.
Python objects have numbers, which are never used again; `drop k` is the moment when object `k` is no longer referenced.

Results of a statement: `ok`; `throws` - a Python exception, which the program may handle; `checkFailed` - the interpreter ends, because a check
of the library fails or because a C++ exception is not caught (no function in python/cbindings.pxd is declared with `except +`);
`ub` - undefined behaviour.

Simplifications: objects that only contain numbers are left out (transformers, `Log`, `RandomNumberGenerator`); `AdaBoost` and `Bagging`
are left out because their C++ functions are undefined whenever they are called (C56, C57).  Only the lifetime is
modelled, hence every optimisation uses the learner, its layers and its training set and nothing is said about numbers and sizes.
-/

namespace Verif.PyObj

/-- What `Learner::trainSet` points to: nothing, the storage of a data set, the cache of a stream, or an object that does not exist any
more. -/
inductive Ref where
  | null
  | dataSet (k : ℕ)
  | cache (s : ℕ)
  | gone

inductive Kind where
  | net | rbm | sparseAutoEncoder
  deriving DecidableEq

/-- Objects of the interface.
* `dataSet storage`: python/dataset.pxi lines 1-27; `storage` is false for `DataSet()`, where the pointer is null
* `learner kind train dims added`: `Net`, `RBM`, `SparseAutoEncoder` (python/net.pxi); of a network, `dims` are the numbers of
  dimensions of `infos` and `added` are the layers that were added with `add_layer`
* `optimizer optimizable`: python/optimization.pxi lines 38-57
* `stream size collected learner opt cache`: python/dataset.pxi lines 72-98
* `layer net`: python/layer.pxi; `some n`: an object that `get_layer` of network `n` returned; `none`: a `SigmaPiLayer`, whose C++ layer has
  the same number -/
inductive Obj where
  | dataSet (storage : Bool)
  | learner (kind : Kind) (train : Ref) (dims : List ℕ) (added : List ℕ)
  | optimizer (optimizable : Option ℕ)
  | stream (size collected : ℕ) (learner opt : Option ℕ) (cache : Bool)
  | layer (net : Option ℕ)

/-- The living objects, the next number, and the sigma-pi layers that have been deleted by a network. -/
structure State where
  objs : ℕ → Option Obj
  next : ℕ
  freed : ℕ → Bool

def start : State := ⟨fun _ => none, 0, fun _ => false⟩

/-- Statements of a Python program. -/
inductive Op where
  /-- `DataSet(X, T)` or `DataSet()` -/
  | dataSet (input : Bool)
  /-- `Net().input_layer(...)` -/
  | net
  | rbm
  | sparseAutoEncoder
  | optimizer
  | stream (size : ℕ)
  /-- a further layer whose output has `d` dimensions -/
  | hiddenLayer (n d : ℕ)
  /-- `SigmaPiLayer(net, ...)` -/
  | sigmaPi (n : ℕ)
  | getLayer (n l : ℕ)
  | addLayer (n k : ℕ)
  | getOutput (k : ℕ)
  | drop (k : ℕ)
  | setLearner (s l : ℕ)
  | setOptimizer (s o : ℕ)
  | addSample (s : ℕ)
  | optimize (o l d : ℕ)
  | predict (l : ℕ)
  | evaluate (l d : ℕ)
  | crossValidation (l d o : ℕ)
  | reconstructProb (l : ℕ)
  /-- `net.load(file)`; does the file exist? -/
  | load (n : ℕ) (file : Bool)

namespace State

/-- A new object. -/
def add (s : State) (x : Obj) : State := { s with objs := Function.update s.objs s.next (some x), next := s.next + 1 }

def set (s : State) (k : ℕ) (x : Obj) : State := { s with objs := Function.update s.objs k (some x) }

/-- Does the object that the pointer points to exist? -/
def valid (s : State) : Ref → Bool
  | .null => false
  | .dataSet k => match s.objs k with | some (.dataSet true) => true | _ => false
  | .cache k => match s.objs k with | some (.stream _ _ _ _ true) => true | _ => false
  | .gone => false

/-- The layers of a learner are used, e.g. src/Net.cpp lines 463-475. -/
def forward (s : State) (added : List ℕ) : Outcome Unit := if added.any s.freed then .ub else .ok ()

/-- The training set of a learner is used: src/RBM.cpp lines 58-61 and 80-109; a network without training set has no examples, which
every optimiser rejects (src/MBSGD.cpp line 86, e.g.); the sparse autoencoder has a copy of its own (src/SparseAutoEncoder.cpp line 122). -/
def training (s : State) (kind : Kind) (train : Ref) : Outcome Unit :=
  match kind, train with
  | .sparseAutoEncoder, _ => .ok ()
  | .net, .null => .checkFailed
  | _, r => if s.valid r then .ok () else .ub

/-- An optimisation step with learner `l`. -/
def learn (s : State) (l : ℕ) : Outcome Unit :=
  match s.objs l with
  | some (.learner kind train _ added) => s.forward added >>= fun _ => s.training kind train
  | _ => .ub

/-- `opt->step()`: all optimisers check their optimizable (src/MBSGD.cpp line 82, src/CG.cpp, src/LBFGS.cpp line 30, src/LMA.cpp). -/
def stepOptimizer (s : State) (o : ℕ) : Outcome Unit :=
  match s.objs o with
  | some (.optimizer (some l)) => s.learn l
  | some (.optimizer none) => .checkFailed
  | _ => .ub

/-- `learner->trainingSet(...)`, src/Learner.cpp lines 32-40; the training sets of the interface are never owned by the learner. -/
def give (kind : Kind) (train r : Ref) : Ref := if kind = .sparseAutoEncoder then train else r

/-- src/DataStream.cpp lines 54-71 -/
def initStream (s : State) (k l o : ℕ) (size collected : ℕ) : Outcome State :=
  match s.objs l, s.objs o with
  | some (.learner kind train dims added), some (.optimizer _) =>
    .ok (((s.set k (.stream size collected (some l) (some o) true)).set l (.learner kind (give kind train (.cache k)) dims added)).set o
      (.optimizer (some l)))
  | _, _ => .ub

/-- src/DataStream.cpp lines 45-51 -/
def store (s : State) (k l o : ℕ) (size collected : ℕ) : Outcome State :=
  if size ≤ collected + 1 then
    s.stepOptimizer o >>= fun _ => .ok (s.set k (.stream size 0 (some l) (some o) true))
  else .ok (s.set k (.stream size (collected + 1) (some l) (some o) true))

/-- `delete` of every added layer, src/Net.cpp lines 31-39 -/
def freeLayers (freed : ℕ → Bool) : List ℕ → Outcome (ℕ → Bool)
  | [] => .ok freed
  | c :: l => if freed c then .ub else freeLayers (Function.update freed c true) l

end State

open State

/-- One statement.  Objects that do not exist (any more) cannot be named and objects of a wrong type are rejected (`<Net?>`). -/
def step (s : State) : Op → Outcome State
  | .dataSet input => .ok (s.add (.dataSet input))                                    -- python/dataset.pxi 7-19
  | .net => .ok (s.add (.learner .net .null [3] []))                                  -- python/net.pxi 23-36, src/Input.cpp 14-21
  | .rbm => .ok (s.add (.learner .rbm .null [] []))                                   -- python/net.pxi 185-195
  | .sparseAutoEncoder => .ok (s.add (.learner .sparseAutoEncoder .null [] []))       -- python/net.pxi 237-242
  | .optimizer => .ok (s.add (.optimizer none))                                       -- python/optimization.pxi 59-103
  | .stream size => .ok (s.add (.stream size 0 none none false))                      -- python/dataset.pxi 76-80
  | .hiddenLayer n d =>
    match s.objs n with
    | some (.learner .net train dims added) => .ok (s.set n (.learner .net train (dims ++ [d]) added))
    | _ => .throws
  | .sigmaPi n =>                                                                     -- python/layer.pxi 34-45
    match s.objs n with
    | some (.learner .net _ dims _) => if dims.getLast? = some 3 then .ok (s.add (.layer none)) else .ub
    | _ => .throws
  | .getLayer n l =>                                                                  -- python/net.pxi 147-152, src/Net.cpp 190-194
    match s.objs n with
    | some (.learner .net _ dims _) => if l < dims.length then .ok (s.add (.layer (some n))) else .checkFailed
    | _ => .throws
  | .addLayer n k =>                                                                  -- python/net.pxi 112-118, src/Net.cpp 144-153
    match s.objs n, s.objs k with
    | some (.learner .net train dims added), some (.layer none) =>
      if s.freed k then .ub else .ok (s.set n (.learner .net train (dims ++ [1]) (added ++ [k])))
    | some (.learner .net _ _ _), some (.layer (some _)) => .checkFailed
    | _, _ => .throws
  | .getOutput k =>                                                                   -- python/layer.pxi 12-15
    match s.objs k with
    | some (.layer (some n)) => match s.objs n with | some _ => .ok s | none => .ub
    | some (.layer none) => if s.freed k then .ub else .ok s
    | _ => .throws
  | .drop k =>                                                                        -- `__dealloc__`
    match s.objs k with
    | some (.learner _ _ _ added) =>
      freeLayers s.freed added >>= fun freed => .ok { s with objs := Function.update s.objs k none, freed }
    | some _ => .ok { s with objs := Function.update s.objs k none }
    | none => .throws
  | .setLearner k l =>                                                                -- python/dataset.pxi 82-84
    match s.objs k, s.objs l with
    | some (.stream size collected _ opt cache), some (.learner _ _ _ _) => .ok (s.set k (.stream size collected (some l) opt cache))
    | _, _ => .throws
  | .setOptimizer k o =>                                                              -- python/dataset.pxi 86-88
    match s.objs k, s.objs o with
    | some (.stream size collected learner _ cache), some (.optimizer _) => .ok (s.set k (.stream size collected learner (some o) cache))
    | _, _ => .throws
  | .addSample k =>                                                                   -- python/dataset.pxi 90-98, src/DataStream.cpp 37-52
    match s.objs k with
    | some (.stream size collected (some l) (some o) cache) =>
      (if cache then .ok s else s.initStream k l o size collected) >>= fun s => s.store k l o size collected
    | some (.stream _ _ _ _ _) => .checkFailed
    | _ => .throws
  | .optimize o l d =>                                                                -- python/optimization.pxi 52-57
    match s.objs o, s.objs l, s.objs d with
    | some (.optimizer _), some (.learner kind train dims added), some (.dataSet storage) =>
      if storage then
        let s := (s.set l (.learner kind (give kind train (.dataSet d)) dims added)).set o (.optimizer (some l))
        s.learn l >>= fun _ => .ok s
      else .ub
    | _, _, _ => .throws
  | .predict l =>                                                                     -- python/net.pxi 135-141
    match s.objs l with
    | some (.learner _ _ _ added) => s.forward added >>= fun _ => .ok s
    | _ => .throws
  | .evaluate l d =>                                                                  -- python/evaluation.pxi 1-37
    match s.objs l, s.objs d with
    | some (.learner .net _ _ added), some (.dataSet storage) =>
      if storage then s.forward added >>= fun _ => .ok s else .ub
    | _, _ => .throws
  | .crossValidation l d o =>                                                         -- python/evaluation.pxi 39-44, src/Evaluation.cpp 122-176
    match s.objs l, s.objs d, s.objs o with
    | some (.learner .net _ dims added), some (.dataSet storage), some (.optimizer _) =>
      if storage then
        s.forward added >>= fun _ => .ok ((s.set l (.learner .net .gone dims added)).set o (.optimizer (some l)))
      else .ub
    | _, _, _ => .throws
  | .reconstructProb l =>                                                             -- python/net.pxi 222-224, src/RBM.cpp 222-232
    match s.objs l with
    | some (.learner .rbm train _ _) => if s.valid train then .ok s else .ub
    | _ => .throws
  | .load n file =>                                                                   -- python/net.pxi 176-178, src/Net.cpp 236-243
    match s.objs n with
    | some (.learner .net _ _ _) => if file then .ok s else .checkFailed
    | _ => .throws

/-- A program; exceptions are handled and the program goes on. -/
def run (s : State) : List Op → Outcome State
  | [] => .ok s
  | op :: ops =>
    match step s op with
    | .ok s => run s ops
    | .throws => run s ops
    | .checkFailed => .checkFailed
    | .ub => .ub

end Verif.PyObj
