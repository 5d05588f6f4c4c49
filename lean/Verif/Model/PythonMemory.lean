import Verif.Model.Outcome
import Verif.Model.PythonArrays

/-!
# Memory of the Python interface (python/*.pxi)

Every function of the interface that takes an array copies it into a new Eigen object, and every Python object owns C++ objects.
The heap is a list of blocks; `del` of a block that does not exist (any more) is undefined behaviour.  A statement that raises an
exception may have allocated memory before; the program can handle the exception and go on.  Python objects have numbers; `drop k` is the
moment when object `k` is no longer referenced.

Simplifications: an object of a C++ class is one block, except for what it allocates with `new`; the size of a matrix that is read from a
file is its final one; checks of the library that end the interpreter are left out (they end the program).
-/

namespace Verif.PyMem

open PyArr (Compiler)

/-- What is allocated: an Eigen object with this many numbers, or an object of another class. -/
inductive Block where
  | array (numbers : ℕ)
  | object
  deriving DecidableEq

/-- A pointer to a block; no two blocks have the same number. -/
abbrev Ptr := ℕ × Block

structure Heap where
  next : ℕ
  live : List Ptr

/-- `new` -/
def Heap.new (h : Heap) (b : Block) : Ptr × Heap := ((h.next, b), ⟨h.next + 1, (h.next, b) :: h.live⟩)

/-- `del p`; the null pointer is allowed. -/
def Heap.del (h : Heap) : Option Ptr → Outcome Heap
  | none => .ok h
  | some p => if p ∈ h.live then .ok ⟨h.next, h.live.erase p⟩ else .ub

/-- Deleting one after the other. -/
def Heap.delAll (h : Heap) : List (Option Ptr) → Outcome Heap
  | [] => .ok h
  | p :: ps => h.del p >>= fun h => h.delAll ps

/-- An array argument: with as many numbers; with a wrong number of dimensions; with an entry that is no number. -/
inductive Arg where
  | array (numbers : ℕ)
  | shape
  | entry (numbers : ℕ)

/-- The result of a conversion: a pointer, which may be null, or an exception. -/
inductive Converted where
  | pointer (p : Option Ptr)
  | exception

/-- An exception in a C function without `except` (see `Model/PythonArrays.lean`). -/
def excepted : Compiler → Converted
  | .ignores => .pointer none
  | .raises => .exception

/-- python/util.pxi lines 1-11 and 23-36: the assertion comes before `new`, the entries are copied behind it. -/
def convert (k : Compiler) (h : Heap) : Arg → Converted × Heap
  | .array n => (.pointer (some (h.new (.array n)).1), (h.new (.array n)).2)
  | .shape => (excepted k, h)
  | .entry n => (excepted k, (h.new (.array n)).2)

/-- Objects of the interface with the pointers that they have.
* `dataSet`: python/dataset.pxi lines 1-27
* `net thisptr layers`: python/net.pxi lines 19-28; `layers` belong to the C++ object (OpenANN/Net.h line 38)
* `owner init thisptr more`: the other classes with `__dealloc__`; `init`: the object is created in `__init__`; `more` is what belongs to the
  C++ object (`rng` of an RBM, src/RBM.cpp line 13) or to an own Python object (the stopping criteria of an optimiser)
* `stream thisptr cache`: python/dataset.pxi lines 72-80, OpenANN/io/DataStream.h
* `kMeans`: python/preprocessing.pxi lines 73-103
* `sigmaPi layer distance slope triangle`: python/layer.pxi lines 23-53 -/
inductive Obj where
  | dataSet (input output storage : Option Ptr)
  | net (thisptr : Ptr) (layers : List Ptr)
  | owner (init : Bool) (thisptr more : Option Ptr)
  | stream (thisptr : Ptr) (cache : Option Ptr)
  | kMeans (thisptr : Ptr)
  | sigmaPi (layer : Ptr) (distance slope triangle : Option Ptr)

/-- What `__dealloc__` (and the destructors that it calls) deletes. -/
def Obj.deleted : Obj → List (Option Ptr)
  | .dataSet input output storage => [storage, input, output]                   -- python/dataset.pxi 21-27
  | .net thisptr layers => layers.map some ++ [some thisptr]                    -- python/net.pxi 27-28, src/Net.cpp 31-39
  | .owner _ thisptr more => [more, thisptr]                                    -- e.g. python/preprocessing.pxi 8-9, src/RBM.cpp 24-27
  | .stream thisptr cache => [cache, some thisptr]                              -- python/dataset.pxi 79-80, src/DataStream.cpp 17-21
  | .kMeans _ => []                                                             -- no `__dealloc__`
  | .sigmaPi _ distance slope triangle => [distance, slope, triangle]           -- python/layer.pxi 47-53

/-- The heap and the objects; `none`: the object is gone. -/
structure State where
  heap : Heap
  objs : List (Option Obj)

def start : State := ⟨⟨0, []⟩, []⟩

/-- Statements of a Python program. -/
inductive Op where
  /-- `DataSet(input, output)` -/
  | dataSet (input output : Option Arg)
  /-- `load_from_libsvm` with the numbers of values of instances and targets -/
  | loadLibsvm (inputs outputs : ℕ)
  | net
  /-- a function of `Net` that creates a layer -/
  | layer (n : ℕ)
  /-- `Normalization()`, `PCA(...)`, `ZCAWhitening()`, `Compressor(...)`, `SparseAutoEncoder(...)` -/
  | initOwner
  /-- `AdaBoost()`, `Bagging(...)`, `RandomNumberGenerator()`, `StoppingCriteria(...)` -/
  | owner
  /-- `RBM(...)`; are the arguments numbers? -/
  | rbm (valid : Bool)
  /-- `MBSGD(...)`, `CG(...)`, `LBFGS(...)`, `LMA(...)`; are the stopping criteria numbers? -/
  | optimizer (valid : Bool)
  | stream
  | kMeans
  /-- `obj.__init__(...)` once more -/
  | init (k : ℕ)
  | sigmaPi (n : ℕ)
  /-- `distance_2nd_order_nodes`, `slope_2nd_order_nodes`, `triangle_3rd_order_nodes` -/
  | distance (k : ℕ)
  | slope (k : ℕ)
  | triangle (k : ℕ)
  | addLayer (n k : ℕ)
  /-- `predict` -/
  | predict (k : ℕ) (x : Arg)
  /-- `fit`, `fit_partial`, `transform`, `set_parameters`, `reconstruct`, `sample_random_patches` -/
  | use (k : ℕ) (x : Arg)
  | addSample (k : ℕ) (x : Arg) (y : Option Arg)
  | drop (k : ℕ)

namespace State

/-- A new Python object. -/
def add (s : State) (h : Heap) (o : Obj) : State × Bool := (⟨h, s.objs ++ [some o]⟩, false)

/-- An object has changed. -/
def set (s : State) (k : ℕ) (h : Heap) (o : Obj) : State × Bool := (⟨h, s.objs.set k (some o)⟩, false)

/-- Object `k`, if it exists. -/
def get (s : State) (k : ℕ) : Option Obj := s.objs[k]?.join

/-- An exception; the objects are as before. -/
def raise (s : State) (h : Heap) : Outcome (State × Bool) := .ok (⟨h, s.objs⟩, true)

end State

open State

/-- python/dataset.pxi lines 7-19: the second conversion and the storage; when it raises an exception, `__dealloc__` is called. -/
def dataSetOutput (k : Compiler) (s : State) (h : Heap) (input : Option Ptr) : Option Arg → Outcome (State × Bool)
  | none =>
    if input.isSome then .ok (s.add (h.new .object).2 (.dataSet input none (some (h.new .object).1)))
    else .ok (s.add h (.dataSet input none none))
  | some y =>
    match convert k h y with
    | (.pointer output, h) =>
      if input.isSome then .ok (s.add (h.new .object).2 (.dataSet input output (some (h.new .object).1)))
      else .ok (s.add h (.dataSet input output none))
    | (.exception, h) => h.delAll [none, input, none] >>= fun h => s.raise h

/-- python/dataset.pxi lines 7-19 -/
def dataSet (k : Compiler) (s : State) (input output : Option Arg) : Outcome (State × Bool) :=
  match input with
  | none => dataSetOutput k s s.heap none output
  | some x =>
    match convert k s.heap x with
    | (.pointer p, h) => dataSetOutput k s h p output
    | (.exception, h) => s.raise h

/-- python/net.pxi lines 185-192: the regularisation is allocated first; its arguments and those of the RBM are converted. -/
def rbm (s : State) (valid : Bool) : Outcome (State × Bool) :=
  let r := s.heap.new .object
  if valid then
    let p := r.2.new .object
    let g := p.2.new .object
    g.2.del (some r.1) >>= fun h => .ok (s.add h (.owner true (some p.1) (some g.1)))
  else s.raise r.2

/-- python/optimization.pxi lines 4-10, 43-47, 61-103: when the stopping criteria raise an exception both objects are deallocated. -/
def optimizer (s : State) (valid : Bool) : Outcome (State × Bool) :=
  let p := s.heap.new .object
  let c := p.2.new .object
  if valid then .ok (s.add c.2 (.owner false (some p.1) (some c.1)))
  else c.2.delAll [some c.1, some p.1] >>= fun h => s.raise h

/-- A pointer that is created when it is needed, python/layer.pxi lines 55-73 -/
def lazy (h : Heap) : Option Ptr → Ptr × Heap
  | some p => (p, h)
  | none => h.new .object

/-- python/dataset.pxi lines 90-98 and src/DataStream.cpp lines 37-71: the rest of `add_sample`, when both arguments are converted. -/
def store (s : State) (k : ℕ) (h : Heap) (thisptr : Ptr) (cache : Option Ptr) (x y : Option Ptr) : Outcome (State × Bool) :=
  match x with
  | none => .ub
  | some x =>
    let c := lazy h cache
    c.2.delAll [some x, y] >>= fun h => .ok (s.set k h (.stream thisptr (some c.1)))

/-- One statement; the flag says whether there was an exception. -/
def step (c : Compiler) (s : State) : Op → Outcome (State × Bool)
  | .dataSet input output => dataSet c s input output
  | .loadLibsvm n m =>                                                            -- python/dataset.pxi 60-69
    let x := s.heap.new (.array n)
    let y := x.2.new (.array m)
    let d := y.2.new .object
    .ok (s.add d.2 (.dataSet (some x.1) (some y.1) (some d.1)))
  | .net => .ok (s.add (s.heap.new .object).2 (.net (s.heap.new .object).1 []))
  | .layer n =>
    match s.get n with
    | some (.net p ls) => .ok (s.set n (s.heap.new .object).2 (.net p (ls ++ [(s.heap.new .object).1])))
    | _ => s.raise s.heap
  | .initOwner => .ok (s.add (s.heap.new .object).2 (.owner true (some (s.heap.new .object).1) none))
  | .owner => .ok (s.add (s.heap.new .object).2 (.owner false (some (s.heap.new .object).1) none))
  | .rbm valid => rbm s valid
  | .optimizer valid => optimizer s valid
  | .stream => .ok (s.add (s.heap.new .object).2 (.stream (s.heap.new .object).1 none))
  | .kMeans => .ok (s.add (s.heap.new .object).2 (.kMeans (s.heap.new .object).1))
  | .init k =>                                                                    -- the pointer is overwritten
    match s.get k with
    | some (.owner true _ none) => .ok (s.set k (s.heap.new .object).2 (.owner true (some (s.heap.new .object).1) none))
    | some (.owner true _ (some _)) =>                                            -- an RBM
      let r := s.heap.new .object
      let p := r.2.new .object
      let g := p.2.new .object
      g.2.del (some r.1) >>= fun h => .ok (s.set k h (.owner true (some p.1) (some g.1)))
    | some (.kMeans _) => .ok (s.set k (s.heap.new .object).2 (.kMeans (s.heap.new .object).1))
    | _ => .ok (s, false)                                                         -- `object.__init__`
  | .sigmaPi n =>                                                                 -- python/layer.pxi 34-45
    match s.get n with
    | some (.net _ _) => .ok (s.add (s.heap.new .object).2 (.sigmaPi (s.heap.new .object).1 none none none))
    | _ => s.raise s.heap
  | .distance k =>
    match s.get k with
    | some (.sigmaPi l d p t) => .ok (s.set k (lazy s.heap d).2 (.sigmaPi l (some (lazy s.heap d).1) p t))
    | _ => s.raise s.heap
  | .slope k =>
    match s.get k with
    | some (.sigmaPi l d p t) => .ok (s.set k (lazy s.heap p).2 (.sigmaPi l d (some (lazy s.heap p).1) t))
    | _ => s.raise s.heap
  | .triangle k =>
    match s.get k with
    | some (.sigmaPi l d p t) => .ok (s.set k (lazy s.heap t).2 (.sigmaPi l d p (some (lazy s.heap t).1)))
    | _ => s.raise s.heap
  | .addLayer n k =>                                                              -- python/net.pxi 112-118, src/Net.cpp 144-153
    match s.get n, s.get k with
    | some (.net p ls), some (.sigmaPi l _ _ _) =>
      if l ∈ s.heap.live then .ok (s.set n s.heap (.net p (ls ++ [l]))) else .ub
    | _, _ => s.raise s.heap
  | .predict k x =>                                                               -- python/net.pxi 135-141, e.g.
    match s.get k with
    | some _ =>
      match convert c s.heap x with
      | (.pointer none, _) => .ub
      | (.pointer (some p), h) => h.del (some p) >>= fun h => .ok (⟨h, s.objs⟩, false)
      | (.exception, h) => s.raise h
    | none => s.raise s.heap
  | .use k x =>                                                                   -- python/preprocessing.pxi 11-19, e.g.
    match s.get k with
    | some _ =>
      match convert c s.heap x with
      | (.pointer none, _) => .ub
      | (.pointer (some _), h) => .ok (⟨h, s.objs⟩, false)
      | (.exception, h) => s.raise h
    | none => s.raise s.heap
  | .addSample k x y =>
    match s.get k with
    | some (.stream p cache) =>
      match convert c s.heap x with
      | (.exception, h) => s.raise h
      | (.pointer x, h) =>
        match y with
        | none => store s k h p cache x none
        | some y =>
          match convert c h y with
          | (.exception, h) => s.raise h
          | (.pointer y, h) => store s k h p cache x y
    | _ => s.raise s.heap
  | .drop k =>
    match s.get k with
    | some o => s.heap.delAll o.deleted >>= fun h => .ok (⟨h, s.objs.set k none⟩, false)
    | none => s.raise s.heap

/-- A program; exceptions are handled. -/
def run (c : Compiler) : List Op → State → Outcome State
  | [], s => .ok s
  | op :: ops, s => step c s op >>= fun r => run c ops r.1

end Verif.PyMem
