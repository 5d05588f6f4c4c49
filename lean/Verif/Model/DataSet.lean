import Verif.Model.Outcome
import Mathlib.Data.Rat.Floor
import Mathlib.Data.List.Basic

/-!
# Data sets and data set views

Models `src/DirectStorageDataSet.cpp`, `src/DataSetView.cpp`, and the access functions of
`src/WeightedDataSet.cpp`.

All data sets live in a store; a C++ pointer or reference to a data set is a position in
the store.  An object may only refer to objects that were created before it (smaller
position), which is what the constructors of the C++ classes enforce (they take a reference to
an existing data set).  Destruction of data sets is not modelled here, so no reference dangles.
The element types `X` (input vectors) and `T` (targets) are arbitrary.
-/

namespace Verif.Data

open Outcome

variable {X T : Type}

/-- A data set object.
* `direct`   - `DirectStorageDataSet` (OpenANN/io/DirectStorageDataSet.h:24-51): the rows of `in`
               and, if `out` is not null, the rows of `out`.
* `view`     - `DataSetView` (OpenANN/io/DataSetView.h:25-107): pointer `dataset` and `indices`.
* `weighted` - `WeightedDataSet` (OpenANN/io/WeightedDataSet.h:18-41): reference `dataSet` and
               `originalIndices`. -/
inductive Obj (X T : Type) where
  | direct (ins : List X) (outs : Option (List T))
  | view (dataset : ℕ) (indices : List ℤ)
  | weighted (dataset : ℕ) (originalIndices : List ℤ)
  deriving DecidableEq

/-- All data set objects of the program; the position is the address. -/
abbrev Store (X T : Type) := List (Obj X T)

/-- `samples()`: OpenANN/io/DirectStorageDataSet.h:45 (with `N(in->rows())`,
src/DirectStorageDataSet.cpp:12), src/DataSetView.cpp:23-26, src/WeightedDataSet.cpp:20-23.
The value for an address without object and for a reference to a younger object is irrelevant:
neither exists in C++. -/
def samples (s : Store X T) (a : ℕ) : ℕ :=
  match s[a]? with
  | some (.direct ins _) => ins.length
  | some (.view _ indices) => indices.length
  | some (.weighted b _) => if b < a then samples s b else 0
  | none => 0
termination_by a

/-- `getInstance(i)`: src/DirectStorageDataSet.cpp:20-25, src/DataSetView.cpp:38-42,
src/WeightedDataSet.cpp:35-38.  The shared temporary vector is modelled separately in
`Verif.Model.DirectStorage`. -/
def getInstance (s : Store X T) (a : ℕ) (i : ℤ) : Outcome X :=
  match s[a]? with
  | some (.direct ins _) => do
      check (0 ≤ i ∧ i ≤ (ins.length : ℤ) - 1)
      readZ ins i
  | some (.view b indices) =>
      if b < a then do
        check (0 ≤ i ∧ i ≤ (indices.length : ℤ) - 1)
        let j ← readZ indices i
        getInstance s b j
      else ub
  | some (.weighted b orig) =>
      if b < a then do
        let j ← readZ orig i
        getInstance s b j
      else ub
  | none => ub
termination_by a

/-- `getTarget(i)`: src/DirectStorageDataSet.cpp:27-33, src/DataSetView.cpp:44-48,
src/WeightedDataSet.cpp:40-43. -/
def getTarget (s : Store X T) (a : ℕ) (i : ℤ) : Outcome T :=
  match s[a]? with
  | some (.direct _ none) => checkFailed
  | some (.direct _ (some outs)) => do
      check (0 ≤ i ∧ i ≤ (outs.length : ℤ) - 1)
      readZ outs i
  | some (.view b indices) =>
      if b < a then do
        check (0 ≤ i ∧ i ≤ (indices.length : ℤ) - 1)
        let j ← readZ indices i
        getTarget s b j
      else ub
  | some (.weighted b orig) =>
      if b < a then do
        let j ← readZ orig i
        getTarget s b j
      else ub
  | none => ub
termination_by a

/-- `for(int i = 0; i < n; ++i) indices.push_back(i);` (src/DataSetView.cpp:70-71, 99-100 and
OpenANN/util/Random.h:107-108). -/
def iota (n : ℕ) : List ℤ := (List.range n).map (fun i : ℕ => (i : ℤ))

/-- `DataSetView(const DataSet&)`: an empty view (OpenANN/io/DataSetView.h:40). -/
def newView (s : Store X T) (a : ℕ) : Store X T × ℕ := (s ++ [.view a []], s.length)

/-- `split` into `numberOfGroups` groups (src/DataSetView.cpp:61-88).

`σ` is the effect of `std::shuffle` on a vector.  `groups` is the vector passed by reference; the new views
are appended to it.  `samplesPerGroup` is computed as in line 73: an integer division whose
result is converted to `double`, increased by 0.5 and rounded down. -/
def split (σ : List ℤ → List ℤ) (s : Store X T) (groups : List ℕ) (a : ℕ)
    (numberOfGroups : ℤ) (shuffling : Bool) : Outcome (Store X T × List ℕ) := do
  check (numberOfGroups > 1)
  let n := samples s a
  let samplesPerGroup : ℤ := ⌊((Int.tdiv n numberOfGroups : ℤ) : ℚ) + 1 / 2⌋
  let indices := if shuffling then σ (iota n) else iota n
  (List.range numberOfGroups.toNat).foldlM (fun (acc : Store X T × List ℕ) (i : ℕ) => do
      let it : ℤ := i * samplesPerGroup
      let part ← (if (i : ℤ) < numberOfGroups - 1 then slice indices it (it + samplesPerGroup)
        else slice indices it indices.length)
      ok (acc.1 ++ [.view a part], acc.2 ++ [acc.1.length])) (s, groups)

/-- `split` by a ratio (src/DataSetView.cpp:90-110); `K` is the number type that replaces `double`. -/
def splitRatio {K : Type} [Field K] [LinearOrder K] [FloorRing K]
    (σ : List ℤ → List ℤ) (s : Store X T) (groups : List ℕ) (a : ℕ)
    (ratio : K) (shuffling : Bool) : Outcome (Store X T × List ℕ) := do
  check (0 ≤ ratio ∧ ratio ≤ 1)
  let n := samples s a
  let m : ℤ := ⌈ratio * (n : K)⌉
  let indices := if shuffling then σ (iota n) else iota n
  let first ← slice indices 0 m
  let second ← slice indices m indices.length
  ok (s ++ [.view a first, .view a second], groups ++ [s.length, s.length + 1])

/-- `merge` (src/DataSetView.cpp:112-123): `merging` and `groups` are addresses of views.  The
check compares the `dataset` pointers.  Copying a vector to the end of itself invalidates the iterators that
are read from: undefined behaviour. -/
def merge (s : Store X T) (merging : ℕ) (groups : List ℕ) : Outcome (Store X T) := do
  check (groups ≠ [])
  groups.foldlM (fun (s : Store X T) (g : ℕ) =>
    if g = merging then ub else
    match s[merging]?, s[g]? with
    | some (.view b idx), some (.view b' idx') => do
        check (b = b')
        ok (s.set merging (.view b (idx ++ idx')))
    | _, _ => ub) s

/-- `DataSetView::shuffle` (src/DataSetView.cpp:55-59). -/
def shuffle (σ : List ℤ → List ℤ) (s : Store X T) (v : ℕ) : Outcome (Store X T) :=
  match s[v]? with
  | some (.view b idx) => ok (s.set v (.view b (σ idx)))
  | _ => ub

end Verif.Data
