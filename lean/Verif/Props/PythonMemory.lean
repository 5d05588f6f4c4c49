import Mathlib.Data.Multiset.Count
import Mathlib.Data.Multiset.MapFold
import Mathlib.Algebra.BigOperators.Group.Multiset.Basic
import Mathlib.Algebra.Order.Group.Multiset
import Mathlib.Tactic.Abel
import Verif.Model.PythonMemory

/-!
# C128  What a Python program gets back of its memory

Specification: `Op.lost` and `Op.regained`, what a statement loses and what comes back, read off the statement, the kind of the object and the
arguments only; `Tidy` programs.

* `step_accounting`: every statement changes the memory that nobody will release by exactly that; it never releases a block twice
  (provided that no sigma-pi layer is added twice).
* `run_accounting`: when all objects are gone, the blocks that are still allocated and the regained ones are the lost ones.
* `tidy_released`: a program that uses only networks, data sets, streams, optimisers, ensembles and valid arguments loses nothing.
* `arrays_stay`: arrays that were lost stay allocated in every continuation.
* False in general: `transform_fails`, `kMeans_fails`, `init_again_fails`, `entry_fails`, `sample_fails`, `sigmaPi_unused_fails`,
  `addLayer_twice_ub`, `addLayer_freed_ub`, `shape_ignored_ub`.
-/

namespace Verif.PyMem

open PyArr (Compiler)

/-! ## Specification -/

/-- A conversion that fails at an entry loses the new array. -/
def Arg.lost : Arg → Multiset Block
  | .array _ => 0
  | .shape => 0
  | .entry n => {.array n}

/-- Is it an array of numbers with the right number of dimensions? -/
def Arg.valid : Arg → Prop
  | .array _ => True
  | _ => False

/-- The blocks of some pointers. -/
def blocks (ps : List (Option Ptr)) : Multiset Block := ((ps.filterMap id).map Prod.snd : List Block)

/-- What is lost by a statement. -/
def Op.lost (c : Compiler) (s : State) : Op → Multiset Block
  | .dataSet none none => 0
  | .dataSet (some x) none => x.lost
  | .dataSet none (some y) => y.lost
  | .dataSet (some (.array _)) (some y) => y.lost
  | .dataSet (some x) (some y) => match c with
    | .raises => x.lost
    | .ignores => x.lost + y.lost
  | .rbm false => {.object}
  | .kMeans => {.object}
  | .init k => match s.get k with
    | some (.owner true p m) => blocks [p, m]
    | some (.kMeans _) => {.object}
    | _ => 0
  | .sigmaPi n => match s.get n with
    | some (.net _ _) => {.object}
    | _ => 0
  | .predict k x => match s.get k with
    | some _ => x.lost
    | none => 0
  | .use k x => match s.get k with
    | some _ => match x with
      | .array n => {.array n}
      | x => x.lost
    | none => 0
  | .addSample k x y => match s.get k with
    | some (.stream _ _) => match x, y, c with
      | .array _, none, _ => 0
      | .array _, some (.array _), _ => 0
      | .array n, some y, .raises => {.array n} + y.lost
      | .array _, some y, .ignores => y.lost
      | x, _, _ => x.lost
    | _ => 0
  | _ => 0

/-- What comes back: a sigma-pi layer belongs to the network when it is added. -/
def Op.regained (s : State) : Op → Multiset Block
  | .addLayer n k => match s.get n, s.get k with
    | some (.net _ _), some (.sigmaPi _ _ _ _) => {.object}
    | _, _ => 0
  | _ => 0

/-- With a compiler that ignores exceptions in C functions the arguments have to be valid. -/
def Op.Fine : Compiler → Op → Prop
  | .raises, _ => True
  | .ignores, .predict _ x => x.valid
  | .ignores, .use _ x => x.valid
  | .ignores, .addSample _ x _ => x.valid
  | .ignores, _ => True

/-- The sigma-pi layers that have been added. -/
def Op.added (A : Set ℕ) : Op → Set ℕ
  | .addLayer _ k => insert k A
  | _ => A

/-- No layer is added twice. -/
def Op.Once (A : Set ℕ) : Op → Prop
  | .addLayer _ k => k ∉ A
  | _ => True

/-- All statements are fine, no layer is added twice. -/
def Careful (c : Compiler) : Set ℕ → List Op → Prop
  | _, [] => True
  | A, op :: ops => op.Fine c ∧ op.Once A ∧ Careful c (op.added A) ops

/-! ## Pointers -/

/-- The pointers that an object deletes. -/
def ptrs (o : Obj) : Multiset Ptr := (o.deleted.filterMap id : List Ptr)

/-- The pointers that living objects delete. -/
def owned (objs : List (Option Obj)) : Multiset Ptr := (objs.map fun o => o.elim 0 ptrs).sum

theorem owned_append (objs : List (Option Obj)) (o : Obj) : owned (objs ++ [some o]) = owned objs + ptrs o := by
  simp [owned]

theorem owned_set {objs : List (Option Obj)} {k : ℕ} {a b : Option Obj} (h : objs[k]? = some a) :
    owned (objs.set k b) + a.elim 0 ptrs = owned objs + b.elim 0 ptrs := by
  induction objs generalizing k with
  | nil => simp at h
  | cons o objs ih =>
    cases k with
    | zero =>
      simp only [List.getElem?_cons_zero, Option.some.injEq] at h
      subst h
      simp only [owned, List.set_cons_zero, List.map_cons, List.sum_cons]
      abel
    | succ k =>
      simp only [List.getElem?_cons_succ] at h
      have := ih h
      simp only [owned, List.set_cons_succ, List.map_cons, List.sum_cons] at this ⊢
      rw [add_assoc, this, add_assoc]

theorem get_eq {s : State} {k : ℕ} {o : Obj} : s.get k = some o ↔ s.objs[k]? = some (some o) := by
  simp [State.get, Option.join_eq_some_iff]

/-- No block twice, and new blocks get new numbers. -/
def Heap.WF (h : Heap) : Prop := h.live.Nodup ∧ ∀ p ∈ h.live, p.1 < h.next

/-- `X` is allocated, `Y` is released. -/
structure Eff (h : Heap) (X : Multiset Ptr) (h' : Heap) (Y : Multiset Ptr) : Prop where
  wf : h'.WF
  next : h.next ≤ h'.next
  live : (h'.live : Multiset Ptr) + Y = (h.live : Multiset Ptr) + X

theorem Eff.refl {h : Heap} (w : h.WF) : Eff h 0 h 0 := ⟨w, le_rfl, rfl⟩

theorem Eff.trans {h h' h'' : Heap} {X Y X' Y' : Multiset Ptr} (e : Eff h X h' Y) (e' : Eff h' X' h'' Y') :
    Eff h (X + X') h'' (Y + Y') := by
  refine ⟨e'.wf, e.next.trans e'.next, ?_⟩
  calc (h''.live : Multiset Ptr) + (Y + Y') = ((h''.live : Multiset Ptr) + Y') + Y := by abel
    _ = ((h'.live : Multiset Ptr) + Y) + X' := by rw [e'.live]; abel
    _ = _ := by rw [e.live, add_assoc]

theorem new_eff {h : Heap} (w : h.WF) (b : Block) : Eff h {(h.new b).1} (h.new b).2 0 := by
  refine ⟨⟨?_, ?_⟩, Nat.le_succ _, ?_⟩
  · refine List.nodup_cons.2 ⟨fun hm => ?_, w.1⟩
    exact absurd (w.2 _ hm) (lt_irrefl _)
  · intro p hp
    rcases List.mem_cons.1 hp with rfl | hp
    · exact Nat.lt_succ_self _
    · exact Nat.lt_succ_of_lt (w.2 _ hp)
  · simp only [Heap.new, add_zero, ← Multiset.cons_coe, ← Multiset.singleton_add]
    abel

theorem del_eff {h : Heap} (w : h.WF) {p : Ptr} (hp : p ∈ h.live) : ∃ h', h.del (some p) = .ok h' ∧ Eff h 0 h' {p} := by
  refine ⟨⟨h.next, h.live.erase p⟩, by simp [Heap.del, hp], ⟨w.1.erase p, fun q hq => w.2 q (List.mem_of_mem_erase hq)⟩, le_rfl, ?_⟩
  have : (h.live : Multiset Ptr) = ((p :: h.live.erase p : List Ptr) : Multiset Ptr) := Multiset.coe_eq_coe.2 (List.perm_cons_erase hp)
  rw [← Multiset.cons_coe, ← Multiset.singleton_add] at this
  simp only [add_zero]
  rw [add_comm]
  exact this.symm

theorem delAll_eff {ps : List (Option Ptr)} : ∀ {h : Heap}, h.WF → ((ps.filterMap id : List Ptr) : Multiset Ptr) ≤ (h.live : Multiset Ptr) →
    ∃ h', h.delAll ps = .ok h' ∧ Eff h 0 h' (ps.filterMap id : List Ptr) := by
  induction ps with
  | nil => intro h w _; exact ⟨h, rfl, Eff.refl w⟩
  | cons q ps ih =>
    intro h w hle
    cases q with
    | none =>
      obtain ⟨h', e, f⟩ := ih w (by simpa using hle)
      exact ⟨h', by simpa [Heap.delAll, Heap.del] using e, by simpa using f⟩
    | some p =>
      have hl : ((some p :: ps).filterMap id : List Ptr) = p :: ps.filterMap id := by simp
      rw [hl, ← Multiset.cons_coe, ← Multiset.singleton_add] at hle
      have hp : p ∈ h.live := by
        have := Multiset.mem_of_le hle (a := p) (by simp)
        simpa using this
      obtain ⟨h1, e1, f1⟩ := del_eff w hp
      have hle' : ((ps.filterMap id : List Ptr) : Multiset Ptr) ≤ (h1.live : Multiset Ptr) := by
        have hh := f1.live
        rw [add_zero] at hh
        rw [← hh, add_comm] at hle
        exact le_of_add_le_add_right hle
      obtain ⟨h2, e2, f2⟩ := ih f1.wf hle'
      refine ⟨h2, by simp [Heap.delAll, e1, e2], ?_⟩
      have := f1.trans f2
      rw [hl, ← Multiset.cons_coe, ← Multiset.singleton_add]
      simpa using this

/-! ## The invariant -/

/-- The sigma-pi layer of an object -/
def layerOf : Obj → Option Ptr
  | .sigmaPi l _ _ _ => some l
  | _ => none

def layer (objs : List (Option Obj)) (k : ℕ) : Option Ptr := objs[k]?.join.bind layerOf

/-- `K`: the blocks that no living object will delete; `A`: the objects whose layers have been added to a network. -/
structure Inv (s : State) (K : Multiset Ptr) (A : Set ℕ) : Prop where
  wf : s.heap.WF
  live : (s.heap.live : Multiset Ptr) = owned s.objs + K
  known : ∀ k l, layer s.objs k = some l → l.1 < s.heap.next ∧ l.2 = .object ∧ (k ∉ A → l ∈ K)
  apart : ∀ k k' l, layer s.objs k = some l → layer s.objs k' = some l → k = k'

theorem inv_start (A : Set ℕ) : Inv start 0 A :=
  ⟨⟨List.nodup_nil, by simp [start]⟩, by simp [start, owned], by simp [layer, start], by simp [layer, start]⟩

theorem layer_append_ne {objs : List (Option Obj)} {o : Obj} {k : ℕ} (h : layerOf o = none) :
    layer (objs ++ [some o]) k = layer objs k := by
  simp only [layer]
  rcases lt_trichotomy k objs.length with hk | hk | hk
  · rw [List.getElem?_append_left hk]
  · subst hk; simp [h]
  · rw [List.getElem?_eq_none (by simp; omega), List.getElem?_eq_none (by omega)]

theorem layer_set_eq {objs : List (Option Obj)} {o o' : Obj} {k : ℕ} (hk : objs[k]? = some (some o)) (h : layerOf o' = layerOf o) (j : ℕ) :
    layer (objs.set k (some o')) j = layer objs j := by
  simp only [layer, List.getElem?_set]
  split
  · rename_i e; subst e
    have : k < objs.length := by
      by_contra hc
      rw [List.getElem?_eq_none (by omega)] at hk
      cases hk
    rw [if_pos this, hk]
    simpa using h
  · rfl

theorem layer_set_none {objs : List (Option Obj)} {k j : ℕ} {l : Ptr} (h : layer (objs.set k none) j = some l) : layer objs j = some l := by
  simp only [layer, List.getElem?_set] at h ⊢
  split at h
  · split at h <;> simp at h
  · exact h

/-- Only the heap changes. -/
theorem Inv.same {s : State} {K K' X Y : Multiset Ptr} {A A' : Set ℕ} {h : Heap} (i : Inv s K A) (e : Eff s.heap X h Y) (hA : A ⊆ A')
    (hK : K ≤ K') (eq : K' + Y = K + X) : Inv ⟨h, s.objs⟩ K' A' := by
  refine ⟨e.wf, ?_, fun k l hl => ?_, i.apart⟩
  · have := e.live
    rw [i.live, add_assoc, ← eq, ← add_assoc] at this
    exact add_right_cancel this
  · obtain ⟨h1, h2, h3⟩ := i.known k l hl
    exact ⟨lt_of_lt_of_le h1 e.next, h2, fun hk => Multiset.mem_of_le hK (h3 fun hc => hk (hA hc))⟩

/-- A new object that is no sigma-pi layer. -/
theorem Inv.add {s : State} {K K' X Y : Multiset Ptr} {A : Set ℕ} {h : Heap} {o : Obj} (i : Inv s K A) (e : Eff s.heap X h Y)
    (ho : layerOf o = none) (hK : K ≤ K') (eq : ptrs o + K' + Y = K + X) : Inv ⟨h, s.objs ++ [some o]⟩ K' A := by
  refine ⟨e.wf, ?_, fun k l hl => ?_, fun k k' l hk hk' => ?_⟩
  · have := e.live
    rw [i.live, add_assoc, ← eq] at this
    rw [owned_append]
    refine add_right_cancel (b := Y) (this.trans ?_)
    abel
  · rw [layer_append_ne ho] at hl
    obtain ⟨h1, h2, h3⟩ := i.known k l hl
    exact ⟨lt_of_lt_of_le h1 e.next, h2, fun hk => Multiset.mem_of_le hK (h3 hk)⟩
  · rw [layer_append_ne ho] at hk hk'
    exact i.apart k k' l hk hk'

/-- An object changes. -/
theorem Inv.set {s : State} {K K' X Y : Multiset Ptr} {A : Set ℕ} {h : Heap} {k : ℕ} {o o' : Obj} (i : Inv s K A) (e : Eff s.heap X h Y)
    (hk : s.get k = some o) (ho : layerOf o' = layerOf o) (hK : K ≤ K') (eq : ptrs o' + K' + Y = ptrs o + K + X) :
    Inv ⟨h, s.objs.set k (some o')⟩ K' A := by
  have hk' := get_eq.1 hk
  refine ⟨e.wf, ?_, fun j l hl => ?_, fun j j' l hj hj' => ?_⟩
  · have h1 := e.live
    have h2 := owned_set (b := some o') hk'
    simp only [Option.elim] at h2
    rw [i.live] at h1
    refine add_right_cancel (b := Y + ptrs o) ?_
    calc (h.live : Multiset Ptr) + (Y + ptrs o) = ((h.live : Multiset Ptr) + Y) + ptrs o := by abel
      _ = owned s.objs + (ptrs o + K + X) := by rw [h1]; abel
      _ = (owned s.objs + ptrs o') + K' + Y := by rw [← eq]; abel
      _ = _ := by rw [← h2]; abel
  · rw [layer_set_eq hk' ho] at hl
    obtain ⟨h1, h2, h3⟩ := i.known j l hl
    exact ⟨lt_of_lt_of_le h1 e.next, h2, fun hk => Multiset.mem_of_le hK (h3 hk)⟩
  · rw [layer_set_eq hk' ho] at hj hj'
    exact i.apart j j' l hj hj'

/-- The blocks that are lost change as the specification says. -/
def Correct (c : Compiler) (s : State) (K : Multiset Ptr) (A : Set ℕ) (op : Op) : Prop :=
  ∃ s' e K', step c s op = .ok (s', e) ∧ Inv s' K' (op.added A) ∧
    K'.map Prod.snd + op.regained s = K.map Prod.snd + op.lost c s

/-- An exception before anything happens. -/
theorem Inv.raise {c : Compiler} {s : State} {K : Multiset Ptr} {A : Set ℕ} {op : Op} (i : Inv s K A)
    (h : step c s op = s.raise s.heap) (hl : op.lost c s = 0) (hr : op.regained s = 0) : Correct c s K A op := by
  refine ⟨_, _, K, h, i.same (Eff.refl i.wf) ?_ le_rfl rfl, by rw [hl, hr]⟩
  cases op <;> simp [Op.added]

/-- A new object with one block -/
theorem Inv.newObject {s : State} {K : Multiset Ptr} {A : Set ℕ} (i : Inv s K A) {o : Obj} (ho : layerOf o = none)
    (hp : ptrs o = {(s.heap.new .object).1}) : Inv ⟨(s.heap.new .object).2, s.objs ++ [some o]⟩ K A :=
  i.add (new_eff i.wf .object) ho le_rfl (by rw [hp]; abel)

/-- The block of a pointer that may be null -/
def opt (p : Option Ptr) : Multiset Ptr := p.elim 0 fun p => {p}

theorem opt_none : opt none = 0 := rfl

theorem opt_some (p : Ptr) : opt (some p) = {p} := rfl

theorem ptrs_dataSet (a b d : Option Ptr) : ptrs (.dataSet a b d) = opt d + opt a + opt b := by
  cases a <;> cases b <;> cases d <;> rfl

theorem filterMap_two (a b : Option Ptr) : ((([a, b] : List (Option Ptr)).filterMap id : List Ptr) : Multiset Ptr) = opt a + opt b := by
  cases a <;> cases b <;> rfl

theorem filterMap_three (a b d : Option Ptr) :
    ((([a, b, d] : List (Option Ptr)).filterMap id : List Ptr) : Multiset Ptr) = opt a + opt b + opt d := by
  cases a <;> cases b <;> cases d <;> rfl

theorem convert_bad (c : Compiler) {h : Heap} (w : h.WF) {x : Arg} (hx : ¬ x.valid) :
    ∃ h' X, convert c h x = (excepted c, h') ∧ Eff h X h' 0 ∧ X.map Prod.snd = x.lost := by
  cases x with
  | array n => exact absurd trivial hx
  | shape => exact ⟨h, 0, rfl, Eff.refl w, rfl⟩
  | entry n => exact ⟨_, _, rfl, new_eff w (.array n), rfl⟩

theorem lost_le (K L : Multiset Ptr) : K ≤ K + L := Multiset.le_add_right K L

/-- The end of the constructor -/
theorem storage_inv {s : State} {K K' X : Multiset Ptr} {A : Set ℕ} (i : Inv s K A) {h : Heap} {a b : Option Ptr} (e : Eff s.heap X h 0)
    (hK : K ≤ K') (eq : opt a + opt b + K' = K + X) :
    ∃ s', (if a.isSome then Outcome.ok (s.add (h.new .object).2 (.dataSet a b (some (h.new .object).1)))
      else .ok (s.add h (.dataSet a b none))) = .ok (s', false) ∧ Inv s' K' A := by
  split
  · refine ⟨_, rfl, i.add (e.trans (new_eff e.wf .object)) rfl hK ?_⟩
    rw [ptrs_dataSet, ← add_assoc K X, ← eq]
    simp only [opt_some, add_zero]
    abel
  · refine ⟨_, rfl, i.add e rfl hK ?_⟩
    rw [ptrs_dataSet, ← eq]
    simp only [opt_none, add_zero, zero_add]

theorem dataSetOutput_correct {c : Compiler} {s : State} {K K' X : Multiset Ptr} {A : Set ℕ} (i : Inv s K A) {h : Heap} {a : Option Ptr}
    (e : Eff s.heap X h 0) (hK : K ≤ K') (eq : opt a + K' = K + X) (y : Option Arg) :
    ∃ s' e K'', dataSetOutput c s h a y = .ok (s', e) ∧ Inv s' K'' A ∧ K''.map Prod.snd = K'.map Prod.snd + y.elim 0 Arg.lost := by
  rcases y with _ | y
  · obtain ⟨s', h1, h2⟩ := storage_inv i (a := a) (b := none) e hK (by rw [← eq]; simp [opt])
    exact ⟨s', _, K', h1, h2, by simp⟩
  · by_cases hy : y.valid
    · cases y with
      | array n =>
        have en := new_eff e.wf (.array n)
        obtain ⟨s', h1, h2⟩ := storage_inv i (a := a) (b := some (h.new (.array n)).1) (by simpa using e.trans en) hK
          (by rw [← add_assoc, ← eq]; simp only [opt_some]; abel)
        exact ⟨s', _, K', h1, h2, by simp [Arg.lost]⟩
      | shape => exact absurd hy id
      | entry n => exact absurd hy id
    · obtain ⟨h', L, hc, en, hl⟩ := convert_bad c e.wf hy
      have et : Eff s.heap (X + L) h' 0 := by simpa using e.trans en
      cases c with
      | ignores =>
        obtain ⟨s', h1, h2⟩ := storage_inv i (a := a) (b := none) (K' := K' + L) et (hK.trans (lost_le _ _))
          (by rw [← add_assoc, ← add_assoc, ← eq]; simp only [opt_none]; abel)
        refine ⟨s', false, K' + L, ?_, h2, by simp [hl]⟩
        simp only [dataSetOutput, hc, excepted]
        exact h1
      | raises =>
        have hle : ((([none, a, none] : List (Option Ptr)).filterMap id : List Ptr) : Multiset Ptr) ≤ (h'.live : Multiset Ptr) := by
          have := et.live
          rw [add_zero, i.live] at this
          rw [this, filterMap_three]
          simp only [opt_none, zero_add, add_zero]
          calc opt a ≤ opt a + K' := Multiset.le_add_right _ _
            _ = K + X := eq
            _ ≤ K + X + (owned s.objs + L) := Multiset.le_add_right _ _
            _ = _ := by abel
        obtain ⟨h2, e2, f2⟩ := delAll_eff et.wf hle
        refine ⟨⟨h2, s.objs⟩, true, K' + L, ?_, i.same (et.trans f2) (subset_refl _) (hK.trans (lost_le _ _)) ?_, by simp [hl]⟩
        · simp only [dataSetOutput, hc, excepted, e2, Outcome.ok_bind, State.raise]
        · rw [filterMap_three, add_zero (X + L), ← add_assoc K X L, ← eq]
          simp only [opt_none, zero_add, add_zero]
          abel

theorem dataSet_correct {c : Compiler} {s : State} {K : Multiset Ptr} {A : Set ℕ} (i : Inv s K A) (x y : Option Arg) :
    Correct c s K A (.dataSet x y) := by
  have e0 := Eff.refl i.wf
  rcases x with _ | x
  · obtain ⟨s', e, K', h1, h2, h3⟩ := dataSetOutput_correct (c := c) i (a := none) e0 le_rfl (by simp [opt]) y
    refine ⟨s', e, K', h1, h2, ?_⟩
    cases y <;> simpa [Op.lost, Op.regained] using h3
  · by_cases hx : x.valid
    · cases x with
      | array n =>
        obtain ⟨s', e, K', h1, h2, h3⟩ := dataSetOutput_correct (c := c) i (a := some (s.heap.new (.array n)).1) (new_eff i.wf (.array n)) le_rfl
          (by simp only [opt_some]; abel) y
        refine ⟨s', e, K', h1, h2, ?_⟩
        cases y <;> simpa [Op.lost, Op.regained, Arg.lost] using h3
      | shape => exact absurd hx id
      | entry n => exact absurd hx id
    · obtain ⟨h', L, hc, en, hl⟩ := convert_bad c i.wf hx
      cases c with
      | raises =>
        refine ⟨⟨h', s.objs⟩, true, K + L, ?_, i.same en (subset_refl _) (lost_le _ _) (by simp), ?_⟩
        · simp only [step, dataSet, hc, excepted, State.raise]
        · cases x <;> first | exact absurd trivial hx | (cases y <;> simp [Op.lost, Op.regained, hl])
      | ignores =>
        obtain ⟨s', e, K', h1, h2, h3⟩ := dataSetOutput_correct (c := .ignores) i (a := none) en (lost_le K L) (by simp [opt]) y
        refine ⟨s', e, K', ?_, h2, ?_⟩
        · simp only [step, dataSet, hc, excepted]
          exact h1
        · cases x <;> first | exact absurd trivial hx | (cases y <;> simpa [Op.lost, Op.regained, hl, add_assoc] using h3)

theorem rbm_correct {c : Compiler} {s : State} {K : Multiset Ptr} {A : Set ℕ} (i : Inv s K A) (v : Bool) :
    Correct c s K A (.rbm v) := by
  have e1 := new_eff i.wf .object
  cases v with
  | false =>
    exact ⟨_, _, K + {(s.heap.new .object).1}, rfl, i.same e1 (subset_refl _) (lost_le _ _) (by simp), by simp [Op.lost, Op.regained, Heap.new]⟩
  | true =>
    have e2 := e1.trans (new_eff e1.wf .object)
    have e3 := e2.trans (new_eff e2.wf .object)
    obtain ⟨h, hd, e4⟩ := del_eff e3.wf (p := (s.heap.new .object).1) (by simp [Heap.new])
    have e5 := e3.trans e4
    refine ⟨_, false, K, ?_, i.add e5 (o := .owner true (some ((s.heap.new .object).2.new .object).1)
      (some ((((s.heap.new .object).2.new .object).2).new .object).1)) rfl le_rfl ?_, by simp [Op.lost, Op.regained]⟩
    · simp only [step, rbm, if_true]
      rw [hd]
      rfl
    · simp only [ptrs, Obj.deleted, filterMap_two, opt_some, add_zero, zero_add]
      abel

theorem optimizer_correct {c : Compiler} {s : State} {K : Multiset Ptr} {A : Set ℕ} (i : Inv s K A) (v : Bool) :
    Correct c s K A (.optimizer v) := by
  have e1 := new_eff i.wf .object
  have e2 := e1.trans (new_eff e1.wf .object)
  cases v with
  | true =>
    refine ⟨_, _, K, rfl, i.add e2 rfl le_rfl ?_, by simp [Op.lost, Op.regained]⟩
    simp only [ptrs, Obj.deleted, filterMap_two, opt_some, add_zero]
    abel
  | false =>
    have hle : ((([some ((s.heap.new .object).2.new .object).1, some (s.heap.new .object).1] : List (Option Ptr)).filterMap id : List Ptr)
        : Multiset Ptr) ≤ (((s.heap.new .object).2.new .object).2.live : Multiset Ptr) := by
      have := e2.live
      rw [add_zero, add_zero] at this
      rw [this, filterMap_two]
      simp only [opt_some]
      rw [add_comm {((s.heap.new .object).2.new .object).1}]
      exact Multiset.le_add_left _ _
    obtain ⟨h, hd, e3⟩ := delAll_eff e2.wf hle
    refine ⟨_, true, K, ?_, i.same (e2.trans e3) (subset_refl _) le_rfl ?_, by simp [Op.lost, Op.regained]⟩
    · simp only [step, optimizer, Bool.false_eq_true, if_false]
      rw [hd]
      rfl
    · rw [filterMap_two]
      simp only [opt_some, add_zero, zero_add]
      abel

theorem owner_ptrs (b : Bool) (p m : Option Ptr) : ptrs (.owner b p m) = opt m + opt p := filterMap_two _ _

theorem blocks_owner (p m : Option Ptr) : blocks [p, m] = (opt m + opt p).map Prod.snd := by
  cases p <;> cases m <;> simp only [blocks, opt_none, opt_some]
  case some.some p m => exact Multiset.coe_eq_coe.2 (List.Perm.swap m.2 p.2 [])
  all_goals rfl

theorem init_correct {c : Compiler} {s : State} {K : Multiset Ptr} {A : Set ℕ} (i : Inv s K A) (k : ℕ) :
    Correct c s K A (.init k) := by
  have e1 := new_eff i.wf .object
  have e2 := e1.trans (new_eff e1.wf .object)
  have e3 := e2.trans (new_eff e2.wf .object)
  obtain ⟨h, hd, e4⟩ := del_eff e3.wf (p := (s.heap.new .object).1) (by simp [Heap.new])
  have e5 := e3.trans e4
  rcases hk : s.get k with _ | o
  · exact ⟨s, false, K, by simp [step, hk], i, by simp [Op.lost, Op.regained, hk]⟩
  · rcases o with _ | _ | ⟨_ | _, p, _ | m⟩ | _ | p | _
    case owner.true.none =>
      refine ⟨_, _, K + opt p, by simp only [step, hk]; rfl, i.set e1 hk (o' := .owner true (some (s.heap.new .object).1) none) rfl (lost_le _ _) ?_, ?_⟩
      · simp only [owner_ptrs, opt_none, opt_some]; abel
      · simp only [Op.lost, Op.regained, hk, blocks_owner]; simp [opt]
    case owner.true.some =>
      refine ⟨_, false, K + (opt (some m) + opt p), ?_, i.set e5 hk (o' := .owner true (some ((s.heap.new .object).2.new .object).1)
        (some ((((s.heap.new .object).2.new .object).2).new .object).1)) rfl (lost_le _ _) ?_, ?_⟩
      · simp only [step, hk]
        rw [hd]
        rfl
      · simp only [owner_ptrs, opt_some]; abel
      · simp only [Op.lost, Op.regained, hk, blocks_owner]; simp
    case kMeans =>
      refine ⟨_, _, K + {(s.heap.new .object).1}, by simp only [step, hk]; rfl, i.set e1 hk (o' := .kMeans (s.heap.new .object).1) rfl (lost_le _ _) ?_, ?_⟩
      · simp [ptrs, Obj.deleted]
      · simp only [Op.lost, Op.regained, hk]; simp [Heap.new]
    all_goals exact ⟨s, false, K, by simp [step, hk], i, by simp [Op.lost, Op.regained, hk]⟩

theorem sigmaPi_correct {c : Compiler} {s : State} {K : Multiset Ptr} {A : Set ℕ} (i : Inv s K A) (n : ℕ) :
    Correct c s K A (.sigmaPi n) := by
  rcases hk : s.get n with _ | o
  · exact i.raise (by simp [step, hk]) (by simp [Op.lost, hk]) rfl
  · cases o
    case net p ls =>
      have e1 := new_eff i.wf .object
      have hlen : ∀ k l, layer s.objs k = some l → k < s.objs.length := by
        intro k l hl
        by_contra hc
        simp [layer, List.getElem?_eq_none (Nat.le_of_not_lt hc)] at hl
      have hlay : ∀ k, layer (s.objs ++ [some (.sigmaPi (s.heap.new .object).1 none none none)]) k =
          if k = s.objs.length then some (s.heap.new .object).1 else layer s.objs k := by
        intro k
        split
        · rename_i h; subst h; simp [layer, layerOf]
        · simp only [layer]
          rcases lt_trichotomy k s.objs.length with h | h | h
          · rw [List.getElem?_append_left h]
          · contradiction
          · rw [List.getElem?_eq_none (by simp; omega), List.getElem?_eq_none (by omega)]
      refine ⟨_, _, K + {(s.heap.new .object).1}, by simp only [step, hk]; rfl, ⟨e1.wf, ?_, fun k l hl => ?_, fun k k' l h1 h2 => ?_⟩, ?_⟩
      · rw [owned_append]
        have := e1.live
        rw [add_zero, i.live] at this
        rw [this]
        simp [ptrs, Obj.deleted, add_assoc]
      · rw [hlay] at hl
        split at hl
        · cases hl
          exact ⟨by simp [Heap.new], rfl, fun _ => by simp⟩
        · obtain ⟨h1, h2, h3⟩ := i.known k l hl
          exact ⟨lt_of_lt_of_le h1 e1.next, h2, fun h => Multiset.mem_of_le (lost_le _ _) (h3 h)⟩
      · rw [hlay] at h1 h2
        split at h1 <;> split at h2
        · omega
        · cases h1
          exact absurd (i.known _ _ h2).1 (by simp [Heap.new])
        · cases h2
          exact absurd (i.known _ _ h1).1 (by simp [Heap.new])
        · exact i.apart k k' l h1 h2
      · simp only [Op.lost, Op.regained, hk]; simp [Heap.new]
    all_goals exact i.raise (by simp [step, hk]) (by simp [Op.lost, hk]) rfl

theorem lazy_eff {h : Heap} (w : h.WF) (p : Option Ptr) : ∃ X, Eff h X (lazy h p).2 0 ∧ {(lazy h p).1} = opt p + X := by
  cases p with
  | none => exact ⟨_, new_eff w .object, by simp [lazy, opt]⟩
  | some p => exact ⟨0, Eff.refl w, by simp [lazy, opt]⟩

theorem ptrs_sigmaPi (l : Ptr) (d p t : Option Ptr) : ptrs (.sigmaPi l d p t) = opt d + opt p + opt t := filterMap_three _ _ _

theorem nodes_correct {c : Compiler} {s : State} {K : Multiset Ptr} {A : Set ℕ} (i : Inv s K A) (k : ℕ) :
    Correct c s K A (.distance k) ∧ Correct c s K A (.slope k) ∧ Correct c s K A (.triangle k) := by
  rcases hk : s.get k with _ | o
  · exact ⟨i.raise (by simp [step, hk]) rfl rfl, i.raise (by simp [step, hk]) rfl rfl, i.raise (by simp [step, hk]) rfl rfl⟩
  · cases o
    case sigmaPi l d p t =>
      obtain ⟨X, e1, h1⟩ := lazy_eff i.wf d
      obtain ⟨Y, e2, h2⟩ := lazy_eff i.wf p
      obtain ⟨Z, e3, h3⟩ := lazy_eff i.wf t
      refine ⟨⟨_, _, K, by simp only [step, hk]; rfl, i.set e1 hk (o' := .sigmaPi l (some (lazy s.heap d).1) p t) rfl le_rfl ?_, rfl⟩,
        ⟨_, _, K, by simp only [step, hk]; rfl, i.set e2 hk (o' := .sigmaPi l d (some (lazy s.heap p).1) t) rfl le_rfl ?_, rfl⟩,
        ⟨_, _, K, by simp only [step, hk]; rfl, i.set e3 hk (o' := .sigmaPi l d p (some (lazy s.heap t).1)) rfl le_rfl ?_, rfl⟩⟩
      · rw [ptrs_sigmaPi, ptrs_sigmaPi]
        simp only [opt_some]
        rw [h1]; abel
      · rw [ptrs_sigmaPi, ptrs_sigmaPi]
        simp only [opt_some]
        rw [h2]; abel
      · rw [ptrs_sigmaPi, ptrs_sigmaPi]
        simp only [opt_some]
        rw [h3]; abel
    all_goals exact ⟨i.raise (by simp [step, hk]) rfl rfl, i.raise (by simp [step, hk]) rfl rfl, i.raise (by simp [step, hk]) rfl rfl⟩

theorem ptrs_net (p : Ptr) (ls : List Ptr) : ptrs (.net p ls) = (ls : Multiset Ptr) + {p} := by
  have : ∀ ls : List Ptr, (ls.map some ++ [some p]).filterMap id = ls ++ [p] := by
    intro ls
    induction ls with
    | nil => rfl
    | cons a ls ih => simp
  simp only [ptrs, Obj.deleted, this]
  rw [← Multiset.coe_add]
  rfl

theorem addLayer_correct {c : Compiler} {s : State} {K : Multiset Ptr} {A : Set ℕ} (i : Inv s K A) (n k : ℕ) (hA : k ∉ A) :
    Correct c s K A (.addLayer n k) := by
  have raised : step c s (.addLayer n k) = s.raise s.heap → (Op.addLayer n k).regained s = 0 → Correct c s K A (.addLayer n k) :=
    fun h1 h2 => i.raise h1 rfl h2
  rcases hn : s.get n with _ | o
  · exact raised (by simp [step, hn]) (by simp [Op.regained, hn])
  rcases hk : s.get k with _ | o'
  · exact raised (by simp [step, hn, hk]) (by simp [Op.regained, hn, hk])
  cases o
  case net p ls =>
    cases o'
    case sigmaPi l d q t =>
      have hl : layer s.objs k = some l := by
        rw [get_eq] at hk
        simp [layer, hk, layerOf]
      obtain ⟨h1, h2, h3⟩ := i.known k l hl
      have hK := h3 hA
      have hlive : l ∈ s.heap.live := by
        have : l ∈ (s.heap.live : Multiset Ptr) := by rw [i.live]; exact Multiset.mem_add.2 (Or.inr hK)
        simpa using this
      have hc : {l} + K.erase l = K := by rw [Multiset.singleton_add, Multiset.cons_erase hK]
      have hlay := layer_set_eq (o' := .net p (ls ++ [l])) (get_eq.1 hn) rfl
      refine ⟨⟨s.heap, s.objs.set n (some (.net p (ls ++ [l])))⟩, false, K.erase l, by simp only [step, hn, hk, if_pos hlive]; rfl, ⟨i.wf, ?_, fun j m hm => ?_, fun j j' m hj hj' => ?_⟩, ?_⟩
      · have h4 := owned_set (b := some (.net p (ls ++ [l]))) (get_eq.1 hn)
        simp only [Option.elim, ptrs_net] at h4
        rw [← Multiset.coe_add] at h4
        have h5 : owned (s.objs.set n (some (.net p (ls ++ [l])))) = owned s.objs + {l} := by
          refine add_right_cancel (b := (ls : Multiset Ptr) + {p}) (h4.trans ?_)
          rw [Multiset.coe_singleton]
          abel
        change (s.heap.live : Multiset Ptr) = owned (s.objs.set n (some (.net p (ls ++ [l])))) + K.erase l
        rw [i.live, h5, add_assoc, hc]
      · simp only [hlay] at hm
        obtain ⟨g1, g2, g3⟩ := i.known j m hm
        refine ⟨g1, g2, fun hj => ?_⟩
        simp only [Op.added, Set.mem_insert_iff, not_or] at hj
        refine (Multiset.mem_erase_of_ne fun e => hj.1 ?_).2 (g3 hj.2)
        subst e
        exact i.apart j k m hm hl
      · simp only [hlay] at hj hj'
        exact i.apart j j' m hj hj'
      · simp only [Op.lost, Op.regained, hn, hk, add_zero]
        conv_rhs => rw [← hc]
        rw [Multiset.map_add, Multiset.map_singleton, h2, add_comm]
    all_goals exact raised (by simp [step, hn, hk]) (by simp [Op.regained, hn, hk])
  all_goals exact raised (by simp [step, hn]) (by simp [Op.regained, hn])

theorem predict_correct {c : Compiler} {s : State} {K : Multiset Ptr} {A : Set ℕ} (i : Inv s K A) (k : ℕ) (x : Arg)
    (hf : (Op.predict k x).Fine c) : Correct c s K A (.predict k x) := by
  rcases hk : s.get k with _ | o
  · exact i.raise (by simp [step, hk]) (by simp [Op.lost, hk]) rfl
  by_cases hx : x.valid
  · cases x with
    | array n =>
      have e1 := new_eff i.wf (.array n)
      obtain ⟨h, hd, e2⟩ := del_eff e1.wf (p := (s.heap.new (.array n)).1) (by simp [Heap.new])
      refine ⟨⟨h, s.objs⟩, false, K, ?_, i.same (e1.trans e2) (subset_refl _) le_rfl (by simp), by simp [Op.lost, Op.regained, hk, Arg.lost]⟩
      simp only [step, hk, convert, hd, Outcome.ok_bind]
    | shape => exact absurd hx id
    | entry n => exact absurd hx id
  · obtain ⟨h', L, hc, en, hl⟩ := convert_bad c i.wf hx
    cases c with
    | ignores => exact absurd hf hx
    | raises =>
      refine ⟨⟨h', s.objs⟩, true, K + L, ?_, i.same en (subset_refl _) (lost_le _ _) (by simp), by simp [Op.lost, Op.regained, hk, hl]⟩
      simp only [step, hk, hc, excepted, State.raise]

theorem use_correct {c : Compiler} {s : State} {K : Multiset Ptr} {A : Set ℕ} (i : Inv s K A) (k : ℕ) (x : Arg)
    (hf : (Op.use k x).Fine c) : Correct c s K A (.use k x) := by
  rcases hk : s.get k with _ | o
  · exact i.raise (by simp [step, hk]) (by simp [Op.lost, hk]) rfl
  by_cases hx : x.valid
  · cases x with
    | array n =>
      have e1 := new_eff i.wf (.array n)
      refine ⟨⟨_, s.objs⟩, false, K + {(s.heap.new (.array n)).1}, ?_, i.same e1 (subset_refl _) (lost_le _ _) (by simp), ?_⟩
      · simp only [step, hk, convert]
      · simp only [Op.lost, Op.regained, hk]; simp [Heap.new]
    | shape => exact absurd hx id
    | entry n => exact absurd hx id
  · obtain ⟨h', L, hc, en, hl⟩ := convert_bad c i.wf hx
    cases c with
    | ignores => exact absurd hf hx
    | raises =>
      refine ⟨⟨h', s.objs⟩, true, K + L, ?_, i.same en (subset_refl _) (lost_le _ _) (by simp), ?_⟩
      · simp only [step, hk, hc, excepted, State.raise]
      · cases x <;> first | exact absurd trivial hx | simp [Op.lost, Op.regained, hk, hl]

theorem ptrs_stream (p : Ptr) (q : Option Ptr) : ptrs (.stream p q) = opt q + {p} := filterMap_two _ _

theorem store_correct {s : State} {K K' X : Multiset Ptr} {A : Set ℕ} (i : Inv s K A) {k : ℕ} {h : Heap} {p x : Ptr} {q y : Option Ptr}
    (hk : s.get k = some (.stream p q)) (e : Eff s.heap X h 0) (hK : K ≤ K') (eq : opt (some x) + opt y + K' = K + X) :
    ∃ s', store s k h p q (some x) y = .ok (s', false) ∧ Inv s' K' A := by
  obtain ⟨Z, e1, hz⟩ := lazy_eff e.wf q
  have e2 := e.trans e1
  have hle : ((([some x, y] : List (Option Ptr)).filterMap id : List Ptr) : Multiset Ptr) ≤ ((lazy h q).2.live : Multiset Ptr) := by
    have := e2.live
    rw [add_zero, add_zero, i.live] at this
    rw [this, filterMap_two]
    calc opt (some x) + opt y ≤ opt (some x) + opt y + K' := Multiset.le_add_right _ _
      _ = K + X := eq
      _ ≤ K + X + (owned s.objs + Z) := Multiset.le_add_right _ _
      _ = _ := by abel
  obtain ⟨h2, hd, e3⟩ := delAll_eff e2.wf hle
  refine ⟨⟨h2, s.objs.set k (some (.stream p (some (lazy h q).1)))⟩, ?_, i.set (e2.trans e3) hk rfl hK ?_⟩
  · simp only [store, hd, Outcome.ok_bind, State.set]
  · rw [ptrs_stream, ptrs_stream, filterMap_two, opt_some, hz]
    simp only [add_zero, zero_add]
    calc opt q + Z + {p} + K' + (opt (some x) + opt y) = (opt (some x) + opt y + K') + (opt q + Z + {p}) := by abel
      _ = _ := by rw [eq]; abel

theorem addSample_correct {c : Compiler} {s : State} {K : Multiset Ptr} {A : Set ℕ} (i : Inv s K A) (k : ℕ) (x : Arg) (y : Option Arg)
    (hf : (Op.addSample k x y).Fine c) : Correct c s K A (.addSample k x y) := by
  rcases hk : s.get k with _ | o
  · exact i.raise (by simp [step, hk]) (by simp [Op.lost, hk]) rfl
  cases o
  case stream p q =>
    by_cases hx : x.valid
    · cases x with
      | array n =>
        have e1 := new_eff i.wf (.array n)
        rcases y with _ | y
        · obtain ⟨s', h1, h2⟩ := store_correct i (y := none) hk e1 le_rfl (by rw [opt_some, opt_none]; abel)
          exact ⟨s', false, K, by simpa only [step, hk, convert] using h1, h2, by simp [Op.lost, Op.regained, hk]⟩
        · by_cases hy : y.valid
          · cases y with
            | array m =>
              have e2 := e1.trans (new_eff e1.wf (.array m))
              obtain ⟨s', h1, h2⟩ := store_correct i (x := (s.heap.new (.array n)).1) (y := some ((s.heap.new (.array n)).2.new (.array m)).1) hk
                e2 le_rfl (by rw [opt_some, opt_some]; abel)
              exact ⟨s', false, K, by simpa only [step, hk, convert] using h1, h2, by simp [Op.lost, Op.regained, hk]⟩
            | shape => exact absurd hy id
            | entry n => exact absurd hy id
          · obtain ⟨h', L, hc, en, hl⟩ := convert_bad c e1.wf hy
            have e2 : Eff s.heap ({(s.heap.new (.array n)).1} + L) h' 0 := by simpa using e1.trans en
            have hc0 : convert c s.heap (.array n) = (.pointer (some (s.heap.new (.array n)).1), (s.heap.new (.array n)).2) := rfl
            cases c with
            | raises =>
              refine ⟨⟨h', s.objs⟩, true, K + ({(s.heap.new (.array n)).1} + L), ?_, i.same e2 (subset_refl _) (lost_le _ _) (by simp), ?_⟩
              · simp only [step, hk, hc0, hc, excepted, State.raise]
              · simp only [Op.lost, Op.regained, hk]
                cases y <;> first | exact absurd trivial hy | simp [hl, Heap.new, Multiset.map_add]
            | ignores =>
              obtain ⟨s', h1, h2⟩ := store_correct i (x := (s.heap.new (.array n)).1) (y := none) (K' := K + L) hk e2 (lost_le _ _)
                (by rw [opt_some, opt_none]; abel)
              refine ⟨s', false, K + L, ?_, h2, ?_⟩
              · simp only [step, hk, hc0, hc, excepted]
                exact h1
              · cases y <;> first | exact absurd trivial hy | simp [Op.lost, Op.regained, hk, hl]
      | shape => exact absurd hx id
      | entry n => exact absurd hx id
    · obtain ⟨h', L, hc, en, hl⟩ := convert_bad c i.wf hx
      cases c with
      | ignores => exact absurd hf hx
      | raises =>
        refine ⟨⟨h', s.objs⟩, true, K + L, ?_, i.same en (subset_refl _) (lost_le _ _) (by simp), ?_⟩
        · simp only [step, hk, hc, excepted, State.raise]
        · cases x <;> first | exact absurd trivial hx | simp [Op.lost, Op.regained, hk, hl]
  all_goals exact i.raise (by simp [step, hk]) (by simp [Op.lost, hk]) rfl

theorem drop_correct {c : Compiler} {s : State} {K : Multiset Ptr} {A : Set ℕ} (i : Inv s K A) (k : ℕ) : Correct c s K A (.drop k) := by
  rcases hk : s.get k with _ | o
  · exact i.raise (by simp [step, hk]) rfl rfl
  have h0 := owned_set (b := none) (get_eq.1 hk)
  simp only [Option.elim, add_zero] at h0
  have hle : ((o.deleted.filterMap id : List Ptr) : Multiset Ptr) ≤ (s.heap.live : Multiset Ptr) := by
    rw [i.live, ← h0]
    change ptrs o ≤ _
    calc ptrs o ≤ ptrs o + (owned (s.objs.set k none) + K) := Multiset.le_add_right _ _
      _ = _ := by abel
  obtain ⟨h, hd, e⟩ := delAll_eff i.wf hle
  refine ⟨⟨h, s.objs.set k none⟩, false, K, ?_, ⟨e.wf, ?_, fun j l hl => ?_, fun j j' l hj hj' => ?_⟩, rfl⟩
  · simp only [step, hk, hd, Outcome.ok_bind]
  · have h1 := e.live
    rw [add_zero, i.live, ← h0] at h1
    change (h.live : Multiset Ptr) + ptrs o = _ at h1
    refine add_right_cancel (b := ptrs o) (h1.trans ?_)
    abel
  · obtain ⟨h1, h2, h3⟩ := i.known j l (layer_set_none hl)
    exact ⟨lt_of_lt_of_le h1 e.next, h2, h3⟩
  · exact i.apart j j' l (layer_set_none hj) (layer_set_none hj')

/-! ## Statements and programs -/

/-- **C128.**  Every statement loses exactly what the specification says and releases nothing twice. -/
theorem step_accounting {c : Compiler} {s : State} {K : Multiset Ptr} {A : Set ℕ} (i : Inv s K A) {op : Op} (hf : op.Fine c)
    (ho : op.Once A) : Correct c s K A op := by
  cases op with
  | dataSet x y => exact dataSet_correct i x y
  | loadLibsvm n m =>
    have e1 := new_eff i.wf (.array n)
    have e2 := e1.trans (new_eff e1.wf (.array m))
    have e3 := e2.trans (new_eff e2.wf .object)
    refine ⟨_, _, K, rfl, i.add e3 rfl le_rfl ?_, rfl⟩
    rw [ptrs_dataSet, opt_some, opt_some, opt_some]
    abel
  | net => exact ⟨_, _, K, rfl, i.newObject rfl rfl, rfl⟩
  | layer n =>
    rcases hk : s.get n with _ | o
    · exact i.raise (by simp [step, hk]) rfl rfl
    · cases o
      case net p ls =>
        refine ⟨_, _, K, by simp only [step, hk]; rfl, i.set (new_eff i.wf .object) hk (o' := .net p (ls ++ [(s.heap.new .object).1])) rfl
          le_rfl ?_, rfl⟩
        rw [ptrs_net, ptrs_net, ← Multiset.coe_add, Multiset.coe_singleton]
        abel
      all_goals exact i.raise (by simp [step, hk]) rfl rfl
  | initOwner => exact ⟨_, _, K, rfl, i.newObject rfl rfl, rfl⟩
  | owner => exact ⟨_, _, K, rfl, i.newObject rfl rfl, rfl⟩
  | rbm v => exact rbm_correct i v
  | optimizer v => exact optimizer_correct i v
  | stream => exact ⟨_, _, K, rfl, i.newObject rfl rfl, rfl⟩
  | kMeans =>
    refine ⟨_, _, K + {(s.heap.new .object).1}, rfl, i.add (new_eff i.wf .object) rfl (lost_le _ _) ?_, by simp [Op.lost, Op.regained, Heap.new]⟩
    simp [ptrs, Obj.deleted]
  | init k => exact init_correct i k
  | sigmaPi n => exact sigmaPi_correct i n
  | distance k => exact (nodes_correct i k).1
  | slope k => exact (nodes_correct i k).2.1
  | triangle k => exact (nodes_correct i k).2.2
  | addLayer n k => exact addLayer_correct i n k ho
  | predict k x => exact predict_correct i k x hf
  | use k x => exact use_correct i k x hf
  | addSample k x y => exact addSample_correct i k x y hf
  | drop k => exact drop_correct i k

/-- What a program loses and regains. -/
def lostBy (c : Compiler) : List Op → State → Multiset Block
  | [], _ => 0
  | op :: ops, s => op.lost c s + match step c s op with
    | .ok (s', _) => lostBy c ops s'
    | _ => 0

def regainedBy (c : Compiler) : List Op → State → Multiset Block
  | [], _ => 0
  | op :: ops, s => op.regained s + match step c s op with
    | .ok (s', _) => regainedBy c ops s'
    | _ => 0

theorem run_inv {c : Compiler} {ops : List Op} : ∀ {s : State} {K : Multiset Ptr} {A : Set ℕ}, Inv s K A → Careful c A ops →
    ∃ s' K' A', run c ops s = .ok s' ∧ Inv s' K' A' ∧ K'.map Prod.snd + regainedBy c ops s = K.map Prod.snd + lostBy c ops s := by
  induction ops with
  | nil => intro s K A i _; exact ⟨s, K, A, rfl, i, by simp [regainedBy, lostBy]⟩
  | cons op ops ih =>
    intro s K A i ⟨hf, ho, hc⟩
    obtain ⟨s1, e, K1, h1, i1, hK1⟩ := step_accounting i hf ho
    obtain ⟨s2, K2, A2, h2, i2, hK2⟩ := ih i1 hc
    refine ⟨s2, K2, A2, by simp [run, h1, h2], i2, ?_⟩
    simp only [regainedBy, lostBy, h1]
    calc K2.map Prod.snd + (op.regained s + regainedBy c ops s1) = (K2.map Prod.snd + regainedBy c ops s1) + op.regained s := by abel
      _ = (K1.map Prod.snd + op.regained s) + lostBy c ops s1 := by rw [hK2]; abel
      _ = _ := by rw [hK1, add_assoc]

/-- All objects are gone. -/
def Gone (s : State) : Prop := ∀ o ∈ s.objs, o = none

theorem owned_gone {s : State} (h : Gone s) : owned s.objs = 0 := by
  have : ∀ objs : List (Option Obj), (∀ o ∈ objs, o = none) → owned objs = 0 := by
    intro objs h
    induction objs with
    | nil => rfl
    | cons o objs ih =>
      have h1 := h o List.mem_cons_self
      subst h1
      have := ih fun o ho => h o (List.mem_cons_of_mem _ ho)
      simpa [owned] using this
  exact this _ h

/-- **C128.**  Every careful program runs without undefined behaviour, and when all objects are gone the allocated blocks are the lost ones
without the regained ones. -/
theorem run_accounting {c : Compiler} {ops : List Op} (h : Careful c ∅ ops) :
    ∃ s, run c ops start = .ok s ∧
      (Gone s → ((s.heap.live.map Prod.snd : List Block) : Multiset Block) + regainedBy c ops start = lostBy c ops start) := by
  obtain ⟨s, K, A, h1, i, hK⟩ := run_inv (inv_start ∅) h
  refine ⟨s, h1, fun hg => ?_⟩
  have hl := i.live
  rw [owned_gone hg, zero_add] at hl
  rw [← Multiset.map_coe, hl, hK]
  simp

/-! ## Tidy programs -/

def Arg.ok : Option Arg → Prop
  | none => True
  | some x => x.valid

/-- No transformations are used, no k-means, no sigma-pi layers, no `__init__` once more; array arguments are valid. -/
def Op.Tidy : Op → Prop
  | .dataSet x y => Arg.ok x ∧ Arg.ok y
  | .predict _ x => x.valid
  | .addSample _ x y => x.valid ∧ Arg.ok y
  | .rbm v => v = true
  | .kMeans => False
  | .init _ => False
  | .sigmaPi _ => False
  | .addLayer _ _ => False
  | .use _ _ => False
  | _ => True

theorem Op.Tidy.lost {c : Compiler} {s : State} {op : Op} (h : op.Tidy) : op.lost c s = 0 := by
  cases op with
  | dataSet x y =>
    obtain ⟨hx, hy⟩ := h
    rcases x with _ | _ | _ | _ <;> rcases y with _ | _ | _ | _ <;> first | exact absurd hx id | exact absurd hy id | rfl
  | predict k x => cases x <;> first | exact absurd h id | (simp only [Op.lost]; split <;> rfl)
  | addSample k x y =>
    obtain ⟨hx, hy⟩ := h
    simp only [Op.lost]
    split
    · cases x <;> first | exact absurd hx id | (rcases y with _ | _ | _ | _ <;> first | exact absurd hy id | rfl)
    · rfl
  | rbm v => cases h; rfl
  | kMeans => exact absurd h id
  | init k => exact absurd h id
  | sigmaPi n => exact absurd h id
  | addLayer n k => exact absurd h id
  | use k x => exact absurd h id
  | _ => rfl

theorem Op.Tidy.once {A : Set ℕ} {op : Op} (h : op.Tidy) : op.Once A ∧ op.added A = A := by
  cases op <;> first | exact absurd h id | exact ⟨trivial, rfl⟩

theorem Op.Tidy.fine {c : Compiler} {op : Op} (h : op.Tidy) : op.Fine c := by
  cases c <;> cases op <;> first | exact absurd h id | exact trivial | exact h | exact h.1

theorem tidy_careful {c : Compiler} {ops : List Op} (h : ∀ op ∈ ops, op.Tidy) {A : Set ℕ} : Careful c A ops := by
  induction ops with
  | nil => trivial
  | cons op ops ih =>
    have h1 := h op List.mem_cons_self
    refine ⟨h1.fine, h1.once.1, ?_⟩
    rw [h1.once.2]
    exact ih fun o ho => h o (List.mem_cons_of_mem _ ho)

theorem tidy_lost {c : Compiler} {ops : List Op} : ∀ {s : State}, (∀ op ∈ ops, op.Tidy) → lostBy c ops s = 0 := by
  induction ops with
  | nil => intro s _; rfl
  | cons op ops ih =>
    intro s h
    simp only [lostBy, (h op List.mem_cons_self).lost, zero_add]
    split
    · exact ih fun o ho => h o (List.mem_cons_of_mem _ ho)
    · rfl

/-- **C128.**  Tidy programs get all of their memory back. -/
theorem tidy_released {c : Compiler} {ops : List Op} (h : ∀ op ∈ ops, op.Tidy) :
    ∃ s, run c ops start = .ok s ∧ (Gone s → s.heap.live = []) := by
  obtain ⟨s, h1, h2⟩ := run_accounting (c := c) (tidy_careful h)
  refine ⟨s, h1, fun hg => ?_⟩
  have := h2 hg
  rw [tidy_lost h] at this
  have := Multiset.le_zero.1 (this ▸ Multiset.le_add_right _ _)
  simpa using this

/-! ## Lost arrays stay allocated -/

theorem regained_array {c : Compiler} {n : ℕ} {ops : List Op} : ∀ {s : State}, (regainedBy c ops s).count (.array n) = 0 := by
  induction ops with
  | nil => intro s; rfl
  | cons op ops ih =>
    intro s
    simp only [regainedBy, Multiset.count_add, Nat.add_eq_zero_iff]
    constructor
    · cases op <;> first | rfl | (simp only [Op.regained]; split <;> simp)
    · split
      · exact ih
      · rfl

/-- **C128.**  Arrays that were lost are allocated until the program ends, whatever the program does and even if all objects are dropped. -/
theorem arrays_stay {c : Compiler} {ops : List Op} (h : Careful c ∅ ops) :
    ∃ s, run c ops start = .ok s ∧
      ∀ n, (lostBy c ops start).count (.array n) ≤ (s.heap.live.map Prod.snd).count (.array n) := by
  obtain ⟨s, K, A, h1, i, hK⟩ := run_inv (inv_start ∅) h
  refine ⟨s, h1, fun n => ?_⟩
  have h2 := congrArg (Multiset.count (.array n)) hK
  simp only [Multiset.count_add, regained_array, Multiset.map_zero, add_zero, zero_add] at h2
  rw [← h2, ← Multiset.coe_count, ← Multiset.map_coe, i.live, Multiset.map_add, Multiset.count_add]
  exact Nat.le_add_left _ _

/-! ## False in general -/

theorem run_append {c : Compiler} {xs ys : List Op} : ∀ {s : State}, run c (xs ++ ys) s = run c xs s >>= run c ys := by
  induction xs with
  | nil => intro s; rfl
  | cons x xs ih =>
    intro s
    simp only [List.cons_append, run]
    cases step c s x <;> simp [ih]

theorem uses_run (c : Compiler) (o : Obj) (m n : ℕ) : ∀ h : Heap,
    ∃ h' L, run c (List.replicate n (.use 0 (.array m))) ⟨h, [some o]⟩ = .ok ⟨h', [some o]⟩ ∧ h'.live = L ++ h.live ∧
      L.map Prod.snd = List.replicate n (.array m) := by
  induction n with
  | zero => intro h; exact ⟨h, [], rfl, rfl, rfl⟩
  | succ n ih =>
    intro h
    obtain ⟨h', L, h1, h2, h3⟩ := ih (h.new (.array m)).2
    refine ⟨h', L ++ [(h.new (.array m)).1], ?_, ?_, ?_⟩
    · rw [List.replicate_succ]
      exact h1
    · rw [h2]; simp [Heap.new]
    · rw [List.map_append, h3, List.replicate_succ']
      rfl

/-- **C128 is false.**  `n` calls of `transform` with arrays of `m` numbers: when the transformation is gone, `n` arrays of `m` numbers are
still allocated. -/
theorem transform_fails (c : Compiler) (n m : ℕ) :
    ∃ s, run c (.initOwner :: (List.replicate n (.use 0 (.array m)) ++ [.drop 0])) start = .ok s ∧ Gone s ∧
      s.heap.live.map Prod.snd = List.replicate n (.array m) := by
  obtain ⟨h', L, h1, h2, h3⟩ := uses_run c (.owner true (some (0, .object)) none) m n ⟨1, [(0, .object)]⟩
  have hm : ((0, Block.object) : Ptr) ∉ L := by
    intro hc
    have : Block.object ∈ L.map Prod.snd := List.mem_map_of_mem hc
    rw [h3, List.mem_replicate] at this
    cases this.2
  refine ⟨⟨⟨h'.next, L⟩, [none]⟩, ?_, by simp [Gone], h3⟩
  have h0 : step c start .initOwner = .ok (⟨⟨1, [(0, .object)]⟩, [some (.owner true (some (0, .object)) none)]⟩, false) := rfl
  simp only [run, h0, Outcome.ok_bind]
  rw [run_append, h1]
  simp only [Outcome.ok_bind, run, step, State.get, List.getElem?_cons_zero, Option.join_some, Obj.deleted, Heap.delAll, Heap.del, h2]
  rw [if_pos (by simp)]
  simp [List.erase_append_right _ hm]

/-- A k-means object is never released. -/
theorem kMeans_fails (c : Compiler) : run c [.kMeans, .drop 0] start = .ok ⟨⟨1, [(0, .object)]⟩, [none]⟩ := rfl

/-- `__init__` once more: the old C++ object is lost. -/
theorem init_again_fails (c : Compiler) : run c [.initOwner, .init 0, .drop 0] start = .ok ⟨⟨2, [(0, .object)]⟩, [none]⟩ := rfl

/-- An entry that is no number: the exception can be handled, the array is lost. -/
theorem entry_fails (n : ℕ) : run .raises [.net, .predict 0 (.entry n), .drop 0] start = .ok ⟨⟨2, [(1, .array n)]⟩, [none]⟩ := by
  simp [run, step, start, State.add, State.get, State.raise, Heap.new, convert, excepted, Obj.deleted, Heap.delAll, Heap.del]

/-- A target with a wrong number of dimensions: the instance is lost. -/
theorem sample_fails (n : ℕ) : run .raises [.stream, .addSample 0 (.array n) (some .shape), .drop 0] start =
    .ok ⟨⟨2, [(1, .array n)]⟩, [none]⟩ := by
  simp [run, step, start, State.add, State.get, State.raise, Heap.new, convert, excepted, Obj.deleted, Heap.delAll, Heap.del]

/-- A sigma-pi layer that is not added to a network is lost. -/
theorem sigmaPi_unused_fails (c : Compiler) : run c [.net, .sigmaPi 0, .drop 1, .drop 0] start = .ok ⟨⟨2, [(1, .object)]⟩, [none, none]⟩ := rfl

/-- Adding the same sigma-pi layer twice: it is deleted twice. -/
theorem addLayer_twice_ub (c : Compiler) : run c [.net, .sigmaPi 0, .addLayer 0 1, .addLayer 0 1, .drop 0] start = .ub := rfl

/-- The network is gone, the layer is used in another one. -/
theorem addLayer_freed_ub (c : Compiler) : run c [.net, .sigmaPi 0, .addLayer 0 1, .drop 0, .net, .addLayer 2 1] start = .ub := rfl

/-- A compiler that ignores exceptions in C functions: a null pointer is used. -/
theorem shape_ignored_ub : run .ignores [.net, .predict 0 .shape] start = .ub := rfl

/-! ## Examples -/

/-- A program with a data set, a network with a layer, an optimiser, predictions and a stream is tidy; its objects are gone at the end. -/
example : (∀ op ∈ ([.dataSet (some (.array 6)) (some (.array 3)), .net, .layer 1, .optimizer true, .predict 1 (.array 6), .stream,
      .addSample 3 (.array 2) (some (.array 1)), .drop 1, .drop 0, .drop 3, .drop 2] : List Op), op.Tidy) ∧
    ∃ s, run .raises [.dataSet (some (.array 6)) (some (.array 3)), .net, .layer 1, .optimizer true, .predict 1 (.array 6), .stream,
      .addSample 3 (.array 2) (some (.array 1)), .drop 1, .drop 0, .drop 3, .drop 2] start = .ok s ∧ Gone s ∧ s.heap.next = 12 := by
  refine ⟨by simp [Op.Tidy, Arg.ok, Arg.valid], ⟨⟨12, []⟩, [none, none, none, none]⟩, rfl, by simp [Gone], rfl⟩

/-- A careful program with a sigma-pi layer loses and regains the layer; the transformed array is lost. -/
example : Careful .raises ∅ [.net, .sigmaPi 0, .distance 1, .addLayer 0 1, .initOwner, .use 2 (.array 5), .drop 1, .drop 0, .drop 2] ∧
    lostBy .raises [.net, .sigmaPi 0, .distance 1, .addLayer 0 1, .initOwner, .use 2 (.array 5), .drop 1, .drop 0, .drop 2] start =
      {.object, .array 5} ∧
    regainedBy .raises [.net, .sigmaPi 0, .distance 1, .addLayer 0 1, .initOwner, .use 2 (.array 5), .drop 1, .drop 0, .drop 2] start =
      {.object} ∧
    run .raises [.net, .sigmaPi 0, .distance 1, .addLayer 0 1, .initOwner, .use 2 (.array 5), .drop 1, .drop 0, .drop 2] start =
      .ok ⟨⟨5, [(4, .array 5)]⟩, [none, none, none]⟩ := by
  refine ⟨?_, rfl, rfl, rfl⟩
  simp [Careful, Op.Fine, Op.Once, Op.added]

end Verif.PyMem
