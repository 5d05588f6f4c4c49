/-!
# Outcomes of modelled C++ code

`Outcome α` is the result of running a piece of modelled C++ code.

* `ok a`         - normal return with value `a`
* `throws`       - a C++ exception is thrown (usually OpenANN/util/OpenANNException.h)
* `checkFailed`  - an `OPENANN_CHECK*` macro aborts
                   (OpenANN/util/AssertionMacros.h; compiled out under `NDEBUG`)
* `ub`           - undefined behaviour (out-of-bounds access, integer division by
                   zero, use of freed or uninitialised memory, missing `return`);
                   also a violated Eigen index assertion (which aborts in debug builds only)
-/

namespace Verif

inductive Outcome (α : Type _) where
  | ok (a : α)
  | throws
  | checkFailed
  | ub
  deriving DecidableEq, Repr

namespace Outcome

/-- Sequencing: anything but a normal return ends the computation. -/
def bind {α : Type _} {β : Type _} (x : Outcome α) (f : α → Outcome β) : Outcome β :=
  match x with
  | ok a => f a
  | throws => throws
  | checkFailed => checkFailed
  | ub => ub

instance : Monad Outcome where
  pure := ok
  bind := bind

@[simp] theorem pure_eq {α : Type u} (a : α) : (pure a : Outcome α) = ok a := rfl
@[simp] theorem ok_bind {α β : Type u} (a : α) (f : α → Outcome β) : (ok a >>= f) = f a := rfl
@[simp] theorem throws_bind {α β : Type u} (f : α → Outcome β) :
    ((throws : Outcome α) >>= f) = throws := rfl
@[simp] theorem checkFailed_bind {α β : Type u} (f : α → Outcome β) :
    ((checkFailed : Outcome α) >>= f) = checkFailed := rfl
@[simp] theorem ub_bind {α β : Type u} (f : α → Outcome β) :
    ((ub : Outcome α) >>= f) = ub := rfl
@[simp] theorem map_ok {α β : Type u} (g : α → β) (a : α) : (g <$> (ok a : Outcome α)) = ok (g a) := rfl

theorem bind_eq_ok {α β : Type u} {x : Outcome α} {f : α → Outcome β} {b : β} :
    (x >>= f) = ok b ↔ ∃ a, x = ok a ∧ f a = ok b := by
  cases x <;> simp

instance : LawfulMonad Outcome := LawfulMonad.mk'
  (id_map := by intro α x; cases x <;> rfl)
  (pure_bind := by intros; rfl)
  (bind_assoc := by intro α β γ x f g; cases x <;> rfl)

/-- `OPENANN_CHECK(c)` (OpenANN/util/AssertionMacros.h): abort unless `c` holds. -/
def check (c : Prop) [Decidable c] : Outcome Unit :=
  if c then ok () else checkFailed

@[simp] theorem check_true {c : Prop} [Decidable c] (h : c) : check c = ok () := if_pos h
@[simp] theorem check_false {c : Prop} [Decidable c] (h : ¬ c) : check c = checkFailed := if_neg h

/-- Array access `l[i]` with an unchecked index: outside of the array it is undefined behaviour. -/
def read {α : Type _} (l : List α) (i : Nat) : Outcome α :=
  match l[i]? with
  | some a => ok a
  | none => ub

theorem read_eq_ok {α : Type _} {l : List α} {i : Nat} {a : α} :
    read l i = ok a ↔ l[i]? = some a := by
  unfold read; split <;> simp_all

theorem read_of_lt {α : Type _} {l : List α} {i : Nat} (h : i < l.length) :
    read l i = ok l[i] := by
  simp [read, h]

theorem read_of_ge {α : Type _} {l : List α} {i : Nat} (h : l.length ≤ i) :
    read l i = ub := by
  simp [read, h]

/-- Array write `l[i] = a` with an unchecked index. -/
def write {α : Type _} (l : List α) (i : Nat) (a : α) : Outcome (List α) :=
  if i < l.length then ok (l.set i a) else ub

end Outcome
end Verif

namespace Verif.Outcome

/-- Array access with a C++ `int` index; negative indices are out of bounds as well. -/
def readZ {α : Type _} (l : List α) (i : Int) : Outcome α :=
  if i < 0 then ub else read l i.toNat

/-- The range `[begin + b, begin + e)` of a vector given by two iterators; iterators outside
of `[begin, end]` or in the wrong order are undefined behaviour. -/
def slice {α : Type _} (l : List α) (b e : Int) : Outcome (List α) :=
  if 0 ≤ b ∧ b ≤ e ∧ e ≤ l.length then ok ((l.drop b.toNat).take (e - b).toNat) else ub

end Verif.Outcome
