import Verif.Model.Outcome
import Mathlib.Algebra.BigOperators.Group.Finset.Basic
import Mathlib.Tactic.Ring

/-!
# Loops

`forLoop n body s` is `for(int i = 0; i < n; i++) body(i)` on a state, `stepLoop hi st body i s` is
`for(; i < hi; i += st) body(i)`.
-/

namespace Verif

open Finset

/-- `for(int i = 0; i < n; i++)` -/
def forLoop {σ : Type} : ℕ → (ℕ → σ → Outcome σ) → σ → Outcome σ
  | 0, _, s => .ok s
  | n + 1, body, s => forLoop n body s >>= body n

/-- `for(; i < hi; i += st)`; the model stops if the step is 0 (there the C++ loop would not terminate; the layers divide
by the step before, which is undefined for 0). -/
def stepLoop {σ : Type} (hi st : ℕ) (body : ℕ → σ → Outcome σ) (i : ℕ) (s : σ) : Outcome σ :=
  if _h : i < hi ∧ 0 < st then
    body i s >>= fun s' => stepLoop hi st body (i + st) s'
  else .ok s
termination_by hi - i

theorem forLoop_eq {σ : Type} {n : ℕ} {body : ℕ → σ → Outcome σ} (f : ℕ → σ)
    (h : ∀ i < n, body i (f i) = .ok (f (i + 1))) : forLoop n body (f 0) = .ok (f n) := by
  induction n with
  | zero => rfl
  | succ n ih =>
    rw [forLoop, ih fun i hi => h i (Nat.lt_succ_of_lt hi), Outcome.ok_bind]
    exact h n (Nat.lt_succ_self n)

theorem forLoop_congr {σ : Type} {n : ℕ} {b1 b2 : ℕ → σ → Outcome σ} (h : ∀ i < n, ∀ s, b1 i s = b2 i s) (s : σ) :
    forLoop n b1 s = forLoop n b2 s := by
  induction n with
  | zero => rfl
  | succ n ih =>
    rw [forLoop, forLoop, ih fun i hi => h i (Nat.lt_succ_of_lt hi)]
    congr 1
    funext s'
    exact h n (Nat.lt_succ_self n) s'

/-- A loop whose body adds `c i` to the state adds the sum. -/
theorem forLoop_add {α : Type} [AddCommMonoid α] {n : ℕ} {body : ℕ → α → Outcome α} (c : ℕ → α)
    (h : ∀ i < n, ∀ s, body i s = .ok (s + c i)) (s : α) :
    forLoop n body s = .ok (s + ∑ i ∈ range n, c i) := by
  have := forLoop_eq (n := n) (body := body) (fun k => s + ∑ i ∈ range k, c i) (fun i hi => by
    rw [h i hi, Finset.sum_range_succ, add_assoc])
  simpa using this

/-- The same with an index that moves by `δ` in each iteration. -/
theorem forLoop_acc {α : Type} [AddCommMonoid α] {n : ℕ} {body : ℕ → α × ℕ → Outcome (α × ℕ)} (b0 δ : ℕ) (c : ℕ → α)
    (h : ∀ i < n, ∀ s, body i (s, b0 + i * δ) = .ok (s + c i, b0 + (i + 1) * δ)) (s : α) :
    forLoop n body (s, b0) = .ok (s + ∑ i ∈ range n, c i, b0 + n * δ) := by
  have := forLoop_eq (n := n) (body := body) (fun k => (s + ∑ i ∈ range k, c i, b0 + k * δ)) (fun i hi => by
    rw [h i hi, Finset.sum_range_succ, add_assoc])
  simpa using this

theorem stepLoop_succ {σ : Type} {hi st : ℕ} {body : ℕ → σ → Outcome σ} {i : ℕ} {s : σ} (h : i < hi) (hst : 0 < st) :
    stepLoop hi st body i s = body i s >>= fun s' => stepLoop hi st body (i + st) s' := by
  rw [stepLoop, dif_pos ⟨h, hst⟩]

theorem stepLoop_done {σ : Type} {hi st : ℕ} {body : ℕ → σ → Outcome σ} {i : ℕ} {s : σ} (h : hi ≤ i) :
    stepLoop hi st body i s = .ok s := by
  rw [stepLoop, dif_neg (fun h' => absurd h'.1 (by omega))]

theorem forLoop_shift {σ : Type} (n : ℕ) (body : ℕ → σ → Outcome σ) (s : σ) :
    forLoop (n + 1) body s = body 0 s >>= fun s' => forLoop n (fun i => body (i + 1)) s' := by
  induction n generalizing s with
  | zero =>
    simp only [forLoop, Outcome.ok_bind]
    cases body 0 s <;> rfl
  | succ n ih =>
    rw [forLoop, ih, bind_assoc]
    rfl

/-- `for(i = r0 * st; i < hi; i += st)` makes `m` iterations if `(r0 + m - 1) * st < hi ≤ (r0 + m) * st`. -/
theorem stepLoop_eq_forLoop {σ : Type} {hi st : ℕ} (hst : 0 < st) (body : ℕ → σ → Outcome σ) (m r0 : ℕ) (s : σ)
    (h1 : ∀ r < m, (r0 + r) * st < hi) (h2 : hi ≤ (r0 + m) * st) :
    stepLoop hi st body (r0 * st) s = forLoop m (fun r => body ((r0 + r) * st)) s := by
  induction m generalizing r0 s with
  | zero => exact stepLoop_done (by simpa using h2)
  | succ m ih =>
    rw [stepLoop_succ (by simpa using h1 0 (Nat.succ_pos m)) hst, forLoop_shift]
    congr 1
    funext s'
    have e : r0 * st + st = (r0 + 1) * st := by ring
    rw [e, ih (r0 + 1) s' (fun r hr => by have := h1 (r + 1) (by omega); rwa [show r0 + 1 + r = r0 + (r + 1) by omega])
      (by rwa [show r0 + 1 + m = r0 + (m + 1) by omega])]
    refine forLoop_congr (fun i _ s => ?_) s'
    rw [show r0 + 1 + i = r0 + (i + 1) by omega]

/-- The window loops of the pooling layers: `for(i = 0; i < size - k + 1; i += k)` makes `size / k` iterations. -/
theorem stepLoop_windows {σ : Type} {size k : ℕ} (hk : 0 < k) (hks : k ≤ size) (body : ℕ → σ → Outcome σ) (s : σ) :
    stepLoop (size - k + 1) k body 0 s = forLoop (size / k) (fun r => body (r * k)) s := by
  have h := stepLoop_eq_forLoop hk body (size / k) 0 s (hi := size - k + 1)
    (fun r hr => by
      have : (r + 1) * k ≤ size := (Nat.mul_le_mul_right k hr).trans (Nat.div_mul_le_self size k)
      have e : (r + 1) * k = r * k + k := by ring
      rw [Nat.zero_add]
      omega)
    (by
      have h1 := Nat.lt_div_mul_add (a := size) hk
      rw [Nat.zero_add]
      omega)
  simpa using h

/-- A loop whose state follows the state of a simpler loop. -/
theorem forLoop_track {σ τ : Type} {n : ℕ} {b : ℕ → τ → Outcome τ} {c : ℕ → σ → Outcome σ} (f : ℕ → σ → τ)
    (h : ∀ i < n, ∀ s, b i (f i s) = c i s >>= fun t => pure (f (i + 1) t)) (s : σ) :
    forLoop n b (f 0 s) = forLoop n c s >>= fun t => pure (f n t) := by
  induction n with
  | zero => rfl
  | succ n ih =>
    rw [forLoop, ih fun i hi => h i (Nat.lt_succ_of_lt hi), forLoop, bind_assoc, bind_assoc]
    congr 1
    funext t
    exact h n (Nat.lt_succ_self n) t

theorem forLoop_append {σ : Type} (n m : ℕ) (b : ℕ → σ → Outcome σ) (s : σ) :
    forLoop (n + m) b s = forLoop n b s >>= forLoop m fun i => b (n + i) := by
  induction m with
  | zero =>
    simp only [forLoop, Nat.add_zero]
    cases forLoop n b s <;> rfl
  | succ m ih =>
    rw [← Nat.add_assoc, forLoop, ih, bind_assoc]
    rfl

/-- Two nested loops are one loop over the index `a * B + b`. -/
theorem forLoop_flatten {σ : Type} {B : ℕ} (hB : 0 < B) (A : ℕ) (body : ℕ → ℕ → σ → Outcome σ) (s : σ) :
    forLoop A (fun a => forLoop B (body a)) s = forLoop (A * B) (fun i => body (i / B) (i % B)) s := by
  induction A with
  | zero => rw [Nat.zero_mul]; rfl
  | succ A ih =>
    rw [forLoop, ih, Nat.succ_mul, forLoop_append]
    congr 1
    funext t
    refine forLoop_congr (fun i hi s => ?_) t
    rw [Nat.add_comm, Nat.add_mul_div_right _ _ hB, Nat.add_mul_mod_self_right, Nat.div_eq_of_lt hi, Nat.mod_eq_of_lt hi,
      Nat.zero_add]

theorem sum_flatten {M : Type} [AddCommMonoid M] {B : ℕ} (hB : 0 < B) (A : ℕ) (f : ℕ → ℕ → M) :
    ∑ i ∈ range (A * B), f (i / B) (i % B) = ∑ a ∈ range A, ∑ b ∈ range B, f a b := by
  induction A with
  | zero => simp
  | succ A ih =>
    rw [Nat.succ_mul, Finset.sum_range_add, ih, Finset.sum_range_succ]
    refine congrArg _ (Finset.sum_congr rfl fun i hi => ?_)
    rw [mem_range] at hi
    rw [Nat.add_comm, Nat.add_mul_div_right _ _ hB, Nat.add_mul_mod_self_right, Nat.div_eq_of_lt hi, Nat.mod_eq_of_lt hi,
      Nat.zero_add]

end Verif
