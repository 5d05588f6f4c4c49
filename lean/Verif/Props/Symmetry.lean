import Verif.Props.DeterminedGradient
import Verif.Props.DropoutMean
import Mathlib.Logic.Equiv.Basic

/-!
# Hidden units can be exchanged (C86): the network

Exchanging hidden units - their incoming weights, their biases and their outgoing weights - changes neither predictions nor
errors, and exchanges the entries of the gradient.
-/

namespace Verif.NN

open Finset

noncomputable section

/-! ## Spec -/

/-- Spec: the place of a weight after unit `j` of layer `k` was renamed to `π j`. -/
def exchange (k : ℕ) (π : ℕ → ℕ) : Loc → Loc
  | (l, .w [j, i]) => if l = k then (l, .w [π j, i]) else if l = k + 1 then (l, .w [j, π i]) else (l, .w [j, i])
  | (l, .b [j]) => if l = k then (l, .b [π j]) else (l, .b [j])
  | p => p

/-- Spec: the weights after the units of layer `k` were exchanged. -/
def exchanged (k : ℕ) (π : ℕ → ℕ) (mem : Mem) : Mem := fun l s => mem (exchange k π (l, s)).1 (exchange k π (l, s)).2

/-! ## Sums -/

theorem sum_perm {J : ℕ} {π : Equiv.Perm ℕ} (hπ : ∀ j, π j < J ↔ j < J) (f : ℕ → ℝ) :
    ∑ j ∈ range J, f (π j) = ∑ j ∈ range J, f j :=
  Finset.sum_equiv π (fun j => by rw [mem_range, mem_range, hπ]) fun _ _ => rfl

/-! ## Layers -/

/-- Rows of the weight matrix and biases are renamed. -/
def rowSlot (π : ℕ → ℕ) : Slot → Slot
  | .w [j, i] => .w [π j, i]
  | .b [j] => .b [π j]
  | s => s

/-- Columns of the weight matrix are renamed. -/
def colSlot (π : ℕ → ℕ) : Slot → Slot
  | .w [j, i] => .w [j, π i]
  | s => s

/-- A layer whose outputs are renamed if its rows are renamed. -/
structure OutSym (π : ℕ → ℕ) (l : Layer) : Prop where
  forward : ∀ w N x, l.forward (fun s => w (rowSlot π s)) N x = fun n j => l.forward w N x n (π j)
  regError : ∀ w, l.regError (fun s => w (rowSlot π s)) = l.regError w
  derivs : ∀ w N x e, l.derivs (fun s => w (rowSlot π s)) N x (fun n j => e n (π j)) =
    fun s => l.derivs w N x e (rowSlot π s)
  back : ∀ w N x e stale f, l.back (fun s => w (rowSlot π s)) N x (fun n j => e n (π j)) f stale = l.back w N x e f stale
  updated : ∀ w, l.updated (fun s => w (rowSlot π s)) = fun s => l.updated w (rowSlot π s)
  pointers : ∀ s ∈ l.pointers, rowSlot π s ∈ l.pointers

/-- A layer that does not notice if its inputs and its columns are renamed. -/
structure InSym (π : ℕ → ℕ) (l : Layer) : Prop where
  forward : ∀ w N x, l.forward (fun s => w (colSlot π s)) N (fun n j => x n (π j)) = l.forward w N x
  regError : ∀ w, l.regError (fun s => w (colSlot π s)) = l.regError w
  derivs : ∀ w N x e, l.derivs (fun s => w (colSlot π s)) N (fun n j => x n (π j)) e =
    fun s => l.derivs w N x e (colSlot π s)
  back : ∀ w N x e stale, l.back (fun s => w (colSlot π s)) N (fun n j => x n (π j)) e true stale =
    fun n j => l.back w N x e true stale n (π j)
  updated : ∀ w, l.updated (fun s => w (colSlot π s)) = fun s => l.updated w (colSlot π s)
  pointers : ∀ s ∈ l.pointers, colSlot π s ∈ l.pointers

theorem maxNormUpdate_w (I : ℕ) (m : ℝ) (w : Weights) (j i : ℕ) : maxNormUpdate I m w (.w [j, i]) =
    if 0 < m ∧ m < ∑ i' ∈ range I, w (.w [j, i']) ^ 2 then
      w (.w [j, i]) * Real.sqrt (m / ∑ i' ∈ range I, w (.w [j, i']) ^ 2)
    else w (.w [j, i]) := rfl

theorem fullyConnected_outSym {I J : ℕ} {bias : Bool} {act : Act} {reg : Reg} {π : Equiv.Perm ℕ}
    (hπ : ∀ j, π j < J ↔ j < J) : OutSym π (fullyConnected I J bias act reg) where
  forward w N x := by
    cases bias <;> rfl
  regError w := by
    show reg.error (∑ j ∈ range J, ∑ i ∈ range I, |w (.w [π j, i])|) (∑ j ∈ range J, ∑ i ∈ range I, w (.w [π j, i]) ^ 2) =
      reg.error (∑ j ∈ range J, ∑ i ∈ range I, |w (.w [j, i])|) (∑ j ∈ range J, ∑ i ∈ range I, w (.w [j, i]) ^ 2)
    rw [sum_perm hπ fun j => ∑ i ∈ range I, |w (.w [j, i])|, sum_perm hπ fun j => ∑ i ∈ range I, w (.w [j, i]) ^ 2]
  derivs w N x e := by
    funext s
    cases bias <;> (cases s with
      | w idx =>
        match idx with
        | [] => rfl
        | [_] => rfl
        | [j, i] => rfl
        | _ :: _ :: _ :: _ => rfl
      | b idx =>
        match idx with
        | [] => rfl
        | [j] => rfl
        | _ :: _ :: _ => rfl)
  back w N x e stale f := by
    cases f
    · rfl
    · funext n i
      have key := sum_perm hπ fun j =>
        deltas act (act.map (dense I w.mat (w.vec bias) x)) e n j * w (.w [j, i])
      refine Eq.trans ?_ key
      cases bias <;> rfl
  updated w := by
    funext s
    cases s with
    | w idx =>
      match idx with
      | [] => rfl
      | [_] => rfl
      | [j, i] => rfl
      | _ :: _ :: _ :: _ => rfl
    | b idx =>
      match idx with
      | [] => rfl
      | [j] => rfl
      | _ :: _ :: _ => rfl
  pointers s hs := by
    have hs' : s ∈ denseSlots I J bias := hs
    show rowSlot π s ∈ denseSlots I J bias
    rw [mem_denseSlots] at hs' ⊢
    rcases hs' with ⟨j, hj, i, hi, rfl⟩ | ⟨hb, j, hj, rfl⟩
    · exact Or.inl ⟨π j, (hπ j).2 hj, i, hi, rfl⟩
    · exact Or.inr ⟨hb, π j, (hπ j).2 hj, rfl⟩

theorem compressed_outSym {I J M : ℕ} {bias : Bool} {act : Act} {reg : Reg} {phi : Batch} {π : Equiv.Perm ℕ}
    (hπ : ∀ j, π j < J ↔ j < J) : OutSym π (compressed I J M bias act reg phi) where
  forward w N x := by
    cases bias <;> rfl
  regError w := by
    show reg.error (∑ j ∈ range J, ∑ i ∈ range M, |w (.w [π j, i])|) (∑ j ∈ range J, ∑ i ∈ range M, w (.w [π j, i]) ^ 2) =
      reg.error (∑ j ∈ range J, ∑ i ∈ range M, |w (.w [j, i])|) (∑ j ∈ range J, ∑ i ∈ range M, w (.w [j, i]) ^ 2)
    rw [sum_perm hπ fun j => ∑ i ∈ range M, |w (.w [j, i])|, sum_perm hπ fun j => ∑ i ∈ range M, w (.w [j, i]) ^ 2]
  derivs w N x e := by
    funext s
    cases bias <;> (cases s with
      | w idx =>
        match idx with
        | [] => rfl
        | [_] => rfl
        | [j, i] => rfl
        | _ :: _ :: _ :: _ => rfl
      | b idx =>
        match idx with
        | [] => rfl
        | [j] => rfl
        | _ :: _ :: _ => rfl)
  back w N x e stale f := by
    cases f
    · rfl
    · funext n i
      have key := sum_perm hπ fun j =>
        deltas act (act.map (dense I (compressedW M phi w) (compressedBias I M bias phi w) x)) e n j * compressedW M phi w j i
      refine Eq.trans ?_ key
      cases bias <;> rfl
  updated w := rfl
  pointers s hs := by
    have hs' : s ∈ denseSlots M J false := hs
    show rowSlot π s ∈ denseSlots M J false
    rw [mem_denseSlots] at hs' ⊢
    rcases hs' with ⟨j, hj, i, hi, rfl⟩ | ⟨hb, j, hj, rfl⟩
    · exact Or.inl ⟨π j, (hπ j).2 hj, i, hi, rfl⟩
    · cases hb

theorem dense_perm {J : ℕ} {π : Equiv.Perm ℕ} (hπ : ∀ j, π j < J ↔ j < J) (w : Weights) (b : ℕ → ℝ) (x : Batch) :
    dense J (Weights.mat fun s => w (colSlot π s)) b (fun n j => x n (π j)) = dense J w.mat b x := by
  funext n j
  exact congrArg (· + b j) (sum_perm hπ fun i => x n i * w (.w [j, i]))

theorem fullyConnected_inSym {J K : ℕ} {bias : Bool} {act : Act} {reg : Reg} {π : Equiv.Perm ℕ}
    (hπ : ∀ j, π j < J ↔ j < J) : InSym π (fullyConnected J K bias act reg) where
  forward w N x := by
    show act.map (dense J _ (w.vec bias) _) = _
    rw [dense_perm hπ]
    rfl
  regError w := by
    show reg.error (∑ j ∈ range K, ∑ i ∈ range J, |w (.w [j, π i])|) (∑ j ∈ range K, ∑ i ∈ range J, w (.w [j, π i]) ^ 2) =
      reg.error (∑ j ∈ range K, ∑ i ∈ range J, |w (.w [j, i])|) (∑ j ∈ range K, ∑ i ∈ range J, w (.w [j, i]) ^ 2)
    rw [sum_congr rfl fun j _ => sum_perm hπ fun i => |w (.w [j, i])|,
      sum_congr rfl fun j _ => sum_perm hπ fun i => w (.w [j, i]) ^ 2]
  derivs w N x e := by
    funext s
    have hd := dense_perm hπ w (w.vec bias) x
    cases s with
    | w idx =>
      match idx with
      | [] => rfl
      | [_] => rfl
      | [j, i] =>
        show ∑ n ∈ range N, deltas act (act.map (dense J _ (w.vec bias) _)) e n j * x n (π i) + reg.deriv (w (.w [j, π i])) = _
        rw [hd]
        rfl
      | _ :: _ :: _ :: _ => rfl
    | b idx =>
      match idx with
      | [] => rfl
      | [j] =>
        show ∑ n ∈ range N, deltas act (act.map (dense J _ (w.vec bias) _)) e n j = _
        rw [hd]
        rfl
      | _ :: _ :: _ => rfl
  back w N x e stale := by
    funext n i
    have hd := dense_perm hπ w (w.vec bias) x
    show ∑ j ∈ range K, deltas act (act.map (dense J _ (w.vec bias) _)) e n j * w (.w [j, π i]) = _
    rw [hd]
    rfl
  updated w := by
    funext s
    cases s with
    | w idx =>
      match idx with
      | [] => rfl
      | [_] => rfl
      | [j, i] =>
        show maxNormUpdate J reg.maxNorm (fun s => w (colSlot π s)) (.w [j, i]) = maxNormUpdate J reg.maxNorm w (.w [j, π i])
        rw [maxNormUpdate_w, maxNormUpdate_w]
        have e : ∑ i' ∈ range J, (fun s => w (colSlot π s)) (.w [j, i']) ^ 2 = ∑ i' ∈ range J, w (.w [j, i']) ^ 2 :=
          sum_perm hπ fun i' => w (.w [j, i']) ^ 2
        rw [e]
        rfl
      | _ :: _ :: _ :: _ => rfl
    | b idx =>
      match idx with
      | [] => rfl
      | [j] => rfl
      | _ :: _ :: _ => rfl
  pointers s hs := by
    have hs' : s ∈ denseSlots J K bias := hs
    show colSlot π s ∈ denseSlots J K bias
    rw [mem_denseSlots] at hs' ⊢
    rcases hs' with ⟨j, hj, i, hi, rfl⟩ | ⟨hb, j, hj, rfl⟩
    · exact Or.inl ⟨j, hj, π i, (hπ i).2 hi, rfl⟩
    · exact Or.inr ⟨hb, j, hj, rfl⟩

/-! ## Exchanged memory -/

theorem exchange_row (k : ℕ) (π : ℕ → ℕ) (s : Slot) : exchange k π (k, s) = (k, rowSlot π s) := by
  cases s with
  | w idx =>
    match idx with
    | [] => rfl
    | [_] => rfl
    | [j, i] => exact if_pos rfl
    | _ :: _ :: _ :: _ => rfl
  | b idx =>
    match idx with
    | [] => rfl
    | [j] => exact if_pos rfl
    | _ :: _ :: _ => rfl

theorem exchange_col (k : ℕ) (π : ℕ → ℕ) (s : Slot) : exchange k π (k + 1, s) = (k + 1, colSlot π s) := by
  cases s with
  | w idx =>
    match idx with
    | [] => rfl
    | [_] => rfl
    | [j, i] => exact (if_neg (by omega)).trans (if_pos rfl)
    | _ :: _ :: _ :: _ => rfl
  | b idx =>
    match idx with
    | [] => rfl
    | [j] => exact if_neg (by omega)
    | _ :: _ :: _ => rfl

theorem exchange_other {k l : ℕ} (π : ℕ → ℕ) (h1 : l ≠ k) (h2 : l ≠ k + 1) (s : Slot) : exchange k π (l, s) = (l, s) := by
  cases s with
  | w idx =>
    match idx with
    | [] => rfl
    | [_] => rfl
    | [j, i] => exact (if_neg h1).trans (if_neg h2)
    | _ :: _ :: _ :: _ => rfl
  | b idx =>
    match idx with
    | [] => rfl
    | [j] => exact if_neg h1
    | _ :: _ :: _ => rfl

theorem exchanged_row (k : ℕ) (π : ℕ → ℕ) (mem : Mem) : exchanged k π mem k = fun s => mem k (rowSlot π s) := by
  funext s
  rw [exchanged, exchange_row]

theorem exchanged_col (k : ℕ) (π : ℕ → ℕ) (mem : Mem) : exchanged k π mem (k + 1) = fun s => mem (k + 1) (colSlot π s) := by
  funext s
  rw [exchanged, exchange_col]

theorem exchanged_other {k l : ℕ} (π : ℕ → ℕ) (mem : Mem) (h1 : l ≠ k) (h2 : l ≠ k + 1) : exchanged k π mem l = mem l := by
  funext s
  rw [exchanged, exchange_other π h1 h2]

theorem exchange_inv (k : ℕ) (π : Equiv.Perm ℕ) (p : Loc) : exchange k π.symm (exchange k π p) = p := by
  obtain ⟨l, s⟩ := p
  by_cases h1 : l = k
  · subst h1
    rw [exchange_row, exchange_row]
    cases s with
    | w idx =>
      match idx with
      | [] => rfl
      | [_] => rfl
      | [j, i] => simp [rowSlot]
      | _ :: _ :: _ :: _ => rfl
    | b idx =>
      match idx with
      | [] => rfl
      | [j] => simp [rowSlot]
      | _ :: _ :: _ => rfl
  · by_cases h2 : l = k + 1
    · subst h2
      rw [exchange_col, exchange_col]
      cases s with
      | w idx =>
        match idx with
        | [] => rfl
        | [_] => rfl
        | [j, i] => simp [colSlot]
        | _ :: _ :: _ :: _ => rfl
      | b idx => rfl
    · rw [exchange_other _ h1 h2, exchange_other _ h1 h2]

/-! ## Networks -/

theorem forwardFrom_agree {mem mem' : Mem} {N : ℕ} : ∀ (ls : List Layer) (m : ℕ) (x : Batch),
    (∀ l, m ≤ l → l < m + ls.length → mem l = mem' l) → forwardFrom mem N m ls x = forwardFrom mem' N m ls x
  | [], _, _, _ => rfl
  | l :: ls, m, x, h => by
    rw [forwardFrom, forwardFrom, h m le_rfl (by simp)]
    exact forwardFrom_agree ls (m + 1) _ fun l' h1 h2 => h l' (by omega) (by simp; omega)

theorem regFrom_agree {mem mem' : Mem} : ∀ (ls : List Layer) (m : ℕ),
    (∀ l, m ≤ l → l < m + ls.length → mem l = mem' l) → regFrom mem m ls = regFrom mem' m ls
  | [], _, _ => rfl
  | l :: ls, m, h => by
    rw [regFrom, regFrom, h m le_rfl (by simp)]
    exact congrArg _ (regFrom_agree ls (m + 1) fun l' h1 h2 => h l' (by omega) (by simp; omega))

theorem regFrom_append (mem : Mem) : ∀ (A B : List Layer) (m : ℕ),
    regFrom mem m (A ++ B) = regFrom mem m A + regFrom mem (m + A.length) B
  | [], B, m => by simp [regFrom]
  | a :: A, B, m => by
    rw [List.cons_append, regFrom, regFrom, regFrom_append mem A B (m + 1), List.length_cons,
      show m + 1 + A.length = m + (A.length + 1) by omega, add_assoc]

theorem backFrom_cons (mem : Mem) (N : ℕ) (stale : ℕ → Batch) (m : ℕ) (l : Layer) (ls : List Layer) (x e : Batch) (d : Mem) :
    backFrom mem N stale m (l :: ls) x e d =
      backStep mem N stale (m, l, x) (backFrom mem N stale (m + 1) ls (l.forward (mem m) N x) e d) := rfl

theorem backFrom_agree {mem mem' : Mem} {N : ℕ} (stale : ℕ → Batch) (e : Batch) (d : Mem) : ∀ (ls : List Layer) (m : ℕ) (x : Batch),
    (∀ l, m ≤ l → l < m + ls.length → mem l = mem' l) →
      backFrom mem N stale m ls x e d = backFrom mem' N stale m ls x e d
  | [], _, _, _ => rfl
  | l :: ls, m, x, h => by
    rw [backFrom_cons, backFrom_cons, h m le_rfl (by simp),
      backFrom_agree stale e d ls (m + 1) _ fun l' h1 h2 => h l' (by omega) (by simp; omega)]
    simp only [backStep, h m le_rfl (by simp)]

/-- The layers before the exchanged one. -/
theorem backFrom_before {k : ℕ} {π : ℕ → ℕ} {mem : Mem} {N : ℕ} (stale : ℕ → Batch) {B : List Layer} {e : Batch} {d : Mem}
    (hB : ∀ x, backFrom (exchanged k π mem) N stale k B x e d =
      ((backFrom mem N stale k B x e d).1, exchanged k π (backFrom mem N stale k B x e d).2)) :
    ∀ (A : List Layer) (m : ℕ) (x : Batch), m + A.length = k →
      backFrom (exchanged k π mem) N stale m (A ++ B) x e d =
        ((backFrom mem N stale m (A ++ B) x e d).1, exchanged k π (backFrom mem N stale m (A ++ B) x e d).2)
  | [], m, x, hm => by
    have : m = k := by simpa using hm
    subst this
    exact hB x
  | a :: A, m, x, hm => by
    rw [List.length_cons] at hm
    have h1 : m ≠ k := by omega
    have h2 : m ≠ k + 1 := by omega
    rw [List.cons_append, backFrom_cons, backFrom_cons, exchanged_other π mem h1 h2,
      backFrom_before stale hB A (m + 1) _ (by omega)]
    refine Prod.ext ?_ ?_
    · simp only [backStep, exchanged_other π mem h1 h2]
    · funext l s
      simp only [backStep, exchanged_other π mem h1 h2]
      by_cases hl : l = m
      · subst hl
        rw [exchanged, exchange_other π h1 h2, Function.update_self, Function.update_self]
      · rw [Function.update_of_ne hl]
        have : (exchange k π (l, s)).1 = l := by
          by_cases e1 : l = k
          · subst e1; rw [exchange_row]
          · by_cases e2 : l = k + 1
            · subst e2; rw [exchange_col]
            · rw [exchange_other π e1 e2]
        rw [exchanged, exchanged, Function.update_of_ne (by rw [this]; exact hl)]

section

variable {net : Net} {A B : List Layer} {l1 l2 : Layer} {π : ℕ → ℕ} (hnet : net.layers = A ++ l1 :: l2 :: B)
  (ho : OutSym π l1) (hi : InSym π l2)

include hnet ho hi

/-- **Exchanging hidden units does not change the activations of the last layer.** -/
theorem activations_exchanged (mem : Mem) (N : ℕ) (X : Batch) :
    net.activations (exchanged A.length π mem) N X = net.activations mem N X := by
  rw [Net.activations, Net.activations, hnet, forwardFrom_append, forwardFrom_append]
  rw [Nat.zero_add, forwardFrom_agree (mem := exchanged A.length π mem) (mem' := mem) A 0 X
    fun l _ h => exchanged_other π mem (by omega) (by omega)]
  rw [forwardFrom, forwardFrom, forwardFrom, forwardFrom, exchanged_row, ho.forward, exchanged_col, hi.forward]
  exact forwardFrom_agree B _ _ fun l h _ => exchanged_other π mem (by omega) (by omega)

theorem output_exchanged (mem : Mem) (N : ℕ) (X : Batch) :
    net.output (exchanged A.length π mem) N X = net.output mem N X := by
  rw [Net.output, Net.output, activations_exchanged hnet ho hi]

theorem reg_exchanged (mem : Mem) : regFrom (exchanged A.length π mem) 0 net.layers = regFrom mem 0 net.layers := by
  rw [hnet, regFrom_append, regFrom_append, Nat.zero_add, regFrom_agree (mem := exchanged A.length π mem) (mem' := mem) A 0
    fun l _ h => exchanged_other π mem (by omega) (by omega)]
  rw [regFrom, regFrom, regFrom, regFrom, exchanged_row, ho.regError, exchanged_col, hi.regError,
    regFrom_agree (mem := exchanged A.length π mem) (mem' := mem) B _
      fun l h _ => exchanged_other π mem (by omega) (by omega)]

/-- **Backpropagation with exchanged units leaves the exchanged derivatives.** -/
theorem backFrom_exchanged (hA : 0 < A.length) (mem : Mem) (N : ℕ) (stale : ℕ → Batch) (X e : Batch) (d : Mem) :
    backFrom (exchanged A.length π mem) N stale 0 net.layers X e d =
      ((backFrom mem N stale 0 net.layers X e d).1, exchanged A.length π (backFrom mem N stale 0 net.layers X e d).2) := by
  rw [hnet]
  refine backFrom_before stale (fun x => ?_) A 0 X (Nat.zero_add _)
  rw [backFrom_cons, backFrom_cons, backFrom_cons, backFrom_cons, exchanged_row, ho.forward, exchanged_col, hi.forward,
    backFrom_agree (mem := exchanged A.length π mem) (mem' := mem) stale e d B _ _
      fun l h _ => exchanged_other π mem (by omega) (by omega)]
  generalize backFrom mem N stale (A.length + 1 + 1) B _ e d = r
  have hf1 : decide (A.length + 1 + 1 > 2) = true := by simp; omega
  simp only [backStep, exchanged_row, exchanged_col, hf1, hi.derivs, hi.back, ho.derivs, ho.back]
  refine Prod.ext rfl ?_
  funext l s
  dsimp only
  by_cases h1 : l = A.length
  · subst h1
    rw [exchanged, exchange_row, Function.update_self, Function.update_self]
  · by_cases h2 : l = A.length + 1
    · subst h2
      rw [exchanged, exchange_col, Function.update_of_ne (by omega), Function.update_self,
        Function.update_of_ne (by simp), Function.update_self]
    · rw [exchanged, exchange_other π h1 h2, Function.update_of_ne h1, Function.update_of_ne h2,
        Function.update_of_ne h1, Function.update_of_ne h2]

theorem value_exchanged (mem : Mem) (N : ℕ) (X T : Batch) :
    net.value (exchanged A.length π mem) N X T = net.value mem N X T := by
  rw [Net.value, Net.value, reg_exchanged hnet ho hi, output_exchanged hnet ho hi]

omit ho hi in
theorem updatedFrom_exchanged (ho : OutSym π l1) (hi : InSym π l2) (mem : Mem) :
    updatedFrom 0 net.layers (exchanged A.length π mem) = exchanged A.length π (updatedFrom 0 net.layers mem) := by
  have key : ∀ (m : Mem) (l : ℕ), updatedFrom 0 net.layers m l =
      if h : l < net.layers.length then net.layers[l].updated (m l) else m l := by
    intro m l
    split
    · next h => simpa using updatedFrom_getElem (k := 0) (mem := m) h
    · next h => exact updatedFrom_ge (by omega)
  have hk : net.layers[A.length]? = some l1 := by rw [hnet]; simp
  have hk1 : net.layers[A.length + 1]? = some l2 := by rw [hnet]; simp
  funext l
  by_cases h1 : l = A.length
  · subst h1
    obtain ⟨h, e⟩ := List.getElem?_eq_some_iff.1 hk
    rw [exchanged_row, key, dif_pos h, e, exchanged_row, ho.updated, key, dif_pos h, e]
  · by_cases h2 : l = A.length + 1
    · subst h2
      obtain ⟨h, e⟩ := List.getElem?_eq_some_iff.1 hk1
      rw [exchanged_col, key, dif_pos h, e, exchanged_col, hi.updated, key, dif_pos h, e]
    · rw [exchanged_other π _ h1 h2, key, key, exchanged_other π _ h1 h2]

end

/-! ## Places in the parameter vector -/

theorem mem_locsFrom_iff {ls : List Layer} {m : ℕ} {p : Loc} :
    p ∈ locsFrom m ls ↔ ∃ n l, ls[n]? = some l ∧ p.1 = m + n ∧ p.2 ∈ l.pointers := by
  induction ls generalizing m with
  | nil => simp [locsFrom]
  | cons l ls ih =>
    rw [locsFrom, List.mem_append, ih, List.mem_map]
    constructor
    · rintro (⟨s, hs, rfl⟩ | ⟨n, l', h1, h2, h3⟩)
      · exact ⟨0, l, rfl, rfl, hs⟩
      · exact ⟨n + 1, l', h1, by omega, h3⟩
    · rintro ⟨n, l', h1, h2, h3⟩
      cases n with
      | zero =>
        left
        cases h1
        exact ⟨p.2, h3, Prod.ext h2.symm rfl⟩
      | succ n => exact Or.inr ⟨n, l', h1, by omega, h3⟩

theorem exchange_mem {net : Net} {A B : List Layer} {l1 l2 : Layer} {π : ℕ → ℕ} (hnet : net.layers = A ++ l1 :: l2 :: B)
    (ho : OutSym π l1) (hi : InSym π l2) {p : Loc} (hp : p ∈ net.parameters) : exchange A.length π p ∈ net.parameters := by
  obtain ⟨l, s⟩ := p
  rw [Net.parameters, mem_locsFrom_iff] at hp ⊢
  obtain ⟨n, l', h1, h2, h3⟩ := hp
  simp only [Nat.zero_add] at h2 h3
  subst h2
  rw [hnet] at h1 ⊢
  by_cases e1 : l = A.length
  · subst e1
    have : l' = l1 := by simpa using h1.symm
    subst this
    rw [exchange_row]
    exact ⟨A.length, l', h1, (Nat.zero_add _).symm, ho.pointers s h3⟩
  · by_cases e2 : l = A.length + 1
    · subst e2
      have : l' = l2 := by simpa using h1.symm
      subst this
      rw [exchange_col]
      exact ⟨A.length + 1, l', h1, (Nat.zero_add _).symm, hi.pointers s h3⟩
    · rw [exchange_other π e1 e2]
      exact ⟨l, l', h1, (Nat.zero_add _).symm, h3⟩

/-- Spec: `σ` tells for each index of the parameter vector where the vector contains the weight that takes its place when the
units of layer `k` are renamed by `π`. -/
def Net.Exchanges (net : Net) (k : ℕ) (π σ : ℕ → ℕ) : Prop :=
  (∀ p, net.P ≤ p → σ p = p) ∧
  ∀ (p : ℕ) (l : Loc), net.parameters[p]? = some l → net.parameters[σ p]? = some (exchange k π l)

/-! ## Architectures -/

/-- Spec: a layer of `J` units that are all computed in the same way, each with its own row of weights. -/
def Kind.Units (J : ℕ) : Kind → Prop
  | .fullyConnected J' _ _ _ => J' = J
  | .compressed J' _ _ _ _ _ => J' = J
  | _ => False

/-- The hidden layer `h` of `J` units between the layers `pre` and a fully connected layer. -/
def withHidden (pre : List Kind) (h : Kind) (K : ℕ) (bias : Bool) (act : Act) (reg : Reg) (post : List Kind) : List Kind :=
  pre ++ h :: .fullyConnected K bias act reg :: post

section

variable {D J K : ℕ} {pre post : List Kind} {h : Kind} {bias : Bool} {act : Act} {reg : Reg} (ce : Bool) {π : Equiv.Perm ℕ}
  (hh : h.Units J) (hπ : ∀ j, π j < J ↔ j < J)

include hh in
theorem Kind.Units.outputs (I : ℕ) : (h.layer I).outputs = J := by
  cases h with
  | fullyConnected J' _ _ _ => exact hh
  | compressed J' _ _ _ _ _ => exact hh
  | _ => exact hh.elim

include hh hπ in
theorem Kind.Units.outSym (I : ℕ) : OutSym π (h.layer I) := by
  cases h with
  | fullyConnected J' b a r => cases hh; exact fullyConnected_outSym hπ
  | compressed J' M b a r phi => cases hh; exact compressed_outSym hπ
  | _ => exact hh.elim

include hh hπ in
/-- The layers around the hidden layer. -/
theorem layers_withHidden : ∃ A l1 l2 B, (buildNet D (withHidden pre h K bias act reg post) ce).layers = A ++ l1 :: l2 :: B ∧
    A.length = pre.length + 1 ∧ OutSym π l1 ∧ InSym π l2 := by
  refine ⟨inputLayer D :: layersFrom D pre, h.layer (outFrom D (layersFrom D pre)), NN.fullyConnected J K bias act reg,
    layersFrom K post, ?_, ?_, hh.outSym hπ _, ?_⟩
  · show inputLayer D :: layersFrom D (pre ++ h :: .fullyConnected K bias act reg :: post) = _
    rw [layersFrom_append, layersFrom, layersFrom, hh.outputs]
    rfl
  · rw [List.length_cons, layersFrom_length]
  · exact fullyConnected_inSym hπ

include hh hπ in
/-- **C86 (predictions and errors)**: renaming the units of a hidden layer, with their incoming and outgoing weights, changes
neither the outputs for any batch nor the value of `errorGradient`, `error(n)` and `error()`. -/
theorem predict_exchanged (mem : Mem) :
    (∀ N X, (buildNet D (withHidden pre h K bias act reg post) ce).predictAll (exchanged (pre.length + 1) π mem) N X =
      (buildNet D (withHidden pre h K bias act reg post) ce).predictAll mem N X) ∧
    (∀ N X T, (buildNet D (withHidden pre h K bias act reg post) ce).value (exchanged (pre.length + 1) π mem) N X T =
      (buildNet D (withHidden pre h K bias act reg post) ce).value mem N X T) ∧
    (∀ ds n, (buildNet D (withHidden pre h K bias act reg post) ce).errorAt (exchanged (pre.length + 1) π mem) ds n =
      (buildNet D (withHidden pre h K bias act reg post) ce).errorAt mem ds n) ∧
    ∀ ds, (buildNet D (withHidden pre h K bias act reg post) ce).error (exchanged (pre.length + 1) π mem) ds =
      (buildNet D (withHidden pre h K bias act reg post) ce).error mem ds := by
  obtain ⟨A, l1, l2, B, hnet, hA, ho, hi⟩ := layers_withHidden (D := D) (pre := pre) (post := post) (K := K) (bias := bias)
    (act := act) (reg := reg) ce hh hπ
  rw [← hA]
  have hat : ∀ ds n, (buildNet D (withHidden pre h K bias act reg post) ce).errorAt (exchanged A.length π mem) ds n =
      (buildNet D (withHidden pre h K bias act reg post) ce).errorAt mem ds n := fun ds n => by
    rw [Net.errorAt, Net.errorAt, output_exchanged hnet ho hi, reg_exchanged hnet ho hi]
  refine ⟨fun N X => output_exchanged hnet ho hi mem N X, fun N X T => value_exchanged hnet ho hi mem N X T, hat, fun ds => ?_⟩
  rw [Net.error, Net.error]
  simp only [hat]

include hh hπ in
/-- **C86 (renaming in the parameter vector)**: each renaming of the units is a permutation of the parameter vector. -/
theorem exchanges_exists : ∃ σ : Equiv.Perm ℕ,
    (buildNet D (withHidden pre h K bias act reg post) ce).Exchanges (pre.length + 1) π σ := by
  obtain ⟨A, l1, l2, B, hnet, hA, ho, hi⟩ := layers_withHidden (D := D) (pre := pre) (post := post) (K := K) (bias := bias)
    (act := act) (reg := reg) ce hh hπ
  obtain ⟨A', l1', l2', B', hnet', hA', ho', hi'⟩ := layers_withHidden (D := D) (pre := pre) (post := post) (K := K) (bias := bias)
    (act := act) (reg := reg) ce hh (π := π.symm) fun j => by
      have := hπ (π.symm j)
      rw [Equiv.apply_symm_apply] at this
      exact this.symm
  have hnd := parameters_nodup D (withHidden pre h K bias act reg post) ce
  set net := buildNet D (withHidden pre h K bias act reg post) ce with hn
  have hm : ∀ p ∈ net.parameters, exchange (pre.length + 1) π p ∈ net.parameters := fun p hp => by
    rw [← hA]
    exact exchange_mem hnet ho hi hp
  have hm' : ∀ p ∈ net.parameters, exchange (pre.length + 1) π.symm p ∈ net.parameters := fun p hp => by
    rw [← hA']
    exact exchange_mem hnet' ho' hi' hp
  classical
  let f : (Loc → Loc) → ℕ → ℕ := fun τ p => if hp : p < net.parameters.length then net.parameters.idxOf (τ net.parameters[p]) else p
  have hf : ∀ τ, (∀ p ∈ net.parameters, τ p ∈ net.parameters) → ∀ p (hp : p < net.parameters.length),
      ∃ hq : f τ p < net.parameters.length, net.parameters[f τ p] = τ net.parameters[p] := by
    intro τ hτ p hp
    have e : f τ p = net.parameters.idxOf (τ net.parameters[p]) := dif_pos hp
    have hlt := List.idxOf_lt_length_iff.2 (hτ _ (List.getElem_mem hp))
    refine ⟨e ▸ hlt, ?_⟩
    simp only [e]
    exact List.getElem_idxOf hlt
  have hinv : ∀ τ τ', (∀ p ∈ net.parameters, τ p ∈ net.parameters) → (∀ p ∈ net.parameters, τ' p ∈ net.parameters) →
      (∀ p, τ' (τ p) = p) → ∀ p, f τ' (f τ p) = p := by
    intro τ τ' hτ hτ' hi p
    by_cases hp : p < net.parameters.length
    · obtain ⟨hq, e⟩ := hf τ hτ p hp
      obtain ⟨hr, e'⟩ := hf τ' hτ' _ hq
      refine (hnd.getElem_inj_iff (hi := hr) (hj := hp)).1 ?_
      rw [e', e, hi]
    · have e : f τ p = p := dif_neg hp
      rw [e]
      exact dif_neg hp
  refine ⟨⟨f (exchange (pre.length + 1) π), f (exchange (pre.length + 1) π.symm),
    hinv _ _ hm hm' (exchange_inv _ π), hinv _ _ hm' hm fun p => by
      have := exchange_inv (pre.length + 1) π.symm p
      rwa [Equiv.symm_symm] at this⟩, ?_, ?_⟩
  · intro p hp
    exact dif_neg (by simpa [Net.P] using hp)
  · intro p l hl
    obtain ⟨hp, rfl⟩ := List.getElem?_eq_some_iff.1 hl
    obtain ⟨hq, e⟩ := hf _ hm p hp
    exact List.getElem?_eq_some_iff.2 ⟨hq, e⟩

end

/-- Writing the exchanged parameters gives the exchanged weights. -/
theorem setParameters_exchanged {net : Net} {A B : List Layer} {l1 l2 : Layer} {π : ℕ → ℕ} {σ : ℕ → ℕ}
    (hnet : net.layers = A ++ l1 :: l2 :: B) (ho : OutSym π l1) (hi : InSym π l2) (hnd : net.parameters.Nodup)
    (hinj : ∀ l, exchange A.length π l ∈ net.parameters → l ∈ net.parameters)
    (hσ : net.Exchanges A.length π σ) (mem : Mem) (w : ℕ → ℝ) :
    net.setParameters (exchanged A.length π mem) ((List.range net.P).map fun p => w (σ p)) =
      exchanged A.length π (net.setParameters mem ((List.range net.P).map w)) := by
  rw [Net.setParameters, Net.setParameters, ← updatedFrom_exchanged hnet ho hi]
  congr 1
  funext l s
  by_cases hp : (l, s) ∈ net.parameters
  · obtain ⟨p, hlt, e⟩ := List.getElem_of_mem hp
    have hq := hσ.2 p (l, s) (List.getElem?_eq_some_iff.2 ⟨hlt, e⟩)
    obtain ⟨hq, e'⟩ := List.getElem?_eq_some_iff.1 hq
    have h1 := writeAll_getElem (θ := (List.range net.P).map fun p => w (σ p)) (mem := exchanged A.length π mem) hnd hlt
      (by simpa [Net.P] using hlt)
    have h2 := writeAll_getElem (θ := (List.range net.P).map w) (mem := mem) hnd hq (by simpa [Net.P] using hq)
    rw [e] at h1
    rw [e'] at h2
    rw [exchanged, h2]
    refine h1.trans ?_
    simp
  · have h1 := writeAll_of_notMem (θ := (List.range net.P).map fun p => w (σ p)) (mem := exchanged A.length π mem) hp
    have h2 := writeAll_of_notMem (θ := (List.range net.P).map w) (mem := mem) (p := exchange A.length π (l, s))
      fun h => hp (hinj _ h)
    rw [exchanged, h2]
    exact h1

section

variable {D J K : ℕ} {pre post : List Kind} {h : Kind} {bias : Bool} {act : Act} {reg : Reg} (ce : Bool) {π : Equiv.Perm ℕ}
  (hh : h.Units J) (hπ : ∀ j, π j < J ↔ j < J) (hf : FitsFrom D (withHidden pre h K bias act reg post))
  (hv : ∀ k ∈ withHidden pre h K bias act reg post, k.Visible)

include hh hπ hf hv

omit hf hv in
theorem setParameters_withHidden {σ : ℕ → ℕ}
    (hσ : (buildNet D (withHidden pre h K bias act reg post) ce).Exchanges (pre.length + 1) π σ) (mem : Mem) (w : ℕ → ℝ)
    {net : Net} (hn : net = buildNet D (withHidden pre h K bias act reg post) ce) :
    net.setParameters (exchanged (pre.length + 1) π mem) ((List.range net.P).map fun p => w (σ p)) =
      exchanged (pre.length + 1) π (net.setParameters mem ((List.range net.P).map w)) := by
  obtain ⟨A, l1, l2, B, hnet, hA, ho, hi⟩ := layers_withHidden (D := D) (pre := pre) (post := post) (K := K) (bias := bias)
    (act := act) (reg := reg) ce hh hπ
  obtain ⟨A', l1', l2', B', hnet', hA', ho', hi'⟩ := layers_withHidden (D := D) (pre := pre) (post := post) (K := K) (bias := bias)
    (act := act) (reg := reg) ce hh (π := π.symm) fun j => by
      have := hπ (π.symm j)
      rw [Equiv.apply_symm_apply] at this
      exact this.symm
  have hnd := parameters_nodup D (withHidden pre h K bias act reg post) ce
  rw [← hn] at hnet hnet' hnd hσ
  rw [← hA] at hσ ⊢
  exact setParameters_exchanged hnet ho hi hnd (fun l hl => by
    have := exchange_mem hnet' ho' hi' hl
    rwa [hA', ← hA, exchange_inv] at this) hσ mem w

/-- **C86 (gradient)**: with renamed parameters, `errorGradient` returns the same value and the renamed gradient, for any
examples, whatever the weights and buffers contained before. -/
theorem errorGradient_exchanged {σ : ℕ → ℕ}
    (hσ : (buildNet D (withHidden pre h K bias act reg post) ce).Exchanges (pre.length + 1) π σ) (mem : Mem) (sc : Scratch)
    (ds : TrainSet) (idx : List ℕ) (w : ℕ → ℝ) {net : Net} (hn : net = buildNet D (withHidden pre h K bias act reg post) ce) :
    (net.errorGradient (net.setParameters mem ((List.range net.P).map fun p => w (σ p))) sc ds idx).1 =
      (net.errorGradient (net.setParameters mem ((List.range net.P).map w)) sc ds idx).1 ∧
    ∀ p, (net.errorGradient (net.setParameters mem ((List.range net.P).map fun p => w (σ p))) sc ds idx).2.getD p 0 =
      (net.errorGradient (net.setParameters mem ((List.range net.P).map w)) sc ds idx).2.getD (σ p) 0 := by
  obtain ⟨A, l1, l2, B, hnet, hA, ho, hi⟩ := layers_withHidden (D := D) (pre := pre) (post := post) (K := K) (bias := bias)
    (act := act) (reg := reg) ce hh hπ
  have hset := setParameters_withHidden ce hh hπ hσ mem w hn
  have hdet := errorGradient_determined ce hf hv mem (exchanged (pre.length + 1) π mem)
    (θ := (List.range net.P).map fun p => w (σ p)) (by simp [hn]) sc sc (ds := ds) (ds' := ds) (idx := idx)
    fun _ _ => ⟨fun _ _ => rfl, fun _ _ => rfl⟩
  have hder := (parameters_one_to_one D (withHidden pre h K bias act reg post) ce).2.2.2.1
  rw [← hn] at hdet hnet hσ hder
  rw [hdet, hset]
  rw [← hA] at hσ ⊢
  generalize net.setParameters mem ((List.range net.P).map w) = m
  refine ⟨value_exchanged hnet ho hi m _ _ _, fun p => ?_⟩
  show (net.grad _ _ _ _ _).getD p 0 = (net.grad _ _ _ _ _).getD (σ p) 0
  have hb := backFrom_exchanged hnet ho hi (by omega) m idx.length sc.stale (selectRows ds.inst idx)
    (fun n j => net.output m idx.length (selectRows ds.inst idx) n j - selectRows ds.tgt idx n j) sc.derivs
  rw [Net.grad, Net.grad, output_exchanged hnet ho hi, hb, hder]
  simp only [List.getD_eq_getElem?_getD, List.getElem?_map]
  cases hl : net.parameters[p]? with
  | some l =>
    rw [hσ.2 p l hl]
    rfl
  | none =>
    have hp := List.getElem?_eq_none_iff.1 hl
    rw [hσ.1 p hp, hl]
    rfl

/-- **C86 (parameter vector)**: the renamed parameter vector gives the same outputs. -/
theorem predictions_exchanged {σ : ℕ → ℕ}
    (hσ : (buildNet D (withHidden pre h K bias act reg post) ce).Exchanges (pre.length + 1) π σ) (mem : Mem) (w : ℕ → ℝ)
    {net : Net} (hn : net = buildNet D (withHidden pre h K bias act reg post) ce) (N : ℕ) (X : Batch) (n : ℕ) {j : ℕ}
    (hj : j < net.outputs) :
    net.predictAll (net.setParameters mem ((List.range net.P).map fun p => w (σ p))) N X n j =
      net.predictAll (net.setParameters mem ((List.range net.P).map w)) N X n j := by
  have hset := setParameters_withHidden ce hh hπ hσ mem w hn
  subst hn
  rw [parameters_determine ce hf hv mem (exchanged (pre.length + 1) π mem) (by simp) N (X' := X) (fun _ _ => rfl) hj, hset,
    (predict_exchanged ce hh hπ _).1]

/-! ## Twins -/

/-- Spec: units `a` and `b` of layer `k` have the same incoming weights, the same bias and the same outgoing weights in the
parameter vector `w`. -/
def Net.Twins (net : Net) (k : ℕ) (w : ℕ → ℝ) (a b : ℕ) : Prop :=
  ∀ (p q i : ℕ),
    (net.parameters[p]? = some (k, .w [a, i]) → net.parameters[q]? = some (k, .w [b, i]) → w p = w q) ∧
    (net.parameters[p]? = some (k, .b [a]) → net.parameters[q]? = some (k, .b [b]) → w p = w q) ∧
    (net.parameters[p]? = some (k + 1, .w [i, a]) → net.parameters[q]? = some (k + 1, .w [i, b]) → w p = w q)

omit hh hπ hf hv in
/-- Twins are a symmetry of the parameter vector. -/
theorem twins_iff {net : Net} {k a b : ℕ} {σ : ℕ → ℕ} (hnd : net.parameters.Nodup)
    (hσ : net.Exchanges k (Equiv.swap a b) σ) (w : ℕ → ℝ) : net.Twins k w a b ↔ ∀ p, w (σ p) = w p := by
  have hinj : ∀ {p q : ℕ} {l : Loc}, net.parameters[p]? = some l → net.parameters[q]? = some l → p = q := by
    intro p q l hp hq
    obtain ⟨hp, rfl⟩ := List.getElem?_eq_some_iff.1 hp
    obtain ⟨hq, e⟩ := List.getElem?_eq_some_iff.1 hq
    exact (hnd.getElem_inj_iff.1 e).symm
  constructor
  · intro ht p
    cases hl : net.parameters[p]? with
    | none => rw [hσ.1 p (List.getElem?_eq_none_iff.1 hl)]
    | some l =>
      have hq := hσ.2 p l hl
      have same : exchange k (Equiv.swap a b) l = l → w (σ p) = w p := fun e => by
        rw [e] at hq
        rw [hinj hq hl]
      obtain ⟨m, s⟩ := l
      by_cases h1 : m = k
      · subst h1
        rw [exchange_row] at hq same
        cases s with
        | w idx =>
          match idx with
          | [] => exact same rfl
          | [_] => exact same rfl
          | [j, i] =>
            by_cases ha : j = a
            · subst ha
              rw [rowSlot, Equiv.swap_apply_left] at hq
              exact ((ht p (σ p) i).1 hl hq).symm
            · by_cases hb : j = b
              · subst hb
                rw [rowSlot, Equiv.swap_apply_right] at hq
                exact (ht (σ p) p i).1 hq hl
              · exact same (by rw [rowSlot, Equiv.swap_apply_of_ne_of_ne ha hb])
          | _ :: _ :: _ :: _ => exact same rfl
        | b idx =>
          match idx with
          | [] => exact same rfl
          | [j] =>
            by_cases ha : j = a
            · subst ha
              rw [rowSlot, Equiv.swap_apply_left] at hq
              exact ((ht p (σ p) 0).2.1 hl hq).symm
            · by_cases hb : j = b
              · subst hb
                rw [rowSlot, Equiv.swap_apply_right] at hq
                exact (ht (σ p) p 0).2.1 hq hl
              · exact same (by rw [rowSlot, Equiv.swap_apply_of_ne_of_ne ha hb])
          | _ :: _ :: _ => exact same rfl
      · by_cases h2 : m = k + 1
        · subst h2
          rw [exchange_col] at hq same
          cases s with
          | w idx =>
            match idx with
            | [] => exact same rfl
            | [_] => exact same rfl
            | [i, j] =>
              by_cases ha : j = a
              · subst ha
                rw [colSlot, Equiv.swap_apply_left] at hq
                exact ((ht p (σ p) i).2.2 hl hq).symm
              · by_cases hb : j = b
                · subst hb
                  rw [colSlot, Equiv.swap_apply_right] at hq
                  exact (ht (σ p) p i).2.2 hq hl
                · exact same (by rw [colSlot, Equiv.swap_apply_of_ne_of_ne ha hb])
            | _ :: _ :: _ :: _ => exact same rfl
          | b idx => exact same rfl
        · exact same (exchange_other _ h1 h2 s)
  · intro hs p q i
    refine ⟨fun hp hq => ?_, fun hp hq => ?_, fun hp hq => ?_⟩
    · have := hσ.2 p _ hp
      rw [exchange_row, rowSlot, Equiv.swap_apply_left] at this
      rw [← hs p, hinj this hq]
    · have := hσ.2 p _ hp
      rw [exchange_row, rowSlot, Equiv.swap_apply_left] at this
      rw [← hs p, hinj this hq]
    · have := hσ.2 p _ hp
      rw [exchange_col, colSlot, Equiv.swap_apply_left] at this
      rw [← hs p, hinj this hq]

end

theorem swap_lt_iff {J a b : ℕ} (ha : a < J) (hb : b < J) (j : ℕ) : Equiv.swap a b j < J ↔ j < J := by
  rw [Equiv.swap_apply_def]
  split
  · next e => simp [e, ha, hb]
  · split
    · next e => simp [e, ha, hb]
    · rfl

theorem isParamFrom_append {s : Slot} : ∀ (pre : List Kind) {ks : List Kind} {h : Kind} {I : ℕ},
    IsParamFrom I (pre ++ h :: ks) pre.length s ↔ h.IsParam (outFrom I (layersFrom I pre)) s
  | [], _, _, _ => Iff.rfl
  | _ :: pre, _, _, _ => isParamFrom_append pre

theorem fitsFrom_append : ∀ (pre : List Kind) {ks : List Kind} {h : Kind} {I : ℕ}, FitsFrom I (pre ++ h :: ks) →
    h.Fits (outFrom I (layersFrom I pre))
  | [], _, _, _, hf => hf.1
  | _ :: pre, _, _, _, hf => fitsFrom_append pre hf.2

/-- **C86 (twins compute the same)**: hidden units with the same weights have the same output, for every input of the layer. -/
theorem twins_same_output {D J K : ℕ} {pre post : List Kind} {h : Kind} {bias : Bool} {act : Act} {reg : Reg} (ce : Bool)
    (hh : h.Units J) (hf : FitsFrom D (withHidden pre h K bias act reg post))
    (hv : ∀ k ∈ withHidden pre h K bias act reg post, k.Visible) {net : Net}
    (hn : net = buildNet D (withHidden pre h K bias act reg post) ce) {a b : ℕ} (ha : a < J) (hb : b < J) {w : ℕ → ℝ}
    (ht : net.Twins (pre.length + 1) w a b) (mem : Mem) (N : ℕ) (x : Batch) (n : ℕ) :
    (h.layer (outFrom D (layersFrom D pre))).forward (net.setParameters mem ((List.range net.P).map w) (pre.length + 1)) N x n a =
      (h.layer (outFrom D (layersFrom D pre))).forward (net.setParameters mem ((List.range net.P).map w) (pre.length + 1)) N x n b := by
  have hπ := swap_lt_iff ha hb
  obtain ⟨σ, hσ⟩ := exchanges_exists (D := D) (pre := pre) (post := post) (K := K) (bias := bias) (act := act) (reg := reg) ce hh hπ
  have hs := (twins_iff (by rw [hn]; exact parameters_nodup _ _ _) (by rw [hn]; exact hσ) w).1 ht
  have hset := setParameters_withHidden ce hh hπ hσ mem w hn
  rw [funext hs] at hset
  have hw : ∀ s, h.IsParam (outFrom D (layersFrom D pre)) s →
      net.setParameters mem ((List.range net.P).map w) (pre.length + 1) s =
        net.setParameters mem ((List.range net.P).map w) (pre.length + 1) (rowSlot (Equiv.swap a b) s) := by
    intro s hp
    have h1 : net.setParameters mem ((List.range net.P).map w) (pre.length + 1) s =
        net.setParameters (exchanged (pre.length + 1) (Equiv.swap a b) mem) ((List.range net.P).map w) (pre.length + 1) s := by
      subst hn
      exact setParameters_determined ce _ _ (by simp) ((isParamFrom_append pre).2 hp)
    rw [h1, hset, exchanged_row]
  have := Kind.forward_congr (N := N) (fitsFrom_append pre hf) (hv h (by simp [withHidden])) hw (x := x) (x' := x) (n := n)
    (fun _ _ => rfl) (j := a) (by rw [hh.outputs]; exact ha)
  rw [this, (hh.outSym hπ _).forward]
  dsimp only
  rw [Equiv.swap_apply_left]

/-! ## Examples -/

/-- A network with one input, two hidden units and one output. -/
def twoUnits : List Kind :=
  withHidden [] (.fullyConnected 2 true .linear ⟨0, 0, 0⟩) 1 true .linear ⟨0, 0, 0⟩ []

/-- The first unit passes the input on, the second one does nothing. -/
def firstUnit : Mem := fun l s => if (l = 1 ∨ l = 2) ∧ s = .w [0, 0] then 1 else 0

/-- The hypotheses of `predict_exchanged`, `exchanges_exists` and `errorGradient_exchanged` are met by a renaming that moves
weights. -/
example : ∃ π : Equiv.Perm ℕ, (Kind.fullyConnected 2 true .linear ⟨0, 0, 0⟩).Units 2 ∧ (∀ j, π j < 2 ↔ j < 2) ∧
    FitsFrom 1 twoUnits ∧ (∀ k ∈ twoUnits, k.Visible) ∧ exchanged 1 π firstUnit ≠ firstUnit ∧
    exchanged 1 π firstUnit 1 (.w [1, 0]) = 1 ∧ exchanged 1 π firstUnit 2 (.w [0, 1]) = 1 := by
  refine ⟨Equiv.swap 0 1, rfl, swap_lt_iff (by norm_num) (by norm_num), ⟨trivial, trivial, trivial⟩, ?_, fun e => ?_, ?_, ?_⟩
  · intro k hk
    simp only [twoUnits, withHidden, List.nil_append, List.mem_cons, List.not_mem_nil, or_false] at hk
    rcases hk with rfl | rfl <;> trivial
  · have := congrFun (congrFun e 1) (.w [0, 0])
    simp [exchanged, exchange, firstUnit] at this
  · simp [exchanged, exchange, firstUnit]
  · simp [exchanged, exchange, firstUnit]

/-- **The outgoing weights have to be renamed, too**: if only the incoming weights and biases are exchanged, the predictions
change. -/
theorem half_exchange_fails : ∃ (π : Equiv.Perm ℕ) (mem : Mem) (x : ℕ → ℝ), (∀ j, π j < 2 ↔ j < 2) ∧
    (buildNet 1 twoUnits false).predict (fun l s => if l = 1 then mem l (rowSlot π s) else mem l s) x 0 ≠
      (buildNet 1 twoUnits false).predict mem x 0 := by
  refine ⟨Equiv.swap 0 1, firstUnit, fun _ => 1, swap_lt_iff (by norm_num) (by norm_num), ?_⟩
  simp [Net.predict, Net.output, Net.activations, buildNet, twoUnits, withHidden, layersFrom, Kind.layer, NN.fullyConnected,
    forwardFrom, inputLayer, Act.map, Act.apply, dense, Weights.mat, Weights.vec, firstUnit, rowSlot, sum_range_succ, Finset.filter_singleton]

/-- Twins in the sense of the spec: all weights zero except the bias of the output. -/
example : (buildNet 1 twoUnits false).P = 7 ∧ (buildNet 1 twoUnits false).Twins 1 (fun p => if p = 6 then 5 else 0) 0 1 := by
  have hp : (buildNet 1 twoUnits false).parameters =
      [(1, .w [0, 0]), (1, .b [0]), (1, .w [1, 0]), (1, .b [1]), (2, .w [0, 0]), (2, .w [0, 1]), (2, .b [0])] := rfl
  refine ⟨rfl, ?_⟩
  intro p q i
  rw [hp]
  have h6 : ∀ (r : ℕ) (l : Loc), l ≠ (2, .b [0]) →
      ([(1, .w [0, 0]), (1, .b [0]), (1, .w [1, 0]), (1, .b [1]), (2, .w [0, 0]), (2, .w [0, 1]), (2, .b [0])] : List Loc)[r]? = some l →
        r ≠ 6 := by
    rintro r l hl h rfl
    exact hl (by simpa using h.symm)
  refine ⟨fun h1 h2 => ?_, fun h1 h2 => ?_, fun h1 h2 => ?_⟩ <;> dsimp only <;>
    rw [if_neg (h6 _ _ (by simp) h1), if_neg (h6 _ _ (by simp) h2)]

end

end Verif.NN
