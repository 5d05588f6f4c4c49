import Verif.Model.ImageLoader
import Verif.Model.Fill
import Mathlib.Tactic.Linarith
import Mathlib.Tactic.Ring
import Mathlib.Tactic.FieldSimp

/-!
# C62: image file loaders decode every pixel
-/

namespace Verif.Img

open Outcome

noncomputable section

/-- The value at a position for the numbers of the loader: `A` columns and `B` rows in rows of width `W`. -/
def want (data : List Byte) (A B W : ℕ) (n pos : ℕ) : ℝ :=
  ((data.getD ((n * B + min (pos / W) (B - 1)) * A + min (pos % W) (A - 1)) 0).1 : ℝ) / 255

theorem want_at (data : List Byte) (A B : ℕ) {W r c : ℕ} (n : ℕ) (hc : c < W) :
    want data A B W n (r * W + c) = ((data.getD ((n * B + min r (B - 1)) * A + min c (A - 1)) 0).1 : ℝ) / 255 := by
  have h1 : (r * W + c) / W = r := by
    rw [Nat.add_comm, Nat.add_mul_div_right _ _ (by omega), Nat.div_eq_of_lt hc, Nat.zero_add]
  have h2 : (r * W + c) % W = c := by
    rw [Nat.add_comm, Nat.add_mul_mod_self_right, Nat.mod_eq_of_lt hc]
  rw [want, h1, h2]

theorem place_lt {r c W H : ℕ} (hr : r < H) (hc : c < W) : r * W + c < W * H := by
  have h1 : (r + 1) * W ≤ H * W := Nat.mul_le_mul_right W hr
  have h2 : (r + 1) * W = r * W + W := by ring
  have h3 : H * W = W * H := Nat.mul_comm H W
  omega

theorem readByte_drop (data : List Byte) {k : ℕ} (hk : k < data.length) (tmp : Byte) :
    readByte (data.drop k) tmp = (data.drop (k + 1), (data.getD k 0).compl) := by
  rw [List.drop_eq_getElem_cons hk, readByte, List.getD_eq_getElem?_getD, List.getElem?_eq_getElem hk]
  rfl

theorem compl_value (b : Byte) : 1 - ((b.compl).1 : ℝ) / 255 = (b.1 : ℝ) / 255 := by
  have h : b.1 ≤ 255 := by omega
  have : ((b.compl).1 : ℝ) = 255 - (b.1 : ℝ) := by
    rw [Byte.compl]
    push_cast [h]
    ring
  rw [this]
  ring

section loops

variable {data : List Byte} {A B W H N n : ℕ}

/-- The state inside of the loops. -/
structure Inv (data : List Byte) (A B W H N n L k : ℕ) (st : St) : Prop where
  fill : Fill (want data A B W) N (W * H) n L st.m
  stream : st.s = data.drop k

theorem row_pixels (hA : A ≤ W) (hn : n < N) (hB : B ≤ H) (hd : N * (B * A) ≤ data.length) {r : ℕ} (hr : r < B) {st : St}
    (h : Inv data A B W H N n (r * W) ((n * B + r) * A) st) :
    ∃ st', forLoop A (fun c => pixel n (r * W + c)) st = ok st' ∧ Inv data A B W H N n (r * W + A) ((n * B + r) * A + A) st' := by
  refine forLoop_inv (fun c st => Inv data A B W H N n (r * W + c) ((n * B + r) * A + c) st) h ?_
  intro c hc st hst
  have hk : (n * B + r) * A + c < data.length := by
    have h1 : (n * B + r) * A + c < A * (N * B) := by
      refine place_lt ?_ hc
      have := place_lt (W := B) hn hr
      rwa [Nat.mul_comm B N] at this
    have h2 : A * (N * B) = N * (B * A) := by ring
    omega
  obtain ⟨m', e, f⟩ := hst.fill.set hn (place_lt (by omega) (by omega))
    (v := 1 - (((data.getD ((n * B + r) * A + c) 0).compl).1 : ℝ) / 255) (by
      rw [compl_value, want_at data A B n (by omega), Nat.min_eq_left (by omega : r ≤ B - 1), Nat.min_eq_left (by omega : c ≤ A - 1)])
  refine ⟨⟨data.drop ((n * B + r) * A + c + 1), (data.getD ((n * B + r) * A + c) 0).compl, m'⟩, ?_, f, rfl⟩
  rw [pixel, hst.stream, readByte_drop data hk]
  simp only
  rw [e, ok_bind]

theorem row_pad (hA0 : 0 < A) (hn : n < N) {r : ℕ} (hr : r < H) {k p : ℕ} (hp : p ≤ W - A) {st : St}
    (h : Inv data A B W H N n (r * W + A) k st) (hW : A ≤ W) :
    ∃ st', forLoop p (fun j => copy n (r * W + (A + j)) (r * W + ((A : ℤ) - 1))) st = ok st' ∧
      Inv data A B W H N n (r * W + (A + p)) k st' := by
  refine forLoop_inv (fun j st => Inv data A B W H N n (r * W + (A + j)) k st) h ?_
  intro j hj st hst
  have hsrc : ((r : ℤ) * W + ((A : ℤ) - 1)) = ((r * W + (A - 1) : ℕ) : ℤ) := by
    push_cast [Nat.cast_sub (show 1 ≤ A from hA0)]
    ring
  have hlt : r * W + (A + j) < W * H := place_lt hr (by omega)
  obtain ⟨m', e, f⟩ := hst.fill.set hn hlt (v := want data A B W n (r * W + (A - 1))) (by
    rw [want_at data A B n (by omega), want_at data A B n (by omega), Nat.min_self, Nat.min_eq_right (by omega : A - 1 ≤ A + j)])
  refine ⟨⟨st.s, st.tmp, m'⟩, ?_, f, hst.stream⟩
  rw [copy, hsrc, hst.fill.get hn (by omega) (by omega), ok_bind, e, ok_bind]

theorem pad_row (hB0 : 0 < B) (hn : n < N) {r : ℕ} (hr : r < H) (hBr : B ≤ r) {k : ℕ} {st : St}
    (h : Inv data A B W H N n (r * W) k st) :
    ∃ st', padRow B W W n r st = ok st' ∧ Inv data A B W H N n ((r + 1) * W) k st' := by
  have key : ∃ st', padRow B W W n r st = ok st' ∧ Inv data A B W H N n (r * W + W) k st' := by
    refine forLoop_inv (fun c st => Inv data A B W H N n (r * W + c) k st) h ?_
    intro c hc st hst
    have hsrc : (((B : ℤ) - 1) * W + c) = (((B - 1) * W + c : ℕ) : ℤ) := by
      push_cast [Nat.cast_sub (show 1 ≤ B from hB0)]
      ring
    obtain ⟨m', e, f⟩ := hst.fill.set hn (place_lt hr hc) (v := want data A B W n ((B - 1) * W + c)) (by
      rw [want_at data A B n hc, want_at data A B n hc, Nat.min_self, Nat.min_eq_right (by omega : B - 1 ≤ r)])
    have hlt : (B - 1) * W + c < r * W + c := by
      have h1 : (B - 1 + 1) * W ≤ r * W := Nat.mul_le_mul_right W (by omega)
      have h2 : (B - 1 + 1) * W = (B - 1) * W + W := by ring
      omega
    refine ⟨⟨st.s, st.tmp, m'⟩, ?_, f, hst.stream⟩
    rw [copy, hsrc, hst.fill.get hn hlt (place_lt hr hc).le, ok_bind, e, ok_bind]
  have e : (r + 1) * W = r * W + W := by ring
  rw [e]
  exact key

theorem image_ok (hA0 : 0 < A) (hB0 : 0 < B) {padX padY : ℕ} (hfit : (A ≤ padX ∧ B ≤ padY) ∨ (padX ≤ A ∧ padY ≤ B))
    (hn : n < N) (hd : N * (B * A) ≤ data.length) {st : St}
    (h : Inv data A B (max padX A) (max padY B) N n 0 (n * B * A) st) :
    ∃ st', image B A padX padY (max padX A) n st = ok st' ∧
      Inv data A B (max padX A) (max padY B) N (n + 1) 0 ((n + 1) * B * A) st' := by
  set W := max padX A with hW
  set H := max padY B with hH
  obtain ⟨st1, r1, i1⟩ := forLoop_inv (n := B) (body := fun r => imageRow A padX W n r)
    (fun r st => Inv data A B W H N n (r * W) ((n * B + r) * A) st) (s := st) (by simpa using h) (by
      intro r hr s hs
      obtain ⟨s1, e1, j1⟩ := row_pixels (by omega) hn (by omega) hd hr hs
      obtain ⟨s2, e2, j2⟩ := row_pad hA0 hn (by omega) (p := padX - A) (by omega) j1 (by omega)
      refine ⟨s2, by rw [imageRow, e1, ok_bind, e2], ?_⟩
      have h1 : r * W + (A + (padX - A)) = (r + 1) * W := by
        have : A + (padX - A) = W := by omega
        rw [this]
        ring
      have h2 : (n * B + r) * A + A = (n * B + (r + 1)) * A := by ring
      rwa [h1, h2] at j2)
  rcases hfit with hf | hf
  · have hWX : W = padX := by omega
    obtain ⟨st2, r2, i2⟩ := forLoop_inv (n := padY - B) (body := fun k => padRow B padX W n (B + k))
      (fun k st => Inv data A B W H N n ((B + k) * W) ((n * B + B) * A) st) (s := st1) i1 (by
        intro k hk s hs
        rw [← hWX]
        exact pad_row hB0 hn (by omega) (by omega) hs)
    refine ⟨st2, by rw [image, r1, ok_bind, r2], ?_, ?_⟩
    · have e : (B + (padY - B)) * W = W * H := by
        have : B + (padY - B) = H := by omega
        rw [this, Nat.mul_comm]
      have := i2.fill
      rw [e] at this
      exact this.next
    · rw [i2.stream]
      congr 1
      ring
  · have e0 : padY - B = 0 := by omega
    refine ⟨st1, by rw [image, r1, ok_bind, e0]; rfl, ?_, ?_⟩
    · have e : B * W = W * H := by
        have : H = B := by omega
        rw [this, Nat.mul_comm]
      have := i1.fill
      rw [e] at this
      exact this.next
    · rw [i1.stream]
      congr 1
      ring

end loops

/-! ## Files -/

/-- Specification: a number below 2^31 as four bytes, the most significant one first. -/
def be32 (n : ℕ) : List Byte :=
  [⟨n / 2 ^ 24 % 256, Nat.mod_lt _ (by norm_num)⟩, ⟨n / 2 ^ 16 % 256, Nat.mod_lt _ (by norm_num)⟩,
    ⟨n / 2 ^ 8 % 256, Nat.mod_lt _ (by norm_num)⟩, ⟨n % 256, Nat.mod_lt _ (by norm_num)⟩]

/-- Specification: an image file for `images` images with `rows` rows and `columns` columns. -/
def imageFile (images rows columns : ℕ) (data : List Byte) : List Byte :=
  [0, 0, 8, 3] ++ be32 images ++ be32 rows ++ be32 columns ++ data

/-- Specification: a label file. -/
def labelFile (items : ℕ) (ls : List Byte) : List Byte := [0, 0, 8, 1] ++ be32 items ++ ls

theorem readInt_cons (a b c d : Byte) (s : List Byte) : readInt (a :: b :: c :: d :: s) = (s, int32 a b c d) := rfl

theorem int32_eq {n : ℕ} (h : n < 2147483648) {a b c d : Byte} (ha : a.1 = n / 16777216 % 256) (hb : b.1 = n / 65536 % 256)
    (hc : c.1 = n / 256 % 256) (hd : d.1 = n % 256) : int32 a b c d = n := by
  have key : ((a.1 : ℕ) : ℤ) * 16777216 + ((b.1 : ℕ) : ℤ) * 65536 + ((c.1 : ℕ) : ℤ) * 256 + ((d.1 : ℕ) : ℤ) = n := by
    rw [ha, hb, hc, hd]
    omega
  unfold int32
  norm_num only
  rw [key, if_pos (by omega)]

theorem readInt_be32 {n : ℕ} (h : n < 2 ^ 31) (s : List Byte) : readInt (be32 n ++ s) = (s, (n : ℤ)) := by
  rw [be32, List.cons_append, List.cons_append, List.cons_append, List.cons_append, List.nil_append, readInt_cons,
    int32_eq (by simpa using h) (by norm_num only) (by norm_num only) (by norm_num only) rfl]

theorem magic_image (images rows columns : ℕ) (data : List Byte) :
    magic (imageFile images rows columns data) 3 = ok (be32 images ++ (be32 rows ++ (be32 columns ++ data))) := by
  simp [imageFile, magic, readRaw, Outcome.check]

theorem magic_label (items : ℕ) (ls : List Byte) : magic (labelFile items ls) 1 = ok (be32 items ++ ls) := by
  simp [labelFile, magic, readRaw, Outcome.check]

theorem label_value (b : Byte) (c : ℕ) : (255 - (b.compl).1 = c) ↔ b.1 = c := by
  have : b.1 < 256 := b.2
  rw [Byte.compl]
  simp only
  omega

theorem labels_ok (N : ℕ) (ls : List Byte) (hl : N ≤ ls.length) (tmp : Byte) (junk : ℕ → ℕ → ℝ) :
    ∃ st, labels N ls tmp junk = ok st ∧ st.m.rows = N ∧ st.m.cols = 10 ∧
      ∀ n < N, ∀ c < 10, st.m.val n c = if (ls.getD n 0).1 = c then 1 else 0 := by
  set w : ℕ → ℕ → ℝ := fun n c => if (ls.getD n 0).1 = c then 1 else 0 with hw
  obtain ⟨st, r, i⟩ := forLoop_inv (n := N) (body := label 10) (s := ⟨ls, tmp, ⟨N, 10, junk⟩⟩)
    (fun n st => Fill w N 10 n 0 st.m ∧ st.s = ls.drop n) ⟨⟨rfl, rfl, fun i pos hp => by omega⟩, by simp⟩ (by
      intro n hn s hs
      obtain ⟨m', e, f⟩ := forLoop_inv (n := 10) (s := s.m)
        (body := fun c m => m.set n c (if 255 - ((ls.getD n 0).compl).1 = c then (1 : ℝ) else 0))
        (fun c m => Fill w N 10 n c m) hs.1 (by
          intro c hc m hm
          refine hm.set hn hc ?_
          simp only [label_value, hw])
      refine ⟨⟨ls.drop (n + 1), (ls.getD n 0).compl, m'⟩, ?_, f.next, rfl⟩
      rw [label, hs.2, readByte_drop ls (by omega)]
      simp only
      rw [e, ok_bind])
  refine ⟨st, r, i.1.rows, i.1.cols, fun n hn c hc => ?_⟩
  exact i.1.done n c (Or.inl ⟨hn, hc⟩)

/-- Specification: the number of instances: all images unless a positive limit is given. -/
def count (images : ℕ) (maxN : ℤ) : ℕ := if 0 < maxN then maxN.toNat else images

/-- For all sizes that are both padded or both not padded; `A` is the first, `B` the second dimension of an image in the file. -/
theorem idx_general (padX padY A B n : ℕ) (maxN : ℤ) (data ls : List Byte) (junk1 junk2 : ℕ → ℕ → ℝ) (hA0 : 0 < A) (hB0 : 0 < B)
    (hA : A < 2 ^ 31) (hB : B < 2 ^ 31) (hn : n < 2 ^ 31) (hfit : (A ≤ padX ∧ B ≤ padY) ∨ (padX ≤ A ∧ padY ≤ B))
    (hd : n * (B * A) ≤ data.length) (hl : n ≤ ls.length) (hN : count n maxN ≤ n) :
    ∃ inp out, load padX padY maxN (imageFile n A B data) (labelFile n ls) junk1 junk2 = ok (inp, out) ∧
      inp.rows = count n maxN ∧ inp.cols = max padX A * max padY B ∧
      (∀ i < count n maxN, ∀ r < max padY B, ∀ c < max padX A, inp.val i (r * max padX A + c) =
        ((data.getD ((i * B + min r (B - 1)) * A + min c (A - 1)) 0).1 : ℝ) / 255) ∧
      out.rows = count n maxN ∧ out.cols = 10 ∧
      ∀ i < count n maxN, ∀ c < 10, out.val i c = if (ls.getD i 0).1 = c then 1 else 0 := by
  have hsz : sizeN n maxN = (count n maxN : ℤ) := by
    unfold sizeN count
    by_cases h : 0 < maxN
    · rw [if_pos h, if_pos h]
      omega
    · rw [if_neg h, if_neg h]
  set N := count n maxN with hNdef
  have hD : sizeD B A padX padY = ((max padX A * max padY B : ℕ) : ℤ) := by
    unfold sizeD
    rcases hfit with hf | hf
    · rw [Nat.max_eq_left hf.1, Nat.max_eq_left hf.2]
      have hle : B * A ≤ padX * padY := by
        rw [Nat.mul_comm]
        exact Nat.mul_le_mul hf.1 hf.2
      by_cases h : (B : ℤ) * A < padX * padY
      · rw [if_pos h]
        push_cast
        ring
      · rw [if_neg h]
        have h' : ¬ (B * A < padX * padY) := by exact_mod_cast h
        have : B * A = padX * padY := by omega
        exact_mod_cast this
    · rw [Nat.max_eq_right hf.1, Nat.max_eq_right hf.2]
      have hle : padX * padY ≤ B * A := by
        rw [Nat.mul_comm B A]
        exact Nat.mul_le_mul hf.1 hf.2
      have h : ¬ ((B : ℤ) * A < padX * padY) := by
        have : ¬ (B * A < padX * padY) := by omega
        exact_mod_cast this
      rw [if_neg h]
      push_cast
      ring
  have hd' : N * (B * A) ≤ data.length := (Nat.mul_le_mul_right _ hN).trans hd
  obtain ⟨st, r, i⟩ := forLoop_inv (n := N) (body := image B A padX padY (max padX A))
    (s := ⟨data, 0, ⟨N, max padX A * max padY B, junk1⟩⟩)
    (fun k st => Inv data A B (max padX A) (max padY B) N k 0 (k * B * A) st)
    ⟨⟨rfl, rfl, fun i pos hp => by omega⟩, by simp⟩ (fun k hk s hs => image_ok hA0 hB0 hfit hk hd' hs)
  obtain ⟨st2, r2, hr2, hc2, hv2⟩ := labels_ok N ls (hN.trans hl) st.tmp junk2
  have himg : images padX padY maxN n A B data junk1 = ok st := by
    unfold images
    rw [hsz, hD, if_neg (by omega)]
    simp only [Int.toNat_natCast]
    exact r
  refine ⟨st.m, st2.m, ?_, i.fill.rows, i.fill.cols, ?_, hr2, hc2, hv2⟩
  · unfold load
    rw [magic_image, ok_bind, readInt_be32 hn]
    simp only
    rw [readInt_be32 hA]
    simp only
    rw [readInt_be32 hB]
    simp only
    rw [himg, ok_bind, magic_label, ok_bind, readInt_be32 hn]
    simp only
    rw [check_true trivial, ok_bind, hsz, Int.toNat_natCast, r2, ok_bind]
  · intro k hk r hr c hc
    rw [i.fill.done k _ (Or.inl ⟨hk, place_lt hr hc⟩), want_at data A B k hc]

/-- **C62 (IDX, partial)**: for square images, padded in both directions or in none, the pixel in row `r` and column `c` of an image is
at position `r * width + c`, divided by 255; positions beyond the image repeat the last row and column.  The output has a one exactly at
the label.  Missing: images that are not square (`idx_padding_fails`, `idx_pixels_unpadded` without padding), padding in one direction
only (`idx_one_direction_fails`), limits above the number of images (`idx_short_file_fails`), labels above nine
(`idx_label_fails`). -/
theorem idx_pixels_partial (padX padY S n : ℕ) (maxN : ℤ) (data ls : List Byte) (junk1 junk2 : ℕ → ℕ → ℝ) (hS : 0 < S)
    (hS31 : S < 2 ^ 31) (hn : n < 2 ^ 31) (hfit : (S ≤ padX ∧ S ≤ padY) ∨ (padX ≤ S ∧ padY ≤ S))
    (hd : data.length = n * (S * S)) (hl : ls.length = n) (hl10 : ∀ l ∈ ls, l.1 < 10) (hN : count n maxN ≤ n) :
    ∃ inp out, load padX padY maxN (imageFile n S S data) (labelFile n ls) junk1 junk2 = ok (inp, out) ∧
      inp.rows = count n maxN ∧ inp.cols = max padX S * max padY S ∧
      (∀ i < count n maxN, ∀ r < max padY S, ∀ c < max padX S,
        inp.val i (r * max padX S + c) = ((data.getD ((i * S + min r (S - 1)) * S + min c (S - 1)) 0).1 : ℝ) / 255 ∧
        0 ≤ inp.val i (r * max padX S + c) ∧ inp.val i (r * max padX S + c) ≤ 1) ∧
      out.rows = count n maxN ∧ out.cols = 10 ∧
      ∀ i < count n maxN, ∃ l < 10, (ls[i]?.map Fin.val) = some l ∧ out.val i l = 1 ∧ ∀ c < 10, c ≠ l → out.val i c = 0 := by
  obtain ⟨inp, out, h1, h2, h3, h4, h5, h6, h7⟩ := idx_general padX padY S S n maxN data ls junk1 junk2 hS hS hS31 hS31 hn
    (by omega) hd.ge hl.ge hN
  refine ⟨inp, out, h1, h2, h3, fun i hi r hr c hc => ⟨h4 i hi r hr c hc, ?_, ?_⟩, h5, h6, fun i hi => ?_⟩
  · rw [h4 i hi r hr c hc]
    positivity
  · rw [h4 i hi r hr c hc, div_le_one (by norm_num)]
    have hb := (data.getD ((i * S + min r (S - 1)) * S + min c (S - 1)) 0).2
    have : (data.getD ((i * S + min r (S - 1)) * S + min c (S - 1)) 0).1 ≤ 255 := by omega
    exact_mod_cast this
  · have hil : i < ls.length := by omega
    have hg : ls.getD i 0 = ls[i] := by
      rw [List.getD_eq_getElem?_getD, List.getElem?_eq_getElem hil]
      rfl
    refine ⟨ls[i].1, hl10 _ (List.getElem_mem hil), by rw [List.getElem?_eq_getElem hil]; rfl, ?_, fun c hc hne => ?_⟩
    · rw [h7 i hi _ (hl10 _ (List.getElem_mem hil)), hg, if_pos rfl]
    · rw [h7 i hi c hc, hg, if_neg (Ne.symm hne)]

example : ∃ (data ls : List Byte), data.length = 1 * (2 * 2) ∧ ls.length = 1 ∧ (∀ l ∈ ls, l.1 < 10) ∧ count 1 (-1) ≤ 1 ∧
    data.getD 0 0 ≠ data.getD 1 0 :=
  ⟨[0, 255, 1, 2], [⟨7, by norm_num⟩], rfl, rfl, fun l hl => by
    rw [List.mem_singleton] at hl
    rw [hl]
    show 7 < 10
    norm_num, by decide, by simp⟩

/-- **C62 (IDX)**: without padding every pixel of every image, square or not, is at its position in the file. -/
theorem idx_pixels_unpadded (padX padY R C n : ℕ) (data ls : List Byte) (junk1 junk2 : ℕ → ℕ → ℝ) (hR : 0 < R) (hC : 0 < C)
    (hR31 : R < 2 ^ 31) (hC31 : C < 2 ^ 31) (hn : n < 2 ^ 31) (hX : padX ≤ R) (hY : padY ≤ C) (hd : data.length = n * (R * C))
    (hl : ls.length = n) :
    ∃ inp out, load padX padY (-1) (imageFile n R C data) (labelFile n ls) junk1 junk2 = ok (inp, out) ∧
      inp.rows = n ∧ inp.cols = R * C ∧
      ∀ i < n, ∀ r < R, ∀ c < C, inp.val i (r * C + c) = ((data.getD ((i * R + r) * C + c) 0).1 : ℝ) / 255 := by
  have hc : count n (-1) = n := if_neg (by norm_num)
  obtain ⟨inp, out, h1, h2, h3, h4, _⟩ := idx_general padX padY R C n (-1) data ls junk1 junk2 hR hC hR31 hC31 hn
    (Or.inr ⟨hX, hY⟩) (by rw [hd, Nat.mul_comm C R]) hl.ge hc.le
  rw [hc, Nat.max_eq_right hX, Nat.max_eq_right hY] at *
  refine ⟨inp, out, h1, h2, h3, fun i hi r hr c hc' => ?_⟩
  have hk : r * C + c < R * C := by
    rw [Nat.mul_comm R C]
    exact place_lt hr hc'
  set k := r * C + c with hkdef
  have hk' : k < C * R := by rwa [Nat.mul_comm C R]
  have e : k / R * R + k % R = k := by rw [Nat.mul_comm]; exact Nat.div_add_mod k R
  have hm : k % R < R := Nat.mod_lt _ hR
  have hq : k / R < C := Nat.div_lt_of_lt_mul hk
  have := h4 i hi (k / R) hq (k % R) hm
  rw [e, Nat.min_eq_left (by omega : k / R ≤ C - 1), Nat.min_eq_left (by omega : k % R ≤ R - 1)] at this
  rw [this]
  have e2 : (i * C + k / R) * R + k % R = (i * R + r) * C + c := by
    have : (i * C + k / R) * R + k % R = i * C * R + (k / R * R + k % R) := by ring
    rw [this, e, hkdef]
    ring
  rw [e2]

/-- **C62 is false** for padded images that are not square: rows and columns are exchanged.  A file with one image of two rows and one
column, padded to 2 x 2: the pixel in the second row is replaced by the one of the first row. -/
theorem idx_padding_fails (b0 b1 : Byte) (hb : b0 ≠ b1) (junk1 junk2 : ℕ → ℕ → ℝ) : ∃ inp out,
    load 2 2 (-1) (imageFile 1 2 1 [b0, b1]) (labelFile 1 [0]) junk1 junk2 = ok (inp, out) ∧
      inp.val 0 (1 * 2 + 0) = (b0.1 : ℝ) / 255 ∧ inp.val 0 (1 * 2 + 0) ≠ (b1.1 : ℝ) / 255 := by
  obtain ⟨inp, out, h1, _, _, h4, _⟩ := idx_general 2 2 2 1 1 (-1) [b0, b1] [0] junk1 junk2 (by norm_num) (by norm_num) (by norm_num)
    (by norm_num) (by norm_num) (by norm_num) (by simp) (by simp) (by decide)
  have h := h4 0 (by decide) 1 (by decide) 0 (by decide)
  have h' : inp.val 0 (1 * 2 + 0) = (b0.1 : ℝ) / 255 := by simpa using h
  refine ⟨inp, out, h1, h', ?_⟩
  rw [h']
  intro he
  apply hb
  have : (b0.1 : ℝ) = b1.1 := by linarith
  exact Fin.ext (by exact_mod_cast this)

/-- **C62 is false** for labels above nine: the row of the output is zero. -/
theorem idx_label_fails (b l : Byte) (hl : 10 ≤ l.1) (junk1 junk2 : ℕ → ℕ → ℝ) : ∃ inp out,
    load 0 0 (-1) (imageFile 1 1 1 [b]) (labelFile 1 [l]) junk1 junk2 = ok (inp, out) ∧ ∀ c < 10, out.val 0 c = 0 := by
  obtain ⟨inp, out, h1, _, _, _, _, _, h7⟩ := idx_general 0 0 1 1 1 (-1) [b] [l] junk1 junk2 (by norm_num) (by norm_num) (by norm_num)
    (by norm_num) (by norm_num) (by norm_num) (by simp) (by simp) (by decide)
  refine ⟨inp, out, h1, fun c hc => ?_⟩
  rw [h7 0 (by decide) c hc]
  exact if_neg (by simp; omega)

theorem labels_short (t : Byte) (junk : ℕ → ℕ → ℝ) : ∃ st, labels 1 [] t junk = ok st ∧ st.m.rows = 1 := by
  obtain ⟨m', e, f⟩ := forLoop_inv (n := 10) (s := (⟨1, 10, junk⟩ : Mat))
    (body := fun c m => m.set 0 c (if 255 - t.compl.1 = c then (1 : ℝ) else 0))
    (fun c m => Fill (fun _ c => if 255 - t.compl.1 = c then (1 : ℝ) else 0) 1 10 0 c m)
    ⟨rfl, rfl, fun i pos hp => by omega⟩ (fun c hc m hm => hm.set (by norm_num) hc rfl)
  refine ⟨⟨[], t.compl, m'⟩, ?_, f.rows⟩
  rw [labels, forLoop, forLoop, ok_bind, label]
  exact bind_eq_ok.2 ⟨m', e, rfl⟩

/-- **C62 is false** for files that end too early: they are accepted.  Here both the image and its label are missing, the pixel
becomes 0. -/
theorem idx_short_file_fails (junk1 junk2 : ℕ → ℕ → ℝ) : ∃ inp out,
    load 0 0 (-1) (imageFile 1 1 1 []) (labelFile 1 []) junk1 junk2 = ok (inp, out) ∧ inp.rows = 1 ∧ inp.cols = 1 ∧
      inp.val 0 0 = 0 ∧ out.rows = 1 := by
  obtain ⟨st, himg, h1, h2, h3⟩ : ∃ st, images 0 0 (-1) (1 : ℕ) (1 : ℕ) (1 : ℕ) [] junk1 = ok st ∧ st.m.rows = 1 ∧ st.m.cols = 1 ∧
      st.m.val 0 0 = 0 := by
    refine ⟨⟨[], Byte.compl 0, ⟨1, 1, fun a b => if a = 0 ∧ b = 0 then 1 - ((Byte.compl 0).1 : ℝ) / 255 else junk1 a b⟩⟩, ?_, rfl, rfl, ?_⟩
    · simp [images, sizeN, sizeD, forLoop, image, imageRow, pixel, readByte, Mat.set]
    · show (if (0 : ℕ) = 0 ∧ (0 : ℕ) = 0 then 1 - ((Byte.compl 0).1 : ℝ) / 255 else junk1 0 0) = 0
      rw [if_pos ⟨rfl, rfl⟩, compl_value]
      norm_num
  obtain ⟨st2, hlab, h4⟩ := labels_short st.tmp junk2
  refine ⟨st.m, st2.m, ?_, h1, h2, h3, h4⟩
  unfold load
  rw [magic_image, ok_bind, readInt_be32 (by norm_num)]
  simp only
  rw [readInt_be32 (by norm_num)]
  simp only
  rw [readInt_be32 (by norm_num)]
  simp only
  rw [himg, ok_bind, magic_label, ok_bind, readInt_be32 (by norm_num)]
  simp only
  rw [check_true trivial, ok_bind]
  have : (sizeN ((1 : ℕ) : ℤ) (-1)).toNat = 1 := by decide
  rw [this, hlab, ok_bind]

/-! ## Padding in one direction -/

theorem forLoop_preserves {σ : Type} {n : ℕ} {body : ℕ → σ → Outcome σ} (P : σ → Prop)
    (h : ∀ i < n, ∀ s s', P s → body i s = ok s' → P s') {s t : σ} (hs : P s) (hr : forLoop n body s = ok t) : P t := by
  induction n generalizing t with
  | zero =>
    cases hr
    exact hs
  | succ n ih =>
    rw [forLoop, bind_eq_ok] at hr
    obtain ⟨u, hu, ht⟩ := hr
    exact h n (Nat.lt_succ_self n) u t (ih (fun i hi => h i (Nat.lt_succ_of_lt hi)) hu) ht

theorem set_dims {m m' : Mat} {i j : ℕ} {v : ℝ} (h : m.set i j v = ok m') : i < m.rows ∧ j < m.cols ∧ m'.cols = m.cols := by
  unfold Mat.set at h
  split at h
  · next hc =>
    cases h
    exact ⟨hc.1, hc.2, rfl⟩
  · cases h

theorem pixel_dims {n pos : ℕ} {st st' : St} (h : pixel n pos st = ok st') : st'.m.cols = st.m.cols := by
  rw [pixel, bind_eq_ok] at h
  obtain ⟨m, hm, e⟩ := h
  cases e
  exact (set_dims hm).2.2

theorem copy_dims {n dst : ℕ} {src : ℤ} {st st' : St} (h : copy n dst src st = ok st') : dst < st.m.cols ∧ st'.m.cols = st.m.cols := by
  rw [copy, bind_eq_ok] at h
  obtain ⟨v, _, h⟩ := h
  rw [bind_eq_ok] at h
  obtain ⟨m, hm, e⟩ := h
  cases e
  exact (set_dims hm).2

theorem imageRow_dims {cols padX W n r : ℕ} {st st' : St} (h : imageRow cols padX W n r st = ok st') :
    st'.m.cols = st.m.cols ∧ (cols < padX → r * W + (padX - 1) < st.m.cols) := by
  rw [imageRow, bind_eq_ok] at h
  obtain ⟨s1, h1, h2⟩ := h
  have d1 : s1.m.cols = st.m.cols := forLoop_preserves (fun s => s.m.cols = st.m.cols)
    (fun i _ s s' hs hb => (pixel_dims hb).trans hs) rfl h1
  refine ⟨forLoop_preserves (fun s => s.m.cols = st.m.cols) (fun i _ s s' hs hb => (copy_dims hb).2.trans hs) d1 h2, fun hlt => ?_⟩
  obtain ⟨q, hq⟩ : ∃ q, padX - cols = q + 1 := ⟨padX - cols - 1, by omega⟩
  rw [hq, forLoop, bind_eq_ok] at h2
  obtain ⟨s2, h3, h4⟩ := h2
  have d2 : s2.m.cols = st.m.cols := forLoop_preserves (fun s => s.m.cols = st.m.cols)
    (fun i _ s s' hs hb => (copy_dims hb).2.trans hs) d1 h3
  have := (copy_dims h4).1
  rw [d2] at this
  have e : cols + q = padX - 1 := by omega
  rwa [e] at this

/-- **C62 is false** if the image is padded in one direction only (narrower than the padded width but higher than the padded height): no
file of this kind can be loaded, a coefficient outside of the matrix is accessed. -/
theorem idx_one_direction_fails (padX padY A B n : ℕ) (data lf : List Byte) (junk1 junk2 : ℕ → ℕ → ℝ) (hA : A < padX) (hB : padY < B)
    (hA31 : A < 2 ^ 31) (hB31 : B < 2 ^ 31) (hn : n < 2 ^ 31) (hn0 : 0 < n) :
    ∀ res, load padX padY (-1) (imageFile n A B data) lf junk1 junk2 ≠ ok res := by
  intro res h
  unfold load at h
  rw [magic_image, ok_bind, readInt_be32 hn] at h
  simp only at h
  rw [readInt_be32 hA31] at h
  simp only at h
  rw [readInt_be32 hB31] at h
  simp only at h
  rw [bind_eq_ok] at h
  obtain ⟨st, h, _⟩ := h
  unfold images at h
  split at h
  · cases h
  simp only [Int.toNat_natCast] at h
  have hsz : sizeN (n : ℤ) (-1) = n := rfl
  set D := (sizeD B A padX padY).toNat with hD
  have hDlt : D ≤ (B - 1) * padX + (padX - 1) := by
    have h1 : B * A ≤ B * (padX - 1) := Nat.mul_le_mul_left B (by omega)
    have h2 : padX * padY ≤ padX * (B - 1) := Nat.mul_le_mul_left padX (by omega)
    have h3 : B * (padX - 1) ≤ (B - 1) * padX + (padX - 1) := by
      obtain ⟨b, rfl⟩ : ∃ b, B = b + 1 := ⟨B - 1, by omega⟩
      have : (b + 1) * (padX - 1) = b * (padX - 1) + (padX - 1) := by ring
      have h4 : b * (padX - 1) ≤ b * padX := Nat.mul_le_mul_left b (by omega)
      rw [Nat.add_sub_cancel]
      omega
    have h5 : padX * (B - 1) = (B - 1) * padX := Nat.mul_comm _ _
    have : D = B * A ∨ D = padX * padY := by
      rw [hD]
      unfold sizeD
      split
      · right
        rw [← Nat.cast_mul, Int.toNat_natCast]
      · left
        rw [← Nat.cast_mul, Int.toNat_natCast]
    omega
  rw [hsz, Int.toNat_natCast] at h
  obtain ⟨q, rfl⟩ : ∃ q, n = q + 1 := ⟨n - 1, by omega⟩
  rw [forLoop_shift, bind_eq_ok] at h
  obtain ⟨s1, h1, _⟩ := h
  rw [image, bind_eq_ok] at h1
  obtain ⟨s2, h2, _⟩ := h1
  obtain ⟨b, rfl⟩ : ∃ b, B = b + 1 := ⟨B - 1, by omega⟩
  rw [forLoop, bind_eq_ok] at h2
  obtain ⟨s3, h3, h4⟩ := h2
  have d := forLoop_preserves (fun s => s.m.cols = D) (fun i _ s s' hs hb => (imageRow_dims hb).1.trans hs) rfl h3
  have := (imageRow_dims h4).2 hA
  rw [d, Nat.max_eq_left hA.le] at this
  rw [Nat.add_sub_cancel] at hDlt
  omega

/-! ## CIFAR-10 -/

/-- Specification: the input for the byte of a pixel. -/
def scaled (b : Byte) : ℝ := (b.1 : ℝ) / 128 - 1

/-- Specification: one-of-F. -/
def oneOf (l : Byte) (c : ℕ) : ℝ := if l.1 = c then 1 else 0

theorem scaled_range (b : Byte) : -1 ≤ scaled b ∧ scaled b < 1 := by
  have h : b.1 < 256 := b.2
  have h' : (b.1 : ℝ) < 256 := by exact_mod_cast h
  have h0 : (0 : ℝ) ≤ b.1 := by positivity
  unfold scaled
  constructor
  · linarith [div_nonneg h0 (by norm_num : (0 : ℝ) ≤ 128)]
  · have : (b.1 : ℝ) / 128 < 2 := by rw [div_lt_iff₀ (by norm_num)]; linarith
    linarith

/-- The first `n` rows of the matrices belong to the records. -/
structure Rows (rec : ℕ → ℕ → Byte) (total D F n : ℕ) (st : Cifar) : Prop where
  inputs : Fill (fun i k => scaled (rec i (k + 1))) total D n 0 st.inputs
  outputs : Fill (fun i c => oneOf (rec i 0) c) total F n 0 st.outputs

theorem decode_ok {rec : ℕ → ℕ → Byte} {total D F n : ℕ} {st : Cifar} (h : Rows rec total D F n st) (hn : n < total)
    (hv : ∀ i ≤ D, st.values[i]? = some (some (rec n i))) (hl : (rec n 0).1 < F) (hF : F ≤ 128) :
    ∃ st', decode D F n st = ok st' ∧ Rows rec total D F (n + 1) st' ∧ st'.values = st.values ∧ st'.s = st.s ∧ st'.eof = st.eof := by
  have hval : ∀ i ≤ D, value st i = ok (rec n i) := by
    intro i hi
    rw [value, read_eq_ok.2 (hv i hi), ok_bind]
  obtain ⟨o1, e1, f1⟩ := forLoop_inv (n := F) (body := fun c (m : Mat) => m.set n c 0) (s := st.outputs)
    (fun c m => Fill (fun i c => if i = n then 0 else st.outputs.val i c) total F n c m)
    ⟨h.outputs.rows, h.outputs.cols, fun i pos hp => by
      rw [if_neg (by omega)]⟩
    (fun c hc m hm => hm.set hn hc (by rw [if_pos rfl]))
  have e2 := Mat.set_ok (m := o1) (i := n) (j := (rec n 0).1) (by rw [f1.rows]; exact hn) (by rw [f1.cols]; exact hl) 1
  obtain ⟨i1, e3, f3⟩ := forLoop_inv (n := D) (s := st.inputs) (body := fun idx (m : Mat) => do
      let b ← value st (idx + 1)
      m.set n idx ((b.1 : ℝ) / 128 - 1))
    (fun k m => Fill (fun i k => scaled (rec i (k + 1))) total D n k m) h.inputs (fun k hk m hm => by
      obtain ⟨m', e, f⟩ := hm.set hn hk (v := scaled (rec n (k + 1))) rfl
      exact ⟨m', by rw [hval (k + 1) (by omega), ok_bind]; exact e, f⟩)
  refine ⟨{ st with
    inputs := i1
    outputs := ⟨o1.rows, o1.cols, fun a b => if a = n ∧ b = (rec n 0).1 then 1 else o1.val a b⟩ }, ?_, ⟨f3.next, ⟨?_, ?_, ?_⟩⟩, ?_, ?_, ?_⟩
  · rw [decode, hval 0 (by omega), ok_bind, if_neg (by omega), e1, ok_bind, e2, ok_bind]
    exact bind_eq_ok.2 ⟨i1, e3, rfl⟩
  · exact f1.rows
  · exact f1.cols
  · intro i pos hp
    show (if i = n ∧ pos = (rec n 0).1 then (1 : ℝ) else o1.val i pos) = oneOf (rec i 0) pos
    have hp' : i ≤ n ∧ pos < F := by omega
    have hval1 := f1.done i pos (by omega)
    by_cases hi : i = n
    · subst hi
      rw [if_pos rfl] at hval1
      unfold oneOf
      by_cases hc : pos = (rec i 0).1
      · rw [if_pos ⟨rfl, hc⟩, if_pos hc.symm]
      · rw [if_neg (fun h => hc h.2), if_neg (Ne.symm hc), hval1]
    · rw [if_neg hi] at hval1
      rw [if_neg (fun h => hi h.1), hval1]
      exact h.outputs.done i pos (by omega)
  · rfl
  · rfl
  · rfl

/-- The bytes of record `n` of a file. -/
def recordOf (D : ℕ) (s : List Byte) (n i : ℕ) : Byte := s.getD (n * (D + 1) + i) 0

theorem fill_values {D n : ℕ} {s : List Byte} {st : Cifar} (hs : st.s = s.drop (n * (D + 1))) (hv : st.values.length = D + 1)
    (hlen : (n + 1) * (D + 1) ≤ s.length) :
    (fill D st).values.length = D + 1 ∧ (∀ i ≤ D, (fill D st).values[i]? = some (some (recordOf D s n i))) ∧
      (fill D st).eof = false ∧ (fill D st).s = s.drop ((n + 1) * (D + 1)) := by
  have e : (n + 1) * (D + 1) = n * (D + 1) + (D + 1) := by ring
  have hl : D + 1 ≤ st.s.length := by
    rw [hs, List.length_drop]
    omega
  have hdrop : st.values.drop (min (D + 1) st.s.length) = [] := by
    rw [Nat.min_eq_left hl, ← hv, List.drop_length]
  refine ⟨?_, fun i hi => ?_, ?_, ?_⟩
  · show ((st.s.take (D + 1)).map some ++ st.values.drop (min (D + 1) st.s.length)).length = D + 1
    rw [hdrop, List.append_nil, List.length_map, List.length_take, Nat.min_eq_left hl]
  · simp only [fill, hdrop, List.append_nil, List.getElem?_map]
    rw [List.getElem?_take_of_lt (by omega), hs, List.getElem?_drop, List.getElem?_eq_getElem (by omega), recordOf,
      List.getD_eq_getElem?_getD, List.getElem?_eq_getElem (by omega)]
    rfl
  · simp only [fill, decide_eq_false_iff_not]
    omega
  · simp only [fill, hs, List.drop_drop, e]

/-- The state after `n` records of a file that starts with record `base`. -/
structure At (rec : ℕ → ℕ → Byte) (total D F base n : ℕ) (s : List Byte) (st : Cifar) : Prop where
  rows : Rows rec total D F (base + n) st
  stream : st.s = s.drop (n * (D + 1))
  eof : st.eof = false
  values : st.values.length = D + 1
  last : 0 < n → ∀ i ≤ D, st.values[i]? = some (some (recordOf D s (n - 1) i))

theorem record_ok {rec : ℕ → ℕ → Byte} {total D F base n : ℕ} {s : List Byte} {st : Cifar} (h : At rec total D F base n s st)
    (hF : F ≤ 128) (hn : base + n < total) (hlen : (n + 1) * (D + 1) ≤ s.length)
    (hrec : ∀ i ≤ D, rec (base + n) i = recordOf D s n i) (hl : (recordOf D s n 0).1 < F) :
    ∃ st', record D F (base + n) st = ok st' ∧ At rec total D F base (n + 1) s st' := by
  obtain ⟨v1, v2, v3, v4⟩ := fill_values h.stream h.values hlen
  obtain ⟨st', e, r, a, b, c⟩ := decode_ok (st := fill D st) ⟨h.rows.inputs, h.rows.outputs⟩ hn
    (fun i hi => by rw [v2 i hi, hrec i hi]) (by rw [hrec 0 (by omega)]; exact hl) hF
  refine ⟨st', by rw [record, h.eof]; exact e, r, by rw [b, v4], by rw [c, v3], by rw [a, v1], fun _ i hi => ?_⟩
  rw [a, v2 i hi, Nat.add_sub_cancel]

theorem file_ok {rec : ℕ → ℕ → Byte} {total D F base p : ℕ} {s : List Byte} {st : Cifar} (h : At rec total D F base 0 s st)
    (hF : F ≤ 128) (hn : base + p ≤ total) (hlen : p * (D + 1) ≤ s.length)
    (hrec : ∀ n < p, ∀ i ≤ D, rec (base + n) i = recordOf D s n i) (hl : ∀ n < p, (recordOf D s n 0).1 < F) :
    ∃ st', forLoop p (fun n => record D F (base + n)) st = ok st' ∧ At rec total D F base p s st' := by
  refine forLoop_inv (fun n st => At rec total D F base n s st) h fun n hn' st hst => ?_
  have : (n + 1) * (D + 1) ≤ p * (D + 1) := Nat.mul_le_mul_right _ hn'
  exact record_ok hst hF (by omega) (by omega) (hrec n hn') (hl n hn')

/-- **C62 (CIFAR)**: for every list of complete files whose labels are smaller than `F`, record `n` of file `f` becomes row
`f * perFile + n`; its byte `k + 1` becomes input `k`, scaled to `[-1, 1)`, and its first byte the one-of-F target.  For the constants of
the program, `D = 3072`, `F = 10`, `perFile = 10000`. -/
theorem cifar_decodes (D F perFile : ℕ) (files : List (List Byte)) (junk1 junk2 : ℕ → ℕ → ℝ) (hF : F ≤ 128)
    (hlen : ∀ s ∈ files, perFile * (D + 1) ≤ s.length) (hl : ∀ s ∈ files, ∀ n < perFile, (recordOf D s n 0).1 < F) :
    ∃ inp out, loadCifar D F perFile (files.map some) junk1 junk2 = ok (inp, out) ∧
      inp.rows = files.length * perFile ∧ inp.cols = D ∧ out.rows = files.length * perFile ∧ out.cols = F ∧
      ∀ (f : ℕ) (s : List Byte), files[f]? = some s → ∀ n < perFile,
        (∀ k < D, inp.val (f * perFile + n) k = scaled (s.getD (n * (D + 1) + (k + 1)) 0) ∧ -1 ≤ inp.val (f * perFile + n) k ∧
          inp.val (f * perFile + n) k < 1) ∧
        ∀ c < F, out.val (f * perFile + n) c = if (s.getD (n * (D + 1)) 0).1 = c then 1 else 0 := by
  set total := files.length * perFile with htotal
  set rec : ℕ → ℕ → Byte := fun i => recordOf D (files.getD (i / perFile) []) (i % perFile) with hrec
  obtain ⟨st, e, h⟩ := forLoop_inv (n := files.length) (body := fun f => loadFile D F perFile f ((files.map some).getD f none))
    (s := ⟨List.replicate (D + 1) none, [], false, ⟨total, D, junk1⟩, ⟨total, F, junk2⟩⟩)
    (fun f st => Rows rec total D F (f * perFile) st ∧ st.values.length = D + 1)
    ⟨⟨⟨rfl, rfl, fun i pos hp => by omega⟩, ⟨rfl, rfl, fun i pos hp => by omega⟩⟩, by simp⟩ (by
      intro f hf st hst
      have hg : (files.map some).getD f none = some files[f] := by
        rw [List.getD_eq_getElem?_getD, List.getElem?_map, List.getElem?_eq_getElem hf]
        rfl
      have hmem : files[f] ∈ files := List.getElem_mem hf
      have hpos : ∀ n < perFile, (f * perFile + n) / perFile = f ∧ (f * perFile + n) % perFile = n := by
        intro n hn
        rw [Nat.add_comm, Nat.add_mul_div_right _ _ (by omega), Nat.add_mul_mod_self_right, Nat.div_eq_of_lt hn, Nat.mod_eq_of_lt hn]
        exact ⟨by omega, rfl⟩
      obtain ⟨st', e, a⟩ := file_ok (rec := rec) (total := total) (F := F) (base := f * perFile) (p := perFile) (s := files[f])
        (st := { st with s := files[f], eof := false })
        ⟨⟨hst.1.inputs, hst.1.outputs⟩, by simp, rfl, hst.2, fun h => absurd h (lt_irrefl 0)⟩ hF (by
          have h1 : (f + 1) * perFile ≤ files.length * perFile := Nat.mul_le_mul_right _ hf
          have h2 : (f + 1) * perFile = f * perFile + perFile := by ring
          omega) (hlen _ hmem) (fun n hn i _ => by
          rw [hrec]
          simp only [(hpos n hn).1, (hpos n hn).2]
          rw [List.getD_eq_getElem?_getD, List.getElem?_eq_getElem hf]
          rfl) (hl _ hmem)
      refine ⟨st', by rw [hg, loadFile]; exact e, ?_, a.values⟩
      have h2 : (f + 1) * perFile = f * perFile + perFile := by ring
      rw [h2]
      exact a.rows)
  refine ⟨st.inputs, st.outputs, ?_, h.1.inputs.rows, h.1.inputs.cols, h.1.outputs.rows, h.1.outputs.cols, ?_⟩
  · rw [loadCifar, List.length_map, e, ok_bind]
  · intro f s hs n hn
    have hf : f < files.length := (List.getElem?_eq_some_iff.1 hs).1
    have hlt : f * perFile + n < files.length * perFile := by
      have h1 : (f + 1) * perFile ≤ files.length * perFile := Nat.mul_le_mul_right _ hf
      have h2 : (f + 1) * perFile = f * perFile + perFile := by ring
      omega
    have hpos : (f * perFile + n) / perFile = f ∧ (f * perFile + n) % perFile = n := by
      rw [Nat.add_comm, Nat.add_mul_div_right _ _ (by omega), Nat.add_mul_mod_self_right, Nat.div_eq_of_lt hn, Nat.mod_eq_of_lt hn]
      exact ⟨by omega, rfl⟩
    have hr : ∀ i, rec (f * perFile + n) i = s.getD (n * (D + 1) + i) 0 := by
      intro i
      rw [hrec]
      simp only [hpos.1, hpos.2, recordOf]
      rw [List.getD_eq_getElem?_getD (l := files), hs]
      rfl
    refine ⟨fun k hk => ?_, fun c hc => ?_⟩
    · have := h.1.inputs.done (f * perFile + n) k (Or.inl ⟨hlt, hk⟩)
      rw [hr] at this
      rw [this]
      exact ⟨rfl, scaled_range _⟩
    · have := h.1.outputs.done (f * perFile + n) c (Or.inl ⟨hlt, hc⟩)
      rw [hr] at this
      rw [this]
      rfl

example : ∃ files : List (List Byte), files.length = 2 ∧ (∀ s ∈ files, 2 * (1 + 1) ≤ s.length) ∧
    ∀ s ∈ files, ∀ n < 2, (recordOf 1 s n 0).1 < 10 := by
  refine ⟨[[0, 255, 1, 128], [0, 0, 0, 17]], rfl, by simp, ?_⟩
  intro s hs n hn
  have h1 : ∀ n < 2, (recordOf 1 [0, 255, 1, 128] n 0).1 < 10 := by decide
  have h2 : ∀ n < 2, (recordOf 1 [0, 0, 0, 17] n 0).1 < 10 := by decide
  rcases List.mem_cons.1 hs with rfl | hs
  · exact h1 n hn
  · rw [List.mem_singleton] at hs
    rw [hs]
    exact h2 n hn

theorem forLoop_stops {σ : Type} {n k : ℕ} {body : ℕ → σ → Outcome σ} {s t : σ} (hk : k < n) (h1 : forLoop k body s = ok t)
    (h2 : body k t = throws) : forLoop n body s = throws := by
  induction n with
  | zero => omega
  | succ n ih =>
    rw [forLoop]
    by_cases hkn : k = n
    · subst hkn
      rw [h1, ok_bind, h2]
    · rw [ih (by omega)]
      rfl

/-- The state before the first record of a single file. -/
theorem start_at (rec : ℕ → ℕ → Byte) (D F p : ℕ) (s : List Byte) (junk1 junk2 : ℕ → ℕ → ℝ) :
    At rec (1 * p) D F (0 * p) 0 s ⟨List.replicate (D + 1) none, s, false, ⟨1 * p, D, junk1⟩, ⟨1 * p, F, junk2⟩⟩ :=
  ⟨⟨⟨rfl, rfl, fun i pos hp => by omega⟩, ⟨rfl, rfl, fun i pos hp => by omega⟩⟩, by simp, rfl, by simp, fun h => absurd h (lt_irrefl 0)⟩

theorem loadCifar_single (D F p : ℕ) (s : List Byte) (junk1 junk2 : ℕ → ℕ → ℝ) :
    loadCifar D F p [some s] junk1 junk2 =
      forLoop p (fun n => record D F (0 * p + n)) ⟨List.replicate (D + 1) none, s, false, ⟨1 * p, D, junk1⟩, ⟨1 * p, F, junk2⟩⟩ >>=
        fun st => ok (st.inputs, st.outputs) := rfl

theorem record_end {D F inst : ℕ} {st : Cifar} (he : st.eof = false) : record D F inst st = decode D F inst (fill D st) := by
  rw [record, he]
  rfl

/-- **C62 (CIFAR)**: a file with an unknown label is refused. -/
theorem cifar_unknown_class (D F p n : ℕ) (s : List Byte) (junk1 junk2 : ℕ → ℕ → ℝ) (hF : F ≤ 128) (hn : n < p)
    (hlen : (n + 1) * (D + 1) ≤ s.length) (hl : ∀ i < n, (recordOf D s i 0).1 < F) (hbad : F ≤ (recordOf D s n 0).1) :
    loadCifar D F p [some s] junk1 junk2 = throws := by
  have e : (n + 1) * (D + 1) = n * (D + 1) + (D + 1) := by ring
  obtain ⟨st, h1, h2⟩ := file_ok (start_at (recordOf D s) D F p s junk1 junk2) hF (by omega : 0 * p + n ≤ 1 * p) (by omega)
    (fun n _ i _ => by rw [Nat.zero_mul, Nat.zero_add]) hl
  obtain ⟨_, v2, _, _⟩ := fill_values h2.stream h2.values hlen
  have hb : record D F (0 * p + n) st = throws := by
    rw [record_end h2.eof, decode, value, read_eq_ok.2 (v2 0 (by omega)), ok_bind, ok_bind, if_pos (Or.inr hbad)]
  rw [loadCifar_single, forLoop_stops hn h1 hb]
  rfl

/-- **C62 (CIFAR)**: a file that ends after at least one and before the last but one record is complete is refused. -/
theorem cifar_short_refused (D F p m : ℕ) (s : List Byte) (junk1 junk2 : ℕ → ℕ → ℝ) (hF : F ≤ 128) (hm0 : 0 < m) (hm : m + 1 < p)
    (hlen : m * (D + 1) ≤ s.length) (hshort : s.length < (m + 1) * (D + 1)) (hl : ∀ i < m, (recordOf D s i 0).1 < F) :
    loadCifar D F p [some s] junk1 junk2 = throws := by
  have e : (m + 1) * (D + 1) = m * (D + 1) + (D + 1) := by ring
  set rest := s.length - m * (D + 1) with hrest
  set rec : ℕ → ℕ → Byte := fun n i =>
    if n < m then recordOf D s n i else if i < rest then s.getD (m * (D + 1) + i) 0 else recordOf D s (m - 1) i with hrec
  obtain ⟨st, h1, h2⟩ := file_ok (start_at rec D F p s junk1 junk2) hF (by omega : 0 * p + m ≤ 1 * p) hlen
    (fun n hn i _ => by rw [Nat.zero_mul, Nat.zero_add, hrec]; simp only [if_pos hn]) hl
  have hsl : st.s.length = rest := by rw [h2.stream, List.length_drop]
  have hvals : ∀ i ≤ D, (fill D st).values[i]? = some (some (rec (0 * p + m) i)) := by
    intro i hi
    have hmm : ¬ (0 * p + m < m) := by omega
    have htake : st.s.take (D + 1) = st.s := List.take_of_length_le (by omega)
    have hmin : min (D + 1) st.s.length = rest := by omega
    simp only [fill, htake, hmin, hrec, if_neg hmm]
    by_cases hir : i < rest
    · rw [if_pos hir, List.getElem?_append_left (by rw [List.length_map, hsl]; exact hir), List.getElem?_map, h2.stream,
        List.getElem?_drop, List.getElem?_eq_getElem (by omega), List.getD_eq_getElem?_getD, List.getElem?_eq_getElem (by omega)]
      rfl
    · rw [if_neg hir, List.getElem?_append_right (by rw [List.length_map, hsl]; omega), List.length_map, hsl, List.getElem?_drop,
        Nat.add_sub_cancel' (by omega : rest ≤ i)]
      exact h2.last hm0 i hi
  have heof : (fill D st).eof = true := by
    simp only [fill, decide_eq_true_eq]
    omega
  rw [loadCifar_single]
  by_cases hlab : (rec (0 * p + m) 0).1 < F
  · obtain ⟨st', e', _, _, _, hc⟩ := decode_ok (st := fill D st) ⟨h2.rows.inputs, h2.rows.outputs⟩ (by omega) hvals hlab hF
    have hrun : forLoop (m + 1) (fun n => record D F (0 * p + n))
        ⟨List.replicate (D + 1) none, s, false, ⟨1 * p, D, junk1⟩, ⟨1 * p, F, junk2⟩⟩ = ok st' := by
      rw [forLoop, h1, ok_bind, record_end h2.eof]
      exact e'
    have hb : record D F (0 * p + (m + 1)) st' = throws := by
      rw [record, hc, heof]
      rfl
    rw [forLoop_stops hm hrun hb]
    rfl
  · have hb : record D F (0 * p + m) st = throws := by
      rw [record_end h2.eof, decode, value, read_eq_ok.2 (hvals 0 (by omega)), ok_bind, ok_bind, if_pos (Or.inr (by omega))]
    rw [forLoop_stops (by omega) h1 hb]
    rfl

/-- **C62 is false** for a file whose last record is missing: it is accepted and the last instance is a copy of the one before. -/
theorem cifar_last_record_fails (D F p : ℕ) (s : List Byte) (junk1 junk2 : ℕ → ℕ → ℝ) (hF : F ≤ 128)
    (hlen : s.length = (p + 1) * (D + 1)) (hl : ∀ i < p + 1, (recordOf D s i 0).1 < F) :
    ∃ inp out, loadCifar D F (p + 2) [some s] junk1 junk2 = ok (inp, out) ∧ inp.rows = p + 2 ∧
      (∀ k < D, inp.val (p + 1) k = inp.val p k) ∧ ∀ c < F, out.val (p + 1) c = out.val p c := by
  set rec : ℕ → ℕ → Byte := fun n => recordOf D s (min n p) with hrec
  obtain ⟨st, h1, h2⟩ := file_ok (start_at rec D F (p + 2) s junk1 junk2) hF (by omega : 0 * (p + 2) + (p + 1) ≤ 1 * (p + 2)) hlen.ge
    (fun n hn i _ => by rw [Nat.zero_mul, Nat.zero_add, hrec]; simp only [Nat.min_eq_left (by omega : n ≤ p)]) hl
  have hs0 : st.s = [] := by rw [h2.stream, ← hlen, List.drop_length]
  have hvals : ∀ i ≤ D, (fill D st).values[i]? = some (some (rec (0 * (p + 2) + (p + 1)) i)) := by
    intro i hi
    have := h2.last (by omega) i hi
    simp only [fill, hs0, List.take_nil, List.map_nil, List.nil_append, List.length_nil, Nat.min_zero, List.drop_zero, hrec,
      Nat.zero_mul, Nat.zero_add, Nat.min_eq_right (by omega : p ≤ p + 1)]
    rw [this, Nat.add_sub_cancel]
  have hlab : (rec (0 * (p + 2) + (p + 1)) 0).1 < F := by
    simp only [hrec, Nat.zero_mul, Nat.zero_add, Nat.min_eq_right (by omega : p ≤ p + 1)]
    exact hl p (by omega)
  obtain ⟨st', e', r', _, _, _⟩ := decode_ok (st := fill D st) ⟨h2.rows.inputs, h2.rows.outputs⟩ (by omega) hvals hlab hF
  refine ⟨st'.inputs, st'.outputs, ?_, by rw [r'.inputs.rows, Nat.one_mul], fun k hk => ?_, fun c hc => ?_⟩
  · rw [loadCifar_single, forLoop, h1, ok_bind, record_end h2.eof, e', ok_bind]
  · rw [r'.inputs.done (p + 1) k (Or.inl ⟨by omega, hk⟩), r'.inputs.done p k (Or.inl ⟨by omega, hk⟩)]
    simp only [hrec, Nat.min_self, Nat.min_eq_right (by omega : p ≤ p + 1)]
  · rw [r'.outputs.done (p + 1) c (Or.inl ⟨by omega, hc⟩), r'.outputs.done p c (Or.inl ⟨by omega, hc⟩)]
    simp only [hrec, Nat.min_self, Nat.min_eq_right (by omega : p ≤ p + 1)]

end

end Verif.Img

namespace Verif.Img
open Outcome

/-- A number of images or a size that does not fit into `int32_t` is read as a negative number, which Eigen refuses. -/
theorem images_negative_ub (padToX padToY : ℕ) (maxN n cols rows : ℤ) (s : List Byte) (junk : ℕ → ℕ → ℝ)
    (h : sizeN n maxN < 0 ∨ sizeD rows cols padToX padToY < 0) : images padToX padToY maxN n cols rows s junk = .ub := if_pos h

theorem int32_large {n : ℕ} (h : 2147483648 ≤ n) (h' : n < 4294967296) {a b c d : Byte} (ha : a.1 = n / 16777216 % 256)
    (hb : b.1 = n / 65536 % 256) (hc : c.1 = n / 256 % 256) (hd : d.1 = n % 256) : int32 a b c d = n - 4294967296 := by
  have key : ((a.1 : ℕ) : ℤ) * 16777216 + ((b.1 : ℕ) : ℤ) * 65536 + ((c.1 : ℕ) : ℤ) * 256 + ((d.1 : ℕ) : ℤ) = n := by
    rw [ha, hb, hc, hd]
    omega
  unfold int32
  norm_num only
  rw [key, if_neg (by omega)]

/-- **C62 is false** for files with more than 2^31 - 1 images: their number is read as a negative one. -/
theorem idx_many_images_fails (padX padY A B n : ℕ) {maxN : ℤ} (hmax : maxN ≤ 0) (hn : 2 ^ 31 ≤ n) (hn' : n < 2 ^ 32)
    (data lf : List Byte) (junk1 junk2 : ℕ → ℕ → ℝ) :
    load padX padY maxN (imageFile n A B data) lf junk1 junk2 = .ub := by
  have hr : ∀ s, (readInt (be32 n ++ s)).2 < 0 := by
    intro s
    rw [be32, List.cons_append, List.cons_append, List.cons_append, List.cons_append, List.nil_append, readInt_cons,
      int32_large (by simpa using hn) (by simpa using hn') (by norm_num only) (by norm_num only) (by norm_num only) rfl]
    norm_num at hn'
    show (n : ℤ) - 4294967296 < 0
    omega
  unfold load
  rw [magic_image, ok_bind]
  simp only
  rw [images_negative_ub]
  · rfl
  · left
    rw [sizeN, if_neg (by omega)]
    exact hr _

example : (2 ^ 31 : ℕ) ≤ 3000000000 ∧ 3000000000 < 2 ^ 32 := by norm_num

end Verif.Img
