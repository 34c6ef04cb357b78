import Verif.Model.Bmp
import Verif.Props.Pixel
import Mathlib.Tactic.Ring
import Mathlib.Tactic.Linarith

/-
C38, C39, C67: BMP files.
-/

namespace Spectre.Bmp

open Spectre.Img

theorem join16 (v : BitVec 16) :
    (v.setWidth 8 : Byte).setWidth 16 ||| (((v >>> 8).setWidth 8 : Byte).setWidth 16 <<< 8) = v := by
  ext i hi
  simp [BitVec.getElem_setWidth, BitVec.getElem_shiftLeft]
  each_bit i

theorem join32 (v : BitVec 32) :
    (v.setWidth 8 : Byte).setWidth 32 ||| (((v >>> 8).setWidth 8 : Byte).setWidth 32 <<< 8) |||
    (((v >>> 16).setWidth 8 : Byte).setWidth 32 <<< 16) |||
    (((v >>> 24).setWidth 8 : Byte).setWidth 32 <<< 24) = v := by
  ext i hi
  simp [BitVec.getElem_setWidth, BitVec.getElem_shiftLeft]
  each_bit i

theorem header_length (w h : Nat) : (header w h).length = 54 := rfl

theorem header_magic (w h : Nat) (b : List Byte) : rd16 (header w h ++ b) 0 = 19778#16 := join16 _
theorem header_size (w h : Nat) (b : List Byte) : rd32 (header w h ++ b) 2 = BitVec.ofNat 32 (bmpSize w h) :=
  join32 _
theorem header_offset (w h : Nat) (b : List Byte) : rd32 (header w h ++ b) 10 = 54#32 := join32 _
theorem header_width (w h : Nat) (b : List Byte) : rd32 (header w h ++ b) 18 = BitVec.ofNat 32 w := join32 _
theorem header_height (w h : Nat) (b : List Byte) :
    rd32 (header w h ++ b) 22 = BitVec.ofInt 32 (-(h : Int)) := join32 _
theorem header_bpp (w h : Nat) (b : List Byte) : rd16 (header w h ++ b) 28 = 24#16 := join16 _
theorem header_compression (w h : Nat) (b : List Byte) : rd32 (header w h ++ b) 30 = 0#32 := join32 _
theorem header_palette (w h : Nat) (b : List Byte) : rd32 (header w h ++ b) 46 = 0#32 := join32 _

theorem toInt_ofNat_small (w : Nat) (h : w < 2 ^ 31) : (BitVec.ofNat 32 w).toInt = w := by
  have : (BitVec.ofNat 32 w).toNat = w := by rw [BitVec.toNat_ofNat]; omega
  rw [BitVec.toInt_eq_toNat_of_lt (by omega), this]

theorem toInt_ofInt_small (h : Nat) (hh : h < 2 ^ 31) : (BitVec.ofInt 32 (-(h : Int))).toInt = -(h : Int) := by
  rw [BitVec.toInt_ofInt, Int.bmod_eq_of_le] <;> omega

/-! ### Reading rows -/

/-- Index of the `k`-th row that is read if `n` rows are left. -/
def rowIdx (h : Nat) (down : Bool) (n k : Nat) : Nat := if down then h - n + k else n - 1 - k

theorem row_unique {w y y' x x' : Nat} (hx : x < w) (hx' : x' < w) (h : y * w + x = y' * w + x') : y = y' := by
  have h1 : (y * w + x) / w = y := by
    rw [Nat.add_comm, Nat.add_mul_div_right _ _ (by omega), Nat.div_eq_of_lt hx]; omega
  have h2 : (y' * w + x') / w = y' := by
    rw [Nat.add_comm, Nat.add_mul_div_right _ _ (by omega), Nat.div_eq_of_lt hx']; omega
  rw [← h1, ← h2, h]

theorem readRows_spec (bpp w h : Nat) (down : Bool) (cap : Nat) (hcap : h * w ≤ cap)
    (hL : 0 < bpp * w + padding bpp w) :
    ∀ (n : Nat) (rest : List Byte) (buf : Nat → Pixel) (written : Nat), n ≤ h →
    n * (bpp * w + padding bpp w) ≤ rest.length →
    ∃ buf', readRows bpp w h down cap n rest buf written = some (buf', written + n * w) ∧
      (∀ k < n, ∀ x < w, buf' (rowIdx h down n k * w + x) =
        readPixel bpp ((rest.drop (k * (bpp * w + padding bpp w))).take (bpp * w + padding bpp w)) x) ∧
      (∀ i, (∀ k < n, ∀ x < w, i ≠ rowIdx h down n k * w + x) → buf' i = buf i) := by
  intro n
  induction n with
  | zero =>
    intro rest buf written _ _
    exact ⟨buf, by simp [readRows], by simp, by simp⟩
  | succ n ih =>
    intro rest buf written hn hlen
    generalize hLd : bpp * w + padding bpp w = L at *
    have hlen' : n * L + L ≤ rest.length := by rw [Nat.succ_mul] at hlen; exact hlen
    generalize hy : (if down then h - (n + 1) else n) = y
    have hyh : y < h := by
      rw [← hy]; split <;> omega
    have hyw : y * w + w ≤ cap := by
      have : (y + 1) * w ≤ h * w := Nat.mul_le_mul_right _ hyh
      rw [Nat.succ_mul] at this
      omega
    obtain ⟨buf', e, h1, h2⟩ := ih (rest.drop L)
      (fun i => if y * w ≤ i ∧ i < y * w + w then readPixel bpp (rest.take L) (i - y * w) else buf i)
      (written + w) (by omega) (by rw [List.length_drop]; omega)
    refine ⟨buf', ?_, ?_, ?_⟩
    · rw [readRows]
      simp only [hLd]
      rw [if_pos ⟨hL, by omega⟩, hy, if_pos hyw, e, Nat.succ_mul]
      congr 2
      omega
    · intro k hk x hx
      rcases k with _ | k
      · have hy0 : rowIdx h down (n + 1) 0 = y := by
          rw [← hy]; unfold rowIdx; split <;> omega
        rw [hy0, h2]
        · rw [if_pos ⟨by omega, by omega⟩]
          simp
        · intro k hk x' hx' hne
          have := row_unique hx hx' hne
          rw [← hy] at this
          unfold rowIdx at this
          split at this <;> omega
      · have hy1 : rowIdx h down (n + 1) (k + 1) = rowIdx h down n k := by
          unfold rowIdx; split <;> omega
        rw [hy1, h1 k (by omega) x hx, List.drop_drop]
        rw [show L + k * L = (k + 1) * L by ring]
    · intro i hi
      rw [h2]
      · rw [if_neg]
        rintro ⟨a, b⟩
        have hy0 : rowIdx h down (n + 1) 0 = y := by
          rw [← hy]; unfold rowIdx; split <;> omega
        exact hi 0 (by omega) (i - y * w) (by omega) (by rw [hy0]; omega)
      · intro k hk x hx
        have hy1 : rowIdx h down (n + 1) (k + 1) = rowIdx h down n k := by
          unfold rowIdx; split <;> omega
        rw [← hy1]
        exact hi (k + 1) (by omega) x hx

theorem readRows_safe (bpp w h : Nat) (down : Bool) (cap : Nat) (hcap : h * w ≤ cap) :
    ∀ (n : Nat) (rest : List Byte) (buf : Nat → Pixel) (written : Nat), n ≤ h →
    readRows bpp w h down cap n rest buf written ≠ none := by
  intro n
  induction n with
  | zero => intro rest buf written _; simp [readRows]
  | succ n ih =>
    intro rest buf written hn
    rw [readRows]
    simp only
    by_cases hc : 0 < bpp * w + padding bpp w ∧ bpp * w + padding bpp w ≤ rest.length
    · rw [if_pos hc]
      generalize hy : (if down then h - (n + 1) else n) = y
      have hyh : y < h := by
        rw [← hy]; split <;> omega
      have hyw : y * w + w ≤ cap := by
        have : (y + 1) * w ≤ h * w := Nat.mul_le_mul_right _ hyh
        rw [Nat.succ_mul] at this
        omega
      rw [if_pos hyw]
      exact ih _ _ _ (by omega)
    · rw [if_neg hc]
      simp

/-! ### Written rows -/

theorem flatMap_pixelBytes_getD : ∀ (px : List Pixel) (x : Nat) (h : x < px.length) (r : List Byte),
    (px.flatMap pixelBytes ++ r).getD (x * 3) 0 = blue px[x] ∧
    (px.flatMap pixelBytes ++ r).getD (x * 3 + 1) 0 = green px[x] ∧
    (px.flatMap pixelBytes ++ r).getD (x * 3 + 2) 0 = red px[x] := by
  intro px
  induction px with
  | nil => intro x h; simp at h
  | cons p px ih =>
    intro x h r
    rcases x with _ | x
    · simp [pixelBytes]
    · simp only [List.length_cons] at h
      have := ih x (by omega) r
      simp only [List.flatMap_cons, pixelBytes, List.cons_append, List.nil_append, List.getElem_cons_succ]
      rw [show (x + 1) * 3 = x * 3 + 1 + 1 + 1 by ring]
      simp only [List.getD_cons_succ]
      exact this

theorem flatMap_pixelBytes_length (px : List Pixel) : (px.flatMap pixelBytes).length = 3 * px.length := by
  induction px with
  | nil => rfl
  | cons p px ih => simp only [List.flatMap_cons, List.length_append, ih, List.length_cons, pixelBytes,
      List.length_nil]; omega

theorem writeRow_length (junk : Nat → Byte) (w : Nat) (px : List Pixel) (h : px.length = w) :
    (writeRow junk w px).length = 3 * w + padding 3 w := by
  rw [writeRow, List.length_append, flatMap_pixelBytes_length, h]
  simp

theorem readPixel_writeRow (junk : Nat → Byte) (w : Nat) (px : List Pixel) (x : Nat) (hx : x < px.length) :
    readPixel 3 (writeRow junk w px) x = px[x] ||| 0xFF#32 := by
  obtain ⟨h1, h2, h3⟩ := flatMap_pixelBytes_getD px x hx ((List.range (padding 3 w)).map junk)
  unfold readPixel writeRow
  simp only [h1, h2, h3]
  rw [if_neg (by omega), mk_components]

theorem writeRows_length (junk : Nat → Byte) (w : Nat) : ∀ (h : Nat) (data : List Pixel), w * h ≤ data.length →
    (writeRows junk w data h).length = h * (3 * w + padding 3 w) := by
  intro h
  induction h with
  | zero => intro data _; simp [writeRows]
  | succ h ih =>
    intro data hd
    rw [Nat.mul_succ] at hd
    rw [writeRows, List.length_append, ih _ (by rw [List.length_drop]; omega),
      writeRow_length _ _ _ (by rw [List.length_take]; omega)]
    ring

theorem writeRows_row (junk : Nat → Byte) (w : Nat) : ∀ (h : Nat) (data : List Pixel) (k : Nat), w * h ≤ data.length →
    k < h → ((writeRows junk w data h).drop (k * (3 * w + padding 3 w))).take (3 * w + padding 3 w) =
      writeRow junk w ((data.drop (k * w)).take w) := by
  intro h
  induction h with
  | zero => intro data k _ hk; omega
  | succ h ih =>
    intro data k hd hk
    rw [Nat.mul_succ] at hd
    have hl : (writeRow junk w (data.take w)).length = 3 * w + padding 3 w :=
      writeRow_length _ _ _ (by rw [List.length_take]; omega)
    rw [writeRows]
    rcases k with _ | k
    · rw [Nat.zero_mul, Nat.zero_mul, List.drop_zero, List.drop_zero, ← hl, List.take_left]
    · have e : (k + 1) * (3 * w + padding 3 w) =
          (writeRow junk w (data.take w)).length + k * (3 * w + padding 3 w) := by rw [hl]; ring
      rw [e, List.drop_append, List.drop_eq_nil_of_le (by omega), List.nil_append, Nat.add_sub_cancel_left, ih (data.drop w) k (by rw [List.length_drop]; omega) (by omega), List.drop_drop]
      congr 3
      ring

/-! ### C38 -/

theorem fits_bounds {w h : Nat} (hf : Fits w h) : w < 2 ^ 31 ∧ (w = 0 ∨ h < 2 ^ 31) ∧ w * h < 2 ^ 31 ∧
    3 * w + padding 3 w < 2 ^ 31 := by
  obtain ⟨h1, h2⟩ := hf
  unfold bmpSize at h2
  have e : ((1 <<< 24) &&& 0xFFFF : Nat) = 0 := by decide
  rw [e, Nat.zero_add] at h2
  have h3 : 3 * w ≤ 4 * ((w * 24 + 31) / 32) := by omega
  have h4 : h * (3 * w) ≤ h * (4 * ((w * 24 + 31) / 32)) := Nat.mul_le_mul_left _ h3
  have h5 : h * (4 * ((w * 24 + 31) / 32)) = 4 * (h * ((w * 24 + 31) / 32)) := by ring
  have h6 : h * (3 * w) = 3 * (w * h) := by ring
  refine ⟨by omega, ?_, by omega, ?_⟩
  · rcases Nat.eq_zero_or_pos w with h0 | h0
    · exact Or.inl h0
    · right
      have : h * 1 ≤ h * w := Nat.mul_le_mul_left _ h0
      have : h * w = w * h := Nat.mul_comm _ _
      omega
  · unfold padding; omega

/-- **C38.** For every image of `w × h` pixels (no row or column limit but the 2 GiB of an `int` file
size) and whatever the uninitialised padding bytes are: the file is written, the dimensions are read
back, and reading succeeds with every pixel unchanged but opaque. -/
theorem C38_round_trip (junk : Nat → Byte) (w h : Nat) (data : List Pixel) (hf : Fits w h) (hh : 0 < h)
    (hh' : h < 2 ^ 31) (hd : data.length = w * h) :
    ∃ f, write junk w h data = some (f, true) ∧ dimensions f = some (some ((w : Int), (h : Int))) ∧
      ∀ buf, ∃ buf', read f (w * h) buf = some (true, buf') ∧
        ∀ i, (hi : i < w * h) → IsOpaqueCopy (data[i]'(by omega)) (buf' i) := by
  obtain ⟨b1, b2, b3, b4⟩ := fits_bounds hf
  refine ⟨header w h ++ writeRows junk w data h, ?_, ?_, ?_⟩
  · unfold write
    rw [if_pos ⟨hf, by omega⟩]
    have : decide (3 * (w * h) = w * h * 3) = true := decide_eq_true (by ring)
    rw [this]
  · unfold dimensions
    rw [header_magic, header_width, header_height, toInt_ofNat_small _ b1, toInt_ofInt_small _ hh',
      List.length_append, header_length, if_pos ⟨by omega, rfl⟩]
    simp only
    rw [if_neg (by omega), if_neg (by omega)]
    simp
  · intro buf
    unfold read
    rw [header_magic, header_compression, header_palette, header_bpp, header_height, header_width, header_offset,
      toInt_ofNat_small _ b1, toInt_ofInt_small _ hh', List.length_append, header_length,
      if_pos ⟨by omega, rfl, rfl, rfl, Or.inl rfl⟩]
    simp only [if_true]
    rw [if_neg (by omega), Int.toNat_natCast, Int.natAbs_neg, Int.natAbs_natCast, if_pos ⟨b4, b3⟩]
    have hdrop : (header w h ++ writeRows junk w data h).drop (54#32).toNat = writeRows junk w data h :=
      List.drop_left' rfl
    have hdec : decide (-(h : Int) < 0) = true := decide_eq_true (by omega)
    rw [hdrop, hdec]
    rcases Nat.eq_zero_or_pos w with h0 | h0
    · subst h0
      obtain ⟨h', rfl⟩ : ∃ h', h = h' + 1 := ⟨h - 1, by omega⟩
      refine ⟨buf, ?_, fun i hi => by omega⟩
      simp [readRows, padding]
    · obtain ⟨buf', e, h1, -⟩ := readRows_spec 3 w h true (w * h) (by rw [Nat.mul_comm]) (by omega) h
        (writeRows junk w data h) buf 0 (le_refl _) (by rw [writeRows_length _ _ _ _ (by omega)])
      refine ⟨buf', ?_, ?_⟩
      · rw [e]
        simp
      · intro i hi
        have hx : i % w < w := Nat.mod_lt _ h0
        have hy : i / w < h := Nat.div_lt_of_lt_mul hi
        have hi' : i = i / w * w + i % w := by
          have := Nat.div_add_mod i w
          rw [Nat.mul_comm] at this
          omega
        have hb := h1 (i / w) hy (i % w) hx
        have hr : rowIdx h true h (i / w) = i / w := by simp [rowIdx]
        have hlen : i / w * w + w ≤ data.length := by
          have : (i / w + 1) * w ≤ h * w := Nat.mul_le_mul_right _ hy
          rw [Nat.succ_mul, Nat.mul_comm h w] at this
          omega
        rw [hr, ← hi', writeRows_row _ _ _ _ _ (by omega) hy, readPixel_writeRow _ _ _ _ (by
          rw [List.length_take, List.length_drop]; omega)] at hb
        rw [hb]
        have hget : ((data.drop (i / w * w)).take w)[i % w]'(by
            rw [List.length_take, List.length_drop]; omega) = data[i]'(by omega) := by
          rw [List.getElem_take, List.getElem_drop]
          congr 1
          exact hi'.symm
        rw [hget]
        exact isOpaqueCopy_or _

/-- Three by two pixels: nine bytes and one byte of padding in each row. -/
example : Fits 3 2 ∧ ([1#32, 2#32, 3#32, 4#32, 5#32, 6#32] : List Pixel).length = 3 * 2 := by decide +kernel

/-! ### C39 -/

/-- **C39**, exactly: the length of the file is the declared one if and only if the width is even. -/
theorem C39_iff (junk : Nat → Byte) (w h : Nat) (data : List Pixel) (hf : Fits w h) (hh : 0 < h)
    (hd : data.length = w * h) (f : List Byte) (ok : Bool) (e : write junk w h data = some (f, ok)) :
    f.length = (rd32 f 2).toNat ↔ w % 2 = 0 := by
  unfold write at e
  rw [if_pos ⟨hf, by omega⟩] at e
  simp only [Option.some.injEq, Prod.mk.injEq] at e
  rw [← e.1, header_size, List.length_append, header_length, writeRows_length _ _ _ _ (by omega),
    BitVec.toNat_ofNat, Nat.mod_eq_of_lt (by have := hf.2; omega)]
  unfold bmpSize
  have e0 : ((1 <<< 24) &&& 0xFFFF : Nat) = 0 := by decide
  rw [e0, Nat.zero_add]
  have e1 : 14 + 40 + 4 * (h * ((w * 24 + 31) / 32)) = 54 + h * (4 * ((w * 24 + 31) / 32)) := by ring
  rw [e1, Nat.add_left_cancel_iff, Nat.mul_right_inj (by omega)]
  unfold padding
  omega

/-- **C39**, rows: padded to a multiple of four bytes if and only if the width is even. -/
theorem C39_rows_iff (w : Nat) : (3 * w + padding 3 w) % 4 = 0 ↔ w % 2 = 0 := by
  unfold padding
  omega

/-- The statement of C39. -/
def Wellformed (f : List Byte) (w : Nat) (rowLen : Nat) : Prop :=
  f.length = (rd32 f 2).toNat ∧ 3 * w ≤ rowLen ∧ rowLen % 4 = 0

/-- **C39 is violated** by every odd width; in particular by one pixel. -/
theorem C39_violated : ∃ (w h : Nat) (data : List Pixel) (f : List Byte), data.length = w * h ∧
    (∀ junk, ∃ f, write junk w h data = some (f, true) ∧ f.length ≠ (rd32 f 2).toNat) ∧
    write (fun _ => 0) w h data = some (f, true) ∧ ¬ Wellformed f w (3 * w + padding 3 w) := by
  refine ⟨1, 1, [0#32], header 1 1 ++ writeRows (fun _ => 0) 1 [0#32] 1, rfl, fun junk => ?_, rfl, ?_⟩
  · refine ⟨header 1 1 ++ writeRows junk 1 [0#32] 1, rfl, ?_⟩
    have := C39_iff junk 1 1 [0#32] (by decide +kernel) (by decide) rfl _ true rfl
    exact this.not.2 (by decide)
  · intro h
    have := h.2.2
    revert this
    decide

/-- **C39** for even widths. -/
theorem C39_even_partial (junk : Nat → Byte) (w h : Nat) (data : List Pixel) (hf : Fits w h) (hh : 0 < h)
    (hd : data.length = w * h) (hw : w % 2 = 0) (f : List Byte) (ok : Bool)
    (e : write junk w h data = some (f, ok)) : Wellformed f w (3 * w + padding 3 w) :=
  ⟨(C39_iff junk w h data hf hh hd f ok e).2 hw, by omega, (C39_rows_iff w).2 hw⟩

example : Fits 4 2 ∧ 4 % 2 = 0 := by decide +kernel

/-- A standard 1×2 file: header as this program writes it, rows padded to four bytes. -/
def standardFile : List Byte := header 1 2 ++ [1, 2, 3, 0, 4, 5, 6, 0]

/-- **C39**, consequence for reading: a file of another program with an odd width is refused (or its
rows are mixed up): reading fails although the file is right. -/
theorem C39_reader_violated : standardFile.length = (rd32 standardFile 2).toNat ∧
    ∀ buf, ∃ buf', read standardFile 2 buf = some (false, buf') := by
  refine ⟨by decide +kernel, fun buf => ?_⟩
  refine ⟨fun i => if 0 * 1 ≤ i ∧ i < 0 * 1 + 1 then readPixel 3 [1, 2, 3, 0, 4, 5] (i - 0 * 1) else buf i, ?_⟩
  rfl

/-! ### C67 -/

/-- What is needed of a file to be decoded: an uncompressed 24 or 32 bit file without palette. -/
structure Header (f : List Byte) (bpp w h : Nat) (down : Bool) : Prop where
  len : 54 ≤ f.length
  magic : rd16 f 0 = 19778#16
  compression : rd32 f 30 = 0#32
  palette : rd32 f 46 = 0#32
  bits : (bpp = 3 ∧ rd16 f 28 = 24#16) ∨ (bpp = 4 ∧ rd16 f 28 = 32#16)
  width : (rd32 f 18).toInt = w
  height : (rd32 f 22).toInt = if down then -(h : Int) else h

/-- Pixel of a file by the format: `row` counts from the first row stored, `stride` bytes each. -/
def storedPixel (f : List Byte) (bpp stride row x : Nat) : Pixel :=
  let o := (rd32 f 10).toNat + row * stride + x * bpp
  let p := mk (f.getD (o + 2) 0) (f.getD (o + 1) 0) (f.getD o 0)
  if bpp = 4 then p &&& ((f.getD (o + 3) 0).setWidth 32 ||| 0xFFFFFF00#32) else p

theorem getD_drop_take (f : List Byte) (a b L j : Nat) (hj : j < L) :
    (((f.drop a).drop b).take L).getD j 0 = f.getD (a + b + j) 0 := by
  simp only [List.getD_eq_getElem?_getD, List.getElem?_take, hj, if_true, List.getElem?_drop]
  congr 2
  omega

/-- **C67.** Any file of either row order whose row stride is that of this program (four byte aligned
rows for 32 bits and for even widths, see `C67_stride`): the pixel in column `x` of the `y`-th row from
the top is the stored one. -/
theorem C67_decodes (f : List Byte) (bpp w h : Nat) (down : Bool) (hH : Header f bpp w h down) (hw : 0 < w)
    (hh : 0 < h) (hov : bpp * w + padding bpp w < 2 ^ 31) (hov2 : w * h < 2 ^ 31)
    (hbody : (rd32 f 10).toNat + h * (bpp * w + padding bpp w) ≤ f.length) (buf : Nat → Pixel) :
    ∃ buf', read f (w * h) buf = some (true, buf') ∧
      ∀ y < h, ∀ x < w, buf' (y * w + x) =
        storedPixel f bpp (bpp * w + padding bpp w) (if down then y else h - 1 - y) x := by
  have hh31 : h < 2 ^ 31 := by
    have : 1 * h ≤ w * h := Nat.mul_le_mul_right _ hw
    omega
  have hb3 : bpp = 3 ∨ bpp = 4 := by rcases hH.bits with h | h <;> omega
  have hbpp : (if rd16 f 28 = 24#16 then 3 else 4) = bpp := by
    rcases hH.bits with ⟨h1, h2⟩ | ⟨h1, h2⟩
    · rw [if_pos h2, h1]
    · rw [h2, h1]; rfl
  have hL : 0 < bpp * w + padding bpp w := by
    have : 1 * w ≤ bpp * w := Nat.mul_le_mul_right _ (by omega)
    omega
  obtain ⟨buf', e, h1, -⟩ := readRows_spec bpp w h down (w * h) (by rw [Nat.mul_comm]) hL h
    (f.drop (rd32 f 10).toNat) buf 0 (le_refl _) (by rw [List.length_drop]; omega)
  have hdown : decide ((rd32 f 22).toInt < 0) = down := by
    rw [hH.height]
    cases down
    · simp
    · simp; omega
  have habs : (rd32 f 22).toInt.natAbs = h := by
    rw [hH.height]
    cases down <;> simp
  refine ⟨buf', ?_, ?_⟩
  · unfold read
    rw [if_pos ⟨hH.len, hH.magic, hH.compression, hH.palette, by
      rcases hH.bits with h | h
      · exact Or.inl h.2
      · exact Or.inr h.2⟩]
    simp only [hbpp, hdown, habs, hH.width, Int.toNat_natCast]
    rw [if_neg, if_pos ⟨hov, hov2⟩, e]
    · simp
    · rw [hH.height]
      cases down <;> simp <;> omega
  · intro y hy x hx
    have key : ∀ k < h, rowIdx h down h k = y → buf' (y * w + x) =
        storedPixel f bpp (bpp * w + padding bpp w) k x := by
      intro k hk hr
      have := h1 k hk x hx
      rw [hr] at this
      rw [this]
      have hxb : x * bpp + bpp ≤ bpp * w := by
        have : (x + 1) * bpp ≤ w * bpp := Nat.mul_le_mul_right _ hx
        rw [Nat.succ_mul, Nat.mul_comm w] at this
        exact this
      unfold readPixel storedPixel
      simp only
      rw [getD_drop_take _ _ _ _ _ (by omega), getD_drop_take _ _ _ _ _ (by omega),
        getD_drop_take _ _ _ _ _ (by omega)]
      by_cases h4 : bpp = 4
      · rw [if_pos h4, if_pos h4, getD_drop_take _ _ _ _ _ (by omega)]
        simp only [Nat.add_assoc]
      · rw [if_neg h4, if_neg h4]
        simp only [Nat.add_assoc]
    cases down
    · simp only [Bool.false_eq_true, if_false]
      exact key (h - 1 - y) (by omega) (by simp [rowIdx]; omega)
    · simp only [if_true]
      exact key y hy (by simp [rowIdx])

/-- When the stride is the standard one. -/
theorem C67_stride (w : Nat) : (4 * w + padding 4 w = 4 * ((w * 32 + 31) / 32)) ∧
    (3 * w + padding 3 w = 4 * ((w * 24 + 31) / 32) ↔ w % 2 = 0) := by
  unfold padding
  omega

/-- **C67**, safety: no file whatsoever makes the reader write outside of a buffer of the dimensions in
the file, or runs into undefined behaviour, but for a zero or minimal height, a negative width or sizes
overflowing an `int`. -/
theorem C67_safe_partial (f : List Byte) (buf : Nat → Pixel) (h0 : (rd32 f 22).toInt ≠ 0)
    (h1 : (rd32 f 22).toInt ≠ -2 ^ 31) (h2 : 0 ≤ (rd32 f 18).toInt)
    (h3 : 4 * (rd32 f 18).toInt < 2 ^ 31) (h4 : (rd32 f 18).toInt.toNat * (rd32 f 22).toInt.natAbs < 2 ^ 31) :
    read f ((rd32 f 18).toInt.toNat * (rd32 f 22).toInt.natAbs) buf ≠ none := by
  unfold read
  split
  · simp only
    generalize hb : (if rd16 f 28 = 24#16 then 3 else 4) = bpp
    have hb' : bpp = 3 ∨ bpp = 4 := by rw [← hb]; split <;> simp
    have hpad : bpp * (rd32 f 18).toInt.toNat + padding bpp (rd32 f 18).toInt.toNat < 2 ^ 31 := by
      unfold padding
      rcases hb' with h | h <;> subst h <;> omega
    rw [if_neg (by omega), if_pos ⟨hpad, h4⟩]
    have := readRows_safe bpp (rd32 f 18).toInt.toNat (rd32 f 22).toInt.natAbs
      (decide ((rd32 f 22).toInt < 0)) _ (by rw [Nat.mul_comm]) (rd32 f 22).toInt.natAbs
      (f.drop (rd32 f 10).toNat) buf 0 (le_refl _)
    split
    · rename_i e; exact absurd e this
    · simp
  · simp

/-- **C67**: a height of zero divides by zero. -/
theorem C67_zero_height (f : List Byte) (hlen : 54 ≤ f.length) (hm : rd16 f 0 = 19778#16)
    (hc : rd32 f 30 = 0#32) (hp : rd32 f 46 = 0#32) (hb : rd16 f 28 = 24#16) (h0 : (rd32 f 22).toInt = 0)
    (cap : Nat) (buf : Nat → Pixel) : read f cap buf = none := by
  unfold read
  rw [if_pos ⟨hlen, hm, hc, hp, Or.inl hb⟩]
  simp only
  rw [if_pos (Or.inl h0)]

/-- The file written for two by one pixels has such a header. -/
example : Header (header 2 1 ++ [1, 2, 3, 4, 5, 6, 0, 0]) 3 2 1 true ∧
    storedPixel (header 2 1 ++ [1, 2, 3, 4, 5, 6, 0, 0]) 3 8 0 1 = 0x040506FF#32 := by
  refine ⟨⟨by decide +kernel, by decide +kernel, by decide +kernel, by decide +kernel, Or.inl ⟨rfl, by decide +kernel⟩,
    by decide +kernel, by decide +kernel⟩, by decide +kernel⟩

/-- Even an image without rows that this program writes cannot be read back. -/
example (junk : Nat → Byte) (cap : Nat) (buf : Nat → Pixel) :
    ∃ f, write junk 2 0 [] = some (f, true) ∧ read f cap buf = none := by
  refine ⟨header 2 0 ++ [], rfl, ?_⟩
  exact C67_zero_height _ (by decide) (header_magic 2 0 []) (header_compression 2 0 []) (header_palette 2 0 [])
    (header_bpp 2 0 []) (by rw [header_height]; decide) cap buf

end Spectre.Bmp
