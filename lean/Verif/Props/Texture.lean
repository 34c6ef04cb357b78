import Verif.Model.Texture
import Verif.Props.Array2D
import Verif.Props.Pixel
import Mathlib.Tactic.Ring
import Mathlib.Tactic.Linarith
import Mathlib.Tactic.FieldSimp
import Mathlib.Tactic.Positivity

/-
C45, C46, C47, C70, C71, C72, C73: textures.
-/

namespace Spectre.Tex

open Spectre.Img

/-! ### Components -/

/-- One of the four components. -/
inductive Comp
  | red | green | blue | alpha

/-- Its value. -/
def Comp.of : Comp → Pixel → Byte
  | .red, p => Img.red p
  | .green, p => Img.green p
  | .blue, p => Img.blue p
  | .alpha, p => Img.alpha p

theorem red_pack (r g b a : Byte) : Img.red (pack r g b a) = r := by
  ext i hi
  simp [Img.red, pack, BitVec.getElem_setWidth]
  each_bit i

theorem green_pack (r g b a : Byte) : Img.green (pack r g b a) = g := by
  ext i hi
  simp [Img.green, pack, BitVec.getElem_setWidth]
  each_bit i

theorem blue_pack (r g b a : Byte) : Img.blue (pack r g b a) = b := by
  ext i hi
  simp [Img.blue, pack, BitVec.getElem_setWidth]
  each_bit i

theorem alpha_pack (r g b a : Byte) : Img.alpha (pack r g b a) = a := by
  ext i hi
  simp [Img.alpha, pack]
  each_bit i

/-- A packed pixel from its components. -/
theorem pack_comp (p : Pixel) : pack (Img.red p) (Img.green p) (Img.blue p) (Img.alpha p) = p := by
  ext i hi
  simp [Img.red, Img.green, Img.blue, Img.alpha, pack, BitVec.getElem_setWidth, BitVec.getElem_shiftLeft]
  each_bit i

theorem comp_pack (F : Comp → Byte) (c : Comp) : c.of (pack (F .red) (F .green) (F .blue) (F .alpha)) = F c := by
  cases c
  · exact red_pack _ _ _ _
  · exact green_pack _ _ _ _
  · exact blue_pack _ _ _ _
  · exact alpha_pack _ _ _ _

theorem comp_avg (c : Comp) (t0 t1 t2 t3 : Pixel) :
    c.of (avg t0 t1 t2 t3) = avgB (c.of t0) (c.of t1) (c.of t2) (c.of t3) :=
  comp_pack (fun c => avgB (c.of t0) (c.of t1) (c.of t2) (c.of t3)) c

theorem avgB_toNat (a b c d : Byte) : (avgB a b c d).toNat = (a.toNat + b.toNat + c.toNat + d.toNat) / 4 := by
  unfold avgB
  rw [BitVec.toNat_ofNat]
  have := a.isLt; have := b.isLt; have := c.isLt; have := d.isLt
  omega

/-! ### C45: the pyramid -/

/-- Level `i` of the pyramid: side and content. -/
def lvl (inp : Nat → Pixel) (side : Nat) : Nat → Nat × (Nat → Pixel)
  | 0 => (side, inp)
  | i + 1 => ((lvl inp side i).1 / 2, downsample (lvl inp side i).2 (lvl inp side i).1)

theorem lvl_succ' (inp : Nat → Pixel) (side i : Nat) : lvl inp side (i + 1) = lvl (downsample inp side) (side / 2) i := by
  induction i with
  | zero => rfl
  | succ i ih => rw [lvl, ih, lvl]

theorem levels_length (n : Nat) : ∀ (inp : Nat → Pixel) (side : Nat), (levels inp side n).length = n := by
  induction n with
  | zero => intro _ _; rfl
  | succ n ih => intro inp side; rw [levels, List.length_cons, ih]

theorem levels_get (n : Nat) : ∀ (inp : Nat → Pixel) (side i : Nat), i < n →
    (levels inp side n)[i]? = some (lvl inp side i) := by
  induction n with
  | zero => intro _ _ i h; omega
  | succ n ih =>
    intro inp side i h
    rw [levels]
    match i with
    | 0 => rfl
    | i + 1 => rw [List.getElem?_cons_succ, ih _ _ _ (by omega), lvl_succ']

theorem lvl_side (inp : Nat → Pixel) (k : Nat) : ∀ i ≤ k, (lvl inp (2 ^ k) i).1 = 2 ^ (k - i) := by
  intro i
  induction i with
  | zero => intro _; rfl
  | succ i ih =>
    intro h
    rw [lvl, ih (by omega), show k - i = k - (i + 1) + 1 by omega, pow_succ]
    simp

theorem pyramid_eq (inp : Nat → Pixel) (k : Nat) : pyramid inp (2 ^ k) = some (levels inp (2 ^ k) (k + 1)) := by
  unfold pyramid
  rw [if_neg (by positivity), Nat.log_pow (by norm_num), Nat.add_comm]

/-- **C45**, shape: the pyramid of a texture of side `2^k` has `k+1` levels of sides `2^k, ..., 2, 1`, the first
being the texture itself. -/
theorem C45_levels (inp : Nat → Pixel) (k : Nat) : ∃ p, pyramid inp (2 ^ k) = some p ∧ p.length = k + 1 ∧
    p[0]? = some (2 ^ k, inp) ∧ ∀ i ≤ k, ∃ f, p[i]? = some (2 ^ (k - i), f) := by
  refine ⟨_, pyramid_eq inp k, levels_length _ _ _, rfl, ?_⟩
  intro i hi
  refine ⟨(lvl inp (2 ^ k) i).2, ?_⟩
  rw [levels_get _ _ _ _ (by omega), ← lvl_side inp k i hi]

theorem div_mod_flat {s x : Nat} (y : Nat) (hx : x < s) : (y * s + x) % s = x ∧ (y * s + x) / s = y := by
  constructor
  · rw [Nat.add_comm, Nat.add_mul_mod_self_right, Nat.mod_eq_of_lt hx]
  · rw [Nat.add_comm, Nat.add_mul_div_right _ _ (by omega), Nat.div_eq_of_lt hx]; omega

theorem downsample_at (f : Nat → Pixel) (s x y : Nat) (hx : x < s / 2) :
    downsample f s (y * (s / 2) + x) = avg (f (2 * y * s + 2 * x)) (f ((2 * y + 1) * s + 2 * x))
      (f (2 * y * s + (2 * x + 1))) (f ((2 * y + 1) * s + (2 * x + 1))) := by
  unfold downsample
  obtain ⟨h1, h2⟩ := div_mod_flat y hx
  simp only [h1, h2]

/-- **C45**, contents: every component of every texel is the mean of the four texels below, rounded down. -/
theorem C45_mean (inp : Nat → Pixel) (k i : Nat) (hi : i < k) (p : List (Nat × (Nat → Pixel)))
    (hp : pyramid inp (2 ^ k) = some p) (f g : Nat → Pixel) (s t : Nat) (hf : p[i]? = some (s, f))
    (hg : p[i + 1]? = some (t, g)) (c : Comp) (x y : Nat) (hx : x < t) (_hy : y < t) :
    s = 2 * t ∧ (c.of (g (y * t + x))).toNat =
      ((c.of (f (2 * y * s + 2 * x))).toNat + (c.of (f ((2 * y + 1) * s + 2 * x))).toNat +
        (c.of (f (2 * y * s + (2 * x + 1)))).toNat + (c.of (f ((2 * y + 1) * s + (2 * x + 1)))).toNat) / 4 := by
  rw [pyramid_eq] at hp
  injection hp with hp
  rw [← hp, levels_get _ _ _ _ (by omega)] at hf hg
  injection hf with hf
  injection hg with hg
  have h1 := lvl_side inp k i (by omega)
  rw [lvl, hf] at hg
  rw [hf] at h1
  simp only [Prod.mk.injEq] at hg h1
  obtain ⟨rfl, rfl⟩ := hg
  constructor
  · rw [h1, show k - i = k - i - 1 + 1 by omega, pow_succ]; omega
  · rw [downsample_at f s x y hx, comp_avg, avgB_toNat]

/-- **C45**, bounds: a component of a texel of level `i` lies between the bounds of the `2^i × 2^i` texels of the
texture that it summarises. -/
theorem block_bound (inp : Nat → Pixel) (k : Nat) (c : Comp) (lo hi : Nat) : ∀ (i : Nat), i ≤ k → ∀ (x y : Nat),
    x < 2 ^ (k - i) → (∀ dx < 2 ^ i, ∀ dy < 2 ^ i,
      lo ≤ (c.of (inp ((y * 2 ^ i + dy) * 2 ^ k + (x * 2 ^ i + dx)))).toNat ∧
      (c.of (inp ((y * 2 ^ i + dy) * 2 ^ k + (x * 2 ^ i + dx)))).toNat ≤ hi) →
    lo ≤ (c.of ((lvl inp (2 ^ k) i).2 (y * 2 ^ (k - i) + x))).toNat ∧
      (c.of ((lvl inp (2 ^ k) i).2 (y * 2 ^ (k - i) + x))).toNat ≤ hi := by
  intro i
  induction i with
  | zero => intro _ x y _ h; have := h 0 (by norm_num) 0 (by norm_num); simpa [lvl] using this
  | succ i ih =>
    intro hik x y hx h
    have hs : 2 ^ (k - i) = 2 * 2 ^ (k - (i + 1)) := by
      rw [show k - i = k - (i + 1) + 1 by omega, pow_succ, Nat.mul_comm]
    have hs2 : 2 ^ (k - i) / 2 = 2 ^ (k - (i + 1)) := by omega
    have e : (lvl inp (2 ^ k) (i + 1)).2 (y * 2 ^ (k - (i + 1)) + x) =
        downsample (lvl inp (2 ^ k) i).2 (2 ^ (k - i)) (y * (2 ^ (k - i) / 2) + x) := by
      rw [lvl, lvl_side inp k i (by omega), hs2]
    rw [e, downsample_at _ _ _ _ (by omega), comp_avg, avgB_toNat]
    have key : ∀ ex < 2, ∀ ey < 2, lo ≤ (c.of ((lvl inp (2 ^ k) i).2 ((2 * y + ey) * 2 ^ (k - i) + (2 * x + ex)))).toNat ∧
        (c.of ((lvl inp (2 ^ k) i).2 ((2 * y + ey) * 2 ^ (k - i) + (2 * x + ex)))).toNat ≤ hi := by
      intro ex hex ey hey
      apply ih (by omega) (2 * x + ex) (2 * y + ey) (by omega)
      intro dx hdx dy hdy
      have h1 : ex * 2 ^ i + dx < 2 ^ (i + 1) := by
        rw [pow_succ]
        have : ex * 2 ^ i ≤ 1 * 2 ^ i := Nat.mul_le_mul_right _ (by omega)
        omega
      have h2 : ey * 2 ^ i + dy < 2 ^ (i + 1) := by
        rw [pow_succ]
        have : ey * 2 ^ i ≤ 1 * 2 ^ i := Nat.mul_le_mul_right _ (by omega)
        omega
      have := h (ex * 2 ^ i + dx) h1 (ey * 2 ^ i + dy) h2
      rwa [show y * 2 ^ (i + 1) + (ey * 2 ^ i + dy) = (2 * y + ey) * 2 ^ i + dy by rw [pow_succ]; ring,
        show x * 2 ^ (i + 1) + (ex * 2 ^ i + dx) = (2 * x + ex) * 2 ^ i + dx by rw [pow_succ]; ring] at this
    have a0 := key 0 (by omega) 0 (by omega)
    have a1 := key 0 (by omega) 1 (by omega)
    have a2 := key 1 (by omega) 0 (by omega)
    have a3 := key 1 (by omega) 1 (by omega)
    simp only [Nat.add_zero] at a0 a1 a2 a3
    omega

theorem C45_block (inp : Nat → Pixel) (k i : Nat) (hi : i ≤ k) (p : List (Nat × (Nat → Pixel)))
    (hp : pyramid inp (2 ^ k) = some p) (g : Nat → Pixel) (t : Nat) (hg : p[i]? = some (t, g)) (c : Comp)
    (x y : Nat) (hx : x < t) (lo hi : Nat)
    (h : ∀ dx < 2 ^ i, ∀ dy < 2 ^ i, lo ≤ (c.of (inp ((y * 2 ^ i + dy) * 2 ^ k + (x * 2 ^ i + dx)))).toNat ∧
      (c.of (inp ((y * 2 ^ i + dy) * 2 ^ k + (x * 2 ^ i + dx)))).toNat ≤ hi) :
    lo ≤ (c.of (g (y * t + x))).toNat ∧ (c.of (g (y * t + x))).toNat ≤ hi := by
  rw [pyramid_eq] at hp
  injection hp with hp
  rw [← hp, levels_get _ _ _ _ (by omega)] at hg
  injection hg with hg
  have h1 := lvl_side inp k i (by omega)
  have := block_bound inp k c lo hi i (by omega) x y (by rw [← h1, hg]; exact hx) h
  rw [← h1, hg] at this
  exact this

theorem eq_of_comp (p q : Pixel) (h : ∀ c : Comp, (c.of p).toNat = (c.of q).toNat) : p = q := by
  have e : ∀ c : Comp, c.of p = c.of q := fun c => BitVec.eq_of_toNat_eq (h c)
  rw [← pack_comp p, ← pack_comp q]
  have h1 : Img.red p = Img.red q := e .red
  have h2 : Img.green p = Img.green q := e .green
  have h3 : Img.blue p = Img.blue q := e .blue
  have h4 : Img.alpha p = Img.alpha q := e .alpha
  rw [h1, h2, h3, h4]

/-- **C45**: a uniform texture is uniform on all levels. -/
theorem C45_uniform (col : Pixel) (k i : Nat) (hi : i ≤ k) (p : List (Nat × (Nat → Pixel)))
    (hp : pyramid (fun _ => col) (2 ^ k) = some p) (g : Nat → Pixel) (t : Nat) (hg : p[i]? = some (t, g))
    (x y : Nat) (hx : x < t) : g (y * t + x) = col := by
  apply eq_of_comp
  intro c
  have := C45_block (fun _ => col) k i hi p hp g t hg c x y hx (c.of col).toNat (c.of col).toNat
    (fun _ _ _ _ => ⟨le_refl _, le_refl _⟩)
  omega

/-- **C45**, storage: up to side 32768 every level is stored in its `Array2D` and every texel is read back. -/
theorem C45_arrays (inp : Nat → Pixel) (k : Nat) (hk : k ≤ 15) (junk : Nat → Nat → Pixel)
    (p : List (Nat × (Nat → Pixel))) (hp : pyramid inp (2 ^ k) = some p) (i : Nat) (hi : i ≤ k) (x y : Nat)
    (hx : x < 2 ^ (k - i)) (hy : y < 2 ^ (k - i)) :
    ∃ a, (arrays junk p)[i]? = some (some a) ∧
      texel p i x y = a.get (BitVec.ofNat 32 x) (BitVec.ofNat 32 y) ∧ texel p i x y ≠ none := by
  rw [pyramid_eq] at hp
  injection hp with hp
  have hget := levels_get (k + 1) inp (2 ^ k) i (by omega)
  rw [hp] at hget
  have hside := lvl_side inp k i hi
  have hle : 2 ^ (k - i) ≤ 32768 := by
    calc 2 ^ (k - i) ≤ 2 ^ 15 := Nat.pow_le_pow_right (by norm_num) (by omega)
      _ = 32768 := by norm_num
  have hn : (BitVec.ofNat 32 (lvl inp (2 ^ k) i).1).toNat = 2 ^ (k - i) := by
    rw [hside, BitVec.toNat_ofNat]; omega
  obtain ⟨a, e, hst⟩ := Array2D.C01_array2d_from_values (BitVec.ofNat 32 (lvl inp (2 ^ k) i).1) (by omega)
    (lvl inp (2 ^ k) i).2 (junk i)
  refine ⟨a, ?_, ?_⟩
  · unfold arrays
    rw [List.getElem?_mapIdx, hget, Option.map_some, e]
  · have := hst (BitVec.ofNat 32 x) (BitVec.ofNat 32 y) (by rw [hn, BitVec.toNat_ofNat]; omega)
      (by rw [hn, BitVec.toNat_ofNat]; omega)
    rw [this]
    unfold texel
    rw [hget]
    simp only
    rw [if_pos (by rw [hside]; omega), hn, hside]
    have ex : (BitVec.ofNat 32 x).toNat = x := by rw [BitVec.toNat_ofNat]; omega
    have ey : (BitVec.ofNat 32 y).toNat = y := by rw [BitVec.toNat_ofNat]; omega
    rw [ex, ey]
    simp

example : ∃ p, pyramid (fun i => BitVec.ofNat 32 i) (2 ^ 2) = some p ∧ p.length = 3 := by
  obtain ⟨p, a, b, -⟩ := C45_levels (fun i => BitVec.ofNat 32 i) 2
  exact ⟨p, a, b⟩

/-! ### Conversions -/

theorem trunc_nonneg {lo hi : Int} {x : ℝ} (hlo : lo ≤ 0) (h0 : 0 ≤ x) (h1 : x < hi) :
    trunc lo hi x = some ⌊x⌋ := by
  unfold trunc
  have : (lo : ℝ) ≤ 0 := by exact_mod_cast hlo
  rw [if_pos ⟨by linarith, h1⟩, if_pos h0]

theorem trunc_small_neg {lo hi : Int} {x : ℝ} (hlo : lo ≤ 0) (hhi : 0 ≤ hi) (h0 : x < 0) (h1 : -1 < x) :
    trunc lo hi x = some 0 := by
  unfold trunc
  have a : (lo : ℝ) ≤ 0 := by exact_mod_cast hlo
  have b : (0 : ℝ) ≤ hi := by exact_mod_cast hhi
  rw [if_pos ⟨by linarith, by linarith⟩, if_neg (by linarith)]
  congr 1
  rw [Int.ceil_eq_zero_iff]
  exact ⟨h1, by linarith⟩

/-- A texel coordinate of the code: in the level, and less than one away. -/
theorem trunc_coord {lo hi : Int} (hlo : lo ≤ 0) (s : Nat) (hs : 0 < s) (hhi : (s : Int) ≤ hi) (u : ℝ) (h0 : 0 ≤ u)
    (h1 : u ≤ 1) : ∃ x : Int, trunc lo hi (u * s - 1 / 2) = some x ∧ 0 ≤ x ∧ x < s ∧ |u * s - 1 / 2 - x| < 1 := by
  have hs' : (1 : ℝ) ≤ s := by exact_mod_cast hs
  have hhi' : (s : ℝ) ≤ hi := by exact_mod_cast hhi
  have b1 : u * s - 1 / 2 ≤ s - 1 / 2 := by nlinarith
  have b0 : -(1 / 2) ≤ u * s - 1 / 2 := by nlinarith
  rcases lt_or_ge (u * s - 1 / 2) 0 with h | h
  · refine ⟨0, trunc_small_neg hlo (by omega) h (by linarith), le_refl _, by omega, ?_⟩
    rw [abs_lt]; push_cast; constructor <;> linarith
  · refine ⟨⌊u * s - 1 / 2⌋, trunc_nonneg hlo h (by linarith), Int.floor_nonneg.2 h, ?_, ?_⟩
    · rw [Int.floor_lt]; push_cast; linarith
    · have a := Int.floor_le (u * s - 1 / 2)
      have b := Int.lt_floor_add_one (u * s - 1 / 2)
      rw [abs_lt]; constructor <;> linarith

theorem toByte_ok {x : ℝ} (h0 : 0 ≤ x) (h1 : x ≤ 255) : ∃ b : Byte, toByte x = some b ∧ (b.toNat : ℝ) ≤ x ∧
    x < (b.toNat : ℝ) + 1 := by
  unfold toByte
  rw [trunc_nonneg (le_refl _) h0 (by norm_num; linarith)]
  refine ⟨BitVec.ofNat 8 ⌊x⌋.toNat, rfl, ?_⟩
  have hf : 0 ≤ ⌊x⌋ := Int.floor_nonneg.2 h0
  have hlt : ⌊x⌋ < 256 := by rw [Int.floor_lt]; norm_num; linarith
  have e : (BitVec.ofNat 8 ⌊x⌋.toNat).toNat = ⌊x⌋.toNat := by rw [BitVec.toNat_ofNat]; omega
  have e2 : ((⌊x⌋.toNat : Nat) : ℝ) = (⌊x⌋ : ℝ) := by
    have : ((⌊x⌋.toNat : Nat) : Int) = ⌊x⌋ := Int.toNat_of_nonneg hf
    exact_mod_cast congrArg (fun z : Int => (z : ℝ)) this
  rw [e, e2]
  exact ⟨Int.floor_le x, Int.lt_floor_add_one x⟩

theorem val_nonneg (b : Byte) : 0 ≤ val b := by unfold val; positivity
theorem val_le (b : Byte) : val b ≤ 255 := by
  unfold val
  have := b.isLt
  exact_mod_cast (by omega : b.toNat ≤ 255)

theorem mix_bounds {du dv lo hi : ℝ} {t0 t1 t2 t3 : Byte} (hu0 : 0 ≤ du) (hu1 : du ≤ 1) (hv0 : 0 ≤ dv) (hv1 : dv ≤ 1)
    (h0 : lo ≤ val t0 ∧ val t0 ≤ hi) (h1 : lo ≤ val t1 ∧ val t1 ≤ hi) (h2 : lo ≤ val t2 ∧ val t2 ≤ hi)
    (h3 : lo ≤ val t3 ∧ val t3 ≤ hi) : lo ≤ mix du dv t0 t1 t2 t3 ∧ mix du dv t0 t1 t2 t3 ≤ hi := by
  have conv : ∀ {a b d : ℝ}, 0 ≤ d → d ≤ 1 → lo ≤ a → a ≤ hi → lo ≤ b → b ≤ hi →
      lo ≤ a * (1 - d) + b * d ∧ a * (1 - d) + b * d ≤ hi := by
    intro a b d d0 d1 a0 a1 b0 b1
    constructor <;> nlinarith
  obtain ⟨p0, p1⟩ := conv hu0 hu1 h0.1 h0.2 h1.1 h1.2
  obtain ⟨q0, q1⟩ := conv hu0 hu1 h2.1 h2.2 h3.1 h3.2
  exact conv hv0 hv1 p0 p1 q0 q1

/-! ### C46: lookups -/

theorem texel_ok {p : List (Nat × (Nat → Pixel))} {level s : Nat} {f : Nat → Pixel} (hp : p[level]? = some (s, f))
    {x y : Int} (hx : 0 ≤ x ∧ x < s) (hy : 0 ≤ y ∧ y < s) :
    texel p level x y = some (f (y.toNat * s + x.toNat)) := by
  unfold texel
  rw [hp]
  simp only
  rw [if_pos ⟨hx.1, hx.2, hy⟩]

/-- **C46**, unfiltered lookups are always inside. -/
theorem C46_unfiltered (p : List (Nat × (Nat → Pixel))) (s : Nat) (f : Nat → Pixel) (hp : p[0]? = some (s, f))
    (hs : 0 < s) (hs2 : s ≤ 2 ^ 15) (u v : ℝ) (hu : 0 ≤ u ∧ u ≤ 1) (hv : 0 ≤ v ∧ v ≤ 1) :
    ∃ x y : Nat, x < s ∧ y < s ∧ |u * s - 1 / 2 - x| < 1 ∧ |v * s - 1 / 2 - y| < 1 ∧
      unfiltered p u v = some (f (y * s + x)) := by
  obtain ⟨x, ex, x0, x1, dx⟩ := trunc_coord (lo := 0) (hi := 2 ^ 16) (le_refl _) s hs (by omega) u hu.1 hu.2
  obtain ⟨y, ey, y0, y1, dy⟩ := trunc_coord (lo := 0) (hi := 2 ^ 16) (le_refl _) s hs (by omega) v hv.1 hv.2
  have hx : ((x.toNat : Nat) : ℝ) = x := by
    have : ((x.toNat : Nat) : Int) = x := Int.toNat_of_nonneg x0
    exact_mod_cast congrArg (fun z : Int => (z : ℝ)) this
  have hy : ((y.toNat : Nat) : ℝ) = y := by
    have : ((y.toNat : Nat) : Int) = y := Int.toNat_of_nonneg y0
    exact_mod_cast congrArg (fun z : Int => (z : ℝ)) this
  refine ⟨x.toNat, y.toNat, by omega, by omega, by rw [hx]; exact dx, by rw [hy]; exact dy, ?_⟩
  unfold unfiltered
  simp only [hp, Option.bind_eq_bind, Option.bind_some]
  rw [ex, Option.bind_some, ey, Option.bind_some, texel_ok hp ⟨x0, x1⟩ ⟨y0, y1⟩]

/-- The interpolation of four texels. -/
noncomputable def mixPixel (du dv : ℝ) (t0 t1 t2 t3 : Pixel) : Option Pixel := do
  let r ← toByte (mix du dv (red t0) (red t1) (red t2) (red t3))
  let g ← toByte (mix du dv (green t0) (green t1) (green t2) (green t3))
  let b ← toByte (mix du dv (blue t0) (blue t1) (blue t2) (blue t3))
  let a ← toByte (mix du dv (alpha t0) (alpha t1) (alpha t2) (alpha t3))
  pure (pack r g b a)

theorem mixPixel_ok {du dv : ℝ} (hu0 : 0 ≤ du) (hu1 : du ≤ 1) (hv0 : 0 ≤ dv) (hv1 : dv ≤ 1) (t0 t1 t2 t3 : Pixel) :
    ∃ q, mixPixel du dv t0 t1 t2 t3 = some q ∧ ∀ c : Comp,
      val (c.of q) ≤ mix du dv (c.of t0) (c.of t1) (c.of t2) (c.of t3) ∧
      mix du dv (c.of t0) (c.of t1) (c.of t2) (c.of t3) < val (c.of q) + 1 := by
  have h : ∀ c : Comp, ∃ b : Byte, toByte (mix du dv (c.of t0) (c.of t1) (c.of t2) (c.of t3)) = some b ∧
      val b ≤ mix du dv (c.of t0) (c.of t1) (c.of t2) (c.of t3) ∧
      mix du dv (c.of t0) (c.of t1) (c.of t2) (c.of t3) < val b + 1 := by
    intro c
    obtain ⟨m0, m1⟩ := mix_bounds (t0 := c.of t0) (t1 := c.of t1) (t2 := c.of t2) (t3 := c.of t3) hu0 hu1 hv0 hv1
      ⟨val_nonneg _, val_le _⟩ ⟨val_nonneg _, val_le _⟩ ⟨val_nonneg _, val_le _⟩ ⟨val_nonneg _, val_le _⟩
    exact toByte_ok m0 m1
  choose F hF using h
  refine ⟨pack (F .red) (F .green) (F .blue) (F .alpha), ?_, ?_⟩
  · have r := (hF .red).1
    have g := (hF .green).1
    have b := (hF .blue).1
    have a := (hF .alpha).1
    simp only [Comp.of] at r g b a
    unfold mixPixel
    rw [r, g, b, a]
    rfl
  · intro c
    rw [comp_pack F c]
    exact (hF c).2

/-- The second texel of the interpolation. -/
def nextCoord (s : Nat) (x : Int) : Int := if x + 1 ≤ (s : Int) - 1 then x + 1 else 0

theorem nextCoord_range {s : Nat} {x : Int} (h0 : 0 ≤ x) (h1 : x < s) : 0 ≤ nextCoord s x ∧ nextCoord s x < s := by
  unfold nextCoord
  split <;> omega

/-- Texel of a level. -/
def at' (f : Nat → Pixel) (s : Nat) (x y : Int) : Pixel := f (y.toNat * s + x.toNat)

theorem bilinear_eq (p : List (Nat × (Nat → Pixel))) (level s : Nat) (f : Nat → Pixel) (hp : p[level]? = some (s, f))
    (u v : ℝ) (x y : Int) (hx : toInt (u * s - 1 / 2) = some x) (hy : toInt (v * s - 1 / 2) = some y)
    (rx : 0 ≤ x ∧ x < s) (ry : 0 ≤ y ∧ y < s) :
    bilinear p u v level = mixPixel |u * s - 1 / 2 - x| |v * s - 1 / 2 - y| (at' f s x y) (at' f s (nextCoord s x) y)
      (at' f s x (nextCoord s y)) (at' f s (nextCoord s x) (nextCoord s y)) := by
  have nx := nextCoord_range rx.1 rx.2
  have ny := nextCoord_range ry.1 ry.2
  have e1 := texel_ok hp nx ry
  have e2 := texel_ok hp rx ny
  have e3 := texel_ok hp nx ny
  unfold nextCoord at e1 e2 e3
  unfold bilinear
  simp only [hp, Option.bind_eq_bind, Option.bind_some, hx, hy]
  rw [texel_ok hp rx ry, Option.bind_some, e1, Option.bind_some, e2, Option.bind_some, e3, Option.bind_some]
  rfl

/-- **C46**, bilinear lookups: every access is inside of the level, and every component of the result is, up to
the final truncation, between the bounds of the level. -/
theorem C46_bilinear (p : List (Nat × (Nat → Pixel))) (level s : Nat) (f : Nat → Pixel) (hp : p[level]? = some (s, f))
    (hs : 0 < s) (hs2 : s ≤ 2 ^ 15) (u v : ℝ) (hu : 0 ≤ u ∧ u ≤ 1) (hv : 0 ≤ v ∧ v ≤ 1) :
    ∃ q, bilinear p u v level = some q ∧ ∀ (c : Comp) (lo hi : Nat),
      (∀ x < s, ∀ y < s, lo ≤ (c.of (f (y * s + x))).toNat ∧ (c.of (f (y * s + x))).toNat ≤ hi) →
      lo ≤ (c.of q).toNat ∧ (c.of q).toNat ≤ hi := by
  obtain ⟨x, ex, x0, x1, dx⟩ := trunc_coord (lo := -2 ^ 31) (hi := 2 ^ 31) (by norm_num) s hs (by omega) u hu.1 hu.2
  obtain ⟨y, ey, y0, y1, dy⟩ := trunc_coord (lo := -2 ^ 31) (hi := 2 ^ 31) (by norm_num) s hs (by omega) v hv.1 hv.2
  rw [bilinear_eq p level s f hp u v x y ex ey ⟨x0, x1⟩ ⟨y0, y1⟩]
  obtain ⟨q, e, hq⟩ := mixPixel_ok (abs_nonneg (u * s - 1 / 2 - x)) dx.le (abs_nonneg (v * s - 1 / 2 - y)) dy.le
    (at' f s x y) (at' f s (nextCoord s x) y) (at' f s x (nextCoord s y)) (at' f s (nextCoord s x) (nextCoord s y))
  refine ⟨q, e, ?_⟩
  intro c lo hi h
  have nx := nextCoord_range x0 x1
  have ny := nextCoord_range y0 y1
  have hb : ∀ {a b : Int}, 0 ≤ a ∧ a < s → 0 ≤ b ∧ b < s →
      (lo : ℝ) ≤ val (c.of (at' f s a b)) ∧ val (c.of (at' f s a b)) ≤ hi := by
    intro a b ha hb
    have := h a.toNat (by omega) b.toNat (by omega)
    unfold val at'
    exact ⟨by exact_mod_cast this.1, by exact_mod_cast this.2⟩
  obtain ⟨m0, m1⟩ := mix_bounds (abs_nonneg (u * s - 1 / 2 - x)) dx.le (abs_nonneg (v * s - 1 / 2 - y)) dy.le
    (hb ⟨x0, x1⟩ ⟨y0, y1⟩) (hb nx ⟨y0, y1⟩) (hb ⟨x0, x1⟩ ny) (hb nx ny)
  obtain ⟨q0, q1⟩ := hq c
  constructor
  · have : (lo : ℝ) < (c.of q).toNat + 1 := by unfold val at q1; linarith
    have : lo < (c.of q).toNat + 1 := by exact_mod_cast this
    omega
  · have : ((c.of q).toNat : ℝ) ≤ hi := by unfold val at q0; linarith
    exact_mod_cast this

theorem blendB_ok {d : ℝ} (h0 : 0 ≤ d) (h1 : d ≤ 1) (a b : Byte) : ∃ x y : Byte, blendB d a b = some (x + y) ∧
    (x.toNat : ℝ) ≤ val a * (1 - d) ∧ val a * (1 - d) < x.toNat + 1 ∧ (y.toNat : ℝ) ≤ val b * d ∧
    val b * d < y.toNat + 1 ∧ x.toNat + y.toNat ≤ 255 := by
  have ha := val_nonneg a; have ha' := val_le a
  have hb := val_nonneg b; have hb' := val_le b
  have bx : val a * (1 - d) ≤ 255 * (1 - d) := mul_le_mul_of_nonneg_right ha' (by linarith)
  have bY : val b * d ≤ 255 * d := mul_le_mul_of_nonneg_right hb' h0
  obtain ⟨x, ex, x0, x1⟩ := toByte_ok (x := val a * (1 - d)) (mul_nonneg ha (by linarith)) (by linarith)
  obtain ⟨y, ey, y0, y1⟩ := toByte_ok (x := val b * d) (mul_nonneg hb h0) (by linarith)
  refine ⟨x, y, ?_, x0, x1, y0, y1, ?_⟩
  · unfold blendB; rw [ex, ey]; rfl
  · have : (x.toNat : ℝ) + y.toNat ≤ 255 := by linarith
    exact_mod_cast this

theorem blend_ok {d : ℝ} (h0 : 0 ≤ d) (h1 : d ≤ 1) (p q : Pixel) : ∃ r, blend d p q = some r ∧ ∀ c : Comp,
    ∃ x y : Byte, c.of r = x + y ∧ (x.toNat : ℝ) ≤ val (c.of p) * (1 - d) ∧ val (c.of p) * (1 - d) < x.toNat + 1 ∧
      (y.toNat : ℝ) ≤ val (c.of q) * d ∧ val (c.of q) * d < y.toNat + 1 ∧ x.toNat + y.toNat ≤ 255 := by
  have h := fun c : Comp => blendB_ok h0 h1 (c.of p) (c.of q)
  choose X Y hX using h
  refine ⟨pack (X .red + Y .red) (X .green + Y .green) (X .blue + Y .blue) (X .alpha + Y .alpha), ?_, ?_⟩
  · have r := (hX .red).1
    have g := (hX .green).1
    have b := (hX .blue).1
    have a := (hX .alpha).1
    simp only [Comp.of] at r g b a
    unfold blend
    rw [r, g, b, a]
    rfl
  · intro c
    refine ⟨X c, Y c, comp_pack (fun c => X c + Y c) c, (hX c).2⟩

/-- A pyramid as built by the constructor (C45). -/
structure IsPyramid (p : List (Nat × (Nat → Pixel))) (k : Nat) : Prop where
  len : p.length = k + 1
  small : k ≤ 15
  get : ∀ i ≤ k, ∃ f, p[i]? = some (2 ^ (k - i), f)

theorem isPyramid_of {inp : Nat → Pixel} {k : Nat} (hk : k ≤ 15) {p : List (Nat × (Nat → Pixel))}
    (hp : pyramid inp (2 ^ k) = some p) : IsPyramid p k := by
  obtain ⟨q, e, h1, -, h2⟩ := C45_levels inp k
  rw [e] at hp
  injection hp with hp
  subst hp
  exact ⟨h1, hk, h2⟩

theorem pow_le_15 {k : Nat} (hk : k ≤ 15) (i : Nat) : 2 ^ (k - i) ≤ 2 ^ 15 :=
  Nat.pow_le_pow_right (by norm_num) (by omega)

theorem IsPyramid.bilinear_ok {p : List (Nat × (Nat → Pixel))} {k : Nat} (hp : IsPyramid p k) {i : Nat} (hi : i ≤ k)
    {u v : ℝ} (hu : 0 ≤ u ∧ u ≤ 1) (hv : 0 ≤ v ∧ v ≤ 1) : ∃ q, bilinear p u v i = some q := by
  obtain ⟨f, hf⟩ := hp.get i hi
  obtain ⟨q, e, -⟩ := C46_bilinear p i _ f hf (by positivity) (pow_le_15 hp.small i) u v hu hv
  exact ⟨q, e⟩

/-- A level outside of the pyramid. -/
theorem bilinear_none {p : List (Nat × (Nat → Pixel))} {level : Nat} (h : p.length ≤ level) (u v : ℝ) :
    bilinear p u v level = none := by
  unfold bilinear
  rw [List.getElem?_eq_none h]
  rfl

theorem floor_toNat_le {x : ℝ} {k : Nat} (h0 : 0 ≤ x) (h1 : x < k) : ⌊x⌋.toNat + 1 ≤ k ∧ ((⌊x⌋.toNat : Nat) : ℝ) = ⌊x⌋ := by
  have hf : 0 ≤ ⌊x⌋ := Int.floor_nonneg.2 h0
  have hlt : ⌊x⌋ < k := by rw [Int.floor_lt]; exact_mod_cast h1
  refine ⟨by omega, ?_⟩
  have : ((⌊x⌋.toNat : Nat) : Int) = ⌊x⌋ := Int.toNat_of_nonneg hf
  exact_mod_cast congrArg (fun z : Int => (z : ℝ)) this

/-- **C46**, trilinear lookups, exactly: for whatever value of `chosen` (so for any rounding of the logarithm) the
lookup leaves the pyramid if and only if `chosen` is the last level and not zero. -/
theorem C46_trilinear_level_iff (p : List (Nat × (Nat → Pixel))) (k : Nat) (hp : IsPyramid p k) (u v chosen : ℝ)
    (hu : 0 ≤ u ∧ u ≤ 1) (hv : 0 ≤ v ∧ v ≤ 1) :
    trilinearAt p u v chosen = none ↔ chosen = k ∧ 0 < k := by
  have hlen : (p.length : ℝ) - 1 = k := by rw [hp.len]; push_cast; ring
  unfold trilinearAt
  rw [hlen]
  by_cases h0 : chosen ≤ 0
  · rw [if_pos h0]
    obtain ⟨q, e⟩ := hp.bilinear_ok (Nat.zero_le k) hu hv
    rw [e]
    simp only [reduceCtorEq, false_iff, not_and, not_lt]
    intro h
    rw [h] at h0
    exact_mod_cast h0
  · rw [if_neg h0]
    push Not at h0
    by_cases h1 : chosen > k
    · rw [if_pos h1]
      obtain ⟨f, hf⟩ := hp.get k (le_refl _)
      rw [hp.len, Nat.add_sub_cancel, texel_ok hf (by simp) (by simp)]
      simp only [reduceCtorEq, false_iff, not_and, not_lt]
      intro h
      rw [h] at h1
      exact absurd h1 (lt_irrefl _)
    · rw [if_neg h1]
      push Not at h1
      have hk : (k : ℝ) ≤ 15 := by exact_mod_cast hp.small
      rw [trunc_nonneg (le_refl _) h0.le (by push_cast; linarith)]
      simp only [Option.bind_eq_bind, Option.bind_some]
      rcases lt_or_eq_of_le h1 with hlt | heq
      · obtain ⟨f1, f2⟩ := floor_toNat_le h0.le hlt
        obtain ⟨q0, e0⟩ := hp.bilinear_ok (i := ⌊chosen⌋.toNat) (by omega) hu hv
        obtain ⟨q1, e1⟩ := hp.bilinear_ok f1 hu hv
        have a := Int.floor_le chosen
        have b := Int.lt_floor_add_one chosen
        obtain ⟨r, er, -⟩ := blend_ok (d := chosen - ⌊chosen⌋) (by linarith) (by linarith) q0 q1
        rw [e0, Option.bind_some, e1, Option.bind_some, er]
        simp only [reduceCtorEq, false_iff, not_and, not_lt]
        intro h
        exact absurd h (ne_of_lt hlt)
      · have hfl : ⌊chosen⌋.toNat = k := by rw [heq, Int.floor_natCast]; simp
        rw [hfl, bilinear_none (level := k + 1) (by rw [hp.len])]
        obtain ⟨q0, e0⟩ := hp.bilinear_ok (le_refl k) hu hv
        rw [e0]
        simp only [Option.bind_some, Option.bind_none, true_iff]
        refine ⟨heq, ?_⟩
        rw [heq] at h0
        exact_mod_cast h0

/-- **C46**, trilinear, in terms of the differentials: exactly a footprint of one, on any texture larger than one
texel. -/
theorem C46_trilinear_iff (p : List (Nat × (Nat → Pixel))) (k : Nat) (hp : IsPyramid p k)
    (u v dudx dvdx dudy dvdy : ℝ) (hu : 0 ≤ u ∧ u ≤ 1) (hv : 0 ≤ v ∧ v ≤ 1) :
    trilinear p u v dudx dvdx dudy dvdy = none ↔ max (max |dudx| |dvdx|) (max |dudy| |dvdy|) = 1 ∧ 0 < k := by
  unfold trilinear
  rw [C46_trilinear_level_iff p k hp u v _ hu hv]
  have hlen : (p.length : ℝ) - 1 = k := by rw [hp.len]; push_cast; ring
  rw [hlen]
  apply and_congr_left'
  have hpos : 0 < footprint dudx dvdx dudy dvdy := lt_of_lt_of_le (by norm_num) (le_max_right _ _)
  have e : (k : ℝ) + Real.logb 2 (footprint dudx dvdx dudy dvdy) = k ↔ Real.logb 2 (footprint dudx dvdx dudy dvdy) = 0 :=
    add_eq_left
  rw [e, Real.logb_eq_zero]
  constructor
  · intro h
    have hf : footprint dudx dvdx dudy dvdy = 1 := by
      rcases h with h | h | h | h | h | h <;> first | exact h | (exfalso; linarith)
    unfold footprint at hf
    rcases max_choice (max (max |dudx| |dvdx|) (max |dudy| |dvdy|)) (1 / 100000 : ℝ) with g | g
    · rw [← g]; exact hf
    · rw [g] at hf; norm_num at hf
  · intro h
    have : footprint dudx dvdx dudy dvdy = 1 := by
      unfold footprint; rw [h]; exact max_eq_left (by norm_num)
    rw [this]
    simp

/-- **C46 is violated**: a footprint of exactly the texture reads a level that does not exist. -/
theorem C46_violated (p : List (Nat × (Nat → Pixel))) (k : Nat) (hp : IsPyramid p k) (hk : 0 < k) (u v : ℝ)
    (hu : 0 ≤ u ∧ u ≤ 1) (hv : 0 ≤ v ∧ v ≤ 1) : trilinear p u v 1 0 0 0 = none := by
  rw [C46_trilinear_iff p k hp u v 1 0 0 0 hu hv]
  simp [hk]

/-- **C46**, trilinear, partial: all other lookups are defined. -/
theorem C46_trilinear_partial (p : List (Nat × (Nat → Pixel))) (k : Nat) (hp : IsPyramid p k)
    (u v dudx dvdx dudy dvdy : ℝ) (hu : 0 ≤ u ∧ u ≤ 1) (hv : 0 ≤ v ∧ v ≤ 1)
    (h : max (max |dudx| |dvdx|) (max |dudy| |dvdy|) ≠ 1) : ∃ q, trilinear p u v dudx dvdx dudy dvdy = some q := by
  rw [← Option.ne_none_iff_exists']
  intro hn
  exact h ((C46_trilinear_iff p k hp u v dudx dvdx dudy dvdy hu hv).1 hn).1

/-! ### EWA -/

theorem ewa_none {p : List (Nat × (Nat → Pixel))} {level : Nat} (h : p.length ≤ level) (u v a b c d : ℝ) :
    ewa p u v a b c d level = none := by
  unfold ewa
  rw [List.getElem?_eq_none h]
  rfl

/-- **C46 is violated** by EWA lookups whenever `chosen` is the last level. -/
theorem C46_ewa_last_level (p : List (Nat × (Nat → Pixel))) (k : Nat) (hp : IsPyramid p k) (u v a b c d : ℝ) :
    ewaAt p u v a b c d k = none := by
  have hlen : (p.length : ℝ) - 1 = k := by rw [hp.len]; push_cast; ring
  have hk : (k : ℝ) ≤ 15 := by exact_mod_cast hp.small
  unfold ewaAt
  rw [hlen, if_neg (lt_irrefl _), trunc_nonneg (le_refl _) (by positivity) (by push_cast; linarith)]
  simp only [Option.bind_eq_bind, Option.bind_some]
  rw [Int.floor_natCast, Int.toNat_natCast, ewa_none (level := k + 1) (by rw [hp.len])]
  cases ewa p u v a b c d k <;> rfl

/-- **C46 is violated**: on a texture of one texel every EWA lookup with a shorter axis of at most one is out of
the pyramid. -/
theorem C46_ewa_one_texel (p : List (Nat × (Nat → Pixel))) (hp : IsPyramid p 0) (u v a b c d short : ℝ)
    (h0 : 0 < short) (h1 : short ≤ 1) :
    ewaAt p u v a b c d (max 0 ((p.length : ℝ) - 1 + Real.logb 2 short)) = none := by
  have hlen : (p.length : ℝ) - 1 = 0 := by rw [hp.len]; norm_num
  have : Real.logb 2 short ≤ 0 := Real.logb_nonpos (by norm_num) h0.le h1
  rw [hlen, max_eq_left (by linarith)]
  have := C46_ewa_last_level p 0 hp u v a b c d
  simpa using this

/-! The bounding box of the ellipse. -/

theorem ewaA_ge (x y : ℝ) : 1 ≤ ewaA x y := by
  unfold ewaA
  have : 0 ≤ (x * y) * (x * y) := mul_self_nonneg _
  nlinarith

theorem ewaC_ge (x y : ℝ) : 1 ≤ ewaC x y := by
  unfold ewaC
  nlinarith [mul_self_nonneg x, mul_self_nonneg y]

/-- The extent of the box along one axis, after the normalisation by the discriminant `D`. -/
theorem extent_eq (a b c D e : ℝ) (hD : D = a * c - b * b * (1 / 4)) (hD0 : D ≠ 0) :
    2 * (1 / (-(b * (1 / D)) * (b * (1 / D)) + 4 * (a * (1 / D)) * (c * (1 / D)))) *
      Real.sqrt ((-(b * (1 / D)) * (b * (1 / D)) + 4 * (a * (1 / D)) * (c * (1 / D))) * (e * (1 / D))) =
      (if 0 < D then Real.sqrt e else -Real.sqrt e) := by
  have hdelta : -(b * (1 / D)) * (b * (1 / D)) + 4 * (a * (1 / D)) * (c * (1 / D)) = 4 / D := by
    field_simp
    rw [hD]; ring
  rw [hdelta]
  have h1 : 4 / D * (e * (1 / D)) = (2 / D) ^ 2 * e := by field_simp; ring
  rw [h1, Real.sqrt_mul (sq_nonneg _), Real.sqrt_sq_eq_abs]
  split
  · rename_i h
    rw [abs_of_pos (by positivity)]
    field_simp
    norm_num
  · rename_i h
    have hneg : D < 0 := lt_of_le_of_ne (not_lt.1 h) hD0
    rw [abs_of_neg (by apply div_neg_of_pos_of_neg (by norm_num) hneg)]
    field_simp
    norm_num

theorem span_empty {a b : Int} (h : b < a) : span a b = [] := by
  unfold span
  rw [show (b + 1 - a).toNat = 0 by omega]
  rfl

theorem mem_span {a b x : Int} : x ∈ span a b ↔ a ≤ x ∧ x ≤ b := by
  unfold span
  simp only [List.mem_map, List.mem_range]
  constructor
  · rintro ⟨k, hk, rfl⟩; omega
  · rintro ⟨h1, h2⟩; exact ⟨(x - a).toNat, by omega, by omega⟩

theorem toInt_int (z : Int) : toInt (z : ℝ) = some z ∨ toInt (z : ℝ) = none := by
  unfold toInt trunc
  split
  · left
    split <;> simp
  · right; rfl

/-- **C46 is violated**: because of the misprinted coefficient the matrix of the ellipse can be indefinite.
Then no texel is visited, the total weight is zero and NaN is converted to integers. -/
theorem C46_ewa_indefinite (p : List (Nat × (Nat → Pixel))) (level s : Nat) (f : Nat → Pixel)
    (hp : p[level]? = some (s, f)) (u v dudx dvdx dudy dvdy : ℝ)
    (hD : ewaA (dvdx * s) (dvdy * s) * ewaC (dudx * s) (dudy * s) <
      ewaB (dudx * s) (dvdx * s) (dudy * s) (dvdy * s) * ewaB (dudx * s) (dvdx * s) (dudy * s) (dvdy * s) * (1 / 4)) :
    ewa p u v dudx dvdx dudy dvdy level = none := by
  unfold ewa
  simp only [hp, Option.bind_eq_bind, Option.bind_some]
  have hA := ewaA_ge (dvdx * s) (dvdy * s)
  have hC := ewaC_ge (dudx * s) (dudy * s)
  generalize ewaA (dvdx * s) (dvdy * s) = a at *
  generalize ewaB (dudx * s) (dvdx * s) (dudy * s) (dvdy * s) = b at *
  generalize ewaC (dudx * s) (dudy * s) = c at *
  have hneg : a * c - b * b * (1 / 4) < 0 := by linarith
  rw [if_neg (ne_of_lt hneg)]
  have e1 := extent_eq a b c _ c rfl (ne_of_lt hneg)
  have e2 := extent_eq a b c _ a rfl (ne_of_lt hneg)
  rw [e1, e2, if_neg (not_lt.2 hneg.le), if_neg (not_lt.2 hneg.le)]
  have hx : ⌊u * s - 1 / 2 + -Real.sqrt c⌋ < ⌈u * s - 1 / 2 - -Real.sqrt c⌉ := by
    have h1 : (1 : ℝ) ≤ Real.sqrt c := by rw [Real.le_sqrt' (by norm_num)]; simpa using hC
    have h2 := Int.floor_le (u * s - 1 / 2 + -Real.sqrt c)
    have h3 := Int.le_ceil (u * s - 1 / 2 - -Real.sqrt c)
    have : ((⌊u * s - 1 / 2 + -Real.sqrt c⌋ : Int) : ℝ) < (⌈u * s - 1 / 2 - -Real.sqrt c⌉ : Int) := by linarith
    exact_mod_cast this
  generalize ⌊u * s - 1 / 2 + -Real.sqrt c⌋ = z1 at *
  generalize ⌈u * s - 1 / 2 - -Real.sqrt c⌉ = z0 at *
  rcases toInt_int z0 with h | h <;> rw [h]
  · rcases toInt_int z1 with h | h <;> rw [h]
    · simp only [Option.bind_some, span_empty hx, List.map_nil]
      have hflat : ∀ l : List Int, (l.flatMap fun _ => ([] : List (Int × Int))) = [] := by
        intro l; induction l with
        | nil => rfl
        | cons a l ih => simp
      rcases toInt_int ⌈v * s - 1 / 2 - -Real.sqrt a⌉ with h | h <;> rw [h]
      · rcases toInt_int ⌊v * s - 1 / 2 + -Real.sqrt a⌋ with h | h <;> rw [h]
        · simp only [Option.bind_some, hflat, List.foldl_nil]
          simp
        · rfl
      · rfl
    · rfl
  · rfl

theorem foldl_none (p : List (Nat × (Nat → Pixel))) (level side : Nat) (u v a b c : ℝ) (l : List (Int × Int)) :
    l.foldl (ewaStep p level side u v a b c) none = none := by
  induction l with
  | nil => rfl
  | cons x l ih => rw [List.foldl_cons]; exact ih

/-- A texel inside of the ellipse but outside of the level. -/
theorem foldl_oob (p : List (Nat × (Nat → Pixel))) (level side : Nat) (u v a b c : ℝ) (l : List (Int × Int)) :
    ∀ acc, (∃ xy ∈ l, (a * (ewaWrap side xy.1 - u) * (ewaWrap side xy.1 - u) +
      b * (ewaWrap side xy.2 - v) * (ewaWrap side xy.1 - u) +
      c * (ewaWrap side xy.2 - v) * (ewaWrap side xy.2 - v) : ℝ) < 1 ∧
      texel p level (ewaWrap side xy.1) (ewaWrap side xy.2) = none) →
    l.foldl (ewaStep p level side u v a b c) acc = none := by
  induction l with
  | nil => rintro acc ⟨xy, h, -⟩; simp at h
  | cons z l ih =>
    rintro acc ⟨xy, hm, h1, h2⟩
    rw [List.foldl_cons]
    rw [List.mem_cons] at hm
    rcases hm with rfl | hm
    · have : ewaStep p level side u v a b c acc xy = none := by
        unfold ewaStep
        cases acc with
        | none => rfl
        | some acc =>
          simp only [Option.bind_eq_bind, Option.bind_some]
          rw [if_pos h1, h2]
          rfl
      rw [this, foldl_none]
    · exact ih _ ⟨xy, hm, h1, h2⟩

theorem ewa_level_two (p : List (Nat × (Nat → Pixel))) (level : Nat) (f : Nat → Pixel)
    (hp : p[level]? = some (2, f)) : ewa p (1 / 2) (1 / 2) 15 0 0 (1 / 2) level = none := by
  unfold ewa
  simp only [hp, Option.bind_eq_bind, Option.bind_some]
  have hA : ewaA (0 * ((2 : Nat) : ℝ)) (1 / 2 * ((2 : Nat) : ℝ)) = 1 := by unfold ewaA; norm_num
  have hB : ewaB (15 * ((2 : Nat) : ℝ)) (0 * ((2 : Nat) : ℝ)) (0 * ((2 : Nat) : ℝ)) (1 / 2 * ((2 : Nat) : ℝ)) = 0 := by
    unfold ewaB; norm_num
  have hC : ewaC (15 * ((2 : Nat) : ℝ)) (0 * ((2 : Nat) : ℝ)) = 901 := by unfold ewaC; norm_num
  rw [hA, hB, hC]
  have hDp : (0 : ℝ) < 1 * 901 - 0 * 0 * (1 / 4) := by norm_num
  rw [if_neg (ne_of_gt hDp)]
  have e1 := extent_eq 1 0 901 _ 901 rfl (ne_of_gt hDp)
  have e2 := extent_eq 1 0 901 _ 1 rfl (ne_of_gt hDp)
  rw [e1, e2, if_pos hDp, if_pos hDp, Real.sqrt_one]
  have hsq1 : (30 : ℝ) ≤ Real.sqrt 901 := by rw [Real.le_sqrt' (by norm_num)]; norm_num
  have hsq2 : Real.sqrt 901 ≤ 31 := by rw [Real.sqrt_le_left (by norm_num)]; norm_num
  have hu : (1 / 2 : ℝ) * ((2 : Nat) : ℝ) - 1 / 2 = 1 / 2 := by norm_num
  rw [hu]
  have b1 : ⌈(1 / 2 : ℝ) - Real.sqrt 901⌉ ≤ -29 := by rw [Int.ceil_le]; push_cast; linarith
  have b2 : -31 ≤ ⌈(1 / 2 : ℝ) - Real.sqrt 901⌉ := by
    have := Int.le_ceil ((1 / 2 : ℝ) - Real.sqrt 901)
    have h : (-31 : ℝ) < (⌈(1 / 2 : ℝ) - Real.sqrt 901⌉ : Int) := by linarith
    have : (-31 : Int) < ⌈(1 / 2 : ℝ) - Real.sqrt 901⌉ := by exact_mod_cast h
    omega
  have b3 : 30 ≤ ⌊(1 / 2 : ℝ) + Real.sqrt 901⌋ := by rw [Int.le_floor]; push_cast; linarith
  have b4 : ⌊(1 / 2 : ℝ) + Real.sqrt 901⌋ < 32 := by rw [Int.floor_lt]; push_cast; linarith
  have c1 : ⌈(1 / 2 : ℝ) - 1⌉ = 0 := by rw [Int.ceil_eq_zero_iff]; constructor <;> norm_num
  have c2 : ⌊(1 / 2 : ℝ) + 1⌋ = 1 := by rw [Int.floor_eq_iff]; norm_num
  rw [c1, c2]
  generalize ⌈(1 / 2 : ℝ) - Real.sqrt 901⌉ = z0 at *
  generalize ⌊(1 / 2 : ℝ) + Real.sqrt 901⌋ = z1 at *
  have hfold : ((span 0 1).flatMap fun y => (span z0 z1).map fun x => (x, y)).foldl
      (ewaStep p level 2 (1 / 2) (1 / 2) (1 * (1 / (1 * 901 - 0 * 0 * (1 / 4))))
        (0 * (1 / (1 * 901 - 0 * 0 * (1 / 4)))) (901 * (1 / (1 * 901 - 0 * 0 * (1 / 4))))) (some ⟨0, 0, 0, 0, 0⟩) = none := by
    apply foldl_oob
    refine ⟨(-20, 0), ?_, ?_, ?_⟩
    · rw [List.mem_flatMap]
      refine ⟨0, by rw [mem_span]; omega, ?_⟩
      rw [List.mem_map]
      exact ⟨-20, by rw [mem_span]; omega, rfl⟩
    · have w1 : ewaWrap 2 (-20) = -18 := by decide
      have w2 : ewaWrap 2 0 = 0 := by decide
      simp only [w1, w2]
      norm_num
    · have w1 : ewaWrap 2 (-20) = -18 := by decide
      have w2 : ewaWrap 2 0 = 0 := by decide
      simp only [w1, w2]
      unfold texel
      rw [hp]
      simp
  rcases toInt_int z0 with h | h <;> rw [h]
  · rcases toInt_int z1 with h | h <;> rw [h]
    · rcases toInt_int 0 with h | h <;> rw [h]
      · rcases toInt_int 1 with h | h <;> rw [h]
        · simp only [Option.bind_some]
          rw [hfold]
          rfl
        · rfl
      · rfl
    · rfl
  · rfl

/-- **C46 is violated** on every texture larger than one texel: an elongated footprint within the admitted
eccentricity reads texels with negative coordinates (coordinates are wrapped only once). -/
theorem C46_ewa_negative_texel (p : List (Nat × (Nat → Pixel))) (k : Nat) (hp : IsPyramid p k) (hk : 0 < k) :
    ewaFilter p (1 / 2) (1 / 2) 15 0 0 (1 / 2) = none := by
  have hlen : (p.length : ℝ) - 1 = k := by rw [hp.len]; push_cast; ring
  have hk1 : (1 : ℝ) ≤ k := by exact_mod_cast hk
  have hk15 : (k : ℝ) ≤ 15 := by exact_mod_cast hp.small
  obtain ⟨f, hf⟩ := hp.get (k - 1) (by omega)
  rw [show 2 ^ (k - (k - 1)) = 2 by rw [show k - (k - 1) = 1 by omega]; rfl] at hf
  have s1 : Real.sqrt (15 * 15 + 0 * 0) = 15 := by
    rw [show (15 * 15 + 0 * 0 : ℝ) = 15 ^ 2 by norm_num]; exact Real.sqrt_sq (by norm_num)
  have s2 : Real.sqrt (0 * 0 + 1 / 2 * (1 / 2)) = 1 / 2 := by
    rw [show (0 * 0 + 1 / 2 * (1 / 2) : ℝ) = (1 / 2) ^ 2 by norm_num]; exact Real.sqrt_sq (by norm_num)
  unfold ewaFilter
  simp only [s1, s2]
  rw [if_neg (by norm_num)]
  unfold ewaSorted
  rw [if_neg (by norm_num), if_neg (by norm_num)]
  have hlog : Real.logb 2 (1 / 2 : ℝ) = -1 := by
    rw [one_div, Real.logb_inv, Real.logb_self_eq_one (by norm_num)]
  rw [hlog, hlen, max_eq_right (by linarith)]
  unfold ewaAt
  rw [hlen, if_neg (by linarith), trunc_nonneg (le_refl _) (by linarith) (by push_cast; linarith)]
  have hfl : ⌊(k : ℝ) + -1⌋.toNat = k - 1 := by
    have : ⌊(k : ℝ) + -1⌋ = (k : Int) - 1 := by
      rw [Int.floor_eq_iff]; push_cast; constructor <;> linarith
    omega
  simp only [Option.bind_eq_bind, Option.bind_some]
  rw [hfl, ewa_level_two p (k - 1) f hf]
  rfl

/-- **C46 is violated**: and a footprint for which the ellipse is indefinite. -/
theorem C46_ewa_nan (p : List (Nat × (Nat → Pixel))) (k : Nat) (hp : IsPyramid p k) (hk : 0 < k) (u v : ℝ) :
    ewaFilter p u v 2 2 (1 / 2) 0 = none := by
  have hlen : (p.length : ℝ) - 1 = k := by rw [hp.len]; push_cast; ring
  have hk1 : (1 : ℝ) ≤ k := by exact_mod_cast hk
  have hk15 : (k : ℝ) ≤ 15 := by exact_mod_cast hp.small
  obtain ⟨f, hf⟩ := hp.get (k - 1) (by omega)
  rw [show 2 ^ (k - (k - 1)) = 2 by rw [show k - (k - 1) = 1 by omega]; rfl] at hf
  have s2 : Real.sqrt (1 / 2 * (1 / 2) + 0 * 0) = 1 / 2 := by
    rw [show (1 / 2 * (1 / 2) + 0 * 0 : ℝ) = (1 / 2) ^ 2 by norm_num]; exact Real.sqrt_sq (by norm_num)
  have s1a : (2 : ℝ) ≤ Real.sqrt (2 * 2 + 2 * 2) := by rw [Real.le_sqrt' (by norm_num)]; norm_num
  have s1b : Real.sqrt (2 * 2 + 2 * 2) ≤ 3 := by rw [Real.sqrt_le_left (by norm_num)]; norm_num
  unfold ewaFilter
  simp only [s2]
  generalize Real.sqrt (2 * 2 + 2 * 2) = z at *
  rw [if_neg (by linarith)]
  unfold ewaSorted
  rw [if_neg (by norm_num), if_neg (by linarith)]
  have hlog : Real.logb 2 (1 / 2 : ℝ) = -1 := by
    rw [one_div, Real.logb_inv, Real.logb_self_eq_one (by norm_num)]
  rw [hlog, hlen, max_eq_right (by linarith)]
  unfold ewaAt
  rw [hlen, if_neg (by linarith), trunc_nonneg (le_refl _) (by linarith) (by push_cast; linarith)]
  have hfl : ⌊(k : ℝ) + -1⌋.toNat = k - 1 := by
    have : ⌊(k : ℝ) + -1⌋ = (k : Int) - 1 := by
      rw [Int.floor_eq_iff]; push_cast; constructor <;> linarith
    omega
  simp only [Option.bind_eq_bind, Option.bind_some]
  rw [hfl, C46_ewa_indefinite p (k - 1) 2 f hf _ _ _ _ _ _ (by unfold ewaA ewaB ewaC; norm_num)]
  rfl

/-! EWA lookups that are defined. -/

/-- A component of the sums. -/
def Acc.of : Comp → Acc → ℝ
  | .red, s => s.r
  | .green, s => s.g
  | .blue, s => s.b
  | .alpha, s => s.a

/-- The ellipse at a level of side `s`: proper, not larger than the level, and not too thin. -/
structure EwaRegular (s : Nat) (dudx dvdx dudy dvdy : ℝ) : Prop where
  definite : ewaB (dudx * s) (dvdx * s) (dudy * s) (dvdy * s) * ewaB (dudx * s) (dvdx * s) (dudy * s) (dvdy * s) *
    (1 / 4) < ewaA (dvdx * s) (dvdy * s) * ewaC (dudx * s) (dudy * s)
  smallA : ewaA (dvdx * s) (dvdy * s) < (s + 1 / 2) ^ 2
  smallC : ewaC (dudx * s) (dudy * s) < (s + 1 / 2) ^ 2
  thick : ewaA (dvdx * s) (dvdy * s) + |ewaB (dudx * s) (dvdx * s) (dudy * s) (dvdy * s)| +
    ewaC (dudx * s) (dudy * s) < 127 / 32 * (ewaA (dvdx * s) (dvdy * s) * ewaC (dudx * s) (dudy * s) -
      ewaB (dudx * s) (dvdx * s) (dudy * s) (dvdy * s) * ewaB (dudx * s) (dvdx * s) (dudy * s) (dvdy * s) * (1 / 4))

theorem table_pos : ∀ i < 127, 0 < ewaTable.getD i 0 := by decide

theorem ewaWeight_nonneg (i : Nat) : 0 ≤ ewaWeight i := by unfold ewaWeight; positivity

theorem ewaWeight_pos {i : Nat} (h : i < 127) : 0 < ewaWeight i := by
  unfold ewaWeight
  have : (0 : ℝ) < (ewaTable.getD i 0 : Nat) := by exact_mod_cast table_pos i h
  positivity

/-- The squared distance of a wrapped texel. -/
noncomputable def radius2 (s : Nat) (u v a b c : ℝ) (xy : Int × Int) : ℝ :=
  a * (ewaWrap s xy.1 - u) * (ewaWrap s xy.1 - u) + b * (ewaWrap s xy.2 - v) * (ewaWrap s xy.1 - u) +
    c * (ewaWrap s xy.2 - v) * (ewaWrap s xy.2 - v)

/-- The sums are weighted by at most the total weight. -/
def Bounded (L H : Comp → ℝ) (s : Acc) : Prop := ∀ c : Comp, L c * s.w ≤ s.of c ∧ s.of c ≤ H c * s.w

theorem step_ok (p : List (Nat × (Nat → Pixel))) (level s : Nat) (f : Nat → Pixel) (hp : p[level]? = some (s, f))
    (u v a b c : ℝ) (L H : Comp → ℝ)
    (hf : ∀ x < s, ∀ y < s, ∀ k : Comp, L k ≤ val (k.of (f (y * s + x))) ∧ val (k.of (f (y * s + x))) ≤ H k)
    (xy : Int × Int) (hx : 0 ≤ ewaWrap s xy.1 ∧ ewaWrap s xy.1 < s) (hy : 0 ≤ ewaWrap s xy.2 ∧ ewaWrap s xy.2 < s)
    (hr : 0 ≤ radius2 s u v a b c xy) (acc : Acc) (hb : Bounded L H acc) :
    ∃ acc', ewaStep p level s u v a b c (some acc) xy = some acc' ∧ acc.w ≤ acc'.w ∧ Bounded L H acc' ∧
      (radius2 s u v a b c xy < 127 / 128 → acc.w < acc'.w) := by
  unfold ewaStep
  simp only [Option.bind_eq_bind, Option.bind_some]
  change ∃ acc', (if radius2 s u v a b c xy < 1 then _ else _) = some acc' ∧ _
  by_cases h : radius2 s u v a b c xy < 1
  · rw [if_pos h]
    rw [texel_ok hp hx hy, Option.bind_some]
    change ∃ acc', Option.bind (toInt (radius2 s u v a b c xy * 128)) _ = some acc' ∧ _
    generalize radius2 s u v a b c xy = r at *
    have hti : toInt (r * 128) = some ⌊r * 128⌋ :=
      trunc_nonneg (by norm_num) (by linarith) (by norm_num; linarith)
    rw [hti, Option.bind_some]
    have h0 : 0 ≤ ⌊r * 128⌋ := Int.floor_nonneg.2 (by linarith)
    rw [if_neg (by omega)]
    refine ⟨_, rfl, ?_, ?_, ?_⟩
    · have := ewaWeight_nonneg (min ⌊r * 128⌋ 127).toNat
      simp only
      linarith
    · intro k
      have hw := ewaWeight_nonneg (min ⌊r * 128⌋ 127).toNat
      have ht := hf (ewaWrap s xy.1).toNat (by omega) (ewaWrap s xy.2).toNat (by omega) k
      have h1 := mul_le_mul_of_nonneg_right ht.1 hw
      have h2 := mul_le_mul_of_nonneg_right ht.2 hw
      have hbk := hb k
      cases k <;> (simp only [Acc.of, Comp.of] at h1 h2 hbk ⊢; constructor <;> linarith)
    · intro hlt
      have hlt2 : ⌊r * 128⌋ < 127 := by rw [Int.floor_lt]; push_cast; linarith
      have hw := ewaWeight_pos (i := (min ⌊r * 128⌋ 127).toNat) (by omega)
      simp only
      linarith
  · rw [if_neg h]
    exact ⟨acc, rfl, le_refl _, hb, fun hlt => absurd (by linarith) h⟩

theorem fold_ok (p : List (Nat × (Nat → Pixel))) (level s : Nat) (f : Nat → Pixel) (hp : p[level]? = some (s, f))
    (u v a b c : ℝ) (L H : Comp → ℝ)
    (hf : ∀ x < s, ∀ y < s, ∀ k : Comp, L k ≤ val (k.of (f (y * s + x))) ∧ val (k.of (f (y * s + x))) ≤ H k)
    (l : List (Int × Int)) : ∀ (_ : ∀ xy ∈ l, (0 ≤ ewaWrap s xy.1 ∧ ewaWrap s xy.1 < s) ∧
      (0 ≤ ewaWrap s xy.2 ∧ ewaWrap s xy.2 < s) ∧ 0 ≤ radius2 s u v a b c xy) (acc : Acc), Bounded L H acc →
    ∃ acc', l.foldl (ewaStep p level s u v a b c) (some acc) = some acc' ∧ acc.w ≤ acc'.w ∧ Bounded L H acc' ∧
      ((∃ xy ∈ l, radius2 s u v a b c xy < 127 / 128) → acc.w < acc'.w) := by
  induction l with
  | nil =>
    intro _ acc hb
    exact ⟨acc, rfl, le_refl _, hb, by rintro ⟨xy, h, -⟩; simp at h⟩
  | cons z l ih =>
    intro hl acc hb
    obtain ⟨z1, z2, z3⟩ := hl z List.mem_cons_self
    obtain ⟨a1, e1, w1, b1, s1⟩ := step_ok p level s f hp u v a b c L H hf z z1 z2 z3 acc hb
    obtain ⟨a2, e2, w2, b2, s2⟩ := ih (fun xy h => hl xy (List.mem_cons_of_mem _ h)) a1 b1
    refine ⟨a2, by rw [List.foldl_cons, e1, e2], le_trans w1 w2, b2, ?_⟩
    rintro ⟨xy, hm, hlt⟩
    rw [List.mem_cons] at hm
    rcases hm with rfl | hm
    · exact lt_of_lt_of_le (s1 hlt) w2
    · exact lt_of_le_of_lt w1 (s2 ⟨xy, hm, hlt⟩)

theorem toInt_range {z : Int} (h0 : -2 ^ 31 ≤ z) (h1 : z < 2 ^ 31) : toInt (z : ℝ) = some z := by
  have a : ((-2 ^ 31 : Int) : ℝ) ≤ z := by exact_mod_cast h0
  have b : (z : ℝ) < ((2 ^ 31 : Int) : ℝ) := by exact_mod_cast h1
  unfold toInt trunc
  rw [if_pos ⟨by linarith, b⟩]
  split <;> simp

/-- The texel nearest to a coordinate. -/
theorem nearest {s : Nat} (hs : 0 < s) {U : ℝ} (h0 : -(1 / 2) ≤ U) (h1 : U ≤ s - 1 / 2) :
    ∃ x : Int, 0 ≤ x ∧ x < s ∧ |(x : ℝ) - U| ≤ 1 / 2 := by
  have a := Int.floor_le (U + 1 / 2)
  have b := Int.lt_floor_add_one (U + 1 / 2)
  have c : 0 ≤ ⌊U + 1 / 2⌋ := Int.floor_nonneg.2 (by linarith)
  by_cases h : ⌊U + 1 / 2⌋ < s
  · exact ⟨⌊U + 1 / 2⌋, c, h, by rw [abs_le]; constructor <;> linarith⟩
  · have hge : (s : ℝ) ≤ (⌊U + 1 / 2⌋ : Int) := by
      have : (s : Int) ≤ ⌊U + 1 / 2⌋ := by omega
      exact_mod_cast this
    refine ⟨(s : Int) - 1, by omega, by omega, ?_⟩
    rw [abs_le]; push_cast; constructor <;> linarith

/-- The box of an ellipse around a point of the level: it does not leave the level and its neighbour copies. -/
theorem box_ok {s : Nat} (hs : 0 < s) (hs2 : s ≤ 2 ^ 15) {U e : ℝ} (h0 : -(1 / 2) ≤ U) (h1 : U ≤ s - 1 / 2)
    (he1 : 1 ≤ e) (he2 : e < (s + 1 / 2) ^ 2) :
    toInt ⌈U - Real.sqrt e⌉ = some ⌈U - Real.sqrt e⌉ ∧ toInt ⌊U + Real.sqrt e⌋ = some ⌊U + Real.sqrt e⌋ ∧
      (∀ x ∈ span ⌈U - Real.sqrt e⌉ ⌊U + Real.sqrt e⌋, 0 ≤ ewaWrap s x ∧ ewaWrap s x < s) ∧
      ∃ x ∈ span ⌈U - Real.sqrt e⌉ ⌊U + Real.sqrt e⌋, |((ewaWrap s x : Int) : ℝ) - U| ≤ 1 / 2 := by
  have hs1 : (1 : ℝ) ≤ s := by exact_mod_cast hs
  have q1 : (1 : ℝ) ≤ Real.sqrt e := by rw [Real.le_sqrt' (by norm_num)]; simpa using he1
  have q2 : Real.sqrt e < s + 1 / 2 := by rw [Real.sqrt_lt' (by linarith)]; exact he2
  generalize Real.sqrt e = q at *
  have c1 := Int.le_ceil (U - q)
  have c2 := Int.ceil_lt_add_one (U - q)
  have f1 := Int.floor_le (U + q)
  have f2 := Int.lt_floor_add_one (U + q)
  have l1 : -(s : Int) ≤ ⌈U - q⌉ := by
    have : (-(s : ℝ)) - 1 < (⌈U - q⌉ : Int) := by linarith
    have : -(s : Int) - 1 < ⌈U - q⌉ := by exact_mod_cast this
    omega
  have l2 : ⌊U + q⌋ ≤ 2 * (s : Int) := by
    have : ((⌊U + q⌋ : Int) : ℝ) < 2 * s + 1 := by linarith
    have : ⌊U + q⌋ < 2 * (s : Int) + 1 := by exact_mod_cast this
    omega
  have l3 : ⌈U - q⌉ ≤ (s : Int) := by rw [Int.ceil_le]; push_cast; linarith
  have l4 : 0 ≤ ⌊U + q⌋ := Int.floor_nonneg.2 (by linarith)
  refine ⟨toInt_range (by omega) (by omega), toInt_range (by omega) (by omega), ?_, ?_⟩
  · intro x hx
    rw [mem_span] at hx
    unfold ewaWrap
    split
    · omega
    · split
      · rw [Int.tmod_eq_emod_of_nonneg (by omega)]
        exact ⟨Int.emod_nonneg _ (by omega), Int.emod_lt_of_pos _ (by omega)⟩
      · omega
  · obtain ⟨x, x0, x1, xd⟩ := nearest hs h0 h1
    rw [abs_le] at xd
    refine ⟨x, ?_, ?_⟩
    · rw [mem_span]
      exact ⟨by rw [Int.ceil_le]; linarith, by rw [Int.le_floor]; linarith⟩
    · have : ewaWrap s x = x := by
        unfold ewaWrap
        rw [if_neg (by omega), if_neg (by omega)]
      rw [this, abs_le]
      exact xd

theorem quad_nonneg {A B C x y : ℝ} (hA : 0 < A) (hD : B * B * (1 / 4) < A * C) :
    0 ≤ A * x * x + B * y * x + C * y * y := by
  have h1 : 0 ≤ (2 * A * x + B * y) ^ 2 := sq_nonneg _
  have h2 : 0 ≤ (A * C - B * B * (1 / 4)) * (y * y) := mul_nonneg (by linarith) (mul_self_nonneg y)
  have h3 : 0 ≤ A * (A * x * x + B * y * x + C * y * y) := by nlinarith
  exact nonneg_of_mul_nonneg_right h3 hA

theorem quad_le {A B C x y : ℝ} (hA : 0 ≤ A) (hC : 0 ≤ C) (hx : |x| ≤ 1 / 2) (hy : |y| ≤ 1 / 2) :
    A * x * x + B * y * x + C * y * y ≤ (A + |B| + C) * (1 / 4) := by
  have hx2 : x * x ≤ 1 / 4 := by
    rw [← abs_mul_abs_self x]
    nlinarith [abs_nonneg x]
  have hy2 : y * y ≤ 1 / 4 := by
    rw [← abs_mul_abs_self y]
    nlinarith [abs_nonneg y]
  have hxy : B * (y * x) ≤ |B| * (1 / 4) := by
    calc B * (y * x) ≤ |B * (y * x)| := le_abs_self _
      _ = |B| * (|y| * |x|) := by rw [abs_mul, abs_mul]
      _ ≤ |B| * (1 / 4) := by
        apply mul_le_mul_of_nonneg_left _ (abs_nonneg B)
        nlinarith [abs_nonneg x, abs_nonneg y]
  have h1 := mul_le_mul_of_nonneg_left hx2 hA
  have h2 := mul_le_mul_of_nonneg_left hy2 hC
  linarith

/-- **C46**, one level of an EWA lookup: defined, and every component between the bounds of the level. -/
theorem C46_ewa_level (p : List (Nat × (Nat → Pixel))) (level s : Nat) (f : Nat → Pixel)
    (hp : p[level]? = some (s, f)) (hs : 0 < s) (hs2 : s ≤ 2 ^ 15) (u v dudx dvdx dudy dvdy : ℝ)
    (hu : 0 ≤ u ∧ u ≤ 1) (hv : 0 ≤ v ∧ v ≤ 1) (hreg : EwaRegular s dudx dvdx dudy dvdy) :
    ∃ q, ewa p u v dudx dvdx dudy dvdy level = some q ∧ ∀ L H : Comp → Nat,
      (∀ x < s, ∀ y < s, ∀ k : Comp, L k ≤ (k.of (f (y * s + x))).toNat ∧ (k.of (f (y * s + x))).toNat ≤ H k) →
      ∀ k : Comp, L k ≤ (k.of q).toNat ∧ (k.of q).toNat ≤ H k := by
  have hs1 : (1 : ℝ) ≤ s := by exact_mod_cast hs
  obtain ⟨hD, hsA, hsC, hthick⟩ := hreg
  unfold ewa
  simp only [hp, Option.bind_eq_bind, Option.bind_some]
  have hA := ewaA_ge (dvdx * s) (dvdy * s)
  have hC := ewaC_ge (dudx * s) (dudy * s)
  generalize ewaA (dvdx * s) (dvdy * s) = a at *
  generalize ewaB (dudx * s) (dvdx * s) (dudy * s) (dvdy * s) = b at *
  generalize ewaC (dudx * s) (dudy * s) = c at *
  have hpos : 0 < a * c - b * b * (1 / 4) := by linarith
  rw [if_neg (ne_of_gt hpos)]
  have e1 := extent_eq a b c _ c rfl (ne_of_gt hpos)
  have e2 := extent_eq a b c _ a rfl (ne_of_gt hpos)
  rw [e1, e2, if_pos hpos, if_pos hpos]
  have hU0 : -(1 / 2) ≤ u * s - 1 / 2 := by nlinarith
  have hU1 : u * s - 1 / 2 ≤ s - 1 / 2 := by nlinarith
  have hV0 : -(1 / 2) ≤ v * s - 1 / 2 := by nlinarith
  have hV1 : v * s - 1 / 2 ≤ s - 1 / 2 := by nlinarith
  obtain ⟨i1, i2, i3, x, hx, hxd⟩ := box_ok hs hs2 hU0 hU1 hC hsC
  obtain ⟨j1, j2, j3, y, hy, hyd⟩ := box_ok hs hs2 hV0 hV1 hA hsA
  rw [i1, i2, j1, j2]
  simp only [Option.bind_some]
  generalize span ⌈u * s - 1 / 2 - Real.sqrt c⌉ ⌊u * s - 1 / 2 + Real.sqrt c⌋ = XS at *
  generalize span ⌈v * s - 1 / 2 - Real.sqrt a⌉ ⌊v * s - 1 / 2 + Real.sqrt a⌋ = YS at *
  generalize u * s - 1 / 2 = U at *
  generalize v * s - 1 / 2 = V at *
  generalize hDd : a * c - b * b * (1 / 4) = D at *
  have hr : ∀ xy : Int × Int, radius2 s U V (a * (1 / D)) (b * (1 / D)) (c * (1 / D)) xy =
      (a * (ewaWrap s xy.1 - U) * (ewaWrap s xy.1 - U) + b * (ewaWrap s xy.2 - V) * (ewaWrap s xy.1 - U) +
        c * (ewaWrap s xy.2 - V) * (ewaWrap s xy.2 - V)) * (1 / D) := by
    intro xy; unfold radius2; ring
  have hcells : ∀ xy ∈ (YS.flatMap fun y => XS.map fun x => (x, y)),
      (0 ≤ ewaWrap s xy.1 ∧ ewaWrap s xy.1 < s) ∧ (0 ≤ ewaWrap s xy.2 ∧ ewaWrap s xy.2 < s) ∧
        0 ≤ radius2 s U V (a * (1 / D)) (b * (1 / D)) (c * (1 / D)) xy := by
    intro xy hm
    rw [List.mem_flatMap] at hm
    obtain ⟨y', hy', hm⟩ := hm
    rw [List.mem_map] at hm
    obtain ⟨x', hx', rfl⟩ := hm
    refine ⟨i3 x' hx', j3 y' hy', ?_⟩
    rw [hr]
    exact mul_nonneg (quad_nonneg (by linarith) (by linarith)) (by positivity)
  have hmem : ∃ xy ∈ (YS.flatMap fun y => XS.map fun x => (x, y)),
      radius2 s U V (a * (1 / D)) (b * (1 / D)) (c * (1 / D)) xy < 127 / 128 := by
    refine ⟨(x, y), ?_, ?_⟩
    · rw [List.mem_flatMap]
      refine ⟨y, hy, ?_⟩
      rw [List.mem_map]
      exact ⟨x, hx, rfl⟩
    · rw [hr]
      have := quad_le (A := a) (B := b) (C := c) (by linarith) (by linarith) hxd hyd
      have h2 : a * ((ewaWrap s x : Int) - U) * ((ewaWrap s x : Int) - U) +
          b * ((ewaWrap s y : Int) - V) * ((ewaWrap s x : Int) - U) +
          c * ((ewaWrap s y : Int) - V) * ((ewaWrap s y : Int) - V) < 127 / 128 * D := by linarith
      simp only
      rw [mul_one_div, div_lt_iff₀ hpos]
      exact h2
  have hmain : ∀ L H : Comp → ℝ,
      (∀ x < s, ∀ y < s, ∀ k : Comp, L k ≤ val (k.of (f (y * s + x))) ∧ val (k.of (f (y * s + x))) ≤ H k) →
      ∃ acc, (YS.flatMap fun y => XS.map fun x => (x, y)).foldl
        (ewaStep p level s U V (a * (1 / D)) (b * (1 / D)) (c * (1 / D))) (some ⟨0, 0, 0, 0, 0⟩) = some acc ∧
        0 < acc.w ∧ Bounded L H acc := by
    intro L H hf
    obtain ⟨acc, e, -, hb, hw⟩ := fold_ok p level s f hp U V _ _ _ L H hf _ hcells ⟨0, 0, 0, 0, 0⟩
      (by intro k; cases k <;> simp [Acc.of])
    exact ⟨acc, e, hw hmem, hb⟩
  obtain ⟨acc, e, hw, hb⟩ := hmain (fun _ => 0) (fun _ => 255)
    (fun _ _ _ _ _ => ⟨val_nonneg _, val_le _⟩)
  rw [e, Option.bind_some, if_neg (ne_of_gt hw)]
  have hbyte : ∀ k : Comp, ∃ q : Byte, toByte (acc.of k * (1 / acc.w)) = some q ∧
      (q.toNat : ℝ) ≤ acc.of k * (1 / acc.w) ∧ acc.of k * (1 / acc.w) < (q.toNat : ℝ) + 1 := by
    intro k
    obtain ⟨h1, h2⟩ := hb k
    apply toByte_ok
    · rw [mul_one_div]; apply div_nonneg _ hw.le; simpa using h1
    · rw [mul_one_div, div_le_iff₀ hw]; exact h2
  choose Q hQ using hbyte
  refine ⟨pack (Q .red) (Q .green) (Q .blue) (Q .alpha), ?_, ?_⟩
  · have r := (hQ .red).1
    have g := (hQ .green).1
    have bl := (hQ .blue).1
    have al := (hQ .alpha).1
    simp only [Acc.of] at r g bl al
    rw [r, g, bl, al]
    rfl
  · intro L H hf k
    obtain ⟨acc', e', -, hb'⟩ := hmain (fun k => L k) (fun k => H k) (by
      intro x hx y hy k
      have := hf x hx y hy k
      unfold val
      exact ⟨by exact_mod_cast this.1, by exact_mod_cast this.2⟩)
    rw [e] at e'
    injection e' with e'
    subst e'
    obtain ⟨h1, h2⟩ := hb' k
    rw [comp_pack Q k]
    obtain ⟨-, q1, q2⟩ := hQ k
    rw [mul_one_div] at q1 q2
    rw [div_lt_iff₀ hw] at q2
    rw [le_div_iff₀ hw] at q1
    have a1 : ((L k : Nat) : ℝ) < (Q k).toNat + 1 := by
      by_contra hcon
      push Not at hcon
      have := mul_le_mul_of_nonneg_right hcon hw.le
      linarith
    have a2 : ((Q k).toNat : ℝ) ≤ (H k : Nat) := by
      by_contra hcon
      push Not at hcon
      have := mul_lt_mul_of_pos_right hcon hw
      linarith
    have a1' : L k < (Q k).toNat + 1 := by exact_mod_cast a1
    exact ⟨by omega, by exact_mod_cast a2⟩

/-- **C46**, EWA, partial: for whatever value of `chosen`, a lookup between two existing levels at which the ellipse
is regular is defined; so are lookups beyond the last level.  The full statement has neither restriction and fails
(`C46_ewa_last_level`, `C46_ewa_negative_texel`, `C46_ewa_nan`). -/
theorem C46_ewa_partial (p : List (Nat × (Nat → Pixel))) (k : Nat) (hp : IsPyramid p k)
    (u v dudx dvdx dudy dvdy chosen : ℝ) (hu : 0 ≤ u ∧ u ≤ 1) (hv : 0 ≤ v ∧ v ≤ 1) (h0 : 0 ≤ chosen)
    (h : (k : ℝ) < chosen ∨ (chosen < k ∧ EwaRegular (2 ^ (k - ⌊chosen⌋.toNat)) dudx dvdx dudy dvdy ∧
      EwaRegular (2 ^ (k - (⌊chosen⌋.toNat + 1))) dudx dvdx dudy dvdy)) :
    ∃ q, ewaAt p u v dudx dvdx dudy dvdy chosen = some q := by
  have hlen : (p.length : ℝ) - 1 = k := by rw [hp.len]; push_cast; ring
  have hk15 : (k : ℝ) ≤ 15 := by exact_mod_cast hp.small
  unfold ewaAt
  rw [hlen]
  rcases h with h | ⟨h1, r0, r1⟩
  · rw [if_pos h]
    obtain ⟨f, hf⟩ := hp.get k (le_refl _)
    rw [hp.len, Nat.add_sub_cancel, texel_ok hf (by simp) (by simp)]
    exact ⟨_, rfl⟩
  · rw [if_neg (by linarith), trunc_nonneg (le_refl _) h0 (by push_cast; linarith)]
    simp only [Option.bind_eq_bind, Option.bind_some]
    obtain ⟨f1, -⟩ := floor_toNat_le h0 h1
    obtain ⟨g0, hg0⟩ := hp.get ⌊chosen⌋.toNat (by omega)
    obtain ⟨g1, hg1⟩ := hp.get (⌊chosen⌋.toNat + 1) f1
    obtain ⟨q0, e0, -⟩ := C46_ewa_level p _ _ g0 hg0 (by positivity) (pow_le_15 hp.small _) u v dudx dvdx dudy dvdy
      hu hv r0
    obtain ⟨q1, e1, -⟩ := C46_ewa_level p _ _ g1 hg1 (by positivity) (pow_le_15 hp.small _) u v dudx dvdx dudy dvdy
      hu hv r1
    have a := Int.floor_le chosen
    have b := Int.lt_floor_add_one chosen
    obtain ⟨r, er, -⟩ := blend_ok (d := chosen - ⌊chosen⌋) (by linarith) (by linarith) q0 q1
    rw [e0, Option.bind_some, e1, Option.bind_some, er]
    exact ⟨r, rfl⟩

/-- An isotropic footprint of half a texture of two texels is regular at both levels. -/
example : EwaRegular 2 (1 / 2) 0 0 (1 / 2) ∧ EwaRegular 1 (1 / 2) 0 0 (1 / 2) := by
  constructor <;> constructor <;> norm_num [ewaA, ewaB, ewaC]

/-! ### C47: repetition -/

/-- **C47**, exactly: wrapping gives a coordinate of the unit interval that differs by a whole number if and only if
the coordinate is not negative. -/
theorem C47_iff (u : ℝ) (h : u < 2 ^ 31) :
    (∃ w, wrapCoord u = some w ∧ 0 ≤ w ∧ w ≤ 1 ∧ ∃ n : Int, u = w + n) ↔ 0 ≤ u := by
  unfold wrapCoord
  by_cases h1 : 1 < u
  · rw [if_pos h1]
    have : toInt u = some ⌊u⌋ := trunc_nonneg (by norm_num) (by linarith) (by push_cast; linarith)
    rw [this]
    constructor
    · intro _; linarith
    · intro _
      have a := Int.floor_le u
      have b := Int.lt_floor_add_one u
      exact ⟨u - ⌊u⌋, rfl, by linarith, by linarith, ⌊u⌋, by ring⟩
  · rw [if_neg h1]
    constructor
    · rintro ⟨w, e, h0, -⟩
      injection e with e
      rw [e]; exact h0
    · intro h0
      exact ⟨u, rfl, h0, not_lt.1 h1, 0, by simp⟩

/-- **C47 is violated** for every negative coordinate: it is passed on unchanged. -/
theorem C47_violated (u : ℝ) (h : u < 0) : wrapCoord u = some u ∧
    ¬ ∃ w, wrapCoord u = some w ∧ 0 ≤ w ∧ w ≤ 1 ∧ ∃ n : Int, u = w + n := by
  refine ⟨?_, ?_⟩
  · unfold wrapCoord; rw [if_neg (by linarith)]
  · rw [C47_iff u (by linarith)]; linarith

/-- **C47**, partial: coordinates that are not negative (and fit an `int`) are wrapped; whole numbers from two on
become 0, and 1 stays 1. -/
theorem C47_wrap_partial (u : ℝ) (_h0 : 0 ≤ u) (h : u < 2 ^ 31) :
    wrapCoord u = some (if u ≤ 1 then u else Int.fract u) := by
  unfold wrapCoord
  by_cases h1 : 1 < u
  · rw [if_pos h1, if_neg (by linarith)]
    have : toInt u = some ⌊u⌋ := trunc_nonneg (by norm_num) (by linarith) (by push_cast; linarith)
    rw [this]
    rfl
  · rw [if_neg h1, if_pos (by linarith)]

/-- **C47**: what a negative coordinate does next: as soon as it is half a texel below zero the lookup reads
outside of the level. -/
theorem C47_negative_lookup (p : List (Nat × (Nat → Pixel))) (level s : Nat) (f : Nat → Pixel)
    (hp : p[level]? = some (s, f)) (u v : ℝ) (hu : u * s ≤ -(1 / 2)) : bilinear p u v level = none := by
  have key : ∀ x, toInt (u * s - 1 / 2) = some x → ∀ y, texel p level x y = none := by
    intro x hx y
    unfold toInt trunc at hx
    split at hx
    · rw [if_neg (by linarith)] at hx
      injection hx with hx
      have : ⌈u * (s : ℝ) - 1 / 2⌉ ≤ -1 := by rw [Int.ceil_le]; push_cast; linarith
      unfold texel
      rw [hp]
      simp only
      rw [if_neg (by omega)]
    · cases hx
  unfold bilinear
  rw [hp]
  change Option.bind (toInt (u * s - 1 / 2)) _ = none
  cases hx : toInt (u * s - 1 / 2) with
  | none => rfl
  | some x =>
    change Option.bind (toInt (v * s - 1 / 2)) _ = none
    cases hy : toInt (v * s - 1 / 2) with
    | none => rfl
    | some y =>
      change Option.bind (texel p level x y) _ = none
      rw [key x hx y]
      rfl

example : wrapCoord (5 / 2) = some (1 / 2) ∧ wrapCoord (-1 / 4) = some (-1 / 4) := by
  refine ⟨?_, (C47_violated _ (by norm_num)).1⟩
  rw [C47_wrap_partial _ (by norm_num) (by norm_num), if_neg (by norm_num)]
  congr 1
  rw [Int.fract, show ⌊(5 / 2 : ℝ)⌋ = 2 by rw [Int.floor_eq_iff]; norm_num]
  norm_num

/-! ### C70: interpolation -/

theorem mix_zero (t0 t1 t2 t3 : Byte) : mix 0 0 t0 t1 t2 t3 = val t0 := by unfold mix; ring

/-- **C70**: at the centre of a texel the bilinear lookup returns the texel. -/
theorem C70_centre (p : List (Nat × (Nat → Pixel))) (level s : Nat) (f : Nat → Pixel) (hp : p[level]? = some (s, f))
    (hs2 : s ≤ 2 ^ 15) (x y : Nat) (hx : x < s) (hy : y < s) :
    bilinear p ((x + 1 / 2) / s) ((y + 1 / 2) / s) level = some (f (y * s + x)) := by
  have hs : (0 : ℝ) < s := by exact_mod_cast (by omega : 0 < s)
  have coord : ∀ n : Nat, n < s → ((n : ℝ) + 1 / 2) / s * s - 1 / 2 = n := by
    intro n _; field_simp; ring
  have conv : ∀ n : Nat, n < s → toInt (((n : ℝ) + 1 / 2) / s * s - 1 / 2) = some (n : Int) := by
    intro n hn
    rw [coord n hn]
    have := toInt_range (z := (n : Int)) (by omega) (by omega)
    simpa using this
  rw [bilinear_eq p level s f hp _ _ x y (conv x hx) (conv y hy) (by omega) (by omega), coord x hx, coord y hy]
  simp only [Int.cast_natCast, sub_self, abs_zero]
  obtain ⟨q, e, hq⟩ := mixPixel_ok (du := 0) (dv := 0) (le_refl _) (by norm_num) (le_refl _) (by norm_num)
    (at' f s x y) (at' f s (nextCoord s x) y) (at' f s x (nextCoord s y)) (at' f s (nextCoord s x) (nextCoord s y))
  rw [e]
  congr 1
  have : q = at' f s x y := by
    apply eq_of_comp
    intro c
    obtain ⟨h1, h2⟩ := hq c
    rw [mix_zero] at h1 h2
    unfold val at h1 h2
    have a1 : (c.of q).toNat ≤ (c.of (at' f s x y)).toNat := by exact_mod_cast h1
    have a2 : (c.of (at' f s x y)).toNat < (c.of q).toNat + 1 := by exact_mod_cast h2
    omega
  rw [this]
  unfold at'
  simp

/-- The value of one component that a bilinear lookup in a repeated texture would have: `x`, `y` are the texels to
the left and above, on the infinite repeated plane, `du`, `dv` the distances to their centres. -/
noncomputable def repeated (f : Nat → Pixel) (s : Nat) (c : Comp) (u v : ℝ) : ℝ :=
  let x := ⌊u * s - 1 / 2⌋
  let y := ⌊v * s - 1 / 2⌋
  mix (u * s - 1 / 2 - x) (v * s - 1 / 2 - y) (c.of (at' f s (x % s) (y % s))) (c.of (at' f s ((x + 1) % s) (y % s)))
    (c.of (at' f s (x % s) ((y + 1) % s))) (c.of (at' f s ((x + 1) % s) ((y + 1) % s)))

theorem nextCoord_mod {s : Nat} {x : Int} (h0 : 0 ≤ x) (h1 : x < s) : nextCoord s x = (x + 1) % s := by
  unfold nextCoord
  by_cases h : x + 1 ≤ (s : Int) - 1
  · rw [if_pos h, Int.emod_eq_of_lt (by omega) (by omega)]
  · rw [if_neg h, show x + 1 = (s : Int) by omega, Int.emod_self]

/-- **C70**, partial: from half a texel on, the lookup is the interpolation on the repeated plane (truncated). -/
theorem C70_repeated_partial (p : List (Nat × (Nat → Pixel))) (level s : Nat) (f : Nat → Pixel)
    (hp : p[level]? = some (s, f)) (hs : 0 < s) (hs2 : s ≤ 2 ^ 15) (u v : ℝ) (hu : 1 / 2 ≤ u * s ∧ u ≤ 1)
    (hv : 1 / 2 ≤ v * s ∧ v ≤ 1) :
    ∃ q, bilinear p u v level = some q ∧ ∀ c : Comp, val (c.of q) ≤ repeated f s c u v ∧
      repeated f s c u v < val (c.of q) + 1 := by
  have hs1 : (1 : ℝ) ≤ s := by exact_mod_cast hs
  have hsb : (s : ℝ) ≤ 2 ^ 15 := by exact_mod_cast hs2
  have key : ∀ w : ℝ, 1 / 2 ≤ w * s → w ≤ 1 → toInt (w * s - 1 / 2) = some ⌊w * s - 1 / 2⌋ ∧
      0 ≤ ⌊w * s - 1 / 2⌋ ∧ ⌊w * s - 1 / 2⌋ < s ∧ 0 ≤ w * s - 1 / 2 - ⌊w * s - 1 / 2⌋ ∧
      w * s - 1 / 2 - ⌊w * s - 1 / 2⌋ ≤ 1 := by
    intro w h0 h1
    have hle : w * s ≤ s := by nlinarith
    have a := Int.floor_le (w * s - 1 / 2)
    have b := Int.lt_floor_add_one (w * s - 1 / 2)
    refine ⟨trunc_nonneg (by norm_num) (by linarith) (by push_cast; linarith), Int.floor_nonneg.2 (by linarith), ?_,
      by linarith, by linarith⟩
    rw [Int.floor_lt]; push_cast; linarith
  obtain ⟨a1, a2, a3, a4, a5⟩ := key u hu.1 hu.2
  obtain ⟨b1, b2, b3, b4, b5⟩ := key v hv.1 hv.2
  rw [bilinear_eq p level s f hp u v _ _ a1 b1 ⟨a2, a3⟩ ⟨b2, b3⟩, nextCoord_mod a2 a3, nextCoord_mod b2 b3,
    abs_of_nonneg a4, abs_of_nonneg b4]
  obtain ⟨q, e, hq⟩ := mixPixel_ok a4 a5 b4 b5
    (at' f s ⌊u * s - 1 / 2⌋ ⌊v * s - 1 / 2⌋) (at' f s ((⌊u * s - 1 / 2⌋ + 1) % s) ⌊v * s - 1 / 2⌋)
    (at' f s ⌊u * s - 1 / 2⌋ ((⌊v * s - 1 / 2⌋ + 1) % s))
    (at' f s ((⌊u * s - 1 / 2⌋ + 1) % s) ((⌊v * s - 1 / 2⌋ + 1) % s))
  refine ⟨q, e, ?_⟩
  intro c
  have := hq c
  unfold repeated
  simp only [Int.emod_eq_of_lt a2 a3, Int.emod_eq_of_lt b2 b3]
  exact this

/-- A texture of four by four texels: the second column is white. -/
def striped : Nat → Pixel := fun i => if i % 4 = 1 then 0xFFFFFFFF else 0

theorem mixPixel_value {du dv : ℝ} (hu0 : 0 ≤ du) (hu1 : du ≤ 1) (hv0 : 0 ≤ dv) (hv1 : dv ≤ 1) (t0 t1 t2 t3 q : Pixel)
    (h : ∀ c : Comp, val (c.of q) ≤ mix du dv (c.of t0) (c.of t1) (c.of t2) (c.of t3) ∧
      mix du dv (c.of t0) (c.of t1) (c.of t2) (c.of t3) < val (c.of q) + 1) :
    mixPixel du dv t0 t1 t2 t3 = some q := by
  obtain ⟨r, e, hr⟩ := mixPixel_ok hu0 hu1 hv0 hv1 t0 t1 t2 t3
  rw [e]
  congr 1
  apply eq_of_comp
  intro c
  obtain ⟨a1, a2⟩ := h c
  obtain ⟨b1, b2⟩ := hr c
  unfold val at *
  have c1 : ((c.of r).toNat : ℝ) < (c.of q).toNat + 1 := by linarith
  have c2 : ((c.of q).toNat : ℝ) < (c.of r).toNat + 1 := by linarith
  have d1 : (c.of r).toNat < (c.of q).toNat + 1 := by exact_mod_cast c1
  have d2 : (c.of q).toNat < (c.of r).toNat + 1 := by exact_mod_cast c2
  omega

/-- **C70 is violated** on the first half texel: the two borders of a repeated texture, 0 and 1, are the same place,
but the lookup gives grey at one and black at the other. -/
theorem C70_seam_violated : ∃ p, pyramid striped (2 ^ 2) = some p ∧ bilinear p 0 (1 / 8) 0 = some 0x7F7F7F7F ∧
    bilinear p 1 (1 / 8) 0 = some 0 := by
  refine ⟨_, pyramid_eq striped 2, ?_, ?_⟩
  · have h1 : toInt (0 * ((2 ^ 2 : Nat) : ℝ) - 1 / 2) = some 0 := trunc_small_neg (by norm_num) (by norm_num) (by norm_num) (by norm_num)
    have h2 : toInt (1 / 8 * ((2 ^ 2 : Nat) : ℝ) - 1 / 2) = some 0 := by
      have := toInt_range (z := 0) (by norm_num) (by norm_num)
      rw [← this]; norm_num
    rw [bilinear_eq _ 0 (2 ^ 2) striped rfl 0 (1 / 8) 0 0 h1 h2 (by norm_num) (by norm_num)]
    have e0 : at' striped (2 ^ 2) 0 0 = 0 := by decide
    have e1 : at' striped (2 ^ 2) (nextCoord (2 ^ 2) 0) 0 = 0xFFFFFFFF := by decide
    have e2 : at' striped (2 ^ 2) 0 (nextCoord (2 ^ 2) 0) = 0 := by decide
    have e3 : at' striped (2 ^ 2) (nextCoord (2 ^ 2) 0) (nextCoord (2 ^ 2) 0) = 0xFFFFFFFF := by decide
    rw [e0, e1, e2, e3]
    have d1 : |(0 : ℝ) * ((2 ^ 2 : Nat) : ℝ) - 1 / 2 - (0 : Int)| = 1 / 2 := by
      rw [abs_of_neg (by norm_num)]; norm_num
    have d2 : |(1 / 8 : ℝ) * ((2 ^ 2 : Nat) : ℝ) - 1 / 2 - (0 : Int)| = 0 := by norm_num
    rw [d1, d2]
    apply mixPixel_value (by norm_num) (by norm_num) (by norm_num) (by norm_num)
    have v0 : ∀ c : Comp, (c.of 0).toNat = 0 := by intro c; cases c <;> rfl
    have v1 : ∀ c : Comp, (c.of 0xFFFFFFFF).toNat = 255 := by intro c; cases c <;> rfl
    have v2 : ∀ c : Comp, (c.of 0x7F7F7F7F).toNat = 127 := by intro c; cases c <;> rfl
    intro c
    unfold mix val
    rw [v0, v1, v2]
    norm_num
  · have h1 : toInt (1 * ((2 ^ 2 : Nat) : ℝ) - 1 / 2) = some 3 := by
      have := trunc_nonneg (lo := -2 ^ 31) (hi := 2 ^ 31) (x := 1 * ((2 ^ 2 : Nat) : ℝ) - 1 / 2) (by norm_num) (by norm_num) (by norm_num)
      unfold toInt
      rw [this]
      congr 1
      rw [Int.floor_eq_iff]; norm_num
    have h2 : toInt (1 / 8 * ((2 ^ 2 : Nat) : ℝ) - 1 / 2) = some 0 := by
      have := toInt_range (z := 0) (by norm_num) (by norm_num)
      rw [← this]; norm_num
    rw [bilinear_eq _ 0 (2 ^ 2) striped rfl 1 (1 / 8) 3 0 h1 h2 (by norm_num) (by norm_num)]
    have e0 : at' striped (2 ^ 2) 3 0 = 0 := by decide
    have e1 : at' striped (2 ^ 2) (nextCoord (2 ^ 2) 3) 0 = 0 := by decide
    have e2 : at' striped (2 ^ 2) 3 (nextCoord (2 ^ 2) 0) = 0 := by decide
    have e3 : at' striped (2 ^ 2) (nextCoord (2 ^ 2) 3) (nextCoord (2 ^ 2) 0) = 0 := by decide
    rw [e0, e1, e2, e3]
    have d1 : |(1 : ℝ) * ((2 ^ 2 : Nat) : ℝ) - 1 / 2 - (3 : Int)| = 1 / 2 := by
      rw [abs_of_pos (by norm_num)]; norm_num
    have d2 : |(1 / 8 : ℝ) * ((2 ^ 2 : Nat) : ℝ) - 1 / 2 - (0 : Int)| = 0 := by norm_num
    rw [d1, d2]
    apply mixPixel_value (by norm_num) (by norm_num) (by norm_num) (by norm_num)
    have v0 : ∀ c : Comp, (c.of 0).toNat = 0 := by intro c; cases c <;> rfl
    intro c
    unfold mix val
    rw [v0]
    norm_num

/-! ### C71: uniform textures -/

/-- All the levels are of one colour (`C45_uniform`). -/
def Uniform (p : List (Nat × (Nat → Pixel))) (col : Pixel) : Prop :=
  ∀ (i s : Nat) (f : Nat → Pixel), p[i]? = some (s, f) → ∀ x < s, ∀ y < s, f (y * s + x) = col

theorem bilinear_uniform {p : List (Nat × (Nat → Pixel))} {k : Nat} (hp : IsPyramid p k) {col : Pixel}
    (hc : Uniform p col) {i : Nat} (hi : i ≤ k) {u v : ℝ} (hu : 0 ≤ u ∧ u ≤ 1) (hv : 0 ≤ v ∧ v ≤ 1) :
    bilinear p u v i = some col := by
  obtain ⟨f, hf⟩ := hp.get i hi
  obtain ⟨q, e, h⟩ := C46_bilinear p i _ f hf (by positivity) (pow_le_15 hp.small i) u v hu hv
  rw [e]
  congr 1
  apply eq_of_comp
  intro c
  have := h c (c.of col).toNat (c.of col).toNat (by
    intro x hx y hy
    rw [hc i _ f hf x hx y hy]
    exact ⟨le_refl _, le_refl _⟩)
  omega

/-- **C71**, bilinear and unfiltered lookups in a uniform texture give its colour. -/
theorem C71_bilinear (p : List (Nat × (Nat → Pixel))) (k : Nat) (hp : IsPyramid p k) (col : Pixel)
    (hc : Uniform p col) (i : Nat) (hi : i ≤ k) (u v : ℝ) (hu : 0 ≤ u ∧ u ≤ 1) (hv : 0 ≤ v ∧ v ≤ 1) :
    bilinear p u v i = some col ∧ unfiltered p u v = some col := by
  refine ⟨bilinear_uniform hp hc hi hu hv, ?_⟩
  obtain ⟨f, hf⟩ := hp.get 0 (Nat.zero_le _)
  obtain ⟨x, y, hx, hy, -, -, e⟩ := C46_unfiltered p _ f hf (by positivity) (pow_le_15 hp.small 0) u v hu hv
  rw [e, hc 0 _ f hf x hx y hy]

/-- **C71**, trilinear, partial: the blend of two levels loses at most one unit per component. -/
theorem C71_trilinear_partial (p : List (Nat × (Nat → Pixel))) (k : Nat) (hp : IsPyramid p k) (col : Pixel)
    (hc : Uniform p col) (u v chosen : ℝ) (hu : 0 ≤ u ∧ u ≤ 1) (hv : 0 ≤ v ∧ v ≤ 1) (q : Pixel)
    (hq : trilinearAt p u v chosen = some q) (c : Comp) :
    (c.of q).toNat = (c.of col).toNat ∨ (c.of q).toNat + 1 = (c.of col).toNat := by
  have hlen : (p.length : ℝ) - 1 = k := by rw [hp.len]; push_cast; ring
  have hk15 : (k : ℝ) ≤ 15 := by exact_mod_cast hp.small
  unfold trilinearAt at hq
  rw [hlen] at hq
  by_cases h0 : chosen ≤ 0
  · rw [if_pos h0, bilinear_uniform hp hc (Nat.zero_le _) hu hv] at hq
    injection hq with hq
    rw [hq]; exact Or.inl rfl
  · rw [if_neg h0] at hq
    push Not at h0
    by_cases h1 : chosen > k
    · rw [if_pos h1] at hq
      obtain ⟨f, hf⟩ := hp.get k (le_refl _)
      rw [hp.len, Nat.add_sub_cancel, texel_ok hf (by simp) (by simp)] at hq
      injection hq with hq
      have := hc k _ f hf 0 (by positivity) 0 (by positivity)
      simp only [Int.toNat_zero] at hq
      rw [← hq, this]; exact Or.inl rfl
    · rw [if_neg h1] at hq
      push Not at h1
      rw [trunc_nonneg (le_refl _) h0.le (by push_cast; linarith)] at hq
      simp only [Option.bind_eq_bind, Option.bind_some] at hq
      rcases lt_or_eq_of_le h1 with hlt | heq
      · obtain ⟨f1, f2⟩ := floor_toNat_le h0.le hlt
        rw [bilinear_uniform hp hc (by omega) hu hv, Option.bind_some, bilinear_uniform hp hc f1 hu hv,
          Option.bind_some] at hq
        have a := Int.floor_le chosen
        have b := Int.lt_floor_add_one chosen
        obtain ⟨r, er, hr⟩ := blend_ok (d := chosen - ⌊chosen⌋) (by linarith) (by linarith) col col
        rw [er] at hq
        injection hq with hq
        subst hq
        obtain ⟨x, y, e, x0, x1, y0, y1, hxy⟩ := hr c
        have hn : (c.of r).toNat = x.toNat + y.toNat := by rw [e, BitVec.toNat_add]; omega
        rw [hn]
        unfold val at x0 x1 y0 y1
        have g1 : (x.toNat : ℝ) + y.toNat ≤ (c.of col).toNat := by linarith
        have g2 : ((c.of col).toNat : ℝ) < x.toNat + y.toNat + 2 := by linarith
        have g1' : x.toNat + y.toNat ≤ (c.of col).toNat := by exact_mod_cast g1
        have g2' : (c.of col).toNat < x.toNat + y.toNat + 2 := by exact_mod_cast g2
        omega
      · have hfl : ⌊chosen⌋.toNat = k := by rw [heq, Int.floor_natCast]; simp
        rw [hfl, bilinear_none (level := k + 1) (by rw [hp.len])] at hq
        cases hb : bilinear p u v k <;> rw [hb] at hq <;> cases hq

/-- **C71 is violated** by trilinear lookups: half way between two levels white becomes 254. -/
theorem C71_violated (p : List (Nat × (Nat → Pixel))) (k : Nat) (hp : IsPyramid p k) (hk : 0 < k)
    (hc : Uniform p 0xFFFFFFFF) (u v : ℝ) (hu : 0 ≤ u ∧ u ≤ 1) (hv : 0 ≤ v ∧ v ≤ 1) :
    trilinearAt p u v (1 / 2) = some 0xFEFEFEFE := by
  have hlen : (p.length : ℝ) - 1 = k := by rw [hp.len]; push_cast; ring
  have hk1 : (1 : ℝ) ≤ k := by exact_mod_cast hk
  unfold trilinearAt
  rw [hlen, if_neg (by norm_num), if_neg (by linarith), trunc_nonneg (le_refl _) (by norm_num) (by norm_num)]
  have hfl : ⌊(1 / 2 : ℝ)⌋ = 0 := by rw [Int.floor_eq_iff]; norm_num
  simp only [Option.bind_eq_bind, Option.bind_some, hfl]
  rw [show (0 : Int).toNat = 0 from rfl, bilinear_uniform hp hc (Nat.zero_le _) hu hv, Option.bind_some,
    bilinear_uniform hp hc (by omega) hu hv, Option.bind_some]
  have ht : toByte (val 0xFF * (1 - (1 / 2 - ((0 : Int) : ℝ)))) = some 127 ∧ toByte (val 0xFF * (1 / 2 - ((0 : Int) : ℝ))) = some 127 := by
    have v1 : val 0xFF = 255 := by
      unfold val
      rw [show BitVec.toNat (0xFF : Byte) = 255 from rfl]
      norm_num
    have hfl2 : ⌊(255 / 2 : ℝ)⌋ = 127 := by rw [Int.floor_eq_iff]; norm_num
    have h : toByte (255 / 2 : ℝ) = some 127 := by
      unfold toByte
      rw [trunc_nonneg (le_refl _) (by norm_num) (by norm_num), hfl2]
      rfl
    rw [v1]
    constructor
    · rw [← h]; congr 1; norm_num
    · rw [← h]; congr 1; norm_num
  have hB : blendB (1 / 2 - ((0 : Int) : ℝ)) 0xFF 0xFF = some 0xFE := by
    unfold blendB
    rw [ht.1, ht.2]
    rfl
  unfold blend
  have r1 : red 0xFFFFFFFF = 0xFF := by decide
  have r2 : green 0xFFFFFFFF = 0xFF := by decide
  have r3 : blue 0xFFFFFFFF = 0xFF := by decide
  have r4 : alpha 0xFFFFFFFF = 0xFF := by decide
  rw [r1, r2, r3, r4, hB]
  have hpk : pack 0xFE 0xFE 0xFE 0xFE = 0xFEFEFEFE := by decide
  simp only [Option.bind_eq_bind, Option.bind_some, hpk]
  rfl

/-- A uniform texture exists on every pyramid. -/
theorem uniform_exists (col : Pixel) (k : Nat) (hk : k ≤ 15) :
    ∃ p, pyramid (fun _ => col) (2 ^ k) = some p ∧ IsPyramid p k ∧ Uniform p col := by
  obtain ⟨p, e, hlen, -⟩ := C45_levels (fun _ => col) k
  refine ⟨p, e, isPyramid_of hk e, ?_⟩
  intro i s f hf x hx y _
  have : i < p.length := by
    by_contra hcon
    rw [List.getElem?_eq_none (by omega)] at hf
    cases hf
  exact C45_uniform col k i (by omega) p e f s hf x y hx

/-! ### C72: images accepted as textures -/

/-- **C72**, exactly: among the accepted images those without pixels, or with a side of at least 65536, reach the
constructor as textures of side zero. -/
theorem C72_iff (inp : Nat → Pixel) (w h : BitVec 32) (s : Nat) (hs : acceptedSide w h = some s) :
    pyramid inp s = none ↔ w.toNat = 0 ∨ 2 ^ 16 ≤ w.toNat := by
  unfold acceptedSide at hs
  split at hs
  · rename_i hw
    injection hs with hs
    obtain ⟨rfl, hpow⟩ := hw
    have hp : pyramid inp s = none ↔ s = 0 := by unfold pyramid; split <;> simp_all
    rw [hp, ← hs]
    by_cases h0 : w.toNat = 0
    · simp [h0]
    · have hnat : w.toNat &&& (w.toNat - 1) = 0 := by
        have h1 := congrArg BitVec.toNat hpow
        rw [BitVec.toNat_and, BitVec.toNat_sub] at h1
        have h2 : (2 ^ 32 - BitVec.toNat (1 : BitVec 32) + w.toNat) % 2 ^ 32 = w.toNat - 1 := by
          have := w.isLt
          rw [show BitVec.toNat (1 : BitVec 32) = 1 from rfl]
          omega
        rw [h2] at h1
        simpa using h1
      obtain ⟨j, hj⟩ := (Nat.and_sub_one_eq_zero_iff_isPowerOfTwo h0).1 hnat
      rw [hj]
      constructor
      · intro hm
        right
        by_contra hcon
        push Not at hcon
        rw [Nat.mod_eq_of_lt hcon] at hm
        have : 0 < 2 ^ j := by positivity
        omega
      · rintro (h | h)
        · have : 0 < 2 ^ j := by positivity
          omega
        · have hj16 : 16 ≤ j := by
            by_contra hcon
            have : 2 ^ j ≤ 2 ^ 15 := Nat.pow_le_pow_right (by norm_num) (by omega)
            omega
          obtain ⟨m, rfl⟩ := Nat.exists_eq_add_of_le hj16
          rw [pow_add, Nat.mul_mod_right]
  · cases hs

/-- **C72**, partial: accepted images with a side up to 65535 become a pyramid with at most 16 levels. -/
theorem C72_accepted_partial (inp : Nat → Pixel) (w h : BitVec 32) (s : Nat) (hs : acceptedSide w h = some s)
    (h0 : w.toNat ≠ 0) (h1 : w.toNat < 2 ^ 16) :
    ∃ k p, s = 2 ^ k ∧ w.toNat = s ∧ h = w ∧ pyramid inp s = some p ∧ IsPyramid p k := by
  unfold acceptedSide at hs
  split at hs
  · rename_i hw
    injection hs with hs
    obtain ⟨rfl, hpow⟩ := hw
    have hnat : w.toNat &&& (w.toNat - 1) = 0 := by
      have h1 := congrArg BitVec.toNat hpow
      rw [BitVec.toNat_and, BitVec.toNat_sub] at h1
      have h2 : (2 ^ 32 - BitVec.toNat (1 : BitVec 32) + w.toNat) % 2 ^ 32 = w.toNat - 1 := by
        have := w.isLt
        rw [show BitVec.toNat (1 : BitVec 32) = 1 from rfl]
        omega
      rw [h2] at h1
      simpa using h1
    obtain ⟨j, hj⟩ := (Nat.and_sub_one_eq_zero_iff_isPowerOfTwo h0).1 hnat
    rw [Nat.mod_eq_of_lt h1] at hs
    have hj15 : j ≤ 15 := by
      by_contra hcon
      have : 2 ^ 16 ≤ 2 ^ j := Nat.pow_le_pow_right (by norm_num) (by omega)
      omega
    refine ⟨j, _, by omega, hs, rfl, ?_, isPyramid_of (inp := inp) hj15 (pyramid_eq inp j)⟩
    rw [← hs, hj, pyramid_eq]
  · cases hs

/-- **C72 is violated**: images of 65536 by 65536 pixels and empty images pass the test. -/
theorem C72_violated (inp : Nat → Pixel) : acceptedSide 65536 65536 = some 0 ∧ acceptedSide 0 0 = some 0 ∧
    pyramid inp 0 = none := ⟨by decide, by decide, rfl⟩

example : acceptedSide 1024 1024 = some 1024 ∧ acceptedSide 1000 1000 = none ∧ acceptedSide 512 1024 = none := by decide

/-! ### C73: masks -/

/-- The component selected by a channel. -/
def channelComp : Fin 4 → Comp
  | 0 => .alpha
  | 1 => .red
  | 2 => .green
  | 3 => .blue

/-- **C73**: a point is visible exactly when the selected component is at least 128, or less with an inverted mask;
without a map everything is visible. -/
theorem C73_mask (t : Pixel) (ch : Fin 4) (inverted : Bool) :
    (isVisible (some t) ch inverted = true ↔ (128 ≤ ((channelComp ch).of t).toNat ↔ inverted = false)) ∧
    isVisible none ch inverted = true ∧ isVisible (some t) ch (!inverted) = !isVisible (some t) ch inverted := by
  have hch : ∀ ch : Fin 4, ((t >>> (8 * ch.val)).setWidth 8 : Byte) = (channelComp ch).of t := by
    intro ch
    fin_cases ch
    · simp only [channelComp, Comp.of, Img.alpha]
      ext i hi
      simp
      each_bit i
    · simp only [channelComp, Comp.of, Img.red]
      ext i hi
      simp
      each_bit i
    · simp only [channelComp, Comp.of, Img.green]
      ext i hi
      simp
      each_bit i
    · simp only [channelComp, Comp.of, Img.blue]
      ext i hi
      simp
      each_bit i
  refine ⟨?_, rfl, ?_⟩
  · unfold isVisible
    simp only [hch]
    by_cases h : 128 ≤ ((channelComp ch).of t).toNat <;> cases inverted <;> simp [h]
  · unfold isVisible
    simp only [hch]
    by_cases h : 128 ≤ ((channelComp ch).of t).toNat <;> cases inverted <;> simp [h]

example : isVisible (some 0x000000C8) 0 false = true ∧ isVisible (some 0x000000C8) 1 false = false ∧
    isVisible (some 0x000000C8) 1 true = true := by decide

/-! ### C74: scaled differentials -/

/-- **C74**, exactly: the differentials agree with those of the scaled coordinates (`u` is scaled by the first and
`v` by the second factor) for all inputs only if the two factors are equal. -/
theorem C74_iff (scale : ℝ × ℝ) : (∀ du dv, scaledDifferentials du dv scale =
    (du.1 * scale.1, dv.1 * scale.2, du.2 * scale.1, dv.2 * scale.2)) ↔ scale.1 = scale.2 := by
  constructor
  · intro h
    have := h (1, 1) (1, 1)
    unfold scaledDifferentials at this
    simp only [Prod.mk.injEq] at this
    linarith [this.2.1]
  · intro h du dv
    unfold scaledDifferentials
    rw [h]

/-- **C74 is violated**: a texture repeated four times along `u` only. -/
theorem C74_violated : scaledDifferentials (0, 1) (1, 0) (4, 1) = (0, 4, 1, 0) := by
  unfold scaledDifferentials; norm_num

/-- **C74**, partial: equal factors. -/
theorem C74_uniform_scale_partial (du dv : ℝ × ℝ) (k : ℝ) : scaledDifferentials du dv (k, k) =
    (du.1 * k, dv.1 * k, du.2 * k, dv.2 * k) := rfl

end Spectre.Tex
