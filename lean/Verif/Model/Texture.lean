import Verif.Model.Array2D
import Verif.Model.Pixel
import Mathlib.Analysis.SpecialFunctions.Log.Base
import Mathlib.Analysis.SpecialFunctions.Pow.Real

/-
Textures: /repo/src/textures/image_map.cpp, texture_image.cpp, mask_boolean.cpp.

Arithmetic on texture coordinates is exact (real numbers), except for the texel averages of the
pyramid, which are exact in the code as well (sums below 1024 times a quarter).  Undefined behaviour is
`none`: a level outside of the pyramid, a texel outside of the level (outside of the heap block of
`Array2D`, or an uninitialised cell of it), a `float` that does not fit the integer it is converted to
(includes NaN).  `malloc` succeeds.
-/

namespace Spectre.Tex

open Spectre.Img

/-- The four components of a texel in memory, image_map.hpp:43-65. -/
def pack (r g b a : Byte) : Pixel :=
  a.setWidth 32 ||| (r.setWidth 32 <<< 8) ||| (g.setWidth 32 <<< 16) ||| (b.setWidth 32 <<< 24)

/-- `(uint8_t)(0.25f*(a+b+c+d))`, image_map.cpp:323-326. -/
def avgB (a b c d : Byte) : Byte := BitVec.ofNat 8 ((a.toNat + b.toNat + c.toNat + d.toNat) / 4)

/-- All components, image_map.cpp:322-326. -/
def avg (a b c d : Pixel) : Pixel :=
  pack (avgB (red a) (red b) (red c) (red d)) (avgB (green a) (green b) (green c) (green d))
    (avgB (blue a) (blue b) (blue c) (blue d)) (avgB (alpha a) (alpha b) (alpha c) (alpha d))

/-- `downsample`, image_map.cpp:310-330; row-major arrays.  Only the first `(side/2)^2` cells are written by
the code, and only those are used afterwards. -/
def downsample (inp : Nat → Pixel) (side : Nat) : Nat → Pixel := fun i =>
  let x := i % (side / 2)
  let y := i / (side / 2)
  avg (inp (2 * y * side + 2 * x)) (inp ((2 * y + 1) * side + 2 * x))
    (inp (2 * y * side + (2 * x + 1))) (inp ((2 * y + 1) * side + (2 * x + 1)))

/-- The loop of the constructor, image_map.cpp:82-93: sides and contents of the levels. -/
def levels (inp : Nat → Pixel) (side : Nat) : Nat → List (Nat × (Nat → Pixel))
  | 0 => []
  | n + 1 => (side, inp) :: levels (downsample inp side) (side / 2) n

/-- `ImageMap::ImageMap`, image_map.cpp:72-96.  `(int)log2f(side)` is exact for the powers of two that
reach it; the logarithm of zero does not fit an `int`. -/
def pyramid (inp : Nat → Pixel) (side : Nat) : Option (List (Nat × (Nat → Pixel))) :=
  if side = 0 then none else some (levels inp side (1 + Nat.log 2 side))

/-- The buffers `MIPmap[i]`, image_map.cpp:82,88, with arbitrary contents of fresh memory. -/
def arrays (junk : Nat → Nat → Pixel) (p : List (Nat × (Nat → Pixel))) : List (Option (Array2D.Arr Pixel)) :=
  p.mapIdx fun i l => Array2D.mkValues (BitVec.ofNat 32 l.1) l.2 (junk i)

/-- `MIPmap[level]->get(x, y)` restricted to initialised cells. -/
def texel (p : List (Nat × (Nat → Pixel))) (level : Nat) (x y : Int) : Option Pixel :=
  match p[level]? with
  | none => none
  | some l => if 0 ≤ x ∧ x < l.1 ∧ 0 ≤ y ∧ y < l.1 then some (l.2 (y.toNat * l.1 + x.toNat)) else none

/-- Conversion of a `float` to an integer type with values in `[lo, hi)`: towards zero, undefined outside. -/
noncomputable def trunc (lo hi : Int) (x : ℝ) : Option Int :=
  if (lo : ℝ) - 1 < x ∧ x < hi then some (if 0 ≤ x then ⌊x⌋ else ⌈x⌉) else none

/-- Conversion to `int`. -/
noncomputable def toInt (x : ℝ) : Option Int := trunc (-2 ^ 31) (2 ^ 31) x
/-- Conversion to `uint8_t`. -/
noncomputable def toByte (x : ℝ) : Option Byte := (trunc 0 256 x).map fun z => BitVec.ofNat 8 z.toNat

/-- `ImageMapUnfiltered::filter`, image_map.cpp:106-112. -/
noncomputable def unfiltered (p : List (Nat × (Nat → Pixel))) (u v : ℝ) : Option Pixel := do
  let l ← p[0]?
  let x ← trunc 0 (2 ^ 16) (u * l.1 - 1 / 2)
  let y ← trunc 0 (2 ^ 16) (v * l.1 - 1 / 2)
  texel p 0 x y

/-- A component as a number. -/
noncomputable def val (b : Byte) : ℝ := b.toNat

/-- The interpolated component, image_map.cpp:225-232. -/
noncomputable def mix (du dv : ℝ) (t0 t1 t2 t3 : Byte) : ℝ :=
  (val t0 * (1 - du) + val t1 * du) * (1 - dv) + (val t2 * (1 - du) + val t3 * du) * dv

/-- `ImageMap::bilinear`, image_map.cpp:207-235. -/
noncomputable def bilinear (p : List (Nat × (Nat → Pixel))) (u v : ℝ) (level : Nat) : Option Pixel := do
  let l ← p[level]?
  let u := u * l.1 - 1 / 2
  let v := v * l.1 - 1 / 2
  let x ← toInt u
  let y ← toInt v
  let du := |u - x|
  let dv := |v - y|
  let nx : Int := if x + 1 ≤ (l.1 : Int) - 1 then x + 1 else 0
  let ny : Int := if y + 1 ≤ (l.1 : Int) - 1 then y + 1 else 0
  let t0 ← texel p level x y
  let t1 ← texel p level nx y
  let t2 ← texel p level x ny
  let t3 ← texel p level nx ny
  let r ← toByte (mix du dv (red t0) (red t1) (red t2) (red t3))
  let g ← toByte (mix du dv (green t0) (green t1) (green t2) (green t3))
  let b ← toByte (mix du dv (blue t0) (blue t1) (blue t2) (blue t3))
  let a ← toByte (mix du dv (alpha t0) (alpha t1) (alpha t2) (alpha t3))
  pure (pack r g b a)

/-- One component of the blend of two levels, image_map.cpp:137-148: scaled, truncated, added as bytes. -/
noncomputable def blendB (d : ℝ) (a b : Byte) : Option Byte := do
  let x ← toByte (val a * (1 - d))
  let y ← toByte (val b * d)
  pure (x + y)

/-- The blend of two levels, image_map.cpp:136-148 and 190-202. -/
noncomputable def blend (d : ℝ) (p q : Pixel) : Option Pixel := do
  let r ← blendB d (red p) (red q)
  let g ← blendB d (green p) (green q)
  let b ← blendB d (blue p) (blue q)
  let a ← blendB d (alpha p) (alpha q)
  pure (pack r g b a)

/-- `ImageMapTrilinear::filter` from line 124 on, for a given value of `chosen`. -/
noncomputable def trilinearAt (p : List (Nat × (Nat → Pixel))) (u v chosen : ℝ) : Option Pixel :=
  if chosen ≤ 0 then bilinear p u v 0
  else if chosen > (p.length : ℝ) - 1 then texel p (p.length - 1) 0 0
  else do
    let k ← trunc 0 256 chosen
    let p0 ← bilinear p u v k.toNat
    let p1 ← bilinear p u v (k.toNat + 1)
    blend (chosen - k) p0 p1

/-- The footprint of `ImageMapTrilinear::filter`, image_map.cpp:118-121. -/
noncomputable def footprint (dudx dvdx dudy dvdy : ℝ) : ℝ :=
  max (max (max |dudx| |dvdx|) (max |dudy| |dvdy|)) (1 / 100000)

/-- `ImageMapTrilinear::filter`, image_map.cpp:114-151. -/
noncomputable def trilinear (p : List (Nat × (Nat → Pixel))) (u v dudx dvdx dudy dvdy : ℝ) : Option Pixel :=
  trilinearAt p u v ((p.length : ℝ) - 1 + Real.logb 2 (footprint dudx dvdx dudy dvdy))

/-- `EWA_WEIGHTS`, image_map.cpp:37-70, in units of 10^-11. -/
def ewaTable : List Nat := [
  86466473300, 84904003100, 83365953000, 81851929400, 80361563000, 78894478100, 77450323100, 76028728500,
  74629348500, 73251831500, 71895837800, 70561027500, 69247078900, 67953658100, 66680449200, 65427130500,
  64193397800, 62978935200, 61783450800, 60606652500, 59448236200, 58307915900, 57185417400, 56080454600,
  54992759200, 53922057200, 52868086100, 51830583800, 50809288000, 49803954400, 48814326500, 47840160100,
  46881216800, 45937258000, 45008045400, 44093352600, 43192946900, 42306613900, 41434133100, 40575277800,
  39729845500, 38897621600, 38078403500, 37271988400, 36478161800, 35696744900, 34927541000, 34170347500,
  33424991400, 32691282000, 31969034700, 31258070500, 30558216600, 29869294200, 29191142300, 28523582200,
  27866452900, 27219593500, 26582837100, 25956034700, 25339019300, 24731649500, 24133767200, 23545227900,
  22965885700, 22395594400, 21834214000, 21281604500, 20737628600, 20202152400, 19675044700, 19156171400,
  18645401300, 18142615300, 17647685100, 17160488700, 16680906700, 16208814100, 15744100500, 15286646800,
  14836342600, 14393071800, 13956727100, 13527201100, 13104386600, 12688179300, 12278471900, 11875169000,
  11478163300, 11087364000, 10702669600, 10323987900, 9951221940, 9584279360, 9223072230, 8867508170,
  8517499270, 8172959090, 7833801210, 7499943670, 7171303030, 6847797330, 6529346110, 6215870380, 5907289680,
  5603532490, 5304522810, 5010184650, 4720444980, 4435232280, 4154476520, 3878107670, 3606055680, 3338256480,
  3074640040, 2815142270, 2559700610, 2308247980, 2060726280, 1817071440, 1577220860, 1341120900, 1108708980,
  879928470, 654722750, 433036685, 214813650, 0]

/-- `EWA_WEIGHTS[i]`. -/
noncomputable def ewaWeight (i : Nat) : ℝ := (ewaTable.getD i 0 : ℝ) / 10 ^ 11

/-- Wrapping of one coordinate, image_map.cpp:277 and 282. -/
def ewaWrap (side : Nat) (x : Int) : Int :=
  if x < 0 then side + x else if x > (side : Int) - 1 then x.tmod side else x

/-- Coefficients before the normalisation, image_map.cpp:250-252 (the products are as written, `a` has a stray
multiplication), of the differentials in texels. -/
noncomputable def ewaA (dvdx dvdy : ℝ) : ℝ := dvdx * dvdx * dvdy * dvdy + 1
/-- See `ewaA`. -/
noncomputable def ewaB (dudx dvdx dudy dvdy : ℝ) : ℝ := -2 * (dudx * dvdx + dudy * dvdy)
/-- See `ewaA`. -/
noncomputable def ewaC (dudx dudy : ℝ) : ℝ := dudx * dudx + dudy * dudy + 1

/-- Sums of the loop, image_map.cpp:269-273. -/
structure Acc where
  r : ℝ
  g : ℝ
  b : ℝ
  a : ℝ
  w : ℝ

/-- Body of the loops, image_map.cpp:276-298. -/
noncomputable def ewaStep (p : List (Nat × (Nat → Pixel))) (level side : Nat) (u v a b c : ℝ) (acc : Option Acc)
    (xy : Int × Int) : Option Acc := do
  let acc ← acc
  let ny := ewaWrap side xy.2
  let nx := ewaWrap side xy.1
  let uo : ℝ := nx - u
  let vo : ℝ := ny - v
  let r2 := a * uo * uo + b * vo * uo + c * vo * vo
  if r2 < 1 then do
    let t ← texel p level nx ny
    let k ← toInt (r2 * 128)
    let i := min k 127
    if i < 0 then none
    else
      let w := ewaWeight i.toNat
      pure ⟨acc.r + val (red t) * w, acc.g + val (green t) * w, acc.b + val (blue t) * w, acc.a + val (alpha t) * w,
        acc.w + w⟩
  else pure acc

/-- The integers from `a` to `b`. -/
def span (a b : Int) : List Int := (List.range (b + 1 - a).toNat).map fun (k : Nat) => a + (k : Int)

/-- `ImageMapEWA::ewa`, image_map.cpp:237-308.  A division by zero gives infinities or NaN, which end in an
undefined conversion: `none`. -/
noncomputable def ewa (p : List (Nat × (Nat → Pixel))) (u v dudx dvdx dudy dvdy : ℝ) (level : Nat) : Option Pixel := do
  let l ← p[level]?
  let s : ℝ := l.1
  let u := u * s - 1 / 2
  let v := v * s - 1 / 2
  let a := ewaA (dvdx * s) (dvdy * s)
  let b := ewaB (dudx * s) (dvdx * s) (dudy * s) (dvdy * s)
  let c := ewaC (dudx * s) (dudy * s)
  let D := a * c - b * b * (1 / 4)
  if D = 0 then none
  else do
    let f := 1 / D
    let a := a * f
    let b := b * f
    let c := c * f
    let delta := -b * b + 4 * a * c
    let x0 := Real.sqrt (delta * c)
    let y0 := Real.sqrt (delta * a)
    let u0 ← toInt ⌈u - 2 * (1 / delta) * x0⌉
    let u1 ← toInt ⌊u + 2 * (1 / delta) * x0⌋
    let v0 ← toInt ⌈v - 2 * (1 / delta) * y0⌉
    let v1 ← toInt ⌊v + 2 * (1 / delta) * y0⌋
    let acc ← ((span v0 v1).flatMap fun y => (span u0 u1).map fun x => (x, y)).foldl
      (ewaStep p level l.1 u v a b c) (some ⟨0, 0, 0, 0, 0⟩)
    if acc.w = 0 then none
    else do
      let r ← toByte (acc.r * (1 / acc.w))
      let g ← toByte (acc.g * (1 / acc.w))
      let b ← toByte (acc.b * (1 / acc.w))
      let a ← toByte (acc.a * (1 / acc.w))
      pure (pack r g b a)

/-- The two levels and their blend, `ImageMapEWA::filter` from line 181 on. -/
noncomputable def ewaAt (p : List (Nat × (Nat → Pixel))) (u v dudx dvdx dudy dvdy chosen : ℝ) : Option Pixel :=
  if chosen > (p.length : ℝ) - 1 then texel p (p.length - 1) 0 0
  else do
    let k ← trunc 0 256 chosen
    let p0 ← ewa p u v dudx dvdx dudy dvdy k.toNat
    let p1 ← ewa p u v dudx dvdx dudy dvdy (k.toNat + 1)
    blend (chosen - k) p0 p1

/-- Lines 165-181 after the axes are in order. -/
noncomputable def ewaSorted (p : List (Nat × (Nat → Pixel))) (u v dudx dvdx dudy dvdy long short : ℝ) : Option Pixel :=
  if short = 0 then bilinear p u v 0
  else if short * 30 < long then
    let scale := long / (short * 30)
    ewaAt p u v dudx dvdx (dudy * scale) (dvdy * scale) (max 0 ((p.length : ℝ) - 1 + Real.logb 2 (short * scale)))
  else ewaAt p u v dudx dvdx dudy dvdy (max 0 ((p.length : ℝ) - 1 + Real.logb 2 short))

/-- `ImageMapEWA::filter`, image_map.cpp:153-205. -/
noncomputable def ewaFilter (p : List (Nat × (Nat → Pixel))) (u v dudx dvdx dudy dvdy : ℝ) : Option Pixel :=
  let long := Real.sqrt (dudx * dudx + dvdx * dvdx)
  let short := Real.sqrt (dudy * dudy + dvdy * dvdy)
  if long < short then ewaSorted p u v dudy dvdy dudx dvdx short long
  else ewaSorted p u v dudx dvdx dudy dvdy long short

/-- Wrapping of a texture coordinate, texture_image.cpp:64-68. -/
noncomputable def wrapCoord (u : ℝ) : Option ℝ := if 1 < u then (toInt u).map fun z => u - z else some u

/-- The coordinates of the lookup, texture_image.cpp:61-68. -/
noncomputable def mapCoord (uv scale shift : ℝ) : Option ℝ := wrapCoord (uv * scale + shift)

/-- The differentials passed to the filter, texture_image.cpp:79-83: `du` holds the derivatives of `u` along the
two screen axes, `dv` those of `v`.  In the order `dudx, dvdx, dudy, dvdy`. -/
noncomputable def scaledDifferentials (du dv scale : ℝ × ℝ) : ℝ × ℝ × ℝ × ℝ :=
  (du.1 * scale.1, dv.1 * scale.1, du.2 * scale.2, dv.2 * scale.2)

/-- The test for square images with a power of two as side, texture_image.cpp:19, and the conversion of the
side to the `uint16_t` parameter of the constructors (texture_image.cpp:27-32). -/
def acceptedSide (w h : BitVec 32) : Option Nat :=
  if w = h ∧ h &&& (h - 1) = 0 then some (w.toNat % 2 ^ 16) else none

/-- `MaskBoolean::is_visible`, mask_boolean.cpp:13-31, little endian; the channel counts bytes from the start
of the struct (`ImageChannel`, texture_image.hpp:39-45).  `tex` is the looked up texel, `none` without a map. -/
def isVisible (tex : Option Pixel) (channel : Fin 4) (inverted : Bool) : Bool :=
  match tex with
  | none => true
  | some t =>
    let c := ((t >>> (8 * channel.val)).setWidth 8 : Byte)
    decide (128 ≤ c.toNat) != inverted

end Spectre.Tex
