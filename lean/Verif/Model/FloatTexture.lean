import Verif.Model.FloatMaterial
import Verif.Model.FloatTriangle
import Verif.Model.FloatPlace
import Verif.Model.Texture

/-
Model in binary32 of the ray differentials (src/primitives/hit_point.cpp), of the coordinates of texture lookups
(src/textures/texture_image.cpp) and of the filters of textures (src/textures/image_map.cpp).  `Model/Frame.lean` and
`Model/Texture.lean` have the same code in exact arithmetic.  `log2f` is a parameter.  `none` is undefined behaviour: a
conversion of a number outside of the range of the type, or a texel outside of the pyramid.
-/

namespace Spectre.FTex

open Spectre.Geom Spectre.FMat Spectre.FTri Spectre.Img Spectre.Tex F32

/-- The conversion of a float to an integer type with the values `lo ≤ n < hi`. -/
def trunc32 (lo hi : ℤ) : F32 → Option ℤ
  | nan => none
  | inf _ => none
  | v =>
    let t := if 0 ≤ v.val then ⌊v.val⌋ else ⌈v.val⌉
    if lo ≤ t ∧ t < hi then some t else none

/-- The conversion of an integer to `float`. -/
def ofInt (n : ℤ) : F32 := F32.round false n

/-! ### Ray differentials -/

/-- The members `du` and `dv` of `HitPoint`, hit_point.hpp:36-48. -/
structure Diff where
  dux : F32
  dvx : F32
  duy : F32
  dvy : F32

/-- The intersection of a neighbouring ray with the tangent plane, hit_point.cpp:10-20. -/
def planePoint (p n o d : V3 F32) : V3 F32 :=
  let k := neg (dot n p)
  let t := div (neg (add (dot n o) k)) (dot n d)
  ⟨add o.x (F32.mul d.x t), add o.y (F32.mul d.y t), add o.z (F32.mul d.z t)⟩

/-- The two coordinates that are kept, hit_point.cpp:25-46. -/
def keep (n : V3 F32) (v : V3 F32) : F32 × F32 :=
  let nx := F32.abs n.x
  let ny := F32.abs n.y
  let nz := F32.abs n.z
  if lt ny nx && lt nz nx then (v.y, v.z) else if lt nz ny then (v.x, v.z) else (v.x, v.y)

/-- The solution of a system of two equations, hit_point.cpp:56-63. -/
def solve (a b q : F32 × F32) (det : F32) : F32 × F32 :=
  let invdet := div one det
  (F32.mul (sub (F32.mul b.2 q.1) (F32.mul b.1 q.2)) invdet, F32.mul (sub (F32.mul a.1 q.2) (F32.mul a.2 q.1)) invdet)

/-- `calculate_differentials`, hit_point.cpp:6-66; `none`: the flag `differentials` is false. -/
def differentials (p n dpdu dpdv : V3 F32) (ox dx oy dy : V3 F32) : Option Diff :=
  let px := planePoint p n ox dx
  let py := planePoint p n oy dy
  let a := keep n dpdu
  let b := keep n dpdv
  let q := keep n p
  let bx := (sub (keep n px).1 q.1, sub (keep n px).2 q.2)
  let by' := (sub (keep n py).1 q.1, sub (keep n py).2 q.2)
  let det := sub (F32.mul a.1 b.2) (F32.mul b.1 a.2)
  if lt FPlace.epsilon (F32.abs det) then
    let x := solve a b bx det
    let y := solve a b by' det
    some ⟨x.1, x.2, y.1, y.2⟩
  else none

/-! ### Coordinates -/

/-- Wrapping of one coordinate, texture_image.cpp:64-68. -/
def wrap (u : F32) : Option F32 := if lt one u then (trunc32 (-2 ^ 31) (2 ^ 31) u).map fun n => sub u (ofInt n) else some u

/-- One coordinate of a lookup, texture_image.cpp:61-68. -/
def coord (uv scale shift : F32) : Option F32 := wrap (add (F32.mul uv scale) shift)

/-- The coordinate in texels, image_map.cpp:109-110, 209-210. -/
def texels (u : F32) (side : Nat) : F32 := sub (F32.mul u (ofInt side)) (num (1 / 2))

/-! ### Filters -/

/-- `ImageMapUnfiltered::filter`, image_map.cpp:106-112. -/
def unfiltered (p : List (Nat × (Nat → Pixel))) (u v : F32) : Option Pixel := do
  let l ← p[0]?
  let x ← trunc32 0 (2 ^ 16) (texels u l.1)
  let y ← trunc32 0 (2 ^ 16) (texels v l.1)
  texel p 0 x y

/-- A component as a float. -/
def comp (b : Byte) : F32 := ofInt b.toNat

/-- Conversion to `uint8_t`. -/
def toByte (v : F32) : Option Byte := (trunc32 0 256 v).map fun z => BitVec.ofNat 8 z.toNat

/-- The interpolated component, image_map.cpp:225-232. -/
def mix (du dv : F32) (t0 t1 t2 t3 : Byte) : F32 :=
  let iu := sub one du
  let iv := sub one dv
  add (F32.mul (add (F32.mul (comp t0) iu) (F32.mul (comp t1) du)) iv)
    (F32.mul (add (F32.mul (comp t2) iu) (F32.mul (comp t3) du)) dv)

/-- `ImageMap::bilinear`, image_map.cpp:207-235. -/
def bilinear (p : List (Nat × (Nat → Pixel))) (u v : F32) (level : Nat) : Option Pixel := do
  let l ← p[level]?
  let u := texels u l.1
  let v := texels v l.1
  let x ← trunc32 (-2 ^ 31) (2 ^ 31) u
  let y ← trunc32 (-2 ^ 31) (2 ^ 31) v
  let du := F32.abs (sub u (ofInt x))
  let dv := F32.abs (sub v (ofInt y))
  let nx : Int := if x + 1 ≤ (l.1 : Int) - 1 then x + 1 else 0
  let ny : Int := if y + 1 ≤ (l.1 : Int) - 1 then y + 1 else 0
  let t0 ← texel p level x y
  let t1 ← texel p level nx y
  let t2 ← texel p level x ny
  let t3 ← texel p level nx ny
  let r ← toByte (mix du dv (red t0) (red t1) (red t2) (red t3))
  let g ← toByte (mix du dv (green t0) (green t1) (green t2) (green t3))
  let b ← toByte (mix du dv (blue t0) (blue t1) (blue t2) (blue t3))
  let a ← toByte (mix du dv (alpha t0) (alpha t1) (alpha t2) (alpha t3))
  pure (pack r g b a)

/-- One component of the blend of two levels, image_map.cpp:136-148. -/
def blendB (d : F32) (a b : Byte) : Option Byte := do
  let x ← toByte (F32.mul (comp a) (sub one d))
  let y ← toByte (F32.mul (comp b) d)
  pure (x + y)

/-- The blend of two levels, image_map.cpp:136-148 and 190-202. -/
def blend (d : F32) (p q : Pixel) : Option Pixel := do
  let r ← blendB d (red p) (red q)
  let g ← blendB d (green p) (green q)
  let b ← blendB d (blue p) (blue q)
  let a ← blendB d (alpha p) (alpha q)
  pure (pack r g b a)

/-- `ImageMapTrilinear::filter` from line 125 on. -/
def trilinearAt (p : List (Nat × (Nat → Pixel))) (u v chosen : F32) : Option Pixel :=
  let last := ofInt ((p.length : ℤ) - 1)
  if Compare.le chosen zip then bilinear p u v 0
  else if lt last chosen then texel p (p.length - 1) 0 0
  else do
    let k ← trunc32 0 256 chosen
    let p0 ← bilinear p u v k.toNat
    let p1 ← bilinear p u v (k.toNat + 1)
    blend (sub chosen (ofInt k)) p0 p1

/-- The footprint of `ImageMapTrilinear::filter`, image_map.cpp:118-121. -/
def footprint (dudx dvdx dudy dvdy : F32) : F32 :=
  fmax (fmax (fmax (F32.abs dudx) (F32.abs dvdx)) (fmax (F32.abs dudy) (F32.abs dvdy))) FPlace.epsilon

/-- `ImageMapTrilinear::filter`, image_map.cpp:114-151. -/
def trilinear (log2 : F32 → F32) (p : List (Nat × (Nat → Pixel))) (u v dudx dvdx dudy dvdy : F32) : Option Pixel :=
  trilinearAt p u v (add (ofInt ((p.length : ℤ) - 1)) (log2 (footprint dudx dvdx dudy dvdy)))

/-! ### EWA -/

/-- `EWA_WEIGHTS[i]`. -/
def ewaWeight (i : Nat) : F32 := F32.round false ((ewaTable.getD i 0 : ℚ) / 10 ^ 11)

/-- Sums of the loop, image_map.cpp:269-273. -/
structure Acc where
  r : F32
  g : F32
  b : F32
  a : F32
  w : F32

/-- Body of the loops, image_map.cpp:276-298. -/
def ewaStep (p : List (Nat × (Nat → Pixel))) (level side : Nat) (u v a b c : F32) (acc : Option Acc) (xy : Int × Int) :
    Option Acc := do
  let acc ← acc
  let ny := ewaWrap side xy.2
  let nx := ewaWrap side xy.1
  let uo := sub (ofInt nx) u
  let vo := sub (ofInt ny) v
  let r2 := add (add (F32.mul (F32.mul a uo) uo) (F32.mul (F32.mul b vo) uo)) (F32.mul (F32.mul c vo) vo)
  if lt r2 one then do
    let t ← texel p level nx ny
    let k ← trunc32 (-2 ^ 31) (2 ^ 31) (F32.mul r2 (num 128))
    let i := min k 127
    if i < 0 then none
    else
      let w := ewaWeight i.toNat
      pure ⟨add acc.r (F32.mul (comp (red t)) w), add acc.g (F32.mul (comp (green t)) w), add acc.b (F32.mul (comp (blue t)) w),
        add acc.a (F32.mul (comp (alpha t)) w), add acc.w w⟩
  else pure acc

/-- `(int)ceilf(v)`. -/
def ceil32 : F32 → Option ℤ
  | nan => none
  | inf _ => none
  | v => if -2 ^ 31 ≤ ⌈v.val⌉ ∧ ⌈v.val⌉ < 2 ^ 31 then some ⌈v.val⌉ else none

/-- `(int)floorf(v)`. -/
def floor32 : F32 → Option ℤ
  | nan => none
  | inf _ => none
  | v => if -2 ^ 31 ≤ ⌊v.val⌋ ∧ ⌊v.val⌋ < 2 ^ 31 then some ⌊v.val⌋ else none

/-- The coefficients of the ellipse, image_map.cpp:244-256. -/
def ewaCoef (s dudx dvdx dudy dvdy : F32) : F32 × F32 × F32 :=
  let dudx := F32.mul dudx s
  let dvdx := F32.mul dvdx s
  let dudy := F32.mul dudy s
  let dvdy := F32.mul dvdy s
  let a := add (F32.mul (F32.mul (F32.mul dvdx dvdx) dvdy) dvdy) one
  let b := F32.mul (num (-2)) (add (F32.mul dudx dvdx) (F32.mul dudy dvdy))
  let c := add (add (F32.mul dudx dudx) (F32.mul dudy dudy)) one
  let f := div one (sub (F32.mul a c) (F32.mul (F32.mul b b) (num (1 / 4))))
  (F32.mul a f, F32.mul b f, F32.mul c f)

/-- The texels of the bounding box in the order of the loops, image_map.cpp:259-266, 274 and 279. -/
def ewaCells (u v a b c : F32) : Option (List (Int × Int)) := do
  let delta := add (F32.mul (neg b) b) (F32.mul (F32.mul (num 4) a) c)
  let invdelta := div one delta
  let x0 := F32.sqrt (F32.mul delta c)
  let y0 := F32.sqrt (F32.mul delta a)
  let u0 ← ceil32 (sub u (F32.mul (F32.mul two invdelta) x0))
  let u1 ← floor32 (add u (F32.mul (F32.mul two invdelta) x0))
  let v0 ← ceil32 (sub v (F32.mul (F32.mul two invdelta) y0))
  let v1 ← floor32 (add v (F32.mul (F32.mul two invdelta) y0))
  pure ((span v0 v1).flatMap fun y => (span u0 u1).map fun x => (x, y))

/-- The result from the sums, image_map.cpp:301-307. -/
def ewaOut (acc : Acc) : Option Pixel := do
  let i := div one acc.w
  let r ← toByte (F32.mul acc.r i)
  let g ← toByte (F32.mul acc.g i)
  let b ← toByte (F32.mul acc.b i)
  let a ← toByte (F32.mul acc.a i)
  pure (pack r g b a)

/-- `ImageMapEWA::ewa`, image_map.cpp:237-308. -/
def ewa (p : List (Nat × (Nat → Pixel))) (u v dudx dvdx dudy dvdy : F32) (level : Nat) : Option Pixel := do
  let l ← p[level]?
  let u := texels u l.1
  let v := texels v l.1
  let k := ewaCoef (ofInt l.1) dudx dvdx dudy dvdy
  let cells ← ewaCells u v k.1 k.2.1 k.2.2
  let acc ← cells.foldl (ewaStep p level l.1 u v k.1 k.2.1 k.2.2) (some ⟨zip, zip, zip, zip, zip⟩)
  ewaOut acc

/-- The two levels and their blend, `ImageMapEWA::filter`, image_map.cpp:181-204. -/
def ewaAt (p : List (Nat × (Nat → Pixel))) (u v dudx dvdx dudy dvdy chosen : F32) : Option Pixel :=
  if lt (ofInt ((p.length : ℤ) - 1)) chosen then texel p (p.length - 1) 0 0
  else do
    let k ← trunc32 0 256 chosen
    let p0 ← ewa p u v dudx dvdx dudy dvdy k.toNat
    let p1 ← ewa p u v dudx dvdx dudy dvdy (k.toNat + 1)
    blend (sub chosen (ofInt k)) p0 p1

/-- Lines 165-180 of image_map.cpp, after the axes are in order. -/
def ewaSorted (log2 : F32 → F32) (p : List (Nat × (Nat → Pixel))) (u v dudx dvdx dudy dvdy long short : F32) : Option Pixel :=
  let last := ofInt ((p.length : ℤ) - 1)
  if F32.eq short zip then bilinear p u v 0
  else if lt (F32.mul short (num 30)) long then
    let scale := div long (F32.mul short (num 30))
    ewaAt p u v dudx dvdx (F32.mul dudy scale) (F32.mul dvdy scale) (fmax zip (add last (log2 (F32.mul short scale))))
  else ewaAt p u v dudx dvdx dudy dvdy (fmax zip (add last (log2 short)))

/-- `ImageMapEWA::filter`, image_map.cpp:153-205. -/
def ewaFilter (log2 : F32 → F32) (p : List (Nat × (Nat → Pixel))) (u v dudx dvdx dudy dvdy : F32) : Option Pixel :=
  let long := F32.sqrt (add (F32.mul dudx dudx) (F32.mul dvdx dvdx))
  let short := F32.sqrt (add (F32.mul dudy dudy) (F32.mul dvdy dvdy))
  if lt long short then ewaSorted log2 p u v dudy dvdy dudx dvdx short long
  else ewaSorted log2 p u v dudx dvdx dudy dvdy long short

end Spectre.FTex
