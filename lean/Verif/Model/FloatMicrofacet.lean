import Verif.Model.FloatMaterial

/-
Model in binary32 of the microfacet distributions GGX and Beckmann (src/materials/microfacet_distributions.cpp) and of
the diffuse sampling (src/materials/bdf.cpp).  `Model/Microfacet.lean` has the same code over the reals.  The functions
`cosf`, `sinf` and `log` are parameters.
-/

namespace Spectre.FMicro

open Spectre.Geom Spectre.FMat F32

/-- `clamp`, utility.hpp:172-180. -/
def clamp (v lo hi : F32) : F32 := if lt v lo then lo else if lt hi v then hi else v

/-- `ONE_PI`, validator.h:33. -/
def onePi : F32 := F32.round false 3.14159265358979323846264338327950288419716939937510582097494459

/-- `INV_PI`, validator.h:35. -/
def invPi : F32 := F32.round false 0.318309886183790671537767526745028724068919291480912897495

/-- `GGXiso::a2`, microfacet_distributions.cpp:120-124. -/
def ggxA2 (roughness : F32) : F32 :=
  let r := clamp roughness zip one
  F32.mul r r

/-- `GGXiso::D`, microfacet_distributions.cpp:126-135, for the third component of the half vector. -/
def ggxD (a2 z : F32) : F32 :=
  if F32.eq z zip then zip
  else
    let cos2t := F32.mul z z
    let sin2t := fmax zip (sub one cos2t)
    let t := add a2 (div sin2t cos2t)
    let t := F32.mul t t
    div a2 (F32.mul (F32.mul (F32.mul t cos2t) cos2t) onePi)

/-- `GGXiso::G1`, microfacet_distributions.cpp:142-150. -/
def ggxG1 (a2 z : F32) : F32 :=
  let cos2 := F32.mul z z
  if F32.eq cos2 zip then zip
  else
    let sin2 := fmax zip (sub one (F32.mul cos2 cos2))
    div two (add one (F32.sqrt (add one (div (F32.mul a2 sin2) cos2))))

/-- `GGXiso::G`, microfacet_distributions.cpp:137-140. -/
def ggxG (a2 zo zi : F32) : F32 := F32.mul (ggxG1 a2 zo) (ggxG1 a2 zi)

/-- `cos2t` of `GGXiso::sample_wh`, microfacet_distributions.cpp:154. -/
def ggxCos2 (a2 r0 : F32) : F32 := div (sub one r0) (add (F32.mul r0 (sub a2 one)) one)

/-- `cost` and `sint` of `GGXiso::sample_wh`, microfacet_distributions.cpp:155-156. -/
def ggxAngle (a2 r0 : F32) : F32 × F32 :=
  (F32.sqrt (fmax zip (ggxCos2 a2 r0)), F32.sqrt (fmax zip (sub one (ggxCos2 a2 r0))))

/-- The half vector, microfacet_distributions.cpp:157-160 (and 114-117 for Beckmann): `cp` and `sp` are the cosine and
sine of `TWO_PI*r1`. -/
def halfVec (cost sint cp sp woz : F32) : V3 F32 :=
  let wh : V3 F32 := ⟨F32.mul sint cp, F32.mul sint sp, cost⟩
  if lt (F32.mul woz wh.z) zip then ⟨neg wh.x, neg wh.y, neg wh.z⟩ else wh

/-- `GGXiso::sample_wh`, microfacet_distributions.cpp:152-161. -/
def ggxSample (a2 r0 cp sp woz : F32) : V3 F32 := halfVec (ggxAngle a2 r0).1 (ggxAngle a2 r0).2 cp sp woz

/-- `cost` and `sint` of `Beckmann::sample_wh`, microfacet_distributions.cpp:110-113.  `log` is the function of `double`
of which the result is rounded to a float. -/
def beckmannAngle (log : F32 → F32) (a r0 : F32) : F32 × F32 :=
  let l := log (sub one r0)
  let s := sub one (F32.mul (F32.mul a a) l)
  let cost := div one (F32.sqrt s)
  (cost, F32.sqrt (sub one (F32.mul cost cost)))

/-- `Bdf::sample_value`, bdf.cpp:17-30: the direction and the density; `ct` and `st` are the cosine and sine of
`TWO_PI*r0`. -/
def diffuse (ct st r1 woz : F32) : V3 F32 × F32 :=
  let r := F32.sqrt r1
  let x := F32.mul r ct
  let y := F32.mul r st
  let z := F32.sqrt (fmax zip (sub (sub one (F32.mul x x)) (F32.mul y y)))
  let z := if lt woz zip then F32.mul z (num (-1)) else z
  (⟨x, y, z⟩, F32.mul (F32.abs z) invPi)

end Spectre.FMicro
