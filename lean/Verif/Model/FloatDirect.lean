import Verif.Model.Direct

/-
Model in binary32 of the second half of the direct light: the sample of the material (src/integrators/ray_tracer.cpp).
`Model/Direct.lean` has the sample of the light.
-/

namespace Spectre.Direct

open F32

/-- What the material sample adds to the radiance, ray_tracer.cpp:51-74 (one channel; `bsdf` is the value of the material,
`bsdfpdf` its density, `lightpdf` is `light->pdf(point_s, &wi)`, `cos` is `absdot(wi, *normal_s)`, `rad` the light, `seen`
says whether the front of the light is the first thing hit in that direction). -/
def materialTerm (bsdf bsdfpdf lightpdf cos rad : F32) (seen : Bool) : F32 :=
  if lt (zero false) bsdfpdf && !bsdf.isZero then
    if F32.eq lightpdf (zero false) then zero false
    else if seen then div (mul (mul (mul bsdf rad) cos) (weight bsdfpdf lightpdf)) bsdfpdf
    else zero false
  else zero false

end Spectre.Direct
