import Verif.Model.FloatTexture

/-
Model in binary32 of the choice of a light (src/integrators/ray_tracer.cpp) and of a part of a material
(src/materials/multi_bsdf.cpp) by a random number.  `none` is undefined behaviour: a conversion out of the range of `int`.
-/

namespace Spectre.FChoice

open F32

/-- `(int)(r*n)` with the `int` `n`, which is converted to `float` first. -/
def slot (r : F32) (n : ℤ) : Option ℤ := FTex.trunc32 (-2 ^ 31) (2 ^ 31) (mul r (FTex.ofInt n))

/-- `min((int)(rand[0]*nlights), nlights-1)`, ray_tracer.cpp:23. -/
def light (r : F32) (n : ℤ) : Option ℤ := (slot r n).map fun i => if i < n - 1 then i else n - 1

/-- `chosen`, multi_bsdf.cpp:83-85. -/
def part (r : F32) (n : ℤ) : Option ℤ := (slot r n).map fun i => if i = n then i - 1 else i

end Spectre.FChoice
