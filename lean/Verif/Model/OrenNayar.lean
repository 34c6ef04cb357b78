import Verif.Model.Specular

/-
Model of the rough diffuse reflection (src/materials/oren_nayar.cpp), over the reals and without rounding.
A spectrum is represented by one channel (all 16 are equal).  A division by zero, which gives an infinity in
the code, is `none`.
-/

namespace Spectre.OrenNayar

open Spectre.Geom Spectre.Specular

/-- `OrenNayar::A`, oren_nayar.cpp:19-20. -/
noncomputable def coeffA (sigma : ℝ) : ℝ :=
  let sigma2 := sigma * sigma
  1 - sigma2 / (2 * (sigma2 + 33 / 100))

/-- `OrenNayar::B`, oren_nayar.cpp:19, 21. -/
noncomputable def coeffB (sigma : ℝ) : ℝ :=
  let sigma2 := sigma * sigma
  45 / 100 * sigma2 / (sigma2 + 9 / 100)

/-- `clamp`, utility.hpp:172-180, to [-1,1]. -/
noncomputable def clamp1 (v : ℝ) : ℝ := if v < -1 then -1 else if 1 < v then 1 else v

/-- `sqrtf(max(0.f, 1.f-c*c))`, oren_nayar.cpp:30-31. -/
noncomputable def sine (c : ℝ) : ℝ := Real.sqrt (max 0 (1 - c * c))

/-- `maxcos`, oren_nayar.cpp:37-42. -/
noncomputable def maxcos (wo wi : V3 ℝ) : ℝ :=
  let cosphiin := clamp1 (wi.x / sine wi.z)
  let cosphiout := clamp1 (wo.x / sine wo.z)
  let sinphiin := max 0 (Real.sqrt (1 - cosphiin * cosphiin))
  let sinphiout := max 0 (Real.sqrt (1 - cosphiout * cosphiout))
  max 0 (cosphiin * cosphiout + sinphiin * sinphiout)

/-- `OrenNayar::value`, oren_nayar.cpp:24-61. -/
noncomputable def value (sigma : ℝ) (wo wi : V3 ℝ) : Option ℝ :=
  let diffuse := 1 / Real.pi
  if 0 < sine wi.z ∧ 0 < sine wo.z then
    let m := maxcos wo wi
    if |wo.z| < |wi.z| then
      (sdiv (sine wi.z) |wi.z|).map fun tanbeta => diffuse * (coeffA sigma + coeffB sigma * m * sine wo.z * tanbeta)
    else
      (sdiv (sine wo.z) |wo.z|).map fun tanbeta => diffuse * (coeffA sigma + coeffB sigma * m * sine wi.z * tanbeta)
  else some (diffuse * coeffA sigma)

end Spectre.OrenNayar
