import Verif.Model.Geom
import Mathlib.Analysis.SpecialFunctions.Sqrt
import Mathlib.Analysis.SpecialFunctions.Trigonometric.Basic

/-
Model of the Fresnel conditions (src/materials/fresnel_conditions.cpp), of the specular reflections
(reflection.cpp), of the specular refraction (refraction.cpp), of the cosine sampling of a `Bdf`
(bdf.cpp) and of `reflect`/`refract` (src/geometry/vec3.hpp), over the reals and without rounding.

A spectrum is represented by one channel: the operations are channel by channel.  A division by zero,
which gives an infinity or a NaN in the code, is `none`.
-/

namespace Spectre.Specular

open Spectre.Geom

/-- Division; `none` is a division by zero. -/
noncomputable def sdiv (a b : ℝ) : Option ℝ := if b = 0 then none else some (a / b)

/-- `Conductor::eval`, fresnel_conditions.cpp:12-29; `n` is `refraction_index`, `k` is `absorption`. -/
noncomputable def conductor (n k cosin : ℝ) : Option ℝ := do
  let tmp := n * n + k * k
  let cosinsq := cosin * cosin
  let etacosin2 := n * (cosin * 2)
  let rperpsq ← sdiv (tmp - etacosin2 + cosinsq) (tmp + etacosin2 + cosinsq)
  let tmp := tmp * cosinsq
  let rparsq ← sdiv (tmp - etacosin2 + 1) (tmp + etacosin2 + 1)
  some ((rperpsq + rparsq) / 2)

/-- The reflected part once the angle of the transmitted ray is known, fresnel_conditions.cpp:72-79,
reflection.cpp:95-102, refraction.cpp:77-82. -/
noncomputable def fresnelPart (ei et cosi cost : ℝ) : Option ℝ := do
  let rperp ← sdiv (ei * cosi - et * cost) (ei * cosi + et * cost)
  let rpar ← sdiv (et * cosi - ei * cost) (et * cosi + ei * cost)
  some ((rpar * rpar + rperp * rperp) / 2)

/-- `Dielectric::eval`, fresnel_conditions.cpp:49-82. -/
noncomputable def dielectric (etaI etaT cosin : ℝ) : Option ℝ := do
  let ei := if cosin < 0 then etaT else etaI
  let et := if cosin < 0 then etaI else etaT
  let c := if cosin < 0 then -cosin else cosin
  let q ← sdiv ei et
  let sint := q * Real.sqrt (max 0 (1 - c * c))
  if 1 ≤ sint then some 1
  else fresnelPart ei et c (Real.sqrt (max 0 (1 - sint * sint)))

/-- A sampled direction with its value and pdf. -/
structure Sample where
  value : ℝ
  wi : V3 ℝ
  pdf : ℝ

/-- `ConductorReflection::sample_value`, reflection.cpp:46-65 with the constructor at 21-25. -/
noncomputable def conductorReflection (n k : ℝ) (wo : V3 ℝ) : Option Sample := do
  let f := n * n + k * k
  let wi : V3 ℝ := ⟨-wo.x, -wo.y, wo.z⟩
  let cosinsq := wo.z * wo.z
  let etacosin2 := n * (wo.z * 2)
  let rperpsq ← sdiv (f - etacosin2 + cosinsq) (f + etacosin2 + cosinsq)
  let tmp := f * cosinsq
  let rparsq ← sdiv (tmp - etacosin2 + 1) (tmp + etacosin2 + 1)
  let v ← sdiv ((rperpsq + rparsq) / 2) |wo.z|
  some ⟨v, wi, 1⟩

/-- `DielectricReflection::sample_value`, reflection.cpp:67-106. -/
noncomputable def dielectricReflection (etaI etaT : ℝ) (wo : V3 ℝ) : Option Sample := do
  let wi : V3 ℝ := ⟨-wo.x, -wo.y, wo.z⟩
  let ei := if wo.z ≤ 0 then etaT else etaI
  let et := if wo.z ≤ 0 then etaI else etaT
  let c := if wo.z ≤ 0 then |wo.z| else wo.z
  let q ← sdiv ei et
  let sint := q * Real.sqrt (max 0 (1 - c * c))
  if 1 < sint then some ⟨1, wi, 1⟩
  else
    let r ← fresnelPart ei et c (Real.sqrt (max 0 (1 - sint * sint)))
    let v ← sdiv r |wo.z|
    some ⟨v, wi, 1⟩

/-- Outcomes of `Refraction::sample_value`. -/
inductive Refracted where
  /-- black with pdf 0; the direction is not written -/
  | total
  | ray (s : Sample)

/-- `Refraction::sample_value`, refraction.cpp:30-89 (`sqrtf` of line 66 is applied to a positive number). -/
noncomputable def refraction (etaI etaT : ℝ) (wo : V3 ℝ) : Option Refracted := do
  let ei := if 0 < wo.z then etaI else etaT
  let et := if 0 < wo.z then etaT else etaI
  let c := if 0 < wo.z then wo.z else |wo.z|
  let sini2 := 1 - wo.z * wo.z
  let eta ← sdiv ei et
  let sint2 := eta * eta * sini2
  if 1 ≤ sint2 then some .total
  else
    let cost := Real.sqrt (1 - sint2)
    let wi : V3 ℝ := ⟨eta * -wo.x, eta * -wo.y, if 0 < wo.z then -cost else cost⟩
    let r ← fresnelPart ei et c cost
    let s ← sdiv (ei * ei) (et * et)
    let v ← sdiv ((1 - r) * s) |wi.z|
    some (.ray ⟨v, wi, 1⟩)

/-- Direction and pdf of `Bdf::sample_value`, bdf.cpp:17-30. -/
noncomputable def cosineSample (wo : V3 ℝ) (r0 r1 : ℝ) : V3 ℝ × ℝ :=
  let t := 2 * Real.pi * r0
  let r := Real.sqrt r1
  let x := r * Real.cos t
  let y := r * Real.sin t
  let z := Real.sqrt (max 0 (1 - x * x - y * y))
  let z := if wo.z < 0 then z * -1 else z
  (⟨x, y, z⟩, |z| * (1 / Real.pi))

/-- `Bdf::pdf`, bdf.cpp:32-36. -/
noncomputable def cosinePdf (wo wi : V3 ℝ) : ℝ := if 0 < wo.z * wi.z then |wi.z| * (1 / Real.pi) else 0

/-- `reflect`, vec3.hpp:1156-1166 and `Vec3::reflect`, vec3.cpp:256-266. -/
noncomputable def reflect (s c : V3 ℝ) : V3 ℝ :=
  let d := dot s c
  ⟨s.x - 2 * d * c.x, s.y - 2 * d * c.y, s.z - 2 * d * c.z⟩

/-- `refract`, vec3.hpp:1210-1230 and `Vec3::refract`, vec3.cpp:280-300; `none` is the total internal
reflection (zero vector, or `false` with the vector unchanged). -/
noncomputable def refract (s n : V3 ℝ) (eta : ℝ) : Option (V3 ℝ) :=
  let cosi := dot s n
  let sin2i := max 0 (1 - cosi * cosi)
  let sin2t := sin2i * eta * eta
  if 1 < sin2t then none
  else
    let cost := Real.sqrt (1 - sin2t)
    let k := cosi * eta - cost
    some ⟨-s.x * eta + n.x * k, -s.y * eta + n.y * k, -s.z * eta + n.z * k⟩

end Spectre.Specular
