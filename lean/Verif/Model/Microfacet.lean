import Verif.Model.Specular
import Mathlib.Analysis.SpecialFunctions.Pow.Real
import Mathlib.Analysis.SpecialFunctions.Log.Basic
import Mathlib.Analysis.SpecialFunctions.Trigonometric.Arctan

/-
Model of the microfacet distributions (src/materials/microfacet_distributions.cpp) and of the rough
reflection and refraction (src/materials/microfacet.cpp), over the reals and without rounding.

Simplifications: `normalize` is exact (the code leaves a vector whose squared length differs by less than
1E-5 from 1 as it is); the decimal constants of the fits are exact; a division by zero is Lean's (0), unless
the definition says otherwise.
-/

namespace Spectre.Microfacet

open Spectre.Geom Spectre.Specular

/-- `clamp`, utility.hpp:172-180. -/
noncomputable def clamp (v lo hi : ℝ) : ℝ := if v < lo then lo else if hi < v then hi else v

/-- `-v` for vectors, vec3.cpp. -/
noncomputable def neg (v : V3 ℝ) : V3 ℝ := ⟨-v.x, -v.y, -v.z⟩

/-- `v+w`, vec3.cpp:326-329. -/
noncomputable def add (v w : V3 ℝ) : V3 ℝ := ⟨v.x + w.x, v.y + w.y, v.z + w.z⟩

/-- `v*c`, vec3.cpp. -/
noncomputable def scale (v : V3 ℝ) (c : ℝ) : V3 ℝ := ⟨v.x * c, v.y * c, v.z * c⟩

/-- `Vec3::normalize`, vec3.cpp:135-156, exact. -/
noncomputable def normalize (v : V3 ℝ) : V3 ℝ := scale v (1 / Real.sqrt (dot v v))

/-- `MicrofacetDist::pdf`, microfacet_distributions.cpp:6-9. -/
noncomputable def basePdf (D : V3 ℝ → ℝ) (wh : V3 ℝ) : ℝ := D wh * |wh.z|

/-- The end of every `sample_wh`: the vector of the given inclination and azimuth, moved to the side of
`wo`, microfacet_distributions.cpp:52-55, 114-117, 157-160, 230-232. -/
noncomputable def whOf (wo : V3 ℝ) (cost sint phi : ℝ) : V3 ℝ :=
  let wh : V3 ℝ := ⟨sint * Real.cos phi, sint * Real.sin phi, cost⟩
  if wo.z * wh.z < 0 then neg wh else wh

/-! ### Blinn -/

/-- `Blinn::Blinn`, microfacet_distributions.cpp:11-14. -/
noncomputable def blinnExponent (e : ℝ) : ℝ := clamp e 0 100000

/-- `Blinn::D`, microfacet_distributions.cpp:16-21. -/
noncomputable def blinnD (e : ℝ) (h : V3 ℝ) : ℝ := (e + 2) * (1 / (2 * Real.pi)) * |h.z| ^ e

/-- The rational fit in `Blinn::G1` and `Beckmann::G1`, microfacet_distributions.cpp:42-45, 99-102. -/
noncomputable def fit (c : ℝ) : ℝ :=
  if 16 / 10 ≤ c then 1
  else (3535 / 1000 * c + 2181 / 1000 * c * c) / (1 + 2276 / 1000 * c + 2577 / 1000 * c * c)

/-- `Blinn::G1`, microfacet_distributions.cpp:28-46. -/
noncomputable def blinnG1 (e : ℝ) (v : V3 ℝ) : ℝ :=
  let cos := |v.z|
  if cos = 0 then 0 else if 1 ≤ cos then 1
  else
    let sin := Real.sqrt (1 - cos * cos)
    fit (Real.sqrt (1 / 2 * e + 1) / (sin / cos))

/-- Cosine in `Blinn::sample_wh`, microfacet_distributions.cpp:50. -/
noncomputable def blinnCos (e r0 : ℝ) : ℝ := r0 ^ (1 / (e + 1))

/-- `Blinn::pdf`, microfacet_distributions.cpp:58-68. -/
noncomputable def blinnPdf (e : ℝ) (wo wh : V3 ℝ) : ℝ :=
  if 0 < dot wo wh then (e + 2) * |wh.z| ^ e / (2 * Real.pi) else 0

/-! ### Beckmann -/

/-- `Beckmann::D`, microfacet_distributions.cpp:75-84. -/
noncomputable def beckmannD (a : ℝ) (h : V3 ℝ) : ℝ :=
  let cost2 := h.z * h.z
  let sint2 := 1 - cost2
  if cost2 = 0 then 0
  else
    let a2 := a * a
    let exp := Real.exp (-(sint2 / cost2) / a2)
    exp / (Real.pi * cost2 * cost2 * a2) * exp

/-- `Beckmann::G1`, microfacet_distributions.cpp:91-103. -/
noncomputable def beckmannG1 (a : ℝ) (v : V3 ℝ) : ℝ :=
  let cos := |v.z|
  if cos = 0 then 0 else if 1 ≤ cos then 1
  else fit (cos / (Real.sqrt (max 0 (1 - cos * cos)) * a))

/-- Cosine in `Beckmann::sample_wh`, microfacet_distributions.cpp:110-112. -/
noncomputable def beckmannCos (a r0 : ℝ) : ℝ :=
  let l := Real.log (1 - r0)
  1 / Real.sqrt (1 - a * a * l)

/-! ### GGX, isotropic -/

/-- `GGXiso::GGXiso`, microfacet_distributions.cpp:120-124. -/
noncomputable def ggxA2 (roughness : ℝ) : ℝ := clamp roughness 0 1 * clamp roughness 0 1

/-- `GGXiso::D`, microfacet_distributions.cpp:126-135. -/
noncomputable def ggxD (a2 : ℝ) (h : V3 ℝ) : ℝ :=
  if h.z = 0 then 0
  else
    let cos2t := h.z * h.z
    let sin2t := max 0 (1 - cos2t)
    let s := a2 + sin2t / cos2t
    a2 / (s * s * cos2t * cos2t * Real.pi)

/-- `GGXiso::G1`, microfacet_distributions.cpp:142-150. -/
noncomputable def ggxG1 (a2 : ℝ) (v : V3 ℝ) : ℝ :=
  let cos2 := v.z * v.z
  if cos2 = 0 then 0
  else
    let sin2 := max 0 (1 - cos2 * cos2)
    2 / (1 + Real.sqrt (1 + a2 * sin2 / cos2))

/-- Cosine in `GGXiso::sample_wh`, microfacet_distributions.cpp:154-155. -/
noncomputable def ggxCos (a2 r0 : ℝ) : ℝ := Real.sqrt (max 0 ((1 - r0) / (r0 * (a2 - 1) + 1)))

/-! ### GGX, anisotropic -/

/-- `GGXaniso::D`, microfacet_distributions.cpp:171-192. -/
noncomputable def anisoD (ax ay : ℝ) (h : V3 ℝ) : ℝ :=
  if h.z = 0 then 0
  else
    let invCos2 := 1 / (h.z * h.z)
    let sin2 := max 0 (1 - h.z * h.z)
    if sin2 = 0 then 1
    else
      let invSin2 := 1 / sin2
      let tan2 := sin2 * invCos2
      let invAx := 1 / ax
      let invAy := 1 / ay
      let cosphi2 := h.x * h.x * invSin2
      let sinphi2 := h.y * h.y * invSin2
      let sq := 1 + (cosphi2 * invAx * invAx + sinphi2 * invAy * invAy) * tan2
      let sq := sq * sq
      1 / Real.pi * invAx * invAy * invCos2 * invCos2 * (1 / sq)

/-- `lambdaGGXaniso`, microfacet_distributions.cpp:194-208; an infinite `tan` is a cosine 0. -/
noncomputable def lambda (v : V3 ℝ) (ax ay : ℝ) : ℝ :=
  let cos := v.z
  let sin := Real.sqrt (max 0 (1 - cos * cos))
  let sin2 := sin * sin
  let tan := |sin / cos|
  if cos = 0 then 0
  else if tan = 0 then 1
  else
    let cos2phi := v.x * v.x / sin2
    let sin2phi := v.y * v.y / sin2
    let alpha := Real.sqrt (cos2phi * ax * ax + sin2phi * ay * ay)
    (-1 + Real.sqrt (1 + tan * tan * alpha * alpha)) * (1 / 2)

/-- `GGXaniso::G`, microfacet_distributions.cpp:210-214. -/
noncomputable def anisoG (ax ay : ℝ) (wo wi : V3 ℝ) : ℝ := 1 / (1 + lambda wo ax ay + lambda wi ax ay)

/-! ### Sampled half vectors -/

/-- `Blinn::sample_wh`, microfacet_distributions.cpp:48-56. -/
noncomputable def blinnSample (e : ℝ) (wo : V3 ℝ) (r0 r1 : ℝ) : V3 ℝ :=
  whOf wo (blinnCos e r0) (Real.sqrt (max 0 (1 - blinnCos e r0 * blinnCos e r0))) (r1 * (2 * Real.pi))

/-- `Beckmann::sample_wh`, microfacet_distributions.cpp:105-118. -/
noncomputable def beckmannSample (a : ℝ) (wo : V3 ℝ) (r0 r1 : ℝ) : V3 ℝ :=
  whOf wo (beckmannCos a r0) (Real.sqrt (1 - beckmannCos a r0 * beckmannCos a r0)) (2 * Real.pi * r1)

/-- `GGXiso::sample_wh`, microfacet_distributions.cpp:152-161. -/
noncomputable def ggxSample (a2 : ℝ) (wo : V3 ℝ) (r0 r1 : ℝ) : V3 ℝ :=
  whOf wo (ggxCos a2 r0) (Real.sqrt (max 0 (1 - (1 - r0) / (r0 * (a2 - 1) + 1)))) (2 * Real.pi * r1)

/-- Azimuth in `GGXaniso::sample_wh`, microfacet_distributions.cpp:219-221. -/
noncomputable def anisoPhi (ax ay r1 : ℝ) : ℝ :=
  let phi := Real.arctan (ay / ax * Real.tan (2 * Real.pi * r1 + 1 / 2 * Real.pi))
  if 1 / 2 < r1 then phi + Real.pi else phi

/-- Cosine in `GGXaniso::sample_wh`, microfacet_distributions.cpp:222-228. -/
noncomputable def anisoCos (ax ay phi r0 : ℝ) : ℝ :=
  let ax2 := ax * ax
  let ay2 := ay * ay
  let a2 := 1 / (Real.cos phi * Real.cos phi / ax2 + Real.sin phi * Real.sin phi / ay2)
  let tantheta2 := a2 * r0 / (1 - r0)
  1 / Real.sqrt (1 + tantheta2)

/-- `GGXaniso::sample_wh`, microfacet_distributions.cpp:216-233. -/
noncomputable def anisoSample (ax ay : ℝ) (wo : V3 ℝ) (r0 r1 : ℝ) : V3 ℝ :=
  let phi := anisoPhi ax ay r1
  let cost := anisoCos ax ay phi r0
  whOf wo cost (Real.sqrt (max 0 (1 - cost * cost))) phi

/-! ### MicrofacetR -/

/-- `MicrofacetDist`, microfacet_distributions.hpp: `D`, `G` and `pdf` (which gets `wo` and `wh`). -/
structure Dist where
  D : V3 ℝ → ℝ
  G : V3 ℝ → V3 ℝ → ℝ
  pdf : V3 ℝ → V3 ℝ → ℝ

/-- The isotropic GGX distribution, `GGXiso`. -/
noncomputable def ggx (a2 : ℝ) : Dist :=
  ⟨ggxD a2, fun wo wi => ggxG1 a2 wo * ggxG1 a2 wi, fun _ wh => basePdf (ggxD a2) wh⟩

/-- The Blinn distribution, `Blinn`. -/
noncomputable def blinn (e : ℝ) : Dist :=
  ⟨blinnD e, fun wo wi => blinnG1 e wo * blinnG1 e wi, blinnPdf e⟩

/-- `MicrofacetR::value`, microfacet.cpp:20-34; `F` is `fresnel->eval`. -/
noncomputable def valueR (d : Dist) (F : ℝ → ℝ) (wo wi : V3 ℝ) : ℝ :=
  if wo.z * wi.z < 0 then 0
  else
    let wh := add wo wi
    if |wo.z| = 0 ∨ |wi.z| = 0 ∨ (wh.x = 0 ∧ wh.y = 0 ∧ wh.z = 0) then 0
    else
      let wh := normalize wh
      F (dot wi wh) * d.D wh * d.G wo wi / (4 * |wo.z| * |wi.z|)

/-- Direction and pdf in `MicrofacetR::sample_value`, microfacet.cpp:36-53, for the (unit) vector `wh`
given by `sample_wh`; the pdf is `none` for a division by zero. -/
noncomputable def sampleR (d : Dist) (wo wh : V3 ℝ) : V3 ℝ × Option ℝ :=
  let wi := normalize (neg (reflect wo wh))
  if wo.z * wi.z < 0 then (wi, some 0) else (wi, sdiv (d.pdf wo wh) (4 * dot wo wh))

/-- `MicrofacetR::pdf`, microfacet.cpp:55-66. -/
noncomputable def pdfR (d : Dist) (wo wi : V3 ℝ) : Option ℝ :=
  if wo.z * wi.z < 0 then some 0
  else
    let wh := normalize (add wo wi)
    sdiv (d.pdf wo wh) (4 * dot wo wh)

/-! ### MicrofacetT -/

/-- The indices, microfacet.cpp:90-101, 135-146, 166-177. -/
noncomputable def etas (etaI etaT z : ℝ) : ℝ × ℝ := if 0 < z then (etaI, etaT) else (etaT, etaI)

/-- The Jacobian of microfacet.cpp:153-156 and 182-185; `none` is a division by zero. -/
noncomputable def jacobian (etao etai : ℝ) (wo wi wh : V3 ℝ) : Option ℝ :=
  let den := etai * dot wi wh + etao * dot wo wh
  sdiv (etao * etao * |dot wo wh|) (den * den)

/-- Outcome of `MicrofacetT::sample_value`: direction and pdf, or black with pdf 0. -/
inductive SampledT where
  | black
  | undefined
  | ray (wi : V3 ℝ) (pdf : ℝ)

/-- Direction and pdf in `MicrofacetT::sample_value`, microfacet.cpp:123-160, for the (unit) vector `wh`
given by `sample_wh`. -/
noncomputable def sampleT (d : Dist) (etaI etaT : ℝ) (wo wh : V3 ℝ) : SampledT :=
  if wo.z = 0 then .black
  else
    let e := etas etaI etaT wo.z
    match refract wo wh (e.1 / e.2) with
    | none => .black
    | some wi =>
      match jacobian e.1 e.2 wo wi wh with
      | none => .undefined
      | some j => .ray (normalize wi) (d.pdf wo wh * j)

/-- `MicrofacetT::pdf`, microfacet.cpp:162-187. -/
noncomputable def pdfT (d : Dist) (etaI etaT : ℝ) (wo wi : V3 ℝ) : Option ℝ :=
  if 0 < wo.z * wi.z then some 0
  else
    let e := etas etaI etaT wo.z
    let wh := add (scale (neg wo) e.1) (neg (scale wi e.2))
    if wh.x = 0 ∧ wh.y = 0 ∧ wh.z = 0 then some 0
    else
      let wh := normalize wh
      (jacobian e.1 e.2 wo wi wh).map (d.pdf wo wh * ·)

/-- `MicrofacetT::value`, microfacet.cpp:82-121; `F` is `fresnel_diel.eval`.  The test `flt_equal(up,0)` is
taken as `up = 0`, where the result is 0 in any case. -/
noncomputable def valueT (d : Dist) (F : ℝ → ℝ) (etaI etaT : ℝ) (wo wi : V3 ℝ) : ℝ :=
  if 0 < wo.z * wi.z then 0
  else if wo.z = 0 ∨ wi.z = 0 then 0
  else
    let e := etas etaI etaT wo.z
    let wh := add (scale (neg wo) e.1) (neg (scale wi e.2))
    if wh.x = 0 ∧ wh.y = 0 ∧ wh.z = 0 then 0
    else
      let wh := normalize wh
      let wh := if wh.z < 0 then neg wh else wh
      let up := e.1 * e.1 * d.D wh * d.G wo wi * dot wo wh * dot wi wh
      let den := e.1 * dot wo wh + e.2 * dot wi wh
      (1 - F (dot wi wh)) * |up / (den * den * (wo.z * wi.z))|

end Spectre.Microfacet
