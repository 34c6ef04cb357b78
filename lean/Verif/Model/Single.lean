import Verif.Model.Bsdf
import Verif.Model.Frame
import Verif.Model.Specular

/-
Model of a material with one diffuse layer at a hit point (src/materials/single_brdf.cpp with lambertian.cpp
and shading_space.cpp), over the reals: the abstract material of `Model/Bsdf.lean` with the shading space of
`Model/Frame.lean`; and of the material that is one of two materials (dual.cpp).
-/

namespace Spectre.Single

open Spectre.Geom Spectre.Bsdf

/-- `Vec3::normalize`, vec3.cpp:135-156; simplified: the zero vector (NaNs in the code) is kept. -/
noncomputable def normalize (v : V3 ℝ) : V3 ℝ := (Frame.unit v).getD ⟨0, 0, 0⟩

/-- What the materials use of a hit point: the matrix of `gen_shading_matrix` (bsdf.hpp:130-135), with
`to_shading` and `to_world` (shading_space.cpp:12-22), and `h->normal_h` (hit_point.hpp:33), which is not the
normal of the matrix if there is a bump map. -/
noncomputable def hitFrame (m : Frame.Space) (normal : V3 ℝ) : Bsdf.Frame ℝ (V3 ℝ) (V3 ℝ) where
  toShading w := (Frame.toShading m w).getD ⟨0, 0, 0⟩
  toWorld v := (Frame.toWorld m v).getD ⟨0, 0, 0⟩
  cosN w := dot w normal
  isZero v := decide (v.x = 0 ∧ v.y = 0 ∧ v.z = 0)
  normalize := normalize

/-- `Lambertian`, lambertian.cpp:16-25, with the sampling and the density of `Bdf`, bdf.cpp:16-35. -/
noncomputable def lambertian : Bdf ℝ (V3 ℝ) where
  type := flagBRDF
  value _ _ := 1 / Real.pi
  pdf wo wi := Specular.cosinePdf wo wi
  sample wo r0 r1 := (1 / Real.pi, (Specular.cosineSample wo r0 r1).1, (Specular.cosineSample wo r0 r1).2)

/-- The four methods of a `Bsdf`, bsdf.hpp: value, sample, density and shading matrix, for a hit point `H`. -/
structure Material (H K W M : Type) where
  value : H → M → W → W → Bool → K
  sample : H → M → K → K → K → W → Bool → Sampled K W
  pdf : H → M → W → W → Bool → K
  frame : H → M

/-- `DualBsdf`, dual.cpp:15-53; `visible` is `mask.is_visible`. -/
def dual {H K W M : Type} (visible : H → Bool) (a b : Material H K W M) : Material H K W M where
  value h m wo wi s := if visible h then a.value h m wo wi s else b.value h m wo wi s
  sample h m r0 r1 r2 wo s := if visible h then a.sample h m r0 r1 r2 wo s else b.sample h m r0 r1 r2 wo s
  pdf h m wo wi s := if visible h then a.pdf h m wo wi s else b.pdf h m wo wi s
  frame h := if visible h then a.frame h else b.frame h

/-- The constructor of `SingleBRDF`, single_brdf.cpp:6-27: the layer that is used for a given one, and whether
the given one is deleted. -/
noncomputable def construct (b : Bdf ℝ (V3 ℝ)) : Bdf ℝ (V3 ℝ) × Bool :=
  if b.type &&& flagBRDF ≠ 0 then (b, false) else (lambertian, true)

end Spectre.Single
