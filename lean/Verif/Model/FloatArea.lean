import Verif.Model.FloatLight
import Verif.Model.FloatPlace
import Verif.Model.FloatTriangle

/-
Model in binary32 of the area of a light (src/lights/area_light.cpp), of the surfaces it comes from (sphere.cpp, box.cpp and
triangle.cpp) and of the sizes taken from its placement (matrix4.cpp).  `Model/Light.lean` has them in exact arithmetic.
-/

namespace Spectre.FArea

open Spectre.Geom Spectre.FMat F32

/-- `Vec3::length`, vec3.cpp:101-104. -/
def len (v : V3 F32) : F32 := F32.sqrt (Normalize.flen2 v)

/-- `Matrix4::get_scale`, matrix4.cpp:442-448: the lengths of the columns. -/
def getScale (m : M4 F32) : V3 F32 :=
  ⟨len ⟨m.m00, m.m10, m.m20⟩, len ⟨m.m01, m.m11, m.m21⟩, len ⟨m.m02, m.m12, m.m22⟩⟩

/-- `FOUR_PI`, validator.h:41. -/
def fourPi : F32 := F32.round false 12.56637061435917295385057353311801153678867759750042328389

/-- `INV_TWOPI`, validator.h:39. -/
def invTwoPi : F32 := F32.round false 0.159154943091895335768883763372514362034459645740456448747

/-- `Sphere::surface(const Matrix4*)`, sphere.cpp:158-163: the first size stands for all. -/
def sphereSurface (m : M4 F32) : F32 :=
  let val := (getScale m).x
  F32.mul (F32.mul fourPi val) val

/-- `Box::surface(const Matrix4*)`, box.cpp:51-56. -/
def boxSurface (m : M4 F32) : F32 := FLight.boxSurface (getScale m)

/-- `Triangle::surface()`, triangle.cpp:41-44. -/
def surface (a b c : V3 F32) : F32 := F32.mul (num (1 / 2)) (len (FTri.cross (FTri.vsub b a) (FTri.vsub c a)))

/-- A corner of `Triangle::surface(const Matrix4*)`, triangle.cpp:49-51. -/
def corner (m : M4 F32) (p : V3 F32) : V3 F32 :=
  ⟨F32.mul p.x (getScale m).x, F32.mul p.y (getScale m).y, F32.mul p.z (getScale m).z⟩

/-- `Triangle::surface(const Matrix4*)`, triangle.cpp:46-53. -/
def triangleSurface (m : M4 F32) (a b c : V3 F32) : F32 := surface (corner m a) (corner m b) (corner m c)

/-- `AreaLight::AreaLight`, area_light.cpp:15: `invarea`. -/
def invArea (area : F32) : F32 := div one area

/-- `AreaLight::pdf(const Ray*)`, area_light.cpp:136-139, and the density of `sample_surface`, area_light.cpp:51. -/
def rayPdf (area : F32) : F32 := F32.mul (invArea area) invTwoPi

end Spectre.FArea
