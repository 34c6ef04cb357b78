import Verif.Model.Normalize

/-
Model in binary32 of `Triangle::intersect` (src/primitives/triangle.cpp).  `Model/Geom.lean` has the same code in exact
arithmetic.
-/

namespace Spectre.FTri

open Spectre.Geom F32

/-- `Point3::operator-`, point3.cpp:85-88. -/
def vsub (a b : V3 F32) : V3 F32 := ⟨F32.sub a.x b.x, F32.sub a.y b.y, F32.sub a.z b.z⟩

/-- `Vec3::cross`, vec3.cpp:128-133. -/
def cross (a b : V3 F32) : V3 F32 :=
  ⟨F32.sub (F32.mul a.y b.z) (F32.mul a.z b.y), F32.sub (F32.mul a.z b.x) (F32.mul a.x b.z),
   F32.sub (F32.mul a.x b.y) (F32.mul a.y b.x)⟩

/-- `Vec3::dot`, vec3.cpp:92-95. -/
def dot (a b : V3 F32) : F32 := F32.add (F32.add (F32.mul a.x b.x) (F32.mul a.y b.y)) (F32.mul a.z b.z)

/-- `SELF_INTERSECT_ERROR`, settings.h:21. -/
def minDist : F32 := F32.round false (1 / 100)

/-- A hit: the coordinates and the distance. -/
structure Hit where
  u : F32
  v : F32
  dist : F32
deriving DecidableEq

/-- `det`, triangle.cpp:63-66. -/
def det (d a b c : V3 F32) : F32 := dot (cross d (vsub c a)) (vsub b a)

/-- `Triangle::intersect`, triangle.cpp:55-85: the part before the mask, for a ray with origin `o` and direction `d`. -/
def intersect (o d a b c : V3 F32) (distance : F32) : Option Hit :=
  let ba := vsub b a
  let ca := vsub c a
  let pv := cross d ca
  let det := dot pv ba
  if F32.eq det (zero false) then none
  else
    let invdet := div (num 1) det
    let tv := vsub o a
    let u := F32.mul (dot pv tv) invdet
    if F32.lt u (zero false) || F32.lt (num 1) u then none
    else
      let qv := cross tv ba
      let v := F32.mul (dot d qv) invdet
      if F32.lt v (zero false) || F32.lt (num 1) (F32.add u v) then none
      else
        let dist := F32.mul (dot ca qv) invdet
        if F32.lt dist minDist || F32.lt distance dist then none
        else some ⟨u, v, dist⟩

/-- `w`, and a texture coordinate interpolated with it, triangle.cpp:88, 101-102 (also the normal, line 120). -/
def blend (h : Hit) (ta tb tc : F32) : F32 :=
  let w := F32.sub (F32.sub (num 1) h.u) h.v
  F32.add (F32.add (F32.mul w ta) (F32.mul h.u tb)) (F32.mul h.v tc)

end Spectre.FTri
