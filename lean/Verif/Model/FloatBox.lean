import Verif.Model.FloatMaterial
import Verif.Model.FloatTriangle
import Verif.Model.Compare

/-
Model in binary32 of `Box::intersect` (src/primitives/box.cpp), also for rays that are parallel to faces.  `Model/Shapes.lean`
has the same code in exact arithmetic for the other rays.
-/

namespace Spectre.FBox

open Spectre.Geom Spectre.FMat Spectre.FTri F32

/-- One slab, box.cpp:67-71, 76-80 and 91-95: the two parameters in order. -/
def slab (o d : F32) : F32 × F32 :=
  let invr := div one d
  let near := F32.mul (neg o) invr
  let far := F32.mul (sub one o) invr
  if lt far near then (far, near) else (near, far)

/-- `sign`, utility.hpp:235-238. -/
def sgn (a : F32) : F32 := if Compare.le zip a then one else num (-1)

/-- `operator[]` of a vector, vec3.hpp:347-410. -/
def get (v : V3 F32) (i : Nat) : F32 := if i = 0 then v.x else if i = 1 then v.y else v.z

/-- `Ray::apply`, ray.cpp:24-29. -/
def apply (o d : V3 F32) (t : F32) : V3 F32 :=
  ⟨add o.x (F32.mul d.x t), add o.y (F32.mul d.y t), add o.z (F32.mul d.z t)⟩

/-- What is written into the hit point. -/
structure Hit where
  distance : F32
  point : V3 F32
  normal : V3 F32
  dpdu : V3 F32
deriving DecidableEq

/-- A normal along an axis, box.cpp:119-120. -/
def axisNormal (axis : Nat) (s : F32) : V3 F32 :=
  if axis = 0 then ⟨s, zip, zip⟩ else if axis = 1 then ⟨zip, s, zip⟩ else ⟨zip, zip, s⟩

/-- The end of `Box::intersect`, box.cpp:112-131, without the mask. -/
def finish (o d : V3 F32) (distance t : F32) (axis : Nat) (inside : Bool) : Option Hit :=
  if lt distance t then none
  else
    let s := neg (sgn (get d axis))
    let s := if inside then F32.mul s (num (-1)) else s
    let n := axisNormal axis s
    some ⟨t, apply o d t, n, if !n.z.isZero then ⟨n.z, zip, zip⟩ else ⟨neg n.y, n.x, zip⟩⟩

/-- `Box::intersect`, box.cpp:58-132, for an object without mask. -/
def intersect (o d : V3 F32) (distance : F32) : Option Hit :=
  let sx := slab o.x d.x
  let sy := slab o.y d.y
  let (mint, axis) := if lt sx.1 sy.1 then (sy.1, 1) else (sx.1, 0)
  let maxt := if lt sy.2 sx.2 then sy.2 else sx.2
  if lt maxt mint then none
  else
    let sz := slab o.z d.z
    let (mint, axis) := if lt mint sz.1 then (sz.1, 2) else (mint, axis)
    let maxt := if lt sz.2 maxt then sz.2 else maxt
    if lt maxt mint then none
    else if lt minDist mint then finish o d distance mint axis false
    else if lt minDist maxt then finish o d distance maxt axis true
    else none

end Spectre.FBox
