import Verif.Model.FloatFilm
import Verif.Model.FloatMaterial
import Verif.Model.Geom

/-
Model in binary32 of the path tracer (src/integrators/path_tracer.cpp) with the three channels of the colour build
(`spectre-rgb`, spectrum.cpp without `SPECTRAL`: X, Y, Z).  A path is given by what `l_rec` meets at its vertices; that
replaces the scene, the materials and the sampler.
-/

namespace Spectre.FPath

open Spectre.Geom F32

/-- What `l_rec` meets at a vertex of the path, path_tracer.cpp:13-74. -/
structure Vertex where
  /-- `emissive_spectrum()` if the asset is a light seen from the front (lines 30-31) -/
  emission : Option (V3 F32)
  /-- the result of `direct_l` (line 33) -/
  direct : V3 F32
  /-- `rand[0]` (line 38) -/
  rand : F32
  /-- the value of the material for the next direction (line 56) -/
  f : V3 F32
  /-- `absdot(wi, n)` (line 60) -/
  adot : F32
  /-- the density of the next direction (line 54) -/
  pdf : F32
  /-- `matchedSpec` (line 55) -/
  spec : Bool

/-- `SPECTRUM_BLACK`, spectrum.cpp:79. -/
def black : V3 F32 := ⟨zero false, zero false, zero false⟩

/-- `SPECTRUM_ONE`, spectrum.cpp:71-77, through lines 438-453. -/
def ones : V3 F32 := ⟨num 1, num 1, num 1⟩

/-- `Spectrum::operator+=`, spectrum.cpp:754-758. -/
def plus (a b : V3 F32) : V3 F32 := ⟨add a.x b.x, add a.y b.y, add a.z b.z⟩

/-- `Spectrum::operator*` with a spectrum, spectrum.cpp:835-840, and `operator*=`, lines 864-868. -/
def times (a b : V3 F32) : V3 F32 := ⟨mul a.x b.x, mul a.y b.y, mul a.z b.z⟩

/-- `Spectrum::operator*` with a number, spectrum.cpp:1052-1057. -/
def scale (a : V3 F32) (s : F32) : V3 F32 := ⟨mul a.x s, mul a.y s, mul a.z s⟩

/-- `Spectrum::operator/` with a number, spectrum.cpp:1106-1111. -/
def over (a : V3 F32) (s : F32) : V3 F32 := ⟨div a.x s, div a.y s, div a.z s⟩

/-- `Spectrum::is_black`, spectrum.cpp:677-687. -/
def isBlack (a : V3 F32) : Bool := F32.eq a.x (zero false) && F32.eq a.y (zero false) && F32.eq a.z (zero false)

/-- `DEFAULT_BOUNCES`, settings.h:18. -/
def bounces : ℕ := 5

/-- What the vertex itself adds, path_tracer.cpp:18-34. -/
def own (v : Vertex) (first : Bool) (power : V3 F32) : V3 F32 :=
  plus (match first, v.emission with
    | true, some e => plus black (times power e)
    | _, _ => black) (times power v.direct)

/-- `min(power->luminance(), 0.5f)`, path_tracer.cpp:43 (`luminance` is the second channel, spectrum.cpp:673). -/
def term (power : V3 F32) : F32 := FFilm.fmin power.y (num (1 / 2))

/-- `*power *= f*adot/pdf*rrprob`, path_tracer.cpp:62. -/
def carried (v : Vertex) (power : V3 F32) (rrprob : F32) : V3 F32 :=
  times power (scale (over (scale v.f v.adot) v.pdf) rrprob)

/-- `l_rec`, path_tracer.cpp:13-74.  The list ends where the next ray leaves the scene (lines 67-68). -/
def lRec : List Vertex → ℕ → V3 F32 → Bool → V3 F32
  | [], _, _, _ => black
  | v :: rest, ricochet, power, lastSpec =>
    let ret := own v (ricochet == 0 || lastSpec) power
    if 3 < ricochet ∧ lt v.rand (term power) = true then ret
    else
      let rrprob := if 3 < ricochet then term power else num 1
      if ricochet = bounces then ret
      else if F32.eq v.pdf (zero false) || isBlack v.f then ret
      else if rest.isEmpty then ret
      else plus ret (lRec rest (ricochet + 1) (carried v power rrprob) v.spec)

/-- `PathTracer::radiance`, path_tracer.cpp:6-11. -/
def radiance (path : List Vertex) : V3 F32 := lRec path 0 ones false

end Spectre.FPath
