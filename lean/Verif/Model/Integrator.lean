import Mathlib.Algebra.Order.Field.Basic
import Mathlib.Algebra.Order.Floor.Defs
import Mathlib.Data.List.Basic

/-
Model of the light transport estimators (src/integrators/path_tracer.cpp, ray_tracer.cpp) and of the
shadow test (src/utility/occlusion_tester.cpp), in exact arithmetic and for one channel of the spectrum
(of which the luminance is then the value itself).
-/

namespace Spectre.Integrator

variable {K : Type} [Field K] [LinearOrder K] [IsStrictOrderedRing K]

/-! ### Path tracer -/

/-- `DEFAULT_BOUNCES`, settings.h. -/
def bounces : Nat := 5

/-- One vertex of a path, as seen by `l_rec`. -/
structure Vertex (K : Type) where
  /-- emission of the asset if it is a light seen from the front (`is_light` and `dot(n, wo) > 0`), else 0 -/
  emission : K
  /-- what `direct_l` adds by sampling a light -/
  sampled : K
  /-- `f*adot/pdf` and `matchedSpec` of the next direction; `none` if `pdf == 0`, `f` is black or the ray
  leaves the scene -/
  next : Option (K × Bool)

/-- `direct_l`, ray_tracer.cpp:6-76: emission of the hit asset (lines 13-15) and sampled light. -/
def directL (v : Vertex K) : K := v.emission + v.sampled

/-- `l_rec`, path_tracer.cpp:13-74, along a path given by its vertices, each with the random number
`rand[0]`.  `weight term` is the factor `rrprob` of a path that survives the roulette; in the code it is
`term` itself (line 47). -/
def lRec (weight : K → K) : Nat → K → Bool → List (Vertex K × K) → K
  | _, _, _, [] => 0
  | ricochet, power, lastSpec, (v, r) :: rest =>
    let ret := (if ricochet = 0 ∨ lastSpec = true then power * v.emission else 0) + power * directL v
    let term := min power (1 / 2)
    if 3 < ricochet ∧ r < term then ret
    else
      let rrprob := if 3 < ricochet then weight term else 1
      if ricochet = bounces then ret
      else
        match v.next with
        | none => ret
        | some (f, spec) => ret + lRec weight (ricochet + 1) (power * (f * rrprob)) spec rest

/-- `PathTracer::radiance`, path_tracer.cpp:6-11, with the weight of the code. -/
def radiance (path : List (Vertex K × K)) : K := lRec id 0 1 false path

/-! ### Direct light -/

/-- Choice of the light, ray_tracer.cpp:23: `min((int)(rand[0]*nlights), nlights-1)`. -/
def chooseLight [FloorRing K] (nlights : Nat) (r : K) : Int := min ⌊r * (nlights : K)⌋ ((nlights : Int) - 1)

/-- What `direct_l` adds for the chosen light (`contribution i` stands for lines 30-73 with light `i`):
it is added as it is, ray_tracer.cpp:45, 71. -/
def directOne [FloorRing K] (nlights : Nat) (contribution : Int → K) (r : K) : K :=
  if 0 < nlights then contribution (chooseLight nlights r) else 0

/-! ### Shadow test -/

/-- An asset: distance at which it is hit by a ray, if it is. -/
structure Occluder (R K : Type) where
  id : Nat
  hit : R → Option K

variable {R : Type}

/-- Closest hit in the scene: the scan that the kd-tree traversal is equal to (C15). -/
def closest (scene : List (Occluder R K)) (r : R) : Option (Occluder R K × K) :=
  scene.foldl (fun best a =>
    match a.hit r, best with
    | some d, some (_, b) => if d ≤ b then some (a, d) else best
    | some d, none => some (a, d)
    | none, _ => best) none

/-- `OcclusionTester`: the cache `lasthit`, occlusion_tester.hpp; `none` is `NULL`. -/
abbrev Cache (R K : Type) := Nat → Option (Occluder R K)

/-- The test of the cached occluder, occlusion_tester.cpp:16-21. -/
def cachedHit (eps : K) (cache : Cache R K) (ricochet : Nat) (r : R) (distance : K) : Bool :=
  match cache ricochet with
  | none => false
  | some a => match a.hit r with
    | none => false
    | some d => decide (d + eps < distance)

/-- `is_occluded`, occlusion_tester.cpp:13-32: answer and new cache.  `none` is an access outside of the
`DEFAULT_BOUNCES` elements of the cache.  Hit points and distances are used as in a ray with a normalised
direction, for which the distance of line 27 is the ray parameter of the hit. -/
def isOccluded (eps : K) (scene : List (Occluder R K)) (cache : Cache R K) (ricochet : Nat) (r : R)
    (distance : K) : Option (Bool × Cache R K) :=
  if ricochet < bounces then
    if cachedHit eps cache ricochet r distance then some (true, cache)
    else
      match closest scene r with
      | some (a, d) => some (decide (d + eps < distance), Function.update cache ricochet (some a))
      | none => some (false, cache)
  else none

/-- The constructor, occlusion_tester.cpp:6-11. -/
def emptyCache : Cache R K := fun _ => none

/-- A history of queries (ricochet, ray, distance): the answers. -/
def answers (eps : K) (scene : List (Occluder R K)) : Cache R K → List (Nat × R × K) → Option (List Bool)
  | _, [] => some []
  | c, (n, r, d) :: rest =>
    match isOccluded eps scene c n r d with
    | none => none
    | some (b, c') =>
      match answers eps scene c' rest with
      | none => none
      | some l => some (b :: l)

end Spectre.Integrator
