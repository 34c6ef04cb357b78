import Mathlib.Algebra.Order.Ring.Defs
import Mathlib.Algebra.Order.Field.Basic
import Mathlib.Algebra.Order.Floor.Defs
import Mathlib.Data.List.Basic

/-
Model of the layered material (src/materials/multi_bsdf.cpp), of the single-layer material
(single_brdf.cpp) and of the choice between two materials (dual.cpp), in exact arithmetic.

Spectra are represented by one channel: all the operations used (sum, product, division by a number) are
channel by channel.  Vectors are abstract: `W` is a direction in world space and `S` in shading space.
-/

namespace Spectre.Bsdf

variable {K W S : Type} [Field K] [LinearOrder K] [IsStrictOrderedRing K] [FloorRing K]

/-- `FLAG_BRDF`, `FLAG_BTDF`, `FLAG_SPEC`, bdf.hpp. -/
def flagBRDF : Nat := 1
def flagBTDF : Nat := 2
def flagSPEC : Nat := 4

/-- `class Bdf`, bdf.hpp: the flags and the virtual methods. -/
structure Bdf (K S : Type) where
  type : Nat
  value : S → S → K
  pdf : S → S → K
  /-- outgoing direction and two random numbers to (value, incident direction, pdf) -/
  sample : S → K → K → K × S × K

/-- `Bdf::matches`, bdf.hpp. -/
def Bdf.matches (b : Bdf K S) (flags : Nat) : Bool := (b.type &&& flags) == b.type

/-- `Bdf::is_specular`, bdf.hpp. -/
def Bdf.isSpecular (b : Bdf K S) : Bool := (b.type &&& flagSPEC) != 0

/-- A layer: `bdfs[i]` with the value of `diffuse[i]->map(h)` at the hit point. -/
structure Layer (K S : Type) where
  bdf : Bdf K S
  tex : K

/-- What depends on the hit point: change of space, cosine with `h->normal_h`, and the vector operations. -/
structure Frame (K W S : Type) where
  toShading : W → S
  toWorld : S → W
  cosN : W → K
  isZero : S → Bool
  normalize : S → S

/-- `_MAX_BDF_`, settings.h:40. -/
def maxBdf : Nat := 5

/-- `inherit_bdf`, multi_bsdf.cpp:17-33, in a build without `DEBUG` (the check of lines 19-25 is not
compiled): `none` is a write outside of the arrays `bdfs` and `diffuse` of `_MAX_BDF_` elements. -/
def inherit (ls : List (Layer K S)) (l : Layer K S) : Option (List (Layer K S)) :=
  if ls.length < maxBdf then some (ls ++ [l]) else none

/-- Side of the pair of directions, multi_bsdf.cpp:39-42, 115-118. -/
def side (f : Frame K W S) (wo wi : W) : Nat := if 0 < f.cosN wi * f.cosN wo then flagBRDF else flagBTDF

/-- `MultiBSDF::value`, multi_bsdf.cpp:35-54. -/
def value (f : Frame K W S) (ls : List (Layer K S)) (wo wi : W) (matchSpec : Bool) : K :=
  let flags := (if matchSpec then flagSPEC else 0) ||| side f wo wi
  let woS := f.toShading wo
  let wiS := f.toShading wi
  ls.foldl (fun acc l => if l.bdf.matches flags then acc + l.bdf.value woS wiS * l.tex else acc) 0

/-- Outcomes of `sample_value`. -/
inductive Sampled (K W : Type) where
  /-- an array is read at an index with no element -/
  | outOfBounds
  /-- black with pdf 0 -/
  | black
  | result (value : K) (wi : W) (pdf : K) (matchedSpec : Bool)
  deriving DecidableEq

/-- The sums of multi_bsdf.cpp:119-127, with the texture `t`: value and pdf. -/
def evalAll (ls : List (Layer K S)) (flags : Nat) (woS wiS : S) (t : K) : K × K :=
  ls.foldl (fun acc l => if l.bdf.matches flags then
    (acc.1 + l.bdf.value woS wiS * t, acc.2 + l.bdf.pdf woS wiS) else acc) (0, 0)

/-- `MultiBSDF::sample_value`, multi_bsdf.cpp:56-137.  `chosen` is an index of `matching`, and is also used
as an index of `diffuse`. -/
def sampleValue (f : Frame K W S) (ls : List (Layer K S)) (r0 r1 r2 : K) (wo : W) (matchSpec : Bool) :
    Sampled K W :=
  let matching := if matchSpec then ls else ls.filter fun l => !l.bdf.isSpecular
  if matchSpec = false ∧ matching.length = 0 then .black
  else
    let chosen : Int := ⌊r0 * (matching.length : K)⌋
    let chosen := if chosen = matching.length then chosen - 1 else chosen
    if chosen < 0 then .outOfBounds
    else
      match matching[chosen.toNat]?, ls[chosen.toNat]? with
      | some m, some d =>
        let woS := f.toShading wo
        let (v, wiS, pdf) := m.bdf.sample woS r1 r2
        if f.isZero wiS then .black
        else
          let wiS := f.normalize wiS
          let wi := f.toWorld wiS
          let n : K := if 1 < matching.length then matching.length else 1
          if m.bdf.isSpecular then .result (v * d.tex) wi (pdf / n) true
          else
            let e := evalAll ls (side f wo wi) woS wiS d.tex
            .result e.1 wi (e.2 / n) false
      | _, _ => .outOfBounds

/-- `MultiBSDF::pdf`, multi_bsdf.cpp:139-160. -/
def pdf (f : Frame K W S) (ls : List (Layer K S)) (wo wi : W) (matchSpec : Bool) : K :=
  if ls.length = 0 then 0
  else
    let flags := if matchSpec then flagBRDF ||| flagBTDF ||| flagSPEC else flagBRDF ||| flagBTDF
    let woS := f.toShading wo
    let wiS := f.toShading wi
    let sum := ls.foldl (fun acc l => if l.bdf.matches flags then acc + l.bdf.pdf woS wiS else acc) 0
    let matching := ls.foldl (fun acc l => if l.bdf.matches flags then acc + 1 else acc) 0
    if 1 < matching then sum / (matching : Nat) else sum

/-- `SingleBRDF::value`, single_brdf.cpp:33-50. -/
def singleValue (f : Frame K W S) (l : Layer K S) (wo wi : W) (matchSpec : Bool) : K :=
  if 0 < f.cosN wi * f.cosN wo then
    let flags := (if matchSpec then flagSPEC else 0) ||| flagBRDF
    if l.bdf.matches flags then l.bdf.value (f.toShading wo) (f.toShading wi) * l.tex else 0
  else 0

/-- `SingleBRDF::sample_value`, single_brdf.cpp:52-75 (the division by zero in `normalize` of a zero
direction is not modelled). -/
def singleSample (f : Frame K W S) (l : Layer K S) (r1 r2 : K) (wo : W) (matchSpec : Bool) : Sampled K W :=
  if l.bdf.isSpecular ∧ matchSpec = false then .black
  else
    let (v, wiS, pdf) := l.bdf.sample (f.toShading wo) r1 r2
    .result (v * l.tex) (f.toWorld (f.normalize wiS)) pdf l.bdf.isSpecular

/-- `SingleBRDF::pdf`, single_brdf.cpp:77-86. -/
def singlePdf (f : Frame K W S) (l : Layer K S) (wo wi : W) (matchSpec : Bool) : K :=
  if matchSpec = false ∧ l.bdf.isSpecular then 0 else l.bdf.pdf (f.toShading wo) (f.toShading wi)

end Spectre.Bsdf
