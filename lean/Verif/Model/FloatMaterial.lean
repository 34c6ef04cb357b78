import Verif.Model.Normalize

/-
Model in binary32 of the Fresnel conditions (src/materials/fresnel_conditions.cpp), of the specular reflections
(reflection.cpp) and of the specular refraction (refraction.cpp).  `Model/Specular.lean` has the same code over the
reals.  A spectrum is represented by one channel: the operators work channel by channel (spectrum.cpp:726-1158).
-/

namespace Spectre.FMat

open Spectre.Geom F32

/-- `1`, `1.f`. -/
def one : F32 := num 1

/-- `2.f`. -/
def two : F32 := num 2

/-- `0.f`. -/
def zip : F32 := zero false

/-- `max(float, float)`, utility.hpp: `f1>f2?f1:f2`. -/
def fmax (a b : F32) : F32 := if lt b a then a else b

/-- `a>=b`, and `b<=a`. -/
def ge (a b : F32) : Bool := lt b a || F32.eq a b

/-- `Conductor::eval`, fresnel_conditions.cpp:12-31; `n` is `refraction_index`, `k` is `absorption`. -/
def conductor (n k cosin : F32) : F32 :=
  let tmp := add (F32.mul n n) (F32.mul k k)
  let cosinsq := F32.mul cosin cosin
  let etacosin2 := F32.mul n (F32.mul cosin two)
  let rperpsq := div (add (sub tmp etacosin2) cosinsq) (add (add tmp etacosin2) cosinsq)
  let tmp := F32.mul tmp cosinsq
  let rparsq := div (add (sub tmp etacosin2) one) (add (add tmp etacosin2) one)
  div (add rperpsq rparsq) two

/-- The reflected part once the angle of the transmitted ray is known, fresnel_conditions.cpp:72-79,
reflection.cpp:95-102, refraction.cpp:77-82. -/
def fresnelPart (ei et cosi cost : F32) : F32 :=
  let etatcosi := F32.mul et cosi
  let etaicosi := F32.mul ei cosi
  let etatcost := F32.mul et cost
  let etaicost := F32.mul ei cost
  let rperp := div (sub etaicosi etatcost) (add etaicosi etatcost)
  let rpar := div (sub etatcosi etaicost) (add etatcosi etaicost)
  div (add (F32.mul rpar rpar) (F32.mul rperp rperp)) two

/-- Sine of the transmitted ray, fresnel_conditions.cpp:66, reflection.cpp:88. -/
def sineT (ei et c : F32) : F32 := F32.mul (div ei et) (F32.sqrt (fmax zip (sub one (F32.mul c c))))

/-- Cosine of an angle given by its sine, fresnel_conditions.cpp:71, reflection.cpp:94. -/
def cosOf (s : F32) : F32 := F32.sqrt (fmax zip (sub one (F32.mul s s)))

/-- `Dielectric::eval`, fresnel_conditions.cpp:49-82. -/
def dielectric (etaI etaT cosin : F32) : F32 :=
  let ei := if lt cosin zip then etaT else etaI
  let et := if lt cosin zip then etaI else etaT
  let c := if lt cosin zip then neg cosin else cosin
  let sint := sineT ei et c
  if ge sint one then one else fresnelPart ei et c (cosOf sint)

/-- Value of `DielectricReflection::sample_value`, reflection.cpp:67-109 (the direction is that of
`Model/Specular.lean`; nothing is rounded there). -/
def dielectricReflection (etaI etaT z : F32) : F32 :=
  let inside := ge zip z
  let ei := if inside then etaT else etaI
  let et := if inside then etaI else etaT
  let c := if inside then F32.abs z else z
  let sint := sineT ei et c
  if lt one sint then one else div (fresnelPart ei et c (cosOf sint)) (F32.abs z)

/-- Value of `ConductorReflection::sample_value`, reflection.cpp:46-65. -/
def conductorReflection (n k z : F32) : F32 := div (conductor n k z) (F32.abs z)

/-- Outcomes of `Refraction::sample_value`. -/
inductive Refracted where
  /-- black with pdf 0; the direction is not written -/
  | total
  | ray (value : F32) (wi : V3 F32)

/-- `Refraction::sample_value`, refraction.cpp:30-89. -/
def refraction (etaI etaT : F32) (wo : V3 F32) : Refracted :=
  let fromOutside := lt zip wo.z
  let ei := if fromOutside then etaI else etaT
  let et := if fromOutside then etaT else etaI
  let c := if fromOutside then wo.z else F32.abs wo.z
  let sini2 := sub one (F32.mul wo.z wo.z)
  let eta := div ei et
  let sint2 := F32.mul (F32.mul eta eta) sini2
  if ge sint2 one then .total
  else
    let cost := F32.sqrt (sub one sint2)
    let z := if fromOutside then neg cost else cost
    let wi : V3 F32 := ⟨F32.mul eta (neg wo.x), F32.mul eta (neg wo.y), z⟩
    let eval := sub one (fresnelPart ei et c cost)
    let eval := F32.mul eval (div (F32.mul ei ei) (F32.mul et et))
    .ray (div eval (F32.abs z)) wi

end Spectre.FMat
