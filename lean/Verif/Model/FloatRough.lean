import Verif.Model.FloatMicrofacet

/-
Model in binary32 of the rough materials: the Oren-Nayar model (src/materials/oren_nayar.cpp), the distribution of Blinn,
the densities and masking of Beckmann, and the anisotropic GGX (src/materials/microfacet_distributions.cpp).
`Model/OrenNayar.lean` and `Model/Microfacet.lean` have the same code over the reals.  The functions `expf`, `powf`,
`cosf`, `sinf`, `tanf` and `atanf` are parameters or enter by their results.
-/

namespace Spectre.FRough

open Spectre.Geom Spectre.FMat Spectre.FMicro F32

/-- A literal of the source, rounded by the compiler. -/
def lit (q : ℚ) : F32 := F32.round false q

/-- `INV_TWOPI`, validator.h:39. -/
def invTwoPi : F32 := F32.round false 0.159154943091895335768883763372514362034459645740456448747

/-- `TWO_PI`, validator.h:37. -/
def twoPi : F32 := F32.round false 6.283185307179586476925286766559005768394338798750211641949

/-! ### Oren-Nayar -/

/-- The argument of the constructor, config_driver.cpp:380: `lerp(rough, 0.f, 100.f)`, utility.hpp:192-195. -/
def sigma (rough : F32) : F32 := add (F32.mul (sub one rough) zip) (F32.mul rough (num 100))

/-- `A`, oren_nayar.cpp:19-20. -/
def orenA (sigma : F32) : F32 :=
  let sigma2 := F32.mul sigma sigma
  sub one (div sigma2 (F32.mul two (add sigma2 (lit 0.33))))

/-- `B`, oren_nayar.cpp:19, 21. -/
def orenB (sigma : F32) : F32 :=
  let sigma2 := F32.mul sigma sigma
  div (F32.mul (lit 0.45) sigma2) (add sigma2 (lit 0.09))

/-- Sine of an angle given by its cosine: `sqrtf(max(0.f, 1.f-c*c))`, oren_nayar.cpp:30-31,
microfacet_distributions.cpp:51, 98, 197, 229. -/
def sine (c : F32) : F32 := F32.sqrt (fmax zip (sub one (F32.mul c c)))

/-- The cosine of the azimuth, oren_nayar.cpp:38-39. -/
def cosPhi (x sin : F32) : F32 := clamp (div x sin) (num (-1)) one

/-- The sine of the azimuth, oren_nayar.cpp:40-41. -/
def sinPhi (c : F32) : F32 := fmax zip (F32.sqrt (sub one (F32.mul c c)))

/-- `maxcos`, oren_nayar.cpp:38-42. -/
def maxCos (xi xo sini sino : F32) : F32 :=
  let ci := cosPhi xi sini
  let co := cosPhi xo sino
  fmax zip (add (F32.mul ci co) (F32.mul (sinPhi ci) (sinPhi co)))

/-- The factor of `DIFFUSE` in `OrenNayar::value`, oren_nayar.cpp:24-61. -/
def orenFactor (A B : F32) (wo wi : V3 F32) : F32 :=
  let ci := F32.abs wi.z
  let co := F32.abs wo.z
  let si := sine wi.z
  let so := sine wo.z
  if lt zip si && lt zip so then
    let m := maxCos wi.x wo.x si so
    let sinalpha := if lt co ci then so else si
    let tanbeta := if lt co ci then div si ci else div so co
    add A (F32.mul (F32.mul (F32.mul B m) sinalpha) tanbeta)
  else A

/-- One channel of `OrenNayar::value`: `DIFFUSE` is `INV_PI`, oren_nayar.cpp:8-14. -/
def orenValue (A B : F32) (wo wi : V3 F32) : F32 := F32.mul invPi (orenFactor A B wo wi)

/-! ### The rational fit of Blinn and Beckmann -/

/-- microfacet_distributions.cpp:42-45, 99-102. -/
def fit (c : F32) : F32 :=
  if ge c (lit 1.6) then one
  else
    div (add (F32.mul (lit 3.535) c) (F32.mul (F32.mul (lit 2.181) c) c))
      (add (add one (F32.mul (lit 2.276) c)) (F32.mul (F32.mul (lit 2.577) c) c))

/-- The exponent of `Blinn`, config_driver.cpp:403 and microfacet_distributions.cpp:11-14. -/
def blinnExponent (rough : F32) : F32 := clamp (sub (div two (F32.mul rough rough)) two) zip (num 100000)

/-- `Blinn::D`, microfacet_distributions.cpp:16-21. -/
def blinnD (pow : F32 → F32 → F32) (e z : F32) : F32 :=
  F32.mul (F32.mul (add e two) invTwoPi) (pow (F32.abs z) e)

/-- `Blinn::pdf`, microfacet_distributions.cpp:58-68; `d` is the product of the directions. -/
def blinnPdf (pow : F32 → F32 → F32) (e z d : F32) : F32 :=
  if lt zip d then div (F32.mul (add e two) (pow (F32.abs z) e)) twoPi else zip

/-- `Blinn::G1`, microfacet_distributions.cpp:28-46. -/
def blinnG1 (e z : F32) : F32 :=
  let cos := F32.abs z
  if F32.eq cos zip then zip
  else if ge cos one then one
  else
    let sin := F32.sqrt (sub one (F32.mul cos cos))
    fit (div (F32.sqrt (add (F32.mul (num (1 / 2)) e) one)) (div sin cos))

/-- `cost` and `sint` of `Blinn::sample_wh`, microfacet_distributions.cpp:50-51. -/
def blinnAngle (pow : F32 → F32 → F32) (e r0 : F32) : F32 × F32 :=
  let cost := pow r0 (div one (add e one))
  (cost, sine cost)

/-- `Beckmann::D`, microfacet_distributions.cpp:75-84. -/
def beckmannD (exp : F32 → F32) (a z : F32) : F32 :=
  let cost2 := F32.mul z z
  let sint2 := sub one cost2
  if F32.eq cost2 zip then zip
  else
    let a2 := F32.mul a a
    let e := exp (div (neg (div sint2 cost2)) a2)
    F32.mul (div e (F32.mul (F32.mul (F32.mul onePi cost2) cost2) a2)) e

/-- `Beckmann::G1`, microfacet_distributions.cpp:91-103. -/
def beckmannG1 (a z : F32) : F32 :=
  let cos := F32.abs z
  if F32.eq cos zip then zip
  else if ge cos one then one
  else fit (div cos (F32.mul (sine cos) a))

/-! ### Anisotropic GGX -/

/-- `GGXaniso::D`, microfacet_distributions.cpp:171-192. -/
def anisoD (ax ay : F32) (h : V3 F32) : F32 :=
  if F32.eq h.z zip then zip
  else
    let invCos2 := div one (F32.mul h.z h.z)
    let sin2 := fmax zip (sub one (F32.mul h.z h.z))
    if F32.eq sin2 zip then one
    else
      let invSin2 := div one sin2
      let tan2 := F32.mul sin2 invCos2
      let invAx := div one ax
      let invAy := div one ay
      let cosphi2 := F32.mul (F32.mul h.x h.x) invSin2
      let sinphi2 := F32.mul (F32.mul h.y h.y) invSin2
      let sq := add one (F32.mul (add (F32.mul (F32.mul cosphi2 invAx) invAx) (F32.mul (F32.mul sinphi2 invAy) invAy)) tan2)
      let sq := F32.mul sq sq
      F32.mul (F32.mul (F32.mul (F32.mul (F32.mul invPi invAx) invAy) invCos2) invCos2) (div one sq)

/-- `lambdaGGXaniso`, microfacet_distributions.cpp:194-208. -/
def lambda (v : V3 F32) (ax ay : F32) : F32 :=
  let sin := sine v.z
  let sin2 := F32.mul sin sin
  let tan := F32.abs (div sin v.z)
  if tan.isInf then zip
  else if F32.eq tan zip then one
  else
    let cos2phi := div (F32.mul v.x v.x) sin2
    let sin2phi := div (F32.mul v.y v.y) sin2
    let alpha := F32.sqrt (add (F32.mul (F32.mul cos2phi ax) ax) (F32.mul (F32.mul sin2phi ay) ay))
    F32.mul (add (num (-1)) (F32.sqrt (add one (F32.mul (F32.mul (F32.mul tan tan) alpha) alpha)))) (num (1 / 2))

/-- `GGXaniso::G`, microfacet_distributions.cpp:210-214. -/
def anisoG (ax ay : F32) (wo wi : V3 F32) : F32 := div one (add (add one (lambda wo ax ay)) (lambda wi ax ay))

/-- `cost` and `sint` of `GGXaniso::sample_wh`, microfacet_distributions.cpp:222-229; `cp` and `sp` are the cosine and sine
of `phi`. -/
def anisoAngle (ax ay cp sp r0 : F32) : F32 × F32 :=
  let a2 := div one (add (div (F32.mul cp cp) (F32.mul ax ax)) (div (F32.mul sp sp) (F32.mul ay ay)))
  let tantheta2 := div (F32.mul a2 r0) (sub one r0)
  let cost := div one (F32.sqrt (add one tantheta2))
  (cost, sine cost)

end Spectre.FRough
