import Verif.Model.Geom
import Verif.Model.Pixel
import Mathlib.Analysis.SpecialFunctions.Pow.Real
import Mathlib.Data.Fin.VecNotation
import Mathlib.Algebra.BigOperators.Fin
import Mathlib.Algebra.Order.Floor.Ring

/-
Model of the colour conversions (src/utility/color.cpp), of the spectra (src/utility/spectrum.cpp) and of the
pixels written by the film (src/cameras/image_film.cpp), over the reals and without rounding.  Literals are taken
with the value written in the source.
-/

namespace Spectre.Color
open Spectre.Geom

/-! ### Colours -/

/-- One channel of `ColorRGB::to_XYZ`, color.cpp:240-251. -/
noncomputable def decode (v : ℝ) : ℝ := if 0.04045 < v then ((v + 0.055) / 1.055) ^ (2.4 : ℝ) else v * (1 / 12.92)

/-- One channel of `ColorXYZ::to_sRGB`, color.cpp:164-175. -/
noncomputable def encode (v : ℝ) : ℝ :=
  if 0.0031308 < v then 1.055 * v ^ ((1 : ℝ) / 2.4) - 0.055 else v * 12.92

/-- The matrix of `ColorRGB::to_XYZ`, color.cpp:253-255. -/
noncomputable def rgbToXyz (c : V3 ℝ) : V3 ℝ :=
  ⟨c.x * 0.4124564 + c.y * 0.3575761 + c.z * 0.1804375, c.x * 0.2126729 + c.y * 0.7151522 + c.z * 0.0721750,
    c.x * 0.0193339 + c.y * 0.1191920 + c.z * 0.9503041⟩

/-- The matrix of `ColorXYZ::to_sRGB`, color.cpp:160-162. -/
noncomputable def xyzToRgb (c : V3 ℝ) : V3 ℝ :=
  ⟨c.x * 3.2404542 + c.y * -1.5371385 + c.z * -0.4985314, c.x * -0.9692660 + c.y * 1.8760108 + c.z * 0.0415560,
    c.x * 0.0556434 + c.y * -0.2040259 + c.z * 1.0572252⟩

/-- `ColorRGB::to_XYZ`, color.cpp:233-258. -/
noncomputable def toXyz (c : V3 ℝ) : V3 ℝ := rgbToXyz ⟨decode c.x, decode c.y, decode c.z⟩

/-- `ColorXYZ::to_sRGB`, color.cpp:153-178. -/
noncomputable def toSrgb (c : V3 ℝ) : V3 ℝ :=
  let l := xyzToRgb c
  ⟨encode l.x, encode l.y, encode l.z⟩

/-- `pow(v, EXP)`, color.cpp:182 and 191-193; `none` is not a number (a negative base). -/
noncomputable def adobeEncode (v : ℝ) : Option ℝ := if v < 0 then none else some (v ^ (1 / 2.19921875 : ℝ))

/-- `ColorXYZ::to_AdobeRGB`, color.cpp:180-194. -/
noncomputable def toAdobe (c : V3 ℝ) : Option (V3 ℝ) := do
  let r ← adobeEncode (c.x * 2.04159 + c.y * -0.56501 + c.z * -0.34473)
  let g ← adobeEncode (c.x * -0.96924 + c.y * 1.87597 + c.z * 0.03342)
  let b ← adobeEncode (c.x * 0.01344 + c.y * -0.11836 + c.z * 1.34926)
  some ⟨r, g, b⟩

/-- `ColorRGB::ColorRGB(pixBGRA)`, color.cpp:225-231. -/
noncomputable def ofPixel (p : Img.Pixel) : V3 ℝ :=
  ⟨(Img.red p).toNat * (1 / 255), (Img.green p).toNat * (1 / 255), (Img.blue p).toNat * (1 / 255)⟩

/-! ### Saved pixels -/

/-- `(uint32_t)min(max(0, v)*0xFF, 255)`, image_film.cpp:170, 172, 174. -/
noncomputable def quantise (v : ℝ) : Nat := ⌊min (max 0 v * 255) 255⌋₊

/-- Packing of a pixel, image_film.cpp:168-174. -/
noncomputable def pack (rgb : V3 ℝ) : Img.Pixel :=
  0x000000FF#32 ||| (BitVec.ofNat 32 (quantise rgb.x) <<< 8) ||| (BitVec.ofNat 32 (quantise rgb.y) <<< 16) |||
    (BitVec.ofNat 32 (quantise rgb.z) <<< 24)

/-- `struct Pixel`, image_film.hpp: sums of the weighted colours and of the weights. -/
structure Sum where
  x : ℝ
  y : ℝ
  z : ℝ
  samples : ℝ

/-- One pixel of `ImageFilm::save_image`, image_film.cpp:157-174. -/
noncomputable def savePixel (p : Sum) : Img.Pixel :=
  if 0 < p.samples then
    let weight := 1 / p.samples
    pack (toSrgb ⟨p.x * weight, p.y * weight, p.z * weight⟩)
  else pack ⟨0, 0, 0⟩

/-- Accumulation of a sample, image_film.cpp:86-90. -/
noncomputable def accumulate (p : Sum) (c : V3 ℝ) (weight : ℝ) : Sum :=
  ⟨p.x + c.x * weight, p.y + c.y * weight, p.z + c.z * weight, p.samples + weight⟩

/-! ### Spectra -/

/-- The samples of the build with `SPECTRAL`, spectrum.hpp:171-174: from 400 to 700 nm every 20 nm. -/
abbrev Samples := Fin 16 → ℝ

/-- `X`, spectrum.cpp:9-27. -/
noncomputable def matchX : Samples :=
  ![0.048547909657160444, 0.24864331478873888, 0.33913105790813763, 0.23759311571717262,
    0.068513086394717301, 0.0074335845497747266, 0.08596576422452927, 0.30151855826377871,
    0.58514208267132439, 0.88403650492429731, 1.0476295638084412, 0.91729557037353515,
    0.55824810008207959, 0.24846323480208715, 0.082662385882188882, 0.023565863414357107]

/-- `Y`, spectrum.cpp:29-47. -/
noncomputable def matchY : Samples :=
  ![0.0013634899475922187, 0.010440415943351884, 0.033597446996718648, 0.077808559965342278,
    0.16970793592433134, 0.38263264827430249, 0.73335171341896055, 0.95049857179323827,
    0.98971243401368458, 0.88304891208807623, 0.67035055945316946, 0.43439004709323248,
    0.22639957609275976, 0.093565923050045963, 0.030277141408684354, 0.0085307513410225518]

/-- `Z`, spectrum.cpp:49-67. -/
noncomputable def matchZ : Samples :=
  ![0.23185277074575425, 1.2145957302053769, 1.7617404375473658, 1.4557389440139135,
    0.66370667571822806, 0.24021451229850452, 0.075098564475774759, 0.020824563254912696,
    0.0045391401535986612, 0.0017035374639090151, 0.00090068979518643274, 0.00025727244249234595,
    3.9191220954914268e-5, 1.964333174934533e-6, 0, 0]

/-- `INVY_SUM`, spectrum.cpp:69. -/
noncomputable def invYSum : ℝ := 0.17546832144055843

/-- The sums of `Spectrum::to_xyz`, spectrum.cpp:586-649, with `SPECTRAL` (written out in the code). -/
noncomputable def spectrumXyz (w : Samples) : V3 ℝ :=
  ⟨(∑ i, w i * matchX i) * invYSum, (∑ i, w i * matchY i) * invYSum, (∑ i, w i * matchZ i) * invYSum⟩

/-- `Spectrum::luminance`, spectrum.cpp:651-675, with `SPECTRAL`. -/
noncomputable def luminance (w : Samples) : ℝ := (∑ i, w i * matchY i) * invYSum

/-- `Spectrum::Spectrum(initializer_list)`, spectrum.cpp:425-455, without `SPECTRAL`: the three means are stored
as X, Y and Z. -/
noncomputable def reduce (w : Samples) : V3 ℝ :=
  ⟨(w 0 + w 1 + w 2 + w 3 + w 4) / 5, (w 5 + w 6 + w 7 + w 8 + w 9 + w 10) / 6, (w 11 + w 12 + w 13 + w 14 + w 15) / 5⟩

/-! ### Black bodies -/

/-- `PLANCK_H`, validator.h:43. -/
noncomputable def planckH : ℝ := 6.62606957e-34
/-- `BOLTZMANN_K`, validator.h:45. -/
noncomputable def boltzmannK : ℝ := 1.38064852e-23
/-- Speed of light, spectrum.cpp:388. -/
noncomputable def lightSpeed : ℝ := 299792458
/-- `FLT_MIN`. -/
noncomputable def fltMin : ℝ := 1 / 2 ^ 126

/-- `current_wavelength`, spectrum.cpp:394, 402. -/
noncomputable def wavelength (i : Fin 16) : ℝ := 400 * 1e-9 + (i.val : ℝ) * (20 * 1e-9)

/-- A sample before the normalisation, spectrum.cpp:398-399. -/
noncomputable def emission (t : ℝ) (i : Fin 16) : ℝ :=
  let frc := 2 * planckH * (lightSpeed * lightSpeed)
  let src := planckH * lightSpeed / boltzmannK
  frc / wavelength i ^ 5 * (1 / (Real.exp (src / (t * wavelength i)) + 1))

/-- `maxval`, spectrum.cpp:395-401. -/
noncomputable def largest (t : ℝ) : ℝ := (List.finRange 16).foldl (fun m i => if m < emission t i then emission t i else m) fltMin

/-- `Spectrum::Spectrum(int)`, spectrum.cpp:368-405 (the temperature is not negative in the configuration). -/
noncomputable def blackBody (t : Nat) : Samples := if t = 0 then fun _ => 0 else fun i => emission t i / largest t

/-! ### Spectra of colours -/

/-- `SPECTRUM_WHITE`, spectrum.cpp:83-101. -/
noncomputable def white : Samples :=
  ![1.0619347266616228, 1.0623373513955183, 1.0624330274817486, 1.0624850787200137,
    1.0622213950288308, 1.0613081599651542, 1.0613058645182336, 1.0618168659745209,
    1.0624642293010491, 1.0624838864140043, 1.0624682453762331, 1.0625355983287506,
    1.0624016329348598, 1.0622653248789862, 1.060266533148627, 1.0600420908765831]

/-- `SPECTRUM_WHITEL`, spectrum.cpp:103-121. -/
noncomputable def whiteL : Samples :=
  ![1.1560446394211681, 1.1564162465744781, 1.1567872929485827, 1.1565328954114107,
    1.1565926830659454, 1.1565499678850697, 1.1472133116300325, 1.1314209727068025,
    1.096408860125702, 1.0338718350511178, 0.96528604465789958, 0.92067216838305188,
    0.90011672087937411, 0.88940075523174911, 0.88083842252481404, 0.87810499922653207]

/-- `SPECTRUM_CYAN`, spectrum.cpp:123-141. -/
noncomputable def cyan : Samples :=
  ![1.0240953312699979, 1.0245612457188975, 1.0463755555238345, 1.0327846651059092,
    1.0478428969483209, 1.0535090536305822, 1.0534870576691449, 1.0530663848751949,
    1.0549102750144981, 0.94299173220279198, 0.3100097408600444, 0.0033711342032203243,
    -0.0048549813110745684, 0.0018582205785167482, 0.0039837672915054804, 0.010507259067086385]

/-- `SPECTRUM_CYANL`, spectrum.cpp:143-161. -/
noncomputable def cyanL : Samples :=
  ![1.1352399582424499, 1.1358531764433719, 1.1362707169771014, 1.1359364376354608,
    1.1361867189829913, 1.135817770159788, 1.1359519356976406, 1.135423392708292,
    1.1224513886352236, 0.87073337556349084, 0.3803441995397272, 0.051216852241201545,
    -0.011762638745943615, -0.01060685685959013, -0.006931473364874461, -0.0077818774183695668]

/-- `SPECTRUM_MAGENTA`, spectrum.cpp:163-181. -/
noncomputable def magenta : Samples :=
  ![0.99302530302633674, 1.0170691330352013, 1.0143947530476214, 1.0070517895374196,
    0.80112726913173504, 0.077593476678434567, 0.003229957831351733, -0.004352238640709956,
    0.0026944590704797754, 0.28205531033673215, 0.8570353689334701, 0.99378492125784268,
    0.98449588288224388, 0.8937980881442511, 0.94958431903872431, 0.9395992587226637]

/-- `SPECTRUM_MAGENTAL`, spectrum.cpp:183-201. -/
noncomputable def magentaL : Samples :=
  ![1.0765584064227334, 1.0770490751029975, 1.0731253134738323, 1.0796647470180021,
    1.0024747756009726, 0.4395828981593643, 0.02042973274257508, -0.0015031343728669692,
    -6.099749699375323e-06, 0.072151645981868115, 0.48078616824947817, 0.97313406556425108,
    1.0781818622728534, 1.0327505540054573, 1.0495214724241742, 1.0257450908661028]

/-- `SPECTRUM_YELLOW`, spectrum.cpp:203-221. -/
noncomputable def yellow : Samples :=
  ![-0.0059362362867909409, -0.0040293484704144403, 0.034632747920561285, 0.19407661745186114,
    0.45561541868250915, 0.78117265145981962, 1.0163873556505527, 1.0511958466847318,
    1.0513470268321483, 1.0515277720869929, 1.0512298920801075, 1.0515211534901903,
    1.0514264026060656, 1.0513103386739624, 1.0507004197273715, 1.0485826837788901]

/-- `SPECTRUM_YELLOWL`, spectrum.cpp:223-241. -/
noncomputable def yellowL : Samples :=
  ![0.0001468672999305493, -0.00013161147654402951, -0.00016768424395723818, 0.089519214436320216,
    0.74821476916582985, 1.0340727288469598, 1.0365778653585402, 1.0367058054560021,
    1.0365194490895373, 1.03661227107821, 1.0361321399468379, 1.0144985871415191,
    0.8293751396865352, 0.6705682032005652, 0.60059597683336108, 0.58277723714307716]

/-- `SPECTRUM_RED`, spectrum.cpp:243-261. -/
noncomputable def red : Samples :=
  ![0.11487922506830811, 0.060141120462551691, 0.0040665397109191335, 0.010459427718803191,
    0.0035470993579631675, -0.0052706076654779289, -0.0062588252221244959, -0.0086496045197971341,
    0.00097200190739861079, 0.14679380036909495, 0.85847180162874637, 0.99821493324988597,
    0.99605297040670981, 1.0018494025816944, 0.99593834054491903, 0.9811979963396622]

/-- `SPECTRUM_REDL`, spectrum.cpp:263-281. -/
noncomputable def redL : Samples :=
  ![0.057139392791085111, 0.043034047329456572, 0.021260689526515806, 0.001077172714861781,
    0.00057985241220036873, -0.00022486144117236386, -0.00012009820021618776, -0.0001991308173681336,
    0.012756076079520295, 0.1832461591194777, 0.51948819108311795, 0.82120171360154059,
    0.96263010562297358, 0.99410699787589729, 0.99018057306059759, 0.98278552726948454]

/-- `SPECTRUM_GREEN`, spectrum.cpp:283-301. -/
noncomputable def green : Samples :=
  ![-0.010865527381003439, -0.010329458431599345, -0.0083431520558099291, 0.083794233190453149,
    0.57500780803880425, 0.95115677422179923, 0.99948898769838934, 0.99968078182605802,
    0.9988159758735875, 0.88618140828021486, 0.35690377193776984, 0.01325598457467465,
    -0.0050991929756587905, -0.0083927995026960873, -0.0084413650357697944, -0.0047501377518373699]

/-- `SPECTRUM_GREENL`, spectrum.cpp:303-321. -/
noncomputable def greenL : Samples :=
  ![0.0064830780912117957, 0.00019032331867488899, -0.0081060480798639516, 0.048161890183585902,
    0.66729637282872345, 1.0307844454225901, 1.0311600157417389, 1.0265626896736526,
    1.0363099387922192, 1.0120735391513225, 0.32668720729539291, 0.0033846154767388065,
    0.0081701266623202973, 0.0088889810224966476, 0.00036631914529600032, 0.00099462806143045101]

/-- `SPECTRUM_BLUE`, spectrum.cpp:323-341. -/
noncomputable def blue : Samples :=
  ![0.99498216185557875, 0.99569451590852531, 0.99983310193704411, 0.9648523926660395,
    0.67060127526424484, 0.29157891777810102, 0.044614561825850822, -6.7793271695393519e-06,
    0.00050597357489660954, 0.0023497993510693772, 0.00067442519549839989, 0.016621955742817246,
    0.040211692914411255, 0.049604490414015802, 0.043574051087547458, 0.027483432250758107]

/-- `SPECTRUM_BLUEL`, spectrum.cpp:343-361. -/
noncomputable def blueL : Samples :=
  ![1.054236254920313, 1.0576206026996142, 1.058143833550661, 1.0568818098511983,
    1.0207912014756255, 0.2974275399820579, -0.0014770394250804989, -0.0013982161133251694,
    -0.00059190711447091779, -0.0010090527379278194, -0.0015479588813372375, 0.0051106864601078716,
    0.047054873524993275, 0.12827536395203271, 0.15246421103968871, 0.16615733676564479]

/-- The seven base spectra. -/
structure Base where
  white : Samples
  cyan : Samples
  magenta : Samples
  yellow : Samples
  red : Samples
  green : Samples
  blue : Samples

/-- Base spectra of surfaces, spectrum.cpp:485-527. -/
noncomputable def surfaceBase : Base := ⟨white, cyan, magenta, yellow, red, green, blue⟩
/-- Base spectra of lights, spectrum.cpp:531-573. -/
noncomputable def lightBase : Base := ⟨whiteL, cyanL, magentaL, yellowL, redL, greenL, blueL⟩

/-- The sum of base spectra, spectrum.cpp:485-526 and 531-572. -/
noncomputable def mix (b : Base) (c : V3 ℝ) (i : Fin 16) : ℝ :=
  if c.x ≤ c.y ∧ c.x ≤ c.z then
    if c.y ≤ c.z then 0 + b.white i * c.x + b.cyan i * (c.y - c.x) + b.blue i * (c.z - c.y)
    else 0 + b.white i * c.x + b.cyan i * (c.z - c.x) + b.green i * (c.y - c.z)
  else if c.y ≤ c.x ∧ c.y ≤ c.z then
    if c.x ≤ c.z then 0 + b.white i * c.y + b.magenta i * (c.x - c.y) + b.blue i * (c.z - c.x)
    else 0 + b.white i * c.y + b.magenta i * (c.z - c.y) + b.red i * (c.x - c.z)
  else
    if c.x ≤ c.y then 0 + b.white i * c.z + b.yellow i * (c.x - c.z) + b.green i * (c.y - c.x)
    else 0 + b.white i * c.z + b.yellow i * (c.y - c.z) + b.red i * (c.x - c.y)

/-- `clamp`, utility.hpp:172-180. -/
noncomputable def clamp01 (v : ℝ) : ℝ := if v < 0 then 0 else if 1 < v then 1 else v

/-- `Spectrum::Spectrum(ColorRGB, bool)`, spectrum.cpp:479-576, with `SPECTRAL`. -/
noncomputable def ofRgb (c : V3 ℝ) (light : Bool) : Samples := fun i =>
  clamp01 (if light then mix lightBase c i * 0.86445 else mix surfaceBase c i * 0.94)

/-- `Spectrum::Spectrum(ColorRGB, bool)`, spectrum.cpp:578-582, without `SPECTRAL`: X, Y and Z. -/
noncomputable def ofRgbPlain (c : V3 ℝ) : V3 ℝ := toXyz c

/-! ### Refraction indices -/

/-- Wavelength in micrometres, refraction.cpp:104, 114 and 131, 144. -/
noncomputable def micron (i : Fin 16) : ℝ := 400 * 1e-3 + (i.val : ℝ) * (20 * 1e-3)

/-- `cauchy`, refraction.cpp:96-121, with `SPECTRAL`. -/
noncomputable def cauchy (b c d : ℝ) : Samples := fun i => b + c / (micron i * micron i) + d / micron i ^ 4

/-- `cauchy` without `SPECTRAL`: the value of all channels. -/
noncomputable def cauchyPlain (b c d : ℝ) : ℝ := (∑ i, cauchy b c d i) * (1 / 16)

/-- A sample of `sellmeier`, refraction.cpp:134-143; `none` is a division by zero or the root of a negative
number. -/
noncomputable def sellmeier (b1 b2 b3 c1 c2 c3 : ℝ) (i : Fin 16) : Option ℝ :=
  let w2 := micron i * micron i
  if w2 - c1 = 0 ∨ w2 - c2 = 0 ∨ w2 - c3 = 0 then none
  else
    let s := 1 + b1 * w2 / (w2 - c1) + b2 * w2 / (w2 - c2) + b3 * w2 / (w2 - c3)
    if s < 0 then none else some (Real.sqrt s)

end Spectre.Color
