import Verif.Model.FloatTexture

/-
Model in binary32 of the positions of samples (src/samplers/sampler_random.cpp, sampler_stratified.cpp), one coordinate at a
time.  Which pixels and strata are visited is the matter of `Model/Sampler.lean`.
-/

namespace Spectre.FSampler

open F32

/-- `nextx+rng.getNumber()`, sampler_random.cpp:20-21. -/
def randomPos (next : ℤ) (r : F32) : F32 := add (FTex.ofInt next) r

/-- `dx = 1.0f/strata_x`, sampler_stratified.cpp:22-23. -/
def width (strata : ℤ) : F32 := div (num 1) (FTex.ofInt strata)

/-- `(nextx)+((x+randomization_x)*dx)`, sampler_stratified.cpp:30-31. -/
def stratumPos (next x : ℤ) (r : F32) (strata : ℤ) : F32 :=
  add (FTex.ofInt next) (mul (add (FTex.ofInt x) r) (width strata))

end Spectre.FSampler
