import Verif.Model.Float32
import Mathlib.Data.Nat.Sqrt

/-
Model of `src/samplers/sampler.cpp`, `sampler_random.cpp`, `sampler_stratified.cpp`.

Numbers are exact rationals; the rounding of each float operation is the explicit parameter `rd`
(`fl` of Verif/Model/Float32.lean for the real code, `id` for exact arithmetic).  The random number
generator is an arbitrary stream `rnd : ℕ → ℚ` of values in [0,1] (see C05), read through a cursor.
-/

namespace Spectre.Sampler

/-- `struct Sample`, sampler.hpp. -/
structure Sample where
  posx : ℚ
  posy : ℚ

/-- Members `startx,endx,starty,endy,spp` of `Sampler`, sampler.cpp:6-14. -/
structure Conf where
  startx : ℤ
  endx : ℤ
  starty : ℤ
  endy : ℤ
  spp : ℕ

/-- Mutable state: `nextx`, `nexty` and how many random numbers were drawn. -/
structure St where
  nextx : ℤ
  nexty : ℤ
  cursor : ℕ

/-- Constructors: `nextx = startx; nexty = starty`, sampler_random.cpp:6-12 and
sampler_stratified.cpp:6-18. -/
def init (c : Conf) : St := { nextx := c.startx, nexty := c.starty, cursor := 0 }

/-- `if(++nextx == endx) { nextx = startx; nexty++; }`, sampler_random.cpp:24-28 and
sampler_stratified.cpp:38-42. -/
def advance (c : Conf) (st : St) (drawn : ℕ) : St :=
  if st.nextx + 1 = c.endx then
    { nextx := c.startx, nexty := st.nexty + 1, cursor := st.cursor + drawn }
  else
    { nextx := st.nextx + 1, nexty := st.nexty, cursor := st.cursor + drawn }

/-- The samples written by `SamplerRandom::get_samples`, sampler_random.cpp:18-23. -/
def randomSamples (rd : ℚ → ℚ) (rnd : ℕ → ℚ) (c : Conf) (st : St) : List Sample :=
  (List.range c.spp).map fun i =>
    { posx := rd (st.nextx + rnd (st.cursor + 2 * i)),
      posy := rd (st.nexty + rnd (st.cursor + 2 * i + 1)) }

/-- `SamplerRandom::get_samples`, sampler_random.cpp:14-30; `none` is the return value `false`. -/
def getRandom (rd : ℚ → ℚ) (rnd : ℕ → ℚ) (c : Conf) (st : St) : Option (List Sample × St) :=
  if st.nexty = c.endy then none
  else some (randomSamples rd rnd c st, advance c st (2 * c.spp))

/-- `strata_x = (int)sqrtf((float)spp)`, sampler_stratified.cpp:15-16.  Simplification: the exact
integer square root is used; `sqrtf` returns the same integer part for perfect squares up to
2^24 (the values the configuration produces, see C51). -/
def strata (c : Conf) : ℕ := Nat.sqrt c.spp

/-- Coordinate of one stratified sample: `(nextx)+((x+randomization_x)*dx)` with
`dx = 1.0f/strata_x`, sampler_stratified.cpp:24-25, 32-33. -/
def stratPos (rd : ℚ → ℚ) (k : ℕ) (next : ℤ) (x : ℕ) (r : ℚ) : ℚ :=
  rd (next + rd (rd (x + r) * rd (1 / k)))

/-- The samples written by `SamplerStratified::get_samples`, sampler_stratified.cpp:26-37.
`jitter` is the flag `randomized`; without it 0.5 is used and no random number is drawn. -/
def stratifiedSamples (rd : ℚ → ℚ) (rnd : ℕ → ℚ) (jitter : Bool) (c : Conf) (st : St) :
    List Sample :=
  let k := strata c
  (List.range k).flatMap fun y =>
    (List.range k).map fun x =>
      let i := y * k + x
      { posx := stratPos rd k st.nextx x (if jitter then rnd (st.cursor + 2 * i) else 1 / 2),
        posy := stratPos rd k st.nexty y (if jitter then rnd (st.cursor + 2 * i + 1) else 1 / 2) }

/-- `SamplerStratified::get_samples`, sampler_stratified.cpp:20-44. -/
def getStratified (rd : ℚ → ℚ) (rnd : ℕ → ℚ) (jitter : Bool) (c : Conf) (st : St) :
    Option (List Sample × St) :=
  if st.nexty = c.endy then none
  else some (stratifiedSamples rd rnd jitter c st,
    advance c st (if jitter then 2 * (strata c * strata c) else 0))

/-- Effect on the caller's array `samples[spp]` (renderer.cpp:162, 209): the written prefix is
replaced, the rest keeps its previous content. -/
def writeTo (old : List Sample) (new : List Sample) : List Sample := new ++ old.drop new.length

/-- The result of call number `n` (0-based) when `get_samples` is called again and again. -/
def call (get : St → Option (List Sample × St)) (st : St) : ℕ → Option (List Sample)
  | 0 => (get st).map (·.1)
  | n + 1 =>
    match get st with
    | none => call get st n
    | some (_, st') => call get st' n

end Spectre.Sampler
