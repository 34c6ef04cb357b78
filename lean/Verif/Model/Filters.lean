import Mathlib.Analysis.SpecialFunctions.Trigonometric.Basic
import Mathlib.Analysis.SpecialFunctions.Exp

/-
Model of the reconstruction filters (src/samplers/filter_*.cpp) over the reals, without rounding.
-/

namespace Spectre.Filters

/-- `class Filter`, filter.hpp:28-60: the ranges and the virtual `weight`. -/
structure Filter where
  rx : ℝ
  ry : ℝ
  weight : ℝ → ℝ → ℝ

/-- `FilterBox`, filter_box.cpp:6-17. -/
noncomputable def box : Filter := ⟨1, 1, fun _ _ => 1⟩

/-- `FilterTent`, filter_tent.cpp:6-18. -/
noncomputable def tent : Filter :=
  ⟨2, 2, fun x y => max 0 (2 - |x|) / 2 * max 0 (2 - |y|) / 2⟩

/-- `FilterGaussian`, filter_gaussian.cpp:6-28; `a` is `falloff`. -/
noncomputable def gaussian (a : ℝ) : Filter :=
  let e := Real.exp (-a * 2 * 2)
  ⟨2, 2, fun x y => max 0 (Real.exp (-a * x * x) - e) * max 0 (Real.exp (-a * y * y) - e)⟩

/-- One axis of `FilterMitchell::weight`, filter_mitchell.cpp:20-39 (the same code is
repeated for y, 40-54); the argument is
`fabsf(offset*(1.f/2)*2.0f)`. -/
noncomputable def mitchell1 (b c x : ℝ) : ℝ :=
  if 1 < x then
    ((-b - 6 * c) * x * x * x + (6 * b + 30 * c) * x * x + (-12 * b - 48 * c) * x + (8 * b + 24 * c)) * (1 / 6)
  else
    ((12 - 9 * b - 6 * c) * x * x * x + (-18 + 12 * b + 6 * c) * x * x + (6 - 2 * b)) * (1 / 6)

/-- `FilterMitchell`, filter_mitchell.cpp:6-56. -/
noncomputable def mitchell (b c : ℝ) : Filter :=
  ⟨2, 2, fun x y => mitchell1 b c |x * (1 / 2) * 2| * mitchell1 b c |y * (1 / 2) * 2|⟩

/-- One axis of `FilterLanczos::weight`, filter_lanczos.cpp:19-32 (repeated for y, 33-44); a division by zero (`tau = 0`), which
gives a NaN in the code, is `none`. -/
noncomputable def lanczos1 (tau x : ℝ) : Option ℝ :=
  let r := |x * (1 / 4)|
  if r < 1 / 100000 then some 1
  else if 1 < r then some 0
  else
    let r := r * Real.pi
    if r * tau = 0 then none
    else some (Real.sin (r * tau) / (r * tau) * (Real.sin r / r))

/-- `FilterLanczos::weight`, filter_lanczos.cpp:17-46; the ranges are 4. -/
noncomputable def lanczos (tau x y : ℝ) : Option ℝ :=
  match lanczos1 tau x, lanczos1 tau y with
  | some a, some b => some (a * b)
  | _, _ => none

end Spectre.Filters
