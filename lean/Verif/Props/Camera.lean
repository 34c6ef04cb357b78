import Verif.Model.Camera
import Verif.Props.Frame
import Mathlib.Analysis.SpecialFunctions.Trigonometric.Arctan
import Mathlib.Analysis.Real.Pi.Bounds

/-
Properties C101-C104: the cameras.
-/

namespace Spectre.Camera

open Spectre.Geom Spectre.Frame
open Spectre.Specular (sdiv)

/-! ### C101 -/

/-- The first three columns of a matrix. -/
def cols (m : M4 ℝ) : Space := ⟨⟨m.m00, m.m10, m.m20⟩, ⟨m.m01, m.m11, m.m21⟩, ⟨m.m02, m.m12, m.m22⟩⟩

theorem scale_pos_unit {v w : V3 ℝ} (c : ℝ) (hc : 0 < c) (h : unit v = some w) : unit (scale v c) = some w := by
  obtain ⟨uw, k, kp, e⟩ := unit_some h
  have hv : v = scale w (1 / k) := by
    rw [e]; simp only [scale]; ext <;> simp only <;> field_simp
  have : scale v c = scale w (c / k) := by
    rw [hv]; simp only [scale]; ext <;> simp only <;> field_simp
  rw [this]
  have l : dot (scale w (c / k)) (scale w (c / k)) = (c / k) ^ 2 := by rw [scale_dot, dot_scale, uw]; ring
  have p : 0 < c / k := by positivity
  unfold unit
  rw [l, if_neg (by positivity), Real.sqrt_sq p.le]
  congr 1
  simp only [scale]; ext <;> simp only <;> field_simp

theorem dot_self_zero (v : V3 ℝ) : dot v v = 0 ↔ v = ⟨0, 0, 0⟩ := by
  constructor
  · intro h
    simp only [dot] at h
    have hx : v.x = 0 := by nlinarith [sq_nonneg v.x, sq_nonneg v.y, sq_nonneg v.z]
    have hy : v.y = 0 := by nlinarith [sq_nonneg v.x, sq_nonneg v.y, sq_nonneg v.z]
    have hz : v.z = 0 := by nlinarith [sq_nonneg v.x, sq_nonneg v.y, sq_nonneg v.z]
    ext <;> assumption
  · rintro rfl; simp [dot]

theorem unit_none (v : V3 ℝ) : unit v = none ↔ v = ⟨0, 0, 0⟩ := by
  rw [← dot_self_zero]
  unfold unit
  split <;> simp_all

theorem lookAt_some {pos eye up : V3 ℝ} {m : M4 ℝ} (h : lookAtInverse pos eye up = some m) :
    ∃ dir left, unit (sub eye pos) = some dir ∧ unit (cross up dir) = some left ∧
      cols m = ⟨left, cross dir left, dir⟩ ∧ (m.m03 = pos.x ∧ m.m13 = pos.y ∧ m.m23 = pos.z) ∧
      (m.m30 = 0 ∧ m.m31 = 0 ∧ m.m32 = 0 ∧ m.m33 = 1) := by
  unfold lookAtInverse at h
  simp only [Option.bind_eq_bind, Option.bind_eq_some_iff, Option.some.injEq] at h
  obtain ⟨nu, hu, dir, hd, left, hl, e⟩ := h
  refine ⟨dir, left, hd, ?_, ?_, ?_, ?_⟩
  · unfold upVector at hu
    split at hu
    · cases hu; exact hl
    · obtain ⟨_, c, cp, ce⟩ := unit_some hu
      have : cross up dir = scale (cross nu dir) (1 / c) := by
        rw [ce]; simp only [cross, scale]; ext <;> simp only <;> field_simp
      rw [this]; exact scale_pos_unit _ (by positivity) hl
  all_goals rw [← e]
  · rfl
  · exact ⟨rfl, rfl, rfl⟩
  · exact ⟨rfl, rfl, rfl, rfl⟩

/-- **C101.** The axes of the camera are orthonormal and right-handed; the third points from the position to the
target, the second upwards and the first is orthogonal to `up`; the origin is the position. -/
theorem C101_frame (pos eye up : V3 ℝ) (m : M4 ℝ) (h : lookAtInverse pos eye up = some m) :
    Orthonormal (cols m) ∧ RightHanded (cols m) ∧ mulPoint m ⟨0, 0, 0⟩ = pos ∧
    (∃ c, 0 < c ∧ (cols m).n = scale (sub eye pos) c) ∧ 0 < dot (cols m).t up ∧ dot (cols m).s up = 0 := by
  obtain ⟨dir, left, hd, hl, e, ⟨px, py, pz⟩, ⟨w0, w1, w2, w3⟩⟩ := lookAt_some h
  obtain ⟨ud, c, cp, ce⟩ := unit_some hd
  obtain ⟨ul, k, kp, ke⟩ := unit_some hl
  have ld : dot left dir = 0 := by rw [ke, scale_dot, cross_right, mul_zero]
  obtain ⟨_, o, r⟩ := frame_of dir left ud ul ld
  rw [e]
  refine ⟨o, r, ?_, ⟨c, cp, ce⟩, ?_, ?_⟩
  · simp only [mulPoint, w0, w1, w2, w3, px, py, pz]; simp
  · show 0 < dot (cross dir left) up
    have t1 : dot (cross dir left) up = dot (cross up dir) left := by simp only [dot, cross]; ring
    have t2 : dot (cross up dir) left = k * dot (cross up dir) (cross up dir) := by rw [ke, dot_scale]
    have t3 : dot (cross up dir) (cross up dir) ≠ 0 := by
      intro z
      rw [unit, if_pos z] at hl
      cases hl
    have t4 : 0 ≤ dot (cross up dir) (cross up dir) := by
      simp only [dot]; nlinarith [sq_nonneg (cross up dir).x, sq_nonneg (cross up dir).y, sq_nonneg (cross up dir).z]
    rw [t1, t2]
    exact mul_pos kp (lt_of_le_of_ne t4 (Ne.symm t3))
  · show dot left up = 0
    rw [ke, scale_dot, cross_left, mul_zero]

theorem mulVec_combine (m : M4 ℝ) (v : V3 ℝ) : mulVec m v = combine (cols m) v := by
  simp only [mulVec, combine, cols, add, scale]

/-- **C101.** The camera moves space rigidly: points keep their distances. -/
theorem C101_rigid (pos eye up : V3 ℝ) (m : M4 ℝ) (h : lookAtInverse pos eye up = some m) (v w : V3 ℝ) :
    dot (mulVec m v) (mulVec m w) = dot v w ∧ sub (mulPoint m v) (mulPoint m w) = mulVec m (sub v w) := by
  obtain ⟨o, _⟩ := C101_frame pos eye up m h
  obtain ⟨_, _, _, _, _, _, ⟨w0, w1, w2, w3⟩⟩ := lookAt_some h
  refine ⟨by rw [mulVec_combine, mulVec_combine, dot_combine _ o], ?_⟩
  simp only [mulPoint, mulVec, sub, w0, w1, w2, w3]
  simp only [zero_mul, add_zero, zero_add, if_true]
  ext <;> simp only <;> ring

/-- **C101.** The camera is undefined exactly if `up` is parallel to the direction of view, or one of them 0. -/
theorem C101_undefined (pos eye up : V3 ℝ) :
    lookAtInverse pos eye up = none ↔ cross up (sub eye pos) = ⟨0, 0, 0⟩ := by
  have par : ∀ (u d : V3 ℝ) (a b : ℝ), a ≠ 0 → b ≠ 0 →
      (cross (scale u a) (scale d b) = ⟨0, 0, 0⟩ ↔ cross u d = ⟨0, 0, 0⟩) := by
    intro u d a b ha hb
    have : cross (scale u a) (scale d b) = scale (cross u d) (a * b) := by
      simp only [cross, scale]; ext <;> simp only <;> ring
    rw [this]
    constructor
    · intro h
      have hx := congrArg V3.x h
      have hy := congrArg V3.y h
      have hz := congrArg V3.z h
      simp only [scale, mul_eq_zero, ha, hb, or_false] at hx hy hz
      ext <;> assumption
    · intro h; rw [h]; simp [scale]
  have one : ∀ v : V3 ℝ, scale v 1 = v := by intro v; simp [scale]
  unfold lookAtInverse upVector
  simp only [Option.bind_eq_bind]
  by_cases hd0 : sub eye pos = ⟨0, 0, 0⟩
  · have : unit (sub eye pos) = none := (unit_none _).2 hd0
    rw [this, hd0]
    simp [cross]
  · obtain ⟨dir, hd⟩ : ∃ d, unit (sub eye pos) = some d :=
      unit_exists (fun h => hd0 ((dot_self_zero _).1 h))
    obtain ⟨_, c, cp, ce⟩ := unit_some hd
    rw [hd]
    split
    · simp only [Option.bind_some, Option.bind_eq_none_iff]
      have := par up (sub eye pos) 1 c one_ne_zero cp.ne'
      rw [one, ← ce] at this
      rw [← this]
      rw [← unit_none]
      cases unit (cross up dir) <;> simp
    · by_cases hu0 : up = ⟨0, 0, 0⟩
      · rw [(unit_none up).2 hu0, hu0]
        simp [cross]
      · obtain ⟨nu, hu⟩ : ∃ d, unit up = some d := unit_exists (fun h => hu0 ((dot_self_zero _).1 h))
        obtain ⟨_, k, kp, ke⟩ := unit_some hu
        rw [hu]
        simp only [Option.bind_some]
        have := par up (sub eye pos) k c kp.ne' cp.ne'
        rw [← ke, ← ce] at this
        rw [← this, ← unit_none]
        cases unit (cross nu dir) <;> simp

example : ∃ m, lookAtInverse ⟨0, 4, 2⟩ ⟨0, 0, -4⟩ ⟨0, 1, 0⟩ = some m := by
  cases h : lookAtInverse ⟨0, 4, 2⟩ ⟨0, 0, -4⟩ ⟨0, 1, 0⟩ with
  | some m => exact ⟨m, rfl⟩
  | none =>
    rw [C101_undefined] at h
    have := congrArg V3.x h
    norm_num [cross, sub] at this

/-! ### C102 -/

/-- Specification of the screen: square pixels, the middle of the image at the origin, `y` upwards, the shorter
side from -1 to 1. -/
noncomputable def screen (width height : Nat) (x y : ℝ) : ℝ × ℝ :=
  let s : ℝ := 2 / min (width : ℝ) height
  ((x - width / 2) * s, (height / 2 - y) * s)

/-- The matrix from raster to screen does what the specification says. -/
theorem raster_screen (width height : Nat) (hw : 0 < width) (hh : 0 < height) (x y z : ℝ) :
    mulPoint (raster2screen width height) ⟨x, y, z⟩ = ⟨(screen width height x y).1, (screen width height x y).2, z⟩ ∧
    (raster2screen width height).m00 = 2 / min (width : ℝ) height ∧
    (raster2screen width height).m11 = -(2 / min (width : ℝ) height) := by
  have hw' : (0 : ℝ) < width := by exact_mod_cast hw
  have hh' : (0 : ℝ) < height := by exact_mod_cast hh
  have mp : ∀ x y z, mulPoint (raster2screen width height) ⟨x, y, z⟩ =
      ⟨(raster2screen width height).m00 * x + (bounds width height).1,
       (raster2screen width height).m11 * y + (bounds width height).2.2.2, z⟩ := by
    intro x y z
    simp only [mulPoint, raster2screen]
    simp
  rw [mp]
  simp only [raster2screen, screen, bounds]
  split
  · rename_i a
    rw [lt_div_iff₀ hh', one_mul] at a
    rw [min_eq_right a.le]
    refine ⟨?_, ?_, ?_⟩
    · ext <;> simp only <;> field_simp <;> ring
    · simp only; field_simp; ring
    · simp only; field_simp; ring
  · rename_i a
    rw [not_lt, div_le_iff₀ hh', one_mul] at a
    rw [min_eq_left a]
    refine ⟨?_, ?_, ?_⟩
    · ext <;> simp only <;> field_simp <;> ring
    · simp only; field_simp; ring
    · simp only; field_simp; ring

theorem ortho_some {pos target up : V3 ℝ} {width height : Nat} {c : Ortho} (h : ortho pos target up width height = some c) :
    lookAtInverse pos target up = some c.camera2world ∧
    c.raster2world = mul (mul c.camera2world orthoScreen) (raster2screen width height) ∧
    c.dx = mulVec (mul (mul identity orthoScreen) (raster2screen width height)) ⟨1, 0, 0⟩ ∧
    c.dy = mulVec (mul (mul identity orthoScreen) (raster2screen width height)) ⟨0, -1, 0⟩ := by
  unfold ortho at h
  simp only [Option.bind_eq_bind, Option.bind_eq_some_iff, Option.some.injEq] at h
  obtain ⟨m, hm, e⟩ := h
  subst e
  exact ⟨hm, rfl, rfl, rfl⟩

/-- Affine matrices compose. -/
theorem mulPoint_affine (a b : M4 ℝ) (ha : a.m30 = 0 ∧ a.m31 = 0 ∧ a.m32 = 0 ∧ a.m33 = 1)
    (hb : b.m30 = 0 ∧ b.m31 = 0 ∧ b.m32 = 0 ∧ b.m33 = 1) (p : V3 ℝ) :
    mulPoint (mul a b) p = mulPoint a (mulPoint b p) := by
  obtain ⟨a0, a1, a2, a3⟩ := ha
  obtain ⟨b0, b1, b2, b3⟩ := hb
  simp only [mulPoint, mul, a0, a1, a2, a3, b0, b1, b2, b3]
  simp only [zero_mul, mul_zero, add_zero, zero_add, mul_one, if_true]
  ext <;> simp only <;> ring

/-- **C102.** Every ray of the orthographic camera starts at the point of the image plane of its screen position
and goes along the third axis of the camera. -/
theorem C102_ray (pos target up : V3 ℝ) (width height : Nat) (hw : 0 < width) (hh : 0 < height) (c : Ortho)
    (h : ortho pos target up width height = some c) (x y : ℝ) :
    lookAtInverse pos target up = some c.camera2world ∧
    orthoRay c x y =
      ⟨mulPoint c.camera2world ⟨(screen width height x y).1, (screen width height x y).2, 0⟩, (cols c.camera2world).n⟩ := by
  obtain ⟨hm, hr, _, _⟩ := ortho_some h
  obtain ⟨_, _, _, _, _, _, aff⟩ := lookAt_some hm
  have s0 : (orthoScreen.m30 = 0 ∧ orthoScreen.m31 = 0 ∧ orthoScreen.m32 = 0 ∧ orthoScreen.m33 = 1) := ⟨rfl, rfl, rfl, rfl⟩
  have sid : ∀ p, mulPoint orthoScreen p = p := by intro p; simp [mulPoint, orthoScreen]
  have aff2 : (mul c.camera2world orthoScreen).m30 = 0 ∧ (mul c.camera2world orthoScreen).m31 = 0 ∧
      (mul c.camera2world orthoScreen).m32 = 0 ∧ (mul c.camera2world orthoScreen).m33 = 1 := by
    simp only [mul, orthoScreen, aff.1, aff.2.1, aff.2.2.1, aff.2.2.2]; norm_num
  refine ⟨hm, ?_⟩
  unfold orthoRay
  rw [hr, mulPoint_affine _ _ aff2 ⟨rfl, rfl, rfl, rfl⟩, mulPoint_affine _ _ aff s0, sid,
    (raster_screen width height hw hh x y 0).1]
  congr 1
  simp only [mulVec, cols]
  ext <;> simp only <;> ring

/-- **C102.** The ray through the middle of the image starts at the position of the camera and points to the
target. -/
theorem C102_centre (pos target up : V3 ℝ) (width height : Nat) (hw : 0 < width) (hh : 0 < height) (c : Ortho)
    (h : ortho pos target up width height = some c) :
    (orthoRay c (width / 2) (height / 2)).o = pos ∧
    ∃ k, 0 < k ∧ (orthoRay c (width / 2) (height / 2)).d = scale (sub target pos) k := by
  obtain ⟨hm, e⟩ := C102_ray pos target up width height hw hh c h (width / 2) (height / 2)
  obtain ⟨_, _, p, t, _, _⟩ := C101_frame _ _ _ _ hm
  rw [e]
  have : screen width height (width / 2) (height / 2) = (0, 0) := by simp [screen]
  rw [this]
  exact ⟨p, t⟩

/-- **C102.** The neighbouring rays are those of a position one *screen* unit per pixel apart, `2/min(width,height)`
pixels, and not one pixel. -/
theorem C102_neighbours (pos target up : V3 ℝ) (width height : Nat) (hw : 0 < width) (hh : 0 < height) (c : Ortho)
    (h : ortho pos target up width height = some c) (x y : ℝ) :
    orthoRays c x y = (orthoRay c x y, orthoRay c (x + 2 / min (width : ℝ) height) y,
      orthoRay c x (y + 2 / min (width : ℝ) height)) := by
  obtain ⟨_, _, e1, e2⟩ := ortho_some h
  obtain ⟨_, m0, m1⟩ := raster_screen width height hw hh 0 0 0
  have d1 : c.dx = ⟨2 / min (width : ℝ) height, 0, 0⟩ := by
    rw [e1, ← m0]; simp [mulVec, mul, identity, orthoScreen, raster2screen]
  have d2 : c.dy = ⟨0, 2 / min (width : ℝ) height, 0⟩ := by
    have : 2 / min (width : ℝ) height = -(raster2screen width height).m11 := by rw [m1]; ring
    rw [e2, this]; simp [mulVec, mul, identity, orthoScreen, raster2screen]
  simp only [orthoRays, orthoRay, d1, d2, add_zero]

/-- **C102.** For images whose shorter side has two pixels the neighbours are the rays one pixel apart. -/
theorem C102_two_pixels_partial (pos target up : V3 ℝ) (width height : Nat) (hw : 0 < width) (hh : 0 < height) (c : Ortho)
    (h : ortho pos target up width height = some c) (hm : min width height = 2) (x y : ℝ) :
    orthoRays c x y = (orthoRay c x y, orthoRay c (x + 1) y, orthoRay c x (y + 1)) := by
  have : min (width : ℝ) height = 2 := by exact_mod_cast hm
  rw [C102_neighbours pos target up width height hw hh c h, this]
  norm_num

/-- **C102** is violated: for every other image, neither of the neighbours is the ray one pixel apart. -/
theorem C102_violated_offset (pos target up : V3 ℝ) (width height : Nat) (hw : 0 < width) (hh : 0 < height) (c : Ortho)
    (h : ortho pos target up width height = some c) (hm : min width height ≠ 2) (x y : ℝ) :
    (orthoRays c x y).2.1 ≠ orthoRay c (x + 1) y ∧ (orthoRays c x y).2.2 ≠ orthoRay c x (y + 1) := by
  have hp : (0 : ℝ) < min (width : ℝ) height := by
    rw [lt_min_iff]; exact ⟨by exact_mod_cast hw, by exact_mod_cast hh⟩
  have ne : (2 : ℝ) / min (width : ℝ) height ≠ 1 := by
    intro e
    rw [div_eq_one_iff_eq hp.ne'] at e
    apply hm
    exact_mod_cast e.symm
  have sp : (0 : ℝ) < 2 / min (width : ℝ) height := by positivity
  -- different screen positions give different origins
  have inj : ∀ x y x' y', orthoRay c x y = orthoRay c x' y' → screen width height x y = screen width height x' y' := by
    intro x y x' y' e
    obtain ⟨hm, e1⟩ := C102_ray pos target up width height hw hh c h x y
    obtain ⟨_, e2⟩ := C102_ray pos target up width height hw hh c h x' y'
    rw [e1, e2] at e
    have eo := congrArg Ray.o e
    simp only at eo
    generalize hp : (⟨(screen width height x y).1, (screen width height x y).2, 0⟩ : V3 ℝ) = p at eo
    generalize hq : (⟨(screen width height x' y').1, (screen width height x' y').2, 0⟩ : V3 ℝ) = q at eo
    obtain ⟨_, s⟩ := C101_rigid _ _ _ _ hm p q
    obtain ⟨l, _⟩ := C101_rigid _ _ _ _ hm (sub p q) (sub p q)
    rw [← s, eo] at l
    have z : dot (sub (mulPoint c.camera2world q) (mulPoint c.camera2world q))
      (sub (mulPoint c.camera2world q) (mulPoint c.camera2world q)) = 0 := by simp [sub, dot]
    rw [z] at l
    have := (dot_self_zero _).1 l.symm
    have hx := congrArg V3.x this
    have hy := congrArg V3.y this
    rw [← hp, ← hq] at hx hy
    simp only [sub] at hx hy
    exact Prod.ext (by linarith) (by linarith)
  rw [C102_neighbours pos target up width height hw hh c h]
  constructor
  · intro e
    have := congrArg Prod.fst (inj _ _ _ _ e)
    simp only [screen] at this
    have := mul_right_cancel₀ sp.ne' this
    exact ne (by linarith)
  · intro e
    have := congrArg Prod.snd (inj _ _ _ _ e)
    simp only [screen] at this
    have := mul_right_cancel₀ sp.ne' this
    exact ne (by linarith)

example : ∃ c, ortho ⟨0, 0, -10⟩ ⟨0, 0, 100⟩ ⟨0, 1, 0⟩ 800 600 = some c := by
  cases h : lookAtInverse ⟨0, 0, -10⟩ ⟨0, 0, 100⟩ ⟨0, 1, 0⟩ with
  | some m => exact ⟨_, by rw [ortho, h]; rfl⟩
  | none =>
    rw [C101_undefined] at h
    have := congrArg V3.x h
    norm_num [cross, sub] at this

/-! ### C103 -/

/-- The inverted matrix of the perspective camera. -/
theorem persp_inverse (k : ℝ) :
    det (perspScreen k) = k ^ 2 * (1000 / 99999) ∧
    ∀ s, inverse (1 / 100000) (perspScreen k) = some s → k ≠ 0 ∧
      s = ⟨1 / k, 0, 0, 0, 0, 1 / k, 0, 0, 0, 0, 0, 1, 0, 0, -(99999 / 1000), 100⟩ := by
  have d : det (perspScreen k) = k ^ 2 * (1000 / 99999) := by
    simp only [det, inv, perspScreen]; norm_num; ring
  refine ⟨d, ?_⟩
  intro s h
  have k0 : k ≠ 0 := by
    rintro rfl
    unfold inverse at h
    rw [d] at h
    norm_num at h
    cases h
  refine ⟨k0, ?_⟩
  unfold inverse at h
  rw [d] at h
  split at h
  · cases h
  · simp only [Option.some.injEq] at h
    rw [← h]
    simp only [inv, perspScreen]
    ext <;> simp only <;> norm_num <;> field_simp <;> norm_num

theorem persp_some {pos target up : V3 ℝ} {width height : Nat} {fov : ℝ} {c : Persp}
    (h : persp pos target up width height fov = some c) :
    lookAtInverse pos target up = some c.camera2world ∧ Real.tan (fov / 2) ≠ 0 ∧
    (let t := Real.tan (fov / 2)
     c.raster2camera = mul ⟨t, 0, 0, 0, 0, t, 0, 0, 0, 0, 0, 1, 0, 0, -(99999 / 1000), 100⟩ (raster2screen width height)) ∧
    c.dx = sub (mulPoint c.raster2camera ⟨1, 0, 0⟩) (mulPoint c.raster2camera ⟨0, 0, 0⟩) ∧
    c.dy = sub (mulPoint c.raster2camera ⟨0, 1, 0⟩) (mulPoint c.raster2camera ⟨0, 0, 0⟩) := by
  unfold persp at h
  simp only [Option.bind_eq_bind, Option.bind_eq_some_iff, Option.some.injEq] at h
  obtain ⟨m, hm, k, hk, s, hs, e⟩ := h
  unfold sdiv at hk
  split at hk
  · cases hk
  · rename_i t0
    cases hk
    obtain ⟨_, es⟩ := (persp_inverse _).2 s hs
    subst e
    refine ⟨hm, t0, ?_, rfl, rfl⟩
    simp only
    rw [es]
    simp only [mul, identity]
    ext <;> simp only <;> simp

/-- The point of the near plane of a raster position. -/
theorem persp_point {pos target up : V3 ℝ} {width height : Nat} (hw : 0 < width) (hh : 0 < height) {fov : ℝ} {c : Persp}
    (h : persp pos target up width height fov = some c) (x y : ℝ) :
    mulPoint c.raster2camera ⟨x, y, 0⟩ =
      scale ⟨Real.tan (fov / 2) * (screen width height x y).1, Real.tan (fov / 2) * (screen width height x y).2, 1⟩ (1 / 100) := by
  obtain ⟨_, _, e, _, _⟩ := persp_some h
  obtain ⟨rs, _, _⟩ := raster_screen width height hw hh x y 0
  rw [e]
  have rx := congrArg V3.x rs
  have ry := congrArg V3.y rs
  simp only at rx ry
  rw [← rx, ← ry]
  simp only [mulPoint, mul, raster2screen, scale]
  norm_num
  constructor <;> ring

/-- **C103.** Every ray of the perspective camera starts at the position and goes towards the point of the plane
at distance 1 given by the screen position times `tan(fov/2)`. -/
theorem C103_ray (pos target up : V3 ℝ) (width height : Nat) (hw : 0 < width) (hh : 0 < height) (fov : ℝ) (c : Persp)
    (h : persp pos target up width height fov = some c) (x y : ℝ) :
    lookAtInverse pos target up = some c.camera2world ∧
    ∃ d, unit ⟨Real.tan (fov / 2) * (screen width height x y).1, Real.tan (fov / 2) * (screen width height x y).2, 1⟩ = some d ∧
      perspRay c x y = some ⟨pos, mulVec c.camera2world d⟩ := by
  obtain ⟨hm, _⟩ := persp_some h
  obtain ⟨_, _, p, _⟩ := C101_frame _ _ _ _ hm
  refine ⟨hm, ?_⟩
  obtain ⟨d, hd⟩ := unit_exists (v := (⟨Real.tan (fov / 2) * (screen width height x y).1,
    Real.tan (fov / 2) * (screen width height x y).2, 1⟩ : V3 ℝ)) (by
      simp only [dot]
      nlinarith [sq_nonneg (Real.tan (fov / 2) * (screen width height x y).1),
        sq_nonneg (Real.tan (fov / 2) * (screen width height x y).2)])
  refine ⟨d, hd, ?_⟩
  unfold perspRay
  rw [persp_point hw hh h, scale_pos_unit _ (by norm_num) hd, p]
  rfl

/-- **C103.** The neighbouring rays are exactly those one pixel apart. -/
theorem C103_neighbours (pos target up : V3 ℝ) (width height : Nat) (hw : 0 < width) (hh : 0 < height) (fov : ℝ) (c : Persp)
    (h : persp pos target up width height fov = some c) (x y : ℝ) :
    ∃ r rx ry, perspRays c x y = some (r, rx, ry) ∧ perspRay c x y = some r ∧ perspRay c (x + 1) y = some rx ∧
      perspRay c x (y + 1) = some ry := by
  obtain ⟨_, d, hd, e⟩ := C103_ray pos target up width height hw hh fov c h x y
  obtain ⟨_, dx, hdx, ex⟩ := C103_ray pos target up width height hw hh fov c h (x + 1) y
  obtain ⟨hm, dy, hdy, ey⟩ := C103_ray pos target up width height hw hh fov c h x (y + 1)
  obtain ⟨_, _, p, _⟩ := C101_frame _ _ _ _ hm
  obtain ⟨_, _, _, e1, e2⟩ := persp_some h
  refine ⟨_, _, _, ?_, e, ex, ey⟩
  have a1 : add (mulPoint c.raster2camera ⟨x, y, 0⟩) c.dx = mulPoint c.raster2camera ⟨x + 1, y, 0⟩ := by
    rw [e1, persp_point hw hh h, persp_point hw hh h, persp_point hw hh h, persp_point hw hh h]
    simp only [add, sub, scale, screen]
    ext <;> simp only <;> ring
  have a2 : add (mulPoint c.raster2camera ⟨x, y, 0⟩) c.dy = mulPoint c.raster2camera ⟨x, y + 1, 0⟩ := by
    rw [e2, persp_point hw hh h, persp_point hw hh h, persp_point hw hh h, persp_point hw hh h]
    simp only [add, sub, scale, screen]
    ext <;> simp only <;> ring
  unfold perspRays
  simp only
  rw [a1, a2, persp_point hw hh h, persp_point hw hh h, persp_point hw hh h, scale_pos_unit _ (by norm_num) hd,
    scale_pos_unit _ (by norm_num) hdx, scale_pos_unit _ (by norm_num) hdy, p]
  rfl

/-- **C103.** The field of view is the angle between the rays through the middles of the two longer sides. -/
theorem C103_angle (pos target up : V3 ℝ) (width height : Nat) (hw : 0 < width) (hh : 0 < height) (fov : ℝ) (c : Persp)
    (h : persp pos target up width height fov = some c) :
    ∃ r s, (if height ≤ width then perspRay c (width / 2) 0 = some r ∧ perspRay c (width / 2) height = some s
        else perspRay c 0 (height / 2) = some r ∧ perspRay c width (height / 2) = some s) ∧
      dot r.d s.d = Real.cos fov := by
  have hw' : (0 : ℝ) < width := by exact_mod_cast hw
  have hh' : (0 : ℝ) < height := by exact_mod_cast hh
  obtain ⟨_, t0, _⟩ := persp_some h
  have c0 : Real.cos (fov / 2) ≠ 0 := by
    intro z; apply t0; rw [Real.tan_eq_sin_div_cos, z, div_zero]
  have key : ∀ v w d e : V3 ℝ, unit v = some d → unit w = some e → dot v v = 1 + Real.tan (fov / 2) ^ 2 →
      dot w w = 1 + Real.tan (fov / 2) ^ 2 → dot v w = 1 - Real.tan (fov / 2) ^ 2 → dot d e = Real.cos fov := by
    intro v w d e hv hw vv ww vw
    have pos : 0 < 1 + Real.tan (fov / 2) ^ 2 := by positivity
    unfold unit at hv hw
    rw [vv, if_neg pos.ne'] at hv
    rw [ww, if_neg pos.ne'] at hw
    cases hv; cases hw
    rw [scale_dot, dot_scale, vw]
    have s2 : Real.sqrt (1 + Real.tan (fov / 2) ^ 2) * Real.sqrt (1 + Real.tan (fov / 2) ^ 2) = 1 + Real.tan (fov / 2) ^ 2 :=
      Real.mul_self_sqrt pos.le
    have : 1 / Real.sqrt (1 + Real.tan (fov / 2) ^ 2) *
        (1 / Real.sqrt (1 + Real.tan (fov / 2) ^ 2) * (1 - Real.tan (fov / 2) ^ 2)) =
        (1 - Real.tan (fov / 2) ^ 2) / (1 + Real.tan (fov / 2) ^ 2) := by
      have : Real.sqrt (1 + Real.tan (fov / 2) ^ 2) ≠ 0 := (Real.sqrt_pos.2 pos).ne'
      conv_rhs => rw [← s2]
      field_simp
    rw [this]
    have cf : Real.cos fov = Real.cos (fov / 2) ^ 2 - Real.sin (fov / 2) ^ 2 := by
      rw [← Real.cos_two_mul']; congr 1; ring
    have sc : Real.sin (fov / 2) ^ 2 = 1 - Real.cos (fov / 2) ^ 2 := by
      linarith [Real.sin_sq_add_cos_sq (fov / 2)]
    rw [cf, Real.tan_eq_sin_div_cos, div_pow, sc]
    field_simp
    ring
  split
  · rename_i le
    have le' : (height : ℝ) ≤ width := by exact_mod_cast le
    obtain ⟨hm, d, hd, e⟩ := C103_ray pos target up width height hw hh fov c h (width / 2) 0
    obtain ⟨_, d', hd', e'⟩ := C103_ray pos target up width height hw hh fov c h (width / 2) height
    refine ⟨_, _, ⟨e, e'⟩, ?_⟩
    have s1 : screen width height (width / 2) 0 = (0, 1) := by
      simp only [screen, min_eq_right le']; ext <;> simp only <;> field_simp <;> ring
    have s2 : screen width height (width / 2) height = (0, -1) := by
      simp only [screen, min_eq_right le']; ext <;> simp only <;> field_simp <;> ring
    rw [s1] at hd
    rw [s2] at hd'
    rw [show dot (mulVec c.camera2world d) (mulVec c.camera2world d') = dot d d' from (C101_rigid _ _ _ _ hm _ _).1]
    exact key _ _ _ _ hd hd' (by simp only [dot]; ring) (by simp only [dot]; ring) (by simp only [dot]; ring)
  · rename_i lt
    have le' : (width : ℝ) ≤ height := by exact_mod_cast (not_le.1 lt).le
    obtain ⟨hm, d, hd, e⟩ := C103_ray pos target up width height hw hh fov c h 0 (height / 2)
    obtain ⟨_, d', hd', e'⟩ := C103_ray pos target up width height hw hh fov c h width (height / 2)
    refine ⟨_, _, ⟨e, e'⟩, ?_⟩
    have s1 : screen width height 0 (height / 2) = (-1, 0) := by
      simp only [screen, min_eq_left le']; ext <;> simp only <;> field_simp <;> ring
    have s2 : screen width height width (height / 2) = (1, 0) := by
      simp only [screen, min_eq_left le']; ext <;> simp only <;> field_simp <;> ring
    rw [s1] at hd
    rw [s2] at hd'
    rw [show dot (mulVec c.camera2world d) (mulVec c.camera2world d') = dot d d' from (C101_rigid _ _ _ _ hm _ _).1]
    exact key _ _ _ _ hd hd' (by simp only [dot]; ring) (by simp only [dot]; ring) (by simp only [dot]; ring)

/-- The coordinates of a ray along the axes of the camera. -/
theorem persp_coords {pos target up : V3 ℝ} {width height : Nat} (hw : 0 < width) (hh : 0 < height) {fov : ℝ} {c : Persp}
    (h : persp pos target up width height fov = some c) (x y : ℝ) (r : Ray ℝ) (hr : perspRay c x y = some r) :
    ∃ q, 0 < q ∧ dot r.d (cols c.camera2world).s = q * (Real.tan (fov / 2) * (screen width height x y).1) ∧
      dot r.d (cols c.camera2world).t = q * (Real.tan (fov / 2) * (screen width height x y).2) ∧
      dot r.d (cols c.camera2world).n = q := by
  obtain ⟨hm, d, hd, e⟩ := C103_ray pos target up width height hw hh fov c h x y
  rw [e] at hr
  cases hr
  obtain ⟨_, q, qp, qe⟩ := unit_some hd
  obtain ⟨o, _⟩ := C101_frame _ _ _ _ hm
  refine ⟨q, qp, ?_⟩
  simp only
  rw [mulVec_combine]
  have cc := coords_combine _ o d
  have cx := congrArg V3.x cc
  have cy := congrArg V3.y cc
  have cz := congrArg V3.z cc
  simp only at cx cy cz
  rw [cx, cy, cz, qe]
  simp only [scale]
  exact ⟨by ring, by ring, by ring⟩

/-- **C103.** With a field of view below 180 degrees the image is upright: every ray goes forward, those of the
upper half go up and those of the right half to the side of the first axis. -/
theorem C103_upright_partial (pos target up : V3 ℝ) (width height : Nat) (hw : 0 < width) (hh : 0 < height) (fov : ℝ)
    (f0 : 0 < fov) (f1 : fov < Real.pi) (c : Persp) (h : persp pos target up width height fov = some c) (x y : ℝ) (r : Ray ℝ)
    (hr : perspRay c x y = some r) :
    0 < dot r.d (cols c.camera2world).n ∧ (0 < dot r.d (cols c.camera2world).t ↔ y < height / 2) ∧
    (0 < dot r.d (cols c.camera2world).s ↔ (width : ℝ) / 2 < x) := by
  have hp : (0 : ℝ) < 2 / min (width : ℝ) height := by
    have : (0 : ℝ) < min (width : ℝ) height := lt_min_iff.2 ⟨by exact_mod_cast hw, by exact_mod_cast hh⟩
    positivity
  obtain ⟨q, qp, e1, e2, e3⟩ := persp_coords hw hh h x y r hr
  have tp : 0 < Real.tan (fov / 2) := Real.tan_pos_of_pos_of_lt_pi_div_two (by linarith) (by linarith)
  rw [e1, e2, e3]
  refine ⟨qp, ?_, ?_⟩
  · rw [mul_pos_iff_of_pos_left qp, mul_pos_iff_of_pos_left tp]
    simp only [screen]
    rw [mul_pos_iff_of_pos_right hp, sub_pos]
  · rw [mul_pos_iff_of_pos_left qp, mul_pos_iff_of_pos_left tp]
    simp only [screen]
    rw [mul_pos_iff_of_pos_right hp, sub_pos]

/-- **C103.** The camera is undefined exactly if its frame is, the tangent of half of the field of view is 0, or so
large that the matrix counts as singular and is left uninitialised (above 176.4 degrees). -/
theorem C103_undefined (pos target up : V3 ℝ) (width height : Nat) (fov : ℝ) :
    persp pos target up width height fov = none ↔
      cross up (sub target pos) = ⟨0, 0, 0⟩ ∨ Real.tan (fov / 2) = 0 ∨ 100000000 / 99999 ≤ Real.tan (fov / 2) ^ 2 := by
  unfold persp
  simp only [Option.bind_eq_bind]
  rw [← C101_undefined]
  cases lookAtInverse pos target up with
  | none => simp
  | some m =>
    simp only [Option.bind_some, sdiv]
    by_cases t0 : Real.tan (fov / 2) = 0
    · simp [t0]
    · rw [if_neg t0]
      simp only [Option.bind_some, t0, false_or, reduceCtorEq]
      unfold inverse
      rw [(persp_inverse _).1]
      have tp : 0 < Real.tan (fov / 2) ^ 2 := by positivity
      have : |(1 / Real.tan (fov / 2)) ^ 2 * (1000 / 99999) - 0| ≤ 1 / 100000 ↔
          100000000 / 99999 ≤ Real.tan (fov / 2) ^ 2 := by
        rw [sub_zero, abs_of_nonneg (by positivity), div_pow, one_pow]
        generalize Real.tan (fov / 2) ^ 2 = T at tp
        constructor
        · intro h
          rw [div_mul_eq_mul_div, one_mul, div_le_iff₀ tp] at h
          linarith
        · intro h
          rw [div_mul_eq_mul_div, one_mul, div_le_iff₀ tp]
          linarith
      rw [← this]
      split <;> simp_all

theorem tan_default : Real.tan (55 / 2) < 0 ∧ Real.tan (55 / 2) ^ 2 ≤ 4 := by
  have p1 := Real.pi_gt_d2
  have p2 := Real.pi_lt_d2
  have e : Real.tan (55 / 2) = -Real.tan (9 * Real.pi - 55 / 2) := by
    have := Real.tan_nat_mul_pi_sub (9 * Real.pi - 55 / 2) 9
    rw [← this]; congr 1; push_cast; ring
  generalize ha : 9 * Real.pi - 55 / 2 = a at e
  have a0 : 0 < a := by linarith
  have a1 : a < 1 := by linarith
  have tp : 0 < Real.tan a := Real.tan_pos_of_pos_of_lt_pi_div_two a0 (by linarith)
  refine ⟨by rw [e]; linarith, ?_⟩
  rw [e, neg_sq, Real.tan_eq_sin_div_cos, div_pow]
  have c1 : 1 / 2 ≤ Real.cos a := by
    have := Real.one_sub_sq_div_two_le_cos (x := a)
    nlinarith
  rw [div_le_iff₀ (by positivity)]
  nlinarith [Real.sin_sq_add_cos_sq a]

/-- **C103** is violated: the documentation gives the field of view in degrees, and the number of the file is used
as radians.  With the default of 55 the picture is upside down: the ray through the upper left corner goes down
and to the other side. -/
theorem C103_violated_degrees :
    ∃ c r, configured ⟨0, 0, 0⟩ ⟨0, 0, 1⟩ ⟨0, 1, 0⟩ 800 600 55 = some c ∧ perspRay c 0 0 = some r ∧
      dot r.d (cols c.camera2world).t < 0 ∧ 0 < dot r.d (cols c.camera2world).s ∧ 0 < dot (cols c.camera2world).t ⟨0, 1, 0⟩ := by
  obtain ⟨tn, t4⟩ := tan_default
  cases h : persp ⟨0, 0, 0⟩ ⟨0, 0, 1⟩ ⟨0, 1, 0⟩ 800 600 55 with
  | none =>
    exfalso
    rw [C103_undefined] at h
    rcases h with h | h | h
    · have := congrArg V3.x h
      norm_num [cross, sub] at this
    · linarith
    · norm_num at h; linarith
  | some c =>
    obtain ⟨hm, d, hd, e⟩ := C103_ray _ _ _ _ _ (by norm_num) (by norm_num) _ c h 0 0
    refine ⟨c, _, h, e, ?_⟩
    obtain ⟨q, qp, e1, e2, _⟩ := persp_coords (by norm_num) (by norm_num) h 0 0 _ e
    rw [e1, e2]
    have s1 : screen 800 600 0 0 = (-4 / 3, 1) := by
      simp only [screen]; norm_num
    rw [s1]
    refine ⟨?_, ?_, (C101_frame _ _ _ _ hm).2.2.2.2.1⟩
    · simp only; nlinarith
    · simp only; nlinarith

/-! ### C104 -/

theorem panorama_unit (width height : Nat) (x y : ℝ) : dot (panorama width height x y) (panorama width height x y) = 1 := by
  simp only [panorama, dot]
  generalize Real.pi * y * (1 / height) = a
  generalize 2 * Real.pi * x * (1 / width) = b
  nlinarith [Real.sin_sq_add_cos_sq a, Real.sin_sq_add_cos_sq b, sq_nonneg (Real.sin a),
    mul_comm (Real.sin a ^ 2) (Real.sin b ^ 2 + Real.cos b ^ 2 - 1)]

/-- **C104.** Every ray starts at the position of the camera in the direction of its angles; it is never
undefined. -/
theorem C104_ray (pos target up : V3 ℝ) (m : M4 ℝ) (h : lookAtInverse pos target up = some m) (width height : Nat) (x y : ℝ) :
    panoramaRay m width height x y = some ⟨pos, mulVec m (panorama width height x y)⟩ := by
  obtain ⟨_, _, p, _⟩ := C101_frame _ _ _ _ h
  unfold panoramaRay
  rw [unit_unit (by rw [(C101_rigid _ _ _ _ h _ _).1]; exact panorama_unit _ _ _ _), p]
  rfl

/-- **C104.** The neighbouring rays start at the same point.  The one below is turned by `π/height`; the one to the right
has the same angle with the vertical axis and is turned by `2π/width` about it. -/
theorem C104_neighbours (pos target up : V3 ℝ) (m : M4 ℝ) (h : lookAtInverse pos target up = some m) (width height : Nat)
    (x y : ℝ) :
    ∃ r rx ry, panoramaRays m width height x y = some (r, rx, ry) ∧ panoramaRay m width height x y = some r ∧
      r.o = pos ∧ rx.o = pos ∧ ry.o = pos ∧ dot r.d ry.d = Real.cos (Real.pi / height) ∧
      dot rx.d (cols m).t = dot r.d (cols m).t ∧
      dot r.d rx.d = dot r.d (cols m).t ^ 2 + (1 - dot r.d (cols m).t ^ 2) * Real.cos (2 * Real.pi / width) := by
  have e := fun x y => C104_ray pos target up m h width height x y
  obtain ⟨o, _, _, _, _⟩ := C101_frame _ _ _ _ h
  have dt : ∀ u v, dot (mulVec m u) (mulVec m v) = dot u v := fun u v => (C101_rigid _ _ _ _ h u v).1
  have et : (cols m).t = mulVec m ⟨0, 1, 0⟩ := by
    simp only [cols, mulVec]; ext <;> simp only <;> ring
  refine ⟨_, ⟨pos, mulVec m (panorama width height (x + 1) y)⟩, ⟨pos, mulVec m (panorama width height x (y + 1))⟩, ?_,
    e x y, rfl, rfl, rfl, ?_, ?_, ?_⟩
  · unfold panoramaRays
    simp only [e, Option.bind_eq_bind, Option.bind_some]
  · simp only [dt]
    have : Real.pi * (y + 1) * (1 / height) = Real.pi * y * (1 / height) + Real.pi / height := by ring
    simp only [panorama, dot, this]
    generalize Real.pi * y * (1 / height) = a
    generalize 2 * Real.pi * x * (1 / width) = p
    generalize Real.pi / height = d
    have : Real.cos d = Real.cos (a + d) * Real.cos a + Real.sin (a + d) * Real.sin a := by
      rw [← Real.cos_sub]; congr 1; ring
    rw [this]
    linear_combination Real.sin a * Real.sin (a + d) * Real.sin_sq_add_cos_sq p
  · simp only [et, dt]
    simp only [panorama, dot]; ring
  · simp only [et, dt]
    have : 2 * Real.pi * (x + 1) * (1 / width) = 2 * Real.pi * x * (1 / width) + 2 * Real.pi / width := by ring
    simp only [panorama, dot, this]
    generalize Real.pi * y * (1 / height) = a
    generalize 2 * Real.pi * x * (1 / width) = p
    generalize 2 * Real.pi / width = d
    have : Real.cos d = Real.cos (p + d) * Real.cos p + Real.sin (p + d) * Real.sin p := by
      rw [← Real.cos_sub]; congr 1; ring
    rw [this]
    linear_combination (Real.cos (p + d) * Real.cos p + Real.sin (p + d) * Real.sin p) * Real.sin_sq_add_cos_sq a

example : ∃ m r rx ry, lookAtInverse ⟨1, 2, 3⟩ ⟨0, 0, 0⟩ ⟨0, 1, 0⟩ = some m ∧
    panoramaRays m 800 600 10 20 = some (r, rx, ry) ∧ dot r.d ry.d = Real.cos (Real.pi / (600 : ℕ)) := by
  cases h : lookAtInverse ⟨1, 2, 3⟩ ⟨0, 0, 0⟩ ⟨0, 1, 0⟩ with
  | none =>
    rw [C101_undefined] at h
    have := congrArg V3.x h
    norm_num [cross, sub] at this
  | some m =>
    obtain ⟨r, rx, ry, e, _, _, _, _, d, _⟩ := C104_neighbours _ _ _ m h 800 600 10 20
    exact ⟨m, r, rx, ry, rfl, e, d⟩

/-- **C104.** Every direction is seen. -/
theorem C104_covers (width height : Nat) (hw : 0 < width) (hh : 0 < height) (v : V3 ℝ) (hv : dot v v = 1) :
    ∃ x y : ℝ, 0 ≤ x ∧ x < width ∧ 0 ≤ y ∧ y ≤ height ∧ panorama width height x y = v := by
  have hw' : (0 : ℝ) < width := by exact_mod_cast hw
  have hh' : (0 : ℝ) < height := by exact_mod_cast hh
  simp only [dot] at hv
  have y1 : -1 ≤ v.y ∧ v.y ≤ 1 := by constructor <;> nlinarith [sq_nonneg v.x, sq_nonneg v.z, sq_nonneg (v.y - 1), sq_nonneg (v.y + 1)]
  have ss : Real.sin (Real.arccos v.y) = Real.sqrt (1 - v.y ^ 2) := Real.sin_arccos _
  have s2 : Real.sqrt (1 - v.y ^ 2) ^ 2 = v.x ^ 2 + v.z ^ 2 := by
    rw [Real.sq_sqrt (by nlinarith)]; linarith
  -- an angle in [0, 2π) with the given direction in the plane
  obtain ⟨φ, f0, f1, fx, fz⟩ : ∃ φ, 0 ≤ φ ∧ φ < 2 * Real.pi ∧ Real.sqrt (1 - v.y ^ 2) * Real.cos φ = v.x ∧
      Real.sqrt (1 - v.y ^ 2) * Real.sin φ = v.z := by
    generalize hr : Real.sqrt (1 - v.y ^ 2) = R at *
    have R0 : 0 ≤ R := by rw [← hr]; exact Real.sqrt_nonneg _
    rcases R0.eq_or_lt with R0 | Rp
    · refine ⟨0, le_rfl, by positivity, ?_, ?_⟩ <;> rw [← R0] at s2 ⊢
      · nlinarith [sq_nonneg v.x, sq_nonneg v.z]
      · nlinarith [sq_nonneg v.x, sq_nonneg v.z]
    · have u : (v.x / R) ^ 2 + (v.z / R) ^ 2 = 1 := by
        rw [div_pow, div_pow, ← add_div, ← s2, div_self (by positivity)]
      have b1 : -1 ≤ v.x / R ∧ v.x / R ≤ 1 := by
        constructor <;> nlinarith [sq_nonneg (v.z / R), sq_nonneg (v.x / R - 1), sq_nonneg (v.x / R + 1)]
      have sa : Real.sin (Real.arccos (v.x / R)) ^ 2 = (v.z / R) ^ 2 := by
        rw [Real.sin_arccos, Real.sq_sqrt (by nlinarith [sq_nonneg (v.z / R)])]; linarith
      have sn : 0 ≤ Real.sin (Real.arccos (v.x / R)) :=
        Real.sin_nonneg_of_nonneg_of_le_pi (Real.arccos_nonneg _) (Real.arccos_le_pi _)
      rcases le_or_gt 0 v.z with z | z
      · refine ⟨Real.arccos (v.x / R), Real.arccos_nonneg _, by linarith [Real.arccos_le_pi (v.x / R), Real.pi_pos], ?_, ?_⟩
        · rw [Real.cos_arccos b1.1 b1.2]; field_simp
        · have : Real.sin (Real.arccos (v.x / R)) = v.z / R := by
            have zz : 0 ≤ v.z / R := by positivity
            nlinarith [sq_nonneg (Real.sin (Real.arccos (v.x / R)) - v.z / R)]
          rw [this]; field_simp
      · have zz : v.z / R < 0 := div_neg_of_neg_of_pos z Rp
        have sv : Real.sin (Real.arccos (v.x / R)) = -(v.z / R) := by
          have : (Real.sin (Real.arccos (v.x / R)) - -(v.z / R)) * (Real.sin (Real.arccos (v.x / R)) + -(v.z / R)) = 0 := by
            linear_combination sa
          rcases mul_eq_zero.1 this with h | h
          · linarith
          · linarith
        have ap : 0 < Real.arccos (v.x / R) := by
          rcases (Real.arccos_nonneg (v.x / R)).eq_or_lt with h | h
          · rw [← h, Real.sin_zero] at sv; linarith
          · exact h
        refine ⟨2 * Real.pi - Real.arccos (v.x / R), by linarith [Real.arccos_le_pi (v.x / R), Real.pi_pos], by linarith, ?_, ?_⟩
        · rw [Real.cos_two_pi_sub, Real.cos_arccos b1.1 b1.2]; field_simp
        · rw [Real.sin_two_pi_sub, sv]; field_simp
  have pp := Real.pi_pos
  refine ⟨φ * width / (2 * Real.pi), Real.arccos v.y * height / Real.pi, by positivity, ?_, ?_, ?_, ?_⟩
  · rw [div_lt_iff₀ (by positivity)]; nlinarith
  · have := Real.arccos_nonneg v.y; positivity
  · rw [div_le_iff₀ pp]; nlinarith [Real.arccos_le_pi v.y]
  · simp only [panorama]
    have e1 : Real.pi * (Real.arccos v.y * height / Real.pi) * (1 / height) = Real.arccos v.y := by field_simp
    have e2 : 2 * Real.pi * (φ * width / (2 * Real.pi)) * (1 / width) = φ := by field_simp
    rw [e1, e2, ss, Real.cos_arccos y1.1 y1.2, fx, fz]

/-- **C104.** No direction except the poles is seen twice. -/
theorem C104_injective (width height : Nat) (x y x' y' : ℝ) (hx : 0 ≤ x ∧ x < width) (hx' : 0 ≤ x' ∧ x' < width)
    (hy : 0 < y ∧ y < height) (hy' : 0 < y' ∧ y' < height) (h : panorama width height x y = panorama width height x' y') :
    x = x' ∧ y = y' := by
  have hw' : (0 : ℝ) < width := lt_of_le_of_lt hx.1 hx.2
  have hh' : (0 : ℝ) < height := lt_trans hy.1 hy.2
  have pp := Real.pi_pos
  have th : ∀ y : ℝ, 0 < y ∧ y < height → 0 < Real.pi * y * (1 / height) ∧ Real.pi * y * (1 / height) < Real.pi := by
    rintro y ⟨a, b⟩
    refine ⟨by positivity, ?_⟩
    rw [mul_one_div, div_lt_iff₀ hh']; nlinarith
  have ph : ∀ x : ℝ, 0 ≤ x ∧ x < width → 0 ≤ 2 * Real.pi * x * (1 / width) ∧ 2 * Real.pi * x * (1 / width) < 2 * Real.pi := by
    rintro x ⟨a, b⟩
    refine ⟨by positivity, ?_⟩
    rw [mul_one_div, div_lt_iff₀ hw']; nlinarith
  have e2 := congrArg V3.y h
  have e1 := congrArg V3.x h
  have e3 := congrArg V3.z h
  simp only [panorama] at e1 e2 e3
  obtain ⟨a0, a1⟩ := th y hy
  obtain ⟨b0, b1⟩ := th y' hy'
  have ey := Real.injOn_cos ⟨a0.le, a1.le⟩ ⟨b0.le, b1.le⟩ e2
  have yy : y = y' := by
    have := mul_right_cancel₀ (by positivity : (1 / (height : ℝ)) ≠ 0) ey
    exact mul_left_cancel₀ pp.ne' this
  subst yy
  have sp : Real.sin (Real.pi * y * (1 / height)) ≠ 0 := (Real.sin_pos_of_pos_of_lt_pi a0 a1).ne'
  have ec := mul_left_cancel₀ sp e1
  have es := mul_left_cancel₀ sp e3
  obtain ⟨p0, p1⟩ := ph x hx
  obtain ⟨q0, q1⟩ := ph x' hx'
  have : 2 * Real.pi * x * (1 / width) = 2 * Real.pi * x' * (1 / width) := by
    have c1 : Real.cos (2 * Real.pi * x * (1 / width) - 2 * Real.pi * x' * (1 / width)) = 1 := by
      rw [Real.cos_sub, ec, es]; nlinarith [Real.sin_sq_add_cos_sq (2 * Real.pi * x' * (1 / width))]
    rw [Real.cos_eq_one_iff_of_lt_of_lt (by linarith) (by linarith)] at c1
    linarith
  refine ⟨?_, rfl⟩
  have := mul_right_cancel₀ (by positivity : (1 / (width : ℝ)) ≠ 0) this
  exact mul_left_cancel₀ (by positivity : 2 * Real.pi ≠ 0) this

/-- **C104.** The first row is the direction upwards and the last the one downwards. -/
theorem C104_poles (width height : Nat) (hh : 0 < height) (x : ℝ) :
    panorama width height x 0 = ⟨0, 1, 0⟩ ∧ panorama width height x height = ⟨0, -1, 0⟩ := by
  have hh' : (height : ℝ) ≠ 0 := by exact_mod_cast hh.ne'
  constructor
  · simp [panorama]
  · have : Real.pi * height * (1 / height) = Real.pi := by field_simp
    simp only [panorama, this]
    simp

/-- **C104** is violated: the documentation (camera360.hpp) says that the target is the middle of the image.  It is
at a quarter of the width; the middle is the direction opposite to the first axis, at a right angle to the target. -/
theorem C104_violated_centre (pos target up : V3 ℝ) (m : M4 ℝ) (h : lookAtInverse pos target up = some m)
    (width height : Nat) (hw : 0 < width) (hh : 0 < height) :
    ∃ r s, panoramaRay m width height (width / 2) (height / 2) = some r ∧ dot r.d (sub target pos) = 0 ∧
      panoramaRay m width height (width / 4) (height / 2) = some s ∧ ∃ k, 0 < k ∧ s.d = scale (sub target pos) k := by
  have hh' : (height : ℝ) ≠ 0 := by exact_mod_cast hh.ne'
  have hw' : (width : ℝ) ≠ 0 := by exact_mod_cast hw.ne'
  obtain ⟨o, _, _, ⟨k, kp, ke⟩, _⟩ := C101_frame _ _ _ _ h
  refine ⟨_, _, C104_ray _ _ _ m h _ _ _ _, ?_, C104_ray _ _ _ m h _ _ _ _, k, kp, ?_⟩
  · have c : panorama width height (width / 2) (height / 2) = ⟨-1, 0, 0⟩ := by
      simp only [panorama]
      have e1 : Real.pi * (height / 2) * (1 / height) = Real.pi / 2 := by field_simp
      have e2 : 2 * Real.pi * (width / 2) * (1 / width) = Real.pi := by field_simp
      rw [e1, e2]; simp
    simp only
    rw [c]
    have st : sub target pos = scale (cols m).n (1 / k) := by
      rw [ke]; simp only [scale]; ext <;> simp only <;> field_simp
    rw [st, dot_scale, mulVec_combine]
    have := congrArg V3.z (coords_combine _ o (⟨-1, 0, 0⟩ : V3 ℝ))
    simp only at this
    rw [this, mul_zero]
  · have c : panorama width height (width / 4) (height / 2) = ⟨0, 0, 1⟩ := by
      simp only [panorama]
      have e1 : Real.pi * (height / 2) * (1 / height) = Real.pi / 2 := by field_simp
      have e2 : 2 * Real.pi * (width / 4) * (1 / width) = Real.pi / 2 := by field_simp; norm_num
      rw [e1, e2]; simp
    simp only
    rw [c, ← ke]
    simp only [mulVec, cols]
    ext <;> simp only <;> ring

example : ∃ x y : ℝ, 0 ≤ x ∧ x < (800 : Nat) ∧ 0 ≤ y ∧ y ≤ (600 : Nat) ∧ panorama 800 600 x y = ⟨3 / 5, 0, -4 / 5⟩ :=
  C104_covers 800 600 (by norm_num) (by norm_num) _ (by norm_num [dot])

end Spectre.Camera
