import Verif.Model.IeeeLemmas

/-
Property C156: normalised vectors have length one.
-/

namespace Spectre.Normalize

open Spectre.Geom Spectre.Direct F32

/-! ### Spec -/

/-- A vector of three finite binary32 numbers. -/
def FiniteVec (v : V3 F32) : Prop := (v.x.Ok ∧ v.x.Finite) ∧ (v.y.Ok ∧ v.y.Finite) ∧ (v.z.Ok ∧ v.z.Finite)

/-- Exact square of the length. -/
def exactLen2 (v : V3 F32) : ℚ := v.x.val ^ 2 + v.y.val ^ 2 + v.z.val ^ 2

/-- No component is larger than `m`. -/
def Within (m : ℚ) (v : V3 F32) : Prop := |v.x.val| ≤ m ∧ |v.y.val| ≤ m ∧ |v.z.val| ≤ m

/-- `w` is `c` times `v`, up to one rounding of each component. -/
def Scaled (c : ℚ) (v w : V3 F32) : Prop :=
  |w.x.val - c * v.x.val| ≤ |c * v.x.val| / 2 ^ 24 + 2 ^ (-150 : ℤ) ∧
  |w.y.val - c * v.y.val| ≤ |c * v.y.val| / 2 ^ 24 + 2 ^ (-150 : ℤ) ∧
  |w.z.val - c * v.z.val| ≤ |c * v.z.val| / 2 ^ 24 + 2 ^ (-150 : ℤ)

/-! ### The square of the length -/

theorem rnd32_lt128 {q : ℚ} (h : |q| ≤ 2 ^ (127 : ℤ)) : |rnd32 q| < 2 ^ 128 := by
  have a := rnd32_lt (k := 127) (by norm_num) (le_trans (le_abs_self q) h)
  have b := rnd32_lt (k := 127) (by norm_num) (le_trans (neg_le_abs q) h)
  rw [rnd32_neg] at b
  rw [abs_lt]
  norm_num at a b ⊢
  constructor <;> linarith

/-- Near `2^128` too. -/
theorem rnd32_lt128' {q : ℚ} (h0 : 0 ≤ q) (h : q ≤ 15 / 16 * 2 ^ (128 : ℤ)) : |rnd32 q| < 2 ^ 128 := by
  rw [abs_of_nonneg (rnd32_nonneg h0)]
  have e := abs_le.1 (rnd32_err' q)
  rw [abs_of_nonneg h0] at e
  norm_num at e h ⊢
  linarith [e.2]

theorem flen2_spec {v : V3 F32} (hv : FiniteVec v) (hb : Within (2 ^ (63 : ℤ)) v) :
    (flen2 v).Finite ∧ |(flen2 v).val - exactLen2 v| ≤ exactLen2 v * (4 / 2 ^ 24) + 6 * 2 ^ (-150 : ℤ) := by
  obtain ⟨⟨-, x⟩, ⟨-, y⟩, ⟨-, z⟩⟩ := hv
  obtain ⟨bx, by', bz⟩ := hb
  have sq : ∀ q : ℚ, |q| ≤ 2 ^ (63 : ℤ) → q * q ≤ 2 ^ (126 : ℤ) := by
    intro q h
    have := mul_le_mul h h (abs_nonneg q) (by positivity)
    rw [abs_mul_abs_self] at this
    refine this.trans (le_of_eq ?_)
    norm_num
  have step : ∀ a : F32, a.Finite → |a.val| ≤ 2 ^ (63 : ℤ) → (mul a a).Finite ∧ 0 ≤ (mul a a).val ∧
      (mul a a).val ≤ 2 ^ (126 : ℤ) ∧ |(mul a a).val - a.val ^ 2| ≤ a.val ^ 2 * (1 / 2 ^ 24) + 2 ^ (-150 : ℤ) := by
    intro a ha hb
    have h1 := sq _ hb
    have h0 : 0 ≤ a.val * a.val := mul_self_nonneg _
    obtain ⟨f, e⟩ := mul_finite ha ha (rnd32_lt128 (by
      rw [abs_of_nonneg h0]; exact h1.trans (zpow_le_zpow_right₀ (by norm_num) (by norm_num))))
    refine ⟨f, by rw [e]; exact rnd32_nonneg h0, by rw [e]; exact rnd32_lt (by norm_num) h1, ?_⟩
    have := rnd32_err' (a.val * a.val)
    rw [abs_of_nonneg h0] at this
    rw [e, pow_two]; exact this
  obtain ⟨f1, p1, l1, e1⟩ := step _ x bx
  obtain ⟨f2, p2, l2, e2⟩ := step _ y by'
  obtain ⟨f3, p3, l3, e3⟩ := step _ z bz
  unfold flen2 exactLen2
  generalize mul v.x v.x = a at *
  generalize mul v.y v.y = b at *
  generalize mul v.z v.z = c at *
  have s0 : 0 ≤ a.val + b.val := add_nonneg p1 p2
  have s1 : a.val + b.val ≤ 2 ^ (127 : ℤ) := by norm_num at l1 l2 ⊢; linarith
  obtain ⟨f4, e4⟩ := add_finite f1 f2 (rnd32_lt128 (by rw [abs_of_nonneg s0]; exact s1))
  have p4 : 0 ≤ (add a b).val := by rw [e4]; exact rnd32_nonneg s0
  have l4 : (add a b).val ≤ 2 ^ (127 : ℤ) := by rw [e4]; exact rnd32_lt (by norm_num) s1
  have r4 := rnd32_err' (a.val + b.val)
  rw [← e4, abs_of_nonneg s0] at r4
  generalize add a b = d at *
  have t0 : 0 ≤ d.val + c.val := add_nonneg p4 p3
  obtain ⟨f5, e5⟩ := add_finite f4 f3 (rnd32_lt128' t0 (by norm_num at l4 l3 ⊢; linarith))
  have r5 := rnd32_err' (d.val + c.val)
  rw [← e5, abs_of_nonneg t0] at r5
  refine ⟨f5, ?_⟩
  have qx : 0 ≤ v.x.val ^ 2 := sq_nonneg _
  have qy : 0 ≤ v.y.val ^ 2 := sq_nonneg _
  have qz : 0 ≤ v.z.val ^ 2 := sq_nonneg _
  have hη := two_zpow_pos (-150)
  generalize (2 : ℚ) ^ (-150 : ℤ) = η at *
  generalize v.x.val ^ 2 = X at *
  generalize v.y.val ^ 2 = Y at *
  generalize v.z.val ^ 2 = Z at *
  rw [abs_le] at *
  obtain ⟨e1, e1'⟩ := e1
  obtain ⟨e2, e2'⟩ := e2
  obtain ⟨e3, e3'⟩ := e3
  obtain ⟨r4, r4'⟩ := r4
  obtain ⟨r5, r5'⟩ := r5
  norm_num at *
  constructor <;> linarith

/-- The length of a vector whose square is a normal number. -/
theorem flen2_rel {v : V3 F32} (hv : FiniteVec v) (hb : Within (2 ^ (63 : ℤ)) v)
    (h : 2 ^ (-126 : ℤ) ≤ exactLen2 v) :
    (flen2 v).Finite ∧ exactLen2 v * (1 - 10 / 2 ^ 24) ≤ (flen2 v).val ∧
      (flen2 v).val ≤ exactLen2 v * (1 + 10 / 2 ^ 24) := by
  obtain ⟨f, e⟩ := flen2_spec hv hb
  rw [abs_le] at e
  have hη : (2 : ℚ) ^ (-150 : ℤ) = 2 ^ (-126 : ℤ) * (1 / 2 ^ 24) := by norm_num
  rw [hη] at e
  refine ⟨f, ?_⟩
  generalize (2 : ℚ) ^ (-126 : ℤ) = m at *
  obtain ⟨e1, e2⟩ := e
  norm_num at *
  constructor <;> linarith

theorem low_val : low.Finite ∧ low.val = 1 - 21 / 2 ^ 21 := by
  have : low = num (1 - 21 / 2 ^ 21) := by decide +kernel
  rw [this]; exact ⟨trivial, rfl⟩

theorem high_val : high.Finite ∧ high.val = 1 + 21 / 2 ^ 21 := by
  have : high = num (1 + 21 / 2 ^ 21) := by decide +kernel
  rw [this]; exact ⟨trivial, rfl⟩

theorem isNormalized_iff {v : V3 F32} (h : (flen2 v).Finite) :
    isNormalized v = true ↔ 1 - 21 / 2 ^ 21 < (flen2 v).val ∧ (flen2 v).val < 1 + 21 / 2 ^ 21 := by
  unfold isNormalized
  rw [lt_finite low_val.1 h, lt_finite h high_val.1, low_val.2, high_val.2]
  simp

theorem exactLen2_le {v : V3 F32} {m : ℚ} (h : Within m v) : exactLen2 v ≤ 3 * m ^ 2 := by
  obtain ⟨a, b, c⟩ := h
  unfold exactLen2
  have f : ∀ q : ℚ, |q| ≤ m → q ^ 2 ≤ m ^ 2 := fun q hq => by
    rw [← sq_abs]; exact pow_le_pow_left₀ (abs_nonneg q) hq 2
  linarith [f _ a, f _ b, f _ c]

theorem within_of_len2 {v : V3 F32} {m : ℚ} (hm : 0 ≤ m) (h : exactLen2 v ≤ m ^ 2) : Within m v := by
  unfold exactLen2 at h
  have f : ∀ q : ℚ, q ^ 2 ≤ m ^ 2 → |q| ≤ m := fun q hq => abs_le_of_sq_le_sq hq hm
  have := sq_nonneg v.x.val
  have := sq_nonneg v.y.val
  have := sq_nonneg v.z.val
  exact ⟨f _ (by linarith), f _ (by linarith), f _ (by linarith)⟩

/-- One component of the result. -/
theorem comp_spec {a i : F32} (ha : a.Finite) (hi : i.Finite) (h : (a.val * i.val) ^ 2 ≤ 4) :
    (mul a i).Ok ∧ (mul a i).Finite ∧
      |(mul a i).val - i.val * a.val| ≤ |i.val * a.val| / 2 ^ 24 + 2 ^ (-150 : ℤ) ∧
      |(mul a i).val ^ 2 - (a.val * i.val) ^ 2| ≤ (a.val * i.val) ^ 2 * (3 / 2 ^ 24) + 2 ^ (-147 : ℤ) := by
  have h2 : |a.val * i.val| ≤ 2 := abs_le_of_sq_le_sq (by linarith) (by norm_num)
  obtain ⟨f, e⟩ := mul_finite ha hi (rnd32_lt128 (h2.trans (by norm_num)))
  have r := rnd32_err' (a.val * i.val)
  refine ⟨mul_ok _ _, f, ?_, ?_⟩
  · rw [e, mul_comm i.val]
    refine r.trans (le_of_eq ?_); ring
  · rw [e]
    generalize a.val * i.val = p at *
    generalize rnd32 p = w at *
    have hw : w ^ 2 - p ^ 2 = (w - p) * (2 * p + (w - p)) := by ring
    rw [hw, abs_mul]
    have h3 : |2 * p + (w - p)| ≤ 2 * |p| + |w - p| := by
      refine (abs_add_le _ _).trans ?_
      rw [abs_mul]; norm_num
    have hd := abs_nonneg (w - p)
    have hp := abs_nonneg p
    have hη : (2 : ℚ) ^ (-147 : ℤ) = 8 * 2 ^ (-150 : ℤ) := by norm_num
    have hη0 := two_zpow_pos (-150)
    have hη1 : (2 : ℚ) ^ (-150 : ℤ) ≤ 1 / 2 ^ 24 := by norm_num
    rw [hη, ← sq_abs p]
    generalize (2 : ℚ) ^ (-150 : ℤ) = η at *
    generalize |p| = P at *
    generalize |w - p| = d at *
    refine (mul_le_mul_of_nonneg_left h3 hd).trans ?_
    have s1 : d * (2 * P + d) ≤ (P * (1 / 2 ^ 24) + η) * (2 * P + (P * (1 / 2 ^ 24) + η)) :=
      mul_le_mul r (by linarith) (by positivity) (by positivity)
    refine s1.trans ?_
    have hPη : P * η ≤ 2 * η := mul_le_mul_of_nonneg_right h2 hη0.le
    have hηη : η * η ≤ 1 / 2 ^ 24 * η := mul_le_mul_of_nonneg_right hη1 hη0.le
    have hPP : 0 ≤ P * P := by positivity
    have expand : (P * (1 / 2 ^ 24) + η) * (2 * P + (P * (1 / 2 ^ 24) + η)) =
        P * P * (2 / 2 ^ 24 + 1 / 2 ^ 24 * (1 / 2 ^ 24)) + P * η * (2 + 2 / 2 ^ 24) + η * η := by ring
    rw [expand, pow_two]
    norm_num at *
    linarith

/-! ### Normalisation -/

theorem normalize_of {v : V3 F32} (h : isNormalized v = true) : normalize v = v := by
  unfold normalize; rw [if_pos h]

theorem sq_round (q : ℚ) : mul (num q) (num q) = F32.round false (q * q) := by
  simp [F32.mul, F32.sign, F32.val]

/-- Everything about the branch that divides by the length. -/
theorem divided {v : V3 F32} (hv : FiniteVec v) (hb : Within (2 ^ (63 : ℤ)) v)
    (h : 2 ^ (-126 : ℤ) ≤ exactLen2 v) (hn : isNormalized v = false) :
    FiniteVec (normalize v) ∧ |exactLen2 (normalize v) - 1| ≤ 1 / 2 ^ 19 ∧ ∃ c > 0, Scaled c v (normalize v) := by
  obtain ⟨fS, loS, hiS⟩ := flen2_rel hv hb h
  have hL := exactLen2_le hb
  have hL0 : 0 < exactLen2 v := lt_of_lt_of_le (two_zpow_pos _) h
  have eN : normalize v = ⟨mul v.x (div (num 1) (F32.sqrt (flen2 v))), mul v.y (div (num 1) (F32.sqrt (flen2 v))),
      mul v.z (div (num 1) (F32.sqrt (flen2 v)))⟩ := by
    unfold normalize; rw [if_neg (by simp [hn])]
  have S0 : 0 < (flen2 v).val := lt_of_lt_of_le (by positivity) loS
  have eS : flen2 v = num (flen2 v).val := by
    generalize flen2 v = s at *
    cases s with
    | num q => rfl
    | _ => exact absurd S0 (by simp [F32.val])
  generalize hS : (flen2 v).val = S at *
  rw [eS] at eN
  have eq : F32.sqrt (num S) = num (sqrt32 S) := by unfold F32.sqrt; simp [not_lt.2 S0.le]
  rw [eq] at eN
  obtain ⟨r0, r1, r2⟩ := sqrt32_sq S0
  have S1 : (2 : ℚ) ^ (2 * (-64) : ℤ) ≤ S := by
    refine le_trans ?_ loS
    have : (2 : ℚ) ^ (2 * (-64) : ℤ) = 2 ^ (-126 : ℤ) * (1 / 4) := by norm_num
    rw [this]
    norm_num at h ⊢
    linarith
  have S2 : S < (2 : ℚ) ^ (2 * 64 : ℤ) := by
    refine lt_of_le_of_lt hiS ?_
    norm_num at hL ⊢
    linarith
  have R1 := le_sqrt32 S0 S1
  have R2 := sqrt32_le S0 S2
  generalize sqrt32 S = r at *
  -- the inverse of the length
  have i1 : (1 : ℚ) / r ≤ 2 ^ (64 : ℤ) := by
    rw [div_le_iff₀ r0]
    calc (1 : ℚ) = 2 ^ (64 : ℤ) * 2 ^ (-64 : ℤ) := by norm_num
      _ ≤ 2 ^ (64 : ℤ) * r := mul_le_mul_of_nonneg_left R1 (by positivity)
  have i2 : (2 : ℚ) ^ (-64 : ℤ) ≤ 1 / r := by
    rw [le_div_iff₀ r0]
    calc (2 : ℚ) ^ (-64 : ℤ) * r ≤ 2 ^ (-64 : ℤ) * 2 ^ (64 : ℤ) := mul_le_mul_of_nonneg_left R2 (by positivity)
      _ = 1 := by norm_num
  have i0 : 0 < 1 / r := by positivity
  obtain ⟨fi, ei⟩ := div_finite (a := num 1) (b := num r) trivial trivial r0.ne' (by
    show |rnd32 (1 / r)| < 2 ^ 128
    refine rnd32_lt128 ?_
    rw [abs_of_pos i0]
    exact i1.trans (zpow_le_zpow_right₀ (by norm_num) (by norm_num)))
  have ei : (div (num 1) (num r)).val = rnd32 (1 / r) := ei
  have re := rnd32_rel (q := 1 / r) (by
    rw [abs_of_pos i0]; exact le_trans (zpow_le_zpow_right₀ (by norm_num) (by norm_num)) i2)
  rw [← ei, abs_of_pos i0] at re
  generalize div (num 1) (num r) = i at *
  have ir1 : i.val * r ≤ 1 + 1 / 2 ^ 24 := by
    have := (abs_le.1 re).2
    calc i.val * r ≤ (1 / r + 1 / r * (1 / 2 ^ 24)) * r := mul_le_mul_of_nonneg_right (by linarith) r0.le
      _ = 1 + 1 / 2 ^ 24 := by field_simp
  have ir2 : 1 - 1 / 2 ^ 24 ≤ i.val * r := by
    have := (abs_le.1 re).1
    calc (1 : ℚ) - 1 / 2 ^ 24 = (1 / r - 1 / r * (1 / 2 ^ 24)) * r := by field_simp
      _ ≤ i.val * r := mul_le_mul_of_nonneg_right (by linarith) r0.le
  have ip : 0 < i.val := by
    by_contra hc
    push Not at hc
    have := mul_nonpos_of_nonpos_of_nonneg hc r0.le
    norm_num at ir2
    linarith
  -- the scaled exact length
  have P1 : exactLen2 v * i.val ^ 2 ≤ 1 + 15 / 2 ^ 24 := by
    have a1 : i.val ^ 2 * S ≤ (1 + 1 / 2 ^ 24) ^ 4 := by
      calc i.val ^ 2 * S ≤ i.val ^ 2 * (r ^ 2 * (1 + 1 / 2 ^ 24) ^ 2) := mul_le_mul_of_nonneg_left r2 (by positivity)
        _ = (i.val * r) ^ 2 * (1 + 1 / 2 ^ 24) ^ 2 := by ring
        _ ≤ (1 + 1 / 2 ^ 24) ^ 2 * (1 + 1 / 2 ^ 24) ^ 2 := by
            apply mul_le_mul_of_nonneg_right _ (by positivity)
            exact pow_le_pow_left₀ (by positivity) ir1 2
        _ = (1 + 1 / 2 ^ 24) ^ 4 := by ring
    have a2 : (exactLen2 v * i.val ^ 2) * (1 - 10 / 2 ^ 24) ≤ (1 + 1 / 2 ^ 24) ^ 4 := by
      refine le_trans ?_ a1
      calc exactLen2 v * i.val ^ 2 * (1 - 10 / 2 ^ 24) = i.val ^ 2 * (exactLen2 v * (1 - 10 / 2 ^ 24)) := by ring
        _ ≤ i.val ^ 2 * S := mul_le_mul_of_nonneg_left loS (by positivity)
    norm_num at a2 ⊢
    linarith
  have P2 : 1 - 15 / 2 ^ 24 ≤ exactLen2 v * i.val ^ 2 := by
    have a1 : (1 - 1 / 2 ^ 24) ^ 4 ≤ i.val ^ 2 * S := by
      calc ((1 : ℚ) - 1 / 2 ^ 24) ^ 4 = (1 - 1 / 2 ^ 24) ^ 2 * (1 - 1 / 2 ^ 24) ^ 2 := by ring
        _ ≤ (i.val * r) ^ 2 * (1 - 1 / 2 ^ 24) ^ 2 := by
            apply mul_le_mul_of_nonneg_right _ (by positivity)
            exact pow_le_pow_left₀ (by norm_num) ir2 2
        _ = i.val ^ 2 * (r ^ 2 * (1 - 1 / 2 ^ 24) ^ 2) := by ring
        _ ≤ i.val ^ 2 * S := mul_le_mul_of_nonneg_left r1 (by positivity)
    have a2 : (1 - 1 / 2 ^ 24) ^ 4 ≤ (exactLen2 v * i.val ^ 2) * (1 + 10 / 2 ^ 24) := by
      refine le_trans a1 ?_
      calc i.val ^ 2 * S ≤ i.val ^ 2 * (exactLen2 v * (1 + 10 / 2 ^ 24)) := mul_le_mul_of_nonneg_left hiS (by positivity)
        _ = exactLen2 v * i.val ^ 2 * (1 + 10 / 2 ^ 24) := by ring
    norm_num at a2 ⊢
    linarith
  have eP : exactLen2 v * i.val ^ 2 = (v.x.val * i.val) ^ 2 + (v.y.val * i.val) ^ 2 + (v.z.val * i.val) ^ 2 := by
    unfold exactLen2; ring
  rw [eP] at P1 P2
  have qx : 0 ≤ (v.x.val * i.val) ^ 2 := sq_nonneg _
  have qy : 0 ≤ (v.y.val * i.val) ^ 2 := sq_nonneg _
  have qz : 0 ≤ (v.z.val * i.val) ^ 2 := sq_nonneg _
  have P1' : (v.x.val * i.val) ^ 2 + (v.y.val * i.val) ^ 2 + (v.z.val * i.val) ^ 2 ≤ 4 := P1.trans (by norm_num)
  obtain ⟨⟨-, x⟩, ⟨-, y⟩, ⟨-, z⟩⟩ := hv
  obtain ⟨ox, fx, sx, cx⟩ := comp_spec x fi (by linarith)
  obtain ⟨oy, fy, sy, cy⟩ := comp_spec y fi (by linarith)
  obtain ⟨oz, fz, sz, cz⟩ := comp_spec z fi (by linarith)
  rw [eN]
  refine ⟨⟨⟨ox, fx⟩, ⟨oy, fy⟩, ⟨oz, fz⟩⟩, ?_, i.val, ip, sx, sy, sz⟩
  unfold exactLen2
  simp only
  generalize (v.x.val * i.val) ^ 2 = X at *
  generalize (v.y.val * i.val) ^ 2 = Y at *
  generalize (v.z.val * i.val) ^ 2 = Z at *
  have hη : (2 : ℚ) ^ (-147 : ℤ) ≤ 1 / 2 ^ 24 := by norm_num
  generalize (2 : ℚ) ^ (-147 : ℤ) = η at *
  rw [abs_le] at *
  obtain ⟨cx, cx'⟩ := cx
  obtain ⟨cy, cy'⟩ := cy
  obtain ⟨cz, cz'⟩ := cz
  norm_num at *
  constructor <;> linarith

/-- A vector that passes the test has length one up to `1.1·10⁻⁵`. -/
theorem kept {v : V3 F32} (hv : FiniteVec v) (hb : Within (2 ^ (63 : ℤ)) v)
    (h : 2 ^ (-126 : ℤ) ≤ exactLen2 v) (hn : isNormalized v = true) : |exactLen2 v - 1| ≤ 11 / 10 ^ 6 := by
  obtain ⟨f, lo, hi⟩ := flen2_rel hv hb h
  obtain ⟨a, b⟩ := (isNormalized_iff f).1 hn
  rw [abs_le]
  norm_num at *
  constructor <;> linarith

theorem passes {v : V3 F32} (hv : FiniteVec v) (h : |exactLen2 v - 1| ≤ 1 / 2 ^ 19) : isNormalized v = true := by
  obtain ⟨a, b⟩ := abs_le.1 h
  have hw : Within (2 ^ (63 : ℤ)) v := within_of_len2 (by positivity) (by norm_num at *; linarith)
  obtain ⟨f, lo, hi⟩ := flen2_rel hv hw (by norm_num at *; linarith)
  rw [isNormalized_iff f]
  norm_num at *
  constructor <;> linarith

/-- **C156.** If the square of the length of a vector is neither subnormal nor overflows, its normalisation is
finite, has a length of one up to `1.1·10⁻⁵`, and is a positive multiple of the vector up to one rounding of each
component. -/
theorem C156_unit_partial (v : V3 F32) (hv : FiniteVec v) (hb : Within (2 ^ (63 : ℤ)) v)
    (h : 2 ^ (-126 : ℤ) ≤ exactLen2 v) :
    FiniteVec (normalize v) ∧ |exactLen2 (normalize v) - 1| ≤ 11 / 10 ^ 6 ∧ ∃ c > 0, Scaled c v (normalize v) := by
  by_cases hn : isNormalized v = true
  · have e : normalize v = v := by unfold normalize; rw [if_pos hn]
    rw [e]
    refine ⟨hv, kept hv hb h hn, 1, one_pos, ?_, ?_, ?_⟩ <;>
    · rw [one_mul, sub_self, abs_zero]; positivity
  · obtain ⟨a, b, c⟩ := divided hv hb h (by simpa using hn)
    exact ⟨a, b.trans (by norm_num), c⟩

/-- **C156.** The result passes the test for normalised vectors, and normalising it again changes nothing. -/
theorem C156_stable_partial (v : V3 F32) (hv : FiniteVec v) (hb : Within (2 ^ (63 : ℤ)) v)
    (h : 2 ^ (-126 : ℤ) ≤ exactLen2 v) :
    isNormalized (normalize v) = true ∧ normalize (normalize v) = normalize v := by
  have key : isNormalized (normalize v) = true := by
    by_cases hn : isNormalized v = true
    · have e : normalize v = v := by unfold normalize; rw [if_pos hn]
      rw [e]; exact hn
    · obtain ⟨a, b, -⟩ := divided hv hb h (by simpa using hn)
      exact passes a b
  exact ⟨key, normalize_of key⟩

example : FiniteVec ⟨num 3, zero true, num (-4)⟩ ∧ Within (2 ^ (63 : ℤ)) ⟨num 3, zero true, num (-4)⟩ ∧
    (2 : ℚ) ^ (-126 : ℤ) ≤ exactLen2 ⟨num 3, zero true, num (-4)⟩ := by
  refine ⟨⟨⟨⟨by norm_num, by decide +kernel, by norm_num⟩, trivial⟩, ⟨trivial, trivial⟩,
    ⟨⟨by norm_num, by decide +kernel, by norm_num⟩, trivial⟩⟩, ?_, ?_⟩
  · simp only [Within, F32.val]; norm_num
  · simp only [exactLen2, F32.val]; norm_num

/-! ### Where the square of the length overflows or vanishes -/

/-- Square of a finite number: not negative, not NaN. -/
theorem sq_cases {a : F32} (hf : a.Finite) :
    mul a a = inf false ∨ ((mul a a).Finite ∧ 0 ≤ (mul a a).val ∧ (mul a a).sign = false) := by
  cases a with
  | nan => exact hf.elim
  | inf s => exact hf.elim
  | zero s => cases s <;> simp [F32.mul, F32.sign, F32.val, F32.round, F32.Finite]
  | num q =>
    rw [sq_round]
    have h0 : 0 ≤ q * q := mul_self_nonneg q
    unfold F32.round
    split_ifs with h1 h2 h3
    · exact Or.inr ⟨trivial, le_rfl, rfl⟩
    · exact Or.inr ⟨trivial, le_rfl, by simp [F32.sign, h0]⟩
    · left; simp [h0]
    · exact Or.inr ⟨trivial, rnd32_nonneg h0, by simp [F32.sign, rnd32_nonneg h0]⟩

/-- Sum of two such numbers. -/
theorem add_cases {a b : F32} (ha : a = inf false ∨ (a.Finite ∧ 0 ≤ a.val ∧ a.sign = false))
    (hb : b = inf false ∨ (b.Finite ∧ 0 ≤ b.val ∧ b.sign = false)) :
    (add a b = inf false ∨ ((add a b).Finite ∧ 0 ≤ (add a b).val ∧ (add a b).sign = false)) ∧
      (a = inf false ∨ b = inf false → add a b = inf false) := by
  rcases ha with rfl | ⟨fa, pa, sa⟩
  · rcases hb with rfl | ⟨fb, -, -⟩
    · simp [F32.add]
    · cases b <;> simp only [F32.Finite] at fb <;> simp [F32.add]
  · rcases hb with rfl | ⟨fb, pb, sb⟩
    · cases a <;> simp only [F32.Finite] at fa <;> simp [F32.add]
    · constructor
      · have e : add a b = F32.round (a.sign && b.sign) (a.val + b.val) := by
          cases a <;> cases b <;> simp only [F32.Finite] at fa fb <;> rfl
        rw [e, sa, sb]
        have h0 : 0 ≤ a.val + b.val := add_nonneg pa pb
        generalize a.val + b.val = q at *
        unfold F32.round
        split_ifs with h1 h2 h3
        · exact Or.inr ⟨trivial, le_rfl, rfl⟩
        · exact Or.inr ⟨trivial, le_rfl, by simp [F32.sign, h0]⟩
        · left; simp [h0]
        · exact Or.inr ⟨trivial, rnd32_nonneg h0, by simp [F32.sign, rnd32_nonneg h0]⟩
      · rintro (rfl | rfl)
        · exact fa.elim
        · exact fb.elim

theorem sq_large {a : F32} (hf : a.Finite) (h : 2 ^ (64 : ℤ) ≤ |a.val|) : mul a a = inf false := by
  cases a with
  | nan => exact hf.elim
  | inf s => exact hf.elim
  | zero s => exact absurd h (by simp [F32.val])
  | num q =>
    rw [sq_round]
    have h0 : 0 ≤ q * q := mul_self_nonneg q
    have h2 : (2 : ℚ) ^ (128 : ℤ) ≤ q * q := by
      have := mul_le_mul h h (by positivity) (abs_nonneg _)
      rw [abs_mul_abs_self] at this
      refine le_trans (le_of_eq ?_) this
      norm_num
    have h3 := le_rnd32 (by norm_num) h2
    have hp : (0 : ℚ) < 2 ^ (128 : ℤ) := by positivity
    unfold F32.round
    rw [if_neg (by linarith), if_neg (by linarith), if_pos (by
      rw [abs_of_nonneg (by linarith)]; exact_mod_cast h3)]
    simp [h0]

theorem sq_small {a : F32} (hf : a.Finite) (h : |a.val| ≤ 2 ^ (-75 : ℤ)) : mul a a = zero false := by
  cases a with
  | nan => exact hf.elim
  | inf s => exact hf.elim
  | zero s => cases s <;> simp [F32.mul, F32.sign, F32.val, F32.round]
  | num q =>
    rw [sq_round]
    have h0 : 0 ≤ q * q := mul_self_nonneg q
    have h2 : q * q ≤ (2 : ℚ) ^ (-150 : ℤ) := by
      have := mul_le_mul h h (abs_nonneg _) (by positivity)
      rw [show (num q).val = q from rfl, abs_mul_abs_self] at this
      refine this.trans (le_of_eq ?_)
      norm_num
    have h3 : rnd32 (q * q) = 0 := by
      apply le_antisymm _ (rnd32_nonneg h0)
      refine (rnd32_mono h2).trans (le_of_eq ?_)
      decide +kernel
    unfold F32.round
    split_ifs with h1
    · rfl
    · simp [h0]

/-- **C156 violated.** A vector with a component of `2^64` or more is normalised to the zero vector: the square of
its length is infinite. -/
theorem C156_violated_large (v : V3 F32) (hv : FiniteVec v)
    (h : 2 ^ (64 : ℤ) ≤ |v.x.val| ∨ 2 ^ (64 : ℤ) ≤ |v.y.val| ∨ 2 ^ (64 : ℤ) ≤ |v.z.val|) :
    exactLen2 (normalize v) = 0 ∧ isNormalized (normalize v) = false := by
  obtain ⟨⟨-, x⟩, ⟨-, y⟩, ⟨-, z⟩⟩ := hv
  have e : flen2 v = inf false := by
    unfold flen2
    have a1 := add_cases (sq_cases x) (sq_cases y)
    have a2 := add_cases a1.1 (sq_cases z)
    rcases h with h | h | h
    · exact a2.2 (Or.inl (a1.2 (Or.inl (sq_large x h))))
    · exact a2.2 (Or.inl (a1.2 (Or.inr (sq_large y h))))
    · exact a2.2 (Or.inr (sq_large z h))
  have hn : isNormalized v = false := by
    unfold isNormalized
    rw [e]
    have hh := high_val.1
    generalize high = w at *
    cases w <;> simp [F32.Finite] at hh <;> simp [F32.lt]
  have m0 : ∀ a : F32, a.Finite → ∃ s, mul a (zero false) = zero s := by
    intro a ha
    cases a <;> simp only [F32.Finite] at ha <;> simp [F32.mul, F32.round, F32.val]
  have d0 : div (num 1) (F32.sqrt (flen2 v)) = zero false := by rw [e]; simp [F32.sqrt, div, F32.sign]
  obtain ⟨s1, e1⟩ := m0 _ x
  obtain ⟨s2, e2⟩ := m0 _ y
  obtain ⟨s3, e3⟩ := m0 _ z
  have eN : normalize v = ⟨zero s1, zero s2, zero s3⟩ := by
    unfold normalize
    rw [if_neg (by simp [hn]), d0]
    simp only [e1, e2, e3]
  rw [eN]
  refine ⟨by simp [exactLen2, F32.val], ?_⟩
  cases s1 <;> cases s2 <;> cases s3 <;> decide +kernel

/-- **C156 violated.** A vector of three components of at most `2^-75` is normalised to infinities and NaN: the
square of its length is zero. -/
theorem C156_violated_small (v : V3 F32) (hv : FiniteVec v) (h : Within (2 ^ (-75 : ℤ)) v) :
    ¬ (normalize v).x.Finite ∧ ¬ (normalize v).y.Finite ∧ ¬ (normalize v).z.Finite := by
  obtain ⟨⟨-, x⟩, ⟨-, y⟩, ⟨-, z⟩⟩ := hv
  have e : flen2 v = zero false := by
    unfold flen2
    rw [sq_small x h.1, sq_small y h.2.1, sq_small z h.2.2]
    decide +kernel
  have hn : isNormalized v = false := by
    unfold isNormalized
    rw [e]
    decide +kernel
  have d0 : div (num 1) (F32.sqrt (flen2 v)) = inf false := by rw [e]; simp [F32.sqrt, div, F32.sign, F32.isZero]
  have m0 : ∀ a : F32, a.Finite → ¬ (mul a (inf false)).Finite := by
    intro a ha
    cases a <;> simp only [F32.Finite] at ha <;> simp [F32.mul, F32.isZero, F32.Finite]
  unfold normalize
  rw [if_neg (by simp [hn]), d0]
  exact ⟨m0 _ x, m0 _ y, m0 _ z⟩

/-- The cross product of two edges of a triangle with legs of 2^-40. -/
example : FiniteVec ⟨zero false, zero false, num (2 ^ (-80 : ℤ))⟩ ∧
    Within (2 ^ (-75 : ℤ)) ⟨zero false, zero false, num (2 ^ (-80 : ℤ))⟩ := by
  refine ⟨⟨⟨trivial, trivial⟩, ⟨trivial, trivial⟩, ⟨⟨by norm_num, by decide +kernel, by norm_num⟩, trivial⟩⟩, ?_⟩
  simp only [Within, F32.val]; norm_num

example : FiniteVec ⟨num 1, zero false, num (2 ^ (64 : ℤ))⟩ ∧ 2 ^ (64 : ℤ) ≤ |(num (2 ^ (64 : ℤ))).val| := by
  refine ⟨⟨⟨⟨by norm_num, by decide +kernel, by norm_num⟩, trivial⟩, ⟨trivial, trivial⟩,
    ⟨⟨by norm_num, by decide +kernel, by norm_num⟩, trivial⟩⟩, ?_⟩
  simp only [F32.val]; norm_num

theorem sqrt32_pow (k : ℤ) : sqrt32 (2 ^ (2 * k)) = 2 ^ k := by
  have hp := two_zpow_pos (2 * k)
  obtain ⟨N, e, n1, -, b, -⟩ := sqrt32_spec hp
  have hl : Int.log 2 ((2 : ℚ) ^ (2 * k)) = 2 * k := by
    have := Int.log_zpow (R := ℚ) (b := 2) (by norm_num) (2 * k); exact_mod_cast this
  rw [hl] at e b
  have hk : 2 * k / 2 - 23 = k - 23 := by omega
  rw [hk] at e b
  have hs : (2 : ℚ) ^ (2 * k) / 4 ^ (k - 23) = 2 ^ 46 := by
    rw [show (4 : ℚ) = 2 ^ (2 : ℤ) by norm_num, ← zpow_mul, ← zpow_sub₀ (by norm_num),
      show 2 * k - 2 * (k - 23) = 46 by ring]
    norm_num
  rw [hs] at b
  have hN : N = 2 ^ 23 := by
    apply le_antisymm _ n1
    by_contra hc
    push Not at hc
    have : ((2 : ℚ) ^ 23 + 1) ≤ N := by exact_mod_cast hc
    nlinarith
  rw [e, hN, show (((2 ^ 23 : ℕ) : ℚ)) = 2 ^ (23 : ℤ) by norm_num, ← zpow_add₀ (by norm_num)]
  congr 1; ring

/-- **C156 violated.** Between the two the length is inexact: this vector of length `17·2^-78` is normalised to
`(17/16, 0, 0)`. -/
theorem C156_violated_subnormal :
    normalize ⟨num (17 * 2 ^ (-78 : ℤ)), zero false, zero false⟩ = ⟨num (17 / 16), zero false, zero false⟩ := by
  have e : flen2 ⟨num (17 * 2 ^ (-78 : ℤ)), zero false, zero false⟩ = num (2 ^ (2 * (-74) : ℤ)) := by decide +kernel
  have hn : isNormalized ⟨num (17 * 2 ^ (-78 : ℤ)), zero false, zero false⟩ = false := by decide +kernel
  unfold normalize
  rw [if_neg (by rw [hn]; exact Bool.false_ne_true), e]
  have hs : F32.sqrt (num (2 ^ (2 * (-74) : ℤ))) = num (2 ^ (-74 : ℤ)) := by
    unfold F32.sqrt
    simp only
    rw [if_neg (not_lt.2 (two_zpow_pos _).le), sqrt32_pow]
  rw [hs]
  decide +kernel

end Spectre.Normalize
