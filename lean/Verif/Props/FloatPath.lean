import Verif.Model.FloatPath
import Verif.Props.FloatDirect

/-
C177: the radiance of a path in binary32.
-/

namespace Spectre.FPath

open Spectre.Geom Spectre.FMat Spectre.FMicro Spectre.FArea F32

/-! ### Specification -/

/-- A finite number that is not negative and at most `2^k`. -/
def Upto (k : ℤ) (x : F32) : Prop := x.Finite ∧ 0 ≤ x.val ∧ x.val ≤ 2 ^ k

/-- All three channels are. -/
def Light (k : ℤ) (v : V3 F32) : Prop := Upto k v.x ∧ Upto k v.y ∧ Upto k v.z

/-- A vertex of a sound scene: emission and direct light are at most `2^40`, the density is zero or at least `2^-100`, and
where it is not zero the material times the cosine is at most `2^11` times the density. -/
structure Sound (v : Vertex) : Prop where
  emission : ∀ e, v.emission = some e → Light 40 e
  direct : Light 40 v.direct
  adot : Upto 1 v.adot
  f : Light 100 v.f
  pdf : v.pdf.Finite ∧ (v.pdf.val = 0 ∨ 2 ^ (-100 : ℤ) ≤ v.pdf.val)
  x : v.f.x.val * v.adot.val ≤ 2 ^ (11 : ℤ) * v.pdf.val ∨ v.pdf.val = 0
  y : v.f.y.val * v.adot.val ≤ 2 ^ (11 : ℤ) * v.pdf.val ∨ v.pdf.val = 0
  z : v.f.z.val * v.adot.val ≤ 2 ^ (11 : ℤ) * v.pdf.val ∨ v.pdf.val = 0

/-! ### Bounds -/

theorem upto_zero (k : ℤ) : Upto k (zero false) := ⟨trivial, le_rfl, (two_zpow_pos k).le⟩

theorem light_black (k : ℤ) : Light k black := ⟨upto_zero k, upto_zero k, upto_zero k⟩

theorem upto_mono {i j : ℤ} {x : F32} (h : Upto i x) (hij : i ≤ j) : Upto j x :=
  ⟨h.1, h.2.1, h.2.2.trans (zpow_le_zpow_right₀ (by norm_num) hij)⟩

theorem light_mono {i j : ℤ} {v : V3 F32} (h : Light i v) (hij : i ≤ j) : Light j v :=
  ⟨upto_mono h.1 hij, upto_mono h.2.1 hij, upto_mono h.2.2 hij⟩

/-- Rounding keeps a bound that is a power of two. -/
theorem upto_round {x : F32} {e : ℚ} {k : ℤ} (hx : |rnd32 e| < 2 ^ 128 → x.Finite ∧ x.val = rnd32 e) (h0 : 0 ≤ e) (h1 : e ≤ 2 ^ k)
    (hk : -149 ≤ k) (hk' : k ≤ 127) : Upto k x := by
  have r1 := FTri.rnd32_abs_le hk (q := e) (by rwa [abs_of_nonneg h0])
  have r2 : (2 : ℚ) ^ k < 2 ^ 128 := by
    have : (2 : ℚ) ^ k ≤ 2 ^ (127 : ℤ) := zpow_le_zpow_right₀ (by norm_num) hk'
    exact lt_of_le_of_lt this (by norm_num)
  obtain ⟨f, v⟩ := hx (lt_of_le_of_lt r1 r2)
  exact ⟨f, v ▸ rnd32_nonneg h0, v ▸ (le_abs_self _).trans r1⟩

theorem upto_mul {x y : F32} {i j k : ℤ} (hx : Upto i x) (hy : Upto j y) (h : i + j = k) (hk : -149 ≤ k) (hk' : k ≤ 127) :
    Upto k (F32.mul x y) := by
  refine upto_round (mul_finite hx.1 hy.1) (mul_nonneg hx.2.1 hy.2.1) ?_ hk hk'
  rw [← h, zpow_add₀ (by norm_num)]
  exact mul_le_mul hx.2.2 hy.2.2 hy.2.1 (two_zpow_pos _).le

theorem upto_add {x y : F32} {i k : ℤ} (hx : Upto i x) (hy : Upto i y) (h : i + 1 = k) (hk : -149 ≤ k) (hk' : k ≤ 127) :
    Upto k (F32.add x y) := by
  refine upto_round (add_finite hx.1 hy.1) (add_nonneg hx.2.1 hy.2.1) ?_ hk hk'
  rw [← h, zpow_add₀ (by norm_num), zpow_one]
  linarith [hx.2.2, hy.2.2]

theorem light_times {a b : V3 F32} {i j k : ℤ} (ha : Light i a) (hb : Light j b) (h : i + j = k) (hk : -149 ≤ k) (hk' : k ≤ 127) :
    Light k (times a b) :=
  ⟨upto_mul ha.1 hb.1 h hk hk', upto_mul ha.2.1 hb.2.1 h hk hk', upto_mul ha.2.2 hb.2.2 h hk hk'⟩

theorem light_plus {a b : V3 F32} {i k : ℤ} (ha : Light i a) (hb : Light i b) (h : i + 1 = k) (hk : -149 ≤ k) (hk' : k ≤ 127) :
    Light k (plus a b) :=
  ⟨upto_add ha.1 hb.1 h hk hk', upto_add ha.2.1 hb.2.1 h hk hk', upto_add ha.2.2 hb.2.2 h hk hk'⟩

theorem upto_black_plus {y : F32} {k : ℤ} (hy : Upto k y) (hk : -149 ≤ k) (hk' : k ≤ 127) : Upto k (F32.add (zero false) y) :=
  upto_round (add_finite (a := zero false) trivial hy.1) (by simpa [F32.val] using hy.2.1) (by simpa [F32.val] using hy.2.2) hk hk'

theorem light_own {v : Vertex} (h : Sound v) {first : Bool} {power : V3 F32} {k : ℤ} (hp : Light k power) (k0 : 0 ≤ k) (k1 : k ≤ 60) :
    Light (k + 41) (own v first power) := by
  unfold own
  refine light_plus (i := k + 40) ?_ (light_times hp h.direct rfl (by omega) (by omega)) (by ring) (by omega) (by omega)
  split
  · next e he =>
    have := light_times hp (h.emission e he) rfl (by omega) (by omega)
    exact ⟨upto_black_plus this.1 (by omega) (by omega), upto_black_plus this.2.1 (by omega) (by omega),
      upto_black_plus this.2.2 (by omega) (by omega)⟩
  · exact light_black _

theorem upto_term {power : V3 F32} {k : ℤ} (hp : Light k power) : Upto (-1) (term power) := by
  unfold term FFilm.fmin
  have hh : (num (1 / 2)).Finite := trivial
  rw [lt_finite hp.2.1.1 hh]
  split
  · next h =>
    have h := of_decide_eq_true h
    refine ⟨hp.2.1.1, hp.2.1.2.1, h.le.trans (by norm_num [F32.val])⟩
  · exact ⟨hh, by norm_num [F32.val], by norm_num [F32.val]⟩

/-- One channel of `f*adot/pdf`. -/
theorem upto_factor {f a p : F32} {k : ℤ} (hf : Upto k f) (ha : Upto 1 a) (hk0 : -150 ≤ k) (hk : k ≤ 120) (fp : p.Finite)
    (p0 : 2 ^ (-100 : ℤ) ≤ p.val) (h : f.val * a.val ≤ 2 ^ (11 : ℤ) * p.val) : Upto 12 (div (F32.mul f a) p) := by
  have pp : 0 < p.val := lt_of_lt_of_le (two_zpow_pos _) p0
  have m0 : 0 ≤ f.val * a.val := mul_nonneg hf.2.1 ha.2.1
  have m1 : f.val * a.val ≤ 2 ^ (k + 1) := by
    rw [zpow_add₀ (by norm_num)]
    exact mul_le_mul hf.2.2 ha.2.2 ha.2.1 (two_zpow_pos _).le
  obtain ⟨fm, n0, -⟩ := upto_mul hf ha rfl (by omega) (by omega)
  have r1 := FTri.rnd32_abs_le (k := k + 1) (by omega) (q := f.val * a.val) (by rwa [abs_of_nonneg m0])
  have r2 : (2 : ℚ) ^ (k + 1) < 2 ^ 128 := by
    have : (2 : ℚ) ^ (k + 1) ≤ 2 ^ (127 : ℤ) := zpow_le_zpow_right₀ (by norm_num) (by omega)
    exact lt_of_le_of_lt this (by norm_num)
  have vm := (mul_finite hf.1 ha.1 (lt_of_le_of_lt r1 r2)).2
  have e := (abs_le.1 (rnd32_err' (f.val * a.val))).2
  rw [← vm, abs_of_nonneg m0] at e
  have n1 : (F32.mul f a).val ≤ 2 ^ (12 : ℤ) * p.val := by
    have : (2 : ℚ) ^ (-150 : ℤ) ≤ 2 ^ (-100 : ℤ) := zpow_le_zpow_right₀ (by norm_num) (by norm_num)
    norm_num at h this e p0 ⊢
    nlinarith
  exact upto_round (div_finite fm fp pp.ne') (div_nonneg n0 pp.le) (by rwa [div_le_iff₀ pp]) (by norm_num) (by norm_num)

theorem eq_zero_of {p : F32} (f : p.Finite) (h : F32.eq p (zero false) ≠ true) : p.val ≠ 0 := by
  intro h0
  apply h
  cases p with
  | nan => exact f.elim
  | inf s => exact f.elim
  | zero s => rfl
  | num q => simp only [F32.val] at h0; simp [F32.eq, F32.val, h0]

theorem light_carried {v : Vertex} (h : Sound v) {power : V3 F32} {rr : F32} {k : ℤ} (hp : Light k power) (k0 : 0 ≤ k) (k1 : k ≤ 60)
    (hr : Upto 0 rr) (hpdf : F32.eq v.pdf (zero false) ≠ true) : Light (k + 12) (carried v power rr) := by
  obtain ⟨fp, p0⟩ := h.pdf
  have pz := eq_zero_of fp hpdf
  have p1 := p0.resolve_left pz
  have g : ∀ {c : F32}, Upto 100 c → c.val * v.adot.val ≤ 2 ^ (11 : ℤ) * v.pdf.val →
      Upto 12 (F32.mul (div (F32.mul c v.adot) v.pdf) rr) := fun hc hm =>
    upto_mul (upto_factor hc h.adot (by norm_num) (by norm_num) fp p1 hm) hr rfl (by norm_num) (by norm_num)
  exact light_times hp ⟨g h.f.1 (h.x.resolve_right pz), g h.f.2.1 (h.y.resolve_right pz), g h.f.2.2 (h.z.resolve_right pz)⟩ rfl
    (by omega) (by omega)

theorem light_lRec (path : List Vertex) (h : ∀ v ∈ path, Sound v) : ∀ (ric : ℕ) (power : V3 F32) (s : Bool), ric ≤ 5 →
    Light (12 * ric) power → Light (106 - ric) (lRec path ric power s) := by
  induction path with
  | nil => intro _ _ _ _ _; exact light_black _
  | cons v rest ih =>
    intro ric power s hr hp
    have hv := h v (by simp)
    have hrest : ∀ w ∈ rest, Sound w := fun w hw => h w (by simp [hw])
    have ho : Light 101 (own v (ric == 0 || s) power) := light_mono (light_own hv hp (by omega) (by omega)) (by omega)
    have ho' : Light (106 - ric) (own v (ric == 0 || s) power) := light_mono ho (by omega)
    unfold lRec
    dsimp only
    split
    · exact ho'
    · split
      · exact ho'
      · next h5 =>
        split
        · exact ho'
        · next hb =>
          split
          · exact ho'
          · have hb1 : F32.eq v.pdf (zero false) ≠ true := fun e => hb (by rw [e]; rfl)
            have r5 : ric < 5 := lt_of_le_of_ne hr h5
            have hrr : Upto 0 (if 3 < ric then term power else num 1) := by
              split
              · exact upto_mono (upto_term hp) (by norm_num)
              · exact ⟨trivial, by norm_num [F32.val], by norm_num [F32.val]⟩
            have hc := light_carried hv hp (by omega) (by omega) hrr hb1
            have := ih hrest (ric + 1) _ v.spec (by omega) (by push_cast; rwa [mul_add, mul_one])
            refine light_plus (i := 106 - ((ric + 1 : ℕ) : ℤ)) (light_mono ho (by push_cast; omega)) this (by push_cast; ring) (by omega) (by omega)

/-- **C177, the radiance of a path is a number.**  Through a sound scene every channel of the radiance of a path, however
long, is finite, not negative and at most `2^106`. -/
theorem C177_bounded {path : List Vertex} (h : ∀ v ∈ path, Sound v) : Light 106 (radiance path) := by
  have := light_lRec path h 0 ones false (by norm_num)
    ⟨⟨trivial, by norm_num [ones, F32.val], by norm_num [ones, F32.val]⟩, ⟨trivial, by norm_num [ones, F32.val], by norm_num [ones, F32.val]⟩,
      ⟨trivial, by norm_num [ones, F32.val], by norm_num [ones, F32.val]⟩⟩
  simpa [radiance] using this

theorem lRec_take (path : List Vertex) : ∀ (ric : ℕ) (power : V3 F32) (s : Bool), ric ≤ 5 →
    lRec (path.take (6 - ric)) ric power s = lRec path ric power s := by
  induction path with
  | nil => intro _ _ _ _; simp
  | cons v rest ih =>
    intro ric power s hr
    obtain ⟨n, hn⟩ : ∃ n, 6 - ric = n + 1 := ⟨5 - ric, by omega⟩
    rw [hn, List.take_succ_cons]
    unfold lRec
    dsimp only
    by_cases h5 : ric = bounces
    · simp only [h5, if_true]
    · simp only [h5, if_false]
      have r5 : ric < 5 := lt_of_le_of_ne hr h5
      have n1 : n = 6 - (ric + 1) := by omega
      have e : (rest.take n).isEmpty = rest.isEmpty := by
        cases rest with
        | nil => simp
        | cons w l =>
          obtain ⟨m, rfl⟩ : ∃ m, n = m + 1 := ⟨n - 1, by omega⟩
          simp
      rw [e, n1, ih (ric + 1) _ _ (by omega)]

/-- **C177, a path has six vertices.**  Whatever comes after the sixth vertex is not looked at. -/
theorem C177_vertices (path : List Vertex) : radiance (path.take 6) = radiance path := lRec_take path 0 ones false (by norm_num)

/-! ### Nearness -/

/-- A channel. -/
inductive Channel | x | y | z

/-- Its value. -/
def Channel.of : Channel → V3 F32 → F32
  | .x, v => v.x
  | .y, v => v.y
  | .z, v => v.z

/-- The light that leaves the vertex towards the path, if it counts. -/
def emitted (c : Channel) (seen : Bool) (v : Vertex) : ℚ :=
  match seen, v.emission with
  | true, some e => (c.of e).val
  | _, _ => 0

/-- What a vertex multiplies the throughput with: material times cosine over density. -/
def factor (c : Channel) (v : Vertex) : ℚ := (c.of v.f).val * v.adot.val / v.pdf.val

/-- The exact throughput of the vertices of a path. -/
def throughput (c : Channel) : List Vertex → ℚ
  | [] => 1
  | v :: rest => factor c v * throughput c rest

/-- The exact radiance of a path that arrives with the throughput `P`, in one channel: at every vertex the emission (if the
path arrives from the eye or by a specular reflection) and the direct light, times the throughput. -/
def ideal (c : Channel) : List Vertex → Bool → ℚ → ℚ
  | [], _, _ => 0
  | v :: rest, seen, P =>
    P * (emitted c seen v + (c.of v.direct).val) +
      ideal c rest v.spec (P * factor c v)

/-- The same with the roulette of the code for bright paths, from the vertex with the number `n` on: at the vertex 4 the path
ends if the random number is below one half and goes on with the weight one half if not; at the vertex 5 it ends. -/
def idealR (c : Channel) : List Vertex → ℕ → Bool → ℚ → ℚ
  | [], _, _, _ => 0
  | v :: rest, n, seen, P =>
    P * (emitted c seen v + (c.of v.direct).val) +
      if n ≤ 3 then idealR c rest (n + 1) v.spec (P * factor c v)
      else if n = 4 ∧ 1 / 2 ≤ v.rand.val then idealR c rest 5 v.spec (P * (factor c v * (1 / 2)))
      else 0

/-- From `2^-k` to `2^k`. -/
def Mid (k : ℤ) (x : F32) : Prop := x.Finite ∧ 2 ^ (-k) ≤ x.val ∧ x.val ≤ 2 ^ k

/-- A vertex of which everything is in the middle of the range. -/
structure Plain (c : Channel) (v : Vertex) : Prop where
  emission : ∀ e, v.emission = some e → Mid 10 (c.of e)
  direct : Mid 10 (c.of v.direct)
  f : Mid 5 (c.of v.f)
  adot : Mid 5 v.adot
  pdf : Mid 5 v.pdf
  rand : v.rand.Finite

theorem of_plus (c : Channel) (a b : V3 F32) : c.of (plus a b) = F32.add (c.of a) (c.of b) := by cases c <;> rfl
theorem of_times (c : Channel) (a b : V3 F32) : c.of (times a b) = F32.mul (c.of a) (c.of b) := by cases c <;> rfl
theorem of_scale (c : Channel) (a : V3 F32) (s : F32) : c.of (scale a s) = F32.mul (c.of a) s := by cases c <;> rfl
theorem of_over (c : Channel) (a : V3 F32) (s : F32) : c.of (over a s) = div (c.of a) s := by cases c <;> rfl
theorem of_black (c : Channel) : c.of black = zero false := by cases c <;> rfl
theorem of_ones (c : Channel) : c.of ones = num 1 := by cases c <;> rfl

theorem mid_pos {k : ℤ} {x : F32} (h : Mid k x) : 0 < x.val := lt_of_lt_of_le (two_zpow_pos _) h.2.1

theorem mid_rl {k : ℤ} {x : F32} (h : Mid k x) : Rl x x.val 0 := rl_exact h.1 (mid_pos h).le

theorem rl_mono {x : F32} {X i j : ℚ} (h : Rl x X i) (hij : i ≤ j) : Rl x X j :=
  ⟨h.1, h.2.1, h.2.2.trans (mul_le_mul_of_nonneg_right hij h.2.1)⟩

theorem not_black {c : Channel} {a : V3 F32} {k : ℤ} (h : Mid k (c.of a)) : isBlack a = false := by
  have p := mid_pos h
  have f := h.1
  have e : F32.eq (c.of a) (zero false) = false := by
    cases hx : c.of a with
    | nan => rfl
    | inf s => rfl
    | zero s => rw [hx] at p; exact absurd p (lt_irrefl _)
    | num q =>
      rw [hx] at p
      have : q ≠ 0 := ne_of_gt p
      simp [F32.eq, F32.val, this]
  unfold isBlack
  cases c <;> simp only [Channel.of] at e <;> simp [e]

theorem pdf_ne {k : ℤ} {p : F32} (h : Mid k p) : F32.eq p (zero false) = false := by
  have := not_black (c := .x) (a := ⟨p, zero false, zero false⟩) h
  cases hx : F32.eq p (zero false) with
  | false => rfl
  | true => simp [isBlack, hx] at this; exact absurd this (by decide)

/-- The throughput of the next vertex. -/
theorem carried_near {c : Channel} {v : Vertex} (h : Plain c v) {power : V3 F32} {P k w : ℚ} {n : ℤ} (hp : Rl (c.of power) P k) (k0 : 0 ≤ k)
    (k1 : k ≤ 1 / 10 ^ 4) (n0 : 0 ≤ n) (n1 : n ≤ 64) (P0 : 2 ^ (-n) ≤ P) (P1 : P ≤ 2 ^ n) (w0 : 1 / 2 ≤ w) (w1 : w ≤ 1) :
    Rl (c.of (carried v power (num w))) (P * (factor c v * w)) (k + 5 / 10 ^ 7) ∧
      2 ^ (-(n + 16)) ≤ P * (factor c v * w) ∧ P * (factor c v * w) ≤ 2 ^ (n + 16) := by
  have fp := mid_pos h.f
  have ap := mid_pos h.adot
  have pp := mid_pos h.pdf
  obtain ⟨ff, f0, f1⟩ := id h.f
  obtain ⟨fa, a0, a1⟩ := id h.adot
  obtain ⟨fd, d0, d1⟩ := id h.pdf
  have Pp : 0 < P := lt_of_lt_of_le (two_zpow_pos _) P0
  unfold factor
  set F := (c.of v.f).val with hF
  set A := v.adot.val with hA
  set D := v.pdf.val with hD
  have m0 : 2 ^ (-10 : ℤ) ≤ F * A := by
    have := mul_le_mul f0 a0 (two_zpow_pos _).le fp.le
    exact le_trans (by norm_num) this
  have m1 : F * A ≤ 2 ^ (10 : ℤ) := (mul_le_mul f1 a1 ap.le (two_zpow_pos _).le).trans (by norm_num)
  have q0 : 2 ^ (-15 : ℤ) ≤ F * A / D := by
    rw [le_div_iff₀ pp]
    calc (2 : ℚ) ^ (-15 : ℤ) * D ≤ 2 ^ (-15 : ℤ) * 2 ^ (5 : ℤ) := mul_le_mul_of_nonneg_left d1 (two_zpow_pos _).le
      _ = 2 ^ (-10 : ℤ) := by norm_num
      _ ≤ _ := m0
  have q1 : F * A / D ≤ 2 ^ (15 : ℤ) := by
    rw [div_le_iff₀ pp]
    calc F * A ≤ 2 ^ (10 : ℤ) := m1
      _ = 2 ^ (15 : ℤ) * 2 ^ (-5 : ℤ) := by norm_num
      _ ≤ _ := mul_le_mul_of_nonneg_left d0 (two_zpow_pos _).le
  have qp : 0 < F * A / D := lt_of_lt_of_le (two_zpow_pos _) q0
  have g1 := rl_mul (k' := 6 / 10 ^ 8) (mid_rl h.f) (mid_rl h.adot) le_rfl (Or.inr (le_trans (by norm_num) m0)) (m1.trans (by norm_num))
    (by norm_num) (by norm_num)
  have g2 := rl_div (k' := 12 / 10 ^ 8) g1 (mid_rl h.pdf) pp (by norm_num) le_rfl (by norm_num) (Or.inr (le_trans (by norm_num) q0))
    (q1.trans (by norm_num)) (by norm_num) (by norm_num)
  have wp : 0 < w := lt_of_lt_of_le (by norm_num) w0
  have rw' : Rl (num w) w 0 := ⟨trivial, wp.le, by simp [F32.val]⟩
  have u0 : 2 ^ (-16 : ℤ) ≤ F * A / D * w := by
    have := mul_le_mul q0 w0 (by norm_num) qp.le
    exact le_trans (by norm_num) this
  have u1 : F * A / D * w ≤ 2 ^ (16 : ℤ) := (mul_le_mul q1 w1 wp.le (two_zpow_pos _).le).trans (by norm_num)
  have up : 0 < F * A / D * w := mul_pos qp wp
  have g3 := rl_mul (k' := 19 / 10 ^ 8) g2 rw' (by norm_num) (Or.inr (le_trans (by norm_num) u0)) (u1.trans (by norm_num)) (by norm_num)
    (by norm_num)
  have b0 : 2 ^ (-(n + 16)) ≤ P * (F * A / D * w) := by
    rw [neg_add, zpow_add₀ (by norm_num)]
    exact mul_le_mul P0 u0 (two_zpow_pos _).le Pp.le
  have b1 : P * (F * A / D * w) ≤ 2 ^ (n + 16) := by
    rw [zpow_add₀ (by norm_num)]
    exact mul_le_mul P1 u1 up.le (two_zpow_pos _).le
  refine ⟨?_, b0, b1⟩
  have e : c.of (carried v power (num w)) = F32.mul (c.of power) (F32.mul (div (F32.mul (c.of v.f) v.adot) v.pdf) (num w)) := by
    unfold carried; rw [of_times, of_scale, of_over, of_scale]
  rw [e]
  refine rl_mul hp g3 k0 (Or.inr (le_trans (zpow_le_zpow_right₀ (by norm_num) (by omega)) b0)) (b1.trans ?_) ?_ ?_
  · have : (2 : ℚ) ^ (n + 16) ≤ 2 ^ (100 : ℤ) := zpow_le_zpow_right₀ (by norm_num) (by omega)
    exact this.trans (by norm_num)
  · nlinarith
  · nlinarith

/-- What a vertex adds. -/
theorem own_near {c : Channel} {v : Vertex} (h : Plain c v) {power : V3 F32} {P k : ℚ} {n : ℤ} {seen : Bool} (hp : Rl (c.of power) P k)
    (k0 : 0 ≤ k) (k1 : k ≤ 1 / 10 ^ 4) (n0 : 0 ≤ n) (n1 : n ≤ 80) (P0 : 2 ^ (-n) ≤ P) (P1 : P ≤ 2 ^ n) :
    Rl (c.of (own v seen power)) (P * (emitted c seen v + (c.of v.direct).val))
        (k + 3 / 10 ^ 7) ∧
      2 ^ (-90 : ℤ) ≤ P * (emitted c seen v + (c.of v.direct).val) ∧
      P * (emitted c seen v + (c.of v.direct).val) ≤ 2 ^ (91 : ℤ) := by
  have Pp : 0 < P := lt_of_lt_of_le (two_zpow_pos _) P0
  have P0' : 2 ^ (-80 : ℤ) ≤ P := le_trans (zpow_le_zpow_right₀ (by norm_num) (by omega)) P0
  have P1' : P ≤ 2 ^ (80 : ℤ) := P1.trans (zpow_le_zpow_right₀ (by norm_num) n1)
  have t : ∀ {x : F32}, Mid 10 x → Rl (F32.mul (c.of power) x) (P * x.val) (k + 1 / 10 ^ 7) ∧ 2 ^ (-90 : ℤ) ≤ P * x.val ∧
      P * x.val ≤ 2 ^ (90 : ℤ) := fun {x} hx => by
    have xp := mid_pos hx
    have b0 : 2 ^ (-90 : ℤ) ≤ P * x.val := by
      have := mul_le_mul P0' hx.2.1 (two_zpow_pos _).le Pp.le
      exact le_trans (by norm_num) this
    have b1 : P * x.val ≤ 2 ^ (90 : ℤ) := (mul_le_mul P1' hx.2.2 xp.le (two_zpow_pos _).le).trans (by norm_num)
    exact ⟨rl_mul hp (mid_rl hx) k0 (Or.inr (le_trans (by norm_num) b0)) (b1.trans (by norm_num)) (by linarith) (by linarith), b0, b1⟩
  have z : Rl (zero false) 0 0 := ⟨trivial, le_rfl, by norm_num [F32.val]⟩
  obtain ⟨r1, d0, d1⟩ := t h.direct
  have dark : c.of (own v seen power) = F32.add (zero false) (F32.mul (c.of power) (c.of v.direct)) → emitted c seen v = 0 →
      Rl (c.of (own v seen power)) (P * (emitted c seen v + (c.of v.direct).val)) (k + 3 / 10 ^ 7) ∧
        2 ^ (-90 : ℤ) ≤ P * (emitted c seen v + (c.of v.direct).val) ∧ P * (emitted c seen v + (c.of v.direct).val) ≤ 2 ^ (91 : ℤ) := by
    intro h1 h2
    rw [h1, h2, zero_add]
    have r3 := rl_add (k' := k + 3 / 10 ^ 7) z r1 (by linarith) le_rfl (by rw [zero_add]; exact le_trans (by norm_num) d0)
      (by rw [zero_add]; exact d1.trans (by norm_num)) (by linarith) (by linarith)
    rw [zero_add] at r3
    exact ⟨r3, d0, d1.trans (by norm_num)⟩
  cases seen with
  | false => exact dark (by unfold own; rw [of_plus, of_times, of_black]) (by rfl)
  | true =>
    cases he : v.emission with
    | none => exact dark (by unfold own; rw [of_plus, of_times, he]; dsimp only; rw [of_black]) (by unfold emitted; rw [he])
    | some e =>
      obtain ⟨r2, e0, e1⟩ := t (h.emission e he)
      have h1 : c.of (own v true power) =
          F32.add (F32.add (zero false) (F32.mul (c.of power) (c.of e))) (F32.mul (c.of power) (c.of v.direct)) := by
        unfold own; rw [of_plus, of_times, he]; dsimp only; rw [of_plus, of_times, of_black]
      have h2 : emitted c true v = (c.of e).val := by unfold emitted; rw [he]
      have r3 := rl_add (k' := k + 2 / 10 ^ 7) z r2 (by linarith) le_rfl (by rw [zero_add]; exact le_trans (by norm_num) e0)
        (by rw [zero_add]; exact e1.trans (by norm_num)) (by linarith) (by linarith)
      rw [zero_add] at r3
      rw [h1, h2, mul_add]
      refine ⟨rl_add r3 r1 le_rfl (by linarith) ?_ ?_ (by linarith) (by linarith), ?_, ?_⟩
      · norm_num at e0 d0 ⊢; linarith
      · norm_num at e1 d1 ⊢; linarith
      · norm_num at e0 d0 ⊢; linarith
      · norm_num at e1 d1 ⊢; linarith

/-- What a vertex adds and what the rest of the path adds. -/
theorem join_near {x y : F32} {X Y k N : ℚ} (o : Rl x X k) (o0 : 2 ^ (-90 : ℤ) ≤ X) (o1 : X ≤ 2 ^ (91 : ℤ))
    (i : Rl y Y (3 / 10 ^ 6 + N * (1 / 10 ^ 7))) (i0 : 2 ^ (-90 : ℤ) ≤ Y) (i1 : Y ≤ N * 2 ^ (91 : ℤ)) (hk : k ≤ 3 / 10 ^ 6) (h0 : 0 ≤ N)
    (h3 : N ≤ 5) : Rl (F32.add x y) (X + Y) (3 / 10 ^ 6 + (N + 1) * (1 / 10 ^ 7)) ∧ 2 ^ (-90 : ℤ) ≤ X + Y ∧
      X + Y ≤ (N + 1) * 2 ^ (91 : ℤ) := by
  have Y1 : Y ≤ 5 * 2 ^ (91 : ℤ) := i1.trans (mul_le_mul_of_nonneg_right h3 (two_zpow_pos 91).le)
  have s0 : 2 ^ (-90 : ℤ) ≤ X + Y := by linarith [two_zpow_pos (-90)]
  refine ⟨rl_add o i (k := 3 / 10 ^ 6 + N * (1 / 10 ^ 7)) ?_ le_rfl (le_trans (by norm_num) s0) ?_ ?_ ?_, s0, ?_⟩
  · linarith
  · refine (add_le_add o1 Y1).trans (by norm_num)
  · norm_num; linarith
  · norm_num; linarith
  · rw [add_mul, one_mul]; linarith

/-- The luminance of a bright path does not enter the roulette. -/
theorem term_bright {power : V3 F32} {P k : ℚ} (h : Rl power.y P k) (hk : k ≤ 1 / 10 ^ 4) (hP : 1 ≤ P) : term power = num (1 / 2) := by
  unfold term FFilm.fmin
  obtain ⟨f, -, e⟩ := h
  have e' := (abs_le.1 e).1
  have : ¬ power.y.val < 1 / 2 := by nlinarith
  rw [lt_finite (b := num (1 / 2)) f trivial, if_neg]
  simpa [F32.val] using this

theorem lRec_near {c : Channel} (path : List Vertex) (h : ∀ v ∈ path, Plain c v ∧ Plain .y v) :
    ∀ (ric : ℕ) (power : V3 F32) (s : Bool) (P Q : ℚ), path ≠ [] → ric + path.length ≤ 6 → Rl (c.of power) P (ric * (5 / 10 ^ 7)) →
    2 ^ (-(16 * (ric : ℤ))) ≤ P → P ≤ 2 ^ (16 * (ric : ℤ)) → Rl power.y Q (ric * (5 / 10 ^ 7)) → 2 ^ (-(16 * (ric : ℤ))) ≤ Q →
    Q ≤ 2 ^ (16 * (ric : ℤ)) → (ric ≤ 4 → 5 ≤ ric + path.length → 1 ≤ Q * throughput .y (path.take (4 - ric))) →
    Rl (c.of (lRec path ric power s)) (idealR c path ric (ric == 0 || s) P) (3 / 10 ^ 6 + path.length * (1 / 10 ^ 7)) ∧
      2 ^ (-90 : ℤ) ≤ idealR c path ric (ric == 0 || s) P ∧ idealR c path ric (ric == 0 || s) P ≤ path.length * 2 ^ (91 : ℤ) := by
  induction path with
  | nil => intro _ _ _ _ _ h; exact absurd rfl h
  | cons v rest ih =>
    intro ric power s P Q _ hl hp P0 P1 hq Q0 Q1 hb
    obtain ⟨hv, hy⟩ := h v (by simp)
    have hrest : ∀ w ∈ rest, Plain c w ∧ Plain .y w := fun w hw => h w (by simp [hw])
    rw [List.length_cons] at hl hb ⊢
    have hr5 : ric ≤ 5 := by omega
    have hrq : (ric : ℚ) ≤ 5 := by exact_mod_cast hr5
    have hrq0 : (0 : ℚ) ≤ ric := Nat.cast_nonneg _
    have kk : (ric : ℚ) * (5 / 10 ^ 7) ≤ 1 / 10 ^ 4 := by norm_num; linarith
    obtain ⟨o, o0, o1⟩ := own_near (seen := ric == 0 || s) hv hp (by positivity) kk (by omega) (by omega) P0 P1
    have k4 : ric * (5 / 10 ^ 7) + 3 / 10 ^ 7 ≤ (3 / 10 ^ 6 : ℚ) := by norm_num; linarith
    have e3 : (F32.eq v.pdf (zero false) || isBlack v.f) = false := by rw [pdf_ne hv.pdf, not_black hv.f]; rfl
    have en : 16 * ((ric + 1 : ℕ) : ℤ) = 16 * (ric : ℤ) + 16 := by push_cast; ring
    have hN0 : (0 : ℚ) ≤ (rest.length : ℕ) := Nat.cast_nonneg _
    -- the path ends here
    have stop : Rl (c.of (own v (ric == 0 || s) power)) (P * (emitted c (ric == 0 || s) v + (c.of v.direct).val) + 0)
        (3 / 10 ^ 6 + ((rest.length + 1 : ℕ) : ℚ) * (1 / 10 ^ 7)) ∧
        2 ^ (-90 : ℤ) ≤ P * (emitted c (ric == 0 || s) v + (c.of v.direct).val) + 0 ∧
        P * (emitted c (ric == 0 || s) v + (c.of v.direct).val) + 0 ≤ ((rest.length + 1 : ℕ) : ℚ) * 2 ^ (91 : ℤ) := by
      rw [add_zero, Nat.cast_succ]
      refine ⟨rl_mono o (by norm_num at k4 ⊢; linarith), o0, ?_⟩
      rw [add_mul, one_mul]
      exact o1.trans (le_add_of_nonneg_left (mul_nonneg hN0 (two_zpow_pos 91).le))
    -- the path goes on with the weight w
    have go : ∀ w : ℚ, 1 / 2 ≤ w → w ≤ 1 → ric ≤ 4 → rest ≠ [] →
        (ric ≤ 3 → 5 ≤ ric + 1 + rest.length → 1 ≤ Q * (factor .y v * w) * throughput .y (rest.take (4 - (ric + 1)))) →
        Rl (c.of (plus (own v (ric == 0 || s) power) (lRec rest (ric + 1) (carried v power (num w)) v.spec)))
          (P * (emitted c (ric == 0 || s) v + (c.of v.direct).val) + idealR c rest (ric + 1) v.spec (P * (factor c v * w)))
          (3 / 10 ^ 6 + ((rest.length + 1 : ℕ) : ℚ) * (1 / 10 ^ 7)) ∧
        2 ^ (-90 : ℤ) ≤ P * (emitted c (ric == 0 || s) v + (c.of v.direct).val) + idealR c rest (ric + 1) v.spec (P * (factor c v * w)) ∧
        P * (emitted c (ric == 0 || s) v + (c.of v.direct).val) + idealR c rest (ric + 1) v.spec (P * (factor c v * w)) ≤
          ((rest.length + 1 : ℕ) : ℚ) * 2 ^ (91 : ℤ) := by
      intro w w0 w1 r4 rne br
      obtain ⟨q, q0, q1⟩ := carried_near hv hp (by positivity) kk (by omega) (by omega) P0 P1 w0 w1
      obtain ⟨t, t0, t1⟩ := carried_near (c := .y) hy hq (by positivity) kk (by omega) (by omega) Q0 Q1 w0 w1
      obtain ⟨i, i0, i1⟩ := ih hrest (ric + 1) (carried v power (num w)) v.spec _ _ rne (by omega)
        (rl_mono q (by rw [Nat.cast_succ]; linarith)) (by rw [en]; exact q0) (by rw [en]; exact q1)
        (rl_mono t (by rw [Nat.cast_succ]; linarith)) (by rw [en]; exact t0) (by rw [en]; exact t1) (fun a b => br (by omega) b)
      have es : ((ric + 1 == 0) || v.spec) = v.spec := by simp
      rw [es] at i i0 i1
      have hlq : ((rest.length : ℕ) : ℚ) ≤ 5 := by
        have : rest.length ≤ 5 := by omega
        exact_mod_cast this
      rw [of_plus, Nat.cast_succ]
      exact join_near o o0 o1 i i0 i1 k4 hN0 hlq
    unfold lRec idealR
    dsimp only
    rw [e3]
    simp only [Bool.false_eq_true, if_false]
    by_cases hre : rest = []
    · subst hre
      simp only [List.isEmpty_nil, if_true, ite_self, idealR]
      exact stop
    have hne : rest.isEmpty = false := by cases rest with | nil => exact absurd rfl hre | cons _ _ => rfl
    rw [hne]
    simp only [Bool.false_eq_true, if_false]
    by_cases h3 : ric ≤ 3
    · have e1 : ¬ (3 < ric ∧ lt v.rand (term power) = true) := fun hh => by omega
      have e2 : ¬ ric = bounces := by unfold bounces; omega
      have e4 : ¬ 3 < ric := by omega
      rw [if_neg e1, if_neg e2, if_neg e4, if_pos h3]
      have := go 1 (by norm_num) le_rfl (by omega) hre (fun _ hh => by
        have := hb (by omega) (by omega)
        obtain ⟨m, hm⟩ : ∃ m, 4 - ric = m + 1 := ⟨3 - ric, by omega⟩
        have hm' : 4 - (ric + 1) = m := by omega
        rw [hm, List.take_succ_cons] at this
        rw [hm', mul_one, mul_assoc]
        exact this)
      rw [mul_one] at this
      exact this
    · rw [if_neg h3]
      by_cases h5 : ric = bounces
      · have e5 : ¬ (ric = 4 ∧ 1 / 2 ≤ v.rand.val) := fun hh => by unfold bounces at h5; omega
        rw [if_neg e5]
        simp only [h5, if_true, ite_self]
        rw [h5] at stop
        exact stop
      · have h4 : ric = 4 := by unfold bounces at h5; omega
        have hQ : 1 ≤ Q := by
          have := hb (by omega) (by
            have : rest.length ≠ 0 := fun hh => hre (List.length_eq_zero_iff.1 hh)
            omega)
          rw [h4] at this
          simpa [throughput] using this
        rw [term_bright hq kk hQ, lt_finite (b := num (1 / 2)) hv.rand trivial]
        have vh : (num (1 / 2)).val = 1 / 2 := rfl
        rw [vh]
        by_cases hr : v.rand.val < 1 / 2
        · rw [if_pos ⟨by omega, decide_eq_true hr⟩, if_neg (fun hh => absurd hh.2 (not_le.2 hr))]
          exact stop
        · rw [if_neg (fun hh => hr (of_decide_eq_true hh.2)), if_neg h5, if_pos (show 3 < ric by omega), if_pos ⟨h4, not_lt.1 hr⟩]
          have := go (1 / 2) le_rfl (by norm_num) (by omega) hre (fun hh => by omega)
          have e45 : ric + 1 = 5 := by omega
          rw [e45] at this
          rw [e45]
          exact this

theorem idealR_short (c : Channel) (path : List Vertex) : ∀ (n : ℕ) (s : Bool) (P : ℚ), n + path.length ≤ 4 →
    idealR c path n s P = ideal c path s P := by
  induction path with
  | nil => intro _ _ _ _; rfl
  | cons v rest ih =>
    intro n s P hl
    rw [List.length_cons] at hl
    unfold idealR ideal
    rw [if_pos (by omega), ih _ _ _ (by omega)]

theorem throughput_one (c : Channel) : Rl (c.of ones) 1 ((0 : ℕ) * (5 / 10 ^ 7)) := by
  rw [of_ones]; exact ⟨trivial, by norm_num, by norm_num [F32.val]⟩

/-- **C177, the radiance of a short path.**  Without roulette (up to four vertices) every channel of the radiance is the
exact one, the sum over the vertices of the throughput times emission and direct light, relatively up to `34/10^7`. -/
theorem C177_near {c : Channel} {path : List Vertex} (h : ∀ v ∈ path, Plain c v ∧ Plain .y v) (h0 : path ≠ []) (h4 : path.length ≤ 4) :
    Rl (c.of (radiance path)) (ideal c path true 1) (34 / 10 ^ 7) := by
  have := (lRec_near path h 0 ones false 1 1 h0 (by omega) (throughput_one c) (by norm_num) (by norm_num) (throughput_one .y) (by norm_num)
    (by norm_num) (fun _ hh => by omega)).1
  have hl : (path.length : ℚ) ≤ 4 := by exact_mod_cast h4
  rw [← idealR_short c path 0 true 1 (by omega)]
  exact rl_mono this (by norm_num; linarith)

/-- **C177, the radiance of a bright path.**  Where the luminance of the throughput is at least one at the fifth vertex, the
path ends there if the random number is below one half; if not, the sixth vertex counts with the weight one half, and nothing
comes after it; relatively up to `36/10^7`. -/
theorem C177_roulette {c : Channel} {path : List Vertex} (h : ∀ v ∈ path, Plain c v ∧ Plain .y v) (h0 : path ≠ [])
    (hb : 1 ≤ throughput .y (path.take 4)) : Rl (c.of (radiance path)) (idealR c (path.take 6) 0 true 1) (36 / 10 ^ 7) := by
  rw [← C177_vertices path]
  have := (lRec_near (path.take 6) (fun v hv => h v (List.mem_of_mem_take hv)) 0 ones false 1 1 (by simpa using h0) (by simp) (throughput_one c)
    (by norm_num) (by norm_num) (throughput_one .y) (by norm_num) (by norm_num) (fun _ _ => by simpa [List.take_take] using hb)).1
  have hl : ((path.take 6).length : ℚ) ≤ 6 := by
    have : (path.take 6).length ≤ 6 := by simp
    exact_mod_cast this
  exact rl_mono this (by linarith)

/-! ### The hypotheses are met -/

/-- A grey vertex: reflects one half, diffuse, lit with 3/4. -/
def grey : Vertex := ⟨none, ⟨num (3 / 4), num (3 / 4), num (1 / 4)⟩, num (5 / 8), ⟨num (1 / 8), num (1 / 4), num (1 / 8)⟩, num (1 / 2), num (1 / 4), false⟩

/-- A lamp seen from the front. -/
def shine : Vertex := { grey with emission := some ⟨num 4, num 5, num 3⟩, spec := true }

theorem grey_plain (c : Channel) : Plain c grey := by
  constructor
  · intro e he; cases he
  all_goals cases c <;> norm_num [Mid, Channel.of, grey, F32.Finite, F32.val]

theorem shine_plain (c : Channel) : Plain c shine := by
  constructor
  · intro e he; cases he; cases c <;> norm_num [Mid, Channel.of, F32.Finite, F32.val]
  all_goals cases c <;> norm_num [Mid, Channel.of, shine, grey, F32.Finite, F32.val]

theorem grey_sound : Sound grey := by
  constructor
  · intro e he; cases he
  all_goals norm_num [Light, Upto, grey, F32.Finite, F32.val]

theorem shine_sound : Sound shine := by
  constructor
  · intro e he; cases he; norm_num [Light, Upto, F32.Finite, F32.val]
  all_goals norm_num [Light, Upto, shine, grey, F32.Finite, F32.val]

/-- C177_bounded: eight vertices, with roulette. -/
example := C177_bounded (path := [shine, grey, grey, shine, shine, grey, grey, grey])
  (by simp only [List.mem_cons, List.not_mem_nil, or_false]; rintro v (rfl | rfl | rfl | rfl | rfl | rfl | rfl | rfl) <;>
    first | exact grey_sound | exact shine_sound)

/-- C177_near, C177_vertices. -/
example := C177_near (c := .y) (path := [shine, grey, shine, shine])
  (by simp only [List.mem_cons, List.not_mem_nil, or_false]; rintro v (rfl | rfl | rfl | rfl) <;>
    first | exact ⟨grey_plain _, grey_plain _⟩ | exact ⟨shine_plain _, shine_plain _⟩) (by simp) (by simp)

example : ideal .y [shine, grey, shine, shine] true 1 = 5 + 3 / 4 + 3 / 8 + 3 / 16 + (5 + 3 / 4) / 8 := by
  norm_num [ideal, factor, emitted, shine, grey, Channel.of, F32.val]

/-- A vertex that keeps the throughput, with a random number. -/
def bright (r : ℚ) : Vertex := { shine with f := ones, pdf := num (1 / 2), rand := num r }

theorem bright_plain (c : Channel) (r : ℚ) : Plain c (bright r) := by
  constructor
  · intro e he; cases he; cases c <;> norm_num [Mid, Channel.of, F32.Finite, F32.val]
  all_goals cases c <;> norm_num [Mid, Channel.of, bright, ones, shine, grey, F32.Finite, F32.val]

/-- C177_roulette: seven bright vertices. -/
example (r : ℚ) := C177_roulette (c := .x) (path := List.replicate 7 (bright r))
  (by intro v hv; rw [List.eq_of_mem_replicate hv]; exact ⟨bright_plain _ _, bright_plain _ _⟩) (by simp)
  (by norm_num [List.replicate, throughput, factor, bright, ones, shine, grey, Channel.of, F32.val])

example : idealR .x ((List.replicate 7 (bright (3 / 4))).take 6) 0 true 1 = 5 * (4 + 3 / 4) + (4 + 3 / 4) / 2 ∧
    idealR .x ((List.replicate 7 (bright (1 / 4))).take 6) 0 true 1 = 5 * (4 + 3 / 4) := by
  norm_num [List.replicate, idealR, emitted, factor, bright, ones, shine, grey, Channel.of, F32.val]

/-- The roulette and the last bounce: of seven vertices five count when the fifth throw stops the path, else six. -/
example : (radiance [shine, grey, grey, grey, { grey with rand := num (1 / 64) }, shine, shine]).y.val = 5 + 3 / 4 + 3 / 8 + 3 / 16 + 3 / 32 + 3 / 64 ∧
    (radiance [shine, grey, grey, grey, grey, shine, shine]).y.val = 5 + 3 / 4 + 3 / 8 + 3 / 16 + 3 / 32 + 3 / 64 + 3 / 4 / 32 / 16 := by
  decide +kernel

end Spectre.FPath
