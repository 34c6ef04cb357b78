import Verif.Model.Well

/-
Properties C03, C04 and C05 of the random number generator (C04 is completed in `WellUniform.lean`).
-/

namespace Spectre.Well

/-! ### Invertibility of `x ^ (x << k)` -/

/-- Inverse of `xl 11` (11+22 < 33, two terms suffice). -/
def xl11inv (y : BitVec 32) : BitVec 32 := y ^^^ (y <<< 11) ^^^ (y <<< 22)

theorem xl11inv_xl (x : BitVec 32) : xl11inv (xl 11 x) = x := by
  unfold xl11inv xl
  apply BitVec.eq_of_getLsbD_eq
  intro i hi
  simp only [BitVec.getLsbD_xor, BitVec.getLsbD_shiftLeft]
  by_cases h1 : i < 11 <;> by_cases h2 : i < 22
  · simp [h1, h2]
  · omega
  · have e : i - 11 < 11 := by omega
    simp [h1, h2, hi, e]
  · have e : ¬ i - 11 < 11 := by omega
    have e2 : i - 22 < 11 := by omega
    have e3 : i - 11 - 11 = i - 22 := by omega
    have e4 : i - 11 < 32 := by omega
    simp [h1, h2, hi, e, e2, e3, e4]

theorem xl11_xl11inv (y : BitVec 32) : xl 11 (xl11inv y) = y := by
  unfold xl11inv xl
  apply BitVec.eq_of_getLsbD_eq
  intro i hi
  simp only [BitVec.getLsbD_xor, BitVec.getLsbD_shiftLeft]
  by_cases h1 : i < 11 <;> by_cases h2 : i < 22
  · simp [h1, h2]
  · omega
  · have e : i - 11 < 11 := by omega
    have e5 : i - 11 < 22 := by omega
    simp [h1, h2, hi, e, e5]
  · have e : ¬ i - 11 < 11 := by omega
    have e3 : i - 11 - 11 = i - 22 := by omega
    have e4 : i - 11 < 32 := by omega
    have e5 : i - 11 < 22 := by omega
    simp [h1, h2, hi, e, e3, e4, e5]

/-- The explicit inverse of `step`. -/
def unstep (st : State) : State :=
  let i := st.i + 1
  let z2 := xl 19 (st.s (i + 24)) ^^^ xl 14 (st.s (i + 10))
  let z1 := st.s i ^^^ z2
  let z0 := xl11inv (st.s st.i ^^^ xl 7 z1 ^^^ xl 13 z2)
  { i := i
    s := upd (upd st.s st.i z0) i (z1 ^^^ xr 8 (st.s (i + 3))) }

theorem fin_ne (i : Fin 32) (a b : Fin 32) (h : a ≠ b) : i + a ≠ i + b := by
  intro h'
  apply h
  have := congrArg (fun x => x - i) h'
  omega

theorem State.ext' {a b : State} (h1 : a.i = b.i) (h2 : ∀ k, a.s k = b.s k) : a = b := by
  cases a; cases b
  simp only at h1 h2
  subst h1
  congr
  funext k; exact h2 k

theorem unstep_step (st : State) : unstep (step st) = st := by
  obtain ⟨i, s⟩ := st
  have hi : i + 31 + 1 = i := by omega
  have n1 : i + 24 ≠ i + 31 := by omega
  have n2 : i + 24 ≠ i := by omega
  have n3 : i + 10 ≠ i + 31 := by omega
  have n4 : i + 10 ≠ i := by omega
  have n5 : i + 3 ≠ i + 31 := by omega
  have n6 : i + 3 ≠ i := by omega
  have n7 : i ≠ i + 31 := by omega
  apply State.ext'
  · simp only [unstep, step, hi]
  · intro k
    simp only [unstep, step, hi, upd, if_neg n1, if_neg n2, if_neg n3, if_neg n4, if_neg n5,
      if_neg n6, if_neg n7, if_true]
    by_cases hk : k = i
    · subst hk
      rw [if_pos rfl]
      generalize xr 8 (s (k + 3)) = a
      generalize xl 19 (s (k + 24)) ^^^ xl 14 (s (k + 10)) = b
      generalize s k = c
      rw [BitVec.xor_assoc (c ^^^ a), BitVec.xor_self, BitVec.xor_zero, BitVec.xor_assoc,
        BitVec.xor_self, BitVec.xor_zero]
    · rw [if_neg hk]
      by_cases hk' : k = i + 31
      · subst hk'
        rw [if_pos rfl]
        generalize xl 19 (s (i + 24)) ^^^ xl 14 (s (i + 10)) = b
        generalize s i ^^^ xr 8 (s (i + 3)) = c
        rw [BitVec.xor_assoc c, BitVec.xor_self, BitVec.xor_zero]
        rw [show xl 11 (s (i + 31)) ^^^ xl 7 c ^^^ xl 13 b ^^^ xl 7 c ^^^ xl 13 b
          = xl 11 (s (i + 31)) by
            rw [BitVec.xor_assoc (xl 11 _ ^^^ xl 7 c), BitVec.xor_comm (xl 13 b),
              BitVec.xor_assoc, BitVec.xor_assoc (xl 7 c) (xl 13 b), BitVec.xor_self,
              BitVec.xor_zero, BitVec.xor_assoc, BitVec.xor_self, BitVec.xor_zero]]
        exact xl11inv_xl _
      · rw [if_neg hk', if_neg hk', if_neg hk]

theorem step_unstep (st : State) : step (unstep st) = st := by
  obtain ⟨i, s⟩ := st
  have hi : i + 1 + 31 = i := by omega
  have n1 : i + 1 + 24 ≠ i := by omega
  have n2 : i + 1 + 24 ≠ i + 1 := by omega
  have n3 : i + 1 + 10 ≠ i := by omega
  have n4 : i + 1 + 10 ≠ i + 1 := by omega
  have n5 : i + 1 + 3 ≠ i := by omega
  have n6 : i + 1 + 3 ≠ i + 1 := by omega
  have n7 : i ≠ i + 1 := by omega
  apply State.ext'
  · simp only [unstep, step, hi]
  · intro k
    simp only [unstep, step, hi, upd, if_neg n1, if_neg n2, if_neg n3, if_neg n4, if_neg n5,
      if_neg n6, if_neg n7, if_true]
    generalize xl 19 (s (i + 1 + 24)) ^^^ xl 14 (s (i + 1 + 10)) = b
    generalize xr 8 (s (i + 1 + 3)) = a
    rw [xl11_xl11inv]
    by_cases hk' : k = i
    · subst hk'
      rw [if_pos rfl, BitVec.xor_assoc (s (k + 1) ^^^ b) a a, BitVec.xor_self, BitVec.xor_zero]
      generalize xl 7 (s (k + 1) ^^^ b) = c
      rw [BitVec.xor_assoc (s k ^^^ c), BitVec.xor_comm (xl 13 b) c, ← BitVec.xor_assoc,
        BitVec.xor_assoc (s k), BitVec.xor_self, BitVec.xor_zero, BitVec.xor_assoc,
        BitVec.xor_self, BitVec.xor_zero]
    · rw [if_neg hk']
      by_cases hk : k = i + 1
      · subst hk
        rw [if_pos rfl, BitVec.xor_assoc (s (i + 1) ^^^ b) a a, BitVec.xor_self, BitVec.xor_zero,
          BitVec.xor_assoc, BitVec.xor_self, BitVec.xor_zero]
      · rw [if_neg hk, if_neg hk, if_neg hk']

/-! ### C03 -/

/-- **C03.** A draw is a bijection of the state space. -/
theorem C03_step_bijective :
    (∀ a b, step a = step b → a = b) ∧ (∀ b, ∃ a, step a = b) :=
  ⟨fun a b h => by rw [← unstep_step a, h, unstep_step b], fun b => ⟨unstep b, step_unstep b⟩⟩

/-- **C03.** Two generators in different states are in different states after any number of
draws: no two orbits ever merge. -/
theorem C03_orbits_never_merge (a b : State) (n : Nat) (h : run a n = run b n) : a = b := by
  induction n with
  | zero => exact h
  | succ n ih => exact ih (C03_step_bijective.1 _ _ h)

theorem run_add (st : State) (m n : Nat) : run st (m + n) = run (run st m) n := by
  induction n with
  | zero => rfl
  | succ n ih => show step (run st (m + n)) = _; rw [ih]; rfl

/-- **C03.** No pre-periodic tail: if a state repeats at all, the initial state itself repeats with
the same period. -/
theorem C03_no_tail (st : State) (m p : Nat) (h : run st (m + p) = run st m) : run st p = st := by
  apply C03_orbits_never_merge _ _ m
  rw [← run_add, Nat.add_comm p m, h]

/-- Two different seeds (differing in the last bit of one word) for the theorems above. -/
example (n : Nat) : run (seed fun k => if k = 5 then 1 else 7) n ≠ run (seed fun _ => 7) n := by
  intro h
  have := C03_orbits_never_merge _ _ n h
  have := congrArg (fun st => st.s 5) this
  simp [seed] at this

/-! ### C04 (degenerate seeds) -/

def zeroState (i : Fin 32) : State := { i := i, s := fun _ => 0 }

theorem step_zero (i : Fin 32) : step (zeroState i) = zeroState (i + 31) := by
  refine State.ext' (a := step (zeroState i)) (b := zeroState (i + 31)) rfl ?_
  intro k
  simp [step, zeroState, upd, xl, xr]

/-- **C04.** The all-zero seed yields only zeros. -/
theorem C04_zero_seed (n : Nat) : draw (seed fun _ => 0) n = 0 := by
  have : ∀ n, ∃ i, run (seed fun _ => 0) n = zeroState i := by
    intro n
    induction n with
    | zero => exact ⟨0, rfl⟩
    | succ n ih =>
      obtain ⟨i, hi⟩ := ih
      exact ⟨i + 31, by rw [run, hi, step_zero]⟩
  obtain ⟨i, hi⟩ := this (n + 1)
  rw [draw, hi]; rfl

/-- **C04.** A seed other than zero never reaches the dead all-zero state.  That its words are not
all zero either from any point on is `C04_nonzero_in_32`. -/
theorem C04_never_dies (w : Fin 32 → BitVec 32) (h : ∃ k, w k ≠ 0) (n : Nat) :
    ∃ k, (run (seed w) n).s k ≠ 0 := by
  apply Classical.byContradiction
  intro hc
  have hz : ∀ k, (run (seed w) n).s k = 0 := fun k =>
    Classical.byContradiction fun h => hc ⟨k, h⟩
  have gen : ∀ n st, (∀ k, (run st n).s k = 0) → ∀ k, st.s k = 0 := by
    intro n
    induction n with
    | zero => intro st h; exact h
    | succ n ih =>
      intro st h
      apply ih
      have e : run st n = unstep (run st (n + 1)) := (unstep_step _).symm
      have e2 : run st (n + 1) = zeroState (run st (n + 1)).i := State.ext' rfl h
      rw [e, e2, show zeroState (run st (n + 1)).i = step (zeroState ((run st (n + 1)).i + 1)) by
        rw [step_zero]; congr 1; omega, unstep_step]
      intro k; rfl
  obtain ⟨k, hk⟩ := h
  exact hk (gen n (seed w) hz k)

/-! ### C05 -/

/-- Rounding is to a nearest multiple of the unit in the last place. -/
theorem toFloat32_nearest (u : BitVec 32) (h : 2 ^ 24 ≤ u.toNat) :
    2 ^ (u.toNat.log2 - 23) ∣ toFloat32 u ∧
    2 * (toFloat32 u - u.toNat) ≤ 2 ^ (u.toNat.log2 - 23) ∧
    2 * (u.toNat - toFloat32 u) ≤ 2 ^ (u.toNat.log2 - 23) := by
  have hn : u.toNat ≠ 0 := by omega
  have hl : 24 ≤ u.toNat.log2 := (Nat.le_log2 hn).2 h
  unfold toFloat32
  simp only
  rw [if_neg (by omega)]
  generalize he : u.toNat.log2 - 23 = e
  obtain ⟨d, rfl⟩ : ∃ d, e = d + 1 := ⟨e - 1, by omega⟩
  have hp : 2 ^ (d + 1) = 2 * 2 ^ d := by rw [Nat.pow_succ]; omega
  have hdm := Nat.div_add_mod u.toNat (2 ^ (d + 1))
  have hm := Nat.mod_lt u.toNat (Nat.two_pow_pos (d + 1))
  rw [Nat.mul_comm] at hdm
  rw [show d + 1 - 1 = d from rfl]
  split
  · next hc =>
    refine ⟨Nat.dvd_mul_left _ _, ?_, ?_⟩
    · omega
    · rcases hc with hc | hc <;> omega
  · next hc =>
    have hge : 2 ^ d ≤ u.toNat % 2 ^ (d + 1) := by
      apply Nat.le_of_not_lt; intro h; exact hc (Or.inl h)
    refine ⟨Nat.dvd_mul_left _ _, ?_, ?_⟩ <;> rw [Nat.add_mul, Nat.one_mul] <;> omega

/-- **C05.** The returned value `numerator u / 2^32` is in `[0,1]` … -/
theorem C05_range (u : BitVec 32) : numerator u ≤ 2 ^ 32 := by
  unfold numerator
  by_cases h : 2 ^ 24 ≤ u.toNat
  · obtain ⟨h1, h2, _⟩ := toFloat32_nearest u h
    have hn : u.toNat ≠ 0 := by omega
    have hl : 24 ≤ u.toNat.log2 := (Nat.le_log2 hn).2 h
    have hlt : u.toNat.log2 < 32 := (Nat.log2_lt hn).2 u.isLt
    have hlt' := u.isLt
    have he : u.toNat.log2 - 23 ≤ 8 := by omega
    generalize u.toNat.log2 - 23 = e at *
    obtain ⟨c, hc⟩ := h1
    rcases Nat.lt_or_ge (2 ^ 32) (toFloat32 u) with hgt | hle
    · exfalso
      have : 2 ^ e ∣ 2 ^ 32 := Nat.pow_dvd_pow 2 (by omega)
      obtain ⟨d, hd⟩ := this
      rw [hc, hd] at hgt
      have hcd : d < c := Nat.lt_of_mul_lt_mul_left hgt
      have : 2 ^ e * (d + 1) ≤ 2 ^ e * c := Nat.mul_le_mul_left _ hcd
      rw [Nat.mul_add, Nat.mul_one, ← hd, ← hc] at this
      have := Nat.two_pow_pos e
      omega
    · exact hle
  · unfold toFloat32
    simp only
    rw [if_pos (by omega)]
    omega

/-- … and it is exactly `1.0` for the draws `2^32-128 … 2^32-1` and for no others. -/
theorem C05_one_iff (u : BitVec 32) : numerator u = 2 ^ 32 ↔ 2 ^ 32 - 128 ≤ u.toNat := by
  have hlt := u.isLt
  constructor
  · intro h
    unfold numerator at h
    by_cases hb : 2 ^ 24 ≤ u.toNat
    · obtain ⟨_, h2, _⟩ := toFloat32_nearest u hb
      have hn : u.toNat ≠ 0 := by omega
      have hl : u.toNat.log2 < 32 := (Nat.log2_lt hn).2 u.isLt
      have : 2 ^ (u.toNat.log2 - 23) ≤ 2 ^ 8 := Nat.pow_le_pow_right (by omega) (by omega)
      rw [h] at h2
      omega
    · unfold toFloat32 at h
      simp only at h
      rw [if_pos (by omega)] at h
      omega
  · intro h
    have hn : u.toNat ≠ 0 := by omega
    have hl : u.toNat.log2 = 31 := by
      have h1 : u.toNat.log2 < 32 := (Nat.log2_lt hn).2 u.isLt
      have h2 : 31 ≤ u.toNat.log2 := (Nat.le_log2 hn).2 (by omega)
      omega
    unfold numerator toFloat32
    simp only
    rw [if_neg (by omega), hl]
    have hq : u.toNat / 2 ^ (31 - 23) = 16777215 := by omega
    have hr : 128 ≤ u.toNat % 2 ^ (31 - 23) := by omega
    rw [hq, if_neg]
    rintro (hc | hc)
    · rw [show 2 ^ (31 - 23 - 1) = 128 from rfl] at hc; omega
    · omega

/-- Rounding is monotone at the other end: zero is returned only for the draw 0. -/
theorem C05_zero_iff (u : BitVec 32) : numerator u = 0 ↔ u = 0 := by
  constructor
  · intro h
    unfold numerator at h
    by_cases hb : 2 ^ 24 ≤ u.toNat
    · obtain ⟨_, _, h3⟩ := toFloat32_nearest u hb
      have hn : u.toNat ≠ 0 := by omega
      have hl : u.toNat.log2 < 32 := (Nat.log2_lt hn).2 u.isLt
      have : 2 ^ (u.toNat.log2 - 23) ≤ 2 ^ 8 := Nat.pow_le_pow_right (by omega) (by omega)
      rw [h] at h3
      omega
    · unfold toFloat32 at h
      simp only at h
      rw [if_pos (by omega)] at h
      exact BitVec.eq_of_toNat_eq h
  · rintro rfl; decide

/-- A reachable state whose next draw is the maximal word, so that `getNumber` returns 1.0:
obtained by running the generator backwards. -/
example : ∃ st : State, numerator (draw st 0) = 2 ^ 32 := by
  refine ⟨unstep { i := 0, s := fun _ => BitVec.allOnes 32 }, ?_⟩
  rw [draw, run, run, step_unstep]
  decide

end Spectre.Well
