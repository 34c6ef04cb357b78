import Verif.Props.WellOrder

/-
The period of the random number generator and how often each word is drawn: properties C04 (full)
and C146.
-/

namespace Spectre.Well

open Polynomial

/-- If `r` codes `X^e` modulo a polynomial that maps `v` to 0 and `r+1` has a power that is 1, then
`e` draws do not return to `v`. -/
theorem not_fixed_core (Q R G : (ZMod 2)[X]) (e n : ℕ) (hn : 0 < n) (v : W) (hv : v ≠ 0)
    (hQ : aeval L Q v = 0) (hR : Q ∣ R - X ^ e) (hG : G = R + 1) (h1 : Q ∣ 1 - G ^ n) :
    (L ^ e) v ≠ v := by
  intro hc
  have hdvd : ∀ {A B : (ZMod 2)[X]}, Q ∣ A - B → aeval L A v = aeval L B v := by
    rintro A B ⟨c, h⟩
    have : A = B + c * Q := by rw [mul_comm, ← h]; ring
    rw [this, map_add, map_mul, LinearMap.add_apply, Module.End.mul_apply, hQ, map_zero, add_zero]
  have hr := hdvd hR
  rw [map_pow, aeval_X, hc] at hr
  have hg : aeval L G v = 0 := by
    rw [hG, map_add, map_one, LinearMap.add_apply, hr, Module.End.one_apply, W_two]
  have ho := hdvd h1
  obtain ⟨m, rfl⟩ : ∃ m, n = m + 1 := ⟨n - 1, by omega⟩
  rw [map_one, Module.End.one_apply, pow_succ, map_mul, Module.End.mul_apply, hg, map_zero] at ho
  exact hv ho

theorem not_fixed (p : ℕ) (h : chkP p = true) : (L ^ (N / p)) v0 ≠ v0 := by
  unfold chkP at h
  rcases hr : WellPoly.powP 1026 4096 (N / p) with _ | r
  · rw [hr] at h; exact absurd h Bool.false_ne_true
  · rw [hr] at h
    simp only [Bool.and_eq_true, Nat.blt_eq] at h
    obtain ⟨hlt, h⟩ := h
    rcases ht : WellPoly.powP 1026 ((r + 1) &&& WellPoly.msk) N with _ | t
    · rw [ht] at h; exact absurd h Bool.false_ne_true
    · rw [ht] at h
      have ht1 : t = 1 := Nat.eq_of_beq_eq_true h
      subst ht1
      obtain ⟨gr, dr⟩ := WellPoly.powP_sound 1026 Good_X hr
      have gg : WellPoly.Good ((r + 1) &&& WellPoly.msk) :=
        ⟨by rw [WellPoly.msk_eq']; exact WellPoly.D_mask _ _, hlt⟩
      obtain ⟨_, dt⟩ := WellPoly.powP_sound 1026 gg ht
      rw [WellPoly.K_X] at dr
      rw [WellPoly.K_one] at dt
      refine not_fixed_core _ _ _ _ _ N_pos v0 v0_ne P_v0 dr ?_ dt
      rw [WellPoly.msk_eq', WellPoly.K_mask, (WellPoly.K_add r 1 1 1 gr.1 WellPoly.Good_one.1
        (by decide)).1, WellPoly.K_one]
      have h2 := gr.2
      rw [WellPoly.BK_eq] at h2
      have h3 : r + 1 ≤ 4096 ^ 1024 := h2
      exact lt_of_le_of_lt h3 (Nat.pow_lt_pow_right (by decide) (by decide))

theorem fixed_core (Q : (ZMod 2)[X]) (n : ℕ) (v : W) (hQ : aeval L Q v = 0)
    (h : Q ∣ 1 - X ^ n) : (L ^ n) v = v := by
  obtain ⟨c, h⟩ := h
  have : (X : (ZMod 2)[X]) ^ n = 1 - c * Q := by rw [mul_comm, ← h]; ring
  have h2 := congrArg (fun q => aeval L q v) this
  simp only [map_pow, aeval_X, map_sub, map_one, map_mul] at h2
  rw [h2, LinearMap.sub_apply, Module.End.mul_apply, hQ, map_zero, sub_zero]; rfl

theorem fixed_N : (L ^ N) v0 = v0 := by
  have d := (WellPoly.powP_sound 1026 Good_X pow_N).2
  rw [WellPoly.K_X, WellPoly.K_one] at d
  exact fixed_core _ N v0 P_v0 d

/-- A map returns to a point after `n` steps first, if it does after `n` and not after `n/p`. -/
theorem minimal_of_primes {α : Type} (f : α → α) (x : α) (n : ℕ) (h : f^[n] x = x)
    (hp : ∀ p, p.Prime → p ∣ n → f^[n / p] x ≠ x) : Function.minimalPeriod f x = n := by
  have hd : Function.minimalPeriod f x ∣ n := Function.IsPeriodicPt.minimalPeriod_dvd h
  obtain ⟨m, hm⟩ := hd
  by_contra hne
  have hm1 : m ≠ 1 := by
    rintro rfl; rw [mul_one] at hm; exact hne hm.symm
  obtain ⟨p, hpp, t, ht⟩ := Nat.exists_prime_and_dvd hm1
  have hdvd : p ∣ n := ⟨Function.minimalPeriod f x * t, by rw [hm, ht]; ring⟩
  apply hp p hpp hdvd
  have : n / p = Function.minimalPeriod f x * t := by
    apply Nat.div_eq_of_eq_mul_right hpp.pos
    rw [hm]; conv_lhs => rw [ht]
    ring
  rw [this]
  exact (Function.isPeriodicPt_minimalPeriod f x).mul_const t

theorem minimalPeriod_v0 : Function.minimalPeriod nxt v0 = N := by
  refine minimal_of_primes nxt v0 N ?_ ?_
  · rw [← L_pow_apply, fixed_N]
  · intro p hp hd
    rw [← L_pow_apply]
    exact not_fixed p (List.all_eq_true.1 chkP_all p (WellPrimes.mem_factors hp hd))

/-! ### All states that are not zero are on one cycle -/

theorem card_BitVec (n : ℕ) : Nat.card (BitVec n) = 2 ^ n := by
  have e : BitVec n ≃ Fin (2 ^ n) :=
    ⟨BitVec.toFin, BitVec.ofFin, fun _ => rfl, fun _ => rfl⟩
  rw [Nat.card_congr e, Nat.card_fin]

instance : Finite (BitVec 32) :=
  Nat.finite_of_card_ne_zero (by rw [card_BitVec]; exact (Nat.pow_pos (by decide)).ne')

instance : Finite W := inferInstanceAs (Finite (Fin 32 → BitVec 32))

theorem card_W : Nat.card W = 2 ^ 1024 := by
  show Nat.card (Fin 32 → BitVec 32) = _
  rw [Nat.card_fun, card_BitVec, Nat.card_fin, ← Nat.pow_mul]

noncomputable instance : Fintype W := Fintype.ofFinite W

open Classical in
theorem card_ne_zero : (Finset.univ.filter fun T : W => T ≠ 0).card = N := by
  have h : (Finset.univ.filter fun T : W => T ≠ 0) = Finset.univ.erase 0 := by
    ext T; simp
  rw [h, Finset.card_erase_of_mem (Finset.mem_univ _), Finset.card_univ, ← Nat.card_eq_fintype_card,
    card_W]
  rfl

theorem nxt_zero : nxt 0 = 0 := by rw [← L_apply, map_zero]

theorem iterate_zero' (n : ℕ) : nxt^[n] 0 = 0 := Function.iterate_fixed nxt_zero n

theorem nxt_injective : Function.Injective nxt := by
  intro a b h
  have hab : ∀ c : W, rot ⟨0, c⟩ = c := by
    intro c; funext k; show c (0 + k) = c k; rw [zero_add]
  have h1 : step ⟨0, a⟩ = step ⟨0, b⟩ := by
    have h2 : rot (step ⟨0, a⟩) = rot (step ⟨0, b⟩) := by rw [rot_step, rot_step, hab, hab, h]
    refine State.ext' rfl fun k => ?_
    have := congrFun h2 (k - 31)
    have e : (0 : Fin 32) + 31 + (k - 31) = k := by omega
    have e1 : ∀ c : W, rot (step ⟨0, c⟩) (k - 31) = (step ⟨0, c⟩).s (0 + 31 + (k - 31)) :=
      fun _ => rfl
    rw [e1, e1, e] at this
    exact this
  have h3 := C03_step_bijective.1 _ _ h1
  exact congrArg State.s h3

theorem iterate_ne_zero (T : W) (h : T ≠ 0) (n : ℕ) : nxt^[n] T ≠ 0 := by
  intro hc
  apply h
  apply (nxt_injective.iterate n)
  rw [hc, iterate_zero']

/-- `f` maps the numbers below its minimal period onto a finite set of that size. -/
theorem orbit_all {α : Type} (f : α → α) (x : α) (n : ℕ)
    (h : Function.minimalPeriod f x = n) (S : Finset α) (hS : S.card = n)
    (hx : ∀ k, f^[k] x ∈ S) : ∀ y ∈ S, ∃ k < n, f^[k] x = y := by
  classical
  have hinj : Set.InjOn (fun k => f^[k] x) (Finset.range n : Set ℕ) := by
    rw [Finset.coe_range, ← h]
    exact Function.iterate_injOn_Iio_minimalPeriod
  have hc : ((Finset.range n).image fun k => f^[k] x).card = n := by
    rw [Finset.card_image_of_injOn hinj, Finset.card_range]
  have he : (Finset.range n).image (fun k => f^[k] x) = S := by
    apply Finset.eq_of_subset_of_card_le
    · intro y hy
      obtain ⟨k, _, rfl⟩ := Finset.mem_image.1 hy
      exact hx k
    · rw [hc, hS]
  intro y hy
  rw [← he] at hy
  obtain ⟨k, hk, rfl⟩ := Finset.mem_image.1 hy
  exact ⟨k, Finset.mem_range.1 hk, rfl⟩

theorem reach_from_v0 (T : W) (h : T ≠ 0) : ∃ n < N, nxt^[n] v0 = T := by
  classical
  exact orbit_all nxt v0 N minimalPeriod_v0 _ card_ne_zero
    (fun k => by simpa using iterate_ne_zero v0 v0_ne k) T (by simpa using h)

theorem minimalPeriod_eq (T : W) (h : T ≠ 0) : Function.minimalPeriod nxt T = N := by
  obtain ⟨n, _, rfl⟩ := reach_from_v0 T h
  rw [Function.minimalPeriod_apply_iterate, minimalPeriod_v0]
  exact Function.minimalPeriod_pos_iff_mem_periodicPts.1 (by rw [minimalPeriod_v0]; exact N_pos)

theorem reach (T T' : W) (h : T ≠ 0) (h' : T' ≠ 0) : ∃ n < N, nxt^[n] T = T' := by
  classical
  exact orbit_all nxt T N (minimalPeriod_eq T h) _ card_ne_zero
    (fun k => by simpa using iterate_ne_zero T h k) T' (by simpa using h')

theorem orbit_injOn (T : W) (h : T ≠ 0) :
    Set.InjOn (fun n => nxt^[n] T) (Finset.range N : Set ℕ) := by
  rw [Finset.coe_range, ← minimalPeriod_eq T h]
  exact Function.iterate_injOn_Iio_minimalPeriod

open Classical in
/-- In a period every state is met once. -/
theorem count_eq (T : W) (h : T ≠ 0) (p : W → Prop) :
    ((Finset.range N).filter fun n => p (nxt^[n] T)).card
      = (Finset.univ.filter fun T' : W => T' ≠ 0 ∧ p T').card := by
  refine Finset.card_bij (fun n _ => nxt^[n] T) ?_ ?_ ?_
  · intro n hn
    rw [Finset.mem_filter] at hn ⊢
    exact ⟨Finset.mem_univ _, iterate_ne_zero T h n, hn.2⟩
  · intro a ha b hb hab
    rw [Finset.mem_filter] at ha hb
    exact orbit_injOn T h (by simpa using ha.1) (by simpa using hb.1) hab
  · intro T' hT'
    rw [Finset.mem_filter] at hT'
    obtain ⟨n, hn, e⟩ := reach T T' h hT'.2.1
    exact ⟨n, by rw [Finset.mem_filter, Finset.mem_range, e]; exact ⟨hn, hT'.2.2⟩, e⟩

end Spectre.Well
