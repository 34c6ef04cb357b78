import Mathlib.NumberTheory.LucasPrimality
import Mathlib.FieldTheory.Finite.Basic
import Mathlib.Data.Nat.Prime.Basic
import Mathlib.Tactic.NormNum.Prime
import Mathlib.Data.Nat.Factorization.Basic

/-
The prime factors of 2^1024-1, with certificates checked by the kernel.  Nothing here models code
of the program: the factors are needed for the proof of the period of the generator of
`src/utility/wellrng.cpp` in `Props/WellPeriod.lean`.
-/

namespace Spectre.WellPrimes

/-- `a^e % m` by squaring, with `f` steps. -/
def powMod : ℕ → ℕ → ℕ → ℕ → ℕ
  | 0, _, _, m => 1 % m
  | f + 1, a, e, m =>
    bif Nat.beq e 0 then 1 % m else
      bif Nat.beq (e % 2) 1 then a * powMod f (a * a % m) (e / 2) m % m
      else powMod f (a * a % m) (e / 2) m

theorem powMod_eq (f : ℕ) : ∀ a e m, e < 2 ^ f → powMod f a e m = a ^ e % m := by
  induction f with
  | zero => intro a e m h; have : e = 0 := by simpa using h
            subst this; simp [powMod]
  | succ f ih =>
    intro a e m h
    rw [powMod]
    rcases h0 : Nat.beq e 0 with _ | _
    · have hlt : e / 2 < 2 ^ f := by rw [Nat.pow_succ] at h; omega
      have hp : powMod f (a * a % m) (e / 2) m = a ^ (2 * (e / 2)) % m := by
        rw [ih _ _ _ hlt, ← Nat.pow_mod, Nat.pow_mul, Nat.pow_two]
      simp only [cond_false]
      rw [hp]
      rcases h1 : Nat.beq (e % 2) 1 with _ | _
      · have : e % 2 ≠ 1 := by intro hc; rw [hc] at h1; exact absurd h1 (by decide)
        simp only [cond_false]
        rw [show 2 * (e / 2) = e by omega]
      · have : e % 2 = 1 := Nat.eq_of_beq_eq_true h1
        simp only [cond_true]
        rw [Nat.mul_mod_mod, ← Nat.pow_succ', show (2 * (e / 2)).succ = e by omega]
    · have : e = 0 := Nat.eq_of_beq_eq_true h0
      subst this; simp

/-- One factor `q^e` of `p-1` in Pocklington's theorem: it divides `r-1` for every prime factor `r`
of `p`. -/
theorem pock_dvd {p r q e a : ℕ} (hp : 1 < p) (hr : r.Prime) (hrp : r ∣ p) (hq : q.Prime)
    (hd : q ^ e ∣ p - 1) (h1 : a ^ (p - 1) % p = 1)
    (h2 : Nat.gcd (a ^ ((p - 1) / q) % p + (p - 1)) p = 1) : q ^ e ∣ r - 1 := by
  have := Fact.mk hr
  have hcast : ∀ n : ℕ, ((n % p : ℕ) : ZMod r) = n := by
    intro n
    rw [ZMod.natCast_eq_natCast_iff]
    exact (Nat.mod_modEq n p).of_dvd hrp
  have ha : (a : ZMod r) ^ (p - 1) = 1 := by
    have := hcast (a ^ (p - 1))
    rw [h1] at this
    rw [← Nat.cast_pow, ← this]; simp
  have hp0 : ((p : ℕ) : ZMod r) = 0 := (ZMod.natCast_eq_zero_iff _ _).2 hrp
  have hp1 : ((p - 1 : ℕ) : ZMod r) = -1 := by
    rw [Nat.cast_sub hp.le, hp0]; simp
  have hna : (a : ZMod r) ^ ((p - 1) / q) ≠ 1 := by
    intro hc
    have hz : ((a ^ ((p - 1) / q) % p + (p - 1) : ℕ) : ZMod r) = 0 := by
      rw [Nat.cast_add, hcast, hp1, Nat.cast_pow, hc]; simp
    have := Nat.dvd_gcd ((ZMod.natCast_eq_zero_iff _ _).1 hz) hrp
    rw [h2] at this
    exact hr.one_lt.ne' (Nat.dvd_one.1 this)
  have hane : (a : ZMod r) ≠ 0 := by
    intro hc
    rw [hc, zero_pow (by omega)] at ha
    exact zero_ne_one ha
  have ho : orderOf (a : ZMod r) ∣ p - 1 := orderOf_dvd_of_pow_eq_one ha
  obtain ⟨m, hm⟩ := ho
  have hqm : ¬ q ∣ m := by
    rintro ⟨t, rfl⟩
    apply hna
    apply orderOf_dvd_iff_pow_eq_one.1
    rw [hm, show orderOf (a : ZMod r) * (q * t) = q * (orderOf (a : ZMod r) * t) by ring,
      Nat.mul_div_cancel_left _ hq.pos]
    exact Dvd.intro _ rfl
  have hcop : Nat.Coprime (q ^ e) m := Nat.Coprime.pow_left e ((Nat.Prime.coprime_iff_not_dvd hq).2 hqm)
  rw [hm] at hd
  exact (hcop.dvd_of_dvd_mul_right hd).trans
    (orderOf_dvd_of_pow_eq_one (ZMod.pow_card_sub_one_eq_one hane))

/-- Pocklington's theorem: if a number above the root of `p` divides `r-1` for all prime factors
`r` of `p`, then `p` is prime. -/
theorem pock {p F : ℕ} (hp : 1 < p) (hF : p < F * F) (h : ∀ r, r.Prime → r ∣ p → F ∣ r - 1) :
    p.Prime := by
  by_contra hn
  have hr := Nat.minFac_prime hp.ne'
  have hd := h _ hr (Nat.minFac_dvd p)
  have hsq := Nat.minFac_sq_le_self (by omega) hn
  have hle : F ≤ p.minFac - 1 := Nat.le_of_dvd (by have := hr.one_lt; omega) hd
  have : F * F ≤ p.minFac ^ 2 := by rw [Nat.pow_two]; exact Nat.mul_le_mul (by omega) (by omega)
  omega

/-- The conditions on one factor as a computation. -/
def chk (f p q e a : ℕ) : Bool :=
  Nat.beq ((p - 1) % q ^ e) 0 && Nat.blt (p - 1) (2 ^ f) &&
    Nat.beq (powMod f a (p - 1) p) 1 &&
    Nat.beq (Nat.gcd (powMod f a ((p - 1) / q) p + (p - 1)) p) 1

theorem chk_dvd {f p q e a : ℕ} (h : chk f p q e a = true) (hp : 1 < p) (hq : q.Prime) {r : ℕ}
    (hr : r.Prime) (hrp : r ∣ p) : q ^ e ∣ r - 1 := by
  unfold chk at h
  simp only [Bool.and_eq_true, Nat.blt_eq] at h
  obtain ⟨⟨⟨h1, h3⟩, h4⟩, h5⟩ := h
  have h4 := Nat.eq_of_beq_eq_true h4
  have h5 := Nat.eq_of_beq_eq_true h5
  rw [powMod_eq _ _ _ _ h3] at h4
  rw [powMod_eq _ _ _ _ (lt_of_le_of_lt (Nat.div_le_self _ _) h3)] at h5
  exact pock_dvd hp hr hrp hq (Nat.dvd_of_mod_eq_zero (Nat.eq_of_beq_eq_true h1)) h4 h5

theorem pock1 {p q e a f : ℕ} (hp : 1 < p) (hq : q.Prime) (h : chk f p q e a = true)
    (hF : p < q ^ e * q ^ e) : p.Prime :=
  pock hp hF fun _ hr hrp => chk_dvd h hp hq hr hrp

theorem pock3 {p q e a q' e' a' q'' e'' a'' f : ℕ} (hp : 1 < p) (hq : q.Prime) (hq' : q'.Prime)
    (hq'' : q''.Prime) (hn : q ≠ q') (hn1 : q ≠ q'') (hn2 : q' ≠ q'') (h : chk f p q e a = true)
    (h' : chk f p q' e' a' = true) (h'' : chk f p q'' e'' a'' = true)
    (hF : p < (q ^ e * q' ^ e' * q'' ^ e'') * (q ^ e * q' ^ e' * q'' ^ e'')) : p.Prime := by
  refine pock hp hF fun r hr hrp => ?_
  have c1 : Nat.Coprime (q ^ e) (q' ^ e') := Nat.coprime_pow_primes _ _ hq hq' hn
  have c2 : Nat.Coprime (q ^ e * q' ^ e') (q'' ^ e'') :=
    Nat.Coprime.mul_left (Nat.coprime_pow_primes _ _ hq hq'' hn1)
      (Nat.coprime_pow_primes _ _ hq' hq'' hn2)
  exact c2.mul_dvd_of_dvd_of_dvd (c1.mul_dvd_of_dvd_of_dvd (chk_dvd h hp hq hr hrp)
    (chk_dvd h' hp hq' hr hrp)) (chk_dvd h'' hp hq'' hr hrp)

theorem p2998279 : Nat.Prime 2998279 := by norm_num

theorem p6700417 : Nat.Prime 6700417 := by norm_num

theorem p67280421310721 : Nat.Prime 67280421310721 := 
  pock3 (q := 2) (e := 8) (a := 3) (q' := 5) (e' := 1) (a' := 3)
    (q'' := 2998279) (e'' := 1) (a'' := 3) (f := 46) (by decide +kernel) (by norm_num)
    (by norm_num) p2998279 (by decide +kernel) (by decide +kernel)
    (by decide +kernel) (by decide +kernel) (by decide +kernel) (by decide +kernel)
    (by decide +kernel)

theorem p1896229 : Nat.Prime 1896229 := by norm_num

theorem p18533742247 : Nat.Prime 18533742247 := 
  pock1 (q := 1896229) (e := 1) (a := 2) (f := 35) (by decide +kernel) p1896229
    (by decide +kernel) (by decide +kernel)

theorem p116503103764643 : Nat.Prime 116503103764643 := 
  pock1 (q := 18533742247) (e := 1) (a := 2) (f := 47) (by decide +kernel) p18533742247
    (by decide +kernel) (by decide +kernel)

theorem p59649589127497217 : Nat.Prime 59649589127497217 := 
  pock1 (q := 116503103764643) (e := 1) (a := 3) (f := 56) (by decide +kernel) p116503103764643
    (by decide +kernel) (by decide +kernel)

theorem p6939437 : Nat.Prime 6939437 := by norm_num

theorem p55515497 : Nat.Prime 55515497 := 
  pock1 (q := 6939437) (e := 1) (a := 2) (f := 26) (by decide +kernel) p6939437
    (by decide +kernel) (by decide +kernel)

theorem p733803839347 : Nat.Prime 733803839347 := 
  pock1 (q := 55515497) (e := 1) (a := 2) (f := 40) (by decide +kernel) p55515497
    (by decide +kernel) (by decide +kernel)

theorem p5704689200685129054721 : Nat.Prime 5704689200685129054721 := 
  pock1 (q := 733803839347) (e := 1) (a := 3) (f := 73) (by decide +kernel) p733803839347
    (by decide +kernel) (by decide +kernel)

theorem p3853149761 : Nat.Prime 3853149761 := 
  pock3 (q := 2) (e := 6) (a := 3) (q' := 5) (e' := 1) (a' := 2)
    (q'' := 719) (e'' := 1) (a'' := 2) (f := 32) (by decide +kernel) (by norm_num)
    (by norm_num) (by norm_num) (by decide +kernel) (by decide +kernel)
    (by decide +kernel) (by decide +kernel) (by decide +kernel) (by decide +kernel)
    (by decide +kernel)

theorem p1238926361552897 : Nat.Prime 1238926361552897 := 
  pock1 (q := 3853149761) (e := 1) (a := 3) (f := 51) (by decide +kernel) p3853149761
    (by decide +kernel) (by decide +kernel)

theorem p10608557 : Nat.Prime 10608557 := by norm_num

theorem p1604753 : Nat.Prime 1604753 := by norm_num

theorem p41723579 : Nat.Prime 41723579 := 
  pock1 (q := 1604753) (e := 1) (a := 2) (f := 26) (by decide +kernel) p1604753
    (by decide +kernel) (by decide +kernel)

theorem p83447159 : Nat.Prime 83447159 := 
  pock1 (q := 41723579) (e := 1) (a := 2) (f := 27) (by decide +kernel) p41723579
    (by decide +kernel) (by decide +kernel)

theorem p25353082741699 : Nat.Prime 25353082741699 := 
  pock1 (q := 83447159) (e := 1) (a := 2) (f := 45) (by decide +kernel) p83447159
    (by decide +kernel) (by decide +kernel)

theorem p1057372046781162536274034354686893329625329 : Nat.Prime 1057372046781162536274034354686893329625329 := 
  pock3 (q := 8861) (e := 1) (a := 2) (q' := 10608557) (e' := 1) (a' := 2)
    (q'' := 25353082741699) (e'' := 1) (a'' := 2) (f := 140) (by decide +kernel) (by norm_num)
    p10608557 p25353082741699 (by decide +kernel) (by decide +kernel)
    (by decide +kernel) (by decide +kernel) (by decide +kernel) (by decide +kernel)
    (by decide +kernel)

theorem p93461639715357977769163558199606896584051237541638188580280321 : Nat.Prime 93461639715357977769163558199606896584051237541638188580280321 := 
  pock1 (q := 1057372046781162536274034354686893329625329) (e := 1) (a := 3) (f := 206) (by decide +kernel) p1057372046781162536274034354686893329625329
    (by decide +kernel) (by decide +kernel)

theorem p2424833 : Nat.Prime 2424833 := by norm_num

theorem p82488781 : Nat.Prime 82488781 := 
  pock3 (q := 3) (e := 5) (a := 2) (q' := 5) (e' := 1) (a' := 2)
    (q'' := 11) (e'' := 1) (a'' := 2) (f := 27) (by decide +kernel) (by norm_num)
    (by norm_num) (by norm_num) (by decide +kernel) (by decide +kernel)
    (by decide +kernel) (by decide +kernel) (by decide +kernel) (by decide +kernel)
    (by decide +kernel)

theorem p45177623 : Nat.Prime 45177623 := 
  pock1 (q := 68659) (e := 1) (a := 2) (f := 26) (by decide +kernel) (by norm_num)
    (by decide +kernel) (by decide +kernel)

theorem p1084262953 : Nat.Prime 1084262953 := 
  pock1 (q := 45177623) (e := 1) (a := 2) (f := 31) (by decide +kernel) p45177623
    (by decide +kernel) (by decide +kernel)

theorem p1143290228161321 : Nat.Prime 1143290228161321 := 
  pock1 (q := 1084262953) (e := 1) (a := 2) (f := 51) (by decide +kernel) p1084262953
    (by decide +kernel) (by decide +kernel)

theorem p7455602825647884208337395736200454918783366342657 : Nat.Prime 7455602825647884208337395736200454918783366342657 := 
  pock3 (q := 47) (e := 1) (a := 3) (q' := 82488781) (e' := 1) (a' := 3)
    (q'' := 1143290228161321) (e'' := 1) (a'' := 3) (f := 163) (by decide +kernel) (by norm_num)
    p82488781 p1143290228161321 (by decide +kernel) (by decide +kernel)
    (by decide +kernel) (by decide +kernel) (by decide +kernel) (by decide +kernel)
    (by decide +kernel)

theorem p1746751 : Nat.Prime 1746751 := by norm_num

theorem p2865899 : Nat.Prime 2865899 := by norm_num

theorem p12088361983 : Nat.Prime 12088361983 := 
  pock1 (q := 2865899) (e := 1) (a := 2) (f := 34) (by decide +kernel) p2865899
    (by decide +kernel) (by decide +kernel)

theorem p9446329 : Nat.Prime 9446329 := by norm_num

theorem p37785317 : Nat.Prime 37785317 := 
  pock1 (q := 9446329) (e := 1) (a := 2) (f := 26) (by decide +kernel) p9446329
    (by decide +kernel) (by decide +kernel)

theorem p7871739519977 : Nat.Prime 7871739519977 := 
  pock1 (q := 37785317) (e := 1) (a := 2) (f := 43) (by decide +kernel) p37785317
    (by decide +kernel) (by decide +kernel)

theorem p1392542208042011209 : Nat.Prime 1392542208042011209 := 
  pock1 (q := 7871739519977) (e := 1) (a := 2) (f := 61) (by decide +kernel) p7871739519977
    (by decide +kernel) (by decide +kernel)

theorem p16975143302271505426897585653131126520182328037821729720833840187223 : Nat.Prime 16975143302271505426897585653131126520182328037821729720833840187223 := 
  pock3 (q := 1746751) (e := 1) (a := 2) (q' := 12088361983) (e' := 1) (a' := 2)
    (q'' := 1392542208042011209) (e'' := 1) (a'' := 2) (f := 224) (by decide +kernel) p1746751
    p12088361983 p1392542208042011209 (by decide +kernel) (by decide +kernel)
    (by decide +kernel) (by decide +kernel) (by decide +kernel) (by decide +kernel)
    (by decide +kernel)

theorem p741640062627530801524787141901937474059940781097519023905821316144415759504705008092818711693940737 : Nat.Prime 741640062627530801524787141901937474059940781097519023905821316144415759504705008092818711693940737 := 
  pock1 (q := 16975143302271505426897585653131126520182328037821729720833840187223) (e := 1) (a := 3) (f := 329) (by decide +kernel) p16975143302271505426897585653131126520182328037821729720833840187223
    (by decide +kernel) (by decide +kernel)

/-- The prime factors of 2^1024-1. -/
def factors : List ℕ :=
  [3,
    5,
    17,
    257,
    65537,
    641,
    6700417,
    274177,
    67280421310721,
    59649589127497217,
    5704689200685129054721,
    1238926361552897,
    93461639715357977769163558199606896584051237541638188580280321,
    2424833,
    7455602825647884208337395736200454918783366342657,
    741640062627530801524787141901937474059940781097519023905821316144415759504705008092818711693940737]

theorem factors_prod : factors.prod = 2 ^ 1024 - 1 := by decide +kernel

theorem factors_prime : ∀ p ∈ factors, p.Prime := by
  unfold factors
  simp only [List.forall_mem_cons]
  exact ⟨by norm_num, by norm_num, by norm_num, by norm_num, by norm_num, by norm_num, p6700417, by norm_num, p67280421310721, p59649589127497217, p5704689200685129054721, p1238926361552897, p93461639715357977769163558199606896584051237541638188580280321, p2424833, p7455602825647884208337395736200454918783366342657, p741640062627530801524787141901937474059940781097519023905821316144415759504705008092818711693940737,
    List.forall_mem_nil _⟩

/-- Every prime factor of 2^1024-1 is in the list. -/
theorem mem_factors {p : ℕ} (hp : p.Prime) (h : p ∣ 2 ^ 1024 - 1) : p ∈ factors := by
  rw [← factors_prod] at h
  have hf := factors_prime
  generalize factors = l at *
  obtain ⟨q, hq, hpq⟩ := (Nat.Prime.prime hp).dvd_prod_iff.1 h
  rw [(Nat.prime_dvd_prime_iff_eq hp (hf q hq)).1 hpq]
  exact hq

end Spectre.WellPrimes
