import Verif.Props.WellPeriod
import Verif.Props.WellRank

/-
Properties C04 (degenerate seeds, in full), C146 (period) and C147 (uniform distribution) of the
random number generator.
-/

namespace Spectre.Well

/-! ### Helpers -/

theorem observe (T : W) (h : ∀ j < 32, nxt^[j + 1] T 0 = 0) : T = 0 := by
  have hr := rowsS_spec (bitsOf T) 32 initS T (RepT_init T) h
  have hp := pack_spec (bitsOf T) (rowsS 32 initS) 0 (fun j => by rw [Nat.zero_div, Nat.zero_mod, val_zero]) hr
  have hc := rank_check
  rw [onesN_eq] at hc
  have hb := elimM_spec (bitsOf T) 1024 1024 pivots _ (Nat.le_refl _) hc hp
  funext k
  apply BitVec.eq_of_getLsbD_eq
  intro i hi
  have := hb (32 * k.val + i) (by omega)
  unfold bitsOf at this
  rw [show (32 * k.val + i) / 32 = k.val by omega, show (32 * k.val + i) % 32 = i by omega,
    show Fin.ofNat 32 k.val = k from Fin.ext (Nat.mod_eq_of_lt k.isLt)] at this
  rw [this, W_zero_apply]; simp

/-- The next 32 words drawn. -/
def block (T : W) : W := fun j => nxt^[j.val + 1] T 0

theorem block_add (a b : W) : block (a + b) = block a + block b := by
  funext j
  rw [W_add_apply]
  show nxt^[j.val + 1] (a + b) 0 = nxt^[j.val + 1] a 0 ^^^ nxt^[j.val + 1] b 0
  rw [← L_pow_apply, map_add, W_add_apply, L_pow_apply, L_pow_apply]

theorem block_injective : Function.Injective block := by
  intro a b h
  have h1 : block (a + b) = 0 := by rw [block_add, h, W_two]
  have h2 : a + b = 0 := observe _ fun j hj => congrFun h1 ⟨j, hj⟩
  calc a = a + (b + b) := by rw [W_two, add_zero]
    _ = (a + b) + b := by rw [add_assoc]
    _ = b := by rw [h2, zero_add]

theorem block_bijective : Function.Bijective block := Finite.injective_iff_bijective.1 block_injective

theorem rot_seed (w : Fin 32 → BitVec 32) : rot (seed w) = w := by
  funext k; show w (0 + k) = w k; rw [zero_add]

theorem seed_ne {w : Fin 32 → BitVec 32} (h : ∃ k, w k ≠ 0) : rot (seed w) ≠ 0 := by
  obtain ⟨k, hk⟩ := h
  rw [rot_seed]
  intro hc; exact hk (congrFun hc k)

theorem draw_block (st : State) (n : ℕ) (j : Fin 32) :
    draw st (n + j.val) = block (nxt^[n] (rot st)) j := by
  rw [draw_eq, show n + j.val + 1 = j.val + 1 + n by omega, Function.iterate_add_apply]; rfl

/-! ### C04 -/

/-- **C04.** With any seed but zero, at least one of any 32 consecutive words drawn is not zero, so
that values other than zero are returned infinitely often … -/
theorem C04_nonzero_in_32 (w : Fin 32 → BitVec 32) (h : ∃ k, w k ≠ 0) (n : ℕ) :
    ∃ j < 32, draw (seed w) (n + j) ≠ 0 ∧ numerator (draw (seed w) (n + j)) ≠ 0 := by
  by_contra hc
  push Not at hc
  have hz : ∀ j < 32, draw (seed w) (n + j) = 0 := by
    intro j hj
    by_contra hne
    exact hne ((C05_zero_iff _).1 (hc j hj hne))
  apply iterate_ne_zero _ (seed_ne h) n
  apply block_injective
  funext j
  rw [← draw_block, hz j.val j.isLt]
  show _ = nxt^[j.val + 1] 0 0
  rw [iterate_zero']; rfl

/-- … and 32 is exact: some seed starts with 31 zeros. -/
theorem C04_sharp : ∃ w : Fin 32 → BitVec 32, (∃ k, w k ≠ 0) ∧ ∀ j < 31, draw (seed w) j = 0 := by
  obtain ⟨T, hT⟩ := block_bijective.2 (fun j => if j = 31 then 1 else 0)
  have hw : rot (seed T) = T := rot_seed T
  refine ⟨T, ?_, ?_⟩
  · by_contra hc
    push Not at hc
    have : T = 0 := funext hc
    subst this
    have := congrFun hT 31
    rw [show block 0 31 = nxt^[(31 : Fin 32).val + 1] 0 0 from rfl, iterate_zero'] at this
    exact absurd this (by decide)
  · intro j hj
    have h := draw_block (seed T) 0 ⟨j, by omega⟩
    rw [Nat.zero_add] at h
    rw [h, Function.iterate_zero_apply, hw, hT]
    change (if (⟨j, by omega⟩ : Fin 32) = 31 then (1 : BitVec 32) else 0) = 0
    rw [if_neg]
    intro hc
    have := congrArg Fin.val hc
    simp at this
    omega

/-! ### C146: the period -/

theorem N_def : 2 ^ 1024 - 1 = N := by rw [N]

theorem periodic (T : W) (h : T ≠ 0) (n : ℕ) : nxt^[n] T = T ↔ N ∣ n := by
  rw [← minimalPeriod_eq T h]
  exact Function.isPeriodicPt_iff_minimalPeriod_dvd

/-- **C146.** With any seed but zero the words drawn have the least period `2^1024-1`: this shift
leaves the sequence unchanged, and only its multiples do. -/
theorem C146_period (w : Fin 32 → BitVec 32) (h : ∃ k, w k ≠ 0) (d : ℕ) :
    (∀ n, draw (seed w) (n + d) = draw (seed w) n) ↔ 2 ^ 1024 - 1 ∣ d := by
  rw [N_def]
  have hT := seed_ne h
  constructor
  · intro hd
    have hb : block (nxt^[d] (rot (seed w))) = block (rot (seed w)) := by
      funext j
      have h0 := draw_block (seed w) 0 j
      rw [Function.iterate_zero_apply] at h0
      rw [← draw_block, ← h0, Nat.add_comm d, hd, Nat.zero_add]
    exact (periodic _ hT d).1 (block_injective hb)
  · intro hd n
    have h1 := (periodic _ hT d).2 hd
    rw [draw_eq, draw_eq, show n + d + 1 = (n + 1) + d by omega, Function.iterate_add_apply, h1]

/-- **C146.** Any two seeds but zero give the same sequence of words, from different places. -/
theorem C146_one_cycle (w w' : Fin 32 → BitVec 32) (h : ∃ k, w k ≠ 0) (h' : ∃ k, w' k ≠ 0) :
    ∃ m < 2 ^ 1024 - 1, ∀ n, draw (seed w) (m + n) = draw (seed w') n := by
  obtain ⟨m, hm, e⟩ := reach _ _ (seed_ne h) (seed_ne h')
  refine ⟨m, hm, fun n => ?_⟩
  rw [draw_eq, draw_eq, ← e, ← Function.iterate_add_apply, show m + n + 1 = n + 1 + m by omega]

/-- **C146.** The object itself returns to its state after `32 (2^1024-1)` draws and no earlier,
because of the index that goes round the 32 words. -/
theorem C146_state (w : Fin 32 → BitVec 32) (h : ∃ k, w k ≠ 0) (n : ℕ) :
    run (seed w) n = seed w ↔ 32 * (2 ^ 1024 - 1) ∣ n := by
  rw [N_def]
  have hi : ∀ n, (run (seed w) n).i = Fin.ofNat 32 (31 * n) := by
    intro n
    induction n with
    | zero => rfl
    | succ n ih =>
      rw [run]
      show (run (seed w) n).i + 31 = _
      rw [ih]
      apply Fin.ext
      simp only [Fin.ofNat, Fin.val_add]
      show (31 * n % 32 + 31) % 32 = 31 * (n + 1) % 32
      omega
  have hodd : Nat.Coprime 32 N := by decide +kernel
  constructor
  · intro hr
    have h1 : 32 ∣ n := by
      have := hi n
      rw [hr] at this
      have h2 := congrArg Fin.val this
      simp only [seed, Fin.ofNat] at h2
      change 0 = 31 * n % 32 at h2
      omega
    have h2 : N ∣ n := by
      rw [← periodic _ (seed_ne h), ← rot_run, hr]
    exact hodd.mul_dvd_of_dvd_of_dvd h1 h2
  · intro hd
    have h1 : 32 ∣ n := (Dvd.intro _ rfl).trans hd
    have h2 : N ∣ n := (Dvd.intro_left _ rfl).trans hd
    have h3 := (periodic _ (seed_ne h) n).2 h2
    have hi0 : (run (seed w) n).i = 0 := by
      rw [hi]
      apply Fin.ext
      simp only [Fin.ofNat]
      show 31 * n % 32 = 0
      omega
    refine State.ext' hi0 fun k => ?_
    have h4 := congrFun h3 k
    rw [← rot_run, rot_seed] at h4
    change (run (seed w) n).s ((run (seed w) n).i + k) = w k at h4
    rw [hi0, zero_add] at h4
    exact h4

/-- The seed with a single bit has the full period. -/
example (d : ℕ) (h : ∀ n, draw (seed fun k => if k = 5 then 1 else 0) (n + d)
    = draw (seed fun k => if k = 5 then 1 else 0) n) : 2 ^ 1024 - 1 ∣ d :=
  (C146_period _ ⟨5, by decide⟩ d).1 h

/-! ### C147: the distribution -/

open Classical in
theorem card_prefix (k : ℕ) (hk : k ≤ 32) (u : Fin k → BitVec 32) :
    (Finset.univ.filter fun T : W => ∀ j : Fin k, T (Fin.castLE hk j) = u j).card
      = 2 ^ (1024 - 32 * k) := by
  let _ : Fintype (BitVec 32) := Fintype.ofFinite _
  have hB : Fintype.card (BitVec 32) = 2 ^ 32 := by rw [← Nat.card_eq_fintype_card, card_BitVec]
  let S : Fin 32 → Finset (BitVec 32) := fun i =>
    if h : i.val < k then {u ⟨i.val, h⟩} else Finset.univ
  have e : (Finset.univ.filter fun T : W => ∀ j : Fin k, T (Fin.castLE hk j) = u j).card
      = (Fintype.piFinset S).card := by
    refine Finset.card_bij (fun T _ => (T : Fin 32 → BitVec 32)) ?_ ?_ ?_
    · intro T hT
      rw [Finset.mem_filter] at hT
      refine Fintype.mem_piFinset.2 fun i => ?_
      by_cases h : i.val < k
      · simp only [S, dif_pos h, Finset.mem_singleton]
        exact hT.2 ⟨i.val, h⟩
      · simp only [S, dif_neg h]; exact Finset.mem_univ _
    · intro a _ b _ hab; exact hab
    · intro f hf
      rw [Fintype.mem_piFinset] at hf
      refine ⟨f, Finset.mem_filter.2 ⟨Finset.mem_univ _, fun j => ?_⟩, rfl⟩
      have := hf (Fin.castLE hk j)
      have hj : (Fin.castLE hk j).val < k := j.isLt
      simp only [S, dif_pos hj, Finset.mem_singleton] at this
      exact this
  rw [e, Fintype.card_piFinset]
  have hc : ∀ i : Fin 32, (S i).card = if i.val < k then 1 else 2 ^ 32 := by
    intro i
    by_cases h : i.val < k
    · simp [S, h]
    · simp only [S, dif_neg h, if_neg h, Finset.card_univ, hB]
  rw [Finset.prod_congr rfl fun i _ => hc i, Finset.prod_ite, Finset.prod_const_one, one_mul,
    Finset.prod_const, ← Nat.pow_mul]
  congr 1
  have hcard : (Finset.univ.filter fun i : Fin 32 => ¬ i.val < k).card = 32 - k := by
    have : (Finset.univ.filter fun i : Fin 32 => i.val < k).card = min 32 k := Fin.card_filter_val_lt
    have h2 := Finset.card_filter_add_card_filter_not (s := (Finset.univ : Finset (Fin 32)))
      (fun i : Fin 32 => i.val < k)
    rw [Finset.card_univ, Fintype.card_fin] at h2
    omega
  rw [hcard]
  omega

theorem card_filter_ne {α : Type} [DecidableEq α] (S : Finset α) (z : α) :
    (S.filter fun x => x ≠ z).card + (if z ∈ S then 1 else 0) = S.card := by
  rw [Finset.filter_ne']
  by_cases h : z ∈ S
  · rw [if_pos h, Finset.card_erase_of_mem h]
    have := Finset.card_pos.2 ⟨z, h⟩
    omega
  · rw [if_neg h, Finset.erase_eq_of_notMem h, add_zero]

open Classical in
theorem block_count (T : W) (hT : T ≠ 0) (p : W → Prop) [DecidablePred p] :
    ((Finset.range N).filter fun n => p (block (nxt^[n] T))).card + (if p 0 then 1 else 0)
      = (Finset.univ.filter p).card := by
  have h1 := count_eq T hT fun T' => p (block T')
  have hb0 : block 0 = 0 := by
    have := block_add 0 0
    rw [add_zero] at this
    exact left_eq_add.1 this
  have h2 : (Finset.univ.filter fun T' : W => T' ≠ 0 ∧ p (block T')).card
      = ((Finset.univ.filter p).filter fun T' => T' ≠ 0).card := by
    refine Finset.card_bij (fun T' _ => block T') ?_ ?_ ?_
    · intro a ha
      rw [Finset.mem_filter] at ha
      rw [Finset.mem_filter, Finset.mem_filter]
      refine ⟨⟨Finset.mem_univ _, ha.2.2⟩, fun hc => ha.2.1 ?_⟩
      exact block_injective (hc.trans hb0.symm)
    · intro a _ b _ h; exact block_injective h
    · intro b hb
      rw [Finset.mem_filter, Finset.mem_filter] at hb
      obtain ⟨a, rfl⟩ := block_bijective.2 b
      refine ⟨a, ?_, rfl⟩
      rw [Finset.mem_filter]
      refine ⟨Finset.mem_univ _, fun hc => hb.2 ?_, hb.1.2⟩
      rw [hc, hb0]
  have h3 := card_filter_ne (Finset.univ.filter p) (0 : W)
  have h4 : (0 : W) ∈ Finset.univ.filter p ↔ p 0 := by simp
  simp only [h4] at h3
  rw [← h3, ← h2]
  generalize N = m at h1 ⊢
  congr 1
  convert h1

open Classical in
/-- **C147.** Any `k ≤ 32` consecutive words take every `k`-tuple of values equally often in a
period, namely `2^(1024-32k)` times, except that the tuple of zeros comes once less. -/
theorem C147_tuples (w : Fin 32 → BitVec 32) (h : ∃ i, w i ≠ 0) (k : ℕ) (hk : k ≤ 32)
    (u : Fin k → BitVec 32) :
    ((Finset.range (2 ^ 1024 - 1)).filter fun n => ∀ j : Fin k, draw (seed w) (n + j) = u j).card
      + (if ∀ j, u j = 0 then 1 else 0) = 2 ^ (1024 - 32 * k) := by
  rw [N_def, ← card_prefix k hk u,
    ← block_count _ (seed_ne h) fun T => ∀ j : Fin k, T (Fin.castLE hk j) = u j]
  have e1 : ∀ n, (∀ j : Fin k, draw (seed w) (n + j) = u j) ↔
      ∀ j : Fin k, block (nxt^[n] (rot (seed w))) (Fin.castLE hk j) = u j := by
    intro n
    refine forall_congr' fun j => ?_
    rw [← draw_block]; rfl
  have e2 : (∀ j, u j = 0) ↔ ∀ j : Fin k, (0 : W) (Fin.castLE hk j) = u j :=
    forall_congr' fun j => ⟨fun h => h.symm, fun h => h.symm⟩
  simp only [e1]
  congr 1
  by_cases hz : ∀ j, u j = 0
  · rw [if_pos hz, if_pos (e2.1 hz)]
  · rw [if_neg hz, if_neg fun hc => hz (e2.2 hc)]

open Classical in
/-- **C147.** Every word is drawn equally often in a period: `2^992` times, the word 0 once less. -/
theorem C147_words (w : Fin 32 → BitVec 32) (h : ∃ i, w i ≠ 0) (u : BitVec 32) :
    ((Finset.range (2 ^ 1024 - 1)).filter fun n => draw (seed w) n = u).card
      + (if u = 0 then 1 else 0) = 2 ^ 992 := by
  have := C147_tuples w h 1 (by decide) fun _ => u
  simpa using this

open Classical in
theorem card_first (q : BitVec 32 → Prop) :
    (Finset.univ.filter fun T : W => q (T 0)).card
      = 2 ^ 992 * ((Finset.range (2 ^ 32)).filter fun x => q (BitVec.ofNat 32 x)).card := by
  have hmaps : ∀ T ∈ (Finset.univ.filter fun T : W => q (T 0)),
      (T 0).toNat ∈ (Finset.range (2 ^ 32)).filter fun x => q (BitVec.ofNat 32 x) := by
    intro T hT
    rw [Finset.mem_filter] at hT
    rw [Finset.mem_filter, Finset.mem_range, BitVec.ofNat_toNat, BitVec.setWidth_eq]
    exact ⟨(T 0).isLt, hT.2⟩
  rw [Finset.card_eq_sum_card_fiberwise hmaps, Finset.sum_const_nat (m := 2 ^ 992), Nat.mul_comm]
  intro x hx
  rw [Finset.mem_filter, Finset.mem_range] at hx
  have h1 := card_prefix 1 (by decide) fun _ => BitVec.ofNat 32 x
  rw [show 1024 - 32 * 1 = 992 by decide] at h1
  rw [← h1]
  congr 1
  ext T
  simp only [Finset.mem_filter, Finset.mem_univ, true_and]
  constructor
  · rintro ⟨_, hx'⟩ j
    have hj : Fin.castLE (by decide : 1 ≤ 32) j = 0 := by
      apply Fin.ext; have := j.isLt; show j.val = 0; omega
    rw [hj]
    apply BitVec.eq_of_toNat_eq
    rw [hx', BitVec.toNat_ofNat, Nat.mod_eq_of_lt hx.1]
  · intro hj
    have h0 := hj 0
    change T 0 = BitVec.ofNat 32 x at h0
    rw [h0]
    exact ⟨hx.2, by rw [BitVec.toNat_ofNat, Nat.mod_eq_of_lt hx.1]⟩

open Classical in
theorem events_eq (w : Fin 32 → BitVec 32) (h : ∃ i, w i ≠ 0) (q : BitVec 32 → Prop) :
    ((Finset.range N).filter fun n => q (draw (seed w) n)).card + (if q 0 then 1 else 0)
      = (Finset.univ.filter fun T : W => q (T 0)).card := by
  have hb := block_count _ (seed_ne h) fun T => q (T 0)
  have e1 : ∀ n, block (nxt^[n] (rot (seed w))) 0 = draw (seed w) n := by
    intro n
    rw [← draw_block]; rfl
  simp only [e1] at hb
  generalize N = m at hb ⊢
  exact hb

open Classical in
/-- **C147.** Whatever is asked of a word: the number of draws in a period that fulfil it is `2^992`
times the number of words that do (one less if the word 0 does). -/
theorem C147_events (w : Fin 32 → BitVec 32) (h : ∃ i, w i ≠ 0) (q : BitVec 32 → Prop) :
    ((Finset.range (2 ^ 1024 - 1)).filter fun n => q (draw (seed w) n)).card
      + (if q 0 then 1 else 0)
      = 2 ^ 992 * ((Finset.range (2 ^ 32)).filter fun x => q (BitVec.ofNat 32 x)).card := by
  rw [N_def]
  have h1 := events_eq w h q
  have h2 := card_first q
  generalize N = m at h1 ⊢
  generalize 2 ^ 992 = p at h2 ⊢
  exact h1.trans h2

theorem numerator_near (u : BitVec 32) :
    numerator u ≤ u.toNat + 128 ∧ u.toNat ≤ numerator u + 128 := by
  unfold numerator
  by_cases hb : 2 ^ 24 ≤ u.toNat
  · obtain ⟨_, h2, h3⟩ := toFloat32_nearest u hb
    have hn : u.toNat ≠ 0 := by omega
    have hl : u.toNat.log2 < 32 := (Nat.log2_lt hn).2 u.isLt
    have : 2 ^ (u.toNat.log2 - 23) ≤ 2 ^ 8 := Nat.pow_le_pow_right (by omega) (by omega)
    omega
  · unfold toFloat32
    simp only
    rw [if_pos (by omega)]
    omega

/-- **C147.** The numbers returned are uniform up to their rounding: the part of a period in which
the number is at most `m / 2^32` is between `(m - 127) / 2^32` and `(m + 129) / 2^32` of
`2^1024`. -/
theorem C147_values (w : Fin 32 → BitVec 32) (h : ∃ i, w i ≠ 0) (m : ℕ) (hm : m < 2 ^ 32) :
    2 ^ 992 * (m - 127) ≤
      ((Finset.range (2 ^ 1024 - 1)).filter fun n => numerator (draw (seed w) n) ≤ m).card + 1 ∧
    ((Finset.range (2 ^ 1024 - 1)).filter fun n => numerator (draw (seed w) n) ≤ m).card + 1
      ≤ 2 ^ 992 * (m + 129) := by
  classical
  have he := C147_events w h fun u => numerator u ≤ m
  rw [N_def] at *
  have hz : numerator 0 ≤ m := by rw [(C05_zero_iff 0).2 rfl]; exact Nat.zero_le _
  rw [if_pos hz] at he
  have e2 : ((Finset.range N).filter fun n => numerator (draw (seed w) n) ≤ m).card + 1
      = 2 ^ 992 * ((Finset.range (2 ^ 32)).filter fun x => numerator (BitVec.ofNat 32 x) ≤ m).card := by
    convert he
  rw [e2]
  generalize (2 : ℕ) ^ 992 = p
  constructor
  · apply Nat.mul_le_mul_left
    have hs : Finset.range (m - 127) ⊆
        (Finset.range (2 ^ 32)).filter fun x => numerator (BitVec.ofNat 32 x) ≤ m := by
      intro x hx
      rw [Finset.mem_range] at hx
      rw [Finset.mem_filter, Finset.mem_range]
      refine ⟨by omega, ?_⟩
      have := (numerator_near (BitVec.ofNat 32 x)).1
      rw [BitVec.toNat_ofNat, Nat.mod_eq_of_lt (by omega)] at this
      omega
    have := Finset.card_le_card hs
    rwa [Finset.card_range] at this
  · apply Nat.mul_le_mul_left
    have hs : ((Finset.range (2 ^ 32)).filter fun x => numerator (BitVec.ofNat 32 x) ≤ m) ⊆
        Finset.range (m + 129) := by
      intro x hx
      rw [Finset.mem_filter, Finset.mem_range] at hx
      rw [Finset.mem_range]
      have := (numerator_near (BitVec.ofNat 32 x)).2
      rw [BitVec.toNat_ofNat, Nat.mod_eq_of_lt hx.1] at this
      omega
    have := Finset.card_le_card hs
    rwa [Finset.card_range] at this

theorem card_one (B : ℕ) (hB : 2 ^ 32 = B) [DecidablePred fun x => numerator (BitVec.ofNat 32 x) = B] :
    ((Finset.range B).filter fun x => numerator (BitVec.ofNat 32 x) = B).card = 128 := by
  have hs : ((Finset.range B).filter fun x => numerator (BitVec.ofNat 32 x) = B)
      = Finset.Ico (B - 128) B := by
    ext x
    have h1 := C05_one_iff (BitVec.ofNat 32 x)
    rw [BitVec.toNat_ofNat, hB] at h1
    rw [Finset.mem_filter, Finset.mem_range, Finset.mem_Ico, h1]
    constructor
    · rintro ⟨h1, h2⟩
      rw [Nat.mod_eq_of_lt h1] at h2
      exact ⟨h2, h1⟩
    · rintro ⟨h1, h2⟩
      rw [Nat.mod_eq_of_lt h2]
      exact ⟨h2, h1⟩
  rw [hs, Nat.card_Ico]
  omega

/-- **C147.** The number 1.0 is returned exactly `128 * 2^992` times in a period. -/
theorem C147_one (w : Fin 32 → BitVec 32) (h : ∃ i, w i ≠ 0) :
    ((Finset.range (2 ^ 1024 - 1)).filter fun n => numerator (draw (seed w) n) = 2 ^ 32).card
      = 2 ^ 992 * 128 := by
  classical
  have hz : ¬ numerator 0 = 2 ^ 32 := by rw [(C05_zero_iff 0).2 rfl]; decide
  obtain ⟨B, hB⟩ : ∃ B : ℕ, 2 ^ 32 = B := ⟨_, rfl⟩
  have he := C147_events w h fun u => numerator u = B
  rw [hB] at he hz ⊢
  rw [N_def] at he ⊢
  generalize N = m at he ⊢
  generalize (2 : ℕ) ^ 992 = p at he ⊢
  rw [if_neg hz, add_zero, @card_one B hB fun _ => Classical.propDecidable _] at he
  rw [← he]
  congr

/-- **C147.** Every sequence of 32 words but zeros is drawn exactly once in a period. -/
theorem C147_blocks (w : Fin 32 → BitVec 32) (h : ∃ i, w i ≠ 0) (u : Fin 32 → BitVec 32)
    (hu : ∃ i, u i ≠ 0) :
    ∃! n, n < 2 ^ 1024 - 1 ∧ ∀ j : Fin 32, draw (seed w) (n + j) = u j := by
  rw [N_def]
  obtain ⟨T, hT⟩ := block_bijective.2 u
  have hT0 : T ≠ 0 := by
    rintro rfl
    obtain ⟨i, hi⟩ := hu
    apply hi
    rw [← congrFun hT i]
    show nxt^[i.val + 1] 0 0 = 0
    rw [iterate_zero']; rfl
  obtain ⟨n, hn, e⟩ := reach _ T (seed_ne h) hT0
  refine ⟨n, ⟨hn, fun j => by rw [draw_block, e, hT]⟩, ?_⟩
  rintro m ⟨hm, hmj⟩
  have : block (nxt^[m] (rot (seed w))) = block (nxt^[n] (rot (seed w))) := by
    funext j
    rw [← draw_block, hmj, e, hT]
  exact orbit_injOn _ (seed_ne h) (by simpa using hm) (by simpa using hn) (block_injective this)

/-- A seed with a single bit: pairs of words, as used for the two coordinates of a sample. -/
example (a b : BitVec 32) (h : a ≠ 0) (w : Fin 32 → BitVec 32)
    (hw : w = fun k => if k = 31 then 0x80000000 else 0) :
    ∃ n, draw (seed w) n = a ∧ draw (seed w) (n + 1) = b := by
  obtain ⟨n, ⟨_, hn⟩, _⟩ := C147_blocks w ⟨31, by rw [hw]; decide⟩
    (fun k => if k = 0 then a else if k = 1 then b else 0) ⟨0, by simpa using h⟩
  exact ⟨n, by simpa using hn 0, by simpa using hn 1⟩

end Spectre.Well
