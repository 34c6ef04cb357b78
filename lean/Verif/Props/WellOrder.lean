import Verif.Model.Well
import Verif.Props.Well
import Verif.Props.WellPoly
import Verif.Props.WellPrimes
import Mathlib.Algebra.Module.ZMod
import Mathlib.Algebra.Polynomial.AlgebraMap
import Mathlib.Dynamics.PeriodicPts.Defs
import Mathlib.Data.Fintype.Pi
import Mathlib.Data.Fintype.BigOperators
import Mathlib.Data.BitVec
import Mathlib.GroupTheory.Index

/-
The period of the random number generator and how often each word is drawn: properties C04 (full)
and C146.
-/

namespace Spectre.Well

open Polynomial

/-! ### The state seen from its index -/

/-- The 32 words of a state starting from the current one. -/
def W := Fin 32 → BitVec 32

/-- The words of a state in the order of their distance from the index. -/
def rot (st : State) : W := fun k => st.s (st.i + k)

/-- What a draw does to the words. -/
def nxt (T : W) : W := fun k =>
  let z1 := T 0 ^^^ xr 8 (T 3)
  let z2 := xl 19 (T 24) ^^^ xl 14 (T 10)
  if k = 0 then xl 11 (T 31) ^^^ xl 7 z1 ^^^ xl 13 z2
  else if k = 1 then z1 ^^^ z2 else T (k - 1)

theorem rot_step (st : State) : rot (step st) = nxt (rot st) := by
  funext k
  obtain ⟨i, s⟩ := st
  have h0 : ∀ j : Fin 32, (i + 31 + j = i + 31) ↔ j = 0 := by intro j; omega
  have h1 : ∀ j : Fin 32, (i + 31 + j = i) ↔ j = 1 := by intro j; omega
  have h2 : i + 31 + k = i + (k - 1) := by omega
  simp only [rot, step, nxt, upd, h0, h1]
  rw [h2]
  simp only [Fin.isValue, add_zero]

theorem rot_run (st : State) (n : ℕ) : rot (run st n) = nxt^[n] (rot st) := by
  induction n with
  | zero => rfl
  | succ n ih => rw [run, rot_step, ih, Function.iterate_succ_apply']

theorem word_eq (st : State) : word st = rot st 0 := by
  show st.s st.i = st.s (st.i + 0); rw [add_zero]

theorem draw_eq (st : State) (n : ℕ) : draw st n = nxt^[n + 1] (rot st) 0 := by
  rw [draw, word_eq, rot_run]

/-! ### The words as a vector space over the field of two elements -/

instance : Zero W := ⟨fun _ => 0⟩
instance : Add W := ⟨fun a b k => a k ^^^ b k⟩
instance : Neg W := ⟨fun a => a⟩

theorem W_add_apply (a b : W) (k : Fin 32) : (a + b) k = a k ^^^ b k := rfl
theorem W_zero_apply (k : Fin 32) : (0 : W) k = 0 := rfl

instance : AddCommGroup W where
  add_assoc a b c := by funext k; simp only [W_add_apply, BitVec.xor_assoc]
  zero_add a := by funext k; rw [W_add_apply, W_zero_apply]; simp
  add_zero a := by funext k; rw [W_add_apply, W_zero_apply]; simp
  add_comm a b := by funext k; simp only [W_add_apply, BitVec.xor_comm]
  neg_add_cancel a := by
    funext k; rw [W_add_apply]; show a k ^^^ a k = 0; exact BitVec.xor_self
  nsmul := nsmulRec
  zsmul := zsmulRec

theorem W_two (a : W) : a + a = 0 := by
  funext k; rw [W_add_apply]; exact BitVec.xor_self

instance : Module (ZMod 2) W := AddCommGroup.zmodModule fun a => by rw [two_nsmul, W_two]

theorem xl_add (k : ℕ) (x y : BitVec 32) : xl k (x ^^^ y) = xl k x ^^^ xl k y := by
  unfold xl
  rw [BitVec.shiftLeft_xor_distrib]
  ac_rfl

theorem xr_add (k : ℕ) (x y : BitVec 32) : xr k (x ^^^ y) = xr k x ^^^ xr k y := by
  unfold xr
  rw [BitVec.ushiftRight_xor_distrib]
  ac_rfl

theorem nxt_add (a b : W) : nxt (a + b) = nxt a + nxt b := by
  funext k
  rw [W_add_apply]
  simp only [nxt, W_add_apply, xl_add, xr_add]
  split
  · ac_rfl
  · split
    · ac_rfl
    · rfl

/-- A draw as a linear map. -/
def L : Module.End (ZMod 2) W :=
  AddMonoidHom.toZModLinearMap 2 ⟨⟨nxt, by
    have := nxt_add 0 0
    rw [add_zero] at this
    exact left_eq_add.1 this⟩, nxt_add⟩

theorem L_apply (a : W) : L a = nxt a := rfl

theorem L_pow_apply (n : ℕ) (a : W) : (L ^ n) a = nxt^[n] a := by
  rw [Module.End.pow_apply]; rfl

/-! ### The polynomial of degree 1024 at one state, by computation -/

/-- The state of which only the last bit of the current word is set. -/
def v0 : W := fun k => if k = 0 then 1 else 0

theorem v0_ne : v0 ≠ 0 := by
  intro h; exact absurd (congrFun h 0) (by decide)

/-- Calls `f` with the value of `n`, which is computed first. -/
def force {α : Type} (n : ℕ) (f : ℕ → α) : α := Nat.rec (f 0) (fun k _ => f (k + 1)) n

theorem force_eq {α : Type} (n : ℕ) (f : ℕ → α) : force n f = f n := by cases n <;> rfl

/-- The words given by a list of numbers. -/
def dec (l : List ℕ) : W := fun k => BitVec.ofNat 32 (l.getD k.val 0)

def xlN (k x : ℕ) : ℕ := x ^^^ (x <<< k)

/-- `nxt` on lists. -/
def stepL (l : List ℕ) : List ℕ :=
  let l3 := l.getD 3 0 % 2 ^ 32
  let z1 := l.getD 0 0 ^^^ (l3 ^^^ (l3 >>> 8))
  let z2 := xlN 19 (l.getD 24 0) ^^^ xlN 14 (l.getD 10 0)
  force ((xlN 11 (l.getD 31 0) ^^^ xlN 7 z1 ^^^ xlN 13 z2) % 2 ^ 32) fun a =>
    force ((z1 ^^^ z2) % 2 ^ 32) fun b => a :: b :: l.tail

theorem ofNat_xor (a b : ℕ) : BitVec.ofNat 32 (a ^^^ b) = BitVec.ofNat 32 a ^^^ BitVec.ofNat 32 b := by
  apply BitVec.eq_of_getLsbD_eq
  intro i hi
  simp [hi]

theorem ofNat_mod (a : ℕ) : BitVec.ofNat 32 (a % 2 ^ 32) = BitVec.ofNat 32 a := by
  apply BitVec.eq_of_toNat_eq
  simp [BitVec.toNat_ofNat]

theorem ofNat_xl (k a : ℕ) : BitVec.ofNat 32 (xlN k a) = xl k (BitVec.ofNat 32 a) := by
  rw [xlN, ofNat_xor, xl]
  congr 1
  apply BitVec.eq_of_getLsbD_eq
  intro i hi
  simp only [BitVec.getLsbD_ofNat, BitVec.getLsbD_shiftLeft, Nat.testBit_shiftLeft, hi,
    decide_true, Bool.true_and]
  by_cases h : i < k
  · simp [h]
  · have h1 : i - k < 32 := by omega
    have h2 : k ≤ i := by omega
    simp [h, h1, h2]

theorem ofNat_shr (k a : ℕ) :
    BitVec.ofNat 32 ((a % 2 ^ 32) >>> k) = BitVec.ofNat 32 a >>> k := by
  apply BitVec.eq_of_toNat_eq
  rw [BitVec.toNat_ushiftRight, BitVec.toNat_ofNat, BitVec.toNat_ofNat]
  apply Nat.mod_eq_of_lt
  exact lt_of_le_of_lt (Nat.shiftRight_le _ _) (Nat.mod_lt _ (by decide))

theorem dec_stepL (l : List ℕ) : dec (stepL l) = nxt (dec l) := by
  unfold stepL
  simp only [force_eq]
  funext k
  have hz1 : BitVec.ofNat 32 (l.getD 0 0 ^^^ (l.getD 3 0 % 2 ^ 32 ^^^ (l.getD 3 0 % 2 ^ 32) >>> 8))
      = dec l 0 ^^^ xr 8 (dec l 3) := by
    rw [ofNat_xor, ofNat_xor, ofNat_mod, ofNat_shr]; rfl
  have hz2 : BitVec.ofNat 32 (xlN 19 (l.getD 24 0) ^^^ xlN 14 (l.getD 10 0))
      = xl 19 (dec l 24) ^^^ xl 14 (dec l 10) := by
    rw [ofNat_xor, ofNat_xl, ofNat_xl]; rfl
  generalize l.getD 0 0 ^^^ (l.getD 3 0 % 2 ^ 32 ^^^ (l.getD 3 0 % 2 ^ 32) >>> 8) = z1 at *
  generalize xlN 19 (l.getD 24 0) ^^^ xlN 14 (l.getD 10 0) = z2 at *
  unfold nxt
  simp only
  rw [← hz1, ← hz2]
  by_cases h0 : k = 0
  · subst h0
    rw [if_pos rfl]
    show BitVec.ofNat 32 ((xlN 11 (l.getD 31 0) ^^^ xlN 7 z1 ^^^ xlN 13 z2) % 2 ^ 32) = _
    rw [ofNat_mod, ofNat_xor, ofNat_xor, ofNat_xl, ofNat_xl, ofNat_xl]; rfl
  · rw [if_neg h0]
    by_cases h1 : k = 1
    · subst h1
      rw [if_pos rfl]
      show BitVec.ofNat 32 ((z1 ^^^ z2) % 2 ^ 32) = _
      rw [ofNat_mod, ofNat_xor]
    · rw [if_neg h1]
      unfold dec
      obtain ⟨j, hj⟩ : ∃ j, k.val = j + 2 := ⟨k.val - 2, by omega⟩
      have hj' : (k - 1).val = j + 1 := by omega
      rw [hj, hj']
      congr 1
      cases l <;> simp

/-- Adds the last bit of `b` to the last bit of the first word. -/
def bitL (b : ℕ) (l : List ℕ) : List ℕ :=
  bif Nat.beq (b % 2) 1 then (l.headD 0 ^^^ 1) :: l.tail else l

theorem dec_bitL (b : ℕ) (l : List ℕ) : dec (bitL b l) = ((b : ℕ) : ZMod 2) • v0 + dec l := by
  unfold bitL
  rcases h : Nat.beq (b % 2) 1 with _ | _
  · have h' : b % 2 = 0 := by
      have : b % 2 ≠ 1 := by intro hc; rw [hc] at h; exact absurd h (by decide)
      omega
    have : ((b : ℕ) : ZMod 2) = 0 := by
      rw [← ZMod.natCast_mod, h']; rfl
    rw [this, zero_smul, zero_add]; rfl
  · have h' : b % 2 = 1 := Nat.eq_of_beq_eq_true h
    have : ((b : ℕ) : ZMod 2) = 1 := by
      rw [← ZMod.natCast_mod, h']; rfl
    rw [this, one_smul]
    funext k
    rw [W_add_apply, cond_true]
    unfold dec v0
    by_cases h0 : k = 0
    · subst h0
      rw [if_pos rfl]
      show BitVec.ofNat 32 (l.headD 0 ^^^ 1) = _
      rw [ofNat_xor, BitVec.xor_comm]
      cases l <;> rfl
    · obtain ⟨j, hj⟩ : ∃ j, k.val = j + 1 := ⟨k.val - 1, by omega⟩
      rw [if_neg h0, hj, show (0 : BitVec 32) = 0#32 from rfl, BitVec.zero_xor]
      congr 1
      cases l <;> simp

/-- The polynomial coded by the last `j` digits of `n` in the linear map of a draw, applied to
`v0`, starting from the words `w`. -/
def hor (n : ℕ) : ℕ → List ℕ → List ℕ
  | 0, w => w
  | j + 1, w =>
    match bitL (n / 4096 ^ j) (stepL w) with
    | [] => hor n j []
    | a :: t => hor n j (a :: t)

theorem dec_nil : dec [] = 0 := rfl

theorem hor_succ (n j : ℕ) (w : List ℕ) :
    hor n (j + 1) w = hor n j (bitL (n / 4096 ^ j) (stepL w)) := by
  rw [hor]
  split <;> rename_i h <;> rw [h]

theorem dec_hor (n j : ℕ) : ∀ w, dec (hor n j w) =
    (L ^ j) (dec w) + aeval L (WellPoly.K (n % 4096 ^ j)) v0 := by
  induction j with
  | zero =>
    intro w
    rw [hor, Nat.pow_zero, Nat.mod_one, WellPoly.K_zero, map_zero, pow_zero]
    simp
  | succ j ih =>
    intro w
    rw [hor_succ, ih, dec_bitL, dec_stepL, ← L_apply, map_add, map_smul, ← Module.End.mul_apply,
      ← pow_succ, WellPoly.K_top n j, map_add, map_mul, map_pow, aeval_X, aeval_C,
      LinearMap.add_apply, Module.End.mul_apply, Module.algebraMap_end_apply]
    abel

/-- The words of the list are zero. -/
def zeroL (l : List ℕ) : Bool := (List.range 32).all fun k => Nat.beq (l.getD k 0 % 2 ^ 32) 0

theorem dec_zeroL (l : List ℕ) (h : zeroL l = true) : dec l = 0 := by
  funext k
  unfold zeroL at h
  rw [List.all_eq_true] at h
  have := Nat.eq_of_beq_eq_true (h k.val (List.mem_range.2 k.isLt))
  rw [dec, ← ofNat_mod, this, W_zero_apply]; rfl

theorem hor_PK : zeroL (hor WellPoly.PK 1025 []) = true := by decide +kernel

theorem P_v0 : aeval L (WellPoly.K WellPoly.PK) v0 = 0 := by
  have h := dec_hor WellPoly.PK 1025 []
  rw [dec_zeroL _ hor_PK, dec_nil, map_zero, zero_add] at h
  have hm : WellPoly.PK % 4096 ^ 1025 = WellPoly.PK := by decide +kernel
  rw [hm] at h
  exact h.symm

/-! ### The order of a draw at that state -/

/-- The number of states that are not zero. -/
def N : ℕ := 2 ^ 1024 - 1

theorem N_pos : 0 < N := by decide +kernel

/-- Whether `X^(N/p) + 1` has an inverse modulo the polynomial, by computation. -/
def chkP (p : ℕ) : Bool :=
  match WellPoly.powP 1026 4096 (N / p) with
  | none => false
  | some r =>
    Nat.blt ((r + 1) &&& WellPoly.msk) WellPoly.BK &&
      match WellPoly.powP 1026 ((r + 1) &&& WellPoly.msk) N with
      | none => false
      | some t => Nat.beq t 1

theorem chkP_all : WellPrimes.factors.all chkP = true := by decide +kernel

theorem pow_N : WellPoly.powP 1026 4096 N = some 1 := by decide +kernel

theorem Good_X : WellPoly.Good 4096 := by
  refine ⟨?_, by decide +kernel⟩
  have : (4096 : ℕ) = 4096 * 1 := by decide
  rw [this]; exact WellPoly.D_mulB WellPoly.Good_one.1

end Spectre.Well
