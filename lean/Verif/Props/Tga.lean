import Verif.Model.Tga
import Verif.Props.Bmp

/-
C40, C41: TGA files.
-/

namespace Spectre.Tga

open Spectre.Img

/-! ### Safety -/

/-- Rows left. -/
def rl (c : Cfg) (y : Int) : Int := if c.down then c.h - y else y + 1

theorem rl_zero (c : Cfg) (y : Int) : rl c y = 0 ↔ y = c.ymax := by
  unfold rl Cfg.ymax; split <;> omega

theorem rl_step (c : Cfg) (y : Int) : rl c (y + c.inc) = rl c y - 1 := by
  unfold rl Cfg.inc; split <;> omega

theorem rl_range (c : Cfg) (y : Int) : (0 ≤ y ∧ y < c.h) ↔ (1 ≤ rl c y ∧ rl c y ≤ c.h) := by
  unfold rl; split <;> omega

theorem rl_last (c : Cfg) : rl c (c.ymax - c.inc) = 1 := by
  unfold rl Cfg.ymax Cfg.inc; split <;> omega

theorem rl_inj (c : Cfg) {y y' : Int} (h : rl c y = rl c y') : y = y' := by
  unfold rl at h; split at h <;> omega

/-- Index arithmetic: a position in a row is a position in the buffer. -/
theorem index_bound {y x : Int} {w h : Nat} (h0 : 0 ≤ y) (h1 : y < h) (h2 : 0 ≤ x) (h3 : x < w) :
    0 ≤ y * w + x ∧ y * w + x < (w * h : Nat) := by
  have a : 0 ≤ y * w := Int.mul_nonneg h0 (by omega)
  have b : (y + 1) * w ≤ h * w := Int.mul_le_mul_of_nonneg_right (by omega) (by omega)
  have e : (y + 1) * (w : Int) = y * w + w := by ring
  push_cast
  have e2 : (h : Int) * w = w * h := by ring
  omega

/-- In the image, in a row. -/
def InRow (c : Cfg) (st : St) : Prop :=
  0 ≤ st.y ∧ st.y < c.h ∧ 0 ≤ st.x ∧ st.x < c.w ∧ st.i = st.y * c.w + st.x

/-- Past the last pixel, inside of a run that is too long. -/
def Over (c : Cfg) (m : Nat) (st : St) : Prop :=
  st.y = c.ymax - c.inc ∧ st.x = c.w + m ∧ st.i = st.y * c.w + m

theorem runLoop_over (c : Cfg) (p : Pixel) : ∀ (n m : Nat) (st : St), Over c m st → 0 ≤ st.y →
    st.y * c.w + m + n ≤ (c.w * c.h : Nat) →
    ∃ st', runLoop c p n st = .ok st' ∧ Over c (m + n) st' ∧ st'.rest = st.rest := by
  intro n
  induction n with
  | zero => intro m st h _ _; exact ⟨st, rfl, h, rfl⟩
  | succ n ih =>
    intro m st ⟨h1, h2, h3⟩ h0 hb
    have hnn : 0 ≤ st.y * (c.w : Int) := Int.mul_nonneg h0 (by omega)
    have hs : store c st p = .ok { st with buf := fun k => if (k : Int) = st.i then p else st.buf k } := by
      unfold store
      rw [if_pos (by push_cast at hb ⊢; omega)]
    rw [runLoop, hs]
    simp only
    rw [wrap, if_neg (by simp [bump]; omega)]
    obtain ⟨st', e, ho, hr⟩ := ih (m + 1)
      (bump { st with buf := fun k => if (k : Int) = st.i then p else st.buf k })
      ⟨h1, by simp [bump]; omega, by simp [bump]; omega⟩ h0 (by simp [bump]; push_cast at hb ⊢; omega)
    exact ⟨st', e, by rw [show m + (n + 1) = m + 1 + n by omega]; exact ho, hr⟩

/-- Between packets. -/
def Ready (c : Cfg) (st : St) : Prop := 0 ≤ st.y ∧ st.y < c.h ∧ ((c.w : Int) ≤ st.x ∨ InRow c st)

theorem runLoop_safe (c : Cfg) (p : Pixel) : ∀ (n : Nat) (st : St), InRow c st →
    (c.ymax - c.inc) * c.w + (n - 1 : Nat) ≤ (c.w * c.h : Nat) →
    ∃ st', runLoop c p n st = .ok st' ∧ Ready c st' ∧ st'.rest = st.rest ∧ rl c st'.y ≤ rl c st.y := by
  intro n
  induction n with
  | zero => intro st h _; exact ⟨st, rfl, ⟨h.1, h.2.1, Or.inr h⟩, rfl, le_refl _⟩
  | succ n ih =>
    intro st hin hb
    obtain ⟨h0, h1, h2, h3, h4⟩ := hin
    obtain ⟨i0, i1⟩ := index_bound h0 h1 h2 h3
    have hs : store c st p = .ok { st with buf := fun k => if (k : Int) = st.i then p else st.buf k } := by
      unfold store
      rw [if_pos (by rw [h4]; exact ⟨i0, i1⟩)]
    rw [runLoop, hs]
    simp only
    have hb' : (c.ymax - c.inc) * c.w + (n - 1 : Nat) ≤ (c.w * c.h : Nat) := by
      have : ((n - 1 : Nat) : Int) ≤ ((n + 1 - 1 : Nat) : Int) := by omega
      omega
    unfold wrap
    by_cases hx : st.x + 1 = c.w
    · rw [if_pos (by simpa [bump] using hx)]
      by_cases hy : st.y + c.inc = c.ymax
      · rw [if_pos (by simpa [bump] using hy)]
        have hy' : c.ymax - c.inc = st.y := by omega
        obtain ⟨st', e, ho, hr⟩ := runLoop_over c p n 0
          { bump { st with buf := fun k => if (k : Int) = st.i then p else st.buf k } with
            y := c.ymax - c.inc, x := c.w, i := (c.ymax - c.inc) * c.w }
          ⟨rfl, by simp, by simp⟩ (by simp only; omega) (by simp only; simp at hb; omega)
        refine ⟨st', e, ⟨?_, ?_, Or.inl ?_⟩, hr, ?_⟩
        · rw [ho.1]; omega
        · rw [ho.1]; omega
        · rw [ho.2.1]; omega
        · rw [ho.1, hy']
      · rw [if_neg (by simpa [bump] using hy)]
        have hr1 := (rl_range c st.y).1 ⟨h0, h1⟩
        have hr2 := rl_step c st.y
        have hr3 : rl c (st.y + c.inc) ≠ 0 := by rw [Ne, rl_zero]; exact hy
        have hr4 := (rl_range c (st.y + c.inc)).2 ⟨by omega, by omega⟩
        obtain ⟨st', e, hR, hrest, hrl⟩ := ih
          { bump { st with buf := fun k => if (k : Int) = st.i then p else st.buf k } with
            y := st.y + c.inc, x := 0, i := (st.y + c.inc) * c.w }
          ⟨hr4.1, hr4.2, le_refl _, by simp only; omega, by simp⟩ hb'
        exact ⟨st', e, hR, hrest, by simp only at hrl; omega⟩
    · rw [if_neg (by simpa [bump] using hx)]
      obtain ⟨st', e, hR, hrest, hrl⟩ := ih
        (bump { st with buf := fun k => if (k : Int) = st.i then p else st.buf k })
        ⟨h0, h1, by simp [bump]; omega, by simp [bump]; omega, by simp [bump]; omega⟩ hb'
      exact ⟨st', e, hR, hrest, hrl⟩

theorem runLen_le (b : Byte) : 1 ≤ runLen b ∧ runLen b ≤ 128 := by
  unfold runLen
  have : (b &&& 0x7F#8).toNat ≤ 127 := by
    rw [BitVec.toNat_and]
    exact Nat.and_le_right
  omega

/-- The sizes for which a run that is too long stays in the buffer. -/
def Roomy (c : Cfg) : Prop := (c.ymax - c.inc) * c.w + 127 ≤ (c.w * c.h : Nat)

theorem packet_safe (c : Cfg) (px : List Byte) (st : St) (hin : InRow c st) (hr : c.compressed = false ∨ Roomy c) :
    ∃ st', packet c px st = .ok st' ∧ Ready c st' ∧ st'.rest = st.rest ∧ rl c st'.y ≤ rl c st.y := by
  have plain : ∀ p, ∃ st', (store c st p).map bump = .ok st' ∧ Ready c st' ∧ st'.rest = st.rest ∧
      rl c st'.y ≤ rl c st.y := by
    intro p
    obtain ⟨h0, h1, h2, h3, h4⟩ := hin
    obtain ⟨i0, i1⟩ := index_bound h0 h1 h2 h3
    have hs : store c st p = .ok { st with buf := fun k => if (k : Int) = st.i then p else st.buf k } := by
      unfold store
      rw [if_pos (by rw [h4]; exact ⟨i0, i1⟩)]
    refine ⟨bump { st with buf := fun k => if (k : Int) = st.i then p else st.buf k }, by rw [hs]; rfl,
      ⟨h0, h1, ?_⟩, rfl, le_refl _⟩
    by_cases hx : st.x + 1 = c.w
    · left; simp [bump]; omega
    · right; exact ⟨h0, h1, by simp [bump]; omega, by simp [bump]; omega, by simp [bump]; omega⟩
  unfold packet
  by_cases hc : c.compressed = true
  · rw [if_pos hc]
    split
    · have hR : Roomy c := by
        rcases hr with h | h
        · rw [hc] at h; cases h
        · exact h
      apply runLoop_safe c _ _ st hin
      have := runLen_le (px.getD 0 0)
      unfold Roomy at hR
      have h127 : ((runLen (px.getD 0 0) - 1 : Nat) : Int) ≤ 127 := by omega
      omega
    · exact plain _
  · rw [if_neg hc]
    exact plain _

theorem loop_safe (c : Cfg) (hch : 1 ≤ c.chunk) (hr : c.compressed = false ∨ Roomy c) :
    ∀ (fuel : Nat) (st : St), (st.y = c.ymax ∨ Ready c st) → st.rest.length + rl c st.y < fuel →
    ∃ st', loop c fuel st = .ok st' := by
  intro fuel
  induction fuel with
  | zero =>
    intro st h hf
    exfalso
    rcases h with h | h
    · have := (rl_zero c st.y).2 h; omega
    · have := (rl_range c st.y).1 ⟨h.1, h.2.1⟩; omega
  | succ fuel ih =>
    intro st h hf
    rw [loop]
    by_cases hy : st.y = c.ymax
    · rw [if_pos hy]; exact ⟨st, rfl⟩
    rw [if_neg hy]
    have hR : Ready c st := h.resolve_left hy
    by_cases hx : st.x < c.w ∧ c.chunk ≤ st.rest.length
    · rw [if_pos hx]
      have hin : InRow c st := hR.2.2.resolve_left (by omega)
      obtain ⟨st', e, hR', hrest, hrl⟩ := packet_safe c (st.rest.take c.chunk)
        { st with rest := st.rest.drop c.chunk } hin hr
      rw [e]
      simp only
      apply ih st' (Or.inr hR')
      rw [hrest]
      simp only [List.length_drop]
      simp only at hrl
      omega
    · rw [if_neg hx]
      have h1 := (rl_range c st.y).1 ⟨hR.1, hR.2.1⟩
      have h2 := rl_step c st.y
      apply ih
      · by_cases h3 : rl c (st.y + c.inc) = 0
        · left; exact (rl_zero c _).1 h3
        · right
          have h4 := (rl_range c (st.y + c.inc)).2 ⟨by omega, by omega⟩
          refine ⟨h4.1, h4.2, ?_⟩
          by_cases hw : c.w = 0
          · left; simp [hw]
          · right; exact ⟨h4.1, h4.2, le_refl _, by simp only; omega, by simp⟩
      · simp only; omega

theorem cfg_chunk (f : List Byte) (h : validHeader f = true) : 1 ≤ (cfg f).chunk := by
  unfold validHeader at h
  simp only [Bool.and_eq_true, Bool.or_eq_true, beq_iff_eq] at h
  obtain ⟨⟨⟨⟨-, -⟩, hb⟩, -⟩, -⟩ := h
  have : 1 ≤ (cfg f).bpp := by
    unfold cfg
    simp only
    rcases hb with ((h | h) | h) | h <;> rw [h] <;> decide
  unfold Cfg.chunk
  omega

theorem roomy_iff (c : Cfg) : Roomy c ↔ (c.down = true ∧ 127 ≤ c.w) ∨ (c.down = false ∧ 127 ≤ c.w * c.h) := by
  unfold Roomy Cfg.ymax Cfg.inc
  cases c.down
  · simp; omega
  · simp
    have : ((c.h : Int) - 1) * c.w = c.w * c.h - c.w := by ring
    rw [this]
    omega

/-! ### Decoding -/

/-- Row of the buffer of the `j`-th row of the file. -/
def row (c : Cfg) (j : Nat) : Int := if c.down then j else c.h - 1 - j

/-- Place in the buffer of the `k`-th pixel of the file. -/
def pos (c : Cfg) (k : Nat) : Int := row c (k / c.w) * c.w + (k % c.w : Nat)

theorem row_rl (c : Cfg) (j : Nat) : rl c (row c j) = c.h - j := by
  unfold rl row; split <;> omega

theorem row_next (c : Cfg) (j : Nat) : row c j + c.inc = row c (j + 1) := by
  unfold row Cfg.inc; split <;> push_cast <;> omega

theorem row_ymax (c : Cfg) : row c c.h = c.ymax := by
  unfold row Cfg.ymax; split <;> omega

theorem row_zero (c : Cfg) : row c 0 = c.y0 := by
  unfold row Cfg.y0; split <;> simp

theorem row_range (c : Cfg) (j : Nat) (h : j < c.h) : 0 ≤ row c j ∧ row c j < c.h := by
  unfold row; split <;> omega

theorem row_ne_ymax (c : Cfg) (j : Nat) (h : j < c.h) : row c j ≠ c.ymax := by
  unfold row Cfg.ymax; split <;> omega

theorem div_lt {k w h : Nat} (hk : k < w * h) : k / w < h := Nat.div_lt_of_lt_mul hk

theorem w_pos {k w h : Nat} (hk : k < w * h) : 0 < w := by
  rcases Nat.eq_zero_or_pos w with h0 | h0
  · subst h0; simp at hk
  · exact h0

theorem pos_range (c : Cfg) (k : Nat) (hk : k < c.w * c.h) : 0 ≤ pos c k ∧ pos c k < (c.w * c.h : Nat) := by
  obtain ⟨h0, h1⟩ := row_range c (k / c.w) (div_lt hk)
  exact index_bound h0 h1 (by omega) (by have := Nat.mod_lt k (w_pos hk); omega)

theorem pos_inj (c : Cfg) (k k' : Nat) (hk : k < c.w * c.h) (hk' : k' < c.w * c.h) (h : pos c k = pos c k') :
    k = k' := by
  have hw := w_pos hk
  obtain ⟨a0, a1⟩ := row_range c (k / c.w) (div_lt hk)
  obtain ⟨b0, b1⟩ := row_range c (k' / c.w) (div_lt hk')
  have m1 := Nat.mod_lt k hw
  have m2 := Nat.mod_lt k' hw
  unfold pos at h
  have e : ∀ (y : Int) (r : Nat), r < c.w → (y * c.w + (r : Nat)) / (c.w : Int) = y := by
    intro y r hr
    rw [Int.add_comm, Int.add_mul_ediv_right _ _ (by omega), Int.ediv_eq_zero_of_lt (by omega) (by omega)]
    omega
  have hrow : row c (k / c.w) = row c (k' / c.w) := by
    rw [← e (row c (k / c.w)) _ m1, ← e (row c (k' / c.w)) _ m2, h]
  have hdiv : k / c.w = k' / c.w := by
    unfold row at hrow; split at hrow <;> omega
  have hmod : k % c.w = k' % c.w := by
    rw [hrow] at h; omega
  rw [← Nat.div_add_mod k c.w, ← Nat.div_add_mod k' c.w, hdiv, hmod]

/-- The next pixel: in the same row or at the start of the next one. -/
theorem next_pixel (k w : Nat) (hw : 0 < w) :
    (k % w + 1 < w ∧ (k + 1) / w = k / w ∧ (k + 1) % w = k % w + 1) ∨
    (k % w + 1 = w ∧ (k + 1) / w = k / w + 1 ∧ (k + 1) % w = 0) := by
  have hm := Nat.mod_lt k hw
  have hd := Nat.div_add_mod k w
  by_cases h : k % w + 1 < w
  · left
    have e : k + 1 = w * (k / w) + (k % w + 1) := by omega
    refine ⟨h, ?_, ?_⟩
    · conv_lhs => rw [e]
      rw [Nat.mul_add_div hw, Nat.div_eq_of_lt h]; rfl
    · conv_lhs => rw [e]
      rw [Nat.mul_add_mod, Nat.mod_eq_of_lt h]
  · right
    have e : k + 1 = w * (k / w + 1) := by rw [Nat.mul_succ]; omega
    refine ⟨by omega, ?_, ?_⟩
    · conv_lhs => rw [e]
      rw [Nat.mul_div_cancel_left _ hw]
    · conv_lhs => rw [e]
      rw [Nat.mul_mod_right]

/-- The first `k` pixels of `ps` are in their places. -/
def Holds (c : Cfg) (ps : Nat → Pixel) (k : Nat) (buf : Nat → Pixel) : Prop :=
  ∀ j < k, ∀ idx : Nat, (idx : Int) = pos c j → buf idx = ps j

/-- About to write pixel `k`. -/
structure At (c : Cfg) (k : Nat) (st : St) : Prop where
  lt : k < c.w * c.h
  written : st.written = k
  x : st.x = (k % c.w : Nat)
  y : st.y = row c (k / c.w)
  i : st.i = pos c k

/-- At the end of a row, `k` pixels written. -/
structure EndRow (c : Cfg) (k : Nat) (st : St) : Prop where
  pos : 0 < k
  le : k ≤ c.w * c.h
  mod : k % c.w = 0
  written : st.written = k
  x : st.x = c.w
  y : st.y = row c (k / c.w) - c.inc

theorem store_at (c : Cfg) (ps : Nat → Pixel) (k : Nat) (st : St) (h : At c k st) (hh : Holds c ps k st.buf)
    (p : Pixel) (hp : ps k = p) :
    ∃ b, store c st p = .ok { st with buf := b } ∧ Holds c ps (k + 1) b := by
  obtain ⟨r0, r1⟩ := pos_range c k h.lt
  refine ⟨fun k => if (k : Int) = st.i then p else st.buf k, ?_, ?_⟩
  · unfold store
    rw [if_pos (by rw [h.i]; exact ⟨r0, r1⟩)]
  · intro j hj idx hidx
    simp only
    rw [h.i]
    by_cases hjk : j = k
    · subst hjk
      rw [if_pos hidx, hp]
    · rw [if_neg]
      · exact hh j (by omega) idx hidx
      · intro e
        exact hjk (pos_inj c j k (by have := h.lt; omega) h.lt (by rw [← hidx, e]))

/-- After one pixel. -/
theorem bump_at (c : Cfg) (k : Nat) (st : St) (h : At c k st) (b : Nat → Pixel) :
    At c (k + 1) (bump { st with buf := b }) ∨ EndRow c (k + 1) (bump { st with buf := b }) := by
  have hw := w_pos h.lt
  have hlt := h.lt
  rcases next_pixel k c.w hw with ⟨h1, h2, h3⟩ | ⟨h1, h2, h3⟩
  · left
    have : k + 1 < c.w * c.h := by
      have hd := Nat.div_add_mod k c.w
      have hq := div_lt h.lt
      have : c.w * (k / c.w + 1) ≤ c.w * c.h := Nat.mul_le_mul_left _ hq
      rw [Nat.mul_succ] at this
      omega
    refine ⟨this, by simp [bump, h.written], ?_, ?_, ?_⟩
    · simp only [bump, h.x, h3]; push_cast; ring
    · simp only [bump, h.y, h2]
    · simp only [bump, h.i, pos, h2, h3]; push_cast; ring
  · right
    refine ⟨by omega, by omega, h3, by simp [bump, h.written], ?_, ?_⟩
    · simp only [bump, h.x]; omega
    · simp only [bump, h.y, h2]
      have := row_next c (k / c.w)
      omega

/-- After one pixel of a run. -/
theorem wrap_at (c : Cfg) (k : Nat) (st : St) (h : At c k st ∨ EndRow c k st) :
    (k < c.w * c.h → At c k (wrap c st)) ∧ (k = c.w * c.h → EndRow c k (wrap c st)) := by
  rcases h with h | h
  · refine ⟨fun _ => ?_, fun e => absurd h.lt (by omega)⟩
    unfold wrap
    rw [if_neg]
    · exact h
    · rw [h.x]
      have := Nat.mod_lt k (w_pos h.lt)
      omega
  · have hk : k = c.w * (k / c.w) := by
      have := Nat.div_add_mod k c.w
      rw [h.mod] at this
      omega
    have hw : 0 < c.w := by
      rcases Nat.eq_zero_or_pos c.w with h0 | h0
      · have := h.pos; rw [h0] at hk; simp at hk; omega
      · exact h0
    constructor
    · intro hlt
      unfold wrap
      rw [if_pos h.x, if_neg]
      · refine ⟨hlt, h.written, by rw [h.mod]; rfl, ?_, ?_⟩
        · simp only [h.y]; omega
        · simp only [h.y, pos, h.mod]
          rw [Int.sub_add_cancel]
          simp
      · rw [h.y, Int.sub_add_cancel]
        exact row_ne_ymax c _ (div_lt hlt)
    · intro he
      have hq : k / c.w = c.h := by
        rw [he, Nat.mul_div_cancel_left _ hw]
      have hym : row c (k / c.w) = c.ymax := by rw [hq, row_ymax]
      unfold wrap
      rw [if_pos h.x, if_pos (by rw [h.y, hym]; omega)]
      exact ⟨h.pos, h.le, h.mod, h.written, rfl, by simp only [hym]⟩

/-- Between packets, `k` pixels done. -/
def Mid (c : Cfg) (ps : Nat → Pixel) (k : Nat) (st : St) : Prop :=
  Holds c ps k st.buf ∧ (At c k st ∨ EndRow c k st)

theorem runLoop_at (c : Cfg) (ps : Nat → Pixel) (p : Pixel) : ∀ (n k : Nat) (st : St), At c k st →
    Holds c ps k st.buf → k + (n + 1) ≤ c.w * c.h → (∀ j, k ≤ j → j < k + (n + 1) → ps j = p) →
    ∃ st', runLoop c p (n + 1) st = .ok st' ∧ Mid c ps (k + (n + 1)) st' ∧ st'.rest = st.rest := by
  intro n
  induction n with
  | zero =>
    intro k st h hh hk hp
    obtain ⟨b, e, hb⟩ := store_at c ps k st h hh p (hp k (le_refl _) (by omega))
    have h2 := wrap_at c (k + 1) _ (bump_at c k st h b)
    refine ⟨wrap c (bump { st with buf := b }), by rw [runLoop, e]; rfl, ⟨?_, ?_⟩, ?_⟩
    · have : (wrap c (bump { st with buf := b })).buf = b := by
        unfold wrap; split
        · split <;> rfl
        · rfl
      rw [this]; exact hb
    · by_cases hlt : k + 1 < c.w * c.h
      · exact Or.inl (h2.1 hlt)
      · exact Or.inr (h2.2 (by omega))
    · unfold wrap; split
      · split <;> rfl
      · rfl
  | succ n ih =>
    intro k st h hh hk hp
    obtain ⟨b, e, hb⟩ := store_at c ps k st h hh p (hp k (le_refl _) (by omega))
    have h2 := (wrap_at c (k + 1) _ (bump_at c k st h b)).1 (by omega)
    have hbuf : (wrap c (bump { st with buf := b })).buf = b := by
      unfold wrap; split
      · split <;> rfl
      · rfl
    have hrest : (wrap c (bump { st with buf := b })).rest = st.rest := by
      unfold wrap; split
      · split <;> rfl
      · rfl
    obtain ⟨st', e', hm, hr⟩ := ih (k + 1) _ h2 (by rw [hbuf]; exact hb) (by omega)
      (fun j h1 h2 => hp j (by omega) (by omega))
    refine ⟨st', by rw [runLoop, e]; exact e', ?_, by rw [hr, hrest]⟩
    rw [show k + (n + 1 + 1) = k + 1 + (n + 1) by omega]
    exact hm

/-- What one `fread` is expected to stand for: `n` times the pixel `p`. -/
structure Item where
  bytes : List Byte
  n : Nat
  p : Pixel

/-- The bytes of an item do that. -/
structure Item.Ok (c : Cfg) (it : Item) : Prop where
  len : it.bytes.length = c.chunk
  sem : (c.compressed = false ∧ it.n = 1 ∧ decodePixel c.bpp it.bytes = it.p) ∨
    (c.compressed = true ∧ it.bytes.getD 0 0 &&& 0x80#8 = 0#8 ∧ it.n = 1 ∧
      decodePixel c.bpp (it.bytes.drop 1) = it.p) ∨
    (c.compressed = true ∧ it.bytes.getD 0 0 &&& 0x80#8 ≠ 0#8 ∧ it.n = runLen (it.bytes.getD 0 0) ∧
      decodePixel c.bpp (it.bytes.drop 1) = it.p)

theorem Item.Ok.n_pos {c : Cfg} {it : Item} (h : it.Ok c) : 1 ≤ it.n := by
  rcases h.sem with ⟨_, h, _⟩ | ⟨_, _, h, _⟩ | ⟨_, _, h, _⟩
  · omega
  · omega
  · have := runLen_le (it.bytes.getD 0 0); omega

theorem packet_at (c : Cfg) (ps : Nat → Pixel) (it : Item) (hit : it.Ok c) (k : Nat) (st : St) (h : At c k st)
    (hh : Holds c ps k st.buf) (hk : k + it.n ≤ c.w * c.h) (hp : ∀ j, k ≤ j → j < k + it.n → ps j = it.p) :
    ∃ st', packet c it.bytes st = .ok st' ∧ Mid c ps (k + it.n) st' ∧ st'.rest = st.rest := by
  have plain : it.n = 1 → ∃ st', (store c st it.p).map bump = .ok st' ∧ Mid c ps (k + it.n) st' ∧
      st'.rest = st.rest := by
    intro hn
    obtain ⟨b, e, hb⟩ := store_at c ps k st h hh it.p (hp k (le_refl _) (by omega))
    refine ⟨bump { st with buf := b }, by rw [e]; rfl, ⟨by rw [hn]; exact hb, ?_⟩, rfl⟩
    rw [hn]
    exact bump_at c k st h b
  unfold packet
  rcases hit.sem with ⟨h1, h2, h3⟩ | ⟨h1, h2, h3, h4⟩ | ⟨h1, h2, h3, h4⟩
  · rw [if_neg (by rw [h1]; decide), h3]
    exact plain h2
  · rw [if_pos h1, if_neg (by simpa using h2), h4]
    exact plain h3
  · rw [if_pos h1, if_pos h2, h4, ← h3]
    obtain ⟨m, hm⟩ : ∃ m, it.n = m + 1 := ⟨it.n - 1, by have := hit.n_pos; omega⟩
    rw [hm] at hk hp ⊢
    exact runLoop_at c ps it.p m k st h hh hk hp

/-- The pixels that a list of items stands for. -/
def expand (l : List Item) : List Pixel := l.flatMap fun it => List.replicate it.n it.p

/-- Number of pixels and bytes. -/
theorem expand_cons (it : Item) (l : List Item) : expand (it :: l) = List.replicate it.n it.p ++ expand l := rfl

theorem mid_rl (c : Cfg) (ps : Nat → Pixel) (k : Nat) (st : St) (h : Mid c ps k st) :
    rl c st.y = c.h - (k / c.w : Nat) + (if st.x = c.w then 1 else 0) := by
  rcases h.2 with h | h
  · rw [h.y, row_rl, if_neg]
    · simp
    · rw [h.x]
      have := Nat.mod_lt k (w_pos h.lt)
      omega
  · rw [if_pos h.x]
    have := rl_step c st.y
    rw [h.y, Int.sub_add_cancel, row_rl] at this
    rw [h.y]
    omega

theorem loop_at (c : Cfg) (hch : 1 ≤ c.chunk) (ps : Nat → Pixel) (r : List Byte) :
    ∀ (fuel : Nat) (l : List Item) (k : Nat) (st : St), (∀ it ∈ l, it.Ok c) → Mid c ps k st →
    st.rest = l.flatMap Item.bytes ++ r → k + (expand l).length = c.w * c.h →
    (∀ j, (h : j < (expand l).length) → ps (k + j) = (expand l)[j]) →
    st.rest.length + rl c st.y < fuel →
    ∃ st', loop c fuel st = .ok st' ∧ Holds c ps (c.w * c.h) st'.buf ∧ st'.written = c.w * c.h := by
  intro fuel
  induction fuel with
  | zero =>
    intro l k st _ hm _ _ _ hf
    exfalso
    have h1 := mid_rl c ps k st hm
    rcases hm.2 with h | h
    · have := div_lt h.lt; split at h1 <;> omega
    · have : k / c.w ≤ c.h := Nat.div_le_of_le_mul h.le
      rw [if_pos h.x] at h1
      omega
  | succ fuel ih =>
    intro l k st hok hm hrest hlen hps hf
    rw [loop]
    have hrl := mid_rl c ps k st hm
    rcases hm.2 with h | h
    · -- a packet
      rw [if_neg (by rw [h.y]; exact row_ne_ymax c _ (div_lt h.lt))]
      match l with
      | [] => exact absurd hlen (by have := h.lt; simp [expand]; omega)
      | it :: l =>
        have hit := hok it (by simp)
        have hn := hit.n_pos
        have hxlt : st.x < c.w := by
          rw [h.x]
          have := Nat.mod_lt k (w_pos h.lt)
          omega
        simp only [List.flatMap_cons, List.append_assoc] at hrest
        rw [if_pos ⟨hxlt, by rw [hrest, List.length_append, hit.len]; omega⟩]
        have ht : st.rest.take c.chunk = it.bytes := by
          rw [hrest]; exact List.take_left' hit.len
        have hd : st.rest.drop c.chunk = l.flatMap Item.bytes ++ r := by
          rw [hrest]; exact List.drop_left' hit.len
        rw [ht, hd]
        rw [expand_cons, List.length_append, List.length_replicate] at hlen
        obtain ⟨st', e, hm', hr'⟩ := packet_at c ps it hit k { st with rest := l.flatMap Item.bytes ++ r }
          ⟨h.lt, h.written, h.x, h.y, h.i⟩ hm.1 (by omega) (by
            intro j h1 h2
            have hj : j - k < (expand (it :: l)).length := by
              rw [expand_cons, List.length_append, List.length_replicate]; omega
            have := hps (j - k) hj
            rw [show k + (j - k) = j by omega] at this
            rw [this]
            simp only [expand_cons]
            rw [List.getElem_append_left (by rw [List.length_replicate]; omega), List.getElem_replicate])
        rw [e]
        simp only
        apply ih l (k + it.n) st' (fun x hx => hok x (by simp [hx])) hm' hr' (by omega)
        · intro j hj
          have hj' : it.n + j < (expand (it :: l)).length := by
            rw [expand_cons, List.length_append, List.length_replicate]; omega
          have := hps (it.n + j) hj'
          rw [Nat.add_assoc, this]
          simp only [expand_cons]
          rw [List.getElem_append_right (by rw [List.length_replicate]; omega)]
          simp
        · have hrl' := mid_rl c ps (k + it.n) st' hm'
          rw [hr']
          simp only
          have hlen2 : st.rest.length = c.chunk + (l.flatMap Item.bytes ++ r).length := by
            rw [hrest, List.length_append, hit.len]
          have hle : st'.x ≠ c.w → rl c st'.y ≤ rl c st.y := by
            intro hne
            rw [if_neg hne] at hrl'
            have : k / c.w ≤ (k + it.n) / c.w := Nat.div_le_div_right (by omega)
            rw [hrl, hrl']
            split <;> omega
          have hle2 : st'.x = c.w → rl c st'.y ≤ rl c st.y := by
            intro heq
            rw [if_pos heq] at hrl'
            have hE : EndRow c (k + it.n) st' := by
              rcases hm'.2 with h' | h'
              · have := h'.x
                have := Nat.mod_lt (k + it.n) (w_pos h.lt)
                omega
              · exact h'
            have h1 : k / c.w + 1 ≤ (k + it.n) / c.w := by
              have hw := w_pos h.lt
              have h2 : k + it.n = c.w * ((k + it.n) / c.w) := by
                have := Nat.div_add_mod (k + it.n) c.w
                rw [hE.mod] at this
                omega
              apply Nat.succ_le_of_lt
              apply Nat.div_lt_of_lt_mul
              omega
            rw [hrl, hrl']
            split <;> omega
          by_cases hx : st'.x = c.w
          · have := hle2 hx; omega
          · have := hle hx; omega
    · -- end of a row
      have hx : ¬ (st.x < c.w ∧ c.chunk ≤ st.rest.length) := by rw [h.x]; omega
      have hw : 0 < c.w := by
        rcases Nat.eq_zero_or_pos c.w with h0 | h0
        · have h1 := h.pos; have h2 := h.le; rw [h0, Nat.zero_mul] at h2; omega
        · exact h0
      have hq : k / c.w ≤ c.h := Nat.div_le_of_le_mul h.le
      have hk : k = c.w * (k / c.w) := by
        have := Nat.div_add_mod k c.w
        rw [h.mod] at this
        omega
      rw [if_neg (by
        intro hy
        have := (rl_zero c st.y).2 hy
        rw [hrl, if_pos h.x] at this
        omega), if_neg hx]
      rw [if_pos h.x] at hrl
      have hy' : st.y + c.inc = row c (k / c.w) := by rw [h.y, Int.sub_add_cancel]
      rw [hy']
      by_cases hlt : k < c.w * c.h
      · apply ih l k { st with y := row c (k / c.w), i := row c (k / c.w) * c.w, x := 0 } hok ⟨hm.1, Or.inl ⟨hlt, h.written, by rw [h.mod]; rfl, rfl, by simp [pos, h.mod]⟩⟩ hrest hlen
          hps
        simp only [row_rl]
        omega
      · have he : k = c.w * c.h := by have := h.le; omega
        have hq' : k / c.w = c.h := by rw [he, Nat.mul_div_cancel_left _ hw]
        have hym : row c (k / c.w) = c.ymax := by rw [hq', row_ymax]
        obtain ⟨fuel, rfl⟩ : ∃ m, fuel = m + 1 := ⟨fuel - 1, by omega⟩
        rw [loop, if_pos hym]
        refine ⟨_, rfl, ?_, by simp only [h.written]; exact he⟩
        rw [← he]
        exact hm.1

/-- No pixels. -/
theorem loop_empty (c : Cfg) (h0 : c.w * c.h = 0) : ∀ (fuel : Nat) (st : St), 0 ≤ st.x → 0 ≤ rl c st.y →
    rl c st.y ≤ c.h → rl c st.y < fuel →
    ∃ st', loop c fuel st = .ok st' ∧ st'.written = st.written := by
  intro fuel
  induction fuel with
  | zero => intro st _ h _ h2; omega
  | succ fuel ih =>
    intro st hx h1 h2 h3
    rw [loop]
    by_cases hy : st.y = c.ymax
    · rw [if_pos hy]; exact ⟨st, rfl, rfl⟩
    · have hne : rl c st.y ≠ 0 := by rw [Ne, rl_zero]; exact hy
      have hw : c.w = 0 := by
        rcases Nat.mul_eq_zero.1 h0 with h | h
        · exact h
        · rw [h] at h2; omega
      rw [if_neg hy, if_neg (by rw [hw]; simp; omega)]
      have := rl_step c st.y
      obtain ⟨st', e, hwr⟩ := ih { st with y := st.y + c.inc, i := (st.y + c.inc) * c.w, x := 0 } (le_refl _)
        (by simp only; omega) (by simp only; omega) (by simp only; omega)
      exact ⟨st', e, hwr⟩

/-- Decoding of a file: header, identification field, items, anything. -/
theorem read_items (f : List Byte) (hv : validHeader f = true) (hov : (cfg f).w * (cfg f).h < 2 ^ 31)
    (l : List Item) (r : List Byte) (hok : ∀ it ∈ l, it.Ok (cfg f))
    (hf : f.drop (18 + (f.getD 0 0).toNat) = l.flatMap Item.bytes ++ r)
    (hlen : (expand l).length = (cfg f).w * (cfg f).h) (buf : Nat → Pixel) :
    ∃ buf', read f buf = .ok (true, buf') ∧
      ∀ j, (h : j < (expand l).length) → ∀ idx : Nat, (idx : Int) = pos (cfg f) j → buf' idx = (expand l)[j] := by
  have hch := cfg_chunk f hv
  unfold read
  rw [if_pos hv, if_neg (by omega)]
  have hrl0 : rl (cfg f) (cfg f).y0 = (cfg f).h := by
    rw [← row_zero, row_rl]; simp
  have hfl : (start f buf).rest.length ≤ f.length := by
    simp only [start, List.length_drop]; omega
  by_cases h0 : (cfg f).w * (cfg f).h = 0
  · obtain ⟨st', e, hw⟩ := loop_empty (cfg f) h0 (f.length + (cfg f).h + 1) (start f buf) (le_refl _)
      (by simp only [start, hrl0]; omega) (by simp only [start, hrl0]; omega) (by simp only [start, hrl0]; omega)
    rw [e]
    refine ⟨st'.buf, ?_, fun j hj => by omega⟩
    simp only [hw, start, h0, decide_true]
  · have hat : At (cfg f) 0 (start f buf) := by
      refine ⟨by omega, rfl, by simp [start], by simp [start, row_zero], by simp [start, pos, row_zero]⟩
    obtain ⟨st', e, hh, hw⟩ := loop_at (cfg f) hch (fun j => (expand l).getD j 0) r (f.length + (cfg f).h + 1) l 0
      (start f buf) hok ⟨fun j hj => by omega, Or.inl hat⟩ hf (by omega)
      (by intro j hj; simp [List.getD_eq_getElem?_getD, hj])
      (by simp only [start, hrl0] at hfl ⊢; omega)
    rw [e]
    refine ⟨st'.buf, ?_, ?_⟩
    · simp [hw]
    · intro j hj idx hidx
      rw [hh j (by omega) idx hidx]
      simp [List.getD_eq_getElem?_getD, hj]

/-! ### C40 -/

theorem header_valid (w h : Nat) (b : List Byte) : validHeader (header w h ++ b) = true := by
  unfold validHeader
  have h1 : 18 ≤ (header w h ++ b).length := by
    rw [List.length_append]; show 18 ≤ 18 + b.length; omega
  have g2 : (header w h ++ b).getD 2 0 = 2#8 := rfl
  have g16 : (header w h ++ b).getD 16 0 = 24#8 := rfl
  have g1 : (header w h ++ b).getD 1 0 = 0#8 := rfl
  have g17 : (header w h ++ b).getD 17 0 = 0x20#8 := rfl
  rw [decide_eq_true h1, g2, g16, g1, g17]
  decide

theorem header_w (w h : Nat) (b : List Byte) : rd16 (header w h ++ b) 12 = BitVec.ofNat 16 w := Bmp.join16 _
theorem header_h (w h : Nat) (b : List Byte) : rd16 (header w h ++ b) 14 = BitVec.ofNat 16 h := Bmp.join16 _

theorem cfg_header (w h : Nat) (b : List Byte) (hw : w < 2 ^ 16) (hh : h < 2 ^ 16) :
    cfg (header w h ++ b) = { bpp := 3, compressed := false, w := w, h := h, down := true } := by
  have e1 : (rd16 (header w h ++ b) 12).toNat = w := by
    rw [header_w, BitVec.toNat_ofNat, Nat.mod_eq_of_lt hw]
  have e2 : (rd16 (header w h ++ b) 14).toNat = h := by
    rw [header_h, BitVec.toNat_ofNat, Nat.mod_eq_of_lt hh]
  have g2 : (header w h ++ b).getD 2 0 = 2#8 := rfl
  have g16 : (header w h ++ b).getD 16 0 = 24#8 := rfl
  have g17 : (header w h ++ b).getD 17 0 = 0x20#8 := rfl
  unfold cfg
  rw [e1, e2, g2, g16, g17]
  simp

/-- The statement of C40 for one size: what is written is read back. -/
def RoundTrip (w h : Nat) : Prop :=
  ∀ data : List Pixel, data.length = w * h →
    ∃ f, write w h data = .ok (f, true) ∧ dimensions f = some (w, h) ∧
      ∀ buf, ∃ buf', read f buf = .ok (true, buf') ∧
        ∀ i, (hi : i < w * h) → (hd : i < data.length) → IsOpaqueCopy data[i] (buf' i)

/-- **C40** for all sizes of less than 2 GiB of pixel data. -/
theorem C40_partial (w h : Nat) (hw : w < 2 ^ 16) (hh : h < 2 ^ 16) (hov : w * h * 3 < 2 ^ 31) :
    RoundTrip w h := by
  intro data hd
  refine ⟨header w h ++ data.flatMap pixelBytes, ?_, ?_, ?_⟩
  · unfold write
    rw [if_neg (by omega), if_pos (by omega), ← hd, List.take_length, hd]
    have : decide (3 * (w * h) = w * h * 3) = true := decide_eq_true (by ring)
    rw [this]
  · unfold dimensions
    rw [if_pos (header_valid _ _ _), header_w, header_h, BitVec.toNat_ofNat, BitVec.toNat_ofNat,
      Nat.mod_eq_of_lt hw, Nat.mod_eq_of_lt hh]
  · intro buf
    have hc := cfg_header w h (data.flatMap pixelBytes) hw hh
    have hex : expand (data.map fun p => ⟨pixelBytes p, 1, p ||| 0xFF#32⟩) = data.map (· ||| 0xFF#32) := by
      unfold expand
      rw [List.flatMap_map]
      simp only [List.replicate_one]
      clear hc hd
      induction data with
      | nil => rfl
      | cons a l ih => simp [ih]
    obtain ⟨buf', e, hb⟩ := read_items (header w h ++ data.flatMap pixelBytes) (header_valid _ _ _)
      (by rw [hc]; simp only; omega) (data.map fun p => ⟨pixelBytes p, 1, p ||| 0xFF#32⟩) []
      (by
        intro it hit
        rw [List.mem_map] at hit
        obtain ⟨p, -, rfl⟩ := hit
        rw [hc]
        refine ⟨rfl, Or.inl ⟨rfl, rfl, ?_⟩⟩
        show mk (red p) (green p) (blue p) = _
        exact mk_components p)
      (by
        rw [List.append_nil, List.flatMap_map]
        exact List.drop_left' rfl)
      (by rw [hex, List.length_map, hd, hc]) buf
    refine ⟨buf', e, ?_⟩
    intro i hi hid
    have := hb i (by rw [hex, List.length_map]; omega) i (by
      rw [hc]
      have hw0 := w_pos hi
      simp only [pos, row, if_true]
      have := Nat.div_add_mod i w
      rw [← Nat.cast_mul, Nat.mul_comm, ← Nat.cast_add, this])
    rw [this]
    simp only [hex, List.getElem_map]
    exact isOpaqueCopy_or _

example : (640 : Nat) < 2 ^ 16 ∧ 480 < 2 ^ 16 ∧ 640 * 480 * 3 < 2 ^ 31 := by decide

/-- **C40 is violated** by the largest sizes the format allows: the byte counter overflows. -/
theorem C40_violated : ¬ ∀ w h, w < 2 ^ 16 → h < 2 ^ 16 → RoundTrip w h := by
  intro h
  obtain ⟨f, e, -⟩ := h 65535 65535 (by decide) (by decide) (List.replicate (65535 * 65535) 0)
    (List.length_replicate ..)
  unfold write at e
  rw [if_pos (by left; decide)] at e
  cases e

/-- Sizes beyond sixteen bits are cut off in the header: 65537 columns are announced as one. -/
theorem C40_wide_truncated : ∃ f, write 65537 0 [] = .ok (f, true) ∧ dimensions f = some (1, 0) :=
  ⟨header 65537 0, rfl, by decide +kernel⟩

/-! ### C41 -/

/-- Packets of the TGA format. -/
inductive Pkt
  /-- `n` times the same pixel, given by its bytes. -/
  | run (n : Nat) (p : List Byte)
  /-- The given pixels. -/
  | raw (ps : List (List Byte))

/-- Well-formed packets: one to 128 pixels of `bpp` bytes each. -/
def Pkt.Ok (bpp : Nat) : Pkt → Prop
  | .run n p => 1 ≤ n ∧ n ≤ 128 ∧ p.length = bpp
  | .raw ps => 1 ≤ ps.length ∧ ps.length ≤ 128 ∧ ∀ p ∈ ps, p.length = bpp

/-- Bytes of a packet. -/
def Pkt.encode : Pkt → List Byte
  | .run n p => BitVec.ofNat 8 (0x80 + (n - 1)) :: p
  | .raw ps => BitVec.ofNat 8 (ps.length - 1) :: ps.flatten

/-- Meaning of a packet. -/
def Pkt.pixels : Pkt → List (List Byte)
  | .run n p => List.replicate n p
  | .raw ps => ps

/-- A compressed file: an 18 byte header, an identification field, packets, anything. -/
structure RleFile (f : List Byte) (pk : List Pkt) : Prop where
  valid : validHeader f = true
  rle : (cfg f).compressed = true
  size : (cfg f).w * (cfg f).h < 2 ^ 31
  ok : ∀ k ∈ pk, k.Ok (cfg f).bpp
  count : (pk.flatMap Pkt.pixels).length = (cfg f).w * (cfg f).h
  body : ∃ r, f.drop (18 + (f.getD 0 0).toNat) = pk.flatMap Pkt.encode ++ r

/-- Specification: the `k`-th pixel of the packets is at the `k`-th place in file order. -/
def Decoded (c : Cfg) (pk : List Pkt) (buf : Nat → Pixel) : Prop :=
  ∀ k, (h : k < (pk.flatMap Pkt.pixels).length) → ∀ idx : Nat, (idx : Int) = pos c k →
    buf idx = decodePixel c.bpp ((pk.flatMap Pkt.pixels)[k])

/-- Run packets and raw packets of a single pixel. -/
def Pkt.Simple : Pkt → Prop
  | .run _ _ => True
  | .raw ps => ps.length = 1

/-- The item of a simple packet. -/
def Pkt.item (bpp : Nat) (k : Pkt) : Item :=
  ⟨k.encode, k.pixels.length, decodePixel bpp (k.pixels.headD [])⟩

theorem run_header (n : Nat) (h1 : 1 ≤ n) (h2 : n ≤ 128) :
    BitVec.ofNat 8 (0x80 + (n - 1)) &&& 0x80#8 ≠ 0#8 ∧ runLen (BitVec.ofNat 8 (0x80 + (n - 1))) = n := by
  have key : ∀ m : Fin 128, BitVec.ofNat 8 (0x80 + m.val) &&& 0x80#8 ≠ 0#8 ∧
      runLen (BitVec.ofNat 8 (0x80 + m.val)) = m.val + 1 := by decide +kernel
  have := key ⟨n - 1, by omega⟩
  simp only at this
  rw [show n - 1 + 1 = n by omega] at this
  exact this

theorem item_ok (c : Cfg) (hc : c.compressed = true) (k : Pkt) (hk : k.Ok c.bpp) (hs : k.Simple) :
    (k.item c.bpp).Ok c := by
  cases k with
  | run n p =>
    obtain ⟨h1, h2, h3⟩ := hk
    obtain ⟨a, b⟩ := run_header n h1 h2
    refine ⟨by simp [Pkt.item, Pkt.encode, Cfg.chunk, hc, h3], Or.inr (Or.inr ⟨hc, a, ?_, ?_⟩)⟩
    · simp only [Pkt.item, Pkt.pixels, Pkt.encode, List.length_replicate, List.getD_cons_zero]
      exact b.symm
    · obtain ⟨m, rfl⟩ : ∃ m, n = m + 1 := ⟨n - 1, by omega⟩
      simp [Pkt.item, Pkt.pixels, Pkt.encode, List.replicate_succ]
  | raw ps =>
    obtain ⟨h1, h2, h3⟩ := hk
    unfold Pkt.Simple at hs
    match ps, hs with
    | [p], _ =>
      have := h3 p (by simp)
      refine ⟨by simp [Pkt.item, Pkt.encode, Cfg.chunk, hc, this], Or.inr (Or.inl ⟨hc, ?_, ?_, ?_⟩)⟩
      · simp [Pkt.item, Pkt.encode]
      · simp [Pkt.item, Pkt.pixels]
      · simp [Pkt.item, Pkt.pixels, Pkt.encode]

theorem expand_items (bpp : Nat) : ∀ (pk : List Pkt), (∀ k ∈ pk, k.Simple) →
    expand (pk.map (Pkt.item bpp)) = (pk.flatMap Pkt.pixels).map (decodePixel bpp) := by
  intro pk
  induction pk with
  | nil => intro _; rfl
  | cons k pk ih =>
    intro hs
    rw [List.map_cons, expand_cons, ih (fun x hx => hs x (by simp [hx])), List.flatMap_cons, List.map_append]
    congr 1
    have := hs k (by simp)
    cases k with
    | run n p =>
      cases n with
      | zero => simp [Pkt.item, Pkt.pixels]
      | succ n => simp [Pkt.item, Pkt.pixels, List.replicate_succ]
    | raw ps =>
      unfold Pkt.Simple at this
      match ps, this with
      | [p], _ => simp [Pkt.item, Pkt.pixels]

/-- **C41** for files whose raw packets have one pixel each: runs may cross rows, both row orders, all
pixel sizes; the file may be followed by anything. -/
theorem C41_decodes_partial (f : List Byte) (pk : List Pkt) (hf : RleFile f pk) (hs : ∀ k ∈ pk, k.Simple)
    (buf : Nat → Pixel) : ∃ buf', read f buf = .ok (true, buf') ∧ Decoded (cfg f) pk buf' := by
  obtain ⟨r, hr⟩ := hf.body
  have hex := expand_items (cfg f).bpp pk hs
  obtain ⟨buf', e, hb⟩ := read_items f hf.valid hf.size (pk.map (Pkt.item (cfg f).bpp)) r
    (by
      intro it hit
      rw [List.mem_map] at hit
      obtain ⟨k, hk, rfl⟩ := hit
      exact item_ok (cfg f) hf.rle k (hf.ok k hk) (hs k hk))
    (by rw [hr, List.flatMap_map]; rfl)
    (by rw [hex, List.length_map, hf.count]) buf
  refine ⟨buf', e, ?_⟩
  intro k hk idx hidx
  rw [hb k (by rw [hex, List.length_map]; exact hk) idx hidx]
  simp only [hex, List.getElem_map]

/-- Header of a compressed 24 bit file, first row on top. -/
def rleHeader (w h : Nat) : List Byte :=
  [0#8, 0#8, 0xA#8, 0, 0, 0, 0, 0, 0, 0, 0, 0, BitVec.ofNat 8 (w % 256), BitVec.ofNat 8 (w / 256),
    BitVec.ofNat 8 (h % 256), BitVec.ofNat 8 (h / 256), 24#8, 0x20#8]

/-- Two by two pixels: a run of three crossing the row, and a single pixel. -/
example : RleFile (rleHeader 2 2 ++ [0x82, 1, 2, 3, 0, 4, 5, 6]) [.run 3 [1, 2, 3], .raw [[4, 5, 6]]] ∧
    ∀ k ∈ ([.run 3 [1, 2, 3], .raw [[4, 5, 6]]] : List Pkt), k.Simple := by
  refine ⟨⟨by decide +kernel, by decide +kernel, by decide +kernel, ?_, by decide +kernel, [], by decide +kernel⟩, ?_⟩
  · intro k hk
    simp at hk
    rcases hk with rfl | rfl
    · exact ⟨by decide, by decide, by decide +kernel⟩
    · exact ⟨by decide, by decide, by decide +kernel⟩
  · intro k hk
    simp at hk
    rcases hk with rfl | rfl
    · trivial
    · rfl

/-- A raw packet of two pixels. -/
def rawTwo : List Byte := rleHeader 2 1 ++ [0x01, 1, 2, 3, 4, 5, 6]

theorem rawTwo_file : RleFile rawTwo [.raw [[1, 2, 3], [4, 5, 6]]] := by
  refine ⟨by decide +kernel, by decide +kernel, by decide +kernel, ?_, by decide +kernel, [], by decide +kernel⟩
  intro k hk
  simp at hk
  subst hk
  exact ⟨by decide, by decide, by decide +kernel⟩

/-- **C41 is violated** by raw packets of more than one pixel: after the first pixel the bytes of the
second one are taken for a packet header. -/
theorem C41_violated : ¬ ∀ (f : List Byte) (pk : List Pkt), RleFile f pk → ∀ buf,
    ∃ buf', read f buf = .ok (true, buf') ∧ Decoded (cfg f) pk buf' := by
  intro h
  obtain ⟨buf', e, -⟩ := h rawTwo _ rawTwo_file (fun _ => 0)
  have : (read rawTwo (fun _ => 0)).map Prod.fst = .ok false := by decide +kernel
  rw [e] at this
  cases this

/-- **C41**, bounds: no file content writes outside of the buffer if the file is not compressed, if its
first row is the top one and it has at least 127 columns, or if its first row is the bottom one and it has
at least 127 pixels. -/
theorem C41_in_bounds_partial (f : List Byte) (hov : (cfg f).w * (cfg f).h < 2 ^ 31)
    (hr : (cfg f).compressed = false ∨ ((cfg f).down = true ∧ 127 ≤ (cfg f).w) ∨
      ((cfg f).down = false ∧ 127 ≤ (cfg f).w * (cfg f).h)) (buf : Nat → Pixel) :
    ∃ ok buf', read f buf = .ok (ok, buf') := by
  unfold read
  by_cases hv : validHeader f = true
  · rw [if_pos hv, if_neg (by omega)]
    have hrl0 : rl (cfg f) (cfg f).y0 = (cfg f).h := by
      rw [← row_zero, row_rl]; simp
    obtain ⟨st', e⟩ := loop_safe (cfg f) (cfg_chunk f hv) (by
      rcases hr with h | h
      · exact Or.inl h
      · exact Or.inr ((roomy_iff _).2 h)) (f.length + (cfg f).h + 1) (start f buf)
      (by
        by_cases hh : (cfg f).h = 0
        · left
          rw [← rl_zero]
          simp only [start, hrl0]
          omega
        · right
          obtain ⟨a, b⟩ := (rl_range (cfg f) (cfg f).y0).2 (by rw [hrl0]; omega)
          refine ⟨a, b, ?_⟩
          by_cases hw : (cfg f).w = 0
          · left; simp [start, hw]
          · right; exact ⟨a, b, le_refl _, by simp only [start]; omega, by simp [start]⟩)
      (by
        have : (start f buf).rest.length ≤ f.length := by simp only [start, List.length_drop]; omega
        simp only [start, hrl0] at this ⊢
        omega)
    rw [e]
    exact ⟨_, _, rfl⟩
  · rw [if_neg hv]
    exact ⟨_, _, rfl⟩

example : (cfg (rleHeader 128 1)).down = true ∧ 127 ≤ (cfg (rleHeader 128 1)).w := by decide +kernel

/-- A run that is too long runs out of the buffer. -/
theorem runLoop_oob (c : Cfg) (p : Pixel) : ∀ (n m : Nat) (st : St), Over c m st →
    (c.w * c.h : Nat) < st.y * c.w + m + n → st.y * c.w + m ≤ (c.w * c.h : Nat) →
    runLoop c p n st = .error .outOfBounds := by
  intro n
  induction n with
  | zero => intro m st _ h1 h2; exfalso; push_cast at h1 h2; omega
  | succ n ih =>
    intro m st ho hb hm
    obtain ⟨h1, h2, h3⟩ := ho
    rw [runLoop]
    by_cases hs : 0 ≤ st.i ∧ st.i < (c.w * c.h : Nat)
    · have e : store c st p = .ok { st with buf := fun k => if (k : Int) = st.i then p else st.buf k } := by
        unfold store; rw [if_pos hs]
      rw [e]
      simp only
      rw [wrap, if_neg (by simp [bump]; omega)]
      apply ih (m + 1)
      · exact ⟨h1, by simp [bump]; omega, by simp [bump]; omega⟩
      · simp only [bump]; push_cast at hb ⊢; omega
      · simp only [bump]; rw [h3] at hs; push_cast at hs ⊢; omega
    · have e : store c st p = .error .outOfBounds := by unfold store; rw [if_neg hs]
      rw [e]

/-- From the end of a row to the start of the next one. -/
theorem advance (c : Cfg) (ps : Nat → Pixel) (k : Nat) (st : St) (hm : Mid c ps k st) (hlt : k < c.w * c.h)
    (fuel : Nat) (hf : st.rest.length + rl c st.y < fuel) :
    ∃ fuel' st', loop c fuel st = loop c fuel' st' ∧ At c k st' ∧ Holds c ps k st'.buf ∧ st'.rest = st.rest ∧
      st'.rest.length + rl c st'.y < fuel' := by
  have hrl := mid_rl c ps k st hm
  rcases hm.2 with h | h
  · exact ⟨fuel, st, rfl, h, hm.1, rfl, hf⟩
  · have hq := div_lt hlt
    rw [if_pos h.x] at hrl
    obtain ⟨fuel, rfl⟩ : ∃ m, fuel = m + 1 := ⟨fuel - 1, by omega⟩
    have hy' : st.y + c.inc = row c (k / c.w) := by rw [h.y, Int.sub_add_cancel]
    refine ⟨fuel, { st with y := row c (k / c.w), i := row c (k / c.w) * c.w, x := 0 }, ?_,
      ⟨hlt, h.written, by rw [h.mod]; rfl, rfl, by simp [pos, h.mod]⟩, hm.1, rfl, ?_⟩
    · rw [loop, if_neg, if_neg (by rw [h.x]; omega), hy']
      intro hy
      have := (rl_zero c st.y).2 hy
      omega
    · simp only [row_rl]; omega

/-- Any number of single pixels. -/
theorem loop_prefix (c : Cfg) (hch : 1 ≤ c.chunk) (it : Item) (hit : it.Ok c) (hn : it.n = 1) (r : List Byte) :
    ∀ (m k : Nat) (st : St) (fuel : Nat), Mid c (fun _ => it.p) k st →
    st.rest = (List.replicate m it.bytes).flatten ++ r → k + m < c.w * c.h →
    st.rest.length + rl c st.y < fuel →
    ∃ fuel' st', loop c fuel st = loop c fuel' st' ∧ At c (k + m) st' ∧ st'.rest = r ∧
      r.length + rl c st'.y < fuel' := by
  intro m
  induction m with
  | zero =>
    intro k st fuel hm hr hlt hf
    obtain ⟨fuel', st', e, ha, -, hr', hf'⟩ := advance c _ k st hm hlt fuel hf
    simp at hr
    exact ⟨fuel', st', e, ha, by rw [hr', hr], by rw [hr', hr] at hf'; exact hf'⟩
  | succ m ih =>
    intro k st fuel hm hr hlt hf
    obtain ⟨fuel1, st1, e1, ha, hh, hr1, hf1⟩ := advance c _ k st hm (by omega) fuel hf
    rw [List.replicate_succ, List.flatten_cons, List.append_assoc] at hr
    have hnn : 0 ≤ rl c st1.y := by
      rw [ha.y, row_rl]
      have := div_lt ha.lt
      omega
    obtain ⟨fuel2, rfl⟩ : ∃ m, fuel1 = m + 1 := ⟨fuel1 - 1, by omega⟩
    have hrest := hr1.trans hr
    have ht : st1.rest.take c.chunk = it.bytes := by rw [hrest]; exact List.take_left' hit.len
    have hd : st1.rest.drop c.chunk = (List.replicate m it.bytes).flatten ++ r := by
      rw [hrest]; exact List.drop_left' hit.len
    obtain ⟨st2, e2, hm2, hr2⟩ := packet_at c (fun _ => it.p) it hit k
      { st1 with rest := (List.replicate m it.bytes).flatten ++ r }
      ⟨ha.lt, ha.written, ha.x, ha.y, ha.i⟩ hh (by omega) (fun _ _ _ => rfl)
    have hlen : st1.rest.length = c.chunk + ((List.replicate m it.bytes).flatten ++ r).length := by
      rw [hrest, List.length_append, hit.len]
    have hy1 : rl c st1.y = c.h - (k / c.w : Nat) := by rw [ha.y, row_rl]
    have hrl2 := mid_rl c _ _ _ hm2
    rw [hn] at hm2 hrl2
    have hmono : rl c st2.y ≤ rl c st1.y := by
      rw [hrl2, hy1]
      rcases hm2.2 with h' | h'
      · rw [if_neg (by rw [h'.x]; have := Nat.mod_lt (k + 1) (w_pos h'.lt); omega)]
        have : k / c.w ≤ (k + 1) / c.w := Nat.div_le_div_right (by omega)
        omega
      · rw [if_pos h'.x]
        rcases next_pixel k c.w (w_pos ha.lt) with ⟨a, b, d⟩ | ⟨a, b, d⟩
        · rw [h'.mod] at d; omega
        · omega
    obtain ⟨fuel', st', e', ha', hr', hf'⟩ := ih (k + 1) st2 fuel2 hm2 hr2 (by omega) (by
      rw [hr2]; simp only; omega)
    refine ⟨fuel', st', ?_, by rw [show k + (m + 1) = k + 1 + m by omega]; exact ha', hr', hf'⟩
    rw [e1, loop, if_neg (by rw [ha.y]; exact row_ne_ymax c _ (div_lt ha.lt)), if_pos ⟨by
      rw [ha.x]; have := Nat.mod_lt k (w_pos ha.lt); omega, by omega⟩, ht, hd, e2]
    exact e'

/-- Header of a compressed 24 bit file of either row order. -/
def rleHeader' (w h : Nat) (down : Bool) : List Byte :=
  [0#8, 0#8, 0xA#8] ++ le16 0#16 ++ le16 0#16 ++ [0#8] ++ le16 0#16 ++ le16 0#16 ++
    le16 (BitVec.ofNat 16 w) ++ le16 (BitVec.ofNat 16 h) ++ [24#8, if down then 0x20#8 else 0#8]

theorem rleHeader'_valid (w h : Nat) (down : Bool) (b : List Byte) : validHeader (rleHeader' w h down ++ b) = true := by
  unfold validHeader
  have h1 : 18 ≤ (rleHeader' w h down ++ b).length := by
    rw [List.length_append]; show 18 ≤ 18 + b.length; omega
  have g2 : (rleHeader' w h down ++ b).getD 2 0 = 0xA#8 := rfl
  have g16 : (rleHeader' w h down ++ b).getD 16 0 = 24#8 := rfl
  have g1 : (rleHeader' w h down ++ b).getD 1 0 = 0#8 := rfl
  have g17 : (rleHeader' w h down ++ b).getD 17 0 = if down then 0x20#8 else 0#8 := rfl
  rw [decide_eq_true h1, g2, g16, g1, g17]
  cases down <;> decide

theorem cfg_rleHeader' (w h : Nat) (down : Bool) (b : List Byte) (hw : w < 2 ^ 16) (hh : h < 2 ^ 16) :
    cfg (rleHeader' w h down ++ b) = { bpp := 3, compressed := true, w := w, h := h, down := down } := by
  have r1 : rd16 (rleHeader' w h down ++ b) 12 = BitVec.ofNat 16 w := Bmp.join16 _
  have r2 : rd16 (rleHeader' w h down ++ b) 14 = BitVec.ofNat 16 h := Bmp.join16 _
  have e1 : (rd16 (rleHeader' w h down ++ b) 12).toNat = w := by
    rw [r1, BitVec.toNat_ofNat, Nat.mod_eq_of_lt hw]
  have e2 : (rd16 (rleHeader' w h down ++ b) 14).toNat = h := by
    rw [r2, BitVec.toNat_ofNat, Nat.mod_eq_of_lt hh]
  have g2 : (rleHeader' w h down ++ b).getD 2 0 = 0xA#8 := rfl
  have g16 : (rleHeader' w h down ++ b).getD 16 0 = 24#8 := rfl
  have g17 : (rleHeader' w h down ++ b).getD 17 0 = if down then 0x20#8 else 0#8 := rfl
  unfold cfg
  rw [e1, e2, g2, g16, g17]
  cases down <;> simp

/-- All pixels but one as single pixels, then a run of 128. -/
def attack (w h : Nat) (down : Bool) : List Byte :=
  rleHeader' w h down ++ ((List.replicate (w * h - 1) [0#8, 0, 0, 0]).flatten ++ [0xFF#8, 0, 0, 0])

theorem attack_oob (w h : Nat) (down : Bool) (hw : w < 2 ^ 16) (hh : h < 2 ^ 16) (h0 : 0 < w * h)
    (hov : w * h < 2 ^ 31) (hn : ¬ Roomy ⟨3, true, w, h, down⟩) (buf : Nat → Pixel) :
    read (attack w h down) buf = .error .outOfBounds := by
  have hc : cfg (attack w h down) = ⟨3, true, w, h, down⟩ := cfg_rleHeader' w h down _ hw hh
  have hv : validHeader (attack w h down) = true := rleHeader'_valid w h down _
  unfold read
  rw [if_pos hv, hc, if_neg (by simp only; omega)]
  generalize hcd : (⟨3, true, w, h, down⟩ : Cfg) = c at *
  have hcw : c.w = w := by rw [← hcd]
  have hchh : c.h = h := by rw [← hcd]
  have hcc : c.compressed = true := by rw [← hcd]
  have hcb : c.bpp = 3 := by rw [← hcd]
  have hchunk : c.chunk = 4 := by rw [← hcd]; rfl
  have hwh : c.w * c.h = w * h := by rw [hcw, hchh]
  have hrl0 : rl c c.y0 = c.h := by rw [← row_zero, row_rl]; simp
  have hat : At c 0 (start (attack w h down) buf) := by
    refine ⟨by omega, rfl, by simp [start], by simp [start, row_zero, hc], by simp [start, pos, row_zero, hc]⟩
  have hok : (⟨[0#8, 0, 0, 0], 1, decodePixel 3 [0, 0, 0]⟩ : Item).Ok c :=
    ⟨by rw [hchunk]; rfl, Or.inr (Or.inl ⟨hcc, by decide, rfl, by rw [hcb]; rfl⟩)⟩
  have hlen : (start (attack w h down) buf).rest.length ≤ (attack w h down).length := by
    simp only [start, List.length_drop]; omega
  obtain ⟨fuel, st, e, ha, hr, hf⟩ := loop_prefix c (by omega) _ hok rfl [0xFF#8, 0, 0, 0] (w * h - 1) 0
    (start (attack w h down) buf) ((attack w h down).length + c.h + 1)
    ⟨fun j hj => by omega, Or.inl hat⟩ (List.drop_left' rfl) (by omega)
    (by
      have : (start (attack w h down) buf).y = c.y0 := by simp only [start, hc]
      rw [this, hrl0]; omega)
  rw [e]
  have hy := ha.y
  have hx := ha.x
  rw [Nat.zero_add] at ha hy hx
  have hwp := w_pos ha.lt
  -- the last pixel
  have hq : (w * h - 1) / c.w = c.h - 1 := by
    rw [hcw, hchh]
    have hh0 : 0 < h := by
      rcases Nat.eq_zero_or_pos h with z | z
      · rw [z] at h0; simp at h0
      · exact z
    have hw0 : 0 < w := by omega
    obtain ⟨h', rfl⟩ : ∃ h', h = h' + 1 := ⟨h - 1, by omega⟩
    rw [Nat.mul_succ, show w * h' + w - 1 = w * h' + (w - 1) by omega, Nat.mul_add_div hw0,
      Nat.div_eq_of_lt (by omega)]
    omega
  have hm : (w * h - 1) % c.w + 1 = c.w := by
    rcases next_pixel (w * h - 1) c.w hwp with ⟨-, -, d⟩ | ⟨a, -, -⟩
    · rw [show w * h - 1 + 1 = w * h by omega, ← hwh, Nat.mul_mod_right] at d
      omega
    · exact a
  have hh1 : 1 ≤ c.h := by
    rcases Nat.eq_zero_or_pos c.h with z | z
    · rw [z] at hwh; omega
    · exact z
  have hylast : st.y + c.inc = c.ymax := by
    rw [hy, hq, row_next, show c.h - 1 + 1 = c.h by omega, row_ymax]
  obtain ⟨fuel, rfl⟩ : ∃ m, fuel = m + 1 := ⟨fuel - 1, by
    have : 0 ≤ rl c st.y := by rw [hy, row_rl, hq]; omega
    omega⟩
  rw [loop, if_neg (by rw [hy]; exact row_ne_ymax c _ (by rw [hq]; omega)), if_pos ⟨by rw [hx]; omega, by
    rw [hr, hchunk]; simp⟩, hr, hchunk]
  have hp : packet c (List.take 4 [0xFF#8, 0, 0, 0]) { st with rest := List.drop 4 [0xFF#8, 0, 0, 0] } =
      .error .outOfBounds := by
    unfold packet
    rw [if_pos hcc]
    have hl : runLen ((List.take 4 [0xFF#8, 0, 0, 0]).getD 0 0) = 127 + 1 := by decide
    rw [if_pos (by decide), hl, runLoop]
    obtain ⟨b, eb, -⟩ := store_at c (fun _ => decodePixel c.bpp (List.drop 1 (List.take 4 [0xFF#8, 0, 0, 0]))) (w * h - 1)
      { st with rest := List.drop 4 [0xFF#8, 0, 0, 0], buf := fun _ => decodePixel c.bpp (List.drop 1 (List.take 4 [0xFF#8, 0, 0, 0])) }
      ⟨ha.lt, ha.written, ha.x, ha.y, ha.i⟩ (fun _ _ _ _ => rfl) _ rfl
    obtain ⟨p0, p1⟩ := pos_range c (w * h - 1) ha.lt
    have hs : ∀ p, store c { st with rest := List.drop 4 [0xFF#8, 0, 0, 0] } p =
        .ok { st with rest := List.drop 4 [0xFF#8, 0, 0, 0],
                      buf := fun k => if (k : Int) = st.i then p else st.buf k } := by
      intro p
      unfold store
      rw [if_pos (by simp only [ha.i]; exact ⟨p0, p1⟩)]
    rw [hs]
    simp only
    rw [wrap, if_pos (by simp only [bump]; rw [hx]; omega), if_pos (by simp only [bump]; exact hylast)]
    unfold Roomy at hn
    apply runLoop_oob c _ 127 0
    · exact ⟨rfl, by simp, by simp⟩
    · simp only; push_cast at hn ⊢; omega
    · simp only
      have hle : c.ymax - c.inc = row c (c.h - 1) := by
        have := row_next c (c.h - 1)
        rw [show c.h - 1 + 1 = c.h by omega, row_ymax] at this
        omega
      obtain ⟨a, b⟩ := row_range c (c.h - 1) (by omega)
      rw [hle]
      obtain ⟨-, d⟩ := index_bound (x := 0) a b (le_refl _) (by omega : (0 : Int) < c.w)
      omega
  rw [hp]

/-- **C41**, bounds, exactly: the sizes for which no compressed file whatsoever writes outside of the
buffer are the empty ones and those of `C41_in_bounds_partial`. -/
theorem C41_bounds_iff (w h : Nat) (down : Bool) (hw : w < 2 ^ 16) (hh : h < 2 ^ 16) (hov : w * h < 2 ^ 31) :
    (∀ f buf, cfg f = ⟨3, true, w, h, down⟩ → read f buf ≠ .error .outOfBounds) ↔
      w * h = 0 ∨ (down = true ∧ 127 ≤ w) ∨ (down = false ∧ 127 ≤ w * h) := by
  constructor
  · intro H
    by_contra hcon
    push Not at hcon
    refine H (attack w h down) (fun _ => 0) (cfg_rleHeader' w h down _ hw hh)
      (attack_oob w h down hw hh (by omega) hov ?_ _)
    rw [roomy_iff]
    simp only
    push Not
    exact hcon.2
  · intro H f buf hc
    by_cases h0 : w * h = 0
    · unfold read
      by_cases hv : validHeader f = true
      · rw [if_pos hv, hc, if_neg (by simp only; omega)]
        have hrl0 : rl ⟨3, true, w, h, down⟩ (cfg f).y0 = h := by
          rw [hc, ← row_zero, row_rl]; simp
        obtain ⟨st', e, -⟩ := loop_empty ⟨3, true, w, h, down⟩ h0 (f.length + h + 1) (start f buf) (le_refl _)
          (by simp only [start, hrl0]; omega) (by simp only [start, hrl0]; omega)
          (by simp only [start, hrl0]; omega)
        rw [e]
        simp
      · rw [if_neg hv]
        simp
    · obtain ⟨ok, buf', e⟩ := C41_in_bounds_partial f (by rw [hc]; exact hov) (by
        rw [hc]; exact Or.inr (H.resolve_left h0)) buf
      rw [e]
      simp

/-- **C41 is violated**, bounds: a file of one by one pixels that writes outside of the buffer. -/
theorem C41_violated_bounds : ∃ f, validHeader f = true ∧ ∀ buf, read f buf = .error .outOfBounds :=
  ⟨attack 1 1 true, rleHeader'_valid _ _ _ _, fun buf => attack_oob 1 1 true (by decide) (by decide) (by decide)
    (by decide) (by rw [roomy_iff]; decide) buf⟩

/-- **C41**, dimensions: sizes beyond 2^31 pixels overflow an `int` as soon as they are read. -/
theorem C41_violated_overflow : ∃ f, validHeader f = true ∧ dimensions f = some (65535, 65535) ∧
    ∀ buf, read f buf = .error .overflow := by
  refine ⟨header 65535 65535 ++ [], header_valid _ _ _, ?_, fun buf => ?_⟩
  · decide +kernel
  · unfold read
    rw [if_pos (header_valid _ _ _), cfg_header _ _ _ (by decide) (by decide), if_pos (by decide)]

end Spectre.Tga
