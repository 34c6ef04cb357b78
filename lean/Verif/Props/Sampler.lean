import Verif.Model.Sampler

/-
Properties C07, C08 of the samplers.
-/

namespace Spectre.Sampler

/-! ### Walking the window -/

/-- A sampler of this file: stops at `nexty = endy`, otherwise writes something and advances. -/
structure Walks (c : Conf) (get : St → Option (List Sample × St)) (out : St → List Sample) : Prop where
  stop : ∀ st, st.nexty = c.endy → get st = none
  go : ∀ st, st.nexty ≠ c.endy → ∃ d, get st = some (out st, advance c st d)

theorem walk {c : Conf} {get : St → Option (List Sample × St)} {out : St → List Sample}
    (hw : Walks c get out) (hx : c.startx < c.endx) :
    ∀ (n : ℕ) (st : St), c.startx ≤ st.nextx → st.nextx < c.endx → st.nexty ≤ c.endy →
      ((st.nextx - c.startx) + n < (c.endx - c.startx) * (c.endy - st.nexty) →
        ∃ cur, call get st n = some (out
          { nextx := c.startx + ((st.nextx - c.startx) + n) % (c.endx - c.startx),
            nexty := st.nexty + ((st.nextx - c.startx) + n) / (c.endx - c.startx),
            cursor := cur })) ∧
      ((c.endx - c.startx) * (c.endy - st.nexty) ≤ (st.nextx - c.startx) + n →
        call get st n = none) := by
  intro n
  induction n with
  | zero =>
    intro st h1 h2 h3
    constructor
    · intro h
      have hne : st.nexty ≠ c.endy := by
        intro he
        rw [he, sub_self, mul_zero] at h
        simp at h; omega
      obtain ⟨d, hd⟩ := hw.go st hne
      refine ⟨st.cursor, ?_⟩
      rw [call, hd]
      simp only [Option.map_some, Nat.cast_zero, add_zero]
      rw [Int.emod_eq_of_lt (by omega) (by omega), Int.ediv_eq_zero_of_lt (by omega) (by omega)]
      simp
    · intro h
      have : st.nexty = c.endy := by
        by_contra hne
        have h4 : 1 ≤ c.endy - st.nexty := by omega
        have : (c.endx - c.startx) * 1 ≤ (c.endx - c.startx) * (c.endy - st.nexty) :=
          mul_le_mul_of_nonneg_left h4 (by omega)
        simp at h; omega
      rw [call, hw.stop st this]; rfl
  | succ n ih =>
    intro st h1 h2 h3
    by_cases hne : st.nexty = c.endy
    · constructor
      · intro h
        rw [hne, sub_self, mul_zero] at h
        omega
      · intro _
        rw [call, hw.stop st hne]
        have := (ih st h1 h2 h3).2
        apply this
        rw [hne, sub_self, mul_zero]; omega
    · obtain ⟨d, hd⟩ := hw.go st hne
      rw [call, hd]
      simp only
      by_cases hwrap : st.nextx + 1 = c.endx
      · have hadv : advance c st d =
            { nextx := c.startx, nexty := st.nexty + 1, cursor := st.cursor + d } := by
          unfold advance; rw [if_pos hwrap]
        rw [hadv]
        obtain ⟨ia, ib⟩ := ih { nextx := c.startx, nexty := st.nexty + 1, cursor := st.cursor + d }
          (le_refl _) hx (by simp only; omega)
        simp only at ia ib
        have key : (c.endx - c.startx) * (c.endy - (st.nexty + 1)) =
            (c.endx - c.startx) * (c.endy - st.nexty) - (c.endx - c.startx) := by ring
        have ks : st.nextx - c.startx + ((n + 1 : ℕ) : ℤ) = n + (c.endx - c.startx) := by
          push_cast; omega
        constructor
        · intro h
          obtain ⟨cur, hcur⟩ := ia (by rw [key]; push_cast at h; omega)
          refine ⟨cur, ?_⟩
          rw [hcur, ks, sub_self, zero_add, Int.add_emod_right]
          have : ((n : ℤ) + (c.endx - c.startx)) / (c.endx - c.startx) =
              (n : ℤ) / (c.endx - c.startx) + 1 := by
            rw [Int.add_ediv_of_dvd_right (dvd_refl _), Int.ediv_self (by omega)]
          rw [this]
          congr 3; ring
        · intro h
          apply ib
          rw [key]; push_cast at h; omega
      · have hadv : advance c st d =
            { nextx := st.nextx + 1, nexty := st.nexty, cursor := st.cursor + d } := by
          unfold advance; rw [if_neg hwrap]
        rw [hadv]
        obtain ⟨ia, ib⟩ := ih { nextx := st.nextx + 1, nexty := st.nexty, cursor := st.cursor + d }
          (by simp only; omega) (by simp only; omega) h3
        simp only at ia ib
        have ks : st.nextx - c.startx + ((n + 1 : ℕ) : ℤ) = st.nextx + 1 - c.startx + n := by
          push_cast; ring
        rw [ks]
        exact ⟨ia, ib⟩

theorem walks_random (rd : ℚ → ℚ) (rnd : ℕ → ℚ) (c : Conf) :
    Walks c (getRandom rd rnd c) (randomSamples rd rnd c) :=
  ⟨fun st h => by unfold getRandom; rw [if_pos h],
   fun st h => ⟨2 * c.spp, by unfold getRandom; rw [if_neg h]⟩⟩

theorem walks_stratified (rd : ℚ → ℚ) (rnd : ℕ → ℚ) (j : Bool) (c : Conf) :
    Walks c (getStratified rd rnd j c) (stratifiedSamples rd rnd j c) :=
  ⟨fun st h => by unfold getStratified; rw [if_pos h],
   fun st h => ⟨_, by unfold getStratified; rw [if_neg h]⟩⟩

/-! ### Independent specification -/

/-- The sample lies in the closed pixel `[px,px+1] × [py,py+1]`. -/
def InPixel (s : Sample) (px py : ℤ) : Prop :=
  (px : ℚ) ≤ s.posx ∧ s.posx ≤ px + 1 ∧ (py : ℚ) ≤ s.posy ∧ s.posy ≤ py + 1

/-- Row-major enumeration of a `w × h` window at `(x0,y0)`: call `n < w*h` produces a batch of
samples of pixel `(x0 + n % w, y0 + n / w)`, and all later calls produce nothing. -/
def VisitsRowMajor (calls : ℕ → Option (List Sample)) (x0 y0 : ℤ) (w h : ℕ) : Prop :=
  (∀ n, n < w * h → ∃ l, calls n = some l ∧
    ∀ s ∈ l, InPixel s (x0 + (n % w : ℕ)) (y0 + (n / w : ℕ))) ∧
  (∀ n, w * h ≤ n → calls n = none)

theorem visits_of_walks {c : Conf} {get : St → Option (List Sample × St)}
    {out : St → List Sample} (hw : Walks c get out) (w h : ℕ) (hw0 : 0 < w)
    (ex : c.endx = c.startx + w) (ey : c.endy = c.starty + h)
    (hin : ∀ st : St, c.startx ≤ st.nextx → st.nextx < c.endx → c.starty ≤ st.nexty →
      st.nexty < c.endy → ∀ s ∈ out st, InPixel s st.nextx st.nexty) :
    VisitsRowMajor (call get (init c)) c.startx c.starty w h := by
  have hx : c.startx < c.endx := by omega
  have ww : c.endx - c.startx = w := by omega
  have hh : c.endy - c.starty = h := by omega
  constructor
  · intro n hn
    obtain ⟨h1, _⟩ := walk hw hx n (init c) (le_refl _) hx (by simp only [init]; omega)
    simp only [init, sub_self, zero_add, ww, hh] at h1
    obtain ⟨cur, hc⟩ := h1 (by exact_mod_cast hn)
    rw [← Int.natCast_mod, ← Int.natCast_ediv] at hc
    refine ⟨_, hc, ?_⟩
    intro s hs
    have hm : n % w < w := Nat.mod_lt _ hw0
    have hd : n / w < h := Nat.div_lt_of_lt_mul hn
    generalize n / w = q at hd hs ⊢
    generalize n % w = m at hm hs ⊢
    exact hin _ (by simp only; omega) (by simp only; omega)
      (by simp only; omega) (by simp only; omega) s hs
  · intro n hn
    obtain ⟨_, h2⟩ := walk hw hx n (init c) (le_refl _) hx (by simp only [init]; omega)
    simp only [init, sub_self, zero_add, ww, hh] at h2
    exact h2 (by exact_mod_cast hn)

/-- Window constraints: coordinates are exactly representable integers. -/
def SmallWindow (c : Conf) : Prop :=
  0 ≤ c.startx ∧ c.endx ≤ 2 ^ 24 ∧ 0 ≤ c.starty ∧ c.endy ≤ 2 ^ 24

theorem fl_offset (n : ℤ) (h0 : 0 ≤ n) (h1 : n + 1 ≤ 2 ^ 24) (r : ℚ) (hr0 : 0 ≤ r) (hr1 : r ≤ 1) :
    (n : ℚ) ≤ fl (n + r) ∧ fl (n + r) ≤ n + 1 := by
  constructor
  · apply le_fl_of_rep (fl_int n (by rw [abs_le]; omega)); linarith
  · have : fl (((n + 1 : ℤ)) : ℚ) = ((n + 1 : ℤ) : ℚ) := fl_int _ (by rw [abs_le]; omega)
    push_cast at this
    apply fl_le_of_rep this; linarith

/-- **C07, random sampler** with binary32 arithmetic. -/
theorem C07_random (c : Conf) (w h : ℕ) (hw0 : 0 < w) (ex : c.endx = c.startx + w)
    (ey : c.endy = c.starty + h) (hs : SmallWindow c) (rnd : ℕ → ℚ)
    (hr : ∀ i, 0 ≤ rnd i ∧ rnd i ≤ 1) :
    VisitsRowMajor (call (getRandom fl rnd c) (init c)) c.startx c.starty w h := by
  apply visits_of_walks (walks_random fl rnd c) w h hw0 ex ey
  intro st a1 a2 a3 a4 s hsm
  obtain ⟨b1, b2, b3, b4⟩ := hs
  simp only [randomSamples, List.mem_map, List.mem_range] at hsm
  obtain ⟨i, _, rfl⟩ := hsm
  obtain ⟨p1, p2⟩ := fl_offset st.nextx (by omega) (by omega) _ (hr (st.cursor + 2 * i)).1
    (hr (st.cursor + 2 * i)).2
  obtain ⟨q1, q2⟩ := fl_offset st.nexty (by omega) (by omega) _ (hr (st.cursor + 2 * i + 1)).1
    (hr (st.cursor + 2 * i + 1)).2
  exact ⟨p1, p2, q1, q2⟩

theorem fl_recip_bounds (k : ℕ) (hk : 0 < k) :
    0 < fl (1 / k) ∧ fl (1 / k) * k ≤ 1 + 1 / 2 ^ 24 := by
  have hk' : (0 : ℚ) < k := by exact_mod_cast hk
  have hpos : (0 : ℚ) < 1 / k := by positivity
  refine ⟨fl_pos hpos, ?_⟩
  have := fl_err (1 / k)
  rw [abs_of_pos hpos] at this
  have h2 := (abs_le.1 this).2
  have : fl (1 / k) ≤ 1 / k * (1 + 1 / 2 ^ 24) := by linarith
  calc fl (1 / k) * k ≤ 1 / k * (1 + 1 / 2 ^ 24) * k := mul_le_mul_of_nonneg_right this hk'.le
    _ = 1 + 1 / 2 ^ 24 := by field_simp

theorem stratPos_in (k : ℕ) (x : ℕ) (hx : x < k) (hk : k ≤ 2 ^ 24) (n : ℤ) (h0 : 0 ≤ n)
    (h1 : n + 1 ≤ 2 ^ 24) (r : ℚ) (hr0 : 0 ≤ r) (hr1 : r ≤ 1) :
    (n : ℚ) ≤ stratPos fl k n x r ∧ stratPos fl k n x r ≤ n + 1 := by
  obtain ⟨d0, d1⟩ := fl_recip_bounds k (by omega)
  have hx0 : (0 : ℚ) ≤ x := by positivity
  have s0 : 0 ≤ fl (x + r) := fl_nonneg (by linarith)
  have s1 : fl (x + r) ≤ k := by
    apply fl_le_of_rep (fl_natCast k hk)
    have : (x : ℚ) + 1 ≤ k := by exact_mod_cast hx
    linarith
  have p0 : 0 ≤ fl (fl (x + r) * fl (1 / k)) := fl_nonneg (by positivity)
  have p1 : fl (fl (x + r) * fl (1 / k)) ≤ 1 := by
    refine le_trans (fl_mono (b := 1 + 1 / 2 ^ 24) ?_) fl_tie_one.le
    calc fl (x + r) * fl (1 / k) ≤ k * fl (1 / k) := mul_le_mul_of_nonneg_right s1 d0.le
      _ ≤ _ := by linarith
  exact fl_offset n h0 h1 _ p0 p1

/-- **C07, stratified sampler** (jittered or not) with binary32 arithmetic. -/
theorem C07_stratified (c : Conf) (w h : ℕ) (hw0 : 0 < w) (ex : c.endx = c.startx + w)
    (ey : c.endy = c.starty + h) (hs : SmallWindow c) (hspp : c.spp ≤ 2 ^ 24) (jitter : Bool)
    (rnd : ℕ → ℚ) (hr : ∀ i, 0 ≤ rnd i ∧ rnd i ≤ 1) :
    VisitsRowMajor (call (getStratified fl rnd jitter c) (init c)) c.startx c.starty w h := by
  apply visits_of_walks (walks_stratified fl rnd jitter c) w h hw0 ex ey
  intro st a1 a2 a3 a4 s hsm
  obtain ⟨b1, b2, b3, b4⟩ := hs
  simp only [stratifiedSamples, List.mem_flatMap, List.mem_map, List.mem_range] at hsm
  obtain ⟨y, hy, x, hx, rfl⟩ := hsm
  have hk : strata c ≤ 2 ^ 24 := le_trans (Nat.sqrt_le_self _) hspp
  have hb : ∀ i, 0 ≤ (if jitter then rnd i else 1 / 2) ∧ (if jitter then rnd i else 1 / 2) ≤ 1 := by
    intro i; split
    · exact hr i
    · norm_num
  obtain ⟨p1, p2⟩ := stratPos_in (strata c) x hx hk st.nextx (by omega) (by omega) _
    (hb (st.cursor + 2 * (y * strata c + x))).1 (hb (st.cursor + 2 * (y * strata c + x))).2
  obtain ⟨q1, q2⟩ := stratPos_in (strata c) y hy hk st.nexty (by omega) (by omega) _
    (hb (st.cursor + 2 * (y * strata c + x) + 1)).1 (hb (st.cursor + 2 * (y * strata c + x) + 1)).2
  exact ⟨p1, p2, q1, q2⟩

/-- Non-vacuity of C07: a 32 × 20 tile at (64,32) with four samples per pixel. -/
example : VisitsRowMajor
    (call (getRandom fl (fun _ => 1 / 3) ⟨64, 96, 32, 52, 4⟩) (init ⟨64, 96, 32, 52, 4⟩)) 64 32 32 20 :=
  C07_random ⟨64, 96, 32, 52, 4⟩ 32 20 (by norm_num) (by norm_num) (by norm_num)
    (by unfold SmallWindow; norm_num) _ (fun _ => by norm_num)

/-- The exclusion of empty windows in C07 is necessary: with `startx = endx` (and rows left) the
sampler leaves the window and never stops. -/
theorem C07_empty_window_never_stops (c : Conf) (hx : c.startx = c.endx) (hy : c.starty ≠ c.endy)
    (rd : ℚ → ℚ) (rnd : ℕ → ℚ) (n : ℕ) : call (getRandom rd rnd c) (init c) n ≠ none := by
  have gen : ∀ n st, c.endx ≤ st.nextx → st.nexty ≠ c.endy → call (getRandom rd rnd c) st n ≠ none := by
    intro n
    induction n with
    | zero =>
      intro st _ h2
      rw [call]; unfold getRandom; rw [if_neg h2]; simp
    | succ n ih =>
      intro st h1 h2
      rw [call]; unfold getRandom; rw [if_neg h2]
      simp only
      have hadv : advance c st (2 * c.spp) =
          { nextx := st.nextx + 1, nexty := st.nexty, cursor := st.cursor + 2 * c.spp } := by
        unfold advance; rw [if_neg (by omega)]
      rw [hadv]
      apply ih
      · simp only; omega
      · exact h2
  exact gen n (init c) (by simp [init, hx]) hy

/-! ### C08 -/

theorem flatMap_range_getElem {α : Type} (k m : ℕ) (f : ℕ → ℕ → α) (y x : ℕ) (hx : x < k)
    (hy : y < m) :
    ((List.range m).flatMap fun y => (List.range k).map fun x => f y x)[y * k + x]? =
      some (f y x) := by
  induction m generalizing y with
  | zero => omega
  | succ m ih =>
    rw [List.range_succ, List.flatMap_append]
    have hlen : ((List.range m).flatMap fun y => (List.range k).map fun x => f y x).length = m * k := by
      simp [List.length_flatMap]
    by_cases hm : y < m
    · rw [List.getElem?_append_left]
      · exact ih y hm
      · rw [hlen]
        calc y * k + x < y * k + k := by omega
          _ = (y + 1) * k := by ring
          _ ≤ m * k := Nat.mul_le_mul_right k hm
    · have : y = m := by omega
      subst this
      rw [List.getElem?_append_right (by rw [hlen]; omega), hlen]
      simp [hx]

theorem stratified_length (rd : ℚ → ℚ) (rnd : ℕ → ℚ) (j : Bool) (c : Conf) (st : St) :
    (stratifiedSamples rd rnd j c st).length = strata c * strata c := by
  simp [stratifiedSamples, List.length_flatMap]

theorem stratified_eq (rd : ℚ → ℚ) (rnd : ℕ → ℚ) (jitter : Bool) (c : Conf) (st : St) (k : ℕ)
    (h : strata c = k) :
    stratifiedSamples rd rnd jitter c st = ((List.range k).flatMap fun y =>
      (List.range k).map fun x =>
      ({ posx := stratPos rd k st.nextx x
            (if jitter then rnd (st.cursor + 2 * (y * k + x)) else 1 / 2),
         posy := stratPos rd k st.nexty y
            (if jitter then rnd (st.cursor + 2 * (y * k + x) + 1) else 1 / 2) } : Sample)) := by
  subst h; rfl

/-- Independent spec: half-open stratum `(cx,cy)` of the `k × k` grid over pixel `(px,py)`. -/
def InCell (s : Sample) (k : ℕ) (px py : ℤ) (cx cy : ℕ) : Prop :=
  (px : ℚ) + cx / k ≤ s.posx ∧ s.posx < px + (cx + 1) / k ∧
  (py : ℚ) + cy / k ≤ s.posy ∧ s.posy < py + (cy + 1) / k

theorem cell_unique {k a b : ℕ} (hk : 0 < k) {n v : ℚ}
    (h1 : n + a / k ≤ v) (h2 : v < n + (a + 1) / k) (h3 : n + b / k ≤ v) (h4 : v < n + (b + 1) / k) :
    a = b := by
  have hk' : (0 : ℚ) < k := by exact_mod_cast hk
  have l1 : (a : ℚ) / k < (b + 1) / k := by linarith
  have l2 : (b : ℚ) / k < (a + 1) / k := by linarith
  rw [div_lt_div_iff_of_pos_right hk'] at l1 l2
  have l1' : a < b + 1 := by exact_mod_cast l1
  have l2' : b < a + 1 := by exact_mod_cast l2
  omega

/-- **C08.** When `spp = k²`, one call writes the whole array of `spp` samples, and every cell of the
`k × k` grid of the current pixel receives exactly one of them (exact arithmetic; random numbers
below 1). -/
theorem C08_one_sample_per_stratum (c : Conf) (k : ℕ) (hk : 0 < k) (hspp : c.spp = k * k)
    (jitter : Bool) (rnd : ℕ → ℚ) (hr : ∀ i, 0 ≤ rnd i ∧ rnd i < 1) (st : St) (old : List Sample)
    (hold : old.length = c.spp) :
    (writeTo old (stratifiedSamples id rnd jitter c st)).length = c.spp ∧
    writeTo old (stratifiedSamples id rnd jitter c st) = stratifiedSamples id rnd jitter c st ∧
    ∀ cx cy, cx < k → cy < k →
      ∃! i : ℕ, ∃ s, (stratifiedSamples id rnd jitter c st)[i]? = some s ∧
        InCell s k st.nextx st.nexty cx cy := by
  have hs : strata c = k := by unfold strata; rw [hspp]; exact Nat.sqrt_eq k
  have hlen := stratified_length id rnd jitter c st
  rw [hs] at hlen
  have hk' : (0 : ℚ) < k := by exact_mod_cast hk
  have hw : writeTo old (stratifiedSamples id rnd jitter c st) =
      stratifiedSamples id rnd jitter c st := by
    unfold writeTo
    rw [List.drop_eq_nil_of_le (by rw [hlen, hold, hspp]), List.append_nil]
  refine ⟨by rw [hw, hlen, hspp], hw, ?_⟩
  have hb : ∀ i, 0 ≤ (if jitter then rnd i else 1 / 2) ∧ (if jitter then rnd i else 1 / 2) < 1 := by
    intro i; split
    · exact hr i
    · norm_num
  -- the sample written at index y*k+x is in cell (x,y)
  have hcell : ∀ x y, x < k → y < k → ∃ s,
      (stratifiedSamples id rnd jitter c st)[y * k + x]? = some s ∧
        InCell s k st.nextx st.nexty x y := by
    intro x y hx hy
    have := flatMap_range_getElem k k (fun y x =>
      ({ posx := stratPos id k st.nextx x
            (if jitter then rnd (st.cursor + 2 * (y * k + x)) else 1 / 2),
         posy := stratPos id k st.nexty y
            (if jitter then rnd (st.cursor + 2 * (y * k + x) + 1) else 1 / 2) } : Sample)) y x hx hy
    have e' := stratified_eq id rnd jitter c st k hs
    rw [← e'] at this
    refine ⟨_, this, ?_⟩
    · have b1 := hb (st.cursor + 2 * (y * k + x))
      have b2 := hb (st.cursor + 2 * (y * k + x) + 1)
      generalize (if jitter then rnd (st.cursor + 2 * (y * k + x)) else 1 / 2) = r1 at *
      generalize (if jitter then rnd (st.cursor + 2 * (y * k + x) + 1) else 1 / 2) = r2 at *
      unfold InCell stratPos
      simp only [id]
      have e : ∀ (z : ℕ) (r : ℚ), ((z : ℚ) + r) * (1 / k) = (z + r) / k := by
        intro z r; ring
      rw [e, e]
      refine ⟨?_, ?_, ?_, ?_⟩
      · have : (x : ℚ) / k ≤ (x + r1) / k := div_le_div_of_nonneg_right (by linarith) hk'.le
        linarith
      · have : (x + r1) / k < (x + 1 : ℚ) / k := div_lt_div_of_pos_right (by linarith) hk'
        linarith
      · have : (y : ℚ) / k ≤ (y + r2) / k := div_le_div_of_nonneg_right (by linarith) hk'.le
        linarith
      · have : (y + r2) / k < (y + 1 : ℚ) / k := div_lt_div_of_pos_right (by linarith) hk'
        linarith
  intro cx cy hcx hcy
  refine ⟨cy * k + cx, hcell cx cy hcx hcy, ?_⟩
  rintro i ⟨s, hsi, hin⟩
  have hi : i < k * k := by
    have := (List.getElem?_eq_some_iff.1 hsi).1
    rwa [hlen] at this
  obtain ⟨s', hs', hin'⟩ := hcell (i % k) (i / k) (Nat.mod_lt _ hk) (Nat.div_lt_of_lt_mul hi)
  rw [Nat.div_add_mod' i k] at hs'
  rw [hsi] at hs'
  obtain rfl : s = s' := by simpa using hs'
  have ex := cell_unique hk hin.1 hin.2.1 hin'.1 hin'.2.1
  have ey := cell_unique hk hin.2.2.1 hin.2.2.2 hin'.2.2.1 hin'.2.2.2
  rw [ex, ey, Nat.div_add_mod' i k]

/-- **C08, binary32 version.** Sample `y*k+x` lies between the rounded borders of stratum `(x,y)`:
`fl(n + fl(x·dx))` and `fl(n + fl((x+1)·dx))`, where consecutive strata share their border. -/
theorem C08_float_strata (k : ℕ) (hk24 : k ≤ 2 ^ 24) (n : ℤ) (x : ℕ) (hx : x < k)
    (r : ℚ) (h0 : 0 ≤ r) (h1 : r ≤ 1) :
    fl (n + fl (x * fl (1 / k))) ≤ stratPos fl k n x r ∧
    stratPos fl k n x r ≤ fl (n + fl (((x + 1 : ℕ) : ℚ) * fl (1 / k))) := by
  obtain ⟨d0, _⟩ := fl_recip_bounds k (by omega)
  have e0 : (x : ℚ) ≤ fl (x + r) := le_fl_of_rep (fl_natCast x (by omega)) (by linarith)
  have e1 : fl (x + r) ≤ ((x + 1 : ℕ) : ℚ) :=
    fl_le_of_rep (fl_natCast (x + 1) (by omega)) (by push_cast; linarith)
  unfold stratPos
  constructor
  · apply fl_mono
    have := fl_mono (mul_le_mul_of_nonneg_right e0 d0.le)
    linarith
  · apply fl_mono
    have := fl_mono (mul_le_mul_of_nonneg_right e1 d0.le)
    linarith

/-- **C08, second half.** When `spp` is not a perfect square, the entries from `⌊√spp⌋²` on are not
written: they keep the samples of the previous pixel. -/
theorem C08_non_square_stale (c : Conf) (hns : ¬ ∃ k, c.spp = k * k) (rd : ℚ → ℚ) (rnd : ℕ → ℚ)
    (jitter : Bool) (st : St) (old : List Sample) (_hold : old.length = c.spp) :
    ∃ i, i < c.spp ∧
      (writeTo old (stratifiedSamples rd rnd jitter c st))[i]? = old[i]? ∧
      (stratifiedSamples rd rnd jitter c st).length ≤ i := by
  have hlen := stratified_length rd rnd jitter c st
  have hle : strata c * strata c ≤ c.spp := Nat.sqrt_le _
  have hne : strata c * strata c ≠ c.spp := fun h => hns ⟨_, h.symm⟩
  refine ⟨strata c * strata c, by omega, ?_, by omega⟩
  unfold writeTo
  rw [List.getElem?_append_right (by omega), List.getElem?_drop, hlen]
  congr 1
  omega

/-- Non-vacuity of C08: nine samples per pixel; and five, which is not a square. -/
example : ∃ c : Conf, c.spp = 3 * 3 := ⟨⟨0, 32, 0, 32, 9⟩, rfl⟩
example : ¬ ∃ k, (5 : ℕ) = k * k := by
  rintro ⟨k, hk⟩
  have : k < 3 := by nlinarith
  obtain rfl | rfl | rfl : k = 0 ∨ k = 1 ∨ k = 2 := by omega
  all_goals omega

end Spectre.Sampler
