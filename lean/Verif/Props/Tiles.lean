import Verif.Model.Tiles

/-
Property C06: the queued tiles partition the image.
-/

namespace Spectre.Tiles

/-- Independent spec: the half-open rectangle of a task. -/
def Covers (t : Task) (px py : Nat) : Prop :=
  t.startx ≤ px ∧ px < t.endx ∧ t.starty ≤ py ∧ py < t.endy

instance (t : Task) (px py : Nat) : Decidable (Covers t px py) := by
  unfold Covers; infer_instance

/-- How many tasks of a list contain a pixel. -/
def coverCount (ts : List Task) (px py : Nat) : Nat :=
  ts.countP (fun t => decide (Covers t px py))

theorem rowTasks_count (width sy ey : Nat) (hw : width % 32 = 0) (px py : Nat) :
    ∀ n x, width - x ≤ n → x % 32 = 0 →
      coverCount (rowTasks width sy ey x) px py =
        if x ≤ px ∧ px < width ∧ sy ≤ py ∧ py < ey then 1 else 0 := by
  intro n
  induction n with
  | zero =>
    intro x hx _
    rw [rowTasks, dif_neg (by omega)]
    rw [if_neg (by omega)]; rfl
  | succ n ih =>
    intro x hx hm
    rw [rowTasks]
    by_cases h : x < width
    · rw [dif_pos h]
      have ih' := ih (x + splitSize) (by simp [splitSize]; omega) (by simp [splitSize]; omega)
      unfold coverCount at ih' ⊢
      rw [List.countP_cons, ih']
      simp only [Covers, splitSize]
      grind
    · rw [dif_neg h, if_neg (by omega)]; rfl

theorem allTasks_count (width height : Nat) (hw : width % 32 = 0) (px py : Nat) :
    ∀ n y, height - y ≤ n →
      coverCount (allTasks width height y) px py =
        if y ≤ py ∧ px < width ∧ py < height then 1 else 0 := by
  intro n
  induction n with
  | zero =>
    intro y hy
    rw [allTasks, dif_neg (by omega), if_neg (by omega)]; rfl
  | succ n ih =>
    intro y hy
    rw [allTasks]
    by_cases h : y < height
    · rw [dif_pos h]
      have ih' := ih (y + splitSize) (by simp [splitSize]; omega)
      have hr := rowTasks_count width y (if y + splitSize < height then y + splitSize else height)
        hw px py width 0 (by omega) (by omega)
      unfold coverCount at ih' hr ⊢
      rw [List.countP_append, ih', hr]
      simp only [splitSize]
      grind
    · rw [dif_neg h, if_neg (by omega)]; rfl

/-- **C06.** For every width multiple of 32 and every height, each pixel of the image is in exactly
one queued tile and each position outside the image in none. -/
theorem C06_tiles_partition (width height : Nat) (hw : width % 32 = 0) (px py : Nat) :
    coverCount (jobs width height) px py = if px < width ∧ py < height then 1 else 0 := by
  unfold jobs
  rw [if_neg (by simpa [splitSize] using hw)]
  rw [allTasks_count width height hw px py height 0 (by omega)]
  split <;> split <;> omega

/-- **C06.** A width that is not a multiple of 32 queues nothing (no image is rendered). -/
theorem C06_bad_width (width height : Nat) (hw : width % 32 ≠ 0) : jobs width height = [] := by
  unfold jobs
  rw [if_pos (by simpa [splitSize] using hw), allTasks]
  rfl

/-- **C06.** Every queued tile is a non-empty rectangle inside the image, so that the samplers
(which need non-empty windows, see C07) terminate on it. -/
theorem C06_tiles_nonempty (width height : Nat) (t : Task) (ht : t ∈ jobs width height) :
    t.startx < t.endx ∧ t.endx ≤ width ∧ t.starty < t.endy ∧ t.endy ≤ height := by
  have row : ∀ n x sy ey, width % 32 = 0 → x % 32 = 0 → width - x ≤ n →
      ∀ t ∈ rowTasks width sy ey x,
        t.startx < t.endx ∧ t.endx ≤ width ∧ t.starty = sy ∧ t.endy = ey := by
    intro n
    induction n with
    | zero =>
      intro x sy ey _ _ h t ht
      rw [rowTasks, dif_neg (by omega)] at ht
      exact absurd ht List.not_mem_nil
    | succ n ih =>
      intro x sy ey hw hx h t ht
      rw [rowTasks] at ht
      by_cases hc : x < width
      · rw [dif_pos hc] at ht
        rcases List.mem_cons.1 ht with rfl | ht
        · simp only [splitSize]
          refine ⟨by omega, by omega, trivial, trivial⟩
        · exact ih (x + splitSize) sy ey hw (by simp [splitSize]; omega)
            (by simp [splitSize]; omega) t ht
      · rw [dif_neg hc] at ht
        exact absurd ht List.not_mem_nil
  have all : width % 32 = 0 → ∀ n y, height - y ≤ n → ∀ t ∈ allTasks width height y,
      t.startx < t.endx ∧ t.endx ≤ width ∧ t.starty < t.endy ∧ t.endy ≤ height := by
    intro hw n
    induction n with
    | zero =>
      intro y h t ht
      rw [allTasks, dif_neg (by omega)] at ht
      exact absurd ht List.not_mem_nil
    | succ n ih =>
      intro y h t ht
      rw [allTasks] at ht
      by_cases hc : y < height
      · rw [dif_pos hc] at ht
        rcases List.mem_append.1 ht with ht | ht
        · obtain ⟨a, b, c, d⟩ := row width 0 y _ hw (by omega) (by omega) t ht
          refine ⟨a, b, ?_, ?_⟩
          · rw [c, d]; simp only [splitSize]; grind
          · rw [d]; grind
        · exact ih (y + splitSize) (by simp [splitSize]; omega) t ht
      · rw [dif_neg hc] at ht
        exact absurd ht List.not_mem_nil
  unfold jobs at ht
  split at ht
  · rw [allTasks] at ht; exact absurd ht List.not_mem_nil
  · next hw => exact all (by simpa [splitSize] using hw) height 0 (by omega) t ht

/-- Non-vacuity: a 64 × 40 image has four tiles, and the pixel (63,39) is in the last one. -/
example : (64 % 32 = 0) ∧ coverCount (jobs 64 40) 63 39 = 1 ∧ coverCount (jobs 64 40) 63 40 = 0 :=
  ⟨by decide, C06_tiles_partition 64 40 (by decide) 63 39,
    C06_tiles_partition 64 40 (by decide) 63 40⟩

end Spectre.Tiles
