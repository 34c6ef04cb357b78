import Verif.Model.EF
import Verif.Props.AABB

/-
Property C25, extended to rays with zero direction components: the slab test stays exact as long as
the origin does not lie exactly on a face plane of such an axis (where the code computes 0*inf).
-/

namespace Spectre
namespace EF
variable {K : Type} [Field K] [LinearOrder K] [IsStrictOrderedRing K]

theorem lt_fin (a b : K) : lt (fin a) (fin b) = decide (a < b) := rfl
theorem le_fin (a b : K) : le (fin a) (fin b) = decide (a ≤ b) := rfl

/-- Mathematical order, with NaN unrelated to everything. -/
def Le (a b : EF K) : Prop := le a b = true

theorem le_trans' {a b c : EF K} (h1 : Le a b) (h2 : Le b c) : Le a c := by
  unfold Le at *
  cases a <;> cases b <;> cases c <;> simp_all [le]
  exact le_trans h1 h2

theorem not_lt_iff {a b : EF K} (ha : a ≠ nan) (hb : b ≠ nan) : lt a b = false ↔ Le b a := by
  unfold Le
  cases a <;> cases b <;> simp_all [le, lt]

theorem lt_le {a b : EF K} (h : lt a b = true) : Le a b := by
  unfold Le
  cases a <;> cases b <;> simp_all [le, lt]
  exact le_of_lt h

theorem lt_not_le {a b : EF K} (h : lt a b = true) : ¬ Le b a := by
  unfold Le
  cases a <;> cases b <;> simp_all [le, lt]

theorem le_self {a : EF K} (ha : a ≠ nan) : Le a a := by
  unfold Le
  cases a <;> simp_all [le]

end EF

namespace AABB
open EF
variable {K : Type} [Field K] [LinearOrder K] [IsStrictOrderedRing K]

/-- The ray is in general position with respect to a box: if it is parallel to an axis' faces then
its origin is not exactly on one of these faces. -/
def Generic (b : Box K) (r : Ray K) : Prop := ∀ i, r.d i = 0 → r.o i ≠ b.lo i ∧ r.o i ≠ b.hi i

theorem slabE_spec (b : Box K) (r : Ray K) (i : Fin 3) (hb : b.lo i ≤ b.hi i)
    (hg : r.d i = 0 → r.o i ≠ b.lo i ∧ r.o i ≠ b.hi i) :
    (slabE b r i).1 ≠ nan ∧ (slabE b r i).2 ≠ nan ∧ Le (slabE b r i).1 (slabE b r i).2 ∧
    ∀ t : K, (Le (slabE b r i).1 (fin t) ∧ Le (fin t) (slabE b r i).2) ↔
      (b.lo i ≤ r.o i + t * r.d i ∧ r.o i + t * r.d i ≤ b.hi i) := by
  by_cases hd : r.d i = 0
  · obtain ⟨h1, h2⟩ := hg hd
    have e1 : b.lo i - r.o i ≠ 0 := fun h => h1 (by linarith)
    have e2 : b.hi i - r.o i ≠ 0 := fun h => h2 (by linarith)
    have hlt : EF.lt (EF.pinf : EF K) (EF.fin 0) = false := rfl
    simp only [slabE, EF.recip, hd, if_true, hlt, Bool.false_eq_true, if_false, EF.mulFin, e1, e2,
      mul_zero, add_zero]
    rcases lt_or_gt_of_ne h1 with g1 | g1
    · rw [if_pos (by linarith), if_pos (by linarith)]
      refine ⟨by simp, by simp, by simp [Le, EF.le], ?_⟩
      intro t
      constructor
      · rintro ⟨h, _⟩; simp [Le, EF.le] at h
      · rintro ⟨h, _⟩; exact absurd h (not_le.2 g1)
    · rw [if_neg (by linarith)]
      rcases lt_or_gt_of_ne h2 with g2 | g2
      · rw [if_pos (by linarith)]
        refine ⟨by simp, by simp, by simp [Le, EF.le], ?_⟩
        intro t
        simp [Le, EF.le, le_of_lt g1, le_of_lt g2]
      · rw [if_neg (by linarith)]
        refine ⟨by simp, by simp, by simp [Le, EF.le], ?_⟩
        intro t
        constructor
        · rintro ⟨_, h⟩; simp [Le, EF.le] at h
        · rintro ⟨_, h⟩; exact absurd h (not_le.2 g2)
  · have key := fun t => slab_iff b r i hd t
    have ne := slab_nonempty b r i hb
    have e : slabE b r i = (fin (slab b r i).1, fin (slab b r i).2) := by
      unfold slabE slab
      simp only [EF.recip, if_neg hd, EF.lt_fin, EF.mulFin, decide_eq_true_eq]
      split <;> rfl
    rw [e]
    refine ⟨by simp, by simp, by simp [Le, EF.le, ne], ?_⟩
    intro t
    rw [← key t]
    simp [Le, EF.le]

theorem clipE_spec {c s : EF K × EF K} (c1 : c.1 ≠ nan) (c2 : c.2 ≠ nan) (s1 : s.1 ≠ nan)
    (s2 : s.2 ≠ nan) (hc : Le c.1 c.2) (hs : Le s.1 s.2) :
    (∀ e, clipE c s = some e → e.1 ≠ nan ∧ e.2 ≠ nan ∧ Le e.1 e.2 ∧
      ∀ t : K, (Le e.1 (fin t) ∧ Le (fin t) e.2) ↔
        ((Le c.1 (fin t) ∧ Le (fin t) c.2) ∧ (Le s.1 (fin t) ∧ Le (fin t) s.2))) ∧
    (clipE c s = none → ∀ t : K, ¬ ((Le c.1 (fin t) ∧ Le (fin t) c.2) ∧
      (Le s.1 (fin t) ∧ Le (fin t) s.2))) := by
  obtain ⟨ca, cb⟩ := c
  obtain ⟨sa, sb⟩ := s
  simp only at *
  constructor
  · intro e he
    unfold clipE at he
    split at he
    · exact absurd he (by simp)
    · rename_i h
      simp only [Bool.or_eq_true, not_or, Bool.not_eq_true] at h
      have k1 := (not_lt_iff s2 c1).1 h.1
      have k2 := (not_lt_iff c2 s1).1 h.2
      simp only [Option.some.injEq] at he
      subst he
      simp only
      cases g1 : EF.lt ca sa <;> cases g2 : EF.lt sb cb <;>
        simp only [if_true, if_false, Bool.false_eq_true]
      · have m1 := (not_lt_iff c1 s1).1 g1
        have m2 := (not_lt_iff s2 c2).1 g2
        refine ⟨c1, c2, hc, fun t => ⟨fun ⟨a, b⟩ => ⟨⟨a, b⟩, EF.le_trans' m1 a, EF.le_trans' b m2⟩,
          fun h => h.1⟩⟩
      · have m1 := (not_lt_iff c1 s1).1 g1
        have m2 := lt_le g2
        refine ⟨c1, s2, k1, fun t => ⟨fun ⟨a, b⟩ => ⟨⟨a, EF.le_trans' b m2⟩, EF.le_trans' m1 a, b⟩,
          fun h => ⟨h.1.1, h.2.2⟩⟩⟩
      · have m1 := lt_le g1
        have m2 := (not_lt_iff s2 c2).1 g2
        refine ⟨s1, c2, k2, fun t => ⟨fun ⟨a, b⟩ => ⟨⟨EF.le_trans' m1 a, b⟩, a, EF.le_trans' b m2⟩,
          fun h => ⟨h.2.1, h.1.2⟩⟩⟩
      · have m1 := lt_le g1
        have m2 := lt_le g2
        refine ⟨s1, s2, hs, fun t => ⟨fun ⟨a, b⟩ => ⟨⟨EF.le_trans' m1 a, EF.le_trans' b m2⟩, a, b⟩,
          fun h => h.2⟩⟩
  · intro h t
    unfold clipE at h
    split at h
    · rename_i hh
      simp only [Bool.or_eq_true] at hh
      rintro ⟨⟨a, b⟩, ⟨d, e⟩⟩
      rcases hh with hh | hh
      · exact lt_not_le hh (EF.le_trans' a e)
      · exact lt_not_le hh (EF.le_trans' d b)
    · exact absurd h (by simp)

/-- **C25** for all directions: exact interval, no NaN, and rejection only when no point of the line
is in the box. -/
theorem C25_general_direction (b : Box K) (r : Ray K) (hb : NonEmpty b) (hg : Generic b r) :
    (∀ p, intersectE b r = some p → p.1 ≠ nan ∧ p.2 ≠ nan ∧ Le p.1 p.2 ∧
      ∀ t : K, Mem b (r.at t) ↔ (Le p.1 (fin t) ∧ Le (fin t) p.2)) ∧
    (intersectE b r = none → ∀ t : K, ¬ Mem b (r.at t)) := by
  obtain ⟨a1, a2, a3, a4⟩ := slabE_spec b r 0 (hb 0) (hg 0)
  obtain ⟨b1, b2, b3, b4⟩ := slabE_spec b r 1 (hb 1) (hg 1)
  obtain ⟨d1, d2, d3, d4⟩ := slabE_spec b r 2 (hb 2) (hg 2)
  have mem3 : ∀ t : K, Mem b (r.at t) ↔
      ((Le (slabE b r 0).1 (fin t) ∧ Le (fin t) (slabE b r 0).2) ∧
       (Le (slabE b r 1).1 (fin t) ∧ Le (fin t) (slabE b r 1).2)) ∧
       (Le (slabE b r 2).1 (fin t) ∧ Le (fin t) (slabE b r 2).2) := by
    intro t
    rw [a4, b4, d4]
    constructor
    · intro h; exact ⟨⟨h 0, h 1⟩, h 2⟩
    · rintro ⟨⟨h0, h1⟩, h2⟩ i
      fin_cases i
      · exact h0
      · exact h1
      · exact h2
  obtain ⟨k1, k2⟩ := clipE_spec a1 a2 b1 b2 a3 b3
  unfold intersectE
  cases hc : clipE (slabE b r 0) (slabE b r 1) with
  | none =>
    refine ⟨by simp, fun _ t h => ?_⟩
    exact k2 hc t ((mem3 t).1 h).1
  | some c =>
    obtain ⟨c1, c2, c3, c4⟩ := k1 c hc
    obtain ⟨l1, l2⟩ := clipE_spec c1 c2 d1 d2 c3 d3
    simp only [Option.bind_some]
    refine ⟨fun p hp => ?_, fun h t hm => ?_⟩
    · obtain ⟨p1, p2, p3, p4⟩ := l1 p hp
      refine ⟨p1, p2, p3, fun t => ?_⟩
      rw [mem3, p4, c4]
    · refine l2 h t ?_
      rw [c4]
      exact (mem3 t).1 hm

/-- On rays with non-zero direction components `intersectE` is `intersect`. -/
theorem C25_models_agree (b : Box K) (r : Ray K) (hd : ∀ i, r.d i ≠ 0) :
    intersectE b r = (intersect b r).map fun p => (fin p.1, fin p.2) := by
  have e : ∀ i, slabE b r i = (fin (slab b r i).1, fin (slab b r i).2) := by
    intro i
    unfold slabE slab
    simp only [EF.recip, if_neg (hd i), EF.lt_fin, EF.mulFin, decide_eq_true_eq]
    split <;> rfl
  have ec : ∀ c s : K × K, clipE (fin c.1, fin c.2) (fin s.1, fin s.2) =
      (clip c s).map fun p => (fin p.1, fin p.2) := by
    intro c s
    unfold clipE clip
    simp only [EF.lt_fin, Bool.or_eq_true, decide_eq_true_eq]
    split
    · rfl
    · simp only [Option.map_some]
      split <;> split <;> rfl
  unfold intersectE intersect
  rw [e, e, e, ec]
  cases clip (slab b r 0) (slab b r 1) with
  | none => rfl
  | some c => simp only [Option.map_some, Option.bind_some]; exact ec _ _

/-- The precondition is needed: a ray in the plane of a face of the unit box passes through the box
but the entry parameter computed by the code is NaN, so `res1 < best` in the callers is false. -/
theorem C25_face_plane_nan :
    (∃ p, intersectE (⟨fun _ => 0, fun _ => 1⟩ : Box ℚ)
      ⟨fun i => if i = 0 then 0 else -1, fun i => if i = 0 then 0 else 1⟩ = some p ∧ p.1 = nan) ∧
    Mem (⟨fun _ => 0, fun _ => 1⟩ : Box ℚ)
      ((⟨fun i => if i = 0 then 0 else -1, fun i => if i = 0 then 0 else 1⟩ : Ray ℚ).at 1) := by
  constructor
  · refine ⟨(nan, fin 2), ?_, rfl⟩
    decide +kernel
  · intro i
    fin_cases i <;> norm_num [Ray.at]

/-- Non-vacuity of `C25_general_direction`: an axis-parallel ray through the middle of the box. -/
example : Generic (⟨fun _ => 0, fun _ => 1⟩ : Box ℚ)
    ⟨fun _ => 1 / 2, fun i => if i = 0 then 1 else 0⟩ := by
  intro i _
  constructor <;> norm_num

end AABB
end Spectre
