import Verif.Model.Alias
import Mathlib.Tactic.NormNum
import Mathlib.Tactic.IntervalCases

/-
Property C166: operations on vectors and matrices give the same result if their arguments are the same object.
-/

namespace Spectre.Alias

open F32

/-- Objects of `n` and `k` members that have no member in common. -/
def Apart (a n b k : ℕ) : Prop := a + n ≤ b ∨ b + k ≤ a

/-- Two references of the same type: to one object or to two. -/
def Refs (n a b : ℕ) : Prop := a = b ∨ Apart a n b n

/-- What an operation is to do: the members of `o` get the values `v`, and nothing else changes. -/
def Sets (n o : ℕ) (v : ℕ → F32) (m m' : Mem) : Prop :=
  (∀ i < n, m' (o + i) = v i) ∧ ∀ j, (j < o ∨ o + n ≤ j) → m' j = m j

/-! ### One assignment after the other -/

theorem run_append (l l' : List Write) (m : Mem) : run (l ++ l') m = run l' (run l m) := by
  induction l generalizing m with
  | nil => rfl
  | cons w l ih => obtain ⟨d, e⟩ := w; exact ih _

/-- The right sides have to keep their values while the members before are written. -/
theorem run_members {n o : ℕ} {e : ℕ → Mem → F32} {v : ℕ → F32} {m : Mem}
    (h : ∀ k < n, ∀ m', Sets k o v m m' → e k m' = v k) : Sets n o v m (run (members n o e) m) := by
  induction n with
  | zero => exact ⟨fun i hi => absurd hi (by omega), fun j _ => rfl⟩
  | succ n ih =>
    have hs := ih fun k hk => h k (by omega)
    have hv := h n (by omega) _ hs
    unfold members at hs hv ⊢
    rw [List.range_succ, List.map_append, run_append]
    generalize run (List.map (fun i => (o + i, e i)) (List.range n)) m = m' at hs hv ⊢
    show Sets (n + 1) o v m (Function.update m' (o + n) (e n m'))
    rw [hv]
    refine ⟨fun i hi => ?_, fun j hj => ?_⟩
    · by_cases hc : i = n
      · rw [hc, Function.update_self]
      · rw [Function.update_of_ne (by omega)]
        exact hs.1 i (by omega)
    · rw [Function.update_of_ne (by omega)]
      exact hs.2 j (by omega)

/-- The member that is written next, and members of another object, are unchanged. -/
theorem same_of {k n o b : ℕ} {v : ℕ → F32} {m m' : Mem} (hs : Sets k o v m m') (hk : k < n) (h : Refs n o b) :
    m' (b + k) = m (b + k) := by
  apply hs.2
  rcases h with h | h | h <;> omega

theorem apart_of {k n o b s i : ℕ} {v : ℕ → F32} {m m' : Mem} (hs : Sets k o v m m') (hk : k < n) (h : Apart o n b s)
    (hi : i < s) : m' (b + i) = m (b + i) := by
  apply hs.2
  rcases h with h | h <;> omega

theorem Refs.refl (n a : ℕ) : Refs n a a := Or.inl rfl

/-! ### Operations that allow the same object -/

/-- **C166, compound assignments.**  `a op= b` is right for all objects, also `a op= a`. -/
theorem C166_compound (f : F32 → F32 → F32) {n a b : ℕ} (h : Refs n a b) (m : Mem) :
    Sets n a (fun i => f (m (a + i)) (m (b + i))) m (compound f n a b m) :=
  run_members fun k hk m' hs => by rw [same_of hs hk (Refs.refl n a), same_of hs hk h]

/-- **C166, sums of matrices.**  The output may be one of the inputs or both. -/
theorem C166_combine (f : F32 → F32 → F32) {a b o : ℕ} (ha : Refs 16 o a) (hb : Refs 16 o b) (m : Mem) :
    Sets 16 o (fun i => f (m (a + i)) (m (b + i))) m (combine f a b o m) :=
  run_members fun k hk m' hs => by rw [same_of hs hk ha, same_of hs hk hb]

/-- **C166, clamping.**  The bounds may be the vector itself. -/
theorem C166_clamp {n a lo hi : ℕ} (hl : Refs n a lo) (hh : Refs n a hi) (m : Mem) :
    Sets n a (fun i => clamp1 (m (a + i)) (m (lo + i)) (m (hi + i))) m (clamp n a lo hi m) :=
  run_members fun k hk m' hs => by rw [same_of hs hk (Refs.refl n a), same_of hs hk hl, same_of hs hk hh]

/-- **C166, maximum and minimum.**  For vectors the second argument may even overlap. -/
theorem C166_extreme (before : F32 → F32 → Bool) (n a b : ℕ) (m : Mem) :
    Sets n a (fun i => pick before (m (a + i)) (m (b + i))) m (extreme before n a b m) :=
  run_members fun _ _ _ _ => rfl

theorem C166_pointExtreme (before : F32 → F32 → Bool) {n a b : ℕ} (h : Refs n a b) (m : Mem) :
    Sets n a (fun i => pick before (m (b + i)) (m (a + i))) m (pointExtreme before n a b m) :=
  run_members fun k hk m' hs => by rw [same_of hs hk (Refs.refl n a), same_of hs hk h]

/-- **C166, reflection.**  A vector may be reflected about itself. -/
theorem C166_reflect {a c : ℕ} (h : Refs 3 a c) (m : Mem) :
    Sets 3 a (fun i => F32.sub (m (a + i)) (F32.mul (F32.mul (num 2) (dot a c m)) (m (c + i)))) m (reflect a c m) := by
  unfold reflect
  exact run_members fun k hk m' hs => by rw [same_of hs hk (Refs.refl 3 a), same_of hs hk h]

/-- **C166, inverse.**  A matrix may be replaced by its inverse, and is unchanged if it has none. -/
theorem C166_inverse (inv : (ℕ → F32) → Option (ℕ → F32)) (a o : ℕ) (m : Mem) :
    match inv (fun i => m (a + i)) with
    | none => inverse inv a o m = m
    | some v => Sets 16 o v m (inverse inv a o m) := by
  unfold inverse
  cases inv (fun i => m (a + i)) with
  | none => rfl
  | some v => exact run_members fun _ _ _ _ => rfl

/-! ### Operations that need different objects -/

theorem cross_sets {a b o : ℕ} (ha : Apart o 3 a 3) (hb : Apart o 3 b 3) (m : Mem) :
    Sets 3 o (crossAt a b m) m (cross a b o m) :=
  run_members fun k hk m' hs => by
    have a0 := apart_of hs hk ha (i := 0) (by norm_num)
    have a1 := apart_of hs hk ha (i := 1) (by norm_num)
    have a2 := apart_of hs hk ha (i := 2) (by norm_num)
    have b0 := apart_of hs hk hb (i := 0) (by norm_num)
    have b1 := apart_of hs hk hb (i := 1) (by norm_num)
    have b2 := apart_of hs hk hb (i := 2) (by norm_num)
    rw [Nat.add_zero] at a0 b0
    interval_cases k <;> simp only [crossAt, a0, a1, a2, b0, b1, b2]

/-- Specification of the member `i` of a cross product: the determinant of the two other members, in cyclic order. -/
def CrossSpec (a b : ℕ) (m : Mem) (i : ℕ) : F32 :=
  F32.sub (F32.mul (m (a + (i + 1) % 3)) (m (b + (i + 2) % 3))) (F32.mul (m (a + (i + 2) % 3)) (m (b + (i + 1) % 3)))

/-- **C166, cross product.**  The output has to be another object. -/
theorem C166_cross_partial {a b o : ℕ} (ha : Apart o 3 a 3) (hb : Apart o 3 b 3) (m : Mem) :
    Sets 3 o (CrossSpec a b m) m (cross a b o m) := by
  obtain ⟨h1, h2⟩ := cross_sets ha hb m
  refine ⟨fun i hi => ?_, h2⟩
  rw [h1 i hi]
  interval_cases i <;> rfl

/-- **C166, refraction.**  The normal has to be another object. -/
theorem C166_refract_partial (sqrt : F32 → F32) {a c : ℕ} (h : Apart a 3 c 3) (eta : F32) (m : Mem) :
    match refractFactor sqrt (dot a c m) eta with
    | none => refract sqrt a c eta m = m
    | some k => Sets 3 a (fun i => F32.add (F32.mul (neg (m (a + i))) eta) (F32.mul (m (c + i)) k)) m
        (refract sqrt a c eta m) := by
  unfold refract
  cases refractFactor sqrt (dot a c m) eta with
  | none => rfl
  | some f =>
    dsimp only
    have h1 : Sets 3 a (fun i => F32.mul (neg (m (a + i))) eta) m
        (run (members 3 a fun i _ => F32.mul (neg (m (a + i))) eta) m) := run_members fun _ _ _ _ => rfl
    generalize run (members 3 a fun i _ => F32.mul (neg (m (a + i))) eta) m = m1 at h1 ⊢
    have h2 : Sets 3 a (fun i => F32.add (m1 (a + i)) (F32.mul (m1 (c + i)) f)) m1
        (run (members 3 a fun i m => F32.add (m (a + i)) (F32.mul (m1 (c + i)) f)) m1) :=
      run_members fun k hk m' hs => by rw [same_of hs hk (Refs.refl 3 a)]
    refine ⟨fun i hi => ?_, fun j hj => (h2.2 j hj).trans (h1.2 j hj)⟩
    rw [h2.1 i hi]
    dsimp only
    rw [h1.1 i hi, h1.2 (c + i) (by rcases h with h | h <;> omega)]

/-- Specification: the four times four members of a matrix. -/
def SetsMatrix (o : ℕ) (v : ℕ → ℕ → F32) (m m' : Mem) : Prop :=
  (∀ i < 4, ∀ j < 4, m' (o + (4 * i + j)) = v i j) ∧ ∀ j, (j < o ∨ o + 16 ≤ j) → m' j = m j

theorem setsMatrix_of {o : ℕ} {v : ℕ → F32} {w : ℕ → ℕ → F32} {m m' : Mem} (h : Sets 16 o v m m')
    (hw : ∀ i < 4, ∀ j < 4, v (4 * i + j) = w i j) : SetsMatrix o w m m' :=
  ⟨fun i hi j hj => by rw [h.1 _ (by omega), hw i hi j hj], h.2⟩

/-- Specification: row `i` of the first matrix times column `j` of the second. -/
def RowColumn (a b : ℕ) (m : Mem) (i j : ℕ) : F32 :=
  F32.add (F32.add (F32.add (F32.mul (m (a + 4 * i)) (m (b + j))) (F32.mul (m (a + 4 * i + 1)) (m (b + 4 + j))))
    (F32.mul (m (a + 4 * i + 2)) (m (b + 8 + j)))) (F32.mul (m (a + 4 * i + 3)) (m (b + 12 + j)))

theorem product_eq (a b : ℕ) (m : Mem) : ∀ i < 4, ∀ j < 4, productAt a b m (4 * i + j) = RowColumn a b m i j := by
  intro i hi j hj
  unfold productAt RowColumn
  rw [show (4 * i + j) / 4 = i by omega, show (4 * i + j) % 4 = j by omega]
  rfl

/-- **C166, transposition.**  The output has to be another object. -/
theorem C166_transpose_partial {a o : ℕ} (h : Apart o 16 a 16) (m : Mem) :
    SetsMatrix o (fun i j => m (a + (4 * j + i))) m (transpose a o m) := by
  have : Sets 16 o (fun i => m (a + (4 * (i % 4) + i / 4))) m (transpose a o m) :=
    run_members fun k hk m' hs => by
      rw [Nat.add_assoc]
      exact apart_of hs hk h (by omega)
  refine setsMatrix_of this fun i hi j hj => ?_
  rw [show (4 * i + j) / 4 = i by omega, show (4 * i + j) % 4 = j by omega]

/-- **C166, `mul`.**  The output has to be another object. -/
theorem C166_mul_partial {a b o : ℕ} (ha : Apart o 16 a 16) (hb : Apart o 16 b 16) (m : Mem) :
    SetsMatrix o (RowColumn a b m) m (mul a b o m) := by
  refine setsMatrix_of (v := productAt a b m) (run_members fun k hk m' hs => ?_) (product_eq a b m)
  have e1 : ∀ j < 4, m' (a + 4 * (k / 4) + j) = m (a + 4 * (k / 4) + j) := fun j hj => by
    rw [Nat.add_assoc]
    exact apart_of hs hk ha (by omega)
  have e2 : ∀ j < 4, m' (b + 4 * j + k % 4) = m (b + 4 * j + k % 4) := fun j hj => by
    rw [Nat.add_assoc]
    exact apart_of hs hk hb (by omega)
  unfold productAt
  simp only [e1 0 (by norm_num), e1 1 (by norm_num), e1 2 (by norm_num), e1 3 (by norm_num), e2 0 (by norm_num),
    e2 1 (by norm_num), e2 2 (by norm_num), e2 3 (by norm_num)]

/-- **C166, `*=` of matrices.**  A matrix may be multiplied with itself. -/
theorem C166_mulAssign (a b : ℕ) (m : Mem) : SetsMatrix a (RowColumn a b m) m (mulAssign a b m) :=
  setsMatrix_of (v := productAt a b m) (run_members fun _ _ _ _ => rfl) (product_eq a b m)

/-! ### Violations -/

/-- The members from address zero on. -/
def load (l : List F32) : Mem := fun i => l.getD i (zero false)

def axes : Mem := load [num 1, zero false, zero false, zero false, num 1, zero false]

/-- **C166, violated by the cross product.**  `x.cross(y, &x)` of the first two axes is zero and not the third axis. -/
theorem C166_violated_cross : ¬ Sets 3 0 (CrossSpec 0 3 axes) axes (cross 0 3 0 axes) := by
  intro h
  have := h.1 2 (by norm_num)
  exact absurd this (by decide +kernel)

/-- **C166, violated by refraction.**  A vector refracted at itself gets a quarter of its length. -/
theorem C166_violated_refract {sqrt : F32 → F32} (h : sqrt (num 1) = num 1) :
    ∃ k, refractFactor sqrt (dot 0 0 (load [zero false, zero false, num 1])) (num (1 / 2)) = some k ∧
    F32.add (F32.mul (neg (num 1)) (num (1 / 2))) (F32.mul (num 1) k) = num (-1) ∧
    refract sqrt 0 0 (num (1 / 2)) (load [zero false, zero false, num 1]) 2 = num (-1 / 4) := by
  have e : refractFactor sqrt (dot 0 0 (load [zero false, zero false, num 1])) (num (1 / 2)) = some (num (-1 / 2)) := by
    rw [show dot 0 0 (load [zero false, zero false, num 1]) = num 1 by decide +kernel]
    unfold refractFactor
    dsimp only
    rw [show F32.mul (F32.mul (positive (F32.sub (num 1) (F32.mul (num 1) (num 1)))) (num (1 / 2))) (num (1 / 2)) =
      zero false by decide +kernel]
    rw [show F32.lt (num 1) (zero false) = false by decide +kernel,
      show F32.sub (num 1) (zero false) = num 1 by decide +kernel, h]
    decide +kernel
  refine ⟨_, e, by decide +kernel, ?_⟩
  unfold refract
  rw [e]
  decide +kernel

/-- Sixteen different numbers. -/
def sixteen : Mem := load ((List.range 16).map fun i => num (i + 1))

/-- **C166, violated by transposition.**  In place, the lower triangle is lost. -/
theorem C166_violated_transpose : ¬ SetsMatrix 0 (fun i j => sixteen (0 + (4 * j + i))) sixteen (transpose 0 0 sixteen) := by
  intro h
  have := h.1 1 (by norm_num) 0 (by norm_num)
  exact absurd this (by decide +kernel)

/-- **C166, violated by `mul`.**  The square of a matrix, computed into the matrix, is another one. -/
theorem C166_violated_mul : ¬ SetsMatrix 0 (RowColumn 0 0 sixteen) sixteen (mul 0 0 0 sixteen) := by
  intro h
  have := h.1 0 (by norm_num) 1 (by norm_num)
  exact absurd this (by decide +kernel)

/-- The full statement for `mul`: right for all objects. -/
def C166_statement : Prop := ∀ a b o m, Refs 16 o a → Refs 16 o b → Refs 16 a b →
  SetsMatrix o (RowColumn a b m) m (mul a b o m)

theorem C166_violated_statement : ¬ C166_statement := fun h =>
  C166_violated_mul (h 0 0 0 sixteen (Or.inl rfl) (Or.inl rfl) (Or.inl rfl))

/-- Two vectors and two matrices for the theorems. -/
example : Refs 3 0 3 ∧ Refs 3 3 3 ∧ Apart 16 16 0 16 := ⟨Or.inr (Or.inl (by norm_num)), Or.inl rfl, Or.inr (by norm_num)⟩

/-- The cross product of two axes into a third vector. -/
example : cross 0 3 6 axes 8 = num 1 := by decide +kernel

end Spectre.Alias
