import Verif.Model.Queue
import Verif.Props.Well
import Mathlib.Algebra.BigOperators.Fin
import Mathlib.Algebra.Order.BigOperators.Group.Finset
import Mathlib.Tactic.Linarith
import Mathlib.Tactic.FieldSimp
import Mathlib.Tactic.Positivity

/-
Properties of the rendering threads: what the progress bar shows (C136), what the mutex of the queue guarantees (C137),
and the seeds of the generators (C138).
-/

namespace Spectre.Queue

/-! ## C136: the progress bar -/

theorem fraction_bounds (n rem : Nat) (hn : 0 < n) : 0 ≤ fraction n rem ∧ fraction n rem ≤ 1 := by
  have hp : 0 < fl (n : ℚ) := fl_pos (by exact_mod_cast hn)
  have h0 : 0 ≤ fl ((n - rem : Nat) : ℚ) := fl_nonneg (by positivity)
  have h1 : fl ((n - rem : Nat) : ℚ) ≤ fl (n : ℚ) := fl_mono (by exact_mod_cast Nat.sub_le n rem)
  refine ⟨fl_nonneg (div_nonneg h0 hp.le), fl_le_of_rep fl_one ?_⟩
  rw [div_le_one hp]; exact h1

theorem fl_twenty : fl 20 = 20 := by simpa using fl_int 20 (by norm_num)
theorem fl_hundred : fl 100 = 100 := by simpa using fl_int 100 (by norm_num)

theorem scaled_le (d : ℚ) (h : d ≤ 1) : fl (d * 20) ≤ 20 := fl_le_of_rep fl_twenty (by linarith)

/-- **C136.** Whatever number of jobs is left, the bar has twenty characters, hashes before dashes, and the percentage is
between 0 and 100. -/
theorem C136_bar (n rem : Nat) (hn : 0 < n) :
    (bar (fraction n rem)).length = 20 ∧
    (∃ k ≤ 20, bar (fraction n rem) = List.replicate k '#' ++ List.replicate (20 - k) '-') ∧
    0 ≤ percent (fraction n rem) ∧ percent (fraction n rem) ≤ 100 := by
  obtain ⟨h0, h1⟩ := fraction_bounds n rem hn
  have hs := scaled_le _ h1
  have hs0 : 0 ≤ fl (fraction n rem * 20) := fl_nonneg (by linarith)
  have hk : ⌊fl (fraction n rem * 20)⌋.toNat ≤ 20 := by
    have : ⌊fl (fraction n rem * 20)⌋ ≤ 20 := by
      have := Int.floor_le_floor hs
      simpa using this
    omega
  refine ⟨?_, ⟨_, hk, rfl⟩, ?_, ?_⟩
  · simp only [bar, List.length_append, List.length_replicate]; omega
  · exact Int.floor_nonneg.mpr (fl_nonneg (by linarith))
  · have := Int.floor_le_floor (fl_le_of_rep fl_hundred (q := fl (fraction n rem * 20) * 5) (by linarith))
    simpa [percent] using this

example : bar (fraction 8 3) = "############--------".toList ∧ percent (fraction 8 3) = 62 := by decide +kernel

/-- **C136.** The bar and the percentage never go back while jobs are taken. -/
theorem C136_monotone (n a b : Nat) (hn : 0 < n) (h : a ≤ b) :
    percent (fraction n b) ≤ percent (fraction n a) ∧
    (bar (fraction n b)).count '#' ≤ (bar (fraction n a)).count '#' := by
  have hp : 0 < fl (n : ℚ) := fl_pos (by exact_mod_cast hn)
  have hf : fraction n b ≤ fraction n a := by
    apply fl_mono
    apply div_le_div_of_nonneg_right _ hp.le
    exact fl_mono (by exact_mod_cast Nat.sub_le_sub_left h n)
  have hs : fl (fraction n b * 20) ≤ fl (fraction n a * 20) := fl_mono (by linarith)
  refine ⟨Int.floor_le_floor (fl_mono (by linarith)), ?_⟩
  have := Int.toNat_le_toNat (Int.floor_le_floor hs)
  simpa [bar, List.count_append, List.count_replicate] using this

example : percent (fraction 7 5) = 28 ∧ percent (fraction 7 2) = 71 := by decide +kernel

/-- **C136.** For pictures of at most 2^24 jobs, 100% is shown exactly when no job is left in the queue. -/
theorem C136_full_iff (n rem : Nat) (hn : 0 < n) (hn24 : n ≤ 2 ^ 24) (hr : rem ≤ n) :
    percent (fraction n rem) = 100 ↔ rem = 0 := by
  have hq : (0 : ℚ) < n := by exact_mod_cast hn
  constructor
  · intro hp
    by_contra hne
    have hk : n - rem ≤ n - 1 := by omega
    have hfr : fraction n rem ≤ 1 - 1 / 2 ^ 24 := by
      have hrep : fl (1 - 1 / 2 ^ 24) = 1 - 1 / 2 ^ 24 := by decide +kernel
      apply fl_le_of_rep hrep
      rw [fl_natCast n hn24, fl_natCast (n - rem) (by omega), div_le_iff₀ hq]
      have h1 : ((n - rem : Nat) : ℚ) ≤ (n : ℚ) - 1 := by
        have : (n - rem) + 1 ≤ n := by omega
        have : (((n - rem) + 1 : Nat) : ℚ) ≤ n := by exact_mod_cast this
        push_cast at this; linarith
      have h2 : (n : ℚ) ≤ 2 ^ 24 := by exact_mod_cast hn24
      have h3 : (n : ℚ) * (1 / 2 ^ 24) ≤ 1 := by
        rw [mul_one_div, div_le_one (by positivity)]; exact h2
      linarith
    have hm : fl (fl (fraction n rem * 20) * 5) ≤ fl (fl ((1 - 1 / 2 ^ 24) * 20) * 5) := by
      apply fl_mono
      have := fl_mono (a := fraction n rem * 20) (b := (1 - 1 / 2 ^ 24) * 20) (by linarith)
      linarith
    have h99 : ⌊fl (fl ((1 - 1 / 2 ^ 24) * 20) * 5)⌋ = 99 := by decide +kernel
    have := Int.floor_le_floor hm
    rw [h99] at this
    unfold percent at hp
    omega
  · rintro rfl
    have h1 : fraction n 0 = 1 := by
      simp only [fraction, Nat.sub_zero]
      rw [div_self (ne_of_gt (fl_pos hq)), fl_one]
    rw [h1]; decide +kernel

example : percent (fraction (2 ^ 24) 1) = 99 ∧ percent (fraction (2 ^ 24) 0) = 100 := by decide +kernel

theorem fl_near {q : ℚ} (h : 0 ≤ q) : q * (1 - 1 / 2 ^ 24) ≤ fl q ∧ fl q ≤ q * (1 + 1 / 2 ^ 24) := by
  have := abs_le.mp (fl_err q)
  rw [abs_of_nonneg h] at this
  constructor <;> linarith [this.1, this.2]

/-- **C136.** The percentage is the exact share of the jobs taken, rounded down, up to an error of a thousandth before
rounding. -/
theorem C136_percent_accurate (n rem : Nat) (hn : 0 < n) (hn24 : n ≤ 2 ^ 24) (hr : rem ≤ n) :
    (100 : ℚ) * ((n : ℚ) - rem) / n - 1 - 1 / 1000 < percent (fraction n rem) ∧
    (percent (fraction n rem) : ℚ) ≤ 100 * ((n : ℚ) - rem) / n + 1 / 1000 := by
  have hq : (0 : ℚ) < n := by exact_mod_cast hn
  have hc : ((n - rem : Nat) : ℚ) = (n : ℚ) - rem := by push_cast [Nat.cast_sub hr]; ring
  set x : ℚ := ((n : ℚ) - rem) / n with hx
  have hrq : (rem : ℚ) ≤ n := by exact_mod_cast hr
  have hr0 : (0 : ℚ) ≤ rem := by positivity
  have hx0 : 0 ≤ x := div_nonneg (by linarith) hq.le
  have hx1 : x ≤ 1 := by rw [hx, div_le_one hq]; linarith
  have hfr : fraction n rem = fl x := by
    simp only [fraction]
    rw [fl_natCast n hn24, fl_natCast (n - rem) (by omega), hc]
  have e1 := fl_near hx0
  have hf0 : 0 ≤ fl x := fl_nonneg hx0
  have e2 := fl_near (q := fl x * 20) (by linarith)
  have hg0 : 0 ≤ fl (fl x * 20) := fl_nonneg (by linarith)
  have e3 := fl_near (q := fl (fl x * 20) * 5) (by linarith)
  have h100 : (100 : ℚ) * ((n : ℚ) - rem) / n = 100 * x := by rw [hx]; ring
  rw [hfr, h100]
  unfold percent
  have l1 := Int.floor_le (fl (fl (fl x * 20) * 5))
  have l2 := Int.lt_floor_add_one (fl (fl (fl x * 20) * 5))
  norm_num at e1 e2 e3
  constructor
  · linarith [e1.1, e2.1, e3.1]
  · linarith [e1.2, e2.2, e3.2]

/-- **C136, violated.** Before a job is taken the time left is computed from a division by zero and converted to an
integer, which is undefined, however much time has passed. -/
theorem C136_eta_violated (t n : Nat) : eta t n n = none := by simp [eta]

/-- **C136.** Once a job is taken, the time left is that of a constant pace, rounded down, with a relative error of less
than one in a million before rounding. -/
theorem C136_eta_partial (t n rem : Nat) (hr : rem < n) (hn : n ≤ 2 ^ 24) (ht : t ≤ 2 ^ 24) :
    ∃ e, eta t n rem = some e ∧ 0 ≤ e ∧
      (t : ℚ) * rem / (n - rem) * (1 - 1 / 10 ^ 6) - 1 < e ∧
      (e : ℚ) ≤ (t : ℚ) * rem / (n - rem) * (1 + 1 / 10 ^ 6) := by
  have hc : ((n - rem : Nat) : ℚ) = (n : ℚ) - rem := by push_cast [Nat.cast_sub hr.le]; ring
  have hrq : (rem : ℚ) < n := by exact_mod_cast hr
  have hd : (0 : ℚ) < (n : ℚ) - rem := by linarith
  have hr0 : (0 : ℚ) ≤ rem := by positivity
  have ht0 : (0 : ℚ) ≤ t := by positivity
  refine ⟨_, by rw [eta, if_neg (by omega)], ?_, ?_, ?_⟩
  · exact Int.floor_nonneg.mpr (fl_nonneg (mul_nonneg (fl_nonneg (div_nonneg (fl_nonneg ht0)
      (fl_nonneg (by positivity)))) (fl_nonneg hr0)))
  all_goals
    rw [fl_natCast t ht, fl_natCast (n - rem) (by omega), fl_natCast rem (by omega), hc]
    set x : ℚ := (t : ℚ) / ((n : ℚ) - rem) with hx
    have hx0 : 0 ≤ x := div_nonneg ht0 hd.le
    have e1 := fl_near hx0
    have e2 := fl_near (q := fl x * rem) (mul_nonneg (fl_nonneg hx0) hr0)
    have hy : (t : ℚ) * rem / (n - rem) = x * rem := by rw [hx]; ring
    rw [hy]
    have hxr : 0 ≤ x * rem := mul_nonneg hx0 hr0
    have m1 := mul_le_mul_of_nonneg_right e1.1 hr0
    have m2 := mul_le_mul_of_nonneg_right e1.2 hr0
    have l1 := Int.floor_le (fl (fl x * rem))
    have l2 := Int.lt_floor_add_one (fl (fl x * rem))
    norm_num at e2 m1 m2 ⊢
  · nlinarith [e2.1]
  · nlinarith [e2.2]

example : eta 10 100 60 = some 15 := by decide +kernel

/-! ## C137: the queue of jobs -/

variable {n : Nat} {J : Type}

/-- The worker holds the mutex. -/
def Inside : At J → Prop
  | .locked | .empty | .nonempty | .topped _ | .popped _ => True
  | _ => False

/-- What holds in every reachable state. -/
structure Inv (jobs : List J) (s : Threads n J) : Prop where
  own : ∀ i, Inside (s.worker i) ↔ s.owner = some i
  nonempty : ∀ i, s.worker i = .nonempty → s.jobs ≠ []
  topped : ∀ i j, s.worker i = .topped j → ∃ js, s.jobs = j :: js
  taken : (s.taken.map Prod.snd).reverse ++ s.jobs = jobs
  empty : ∀ i, s.worker i = .empty → s.jobs = []
  finished : ∀ i, s.worker i = .finished → s.jobs = []
  held : ∀ i j, (s.worker i = .popped j ∨ s.worker i = .working j) → (i, j) ∈ s.taken
  main : s.main ≠ .join → ∀ i, s.worker i = .finished
  alive : s.alive = false ↔ s.main = .killed

@[simp] theorem to_worker (s : Threads n J) (i k : Fin n) (a : At J) :
    (s.to i a).worker k = if k = i then a else s.worker k := rfl
@[simp] theorem to_jobs (s : Threads n J) (i : Fin n) (a : At J) : (s.to i a).jobs = s.jobs := rfl
@[simp] theorem to_owner (s : Threads n J) (i : Fin n) (a : At J) : (s.to i a).owner = s.owner := rfl
@[simp] theorem to_taken (s : Threads n J) (i : Fin n) (a : At J) : (s.to i a).taken = s.taken := rfl
@[simp] theorem to_main (s : Threads n J) (i : Fin n) (a : At J) : (s.to i a).main = s.main := rfl
@[simp] theorem to_alive (s : Threads n J) (i : Fin n) (a : At J) : (s.to i a).alive = s.alive := rfl
@[simp] theorem to_listener (s : Threads n J) (i : Fin n) (a : At J) : (s.to i a).listener = s.listener := rfl

theorem inv_start (jobs : List J) :
    Inv jobs ({ jobs := jobs, owner := none, worker := fun _ => .start } : Threads n J) := by
  constructor <;> simp [Inside]

theorem inv_step {jobs : List J} {s t : Threads n J} (h : Inv jobs s) (hs : Step s t) : Inv jobs t := by
  cases hs with
  | lock hw ho =>
    rename_i i
    constructor
    · intro k; have := h.own k; by_cases hk : k = i
      · simp [hk, Inside]
      · have hk' : i ≠ k := fun e => hk e.symm
        simp_all
    · intro k; by_cases hk : k = i <;> simp [hk]; exact h.nonempty k
    · intro k j; by_cases hk : k = i <;> simp [hk]; exact fun e => h.topped k j e
    · exact h.taken
    · intro k; by_cases hk : k = i <;> simp [hk]; exact h.empty k
    · intro k; by_cases hk : k = i <;> simp [hk]; exact h.finished k
    · intro k j; by_cases hk : k = i <;> simp [hk]; exact fun e => h.held k j e
    · intro hm; have := h.main hm i; rw [hw] at this; cases this
    · exact h.alive
  | isEmpty hw hj =>
    rename_i i
    have ho := (h.own i).mp (by rw [hw]; trivial)
    constructor
    · intro k; have := h.own k; by_cases hk : k = i
      · subst hk; simp [Inside, ho]
      · simp_all
    · intro k; by_cases hk : k = i <;> simp [hk]; exact h.nonempty k
    · intro k j; by_cases hk : k = i <;> simp [hk]; exact fun e => h.topped k j e
    · exact h.taken
    · intro k _; exact hj
    · intro k _; exact hj
    · intro k j; by_cases hk : k = i <;> simp [hk]; exact fun e => h.held k j e
    · intro hm; have := h.main hm i; rw [hw] at this; cases this
    · exact h.alive
  | notEmpty hw hj =>
    rename_i i
    have ho := (h.own i).mp (by rw [hw]; trivial)
    constructor
    · intro k; have := h.own k; by_cases hk : k = i
      · subst hk; simp [Inside, ho]
      · simp_all
    · intro k _; exact hj
    · intro k j; by_cases hk : k = i <;> simp [hk]; exact fun e => h.topped k j e
    · exact h.taken
    · intro k; by_cases hk : k = i <;> simp [hk]; exact h.empty k
    · intro k; by_cases hk : k = i <;> simp [hk]; exact h.finished k
    · intro k j; by_cases hk : k = i <;> simp [hk]; exact fun e => h.held k j e
    · intro hm; have := h.main hm i; rw [hw] at this; cases this
    · exact h.alive
  | leave hw =>
    rename_i i
    have ho := (h.own i).mp (by rw [hw]; trivial)
    have he := h.empty i hw
    constructor
    · intro k; have := h.own k; by_cases hk : k = i
      · subst hk; simp [Inside]
      · have hk' : i ≠ k := fun e => hk e.symm
        simp_all
    · intro k; by_cases hk : k = i <;> simp [hk]; exact h.nonempty k
    · intro k j; by_cases hk : k = i <;> simp [hk]; exact fun e => h.topped k j e
    · exact h.taken
    · intro k _; exact he
    · intro k _; exact he
    · intro k j; by_cases hk : k = i <;> simp [hk]; exact fun e => h.held k j e
    · intro hm; have := h.main hm i; rw [hw] at this; cases this
    · exact h.alive
  | top hw hj =>
    rename_i i j js
    have ho := (h.own i).mp (by rw [hw]; trivial)
    constructor
    · intro k; have := h.own k; by_cases hk : k = i
      · subst hk; simp [Inside, ho]
      · simp_all
    · intro k _; simp [hj]
    · intro k j'; by_cases hk : k = i
      · simp [hk]; rintro rfl; exact ⟨js, hj⟩
      · simp [hk]; exact fun e => h.topped k j' e
    · exact h.taken
    · intro k; by_cases hk : k = i <;> simp [hk]; exact h.empty k
    · intro k; by_cases hk : k = i <;> simp [hk]; exact h.finished k
    · intro k j; by_cases hk : k = i <;> simp [hk]; exact fun e => h.held k j e
    · intro hm; have := h.main hm i; rw [hw] at this; cases this
    · exact h.alive
  | pop hw hj =>
    rename_i i j k0 js
    have ho := (h.own i).mp (by rw [hw]; trivial)
    obtain ⟨js', hj'⟩ := h.topped i j hw
    have e : k0 = j ∧ js = js' := by rw [hj] at hj'; simpa using hj'
    obtain ⟨rfl, rfl⟩ := e
    have other : ∀ k, k ≠ i → ¬ Inside (s.worker k) := by
      intro k hk hi
      have := (h.own k).mp hi
      rw [ho] at this
      exact hk (Option.some.inj this).symm
    constructor
    · intro k; have := h.own k; by_cases hk : k = i
      · subst hk; simp [Inside, ho]
      · simp_all
    · intro k; by_cases hk : k = i <;> simp [hk]
      intro e; exact absurd (by rw [e]; trivial) (other k hk)
    · intro k j'; by_cases hk : k = i <;> simp [hk]
      intro e; exact absurd (by rw [e]; trivial) (other k hk)
    · have := h.taken; rw [hj] at this; simpa using this
    · intro k; by_cases hk : k = i <;> simp [hk]
      intro e; exact absurd (by rw [e]; trivial) (other k hk)
    · intro k; by_cases hk : k = i <;> simp [hk]
      intro e; have := h.finished k e; rw [hj] at this; cases this
    · intro k j'; by_cases hk : k = i
      · simp [hk]; rintro rfl; exact Or.inl rfl
      · simp [hk]; exact fun e => h.held k j' e
    · intro hm; have := h.main hm i; rw [hw] at this; cases this
    · exact h.alive
  | unlock hw =>
    rename_i i j
    have ho := (h.own i).mp (by rw [hw]; trivial)
    have hh := h.held i j (Or.inl hw)
    constructor
    · intro k; have := h.own k; by_cases hk : k = i
      · subst hk; simp [Inside]
      · have hk' : i ≠ k := fun e => hk e.symm
        simp_all
    · intro k; by_cases hk : k = i <;> simp [hk]; exact h.nonempty k
    · intro k j; by_cases hk : k = i <;> simp [hk]; exact fun e => h.topped k j e
    · exact h.taken
    · intro k; by_cases hk : k = i <;> simp [hk]; exact h.empty k
    · intro k; by_cases hk : k = i <;> simp [hk]; exact h.finished k
    · intro k j'; by_cases hk : k = i
      · simp [hk]; rintro rfl; exact hh
      · simp [hk]; exact fun e => h.held k j' e
    · intro hm; have := h.main hm i; rw [hw] at this; cases this
    · exact h.alive
  | work hw =>
    rename_i i j
    constructor
    · intro k; have := h.own k; by_cases hk : k = i
      · subst hk; rw [hw] at this; simpa [Inside] using this
      · simp_all
    · intro k; by_cases hk : k = i <;> simp [hk]; exact h.nonempty k
    · intro k j; by_cases hk : k = i <;> simp [hk]; exact fun e => h.topped k j e
    · exact h.taken
    · intro k; by_cases hk : k = i <;> simp [hk]; exact h.empty k
    · intro k; by_cases hk : k = i <;> simp [hk]; exact h.finished k
    · intro k j; by_cases hk : k = i <;> simp [hk]; exact fun e => h.held k j e
    · intro hm; have := h.main hm i; rw [hw] at this; cases this
    · exact h.alive
  | listen hl ha => exact ⟨h.own, h.nonempty, h.topped, h.taken, h.empty, h.finished, h.held, h.main, h.alive⟩
  | «show» hl => exact ⟨h.own, h.nonempty, h.topped, h.taken, h.empty, h.finished, h.held, h.main, h.alive⟩
  | stop hl ha => exact ⟨h.own, h.nonempty, h.topped, h.taken, h.empty, h.finished, h.held, h.main, h.alive⟩
  | joined hm hw =>
    refine ⟨h.own, h.nonempty, h.topped, h.taken, h.empty, h.finished, h.held, fun _ => hw, ?_⟩
    have := h.alive
    rw [hm] at this
    simpa using this
  | kill hm =>
    refine ⟨h.own, h.nonempty, h.topped, h.taken, h.empty, h.finished, h.held, fun _ => h.main (by rw [hm]; simp), ?_⟩
    simp

theorem inv_reach {jobs : List J} {s : Threads n J} (h : Reach jobs s) : Inv jobs s := by
  induction h with
  | start => exact inv_start jobs
  | step _ hs ih => exact inv_step ih hs

/-- **C137.** In every interleaving, two workers never are at accesses of the queue at the same time: the workers do not
race with each other. -/
theorem C137_mutual_exclusion {jobs : List J} {s : Threads n J} (h : Reach jobs s) (i k : Fin n)
    (hi : Reads (s.worker i) ∨ Writes (s.worker i)) (hk : Reads (s.worker k) ∨ Writes (s.worker k)) : i = k := by
  have inside : ∀ a : At J, Reads a ∨ Writes a → Inside a := by
    intro a ha; cases a <;> simp_all [Reads, Writes, Inside]
  have hI := inv_reach h
  have e1 := (hI.own i).mp (inside _ hi)
  have e2 := (hI.own k).mp (inside _ hk)
  rw [e1] at e2
  exact Option.some.inj e2

/-- **C137.** `top()` and `pop()` are called on a queue that is not empty (otherwise they are undefined), and the job
removed is the one that was read. -/
theorem C137_never_pops_empty {jobs : List J} {s : Threads n J} (h : Reach jobs s) (i : Fin n) :
    (s.worker i = .nonempty → s.jobs ≠ []) ∧ (∀ j, s.worker i = .topped j → ∃ js, s.jobs = j :: js) :=
  ⟨(inv_reach h).nonempty i, (inv_reach h).topped i⟩

/-- **C137.** The jobs taken, in the order in which they are taken, followed by those left are the jobs of the picture:
none is lost, none is taken twice; and what a worker renders it has taken. -/
theorem C137_each_job_once {jobs : List J} {s : Threads n J} (h : Reach jobs s) :
    (s.taken.map Prod.snd).reverse ++ s.jobs = jobs ∧
    ∀ i j, s.worker i = .working j → (i, j) ∈ s.taken :=
  ⟨(inv_reach h).taken, fun i j hw => (inv_reach h).held i j (Or.inr hw)⟩

/-- **C137.** With different jobs, no two workers ever render the same one. -/
theorem C137_one_worker {jobs : List J} (hd : jobs.Nodup) {s : Threads n J} (h : Reach jobs s) (i k : Fin n) (j : J)
    (hi : s.worker i = .working j) (hk : s.worker k = .working j) : i = k := by
  have hI := inv_reach h
  have ht : (s.taken.map Prod.snd).Nodup := by
    have := hI.taken ▸ hd
    exact List.nodup_reverse.mp (List.nodup_append.mp this).1
  have := List.inj_on_of_nodup_map ht (hI.held i j (Or.inr hi)) (hI.held k j (Or.inr hk)) rfl
  exact congrArg Prod.fst this

/-- **C137.** When the main thread goes on, and the picture is saved, every job has been taken and its worker has
finished (there is at least one worker, renderer.cpp:15-49). -/
theorem C137_all_done {jobs : List J} (hn : 0 < n) {s : Threads n J} (h : Reach jobs s) (hm : s.main ≠ .join) :
    (s.taken.map Prod.snd).reverse = jobs ∧ ∀ i, s.worker i = .finished := by
  have hI := inv_reach h
  have hw := hI.main hm
  have he := hI.finished ⟨0, hn⟩ (hw _)
  have := hI.taken
  rw [he, List.append_nil] at this
  exact ⟨this, hw⟩

/-- What the workers and the main thread still have to do. -/
def weight : At J → Nat
  | .start => 3 | .locked => 2 | .empty => 1 | .nonempty => 1 | .topped _ => 0
  | .popped _ => 5 | .working _ => 4 | .finished => 0

def mainWeight : Main → Nat
  | .join => 2 | .kill => 1 | .killed => 0

def measure (s : Threads n J) : Nat := 10 * s.jobs.length + (∑ i, weight (s.worker i)) + mainWeight s.main

theorem sum_to (s : Threads n J) (i : Fin n) (a : At J) :
    (∑ k, weight ((s.to i a).worker k)) + weight (s.worker i) = (∑ k, weight (s.worker k)) + weight a := by
  have h1 := Finset.add_sum_erase Finset.univ (fun k => weight ((s.to i a).worker k)) (Finset.mem_univ i)
  have h2 := Finset.add_sum_erase Finset.univ (fun k => weight (s.worker k)) (Finset.mem_univ i)
  have h3 : ∑ k ∈ Finset.univ.erase i, weight ((s.to i a).worker k) =
      ∑ k ∈ Finset.univ.erase i, weight (s.worker k) := by
    apply Finset.sum_congr rfl
    intro k hk
    simp [Finset.ne_of_mem_erase hk]
  rw [← h1, ← h2, h3]
  simp
  omega

/-- **C137.** There is no deadlock and no endless loop: until the main thread goes on, some worker or the main thread can
make a step, and each of their steps decreases the same number. -/
theorem C137_terminates {jobs : List J} {s : Threads n J} (h : Reach jobs s) :
    (s.main ≠ .killed → ∃ t, Step s t ∧ t.listener = s.listener) ∧
    (∀ t, Step s t → t.listener = s.listener → measure t < measure s) := by
  have hI := inv_reach h
  constructor
  · intro hm
    by_cases ho : ∃ i, s.owner = some i
    · obtain ⟨i, hi⟩ := ho
      have hin := (hI.own i).mpr hi
      cases hw : s.worker i with
      | start => rw [hw] at hin; exact hin.elim
      | locked =>
        by_cases hj : s.jobs = []
        · exact ⟨_, .isEmpty hw hj, rfl⟩
        · exact ⟨_, .notEmpty hw hj, rfl⟩
      | empty => exact ⟨_, .leave hw, rfl⟩
      | nonempty =>
        obtain ⟨j, js, hj⟩ := List.exists_cons_of_ne_nil (hI.nonempty i hw)
        exact ⟨_, .top hw hj, rfl⟩
      | topped j =>
        obtain ⟨js, hj⟩ := hI.topped i j hw
        exact ⟨_, .pop hw hj, rfl⟩
      | popped j => exact ⟨_, .unlock hw, rfl⟩
      | working j => rw [hw] at hin; exact hin.elim
      | finished => rw [hw] at hin; exact hin.elim
    · have hnone : s.owner = none := by
        cases hs : s.owner with
        | none => rfl
        | some i => exact absurd ⟨i, hs⟩ ho
      by_cases hf : ∀ i, s.worker i = .finished
      · cases hm' : s.main with
        | join => exact ⟨_, .joined hm' hf, rfl⟩
        | kill => exact ⟨_, .kill hm', rfl⟩
        | killed => exact absurd hm' hm
      · obtain ⟨i, hi⟩ := not_forall.mp hf
        have hin : ¬ Inside (s.worker i) := fun e => ho ⟨i, (hI.own i).mp e⟩
        cases hw : s.worker i with
        | start => exact ⟨_, .lock hw hnone, rfl⟩
        | working j => exact ⟨_, .work hw, rfl⟩
        | finished => exact absurd hw hi
        | _ => rw [hw] at hin; exact absurd trivial hin
  · intro t hs hl
    cases hs with
    | lock hw hx => rename_i i; have := sum_to s i .locked; simp [measure, hw, weight] at *; omega
    | isEmpty hw hx => rename_i i; have := sum_to s i .empty; simp [measure, hw, weight] at *; omega
    | notEmpty hw hx => rename_i i; have := sum_to s i .nonempty; simp [measure, hw, weight] at *; omega
    | leave hw => rename_i i; have := sum_to s i .finished; simp [measure, hw, weight] at *; omega
    | top hw hj => rename_i i j js; have := sum_to s i (.topped j); simp [measure, hw, weight] at *; omega
    | pop hw hj =>
      rename_i i j k js
      have := sum_to s i (.popped j)
      simp [measure, hw, hj, weight] at *
      omega
    | unlock hw => rename_i i j; have := sum_to s i (.working j); simp [measure, hw, weight] at *; omega
    | work hw => rename_i i j; have := sum_to s i .start; simp [measure, hw, weight] at *; omega
    | listen h' _ => rw [h'] at hl; cases hl
    | «show» h' => rw [h'] at hl; cases hl
    | stop h' _ => rw [h'] at hl; cases hl
    | joined hm _ => simp [measure, hm, mainWeight]
    | kill hm => simp [measure, hm, mainWeight]

/-- Two workers and three jobs: the first worker takes the first job, the second is about to look at the queue. -/
example : ∃ s : Threads 2 Nat, Reach [7, 8, 9] s ∧ s.worker 0 = .working 7 ∧ s.worker 1 = .locked ∧
    s.jobs = [8, 9] ∧ s.taken = [(0, 7)] :=
  ⟨_, .step (.step (.step (.step (.step (.step .start
    (.lock (i := 0) rfl rfl)) (.notEmpty (i := 0) rfl (by simp [Threads.to]))) (.top (i := 0) (j := 7) (js := [8, 9]) rfl rfl))
    (.pop (i := 0) (j := 7) (js := [8, 9]) rfl rfl)) (.unlock (i := 0) (j := 7) rfl)) (.lock (i := 1) rfl rfl),
    rfl, rfl, rfl, rfl⟩

/-- **C137, violated.** The listener reads the size of the queue without the mutex: whatever the jobs and the workers, a
state is reached in which its next step reads the queue while the next step of a worker changes it. -/
theorem C137_listener_races_violated (hn : 0 < n) (j : J) (js : List J) :
    ∃ s : Threads n J, Reach (j :: js) s ∧ s.listener = .size ∧ ∃ i, Writes (s.worker i) := by
  refine ⟨_, .step (.step (.step (.step .start
    (.lock (i := ⟨0, hn⟩) rfl rfl)) (.notEmpty (i := ⟨0, hn⟩) (by simp) (by simp)))
    (.top (i := ⟨0, hn⟩) (j := j) (js := js) (by simp) rfl)) (.listen rfl rfl), rfl, ⟨0, hn⟩, ?_⟩
  simp [Writes]

theorem reach_kill {jobs : List J} : ∀ (m : Nat) {s : Threads n J}, measure s = m → Reach jobs s → s.main = .join →
    ∃ t : Threads n J, Reach jobs t ∧ t.main = .kill ∧ t.listener = s.listener := by
  intro m
  induction m using Nat.strong_induction_on with
  | _ m ih =>
    intro s hm h hj
    obtain ⟨t, hs, hl⟩ := (C137_terminates h).1 (by rw [hj]; simp)
    have hlt := (C137_terminates h).2 t hs hl
    have hmain : t.main = .join ∨ t.main = .kill := by cases hs <;> simp_all
    rcases hmain with e | e
    · obtain ⟨u, hu, hk, hul⟩ := ih _ (hm ▸ hlt) rfl (.step h hs) e
      exact ⟨u, hu, hk, hul.trans hl⟩
    · exact ⟨t, .step h hs, e, hl⟩

/-- **C137, violated.** The flag that stops the listener is an ordinary variable: whatever the jobs and the workers, a
state is reached in which the next step of the main thread writes it and the next step of the listener reads it. -/
theorem C137_flag_races_violated (jobs : List J) :
    ∃ s : Threads n J, Reach jobs s ∧ s.main = .kill ∧ s.listener = .test :=
  reach_kill _ rfl .start rfl

/-! ## C138: the seeds -/

/-- Every word the same, as in the debug version, renderer.cpp:165-171. -/
def debugSeed (d : BitVec 32) : Fin 32 → BitVec 32 := fun _ => d

/-- **C138.** In the debug version, for the first 2^31 jobs of a worker the generator is never seeded with zeros (from
which it would never return anything else, C04). -/
theorem C138_debug_not_zero (d : BitVec 32) (hd : d.toNat < 2 ^ 31) (k : Nat) (h1 : 1 ≤ k) (hk : k ≤ 2 ^ 31) (i : Fin 32) :
    seedAt (debugSeed d) k i ≠ 0 := by
  intro h
  have := congrArg BitVec.toNat h
  simp [seedAt, debugSeed, BitVec.toNat_add] at this
  omega

/-- **C138.** The generator of a job is seeded with zeros exactly if all words of the worker's seed are `-k`. -/
theorem C138_zero_iff (w : Fin 32 → BitVec 32) (k : Nat) :
    (∀ i, seedAt w k i = 0) ↔ ∀ i, w i = - BitVec.ofNat 32 k := by
  constructor
  · intro h i
    have := h i
    simp only [seedAt] at this
    calc w i = w i + BitVec.ofNat 32 k + -BitVec.ofNat 32 k := by
          rw [BitVec.add_assoc, BitVec.add_right_neg, BitVec.add_zero]
      _ = _ := by rw [this]; exact BitVec.zero_add _
  · intro h i
    simp only [seedAt, h i]
    exact BitVec.add_left_neg _

/-- **C138.** In the release version the first job of a worker is never seeded with zeros. -/
theorem C138_first_not_zero (a b : Fin 32 → BitVec 32) (ha : ∀ i, (a i).toNat < 2 ^ 31) (hb : ∀ i, (b i).toNat < 2 ^ 31)
    (i : Fin 32) : seedAt (fun i => seedWord (a i) (b i)) 1 i ≠ 0 := by
  intro h
  have := congrArg BitVec.toNat h
  simp [seedAt, seedWord, BitVec.toNat_add] at this
  have := ha i; have := hb i
  omega

/-- **C138, violated.** In the release version a worker may reach a job seeded with zeros: every sample of that job is
the same. -/
theorem C138_release_violated : ∃ (a b : Fin 32 → BitVec 32) (k : Nat), (∀ i, (a i).toNat < 2 ^ 31) ∧
    (∀ i, (b i).toNat < 2 ^ 31) ∧ 1 ≤ k ∧ ∀ m, Well.draw (Well.seed (seedAt (fun i => seedWord (a i) (b i)) k)) m = 0 := by
  refine ⟨fun _ => 0x7fffffff#32, fun _ => 0x7fffffff#32, 2, by decide, by decide, by decide, fun m => ?_⟩
  have : seedAt (fun i => seedWord ((fun _ => 0x7fffffff#32) i) ((fun _ => 0x7fffffff#32) i)) 2 = fun _ : Fin 32 => 0 := by
    funext i; simp only [seedAt, seedWord]; decide
  rw [this]
  exact Well.C04_zero_seed m

/-- **C138.** Different jobs of a worker use generators whose states differ at every later draw. -/
theorem C138_jobs_differ (w : Fin 32 → BitVec 32) (k l : Nat) (hk : k < 2 ^ 32) (hl : l < 2 ^ 32) (h : k ≠ l) (m : Nat) :
    Well.run (Well.seed (seedAt w k)) m ≠ Well.run (Well.seed (seedAt w l)) m := by
  intro e
  have := congrArg Well.State.s (Well.C03_orbits_never_merge _ _ _ e)
  have := congrFun this 0
  simp only [Well.seed, seedAt] at this
  have := (BitVec.add_right_inj _).mp this
  have := congrArg BitVec.toNat this
  simp at this
  omega

/-- **C138, violated.** Jobs of different workers may use the same generator: in the debug version, if the seeds of two
workers differ by `m`, job `k + m` of the one and job `k` of the other draw the same numbers. -/
theorem C138_workers_coincide_violated (d : BitVec 32) (m k : Nat) :
    seedAt (debugSeed d) (k + m) = seedAt (debugSeed (d + BitVec.ofNat 32 m)) k := by
  funext i
  simp only [seedAt, debugSeed, BitVec.ofNat_add]
  ac_rfl

example : seedAt (debugSeed 5) 4 = seedAt (debugSeed 7) 2 := C138_workers_coincide_violated 5 2 2
example : seedAt (debugSeed 5) 4 ≠ seedAt (debugSeed 5) 3 := by decide

end Spectre.Queue
