import Verif.Model.Obj
import Mathlib.Tactic.Linarith
import Mathlib.Data.List.Basic
import Mathlib.Data.List.Chain
import Mathlib.Data.List.GetD
import Mathlib.Data.List.TakeWhile
import Mathlib.Algebra.BigOperators.Group.Finset.Basic
import Mathlib.Algebra.BigOperators.Intervals

/-
Theorems about the reader of wavefront files, Model/Obj.lean: C56-C60.
-/

namespace Spectre.Obj

variable {K : Type}

/-! ### C56: the chunks do not matter -/

/-- The same bytes in one chunk. -/
def norm (s : Stream) : Stream := (strip s).map some

@[simp] theorem strip_nil : strip [] = [] := rfl
@[simp] theorem strip_none (s : Stream) : strip (none :: s) = strip s := rfl
@[simp] theorem strip_some (c : Char) (s : Stream) : strip (some c :: s) = c :: strip s := rfl
@[simp] theorem norm_nil : norm [] = [] := rfl
@[simp] theorem norm_none (s : Stream) : norm (none :: s) = norm s := rfl
@[simp] theorem norm_some (c : Char) (s : Stream) : norm (some c :: s) = some c :: norm s := rfl
@[simp] theorem strip_norm (s : Stream) : strip (norm s) = strip s := by
  simp [norm, strip]
@[simp] theorem norm_norm (s : Stream) : norm (norm s) = norm s := by
  unfold norm
  rw [show strip ((strip s).map some) = strip s from strip_norm s]

theorem strip_chunks (b : Nat) (f : List Char) : ∀ k, strip (chunks b k f) = f := by
  induction f with
  | nil => intro k; cases k <;> rfl
  | cons c cs ih => intro k; cases k <;> simp [chunks, ih]

theorem skipBlank_norm (s : Stream) : skipBlank (norm s) = (skipBlank s).map norm := by
  induction s with
  | nil => rfl
  | cons x s ih =>
    cases x with
    | none => simpa [skipBlank] using ih
    | some c =>
      simp only [norm_some, skipBlank]
      split
      · exact ih
      · rfl

theorem readToken_norm (s : Stream) : readToken (norm s) = (readToken s).map (fun x => (x.1, norm x.2)) := by
  induction s with
  | nil => rfl
  | cons x s ih =>
    cases x with
    | none => simpa [readToken] using ih
    | some c =>
      simp only [norm_some, readToken]
      split
      · rfl
      · rw [ih]
        cases readToken s with
        | error e => rfl
        | ok x => rfl

theorem nextToken_norm (s : Stream) (mem : Mem) :
    nextToken (norm s) mem = (nextToken s mem).map (fun x => (norm x.1, x.2)) := by
  simp only [nextToken, skipBlank_norm]
  cases skipBlank s with
  | error e => rfl
  | ok s1 =>
    simp only [Except.map, readToken_norm]
    cases readToken s1 with
    | error e => rfl
    | ok x => rfl

theorem skipLine_norm (s : Stream) : skipLine (norm s) = (skipLine s).map norm := by
  induction s with
  | nil => rfl
  | cons x s ih =>
    cases x with
    | none => simpa [skipLine] using ih
    | some c =>
      simp only [norm_some, skipLine]
      split
      · cases s with
        | nil => rfl
        | cons y s =>
          cases y with
          | none =>
            simp only [norm_none, Except.map]
            cases h : norm s with
            | nil => rfl
            | cons z t =>
              cases z with
              | none =>
                have : (none : Option Char) ∈ norm s := by rw [h]; exact List.mem_cons_self
                simp [norm] at this
              | some z => rfl
          | some d => rfl
      · exact ih

/-- No empty chunk in between: two sentinels never follow each other. -/
def Chain (s : Stream) : Prop := List.IsChain (fun a b : Option Char => a.isSome ∨ b.isSome) s

/-- What holds whenever a line begins: the pointer is on a byte, or the file is finished. -/
def Ready (s : Stream) : Prop := s.head? ≠ some none ∧ Chain s

theorem Chain.suffix {r s : Stream} (h : Chain s) (hr : r <:+ s) : Chain r := List.IsChain.suffix h hr

theorem skipBlank_suffix {s r : Stream} (h : skipBlank s = .ok r) : r <:+ s := by
  induction s with
  | nil => simp [skipBlank] at h
  | cons x s ih =>
    cases x with
    | none => exact (ih (by simpa [skipBlank] using h)).trans (List.suffix_cons _ _)
    | some c =>
      simp only [skipBlank] at h
      split at h
      · exact (ih h).trans (List.suffix_cons _ _)
      · cases h; exact List.suffix_rfl

theorem readToken_suffix {s r : Stream} {t : List Char} (h : readToken s = .ok (t, r)) :
    r <:+ s ∧ ∃ c r', r = some c :: r' ∧ (c = ' ' ∨ c = '\n' ∨ c = '\r') := by
  induction s generalizing t with
  | nil => simp [readToken] at h
  | cons x s ih =>
    cases x with
    | none =>
      obtain ⟨h1, h2⟩ := ih (by simpa [readToken] using h)
      exact ⟨h1.trans (List.suffix_cons _ _), h2⟩
    | some c =>
      simp only [readToken] at h
      split at h
      · rename_i hc
        cases h; exact ⟨List.suffix_rfl, c, s, rfl, hc⟩
      · cases hs : readToken s with
        | error e => simp [hs] at h
        | ok x =>
          obtain ⟨t', r'⟩ := x
          simp only [hs] at h
          cases h
          obtain ⟨h1, h2⟩ := ih hs
          exact ⟨h1.trans (List.suffix_cons _ _), h2⟩

theorem nextToken_suffix {s r : Stream} {mem mem' : Mem} (h : nextToken s mem = .ok (r, mem')) :
    r <:+ s ∧ ∃ c r', r = some c :: r' ∧ (c = ' ' ∨ c = '\n' ∨ c = '\r') := by
  unfold nextToken at h
  cases h1 : skipBlank s with
  | error e => simp [h1] at h
  | ok s1 =>
    simp only [h1] at h
    cases h2 : readToken s1 with
    | error e => simp [h2] at h
    | ok x =>
      obtain ⟨t, s2⟩ := x
      simp only [h2] at h
      cases h
      obtain ⟨h3, h4⟩ := readToken_suffix h2
      exact ⟨h3.trans (skipBlank_suffix h1), h4⟩

theorem ready_of_cons {c : Char} {r s : Stream} (hs : Chain s) (hr : (some c :: r) <:+ s) : Ready (some c :: r) :=
  ⟨by simp, hs.suffix hr⟩

theorem skipLine_suffix {s r : Stream} (h : skipLine s = .ok r) : r <:+ s := by
  induction s with
  | nil => simp [skipLine] at h
  | cons x s ih =>
    cases x with
    | none => exact (ih (by simpa [skipLine] using h)).trans (List.suffix_cons _ _)
    | some c =>
      simp only [skipLine] at h
      split at h
      · split at h
        · cases h
          exact (List.suffix_cons _ _).trans (List.suffix_cons _ _)
        · cases h; exact List.suffix_cons _ _
      · exact (ih h).trans (List.suffix_cons _ _)

theorem skipLine_ready {s r : Stream} (hs : Chain s) (h : skipLine s = .ok r) : Ready r := by
  induction s with
  | nil => simp [skipLine] at h
  | cons x s ih =>
    have hs' : Chain s := hs.suffix (List.suffix_cons _ _)
    cases x with
    | none => exact ih hs' (by simpa [skipLine] using h)
    | some c =>
      simp only [skipLine] at h
      split at h
      · split at h
        · rename_i r' 
          cases h
          refine ⟨?_, hs'.suffix (List.suffix_cons _ _)⟩
          cases r with
          | nil => simp
          | cons y r =>
            cases y with
            | none =>
              have := List.IsChain.rel hs'
              simp at this
            | some d => simp
        · rename_i hne
          cases h
          refine ⟨?_, hs'⟩
          cases r with
          | nil => simp
          | cons y r =>
            cases y with
            | none => exact absurd rfl (hne r)
            | some d => simp
      · exact ih hs' h

/-- The result of a loop over corners, with one chunk. -/
def FaceOut.norm : FaceOut K → FaceOut K
  | .bad s mem => .bad (Obj.norm s) mem
  | .fin s mem f a b => .fin (Obj.norm s) mem f a b

/-- The same state with one chunk. -/
def Parser.norm (p : Parser K) : Parser K := { p with stream := Obj.norm p.stream }

/-- The same step with one chunk. -/
def Step.norm : Step K → Step K
  | .next p m => .next p.norm m
  | .ret b p m => .ret b p.norm m

theorem faceLoop_norm (e : Env K) (p : Parser K) (q : Parser K) (hv : q.vertices = p.vertices)
    (ht : q.textures = p.textures) (hn : q.normals = p.normals) (n : Nat) : ∀ (s : Stream) (mem : Mem)
    (f : List (Vertex K)) (rt rn : Bool), s.head? ≠ some none →
    faceLoop e q n (norm s) mem f rt rn = (faceLoop e p n s mem f rt rn).map FaceOut.norm := by
  have hcor : ∀ i, corner e q i = corner e p i := by intro i; simp only [corner, hv, ht, hn]
  induction n with
  | zero => intros; rfl
  | succ n ih =>
    intro s mem f rt rn hs
    have hh : (norm s).head? = some (some ' ') ↔ s.head? = some (some ' ') := by
      cases s with
      | nil => simp
      | cons x s => cases x with
        | none => simp at hs
        | some c => simp
    unfold faceLoop
    by_cases h : s.head? = some (some ' ')
    · rw [if_pos h, if_pos (hh.2 h), nextToken_norm]
      cases h1 : nextToken s mem with
      | error x => rfl
      | ok x =>
        obtain ⟨s1, mem1⟩ := x
        simp only [Except.map]
        cases faceIndex mem1 with
        | error x => rfl
        | ok i =>
          simp only [hcor]
          cases corner e p i with
          | error x => rfl
          | ok o =>
            cases o with
            | none => rfl
            | some v =>
              obtain ⟨-, c, r, rfl, -⟩ := nextToken_suffix h1
              exact ih _ _ _ _ _ (by simp)
    · rw [if_neg h, if_neg (fun g => h (hh.1 g))]
      rfl

theorem faceLoop_suffix (e : Env K) (p : Parser K) (n : Nat) : ∀ (s : Stream) (mem : Mem) (f : List (Vertex K))
    (rt rn : Bool) (o : FaceOut K), s.head? ≠ some none → faceLoop e p n s mem f rt rn = .ok o →
    match o with
    | .bad s' _ => s' <:+ s ∧ s'.head? ≠ some none
    | .fin s' _ _ _ _ => s' <:+ s ∧ s'.head? ≠ some none ∧ (strip s ≠ [] → strip s' ≠ []) := by
  induction n with
  | zero => intro s mem f rt rn o _ h; simp [faceLoop] at h
  | succ n ih =>
    intro s mem f rt rn o hs h
    unfold faceLoop at h
    split at h
    · cases h1 : nextToken s mem with
      | error x => simp [h1] at h
      | ok x =>
        obtain ⟨s1, mem1⟩ := x
        simp only [h1] at h
        obtain ⟨hsuf, c, r, hr, -⟩ := nextToken_suffix h1
        have hs1 : s1.head? ≠ some none := by simp [hr]
        cases h2 : faceIndex mem1 with
        | error x => simp [h2] at h
        | ok i =>
          simp only [h2] at h
          cases h3 : corner e p i with
          | error x => simp [h3] at h
          | ok q =>
            simp only [h3] at h
            cases q with
            | none => cases h; exact ⟨hsuf, hs1⟩
            | some v =>
              have := ih _ _ _ _ _ o hs1 h
              cases o with
              | bad s' m' => exact ⟨this.1.trans hsuf, this.2⟩
              | fin s' m' f' a b =>
                exact ⟨this.1.trans hsuf, this.2.1, fun _ => this.2.2 (by rw [hr]; simp)⟩
    · cases h; exact ⟨List.suffix_rfl, hs, fun h => h⟩

theorem float_norm (e : Env K) (s : Stream) (mem : Mem) :
    float e (norm s) mem = (float e s mem).map (fun x => (x.1, norm x.2.1, x.2.2)) := by
  simp only [float, nextToken_norm]
  cases nextToken s mem with
  | error x => rfl
  | ok x => rfl

theorem float3_norm (e : Env K) (s : Stream) (mem : Mem) :
    float3 e (norm s) mem = (float3 e s mem).map (fun x => (x.1, norm x.2.1, x.2.2)) := by
  simp only [float3, float_norm]
  cases float e s mem with
  | error x => rfl
  | ok x =>
    simp only [Except.map, float_norm]
    cases float e x.2.1 x.2.2 with
    | error y => rfl
    | ok y =>
      simp only [Except.map, float_norm]
      cases float e y.2.1 y.2.2 with
      | error z => rfl
      | ok z => rfl

theorem float2_norm (e : Env K) (s : Stream) (mem : Mem) :
    float2 e (norm s) mem = (float2 e s mem).map (fun x => (x.1, norm x.2.1, x.2.2)) := by
  simp only [float2, float_norm]
  cases float e s mem with
  | error x => rfl
  | ok x =>
    simp only [Except.map, float_norm]
    cases float e x.2.1 x.2.2 with
    | error y => rfl
    | ok y => rfl

theorem float_suffix {e : Env K} {s r : Stream} {mem mem' : Mem} {v : K} (h : float e s mem = .ok (v, r, mem')) :
    r <:+ s ∧ ∃ c r', r = some c :: r' := by
  unfold float at h
  cases h1 : nextToken s mem with
  | error x => simp [h1] at h
  | ok x =>
    simp only [h1] at h
    cases h
    obtain ⟨h2, c, r', h3, -⟩ := nextToken_suffix (r := x.1) (mem' := x.2) h1
    exact ⟨h2, c, r', h3⟩

theorem float3_suffix {e : Env K} {s r : Stream} {mem mem' : Mem} {v} (h : float3 e s mem = .ok (v, r, mem')) :
    r <:+ s ∧ ∃ c r', r = some c :: r' := by
  unfold float3 at h
  cases h1 : float e s mem with
  | error x => simp [h1] at h
  | ok x =>
    obtain ⟨a, s1, m1⟩ := x
    simp only [h1] at h
    cases h2 : float e s1 m1 with
    | error x => simp [h2] at h
    | ok x =>
      obtain ⟨b, s2, m2⟩ := x
      simp only [h2] at h
      cases h3 : float e s2 m2 with
      | error x => simp [h3] at h
      | ok x =>
        obtain ⟨c, s3, m3⟩ := x
        simp only [h3] at h
        cases h
        exact ⟨(float_suffix h3).1.trans ((float_suffix h2).1.trans (float_suffix h1).1), (float_suffix h3).2⟩

theorem float2_suffix {e : Env K} {s r : Stream} {mem mem' : Mem} {v} (h : float2 e s mem = .ok (v, r, mem')) :
    r <:+ s ∧ ∃ c r', r = some c :: r' := by
  unfold float2 at h
  cases h1 : float e s mem with
  | error x => simp [h1] at h
  | ok x =>
    obtain ⟨a, s1, m1⟩ := x
    simp only [h1] at h
    cases h2 : float e s1 m1 with
    | error x => simp [h2] at h
    | ok x =>
      obtain ⟨b, s2, m2⟩ := x
      simp only [h2] at h
      cases h
      exact ⟨(float_suffix h2).1.trans (float_suffix h1).1, (float_suffix h2).2⟩

theorem caseV_norm (e : Env K) (p : Parser K) (m : Mesh K) :
    caseV e p.norm m = (caseV e p m).map Step.norm := by
  unfold caseV
  split
  · simp only [Parser.norm, float2_norm]
    cases float2 e p.stream m.mem <;> rfl
  · split
    · simp only [Parser.norm, float3_norm]
      cases float3 e p.stream m.mem <;> rfl
    · simp only [Parser.norm, float3_norm]
      cases float3 e p.stream m.mem <;> rfl

theorem caseU_norm (e : Env K) (p : Parser K) (m : Mesh K) :
    caseU e p.norm m = (caseU e p m).map Step.norm := by
  unfold caseU
  split
  · simp only [Parser.norm, nextToken_norm]
    cases nextToken p.stream m.mem <;> rfl
  · rfl

theorem caseO_norm (p : Parser K) (m : Mesh K) : caseO p.norm m = (caseO p m).map Step.norm := by
  unfold caseO
  split
  · rfl
  · simp only [Parser.norm, nextToken_norm]
    cases nextToken p.stream m.mem <;> rfl

theorem caseG_norm (p : Parser K) (m : Mesh K) : caseG p.norm m = (caseG p m).map Step.norm := by
  unfold caseG
  rw [show p.norm.groups = p.groups from rfl]
  by_cases h : m.name ≠ [] ∧ p.groups = true
  · rw [if_pos h, if_pos h]; rfl
  · rw [if_neg h, if_neg h]
    by_cases h2 : m.name = [] ∨ p.groups = true
    · rw [if_pos h2, if_pos h2]
      simp only [Parser.norm, nextToken_norm]
      cases nextToken p.stream m.mem <;> rfl
    · rw [if_neg h2, if_neg h2]; rfl

theorem caseF_norm (e : Env K) (p : Parser K) (m : Mesh K) (hp : p.stream.head? ≠ some none) :
    caseF e p.norm m = (caseF e p m).map Step.norm := by
  unfold caseF
  rw [show p.norm.stream = norm p.stream from rfl, strip_norm,
    faceLoop_norm e p p.norm rfl rfl rfl _ _ _ _ _ _ hp]
  cases faceLoop e p ((strip p.stream).length + 1) p.stream m.mem [] false false with
  | error x => rfl
  | ok o =>
    cases o with
    | bad s mem => rfl
    | fin s mem f rt rn =>
      simp only [Except.map, FaceOut.norm]
      cases faceNormals e rn f with
      | error x => rfl
      | ok f =>
        simp only
        split <;> rfl

theorem dispatch_norm (e : Env K) (p : Parser K) (m : Mesh K) (hp : p.stream.head? ≠ some none) :
    dispatch e p.norm m = (dispatch e p m).map Step.norm := by
  unfold dispatch
  cases (cstr m.mem).head? with
  | none => rfl
  | some c =>
    simp only
    split
    · exact caseV_norm e p m
    · split
      · exact caseU_norm e p m
      · split
        · exact caseO_norm p m
        · split
          · exact caseG_norm p m
          · split
            · exact caseF_norm e p m hp
            · rfl

/-- The stream after a step. -/
def Step.stream : Step K → Stream
  | .next p _ => p.stream
  | .ret _ p _ => p.stream

theorem dispatch_suffix {e : Env K} {p : Parser K} {m : Mesh K} {o : Step K} (hp : p.stream.head? ≠ some none)
    (h : dispatch e p m = .ok o) : o.stream <:+ p.stream ∧ o.stream.head? ≠ some none ∧
      (strip p.stream ≠ [] → (∃ q k, o = .next q k) → strip o.stream ≠ []) := by
  unfold dispatch at h
  cases hc : (cstr m.mem).head? with
  | none => simp only [hc] at h; cases h; exact ⟨List.suffix_rfl, hp, fun h _ => h⟩
  | some c =>
    simp only [hc] at h
    split at h
    · unfold caseV at h
      split at h
      · cases h1 : float2 e p.stream m.mem with
        | error x => simp [h1] at h
        | ok x =>
          simp only [h1] at h
          cases h
          obtain ⟨a, c, r, b⟩ := float2_suffix (v := x.1) (r := x.2.1) (mem' := x.2.2) h1
          exact ⟨a, by simp [Step.stream, b], fun _ _ => by simp [Step.stream, b]⟩
      · split at h
        · cases h1 : float3 e p.stream m.mem with
          | error x => simp [h1] at h
          | ok x =>
            simp only [h1] at h
            cases h
            obtain ⟨a, c, r, b⟩ := float3_suffix (v := x.1) (r := x.2.1) (mem' := x.2.2) h1
            exact ⟨a, by simp [Step.stream, b], fun _ _ => by simp [Step.stream, b]⟩
        · cases h1 : float3 e p.stream m.mem with
          | error x => simp [h1] at h
          | ok x =>
            simp only [h1] at h
            cases h
            obtain ⟨a, c, r, b⟩ := float3_suffix (v := x.1) (r := x.2.1) (mem' := x.2.2) h1
            exact ⟨a, by simp [Step.stream, b], fun _ _ => by simp [Step.stream, b]⟩
    · split at h
      · unfold caseU at h
        split at h
        · cases h1 : nextToken p.stream m.mem with
          | error x => simp [h1] at h
          | ok x =>
            simp only [h1] at h
            cases h
            obtain ⟨a, c, r, b, -⟩ := nextToken_suffix (r := x.1) (mem' := x.2) h1
            exact ⟨a, by simp [Step.stream, b], fun _ _ => by simp [Step.stream, b]⟩
        · cases h; exact ⟨List.suffix_rfl, hp, fun h _ => h⟩
      · split at h
        · unfold caseO at h
          split at h
          · cases h; exact ⟨List.suffix_rfl, hp, fun h _ => h⟩
          · cases h1 : nextToken p.stream m.mem with
            | error x => simp [h1] at h
            | ok x =>
              simp only [h1] at h
              cases h
              obtain ⟨a, c, r, b, -⟩ := nextToken_suffix (r := x.1) (mem' := x.2) h1
              exact ⟨a, by simp [Step.stream, b], fun _ _ => by simp [Step.stream, b]⟩
        · split at h
          · unfold caseG at h
            split at h
            · cases h; exact ⟨List.suffix_rfl, hp, fun h _ => h⟩
            · split at h
              · cases h1 : nextToken p.stream m.mem with
                | error x => simp [h1] at h
                | ok x =>
                  simp only [h1] at h
                  cases h
                  obtain ⟨a, c, r, b, -⟩ := nextToken_suffix (r := x.1) (mem' := x.2) h1
                  exact ⟨a, by simp [Step.stream, b], fun _ _ => by simp [Step.stream, b]⟩
              · cases h; exact ⟨List.suffix_rfl, hp, fun h _ => h⟩
          · split at h
            · unfold caseF at h
              cases h1 : faceLoop e p ((strip p.stream).length + 1) p.stream m.mem [] false false with
              | error x => simp [h1] at h
              | ok q =>
                simp only [h1] at h
                have := faceLoop_suffix e p _ _ _ _ _ _ q hp h1
                cases q with
                | bad s' mem' =>
                  cases h
                  exact ⟨this.1, this.2, fun _ g => by obtain ⟨a, b, g⟩ := g; cases g⟩
                | fin s' mem' f rt rn =>
                  simp only at h
                  cases h2 : faceNormals e rn f with
                  | error x => simp [h2] at h
                  | ok f =>
                    simp only [h2] at h
                    split at h
                    · cases h
                      exact ⟨this.1, this.2.1, fun _ g => by obtain ⟨a, b, g⟩ := g; cases g⟩
                    · cases h
                      exact ⟨this.1, this.2.1, fun g _ => this.2.2 g⟩
            · cases h; exact ⟨List.suffix_rfl, hp, fun h _ => h⟩

theorem lineToken_norm (p : Parser K) (m : Mesh K) :
    lineToken p.norm m = (lineToken p m).map (fun x => (x.1.norm, x.2)) := by
  obtain ⟨s, cr, g, v, t, n⟩ := p
  cases cr with
  | some c => rfl
  | none =>
    simp only [lineToken, Parser.norm, nextToken_norm]
    cases nextToken s m.mem <;> rfl

theorem lineToken_suffix {p q : Parser K} {m k : Mesh K} (hp : p.stream.head? ≠ some none)
    (h : lineToken p m = .ok (q, k)) : q.stream <:+ p.stream ∧ q.stream.head? ≠ some none ∧
      (strip p.stream ≠ [] → strip q.stream ≠ []) := by
  unfold lineToken at h
  cases hc : p.craft with
  | some c => simp only [hc] at h; cases h; exact ⟨List.suffix_rfl, hp, fun h => h⟩
  | none =>
    simp only [hc] at h
    cases h1 : nextToken p.stream m.mem with
    | error x => simp [h1] at h
    | ok x =>
      simp only [h1] at h
      cases h
      obtain ⟨a, c, r, b, -⟩ := nextToken_suffix (r := x.1) (mem' := x.2) h1
      exact ⟨a, by simp [b], fun _ => by simp [b]⟩

theorem meshLoop_norm (e : Env K) (n : Nat) : ∀ (p : Parser K) (m : Mesh K), Ready p.stream →
    meshLoop e n p.norm m = (meshLoop e n p m).map (fun x => (x.1, x.2.1.norm, x.2.2)) := by
  induction n with
  | zero => intros; rfl
  | succ n ih =>
    intro p m hp
    obtain ⟨s, cr, g, v, t, nn⟩ := p
    unfold meshLoop
    cases s with
    | nil => rfl
    | cons x s =>
      cases x with
      | none => exact absurd rfl hp.1
      | some c =>
        rw [lineToken_norm]
        simp only [Parser.norm, norm_some]
        cases h1 : lineToken (K := K) ⟨some c :: s, cr, g, v, t, nn⟩ m with
        | error x => rfl
        | ok x =>
          obtain ⟨p1, m1⟩ := x
          obtain ⟨ha, hb, -⟩ := lineToken_suffix hp.1 h1
          have hd := dispatch_norm e p1 m1 hb
          simp only [Parser.norm] at hd
          simp only [Except.map, hd]
          cases h2 : dispatch e p1 m1 with
          | error x => rfl
          | ok o =>
            obtain ⟨hc, hdd, -⟩ := dispatch_suffix hb h2
            cases o with
            | ret b p2 m2 => rfl
            | next p2 m2 =>
              simp only [Step.norm, Parser.norm, skipLine_norm]
              cases h3 : skipLine p2.stream with
              | error x => rfl
              | ok r =>
                simp only [Except.map]
                have hr : Ready r := skipLine_ready ((hp.2.suffix ha).suffix hc) h3
                exact ih { p2 with stream := r } m2 hr

theorem meshLoop_suffix (e : Env K) (n : Nat) : ∀ (p : Parser K) (m : Mesh K) (b : Bool) (q : Parser K) (k : Mesh K),
    Ready p.stream → meshLoop e n p m = .ok (b, q, k) → q.stream <:+ p.stream ∧ Ready q.stream := by
  induction n with
  | zero => intro p m b q k _ h; simp [meshLoop] at h
  | succ n ih =>
    intro p m b q k hp h
    unfold meshLoop at h
    split at h
    · cases h1 : lineToken p m with
      | error x => simp [h1] at h
      | ok x =>
        obtain ⟨p1, m1⟩ := x
        simp only [h1] at h
        obtain ⟨ha, hb, -⟩ := lineToken_suffix hp.1 h1
        cases h2 : dispatch e p1 m1 with
        | error x => simp [h2] at h
        | ok o =>
          simp only [h2] at h
          obtain ⟨hc, hd, -⟩ := dispatch_suffix hb h2
          cases o with
          | ret b' p2 m2 => cases h; exact ⟨hc.trans ha, hd, (hp.2.suffix ha).suffix hc⟩
          | next p2 m2 =>
            simp only at h
            cases h3 : skipLine p2.stream with
            | error x => simp [h3] at h
            | ok r =>
              simp only [h3] at h
              have hr : Ready r := skipLine_ready ((hp.2.suffix ha).suffix hc) h3
              obtain ⟨i1, i2⟩ := ih { p2 with stream := r } m2 b q k hr h
              exact ⟨i1.trans ((skipLine_suffix h3).trans (hc.trans ha)), i2⟩
    · cases h; exact ⟨List.suffix_rfl, hp⟩

theorem getNextMesh_norm (e : Env K) (p : Parser K) (hp : Ready p.stream) :
    getNextMesh e p.norm = (getNextMesh e p).map (fun x => (x.1, x.2.1.norm, x.2.2)) := by
  unfold getNextMesh
  rw [meshLoop_norm e _ p _ hp, show p.norm.stream = norm p.stream from rfl, strip_norm]
  cases meshLoop e ((strip p.stream).length + 1) p (Mesh.init e) <;> rfl

theorem getNextMesh_ready {e : Env K} {p q : Parser K} {b : Bool} {o : Out K} (hp : Ready p.stream)
    (h : getNextMesh e p = .ok (b, q, o)) : q.stream <:+ p.stream ∧ Ready q.stream := by
  unfold getNextMesh at h
  cases h1 : meshLoop e ((strip p.stream).length + 1) p (Mesh.init e) with
  | error x => simp [h1] at h
  | ok x =>
    simp only [h1] at h
    cases h
    exact meshLoop_suffix e _ p _ x.1 x.2.1 x.2.2 hp h1

theorem readAll_norm (e : Env K) (n : Nat) : ∀ p : Parser K, Ready p.stream → readAll e n p.norm = readAll e n p := by
  induction n with
  | zero => intros; rfl
  | succ n ih =>
    intro p hp
    unfold readAll
    rw [getNextMesh_norm e p hp]
    cases h : getNextMesh e p with
    | error x => rfl
    | ok x =>
      obtain ⟨b, q, o⟩ := x
      cases b with
      | false => rfl
      | true =>
        simp only [Except.map]
        rw [ih q (getNextMesh_ready hp h).2]

theorem chunks_head (b k : Nat) (f : List Char) : (chunks b (k + 1) f).head? ≠ some none := by
  cases f <;> simp [chunks]

theorem chunks_chain {b : Nat} (f : List Char) : ∀ k, Chain (chunks b k f) := by
  have aux : ∀ (c : Char) (s : Stream), Chain s → Chain (some c :: s) := by
    intro c s hs
    cases s with
    | nil => exact List.isChain_singleton _
    | cons x s => exact List.isChain_cons_cons.2 ⟨Or.inl rfl, hs⟩
  induction f with
  | nil => intro k; cases k <;> exact List.isChain_nil
  | cons c cs ih =>
    intro k
    cases k with
    | zero => exact List.isChain_cons_cons.2 ⟨Or.inr rfl, aux c _ (ih _)⟩
    | succ k => exact aux c _ (ih _)

theorem chunks_ready {b : Nat} (hb : 0 < b) (f : List Char) : Ready (chunks b b f) := by
  refine ⟨?_, chunks_chain f b⟩
  obtain ⟨k, rfl⟩ : ∃ k, b = k + 1 := ⟨b - 1, by omega⟩
  exact chunks_head _ _ _

/-- Is `c` skipped in front of a token? -/
def blank (c : Char) : Bool := c = ' ' || c = '\t'

/-- Does `c` end a token? -/
def ender (c : Char) : Bool := c = ' ' || c = '\n' || c = '\r'

theorem skipBlank_spec (s : Stream) : match skipBlank s with
    | .error x => x = .hang ∧ (strip s).dropWhile blank = []
    | .ok r => strip r = (strip s).dropWhile blank ∧ strip r ≠ [] := by
  induction s with
  | nil => simp [skipBlank]
  | cons x s ih =>
    cases x with
    | none => simpa [skipBlank] using ih
    | some c =>
      simp only [skipBlank, strip_some]
      by_cases h : c = ' ' ∨ c = '\t'
      · rw [if_pos h, List.dropWhile_cons_of_pos (by simpa [blank] using h)]
        exact ih
      · rw [if_neg h]
        rw [List.dropWhile_cons_of_neg (by simpa [blank] using h)]
        simp

theorem readToken_spec (s : Stream) : match readToken s with
    | .error x => x = .hang ∧ ∀ c ∈ strip s, ender c = false
    | .ok (t, r) => t = (strip s).takeWhile (fun c => !ender c) ∧
        strip r = (strip s).dropWhile (fun c => !ender c) ∧ strip r ≠ [] := by
  induction s with
  | nil => simp [readToken]
  | cons x s ih =>
    cases x with
    | none => simpa [readToken] using ih
    | some c =>
      simp only [readToken, strip_some]
      by_cases h : c = ' ' ∨ c = '\n' ∨ c = '\r'
      · rw [if_pos h]
        have hc : ender c = true := by simpa [ender, or_assoc] using h
        simp [hc]
      · rw [if_neg h]
        have hc : ender c = false := by simpa [ender, and_assoc] using h
        cases h1 : readToken s with
        | error x =>
          simp only [h1] at ih
          refine ⟨ih.1, fun d hd => ?_⟩
          rcases List.mem_cons.1 hd with rfl | hd
          · exact hc
          · exact ih.2 d hd
        | ok y =>
          simp only [h1] at ih
          simp only [hc, Bool.not_false, List.takeWhile_cons_of_pos, List.dropWhile_cons_of_pos]
          exact ⟨by rw [ih.1], ih.2⟩

/-- **C56.**  What `get_next_token` delivers is a function of the bytes of the file alone: behind the blanks, all
characters up to the next space or line end (254 of them are stored), and the position is left on that character; it
waits forever exactly if no such character follows. -/
theorem C56_token_spec (s : Stream) (mem : Mem) :
    let w := (strip s).dropWhile blank
    (nextToken s mem = .error .hang ↔ ∀ c ∈ w, ender c = false) ∧
    ((∃ c ∈ w, ender c = true) → ∃ r, nextToken s mem = .ok (r, store mem ((w.takeWhile (fun c => !ender c)).take 254)) ∧
      strip r = w.dropWhile (fun c => !ender c) ∧ strip r ≠ []) := by
  intro w
  have hb := skipBlank_spec s
  unfold nextToken
  cases h1 : skipBlank s with
  | error x =>
    simp only [h1] at hb
    have hw : w = [] := hb.2
    rw [hw, hb.1]
    simp
  | ok s1 =>
    simp only [h1] at hb
    have hw : strip s1 = w := hb.1
    have hr := readToken_spec s1
    simp only
    cases h2 : readToken s1 with
    | error x =>
      simp only [h2] at hr
      simp only [hr.1, ← hw]
      refine ⟨⟨fun _ => hr.2, fun _ => trivial⟩, ?_⟩
      rintro ⟨c, hc, he⟩
      simp [hr.2 c hc] at he
    | ok y =>
      obtain ⟨t, r⟩ := y
      simp only [h2] at hr
      rw [hw] at hr
      refine ⟨⟨fun h => by simp at h, fun h => ?_⟩, fun _ => ⟨r, by rw [hr.1]; rfl, hr.2⟩⟩
      exfalso
      apply hr.2.2
      rw [hr.2.1, List.dropWhile_eq_nil_iff]
      intro c hc
      simp [h c hc]

/-- **C56.**  Two readers whose remaining bytes agree see the same token and agree afterwards, however the bytes are
cut in chunks. -/
theorem C56_tokens (s s' : Stream) (mem : Mem) (h : strip s = strip s') :
    (nextToken s mem).map (fun x => (strip x.1, x.2)) = (nextToken s' mem).map (fun x => (strip x.1, x.2)) := by
  have hn : norm s = norm s' := by unfold norm; rw [h]
  have h1 := nextToken_norm s mem
  have h2 := nextToken_norm s' mem
  rw [hn, h2] at h1
  cases ha : nextToken s mem with
  | error x =>
    cases hb : nextToken s' mem with
    | error y => rw [ha, hb] at h1; cases h1; rfl
    | ok y => rw [ha, hb] at h1; cases h1
  | ok x =>
    cases hb : nextToken s' mem with
    | error y => rw [ha, hb] at h1; cases h1
    | ok y =>
      rw [ha, hb] at h1
      simp only [Except.map, Except.ok.injEq, Prod.mk.injEq] at h1 ⊢
      refine ⟨?_, h1.2.symm⟩
      have := congrArg strip h1.1
      simpa using this.symm

/-- **C56.**  What is read from a file does not depend on the size of the chunks: the same meshes, the same names and
materials, and the same failures.  (The production code uses 4096, the tests use 3.) -/
theorem C56_file (e : Env K) (b b' : Nat) (hb : 0 < b) (hb' : 0 < b') (file : List Char) :
    readFile e b file = readFile e b' file := by
  unfold readFile
  have h : ∀ b, 0 < b → readAll e (file.length + 1) (start (chunks b b file)) =
      readAll e (file.length + 1) (start (norm (chunks b b file))) := by
    intro b hb
    exact (readAll_norm e (file.length + 1) (start (chunks b b file)) (chunks_ready hb file)).symm
  rw [h b hb, h b' hb']
  congr 2
  unfold norm
  rw [strip_chunks, strip_chunks]

/-! ### C57: termination -/

/-- The remaining bytes end with a line end. -/
def NL (s : Stream) : Prop := ∃ w, strip s = w ++ ['\n']

/-- A computation which comes to an end: with a result, undefined behaviour or an exception. -/
def Ends {α : Type} (x : Except Fault α) : Prop := ∀ y, x = .error y → y = .undef ∨ y = .throw

theorem strip_suffix {r s : Stream} (h : r <:+ s) : strip r <:+ strip s := h.filterMap id

theorem NL.suffix {r s : Stream} (h : NL s) (hr : r <:+ s) (hne : strip r ≠ []) : NL r := by
  obtain ⟨w, hw⟩ := h
  obtain ⟨t, ht⟩ := strip_suffix hr
  rw [hw] at ht
  obtain ⟨u, a, hu⟩ : ∃ u a, strip r = u ++ [a] := ⟨_, _, (List.dropLast_append_getLast hne).symm⟩
  rw [hu, ← List.append_assoc] at ht
  have := List.append_inj' ht rfl
  exact ⟨u, by rw [hu]; simpa using this.2⟩

theorem NL.ne {s : Stream} (h : NL s) : strip s ≠ [] := by
  obtain ⟨w, hw⟩ := h
  simp [hw]

theorem NL.mem {s : Stream} (h : NL s) : ∃ c ∈ (strip s).dropWhile blank, ender c = true := by
  obtain ⟨w, hw⟩ := h
  rw [hw]
  refine ⟨'\n', ?_, by decide⟩
  clear hw
  induction w with
  | nil => simp [blank]
  | cons a w ih =>
    by_cases ha : blank a = true
    · rw [List.cons_append, List.dropWhile_cons_of_pos ha]; exact ih
    · rw [List.cons_append, List.dropWhile_cons_of_neg ha]; simp

theorem nextToken_nl {s : Stream} (mem : Mem) (h : NL s) : ∃ r mem', nextToken s mem = .ok (r, mem') ∧ NL r := by
  obtain ⟨r, h1, -, h3⟩ := (C56_token_spec s mem).2 h.mem
  exact ⟨r, _, h1, h.suffix (nextToken_suffix h1).1 h3⟩

theorem nextToken_fault {s : Stream} {mem : Mem} {y : Fault} (h : nextToken s mem = .error y) : y = .hang := by
  have h1 := skipBlank_spec s
  unfold nextToken at h
  cases hs : skipBlank s with
  | error x => simp only [hs] at h h1; cases h; exact h1.1
  | ok s1 =>
    simp only [hs] at h
    have h2 := readToken_spec s1
    cases hr : readToken s1 with
    | error x => simp only [hr] at h h2; cases h; exact h2.1
    | ok x => simp [hr] at h

theorem nextToken_shorter {s r : Stream} {w : List Char} {mem mem' : Mem} (hs : strip s = ' ' :: w)
    (h : nextToken s mem = .ok (r, mem')) : (strip r).length ≤ w.length := by
  have hspec := C56_token_spec s mem
  have hex : ∃ c ∈ (strip s).dropWhile blank, ender c = true := by
    by_contra hc
    have := hspec.1.2 (fun c hcm => by
      by_contra hce
      exact hc ⟨c, hcm, by simpa using hce⟩)
    rw [h] at this
    cases this
  obtain ⟨r', h1, h2, -⟩ := hspec.2 hex
  rw [h] at h1
  cases h1
  rw [h2, hs, List.dropWhile_cons_of_pos (by decide)]
  exact ((List.dropWhile_suffix _).trans (List.dropWhile_suffix _)).length_le

theorem strtol_fault {mem : Mem} {y : Fault} (h : strtol mem = .error y) : y = .undef := by
  have hsk : ∀ (m : Mem) y, skipSpace m = .error y → y = .undef := by
    intro m
    induction m with
    | nil => intro y h; simp [skipSpace] at h; exact h.symm
    | cons x m ih =>
      intro y h
      cases x with
      | none => simp [skipSpace] at h; exact h.symm
      | some c =>
        simp only [skipSpace] at h
        split at h
        · exact ih y h
        · cases h
  have hdg : ∀ (m : Mem) a y, digits m a = .error y → y = .undef := by
    intro m
    induction m with
    | nil => intro a y h; simp [digits] at h; exact h.symm
    | cons x m ih =>
      intro a y h
      cases x with
      | none => simp [digits] at h; exact h.symm
      | some c =>
        simp only [digits] at h
        split at h
        · exact ih _ y h
        · cases h
  unfold strtol at h
  cases h1 : skipSpace mem with
  | error x => simp only [h1] at h; cases h; exact hsk _ _ h1
  | ok m =>
    simp only [h1] at h
    split at h
    · split at h
      · split at h
        · rename_i h2
          cases h; exact hdg _ _ _ h2
        · cases h
      · cases h
    · cases h; rfl

theorem faceIndex_fault {mem : Mem} {y : Fault} (h : faceIndex mem = .error y) : y = .undef := by
  unfold faceIndex at h
  split at h
  · rename_i h1
    cases h; exact strtol_fault h1
  · split at h
    · cases h
    · split at h
      · split at h
        · split at h
          · rename_i h1; cases h; exact strtol_fault h1
          · cases h
        · split at h
          · rename_i h1; cases h; exact strtol_fault h1
          · split at h
            · rename_i h1; cases h; exact strtol_fault h1
            · cases h
      · cases h; rfl
  · cases h; rfl

theorem fetch_fault {α : Type} {l : List α} {i : Int} {old : α} {y : Fault} (h : fetch l i old = .error y) :
    y = .throw := by
  unfold fetch at h
  cases hr : resolve l.length i <;> simp [hr] at h
  exact h.symm

theorem corner_fault {e : Env K} {p : Parser K} {i : Int × Int × Int} {y : Fault}
    (h : corner e p i = .error y) : y = .throw := by
  unfold corner at h
  split at h
  · rename_i h1; cases h; exact fetch_fault h1
  · cases h
  · split at h
    · rename_i h1; cases h; exact fetch_fault h1
    · cases h
    · split at h
      · rename_i h1; cases h; exact fetch_fault h1
      · cases h
      · cases h

theorem faceLoop_fault (e : Env K) (p : Parser K) (n : Nat) : ∀ (s : Stream) (mem : Mem) (f : List (Vertex K))
    (rt rn : Bool) (y : Fault), (strip s).length < n → faceLoop e p n s mem f rt rn = .error y →
    y ≠ .fuel ∧ (NL s → y = .undef ∨ y = .throw) := by
  induction n with
  | zero => intro s mem f rt rn y h; omega
  | succ n ih =>
    intro s mem f rt rn y hl h
    unfold faceLoop at h
    by_cases hs : s.head? = some (some ' ')
    · rw [if_pos hs] at h
      obtain ⟨w, hw⟩ : ∃ w, strip s = ' ' :: w := by
        cases s with
        | nil => simp at hs
        | cons x s => simp at hs; exact ⟨strip s, by simp [hs]⟩
      cases h1 : nextToken s mem with
      | error x =>
        simp only [h1] at h
        cases h
        have := nextToken_fault h1
        refine ⟨by rw [this]; simp, fun hnl => ?_⟩
        obtain ⟨r, m', h2, -⟩ := nextToken_nl mem hnl
        rw [h1] at h2; cases h2
      | ok x =>
        obtain ⟨s1, mem1⟩ := x
        simp only [h1] at h
        have hlen := nextToken_shorter hw h1
        obtain ⟨hsuf, c, r, hr, -⟩ := nextToken_suffix h1
        cases h2 : faceIndex mem1 with
        | error x =>
          simp only [h2] at h
          cases h
          have := faceIndex_fault h2
          exact ⟨by rw [this]; simp, fun _ => Or.inl this⟩
        | ok i =>
          simp only [h2] at h
          cases h3 : corner e p i with
          | error x =>
            simp only [h3] at h
            cases h
            have := corner_fault h3
            exact ⟨by rw [this]; simp, fun _ => Or.inr this⟩
          | ok o =>
            simp only [h3] at h
            cases o with
            | none => cases h
            | some v =>
              simp only at h
              have hl2 : (strip s1).length < n := by
                rw [hw] at hl; simp at hl; omega
              obtain ⟨ha, hb⟩ := ih s1 _ _ _ _ y hl2 h
              exact ⟨ha, fun hnl => hb (hnl.suffix hsuf (by rw [hr]; simp))⟩
    · rw [if_neg hs] at h
      cases h

theorem float_fault {e : Env K} {s : Stream} {mem : Mem} {y : Fault} (h : float e s mem = .error y) :
    y = .hang ∧ ¬ NL s := by
  unfold float at h
  cases h1 : nextToken s mem with
  | error x =>
    simp only [h1] at h
    cases h
    refine ⟨nextToken_fault h1, fun hnl => ?_⟩
    obtain ⟨r, m', h2, -⟩ := nextToken_nl mem hnl
    rw [h1] at h2; cases h2
  | ok x => simp [h1] at h

theorem float_nl {e : Env K} {s r : Stream} {mem mem' : Mem} {v : K} (h : float e s mem = .ok (v, r, mem'))
    (hs : NL s) : NL r := by
  obtain ⟨h1, c, r', h2⟩ := float_suffix h
  exact hs.suffix h1 (by rw [h2]; simp)

theorem float3_fault {e : Env K} {s : Stream} {mem : Mem} {y : Fault} (h : float3 e s mem = .error y) :
    y = .hang ∧ ¬ NL s := by
  unfold float3 at h
  cases h1 : float e s mem with
  | error x => simp only [h1] at h; cases h; exact float_fault h1
  | ok x =>
    obtain ⟨a, s1, m1⟩ := x
    simp only [h1] at h
    cases h2 : float e s1 m1 with
    | error x =>
      simp only [h2] at h; cases h
      exact ⟨(float_fault h2).1, fun hnl => (float_fault h2).2 (float_nl h1 hnl)⟩
    | ok x =>
      obtain ⟨b, s2, m2⟩ := x
      simp only [h2] at h
      cases h3 : float e s2 m2 with
      | error x =>
        simp only [h3] at h; cases h
        exact ⟨(float_fault h3).1, fun hnl => (float_fault h3).2 (float_nl h2 (float_nl h1 hnl))⟩
      | ok x => simp [h3] at h

theorem float2_fault {e : Env K} {s : Stream} {mem : Mem} {y : Fault} (h : float2 e s mem = .error y) :
    y = .hang ∧ ¬ NL s := by
  unfold float2 at h
  cases h1 : float e s mem with
  | error x => simp only [h1] at h; cases h; exact float_fault h1
  | ok x =>
    obtain ⟨a, s1, m1⟩ := x
    simp only [h1] at h
    cases h2 : float e s1 m1 with
    | error x =>
      simp only [h2] at h; cases h
      exact ⟨(float_fault h2).1, fun hnl => (float_fault h2).2 (float_nl h1 hnl)⟩
    | ok x => simp [h2] at h

theorem nextToken_fault' {s : Stream} {mem : Mem} {y : Fault} (h : nextToken s mem = .error y) :
    y = .hang ∧ ¬ NL s := by
  refine ⟨nextToken_fault h, fun hnl => ?_⟩
  obtain ⟨r, m', h2, -⟩ := nextToken_nl mem hnl
  rw [h] at h2; cases h2

/-- A fault of one line is never the step bound, and no waiting if a line end follows. -/
def Clean (s : Stream) (y : Fault) : Prop := y ≠ .fuel ∧ (NL s → y = .undef ∨ y = .throw)

theorem clean_of_hang {s : Stream} {y : Fault} (h : y = .hang ∧ ¬ NL s) : Clean s y :=
  ⟨by rw [h.1]; simp, fun g => absurd g h.2⟩

theorem dispatch_fault {e : Env K} {p : Parser K} {m : Mesh K} {y : Fault} (h : dispatch e p m = .error y) :
    Clean p.stream y := by
  unfold dispatch at h
  cases hc : (cstr m.mem).head? with
  | none => simp [hc] at h
  | some c =>
    simp only [hc] at h
    split at h
    · unfold caseV at h
      split at h
      · split at h
        · rename_i h1; cases h; exact clean_of_hang (float2_fault h1)
        · cases h
      · split at h
        · split at h
          · rename_i h1; cases h; exact clean_of_hang (float3_fault h1)
          · cases h
        · split at h
          · rename_i h1; cases h; exact clean_of_hang (float3_fault h1)
          · cases h
    · split at h
      · unfold caseU at h
        split at h
        · split at h
          · rename_i h1; cases h; exact clean_of_hang (nextToken_fault' h1)
          · cases h
        · cases h
      · split at h
        · unfold caseO at h
          split at h
          · cases h
          · split at h
            · rename_i h1; cases h; exact clean_of_hang (nextToken_fault' h1)
            · cases h
        · split at h
          · unfold caseG at h
            split at h
            · cases h
            · split at h
              · split at h
                · rename_i h1; cases h; exact clean_of_hang (nextToken_fault' h1)
                · cases h
              · cases h
          · split at h
            · unfold caseF at h
              split at h
              · rename_i h1
                cases h
                exact faceLoop_fault e p _ _ _ _ _ _ _ (by omega) h1
              · cases h
              · split at h
                · rename_i h1
                  cases h
                  unfold faceNormals at h1
                  split at h1
                  · split at h1
                    · cases h1
                    · cases h1; exact ⟨by simp, fun _ => Or.inl rfl⟩
                  · cases h1
                · split at h <;> cases h
            · cases h

theorem skipLine_shorter {s r : Stream} (h : skipLine s = .ok r) : (strip r).length < (strip s).length := by
  induction s with
  | nil => simp [skipLine] at h
  | cons x s ih =>
    cases x with
    | none => exact ih (by simpa [skipLine] using h)
    | some c =>
      simp only [skipLine] at h
      split at h
      · split at h <;> (cases h; simp)
      · have := ih h
        simp
        omega

theorem skipLine_fault {s : Stream} {y : Fault} (h : skipLine s = .error y) : y = .hang ∧ '\n' ∉ strip s := by
  induction s with
  | nil => simp [skipLine] at h; exact ⟨h.symm, by simp⟩
  | cons x s ih =>
    cases x with
    | none => exact ih (by simpa [skipLine] using h)
    | some c =>
      simp only [skipLine] at h
      split at h
      · split at h <;> cases h
      · rename_i hc
        obtain ⟨h1, h2⟩ := ih h
        exact ⟨h1, by simp [h2, Ne.symm hc]⟩

/-- Either nothing is left or the file ends with a line end. -/
def Closed (s : Stream) : Prop := strip s = [] ∨ NL s

theorem Closed.suffix {r s : Stream} (h : Closed s) (hr : r <:+ s) : Closed r := by
  by_cases hne : strip r = []
  · exact Or.inl hne
  · rcases h with h | h
    · have := strip_suffix hr
      rw [h] at this
      exact Or.inl (List.suffix_nil.1 this)
    · exact Or.inr (h.suffix hr hne)

theorem meshLoop_fault (e : Env K) (n : Nat) : ∀ (p : Parser K) (m : Mesh K) (y : Fault),
    p.stream.head? ≠ some none → Chain p.stream → (strip p.stream).length < n → meshLoop e n p m = .error y →
    y ≠ .fuel ∧ (Closed p.stream → y = .undef ∨ y = .throw) := by
  induction n with
  | zero => intro p m y _ _ h; omega
  | succ n ih =>
    intro p m y hh hch hl h
    unfold meshLoop at h
    split at h
    · rename_i c s hs
      have hne : strip p.stream ≠ [] := by rw [hs]; simp
      have hcl : Closed p.stream → NL p.stream := fun h => h.resolve_left hne
      cases h1 : lineToken p m with
      | error x =>
        simp only [h1] at h
        cases h
        unfold lineToken at h1
        split at h1
        · cases h1
        · split at h1
          · rename_i h2
            cases h1
            obtain ⟨a, b⟩ := nextToken_fault' h2
            exact ⟨by rw [a]; simp, fun g => absurd (hcl g) b⟩
          · cases h1
      | ok x =>
        obtain ⟨p1, m1⟩ := x
        simp only [h1] at h
        obtain ⟨ha, hb, hc⟩ := lineToken_suffix hh h1
        have hnl1 : Closed p.stream → NL p1.stream := fun g => (hcl g).suffix ha (hc hne)
        cases h2 : dispatch e p1 m1 with
        | error x =>
          simp only [h2] at h
          cases h
          obtain ⟨i, j⟩ := dispatch_fault h2
          exact ⟨i, fun g => j (hnl1 g)⟩
        | ok o =>
          simp only [h2] at h
          obtain ⟨hd, he, hf⟩ := dispatch_suffix hb h2
          cases o with
          | ret b p2 m2 => cases h
          | next p2 m2 =>
            simp only [Step.stream] at h hd he hf
            have hne2 := hf (hc hne) ⟨_, _, rfl⟩
            have hnl2 : Closed p.stream → NL p2.stream := fun g => (hnl1 g).suffix hd hne2
            cases h3 : skipLine p2.stream with
            | error x =>
              simp only [h3] at h
              cases h
              obtain ⟨i, j⟩ := skipLine_fault h3
              refine ⟨by rw [i]; simp, fun g => absurd ?_ j⟩
              obtain ⟨w, hw⟩ := hnl2 g
              simp [hw]
            | ok r =>
              simp only [h3] at h
              have hlen := skipLine_shorter h3
              have hsl := (strip_suffix (hd.trans ha)).length_le
              have hrd := skipLine_ready ((hch.suffix ha).suffix hd) h3
              obtain ⟨i, j⟩ := ih { p2 with stream := r } m2 y hrd.1 hrd.2 (by simp; omega) h
              exact ⟨i, fun g => j ((g.suffix (hd.trans ha)).suffix (skipLine_suffix h3))⟩
    · cases h

theorem dispatch_ret {e : Env K} {p q : Parser K} {m k : Mesh K} {b : Bool}
    (h : dispatch e p m = .ok (.ret b q k)) : b = m.retval ∨ b = false := by
  unfold dispatch at h
  cases hc : (cstr m.mem).head? with
  | none => simp [hc] at h
  | some c =>
    simp only [hc] at h
    split at h
    · unfold caseV at h
      split at h
      · split at h <;> cases h
      · split at h
        · split at h <;> cases h
        · split at h <;> cases h
    · split at h
      · unfold caseU at h
        split at h
        · split at h <;> cases h
        · cases h
      · split at h
        · unfold caseO at h
          split at h
          · cases h; exact Or.inl rfl
          · split at h <;> cases h
        · split at h
          · unfold caseG at h
            split at h
            · cases h; exact Or.inl rfl
            · split at h
              · split at h <;> cases h
              · cases h
          · split at h
            · unfold caseF at h
              split at h
              · cases h
              · cases h; exact Or.inr rfl
              · split at h
                · cases h
                · split at h
                  · cases h; exact Or.inr rfl
                  · cases h
            · cases h

theorem meshLoop_shorter (e : Env K) (n : Nat) (p : Parser K) (m : Mesh K) (q : Parser K) (k : Mesh K)
    (hp : Ready p.stream) (hm : m.retval = false) (h : meshLoop e n p m = .ok (true, q, k)) :
    (strip q.stream).length < (strip p.stream).length := by
  cases n with
  | zero => simp [meshLoop] at h
  | succ n =>
    unfold meshLoop at h
    split at h
    · cases h1 : lineToken p m with
      | error x => simp [h1] at h
      | ok x =>
        obtain ⟨p1, m1⟩ := x
        simp only [h1] at h
        have hm1 : m1.retval = false := by
          unfold lineToken at h1
          split at h1
          · cases h1; exact hm
          · split at h1
            · cases h1
            · cases h1; exact hm
        obtain ⟨ha, hb, -⟩ := lineToken_suffix hp.1 h1
        cases h2 : dispatch e p1 m1 with
        | error x => simp [h2] at h
        | ok o =>
          simp only [h2] at h
          obtain ⟨hc, hd, -⟩ := dispatch_suffix hb h2
          cases o with
          | ret b' p2 m2 =>
            cases h
            rcases dispatch_ret h2 with g | g
            · rw [hm1] at g; cases g
            · cases g
          | next p2 m2 =>
            simp only at h
            cases h3 : skipLine p2.stream with
            | error x => simp [h3] at h
            | ok r =>
              simp only [h3] at h
              have hr : Ready r := skipLine_ready ((hp.2.suffix ha).suffix hc) h3
              obtain ⟨i1, -⟩ := meshLoop_suffix e n { p2 with stream := r } m2 true q k hr h
              have a1 := (strip_suffix i1).length_le
              have a2 := skipLine_shorter h3
              have a3 := (strip_suffix hc).length_le
              have a4 := (strip_suffix ha).length_le
              simp only [Step.stream] at *
              omega
    · have := congrArg (fun x : Except Fault (Bool × Parser K × Mesh K) => x.map (fun y => y.1)) h
      simp [Except.map, hm] at this

theorem readAll_fault (e : Env K) (n : Nat) : ∀ (p : Parser K) (y : Fault), Ready p.stream →
    (strip p.stream).length < n → readAll e n p = .error y →
    y ≠ .fuel ∧ (Closed p.stream → y = .undef ∨ y = .throw) := by
  induction n with
  | zero => intro p y _ h; omega
  | succ n ih =>
    intro p y hp hl h
    unfold readAll at h
    cases h1 : getNextMesh e p with
    | error x =>
      simp only [h1] at h
      cases h
      unfold getNextMesh at h1
      cases h2 : meshLoop e ((strip p.stream).length + 1) p (Mesh.init e) with
      | error z =>
        simp only [h2] at h1
        cases h1
        exact meshLoop_fault e _ p _ _ hp.1 hp.2 (by omega) h2
      | ok z => simp [h2] at h1
    | ok x =>
      obtain ⟨b, q, o⟩ := x
      cases b with
      | false => simp [h1] at h
      | true =>
        simp only [h1] at h
        obtain ⟨i1, i2⟩ := getNextMesh_ready hp h1
        have hlt : (strip q.stream).length < (strip p.stream).length := by
          unfold getNextMesh at h1
          cases h2 : meshLoop e ((strip p.stream).length + 1) p (Mesh.init e) with
          | error z => simp [h2] at h1
          | ok z =>
            obtain ⟨b', q', k'⟩ := z
            simp only [h2] at h1
            cases h1
            exact meshLoop_shorter e _ p _ q k' hp rfl h2
        cases h3 : readAll e n q with
        | error z =>
          simp only [h3] at h
          cases h
          obtain ⟨j1, j2⟩ := ih q y i2 (by omega) h3
          exact ⟨j1, fun g => j2 (g.suffix i1)⟩
        | ok z => simp [h3] at h

/-- The step bounds of the model are never reached, so `Fault.hang` is the only way not to come to an end. -/
theorem C57_no_fuel (e : Env K) (b : Nat) (hb : 0 < b) (file : List Char) : readFile e b file ≠ .error .fuel := by
  intro h
  exact (readAll_fault e _ _ _ (chunks_ready hb file) (by simp [start, strip_chunks]) h).1 rfl

/-- **C57, for files which end with a line end.**  Reading comes to an end, for every chunk size.  (Full statement:
for every file.  It does not hold: `C57_violated`.) -/
theorem C57_partial (e : Env K) (b : Nat) (hb : 0 < b) (file : List Char)
    (h : file = [] ∨ ∃ w, file = w ++ ['\n']) : Ends (readFile e b file) := by
  intro y hy
  refine (readAll_fault e _ _ y (chunks_ready hb file) (by simp [start, strip_chunks]) hy).2 ?_
  simp only [start, Closed, NL, strip_chunks]
  exact h

theorem cstr_store (mem : Mem) (t : List Char) : cstr (store mem t) = t.takeWhile (fun c => c != nul) := by
  unfold cstr store
  generalize mem.drop (t.length + 1) = tl
  induction t with
  | nil => simp
  | cons a t ih =>
    by_cases ha : a = nul
    · simp [ha]
    · have h1 : (some a != some nul) = true := by simpa using ha
      have h2 : (a != nul) = true := by simpa using ha
      rw [List.map_cons, List.cons_append, List.takeWhile_cons, List.takeWhile_cons, if_pos h1, if_pos h2]
      simpa using ih

theorem dispatch_other (e : Env K) (p : Parser K) (m : Mesh K)
    (h : ∀ c, (cstr m.mem).head? = some c → c ≠ 'v' ∧ c ≠ 'u' ∧ c ≠ 'o' ∧ c ≠ 'g' ∧ c ≠ 'f') :
    dispatch e p m = .ok (.next p m) := by
  unfold dispatch
  cases hc : (cstr m.mem).head? with
  | none => rfl
  | some c =>
    obtain ⟨a, b, c, d, f⟩ := h c hc
    simp [a, b, c, d, f]

/-- The letters which `get_next_mesh` looks at. -/
def letters : List Char := [' ', '\t', '\n', 'v', 'u', 'o', 'g', 'f', nul]

/-- **C57 does not hold** for a file whose last line has no line end: whatever the line consists of (a comment, for
example), the reader waits for the line end forever. -/
theorem C57_violated (e : Env K) (b : Nat) (hb : 0 < b) (c : Char) (w : List Char) (hc : c ∉ letters)
    (hw : '\n' ∉ w) : readFile e b (c :: w) = .error .hang := by
  unfold readFile
  rw [← readAll_norm e _ _ (chunks_ready hb _)]
  simp only [Parser.norm, start, norm, strip_chunks, List.length_cons]
  simp only [letters, List.mem_cons, List.not_mem_nil, or_false, not_or] at hc
  obtain ⟨c1, c2, c3, c4, c5, c6, c7, c8, c9⟩ := hc
  unfold readAll getNextMesh
  rw [show strip ((c :: w).map some) = c :: w from by simp [strip]]
  unfold meshLoop
  simp only [List.map_cons, lineToken]
  cases h1 : nextToken (some c :: w.map some) (Mesh.init e).mem with
  | error x => rw [nextToken_fault h1]
  | ok x =>
    obtain ⟨r, mem⟩ := x
    have hst : strip (some c :: w.map some) = c :: w := by simp [strip]
    have hspec := C56_token_spec (some c :: w.map some) (Mesh.init e).mem
    simp only [hst] at hspec
    have hbl : blank c = false := by simp [blank, c1, c2]
    rw [List.dropWhile_cons_of_neg (by simp [hbl])] at hspec
    have hex : ∃ d ∈ c :: w, ender d = true := by
      by_contra hcc
      have := hspec.1.2 (fun d hd => by
        by_contra hce
        exact hcc ⟨d, hd, by simpa using hce⟩)
      rw [h1] at this
      cases this
    obtain ⟨r', g1, g2, g3⟩ := hspec.2 hex
    rw [h1] at g1
    obtain ⟨rfl, rfl⟩ : r = r' ∧ mem = _ := by simpa using g1
    simp only
    rw [dispatch_other]
    swap
    · intro d hd
      rw [cstr_store] at hd
      by_cases hr : ender c = true
      · rw [List.takeWhile_cons_of_neg (by simp [hr])] at hd
        simp at hd
      · rw [List.takeWhile_cons_of_pos (by simpa using hr), List.take_succ_cons,
          List.takeWhile_cons_of_pos (by simpa using c9)] at hd
        simp only [List.head?_cons, Option.some.injEq] at hd
        subst hd
        exact ⟨c4, c5, c6, c7, c8⟩
    simp only
    have hno : '\n' ∉ strip r := by
      rw [g2]
      intro hmem
      have := (List.dropWhile_suffix (fun c => !ender c)).subset hmem
      rcases List.mem_cons.1 this with h | h
      · exact c3 h.symm
      · exact hw h
    cases h3 : skipLine r with
    | error x => rw [(skipLine_fault h3).1]
    | ok z =>
      exfalso
      have : ∀ (s z : Stream), skipLine s = .ok z → '\n' ∈ strip s := by
        intro s
        induction s with
        | nil => intro z h; simp [skipLine] at h
        | cons x s ih =>
          intro z h
          cases x with
          | none => exact ih z (by simpa [skipLine] using h)
          | some d =>
            simp only [skipLine] at h
            split at h
            · rename_i hd; simp [hd]
            · simp [ih z h]
      exact hno (this r z h3)

end Spectre.Obj
