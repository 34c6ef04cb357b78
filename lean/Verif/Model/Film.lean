import Verif.Model.Tiles
import Mathlib.Algebra.Order.Field.Rat
import Mathlib.Algebra.Order.Floor.Ring
import Mathlib.Data.Rat.Floor
import Mathlib.Algebra.Group.Prod

/-
Model of `src/cameras/image_film.cpp` and of the worker loop `executor` in `src/renderer.cpp`.

* Positions and colours are exact rationals (float rounding is not modelled here).
* One addition to a pixel (`buffer.get`, `+=`, `buffer.set`) is one atomic step; C10 is about when this
  is not justified.
* The job queue is only accessed under its own mutex (renderer.cpp:182-197): taking a job is one step.
-/

namespace Spectre.Film
open Spectre.Tiles

/-- Pixel coordinates. -/
abbrev Px := ℤ × ℤ

/-- `class Filter`, filter.hpp: ranges and weight. -/
structure Filter where
  rx : ℚ
  ry : ℚ
  weight : ℚ → ℚ → ℚ

/-- `FilterBox`, filter_box.cpp:6-15. -/
def boxFilter : Filter := ⟨1, 1, fun _ _ => 1⟩

/-- `FilterTent`, filter_tent.cpp:6-16. -/
def tentFilter : Filter := ⟨2, 2, fun x y => max 0 (2 - |x|) / 2 * (max 0 (2 - |y|) / 2)⟩

/-- `struct Pixel` without the position: the three colour sums and the weight sum. -/
abbrev Val := ℚ × ℚ × ℚ × ℚ

/-- Range of pixels updated along one axis: `max((int)ceilf(centre-range),0)` up to, but excluding,
`min((int)floorf(centre+range),size)`, with `centre = pos-0.5`; image_film.cpp:53-64. -/
def lowPix (pos range : ℚ) : ℤ := max ⌈pos - 1 / 2 - range⌉ 0
def highPix (pos range : ℚ) (size : ℤ) : ℤ := min ⌊pos - 1 / 2 + range⌋ size

/-- The loop values `lo, lo+1, .., hi-1` of an `int` loop. -/
def loop (lo hi : ℤ) : List ℤ := (List.range (hi - lo).toNat).map fun (k : ℕ) => lo + (k : ℤ)

/-- One pixel update issued by a sample: `direct` when it is done at once, otherwise pushed on the
deferred stack. -/
structure Op (V : Type) where
  px : Px
  val : V
  direct : Bool

/-- Test deciding between the two branches, image_film.cpp:71-72 (the pixel is *not* outside of the
secure area; note that `endx` and `endy` are past-the-end values). -/
def secure (t : Task) (p : Px) : Bool :=
  !(decide (p.1 < t.startx) || decide (p.1 > t.endx) || decide (p.2 < t.starty) || decide (p.2 > t.endy))

/-- `color` after the clamp of negative components and multiplication by the weight,
image_film.cpp:48-50, 78-81, 88-91. -/
def contribution (w : ℚ) (c : Fin 3 → ℚ) : Val :=
  let cl := fun i => if c i < 0 then 0 else c i
  (cl 0 * w, cl 1 * w, cl 2 * w, w)

/-- `add_pixel`, image_film.cpp:45-95: the updates of one sample in order. -/
def addPixel (width height : ℕ) (f : Filter) (t : Task) (posx posy : ℚ) (c : Fin 3 → ℚ) :
    List (Op Val) :=
  (loop (lowPix posy f.ry) (highPix posy f.ry height)).flatMap fun y =>
    (loop (lowPix posx f.rx) (highPix posx f.rx width)).map fun x =>
      { px := (x, y), val := contribution (f.weight (x - (posx - 1 / 2)) (y - (posy - 1 / 2))) c,
        direct := secure t (x, y) }

/-- Where a worker is in `executor` (renderer.cpp:178-240) and in the film functions. -/
inductive Phase (V : Type) where
  | idle                          -- head of the loop
  | working (ops : List (Op V))   -- sampling a tile; updates still to do
  | trying                        -- at `mtx.try_lock()`, image_film.cpp:100
  | draining (final : Bool)       -- in one of the two drain loops, holding the mutex
  | locking                       -- at `mtx.lock()`, image_film.cpp:128
  | finished

/-- One worker: its position and its `deferred` stack. -/
structure Worker (V : Type) where
  phase : Phase V
  deferred : List (Px × V)

/-- The whole system with `n` workers.  `issued` and `popped` are history variables: the updates done
so far by `add_pixel`, and the tiles taken so far with all their updates. -/
structure Sys (n : ℕ) (V : Type) where
  jobs : List Task
  buffer : Px → V
  owner : Option (Fin n)
  workers : Fin n → Worker V
  issued : List (Px × V)
  popped : List (Task × List (Op V))

variable {n : ℕ} {V : Type} [AddCommMonoid V]

/-- Change one worker. -/
def Sys.set (s : Sys n V) (i : Fin n) (w : Worker V) : Sys n V :=
  { s with workers := Function.update s.workers i w }

/-- Add a value to one pixel: `buffer.get`, `+=`, `buffer.set`. -/
def addAt (b : Px → V) (p : Px) (v : V) : Px → V := Function.update b p (b p + v)

/-- One step of one worker.  `gen t ops`: `ops` is a possible sequence of updates for tile `t`. -/
inductive Step (gen : Task → List (Op V) → Prop) : Sys n V → Sys n V → Prop
  /-- renderer.cpp:190-197, 199-216 -/
  | pop {s : Sys n V} {i d t js ops} (h : s.workers i = ⟨.idle, d⟩) (hj : s.jobs = t :: js)
      (hg : gen t ops) :
      Step gen s { (s.set i ⟨.working ops, d⟩) with jobs := js, popped := (t, ops) :: s.popped }
  /-- renderer.cpp:184-189, 242 -/
  | noJob {s : Sys n V} {i d} (h : s.workers i = ⟨.idle, d⟩) (hj : s.jobs = []) :
      Step gen s (s.set i ⟨.locking, d⟩)
  /-- image_film.cpp:86-93 -/
  | add {s : Sys n V} {i p v ops d} (h : s.workers i = ⟨.working (⟨p, v, true⟩ :: ops), d⟩) :
      Step gen s { (s.set i ⟨.working ops, d⟩) with
        buffer := addAt s.buffer p v, issued := (p, v) :: s.issued }
  /-- image_film.cpp:73-84 -/
  | push {s : Sys n V} {i p v ops d} (h : s.workers i = ⟨.working (⟨p, v, false⟩ :: ops), d⟩) :
      Step gen s { (s.set i ⟨.working ops, (p, v) :: d⟩) with issued := (p, v) :: s.issued }
  /-- renderer.cpp:238 -/
  | endTile {s : Sys n V} {i d} (h : s.workers i = ⟨.working [], d⟩) :
      Step gen s (s.set i ⟨.trying, d⟩)
  /-- image_film.cpp:100, the lock is free and is taken -/
  | tryOk {s : Sys n V} {i d} (h : s.workers i = ⟨.trying, d⟩) (ho : s.owner = none) :
      Step gen s { (s.set i ⟨.draining false, d⟩) with owner := some i }
  /-- image_film.cpp:100, the lock is not obtained (`try_lock` may fail at any time) -/
  | tryFail {s : Sys n V} {i d} (h : s.workers i = ⟨.trying, d⟩) : Step gen s (s.set i ⟨.idle, d⟩)
  /-- image_film.cpp:105-116 and 130-140 -/
  | drain {s : Sys n V} {i b p v d} (h : s.workers i = ⟨.draining b, (p, v) :: d⟩) :
      Step gen s { (s.set i ⟨.draining b, d⟩) with buffer := addAt s.buffer p v }
  /-- image_film.cpp:117 and 141 -/
  | unlock {s : Sys n V} {i b} (h : s.workers i = ⟨.draining b, []⟩) :
      Step gen s { (s.set i ⟨if b then .finished else .idle, []⟩) with owner := none }
  /-- image_film.cpp:128 -/
  | lock {s : Sys n V} {i d} (h : s.workers i = ⟨.locking, d⟩) (ho : s.owner = none) :
      Step gen s { (s.set i ⟨.draining true, d⟩) with owner := some i }

/-- Start of `render`: all tiles queued, film zeroed (image_film.cpp:12), workers at the head of their
loop with an empty stack. -/
def start (n : ℕ) (jobs : List Task) : Sys n V :=
  { jobs := jobs, buffer := fun _ => 0, owner := none, workers := fun _ => ⟨.idle, []⟩,
    issued := [], popped := [] }

/-- Reachable states. -/
inductive Reach (gen : Task → List (Op V) → Prop) (jobs : List Task) : Sys n V → Prop
  | init : Reach gen jobs (start n jobs)
  | step {s s'} : Reach gen jobs s → Step gen s s' → Reach gen jobs s'

/-- The updates of a tile in the real program: any samples inside the tile (C07) with any colours. -/
def TileOps (width height : ℕ) (f : Filter) (t : Task) (ops : List (Op Val)) : Prop :=
  ∃ samples : List (ℚ × ℚ × (Fin 3 → ℚ)),
    (∀ s ∈ samples, (t.startx : ℚ) ≤ s.1 ∧ s.1 ≤ t.endx ∧ (t.starty : ℚ) ≤ s.2.1 ∧ s.2.1 ≤ t.endy) ∧
    ops = samples.flatMap fun s => addPixel width height f t s.1 s.2.1 s.2.2

end Spectre.Film
