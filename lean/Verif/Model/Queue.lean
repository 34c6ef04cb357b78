import Verif.Model.Float32
import Verif.Model.Well

/-
The rendering threads of /repo/src/renderer.cpp: the queue of jobs and its mutex, the listener that shows the progress,
and the seeds of the random generators; the progress bar of /repo/src/utility/console.cpp.

Threads are interleaved step by step (sequential consistency).  Two accesses to the same variable race if they are the
next steps of two threads, one of them writes, and the variable is not atomic (none is, here).
-/

namespace Spectre.Queue

/-! ## The progress bar -/

/-- `done`, renderer.cpp:284: `n` jobs at the start, `rem` of them left; `unsigned long` is converted to `float`. -/
def fraction (n rem : Nat) : ℚ := fl (fl ((n - rem : Nat) : ℚ) / fl (n : ℚ))

/-- The text in parentheses, console.cpp:161-176. -/
def bar (done : ℚ) : List Char :=
  let i := ⌊fl (done * 20)⌋.toNat
  List.replicate i '#' ++ List.replicate (20 - i) '-'

/-- The percentage, console.cpp:161 and 180. -/
def percent (done : ℚ) : Int := ⌊fl (fl (done * 20) * 5)⌋

/-- `eta`, renderer.cpp:285-286, after `t` seconds.  `none`: without a job taken the quotient is infinite or not a
number, and its conversion to `time_t` is undefined. -/
def eta (t n rem : Nat) : Option Int :=
  if n - rem = 0 then none
  else some ⌊fl (fl (fl (t : ℚ) / fl ((n - rem : Nat) : ℚ)) * fl (rem : ℚ))⌋

/-! ## The queue of jobs -/

/-- Where a worker is in the loop of `executor`, renderer.cpp:186-242. -/
inductive At (J : Type) where
  | start                 -- before `lock->lock()`, line 188
  | locked                -- before `jobs->empty()`, line 190
  | empty                 -- before `lock->unlock()`, line 192
  | nonempty              -- before `jobs->top()`, line 198
  | topped (j : J)        -- before `jobs->pop()`, line 199
  | popped (j : J)        -- before `lock->unlock()`, line 200
  | working (j : J)       -- lines 203-241
  | finished              -- after the loop

/-- What the listener does, renderer.cpp:280-292. -/
inductive Listener where
  | test                  -- before `while(alive)`, line 280
  | size                  -- before `jobs->size()`, line 282
  | ended
  deriving DecidableEq

/-- What the main thread does, renderer.cpp:125-129. -/
inductive Main where
  | join                  -- waits for the workers
  | kill                  -- before `alive = false`, line 263
  | killed
  deriving DecidableEq

/-- All threads: the stack of jobs, the owner of `jobs_mtx`, the workers, the listener and the main thread.  `taken` is a
history variable: the jobs popped so far with their workers. -/
structure Threads (n : Nat) (J : Type) where
  jobs : List J
  owner : Option (Fin n)
  worker : Fin n → At J
  listener : Listener := .test
  main : Main := .join
  alive : Bool := true
  taken : List (Fin n × J) := []

variable {n : Nat} {J : Type}

/-- The worker `i` moves to `a`. -/
def Threads.to (s : Threads n J) (i : Fin n) (a : At J) : Threads n J :=
  { s with worker := fun k => if k = i then a else s.worker k }

/-- One step of one thread. -/
inductive Step : Threads n J → Threads n J → Prop
  /-- line 188 -/
  | lock {s : Threads n J} {i} (h : s.worker i = .start) (ho : s.owner = none) :
      Step s { s.to i .locked with owner := some i }
  /-- line 190, the queue is empty -/
  | isEmpty {s : Threads n J} {i} (h : s.worker i = .locked) (hj : s.jobs = []) : Step s (s.to i .empty)
  /-- line 190, the queue is not empty -/
  | notEmpty {s : Threads n J} {i} (h : s.worker i = .locked) (hj : s.jobs ≠ []) : Step s (s.to i .nonempty)
  /-- lines 192-194 -/
  | leave {s : Threads n J} {i} (h : s.worker i = .empty) : Step s { s.to i .finished with owner := none }
  /-- line 198 -/
  | top {s : Threads n J} {i j js} (h : s.worker i = .nonempty) (hj : s.jobs = j :: js) : Step s (s.to i (.topped j))
  /-- line 199 -/
  | pop {s : Threads n J} {i j k js} (h : s.worker i = .topped j) (hj : s.jobs = k :: js) :
      Step s { s.to i (.popped j) with jobs := js, taken := (i, j) :: s.taken }
  /-- line 200 -/
  | unlock {s : Threads n J} {i j} (h : s.worker i = .popped j) : Step s { s.to i (.working j) with owner := none }
  /-- lines 203-241 -/
  | work {s : Threads n J} {i j} (h : s.worker i = .working j) : Step s (s.to i .start)
  /-- line 280, going on -/
  | listen {s : Threads n J} (h : s.listener = .test) (ha : s.alive = true) : Step s { s with listener := .size }
  /-- lines 282-291 -/
  | show {s : Threads n J} (h : s.listener = .size) : Step s { s with listener := .test }
  /-- line 280, at the end -/
  | stop {s : Threads n J} (h : s.listener = .test) (ha : s.alive = false) : Step s { s with listener := .ended }
  /-- lines 125-128 -/
  | joined {s : Threads n J} (h : s.main = .join) (hw : ∀ i, s.worker i = .finished) : Step s { s with main := .kill }
  /-- line 263 -/
  | kill {s : Threads n J} (h : s.main = .kill) : Step s { s with main := .killed, alive := false }

/-- States that can be reached from the start, renderer.cpp:101-122, with the given stack of jobs. -/
inductive Reach (jobs : List J) : Threads n J → Prop
  | start : Reach jobs { jobs := jobs, owner := none, worker := fun _ => .start }
  | step {s t : Threads n J} (h : Reach jobs s) (hs : Step s t) : Reach jobs t

/-- The next step of the worker reads the stack of jobs. -/
def Reads : At J → Prop
  | .locked | .nonempty => True
  | _ => False

/-- The next step of the worker changes the stack of jobs. -/
def Writes : At J → Prop
  | .topped _ => True
  | _ => False

/-! ## Seeds -/

/-- `WELLseed[i]`, renderer.cpp:155-157, from two results of `rand()` (with `RAND_MAX` 2^31-1, as assumed there). -/
def seedWord (a b : BitVec 32) : BitVec 32 := a + b

/-- The seed of the `k`-th job of a worker, `k ≥ 1`, renderer.cpp:203-204. -/
def seedAt (w : Fin 32 → BitVec 32) (k : Nat) : Fin 32 → BitVec 32 := fun i => w i + BitVec.ofNat 32 k

end Spectre.Queue
