import Mathlib.Data.List.Basic
/-
Warming up a session: the pipeline runs once on each thread of the scheduling pool.

Sources (all under /repo):
* src/pipeline/tx_session.cc 757-784 (Warmup: one task for each thread of the pool, all put into its queue, then wait
  for all), 832-886 (TXSessionWarmupRunnable: run the pipeline, count, wait until the count is the number of threads)
* src/runtime/threadpool/lock_based_thread_pool.cc 28-48 (ThreadEntry), 90-103 (Enqueue, EnqueueBulk: one by one)
* include/matxscript/runtime/threadpool/i_runnable.h 31-45 (Run: an exception ends the task)
* src/runtime/threadpool/i_thread_pool.cc (WaitBulk)

Simplifications: a run of the pipeline is a number of steps of the thread that runs it; it does not wait for other
tasks (ops that submit to the pool from its own threads run at once, see Nested).  The pool has one queue.  A caller
puts its tasks into the queue one by one, so those of several callers may be mixed.  The count is read and written
under its mutex, so these are single steps.  What the main thread itself runs meanwhile is one of the other callers.
-/

namespace Verif.Warmup

/-- A task: `group = some g` for those of the warmup `g`, and the number of steps it takes. -/
structure Job where
  group : Option Nat
  steps : Nat
deriving DecidableEq

inductive Th where
  | idle
  | run (j : Job)
  | wait (g : Nat)
deriving DecidableEq

structure St where
  /-- What callers still have to put into the queue. -/
  callers : List (List Job)
  queue : List Job
  threads : List Th
  /-- How often each thread has run the pipeline for a warmup. -/
  ran : Nat → Nat → Nat
  /-- The counts of the warmups. -/
  count : Nat → Nat
  /-- How many tasks of a warmup ended with an exception. -/
  thrown : Nat → Nat

def bump (f : Nat → Nat) (i : Nat) : Nat → Nat := fun j => if j = i then f j + 1 else f j

/-- One step; `throws` tells whether ops of the pipeline may throw. -/
inductive Step (throws : Bool) : St → St → Prop
  | submit {s : St} (c : Nat) (j : Job) (js : List Job) : s.callers[c]? = some (j :: js) →
      Step throws s { s with callers := s.callers.set c js, queue := s.queue ++ [j] }
  | take {s : St} (w : Nat) (j : Job) (q : List Job) : s.threads[w]? = some .idle → s.queue = j :: q →
      Step throws s { s with threads := s.threads.set w (.run j), queue := q }
  | work {s : St} (w : Nat) (g : Option Nat) (k : Nat) : s.threads[w]? = some (.run ⟨g, k + 1⟩) →
      Step throws s { s with threads := s.threads.set w (.run ⟨g, k⟩) }
  | finish {s : St} (w : Nat) : s.threads[w]? = some (.run ⟨none, 0⟩) →
      Step throws s { s with threads := s.threads.set w .idle }
  /-- The pipeline has run: count, then wait. -/
  | arrive {s : St} (w : Nat) (g : Nat) : s.threads[w]? = some (.run ⟨some g, 0⟩) →
      Step throws s { s with threads := s.threads.set w (.wait g), ran := fun v => if v = w then bump (s.ran v) g else s.ran v,
                             count := bump s.count g }
  /-- The count is the number of threads. -/
  | leave {s : St} (w : Nat) (g : Nat) : s.threads[w]? = some (.wait g) → s.count g = s.threads.length →
      Step throws s { s with threads := s.threads.set w .idle }
  /-- An op throws: the task ends, and is not counted. -/
  | throw {s : St} (w : Nat) (g : Nat) (k : Nat) : throws = true → s.threads[w]? = some (.run ⟨some g, k⟩) →
      Step throws s { s with threads := s.threads.set w .idle, thrown := bump s.thrown g }

/-- At the beginning: `n` idle threads, and callers. -/
def init (n : Nat) (callers : List (List Job)) : St :=
  ⟨callers, [], List.replicate n .idle, fun _ _ => 0, fun _ => 0, fun _ => 0⟩

/-- `Warmup` with `k` steps of the pipeline, on a pool of `n` threads. -/
def warmup (n g k : Nat) : List Job := List.replicate n ⟨some g, k⟩

inductive Reach (throws : Bool) (s0 : St) : St → Prop
  | refl : Reach throws s0 s0
  | step {s s' : St} : Reach throws s0 s → Step throws s s' → Reach throws s0 s'

/-- Nothing is left to do, so every call of `Warmup` returns. -/
def Finished (s : St) : Prop :=
  (∀ c ∈ s.callers, c = []) ∧ s.queue = [] ∧ ∀ t ∈ s.threads, t = .idle

end Verif.Warmup
