/-!
# Thread pools

Models `LockBasedThreadPool::ThreadEntry`, `Enqueue`, the destructor
(`src/runtime/threadpool/lock_based_thread_pool.cc:28-94`) and
`LockFreeThreadPool::ThreadEntry`, `Enqueue`, the destructor
(`src/runtime/threadpool/lock_free_thread_pool.cc:27-126`).

Simplifications.
* Each region executed while holding `mutex_` is one atomic step (this is what the mutex gives);
  `cond_.wait` releases the mutex and starts waiting atomically; `notify_one`, which the code calls
  after releasing the mutex, is a separate step.  Spurious wake-ups are possible at any time.
* `task->Run()` is two steps (start, finish); tasks terminate; between the two anything can happen.
* In the lock-free pool a call of `try_dequeue`/`try_enqueue` is one atomic step (the queue itself
  is the subject of `Verif.MPMC`), and `stop_`, a plain `bool`, is read and written atomically.
* The branch of the destructors for forked children (which detaches) is not modelled.
* No task is submitted after the destructor has started (it would be a use after destruction).
-/

namespace Verif.ThreadPool

/-! ## Lock-based pool -/

namespace Locked

/-- Where a worker is. -/
inductive W (τ : Type) where
  /-- about to take the mutex (loop top, or just woken up) -/
  | ready
  /-- in `cond_.wait` -/
  | waiting
  | running (t : τ)
  /-- returned from `ThreadEntry` -/
  | exited
  deriving DecidableEq

structure St (τ : Type) where
  queue : List τ
  workers : List (W τ)
  stop : Bool
  /-- submitters that have pushed but not yet called `notify_one` -/
  pending : Nat
  -- history
  submitted : List τ
  started : List τ
  done : List τ

inductive Lab (τ : Type) where
  | submit (t : τ)
  /-- `notify_one` wakes worker `w` -/
  | notify (w : Nat)
  /-- `notify_one` finds nobody waiting -/
  | notifyNone
  | spurious (w : Nat)
  /-- worker `w` holds the mutex and runs lines 34-45 -/
  | check (w : Nat)
  | finish (w : Nat)
  | shutdown
  deriving DecidableEq

/-- `cond_.notify_all()` on one worker. -/
def wake {τ : Type} : W τ → W τ
  | .waiting => .ready
  | w => w

/-- Everybody is somewhere else than in `cond_.wait`. -/
def noneWaiting {τ : Type} (ws : List (W τ)) : Bool :=
  ws.all fun w => match w with
    | .waiting => false
    | _ => true

def step {τ : Type} (s : St τ) : Lab τ → Option (St τ)
  -- lines 96-102
  | .submit t =>
    if s.stop then none
    else some { s with queue := s.queue ++ [t], pending := s.pending + 1,
                       submitted := s.submitted ++ [t] }
  | .notify w =>
    if s.pending = 0 then none
    else match s.workers[w]? with
      | some .waiting => some { s with workers := s.workers.set w .ready, pending := s.pending - 1 }
      | _ => none
  | .notifyNone =>
    if s.pending = 0 then none
    else if noneWaiting s.workers then some { s with pending := s.pending - 1 } else none
  | .spurious w => match s.workers[w]? with
    | some .waiting => some { s with workers := s.workers.set w .ready }
    | _ => none
  -- lines 34-45
  | .check w => match s.workers[w]? with
    | some .ready => match s.queue with
      | t :: q => some { s with queue := q, workers := s.workers.set w (.running t),
                                started := s.started ++ [t] }
      | [] => if s.stop then some { s with workers := s.workers.set w .exited }
              else some { s with workers := s.workers.set w .waiting }
    | _ => none
  -- line 48
  | .finish w => match s.workers[w]? with
    | some (.running t) => some { s with workers := s.workers.set w .ready, done := s.done ++ [t] }
    | _ => none
  -- lines 74-78
  | .shutdown =>
    if s.stop then none else some { s with stop := true, workers := s.workers.map wake }

/-- `LockBasedThreadPool(n, name)`. -/
def init (τ : Type) (n : Nat) : St τ :=
  { queue := [], workers := List.replicate n .ready, stop := false, pending := 0
    submitted := [], started := [], done := [] }

/-- Executions. -/
inductive Reach {τ : Type} (n : Nat) : St τ → Prop
  | init : Reach n (init τ n)
  | step {s s' : St τ} (l : Lab τ) : Reach n s → step s l = some s' → Reach n s'

/-- Steps the pool takes by itself: not a submission, a shutdown or a spurious wake-up. -/
def Lab.internal {τ : Type} : Lab τ → Bool
  | .submit _ => false
  | .shutdown => false
  | .spurious _ => false
  | _ => true

/-- The destructor returns: all workers joined. -/
def destroyed {τ : Type} (s : St τ) : Prop := s.stop = true ∧ ∀ w ∈ s.workers, w = .exited

end Locked

/-! ## Lock-free pool -/

namespace LockFree

inductive W (τ : Type) where
  /-- in the inner `for (;;)`, about to call `try_dequeue` -/
  | polling
  /-- `try_dequeue` failed, about to read `stop_` (line 41) -/
  | empty
  /-- left the inner loop with this task, about to read `stop_` (line 47) -/
  | got (t : Option τ)
  | running (t : τ)
  | exited
  deriving DecidableEq

structure St (τ : Type) where
  queue : List τ
  workers : List (W τ)
  stop : Bool
  submitted : List τ
  done : List τ
  /-- tasks that a worker took and dropped without running them -/
  dropped : List τ

inductive Lab (τ : Type) where
  | submit (t : τ)
  | work (w : Nat)
  | shutdown
  deriving DecidableEq

/-- The step of a worker alone: new worker state, new queue, finished task, dropped task. -/
def workStep {τ : Type} (s : St τ) (w : Nat) : W τ → St τ
  | .polling => match s.queue with
    | t :: q => { s with queue := q, workers := s.workers.set w (.got (some t)) }
    | [] => { s with workers := s.workers.set w .empty }
  | .empty =>
    if s.stop then { s with workers := s.workers.set w (.got none) }
    else { s with workers := s.workers.set w .polling }
  | .got t =>
    if s.stop then { s with workers := s.workers.set w .exited, dropped := s.dropped ++ t.toList }
    else match t with
      | some t => { s with workers := s.workers.set w (.running t) }
      | none => { s with workers := s.workers.set w .polling }
  | .running t => { s with workers := s.workers.set w .polling, done := s.done ++ [t] }
  | .exited => s

def step {τ : Type} (s : St τ) : Lab τ → Option (St τ)
  | .submit t =>
    if s.stop then none else some { s with queue := s.queue ++ [t], submitted := s.submitted ++ [t] }
  | .work w => match s.workers[w]? with
    | some .exited => none
    | some c => some (workStep s w c)
    | none => none
  | .shutdown => if s.stop then none else some { s with stop := true }

def init (τ : Type) (n : Nat) : St τ :=
  { queue := [], workers := List.replicate n .polling, stop := false
    submitted := [], done := [], dropped := [] }

inductive Reach {τ : Type} (n : Nat) : St τ → Prop
  | init : Reach n (init τ n)
  | step {s s' : St τ} (l : Lab τ) : Reach n s → step s l = some s' → Reach n s'

/-- Executing a list of labels. -/
def runLabs {τ : Type} (s : St τ) : List (Lab τ) → Option (St τ)
  | [] => some s
  | l :: ls => match step s l with
    | some s' => runLabs s' ls
    | none => none

def destroyed {τ : Type} (s : St τ) : Prop := s.stop = true ∧ ∀ w ∈ s.workers, w = .exited

end LockFree

end Verif.ThreadPool
