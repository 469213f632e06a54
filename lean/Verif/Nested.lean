import Mathlib.Data.List.Basic
/-
Parallel calls inside parallel calls: `submit`, `Future.get` and `pmap` on pools of threads.

Sources (all under /repo):
* src/runtime/threadpool/thread_pool_executor.cc 103-186 (ParallelForImpl: a call from a thread of the pool runs its
  tasks itself), 290-324 (ApplyAsync: the same for submit)
* src/runtime/threadpool/lock_based_thread_pool.cc 28-48 (ThreadEntry), 90-96 (Enqueue)
* src/runtime/threadpool/lock_free_thread_pool.cc 28-56 (ThreadEntry), 97-106 (Enqueue), 146-151 (one queue per thread)
* src/pipeline/tx_session.cc 171-250 (the two pools of a session), 1293-1431 (pmap on one, apply_async on the other)
* include/matxscript/runtime/threadpool/i_runnable.h 28-50 (Run, Wait), src/runtime/future.cc 30-32

Simplifications: what a call does is fixed in advance, as a finite tree of actions; values are not modelled, and an
exception (of some work, or of a task that is waited for) is a step that ends calls early.  A task knows the futures that its caller knew when it was submitted and
those of its own submissions (futures are not passed on through shared containers).  `Wait`, which spins, is a step
that is possible when the task is done; so is `Enqueue` when the queue has room.  Steps are atomic.  A parallel map is
written with `sub` and `get`: the calling thread submits all parts but the first, runs the first and waits for the
others; a thread of the pool runs all parts itself.  Pools are not shut down.
-/

namespace Verif.Nested

/-- What a call does: end, some work, submit a call to a pool, wait for the `i`-th future that it knows. -/
inductive Prog where
  | nil
  | act (k : Prog)
  | sub (p : Nat) (c k : Prog)
  | get (i : Nat) (k : Prog)

/-- A future: ready (the call ran at once), or a task. -/
abbrev Fut := Option Nat

/-- A call that is running. -/
structure Frame where
  prog : Prog
  env : List Fut

inductive Status where
  | queued
  | running (w : Nat)
  | done
deriving DecidableEq

/-- A task: its pool, its queue (`none`: the queue of the pool; `some w`: that of a thread), what is left to do. -/
structure Task where
  pool : Nat
  route : Option Nat
  st : Status
  frames : List Frame

/-- Tasks in the order of submission, and threads that are in no pool. -/
structure St where
  tasks : List Task
  clients : List (List Frame)

/-- The pools: number of threads, whether each thread has its own queue, and the capacity of a queue. -/
structure Pools where
  size : Nat → Nat
  lockFree : Bool
  cap : Nat

/-- The queues of a pool: thread_pool_executor.cc 345-349. -/
def Pools.routeOk (P : Pools) (p : Nat) : Option Nat → Prop
  | none => P.lockFree = false
  | some w => P.lockFree = true ∧ w < P.size p

/-- Waiting in a queue. -/
def waitingIn (p : Nat) (r : Option Nat) (t : Task) : Bool :=
  decide (t.pool = p) && decide (t.route = r) && decide (t.st = .queued)

/-- Room in a queue: the queue of the lock-based pool is not bounded. -/
def Pools.room (P : Pools) (tasks : List Task) (p : Nat) (r : Option Nat) : Prop :=
  P.lockFree = true → (tasks.filter (waitingIn p r)).length < P.cap

/-- A future is ready. -/
def ready (tasks : List Task) (e : List Fut) (i : Nat) : Prop :=
  ∀ t, e[i]? = some (some t) → ∃ x, tasks[t]? = some x ∧ x.st = .done

/-- One step of a thread by itself: `self` is the pool that it belongs to. -/
inductive Local (tasks : List Task) (self : Option Nat) : List Frame → List Frame → Prop
  | act (k : Prog) (e : List Fut) (fs : List Frame) : Local tasks self (⟨.act k, e⟩ :: fs) (⟨k, e⟩ :: fs)
  | get (i : Nat) (k : Prog) (e : List Fut) (fs : List Frame) : ready tasks e i →
      Local tasks self (⟨.get i k, e⟩ :: fs) (⟨k, e⟩ :: fs)
  | inline (p : Nat) (c k : Prog) (e : List Fut) (fs : List Frame) : self = some p →
      Local tasks self (⟨.sub p c k, e⟩ :: fs) (⟨c, e⟩ :: ⟨k, e ++ [none]⟩ :: fs)
  | ret (e : List Fut) (fs : List Frame) : Local tasks self (⟨.nil, e⟩ :: fs) fs
  | throw (k : Prog) (e : List Fut) (fs : List Frame) (n : Nat) : Local tasks self (⟨.act k, e⟩ :: fs) (fs.drop n)
  | rethrow (i : Nat) (k : Prog) (e : List Fut) (fs : List Frame) (n : Nat) : ready tasks e i →
      Local tasks self (⟨.get i k, e⟩ :: fs) (fs.drop n)

/-- The task that is submitted. -/
def newTask (p : Nat) (r : Option Nat) (c : Prog) (e : List Fut) : Task := ⟨p, r, .queued, [⟨c, e⟩]⟩

inductive Step (P : Pools) : St → St → Prop
  /-- A thread outside the pools. -/
  | client {s : St} (i : Nat) (fs fs' : List Frame) : s.clients[i]? = some fs → Local s.tasks none fs fs' →
      Step P s { s with clients := s.clients.set i fs' }
  | clientSub {s : St} (i : Nat) (p : Nat) (c k : Prog) (e : List Fut) (fs : List Frame) (r : Option Nat) :
      s.clients[i]? = some (⟨.sub p c k, e⟩ :: fs) → P.routeOk p r → P.room s.tasks p r →
      Step P s ⟨s.tasks ++ [newTask p r c e], s.clients.set i (⟨k, e ++ [some s.tasks.length]⟩ :: fs)⟩
  /-- A task that is running. -/
  | task {s : St} (n : Nat) (t : Task) (w : Nat) (fs' : List Frame) : s.tasks[n]? = some t → t.st = .running w →
      Local s.tasks (some t.pool) t.frames fs' →
      Step P s { s with tasks := s.tasks.set n { t with frames := fs' } }
  | taskSub {s : St} (n : Nat) (t : Task) (w : Nat) (p : Nat) (c k : Prog) (e : List Fut) (fs : List Frame)
      (r : Option Nat) : s.tasks[n]? = some t → t.st = .running w → t.frames = ⟨.sub p c k, e⟩ :: fs → p ≠ t.pool →
      P.routeOk p r → P.room s.tasks p r →
      Step P s { s with tasks := s.tasks.set n { t with frames := ⟨k, e ++ [some s.tasks.length]⟩ :: fs } ++
        [newTask p r c e] }
  /-- A thread takes the first task of its queue. -/
  | start {s : St} (n : Nat) (t : Task) (w : Nat) : s.tasks[n]? = some t → t.st = .queued → w < P.size t.pool →
      (t.route = none ∨ t.route = some w) →
      (∀ x ∈ s.tasks, x.pool = t.pool → x.st ≠ .running w) →
      (∀ m x, m < n → s.tasks[m]? = some x → waitingIn t.pool t.route x = false) →
      Step P s { s with tasks := s.tasks.set n { t with st := .running w } }
  | finish {s : St} (n : Nat) (t : Task) (w : Nat) : s.tasks[n]? = some t → t.st = .running w → t.frames = [] →
      Step P s { s with tasks := s.tasks.set n { t with st := .done } }

/-- At the beginning there are threads with calls, and no tasks. -/
def init (progs : List Prog) : St := ⟨[], progs.map fun p => [⟨p, []⟩]⟩

inductive Reach (P : Pools) (progs : List Prog) : St → Prop
  | init : Reach P progs (init progs)
  | step {s s' : St} : Reach P progs s → Step P s s' → Reach P progs s'

/-- Everything that was asked for is done. -/
def Finished (s : St) : Prop := (∀ t ∈ s.tasks, t.st = .done) ∧ ∀ fs ∈ s.clients, fs = []

/-- All submissions go to one pool. -/
def Prog.only (p : Nat) : Prog → Prop
  | .nil => True
  | .act k => k.only p
  | .sub q c k => q = p ∧ c.only p ∧ k.only p
  | .get _ k => k.only p

/-- Calls in a pool submit only to this pool and later ones, and wait only for tasks of these; `es` are the pools of
the futures that are known. -/
def Prog.layered (p : Nat) (es : List Nat) : Prog → Prop
  | .nil => True
  | .act k => k.layered p es
  | .sub q c k => p ≤ q ∧ c.layered q es ∧ k.layered p (es ++ [q])
  | .get i k => (∀ q, es[i]? = some q → p ≤ q) ∧ k.layered p es

end Verif.Nested
