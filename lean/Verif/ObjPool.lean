import Verif.Mpmc
/-
The pool of handlers that the GPU image ops share between their threads.

Sources (all under /repo):
* vision/src/utils/object_pool.h 34-90 (BoundedObjectPool: constructor, borrow, ObjectDeleter, GetCapacitySize)
* include/matxscript/runtime/threadpool/mpmc_bounded_queue.h 39-49 (constructor), 55-158 (see Mpmc)
* vision/src/ops/cuda/image_decode.cc 355-408, 256-275; image_encode.cc 274-303 (the checks of pool_size, and the
  tasks that borrow one handler each)

Objects are numbered; the pool has `c` of them on a queue of `n` cells.  Threads take the steps of `Mpmc`, one memory
access each, in any interleaving.  `lost` is a history variable: objects whose return failed, which the code drops
as `ObjectDeleter` does not look at the result of `enqueue`.

Simplifications: those of Mpmc.  A thread has at most one object at a time (each task borrows once).  The loop of
`borrow` is the freedom of a thread to start `try_dequeue` again; its pauses are not modelled.  The use of the object
is no step.
-/
namespace Verif.ObjPool

open Verif.Mpmc (State Pc Choice next upd)

/-- `GetCapacitySize`: doubles `length` until it reaches `cap`; `fuel` bounds the number of rounds. -/
def capLoop : Nat → Nat → Nat → Nat
  | 0, length, _ => length
  | fuel + 1, length, cap => if length < cap then capLoop fuel (length * 2) cap else length

def capOf (cap : Nat) : Nat := capLoop cap 1 cap

/-- The constructor of the queue does not abort. -/
def queueOk (size : Nat) : Bool := decide (2 ≤ size) && decide (size &&& (size - 1) = 0)

/-- The checks of the ops on `pool_size`. -/
def sizeOk (p : Nat) : Bool := decide (1 < p) && decide (p &&& (p - 1) = 0)

structure PSt where
  q : State Nat
  /-- The object of a thread, from the end of its `borrow` to the end of its return. -/
  hold : Nat → Option Nat
  lost : List Nat

/-- The queue after the constructor of the pool has put `c` objects into it. -/
def filled (c : Nat) : State Nat :=
  { seq := fun j => if j < c then j + 1 else j, data := fun j => if j < c then some j else none, enq := c, deq := 0,
    pc := fun _ => .idle, hist := List.range c, got := [] }

def start (c : Nat) : PSt := ⟨filled c, fun _ => none, []⟩

inductive Act
  | borrow
  | giveBack
  | go (spurious : Bool)

/-- One step of thread `i`. -/
def pnext (n : Nat) (s : PSt) (i : Nat) (a : Act) : Option PSt :=
  match a with
  -- object_pool.h 53
  | .borrow =>
    match s.hold i with
    | none => (next n s.q i (.startD true)).map fun q => { s with q := q }
    | some _ => none
  -- object_pool.h 69
  | .giveBack =>
    match s.hold i with
    | none => none
    | some v => (next n s.q i (.startE v false)).map fun q => { s with q := q }
  | .go b =>
    match s.q.pc i with
    -- object_pool.h 53-54, 59: the object is the thread's
    | .dRet (some r) => (next n s.q i (.go b)).map fun q => { s with q := q, hold := upd s.hold i r }
    -- object_pool.h 69: the result of `enqueue` is not used
    | .eRet ok =>
      (next n s.q i (.go b)).map fun q =>
        { s with q := q, hold := upd s.hold i none, lost := if ok then s.lost else s.lost ++ (s.hold i).toList }
    | _ => (next n s.q i (.go b)).map fun q => { s with q := q }

inductive PReach (n c : Nat) : PSt → Prop
  | start : PReach n c (start c)
  | step {s s' : PSt} {i : Nat} {a : Act} : PReach n c s → pnext n s i a = some s' → PReach n c s'

inductive PRun (n : Nat) : PSt → PSt → Prop
  | refl (s : PSt) : PRun n s s
  | tail {s t u : PSt} {i : Nat} {a : Act} : PRun n s t → pnext n t i a = some u → PRun n s u

/-- Thread `i` uses the object `v`. -/
def Uses (s : PSt) (i v : Nat) : Prop := s.q.pc i = .idle ∧ s.hold i = some v

/-- Thread `i` takes `k` steps on its own. -/
def solo (n i : Nat) : Nat → PSt → Option PSt
  | 0, s => some s
  | k + 1, s => (pnext n s i (.go false)).bind (solo n i k)

end Verif.ObjPool
