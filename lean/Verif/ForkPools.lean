/-
The thread pools of sessions across `os.fork`.

Sources (all under /repo):
* src/pipeline/tx_session.cc 55-113 (reading of options), 134-165 (constructor), 172-203 (SetSchedulingThreads),
  216-248 (SetOpComputeThreads), 273-319 (FindOp, CreateOp), 1213-1277 (AtForkBefore, AtForkAfterInParentOrChild)
* src/pipeline/threadpool_op.cc 29-51, include/matxscript/pipeline/tx_session.h 43-55 (options)
* include/matxscript/pipeline/userdata_scoped_cache.h (the cache of a session name)
* python/matx/pipeline/_atfork_register.py (tasks before and after a fork)

The pool for scheduling and the pool for computing are handled by the same code with different fields; the model is of
one of them, with the sessions of one name in the order of their creation.  A pool with `share` is made by an op that is
kept in the cache of the name.

Simplifications: pools are a number that tells them apart and a number of threads.  A pool lives as long as a session or
the op refers to it; references kept by running calls are left out.  Parent and child do the same after the fork, each
on its copy.  The executor made from a pool is left out.
-/
namespace Verif.ForkPools

structure Pool where
  id : Nat
  threads : Nat
deriving DecidableEq

/-- `ThreadPoolOp`. -/
structure Op where
  threads : Nat
  pool : Option Pool
deriving DecidableEq

/-- `nums` and `share` are the options. -/
structure Sess where
  nums : Int
  share : Bool
  pool : Option Pool
deriving DecidableEq

structure St where
  next : Nat
  op : Option Op
  sess : List Sess
deriving DecidableEq

/-- `GetSchedulingThreads`. -/
def Sess.threads (x : Sess) : Nat := (x.pool.map Pool.threads).getD 0

/-- `SetSchedulingThreads` on a session; the op of the name is removed first.  A number above 255 raises after the
options are set. -/
def setOne (next : Nat) (x : Sess) (num : Int) (share : Bool) : Nat × Option Op × Sess :=
  if num ≥ 0 then
    let n := if num = 0 then 2 else num
    if n < 256 then
      let p : Pool := ⟨next, n.toNat⟩
      if share then (next + 1, some ⟨n.toNat, some p⟩, ⟨n, share, some p⟩)
      else (next + 1, none, ⟨n, share, some p⟩)
    else (next, none, ⟨n, share, x.pool⟩)
  else (next, none, ⟨-1, share, none⟩)

inductive Act
  /-- a session with the pool enabled and these options -/
  | create (num : Int) (share : Bool)
  /-- a session with the pool disabled: its number of threads stays the default -/
  | createOff (share : Bool)
  | set (i : Nat) (num : Int) (share : Bool)
  | close (i : Nat)
  | fork

/-- `AtForkBefore`. -/
def beforeOne (op : Option Op) (x : Sess) : Option Op × Sess :=
  if x.pool.isSome then
    (if x.share then op.map fun o => { o with pool := none } else op, { x with pool := none })
  else (op, x)

def beforeAll : Option Op → List Sess → Option Op × List Sess
  | op, [] => (op, [])
  | op, x :: l =>
    let a := beforeOne op x
    let b := beforeAll a.1 l
    (b.1, a.2 :: b.2)

/-- `AtForkAfterInParentOrChild`. -/
def afterOne (next : Nat) (op : Option Op) (x : Sess) : Nat × Option Op × Sess :=
  if x.nums > 0 then
    if x.share then
      match op with
      | some o => (next + 1, some { o with pool := some ⟨next, o.threads⟩ }, { x with pool := some ⟨next, o.threads⟩ })
      | none => (next, none, x)
    else (next + 1, op, { x with pool := some ⟨next, x.nums.toNat⟩ })
  else (next, op, x)

def afterAll : Nat → Option Op → List Sess → Nat × Option Op × List Sess
  | next, op, [] => (next, op, [])
  | next, op, x :: l =>
    let a := afterOne next op x
    let b := afterAll a.1 a.2.1 l
    (b.1, b.2.1, a.2.2 :: b.2.2)

/-- The state at the moment of the fork. -/
def before (s : St) : St :=
  let b := beforeAll s.op s.sess
  ⟨s.next, b.1, b.2⟩

def after (s : St) : St :=
  let a := afterAll s.next s.op s.sess
  ⟨a.1, a.2.1, a.2.2⟩

def step (s : St) : Act → St
  | .create num share =>
    let a := setOne s.next ⟨2, false, none⟩ (if num > 0 then num else 0) share
    ⟨a.1, a.2.1, s.sess ++ [a.2.2]⟩
  | .createOff share => { s with sess := s.sess ++ [⟨2, share, none⟩] }
  | .set i num share =>
    match s.sess[i]? with
    | none => s
    | some x =>
      let a := setOne s.next x num share
      ⟨a.1, a.2.1, s.sess.set i a.2.2⟩
  | .close i =>
    let l := s.sess.eraseIdx i
    ⟨s.next, if l.isEmpty then none else s.op, l⟩
  | .fork => after (before s)

def run (s : St) (l : List Act) : St := l.foldl step s

def init : St := ⟨0, none, []⟩

/-- The pools that exist. -/
def St.live (s : St) : List Pool :=
  s.sess.filterMap Sess.pool ++ (s.op.bind Op.pool).toList

/-! The tasks registered in Python: handles, and what they are for. -/

/-- `unregister_at_fork`: after the loop `i` is the index of the first task with the handle, or else of the last task. -/
def unregister (tasks : List Nat) (h : Nat) : List Nat :=
  match tasks with
  | [] => []
  | _ => tasks.eraseIdx (if h ∈ tasks then tasks.idxOf h else tasks.length - 1)

end Verif.ForkPools
