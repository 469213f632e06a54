/-!
# Parallel map: partition of the input and execution of the tasks

Models `ThreadPoolExecutor::ParallelForImpl` and `ParallelForTask::RunImpl`
(`src/runtime/threadpool/thread_pool_executor.cc:31-180`), `IRunnable::Run`/`Wait`
(`include/matxscript/runtime/threadpool/i_runnable.h:28-52`) and `IThreadPool::WaitBulk`
(`src/runtime/threadpool/i_thread_pool.cc:9-23`).

Simplifications.
* Sizes are natural numbers (no `int64_t` overflow of `group_size * (... )`).
* The called object is a pure function `op : α → Except ε β` (a value or an exception).
* An execution is a sequence of task indices: at each step the task named executes one iteration
  of its `while` loop (one call and one write to its output slot).  This allows every interleaving
  of loop iterations, whichever thread runs which task; memory-model effects are not modelled.
* The `UnpackArgs` variant differs only in how `op` is called.
-/

namespace Verif.ParallelFor

/-! ## Partition -/

/-- A task: first index and number of elements. -/
abbrev Task := Nat × Nat

/-- The loop `thread_pool_executor.cc:130-158`.  `fuel = T - i` is the number of iterations the
bound `i < expt_num_threads` still allows. -/
def splitLoop (n T stepL : Nat) : (fuel i pos step : Nat) → (needChange : Bool) → List Task
  | 0, _, _, _, _ => []
  | fuel + 1, i, pos, step, needChange =>
    if pos < n then
      if needChange && decide (stepL ≠ 0) && decide (pos + stepL * (T - i) = n) then
        (pos, stepL) :: splitLoop n T stepL fuel (i + 1) (pos + stepL) stepL false
      else
        (pos, step) :: splitLoop n T stepL fuel (i + 1) (pos + step) step needChange
    else []

/-- Number of threads used: `thread_pool_executor.cc:111-113`. -/
def threads (poolThreads : Nat) (expt : Int) : Nat :=
  if expt ≤ 0 then poolThreads + 1 else expt.toNat

/-- Group size used: `thread_pool_executor.cc:114-116`. -/
def groups (group : Int) : Nat := if group ≤ 0 then 1 else group.toNat

/-- `thread_pool_executor.cc:110-158` (`n > 0` is ensured by the callers).  `none`: the check
"Expect the number of tasks to be a multiple of" failed. -/
def split (poolThreads : Nat) (expt group : Int) (n : Nat) : Option (List Task) :=
  let T := threads poolThreads expt
  let g := groups group
  if n % g = 0 then
    let numGroup := n / g
    let stepR := g * ((numGroup + T - 1) / T)
    let stepL := stepR - g
    some (splitLoop n T stepL T 0 0 stepR true)
  else none

/-! ## Execution -/

variable {α β ε : Type}

/-- A running task: next index, end index, stored exception (`e_`). -/
structure TaskSt (ε : Type) where
  cur : Nat
  stop : Nat
  err : Option ε
  deriving DecidableEq

structure St (β ε : Type) where
  tasks : List (TaskSt ε)
  /-- output slots; `none` is the initial `None` -/
  out : List (Option β)

/-- A task has left its loop: at the end, or by an exception (`i_runnable.h:30-34`). -/
def TaskSt.finished (τ : TaskSt ε) : Bool := τ.err.isSome || decide (τ.stop ≤ τ.cur)

/-- One iteration of the loop in `RunImpl` by task number `t`. -/
def step (op : α → Except ε β) (inputs : List α) (s : St β ε) (t : Nat) : St β ε :=
  match s.tasks[t]? with
  | none => s
  | some τ =>
    if τ.finished then s
    else match inputs[τ.cur]? with
      | none => s
      | some x => match op x with
        | .ok y => { tasks := s.tasks.set t { τ with cur := τ.cur + 1 }
                     out := s.out.set τ.cur (some y) }
        | .error e => { s with tasks := s.tasks.set t { τ with err := some e } }

def run (op : α → Except ε β) (inputs : List α) (s : St β ε) (sched : List Nat) : St β ε :=
  sched.foldl (step op inputs) s

def init (ts : List Task) (n : Nat) : St β ε :=
  { tasks := ts.map fun t => { cur := t.1, stop := t.1 + t.2, err := none }
    out := List.replicate n none }

def allFinished (s : St β ε) : Prop := ∀ τ ∈ s.tasks, τ.finished = true

/-- `WaitBulk` followed by returning the outputs: the first stored exception in task order is
rethrown. -/
def waitBulk (s : St β ε) : Except ε (List (Option β)) :=
  match s.tasks.findSome? (·.err) with
  | some e => .error e
  | none => .ok s.out

/-! ## Specification -/

/-- The tasks are consecutive non-empty intervals from `s` to `e`. -/
def Chain : Nat → List Task → Nat → Prop
  | s, [], e => s = e
  | s, (p, l) :: r, e => p = s ∧ 0 < l ∧ Chain (s + l) r e

/-- `[op(x) for x in inputs]`. -/
def seqMap (op : α → Except ε β) : List α → Except ε (List β)
  | [] => .ok []
  | x :: xs => match op x with
    | .error e => .error e
    | .ok y => match seqMap op xs with
      | .error e => .error e
      | .ok ys => .ok (y :: ys)

end Verif.ParallelFor
