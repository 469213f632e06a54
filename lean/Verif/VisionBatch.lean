import Verif.ParallelFor
/-
Image ops on a batch: the split into tasks, and what becomes of images that fail.

Sources (all under /repo):
* vision/src/utils/task_manager.h 53-109 (TaskManager::Execute)
* vision/src/ops/cpu/image_decode.cc 99-114 (RunImpl), 116-150 (build_tasks), 171-203 (process)
* vision/src/ops/cpu/image_encode.cc 87-107 (RunImpl), 149-186 (process)
* vision/src/ops/cuda/image_decode.cc 178-186 (is_jpeg), 256-310 (RunImpl, build_tasks), 410-460 (process)

The tasks run as in ParallelFor: one image per step, in any order among the tasks.

Simplifications: decoding or encoding one image is a pure function that gives a value or an exception; lengths are
natural numbers.  The image and the flag of one place in the result are written together.  That the default image of
a failed place cannot be allocated, and errors that CUDA reports later, are not modelled.
-/
namespace Verif.VisionBatch

open Verif.ParallelFor (Task)

/-- `count` tasks of `step` images each from `pos` on, before those of `rest`. -/
def fill (step : Nat) : (count pos : Nat) → (rest : Nat → List Task) → List Task
  | 0, pos, rest => rest pos
  | count + 1, pos, rest => (pos, step) :: fill step count (pos + step) rest

/-- The tasks for `len` images on `threads` threads; the same code in TaskManager and in the two `build_tasks`. -/
def tasks (len threads : Nat) : List Task :=
  if len ≤ threads then fill 1 len 0 fun _ => []
  else
    let step := len / threads
    let remainder := len % threads
    fill (step + 1) remainder 0 fun pos => fill step (threads - remainder) pos fun _ => []

variable {α β ε : Type}

/-- Decoding one image on the CPU without exceptions: the place stays `None`, the flag is false. -/
def decodeFlagCpu (op : α → Except ε β) (x : α) : Except ε (Option β × Bool) :=
  match op x with
  | .ok y => .ok (some y, true)
  | .error _ => .ok (none, false)

/-- Decoding one image on the GPU without exceptions: `blank` is an uninitialised image of 8 by 8. -/
def decodeFlagGpu (blank : β) (op : α → Except ε β) (x : α) : Except ε (β × Bool) :=
  match op x with
  | .ok y => .ok (y, true)
  | .error _ => .ok (blank, false)

/-- The end of `process` of the encoder, image_encode.cc 174-184, without flags: `fail i` is the error of the check. -/
def encodeCheck (fail : Nat → ε) : Nat → List (Bool × β) → Except ε (List β)
  | _, [] => .ok []
  | i, (success, y) :: r =>
    if success then
      match encodeCheck fail (i + 1) r with
      | .ok ys => .ok (y :: ys)
      | .error e => .error e
    else .error (fail i)

/-- `is_jpeg`: all is computed without regard to the size; `none` if it reads beside the data. -/
def isJpeg (data : List Nat) : Option Bool :=
  let big := decide (4 ≤ data.length)
  -- the chain of `&&` reads on only while the bytes match
  match data[0]? with
  | none => none
  | some a =>
    if a = 0xff then
      match data[1]? with
      | none => none
      | some b =>
        if b = 0xd8 then
          match data[data.length - 1]?, data[data.length - 2]? with
          | some y, some x => some (big && (decide (y = 0xd9) && decide (x = 0xff)))
          | _, _ => none
        else some false
    else some false

end Verif.VisionBatch
