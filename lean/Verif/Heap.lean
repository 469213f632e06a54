import Verif.PdqSort

/-
The heap helpers of `ListHelper`, behind the `list_heapify`, `list_heap_replace` and
`list_heap_pushpop` builtins.

Source: `src/runtime/container/list_helper.cc` 120-214.

`lt x y` stands for `!ArithOps::ge(x, y)` or, with a user comparator, `comp(x, y) < 0`; the test
`ge(x, y)` (`comp(x, y) >= 0`) is its negation in both cases.  Checked reads and writes are those of
the sort model.  Simplifications: comparisons are pure and do not raise; `std::make_heap` and
`std::sort` are parameters with their standard contracts; indices do not overflow `size_t`.
-/
namespace Verif.Heap

open Verif.PdqSort (R rd wr iterSwap)

variable {α : Type}

/-- `if (c < length && func(v[c], v[m])) m = c;`, `list_helper.cc` 150-155. -/
def pickMin (lt : α → α → Bool) (v : List α) (c m : Nat) : R Nat :=
  if c < v.length then do
    let x ← rd v c
    let y ← rd v m
    pure (if lt x y then c else m)
  else pure m

/-- `ShiftDown`, `list_helper.cc` 142-162; the first argument bounds the number of rounds. -/
def shiftDown (lt : α → α → Bool) : Nat → List α → Nat → R (List α)
  | 0, _, _ => .error .fuel
  | n + 1, v, i => do
    let m ← pickMin lt v (2 * i + 1) i
    let m ← pickMin lt v (2 * i + 2) m
    if m = i then pure v
    else do
      let v ← iterSwap v i m
      shiftDown lt n v m

/-- `HeapReplace`, `list_helper.cc` 164-183; `none` is the thrown IndexError. -/
def heapReplace (lt : α → α → Bool) (v : List α) (item : α) : R (Option (List α)) :=
  if v.length = 0 then pure none
  else do
    let v ← wr v 0 item
    let v ← shiftDown lt (v.length + 1) v 0
    pure (some v)

/-- `HeapPushPop`, `list_helper.cc` 185-214: the value returned and the list afterwards. -/
def heapPushPop (lt : α → α → Bool) (v : List α) (item : α) : R (Option (α × List α)) :=
  if v.length = 0 then pure none
  else do
    let top ← rd v 0
    if !lt top item then pure (some (item, v))
    else do
      let v ← wr v 0 item
      let v ← shiftDown lt (v.length + 1) v 0
      pure (some (top, v))

/-- `Heapify(list)`, `list_helper.cc` 120-128: `std::make_heap` with the less-than comparator. -/
def heapify (makeHeap : List α → List α) (v : List α) : List α :=
  if v.length = 0 then v else makeHeap v

/-- `Heapify(list, comp)`, `list_helper.cc` 130-140: `std::sort`. -/
def heapifyBy (stdSort : List α → List α) (v : List α) : List α :=
  if v.length = 0 then v else stdSort v

end Verif.Heap
