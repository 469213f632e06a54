/-
Pattern-defeating quicksort, the algorithm behind `list.sort`.

Sources: `include/matxscript/runtime/_pdqsort.h`, `src/runtime/container/list_ref.cc` 525-554.

A list is the whole vector; an iterator is an index into it.  Every read and write is checked
against the vector: reading or writing outside it is `oob` (undefined behaviour in C++).  The
partition functions move the pivot out of `*begin`; reading that slot while the pivot is out is
`moved`.  `fuel` is the model's own error for a loop cut short; the theorems show it never
appears.

Simplifications: the comparator is a pure total function (a key function or an element comparison
that raises is not modelled); `std::make_heap` followed by `std::sort_heap` is a parameter `hs`
acting on the range, whose standard contract the theorems assume; `difference_type` is a natural
number (no 64-bit overflow of sizes).
-/
namespace Verif.PdqSort

inductive Err
  | oob
  | moved
  | fuel
deriving DecidableEq, Repr

abbrev R := Except Err

variable {α : Type}

/-- `*it` as an rvalue. -/
def rd (a : List α) (i : Nat) : R α :=
  match a[i]? with
  | some x => .ok x
  | none => .error .oob

/-- `*it = x`. -/
def wr (a : List α) (i : Nat) (x : α) : R (List α) :=
  if i < a.length then .ok (a.set i x) else .error .oob

/-- `std::iter_swap`. -/
def iterSwap (a : List α) (i j : Nat) : R (List α) := do
  let x ← rd a i
  let y ← rd a j
  let a ← wr a i y
  wr a j x

/-- `log2`, `_pdqsort.h` 88-95. -/
def log2 (n : Nat) : Nat :=
  if n / 2 = 0 then 0 else log2 (n / 2) + 1
decreasing_by omega

/-- The `do … while` of the three insertion sorts (`_pdqsort.h` 113-118, 141-146, 175-180): `sift`
is the hole, `guard` is `some begin` for the `sift != begin` test and `none` for the unguarded
version.  The result is the list with `tmp` put back and the final `sift`. -/
def siftDown (comp : α → α → Bool) (guard : Option Nat) (tmp : α) :
    List α → Nat → R (List α × Nat)
  | _, 0 => .error .oob
  | a, s + 1 => do
    let y ← rd a s
    let a ← wr a (s + 1) y
    if guard = some s then do
      let a ← wr a s tmp
      pure (a, s)
    else match s with
      | 0 => .error .oob
      | r + 1 => do
        let z ← rd a r
        if comp tmp z then siftDown comp guard tmp a (r + 1)
        else do
          let a ← wr a (r + 1) tmp
          pure (a, r + 1)

/-- One round of the `for` loop of the insertion sorts: the list and `cur - sift`. -/
def insertAt (comp : α → α → Bool) (guard : Option Nat) (a : List α) (cur : Nat) :
    R (List α × Nat) := do
  let x ← rd a cur
  let y ← rd a (cur - 1)
  if comp x y then do
    let (a, s) ← siftDown comp guard x a cur
    pure (a, cur - s)
  else pure (a, 0)

/-- The `for` loop with `n` elements left. -/
def insertLoop (comp : α → α → Bool) (guard : Option Nat) : Nat → List α → Nat → R (List α)
  | 0, a, _ => .ok a
  | n + 1, a, cur => do
    let (a, _) ← insertAt comp guard a cur
    insertLoop comp guard n a (cur + 1)

/-- `insertion_sort`, `_pdqsort.h` 97-121. -/
def insertionSort (comp : α → α → Bool) (a : List α) (b e : Nat) : R (List α) :=
  if b = e then .ok a else insertLoop comp (some b) (e - (b + 1)) a (b + 1)

/-- `unguarded_insertion_sort`, `_pdqsort.h` 123-149. -/
def unguardedInsertionSort (comp : α → α → Bool) (a : List α) (b e : Nat) : R (List α) :=
  if b = e then .ok a else insertLoop comp none (e - (b + 1)) a (b + 1)

/-- The loop of `partial_insertion_sort` with `n` elements left. -/
def partialLoop (comp : α → α → Bool) (b : Nat) : Nat → List α → Nat → Nat → R (List α × Bool)
  | 0, a, _, _ => .ok (a, true)
  | n + 1, a, cur, limit => do
    let (a, d) ← insertAt comp (some b) a cur
    let limit := limit + d
    if limit > 8 then .ok (a, false) else partialLoop comp b n a (cur + 1) limit

/-- `partial_insertion_sort`, `_pdqsort.h` 151-189. -/
def partialInsertionSort (comp : α → α → Bool) (a : List α) (b e : Nat) : R (List α × Bool) :=
  if b = e then .ok (a, true) else partialLoop comp b (e - (b + 1)) a (b + 1) 0

/-- `sort2`, `_pdqsort.h` 191-196. -/
def sort2 (comp : α → α → Bool) (a : List α) (i j : Nat) : R (List α) := do
  let y ← rd a j
  let x ← rd a i
  if comp y x then iterSwap a i j else pure a

/-- `sort3`, `_pdqsort.h` 198-205. -/
def sort3 (comp : α → α → Bool) (a : List α) (i j k : Nat) : R (List α) := do
  let a ← sort2 comp a i j
  let a ← sort2 comp a j k
  sort2 comp a i j

/-- `while (p(*++first));` over what follows `first`; the second argument is the index of the head
of the suffix. -/
def scanUp (p : α → Bool) : List α → Nat → R Nat
  | [], _ => .error .oob
  | x :: r, i => if p x then scanUp p r (i + 1) else .ok i

/-- `while (p(*--last));`, with the pivot moved out of `hole`. -/
def scanDown (p : α → Bool) (hole : Nat) (a : List α) : Nat → R Nat
  | 0 => .error .oob
  | n + 1 =>
    if n = hole then .error .moved
    else do
      let x ← rd a n
      if p x then scanDown p hole a n else .ok n

/-- `while (first < last && p(*--last));`. -/
def scanDownG (p : α → Bool) (hole first : Nat) (a : List α) : Nat → R Nat
  | 0 => .ok 0
  | n + 1 =>
    if first < n + 1 then
      if n = hole then .error .moved
      else do
        let x ← rd a n
        if p x then scanDownG p hole first a n else .ok n
    else .ok (n + 1)

/-- `while (first < last && p(*++first));` over what follows `first`. -/
def scanUpG (p : α → Bool) (last : Nat) : List α → Nat → R Nat
  | [], first => if first < last then .error .oob else .ok first
  | x :: r, first =>
    if first < last then
      if p x then scanUpG p last r (first + 1) else .ok (first + 1)
    else .ok first

/-- `iter_swap` while the pivot is out of `hole`. -/
def holeSwap (hole : Nat) (a : List α) (i j : Nat) : R (List α) :=
  if i = hole ∨ j = hole then .error .moved else iterSwap a i j

/-- The swapping loop of `partition_right`, `_pdqsort.h` 487-493. -/
def rightLoop (comp : α → α → Bool) (pivot : α) (b : Nat) :
    Nat → List α → Nat → Nat → R (List α × Nat)
  | 0, _, _, _ => .error .fuel
  | n + 1, a, first, last =>
    if first < last then do
      let a ← holeSwap b a first last
      let first ← scanUp (fun x => comp x pivot) (a.drop (first + 1)) (first + 1)
      let last ← scanDown (fun x => !comp x pivot) b a last
      rightLoop comp pivot b n a first last
    else .ok (a, first)

/-- `*begin = std::move(*pivot_pos); *pivot_pos = std::move(pivot);` -/
def placePivot (a : List α) (b pp : Nat) (pivot : α) : R (List α) := do
  let x ← rd a pp
  let a ← wr a b x
  wr a pp pivot

/-- The first search from the right in `partition_right`, `_pdqsort.h` 467-475. -/
def firstDown (comp : α → α → Bool) (pivot : α) (a : List α) (b e first : Nat) : R Nat :=
  if first - 1 = b then scanDownG (fun x => !comp x pivot) b first a e
  else scanDown (fun x => !comp x pivot) b a e

/-- `partition_right`, `_pdqsort.h` 441-500: the list, the pivot position and
`already_partitioned`. -/
def partitionRight (comp : α → α → Bool) (a : List α) (b e : Nat) : R (List α × Nat × Bool) := do
  let pivot ← rd a b
  let first ← scanUp (fun x => comp x pivot) (a.drop (b + 1)) (b + 1)
  let last ← firstDown comp pivot a b e first
  let (a', first') ← rightLoop comp pivot b (last + 1) a first last
  let a'' ← placePivot a' b (first' - 1) pivot
  pure (a'', first' - 1, decide (first ≥ last))

/-- The swapping loop of `partition_left`, `_pdqsort.h` 529-535. -/
def leftLoop (comp : α → α → Bool) (pivot : α) (b : Nat) :
    Nat → List α → Nat → Nat → R (List α × Nat)
  | 0, _, _, _ => .error .fuel
  | n + 1, a, first, last =>
    if first < last then do
      let a ← holeSwap b a first last
      let last ← scanDown (fun x => comp pivot x) b a last
      let first ← scanUp (fun x => !comp pivot x) (a.drop (first + 1)) (first + 1)
      leftLoop comp pivot b n a first last
    else .ok (a, last)

/-- The first search from the left in `partition_left`, `_pdqsort.h` 522-527. -/
def firstUp (comp : α → α → Bool) (pivot : α) (a : List α) (b e last : Nat) : R Nat :=
  if last + 1 = e then scanUpG (fun x => !comp pivot x) last (a.drop (b + 1)) b
  else scanUp (fun x => !comp pivot x) (a.drop (b + 1)) (b + 1)

/-- `partition_left`, `_pdqsort.h` 502-540: the list and the pivot position. -/
def partitionLeft (comp : α → α → Bool) (a : List α) (b e : Nat) : R (List α × Nat) := do
  let pivot ← rd a b
  let last ← scanDown (fun x => comp pivot x) b a e
  let first ← firstUp comp pivot a b e last
  let (a, last) ← leftLoop comp pivot b (last + 1) a first last
  let a ← placePivot a b last pivot
  pure (a, last)

/-- Pivot choice, `_pdqsort.h` 563-572: leaves the pivot in `*begin`. -/
def choosePivot (comp : α → α → Bool) (a : List α) (b e : Nat) : R (List α) := do
  let size := e - b
  let s2 := size / 2
  if size > 128 then do
    let a ← sort3 comp a b (b + s2) (e - 1)
    let a ← sort3 comp a (b + 1) (b + (s2 - 1)) (e - 2)
    let a ← sort3 comp a (b + 2) (b + (s2 + 1)) (e - 3)
    let a ← sort3 comp a (b + (s2 - 1)) (b + s2) (b + (s2 + 1))
    iterSwap a b (b + s2)
  else sort3 comp a (b + s2) b (e - 1)

/-- The shuffle of the left part after a bad partition, `_pdqsort.h` 611-621. -/
def shuffleLeft (a : List α) (b pp : Nat) : R (List α) := do
  let l := pp - b
  if l ≥ 24 then do
    let a ← iterSwap a b (b + l / 4)
    let a ← iterSwap a (pp - 1) (pp - l / 4)
    if l > 128 then do
      let a ← iterSwap a (b + 1) (b + (l / 4 + 1))
      let a ← iterSwap a (b + 2) (b + (l / 4 + 2))
      let a ← iterSwap a (pp - 2) (pp - (l / 4 + 1))
      iterSwap a (pp - 3) (pp - (l / 4 + 2))
    else pure a
  else pure a

/-- The shuffle of the right part, `_pdqsort.h` 623-633. -/
def shuffleRight (a : List α) (pp e : Nat) : R (List α) := do
  let r := e - (pp + 1)
  if r ≥ 24 then do
    let a ← iterSwap a (pp + 1) (pp + (1 + r / 4))
    let a ← iterSwap a (e - 1) (e - r / 4)
    if r > 128 then do
      let a ← iterSwap a (pp + 2) (pp + (2 + r / 4))
      let a ← iterSwap a (pp + 3) (pp + (3 + r / 4))
      let a ← iterSwap a (e - 2) (e - (1 + r / 4))
      iterSwap a (e - 3) (e - (2 + r / 4))
    else pure a
  else pure a

/-- `std::make_heap(begin, end, comp); std::sort_heap(begin, end, comp);` with `hs` for their
joint effect on the range. -/
def heapSortRange (hs : List α → List α) (a : List α) (b e : Nat) : List α :=
  a.take b ++ hs ((a.take e).drop b) ++ a.drop e

/-- The short cut for an already partitioned range, `_pdqsort.h` 638-641. -/
def trySorted (comp : α → α → Bool) (already : Bool) (a : List α) (b pp e : Nat) :
    R (List α × Bool) := do
  if already then do
    let (a, ok) ← partialInsertionSort comp a b pp
    if ok then partialInsertionSort comp a (pp + 1) e else pure (a, false)
  else pure (a, false)

/-- `!leftmost && !comp(*(begin - 1), *begin)`, `_pdqsort.h` 583. -/
def pivotRepeats (comp : α → α → Bool) (leftmost : Bool) (a : List α) (b : Nat) : R Bool :=
  if leftmost then pure false
  else if b = 0 then .error .oob
  else do
    let x ← rd a (b - 1)
    let y ← rd a b
    pure (!comp x y)

/-- `pdqsort_loop`, `_pdqsort.h` 542-652.  `part` is the partition function chosen by
`Branchless`; the first argument bounds the number of rounds plus the depth of the recursion. -/
def pdqLoop (hs : List α → List α) (comp : α → α → Bool)
    (part : List α → Nat → Nat → R (List α × Nat × Bool)) :
    Nat → List α → Nat → Nat → Int → Bool → R (List α)
  | 0, _, _, _, _, _ => .error .fuel
  | n + 1, a, b, e, bad, leftmost =>
    if e - b < 24 then
      if leftmost then insertionSort comp a b e else unguardedInsertionSort comp a b e
    else do
      let a ← choosePivot comp a b e
      let again ← pivotRepeats comp leftmost a b
      if again then do
        let (a, pp) ← partitionLeft comp a b e
        pdqLoop hs comp part n a (pp + 1) e bad leftmost
      else do
        let (a, pp, already) ← part a b e
        let size := e - b
        if pp - b < size / 8 ∨ e - (pp + 1) < size / 8 then
          if bad - 1 = 0 then pure (heapSortRange hs a b e)
          else do
            let a ← shuffleLeft a b pp
            let a ← shuffleRight a pp e
            let a ← pdqLoop hs comp part n a b pp (bad - 1) leftmost
            pdqLoop hs comp part n a (pp + 1) e (bad - 1) false
        else do
          let (a, done) ← trySorted comp already a b pp e
          if done then pure a
          else do
            let a ← pdqLoop hs comp part n a b pp bad leftmost
            pdqLoop hs comp part n a (pp + 1) e bad false

/-- `pdqsort` for a comparator that is not `std::less`/`std::greater` on an arithmetic type,
`_pdqsort.h` 655-672.  This is the instance used by `List::sort`. -/
def pdqsort (hs : List α → List α) (comp : α → α → Bool) (a : List α) : R (List α) :=
  if a.length = 0 then .ok a
  else pdqLoop hs comp (partitionRight comp) (a.length + 1) a 0 a.length (log2 a.length) true

/-- `List::sort(reverse)`, `list_ref.cc` 525-537: ascending with `<`, descending with the
non-strict `>=`. -/
def listSort (hs : List α → List α) (lt ge : α → α → Bool) (reverse : Bool) (a : List α) :
    R (List α) :=
  if reverse then pdqsort hs ge a else pdqsort hs lt a

/-- `List::sort(key, reverse)`, `list_ref.cc` 539-554. -/
def listSortKey {κ : Type} (hs : List α → List α) (key : α → κ) (lt ge : κ → κ → Bool)
    (reverse : Bool) (a : List α) : R (List α) :=
  listSort hs (fun x y => lt (key x) (key y)) (fun x y => ge (key x) (key y)) reverse a

end Verif.PdqSort
