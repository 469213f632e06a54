/-!
# Storage of strings

A model of the storage behind `bytes` and `str`: `string_core`
(`include/matxscript/runtime/container/string_core.h`) and the operations of `String` and
`Unicode` that use it (`src/runtime/container/string.cc`, `unicode.cc`), with an explicit heap.
Short strings sit inside the object, medium ones own a buffer, long ones share a reference-counted
buffer that is copied when one of the owners changes it.

Every access to memory is checked here: reading or writing outside a buffer or after it has been
freed, freeing twice and reading the header of the wrong kind of buffer are errors.  Cells that
have not been written are `none`.

Simplifications.  `char` and `char32_t` are an arbitrary type with a null character; the limits
`maxSmallSize` and `maxMediumSize` and the capacities `malloc` is asked for are parameters.
`malloc` does not fail and `size_t` does not overflow; reallocation always moves the block.  Atomic
operations on the count are plain ones (one thread).  `initSmall` may read the rest of the last
word of its source, which cannot fault; these cells count as not written. -/

namespace Verif.StrCore

variable {α : Type}

/-- Errors of memory. -/
inductive Err
  | oob   -- outside a buffer
  | dead  -- after free
  | kind  -- header of the other kind
  deriving DecidableEq, Repr

/-- The parameters: `maxSmallSize` (16 for `char`, 4 for `char32_t`), `maxMediumSize` (254, 63),
and the capacity obtained for a requested one (`goodMallocSize`). -/
structure Par (α : Type) where
  nul : α
  S : Nat
  M : Nat
  goodM : Nat → Nat
  goodL : Nat → Nat

/-- A buffer: `MediumBuffer` (`rc = none`) or `RefCounted`; `string_core.h` 514-643. -/
structure Buf (α : Type) where
  rc : Option Nat
  cap : Nat
  cells : List (Option α)

/-- The heap. Addresses are not reused. -/
structure Heap (α : Type) where
  next : Nat
  buf : Nat → Option (Buf α)

/-- The object: a union of an array and a pointer with a size, the word `zero_` after it, and the
category. `cells` is the array followed by `zero_`. -/
inductive Core (α : Type)
  | small (cells : List (Option α)) (len : Nat)
  | medium (p size : Nat)
  | large (p size : Nat)

def Heap.get (H : Heap α) (p : Nat) : Except Err (Buf α) :=
  match H.buf p with
  | some b => .ok b
  | none => .error .dead

def Heap.set (H : Heap α) (p : Nat) (b : Option (Buf α)) : Heap α :=
  { H with buf := fun q => if q = p then b else H.buf q }

/-- Cells with `l` written at `off`. -/
def overwrite (cells : List (Option α)) (off : Nat) (l : List (Option α)) : List (Option α) :=
  cells.take off ++ l ++ cells.drop (off + l.length)

def Heap.read (H : Heap α) (p off n : Nat) : Except Err (List (Option α)) := do
  let b ← H.get p
  if off + n ≤ b.cells.length then .ok ((b.cells.drop off).take n) else .error .oob

def Heap.write (H : Heap α) (p off : Nat) (l : List (Option α)) : Except Err (Heap α) := do
  let b ← H.get p
  if off + l.length ≤ b.cells.length then
    .ok (H.set p (some { b with cells := overwrite b.cells off l }))
  else .error .oob

/-- `free`. -/
def Heap.free (H : Heap α) (p : Nat) : Except Err (Heap α) := do
  let _ ← H.get p
  .ok (H.set p none)

/-- A fresh block of `cap + 1` cells. -/
def Heap.alloc (H : Heap α) (rc : Option Nat) (cap : Nat) : Heap α × Nat :=
  ({ next := H.next + 1,
     buf := fun q => if q = H.next then some ⟨rc, cap, List.replicate (cap + 1) none⟩ else H.buf q },
   H.next)

/-- `MediumBuffer::create(size_t*)` (530-536). -/
def createM (P : Par α) (H : Heap α) (n : Nat) : Heap α × Nat := H.alloc none (P.goodM n)

/-- `RefCounted::create(size_t*)` (606-613). -/
def createL (P : Par α) (H : Heap α) (n : Nat) : Heap α × Nat := H.alloc (some 1) (P.goodL n)

/-- `RefCounted::refs` (589-591). -/
def refs (H : Heap α) (p : Nat) : Except Err Nat := do
  let b ← H.get p
  match b.rc with
  | some k => .ok k
  | none => .error .kind

/-- `RefCounted::incrementRefs` (593-595). -/
def incr (H : Heap α) (p : Nat) : Except Err (Heap α) := do
  let b ← H.get p
  match b.rc with
  | some k => .ok (H.set p (some { b with rc := some (k + 1) }))
  | none => .error .kind

/-- `RefCounted::decrementRefs` (597-604). -/
def decr (H : Heap α) (p : Nat) : Except Err (Heap α) := do
  let b ← H.get p
  match b.rc with
  | some k => if k = 1 then H.free p else .ok (H.set p (some { b with rc := some (k - 1) }))
  | none => .error .kind

/-- `MediumBuffer::Destroy` (565-568): the block starts at the header of a `MediumBuffer`. -/
def destroyM (H : Heap α) (p : Nat) : Except Err (Heap α) := do
  let b ← H.get p
  match b.rc with
  | none => H.free p
  | some _ => .error .kind

/-- `reallocate` (547-563, 624-642) and `smartRealloc` (`jemalloc_helper.cc` 208-223): the
characters and the terminator move, nothing more is relied on. -/
def realloc (H : Heap α) (p size cap : Nat) : Except Err (Heap α × Nat) := do
  let b ← H.get p
  let l ← H.read p 0 (size + 1)
  let H ← H.free p
  let (H, q) := H.alloc b.rc cap
  let H ← H.write q 0 l
  .ok (H, q)

/-! ## `string_core` -/

def Core.size : Core α → Nat
  | .small _ len => len
  | .medium _ n => n
  | .large _ n => n

/-- `setSmallSize` (673-681). -/
def setSmallSize (P : Par α) (cells : List (Option α)) (n : Nat) : Core α :=
  .small (overwrite cells n [some P.nul]) n

/-- The array of an object not yet written, followed by `zero_`. -/
def rawCells (P : Par α) : List (Option α) := List.replicate P.S none ++ [some P.nul]

/-- The default constructor, and what a moved-from object becomes (`reset`, 500-502). -/
def empty (P : Par α) : Core α := setSmallSize P (rawCells P) 0

/-- Read `n` characters at `off` of a string's storage. -/
def peek (H : Heap α) (c : Core α) (off n : Nat) : Except Err (List (Option α)) :=
  match c with
  | .small cells _ => if off + n ≤ cells.length then .ok ((cells.drop off).take n) else .error .oob
  | .medium p _ => H.read p off n
  | .large p _ => H.read p off n

/-- Write at `off` of a string's storage. -/
def poke (H : Heap α) (c : Core α) (off : Nat) (l : List (Option α)) :
    Except Err (Heap α × Core α) :=
  match c with
  | .small cells len =>
    if off + l.length < cells.length then .ok (H, .small (overwrite cells off l) len)
    else .error .oob
  | .medium p n => do let H ← H.write p off l; .ok (H, .medium p n)
  | .large p n => do let H ← H.write p off l; .ok (H, .large p n)

/-- `initSmall` (744-779): the characters, then `setSmallSize`. -/
def initSmall (P : Par α) (l : List (Option α)) : Core α :=
  setSmallSize P (overwrite (rawCells P) 0 l) l.length

/-- `initMedium` (782-792). -/
def initMedium (P : Par α) (H : Heap α) (l : List (Option α)) : Except Err (Heap α × Core α) := do
  let (H, p) := createM P H l.length
  let H ← H.write p 0 l
  let H ← H.write p l.length [some P.nul]
  .ok (H, .medium p l.length)

/-- `initLarge` (795-804). -/
def initLarge (P : Par α) (H : Heap α) (l : List (Option α)) : Except Err (Heap α × Core α) := do
  let (H, p) := createL P H l.length
  let H ← H.write p 0 l
  let H ← H.write p l.length [some P.nul]
  .ok (H, .large p l.length)

/-- `string_core(data, size)` (339-349), for the characters read from `data`. -/
def mk (P : Par α) (H : Heap α) (l : List (Option α)) : Except Err (Heap α × Core α) :=
  if l.length ≤ P.S then .ok (H, initSmall P l)
  else if l.length ≤ P.M then initMedium P H l
  else initLarge P H l

/-- `string_core(data, size, category)` (276-293): a view of a whole long string shares its
buffer. -/
def fromView (P : Par α) (H : Heap α) (c : Core α) : Except Err (Heap α × Core α) :=
  match c with
  | .large p n =>
    if n ≤ P.M then do
      let l ← peek H c 0 n
      mk P H l
    else do
      let H ← incr H p
      .ok (H, .large p n)
  | c => do
    let l ← peek H c 0 c.size
    mk P H l

/-- Copy constructor (310-327; `copySmall`, `copyMedium`, `copyLarge` 708-740). -/
def copy (P : Par α) (H : Heap α) (c : Core α) : Except Err (Heap α × Core α) :=
  match c with
  | .small cells len => .ok (H, .small cells len)
  | .medium p n => do
    let l ← H.read p 0 n
    let (H, q) := createM P H n
    let H ← H.write q 0 l
    let H ← H.write q n [some P.nul]
    .ok (H, .medium q n)
  | .large p n => do
    let H ← incr H p
    .ok (H, .large p n)

/-- Destructor (375-380, 504-512). -/
def destroy (H : Heap α) (c : Core α) : Except Err (Heap α) :=
  match c with
  | .small _ _ => .ok H
  | .medium p _ => destroyM H p
  | .large p _ => decr H p

/-- `unshare` (838-852). -/
def unshare (P : Par α) (H : Heap α) (p n minCap : Nat) : Except Err (Heap α × Core α) := do
  let b ← H.get p
  let (H, q) := createL P H (max minCap b.cap)
  let l ← H.read p 0 (n + 1)
  let H ← H.write q 0 l
  let H ← decr H p
  .ok (H, .large q n)

/-- `mutableData` (404-416, 855-861). -/
def mutableData (P : Par α) (H : Heap α) (c : Core α) : Except Err (Heap α × Core α) :=
  match c with
  | .large p n => do
    let k ← refs H p
    if k > 1 then unshare P H p n 0 else .ok (H, .large p n)
  | c => .ok (H, c)

/-- `reserveSmall` (912-938). -/
def reserveSmall (P : Par α) (H : Heap α) (cells : List (Option α)) (len minCap : Nat) :
    Except Err (Heap α × Core α) :=
  if minCap ≤ P.S then .ok (H, .small cells len)
  else if minCap ≤ P.M then do
    let (H, p) := createM P H minCap
    let l ← peek H (.small cells len) 0 (len + 1)
    let H ← H.write p 0 l
    .ok (H, .medium p len)
  else do
    let (H, p) := createL P H minCap
    let l ← peek H (.small cells len) 0 (len + 1)
    let H ← H.write p 0 l
    .ok (H, .large p len)

/-- `reserveMedium` (887-909); the nascent string of a conversion is reserved from the empty one
and takes over the characters, the old buffer goes with the swapped temporary. -/
def reserveMedium (P : Par α) (H : Heap α) (p n minCap : Nat) : Except Err (Heap α × Core α) := do
  let b ← H.get p
  if minCap ≤ b.cap then .ok (H, .medium p n)
  else if minCap ≤ P.M then
    let (H, q) ← realloc H p n (P.goodM minCap)
    .ok (H, .medium q n)
  else
    let (H, nascent) ← match empty P with
      | .small cells len => reserveSmall P H cells len minCap
      | c => .ok (H, c)
    match nascent with
    | .large q _ => do
      let l ← H.read p 0 (n + 1)
      let H ← H.write q 0 l
      let H ← destroy H (.medium p n)
      .ok (H, .large q n)
    | _ => .error .kind

/-- `reserveLarge` (864-884). -/
def reserveLarge (P : Par α) (H : Heap α) (p n minCap : Nat) : Except Err (Heap α × Core α) := do
  let k ← refs H p
  if k > 1 then unshare P H p n minCap
  else
    let b ← H.get p
    if minCap > b.cap then
      let (H, q) ← realloc H p n (P.goodL minCap)
      .ok (H, .large q n)
    else .ok (H, .large p n)

/-- `reserve` (435-450). -/
def reserve (P : Par α) (H : Heap α) (c : Core α) (minCap : Nat) : Except Err (Heap α × Core α) :=
  match c with
  | .small cells len => reserveSmall P H cells len minCap
  | .medium p n => reserveMedium P H p n minCap
  | .large p n => reserveLarge P H p n minCap

/-- `capacity` (464-486). -/
def capacity (P : Par α) (H : Heap α) (c : Core α) : Except Err Nat :=
  match c with
  | .small _ _ => .ok P.S
  | .medium p _ => do let b ← H.get p; .ok b.cap
  | .large p n => do
    let k ← refs H p
    if k > 1 then .ok n else do let b ← H.get p; .ok b.cap

/-- The end of `expandNoinit`: the new size and its terminator. -/
def setSize (P : Par α) (H : Heap α) (c : Core α) (n : Nat) : Except Err (Heap α × Core α) :=
  match c with
  | .small _ _ => .error .kind
  | .medium p _ => do let H ← H.write p n [some P.nul]; .ok (H, .medium p n)
  | .large p _ => do let H ← H.write p n [some P.nul]; .ok (H, .large p n)

/-- `expandNoinit` (941-968). -/
def expand (P : Par α) (H : Heap α) (c : Core α) (delta : Nat) (exp : Bool) :
    Except Err (Heap α × Core α) :=
  match c with
  | .small cells sz =>
    if sz + delta ≤ P.S then .ok (H, setSmallSize P cells (sz + delta))
    else do
      let (H, c) ← reserveSmall P H cells sz
        (if exp then max (sz + delta) (2 * P.S) else sz + delta)
      setSize P H c (sz + delta)
  | c => do
    let cap ← capacity P H c
    let (H, c) ← if c.size + delta > cap then
        reserve P H c (if exp then max (c.size + delta) (1 + cap * 3 / 2) else c.size + delta)
      else .ok (H, c)
    setSize P H c (c.size + delta)

/-- `shrink` (424-432, 971-996). -/
def shrink (P : Par α) (H : Heap α) (c : Core α) (delta : Nat) : Except Err (Heap α × Core α) :=
  match c with
  | .small cells len => .ok (H, setSmallSize P cells (len - delta))
  | .medium _ n => setSize P H c (n - delta)
  | .large p n => do
    let k ← refs H p
    if k = 1 then setSize P H c (n - delta)
    else if delta = 0 then .ok (H, c)
    else
      let l ← peek H c 0 (n - delta)
      let (H, d) ← mk P H l
      let H ← destroy H c
      .ok (H, d)

/-- `isShared` (488-490). -/
def isShared (H : Heap α) (c : Core α) : Except Err Bool :=
  match c with
  | .large p _ => do let k ← refs H p; .ok (decide (k > 1))
  | _ => .ok false

/-- `MoveFromCHost` (257-274): only the characters of a short string are taken over; the others
keep what the default constructor leaves. -/
def moveFrom (P : Par α) (c : Core α) : Core α :=
  match c with
  | .small cells len =>
    .small (overwrite (overwrite (rawCells P) 0 [some P.nul]) 0 (cells.take len)) len
  | c => c

/-! ## Operations of `String` and `Unicode` -/

/-- Where the characters of an argument are: elsewhere (a literal, or inside another short
string), in the array of the string itself, or in a buffer. -/
inductive Src (α : Type)
  | ext (l : List (Option α))
  | self (off : Nat)
  | heap (p off : Nat)

def readSrc (H : Heap α) (c : Core α) (s : Src α) (n : Nat) : Except Err (List (Option α)) :=
  match s with
  | .ext l => if n ≤ l.length then .ok (l.take n) else .error .oob
  | .self off => match c with
    | .small _ _ => peek H c off n
    | _ => .error .dead
  | .heap p off => H.read p off n

/-- The argument of `append`, read after the string `c` has become `c'`: one inside the old storage
is found again in the new one (`string.cc` 368-388). -/
def readMoved (H' : Heap α) (c c' : Core α) (s : Src α) (n : Nat) :
    Except Err (List (Option α)) :=
  match s, c with
  | .self off, .small _ _ => if off < c.size then peek H' c' off n else readSrc H' c' s n
  | .heap p off, .medium q _ =>
    if p = q ∧ off < c.size then peek H' c' off n else readSrc H' c' s n
  | .heap p off, .large q _ =>
    if p = q ∧ off < c.size then peek H' c' off n else readSrc H' c' s n
  | _, _ => readSrc H' c' s n

/-- `append(const char*, size_type)` (`string.cc` 362-389). -/
def append (P : Par α) (H : Heap α) (c : Core α) (s : Src α) (n : Nat) :
    Except Err (Heap α × Core α) :=
  if n = 0 then .ok (H, c)
  else do
    let (H', c') ← expand P H c n true
    let l ← readMoved H' c c' s n
    poke H' c' c.size l

/-- `append(size_type, char)` (395-405); with `n = 1` also `push_back`. -/
def appendFill (P : Par α) (H : Heap α) (c : Core α) (n : Nat) (x : α) :
    Except Err (Heap α × Core α) := do
  let (H', c') ← expand P H c n true
  poke H' c' c.size (List.replicate n (some x))

/-- `assign(const char*, size_type)` (428-454). -/
def assign (P : Par α) (H : Heap α) (c : Core α) (s : Src α) (n : Nat) :
    Except Err (Heap α × Core α) :=
  if n = 0 then shrink P H c c.size
  else if c.size ≥ n then do
    let (H, c') ← mutableData P H c
    let l ← readSrc H c' s n
    let (H, c') ← poke H c' 0 l
    shrink P H c' (c'.size - n)
  else do
    let sh ← isShared H c
    if sh then
      let l ← readSrc H c s n
      let (H, d) ← mk P H l
      let H ← destroy H c
      .ok (H, d)
    else
      let (H, c') ← expand P H c (n - c.size) false
      let l ← readSrc H c' s n
      poke H c' 0 l

/-- `resize` (271-281). -/
def resize (P : Par α) (H : Heap α) (c : Core α) (n : Nat) (x : α) :
    Except Err (Heap α × Core α) :=
  if n ≤ c.size then shrink P H c (c.size - n)
  else do
    let (H', c') ← expand P H c (n - c.size) false
    poke H' c' c.size (List.replicate (n - c.size) (some x))

/-- `shrink_to_fit` (291-296). -/
def shrinkToFit (P : Par α) (H : Heap α) (c : Core α) : Except Err (Heap α × Core α) := do
  let cap ← capacity P H c
  if cap < c.size * 3 / 2 then .ok (H, c)
  else
    let l ← peek H c 0 c.size
    let (H, d) ← mk P H l
    let H ← destroy H c
    .ok (H, d)

/-- `insert(size_type, self_view)` (476-485): the argument is read after the storage has grown
and the tail has moved. -/
def insert (P : Par α) (H : Heap α) (c : Core α) (pos : Nat) (s : Src α) (n : Nat) :
    Except Err (Heap α × Core α) := do
  let (H, c1) ← expand P H c n true
  let (H, c1) ← mutableData P H c1
  let tail ← peek H c1 pos (c.size - pos)
  let (H, c1) ← poke H c1 (pos + n) tail
  let l ← readSrc H c1 s n
  poke H c1 pos l

/-- `erase` (529-538) for `pos ≤ size`. -/
def erase (P : Par α) (H : Heap α) (c : Core α) (pos n : Nat) : Except Err (Heap α × Core α) := do
  let n := min n (c.size - pos)
  let (H, c) ← mutableData P H c
  let tail ← peek H c (pos + n) (c.size - (pos + n))
  let (H, c) ← poke H c pos tail
  resize P H c (c.size - n) P.nul

/-- `replace(size_type, size_type, self_view)` (548-560) for `pos ≤ size`. -/
def replace (P : Par α) (H : Heap α) (c : Core α) (pos n1 : Nat) (s : Src α) (n : Nat) :
    Except Err (Heap α × Core α) := do
  let n1 := min n1 (c.size - pos)
  let (H, t) ← reserve P H (empty P) (c.size - n1 + n)
  let l1 ← peek H c 0 pos
  let (H, t) ← append P H t (.ext l1) pos
  let l2 ← readSrc H c s n
  let (H, t) ← append P H t (.ext l2) n
  let l3 ← peek H c (pos + n1) (c.size - pos - n1)
  let (H, t) ← append P H t (.ext l3) (c.size - pos - n1)
  let H ← destroy H c
  .ok (H, t)

/-- `s[k] = x` (`operator[]`, `at`, 319-335). -/
def setAt (P : Par α) (H : Heap α) (c : Core α) (k : Nat) (x : α) :
    Except Err (Heap α × Core α) := do
  let (H, c) ← mutableData P H c
  poke H c k [some x]

/-- `operator=(const String&)` (138-148) of different objects: a long string is shared. -/
def assignFrom (P : Par α) (H : Heap α) (c d : Core α) (s : Src α) :
    Except Err (Heap α × Core α) :=
  match d with
  | .large _ _ => do
    let (H, e) ← copy P H d
    let H ← destroy H c
    .ok (H, e)
  | d => assign P H c s d.size

/-- `operator=(self_view)` (168-174) with the view of a whole string. -/
def assignView (P : Par α) (H : Heap α) (c d : Core α) (s : Src α) :
    Except Err (Heap α × Core α) :=
  match d with
  | .large _ _ => do
    let (H, e) ← fromView P H d
    let H ← destroy H c
    .ok (H, e)
  | d => assign P H c s d.size

/-! ## Programs over string variables -/

/-- Statements. A part of variable `j` is given by an offset and a length. `new`, `copy`, `view`,
`sub`, `move` and `unbox` declare a new variable, the last in the list. -/
inductive Op (α : Type)
  | new (l : List α)
  | copy (i : Nat)
  | view (i : Nat)
  | sub (i off n : Nat)
  | move (i : Nat)
  | unbox (i : Nat)
  | del (i : Nat)
  | assignFrom (i j : Nat)
  | assignView (i j : Nat)
  | assignMove (i j : Nat)
  | assignLit (i : Nat) (l : List α)
  | assignPart (i j off n : Nat)
  | appendLit (i : Nat) (l : List α)
  | appendPart (i j off n : Nat)
  | appendFill (i n : Nat) (x : α)
  | popBack (i : Nat)
  | resize (i n : Nat) (x : α)
  | reserve (i n : Nat)
  | shrinkToFit (i : Nat)
  | insertLit (i pos : Nat) (l : List α)
  | insertPart (i pos j off n : Nat)
  | erase (i pos n : Nat)
  | replaceLit (i pos n1 : Nat) (l : List α)
  | replacePart (i pos n1 j off n : Nat)
  | setAt (i k : Nat) (x : α)

/-- The characters of variable `j` from `off` on, as an argument of an operation on variable
`i`. -/
def srcOf (cs : List (Core α)) (i j off : Nat) : Src α :=
  match cs[j]? with
  | some (.small cells _) => if i = j then .self off else .ext (cells.drop off)
  | some (.medium p _) => .heap p off
  | some (.large p _) => .heap p off
  | none => .ext []

/-- Run an operation that changes variable `i`. -/
def onVar (H : Heap α) (cs : List (Core α)) (i : Nat)
    (f : Heap α → Core α → Except Err (Heap α × Core α)) : Except Err (Heap α × List (Core α)) :=
  match cs[i]? with
  | none => .ok (H, cs)
  | some c => do
    let (H, c) ← f H c
    .ok (H, cs.set i c)

/-- Run an operation that makes a new string from variable `i`. -/
def newFrom (H : Heap α) (cs : List (Core α)) (i : Nat)
    (f : Heap α → Core α → Except Err (Heap α × Core α)) : Except Err (Heap α × List (Core α)) :=
  match cs[i]? with
  | none => .ok (H, cs)
  | some c => do
    let (H, c) ← f H c
    .ok (H, cs ++ [c])

def lit (l : List α) : Src α := .ext (l.map some)

def step (P : Par α) (H : Heap α) (cs : List (Core α)) :
    Op α → Except Err (Heap α × List (Core α))
  | .new l => do
    let (H, c) ← mk P H (l.map some)
    .ok (H, cs ++ [c])
  | .copy i => newFrom H cs i (copy P)
  | .view i => newFrom H cs i (fromView P)
  | .sub i off n => newFrom H cs i fun H c => do
    let l ← peek H c off n
    mk P H l
  | .move i => match cs[i]? with
    | none => .ok (H, cs)
    | some c => .ok (H, cs.set i (empty P) ++ [c])
  | .unbox i => match cs[i]? with
    | none => .ok (H, cs)
    | some c => .ok (H, cs.set i (empty P) ++ [moveFrom P c])
  | .del i => match cs[i]? with
    | none => .ok (H, cs)
    | some c => do
      let H ← destroy H c
      .ok (H, cs.eraseIdx i)
  | .assignFrom i j => match cs[j]? with
    | none => .ok (H, cs)
    | some d => if i = j then .ok (H, cs)
      else onVar H cs i fun H c => assignFrom P H c d (srcOf cs i j 0)
  | .assignView i j => match cs[j]? with
    | none => .ok (H, cs)
    | some d => onVar H cs i fun H c => assignView P H c d (srcOf cs i j 0)
  | .assignMove i j => match cs[j]? with
    | none => .ok (H, cs)
    | some d => if i = j then .ok (H, cs)
      else match cs[i]? with
        | none => .ok (H, cs)
        | some c => do
          let H ← destroy H c
          .ok (H, (cs.set i d).set j (empty P))
  | .assignLit i l => onVar H cs i fun H c => assign P H c (lit l) l.length
  | .assignPart i j off n => onVar H cs i fun H c => assign P H c (srcOf cs i j off) n
  | .appendLit i l => onVar H cs i fun H c => append P H c (lit l) l.length
  | .appendPart i j off n => onVar H cs i fun H c => append P H c (srcOf cs i j off) n
  | .appendFill i n x => onVar H cs i fun H c => appendFill P H c n x
  | .popBack i => onVar H cs i fun H c => shrink P H c 1
  | .resize i n x => onVar H cs i fun H c => resize P H c n x
  | .reserve i n => onVar H cs i fun H c => reserve P H c n
  | .shrinkToFit i => onVar H cs i (shrinkToFit P)
  | .insertLit i pos l => onVar H cs i fun H c => insert P H c pos (lit l) l.length
  | .insertPart i pos j off n => onVar H cs i fun H c => insert P H c pos (srcOf cs i j off) n
  | .erase i pos n => onVar H cs i fun H c => erase P H c pos n
  | .replaceLit i pos n1 l => onVar H cs i fun H c => replace P H c pos n1 (lit l) l.length
  | .replacePart i pos n1 j off n =>
    onVar H cs i fun H c => replace P H c pos n1 (srcOf cs i j off) n
  | .setAt i k x => onVar H cs i fun H c => setAt P H c k x

def run (P : Par α) : Heap α → List (Core α) → List (Op α) → Except Err (Heap α × List (Core α))
  | H, cs, [] => .ok (H, cs)
  | H, cs, op :: ops => do
    let (H, cs) ← step P H cs op
    run P H cs ops

/-- The heap without buffers. -/
def Heap.none : Heap α := ⟨0, fun _ => Option.none⟩

end Verif.StrCore
