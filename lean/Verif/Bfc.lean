/-
The allocator of array data: `BFCArena` (3rdparty/alloc/brt/core/framework/bfc_arena.cc and
3rdparty/alloc/include/brt/core/framework/bfc_arena.h), as used by `CPUDeviceAPI` (src/runtime/cpu_device_api.cc) and
`CUDADeviceAPI` (src/runtime/cuda/cuda_device_api.cc).

Simplifications:
* `Shrink` and `Reserve` are not modelled: matxscript never calls them. So `reserved_chunks_` is empty.
* Every call holds `lock_` from the first access to the arena on, so calls are atomic.
* `chunks_` is a function on handles and a number of chunks, `handles_` a function on indices; reading or writing beyond
  the number is an outcome of its own (`throws` for `ChunkFromHandle`, which checks, `bad` for `handles_`, which does not).
* `std::set` with a comparator that reads the chunks is a sorted list; inserting and erasing compare with the chunks as
  they are then. `std::upper_bound` is the first element for which the comparator holds.
* Of the statistics only `bytes_in_use`, `total_allocated_bytes` and `num_arena_extensions` are kept.
* `bytes * 0.9f` is a function of the configuration.
* The memory that the device gives is a parameter of each call.
* The cast of an index to `int` (`IndexFor`) is left out: it changes nothing for regions below 512 GiB.
* A call that throws leaves no state: what an arena does after a failed check is not described.
-/

namespace Verif.Bfc

/-- Outcomes: a value, an exception (`BRT_ENFORCE`, `BRT_THROW`), undefined behaviour, a loop that does not end. -/
inductive Out (α : Type) where
  | ok (a : α)
  | throws
  | bad
  | hang

def Out.bind {α β : Type} : Out α → (α → Out β) → Out β
  | .ok a, f => f a
  | .throws, _ => .throws
  | .bad, _ => .bad
  | .hang, _ => .hang

instance : Monad Out where
  pure := .ok
  bind := Out.bind

/-- `Chunk` (bfc_arena.h 120-168). `id` is `allocation_id`; `none` is `kInvalidChunkHandle` and `kInvalidBinNum`. -/
structure Chunk where
  size : Nat := 0
  req : Nat := 0
  id : Int := -1
  ptr : Nat := 0
  prev : Option Nat := none
  next : Option Nat := none
  bin : Option Nat := none

/-- `in_use` (bfc_arena.h 149-151). -/
def Chunk.inUse (c : Chunk) : Bool := decide (c.id ≠ -1)

/-- `AllocationRegion` (bfc_arena.h 208-293). -/
structure Region where
  base : Nat
  size : Nat
  id : Nat
  handles : Nat → Option Nat

/-- The arena. `cur` is `curr_region_allocation_bytes_`, `free` is `free_chunks_list_`. -/
structure Arena where
  regions : List Region
  chunks : Nat → Chunk
  n : Nat
  free : Option Nat
  bins : Nat → List Nat
  nextId : Int
  cur : Nat
  total : Nat
  used : Nat
  extensions : Nat

/-- What is fixed at construction: `memory_limit_`, the strategy kNextPowerOfTwo or kSameAsRequested,
`max_dead_bytes_per_chunk_`, and `bytes * kBackpedalFactor`. -/
structure Conf where
  limit : Nat
  pow2 : Bool
  maxDead : Int
  back : Nat → Nat

/-- The device's answer to a request: memory, a null pointer or `std::bad_alloc`, or another exception. -/
inductive Ans where
  | mem (addr : Nat)
  | null
  | raises

/-! ## Sizes -/

/-- `RoundedBytes` (bfc_arena.cc 237-242) in `size_t`. -/
def rounded (bytes : Nat) : Nat := 256 * ((bytes + 255) % 2 ^ 64 / 256)

/-- `BinNumForSize` (bfc_arena.h 458-462): 21 bins. -/
def binNum (bytes : Nat) : Nat := min 20 (Nat.log2 (max bytes 256 / 256))

/-! ## Chunks, regions, bins -/

def Arena.set (σ : Arena) (h : Nat) (c : Chunk) : Arena :=
  { σ with chunks := fun k => if k = h then c else σ.chunks k }

/-- `ChunkFromHandle` (bfc_arena.cc 91-94). -/
def chunkAt (σ : Arena) (h : Nat) : Out Chunk := if h < σ.n then .ok (σ.chunks h) else .throws

/-- `AllocateChunk` (bfc_arena.cc 218-228). -/
def allocateChunk (σ : Arena) : Out (Nat × Arena) :=
  match σ.free with
  | some h => do
    let c ← chunkAt σ h
    pure (h, { σ with free := c.next })
  | none => pure (σ.n, { σ.set σ.n {} with n := σ.n + 1 })

/-- `DeallocateChunk` (bfc_arena.cc 230-235). -/
def deallocateChunk (σ : Arena) (h : Nat) : Out Arena := do
  let c ← chunkAt σ h
  pure { σ.set h { c with next := σ.free } with free := some h }

/-- `RegionFor` (bfc_arena.h 344-352): the first region that ends after the pointer. -/
def regionFor (σ : Arena) (p : Nat) : Option Region := σ.regions.find? fun r => p < r.base + r.size

/-- `IndexFor` (bfc_arena.h 269-275). -/
def Region.index (r : Region) (p : Nat) : Nat := (p - r.base) / 256

/-- `get_handle` (bfc_arena.h 250-252, 318-320): undefined for a pointer outside of all regions. -/
def getHandle (σ : Arena) (p : Nat) : Out (Option Nat) :=
  match regionFor σ p with
  | some r => if r.base ≤ p then .ok (r.handles (r.index p)) else .bad
  | none => .bad

/-- A region with an entry set (bfc_arena.h 253-258). -/
def Region.put (r : Region) (p : Nat) (v : Option Nat) : Region :=
  { r with handles := fun i => if i = r.index p then v else r.handles i }

def putRegions (p : Nat) (v : Option Nat) : List Region → Out (List Region)
  | [] => .bad
  | r :: rs =>
    if p < r.base + r.size then
      if r.base ≤ p then .ok (r.put p v :: rs) else .bad
    else do
      let rs ← putRegions p v rs
      pure (r :: rs)

/-- `set_handle` and `erase` (bfc_arena.h 322-327). -/
def setHandle (σ : Arena) (p : Nat) (v : Option Nat) : Out Arena := do
  let rs ← putRegions p v σ.regions
  pure { σ with regions := rs }

/-- `AddAllocationRegion` (bfc_arena.h 304-308, 336-338): before the first region that ends after the pointer. -/
def addRegion (r : Region) : List Region → List Region
  | [] => [r]
  | a :: as => if r.base < a.base + a.size then r :: a :: as else a :: addRegion r as

/-- `ChunkComparator` (bfc_arena.h 175-191). -/
def less (cs : Nat → Chunk) (a b : Nat) : Bool :=
  if (cs a).size ≠ (cs b).size then decide ((cs a).size < (cs b).size) else decide ((cs a).ptr < (cs b).ptr)

/-- `std::set::insert`. -/
def insertSet (cs : Nat → Chunk) (h : Nat) : List Nat → List Nat
  | [] => [h]
  | a :: l => if less cs h a then h :: a :: l else if less cs a h then a :: insertSet cs h l else a :: l

/-- `std::set::erase` of a key: all elements that are equivalent. -/
def eraseSet (cs : Nat → Chunk) (h : Nat) (l : List Nat) : List Nat := l.filter fun a => less cs h a || less cs a h

def Arena.setBin (σ : Arena) (b : Nat) (l : List Nat) : Arena :=
  { σ with bins := fun k => if k = b then l else σ.bins k }

/-- `InsertFreeChunkIntoBin` (bfc_arena.cc 530-537). -/
def insertBin (σ : Arena) (h : Nat) : Out Arena := do
  let c ← chunkAt σ h
  if c.inUse || c.bin.isSome then .throws
  else
    let b := binNum c.size
    let σ := σ.set h { c with bin := some b }
    pure (σ.setBin b (insertSet σ.chunks h (σ.bins b)))

/-- `RemoveFreeChunkFromBin` (bfc_arena.cc 548-553). -/
def removeBin (σ : Arena) (h : Nat) : Out Arena := do
  let c ← chunkAt σ h
  if c.inUse then .throws
  else
    match c.bin with
    | none => .throws
    | some b =>
      if (eraseSet σ.chunks h (σ.bins b)).length = (σ.bins b).length then .throws
      else
        let σ := σ.setBin b (eraseSet σ.chunks h (σ.bins b))
        pure (σ.set h { c with bin := none })

/-- `RemoveFreeChunkIterFromBin` (bfc_arena.cc 539-546): the set is that of the bin being searched. -/
def removeIter (σ : Arena) (b h : Nat) : Out Arena := do
  let c ← chunkAt σ h
  if c.inUse || c.bin.isNone then .throws
  else
    let σ := σ.setBin b ((σ.bins b).erase h)
    pure (σ.set h { c with bin := none })

/-! ## Splitting and merging -/

/-- `SplitChunk` (bfc_arena.cc 372-405). -/
def splitChunk (σ : Arena) (h bytes : Nat) : Out Arena := do
  let (k, σ) ← allocateChunk σ
  let c ← chunkAt σ h
  if c.inUse || c.bin.isSome then .throws
  else
    let d ← chunkAt σ k
    let d := { d with ptr := c.ptr + bytes }
    let σ := σ.set k d
    let σ ← setHandle σ d.ptr (some k)
    let d := { d with size := c.size - bytes, id := -1, prev := some h, next := c.next }
    let σ := σ.set k d
    let σ := σ.set h { c with size := bytes, next := some k }
    let σ ← match c.next with
      | none => pure σ
      | some m => do
        let e ← chunkAt σ m
        pure (σ.set m { e with prev := some k })
    insertBin σ k

/-- `DeleteChunk` (bfc_arena.cc 523-528). -/
def deleteChunk (σ : Arena) (h : Nat) : Out Arena := do
  let c ← chunkAt σ h
  let σ ← setHandle σ c.ptr none
  deallocateChunk σ h

/-- `Merge` (bfc_arena.cc 495-521). -/
def merge (σ : Arena) (h1 h2 : Nat) : Out Arena := do
  let c1 ← chunkAt σ h1
  let c2 ← chunkAt σ h2
  if c1.inUse || c2.inUse then .throws
  else
    let σ := σ.set h1 { c1 with next := c2.next }
    if c2.prev ≠ some h1 then .throws
    else
      let σ ← match c2.next with
        | none => pure σ
        | some m => do
          let e ← chunkAt σ m
          pure (σ.set m { e with prev := some h1 })
      let c1 ← chunkAt σ h1
      let σ := σ.set h1 { c1 with size := c1.size + c2.size }
      deleteChunk σ h2

/-- `FreeAndMaybeCoalesce` (bfc_arena.cc 555-595). -/
def freeChunk (σ : Arena) (h : Nat) : Out Arena := do
  let c ← chunkAt σ h
  if !c.inUse || c.bin.isSome then .throws
  else
    let σ := { σ.set h { c with id := -1 } with used := σ.used - c.size }
    let σ ← match c.next with
      | none => pure σ
      | some m => do
        let e ← chunkAt σ m
        if e.inUse then pure σ
        else do
          let σ ← removeBin σ m
          let c ← chunkAt σ h
          match c.next with
          | none => .throws
          | some m => merge σ h m
    let c ← chunkAt σ h
    match c.prev with
    | none => insertBin σ h
    | some m => do
      let e ← chunkAt σ m
      if e.inUse then insertBin σ h
      else do
        let σ ← removeBin σ m
        let c ← chunkAt σ h
        match c.prev with
        | none => .throws
        | some m' => do
          let σ ← merge σ m' h
          insertBin σ m

/-! ## Finding memory -/

/-- The inner loop of `FindChunkPtr` (bfc_arena.cc 334-338). -/
def searchBin (σ : Arena) (r : Nat) : List Nat → Out (Option Nat)
  | [] => .ok none
  | h :: l => do
    let c ← chunkAt σ h
    if c.inUse then .throws
    else if r ≤ c.size then pure (some h)
    else searchBin σ r l

/-- The outer loop (bfc_arena.cc 330-368): bin and chunk. -/
def searchBins (σ : Arena) (r : Nat) : List Nat → Out (Option (Nat × Nat))
  | [] => .ok none
  | b :: bs => do
    match ← searchBin σ r (σ.bins b) with
    | some h => pure (some (b, h))
    | none => searchBins σ r bs

/-- The use of a chunk (bfc_arena.cc 339-365). -/
def takeChunk (cf : Conf) (σ : Arena) (b h r num : Nat) : Out (Nat × Arena) := do
  let σ ← removeIter σ b h
  let c ← chunkAt σ h
  let σ ← if r * 2 % 2 ^ 64 ≤ c.size ∨ cf.maxDead ≤ (c.size : Int) - r then splitChunk σ h r else pure σ
  let c ← chunkAt σ h
  let σ := σ.set h { c with req := num, id := σ.nextId }
  pure (c.ptr, { σ with nextId := σ.nextId + 1, used := σ.used + c.size })

/-- `FindChunkPtr` (bfc_arena.cc 328-370). -/
def findChunk (cf : Conf) (σ : Arena) (r num : Nat) : Out (Option Nat × Arena) := do
  match ← searchBins σ r ((List.range 21).drop (binNum r)) with
  | none => pure (none, σ)
  | some (b, h) => do
    let (p, σ) ← takeChunk cf σ b h r num
    pure (some p, σ)

/-! ## Extending -/

/-- `while (bytes > curr_region_allocation_bytes_)` (bfc_arena.cc 141-144) in `size_t`. A loop that goes on 65 times goes on
for ever (`doubling_hang`). -/
def doubling : Nat → Nat → Nat → Bool → Out (Nat × Bool)
  | 0, _, _, _ => .hang
  | fuel + 1, bytes, cur, inc => if cur < bytes then doubling fuel bytes (cur * 2 % 2 ^ 64) true else .ok (cur, inc)

/-- The attempts to get memory (bfc_arena.cc 112-130, 168-189): address and size; `k` counts the attempts. -/
def attempts (cf : Conf) (dev : Nat → Nat → Ans) (need : Nat) : Nat → Nat → Nat → Out (Option (Nat × Nat))
  | 0, _, _ => .hang
  | fuel + 1, k, bytes =>
    match dev k bytes with
    | .mem a => .ok (some (a, bytes))
    | .raises => .ok none
    | .null =>
      let less := rounded (cf.back bytes)
      if less < need ∨ less < 8192 then .ok none else attempts cf dev need fuel (k + 1) less

/-- `Extend` (bfc_arena.cc 96-216): whether memory was added. -/
def extend (cf : Conf) (dev : Nat → Nat → Ans) (σ : Arena) (need : Nat) : Out (Bool × Arena) := do
  let avail := (cf.limit + 2 ^ 64 - σ.total % 2 ^ 64) % 2 ^ 64 / 256 * 256
  if avail < need then pure (false, σ)
  else do
    let (bytes, cur) ←
      if cf.pow2 then do
        let (cur, inc) ← doubling 65 need σ.cur false
        pure (min cur avail, if inc then cur else cur * 2 % 2 ^ 64)
      else pure (need, σ.cur)
    let σ := { σ with cur := cur }
    match ← attempts cf dev need (bytes + 1) 0 bytes with
    | none => pure (false, σ)
    | some (addr, bytes) => do
      let σ := { σ with
        total := σ.total + bytes
        regions := addRegion ⟨addr, bytes, σ.extensions, fun _ => none⟩ σ.regions
        extensions := σ.extensions + 1 }
      let (h, σ) ← allocateChunk σ
      let c ← chunkAt σ h
      let σ := σ.set h { c with ptr := addr, size := bytes, id := -1, prev := none, next := none }
      let σ ← setHandle σ addr (some h)
      let σ ← insertBin σ h
      pure (true, σ)

/-! ## The interface -/

/-- The constructor (bfc_arena.cc 11-75) without `initial_max_extend`. -/
def Conf.init (cf : Conf) (initialChunk : Nat) : Arena :=
  { regions := [], chunks := fun _ => {}, n := 0, free := none, bins := fun _ => [], nextId := 1
    cur := rounded (min cf.limit initialChunk), total := 0, used := 0, extensions := 0 }

/-- What a call of `Alloc` gives: a null pointer for no bytes, a pointer, or the exception that there is no memory. -/
inductive Got where
  | null
  | ptr (p : Nat)
  | noMemory

/-- `Alloc` (bfc_arena.cc 244-246, 283-326). -/
def alloc (cf : Conf) (dev : Nat → Nat → Ans) (σ : Arena) (num : Nat) : Out (Got × Arena) :=
  if num = 0 then pure (.null, σ)
  else do
    let r := rounded num
    match ← findChunk cf σ r num with
    | (some p, σ) => pure (.ptr p, σ)
    | (none, σ) => do
      match ← extend cf dev σ r with
      | (false, σ) => pure (.noMemory, σ)
      | (true, σ) => do
        match ← findChunk cf σ r num with
        | (some p, σ) => pure (.ptr p, σ)
        | (none, σ) => pure (.noMemory, σ)

/-- `Free` (bfc_arena.cc 407-421, 484-491). -/
def freePtr (σ : Arena) (p : Nat) : Out Arena :=
  if p = 0 then pure σ
  else do
    match ← getHandle σ p with
    | none => .throws
    | some h => freeChunk σ h

/-- `RequestedSize` (bfc_arena.cc 267-273). -/
def requestedSize (σ : Arena) (p : Nat) : Out Nat := do
  match ← getHandle σ p with
  | none => .throws
  | some h => do
    let c ← chunkAt σ h
    pure c.req

/-- `AllocatedSize` (bfc_arena.cc 275-281). -/
def allocatedSize (σ : Arena) (p : Nat) : Out Nat := do
  match ← getHandle σ p with
  | none => .throws
  | some h => do
    let c ← chunkAt σ h
    pure c.size

end Verif.Bfc
