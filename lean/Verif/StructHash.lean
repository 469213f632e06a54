import Verif.StructEq
/-
Structural hash of IR objects (`matx.ir.structural_hash`).

Sources (all under /repo):
* src/ir/_base/structural_hash.cc 56-268 (SHashHandlerDefault::Impl), 307-315 (entry point)
* include/matxscript/ir/_base/structural_hash.h 118-215 (SHashReducer)
* src/ir/_base/cow_array_ref.cc 49-54 and the `SHashReduce` methods of include/matxscript/ir/*.h

Simplifications: objects, heaps and kinds are the ones of `StructEq`; the hash values, the way they are
combined and the hashes of values, type names, addresses and counters are parameters (`Mix`).  The loop
variable of `ReduceHash` is taken to hold any number of results (it is a `uint32_t`).
-/

namespace Verif.StructEq

/-- The ingredients of the hash: `HashCombine` (structural_hash.cc 245-249), the hash of the type name
(`GetTypeKeyHash`), `BaseValueHash` of values and of sizes, `std::hash` of a counter and of an address, and
the hash of a null object, 0 (122-125). -/
structure Mix (V W : Type) where
  comb : W → W → W
  ty : Nat → W
  val : V → W
  size : Nat → W
  ctr : Nat → W
  ptr : Nat → W
  null : W

/-- An entry of `task_stack_` (structural_hash.cc 62-84): a value, an object to be expanded, an object that
has been expanded with the height of the result stack at that time. -/
inductive HTask (W : Type) where
  | value (w : W)
  | todo (a : Nat) (flag : Bool)
  | done (a : Nat) (idx : Nat)

/-- The stacks (the result stack with its top first), `hash_memo_` and the two counters. -/
structure HSt (W : Type) where
  stack : List (HTask W)
  results : List W
  memo : List (Nat × W)
  fv : Nat
  gn : Nat

section
variable {V W : Type} (M : Mix V W) (H : Heap V)

/-- `SHashReduce`, structural_hash.cc 118-133. -/
def hreduce (memo : List (Nat × W)) (flag : Bool) : Option Nat → HTask W
  | none => .value M.null
  | some a =>
    match memo.lookup a with
    | some w => .value w
    | none => .todo a flag

/-- One attribute: `SHashReduceHashedValue` (101-103) or `SHashReduce`. -/
def hitem (memo : List (Nat × W)) (flag : Bool) : Item V → HTask W
  | .val v => .value (M.val v)
  | .len n => .value (M.size n)
  | .ref p d _ => hreduce M memo (flag || d) p

/-- What `SHashReduceFreeVar` (105-116) adds for a variable: the counter, a `uint32_t`, or the address. -/
def varTask (fv : Nat) (flag : Bool) (a : Nat) : List (HTask W) :=
  if (H.node a).kind = .var then
    [.value (if flag then M.ctr (fv % 4294967296) else M.ptr a)]
  else []

/-- The counter of free variables after `SHashReduceFreeVar`. -/
def nextFv (fv : Nat) (flag : Bool) (a : Nat) : Nat :=
  if (H.node a).kind = .var ∧ flag = true then fv + 1 else fv

/-- Whether `SHashReduce` of the node calls `MarkGraphNode`. -/
def isGraph (a : Nat) : Bool :=
  match (H.node a).kind with
  | .graph => true
  | .yld => true
  | _ => false

/-- What one turn of the loop does: go on, stop, or fail the `MXCHECK` of `ReduceHash`. -/
inductive HOut (W : Type) where
  | next (s : HSt W)
  | stop
  | crash

/-- One turn of the loop of `RunTasks`, structural_hash.cc 185-237, with `ReduceHash` (172-183). -/
def hstep (s : HSt W) : HOut W :=
  match s.stack with
  | [] => .stop
  | .value w :: rest => .next { s with stack := rest, results := w :: s.results }
  | .todo a f :: rest =>
    match s.memo.lookup a with
    | some w => .next { s with stack := rest, results := w :: s.results }
    | none =>
      .next { s with
        stack := (H.node a).hs.map (hitem M s.memo f) ++ varTask M H s.fv f a ++
          .done a s.results.length :: rest
        fv := nextFv H s.fv f a }
  | .done a idx :: rest =>
    if s.results.length < idx then .crash
    else
      let n := s.results.length - idx
      let red := (s.results.take n).foldl M.comb (M.ty (H.node a).ty)
      match s.memo.lookup a with
      | some w => .next { s with stack := rest, results := w :: s.results.drop n }
      | none =>
        let red' := if isGraph H a then M.comb red (M.ctr (s.gn % 4294967296)) else red
        .next { s with
          stack := rest
          results := red' :: s.results.drop n
          memo := (a, red') :: s.memo
          gn := if isGraph H a then s.gn + 1 else s.gn }

/-- The loop, then the check that one result is left (structural_hash.cc 135-153). -/
def hrun : Nat → HSt W → Option (Option W)
  | 0, _ => none
  | n + 1, s =>
    match hstep M H s with
    | .next s' => hrun n s'
    | .stop =>
      match s.results with
      | [w] => some (some w)
      | _ => some none
    | .crash => some none

/-- `matx.ir.structural_hash(object, map_free_vars)` returns `w`. -/
def HashReturns (a : Option Nat) (flag : Bool) (w : W) : Prop :=
  ∃ n, hrun M H n ⟨[hreduce M [] flag a], [], [], 0, 0⟩ = some (some w)

end

end Verif.StructEq
