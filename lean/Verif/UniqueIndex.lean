import Verif.DTypeStr

/-!
# Unique names and signatures

Models `GlobalUniqueIndex` (`include/matxscript/pipeline/global_unique_index.h:30-68`), which names
operators and keys the entries of traced graphs.

Simplifications: every method holds a mutex, so calls are sequential; the hash of the seed is an
argument (any value); the per-name counter is unbounded (the code wraps after 2^64 calls).
-/

namespace Verif.UniqueIndex

open Verif.DTypeStr (digits)

structure St where
  /-- `index_info_` (absent names count 0) -/
  idx : List Char → Nat
  /-- `signature_info_` -/
  sigs : List Nat

def St.init : St := ⟨fun _ => 0, []⟩

/-- `gen_index` (lines 34-42). -/
def genIndex (s : St) (name : List Char) : Nat × St :=
  (s.idx name, { s with idx := fun n => if n = name then s.idx name + 1 else s.idx n })

/-- `gen_uniq_name` (lines 44-56); `hash` is the hash of the seed. -/
def genName (s : St) (pre : List Char) (hash : Nat) : List Char × St :=
  let base := pre ++ '_' :: digits hash
  let r := genIndex s base
  (base ++ '_' :: digits r.1, r.2)

/-- The `k`-th candidate of the probe loop, a 64-bit value. -/
def candidate (hash k : Nat) : Nat := (hash + k * 2 ^ 32) % 2 ^ 64

/-- The probe loop (lines 61-65) from candidate `k` on, at most `fuel` further candidates. -/
def probe (sigs : List Nat) (hash : Nat) : Nat → Nat → Option Nat
  | fuel, k =>
    if candidate hash k ∈ sigs then
      match fuel with
      | 0 => none
      | f + 1 => probe sigs hash f (k + 1)
    else some (candidate hash k)

/-- `gen_uniq_signature` (lines 58-68).  The candidates repeat after `2 ^ 32` steps, so the loop
runs for ever (`none`) if all of those are taken. -/
def genSig (s : St) (hash : Nat) : Option (Nat × St) :=
  match probe s.sigs hash (2 ^ 32 - 1) 0 with
  | none => none
  | some r => some (r, { s with sigs := r :: s.sigs })

inductive Call where
  | index (name : List Char)
  | name (pre : List Char) (hash : Nat)
  | sig (hash : Nat)

inductive Res where
  | index (i : Nat)
  | name (n : List Char)
  | sig (k : Nat)

/-- A sequence of calls (from any threads); stops at a call that does not return. -/
def run (s : St) : List Call → List Res
  | [] => []
  | .index n :: cs => .index (genIndex s n).1 :: run (genIndex s n).2 cs
  | .name p h :: cs => .name (genName s p h).1 :: run (genName s p h).2 cs
  | .sig h :: cs =>
    match genSig s h with
    | none => []
    | some (k, s') => .sig k :: run s' cs

end Verif.UniqueIndex
