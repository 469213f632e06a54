/-!
# Unicode normalization

A model of `unicodedata.normalize` (`src/runtime/unicodelib/py_unicodedata.cc`): `nfd_nfkd` 363-457,
`find_nfc_index` 459-471, `nfc_nfkc` 473-587, `is_normalized_quickcheck` 609-651, `is_normalized`
653-688, `normalize` 690-724, over the character database of `py_unicodedata_db.h`.

Strings are lists of code points.  The database is a parameter `DB` here; `NormalizeData.lean`
fills it with the tables of the repository.  Simplifications: the version 3.2.0 of the database,
which nothing reachable from compiled code asks for, is left out (`self` is null); the array that
is sorted in place is split at the index `i` into what is before it (reversed) and the rest; the
array `skipped` is a list, whose order does not matter. -/

namespace Verif.Normalize

/-- What the tables say of characters. -/
structure DB where
  /-- `_getrecord_ex(c)->combining` -/
  ccc : Nat → Nat
  /-- `_getrecord_ex(c)->normalization_quick_check` -/
  qc : Nat → Nat
  /-- `get_decomp_record`: whether `prefix` is not zero, and the `count` characters -/
  dec : Nat → Bool × List Nat
  /-- `find_nfc_index(self, nfc_first, c)`, `none` for -1 -/
  first : Nat → Option Nat
  /-- `find_nfc_index(self, nfc_last, c)` -/
  last : Nat → Option Nat
  /-- `comp_data[...]` for `f * TOTAL_LAST + l` -/
  pair : Nat → Nat → Nat

/-- The outcome: `ub` is a write behind the end of an array. -/
inductive Res (α : Type)
  | ok (a : α)
  | ub
  | timeout
  deriving DecidableEq

/-! ## Decomposition -/

/-- `SBase <= code && code < (SBase + SCount)`. -/
def isS (c : Nat) : Bool := decide (0xAC00 ≤ c) && decide (c < 0xAC00 + 19 * (21 * 28))

/-- Hangul decomposition. -/
def hangul (c : Nat) : List Nat :=
  let s := c - 0xAC00
  let l := 0x1100 + s / (21 * 28)
  let v := 0x1161 + s % (21 * 28) / 28
  let t := 0x11A7 + s % 28
  [l, v] ++ (if t ≠ 0x11A7 then [t] else [])

/-- `!count || (prefix && !k)`. -/
def leaf (db : DB) (k : Bool) (c : Nat) : Bool :=
  (db.dec c).2.isEmpty || ((db.dec c).1 && !k)

/-- `while (stackptr) ...`: the stack, top first, of `Py_UCS4 stack[20]`, and the result so far. -/
def unwind (db : DB) (k : Bool) : Nat → List Nat → List Nat → Res (List Nat)
  | 0, _, _ => .timeout
  | _ + 1, [], out => .ok out
  | fuel + 1, c :: st, out =>
    if isS c then unwind db k fuel st (out ++ hangul c)
    else if leaf db k c then unwind db k fuel st (out ++ [c])
    else if 20 < ((db.dec c).2 ++ st).length then .ub
    else unwind db k fuel ((db.dec c).2 ++ st) out

/-- `while (i < isize) ...`. -/
def decompose (db : DB) (k : Bool) (fuel : Nat) : List Nat → List Nat → Res (List Nat)
  | [], out => .ok out
  | c :: s, out =>
    match unwind db k fuel [c] out with
    | .ok out => decompose db k fuel s out
    | .ub => .ub
    | .timeout => .timeout

/-! ## Canonical order -/

/-- The inner loop: `x` is exchanged with those before it (`d`, nearest first) until one is a
starter or has no larger class. -/
def ins (db : DB) (x : Nat) : List Nat → List Nat
  | [] => [x]
  | y :: d => if db.ccc y = 0 ∨ db.ccc y ≤ db.ccc x then x :: y :: d else y :: ins db x d

/-- One step of `for (i++; i < result.size(); i++)`. -/
def place (db : DB) (d : List Nat) (x : Nat) : List Nat :=
  match d with
  | [] => [x]
  | y :: d' =>
    if db.ccc y = 0 ∨ db.ccc x = 0 ∨ db.ccc y ≤ db.ccc x then x :: y :: d' else ins db x (y :: d')

/-- `/* Sort canonically. */` -/
def order (db : DB) (s : List Nat) : List Nat := (s.foldl (place db) []).reverse

/-- `nfd_nfkd`. -/
def nfd (db : DB) (k : Bool) (fuel : Nat) (s : List Nat) : Res (List Nat) :=
  match decompose db k fuel s [] with
  | .ok d => .ok (order db d)
  | .ub => .ub
  | .timeout => .timeout

/-! ## Composition -/

/-- `/* Find next unblocked character. */`: the characters from `i1` on, the class `comb`, the index
`f` of the character `cur` written at `o`, and `skipped`. -/
def scan (db : DB) : List Nat → Nat → Nat → Nat → Nat → List Nat → Res (Nat × List Nat)
  | [], _, _, _, cur, sk => .ok (cur, sk)
  | c :: r, i1, comb, f, cur, sk =>
    if comb ≠ 0 ∧ db.ccc c = 0 then .ok (cur, sk)
    else if comb ≠ 0 ∧ db.ccc c ≤ comb then scan db r (i1 + 1) comb f cur sk
    else
      let code := match db.last c with
        | none => 0
        | some l => db.pair f l
      if code = 0 then
        if db.ccc c = 0 then .ok (cur, sk) else scan db r (i1 + 1) (db.ccc c) f cur sk
      else if 20 ≤ sk.length then .ub
      else
        match db.first code with
        | none => .ok (code, sk ++ [i1])
        | some f' => scan db r (i1 + 1) comb f' code (sk ++ [i1])

/-- `LBase <= code && code < (LBase + LCount)`. -/
def isL (c : Nat) : Bool := decide (0x1100 ≤ c) && decide (c < 0x1100 + 19)
/-- `VBase <= data[i + 1] && data[i + 1] < (VBase + VCount)`. -/
def isV (c : Nat) : Bool := decide (0x1161 ≤ c) && decide (c < 0x1161 + 21)
/-- `TBase < data[i] && data[i] < (TBase + TCount)`. -/
def isT (c : Nat) : Bool := decide (0x11A7 < c) && decide (c < 0x11A7 + 28)

/-- `SBase + (LIndex * VCount + VIndex) * TCount`. -/
def lv (l v : Nat) : Nat := 0xAC00 + ((l - 0x1100) * 21 + (v - 0x1161)) * 28

/-- `while (i < len) ...`: the characters from `i` on; the result is what is appended. -/
def comp (db : DB) : List Nat → Nat → List Nat → Res (List Nat)
  | [], _, _ => .ok []
  | c :: r, i, sk =>
    if i ∈ sk then comp db r (i + 1) (sk.erase i)
    else if isL c && (match r with | v :: _ => isV v | [] => false) then
      match r with
      | v :: t :: r' =>
        if isT t then
          match comp db r' (i + 3) sk with
          | .ok out => .ok ((lv c v + (t - 0x11A7)) :: out)
          | e => e
        else
          match comp db (t :: r') (i + 2) sk with
          | .ok out => .ok (lv c v :: out)
          | e => e
      | v :: [] => .ok [lv c v]
      | [] => .ok [c]
    else
      match db.first c with
      | none =>
        match comp db r (i + 1) sk with
        | .ok out => .ok (c :: out)
        | e => e
      | some f =>
        match scan db r (i + 1) 0 f c sk with
        | .ok (cur, sk) =>
          match comp db r (i + 1) sk with
          | .ok out => .ok (cur :: out)
          | e => e
        | .ub => .ub
        | .timeout => .timeout
termination_by s => s.length

/-- `nfc_nfkc`, which returns the decomposition when nothing was combined. -/
def nfc (db : DB) (k : Bool) (fuel : Nat) (s : List Nat) : Res (List Nat) :=
  match nfd db k fuel s with
  | .ok d =>
    match comp db d 0 [] with
    | .ok r => .ok (if r.length = d.length then d else r)
    | e => e
  | e => e

/-! ## Quick check -/

/-- The two bits of a form. -/
def bits (db : DB) (c k : Bool) (x : Nat) : Nat :=
  (db.qc x >>> ((if c then 4 else 0) + (if k then 2 else 0))) &&& 3

/-- `is_normalized_quickcheck` with `yes_only`: whether it answers `YES`. -/
def quickYes (db : DB) (c k : Bool) : Nat → List Nat → Bool
  | _, [] => true
  | prev, x :: s =>
    if db.ccc x ≠ 0 ∧ db.ccc x < prev then false
    else if bits db c k x ≠ 0 then false
    else quickYes db c k (db.ccc x) s

inductive Quick
  | yes
  | maybe
  | no
  deriving DecidableEq

/-- ... without `yes_only`. -/
def quick (db : DB) (c k : Bool) : Nat → Quick → List Nat → Quick
  | _, res, [] => res
  | prev, res, x :: s =>
    if db.ccc x ≠ 0 ∧ db.ccc x < prev then .no
    else if bits db c k x = 2 then .no
    else if bits db c k x = 1 then quick db c k (db.ccc x) .maybe s
    else quick db c k (db.ccc x) res s

/-- `normalize`: the forms are NFD, NFC, NFKD and NFKC for `c` (compose) and `k`. -/
def normalize (db : DB) (c k : Bool) (fuel : Nat) (s : List Nat) : Res (List Nat) :=
  if s = [] then .ok s
  else if quickYes db c k 0 s then .ok s
  else if c then nfc db k fuel s
  else nfd db k fuel s

/-- `is_normalized`. -/
def isNormalized (db : DB) (c k : Bool) (fuel : Nat) (s : List Nat) : Res Bool :=
  if s = [] then .ok true
  else
    match quick db c k 0 .yes s with
    | .yes => .ok true
    | .no => .ok false
    | .maybe =>
      match (if c then nfc db k fuel s else nfd db k fuel s) with
      | .ok t => .ok (decide (s = t))
      | .ub => .ub
      | .timeout => .timeout

end Verif.Normalize
