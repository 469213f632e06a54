/-
Equality and hashing of the scalar and tuple values used as keys of Dict and Set.

Source: `include/matxscript/runtime/_almost_equal.h` 32-54,
`include/matxscript/runtime/generic/generic_hlo_arith_funcs.h` 629-668,
`src/runtime/generic/generic_hlo_arith_funcs.cc` 268-387 (`ArithOps::eq`),
`src/runtime/container/tuple_ref.cc` 163-179, `src/runtime/runtime_value.cc` 500-619 (`Any::Hash`),
`src/runtime/py_commons/pyhash.cc` 44-83 (`_Py_HashDouble`),
`include/matxscript/runtime/bytes_hash.h` 63-76 (`ScalarHash`).

A finite binary64 value is modelled by the integer number of units `2 ^ -1074` it consists of, so
that sums and differences are integers, rounded to 53 significant bits, ties to even.  The two
zeros are one value: neither comparison nor the hash distinguishes them.  Byte and code point
hashing is a parameter.  Tuples are compared as different objects; comparing a tuple object with
itself returns true at once.  Values with user-defined `__eq__`, opaque handles, data types and
NDArrays are not modelled.
-/
namespace Verif.HashEq

/-- An IEEE binary64 value; `fin z` is `z * 2 ^ -1074`. -/
inductive F
  | fin (z : Int)
  | inf (neg : Bool)
  | nan
  deriving DecidableEq, Repr

/-- Number of binary digits. -/
def bitLen (n : Nat) : Nat := if n = 0 then 0 else Nat.log2 n + 1

/-- `n / 2 ^ s` rounded to the nearest integer, ties to even. -/
def divRound (n s : Nat) : Nat :=
  let q := n / 2 ^ s
  let r := n % 2 ^ s
  if 2 ^ s < 2 * r ∨ (2 ^ s = 2 * r ∧ q % 2 = 1) then q + 1 else q

/-- Round to 53 significant bits. -/
def round53 (n : Nat) : Nat :=
  if bitLen n ≤ 53 then n else divRound n (bitLen n - 53) * 2 ^ (bitLen n - 53)

/-- The double nearest to `z` units; magnitudes from `2 ^ 1024` on are infinite. -/
def toF (z : Int) : F :=
  if 2 ^ 2098 ≤ round53 z.natAbs then .inf (decide (z < 0))
  else .fin (if z < 0 then -(round53 z.natAbs : Int) else round53 z.natAbs)

/-- `static_cast<double>(int64_t)`. -/
def ofInt (n : Int) : F := toF (n * 2 ^ 1074)

/-- `-x`. -/
def F.neg : F → F
  | .fin z => .fin (-z)
  | .inf b => .inf (!b)
  | .nan => .nan

/-- `x + y`. -/
def F.add : F → F → F
  | .fin x, .fin y => toF (x + y)
  | .inf a, .inf b => if a = b then .inf a else .nan
  | .inf a, .fin _ => .inf a
  | .fin _, .inf b => .inf b
  | _, _ => .nan

/-- `x - y`. -/
def F.sub (x y : F) : F := x.add y.neg

/-- `std::fabs`. -/
def F.abs : F → F
  | .fin z => .fin z.natAbs
  | .inf _ => .inf false
  | .nan => .nan

/-- `x * epsilon * 4` for `x` not negative: the first product rounds to whole units, the second
is exact. -/
def F.epsTimes4 : F → F
  | .fin z => .fin (divRound z.natAbs 52 * 4 : Nat)
  | .inf b => .inf b
  | .nan => .nan

/-- `x <= y`. -/
def F.le : F → F → Bool
  | .fin x, .fin y => decide (x ≤ y)
  | .inf a, .inf b => a || !b
  | .inf a, .fin _ => a
  | .fin _, .inf b => !b
  | _, _ => false

/-- `x < y`. -/
def F.lt : F → F → Bool
  | .fin x, .fin y => decide (x < y)
  | .inf a, .inf b => a && !b
  | .inf a, .fin _ => a
  | .fin _, .inf b => !b
  | _, _ => false

/-- `internal_almost_equals(x, y, 4)`, `_almost_equal.h` 32-42; the smallest normal number is
`2 ^ -1022`, `2 ^ 52` units. -/
def almostEq (x y : F) : Bool :=
  (F.abs (x.sub y)).le (F.abs (x.add y)).epsTimes4 || (F.abs (x.sub y)).lt (.fin (2 ^ 52))

/-- Values used as keys. -/
inductive Val
  | none
  | int (n : Int)
  | flt (f : F)
  | bytes (b : List UInt8)
  | str (s : List Char)
  | tup (items : List Val)

mutual
/-- `ArithOps::eq(Any, Any)`, `generic_hlo_arith_funcs.cc` 268-387, and the overloads it calls. -/
def eqv : Val → Val → Bool
  | .none, .none => true
  | .int a, .int b => decide (a = b)
  | .int a, .flt y => almostEq (ofInt a) y
  | .flt x, .flt y => almostEq x y
  | .flt x, .int b => almostEq x (ofInt b)
  | .bytes a, .bytes b => decide (a = b)
  | .str a, .str b => decide (a = b)
  | .tup a, .tup b => eqvs a b
  | _, _ => false

/-- `Tuple::operator==`, `tuple_ref.cc` 163-179. -/
def eqvs : List Val → List Val → Bool
  | [], [] => true
  | x :: xs, y :: ys => eqv x y && eqvs xs ys
  | _, _ => false
end

/-- `size_t` arithmetic. -/
def W : Nat := 2 ^ 64

/-- The result `(size_t)-1` is replaced by `(size_t)-2`. -/
def fixMinusOne (x : Nat) : Nat := if x = W - 1 then W - 2 else x

/-- `ScalarHash<int64_t>`, `bytes_hash.h` 63-76. -/
def hashInt (n : Int) : Nat := fixMinusOne (n % W).toNat

/-- `_PyHASH_MODULUS`. -/
def P : Nat := 2 ^ 61 - 1

/-- `((x << e) & MODULUS) | x >> (BITS - e)` on 64-bit words. -/
def rot (x e : Nat) : Nat := (((x <<< e) % W) &&& P) ||| (x >>> (61 - e))

/-- One word addition and conditional subtraction, `pyhash.cc` 73-75. -/
def addMod (x y : Nat) : Nat := if P ≤ x + y then x + y - P else x + y

/-- The loop of `pyhash.cc` 67-76.  The fraction `m` is `r / 2 ^ b`; multiplying by `2 ^ 28` and
taking off the integer part are exact.  `none`: the bound on the rounds was reached. -/
def hashLoop (b : Nat) : Nat → Nat → Nat → Int → Option (Nat × Int)
  | 0, r, x, e => if r = 0 then some (x, e) else .none
  | k + 1, r, x, e =>
    if r = 0 then some (x, e)
    else hashLoop b k (r * 2 ^ 28 % 2 ^ b) (addMod (rot x 28) (r * 2 ^ 28 / 2 ^ b)) (e - 28)

/-- Reduction of the exponent, `pyhash.cc` 79. -/
def reduceExp (e : Int) : Nat :=
  if 0 ≤ e then (e % 61).toNat else (60 - (-1 - e) % 61).toNat

/-- `_Py_HashDouble` of a finite magnitude: `frexp` gives `a / 2 ^ bitLen a` and
`bitLen a - 1074`.  Two rounds suffice for 53 bits. -/
def hashMag (a : Nat) : Option Nat :=
  (hashLoop (bitLen a) 2 a 0 ((bitLen a : Int) - 1074)).map fun (x, e) => rot x (reduceExp e)

/-- `_Py_HashDouble`, `pyhash.cc` 44-83. -/
def hashDouble : F → Option Nat
  | .nan => some 0
  | .inf neg => some (if neg then W - 314159 else 314159)
  | .fin z =>
    (hashMag z.natAbs).map fun x => fixMinusOne (if z < 0 then (W - x) % W else x)

/-- `_PyHASH_XXROTATE` as compiled: `SIZEOF_PY_UHASH_T` is defined nowhere, so the second branch of
`runtime_value.cc` 502-512 is taken. -/
def xxRotate (x : Nat) : Nat := ((x <<< 13) % W) ||| (x >>> 19)

/-- One item of `tuple_hash`, `runtime_value.cc` 517-525. -/
def tupleStep (acc lane : Nat) : Nat :=
  (xxRotate ((acc + lane * 2246822519) % W) * 2654435761) % W

/-- End of `tuple_hash`, `runtime_value.cc` 527-533. -/
def tupleEnd (acc len : Nat) : Nat :=
  let acc := (acc + (len ^^^ (374761393 ^^^ 3527539))) % W
  if acc = W - 1 then 1546275796 else acc

section
variable (hb : List UInt8 → Nat) (hc : List Char → Nat)

mutual
/-- `Any::Hash`, `runtime_value.cc` 536-619. -/
def hash : Val → Option Nat
  | .none => some 0
  | .int n => some (hashInt n)
  | .flt f => hashDouble f
  | .bytes b => some (hb b)
  | .str s => some (hc s)
  | .tup l => hashItems l 374761393 l.length

/-- The loop of `tuple_hash`. -/
def hashItems : List Val → Nat → Nat → Option Nat
  | [], acc, len => some (tupleEnd acc len)
  | x :: xs, acc, len =>
    match hash x with
    | .none => .none
    | some lane => if lane = W - 1 then some (W - 1) else hashItems xs (tupleStep acc lane) len
end

end

end Verif.HashEq
