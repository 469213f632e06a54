/-
`int(str, base)` and `str(int)`: `src/runtime/generic/generic_constructor_funcs.cc` 178-234 and 350-355.

Simplifications: a string is the list of its bytes as numbers; `c_str()` ends at the first zero. `strtoll` is the
function of the C standard (it is only called on decimal digits, with a base from 2 to 36) and touches `errno`
only to set ERANGE; `errno` is the boolean "is ERANGE" that every call gets and leaves. A failed check is
`none`. `isspace` is that of the C locale.
-/

namespace Verif.IntParse

/-- `std::isspace` and `UCHAR_ISSPACE`. -/
def isSpace (c : Nat) : Bool := (9 ≤ c && c ≤ 13) || c == 32

/-- `std::isdigit` and the test of `AsciiIsDigit` (utf8_util.h 56-58). -/
def isDigit (c : Nat) : Bool := 48 ≤ c && c ≤ 57

/-- `String::rstrip()` (string_helper.cc 447-458). -/
def rstrip (s : List Nat) : List Nat := (s.reverse.dropWhile isSpace).reverse

/-- The text a `const char*` denotes. -/
def cstr (s : List Nat) : List Nat := s.takeWhile (fun c => c ≠ 0)

/-- `p[i]`, with the terminator at the end. -/
def peek (p : List Nat) (i : Nat) : Nat := p.getD i 0

/-- The number that digits denote in a base. -/
def horner (base : Nat) (ds : List Nat) : Nat := ds.foldl (fun a c => a * base + (c - 48)) 0

/-- `strtoll` on decimal digits: the digits below the base; its value (clamped) and whether ERANGE is set;
`none` if there is no digit to convert. -/
def strtoll (p : List Nat) (base : Nat) : Option (Int × Bool) :=
  let ds := p.takeWhile (fun c => c - 48 < base)
  if ds = [] then none
  else
    let v := horner base ds
    if v ≤ 2 ^ 63 - 1 then some ((v : Int), false) else some (2 ^ 63 - 1, true)

/-- The sign (generic_constructor_funcs.cc 190-195). -/
def sign : List Nat → Int × List Nat
  | 43 :: r => (1, r)
  | 45 :: r => (-1, r)
  | p => (1, p)

/-- Base 0 (196-208). -/
def guessBase (p : List Nat) (base : Int) : Option Nat :=
  if base = 0 then
    if peek p 0 ≠ 48 then some 10
    else if peek p 1 = 120 ∨ peek p 1 = 88 then some 16
    else if peek p 1 = 111 ∨ peek p 1 = 79 then some 8
    else if peek p 1 = 98 ∨ peek p 1 = 66 then some 2
    else none
  else some base.toNat

/-- The prefix (209-220). -/
def skipPrefix (p : List Nat) (base : Nat) : Option (List Nat) :=
  if peek p 0 = 48 ∧ peek p 1 ≠ 0 ∧ isDigit (peek p 1) = false then
    if (base = 16 ∧ (peek p 1 = 120 ∨ peek p 1 = 88)) ∨ (base = 8 ∧ (peek p 1 = 111 ∨ peek p 1 = 79)) ∨
        (base = 2 ∧ (peek p 1 = 98 ∨ peek p 1 = 66)) then
      let p := p.drop 2
      some (if peek p 0 = 95 then p.drop 1 else p)
    else none
  else some p

/-- `string_to_int64` (178-234). The first component of the result is the value, the second `errno`. -/
def toInt (err : Bool) (s : List Nat) (base : Int) : Option Int × Bool :=
  let str := rstrip s
  if str = [] then (none, err)
  else if (base ≠ 0 ∧ base < 2) ∨ 36 < base then (none, err)
  else
    let (sg, p) := sign ((cstr str).dropWhile isSpace)
    match guessBase p base with
    | none => (none, err)
    | some b =>
      match skipPrefix p b with
      | none => (none, err)
      | some p =>
        if p.all isDigit then
          match strtoll p b with
          | none => (none, err)
          | some (v, e) => if (err || e) then (none, true) else (some (v * sg), false)
        else (none, err)

/-- `%lld` of a non-negative number. -/
def digits (n : Nat) : List Nat :=
  if n < 10 then [48 + n] else digits (n / 10) ++ [48 + n % 10]
  termination_by n
  decreasing_by omega

/-- `str(int)` (350-355). -/
def toStr (n : Int) : List Nat :=
  if n < 0 then 45 :: digits n.natAbs else digits n.natAbs

end Verif.IntParse
