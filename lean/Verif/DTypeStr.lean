/-!
# Data type names

Models `String2DLDataType`, `operator<<(ostream&, DLDataType)` and `DLDataType2String`
(`src/runtime/data_type.cc:124-212`).

Simplifications.
* Text is a list of characters.  `strtoul(p, &end, 10)`: optional white space and sign are accepted
  by the C function; no printed name contains them, and in the model they end the number (this only
  makes the model reject more input).  The value saturates at 2^64-1.
* Custom types (code ≥ 129), which need a run-time registry, are `none`.
* `none` is a raised error (`MXLOG(FATAL)`, `MXCHECK`).
-/

namespace Verif.DTypeStr

/-- `DLDataType`: `uint8_t code, bits; uint16_t lanes`. -/
structure DT where
  code : Nat
  bits : Nat
  lanes : Nat
  deriving DecidableEq, Repr

/-- The field widths. -/
def DT.wf (t : DT) : Prop := t.code < 256 ∧ t.bits < 256 ∧ t.lanes < 65536

/-- `kDLInt`, `kDLUInt`, `kDLFloat`, `kHandle`, `kDLBfloat`. -/
def kInt : Nat := 0
def kUInt : Nat := 1
def kFloat : Nat := 2
def kHandle : Nat := 3
def kBfloat : Nat := 4

def digit (d : Nat) : Char := Char.ofNat (48 + d)

/-- `os << n` for a non-negative `int`. -/
def digits (n : Nat) : List Char :=
  if n < 10 then [digit n] else digits (n / 10) ++ [digit (n % 10)]
  termination_by n
  decreasing_by omega

/-- `DLDataTypeCode2Str`. -/
def codeStr (c : Nat) : Option (List Char) :=
  if c = kInt then some ['i', 'n', 't']
  else if c = kUInt then some ['u', 'i', 'n', 't']
  else if c = kFloat then some ['f', 'l', 'o', 'a', 't']
  else if c = kHandle then some ['h', 'a', 'n', 'd', 'l', 'e']
  else if c = kBfloat then some ['b', 'f', 'l', 'o', 'a', 't']
  else none

/-- `operator<<`. -/
def print (t : DT) : Option (List Char) :=
  if t.bits = 1 ∧ t.lanes = 1 ∧ t.code = kUInt then some ['b', 'o', 'o', 'l']
  else if t.code = kHandle ∧ t.bits = 0 ∧ t.lanes = 0 then some ['v', 'o', 'i', 'd']
  else match codeStr t.code with
    | none => none
    | some p =>
      if t.code = kHandle then some p
      else if t.lanes ≠ 1 then some (p ++ digits t.bits ++ 'x' :: digits t.lanes)
      else some (p ++ digits t.bits)

/-- `DLDataType2String`. -/
def toStr (t : DT) : Option (List Char) := if t.bits = 0 then some [] else print t

def isDigit (c : Char) : Bool := decide (48 ≤ c.toNat) && decide (c.toNat ≤ 57)

/-- Digit loop of `strtoul`; `acc` is the value so far. -/
def strtoulLoop : List Char → Nat → Nat × List Char
  | [], acc => (acc, [])
  | c :: r, acc => if isDigit c then strtoulLoop r (acc * 10 + (c.toNat - 48)) else (acc, c :: r)

def strtoul (s : List Char) : Nat × List Char :=
  let (n, r) := strtoulLoop s 0
  (min n (2 ^ 64 - 1), r)

/-- The end of `String2DLDataType`: bits and lanes (`static_cast` to 8 and 16 bits). -/
def parseTail (code dfltBits : Nat) (s : List Char) : Option DT :=
  let (b, r) := strtoul s
  let bits := if b % 256 ≠ 0 then b % 256 else dfltBits
  match r with
  | 'x' :: r' =>
    let (l, e) := strtoul r'
    if e = [] then some ⟨code, bits, l % 65536⟩ else none
  | [] => some ⟨code, bits, 1⟩
  | _ => none

/-- `String2DLDataType`. -/
def parse (s : List Char) : Option DT :=
  if s = [] then some ⟨kHandle, 0, 0⟩
  else if s.take 3 = ['i', 'n', 't'] then parseTail kInt 32 (s.drop 3)
  else if s.take 4 = ['u', 'i', 'n', 't'] then parseTail kUInt 32 (s.drop 4)
  else if s.take 5 = ['f', 'l', 'o', 'a', 't'] then parseTail kFloat 32 (s.drop 5)
  else if s.take 6 = ['h', 'a', 'n', 'd', 'l', 'e'] then parseTail kHandle 64 (s.drop 6)
  else if s = ['b', 'o', 'o', 'l'] then some ⟨kUInt, 1, 1⟩
  else if s.take 6 = ['b', 'f', 'l', 'o', 'a', 't'] then parseTail kBfloat 32 (s.drop 6)
  else none

end Verif.DTypeStr
