/-!
# Escaping of string literals in generated code

Models `BytesEscape` and `UnicodeEscape` (`src/runtime/str_escape.cc:37-134`).  The code generator
prints `string_view("<BytesEscape(s), octal>", n)` for `bytes` and
`unicode_view(U"<UnicodeEscape(s)>", n)` for `str` literals (`src/codegen/codegen_c.cc:938-956`).

Text and bytes are lists of natural numbers (character codes).

The reader of the literal, which is the specification, is the C++14 one: translation phase 1
replaces trigraphs (the generated code is compiled with `-std=c++14`, `python/matx/toolchain.py:314`,
in which they are part of the language), phase 5 interprets escape sequences.
-/

namespace Verif.StrEscape

def hexDigit (d : Nat) : Nat := if d < 10 then 48 + d else 55 + d

/-- The text for one byte (lines 42-89). -/
def escapeOne (octal : Bool) (c : Nat) : List Nat :=
  if 32 ≤ c ∧ c ≤ 126 ∧ c ≠ 92 ∧ c ≠ 34 then [c]
  else 92 :: (
    if c = 34 then [34]
    else if c = 92 then [92]
    else if c = 9 then [116]
    else if c = 13 then [114]
    else if c = 10 then [110]
    else if c = 11 then [118]
    else if c = 8 then [98]
    else if c = 12 then [102]
    else if c = 7 then [97]
    else if c = 63 then [63]
    else if octal then [48 + ((c >>> 6) &&& 3), 48 + ((c >>> 3) &&& 7), 48 + (c &&& 7)]
    else [120, hexDigit (c >>> 4), hexDigit (c &&& 15)])

/-- `BytesEscape`. -/
def bytesEscape (octal : Bool) (s : List UInt8) : List Nat :=
  s.flatMap fun c => escapeOne octal c.toNat

/-- The text for one code point (lines 100-131); `none` is the failed check. -/
def uescapeOne (c : Nat) : Option (List Nat) :=
  if 0x80 ≤ c then
    if c ≤ 0xD7FF ∨ (0xE000 ≤ c ∧ c ≤ 0xFFFF) then
      some [92, 117, hexDigit ((c >>> 12) &&& 15), hexDigit ((c >>> 8) &&& 15),
        hexDigit ((c >>> 4) &&& 15), hexDigit (c &&& 15)]
    else if 0x10000 ≤ c ∧ c ≤ 0x10FFFF then
      some [92, 85, hexDigit ((c >>> 28) &&& 15), hexDigit ((c >>> 24) &&& 15),
        hexDigit ((c >>> 20) &&& 15), hexDigit ((c >>> 16) &&& 15),
        hexDigit ((c >>> 12) &&& 15), hexDigit ((c >>> 8) &&& 15),
        hexDigit ((c >>> 4) &&& 15), hexDigit (c &&& 15)]
    else none
  else some [92, 117, 48, 48, hexDigit (c >>> 4), hexDigit (c &&& 15)]

/-- `UnicodeEscape`. -/
def unicodeEscape : List Nat → Option (List Nat)
  | [] => some []
  | c :: cs => match uescapeOne c, unicodeEscape cs with
    | some a, some b => some (a ++ b)
    | _, _ => none

/-! ## Reading a literal back (C++14) -/

/-- `??=`, `??/`, `??'`, `??(`, `??)`, `??!`, `??<`, `??>`, `??-`. -/
def trigraph (c : Nat) : Option Nat :=
  if c = 61 then some 35 else if c = 47 then some 92 else if c = 39 then some 94
  else if c = 40 then some 91 else if c = 41 then some 93 else if c = 33 then some 124
  else if c = 60 then some 123 else if c = 62 then some 125 else if c = 45 then some 126
  else none

/-- Translation phase 1 (`fuel` bounds the number of characters produced). -/
def trigraphs : Nat → List Nat → List Nat
  | 0, s => s
  | _, [] => []
  | fuel + 1, c :: r =>
    match c, r with
    | 63, 63 :: d :: r' => match trigraph d with
      | some e => e :: trigraphs fuel r'
      | none => 63 :: trigraphs fuel (63 :: d :: r')
    | _, _ => c :: trigraphs fuel r

def isOct (c : Nat) : Bool := decide (48 ≤ c) && decide (c ≤ 55)

def hexVal (c : Nat) : Option Nat :=
  if 48 ≤ c ∧ c ≤ 57 then some (c - 48)
  else if 65 ≤ c ∧ c ≤ 70 then some (c - 55)
  else if 97 ≤ c ∧ c ≤ 102 then some (c - 87)
  else none

/-- All following hexadecimal digits (a `\x` escape has no length limit). -/
def hexRun : List Nat → Nat → Nat × List Nat
  | [], acc => (acc, [])
  | c :: r, acc => match hexVal c with
    | some v => hexRun r (acc * 16 + v)
    | none => (acc, c :: r)

/-- Simple escapes. -/
def simple (c : Nat) : Option Nat :=
  if c = 39 then some 39 else if c = 34 then some 34 else if c = 63 then some 63
  else if c = 92 then some 92 else if c = 97 then some 7 else if c = 98 then some 8
  else if c = 102 then some 12 else if c = 110 then some 10 else if c = 114 then some 13
  else if c = 116 then some 9 else if c = 118 then some 11 else none

/-- An octal escape of one to three digits after the backslash. -/
def octalRun (d1 : Nat) (r : List Nat) : Nat × List Nat :=
  match r with
  | d2 :: r2 =>
    if isOct d2 then
      match r2 with
      | d3 :: r3 =>
        if isOct d3 then (((d1 - 48) * 8 + (d2 - 48)) * 8 + (d3 - 48), r3)
        else ((d1 - 48) * 8 + (d2 - 48), r2)
      | [] => ((d1 - 48) * 8 + (d2 - 48), r2)
    else (d1 - 48, r)
  | [] => (d1 - 48, r)

/-- The next character of a narrow literal; `none`: not a valid literal body. -/
def readOne : List Nat → Option (Nat × List Nat)
  | [] => none
  | c :: r =>
    if c = 92 then
      match r with
      | [] => none
      | e :: r' =>
        match simple e with
        | some v => some (v, r')
        | none =>
          if isOct e then
            if (octalRun e r').1 < 256 then some (octalRun e r') else none
          else if e = 120 then
            match r' with
            | h :: _ => match hexVal h with
              | some _ => if (hexRun r' 0).1 < 256 then some (hexRun r' 0) else none
              | none => none
            | [] => none
          else none
    else if c = 34 ∨ c = 10 then none
    else some (c, r)

/-- The bytes a narrow literal denotes; `fuel` bounds the number of characters read. -/
def readBody : Nat → List Nat → Option (List Nat)
  | _, [] => some []
  | 0, _ => none
  | fuel + 1, s => match readOne s with
    | none => none
    | some (c, r) => match readBody fuel r with
      | none => none
      | some cs => some (c :: cs)

/-- Reading the text between the quotes of a narrow literal. -/
def readNarrow (tri : Bool) (s : List Nat) : Option (List Nat) :=
  let s' := if tri then trigraphs s.length s else s
  readBody s'.length s'

/-- Exactly `n` hexadecimal digits. -/
def hexN : Nat → List Nat → Nat → Option (Nat × List Nat)
  | 0, r, acc => some (acc, r)
  | _ + 1, [], _ => none
  | n + 1, c :: r, acc => match hexVal c with
    | some v => hexN n r (acc * 16 + v)
    | none => none

/-- The next character of a `U"..."` literal consisting of universal character names (other forms
do not occur in `UnicodeEscape` output and are rejected). Surrogates are ill-formed. -/
def readOneU : List Nat → Option (Nat × List Nat)
  | 92 :: 117 :: r => match hexN 4 r 0 with
    | some (v, r') => if 0xD800 ≤ v ∧ v ≤ 0xDFFF then none else some (v, r')
    | none => none
  | 92 :: 85 :: r => match hexN 8 r 0 with
    | some (v, r') => if (0xD800 ≤ v ∧ v ≤ 0xDFFF) ∨ 0x10FFFF < v then none else some (v, r')
    | none => none
  | _ => none

def readU : Nat → List Nat → Option (List Nat)
  | _, [] => some []
  | 0, _ => none
  | fuel + 1, s => match readOneU s with
    | none => none
    | some (c, r) => match readU fuel r with
      | none => none
      | some cs => some (c :: cs)

end Verif.StrEscape
