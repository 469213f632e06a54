/-
`Regex.split`, `Regex.replace` and `Regex.match`: `src/runtime/regex/regex_helper.cc` (the loops over `pcre_exec`),
`src/runtime/regex/regex_sub_helper.cc` (replacement templates) and `src/runtime/regex/regex_ref.cc`.

Simplifications:
* PCRE (3rdparty/pcre-8.45) is a parameter: an `Engine` answers one call of `pcre_exec` on a subject and an offset.
  `Lawful` states what is assumed of its answers. Of `pcre_exec` itself only the checks of options, length and offset
  are modelled (pcre_exec.c 6410-6415).
* Bytes are natural numbers below 256. Subjects are shorter than 2^31 bytes: `int subject_len` does not wrap.
* Memory is always available.
* The code arrays `lengths` and `values` of a template (regex_c_array.cc) are lists of instructions; both are filled in
  the same order, so they are one list, run twice.
* A template ends with a null byte (`sc->source[i]` is read at `i == source_len`), as the buffer of a `String` does.
-/

namespace Verif.Regex

abbrev Bytes := List Nat

/-- The answer of `pcre_exec`: no match, an error, or the spans of the groups; `none` is a group that did not take part.
The length of the list is the return code. -/
inductive Res where
  | noMatch
  | error
  | matched (caps : List (Option (Nat × Nat)))
deriving DecidableEq

/-- A compiled pattern: the number of groups, the name table as bytes, and matching from an offset. The first argument of
`exec` is PCRE_ANCHORED. -/
structure Engine where
  ncaptures : Nat
  names : List (Nat × Nat × Bytes)
  exec : Bool → Bytes → Nat → Res

/-- What is assumed of PCRE: a match starts at or after the offset, ends inside the subject, and does not end before its
start; groups lie inside the subject, and there are no more than the pattern has. -/
structure Lawful (E : Engine) : Prop where
  span : ∀ a s off caps, off ≤ s.length → E.exec a s off = .matched caps →
    ∃ f t r, caps = some (f, t) :: r ∧ off ≤ f ∧ f ≤ t ∧ t ≤ s.length
  groups : ∀ a s off caps, off ≤ s.length → E.exec a s off = .matched caps →
    ∀ f t, some (f, t) ∈ caps → f ≤ t ∧ t ≤ s.length
  count : ∀ a s off caps, off ≤ s.length → E.exec a s off = .matched caps → caps.length ≤ E.ncaptures + 1

/-- `subject + from` with length `to - from`. -/
def slice (s : Bytes) (f t : Nat) : Bytes := (s.drop f).take (t - f)

/-- PCRE_CASELESS, PCRE_DOTALL, PCRE_EXTENDED, PCRE_ANCHORED (pcre.h 127-131), as `RegexNode` keeps them in `pcre_opt_`
(regex_ref.cc 51-62). -/
structure Options where
  ignoreCase : Bool
  dotall : Bool
  extended : Bool
  anchored : Bool

/-- `pcre_exec` (pcre_exec.c 6410-6415): of these options only PCRE_ANCHORED is allowed. -/
def pcreExec (E : Engine) (o : Options) (s : Bytes) (off : Int) : Res :=
  if o.ignoreCase || o.dotall || o.extended then .error
  else if off < 0 || (s.length : Int) < off then .error
  else E.exec o.anchored s off.toNat

def noOptions : Options := ⟨false, false, false, false⟩

/-! ## Split -/

/-- The loop of `RegexHelper::Split` (regex_helper.cc 321-345): pieces, `cp_offset` and `count`. The inner `none` is the
return value -1, the outer `none` means that the fuel did not suffice. -/
def splitLoop (E : Engine) (s : Bytes) : Nat → Nat → Nat → Nat → Option (Option (List Bytes × Nat × Nat))
  | 0, _, _, _ => none
  | fuel + 1, offset, cp, count =>
    match pcreExec E noOptions s offset with
    | .noMatch => some (some ([], cp, count))
    | .error => some none
    | .matched (some (f, t) :: _) =>
      let piece := slice s cp f
      let offset' := if t = f then t + 1 else t
      if t = f ∧ s.length < offset' then some (some ([piece], t, count + 1))
      else (splitLoop E s fuel offset' t (count + 1)).map (·.map fun r => (piece :: r.1, r.2))
    | .matched _ => some none

/-- `RegexHelper::Split` (regex_helper.cc 299-357). -/
def splitHelper (E : Engine) (s : Bytes) : Option (Option (List Bytes)) :=
  (splitLoop E s (s.length + 2) 0 0 0).map (·.map fun (ps, cp, count) =>
    if count = 0 then [s] else if cp < s.length then ps ++ [slice s cp s.length] else ps)

/-- `RegexNode::Split` (regex_ref.cc 76-88): an error gives the empty list. -/
def split (E : Engine) (s : Bytes) : Option (List Bytes) := (splitHelper E s).map (·.getD [])

/-! ## Templates -/

/-- An instruction: copy bytes, or copy a group (`n` is twice the number of the group). -/
inductive Code where
  | copy (bs : Bytes)
  | capture (n : Nat)
deriving DecidableEq

def isDigit (c : Nat) : Bool := decide (48 ≤ c ∧ c ≤ 57)

def isName (c : Nat) : Bool :=
  decide (65 ≤ c ∧ c ≤ 90) || decide (97 ≤ c ∧ c ≤ 122) || isDigit c || c == 95

/-- The loop over the name of a variable (regex_sub_helper.cc 299-320): `n` modulo 2^64, the length of the name, whether
the bracket is still open, and the rest. -/
def scanName (num : Bool) : Bool → Nat → Nat → Bytes → Nat × Nat × Bool × Bytes
  | br, n, len, [] => (n, len, br, [])
  | br, n, len, c :: r =>
    if c = 125 ∧ br then (n, len, false, r)
    else if num then
      if isDigit c then scanName num br ((n * 10 + (c - 48)) % 2 ^ 64) (len + 1) r
      else (n, len, br, c :: r)
    else if isName c then scanName num br n (len + 1) r
    else (n, len, br, c :: r)

/-- The part of `replaceScriptCompile` (regex_sub_helper.cc 258-344) after a `$` that is not followed by another one:
the instruction and the rest. -/
def variableCode (r : Bytes) : Option (Code × Bytes) :=
  let num := isDigit (r.headD 0)
  let br := r.headD 0 == 123
  let r2 := if br then r.tail else r
  if br && r2.headD 0 == 0 then none
  else
    let num := num || isDigit (r2.headD 0)
    let (n, len, open_, rest) := scanName num br 0 0 r2
    if open_ then none
    else if len = 0 then none
    else if !num then none
    else some (.capture (2 * n % 2 ^ 64), rest)

/-- `replaceScriptCompile` (regex_sub_helper.cc 244-361). The fuel is the length of the template plus one. -/
def compileLoop : Nat → Bytes → Option (List Code)
  | 0, _ => none
  | _ + 1, [] => some []
  | fuel + 1, c :: r =>
    if c = 36 then
      if r.headD 0 = 0 then none
      else if r.headD 0 = 36 then (compileLoop fuel r.tail).map (.copy [36] :: ·)
      else
        match variableCode r with
        | none => none
        | some (code, rest) => (compileLoop fuel rest).map (code :: ·)
    else
      let lit := (c :: r).takeWhile (· ≠ 36)
      (compileLoop fuel ((c :: r).dropWhile (· ≠ 36))).map (.copy lit :: ·)

/-- `RegexSubHelper::Compile` (regex_sub_helper.cc 105-156): without `$` the template is taken as it is. -/
def compile (rep : Bytes) : Option (List Code) :=
  if 36 ∈ rep then compileLoop (rep.length + 1) rep else some [.copy rep]

/-- `replace_script_copy_len_code` and `replace_script_copy_capture_len_code` (regex_sub_helper.cc 31-51). -/
def codeLen (caps : List (Option (Nat × Nat))) : Code → Nat
  | .copy bs => bs.length
  | .capture n =>
    if n < 2 * caps.length then
      match caps[n / 2]? with
      | some (some (f, t)) => t - f
      | _ => 0
    else 0

/-- `replace_script_copy_code` and `replace_script_copy_capture_code` (regex_sub_helper.cc 53-84). -/
def codeOut (s : Bytes) (caps : List (Option (Nat × Nat))) : Code → Bytes
  | .copy bs => bs
  | .capture n =>
    if n < 2 * caps.length then
      match caps[n / 2]? with
      | some (some (f, t)) => slice s f t
      | _ => []
    else []

/-- The text of the template for a match (regex_sub_helper.cc 159-202): a buffer of the summed lengths (and one byte) is
filled; `none` is a write outside of it. Its first bytes are used, which must all have been written. -/
def expand (s : Bytes) (caps : List (Option (Nat × Nat))) (codes : List Code) : Option Bytes :=
  let len := (codes.map (codeLen caps)).sum
  let out := (codes.map (codeOut s caps)).flatten
  if out.length = len then some out else none

/-! ## Replace -/

/-- The loop of `RegexHelper::SubHelper` with `global` and without `match_only` (regex_helper.cc 392-439). -/
def subLoop (E : Engine) (s : Bytes) (codes : List Code) : Nat → Nat → Nat → Nat → Option (Option (Bytes × Nat × Nat))
  | 0, _, _, _ => none
  | fuel + 1, offset, cp, count =>
    match pcreExec E noOptions s offset with
    | .noMatch => some (some ([], cp, count))
    | .error => some none
    | .matched (some (f, t) :: r) =>
      match expand s (some (f, t) :: r) codes with
      | none => some none
      | some e =>
        let piece := slice s cp f ++ e
        let offset' := if t = f then t + 1 else t
        if t = f ∧ s.length < offset' then some (some (piece, t, count + 1))
        else (subLoop E s codes fuel offset' t (count + 1)).map (·.map fun r => (piece ++ r.1, r.2))
    | .matched _ => some none

/-- `RegexHelper::SubHelper` (regex_helper.cc 360-455). -/
def subHelper (E : Engine) (s rep : Bytes) : Option (Option Bytes) :=
  match compile rep with
  | none => some none
  | some codes =>
    (subLoop E s codes (s.length + 2) 0 0 0).map (·.map fun (out, cp, count) =>
      if count = 0 then s else if cp < s.length then out ++ slice s cp s.length else out)

/-- `RegexNode::Replace` (regex_ref.cc 121-130): an error gives the input. -/
def replace (E : Engine) (s rep : Bytes) : Option Bytes := (subHelper E s rep).map (·.getD s)

/-! ## Match -/

/-- A `char` as an `int`. -/
def schar (b : Nat) : Int := if b < 128 then b else (b : Int) - 256

/-- The number of a named group (regex_helper.cc 245): `(name_entry[0] << 8) | name_entry[1]` of signed characters. -/
def nameNumber (hi lo : Nat) : Int := if lo < 128 then 256 * schar hi + lo else
  -- all bits above the lowest byte are set
  schar lo

/-- The strings of the groups (regex_helper.cc 231-237). -/
def groupList (E : Engine) (s : Bytes) (caps : List (Option (Nat × Nat))) : List Bytes :=
  (List.range (E.ncaptures + 1)).map fun i =>
    match caps[i]? with
    | some (some (f, t)) => slice s f t
    | _ => []

/-- The named groups (regex_helper.cc 239-261): a number that is negative is above every size. -/
def namedList (E : Engine) (groups : List Bytes) : List (Bytes × Bytes) :=
  E.names.filterMap fun (hi, lo, name) =>
    let n := nameNumber hi lo
    if n < 0 ∨ (groups.length : Int) ≤ n then none else some (name, groups.getD n.toNat [])

/-- An `int64_t` passed as an `int`. -/
def toInt32 (n : Int) : Int := Int.bmod n (2 ^ 32)

/-- `RegexHelper::Match` (regex_helper.cc 201-264) and `RegexNode::Match` for bytes (regex_ref.cc 158-186). -/
def matchBytes (E : Engine) (o : Options) (s : Bytes) (off : Int) : List Bytes × List (Bytes × Bytes) :=
  if s = [] then ([], [])
  else
    match pcreExec E o s (toInt32 off) with
    | .matched caps =>
      let gs := groupList E s caps
      (gs, namedList E gs)
    | _ => ([], [])

/-- `RegexNode::Match` for a text of ASCII characters (regex_ref.cc 188-218): the text from the offset on is matched;
`none` is `std::out_of_range` of `substr`. -/
def matchAscii (E : Engine) (o : Options) (s : Bytes) (off : Int) : Option (List Bytes × List (Bytes × Bytes)) :=
  if off < 0 ∨ (s.length : Int) < off then none else some (matchBytes E o (s.drop off.toNat) 0)

/-- `RegexPattern::Load` (regex_pattern.cc 27-37): the pattern goes to `pcre_compile` as a C string. -/
def load (comp : Bytes → Option Engine) (pattern : Bytes) : Option Engine := comp (pattern.takeWhile (· ≠ 0))

end Verif.Regex
