/-!
# UTF-8 encoding and decoding

Models `GreedyTableDecoder::Convert`, `CountUnitSize` and the lookup table
(`src/runtime/utf8/utf8_greedy_table_decoder.cc:29-325`), `AdvanceByGreedy_*`, `SkipByGreedy_*`
(`include/matxscript/runtime/utf8/utf8_greedy_table_decoder.h:67-146`), `GreedyEncoder`,
`GreedyCountBytesSize` (`src/runtime/utf8/utf8_greedy_encoder.cc:31-98`) and
`UTF8Decode`/`UTF8Encode` (`src/runtime/utf8_util.cc:32-63`).

Simplifications.
* A pointer into the source is the list of the bytes from it to the end of the input; reading past
  the end is `none`.
* Code points are natural numbers (`char32_t`); the output buffer is the list of what was written.
-/

namespace Verif.Utf8

/-! ## Decoder -/

/-- `maFirstUnitTable[unit - 0x80]` for `unit ≥ 0x80`: initial code point bits and total size. -/
def firstUnit (u : Nat) : Nat × Nat :=
  if u < 0xC0 then (u - 0x80, 0)
  else if u < 0xC2 then (u, 0)
  else if u < 0xE0 then (u - 0xC0, 2)
  else if u < 0xF0 then (u - 0xE0, 3)
  else if u < 0xF5 then (u - 0xF0, 4)
  else (u, 0)

/-- `(unit & 0xC0) == 0x80`. -/
def isCont (u : UInt8) : Bool := u.toNat &&& 0xC0 == 0x80

/-- `AdvanceByGreedy_2/3/4` and the `default` case: the code point and the new `pSrc`. -/
def advance (size cdpt : Nat) (src : List UInt8) : Option (Nat × List UInt8) :=
  match size with
  | 2 => match src with
    | u2 :: r =>
      if !isCont u2 then some (0xFFFD, src)
      else some ((cdpt <<< 6) ||| (u2.toNat &&& 0x3F), r)
    | _ => none
  | 3 => match src with
    | u2 :: u3 :: r =>
      if !isCont u2 || !isCont u3 then some (0xFFFD, src)
      else some ((cdpt <<< 12) ||| ((u2.toNat &&& 0x3F) <<< 6) ||| (u3.toNat &&& 0x3F), r)
    | _ => none
  | 4 => match src with
    | u2 :: u3 :: u4 :: r =>
      if !isCont u2 || !isCont u3 || !isCont u4 then some (0xFFFD, src)
      else some ((cdpt <<< 18) ||| ((u2.toNat &&& 0x3F) <<< 12) ||| ((u3.toNat &&& 0x3F) <<< 6) |||
        (u4.toNat &&& 0x3F), r)
    | _ => none
  | _ => some (0xFFFD, src)

/-- `SkipByGreedy_2/3/4`: the new `pSrc`. -/
def skip (size : Nat) (src : List UInt8) : Option (List UInt8) :=
  match size with
  | 2 => match src with
    | u2 :: r => if isCont u2 then some r else some src
    | _ => none
  | 3 => match src with
    | u2 :: u3 :: r => if isCont u2 && isCont u3 then some r else some src
    | _ => none
  | 4 => match src with
    | u2 :: u3 :: u4 :: r => if isCont u2 && isCont u3 && isCont u4 then some r else some src
    | _ => none
  | _ => some src

theorem advance_le (size cdpt : Nat) (src : List UInt8) (c : Nat) (r : List UInt8)
    (h : advance size cdpt src = some (c, r)) : r.length ≤ src.length := by
  unfold advance at h
  split at h
  · split at h
    · split at h <;> (injection h with h; injection h with _ h; subst h; simp)
    · cases h
  · split at h
    · split at h <;> (injection h with h; injection h with _ h; subst h; simp)
      omega
    · cases h
  · split at h
    · split at h <;> (injection h with h; injection h with _ h; subst h; simp)
      omega
    · cases h
  · injection h with h; injection h with _ h; subst h; simp

theorem skip_le (size : Nat) (src r : List UInt8)
    (h : skip size src = some r) : r.length ≤ src.length := by
  unfold skip at h
  split at h
  · split at h
    · split at h <;> (injection h with h; subst h; simp)
    · cases h
  · split at h
    · split at h <;> (injection h with h; subst h; simp)
      omega
    · cases h
  · split at h
    · split at h <;> (injection h with h; subst h; simp)
      omega
    · cases h
  · injection h with h; subst h; simp

/-- First loop of `Convert` (`pSrc < pSrcEnd - 3`). -/
def conv1 (src : List UInt8) (acc : List Nat) : Option (List UInt8 × List Nat) :=
  match src with
  | [] => some ([], acc)
  | u :: r =>
    if 3 < r.length + 1 then
      if u.toNat < 0x80 then conv1 r (acc ++ [u.toNat])
      else
        match h : advance (firstUnit u.toNat).2 (firstUnit u.toNat).1 r with
        | none => none
        | some (c, r') =>
          have := advance_le _ _ _ _ _ h
          conv1 r' (acc ++ [c])
    else some (u :: r, acc)
  termination_by src.length
  decreasing_by all_goals (simp_wf; try omega)

/-- Second loop of `Convert`, with the bounds check. -/
def conv2 (src : List UInt8) (acc : List Nat) : Option (List Nat) :=
  match src with
  | [] => some acc
  | u :: r =>
    if u.toNat < 0x80 then conv2 r (acc ++ [u.toNat])
    -- `pSrc + info.size - 1 > pSrcEnd`
    else if r.length < (firstUnit u.toNat).2 - 1 then some (acc ++ [0xFFFD])
    else
      match h : advance (firstUnit u.toNat).2 (firstUnit u.toNat).1 r with
      | none => none
      | some (c, r') =>
        have := advance_le _ _ _ _ _ h
        conv2 r' (acc ++ [c])
  termination_by src.length
  decreasing_by all_goals (simp_wf; try omega)

/-- `Convert`. -/
def convert (src : List UInt8) : Option (List Nat) :=
  match conv1 src [] with
  | none => none
  | some (r, acc) => conv2 r acc

/-- First loop of `CountUnitSize`. -/
def count1 (src : List UInt8) (n : Nat) : Option (List UInt8 × Nat) :=
  match src with
  | [] => some ([], n)
  | u :: r =>
    if 3 < r.length + 1 then
      if 0x80 ≤ u.toNat then
        match h : skip (firstUnit u.toNat).2 r with
        | none => none
        | some r' =>
          have := skip_le _ _ _ h
          count1 r' (n + 1)
      else count1 r (n + 1)
    else some (u :: r, n)
  termination_by src.length
  decreasing_by all_goals (simp_wf; try omega)

/-- Second loop of `CountUnitSize`. -/
def count2 (src : List UInt8) (n : Nat) : Option Nat :=
  match src with
  | [] => some n
  | u :: r =>
    if 0x80 ≤ u.toNat then
      if r.length < (firstUnit u.toNat).2 - 1 then some (n + 1)
      else
        match h : skip (firstUnit u.toNat).2 r with
        | none => none
        | some r' =>
          have := skip_le _ _ _ h
          count2 r' (n + 1)
    else count2 r (n + 1)
  termination_by src.length
  decreasing_by all_goals (simp_wf; try omega)

/-- `CountUnitSize`. -/
def countUnitSize (src : List UInt8) : Option Nat :=
  match count1 src 0 with
  | none => none
  | some (r, n) => count2 r n

/-- Outcome of a conversion into a buffer. -/
inductive DecRes where
  | ok (cps : List Nat)
  /-- read past the input -/
  | overread
  /-- wrote past the buffer -/
  | overflow
  /-- fewer code points written than the size of the result: the tail is uninitialised -/
  | uninit
  deriving DecidableEq

/-- `UTF8Decode`: a 64-element buffer for short inputs, else a result of the counted size. -/
def utf8Decode (src : List UInt8) : DecRes :=
  if src.length ≤ 64 then
    match convert src with
    | none => .overread
    | some cps => if cps.length ≤ 64 then .ok cps else .overflow
  else
    match countUnitSize src with
    | none => .overread
    | some n => match convert src with
      | none => .overread
      | some cps => if n < cps.length then .overflow else if cps.length < n then .uninit else .ok cps

/-! ## Encoder -/

/-- `GreedyOneCharLen`; `invalid_char` has three bytes. -/
def oneCharLen (x : Nat) : Nat :=
  if x < 0x80 then 1 else if x ≤ 0x7FF then 2 else if x ≤ 0xFFFF then 3 else if x ≤ 0x10FFFF then 4
  else 3

/-- `GreedyUTF8EncodeOne`; the cast to `unsigned char` keeps 8 bits. -/
def encodeOne (x : Nat) : List UInt8 :=
  if x < 0x80 then [UInt8.ofNat x]
  else if x ≤ 0x7FF then
    [UInt8.ofNat (0xC0 ||| ((x >>> 6) &&& 0x1F)), UInt8.ofNat (0x80 ||| (x &&& 0x3F))]
  else if x ≤ 0xFFFF then
    [UInt8.ofNat (0xE0 ||| ((x >>> 12) &&& 0x0F)), UInt8.ofNat (0x80 ||| ((x >>> 6) &&& 0x3F)),
     UInt8.ofNat (0x80 ||| (x &&& 0x3F))]
  else if x ≤ 0x10FFFF then
    [UInt8.ofNat (0xF0 ||| ((x >>> 18) &&& 0x07)), UInt8.ofNat (0x80 ||| ((x >>> 12) &&& 0x3F)),
     UInt8.ofNat (0x80 ||| ((x >>> 6) &&& 0x3F)), UInt8.ofNat (0x80 ||| (x &&& 0x3F))]
  else [0xEF, 0xBF, 0xBD]

/-- `GreedyEncoder`. -/
def encode : List Nat → List UInt8
  | [] => []
  | x :: xs => encodeOne x ++ encode xs

/-- `GreedyCountBytesSize`. -/
def countBytes : List Nat → Nat
  | [] => 0
  | x :: xs => oneCharLen x + countBytes xs

end Verif.Utf8
