/-!
# base64

Models `base64_encode` and `base64_decode`
(`src/runtime/builtins_modules/_base64_util.cc:32-113`) and `base64_chars`, `is_base64`
(`include/matxscript/runtime/builtins_modules/_base64_util.h:34-42`).

Simplifications.
* The arrays `char_array_3/4` are the list of the entries written so far (`i` is its length).
* Values are natural numbers; storing to an `unsigned char` is `% 256`.
* `isalnum` is that of the "C" locale.
* Reading `encoded_string[in_]` past the end is `none`.  The counter `in_len` of the decoder is an
  `int`: its conversion from `size_t` wraps modulo 2^32; its decrement is not bounded below (the
  code would reach signed overflow only after 2^31 further reads).
-/

namespace Verif.Base64

/-- `base64_chars`, as ASCII codes: `A-Z`, `a-z`, `0-9`, `+`, `/`. -/
def chars : List Nat :=
  [65, 66, 67, 68, 69, 70, 71, 72, 73, 74, 75, 76, 77, 78, 79, 80, 81, 82, 83, 84, 85, 86, 87, 88, 89, 90,
   97, 98, 99, 100, 101, 102, 103, 104, 105, 106, 107, 108, 109, 110, 111, 112, 113, 114, 115, 116,
   117, 118, 119, 120, 121, 122,
   48, 49, 50, 51, 52, 53, 54, 55, 56, 57, 43, 47]

/-- `base64_chars[k]`. -/
def chr (k : Nat) : UInt8 := UInt8.ofNat (chars.getD k 0)

/-- `is_base64`. -/
def isBase64 (c : UInt8) : Bool :=
  (decide (65 ≤ c.toNat) && decide (c.toNat ≤ 90)) ||
  (decide (97 ≤ c.toNat) && decide (c.toNat ≤ 122)) ||
  (decide (48 ≤ c.toNat) && decide (c.toNat ≤ 57)) ||
  decide (c.toNat = 43) || decide (c.toNat = 47)

/-- `base64_chars.find(c)` stored into an `unsigned char`: the position, or `(unsigned char)-1`. -/
def findChr (c : Nat) : Nat := if c ∈ chars then chars.idxOf c else 255

/-! ## Encoder -/

/-- Lines 43-46. -/
def enc4 (a b c : Nat) : List Nat :=
  [ ((a &&& 0xfc) >>> 2) % 256,
    (((a &&& 0x03) <<< 4) + ((b &&& 0xf0) >>> 4)) % 256,
    (((b &&& 0x0f) <<< 2) + ((c &&& 0xc0) >>> 6)) % 256,
    (c &&& 0x3f) % 256 ]

/-- Lines 54-67. -/
def encTail (buf : List UInt8) (ret : List UInt8) : List UInt8 :=
  if buf.length = 0 then ret
  else
    let g (k : Nat) : Nat := (buf.getD k 0).toNat
    ret ++ ((enc4 (g 0) (g 1) (g 2)).take (buf.length + 1)).map chr ++
      List.replicate (3 - buf.length) (UInt8.ofNat 61)

/-- Lines 41-53. -/
def encLoop : List UInt8 → List UInt8 → List UInt8 → List UInt8
  | [], buf, ret => encTail buf ret
  | x :: xs, buf, ret =>
    let buf' := buf ++ [x]
    if buf'.length = 3 then
      let g (k : Nat) : Nat := (buf'.getD k 0).toNat
      encLoop xs [] (ret ++ (enc4 (g 0) (g 1) (g 2)).map chr)
    else encLoop xs buf' ret

/-- `base64_encode`: `unsigned int in_len = input_string.size()` keeps 32 bits. -/
def encode (s : List UInt8) : List UInt8 := encLoop (s.take (s.length % 2 ^ 32)) [] []

/-! ## Decoder -/

/-- Lines 90-92. -/
def dec3 (a b c d : Nat) : List Nat :=
  [ ((a <<< 2) + ((b &&& 0x30) >>> 4)) % 256,
    (((b &&& 0xf) <<< 4) + ((c &&& 0x3c) >>> 2)) % 256,
    (((c &&& 0x3) <<< 6) + d) % 256 ]

/-- Lines 100-113. -/
def decTail (buf : List UInt8) (ret : List UInt8) : List UInt8 :=
  if buf.length = 0 then ret
  else
    let g (k : Nat) : Nat := findChr (buf.getD k 0).toNat
    ret ++ ((dec3 (g 0) (g 1) (g 2) (g 3)).take (buf.length - 1)).map UInt8.ofNat

/-- Lines 81-98; `rem` is `in_len`. -/
def decLoop : List UInt8 → Int → List UInt8 → List UInt8 → Option (List UInt8)
  | s, rem, buf, ret =>
    if rem = 0 then some (decTail buf ret)
    else match s with
      | [] => none
      | x :: xs =>
        if x = UInt8.ofNat 61 || !isBase64 x then some (decTail buf ret)
        else
          let buf' := buf ++ [x]
          if buf'.length = 4 then
            let g (k : Nat) : Nat := findChr (buf'.getD k 0).toNat
            decLoop xs (rem - 1) [] (ret ++ (dec3 (g 0) (g 1) (g 2) (g 3)).map UInt8.ofNat)
          else decLoop xs (rem - 1) buf' ret

/-- Conversion of a `size_t` to `int`. -/
def toInt32 (n : Nat) : Int :=
  if n % 2 ^ 32 < 2 ^ 31 then ((n % 2 ^ 32 : Nat) : Int) else ((n % 2 ^ 32 : Nat) : Int) - 2 ^ 32

/-- `base64_decode`. -/
def decode (s : List UInt8) : Option (List UInt8) := decLoop s (toInt32 s.length) [] []

/-! ## Specification (RFC 4648, section 4) -/

/-- A group of three bytes is a 24-bit number written as four digits in base 64; a final group of
one or two bytes is extended with zero bits to a whole number of digits and padded with `=`. -/
def spec : List UInt8 → List UInt8
  | a :: b :: c :: r =>
    let n := a.toNat * 65536 + b.toNat * 256 + c.toNat
    [chr (n / 262144), chr (n / 4096 % 64), chr (n / 64 % 64), chr (n % 64)] ++ spec r
  | [a, b] =>
    let n := (a.toNat * 256 + b.toNat) * 4
    [chr (n / 4096), chr (n / 64 % 64), chr (n % 64), UInt8.ofNat 61]
  | [a] =>
    let n := a.toNat * 16
    [chr (n / 64), chr (n % 64), UInt8.ofNat 61, UInt8.ofNat 61]
  | [] => []

/-- Decoding of base-64 digits: four digits are a 24-bit number giving three bytes; two or three
left-over digits give one or two bytes (surplus low bits ignored); one left-over digit is
ignored. -/
def specDec : List Nat → List Nat
  | a :: b :: c :: d :: r =>
    let n := a * 262144 + b * 4096 + c * 64 + d
    [n / 65536, n / 256 % 256, n % 256] ++ specDec r
  | [a, b, c] =>
    let n := (a * 4096 + b * 64 + c) / 4
    [n / 256, n % 256]
  | [a, b] => [(a * 64 + b) / 16]
  | _ => []

end Verif.Base64
