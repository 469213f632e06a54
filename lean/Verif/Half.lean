import Verif.HashEq

/-!
# Half-precision numbers

A model of the conversions between the 16-bit and the 32-bit floating-point format
(`include/matxscript/runtime/half.h` 211-362, `fp16_ieee_to_fp32_value` and
`fp16_ieee_from_fp32_value`; `half-inl.h` 34-55), by which elements of float16 arrays are read
(`src/runtime/container/ndarray.cc` 131-134) and written
(`include/matxscript/runtime/container/list_helper.h` 35-38), and of the 32-bit arithmetic they are
made of.

Simplifications.  A finite binary32 value is a sign and a number of units `2 ^ -149`.  There is one
nan; its bits are those of the default quiet nan.  Arithmetic rounds to nearest, ties to even, and
does not flush subnormal numbers to zero. -/

namespace Verif.Half
open HashEq (bitLen divRound)

/-- A binary32 value. -/
inductive V
  | fin (neg : Bool) (n : Nat)
  | inf (neg : Bool)
  | nan
  deriving DecidableEq, Repr

/-- `fp32_from_bits`: one bit of sign, 8 of exponent, 23 of mantissa. -/
def fromBits (w : Nat) : V :=
  let neg := decide (w / 2 ^ 31 % 2 = 1)
  let e := w / 2 ^ 23 % 2 ^ 8
  let m := w % 2 ^ 23
  if e = 0 then .fin neg m
  else if e = 255 then if m = 0 then .inf neg else .nan
  else .fin neg ((2 ^ 23 + m) * 2 ^ (e - 1))

/-- Exponent and mantissa of a magnitude. -/
def mag (n : Nat) : Nat :=
  if n < 2 ^ 23 then n
  else
    let e := bitLen n - 23
    e * 2 ^ 23 + (n / 2 ^ (e - 1) - 2 ^ 23)

/-- `fp32_to_bits`. -/
def toBits : V → Nat
  | .fin neg n => (if neg then 2 ^ 31 else 0) + mag n
  | .inf neg => (if neg then 2 ^ 31 else 0) + 0x7F800000
  | .nan => 0x7FC00000

/-- The binary32 value nearest to `n / 2 ^ k` units; magnitudes from `2 ^ 128` on are infinite. -/
def rnd (neg : Bool) (n k : Nat) : V :=
  let s := bitLen n - k - 24
  let r := divRound n (k + s) * 2 ^ s
  if 2 ^ 277 ≤ r then .inf neg else .fin neg r

/-- `fabsf`. -/
def V.abs : V → V
  | .fin _ n => .fin false n
  | .inf _ => .inf false
  | .nan => .nan

/-- `x * y`. -/
def V.mul : V → V → V
  | .fin s a, .fin t b => rnd (s != t) (a * b) 149
  | .inf s, .inf t => .inf (s != t)
  | .inf s, .fin t b => if b = 0 then .nan else .inf (s != t)
  | .fin s a, .inf t => if a = 0 then .nan else .inf (s != t)
  | _, _ => .nan

/-- A sign and a magnitude as a number. -/
def signed (neg : Bool) (n : Nat) : Int := if neg then -(n : Int) else n

/-- `x + y`. -/
def V.add : V → V → V
  | .fin s a, .fin t b =>
    let z := signed s a + signed t b
    if z = 0 then .fin (s && t) 0 else rnd (decide (z < 0)) z.natAbs 0
  | .inf s, .inf t => if s = t then .inf s else .nan
  | .inf s, .fin _ _ => .inf s
  | .fin _ _, .inf t => .inf t
  | _, _ => .nan

/-- `x - y`. -/
def V.neg : V → V
  | .fin s a => .fin (!s) a
  | .inf s => .inf (!s)
  | .nan => .nan

def V.sub (x y : V) : V := x.add y.neg

/-- `fp16_ieee_to_fp32_value`, with the words of the source. -/
def toFloat (h : Nat) : V :=
  let w := (h <<< 16) % 2 ^ 32
  let sign := w &&& 0x80000000
  let two_w := (w + w) % 2 ^ 32
  let exp_offset := 0xE0 <<< 23
  let exp_scale := fromBits (15 <<< 23)
  let normalized_value := (fromBits (((two_w >>> 4) + exp_offset) % 2 ^ 32)).mul exp_scale
  let magic_mask := 126 <<< 23
  let magic_bias := V.fin false (2 ^ 148)
  let denormalized_value := (fromBits ((two_w >>> 17) ||| magic_mask)).sub magic_bias
  let result := sign |||
    (if two_w < 1 <<< 27 then toBits denormalized_value else toBits normalized_value)
  fromBits result

/-- `fp16_ieee_from_fp32_value`, given the bits of the float. -/
def fromFloat (w : Nat) : Nat :=
  let scale_to_inf := fromBits (239 <<< 23)
  let scale_to_zero := fromBits (17 <<< 23)
  let base := ((fromBits w).abs.mul scale_to_inf).mul scale_to_zero
  let shl1_w := (w + w) % 2 ^ 32
  let sign := w &&& 0x80000000
  let bias := shl1_w &&& 0xFF000000
  let bias := if bias < 0x71000000 then 0x71000000 else bias
  let base := (fromBits (((bias >>> 1) + 0x07800000) % 2 ^ 32)).add base
  let bits := toBits base
  let exp_bits := (bits >>> 13) &&& 0x00007C00
  let mantissa_bits := bits &&& 0x00000FFF
  let nonsign := (exp_bits + mantissa_bits) % 2 ^ 32
  ((sign >>> 16) ||| (if 0xFF000000 < shl1_w then 0x7E00 else nonsign)) % 2 ^ 16

/-- `static_cast<float>(double)`, the double in units `2 ^ -1074`: one rounding. -/
def ofDouble : HashEq.F → V
  | .fin z => rnd (decide (z < 0)) z.natAbs 925
  | .inf neg => .inf neg
  | .nan => .nan

/-- Writing a Python float into a float16 array: `*ret = from.As<float>()`. -/
def store (x : HashEq.F) : Nat := fromFloat (toBits (ofDouble x))

end Verif.Half
