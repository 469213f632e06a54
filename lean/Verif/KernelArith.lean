import Mathlib.Data.List.Basic

/-!
# Scalar operators of kernels

Model of the statements that `GraphIRPrinter` emits for scalar operators
(`/repo/python/matx/kernel/codegen/graph_ir_printer.py`): `_cast` 337-379,
`_gen_arith_statement` 292-319, `_gen_floor_div_statement` 321-335,
`_gen_mod_statement` 381-413, `_gen_compare_statement` 415-444 and
`_gen_not_statement` 463-478, over the integer types of `DTYPE_TO_MLIR` 47-64.

The printer emits text; the model is the value this text computes.  The
operations of MLIR's `arith` dialect are taken from its documentation: `addi`,
`subi`, `muli` wrap around, `remsi` truncates towards zero, `floordivsi` rounds
down, and both are undefined (`none`) for a zero divisor and for the least
number divided by minus one.  Widths are arbitrary positive numbers.  Floating
point is modelled for comparisons only.
-/

namespace Verif.KernelArith

/-- The integer types of kernels.  `i n` stands for `int8`, `int16`, ..., `u n`
for `uint8`, ... . -/
inductive DType where
  | bool
  | i (n : Nat)
  | u (n : Nat)
  deriving DecidableEq

/-- `MLIRType.bits` in `DTYPE_TO_MLIR` (47-64). -/
abbrev DType.bits : DType → Nat
  | .bool => 1
  | .i n => n
  | .u n => n

/-- `MLIRType.true_code`: `"ui"` is `false`. -/
def DType.signedCode : DType → Bool
  | .bool => true
  | .i _ => true
  | .u _ => false

/-- The conversions of the `arith` dialect between integers. -/
inductive CastOp where
  | trunci | bitcast | extsi | extui
  deriving DecidableEq

/-- `compare_f` (350-351). -/
inductive Cmp3 where
  | narrower | same | wider

def compareF (target origin : Nat) : Cmp3 :=
  if target < origin then .narrower else if target = origin then .same else .wider

/-- The table `op_map` (364-374), rows for integers. -/
def opMap : Bool → Bool → Cmp3 → CastOp
  | _, _, .narrower => .trunci
  | _, _, .same => .bitcast
  | true, true, .wider => .extsi
  | true, false, .wider => .extui
  | false, true, .wider => .extui
  | false, false, .wider => .extui

/-- What the conversion computes.  `setWidth` drops high bits or adds zeros. -/
def CastOp.run : CastOp → {n : Nat} → (m : Nat) → BitVec n → BitVec m
  | .trunci, _, m, x => x.setWidth m
  | .bitcast, _, m, x => x.setWidth m
  | .extsi, _, m, x => x.signExtend m
  | .extui, _, m, x => x.setWidth m

/-- `_cast` (337-379). -/
def cast (o t : DType) (x : BitVec o.bits) : BitVec t.bits :=
  if o = t then x.setWidth t.bits
  else (opMap o.signedCode t.signedCode (compareF t.bits o.bits)).run t.bits x

/-- The operators of `_gen_arith_statement`. -/
inductive Arith where
  | add | sub | mul

/-- `arith.addi`, `arith.subi`, `arith.muli`. -/
def Arith.run : Arith → {n : Nat} → BitVec n → BitVec n → BitVec n
  | .add, _, a, b => a + b
  | .sub, _, a, b => a - b
  | .mul, _, a, b => a * b

/-- `_gen_arith_statement` (292-319): both operands are converted to the
result type. -/
def genArith (op : Arith) (o1 o2 rt : DType) (a : BitVec o1.bits) (b : BitVec o2.bits) :
    BitVec rt.bits :=
  op.run (cast o1 rt a) (cast o2 rt b)

/-- Whether a signed division is defined. -/
def divDefined {n : Nat} (a b : BitVec n) : Bool :=
  b != 0#n && !(a == BitVec.intMin n && b == BitVec.ofInt n (-1))

/-- `arith.floordivsi`. -/
def floordivsi {n : Nat} (a b : BitVec n) : Option (BitVec n) :=
  if divDefined a b then some (BitVec.ofInt n (a.toInt.fdiv b.toInt)) else none

/-- `arith.remsi`. -/
def remsi {n : Nat} (a b : BitVec n) : Option (BitVec n) :=
  if divDefined a b then some (a.srem b) else none

/-- `_gen_floor_div_statement` (321-335) for an integer result: the suffix is
taken from `code`, in which unsigned types are written `i`. -/
def genFloorDiv (o1 o2 rt : DType) (a : BitVec o1.bits) (b : BitVec o2.bits) :
    Option (BitVec rt.bits) :=
  floordivsi (cast o1 rt a) (cast o2 rt b)

/-- The three statements of `_gen_mod_statement` (404-411) on converted
operands. -/
def modStmts {n : Nat} (a b : BitVec n) : Option (BitVec n) := do
  let m1 ← remsi a b
  remsi (m1 + b) b

/-- `_gen_mod_statement` (381-413) for an integer result. -/
def genMod (o1 o2 rt : DType) (a : BitVec o1.bits) (b : BitVec o2.bits) :
    Option (BitVec rt.bits) :=
  modStmts (cast o1 rt a) (cast o2 rt b)

/-- The comparison operators. -/
inductive CmpOp where
  | gt | ge | lt | le | eq | ne

/-- `_gen_compare_statement` (415-444) for operands of one integer type: the
suffix is the first letter of the printed type, which is `i` for unsigned
types too, so the signed predicates are used. -/
def genCompare : CmpOp → {n : Nat} → BitVec n → BitVec n → Bool
  | .gt, _, a, b => b.slt a
  | .ge, _, a, b => b.sle a
  | .lt, _, a, b => a.slt b
  | .le, _, a, b => a.sle b
  | .eq, _, a, b => a == b
  | .ne, _, a, b => a != b

/-- A floating-point value, as far as comparisons go: not a number, or a point
of the ordered line of the other values. -/
inductive FVal (α : Type) where
  | nan
  | val (x : α)

/-- `_gen_compare_statement` for floating point: the predicates `ogt`, `oge`,
`olt`, `ole`, `oeq` and `one`, all false when an operand is not a number. -/
def genCompareF {α : Type} [LT α] [LE α] [DecidableLT α] [DecidableLE α] [DecidableEq α] :
    CmpOp → FVal α → FVal α → Bool
  | _, .nan, _ => false
  | _, _, .nan => false
  | .gt, .val a, .val b => decide (b < a)
  | .ge, .val a, .val b => decide (b ≤ a)
  | .lt, .val a, .val b => decide (a < b)
  | .le, .val a, .val b => decide (a ≤ b)
  | .eq, .val a, .val b => decide (a = b)
  | .ne, .val a, .val b => decide (a ≠ b)

/-- `_gen_not_statement` (463-478): exclusive or with one in the type of the
operand. -/
def genNot {n : Nat} (x : BitVec n) : BitVec n := 1#n ^^^ x

end Verif.KernelArith
