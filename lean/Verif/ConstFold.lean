import Verif.FloorDivProps

/-!
# Compile-time constant folding of integer and boolean expressions

Models `src/ir/const_fold.h` (`TryConstFold<...>`, lines 97-489), the expression builders that
call it (`src/ir/prim_ops.cc:96-131, 240-485`: `BinaryOpMatchTypes`, `SimpleCast`, `cast`,
`add` ... `logic_not`), `MakeConstScalar` (`include/matxscript/ir/prim_ops.h:763-790`), the
`IntImm` constructor checks (`src/ir/prim_expr.cc:43-56`) and, as the run-time meaning of an
expression, the C++ text which `src/codegen/codegen_c.cc:866-1092` prints for it.

Simplifications.
* Scalar types only, and of these `int32`, `int64`, `uint32`, `uint64`, `bool` (= `uint1`).
  Floating point is not part of this file's expression type.
* A free variable is `var`; any other expression which the folder does not look into (calls,
  subscripts, ...) is `call`, which may raise.
* `Err.ub` marks run-time behaviour that C++ leaves undefined (signed overflow, `%` by zero) or
  text that does not compile (`ArithOps::floordiv` on `uint64_t`); arithmetic on two `bool`
  operands (which C++ promotes to `int`) is put there too.
* Evaluation order is left to right.
* Pointer identity `a.same_as(b)` (used by `min`/`max`) is a parameter `same`, assumed to imply
  equality of the expressions.
-/

namespace Verif.ConstFold

inductive DT
  | int32 | int64 | uint32 | uint64 | bool
  deriving DecidableEq, Repr

namespace DT
def signed : DT → Bool
  | int32 | int64 => true
  | _ => false

def bits : DT → Nat
  | int32 | uint32 => 32
  | int64 | uint64 => 64
  | bool => 1

/-- `IsIndexType` (`const_fold.h:78-80`). -/
def isIndex (t : DT) : Bool := t.signed

/-- Least and greatest value of the type. -/
def lo : DT → Int
  | int32 => -2147483648
  | int64 => -9223372036854775808
  | _ => 0

def hi : DT → Int
  | int32 => 2147483647
  | int64 => 9223372036854775807
  | uint32 => 4294967295
  | uint64 => 18446744073709551615
  | bool => 1
end DT

def InRange (t : DT) (v : Int) : Prop := t.lo ≤ v ∧ v ≤ t.hi

instance (t : DT) (v : Int) : Decidable (InRange t v) := by unfold InRange; infer_instance

inductive BinOp
  | add | sub | mul | floordiv | floormod | truncmod | min | max
  | gt | ge | lt | le | eq | ne
  deriving DecidableEq, Repr

def BinOp.isCmp : BinOp → Bool
  | .gt | .ge | .lt | .le | .eq | .ne => true
  | _ => false

/-- Expressions.  `imm t v` is an `IntImm` node, whose `value` field is an `int64_t`. -/
inductive Expr
  | var (t : DT) (i : Nat)
  | call (t : DT) (i : Nat)
  | imm (t : DT) (v : Int)
  | cast (t : DT) (e : Expr)
  | bin (op : BinOp) (a b : Expr)
  | and (a b : Expr)
  | or (a b : Expr)
  | not (a : Expr)
  deriving DecidableEq, Repr

/-- The `dtype` of a node (`prim_expr.cc:94-420`; comparisons and logical nodes are `Bool`). -/
def Expr.dtype : Expr → DT
  | .var t _ | .call t _ | .imm t _ | .cast t _ => t
  | .bin op a _ => if op.isCmp then .bool else a.dtype
  | .and _ _ | .or _ _ | .not _ => .bool

/-! ## Run-time meaning of an expression -/

/-- Ways for the compiled expression not to produce a value. -/
inductive Err
  | zeroDiv | ub | exn (n : Nat)
  deriving DecidableEq, Repr

/-- Conversion of an integer value to a type, as a C++ cast `(T)v`. -/
def wrap (t : DT) (v : Int) : Int :=
  match t with
  | .bool => if v = 0 then 0 else 1
  | .uint32 => v % 4294967296
  | .uint64 => v % 18446744073709551616
  | .int32 => (v + 2147483648) % 4294967296 - 2147483648
  | .int64 => (v + 9223372036854775808) % 18446744073709551616 - 9223372036854775808

/-- Result of an arithmetic operation performed in type `t`. -/
def norm (t : DT) (v : Int) : Except Err Int :=
  match t with
  | .bool => .error .ub
  | .uint32 | .uint64 => .ok (wrap t v)
  | .int32 | .int64 => if InRange t v then .ok v else .error .ub

structure Env where
  var : DT → Nat → Int
  call : DT → Nat → Except Nat Int

/-- Variables and calls hold values of their type. -/
structure Env.OK (env : Env) : Prop where
  var : ∀ t i, InRange t (env.var t i)
  call : ∀ t i v, env.call t i = .ok v → InRange t v

def b2i (b : Bool) : Int := if b then 1 else 0

/-- The operators in the type `t` of their operands. -/
def binVal (op : BinOp) (t : DT) (x y : Int) : Except Err Int :=
  match op with
  | .add => norm t (x + y)
  | .sub => norm t (x - y)
  | .mul => norm t (x * y)
  | .floordiv =>
    if t.signed then (if y = 0 then .error .zeroDiv else norm t (x.fdiv y)) else .error .ub
  | .floormod =>
    if t.signed then (if y = 0 then .error .zeroDiv else norm t (x.fmod y)) else .error .ub
  | .truncmod =>
    if t = .bool ∨ y = 0 ∨ (t.signed ∧ ¬ InRange t (x.tdiv y)) then .error .ub
    else .ok (x.tmod y)
  | .min => .ok (if y < x then y else x)
  | .max => .ok (if x < y then y else x)
  | .gt => .ok (b2i (decide (x > y)))
  | .ge => .ok (b2i (decide (x ≥ y)))
  | .lt => .ok (b2i (decide (x < y)))
  | .le => .ok (b2i (decide (x ≤ y)))
  | .eq => .ok (b2i (decide (x = y)))
  | .ne => .ok (b2i (decide (x ≠ y)))

/-- What the printed C++ expression computes.  Literals: `codegen_c.cc:866-877` prints
`(T)value`, except for `int32`, where the bare number is printed. -/
def eval (env : Env) : Expr → Except Err Int
  | .var t i => .ok (env.var t i)
  | .call t i => match env.call t i with
    | .ok v => .ok v
    | .error n => .error (.exn n)
  | .imm t v => .ok (if t = .int32 then v else wrap t v)
  | .cast t e => match eval env e with
    | .ok v => .ok (if e.dtype = t then v else wrap t v)
    | .error x => .error x
  | .bin op a b => match eval env a with
    | .error x => .error x
    | .ok x => match eval env b with
      | .error y => .error y
      | .ok y => binVal op a.dtype x y
  | .and a b => match eval env a with
    | .error x => .error x
    | .ok x => if x = 0 then .ok 0 else match eval env b with
      | .error y => .error y
      | .ok y => .ok (if y = 0 then 0 else 1)
  | .or a b => match eval env a with
    | .error x => .error x
    | .ok x => if x ≠ 0 then .ok 1 else match eval env b with
      | .error y => .error y
      | .ok y => .ok (if y = 0 then 0 else 1)
  | .not a => match eval env a with
    | .error x => .error x
    | .ok x => .ok (if x = 0 then 1 else 0)

/-! ## The folder -/

/-- Ways for building an expression to abort the compilation. -/
inductive Fail
  | check      -- an `MXCHECK` failed
  | fatal      -- `MXLOG(FATAL)`
  | overflow   -- `int64_t` overflow inside the compiler (undefined behaviour)
  deriving DecidableEq, Repr

/-- `IntImm(dtype, value)`, `prim_expr.cc:43-56`; `value` was computed in `int64_t`. -/
def mkIntImm (t : DT) (v : Int) : Except Fail Expr :=
  if InRange .int64 v then
    if t.signed = false ∧ v < 0 then .error .check else .ok (.imm t v)
  else .error .overflow

/-- `MakeConstScalar` for the integer types, `prim_ops.h:763-778` (`value` is an `int64_t`, so the
`LargeUIntImm` branch is not reached). -/
def makeConst (t : DT) (v : Int) : Except Fail Expr :=
  if t.signed then .ok (.imm t v)
  else if v < 0 then .error .fatal else .ok (.imm t v)

/-- `cast`, `prim_ops.cc:228-243`. -/
def castE (t : DT) (e : Expr) : Except Fail Expr :=
  if e.dtype = t then .ok e
  else match e with
    | .imm _ v => makeConst t v
    | e => .ok (.cast t e)

/-- `SimpleCast`, `prim_ops.cc:74-78`. -/
def simpleCast (t : DT) (e : Expr) : Expr := if e.dtype = t then e else .cast t e

/-- The type both operands are brought to by `BinaryOpMatchTypes`, `prim_ops.cc:96-131`. -/
def matchType (s t : DT) : DT :=
  if s = t then s
  else if s.signed = t.signed then (if s.bits < t.bits then t else s)
  else if max s.bits t.bits = 64 then .int64 else .int32

/-- `BinaryOpMatchTypes`, `prim_ops.cc:96-131`: integers of the same signedness are widened
with `cast` (which folds literals), mixed signedness with `SimpleCast`. -/
def matchTypes (a b : Expr) : Except Fail (Expr × Expr) :=
  let s := a.dtype
  let t := b.dtype
  if s = t then .ok (a, b)
  else if s.signed = t.signed then
    if s.bits < t.bits then (castE t a).map (·, b) else (castE s b).map (a, ·)
  else
    let r := if max s.bits t.bits = 64 then DT.int64 else DT.int32
    .ok (simpleCast r a, simpleCast r b)

def asImm : Expr → Option Int
  | .imm _ v => some v
  | _ => none

def tryAdd (a b : Expr) : Except Fail (Option Expr) :=
  match asImm a, asImm b with
  | some x, some y => (mkIntImm a.dtype (x + y)).map some
  | some x, none => .ok (if x = 0 then some b else none)
  | none, some y => .ok (if y = 0 then some a else none)
  | none, none => .ok none

def trySub (a b : Expr) : Except Fail (Option Expr) :=
  match asImm a, asImm b with
  | some x, some y => (mkIntImm a.dtype (x - y)).map some
  | _, some y => .ok (if y = 0 then some a else none)
  | _, none => .ok none

def tryMul (a b : Expr) : Except Fail (Option Expr) :=
  match asImm a, asImm b with
  | some x, some y => (mkIntImm a.dtype (x * y)).map some
  | some x, none => .ok (if x = 1 then some b else if x = 0 then some a else none)
  | none, some y => .ok (if y = 1 then some a else if y = 0 then some b else none)
  | none, none => .ok none

/-- `arith::floordiv`/`floormod` on `int64_t` values (`int_operator.h:134-146`), through the
modelled `_longobject.cc` routines. -/
def codeFloorDiv (x y : Int) : Option Int :=
  (FloorDiv.fastFloorDivI64I64 (BitVec.ofInt 64 x) (BitVec.ofInt 64 y)).map BitVec.toInt
def codeFloorMod (x y : Int) : Option Int :=
  (FloorDiv.fastModI64I64 (BitVec.ofInt 64 x) (BitVec.ofInt 64 y)).map BitVec.toInt

def liftImm (t : DT) : Option Int → Except Fail (Option Expr)
  | some v => (mkIntImm t v).map some
  | none => .error .check

/-- `const_fold.h:241-285`. -/
def tryFloorDiv (a b : Expr) : Except Fail (Option Expr) :=
  match asImm a, asImm b with
  | some x, some y =>
    if y = 0 then .error .check else liftImm a.dtype (codeFloorDiv x y)
  | some x, none =>
    if x = 0 then
      if b.dtype.signed then .ok (some a) else (castE b.dtype a).map some
    else .ok none
  | none, some y => if y = 0 then .error .check else .ok none
  | none, none => .ok none

/-- `const_fold.h:287-313`; only for index types. -/
def tryFloorMod (a b : Expr) : Except Fail (Option Expr) :=
  if a.dtype.isIndex ∧ b.dtype.isIndex then
    match asImm a, asImm b with
    | some x, some y =>
      if y = 0 then .error .check else liftImm a.dtype (codeFloorMod x y)
    | some x, none => .ok (if x = 0 then some a else none)
    | none, some y =>
      if y = 1 then (makeConst a.dtype 0).map some
      else if y = 0 then .error .check else .ok none
    | none, none => .ok none
  else .ok none

/-- `const_fold.h:218-239`; only for index types; C++ `%` truncates. -/
def tryTruncMod (a b : Expr) : Except Fail (Option Expr) :=
  if a.dtype.isIndex ∧ b.dtype.isIndex then
    match asImm a, asImm b with
    | some x, some y =>
      if y = 0 then .error .check
      else if InRange .int64 (x.tdiv y) then (mkIntImm a.dtype (x.tmod y)).map some
      else .error .overflow
    | some x, none => .ok (if x = 0 then some a else none)
    | none, some y =>
      if y = 1 then (makeConst a.dtype 0).map some
      else if y = 0 then .error .check else .ok none
    | none, none => .ok none
  else .ok none

def tryMin (same : Expr → Expr → Bool) (a b : Expr) : Except Fail (Option Expr) :=
  match asImm a, asImm b with
  | some x, some y => (mkIntImm a.dtype (if y < x then y else x)).map some
  | _, _ => .ok (if same a b then some a else none)

def tryMax (same : Expr → Expr → Bool) (a b : Expr) : Except Fail (Option Expr) :=
  match asImm a, asImm b with
  | some x, some y => (mkIntImm a.dtype (if x < y then y else x)).map some
  | _, _ => .ok (if same a b then some a else none)

/-- The six comparisons, `const_fold.h:343-414`. -/
def tryCmp (r : Int → Int → Bool) (a b : Expr) : Except Fail (Option Expr) :=
  match asImm a, asImm b with
  | some x, some y => (mkIntImm .bool (b2i (r x y))).map some
  | _, _ => .ok none

def tryFold (same : Expr → Expr → Bool) : BinOp → Expr → Expr → Except Fail (Option Expr)
  | .add => tryAdd
  | .sub => trySub
  | .mul => tryMul
  | .floordiv => tryFloorDiv
  | .floormod => tryFloorMod
  | .truncmod => tryTruncMod
  | .min => tryMin same
  | .max => tryMax same
  | .gt => tryCmp fun x y => decide (x > y)
  | .ge => tryCmp fun x y => decide (x ≥ y)
  | .lt => tryCmp fun x y => decide (x < y)
  | .le => tryCmp fun x y => decide (x ≤ y)
  | .eq => tryCmp fun x y => decide (x = y)
  | .ne => tryCmp fun x y => decide (x ≠ y)

/-- `add`, `sub`, ..., `not_equal` (`prim_ops.cc:251-459`): match types, try to fold, else build
the node.  (`min`/`max` also have symbolic-infinity shortcuts, which are not modelled.) -/
def mkBin (same : Expr → Expr → Bool) (op : BinOp) (a b : Expr) : Except Fail Expr :=
  match matchTypes a b with
  | .error f => .error f
  | .ok (a', b') => match tryFold same op a' b' with
    | .error f => .error f
    | .ok (some e) => .ok e
    | .ok none => .ok (.bin op a' b')

/-- `logic_and` (`prim_ops.cc:461-468`, `const_fold.h:416-431`).  When both are literals the code
returns a C++ `bool` through the `PrimExpr(int32_t)` constructor, i.e. an `int32` literal.  The
operand type checks only reject types outside this model (`uint`). -/
def mkAnd (a b : Expr) : Except Fail Expr :=
  if ¬ ((a.dtype = .bool ∨ a.dtype.signed) ∧ (b.dtype = .bool ∨ b.dtype.signed)) then
    .error .check
  else match asImm a, asImm b with
    | some x, some y => .ok (.imm .int32 (b2i (decide (x ≠ 0) && decide (y ≠ 0))))
    | some x, none => if x ≠ 0 then castE .bool b else castE .bool a
    | none, some y => if y ≠ 0 then castE .bool a else castE .bool b
    | none, none => .ok (.and a b)

/-- `logic_or` (`prim_ops.cc:470-477`, `const_fold.h:433-448`). -/
def mkOr (a b : Expr) : Except Fail Expr :=
  if ¬ ((a.dtype = .bool ∨ a.dtype.signed) ∧ (b.dtype = .bool ∨ b.dtype.signed)) then
    .error .check
  else match asImm a, asImm b with
    | some x, some y => .ok (.imm .int32 (b2i (decide (x ≠ 0) || decide (y ≠ 0))))
    | some x, none => if x ≠ 0 then castE .bool a else castE .bool b
    | none, some y => if y ≠ 0 then castE .bool b else castE .bool a
    | none, none => .ok (.or a b)

/-- `logic_not` (`prim_ops.cc:479-485`, `const_fold.h:450-457`). -/
def mkNot (a : Expr) : Except Fail Expr :=
  if ¬ (a.dtype = .bool ∨ a.dtype.signed) then .error .check
  else match asImm a with
    | some x => mkIntImm .bool (b2i (decide (x = 0)))
    | none => .ok (.not a)

/-- Building a whole expression bottom-up through the folding builders, as the frontend does. -/
def build (same : Expr → Expr → Bool) : Expr → Except Fail Expr
  | .var t i => .ok (.var t i)
  | .call t i => .ok (.call t i)
  | .imm t v => .ok (.imm t v)
  | .cast t e => (build same e).bind (castE t)
  | .bin op a b => (build same a).bind fun a' => (build same b).bind fun b' => mkBin same op a' b'
  | .and a b => (build same a).bind fun a' => (build same b).bind fun b' => mkAnd a' b'
  | .or a b => (build same a).bind fun a' => (build same b).bind fun b' => mkOr a' b'
  | .not a => (build same a).bind mkNot

/-! ## Reference: the expression the user wrote, with explicit conversions and no folding -/

/-- The unfolded expression: both operands converted to the common type, then the operator. -/
def plain (op : BinOp) (a b : Expr) : Expr :=
  .bin op (.cast (matchType a.dtype b.dtype) a) (.cast (matchType a.dtype b.dtype) b)

/-- Both operands of every binary node have the same type (what the builders establish). -/
def WT : Expr → Prop
  | .var _ _ | .call _ _ | .imm _ _ => True
  | .cast _ e => WT e
  | .bin _ a b => a.dtype = b.dtype ∧ WT a ∧ WT b
  | .and a b | .or a b => WT a ∧ WT b
  | .not a => WT a

/-- A literal's value belongs to its type. -/
def LitOK (e : Expr) : Prop := ∀ t v, e = .imm t v → InRange t v

end Verif.ConstFold
