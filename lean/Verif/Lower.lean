/-!
# Lowering of statements and expressions

A model of the front end that turns the body of a script function into generated C++:

* the rewriting of `if` conditions (`python/matx/script/transforms/if_bool.py` 38-80),
* the syntax check of function bodies (`python/matx/script/analysis/syntax_check.py` 25-225),
* the parser that builds the IR (`python/matx/script/parser.py`: `visit_Return` 572-591,
  `lookup_or_alloca` 593-648, `visit_Assign` 650-789, `visit_AugAssign` 818-823,
  `visit_Assert` 825-838, `visit_For` 863-1092, `visit_If` 1094-1114, `visit_Try` 1116-1139,
  `visit_Raise` 1141-1150, `visit_While` 1152-1158, `visit_Compare` 1332-1359,
  `visit_BoolOp` 1361-1369, `visit_UnaryOp` 1371-1380, `visit_IfExp` 1949-1954) together with
  the operator makers (`python/matx/ir/generic.py` 407-545, `python/matx/ir/op.py` 97-139,
  1156-1190) and the scopes (`python/matx/script/context/scope_context.py`),
* the C++ text printed for the IR (`src/codegen/codegen_c.cc` 1072-1082, 1242-1440, 1441-1881,
  1883-1940, `src/codegen/codegen_c_host.cc` 674-723), given its C++ meaning.

The same programs also get their Python meaning, and the `Props` modules compare the two.

Simplifications.  Static types are reduced to `bool`, `int` and "anything else" (`obj`).
Operations (arithmetic, item access, method calls, constructors) are calls of named primitives
with a common meaning on both sides: whether each of them is right is the subject of the other
components.  Comprehensions, `yield`, closures, tensors and the storage tricks for views
(`*_holder` variables) are left out; tuple targets are one level deep; the random suffixes of
generated names are assumed distinct (variables of the IR are numbers from a counter); a type
change of a variable that is not live after an inner block (`live_out`) is rejected here.  C++
rejects a `catch` after `catch (...)`, so a `try` has one handler.  The later IR passes (move,
fusion) are not part of this model. -/

namespace Verif.Lower

/-- Static types, reduced. `obj` stands for every type that is not a primitive. -/
inductive Ty
  | bool | int | obj
  deriving DecidableEq, Repr

/-- Run-time values.  Objects are references into the world; `err` is an exception raised by the
interpreter or the generated code itself. -/
inductive Val
  | none
  | bool (b : Bool)
  | int (i : Int)
  | obj (n : Nat)
  | err (kind : String)
  deriving DecidableEq, Repr

instance : Inhabited Val := ⟨.none⟩

/-- The range of `int64_t`. -/
def i64min : Int := -(2 ^ 63)
def i64max : Int := 2 ^ 63 - 1

/-- The values a variable of a static type can hold; an `int` variable is an `int64_t`. -/
def HasTy : Ty → Val → Prop
  | .bool, .bool _ => True
  | .int, .int i => i64min ≤ i ∧ i ≤ i64max
  | .obj, _ => True
  | _, _ => False

/-- The primitives: their effect on the world `W` and their static signatures. -/
structure Prims (W : Type) where
  call : String → List Val → W → Except Val Val × W
  ret : String → Ty
  sig : String → List Ty
  pure : String → Bool
  truthObj : W → Nat → Bool
  items : W → Val → Option (List Val)
  isInst : Val → String → Bool

variable {W : Type}

/-- Truth of a value, `bool(v)`. -/
def truth (P : Prims W) (w : W) : Val → Bool
  | .none => false
  | .bool b => b
  | .int i => i != 0
  | .obj n => P.truthObj w n
  | .err _ => true

/-- Use of a value as an index: `bool` counts as 0 or 1. -/
def toInt : Val → Option Int
  | .int i => some i
  | .bool b => some (if b then 1 else 0)
  | _ => Option.none

/-! ## Effects -/

/-- A computation that may raise and changes the world. -/
abbrev Act (W α : Type) := W → Except Val α × W

def pur {α : Type} (a : α) : Act W α := fun w => (.ok a, w)

def raise {α : Type} (x : Val) : Act W α := fun w => (.error x, w)

def bnd {α β : Type} (m : Act W α) (k : α → Act W β) : Act W β := fun w =>
  match m w with
  | (.ok a, w) => k a w
  | (.error x, w) => (.error x, w)

/-- Run a list of computations from left to right. -/
def runSeq {α : Type} : List (Act W α) → Act W (List α)
  | [] => pur []
  | m :: ms => bnd m fun a => bnd (runSeq ms) fun as => pur (a :: as)

/-! ## Python programs -/

/-- Comparison operators: an ordinary relation, `in`, `not in`. -/
inductive Cmp
  | rel (f : String)
  | isIn
  | notIn
  deriving DecidableEq, Repr

inductive Expr
  | const (v : Val)
  | name (x : String)
  | tup (es : List Expr)
  | call (f : String) (es : List Expr)
  | boolop (isAnd : Bool) (es : List Expr)
  | compare (ops : List Cmp) (es : List Expr)
  | notE (e : Expr)
  | ifE (c t f : Expr)
  | boolE (e : Expr)

/-- An assignment target: a variable, or `f(args..., value)` for an item, slice or attribute. -/
inductive Target
  | name (x : String)
  | store (f : String) (args : List Expr)

inductive Stmt
  | skip
  | seq (a b : Stmt)
  | assign (t : Target) (e : Expr)
  | assignTup (ts : List Target) (es : List Expr)
  | unpack (ts : List Target) (e : Expr)
  | augName (x : String) (op : String) (e : Expr)
  | augStore (f g : String) (args : List Expr) (op : String) (e : Expr)
  | expr (e : Expr)
  | assertS (c : Expr)
  | ifS (c : Expr) (t e : Stmt)
  | whileS (c : Expr) (b orelse : Stmt)
  | forRange (x : String) (start stop step : Expr) (b orelse : Stmt)
  | forIn (x : String) (e : Expr) (b orelse : Stmt)
  | brk
  | cnt
  | ret (e : Expr)
  | raiseS (e : Option Expr)
  | tryS (b : Stmt) (typ : Option String) (h orelse final : Stmt)

/-! ## The meaning of Python programs -/

/-- The state of a running function: local variables and the world. -/
structure St (K W : Type) where
  env : K → Option Val
  w : W

/-- How a statement ends. `tmo`: the step budget is used up. `ub`: the generated code has left
the behaviour C++ defines (never the result of a Python program). -/
inductive Out (S : Type)
  | nrm (s : S)
  | brk (s : S)
  | cnt (s : S)
  | ret (v : Val) (s : S)
  | exc (v : Val) (s : S)
  | tmo
  | ub

def St.set {K : Type} [DecidableEq K] (s : St K W) (k : K) (v : Val) : St K W :=
  { s with env := fun k' => if k' = k then some v else s.env k' }

/-- Evaluate, then continue; an exception ends the statement. -/
def ev {K α : Type} (m : Act W α) (s : St K W) (k : α → St K W → Out (St K W)) : Out (St K W) :=
  match m s.w with
  | (.ok a, w) => k a { s with w := w }
  | (.error x, w) => .exc x { s with w := w }

def Out.andThen {S : Type} (o : Out S) (k : S → Out S) : Out S :=
  match o with
  | .nrm s => k s
  | o => o

/-- What a loop does with the outcome of its body. -/
def Out.inLoop {S : Type} (o : Out S) (again : S → Out S) : Out S :=
  match o with
  | .nrm s => again s
  | .cnt s => again s
  | .brk s => .nrm s
  | o => o

/-- Continue after any outcome with a state, keeping the outcome (a `finally` clause). -/
def Out.finally {S : Type} (o : Out S) (k : S → Out S) : Out S :=
  match o with
  | .nrm s => (k s).andThen .nrm
  | .brk s => (k s).andThen .brk
  | .cnt s => (k s).andThen .cnt
  | .ret v s => (k s).andThen (.ret v)
  | .exc v s => (k s).andThen (.exc v)
  | .tmo => .tmo
  | .ub => .ub

/-- The elements of `range(a, b, d)` for `d ≠ 0`. -/
def pyRange (a b d : Int) : List Int :=
  let n := if 0 < d then (b - a + d - 1) / d else (a - b - d - 1) / (-d)
  (List.range n.toNat).map fun (k : Nat) => a + k * d

/-- The value of `not in`: the negation of the answer of `contains`. -/
def negB (P : Prims W) (v : Val) : Act W Val := fun w => (.ok (.bool (!truth P w v)), w)

/-- One comparison of a chain in Python. -/
def pyCmp (P : Prims W) : Cmp → Val → Val → Act W Val
  | .rel f, a, b => P.call f [a, b]
  | .isIn, a, b => P.call "contains" [b, a]
  | .notIn, a, b => bnd (P.call "contains" [b, a]) (negB P)

mutual

/-- Python evaluation of expressions. `unb` is the exception for a variable without a value. -/
def evalPy (P : Prims W) (unb : Val) (env : String → Option Val) : Expr → Act W Val
  | .const v => pur v
  | .name x => match env x with
    | some v => pur v
    | Option.none => raise unb
  | .tup es => bnd (evalPyL P unb env es) (P.call "tuple")
  | .call f es => bnd (evalPyL P unb env es) (P.call f)
  | .boolop isAnd es => evalPyBool P unb env isAnd es
  | .compare ops es => evalPyCmp P unb env ops es
  | .notE e => bnd (evalPy P unb env e) fun v w => (.ok (.bool (!truth P w v)), w)
  | .ifE c t f => bnd (evalPy P unb env c) fun v w =>
      if truth P w v then evalPy P unb env t w else evalPy P unb env f w
  | .boolE e => bnd (evalPy P unb env e) fun v w => (.ok (.bool (truth P w v)), w)

/-- Operands from left to right. -/
def evalPyL (P : Prims W) (unb : Val) (env : String → Option Val) : List Expr → Act W (List Val)
  | [] => pur []
  | e :: es => bnd (evalPy P unb env e) fun v =>
      bnd (evalPyL P unb env es) fun vs => pur (v :: vs)

/-- `and` / `or`: stop at the first operand that decides. -/
def evalPyBool (P : Prims W) (unb : Val) (env : String → Option Val) (isAnd : Bool) :
    List Expr → Act W Val
  | [] => pur (.bool isAnd)
  | e :: es => bnd (evalPy P unb env e) fun v w =>
      match es with
      | [] => (.ok v, w)
      | _ :: _ => if truth P w v = isAnd then evalPyBool P unb env isAnd es w else (.ok v, w)

/-- A chain of comparisons: first operand. -/
def evalPyCmp (P : Prims W) (unb : Val) (env : String → Option Val) (ops : List Cmp) :
    List Expr → Act W Val
  | [] => pur .none
  | e :: es => bnd (evalPy P unb env e) fun v => evalPyCmps P unb env ops v es

/-- A chain of comparisons: remaining operands, each evaluated once and only if needed. -/
def evalPyCmps (P : Prims W) (unb : Val) (env : String → Option Val) :
    List Cmp → Val → List Expr → Act W Val
  | [op], a, [e] => bnd (evalPy P unb env e) fun b => pyCmp P op a b
  | op :: ops, a, e :: es => bnd (evalPy P unb env e) fun b => bnd (pyCmp P op a b) fun r w =>
      if truth P w r then evalPyCmps P unb env ops b es w else (.ok r, w)
  | _, _, _ => pur .none

end

/-- Assign a value to a target. -/
def pyStore (P : Prims W) (unb : Val) (s : St String W) (v : Val) : Target → Out (St String W)
  | .name x => .nrm (s.set x v)
  | .store f args =>
    ev (evalPyL P unb s.env args) s fun vs s => ev (P.call f (vs ++ [v])) s fun _ s => .nrm s

/-- Assign values to targets from left to right. -/
def pyStoreL (P : Prims W) (unb : Val) : List Target → List Val → St String W → Out (St String W)
  | t :: ts, v :: vs, s => (pyStore P unb s v t).andThen (pyStoreL P unb ts vs)
  | _, _, s => .nrm s

/-- The name of the in-place variant of a binary operator. -/
def inplace (op : String) : String := "i" ++ op

/-- Python execution of statements with at most `fuel` iterations of every loop. `cur` is the
exception being handled. -/
def execPy (P : Prims W) (unb : Val) (fuel : Nat) : Stmt → Option Val → St String W →
    Out (St String W)
  | .skip, _, s => .nrm s
  | .seq a b, cur, s => (execPy P unb fuel a cur s).andThen (execPy P unb fuel b cur)
  | .assign t e, _, s => ev (evalPy P unb s.env e) s fun v s => pyStore P unb s v t
  | .assignTup ts es, _, s => ev (evalPyL P unb s.env es) s fun vs s => pyStoreL P unb ts vs s
  | .unpack ts e, _, s => ev (evalPy P unb s.env e) s fun v s =>
      match P.items s.w v with
      | Option.none => .exc (.err "TypeError") s
      | some l => if l.length = ts.length then pyStoreL P unb ts l s
                  else .exc (.err "ValueError") s
  | .augName x op e, _, s =>
      ev (evalPy P unb s.env (.name x)) s fun a s =>
      ev (evalPy P unb s.env e) s fun b s =>
      ev (P.call (inplace op) [a, b]) s fun v s => .nrm (s.set x v)
  | .augStore f g args op e, _, s =>
      ev (evalPyL P unb s.env args) s fun vs s =>
      ev (P.call g vs) s fun a s =>
      ev (evalPy P unb s.env e) s fun b s =>
      ev (P.call (inplace op) [a, b]) s fun v s =>
      ev (P.call f (vs ++ [v])) s fun _ s => .nrm s
  | .expr e, _, s => ev (evalPy P unb s.env e) s fun _ s => .nrm s
  | .assertS c, _, s => ev (evalPy P unb s.env c) s fun v s =>
      if truth P s.w v then .nrm s else .exc (.err "AssertionError") s
  | .ifS c t e, cur, s => ev (evalPy P unb s.env c) s fun v s =>
      if truth P s.w v then execPy P unb fuel t cur s else execPy P unb fuel e cur s
  | .whileS c b orelse, cur, s =>
      -- the `else` clause runs when the loop ends without `break`
      elseLoop (fun s => bnd (evalPy P unb s.env c) fun v w => (.ok (truth P w v), w))
        (execPy P unb fuel b cur) (execPy P unb fuel orelse cur) fuel s
  | .forRange x start stop step b orelse, cur, s =>
      ev (evalPyL P unb s.env [start, stop, step]) s fun vs s =>
      match vs with
      | [va, vb, vd] =>
        match toInt va, toInt vb, toInt vd with
        | some a, some b', some d =>
          if d = 0 then .exc (.err "ValueError") s
          else elseFor (fun i s => execPy P unb fuel b cur (s.set x (.int i)))
            (execPy P unb fuel orelse cur) fuel (pyRange a b' d) s
        | _, _, _ => .exc (.err "TypeError") s
      | _ => .exc (.err "TypeError") s
  | .forIn x e b orelse, cur, s =>
      ev (evalPy P unb s.env e) s fun v s =>
      elseItems (fun w => P.items w v) (fun i s => execPy P unb fuel b cur (s.set x i))
        (execPy P unb fuel orelse cur) fuel 0 s
  | .brk, _, s => .brk s
  | .cnt, _, s => .cnt s
  | .ret e, _, s => ev (evalPy P unb s.env e) s fun v s => .ret v s
  | .raiseS (some e), _, s => ev (evalPy P unb s.env e) s fun v s => .exc v s
  | .raiseS Option.none, cur, s =>
      match cur with
      | some x => .exc x s
      | Option.none => .exc (.err "RuntimeError") s
  | .tryS b typ h orelse final, cur, s =>
      (match execPy P unb fuel b cur s with
        | .exc x s =>
          if (match typ with | Option.none => true | some t => P.isInst x t)
          then execPy P unb fuel h (some x) s else .exc x s
        | .nrm s => execPy P unb fuel orelse cur s
        | o => o).finally (execPy P unb fuel final cur)
where
  /-- `while` with an `else` clause. -/
  elseLoop (test : St String W → Act W Bool) (body orelse : St String W → Out (St String W)) :
      Nat → St String W → Out (St String W)
    | 0, _ => .tmo
    | n + 1, s =>
      ev (test s) s fun b s =>
        if b then (body s).inLoop (elseLoop test body orelse n) else orelse s
  /-- `for` over a range with an `else` clause. -/
  elseFor (body : Int → St String W → Out (St String W))
      (orelse : St String W → Out (St String W)) :
      Nat → List Int → St String W → Out (St String W)
    | _, [], s => orelse s
    | 0, _ :: _, _ => .tmo
    | n + 1, i :: is, s => (body i s).inLoop (elseFor body orelse n is)
  /-- `for` over a list with an `else` clause. -/
  elseItems (items : W → Option (List Val)) (body : Val → St String W → Out (St String W))
      (orelse : St String W → Out (St String W)) :
      Nat → Nat → St String W → Out (St String W)
    | n, k, s =>
      match items s.w with
      | Option.none => .exc (.err "TypeError") s
      | some l =>
        match l[k]? with
        | Option.none => orelse s
        | some v =>
          match n with
          | 0 => .tmo
          | n + 1 => (body v s).inLoop (elseItems items body orelse n (k + 1))

/-! ## The IR and the meaning of the generated C++ -/

inductive IExpr
  | const (v : Val)
  | var (id : Nat) (ty : Ty)
  | call (f : String) (args : List IExpr)
  | and2 (a b : IExpr)
  | or2 (a b : IExpr)
  | hloAnd (a b : IExpr)
  | hloOr (a b : IExpr)
  | not (a : IExpr)
  | ite (c t f : IExpr)
  | asInt (a : IExpr)
  | asBool (a : IExpr)
  | boolOf (a : IExpr)

inductive IStmt
  | skip
  | seq (a b : IStmt)
  | setVar (id : Nat) (e : IExpr)
  | expr (e : IExpr)
  | assertS (c : IExpr) (kind : String) (b : IStmt)
  | ifS (c : IExpr) (t e : IStmt)
  | whileS (c : IExpr) (b : IStmt)
  | forS (id : Nat) (start stop step : IExpr) (b : IStmt)
  | autoFor (id : Nat) (e : IExpr) (b : IStmt)
  | brk
  | cnt
  | ret (e : IExpr)
  | raiseS (e : Option IExpr)
  | tryS (b h : IStmt)

/-- Static type of a constant. -/
def constTy : Val → Ty
  | .bool _ => .bool
  | .int _ => .int
  | _ => .obj

/-- `checked_type` of an IR expression; `HLOAnd`/`HLOOr` (`src/ir/hlo_expr.cc` 751-797) keep a
common operand type and are objects otherwise. -/
def typeOf (P : Prims W) : IExpr → Ty
  | .const v => constTy v
  | .var _ ty => ty
  | .call f _ => P.ret f
  | .and2 _ _ => .bool
  | .or2 _ _ => .bool
  | .hloAnd a b => if typeOf P a = typeOf P b then typeOf P a else .obj
  | .hloOr a b => if typeOf P a = typeOf P b then typeOf P a else .obj
  | .not _ => .bool
  | .ite _ t _ => typeOf P t
  | .asInt _ => .int
  | .asBool _ => .bool
  | .boolOf _ => .bool

/-- The arguments of a C++ call, evaluated in the order `π` the compiler has picked; the values
are then passed in their places. -/
def runOrd (π : List Nat) (acts : List (Act W Val)) : Act W (List Val) :=
  bnd (runSeq (π.map fun i => acts.getD i (pur .none))) fun vs =>
    pur ((List.range acts.length).map fun i => vs.getD (π.idxOf i) .none)

/-- `internal::TypeAsHelper<int64_t>` / implicit conversion of `bool` to an integer. -/
def castInt (v : Val) : Act W Val := fun w =>
  match toInt v with
  | some i => (.ok (.int i), w)
  | Option.none => (.error (.err "TypeError"), w)

/-- `internal::TypeAsHelper<bool>`: integers and booleans only. -/
def castBool (v : Val) : Act W Val := fun w =>
  match toInt v with
  | some i => (.ok (.bool (i != 0)), w)
  | Option.none => (.error (.err "TypeError"), w)

/-- `ArithOps::And` on evaluated operands
(`include/matxscript/runtime/generic/generic_hlo_arith_funcs.h` 586-624). -/
def hloAndV (P : Prims W) : List Val → Act W Val
  | [a, b] => fun w => (.ok (if truth P w a then b else a), w)
  | _ => pur .none

/-- `ArithOps::Or` on evaluated operands. -/
def hloOrV (P : Prims W) : List Val → Act W Val
  | [a, b] => fun w => (.ok (if truth P w a then a else b), w)
  | _ => pur .none

mutual

/-- Meaning of a printed expression. `ord` is the compiler's choice of the order of arguments of
calls (unspecified in C++); `&&`, `||` and `?:` are sequenced. Operands of `&&`, `||`, `!`, `?:`
are primitives, whose truth is being non-zero. -/
def evalIR (P : Prims W) (ord : List IExpr → List Nat) (env : Nat → Option Val) :
    IExpr → Act W Val
  | .const v => pur v
  | .var id _ => match env id with
    | some v => pur v
    | Option.none => raise (.err "undeclared")
  | .call f args => bnd (runOrd (ord args) (evalIRL P ord env args)) (P.call f)
  | .and2 a b => bnd (evalIR P ord env a) fun v w =>
      if truth P w v then
        bnd (evalIR P ord env b) (fun v w => (.ok (.bool (truth P w v)), w)) w
      else (.ok (.bool false), w)
  | .or2 a b => bnd (evalIR P ord env a) fun v w =>
      if truth P w v then (.ok (.bool true), w)
      else bnd (evalIR P ord env b) (fun v w => (.ok (.bool (truth P w v)), w)) w
  | .hloAnd a b => bnd (runOrd (ord [a, b]) [evalIR P ord env a, evalIR P ord env b]) (hloAndV P)
  | .hloOr a b => bnd (runOrd (ord [a, b]) [evalIR P ord env a, evalIR P ord env b]) (hloOrV P)
  | .not a => bnd (evalIR P ord env a) fun v w => (.ok (.bool (!truth P w v)), w)
  | .ite c t f => bnd (evalIR P ord env c) fun v w =>
      if truth P w v then evalIR P ord env t w else evalIR P ord env f w
  | .asInt a => bnd (evalIR P ord env a) castInt
  | .asBool a => bnd (evalIR P ord env a) castBool
  | .boolOf a => bnd (evalIR P ord env a) fun v w => (.ok (.bool (truth P w v)), w)

def evalIRL (P : Prims W) (ord : List IExpr → List Nat) (env : Nat → Option Val) :
    List IExpr → List (Act W Val)
  | [] => []
  | e :: es => evalIR P ord env e :: evalIRL P ord env es

end

/-- A `while` loop with a budget of iterations. -/
def whileLoop {K : Type} (test : St K W → Act W Bool) (body : St K W → Out (St K W)) :
    Nat → St K W → Out (St K W)
  | 0, _ => .tmo
  | n + 1, s =>
    ev (test s) s fun b s =>
      if b then (body s).inLoop (whileLoop test body n) else .nrm s



/-- The value of an expression used as an integer by the generated loop. -/
def evalInt (P : Prims W) (ord : List IExpr → List Nat) (env : Nat → Option Val) (e : IExpr) :
    Act W Int :=
  bnd (evalIR P ord env e) fun v w =>
    match toInt v with
    | some i => (.ok i, w)
    | Option.none => (.error (.err "TypeError"), w)

/-- The condition of the printed `for` (`codegen_c.cc` 1393-1424): for a literal step the
comparison is fixed at compile time, with zero counting as positive; otherwise the sign of the
step is tested in every iteration. The bound is an expression, read in every iteration. -/
def forTest (P : Prims W) (ord : List IExpr → List Nat) (stop step : IExpr) (t : Int)
    (s : St Nat W) : Act W Bool :=
  match step with
  | .const (.int d) =>
    bnd (evalInt P ord s.env stop) fun b => pur (if d ≥ 0 then decide (t < b) else decide (t > b))
  | _ => bnd (evalInt P ord s.env step) fun d =>
    bnd (evalInt P ord s.env stop) fun b => pur (if d > 0 then decide (t < b) else decide (t > b))

/-- The printed `for`: the hidden counter `t` is what the loop tests and increments; leaving the
range of `int64_t` is undefined. -/
def forLoop (P : Prims W) (ord : List IExpr → List Nat) (stop step : IExpr)
    (body : Int → St Nat W → Out (St Nat W)) : Nat → Int → St Nat W → Out (St Nat W)
  | n, t, s =>
    ev (forTest P ord stop step t s) s fun c s =>
      if c then
        match n with
        | 0 => .tmo
        | n + 1 => (body t s).inLoop fun s =>
            ev (evalInt P ord s.env step) s fun d s =>
              if i64min ≤ t + d ∧ t + d ≤ i64max then forLoop P ord stop step body n (t + d) s
              else .ub
      else .nrm s

/-- The printed loop over a list (`codegen_c.cc` 1600-1881): `begin` and `end` are taken before
the loop. If the list has another length when the iterator is compared again, the pair is no
longer valid. -/
def iterLoop (items : W → Option (List Val)) (len : Nat)
    (body : Val → St Nat W → Out (St Nat W)) : Nat → Nat → St Nat W → Out (St Nat W)
  | n, k, s =>
    match items s.w with
    | Option.none => .ub
    | some l =>
      if l.length ≠ len then .ub
      else
        match l[k]? with
        | Option.none => .nrm s
        | some v =>
          match n with
          | 0 => .tmo
          | n + 1 => (body v s).inLoop (iterLoop items len body n (k + 1))

/-- Meaning of the printed statements (`codegen_c.cc` 1330-1440, 1883-1940,
`codegen_c_host.cc` 674-723). -/
def execIR (P : Prims W) (ord : List IExpr → List Nat) (fuel : Nat) : IStmt → Option Val →
    St Nat W → Out (St Nat W)
  | .skip, _, s => .nrm s
  | .seq a b, cur, s => (execIR P ord fuel a cur s).andThen (execIR P ord fuel b cur)
  | .setVar id e, _, s => ev (evalIR P ord s.env e) s fun v s => .nrm (s.set id v)
  | .expr e, _, s => ev (evalIR P ord s.env e) s fun _ s => .nrm s
  | .assertS c kind b, cur, s => ev (evalIR P ord s.env c) s fun v s =>
      if truth P s.w v then execIR P ord fuel b cur s else .exc (.err kind) s
  | .ifS c t e, cur, s => ev (evalIR P ord s.env c) s fun v s =>
      if truth P s.w v then execIR P ord fuel t cur s else execIR P ord fuel e cur s
  | .whileS c b, cur, s =>
      whileLoop (fun s => bnd (evalIR P ord s.env c) fun v w => (.ok (truth P w v), w))
        (execIR P ord fuel b cur) fuel s
  | .forS id start stop step b, cur, s =>
      ev (evalInt P ord s.env start) s fun a s =>
      forLoop P ord stop step (fun t s => execIR P ord fuel b cur (s.set id (.int t))) fuel a s
  | .autoFor id e b, cur, s =>
      ev (evalIR P ord s.env e) s fun v s =>
      match P.items s.w v with
      | Option.none => .exc (.err "TypeError") s
      | some l => iterLoop (fun w => P.items w v) l.length
          (fun i s => execIR P ord fuel b cur (s.set id i)) fuel 0 s
  | .brk, _, s => .brk s
  | .cnt, _, s => .cnt s
  | .ret e, _, s => ev (evalIR P ord s.env e) s fun v s => .ret v s
  | .raiseS (some e), _, s => ev (evalIR P ord s.env e) s fun v s => .exc v s
  | .raiseS Option.none, cur, s =>
      match cur with
      | some x => .exc x s
      | Option.none => .exc (.err "RuntimeError") s
  | .tryS b h, cur, s =>
      match execIR P ord fuel b cur s with
      | .exc x s => execIR P ord fuel h (some x) s
      | o => o

/-! ## The front end -/

mutual

/-- `_IfBoolTransformer.visit` (`if_bool.py` 62-80): wrap the leaves of a condition in `bool`. -/
def toBool : Expr → Expr
  | .boolop isAnd es => .boolop isAnd (toBoolL es)
  | .notE e => .notE (toBool e)
  | e => .boolE e

def toBoolL : List Expr → List Expr
  | [] => []
  | e :: es => toBool e :: toBoolL es

end

/-- `IfBoolTransformer`: the conditions of `if` statements, nothing else. -/
def ifBool : Stmt → Stmt
  | .seq a b => .seq (ifBool a) (ifBool b)
  | .ifS c t e => .ifS (toBool c) (ifBool t) (ifBool e)
  | .whileS c b o => .whileS c (ifBool b) (ifBool o)
  | .forRange x a b d body o => .forRange x a b d (ifBool body) (ifBool o)
  | .forIn x e body o => .forIn x e (ifBool body) (ifBool o)
  | .tryS b typ h o f => .tryS (ifBool b) typ (ifBool h) (ifBool o) (ifBool f)
  | s => s

def isSkip : Stmt → Bool
  | .skip => true
  | _ => false

/-- Methods that may not be called on the list being iterated
(`python/matx/script/reporter/syntex_check_util.py` 34-36). -/
def invalidMethods : List String :=
  ["append", "extend", "add", "update", "discard", "pop", "remove", "reserve", "clear"]

/-- `FunctionSyntaxCheck` (`syntax_check.py` 118-171): `vars` are the names being iterated.
`visit_For` descends only when the iterated expression is a name, `visit_While` not at all. -/
def syntaxOk (vars : List String) : Stmt → Bool
  | .seq a b => syntaxOk vars a && syntaxOk vars b
  | .expr (.call f (.name x :: _)) => !(vars.contains x && invalidMethods.contains f)
  | .ifS _ t e => syntaxOk vars t && syntaxOk vars e
  | .whileS _ _ orelse => isSkip orelse
  | .forRange _ _ _ _ _ orelse => isSkip orelse
  | .forIn _ e b orelse => isSkip orelse &&
      (match e with | .name x => syntaxOk (x :: vars) b | _ => true)
  | .tryS b typ h orelse final =>
      isSkip orelse && isSkip final && typ.isNone && syntaxOk vars b && syntaxOk vars h
  | _ => true

/-- A scope: name, variable of the IR, static type. -/
abbrev Scope := List (String × Nat × Ty)

/-- `lookup_symbol`. -/
def lookup (c : Scope) (x : String) : Option (Nat × Ty) := (c.find? fun p => p.1 = x).map (·.2)

/-- `op_and` / `op_or` of two or more operands (`generic.py` 446-523): the sequenced C++
operators when every operand is a `bool`, otherwise calls of `ArithOps::And` / `Or`. -/
def boolTree (P : Prims W) (isAnd : Bool) (es : List IExpr) : Option IExpr :=
  let prim := es.all fun e => typeOf P e = .bool
  match es with
  | a :: b :: rest =>
    let f := match prim, isAnd with
      | true, true => IExpr.and2
      | true, false => IExpr.or2
      | false, true => IExpr.hloAnd
      | false, false => IExpr.hloOr
    some (rest.foldl f (f a b))
  | _ => Option.none

/-- The comparisons of `visit_Compare` (`parser.py` 1339-1358) from position `i` on: consecutive
operands are compared; at `in` or `not in` the function returns that membership test alone. -/
def cmpList : List Cmp → List IExpr → Option (List IExpr ⊕ IExpr)
  | [], _ => some (.inl [])
  | .rel f :: ops, a :: b :: es =>
    match cmpList ops (b :: es) with
    | some (.inl l) => some (.inl (.call f [a, b] :: l))
    | r => r
  | .isIn :: _, a :: b :: _ => some (.inr (.call "contains" [b, a]))
  | .notIn :: _, a :: b :: _ => some (.inr (.not (.call "contains" [b, a])))
  | _ :: _, _ => Option.none

/-- `visit_Compare`: the conjunction of the comparisons (`builtins_all`, `op.py` 119-139). -/
def cmpTree (P : Prims W) (ops : List Cmp) (es : List IExpr) : Option IExpr :=
  match cmpList ops es with
  | some (.inr e) => some e
  | some (.inl [e]) => some e
  | some (.inl l) => boolTree P true l
  | Option.none => Option.none

mutual

/-- Lowering of expressions. A condition of `?:` that is no primitive, and branches of different
types, are not valid C++ and rejected. -/
def lowerE (P : Prims W) (c : Scope) : Expr → Option IExpr
  | .const v => some (.const v)
  | .name x => (lookup c x).map fun p => .var p.1 p.2
  | .tup es => (lowerL P c es).map (.call "tuple")
  | .call f es => (lowerL P c es).map (.call f)
  | .boolop isAnd es => (lowerL P c es).bind (boolTree P isAnd)
  | .compare ops es => (lowerL P c es).bind (cmpTree P ops)
  | .notE e => (lowerE P c e).map fun a => if typeOf P a = .obj then .not (.asBool a) else .not a
  | .ifE b t f => match lowerE P c b, lowerE P c t, lowerE P c f with
    | some b, some t, some f =>
      if typeOf P b = .obj ∨ typeOf P t ≠ typeOf P f then Option.none else some (.ite b t f)
    | _, _, _ => Option.none
  | .boolE e => (lowerE P c e).map .boolOf

def lowerL (P : Prims W) (c : Scope) : List Expr → Option (List IExpr)
  | [] => some []
  | e :: es => match lowerE P c e, lowerL P c es with
    | some a, some as => some (a :: as)
    | _, _ => Option.none

end

/-- `IsTypeConvertible` (`src/ir/type.cc` 679-785) on the reduced types: `int` does not become
`bool` (more bits), everything else does. -/
def convertible : Ty → Ty → Bool
  | .int, .bool => false
  | _, _ => true

/-- `smart_adapt_to` (`python/matx/ir/type_relation.py` 56-73) and the conversion the C++
assignment performs. -/
def adapt (P : Prims W) (e : IExpr) (to : Ty) : IExpr :=
  match typeOf P e, to with
  | .obj, .int => .asInt e
  | .obj, .bool => .asBool e
  | .bool, .int => .asInt e
  | _, _ => e

/-- `update_symbol`: (re)bind a name in the innermost scope. -/
def rebind (inner : Scope) (x : String) (id : Nat) (ty : Ty) : Scope :=
  (x, id, ty) :: inner.filter fun p => p.1 ≠ x

/-- `lookup_or_alloca` (`parser.py` 593-648). `inner` is the innermost scope, `outer` the
others. -/
def assignVar (P : Prims W) (outer inner : Scope) (n : Nat) (x : String) (e : IExpr) :
    Option (IStmt × Scope × Nat) :=
  match lookup (inner ++ outer) x with
  | Option.none => some (.setVar n e, rebind inner x n (typeOf P e), n + 1)
  | some (id, ty) =>
    if convertible (typeOf P e) ty then some (.setVar id (adapt P e ty), inner, n)
    else if (lookup inner x).isSome then
      some (.setVar n e, rebind inner x n (typeOf P e), n + 1)
    else Option.none

/-- `assign_dispatch_value` (`parser.py` 765-773) for an evaluated right-hand side. -/
def assignTarget (P : Prims W) (outer inner : Scope) (n : Nat) (e : IExpr) :
    Target → Option (IStmt × Scope × Nat)
  | .name x => assignVar P outer inner n x e
  | .store f args => (lowerL P (inner ++ outer) args).map fun as =>
      (.expr (.call f (as ++ [e])), inner, n)

mutual

/-- Does the expression mention a variable numbered `m` or higher? -/
def usesFrom (m : Nat) : IExpr → Bool
  | .const _ => false
  | .var id _ => m ≤ id
  | .call _ args => usesFromL m args
  | .and2 a b => usesFrom m a || usesFrom m b
  | .or2 a b => usesFrom m a || usesFrom m b
  | .hloAnd a b => usesFrom m a || usesFrom m b
  | .hloOr a b => usesFrom m a || usesFrom m b
  | .not a => usesFrom m a
  | .ite c t f => usesFrom m c || usesFrom m t || usesFrom m f
  | .asInt a => usesFrom m a
  | .asBool a => usesFrom m a
  | .boolOf a => usesFrom m a

def usesFromL (m : Nat) : List IExpr → Bool
  | [] => false
  | e :: es => usesFrom m e || usesFromL m es

end

/-- `build_seqs` (`parser.py` 716-735): every right-hand element goes to a new variable, then the
targets are assigned from them. The element is parsed after the targets before it have been
bound; a use of a variable the statement has yet to declare (numbered `m` or higher) does not
compile as C++. -/
def unroll (P : Prims W) (outer : Scope) (m : Nat) : List Target → List Expr → Scope → Nat →
    Option (IStmt × IStmt × Scope × Nat)
  | [], [], inner, n => some (.skip, .skip, inner, n)
  | t :: ts, e :: es, inner, n =>
    match lowerE P (inner ++ outer) e with
    | Option.none => Option.none
    | some ie =>
      if usesFrom m ie then Option.none else
      match assignTarget P outer inner (n + 1) (.var n (typeOf P ie)) t with
      | Option.none => Option.none
      | some (a, inner, n') =>
        match unroll P outer m ts es inner n' with
        | Option.none => Option.none
        | some (s1, s2, inner, n'') => some (.seq (.setVar n ie) s1, .seq a s2, inner, n'')
  | _, _, _, _ => Option.none

/-- Assign the elements of an evaluated sequence to targets (`parser.py` 745-760): element `i`
is fetched when target `i` is assigned. -/
def unpackSeq (P : Prims W) (outer : Scope) (r : IExpr) : Nat → List Target → Scope → Nat →
    Option (IStmt × Scope × Nat)
  | _, [], inner, n => some (.skip, inner, n)
  | i, t :: ts, inner, n =>
    match assignTarget P outer inner n (.call "getitem" [r, .const (.int i)]) t with
    | Option.none => Option.none
    | some (a, inner, n) =>
      match unpackSeq P outer r (i + 1) ts inner n with
      | Option.none => Option.none
      | some (s, inner, n) => some (.seq a s, inner, n)

def isCallI : IExpr → Bool
  | .call _ _ => true
  | _ => false

/-- Is the expression used in place as a bound of the loop (`IntImm` or `PrimVar`)? -/
def inPlace : IExpr → Bool
  | .const (.int _) => true
  | .const (.bool _) => true
  | .var _ .obj => false
  | .var _ _ => true
  | _ => false

/-- A bound of `range`: in place, or evaluated into a new variable before the loop
(`parser.py` 904-921). -/
def rangeArg (P : Prims W) (e : IExpr) (n : Nat) : IStmt × IExpr × Nat :=
  if inPlace e then (.skip, e, n)
  else (.setVar n (if typeOf P e = .int then e else .asInt e), .var n .int, n + 1)

/-- Lowering of statements: `parser.py`. `outer` are the enclosing scopes, `inner` the innermost
one, `n` the next unused variable. `rty` is the return type of the function. -/
def lower (P : Prims W) (rty : Ty) : Stmt → Scope → Scope → Nat →
    Option (IStmt × Scope × Nat)
  | .skip, _, inner, n => some (.skip, inner, n)
  | .seq (.assertS c) b, outer, inner, n =>
    -- `visit_Assert` parses the rest of the block as its body
    match lowerE P (inner ++ outer) c, lower P rty b outer inner n with
    | some ic, some (ib, inner, n) => some (.assertS ic "AssertionError" ib, inner, n)
    | _, _ => Option.none
  | .seq a b, outer, inner, n =>
    match lower P rty a outer inner n with
    | Option.none => Option.none
    | some (ia, inner, n) =>
      match lower P rty b outer inner n with
      | Option.none => Option.none
      | some (ib, inner, n) => some (.seq ia ib, inner, n)
  | .assign t e, outer, inner, n =>
    match lowerE P (inner ++ outer) e with
    | Option.none => Option.none
    | some ie => assignTarget P outer inner n ie t
  | .assignTup ts es, outer, inner, n =>
    match unroll P outer n ts es inner n with
    | Option.none => Option.none
    | some (s1, s2, inner, n) => some (.seq s1 s2, inner, n)
  | .unpack ts e, outer, inner, n =>
    match lowerE P (inner ++ outer) e with
    | Option.none => Option.none
    | some ie =>
      let (pre, r, n) := if isCallI ie then (IStmt.setVar n ie, IExpr.var n (typeOf P ie), n + 1)
        else (.skip, ie, n)
      match unpackSeq P outer r 0 ts inner n with
      | Option.none => Option.none
      | some (s, inner, n) =>
        some (.seq pre (.assertS (.call "eq" [.call "len" [r], .const (.int ts.length)])
          "AssertionError" s), inner, n)
  | .augName x op e, outer, inner, n =>
    match lowerE P (inner ++ outer) (.call op [.name x, e]) with
    | Option.none => Option.none
    | some ie => assignVar P outer inner n x ie
  | .augStore f g args op e, outer, inner, n =>
    match lowerE P (inner ++ outer) (.call op [.call g args, e]) with
    | Option.none => Option.none
    | some ie => assignTarget P outer inner n ie (.store f args)
  | .expr e, outer, inner, n => (lowerE P (inner ++ outer) e).map fun ie => (.expr ie, inner, n)
  | .assertS c, outer, inner, n =>
    (lowerE P (inner ++ outer) c).map fun ic => (.assertS ic "AssertionError" .skip, inner, n)
  | .ifS c t e, outer, inner, n =>
    match lowerE P (inner ++ outer) c with
    | Option.none => Option.none
    | some ic =>
      match lower P rty t (inner ++ outer) [] n with
      | Option.none => Option.none
      | some (it, _, n) =>
        match lower P rty e (inner ++ outer) [] n with
        | Option.none => Option.none
        | some (ie, _, n) =>
          -- an object is not a C++ condition
          if typeOf P ic = .obj then Option.none else some (.ifS ic it ie, inner, n)
  | .whileS c b _, outer, inner, n =>
    match lowerE P (inner ++ outer) c with
    | Option.none => Option.none
    | some ic =>
      match lower P rty b (inner ++ outer) [] n with
      | Option.none => Option.none
      | some (ib, _, n) =>
        if typeOf P ic = .obj then Option.none else some (.whileS ic ib, inner, n)
  | .forRange x start stop step b _, outer, inner, n =>
    if (lookup (inner ++ outer) x).isSome then Option.none else
    match lowerL P (inner ++ outer) [start, stop, step] with
    | some [ia, ib, id] =>
      let (s1, ia, n1) := rangeArg P ia n
      let (s2, ib, n2) := rangeArg P ib n1
      let (s3, id, n3) := rangeArg P id n2
      match lower P rty b (inner ++ outer) [(x, n3, .int)] (n3 + 1) with
      | Option.none => Option.none
      | some (body, _, n') =>
        some (.seq s1 (.seq s2 (.seq s3 (.forS n3 ia ib id body))), inner, n')
    | _ => Option.none
  | .forIn x e b _, outer, inner, n =>
    if (lookup (inner ++ outer) x).isSome then Option.none else
    match lowerE P (inner ++ outer) e with
    | Option.none => Option.none
    | some ie =>
      match lower P rty b (inner ++ outer) [(x, n, .obj)] (n + 1) with
      | Option.none => Option.none
      | some (body, _, n') => some (.autoFor n ie body, inner, n')
  | .brk, _, inner, n => some (.brk, inner, n)
  | .cnt, _, inner, n => some (.cnt, inner, n)
  | .ret e, outer, inner, n =>
    match lowerE P (inner ++ outer) e with
    | Option.none => Option.none
    | some ie =>
      if convertible (typeOf P ie) rty then some (.ret (adapt P ie rty), inner, n) else Option.none
  | .raiseS (some e), outer, inner, n =>
    (lowerE P (inner ++ outer) e).map fun ie => (.raiseS (some ie), inner, n)
  | .raiseS Option.none, _, inner, n => some (.raiseS Option.none, inner, n)
  | .tryS b _ h _ _, outer, inner, n =>
    match lower P rty b (inner ++ outer) [] n with
    | Option.none => Option.none
    | some (ib, _, n) =>
      match lower P rty h (inner ++ outer) [] n with
      | Option.none => Option.none
      | some (ih, _, n) => some (.tryS ib ih, inner, n)

/-- A function: parameters with their types, return type, body. -/
structure Fn where
  params : List (String × Ty)
  rty : Ty
  body : Stmt

/-- Does the block end with `return`? -/
def endsWithRet : Stmt → Bool
  | .ret _ => true
  | .seq _ b => endsWithRet b
  | _ => false

/-- The scope of the parameters: variables `0, 1, ...`. -/
def paramScope : List (String × Ty) → Nat → Scope
  | [], _ => []
  | (x, ty) :: ps, n => (x, n, ty) :: paramScope ps (n + 1)

/-- `check_control_flow` (`syntax_check.py` 33-48): some statement returns on all its paths. -/
def mustReturn : Stmt → Bool
  | .ret _ => true
  | .seq a b => mustReturn a || mustReturn b
  | .ifS _ t e => mustReturn t && mustReturn e
  | _ => false

/-- Compile a function: transforms, syntax check, parser; `return None` is appended when the last
statement is no `return` (`parse_body` 296-319).  A function whose return type is a primitive
must return on all paths (`syntax_check.py` 101-116; for other types the check, which spares
`None` and `Any`, is left out). -/
def compile (P : Prims W) (f : Fn) : Option IStmt :=
  let body := ifBool f.body
  if syntaxOk [] body && (f.rty = .obj || mustReturn body) then
    let body := if endsWithRet body then body else .seq body (.ret (.const .none))
    (lower P f.rty body [] (paramScope f.params 0) f.params.length).map (·.1)
  else Option.none

/-- The result of a call: a value or an exception, and the world after it. -/
inductive Res (W : Type)
  | val (v : Val) (w : W)
  | exc (v : Val) (w : W)
  | tmo
  | ub

def bindArgs {K : Type} [DecidableEq K] (s : St K W) : List K → List Val → St K W
  | k :: ks, v :: vs => bindArgs (s.set k v) ks vs
  | _, _ => s

def resOf {K : Type} : Out (St K W) → Res W
  | .ret v s => .val v s.w
  | .exc v s => .exc v s.w
  | .tmo => .tmo
  | .ub => .ub
  | .nrm s => .val .none s.w
  | .brk s => .val .none s.w
  | .cnt s => .val .none s.w

/-- Call the function in Python. -/
def callPy (P : Prims W) (fuel : Nat) (f : Fn) (args : List Val) (w : W) : Res W :=
  resOf (execPy P (.err "UnboundLocalError") fuel f.body Option.none
    (bindArgs ⟨fun _ => Option.none, w⟩ (f.params.map (·.1)) args))

/-- Call the compiled function. -/
def callIR (P : Prims W) (ord : List IExpr → List Nat) (fuel : Nat) (code : IStmt) (arity : Nat)
    (args : List Val) (w : W) : Res W :=
  resOf (execIR P ord fuel code Option.none
    (bindArgs ⟨fun _ => Option.none, w⟩ (List.range arity) args))

end Verif.Lower
