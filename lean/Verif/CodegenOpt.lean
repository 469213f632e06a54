/-!
# The parameter passes of the C++ code generator

Two passes run on every compiled function before its C++ text is printed
(`/repo/src/codegen/codegen_c_host.cc` lines 1611-1626 and 795-816):

* `FuncArgsOptimizerMutator` (`/repo/src/codegen/func_args_optimizer.h`) turns parameters that the
  body never assigns into `const T&` parameters (`/repo/src/codegen/codegen_c.cc` lines 770-773);
* `AssignOptimizerMutator` (`/repo/src/codegen/assign_optimizer.h`) turns the copy `v = b` of a
  parameter `b` into `v = std::move(b)` when it takes the statement to be a last use.

The model is a small statement language over an abstract type `V` of values and `W` of worlds
(everything outside the local variables: heap objects, attributes, files).  Operators are arbitrary
functions of the values of the variables they mention and of the world, and may raise.

Simplifications: an expression is a variable or an operator that lists the variables it mentions;
variables are natural numbers (the identity of the IR node), every assignment, declaration and
return carries a label (the address of the statement node); loops run with a bound on their number
of iterations and report `stuck` when it is exhausted; the generator functions, lambdas and
exception handlers are not modelled.
-/

namespace Verif.CodegenOpt

/-- IR expressions: a variable node, an operator over the variables it mentions, or the
`HLOMove` node that prints `std::move(x)` (`/repo/src/codegen/codegen_c.cc` lines 2352-2356). -/
inductive Expr (V W : Type) where
  | var (x : Nat)
  | op (uses : List Nat) (f : List V → W → Option V × W)
  | move (x : Nat)

/-- Left-hand sides of `AssignStmt`: a variable node, or an attribute of an object
(`ClassGetItem`) found from the variables it mentions. -/
inductive Target (V W : Type) where
  | var (x : Nat)
  | attr (uses : List Nat) (f : List V → V → W → W)

/-- IR statements (`/repo/include/matxscript/ir/hlo_stmt.h`, `prim_stmt.h`). -/
inductive Stmt (V W : Type) where
  | skip
  | alloca (label : Nat) (x : Nat) (e : Expr V W)
  | assign (label : Nat) (t : Target V W) (e : Expr V W)
  | ret (label : Nat) (e : Expr V W)
  | expr (e : Expr V W)
  | seq (a b : Stmt V W)
  | ite (c : Expr V W) (a b : Stmt V W)
  | loop (c : Expr V W) (a : Stmt V W)

/-- What one execution of a statement leaves behind. -/
inductive Out (V W : Type) where
  | next (env : Nat → V) (w : W)
  | ret (v : V) (w : W)
  | raise (w : W)
  | stuck

/-- The machine a body runs on.  `load` reads a caller's location.  `moved v` is what `std::move`
leaves in a variable that held `v` and `selfMoved v` what `x = std::move(x)` leaves
(`RTValue::operator=(RTValue&&)` leaves a null value, `/repo/src/runtime/runtime_value.cc` lines
356-361; `ObjectPtr` keeps the object, `/repo/include/matxscript/runtime/object.h` lines 426-430).
`truth` is the conversion to a condition. -/
structure Machine (V W L : Type) where
  load : W → L → V
  moved : V → V
  selfMoved : V → V
  truth : V → Bool

variable {V W L : Type}

/-- Reading a variable: a `const T&` parameter reads the caller's location, any other variable its
own storage. -/
def read (m : Machine V W L) (bind : Nat → Option L) (env : Nat → V) (w : W) (x : Nat) : V :=
  match bind x with
  | some l => m.load w l
  | none => env x

/-- Update of the local storage. -/
def put (env : Nat → V) (x : Nat) (v : V) : Nat → V := fun y => if y = x then v else env y

/-- The value of an expression. -/
def eval (m : Machine V W L) (bind : Nat → Option L) (env : Nat → V) (w : W) :
    Expr V W → Option V × W
  | .var x => (some (read m bind env w x), w)
  | .op uses f => f (uses.map (read m bind env w)) w
  | .move x => (some (read m bind env w x), w)

/-- The storage after the right-hand side has been consumed: `std::move` of a by-value variable
leaves it moved-from, of a `const T&` parameter it is a copy. -/
def consume (m : Machine V W L) (bind : Nat → Option L) (env : Nat → V) : Expr V W → (Nat → V)
  | .move x => match bind x with
    | some _ => env
    | none => put env x (m.moved (env x))
  | _ => env

/-- The value stored by `x = e`: the value of `e`, except for `x = std::move(x)`. -/
def stored (m : Machine V W L) (bind : Nat → Option L) (x : Nat) (v : V) : Expr V W → V
  | .move y => if x = y ∧ (bind y).isNone then m.selfMoved v else v
  | _ => v

/-- `bool(e)` as a C++ condition (see `Stmt.ite`, `Stmt.loop`). -/
def iterLoop (n : Nat) (cond : (Nat → V) → W → Option Bool × W)
    (body : (Nat → V) → W → Out V W) (env : Nat → V) (w : W) : Out V W :=
  match n with
  | 0 => .stuck
  | n + 1 => match cond env w with
    | (none, w1) => .raise w1
    | (some false, w1) => .next env w1
    | (some true, w1) => match body env w1 with
      | .next env2 w2 => iterLoop n cond body env2 w2
      | o => o

/-- Evaluating a condition. -/
def evalCond (m : Machine V W L) (bind : Nat → Option L) (c : Expr V W) (env : Nat → V) (w : W) :
    Option Bool × W :=
  match eval m bind env w c with
  | (some v, w1) => (some (m.truth v), w1)
  | (none, w1) => (none, w1)

/-- Execution of a statement as the printed C++ does it (`/repo/src/codegen/codegen_c.cc` lines
1320-1440): the right-hand side is evaluated, then stored. -/
def exec (m : Machine V W L) (bind : Nat → Option L) (fuel : Nat) :
    Stmt V W → (Nat → V) → W → Out V W
  | .skip, env, w => .next env w
  | .alloca _ x e, env, w => match eval m bind env w e with
    | (some v, w1) => .next (put (consume m bind env e) x (stored m bind x v e)) w1
    | (none, w1) => .raise w1
  | .assign _ (.var x) e, env, w => match eval m bind env w e with
    | (some v, w1) => .next (put (consume m bind env e) x (stored m bind x v e)) w1
    | (none, w1) => .raise w1
  | .assign _ (.attr uses f) e, env, w => match eval m bind env w e with
    | (some v, w1) => .next (consume m bind env e) (f (uses.map (read m bind env w1)) v w1)
    | (none, w1) => .raise w1
  | .ret _ e, env, w => match eval m bind env w e with
    | (some v, w1) => .ret v w1
    | (none, w1) => .raise w1
  | .expr e, env, w => match eval m bind env w e with
    | (some _, w1) => .next env w1
    | (none, w1) => .raise w1
  | .seq a b, env, w => match exec m bind fuel a env w with
    | .next env1 w1 => exec m bind fuel b env1 w1
    | o => o
  | .ite c a b, env, w => match evalCond m bind c env w with
    | (some true, w1) => exec m bind fuel a env w1
    | (some false, w1) => exec m bind fuel b env w1
    | (none, w1) => .raise w1
  | .loop c a, env, w =>
    iterLoop fuel (evalCond m bind c) (fun e w => exec m bind fuel a e w) env w

/-- What the caller of the function observes. -/
inductive Seen (V W : Type) where
  | ret (v : V) (w : W)
  | fellOff (w : W)
  | raise (w : W)
  | stuck

/-- The observable part of an outcome: local storage is gone once the function is left. -/
def Out.seen : Out V W → Seen V W
  | .next _ w => .fellOff w
  | .ret v w => .ret v w
  | .raise w => .raise w
  | .stuck => .stuck

/-! ### `FuncArgsOptimizerFilter` -/

/-- `FuncArgsOptimizerFilter::VisitStmt_` (`func_args_optimizer.h` lines 77-90): a declaration or
an assignment whose left-hand side is exactly the parameter node removes the parameter from the
set; attribute targets do not. -/
def filterArgs : Stmt V W → List Nat → List Nat
  | .alloca _ x _, args => args.filter (· ≠ x)
  | .assign _ (.var x) _, args => args.filter (· ≠ x)
  | .assign _ (.attr _ _) _, args => args
  | .seq a b, args => filterArgs b (filterArgs a args)
  | .ite _ a b, args => filterArgs b (filterArgs a args)
  | .loop _ a, args => filterArgs a args
  | .skip, args => args
  | .ret _ _, args => args
  | .expr _, args => args

/-- A parameter: its variable and the two type tests the passes make. -/
structure Param where
  x : Nat
  isPrim : Bool
  isNDArray : Bool
  deriving DecidableEq, Repr

/-- `FuncArgsOptimizerFilter::run` (`func_args_optimizer.h` lines 51-75): the parameters that
become `const T&`; scalars and NDArrays are never candidates. -/
def refArgs (params : List Param) (body : Stmt V W) : List Nat :=
  filterArgs body ((params.filter fun p => !p.isPrim && !p.isNDArray).map (·.x))

/-! ### `AssignOptimizer` -/

/-- The variables an expression mentions. -/
def Expr.uses : Expr V W → List Nat
  | .var x => [x]
  | .op us _ => us
  | .move x => [x]

/-- The variables a left-hand side mentions. -/
def Target.uses : Target V W → List Nat
  | .var x => [x]
  | .attr us _ => us

/-- `AssignOptimizerFilter` (`assign_optimizer.h` lines 32-55): only declarations, assignments,
returns and sequences. -/
def straight : Stmt V W → Bool
  | .alloca _ _ _ => true
  | .assign _ _ _ => true
  | .ret _ _ => true
  | .skip => true
  | .seq a b => straight a && straight b
  | _ => false

/-- `last_use_[a] = op` for every mentioned parameter `a` (the map as a list of entries, the
newest first). -/
def mark (args uses : List Nat) (label : Nat) (last : Nat → Option Nat) : Nat → Option Nat :=
  fun a => if a ∈ args ∧ a ∈ uses then some label else last a

/-- `AssignOptimizerLastUsedAnalysis` (`assign_optimizer.h` lines 78-126): the last statement that
mentions each parameter, on either side. -/
def lastUse (args : List Nat) : Stmt V W → (Nat → Option Nat) → (Nat → Option Nat)
  | .alloca l x e, last => mark args (x :: e.uses) l last
  | .assign l t e, last => mark args (t.uses ++ e.uses) l last
  | .ret l e, last => mark args e.uses l last
  | .seq a b, last => lastUse args b (lastUse args a last)
  | _, last => last

/-- `HLOMove(rhs)` if the right-hand side is a parameter and the statement is in
`last_use_stmt_`. -/
def moveRhs (args : List Nat) (inSet : Nat → Bool) (label : Nat) : Expr V W → Expr V W
  | .var b => if inSet label && args.contains b then .move b else .var b
  | e => e

/-- `AssignOptimizerMutator::VisitStmt_` (`assign_optimizer.h` lines 168-187). -/
def mutate (args : List Nat) (inSet : Nat → Bool) : Stmt V W → Stmt V W
  | .alloca l x e => .alloca l x (moveRhs args inSet l e)
  | .assign l t e => .assign l t (moveRhs args inSet l e)
  | .seq a b => .seq (mutate args inSet a) (mutate args inSet b)
  | s => s

/-- `last_use_stmt_`: the set of the statements that are the last use of some parameter
(`assign_optimizer.h` lines 150-155). -/
def lastStmts (args : List Nat) (body : Stmt V W) (label : Nat) : Bool :=
  args.any fun a => lastUse args body (fun _ => none) a == some label

/-- The parameters the move pass works on: all but the scalars (`assign_optimizer.h` lines
137-142). -/
def moveArgs (params : List Param) : List Nat := (params.filter fun p => !p.isPrim).map (·.x)

/-- `AssignOptimizerMutator::run` (`assign_optimizer.h` lines 130-166). -/
def moveOpt (params : List Param) (body : Stmt V W) : Stmt V W :=
  if straight body then mutate (moveArgs params) (lastStmts (moveArgs params) body) body else body

/-! ### Calls -/

/-- How the caller's locations reach the callee: `byRef` parameters are bound to the location, the
others hold a copy of its value made at the call. -/
def enter (m : Machine V W L) (actual : Nat → L) (w : W) : Nat → V := fun x => m.load w (actual x)

/-- The binding of the `const T&` parameters. -/
def bindRefs (refs : List Nat) (actual : Nat → L) : Nat → Option L :=
  fun x => if refs.contains x then some (actual x) else none

/-- A call with every parameter passed as a copy and no moves: the meaning of the source program
(a parameter names the object it was given). -/
def callByValue (m : Machine V W L) (fuel : Nat) (body : Stmt V W) (actual : Nat → L) (w : W) :
    Seen V W :=
  (exec m (fun _ => none) fuel body (enter m actual w) w).seen

/-- The call after `FuncArgsOptimizerMutator`. -/
def callByRef (m : Machine V W L) (fuel : Nat) (params : List Param) (body : Stmt V W)
    (actual : Nat → L) (w : W) : Seen V W :=
  (exec m (bindRefs (refArgs params body) actual) fuel body (enter m actual w) w).seen

/-- The call after both passes: what the generated C++ does. -/
def callCompiled (m : Machine V W L) (fuel : Nat) (params : List Param) (body : Stmt V W)
    (actual : Nat → L) (w : W) : Seen V W :=
  (exec m (bindRefs (refArgs params body) actual) fuel (moveOpt params body)
    (enter m actual w) w).seen

end Verif.CodegenOpt
