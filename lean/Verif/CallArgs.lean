/-
How the arguments of a call reach the parameters of a compiled function.

Three ways lead into a compiled function:
* through its packed C function (calls from Python, from an op, or of a function object), generated by
  `src/codegen/codegen_c.cc` 251-455, with `KwargsUnpackHelper::unpack` (`src/runtime/container/kwargs_ref.cc` 112-143)
  for keyword arguments;
* from compiled code, as a function or constructor known to the compiler: `python/matx/script/parser.py` 1250-1262 and
  `python/matx/script/context/ast_node.py` 123-203;
* from compiled code, as a method of a known class: `python/matx/script/context/class_context.py` 152-217.

Simplifications: parameters are only positional-or-keyword (the others are rejected by
`python/matx/script/analysis/syntax_check.py` 74-88). The conversion of a value to the declared type of parameter `i` is
a function `cast i` that may fail; it is applied to every value that reaches the function (C++ converts a default that
is written into the call implicitly, `TypeAsHelper` in `type_helper_macros.h` 66-100 converts the others). The parameter
for the session handle, which the generated code always fills itself, is left out. `self` is left out.
-/
namespace Verif.CallArgs

/-- Values: the constants that a default can be, and objects, known by their identity. -/
inductive Val where
  | none
  | bool (b : Bool)
  | int (i : Int)
  | str (s : String)
  | obj (id : Nat)
deriving DecidableEq, Repr

/-- The expression of a default: a literal, or one that makes a new object (`[]`, `{}`), cf. `visit(x)` for
`node.args.defaults` in `python/matx/script/parser.py` 522. -/
inductive Dflt where
  | lit (v : Val)
  | fresh
deriving DecidableEq, Repr

/-- The names of the parameters and the defaults of the last of them. -/
structure Sig where
  names : List String
  defs : List Dflt
deriving Repr

inductive Err where
  /-- `TypeError`: got multiple values for argument -/
  | multiple (name : String)
  /-- `TypeError`: missing a required argument -/
  | missing (name : String)
  /-- `TypeError`: got an unexpected keyword argument -/
  | unexpected (name : String)
  /-- `TypeError`: takes … positional arguments but … were given -/
  | arity (given : Nat)
  /-- `TypeError`: expect … is … type -/
  | badType (param : Nat)
  /-- rejected by the compiler: the constant cannot be made -/
  | noConst
  /-- the memory before or behind an array is read or written -/
  | oob
deriving DecidableEq, Repr

abbrev Kw := List (String × Val)

/-- `Kwargs::contains`, `kwargs_ref.cc` 62-65. -/
def contains (kw : Kw) (nm : String) : Bool := kw.any fun e => e.1 == nm

/-! ### Names in the generated code -/

/-- `CodeGenC::ReserveKeywordsAsUnique`, `codegen_c.cc` 67-95. -/
def reserved : List String :=
  ["_", "extern", "void", "int", "float", "double", "char", "unsigned", "short", "long", "if", "else", "switch",
   "case", "default", "for", "do", "while", "goto", "register", "continue", "break", "typedef", "struct", "enum",
   "union", "return"]

/-- The loop of `CodeGenSourceBase::GetUniqueName`, `src/codegen/codegen_source_base.cc` 45-53; the names in use are the
keys of `name_alloc_map_`. The counter stored with the prefix only saves steps that are known to fail, here it starts
from 1 again. -/
def uniqueLoop (used : List String) (prefix_ : String) : Nat → Nat → String
  | 0, k => prefix_ ++ toString k
  | fuel + 1, k =>
    let name := prefix_ ++ toString k
    if used.contains name then uniqueLoop used prefix_ fuel (k + 1) else name

/-- `CodeGenSourceBase::GetUniqueName`, `codegen_source_base.cc` 38-57 (Python names have no dots). -/
def uniqueName (used : List String) (name : String) : String :=
  if used.contains name then uniqueLoop used name used.length 1 else name

/-- The identifiers of the parameters: `InitFuncState`, `ReserveKeywordsAsUnique` and `AllocVarID` for each parameter,
`codegen_c.cc` 95-170, 206-232. -/
def paramIdsFrom (used : List String) : List String → List String
  | [] => []
  | nm :: rest =>
    let id := uniqueName used nm
    id :: paramIdsFrom (id :: used) rest

def paramIds (names : List String) : List String := paramIdsFrom reserved names

/-! ### Defaults -/

/-- Evaluation of the default expressions in order; the state is the identity of the next new object. -/
def evalDefs : List Dflt → Nat → List Val × Nat
  | [], w => ([], w)
  | .lit v :: ds, w => let r := evalDefs ds w; (v :: r.1, r.2)
  | .fresh :: ds, w => let r := evalDefs ds (w + 1); (.obj w :: r.1, r.2)

/-! ### `KwargsUnpackHelper::unpack` -/

/-- The first loop, `kwargs_ref.cc` 118-123: `arg_names_[i]` is read and `pos_args[i]` written for every positional
argument. -/
def fillPos (names : List String) (kw : Kw) : Nat → List Val → List (Option Val) → Except Err (List (Option Val))
  | _, [], buf => .ok buf
  | i, v :: vs, buf =>
    match names[i]? with
    | none => .error .oob
    | some nm =>
      if contains kw nm then .error (.multiple nm)
      else if i < buf.length then fillPos names kw (i + 1) vs (buf.set i (some v))
      else .error .oob

/-- The second loop, `kwargs_ref.cc` 125-135, for `todo` parameters from `i`; `chk` is `num_checker`. -/
def fillRest (names : List String) (kw : Kw) (defs : List Val) (begin_ : Nat) :
    Nat → Nat → List (Option Val) → Int → Except Err (List (Option Val) × Int)
  | 0, _, buf, chk => .ok (buf, chk)
  | todo + 1, i, buf, chk =>
    match names[i]? with
    | none => .error .oob
    | some nm =>
      if contains kw nm then
        if i < buf.length then fillRest names kw defs begin_ todo (i + 1) (buf.set i (kw.lookup nm)) (chk - 1)
        else .error .oob
      else if begin_ ≤ i then
        match defs[i - begin_]? with
        | none => .error .oob
        | some d =>
          if i < buf.length then fillRest names kw defs begin_ todo (i + 1) (buf.set i (some d)) chk
          else .error .oob
      else .error (.missing nm)

/-- `Kwargs::diff`, `kwargs_ref.cc` 67-78. -/
def diff (kw : Kw) (names : List String) : String :=
  match kw.find? (fun e => !names.contains e.1) with
  | some e => e.1
  | none => ""

/-- `KwargsUnpackHelper::unpack`, `kwargs_ref.cc` 112-143. -/
def unpack (names : List String) (defs : List Val) (pos : List Val) (kw : Kw) : Except Err (List (Option Val)) := do
  let n := names.length
  let buf ← fillPos names kw 0 pos (List.replicate n none)
  let r ← fillRest names kw defs (n - defs.length) (n - pos.length) pos.length buf kw.length
  if r.2 ≠ 0 then .error (.unexpected (diff kw names)) else .ok r.1

/-! ### The packed function -/

/-- The conversions of the arguments of the generated call, `codegen_c.cc` 284-312; an element that was never written is
`None`. -/
def castAll (cast : Nat → Val → Option Val) : Nat → List Val → Except Err (List Val)
  | _, [] => .ok []
  | i, v :: vs =>
    match cast i v with
    | none => .error (.badType i)
    | some v' => do
      let r ← castAll cast (i + 1) vs
      .ok (v' :: r)

/-- The part of the generated function for keyword arguments behind the arrays, `codegen_c.cc` 389-407. -/
def callKw (cast : Nat → Val → Option Val) (names : List String) (defs args : List Val) (kw : Kw) :
    Except Err (List Val) := do
  let vals ← unpack names defs args kw
  castAll cast 0 (vals.map (·.getD .none))

/-- What a call changes: the next new object, and `static RTValue default_args[]`, `codegen_c.cc` 375-388, once it has
been made. -/
structure St where
  next : Nat
  statics : Option (List Val)
deriving Repr

/-- The generated function, `codegen_c.cc` 346-445: `args` are the positional arguments, `kw` is the `Kwargs` object
after them, if there is one. The result is what the parameters of the function are bound to. -/
def packed (cast : Nat → Val → Option Val) (sig : Sig) (args : List Val) (kw : Option Kw) (st : St) :
    Except Err (List Val) × St :=
  let n := sig.names.length
  match (if n > 0 then kw else none) with
  | some kw =>
    -- static RTValue default_args[…]
    let st' : St := match st.statics with
      | some _ => st
      | none => let r := evalDefs sig.defs st.next; { next := r.2, statics := some r.1 }
    let defs := st'.statics.getD []
    (callKw cast (paramIds sig.names) defs args kw, st')
  | none =>
    let given := args.length + (if kw.isSome then 1 else 0)
    -- switch(num_args)
    if n - sig.defs.length ≤ given ∧ given ≤ n then
      let r := evalDefs (sig.defs.drop (given - (n - sig.defs.length))) st.next
      (castAll cast 0 (args ++ r.1), { st with next := r.2 })
    else (.error (.arity given), st)

/-! ### Calls of functions and constructors in compiled code -/

/-- `inspect.Signature.bind` of Python's library: what each parameter is bound to, `none` where the default is left. -/
def sigBind (sig : Sig) (pos : List Val) (kw : Kw) : Except Err (List (Option Val)) :=
  let n := sig.names.length
  if n < pos.length then .error (.arity pos.length)
  else match (sig.names.take pos.length).find? (contains kw) with
    | some nm => .error (.multiple nm)
    | none =>
      match ((sig.names.take (n - sig.defs.length)).drop pos.length).find? (fun nm => !contains kw nm) with
      | some nm => .error (.missing nm)
      | none =>
        match kw.find? (fun e => !sig.names.contains e.1) with
        | some e => .error (.unexpected e.1)
        | none => .ok (pos.map some ++ (sig.names.drop pos.length).map fun nm => kw.lookup nm)

/-- `_ir.generic_const`, `python/matx/ir/constexpr.py` 62-79: only constants can be written into the call. -/
def genericConst : Dflt → Except Err Val
  | .lit v => .ok v
  | .fresh => .error .noConst

/-- `apply_defaults` and the constants for the defaults, `ast_node.py` 141-151, 175-185; `ds` are the defaults of the
parameters `slots`, `none` for a parameter without one. -/
def fillSlots : List (Option Val) → List (Option Dflt) → Except Err (List Val)
  | [], _ => .ok []
  | some v :: ss, ds => do
    let r ← fillSlots ss ds.tail
    .ok (v :: r)
  | none :: ss, some d :: ds => do
    let v ← genericConst d
    let r ← fillSlots ss ds
    .ok (v :: r)
  | none :: _, _ => .error (.missing "")

/-- The default of each parameter. -/
def dfltOf (sig : Sig) : List (Option Dflt) :=
  List.replicate (sig.names.length - sig.defs.length) none ++ sig.defs.map some

/-- A call `f(…)` of a function or class known to the compiler: `parser.py` 1250-1262 pairs the arguments with the types
of the parameters by `zip`, `func_wrapper`/`init_wrapper` bind them, `ast_node.py` 133-203. Every parameter is passed. -/
def funcCall (cast : Nat → Val → Option Val) (sig : Sig) (pos : List Val) (kw : Kw) : Except Err (List Val) := do
  let pos := (pos.zip sig.names).map (·.1)
  let slots ← sigBind sig pos kw
  let vals ← fillSlots slots (dfltOf sig)
  castAll cast 0 vals

/-! ### Calls of methods in compiled code -/

/-- `BoundArguments.args` of Python's library: the arguments up to the first parameter that has none. -/
def boundArgs : List (Option Val) → List Val
  | some v :: ss => v :: boundArgs ss
  | _ => []

/-- A call `obj.m(…)` where the class of the variable is known to the compiler, `class_context.py` 152-217. `sig` is the
signature of the method in that class. `binds.args` is read before `apply_defaults`, so the generated C++ call
`obj->m(args…)` passes the arguments before the first gap, and the defaults in the declaration of that class
(`src/codegen/codegen_c_host.cc` 339-365) give the others. The result is what is passed to the method of the object at
run time, in order. -/
def methodCall (cast : Nat → Val → Option Val) (sig : Sig) (pos : List Val) (kw : Kw) (w : Nat) :
    Except Err (List Val) × Nat :=
  let pos := (pos.zip sig.names).map (·.1)
  match sigBind sig pos kw with
  | .error e => (.error e, w)
  | .ok slots =>
    let args := boundArgs slots
    let r := evalDefs (sig.defs.drop (args.length - (sig.names.length - sig.defs.length))) w
    (castAll cast 0 (args ++ r.1), r.2)

/-! ### Methods that override each other -/

/-- Python's `==` between defaults: `1 == True`. -/
def pyEq : Val → Val → Bool
  | .int i, .bool b => i == (if b then 1 else 0)
  | .bool b, .int i => i == (if b then 1 else 0)
  | a, b => a == b

def dfltEq : Dflt → Dflt → Bool
  | .lit a, .lit b => pyEq a b
  | .fresh, .fresh => true
  | _, _ => false

def dfltsEq : List Dflt → List Dflt → Bool
  | [], [] => true
  | a :: as, b :: bs => dfltEq a b && dfltsEq as bs
  | _, _ => false

/-- `InheritencyConsistencyCheck`, `python/matx/script/analysis/inheritence_consistency_check.py` 40-51, 64-80: a method
has to have as many parameters (of the same types, left out here) as in the base and equal defaults. -/
def overrideOk (base derived : Sig) : Bool :=
  base.names.length == derived.names.length && dfltsEq base.defs derived.defs

end Verif.CallArgs
