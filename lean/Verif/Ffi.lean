import Verif.Rc
import Verif.Utf8

/-!
# Values between Python and the runtime

A model of how the extension module `matx_script_api` turns Python objects into values of the
runtime and back, around a call of a compiled function, of an operator and of a Python function
that the runtime calls (`python/matx/_ffi/_c_ext/fast_c_api.cc` 157-183, 552-748, 926-1053,
1122-1160, 1210-1255; `src/runtime/c_runtime_api.cc` 341-370, 381-453, 455-492, 526-547, 583-626,
688-694).

Simplifications.  A Python object is the tree of what the conversion looks at; a subclass of a
converted type is that type (`PyList_Check` and the like accept subclasses), and a `set` or `dict`
is the list of its items in the order in which they are visited.  Objects that stand for a runtime
object are wrappers with a handle, `Any` objects hold a value, and everything else is `other`
(registered conversions of further classes are not modelled).  How the runtime compares and hashes
keys is a parameter (`Keys`).  CPython encodes a `str` as UTF-8, which is `Utf8.encode`, and returns
a null pointer when there is a surrogate in it.  Allocation does not fail.  The function called is a
parameter. -/

namespace Verif.Ffi
open Rc

/-- Python objects. -/
inductive Py
  | none
  | bool (b : Bool)
  | int (z : Int)
  | flt (bits : Nat)
  | bytes (s : List Nat)
  | str (s : List Nat)
  | node (k : Kind) (items : List Py)
  | obj (handle : Option Nat)  -- an `ObjectBase`; no handle after it was released
  | func (handle : Nat)        -- a `PackedFuncBase`
  | any (v : V)                -- a `MATXScriptAny`
  | other

/-- Keys of `dict` and `set` in the runtime: equality of a new key with a present one, and whether
hashing succeeds (`Any::Hash`, `src/runtime/runtime_value.cc` 536-624). -/
structure Keys where
  eq : Heap → V → V → Bool
  hashable : Heap → V → Bool

/-- `PyLong_AsLongLong`, whose error is not looked at (658): the result is then `-1`. -/
def asLongLong (z : Int) : Int :=
  if -2 ^ 63 ≤ z ∧ z < 2 ^ 63 then z else -1

def isSurrogate (x : Nat) : Bool := decide (0xD800 ≤ x) && decide (x ≤ 0xDFFF)

/-- `MATXScriptRuntimeMakeUnicode` (`c_runtime_api.cc` 461-465) on the encoded text. -/
def mkUnicode (h : Heap) (s : List Nat) : Except UB (Heap × Option V) :=
  match Utf8.utf8Decode (Utf8.encode s) with
  | .ok cps => .ok ((mkStr h cps).1, some (mkStr h cps).2)
  | _ => .error .null

/-- `MATXScriptObjectRetain` (`src/runtime/object.cc` 258-262). -/
def retain (h : Heap) (a : Nat) : Except UB Heap :=
  match get h a with
  | none => .error .dangling
  | some c => .ok (h.set a (some { c with rc := c.rc + 1 }))

/-- The loop of `MATXScriptRuntimeMakeSet` that moves the items in (`c_runtime_api.cc` 589-597).
When a key cannot be hashed, the key at hand and the set made so far are destroyed by the unwinding;
the items that are still in the buffer are not (`fast_c_api.cc` 636-645). -/
def addAll (K : Keys) (h : Heap) (acc : List V) : List V → Except UB (Heap × Option (List V))
  | [] => .ok (h, some acc)
  | v :: vs =>
    if K.hashable h v then
      if acc.any (K.eq h v) then do
        let h ← destroy h [v]
        addAll K h acc vs
      else addAll K h (acc ++ [v]) vs
    else do
      let h ← destroy h (v :: acc)
      .ok (h, none)

def keysOf : List V → List V
  | k :: _ :: r => k :: keysOf r
  | _ => []

/-- The loop of `MATXScriptRuntimeMakeDict` (`c_runtime_api.cc` 532-539): `emplace` keeps the item
that is already there. -/
def putAll (K : Keys) (h : Heap) (acc : List V) : List V → Except UB (Heap × Option (List V))
  | k :: v :: vs =>
    if K.hashable h k then
      if (keysOf acc).any (K.eq h k) then do
        let h ← destroy h [k, v]
        putAll K h acc vs
      else putAll K h (acc ++ [k, v]) vs
    else do
      let h ← destroy h (k :: v :: acc)
      .ok (h, none)
  | _ => .ok (h, some acc)

/-- `MATXScriptRuntimeMakeList`, `MakeTuple`, `MakeSet` and `MakeDict` with `move_mode`. -/
def make (K : Keys) (h : Heap) (k : Kind) (buf : List V) : Except UB (Heap × Option V) := do
  let (h, kids) ← match k with
    | .list | .tuple => Except.ok (h, some buf)
    | .set => addAll K h [] buf
    | .dict => putAll K h [] buf
  match kids with
  | none => .ok (h, none)
  | some ks => .ok ((alloc h (.node k ks)).1, some (alloc h (.node k ks)).2)

/-! `PyObjectToMATXScriptAny` (652-748) and the loops over the items of a container (552-650) or of
the arguments. `none` is a conversion that failed with a Python error. -/

mutual
def conv (K : Keys) (h : Heap) : Py → Except UB (Heap × Option V)
  | .flt b => .ok (h, some (.flt b))
  | .int z => .ok (h, some (.int (asLongLong z)))
  | .bool b => .ok (h, some (.int (if b then 1 else 0)))  -- `PyLong_Check` accepts it
  | .none => .ok (h, some .none)
  | .bytes s => .ok ((mkBytes h s).1, some (mkBytes h s).2)
  | .str s =>
    if s.any isSurrogate then .error .null else mkUnicode h s
  | .node k ps => do
    let (h, buf) ← convAll K h [] ps
    match buf with
    | none => .ok (h, none)
    | some buf => make K h k buf
  | .obj none => .ok (h, some .none)
  | .obj (some a) => do
    let h ← retain h a
    .ok (h, some (.ref a))
  | .func a => do
    let (h, v) ← copy h (.ref a)
    .ok (h, some v)
  | .any v => .ok (h, some v)
  | .other => .ok (h, none)
def convAll (K : Keys) (h : Heap) (buf : List V) : List Py → Except UB (Heap × Option (List V))
  | [] => .ok (h, some buf)
  | p :: ps => do
    let (h, v) ← conv K h p
    match v with
    | none => do
      let h ← destroy h buf
      .ok (h, none)
    | some v => convAll K h (buf ++ [v]) ps
end

/-- `matx_script_api_return_switch_impl` (972-1053): the value is owned by the caller, who gives it
away; text is copied out and destroyed, an object goes into a wrapper. -/
def ret (h : Heap) : V → Except UB (Heap × Py)
  | .none => .ok (h, .none)
  | .int z => .ok (h, .int z)
  | .flt b => .ok (h, .flt b)
  | .sbytes s => .ok (h, .bytes s)
  | .sstr s => .ok (h, .str s)
  | .ref a =>
    match get h a with
    | none => .error .dangling
    | some c =>
      match c.body with
      | .bytes s => do
        let h ← destroy h [.ref a]
        .ok (h, .bytes s)
      | .str s => do
        let h ← destroy h [.ref a]
        .ok (h, .str s)
      | .node _ _ => .ok (h, .obj (some a))
      | .func _ => .ok (h, .func a)

/-- What the wrappers made by `ret` own. -/
def Py.owned : Py → List V
  | .obj (some a) => [.ref a]
  | .func a => [.ref a]
  | _ => []

mutual
/-- An integer that does not fit: the conversion leaves a Python error behind. -/
def Py.overflow : Py → Bool
  | .int z => !decide (-2 ^ 63 ≤ z ∧ z < 2 ^ 63)
  | .node _ ps => Py.overflowAny ps
  | _ => false
def Py.overflowAny : List Py → Bool
  | [] => false
  | p :: ps => p.overflow || Py.overflowAny ps
end

/-- A function of the runtime: it looks at its arguments and returns a value of its own, or
throws. -/
abbrev Fn := Heap → List V → Except UB (Heap × Option V)

/-- What a call looks like from Python. -/
inductive Out
  | value (p : Py)
  | typeError    -- conversion of an argument failed, or the function threw
  | systemError  -- "returned a result with an exception set"

/-- `PackedFuncBase.__call__` (157-183) with `MATXScriptFuncCall_PYTHON_C_API`
(`c_runtime_api.cc` 341-370). CPython drops a result that comes with an error. -/
def call (K : Keys) (f : Fn) (h : Heap) (args : List Py) (_kwargs : List (String × Py)) :
    Except UB (Heap × Out) := do
  let (h, buf) ← convAll K h [] args
  match buf with
  | none => .ok (h, .typeError)
  | some buf => do
    let (h, r) ← f h buf
    match r with
    | none => do
      let h ← destroy h buf
      .ok (h, .typeError)
    | some r => do
      let (h, q) ← ret h r
      let h ← destroy h buf
      if Py.overflowAny args then do
        let h ← destroy h q.owned
        .ok (h, .systemError)
      else .ok (h, .value q)

/-- `op_kernel_call` (1122-1160) with `MATXScriptPipelineOpKernelCall` (`c_runtime_api.cc` 432-453)
in move mode: the arguments are destroyed with the vector they were moved into. -/
def opCall (K : Keys) (f : Fn) (h : Heap) (args : List Py) : Except UB (Heap × Out) := do
  let (h, buf) ← convAll K h [] args
  match buf with
  | none => .ok (h, .typeError)
  | some buf => do
    let (h, r) ← f h buf
    let h ← destroy h buf
    match r with
    | none => .ok (h, .typeError)
    | some r => do
      let (h, q) ← ret h r
      if Py.overflowAny args then do
        let h ← destroy h q.owned
        .ok (h, .systemError)
      else .ok (h, .value q)

/-- The arguments of a Python function that the runtime calls (1222-1236): each is copied, and the
copy is given away. -/
def retAll (h : Heap) : List V → Except UB (Heap × List Py)
  | [] => .ok (h, [])
  | v :: vs => do
    let (h, v) ← copy h v
    let (h, p) ← ret h v
    let (h, ps) ← retAll h vs
    .ok (h, p :: ps)

/-- `PythonClosureMATXScriptPackedCFunc` (1210-1255) with `MATXScriptCFuncSetReturn`
(`c_runtime_api.cc` 688-694), for a Python function that keeps none of its arguments: the wrappers
are gone when the call is over. The result is copied out of `c_ret`, which nobody destroys. -/
def closure (K : Keys) (g : List Py → Option Py) (h : Heap) (args : List V) :
    Except UB (Heap × Option V) := do
  let (h, ps) ← retAll h args
  match g ps with
  | none => do
    let h ← destroy h (ps.flatMap Py.owned)
    .ok (h, none)
  | some q => do
    let (h, c) ← conv K h q
    let h ← destroy h (ps.flatMap Py.owned)
    match c with
    | none => .ok (h, none)
    | some c => do
      let (h, r) ← copy h c
      .ok (h, some r)

end Verif.Ffi
