/-!
# Ownership of runtime values

A model of the values of the runtime (`MATXScriptAny`, `RTValue`) and of the objects they own, with
an explicit heap: copying, moving, assigning and destroying a value
(`src/runtime/runtime_value.cc` 244-421, `include/matxscript/runtime/runtime_value.h` 583-826) and
the reference counts behind them (`include/matxscript/runtime/object.h` 849-885).

Every access is checked: touching an object that has been freed is the error `dangling`.

Simplifications.  Addresses are not reused, so a dangling pointer can never look alive.  The type
code that a `MATXScriptAny` carries beside the pointer is kept with the object instead.  Floats are
their bits.  A string of up to 16 bytes (4 characters) lies inside the value, one of up to 254 bytes
(63 characters) owns a buffer and a longer one shares a counted buffer (`string_core.h` 277-283,
340-360); the buffers themselves are the subject of `Verif.StrCore`.  A function value owns a
`NativeFunction`; what the function captures is not looked at.  Counts do not overflow, `malloc`
does not fail, and there is one thread. -/

namespace Verif.Rc

/-- The containers. -/
inductive Kind
  | list | tuple | set | dict
  deriving DecidableEq, Repr

/-- `MATXScriptAny`: none, an integer, a float, a short `bytes`, a short `str`, or a pointer. -/
inductive V
  | none
  | int (z : Int)
  | flt (bits : Nat)
  | sbytes (s : List Nat)
  | sstr (s : List Nat)
  | ref (a : Nat)
  deriving DecidableEq, Repr

/-- What lies behind a pointer. The items of a `dict` are its keys and values in turn. -/
inductive Body
  | bytes (s : List Nat)
  | str (s : List Nat)
  | func (id : Nat)
  | node (k : Kind) (kids : List V)
  deriving DecidableEq, Repr

/-- The values an object owns. -/
def Body.kids : Body → List V
  | .node _ ks => ks
  | _ => []

structure Cell where
  rc : Nat
  body : Body
  deriving DecidableEq, Repr

/-- The heap: the object at each address, `none` after it has been freed. -/
abbrev Heap := List (Option Cell)

def get (h : Heap) (a : Nat) : Option Cell := (h[a]?).join

inductive UB
  | dangling
  | fuel
  | null
  deriving DecidableEq, Repr

/-- A fresh object with one owner. -/
def alloc (h : Heap) (b : Body) : Heap × V := (h ++ [some ⟨1, b⟩], .ref h.length)

/-- Whether copying a value copies what is behind the pointer (`true`) or shares it: `CopyFrom` of
strings and the copy of a `NativeFunction` against `IncRef` (`runtime_value.cc` 294-314,
`string_core.h` 352-362). -/
def Body.deep : Body → Bool
  | .bytes s => decide (s.length ≤ 254)
  | .str s => decide (s.length ≤ 63)
  | .func _ => true
  | .node _ _ => false

/-- `RTValue::CopyFromCHostToCHost` (294-314), which is also `MATXScriptRuntimeRetain`
(`src/runtime/c_runtime_api.cc` 381-387). -/
def copy (h : Heap) : V → Except UB (Heap × V)
  | .ref a =>
    match get h a with
    | none => .error .dangling
    | some c =>
      if c.body.deep then .ok (alloc h c.body)
      else .ok (h.set a (some { c with rc := c.rc + 1 }), .ref a)
  | v => .ok (h, v)

/-- Destroying values (`RTValue::DestroyCHost` 328-346, `Object::DecRef` in `object.h` 876-882):
the count goes down, and the last owner frees the object and then what it owns. The list is what is
still to be destroyed. -/
def release : Nat → Heap → List V → Except UB Heap
  | _, h, [] => .ok h
  | 0, _, _ :: _ => .error .fuel
  | n + 1, h, .ref a :: w =>
    match get h a with
    | none => .error .dangling
    | some c =>
      if c.rc ≤ 1 then release n (h.set a none) (c.body.kids ++ w)
      else release n (h.set a (some { c with rc := c.rc - 1 })) w
  | n + 1, h, _ :: w => release n h w

/-- The number of owners and items in the heap: bounds the work of `release`. -/
def weight (h : Heap) : Nat :=
  (h.map fun
    | none => 0
    | some c => c.rc + c.body.kids.length).sum

/-- `MATXScriptRuntimeDestroyN` (`c_runtime_api.cc` 389-395), and destruction of a single value for
a list of one. -/
def destroy (h : Heap) (vs : List V) : Except UB Heap := release (weight h + vs.length) h vs

/-! ## Variables

A program that works on values by the operators of `RTValue`: a file of variables, and the
operations that a generated function or an operator written by hand applies to them. -/

/-- The state: the heap and the variables. -/
structure St where
  h : Heap
  vars : List V
  deriving DecidableEq, Repr

inductive Op
  | pod (i : Nat) (v : V)        -- `x = 1`, `x = None`
  | str (i : Nat) (s : List Nat) -- `x = String(...)`
  | copy (i j : Nat)             -- `x = y`
  | move (i j : Nat)             -- `x = std::move(y)`
  | build (i : Nat) (k : Kind) (js : List Nat) -- `x = [y, z]`
  | item (i j n : Nat)           -- `x = y[n]`
  | append (j i : Nat)           -- `y.append(x)`
  | moveItem (i j n : Nat)       -- `x = std::move(y[n])`
  deriving DecidableEq, Repr

def St.var (s : St) (i : Nat) : V := s.vars[i]?.getD .none

/-- `RTValue::operator=(RTValue&&)` from a temporary (355-360): the old value is destroyed first. -/
def assign (s : St) (i : Nat) (v : V) : Except UB St := do
  let h ← destroy s.h [s.var i]
  .ok ⟨h, s.vars.set i v⟩

/-- Copies of several values (`CopyFromCHost` for each item). -/
def copyAll (h : Heap) : List V → Except UB (Heap × List V)
  | [] => .ok (h, [])
  | v :: vs => do
    let (h, v') ← copy h v
    let (h, vs') ← copyAll h vs
    .ok (h, v' :: vs')

/-- A value that needs no heap. -/
def V.isPod : V → Bool
  | .ref _ => false
  | _ => true

/-- A `bytes` value of the runtime (`MATXScriptRuntimeMakeString`, `c_runtime_api.cc` 455-459). -/
def mkBytes (h : Heap) (s : List Nat) : Heap × V :=
  if s.length ≤ 16 then (h, .sbytes s) else alloc h (.bytes s)

/-- A `str` value of the runtime. -/
def mkStr (h : Heap) (s : List Nat) : Heap × V :=
  if s.length ≤ 4 then (h, .sstr s) else alloc h (.str s)

/-- One operation. Indices outside the file or the container, and items of what is no container, do
nothing. -/
def step (s : St) : Op → Except UB St
  | .pod i v => if v.isPod then assign s i v else .ok s
  | .str i t =>
    if i < s.vars.length then
      let (h, v) := mkStr s.h t
      assign { s with h } i v
    else .ok s
  | .copy i j =>
    -- `operator=(RTValue(other))` (419-421): the copy is made before the old value is destroyed
    if i < s.vars.length then do
      let (h, v) ← copy s.h (s.var j)
      assign { s with h } i v
    else .ok s
  | .move i j =>
    -- `operator=(RTValue&&)` (355-360)
    if i < s.vars.length then do
      let h ← destroy s.h [s.var i]
      let vars := s.vars.set i .none   -- `DestroyCHost` leaves `None` behind (345)
      let v := vars[j]?.getD .none
      .ok ⟨h, (vars.set i v).set j .none⟩
    else .ok s
  | .build i k js =>
    if i < s.vars.length then do
      let (h, vs) ← copyAll s.h (js.map s.var)
      let (h, v) := alloc h (.node k vs)
      assign { s with h } i v
    else .ok s
  | .item i j n =>
    if i < s.vars.length then
      match s.var j with
      | .ref a =>
        match get s.h a with
        | none => .error .dangling
        | some c =>
          match c.body.kids[n]? with
          | none => .ok s
          | some v => do
            let (h, v) ← copy s.h v
            assign { s with h } i v
      | _ => .ok s
    else .ok s
  | .append j i =>
    match s.var j with
    | .ref a => do
      let (h, v) ← copy s.h (s.var i)
      match get h a with
      | none => .error .dangling
      | some c =>
        match c.body with
        | .node .list ks => .ok { s with h := h.set a (some { c with body := .node .list (ks ++ [v]) }) }
        | _ => do
          let h ← destroy h [v]
          .ok { s with h }
    | _ => .ok s
  | .moveItem i j n =>
    if i < s.vars.length then
      match s.var j with
      | .ref a => do
        match get s.h a with
        | none => .error .dangling
        | some c =>
          match c.body, c.body.kids[n]? with
          | .node k ks, some _ => do
            let h ← destroy s.h [s.var i]
            -- the source lies in the container, which may be gone by now
            match get h a with
            | none => .error .dangling
            | some c' =>
              .ok ⟨h.set a (some { c' with body := .node k (ks.set n .none) }),
                s.vars.set i (ks[n]?.getD .none)⟩
          | _, _ => .ok s
      | _ => .ok s
    else .ok s

def run (s : St) : List Op → Except UB St
  | [] => .ok s
  | o :: os => do
    let s ← step s o
    run s os

/-- The end of the scope: every variable is destroyed. -/
def finish (s : St) : Except UB Heap := destroy s.h s.vars

end Verif.Rc
