import Verif.Lower

/-!
# Loops over containers, zip, enumerate and comprehensions

A model of the C++ that is generated for `for` over containers and iterators
(`src/codegen/codegen_c.cc` 1441-1881, `VisitStmt_(const AutoForNode*)`), of the iterators it uses
(`src/runtime/container/list_ref.cc` 45-83, `ListIteratorNode`, and 557-575, `iter`, `begin`, `end`;
`include/matxscript/runtime/container/list_private.h`), and of the loops comprehensions are turned
into (`python/matx/script/parser.py` 1731-1937; `src/codegen/codegen_c.cc` 1392-1439,
`VisitStmt_(const ForNode*)`; `src/codegen/codegen_c_host.cc` 725-752), next to what Python does.

Simplifications.  In the first part the list that is iterated over is one buffer of a
`std::vector`: which allocation it lives in, its items and its capacity.  In the second part
containers do not change during the loop and iterators are numbered objects with items left.  In
the third part expressions are functions of the variables they read and of the world; the items of
a container are taken when its loop starts on both sides; integers are unbounded, memory suffices,
and a target is one name. -/

namespace Verif.Iterate

/-- What one run of a loop body does: goes on, breaks, or leaves by `return` or an exception. -/
inductive Out (S R : Type)
  | next (s : S)
  | brk (s : S)
  | exit (s : S) (r : R)

/-- What a loop does; `ub` is undefined behaviour. -/
inductive Loop (S R : Type)
  | done (s : S)
  | exit (s : S) (r : R)
  | ub
  | timeout
  deriving DecidableEq

/-! ## `for` over a list -/

/-- The buffer of a list: its allocation, its items, its capacity. -/
structure Buf (V : Type) where
  id : Nat
  items : List V
  cap : Nat
  deriving DecidableEq

section ForList
variable {V W R : Type}

/-- Python: an index that is compared with the length before every step. -/
def pyFor (body : V → Buf V × W → Out (Buf V × W) R) : Nat → Nat → Buf V × W → Loop (Buf V × W) R
  | 0, _, _ => .timeout
  | fuel + 1, i, s =>
    match s.1.items[i]? with
    | none => .done s
    | some v =>
      match body v s with
      | .next s => pyFor body fuel (i + 1) s
      | .brk s => .done s
      | .exit s r => .exit s r

/-- `auto it = c.begin(); auto end = c.end(); while (it != end) { x = *it; ++it; body }`, the
pointers being `(id, i)` and `(id, n)`. -/
def cxxFor (body : V → Buf V × W → Out (Buf V × W) R) (id n : Nat) :
    Nat → Nat → Buf V × W → Loop (Buf V × W) R
  | 0, _, _ => .timeout
  | fuel + 1, i, s =>
    if i = n then .done s
    else if s.1.id = id then
      match s.1.items[i]? with
      | none => .ub
      | some v =>
        match body v s with
        | .next s => cxxFor body id n fuel (i + 1) s
        | .brk s => .done s
        | .exit s r => .exit s r
    else .ub

/-- The whole loop. -/
def forList (body : V → Buf V × W → Out (Buf V × W) R) (fuel : Nat) (s : Buf V × W) :
    Loop (Buf V × W) R := cxxFor body s.1.id s.1.items.length fuel 0 s

/-- `append`: `std::vector` moves to a new allocation when it is full. -/
def push (b : Buf V) (v : V) : Buf V :=
  if b.items.length < b.cap then { b with items := b.items ++ [v] }
  else { id := b.id + 1, items := b.items ++ [v], cap := 2 * b.cap + 1 }

/-- `pop`. -/
def pop (b : Buf V) : Buf V := { b with items := b.items.dropLast }

end ForList

/-! ## `for` over zip and enumerate -/

/-- An argument of zip: a container or an iterator object. -/
inductive Src (V : Type)
  | cont (xs : List V)
  | iter (j : Nat)

section Zip
variable {V W R : Type}

/-- The items left in each iterator object. -/
abbrev Heap (V : Type) := Nat → List V

def put (H : Heap V) (j : Nat) (xs : List V) : Heap V := fun i => if i = j then xs else H i

/-- Python's `next(zip(...))`: one item of each argument in turn, until one has none. -/
def pyTake : List (Src V) → Heap V → Option (List V × List (Src V)) × Heap V
  | [], H => (some ([], []), H)
  | .cont [] :: _, H => (none, H)
  | .cont (x :: xs) :: r, H =>
    match pyTake r H with
    | (some (vs, r'), H') => (some (x :: vs, .cont xs :: r'), H')
    | (none, H') => (none, H')
  | .iter j :: r, H =>
    match H j with
    | [] => (none, H)
    | x :: xs =>
      match pyTake r (put H j xs) with
      | (some (vs, r'), H') => (some (x :: vs, .iter j :: r'), H')
      | (none, H') => (none, H')

/-- Python's loop. -/
def pyZip (body : List V → Heap V × W → Out (Heap V × W) R) :
    Nat → List (Src V) → Heap V × W → Loop (Heap V × W) R
  | 0, _, _ => .timeout
  | fuel + 1, srcs, (H, w) =>
    match pyTake srcs H with
    | (none, H') => .done (H', w)
    | (some (vs, srcs'), H') =>
      match body vs (H', w) with
      | .next s => pyZip body fuel srcs' s
      | .brk s => .done s
      | .exit s r => .exit s r

/-- The variables of an unrolled zip: `iter` and `iter_end` of a container, the iterator and
`has_next` of an iterator object. -/
inductive Cur (V : Type)
  | cont (xs : List V)
  | iter (j : Nat) (has : Bool)

/-- `begin()`/`end()`, or the iterator and `HasNext()`. -/
def start (H : Heap V) : Src V → Cur V
  | .cont xs => .cont xs
  | .iter j => .iter j (!(H j).isEmpty)

/-- The test of one argument. -/
def Cur.more : Cur V → Bool
  | .cont xs => !xs.isEmpty
  | .iter _ has => has

/-- `x = *it; ++it;` or `x = it.NextView(&has_next, &holder);` for each argument; reading behind the
end is undefined. -/
def cxxTake : List (Cur V) → Heap V → Option (List V × List (Cur V) × Heap V)
  | [], H => some ([], [], H)
  | .cont [] :: _, _ => none
  | .cont (x :: xs) :: r, H =>
    match cxxTake r H with
    | some (vs, r', H') => some (x :: vs, .cont xs :: r', H')
    | none => none
  | .iter j _ :: r, H =>
    match H j with
    | [] => none
    | x :: xs =>
      match cxxTake r (put H j xs) with
      | some (vs, r', H') => some (x :: vs, .iter j (!xs.isEmpty) :: r', H')
      | none => none

/-- `while (more_1 && more_2 && ...) { take; body }`. -/
def cxxZip (body : List V → Heap V × W → Out (Heap V × W) R) :
    Nat → List (Cur V) → Heap V × W → Loop (Heap V × W) R
  | 0, _, _ => .timeout
  | fuel + 1, curs, (H, w) =>
    if curs.all Cur.more then
      match cxxTake curs H with
      | none => .ub
      | some (vs, curs', H') =>
        match body vs (H', w) with
        | .next s => cxxZip body fuel curs' s
        | .brk s => .done s
        | .exit s r => .exit s r
    else .done (H, w)

/-- The whole loop. -/
def forZip (body : List V → Heap V × W → Out (Heap V × W) R) (fuel : Nat) (srcs : List (Src V))
    (s : Heap V × W) : Loop (Heap V × W) R := cxxZip body fuel (srcs.map (start s.1)) s

/-- `for i, x in enumerate(xs, pos)`: `i = pos; ++pos; x = *it; ++it; body`, with `pos` an
`int64_t`. -/
def forEnum (body : Int → V → W → Out W R) : Int → List V → W → Loop W R
  | _, [], w => .done w
  | pos, x :: xs, w =>
    match body pos x w with
    | .next w => forEnum body ((pos + 1).bmod (2 ^ 64)) xs w
    | .brk w => .done w
    | .exit w r => .exit w r

/-- Python: the pairs of `enumerate`, one after the other. -/
def pyEnum (body : Int → V → W → Out W R) : List (Int × V) → W → Loop W R
  | [], w => .done w
  | (i, x) :: l, w =>
    match body i x w with
    | .next w => pyEnum body l w
    | .brk w => .done w
    | .exit w r => .exit w r

end Zip

/-! ## Comprehensions -/

/-- An expression: the variables it reads and what it computes. -/
structure Expr (V W E : Type) where
  vars : List Nat
  fn : List V → W → Except E V × W

/-- What the runtime knows of values. -/
structure Rt (V W E : Type) where
  toInt : V → Int
  ofInt : Int → V
  items : V → W → Except E (List V)
  truth : V → W → Bool
  unbound : E
  zeroStep : E
  zeroDiv : E

/-- A bound of a range: a literal, a variable of type `int`, or another expression. -/
inductive Bound (V W E : Type)
  | lit (i : Int)
  | var (x : Nat)
  | expr (e : Expr V W E)

inductive Source (V W E : Type)
  | range (lo hi st : Bound V W E)
  | iter (e : Expr V W E)

/-- `for target in source if c1 if c2 ...`. -/
structure Gen (V W E : Type) where
  target : Nat
  source : Source V W E
  ifs : List (Expr V W E)

section Comp
variable {V W E : Type}

/-- Run `f` on each item. -/
def each (f : V → W → List V → Except E (List V) × W) :
    List V → W → List V → Except E (List V) × W
  | [], w, acc => (.ok acc, w)
  | v :: vs, w, acc =>
    match f v w acc with
    | (.ok acc, w) => each f vs w acc
    | (.error e, w) => (.error e, w)

/-! ### Python -/

/-- An expression; a variable without a value is an error. -/
def Expr.py (K : Rt V W E) (e : Expr V W E) (env : Nat → Option V) (w : W) : Except E V × W :=
  match e.vars.mapM env with
  | some vs => e.fn vs w
  | none => (.error K.unbound, w)

def Bound.py (K : Rt V W E) (env : Nat → Option V) (w : W) : Bound V W E → Except E Int × W
  | .lit i => (.ok i, w)
  | .var x =>
    match env x with
    | some v => (.ok (K.toInt v), w)
    | none => (.error K.unbound, w)
  | .expr e =>
    match e.py K env w with
    | (.ok v, w) => (.ok (K.toInt v), w)
    | (.error e, w) => (.error e, w)

/-- The items of a source. -/
def Source.py (K : Rt V W E) (env : Nat → Option V) (w : W) : Source V W E → Except E (List V) × W
  | .range lo hi st =>
    match lo.py K env w with
    | (.error e, w) => (.error e, w)
    | (.ok lo, w) =>
      match hi.py K env w with
      | (.error e, w) => (.error e, w)
      | (.ok hi, w) =>
        match st.py K env w with
        | (.error e, w) => (.error e, w)
        | (.ok st, w) =>
          if st = 0 then (.error K.zeroStep, w)
          else (.ok ((Lower.pyRange lo hi st).map K.ofInt), w)
  | .iter e =>
    match e.py K env w with
    | (.error e, w) => (.error e, w)
    | (.ok v, w) => (K.items v w, w)

/-- The conditions of a generator, until one is false. -/
def pyIfs (K : Rt V W E) (env : Nat → Option V) : List (Expr V W E) → W → Except E Bool × W
  | [], w => (.ok true, w)
  | c :: cs, w =>
    match c.py K env w with
    | (.error e, w) => (.error e, w)
    | (.ok v, w) => if K.truth v w then pyIfs K env cs w else (.ok false, w)

def bindPy (env : Nat → Option V) (x : Nat) (v : V) : Nat → Option V :=
  fun y => if y = x then some v else env y

/-- The nested loops. The first source has been evaluated before. -/
def pyRun (K : Rt V W E) (elt : Expr V W E) :
    List (Gen V W E) → (Nat → Option V) → W → List V → Except E (List V) × W
  | [], env, w, acc =>
    match elt.py K env w with
    | (.ok v, w) => (.ok (acc ++ [v]), w)
    | (.error e, w) => (.error e, w)
  | g :: gs, env, w, acc =>
    match g.source.py K env w with
    | (.error e, w) => (.error e, w)
    | (.ok vs, w) => each (fun v w acc =>
        match pyIfs K (bindPy env g.target v) g.ifs w with
        | (.error e, w) => (.error e, w)
        | (.ok false, w) => (.ok acc, w)
        | (.ok true, w) => pyRun K elt gs (bindPy env g.target v) w acc) vs w acc

/-- `[elt for ...]`: the first source belongs to the enclosing scope; inside, the targets are local
names without a value. -/
def pyComp (K : Rt V W E) (elt : Expr V W E) (gens : List (Gen V W E)) (env : Nat → Option V)
    (w : W) : Except E (List V) × W :=
  let inner : Nat → Option V := fun x => if x ∈ gens.map Gen.target then none else env x
  match gens with
  | [] => (.ok [], w)
  | g :: gs =>
    match g.source.py K env w with
    | (.error e, w) => (.error e, w)
    | (.ok vs, w) => each (fun v w acc =>
        match pyIfs K (bindPy inner g.target v) g.ifs w with
        | (.error e, w) => (.error e, w)
        | (.ok false, w) => (.ok acc, w)
        | (.ok true, w) => pyRun K elt gs (bindPy inner g.target v) w acc) vs w []

/-! ### The generated code -/

/-- What the generated code does. -/
inductive Res (V W E : Type)
  | ok (vs : List V) (w : W)
  | err (e : E) (w : W)
  | timeout
  deriving DecidableEq

def Expr.cx (e : Expr V W E) (env : Nat → V) (w : W) : Except E V × W := e.fn (e.vars.map env) w

def Bound.cx (K : Rt V W E) (env : Nat → V) (w : W) : Bound V W E → Except E Int × W
  | .lit i => (.ok i, w)
  | .var x => (.ok (K.toInt (env x)), w)
  | .expr e =>
    match e.cx env w with
    | (.ok v, w) => (.ok (K.toInt v), w)
    | (.error e, w) => (.error e, w)

/-- The condition of the loop: the bounds are expressions inside it. -/
def test (K : Rt V W E) (env : Nat → V) (hi st : Bound V W E) (t : Int) (w : W) :
    Except E Bool × W :=
  match st with
  | .lit i =>
    match hi.cx K env w with
    | (.error e, w) => (.error e, w)
    | (.ok hi, w) => (.ok (if 0 ≤ i then decide (t < hi) else decide (hi < t)), w)
  | st =>
    match st.cx K env w with
    | (.error e, w) => (.error e, w)
    | (.ok i, w) =>
      match hi.cx K env w with
      | (.error e, w) => (.error e, w)
      | (.ok hi, w) => (.ok (if 0 < i then decide (t < hi) else decide (hi < t)), w)

/-- `for (int64_t t = lo; test; t += st) body`. -/
def rangeLoop (K : Rt V W E) (env : Nat → V) (hi st : Bound V W E)
    (f : V → W → List V → Res V W E) : Nat → Int → W → List V → Res V W E
  | 0, _, _, _ => .timeout
  | fuel + 1, t, w, acc =>
    match test K env hi st t w with
    | (.error e, w) => .err e w
    | (.ok false, w) => .ok acc w
    | (.ok true, w) =>
      match f (K.ofInt t) w acc with
      | .ok acc w =>
        match st.cx K env w with
        | (.error e, w) => .err e w
        | (.ok i, w) => rangeLoop K env hi st f fuel (t + i) w acc
      | r => r

/-- `while (it != end) { x = *it; ++it; body }`. -/
def itemLoop (f : V → W → List V → Res V W E) : List V → W → List V → Res V W E
  | [], w, acc => .ok acc w
  | v :: vs, w, acc =>
    match f v w acc with
    | .ok acc w => itemLoop f vs w acc
    | r => r

def cxIfs (K : Rt V W E) (env : Nat → V) : List (Expr V W E) → W → Except E Bool × W
  | [], w => (.ok true, w)
  | c :: cs, w =>
    match c.cx env w with
    | (.error e, w) => (.error e, w)
    | (.ok v, w) => if K.truth v w then cxIfs K env cs w else (.ok false, w)

def bindCx (env : Nat → V) (x : Nat) (v : V) : Nat → V := fun y => if y = x then v else env y

/-- `build_AnyCompNestedFor`. -/
def cxRun (K : Rt V W E) (elt : Expr V W E) (fuel : Nat) :
    List (Gen V W E) → (Nat → V) → W → List V → Res V W E
  | [], env, w, acc =>
    match elt.cx env w with
    | (.ok v, w) => .ok (acc ++ [v]) w
    | (.error e, w) => .err e w
  | g :: gs, env, w, acc =>
    let body := fun v w acc =>
      match cxIfs K (bindCx env g.target v) g.ifs w with
      | (.error e, w) => .err e w
      | (.ok false, w) => .ok acc w
      | (.ok true, w) => cxRun K elt fuel gs (bindCx env g.target v) w acc
    match g.source with
    | .range lo hi st =>
      match lo.cx K env w with
      | (.error e, w) => .err e w
      | (.ok lo, w) => rangeLoop K env hi st body fuel lo w acc
    | .iter e =>
      match e.cx env w with
      | (.error e, w) => .err e w
      | (.ok v, w) =>
        match K.items v w with
        | .error e => .err e w
        | .ok vs => itemLoop body vs w acc

/-- `with_in_captures_or_const`: a literal, or a variable of the enclosing scope. -/
def Bound.captured (seen : List Nat) : Bound V W E → Bool
  | .lit _ => true
  | .var x => !seen.contains x
  | .expr _ => false

/-- The size that is reserved divides by the step of every range whose bounds are captured
(`cur_loops = (stop - start) // step`), before the first loop runs. -/
def reserveOk (K : Rt V W E) (env : Nat → V) (w : W) : List Nat → List (Gen V W E) → Bool
  | _, [] => true
  | seen, g :: gs =>
    (match g.source with
      | .range lo hi st =>
        !(lo.captured seen && hi.captured seen && st.captured seen) ||
          (match st.cx K env w with
            | (.ok i, _) => i != 0
            | _ => true)
      | .iter _ => true) && reserveOk K env w (g.target :: seen) gs

/-- `visit_ListComp`: the call of a lambda function that reserves and loops. -/
def cxComp (K : Rt V W E) (elt : Expr V W E) (gens : List (Gen V W E)) (fuel : Nat)
    (env : Nat → V) (w : W) : Res V W E :=
  if reserveOk K env w [] gens then cxRun K elt fuel gens env w [] else .err K.zeroDiv w

end Comp

end Verif.Iterate
