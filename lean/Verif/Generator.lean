/-
Generator functions: `src/codegen/yield_detect.h`, `src/codegen/var_detect.h`, `CodeGenCHost::AddYieldFunction` and
`VisitStmt_(HLOYieldNode)` (`src/codegen/codegen_c_host.cc` 853-1151), the loops of `src/codegen/codegen_c.cc`
(1392-1855) in "yield mode", and `include/matxscript/runtime/generator/`.

The compiled generator is a C++ object whose local variables are members; `next()` starts with
`switch (generator_state__) { case 1: goto yield_point1; … }` and then runs the body. Jumping into the middle of nested
statements is modelled as in CompCert's semantics of C: `findLabel` computes the continuation at a label.

Simplifications:
* Expressions are arbitrary functions of the variables they name and of the heap; they return a value or raise, and
  may change the heap. `World` gives truth of values, integers among values, and iteration over containers.
* `AutoFor` has one loop variable and one container; its members for container, iterator and end are one value, the
  state of the iteration. `zip`, `enumerate` and unpacking are not modelled.
* Integers of range loops do not overflow; a bound of a range loop is a literal or a variable, which is what the parser
  leaves (`parser.py` 906-937).
* The members that replace a variable `x` (`__target_x…`), a parameter as passed, and the temporaries of loops have
  distinct names (`AllocVarID`, `GetUniqueName`): they are three stores.
* `try` is not modelled: C++ forbids a jump into a `try` block.
* A declaration that remains in a loop body is executed like an assignment: its scope contains no label
  (`jumpOk`), so no code that can see the variable runs between a `return` and its next initialisation.
* Python's side runs the same statements, its loops keep their state in the iterator. A variable that was never
  assigned has the value the member has (C69: it is never read).
-/

namespace Verif.Generator

variable {Val Heap : Type}

/-- What the runtime knows of values. -/
structure World (Val Heap : Type) where
  truthy : Val → Bool
  int : Int → Val
  toInt : Val → Int
  toInt_int : ∀ n, toInt (int n) = n
  iter : Val → Heap → Option Val
  next : Val → Heap → Option (Val × Val)

/-- An expression: the variables it reads and what it computes; `none` is an exception. -/
structure Expr (Val Heap : Type) where
  vars : List Nat
  fn : List Val → Heap → Option Val × Heap

def Expr.eval (e : Expr Val Heap) (env : Nat → Val) (h : Heap) : Option Val × Heap := e.fn (e.vars.map env) h

/-- A bound of a range loop. -/
inductive Atom where
  | imm (n : Int)
  | var (x : Nat)

def Atom.vars : Atom → List Nat
  | imm _ => []
  | var x => [x]

def Atom.eval (W : World Val Heap) (env : Nat → Val) : Atom → Int
  | imm n => n
  | var x => W.toInt (env x)

/-- Statements. The boolean of a loop is `yield_mode`; `t` names the temporary members of the loop. -/
inductive Stmt (Val Heap : Type) where
  | skip
  | alloca (x : Nat) (e : Expr Val Heap)
  | assign (x : Nat) (e : Expr Val Heap)
  | eff (e : Expr Val Heap)
  | seq (a b : Stmt Val Heap)
  | ite (c : Expr Val Heap) (a b : Stmt Val Heap)
  | loop (c : Expr Val Heap) (s : Stmt Val Heap)
  | range (v t : Nat) (lo hi st : Atom) (ym : Bool) (s : Stmt Val Heap)
  | forIn (v t : Nat) (e : Expr Val Heap) (ym : Bool) (s : Stmt Val Heap)
  | brk
  | cont
  | ret (e : Expr Val Heap)
  | yield (e : Expr Val Heap) (l : Nat)

def upd (env : Nat → Val) (x : Nat) (v : Val) : Nat → Val := fun y => if y = x then v else env y

/-- The test of a range loop. -/
def test (st cur hi : Int) : Bool := if 0 < st then decide (cur < hi) else decide (hi < cur)

/-! ## Python -/

/-- Frames of Python's side; loops carry the state of their iterator. -/
inductive PFrame (Val Heap : Type) where
  | seq (s : Stmt Val Heap)
  | loop (c : Expr Val Heap) (s : Stmt Val Heap)
  | range (v : Nat) (cur hi st : Int) (s : Stmt Val Heap)
  | forIn (v : Nat) (it : Val) (s : Stmt Val Heap)

inductive PStep (Val Heap : Type) where
  | go (s : Stmt Val Heap) (K : List (PFrame Val Heap)) (env : Nat → Val) (h : Heap)
  | yielded (v : Val) (K : List (PFrame Val Heap)) (env : Nat → Val) (h : Heap)
  | done (h : Heap)
  | raised (h : Heap)

def PFrame.isLoop : PFrame Val Heap → Bool
  | seq _ => false
  | _ => true

/-- The frames from the innermost loop on. -/
def ploop : List (PFrame Val Heap) → List (PFrame Val Heap)
  | [] => []
  | f :: K => if f.isLoop then f :: K else ploop K

/-- The end of a statement. -/
def pcontinue (W : World Val Heap) (K : List (PFrame Val Heap)) (env : Nat → Val) (h : Heap) : PStep Val Heap :=
  match K with
  | [] => .done h
  | .seq s :: K => .go s K env h
  | .loop c s :: K => .go (.loop c s) K env h
  | .range v cur hi st s :: K =>
    if test st (cur + st) hi then .go s (.range v (cur + st) hi st s :: K) (upd env v (W.int (cur + st))) h
    else .go .skip K env h
  | .forIn v it s :: K =>
    match W.next it h with
    | some (x, it') => .go s (.forIn v it' s :: K) (upd env v x) h
    | none => .go .skip K env h

def pstep (W : World Val Heap) (s : Stmt Val Heap) (K : List (PFrame Val Heap)) (env : Nat → Val) (h : Heap) :
    PStep Val Heap :=
  match s with
  | .skip => pcontinue W K env h
  | .alloca x e | .assign x e =>
    match e.eval env h with
    | (some v, h) => .go .skip K (upd env x v) h
    | (none, h) => .raised h
  | .eff e =>
    match e.eval env h with
    | (some _, h) => .go .skip K env h
    | (none, h) => .raised h
  | .seq a b => .go a (.seq b :: K) env h
  | .ite c a b =>
    match c.eval env h with
    | (some v, h) => .go (if W.truthy v then a else b) K env h
    | (none, h) => .raised h
  | .loop c s =>
    match c.eval env h with
    | (some v, h) => if W.truthy v then .go s (.loop c s :: K) env h else .go .skip K env h
    | (none, h) => .raised h
  | .range v _ lo hi st _ s =>
    let lo := lo.eval W env
    let hi := hi.eval W env
    let st := st.eval W env
    if st = 0 then .raised h
    else if test st lo hi then .go s (.range v lo hi st s :: K) (upd env v (W.int lo)) h
    else .go .skip K env h
  | .forIn v _ e _ s =>
    match e.eval env h with
    | (some c, h) =>
      match W.iter c h with
      | some it => .go .skip (.forIn v it s :: K) env h
      | none => .raised h
    | (none, h) => .raised h
  | .brk => .go .skip (ploop K).tail env h
  | .cont => .go .skip (ploop K) env h
  | .ret e =>
    match e.eval env h with
    | (some _, h) => .done h
    | (none, h) => .raised h
  | .yield e _ =>
    match e.eval env h with
    | (some v, h) => .yielded v K env h
    | (none, h) => .raised h

/-- What a call of `next` can do. -/
inductive Out (Val : Type) where
  | yielded (v : Val)
  | done
  | raised

/-- A Python generator. -/
inductive PGen (Val Heap : Type) where
  | fresh (env : Nat → Val)
  | suspended (K : List (PFrame Val Heap)) (env : Nat → Val)
  | finished

def prun (W : World Val Heap) : Nat → Stmt Val Heap → List (PFrame Val Heap) → (Nat → Val) → Heap →
    Option (Out Val × PGen Val Heap × Heap)
  | 0, _, _, _, _ => none
  | n + 1, s, K, env, h =>
    match pstep W s K env h with
    | .go s K env h => prun W n s K env h
    | .yielded v K env h => some (.yielded v, .suspended K env, h)
    | .done h => some (.done, .finished, h)
    | .raised h => some (.raised, .finished, h)

/-- `next(g)` with `n` steps. -/
def pnext (W : World Val Heap) (body : Stmt Val Heap) (n : Nat) (g : PGen Val Heap) (h : Heap) :
    Option (Out Val × PGen Val Heap × Heap) :=
  match g with
  | .fresh env => prun W n body [] env h
  | .suspended K env => prun W n .skip K env h
  | .finished => some (.done, .finished, h)

/-! ## The transformation -/

/-- `YieldLabelMutator` (yield_detect.h 41-57): the labels, counted from `n`. The parser leaves `yield_mode` false. -/
def relabel : Nat → Stmt Val Heap → Stmt Val Heap × Nat
  | n, .seq a b =>
    let (a, n) := relabel n a
    let (b, n) := relabel n b
    (.seq a b, n)
  | n, .ite c a b =>
    let (a, n) := relabel n a
    let (b, n) := relabel n b
    (.ite c a b, n)
  | n, .loop c s =>
    let (s, n) := relabel n s
    (.loop c s, n)
  | n, .range v t lo hi st _ s =>
    let (s, n) := relabel n s
    (.range v t lo hi st false s, n)
  | n, .forIn v t e _ s =>
    let (s, n) := relabel n s
    (.forIn v t e false s, n)
  | n, .yield e _ => (.yield e n, n + 1)
  | n, s => (s, n)

/-- `RemoveVarDefine` (var_detect.h 50-71): declarations become assignments and loops get `yield_mode`; the bodies of
loops are not visited. -/
def removeDefs : Stmt Val Heap → Stmt Val Heap
  | .alloca x e => .assign x e
  | .seq a b => .seq (removeDefs a) (removeDefs b)
  | .ite c a b => .ite c (removeDefs a) (removeDefs b)
  | .loop c s => .loop c (removeDefs s)
  | .range v t lo hi st _ s => .range v t lo hi st true s
  | .forIn v t e _ s => .forIn v t e true s
  | s => s

def labels : Stmt Val Heap → List Nat
  | .seq a b => labels a ++ labels b
  | .ite _ a b => labels a ++ labels b
  | .loop _ s => labels s
  | .range _ _ _ _ _ _ s => labels s
  | .forIn _ _ _ _ s => labels s
  | .yield _ l => [l]
  | _ => []

/-- All loops are in `yield_mode`: `AllocVarID` of the variables of another loop fails, because
`AddYieldFunction` has allocated all variables (codegen_source_base.cc 77-91, codegen_c_host.cc 882-885). -/
def allYieldMode : Stmt Val Heap → Bool
  | .seq a b => allYieldMode a && allYieldMode b
  | .ite _ a b => allYieldMode a && allYieldMode b
  | .loop _ s => allYieldMode s
  | .range _ _ _ _ _ ym s => ym && allYieldMode s
  | .forIn _ _ _ ym s => ym && allYieldMode s
  | _ => true

/-- The statement declares a variable in the enclosing C++ block. -/
def declares : Stmt Val Heap → Bool
  | .alloca _ _ => true
  | .seq a b => declares a || declares b
  | _ => false

/-- The C++ compiler accepts the jumps: none bypasses a declaration. -/
def jumpOk : Stmt Val Heap → Bool
  | .seq a b => jumpOk a && jumpOk b && !(declares a && !(labels b).isEmpty)
  | .ite _ a b => jumpOk a && jumpOk b
  | .loop _ s => jumpOk s
  | .range _ _ _ _ _ _ s => jumpOk s
  | .forIn _ _ _ _ s => jumpOk s
  | _ => true

/-- `AddYieldFunction`, and the C++ compiler. -/
def build (s : Stmt Val Heap) : Option (Stmt Val Heap) :=
  let b := removeDefs (relabel 1 s).1
  if allYieldMode b && jumpOk b then some b else none

/-! ## The compiled generator -/

inductive CFrame (Val Heap : Type) where
  | seq (s : Stmt Val Heap)
  | loop (c : Expr Val Heap) (s : Stmt Val Heap)
  | range (v t : Nat) (hi st : Atom) (s : Stmt Val Heap)
  | forIn (v t : Nat) (s : Stmt Val Heap)

def CFrame.isLoop : CFrame Val Heap → Bool
  | seq _ => false
  | _ => true

def cloop : List (CFrame Val Heap) → List (CFrame Val Heap)
  | [] => []
  | f :: K => if f.isLoop then f :: K else cloop K

/-- The members: parameters as passed, variables, temporaries of loops. -/
structure Mem (Val : Type) where
  raw : Nat → Val
  usr : Nat → Val
  tmp : Nat → Val

def Mem.setU (m : Mem Val) (x : Nat) (v : Val) : Mem Val := { m with usr := upd m.usr x v }
def Mem.setT (m : Mem Val) (x : Nat) (v : Val) : Mem Val := { m with tmp := upd m.tmp x v }

/-- The object: `generator_state__`, `generator_value__` and the members. -/
structure CGen (Val : Type) where
  state : Int
  value : Val
  mem : Mem Val

inductive CStep (Val Heap : Type) where
  | go (s : Stmt Val Heap) (K : List (CFrame Val Heap)) (m : Mem Val) (h : Heap)
  | yielded (l : Nat) (v : Val) (m : Mem Val) (h : Heap)
  | returned (m : Mem Val) (h : Heap)
  | done (m : Mem Val) (h : Heap)
  | raised (l : Option Nat) (m : Mem Val) (h : Heap)

/-- The end of a statement (codegen_c.cc 1409-1437 for range loops, 1600-1855 for other loops). -/
def ccontinue (W : World Val Heap) (K : List (CFrame Val Heap)) (m : Mem Val) (h : Heap) : CStep Val Heap :=
  match K with
  | [] => .done m h
  | .seq s :: K => .go s K m h
  | .loop c s :: K => .go (.loop c s) K m h
  | .range v t hi st s :: K =>
    let m := m.setT t (W.int (W.toInt (m.tmp t) + st.eval W m.usr))
    if test (st.eval W m.usr) (W.toInt (m.tmp t)) (hi.eval W m.usr) then
      .go s (.range v t hi st s :: K) (m.setU v (m.tmp t)) h
    else .go .skip K m h
  | .forIn v t s :: K =>
    match W.next (m.tmp t) h with
    | some (x, it') => .go s (.forIn v t s :: K) ((m.setU v x).setT t it') h
    | none => .go .skip K m h

/-- One step of the body of `next()`. -/
def cstep (W : World Val Heap) (s : Stmt Val Heap) (K : List (CFrame Val Heap)) (m : Mem Val) (h : Heap) :
    CStep Val Heap :=
  match s with
  | .skip => ccontinue W K m h
  | .alloca x e | .assign x e =>
    match e.eval m.usr h with
    | (some v, h) => .go .skip K (m.setU x v) h
    | (none, h) => .raised none m h
  | .eff e =>
    match e.eval m.usr h with
    | (some _, h) => .go .skip K m h
    | (none, h) => .raised none m h
  | .seq a b => .go a (.seq b :: K) m h
  | .ite c a b =>
    match c.eval m.usr h with
    | (some v, h) => .go (if W.truthy v then a else b) K m h
    | (none, h) => .raised none m h
  | .loop c s =>
    match c.eval m.usr h with
    | (some v, h) => if W.truthy v then .go s (.loop c s :: K) m h else .go .skip K m h
    | (none, h) => .raised none m h
  | .range v t lo hi st _ s =>
    let m := m.setT t (W.int (lo.eval W m.usr))
    if test (st.eval W m.usr) (W.toInt (m.tmp t)) (hi.eval W m.usr) then
      .go s (.range v t hi st s :: K) (m.setU v (m.tmp t)) h
    else .go .skip K m h
  | .forIn v t e _ s =>
    match e.eval m.usr h with
    | (some c, h) =>
      match W.iter c h with
      | some it => .go .skip (.forIn v t s :: K) (m.setT t it) h
      | none => .raised none m h
    | (none, h) => .raised none m h
  | .brk => .go .skip (cloop K).tail m h
  | .cont => .go .skip (cloop K) m h
  | .ret e =>
    match e.eval m.usr h with
    | (some _, h) => .returned m h
    | (none, h) => .raised none m h
  | .yield e l =>
    match e.eval m.usr h with
    | (some v, h) => .yielded l v m h
    | (none, h) => .raised (some l) m h

/-- Runs the body; the result says whether an exception was raised. -/
def crun (W : World Val Heap) : Nat → Stmt Val Heap → List (CFrame Val Heap) → Int → Val → Mem Val → Heap →
    Option (Bool × CGen Val × Heap)
  | 0, _, _, _, _, _, _ => none
  | n + 1, s, K, st, val, m, h =>
    match cstep W s K m h with
    | .go s K m h => crun W n s K st val m h
    | .yielded l v m h => some (false, ⟨l, v, m⟩, h)
    | .returned m h => some (false, ⟨st, val, m⟩, h)
    | .done m h => some (false, ⟨-1, val, m⟩, h)
    | .raised l m h => some (true, ⟨(l.map Int.ofNat).getD st, val, m⟩, h)

/-- The continuation at a label. -/
def findLabel (l : Nat) : Stmt Val Heap → List (CFrame Val Heap) → Option (List (CFrame Val Heap))
  | .seq a b, K => (findLabel l a (.seq b :: K)).orElse fun _ => findLabel l b K
  | .ite _ a b, K => (findLabel l a K).orElse fun _ => findLabel l b K
  | .loop c s, K => findLabel l s (.loop c s :: K)
  | .range v t _ hi st _ s, K => findLabel l s (.range v t hi st s :: K)
  | .forIn v t _ _ s, K => findLabel l s (.forIn v t s :: K)
  | .yield _ l', K => if l = l' then some K else none
  | _, _ => none

/-- `__target_p = p;` for the parameters (var_detect.h 111-128). -/
def copyParams (ps : List Nat) (m : Mem Val) : Mem Val :=
  { m with usr := fun x => if x ∈ ps then m.raw x else m.usr x }

/-- `next()` (codegen_c_host.cc 1027-1079). -/
def cnext (W : World Val Heap) (body : Stmt Val Heap) (ps : List Nat) (n : Nat) (g : CGen Val) (h : Heap) :
    Option (Bool × CGen Val × Heap) :=
  match (if 0 < g.state then findLabel g.state.toNat body [] else none) with
  | some K => crun W n .skip K g.state g.value g.mem h
  | none => crun W n body [] g.state g.value (copyParams ps g.mem) h

/-- What the caller sees: the state is compared with -1, and the value is read from the object
(generator.h, generator_ref.h 88-107). -/
def cout (r : Bool × CGen Val × Heap) : Out Val :=
  if r.1 then .raised else if r.2.1.state = -1 then .done else .yielded r.2.1.value

/-- A new object (codegen_c_host.cc 972-999). -/
def cnew (args : Nat → Val) (value : Val) (m : Mem Val) : CGen Val := ⟨0, value, { m with raw := args }⟩

/-- The Python generator of a call. -/
def pnew (ps : List Nat) (args : Nat → Val) (m : Mem Val) : PGen Val Heap :=
  .fresh fun x => if x ∈ ps then args x else m.usr x

/-! ## Observations -/

/-- A caller that calls `next` once for each element of the list and changes the heap before; it stops at the end or
at an exception. -/
def pobs (W : World Val Heap) (body : Stmt Val Heap) (n : Nat) : List (Heap → Heap) → PGen Val Heap → Heap →
    List (Option (Out Val × Heap))
  | [], _, _ => []
  | f :: fs, g, h =>
    match pnext W body n g (f h) with
    | none => [none]
    | some (.yielded v, g, h) => some (.yielded v, h) :: pobs W body n fs g h
    | some (o, _, h) => [some (o, h)]

def cobs (W : World Val Heap) (body : Stmt Val Heap) (ps : List Nat) (n : Nat) : List (Heap → Heap) → CGen Val → Heap →
    List (Option (Out Val × Heap))
  | [], _, _ => []
  | f :: fs, g, h =>
    match cnext W body ps n g (f h) with
    | none => [none]
    | some r =>
      match cout r with
      | .yielded v => some (.yielded v, r.2.2) :: cobs W body ps n fs r.2.1 r.2.2
      | o => [some (o, r.2.2)]

/-- `for x in g:` up to `m` elements, then `break` (codegen_c.cc 1575-1610, 1640-1712): `begin()` calls `next`, and the
iterator is advanced before the body runs. Gives the elements and the object afterwards. -/
def cfor (W : World Val Heap) (body : Stmt Val Heap) (ps : List Nat) (n : Nat) (m : Nat) (g : CGen Val) (h : Heap) :
    Option (List Val × CGen Val × Heap) :=
  match cnext W body ps n g h with
  | some (false, g, h) => loop m g h
  | _ => none
where
  loop : Nat → CGen Val → Heap → Option (List Val × CGen Val × Heap)
    | 0, g, h => some ([], g, h)
    | k + 1, g, h =>
      if g.state = -1 then some ([], g, h)
      else
        match cnext W body ps n g h with
        | some (false, g', h) => (loop k g' h).map fun (vs, r) => (g.value :: vs, r)
        | _ => none

/-- Python's `for` loop over a generator, up to `m` elements. -/
def pfor (W : World Val Heap) (body : Stmt Val Heap) (n : Nat) : Nat → PGen Val Heap → Heap →
    Option (List Val × PGen Val Heap × Heap)
  | 0, g, h => some ([], g, h)
  | k + 1, g, h =>
    match pnext W body n g h with
    | some (.yielded v, g, h) => (pfor W body n k g h).map fun (vs, r) => (v :: vs, r)
    | some (.done, g, h) => some ([], g, h)
    | _ => none

end Verif.Generator
