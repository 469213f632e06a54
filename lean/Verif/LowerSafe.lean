import Verif.Lower
import Mathlib.Data.List.Forall2

/-!
# Programs on which generated code and Python agree

A decidable condition on the source of a function.  It names the constructs for which the
generated code is *not* faithful (see the refutations in `LowerProps.lean`) and excludes exactly
these; `LowerSim.lean` proves that everything else is translated faithfully. -/

namespace Verif.Lower

variable {W : Type}

/-- Static argument types fit a signature; `obj` parameters take everything. -/
def sigOk : List Ty → List Ty → Bool
  | [], [] => true
  | s :: ss, t :: ts => (s = .obj || s = t) && sigOk ss ts
  | _, _ => false

mutual

/-- Expressions whose evaluation is a value: constants, variables, and pure operations on these
(no effect, no exception, and a value that does not depend on the world). -/
def stable (P : Prims W) : IExpr → Bool
  | .const _ => true
  | .var _ _ => true
  | .call f args => P.pure f && stableL P args && sigOk (P.sig f) (args.map (typeOf P))
  | .not a => stable P a && typeOf P a != .obj
  | .boolOf a => stable P a && typeOf P a != .obj
  | .ite c t f => stable P c && typeOf P c != .obj && stable P t && stable P f
  | _ => false

def stableL (P : Prims W) : List IExpr → Bool
  | [] => true
  | e :: es => stable P e && stableL P es

end

/-- At most one argument does more than yield a value. C++ may evaluate them in any order. -/
def okArgs (P : Prims W) (es : List IExpr) : Bool :=
  (es.filter fun e => !stable P e).length ≤ 1

/-- The operands of `and` / `or`: all of type `bool` (`&&`, `||`), or, because both operands of
`ArithOps::And` are always evaluated, all but the first without effect. -/
def okBool (P : Prims W) (es : List IExpr) : Bool :=
  es.all (fun e => typeOf P e = .bool) || es.tail.all (stable P)

/-- Comparisons: a single one, or a chain of relations with result type `bool` whose inner
operands, which the generated code evaluates twice, have no effect. -/
def okCmp (P : Prims W) (ops : List Cmp) (es : List IExpr) : Bool :=
  match ops, es with
  | [_], [a, b] => okArgs P [a, b]
  | _, es => ops.length + 1 = es.length && es.tail.dropLast.all (stable P) &&
      ops.all fun op => match op with | .rel f => P.ret f = .bool | _ => false

/-- Is an integer literal one of `int64_t`? -/
def fits : Val → Bool
  | .int i => i64min ≤ i && i ≤ i64max
  | _ => true

mutual

def safeE (P : Prims W) (c : Scope) : Expr → Bool
  | .const v => fits v
  | .name _ => true
  | .tup es => safeL P c es && (match lowerL P c es with | some l => okArgs P l | _ => false)
  | .call _ es => safeL P c es && (match lowerL P c es with | some l => okArgs P l | _ => false)
  | .boolop _ es => safeL P c es && (match lowerL P c es with | some l => okBool P l | _ => false)
  | .compare ops es =>
    safeL P c es && (match lowerL P c es with | some l => okCmp P ops l | _ => false)
  | .notE e => safeE P c e && (match lowerE P c e with | some a => typeOf P a != .obj | _ => false)
  | .ifE b t f => safeE P c b && safeE P c t && safeE P c f
  | .boolE e => safeE P c e

def safeL (P : Prims W) (c : Scope) : List Expr → Bool
  | [] => true
  | e :: es => safeE P c e && safeL P c es

end

/-- Assigning `ie` to a target: a variable keeps the static type it has (no conversion of the
value), the arguments of a store and the value do not depend on their order. -/
def safeTarget (P : Prims W) (c : Scope) (ie : IExpr) : Target → Bool
  | .name x => match lookup c x with
    | some (_, ty) => !convertible (typeOf P ie) ty || ty = .obj || ty = typeOf P ie
    | Option.none => true
  | .store _ args => safeL P c args &&
      (match lowerL P c args with | some l => okArgs P (l ++ [ie]) | _ => false)

/-- `a, b = x, y`: elements are evaluated in the scope `c` before the statement. -/
def safeUnroll (P : Prims W) (c outer : Scope) : List Target → List Expr → Scope → Nat → Bool
  | t :: ts, e :: es, inner, n =>
    safeE P c e &&
      match lowerE P c e with
      | some ie =>
        safeTarget P (inner ++ outer) (.var n (typeOf P ie)) t &&
          (match assignTarget P outer inner (n + 1) (.var n (typeOf P ie)) t with
          | some (_, inner, n) => safeUnroll P c outer ts es inner n
          | _ => false)
      | _ => false
  | _, _, _, _ => true

/-- Variables a statement may assign. -/
def targetNames : List Target → List String
  | [] => []
  | .name x :: ts => x :: targetNames ts
  | .store _ _ :: ts => targetNames ts

def assigned : Stmt → List String
  | .seq a b => assigned a ++ assigned b
  | .assign t _ => targetNames [t]
  | .assignTup ts _ => targetNames ts
  | .unpack ts _ => targetNames ts
  | .augName x _ _ => [x]
  | .ifS _ t e => assigned t ++ assigned e
  | .whileS _ b o => assigned b ++ assigned o
  | .forRange x _ _ _ b o => x :: (assigned b ++ assigned o)
  | .forIn x _ b o => x :: (assigned b ++ assigned o)
  | .tryS b _ h o f => assigned b ++ assigned h ++ assigned o ++ assigned f
  | _ => []

/-- A bound of `range` that is re-read in every iteration is not changed by the body. -/
def okStop (b : Stmt) : Expr → Bool
  | .name y => !(assigned b).contains y
  | _ => true

/-- A step that is a literal different from zero. -/
def okStep : Expr → Bool
  | .const (.int d) => d != 0
  | _ => false

/-- Type of an expression, if it lowers. -/
def typeIs (P : Prims W) (c : Scope) (e : Expr) (ty : Ty) : Bool :=
  match lowerE P c e with
  | some ie => typeOf P ie = ty
  | _ => false

/-- The condition on statements; the arguments are those of `lower`. -/
def safe (P : Prims W) (rty : Ty) : Stmt → Scope → Scope → Nat → Bool
  | .seq (.assertS c) b, outer, inner, n =>
    safeE P (inner ++ outer) c && safe P rty b outer inner n
  | .seq a b, outer, inner, n =>
    safe P rty a outer inner n &&
      (match lower P rty a outer inner n with
      | some (_, inner, n) => safe P rty b outer inner n
      | _ => false)
  | .assign t e, outer, inner, _ => safeE P (inner ++ outer) e &&
      (match lowerE P (inner ++ outer) e with
      | some ie => safeTarget P (inner ++ outer) ie t
      | _ => false)
  | .assignTup ts es, outer, inner, n => safeUnroll P (inner ++ outer) outer ts es inner n
  | .unpack _ _, _, _, _ => false
  | .augName x op e, outer, inner, _ =>
    safeE P (inner ++ outer) (.call op [.name x, e]) &&
      typeIs P (inner ++ outer) (.name x) .int && typeIs P (inner ++ outer) e .int &&
      P.ret op = .int
  | .augStore f g args op e, outer, inner, _ =>
    safeE P (inner ++ outer) (.call op [.call g args, e]) &&
      (match lowerL P (inner ++ outer) args with | some l => stableL P l | _ => false) &&
      P.ret g = .int && typeIs P (inner ++ outer) e .int && P.ret op = .int &&
      (match lowerE P (inner ++ outer) (.call op [.call g args, e]) with
      | some ie => safeTarget P (inner ++ outer) ie (.store f args)
      | _ => false)
  | .expr e, outer, inner, _ => safeE P (inner ++ outer) e
  | .assertS e, outer, inner, _ => safeE P (inner ++ outer) e
  | .ifS c t e, outer, inner, n =>
    safeE P (inner ++ outer) c && safe P rty t (inner ++ outer) [] n &&
      (match lower P rty t (inner ++ outer) [] n with
      | some (_, _, n) => safe P rty e (inner ++ outer) [] n
      | _ => false)
  | .whileS c b o, outer, inner, n =>
    isSkip o && safeE P (inner ++ outer) c && safe P rty b (inner ++ outer) [] n
  | .forRange x start stop step b o, outer, inner, n =>
    isSkip o && safeL P (inner ++ outer) [start, stop, step] && okStep step && okStop b stop &&
      typeIs P (inner ++ outer) start .int && typeIs P (inner ++ outer) stop .int &&
      (match lowerL P (inner ++ outer) [start, stop, step] with
      | some [ia, ib, id] =>
        let n := (rangeArg P id (rangeArg P ib (rangeArg P ia n).2.2).2.2).2.2
        safe P rty b (inner ++ outer) [(x, n, .int)] (n + 1)
      | _ => false)
  | .forIn x e b o, outer, inner, n =>
    isSkip o && safeE P (inner ++ outer) e && safe P rty b (inner ++ outer) [(x, n, .obj)] (n + 1)
  | .ret e, outer, inner, _ => safeE P (inner ++ outer) e &&
      (rty = .obj || typeIs P (inner ++ outer) e rty)
  | .raiseS (some e), outer, inner, _ => safeE P (inner ++ outer) e
  | .tryS b typ h o f, outer, inner, n =>
    typ.isNone && isSkip o && isSkip f && safe P rty b (inner ++ outer) [] n &&
      (match lower P rty b (inner ++ outer) [] n with
      | some (_, _, n) => safe P rty h (inner ++ outer) [] n
      | _ => false)
  | _, _, _, _ => true

/-- The condition on functions, on the body the parser sees. -/
def safeFn (P : Prims W) (f : Fn) : Bool :=
  safe P f.rty (ifBool f.body) [] (paramScope f.params 0) f.params.length

def unitStep : Expr → Bool
  | .const (.int d) => d = 1 || d = -1
  | _ => false

/-- No loop over a list, and ranges step by one: nothing a C++ compiler calls undefined. -/
def tame : Stmt → Bool
  | .seq a b => tame a && tame b
  | .ifS _ t e => tame t && tame e
  | .whileS _ b o => tame b && tame o
  | .forRange _ _ _ step b o => unitStep step && tame b && tame o
  | .forIn _ _ _ _ => false
  | .tryS b _ h o f => tame b && tame h && tame o && tame f
  | _ => true

/-! ## What is assumed of the primitives -/

/-- The primitives keep to their static signatures: a result has the declared type; a pure
primitive on arguments of its parameter types yields a value, without effect; and the in-place
variant of an arithmetic operator on integers is the operator. -/
structure PrimsOk (P : Prims W) : Prop where
  ret : ∀ f vs w v w', P.call f vs w = (.ok v, w') → HasTy (P.ret f) v
  pure : ∀ f vs, P.pure f = true → List.Forall₂ HasTy (P.sig f) vs → ∃ v, P.call f vs = pur v
  inplace : ∀ op a b, P.ret op = .int →
    P.call (inplace op) [.int a, .int b] = P.call op [.int a, .int b]

/-- The compiler's order of arguments is an order of the arguments. -/
def OrdOk (ord : List IExpr → List Nat) : Prop :=
  ∀ l, (ord l).Perm (List.range l.length)

end Verif.Lower
