import Mathlib.Data.List.Basic

/-!
# Shape broadcasting of kernels

Model of `calculate_output_axis`, `broadcast_with_scalar` and `broadcast`
(`/repo/python/matx/kernel/typing/broadcast.py` 25-97) and of
`is_scalar_shape` (`/repo/python/matx/kernel/typing/utils.py` 36-43).

Exceptions are `none`.  An axis is a number or a symbolic expression.  What
sympy does with expressions is a parameter: `eqv` is `symbol_utils.equals`
(`/repo/python/matx/kernel/symbol/utils.py` 32-34) and `simp` is `simplify`.
Only the first of the three results, the broadcast shape, is modelled; the
other two are the arguments padded with ones or with `None`.  Shapes nested in
shapes, for which `is_scalar_shape` recurses, are not modelled.
-/

namespace Verif.Broadcast

/-- One axis of a shape. -/
inductive Dim (E : Type) where
  | num (n : Nat)
  | sym (e : E)

/-- sympy's equality test and simplification. -/
structure Sym (E : Type) where
  eqv : E → E → Bool
  simp : E → E

/-- `is_scalar_shape` (utils.py 36-43): looks at the first axis only; the
empty shape raises `IndexError`. -/
def isScalarShape {E : Type} : List (Dim E) → Option Bool
  | [] => none
  | .sym _ :: _ => some false
  | .num n :: _ => some (n == 1)

/-- `calculate_output_axis` (broadcast.py 25-54); a missing axis is `none`
inside the pair, the outer `none` is `SyntaxError`. -/
def outputAxis {E : Type} (S : Sym E) : Option (Dim E) → Option (Dim E) → Option (Dim E)
  | none, none => none
  | none, some b => some b
  | some a, none => some a
  | some (.sym a), some (.sym b) => if S.eqv a b then some (.sym (S.simp a)) else none
  | some (.sym _), some (.num _) => none
  | some (.num _), some (.sym _) => none
  | some (.num a), some (.num b) => if a = b then some (.num a) else none

/-- The loop of `broadcast` over the reversed shapes (broadcast.py 83-91). -/
def axes {E : Type} (S : Sym E) : List (Dim E) → List (Dim E) → Option (List (Dim E))
  | [], [] => some []
  | a :: as, [] => do return (← outputAxis S (some a) none) :: (← axes S as [])
  | [], b :: bs => do return (← outputAxis S none (some b)) :: (← axes S [] bs)
  | a :: as, b :: bs => do return (← outputAxis S (some a) (some b)) :: (← axes S as bs)

/-- `[1] * max(0, n - len(shape)) + shape` (broadcast.py 64-66, 69-71). -/
def padTo {E : Type} (n : Nat) (s : List (Dim E)) : List (Dim E) :=
  List.replicate (n - s.length) (.num 1) ++ s

/-- `broadcast_with_scalar` (broadcast.py 57-72), given the two results of
`is_scalar_shape`. -/
def withScalar {E : Type} (sa sb : Bool) (a b : List (Dim E)) : List (Dim E) :=
  if sa && sb then (if a.length > b.length then a else b)
  else if sa then padTo a.length b
  else padTo b.length a

/-- `broadcast` (broadcast.py 75-97). -/
def broadcast {E : Type} (S : Sym E) (a b : List (Dim E)) : Option (List (Dim E)) :=
  match isScalarShape a, isScalarShape b with
  | some sa, some sb =>
    if sa || sb then some (withScalar sa sb a b)
    else (axes S a.reverse b.reverse).map List.reverse
  | _, _ => none

end Verif.Broadcast
