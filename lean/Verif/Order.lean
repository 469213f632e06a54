import Verif.HashEq

/-!
# Order of runtime values

A model of `>`, `>=`, `<`, `<=` on values whose types are not known to the compiler
(`src/runtime/generic/generic_hlo_arith_funcs.cc` 391-449, `ArithOps::gt` and `ge`;
`include/matxscript/runtime/generic/generic_hlo_arith_funcs.h` 718-857, their overloads for numbers,
`lt` and `le`), of lists and tuples (`src/runtime/container/list_ref.cc` 161-199,
`src/runtime/container/tuple_ref.cc` 181-219), of a container of known type with a value of unknown
type (`generic_hlo_arith_funcs.h` 718-722, 749-753, 780-784, 817-821), of `min` and `max`
(`src/runtime/generic/generic_funcs.cc` 622-646, 925-949), and of `%` on numbers of unknown type
(`generic_hlo_arith_funcs.cc` 214-265, `generic_hlo_arith_funcs.h` 520-541,
`src/runtime/builtins_modules/_floatobject.cc` 42-61).

Simplifications.  Doubles are those of `HashEq`: numbers of units `2 ^ -1074`, infinities and nan,
one zero.  Bytes and text are lists of numbers.  Values of other types are one constructor: every
comparison with them throws.  Lists with a type known to the compiler (`FTList`) are not
modelled. -/

namespace Verif.Order
open HashEq (F ofInt almostEq toF)

inductive Val
  | none
  | int (n : Int)
  | flt (x : F)
  | bytes (s : List Nat)
  | str (s : List Nat)
  | list (items : List Val)
  | tup (items : List Val)
  | other

inductive Err
  | type      -- TypeError
  | value     -- ValueError
  | zeroDiv   -- ZeroDivisionError
  | ub        -- reads behind the end
  deriving DecidableEq, Repr

/-- `string_view::compare`, `unicode_view::compare` (`string_view.h` 330-337, 454-460): the first
difference decides, then the length. -/
def cmp : List Nat → List Nat → Ordering
  | [], [] => .eq
  | [], _ :: _ => .lt
  | _ :: _, [] => .gt
  | x :: xs, y :: ys => if x < y then .lt else if y < x then .gt else cmp xs ys

mutual
/-- `ArithOps::gt(const Any&, const Any&)`. For tuples it calls `operator>=`. -/
def gt : Val → Val → Except Err Bool
  | .int a, .int b => .ok (decide (b < a))
  | .int a, .flt y => .ok (y.lt (ofInt a))
  | .flt x, .int b => .ok ((ofInt b).lt x)
  | .flt x, .flt y => .ok (y.lt x)
  | .bytes a, .bytes b => .ok (cmp b a == .lt)
  | .str a, .str b => .ok (cmp b a == .lt)
  | .list a, .list b => seq false a b
  | .tup a, .tup b => seq true a b
  | _, _ => .error .type
termination_by x y => sizeOf x + sizeOf y
/-- `operator>` (`orEq = false`) and `operator>=` (`orEq = true`) of `List` and `Tuple`. -/
def seq (orEq : Bool) : List Val → List Val → Except Err Bool
  | x :: xs, y :: ys =>
    match gt x y with
    | .error e => .error e
    | .ok true => .ok true
    | .ok false =>
      match gt y x with
      | .error e => .error e
      | .ok true => .ok false
      | .ok false => seq orEq xs ys
  | [], [] => .ok orEq
  | [], _ :: _ => .ok false
  | _ :: _, [] => .ok true
termination_by xs ys => sizeOf xs + sizeOf ys
end

/-- `ArithOps::ge(const Any&, const Any&)`. -/
def ge : Val → Val → Except Err Bool
  | .int a, .int b => .ok (decide (b ≤ a))
  | .int a, .flt y => .ok (almostEq (ofInt a) y || y.lt (ofInt a))
  | .flt x, .int b => .ok (almostEq x (ofInt b) || (ofInt b).lt x)
  | .flt x, .flt y => .ok (almostEq x y || y.lt x)
  | .bytes a, .bytes b => .ok (!(cmp a b == .lt))
  | .str a, .str b => .ok (!(cmp a b == .lt))
  | .list a, .list b => seq true a b
  | .tup a, .tup b => seq true a b
  | _, _ => .error .type

/-- `ArithOps::lt`: not `ge`. -/
def lt (x y : Val) : Except Err Bool := (ge x y).map (!·)

/-- `ArithOps::le`: not `gt`. -/
def le (x y : Val) : Except Err Bool := (gt x y).map (!·)

/-- `ge(const List&, const Any&)`: a value that is no list is not greater or equal. -/
def geList (a : List Val) : Val → Except Err Bool
  | .list b => seq true a b
  | _ => .ok false

def gtList (a : List Val) : Val → Except Err Bool
  | .list b => seq false a b
  | _ => .ok false

def ltList (a : List Val) (y : Val) : Except Err Bool := (geList a y).map (!·)
def leList (a : List Val) (y : Val) : Except Err Bool := (gtList a y).map (!·)

/-- The loops of `container_min`, `container_max`, `_iter_min` and `_iter_max`, with the comparison
that replaces the value at hand. -/
def pick (better : Val → Val → Except Err Bool) (m : Val) : List Val → Except Err Val
  | [] => .ok m
  | x :: xs =>
    match better x m with
    | .error e => .error e
    | .ok true => pick better x xs
    | .ok false => pick better m xs

/-- `container_min`: the check for an empty iterator has `||` in place of `&&` and never fails. -/
def minOf : List Val → Except Err Val
  | [] => .error .ub
  | x :: xs => pick lt x xs

def maxOf : List Val → Except Err Val
  | [] => .error .ub
  | x :: xs => pick gt x xs

/-! ## Modulo -/

/-- `fmod`: exact, with the sign of the dividend. -/
def fmod : F → F → F
  | .fin x, .fin y => if y = 0 then .nan else .fin (x.tmod y)
  | .fin x, .inf _ => .fin x
  | _, _ => .nan

/-- `if (std::isnan(result) || std::isinf(result)) THROW_PY_ValueError`. -/
def finite : F → Except Err F
  | .fin z => .ok (.fin z)
  | _ => .error .value

/-- `py_builtins::float_rem`. -/
def floatRem (x w : F) : Except Err F :=
  if w = .fin 0 then .error .zeroDiv
  else
    match fmod x w with
    | .fin m =>
      if m = 0 then .ok (.fin 0)
      else if w.lt (.fin 0) != decide (m < 0) then .ok ((F.fin m).add w)
      else .ok (.fin m)
    | r => .ok r

/-- `ArithOps::floormod` of a pair with at least one double, both of unknown type: the overload is
that of the left operand. -/
def floormod : Val → Val → Except Err F
  | .int a, .flt y => finite (fmod (ofInt a) y)
  | .flt x, .int b => (floatRem x (ofInt b)).bind finite
  | .flt x, .flt y => (floatRem x y).bind finite
  | _, _ => .error .type

/-- The same with a right operand that the compiler knows to be an integer. -/
def floormodInt : Val → Int → Except Err F
  | .flt x, b => finite (fmod x (ofInt b))
  | _, _ => .error .type

end Verif.Order
