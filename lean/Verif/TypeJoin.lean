import Mathlib.Data.List.Basic
/-
Static types of scripts: the common type of two types, the type of a loop variable, and the test whether a value may
be used where another type is expected.

Sources (all under /repo):
* src/ir/type.cc 625-667 (InferIteratorValueType), 669-677 (InferNthItemType), 679-787 (IsTypeConvertible),
  789-915 (InferLiftType), 390-399 (IteratorType)
* src/ir/adt.cc 149-178 (IsBaseTypeOf); include/matxscript/ir/type.h 112-129, 168-1306 (SEqualReduce of the types)
* users: python/matx/ir/op.py 2410-2417 (dict.pop with a default), python/matx/script/parser.py 1029-1066, 1790-1812
  (loop variables), python/matx/ir/op.py 1640-1697 (items that are put into containers)

Simplifications: nodes of types are trees; `same_as`, which compares nodes, is an oracle `same` that may only hold for
equal trees.  Types without parts that the rules do not name (None, Trie, Regex, Shape, ...) are `other n`.  The flag
of C++ tuples is left out.  A float is known by the least width that holds it.  The numbers of a `prim` value are its
lanes.  Pointer, function and type variable types are left out.
-/

namespace Verif.TypeJoin

/-- Codes of data types: 0 int, 1 uint (bool with one bit), 2 float, 3 handle, 4 bfloat. -/
inductive Ty where
  | prim (code bits lanes : Nat)
  | str (view : Bool)
  | uni (view : Bool)
  | list (ft : Bool) (item : Ty)
  | set (ft : Bool) (item : Ty)
  | dict (ft : Bool) (key val : Ty)
  | tuple (fields : List Ty)
  | cls (c : Nat)
  | userData
  | obj (view : Bool)
  | ref (t : Ty)
  | iter (container : Ty)
  | range
  | file (binary : Bool)
  | tensor (ndim : Option Nat) (dtype : Option (Nat × Nat × Nat))
  | other (n : Nat)

/-! ### Values -/

inductive Num where
  | int (n : Int)
  | bool (b : Bool)
  | flt (need : Nat)
  | handle

inductive Val where
  | prim (xs : List Num)
  | bytes (s : List Nat)
  | str (s : List Nat)
  | list (ft : Bool) (xs : List Val)
  | set (ft : Bool) (xs : List Val)
  | dict (ft : Bool) (kvs : List (Val × Val))
  | tuple (xs : List Val)
  | obj (c : Nat)
  | native
  | iter (v : Val)
  | range (xs : List Int)
  | textFile (lines : List (List Nat))
  | binFile (lines : List (List Nat))
  | tensor (ndim : Nat) (dtype : Nat × Nat × Nat)
  | other (n : Nat)

/-- A number fits a data type. -/
def fits (code bits : Nat) : Num → Prop
  | .int n => (code = 0 ∧ -(2 : Int) ^ bits ≤ 2 * n ∧ 2 * n < (2 : Int) ^ bits) ∨
      (code = 1 ∧ bits ≠ 1 ∧ 0 ≤ n ∧ n < (2 : Int) ^ bits)
  | .bool _ => code = 1 ∧ bits = 1
  | .flt need => code = 2 ∧ need ≤ bits
  | .handle => code = 3

mutual
/-- The values of a type; `anc d c`: class `d` is a proper base of class `c`. -/
def mem (anc : Nat → Nat → Bool) : Ty → Val → Prop
  | .prim c b l, v => ∃ xs, v = .prim xs ∧ xs.length = l ∧ ∀ x ∈ xs, fits c b x
  | .str _, v => ∃ s, v = .bytes s ∧ ∀ x ∈ s, x < 256
  | .uni _, v => ∃ s, v = .str s
  | .list ft t, v => ∃ xs, v = .list ft xs ∧ ∀ x ∈ xs, mem anc t x
  | .set ft t, v => ∃ xs, v = .set ft xs ∧ ∀ x ∈ xs, mem anc t x
  | .dict ft k t, v => ∃ kvs, v = .dict ft kvs ∧ ∀ x ∈ kvs, mem anc k x.1 ∧ mem anc t x.2
  | .tuple fs, v => ∃ xs, v = .tuple xs ∧ (fs = [] ∨ memFields anc fs xs)
  | .cls d, v => ∃ c, v = .obj c ∧ (c = d ∨ anc d c = true)
  | .userData, v => v = .native ∨ ∃ c, v = .obj c
  | .obj _, _ => True
  | .ref t, v => mem anc t v
  | .iter t, v => ∃ w, v = .iter w ∧ mem anc t w
  | .range, v => ∃ xs, v = .range xs ∧ ∀ x ∈ xs, fits 0 64 (.int x)
  | .file b, v => ∃ ls, v = if b then .binFile ls else .textFile ls
  | .tensor n d, v => ∃ n' d', v = .tensor n' d' ∧ (∀ m, n = some m → m = n') ∧ ∀ e, d = some e → e = d'
  | .other n, v => v = .other n
/-- A generic tuple type has no fields; otherwise there is a value for each field. -/
def memFields (anc : Nat → Nat → Bool) : List Ty → List Val → Prop
  | [], xs => xs = []
  | t :: ts, xs => ∃ y ys, xs = y :: ys ∧ mem anc t y ∧ memFields anc ts ys
end

/-- What a loop over a value yields. -/
def elems : Val → Option (List Val)
  | .bytes s => some (s.map fun (x : Nat) => .prim [.int (x : Int)])
  | .str s => some (s.map fun x => .str [x])
  | .list _ xs => some xs
  | .set _ xs => some xs
  | .dict _ kvs => some (kvs.map Prod.fst)
  | .tuple xs => some xs
  | .iter v => elems v
  | .range xs => some (xs.map fun x => .prim [.int x])
  | .textFile ls => some (ls.map .str)
  | .binFile ls => some (ls.map fun l => .bytes (l.map (· % 256)))
  | _ => none

/-! ### The rules -/

mutual
/-- `operator==`: structural equality.  Views, and the mode of files, are not compared. -/
def eqv : Ty → Ty → Bool
  | .prim c b l, .prim c' b' l' => decide (c = c') && decide (b = b') && decide (l = l')
  | .str _, .str _ => true
  | .uni _, .uni _ => true
  | .list ft a, .list ft' a' => decide (ft = ft') && eqv a a'
  | .set ft a, .set ft' a' => decide (ft = ft') && eqv a a'
  | .dict ft k a, .dict ft' k' a' => decide (ft = ft') && (eqv k k' && eqv a a')
  | .tuple fs, .tuple fs' => eqvs fs fs'
  | .cls c, .cls c' => decide (c = c')
  | .userData, .userData => true
  | .obj _, .obj _ => true
  | .ref a, .ref a' => eqv a a'
  | .iter a, .iter a' => eqv a a'
  | .range, .range => true
  | .file _, .file _ => true
  | .tensor n d, .tensor n' d' => decide (n = n') && decide (d = d')
  | .other n, .other n' => decide (n = n')
  | _, _ => false
def eqvs : List Ty → List Ty → Bool
  | [], [] => true
  | a :: as, b :: bs => eqv a b && eqvs as bs
  | _, _ => false
end

def strip : Ty → Ty
  | .ref t => strip t
  | t => t

/-- type.cc 790-797, 680-688: references on the right are taken off; `none` when the node is the left one. -/
def peel (same : Ty → Ty → Bool) (t1 : Ty) : Ty → Option Ty
  | .ref t => if same t1 (.ref t) then none else peel same t1 t
  | t => if same t1 t then none else some t

/-- type.cc 804-818. -/
def liftPrim (c b l : Nat) : Ty → Ty
  | .prim c' b' l' =>
    if c = c' ∧ b = b' ∧ l = l' then .prim c' b' l'
    else if l = l' ∧ ((c = 0 ∧ c' = 0) ∨ (c = 2 ∧ c' = 2)) then .prim c (max b b') l
    else .obj false
  | _ => .obj false

/-- type.cc 825-839. -/
def liftCls (c : Nat) : Ty → Ty
  | .cls d => if c = d then .cls d else .obj false
  | .userData => .userData
  | _ => .obj false

/-- What is left: type.cc 836-838 for `userData`, 911-914. -/
def liftLeaf (t1 : Ty) : Ty → Ty
  | .cls _ => match t1 with
    | .userData => .userData
    | _ => .obj false
  | u => if eqv t1 u then t1 else .obj false

mutual
/-- `InferLiftType`.  Typed and untyped containers have no common type (801-803); in the other cases where this test
answers, the rules below it give the same. -/
def lift (same : Ty → Ty → Bool) : Ty → Ty → Ty
  | .ref a, t2 => if same (.ref a) t2 then .ref a else lift same a t2
  | .obj b, t2 => match peel same (.obj b) t2 with
    | none => .obj b
    | some _ => .obj false
  | .prim c b l, t2 => match peel same (.prim c b l) t2 with
    | none => .prim c b l
    | some u => liftPrim c b l u
  | .cls c, t2 => match peel same (.cls c) t2 with
    | none => .cls c
    | some u => liftCls c u
  | .dict ft k a, t2 => match peel same (.dict ft k a) t2 with
    | none => .dict ft k a
    | some (.dict ft' k' a') => if ft = ft' then .dict ft (lift same k k') (lift same a a') else .obj false
    | some _ => .obj false
  | .set ft a, t2 => match peel same (.set ft a) t2 with
    | none => .set ft a
    | some (.set ft' a') => if ft = ft' then .set ft (lift same a a') else .obj false
    | some _ => .obj false
  | .list ft a, t2 => match peel same (.list ft a) t2 with
    | none => .list ft a
    | some (.list ft' a') => if ft = ft' then .list ft (lift same a a') else .obj false
    | some _ => .obj false
  | .tuple fs, t2 => match peel same (.tuple fs) t2 with
    | none => .tuple fs
    | some (.tuple fs') =>
      if fs = [] ∨ fs' = [] then .obj false
      else if fs.length = fs'.length then .tuple (liftFields same fs fs') else .obj false
    | some _ => .obj false
  | .str w, t2 => match peel same (.str w) t2 with
    | none => .str w
    | some u => liftLeaf (.str w) u
  | .uni w, t2 => match peel same (.uni w) t2 with
    | none => .uni w
    | some u => liftLeaf (.uni w) u
  | .userData, t2 => match peel same .userData t2 with
    | none => .userData
    | some u => liftLeaf .userData u
  | .iter a, t2 => match peel same (.iter a) t2 with
    | none => .iter a
    | some u => liftLeaf (.iter a) u
  | .range, t2 => match peel same .range t2 with
    | none => .range
    | some u => liftLeaf .range u
  | .file b, t2 => match peel same (.file b) t2 with
    | none => .file b
    | some u => liftLeaf (.file b) u
  | .tensor n d, t2 => match peel same (.tensor n d) t2 with
    | none => .tensor n d
    | some u => liftLeaf (.tensor n d) u
  | .other n, t2 => match peel same (.other n) t2 with
    | none => .other n
    | some u => liftLeaf (.other n) u
def liftFields (same : Ty → Ty → Bool) : List Ty → List Ty → List Ty
  | t :: ts, u :: us => lift same t u :: liftFields same ts us
  | _, _ => []
end

/-- `InferIteratorValueType`.  The test for equal fields compares a field with the array of the fields and never
holds, so a tuple with more than one field gives objects (640-656). -/
def iterTy : Ty → Ty
  | .list _ t => t
  | .set _ t => t
  | .dict _ k _ => k
  | .str _ => .prim 0 64 1
  | .uni _ => .uni false
  | .iter t => iterTy t
  | .range => .prim 0 64 1
  | .tuple [t] => t
  | .file b => if b then .str false else .uni false
  | .ref t => iterTy t
  | _ => .obj false

/-- `InferNthItemType`; `none`: the check fails. -/
def nthTy : Ty → Nat → Option Ty
  | .tuple fs, i => fs[i]?
  | .ref t, i => nthTy t i
  | t, _ => some (iterTy t)

/-- type.cc 724-741. -/
def convPrim (c b l c' b' l' : Nat) : Bool :=
  decide (l = l') && !(decide (c = 2) && !decide (c' = 2)) && decide (b ≤ b')

/-- What is left: type.cc 698-721, 786. -/
def convLeaf (anc : Nat → Nat → Bool) : Ty → Ty → Bool
  | _, .obj _ => true
  | .cls c, .cls d => decide (c = d) || anc c d || anc d c
  | .cls _, .userData => true
  | .userData, .cls _ => true
  | .tensor n d, .tensor n' d' =>
    (d.isNone || d'.isNone || decide (d = d')) && (n.isNone || n'.isNone || decide (n = n'))
  | .prim c b l, .prim c' b' l' => convPrim c b l c' b' l'
  | t, u => eqv t u

mutual
/-- `IsTypeConvertible`. -/
def conv (same : Ty → Ty → Bool) (anc : Nat → Nat → Bool) : Ty → Ty → Bool
  | .ref a, t2 => same (.ref a) t2 || conv same anc a t2
  | .obj _, _ => true
  | .dict ft k a, t2 => match peel same (.dict ft k a) t2 with
    | none => true
    | some (.obj _) => true
    | some (.dict ft' k' a') => decide (ft = ft') && (conv same anc k k' && conv same anc a a')
    | some _ => false
  | .set ft a, t2 => match peel same (.set ft a) t2 with
    | none => true
    | some (.obj _) => true
    | some (.set ft' a') => decide (ft = ft') && conv same anc a a'
    | some _ => false
  | .list ft a, t2 => match peel same (.list ft a) t2 with
    | none => true
    | some (.obj _) => true
    | some (.list ft' a') => decide (ft = ft') && conv same anc a a'
    | some _ => false
  | .tuple fs, t2 => match peel same (.tuple fs) t2 with
    | none => true
    | some (.obj _) => true
    | some (.tuple fs') => fs.isEmpty || fs'.isEmpty || (decide (fs.length = fs'.length) && convFields same anc fs fs')
    | some _ => false
  | .prim c b l, t2 => match peel same (.prim c b l) t2 with
    | none => true
    | some u => convLeaf anc (.prim c b l) u
  | .cls c, t2 => match peel same (.cls c) t2 with
    | none => true
    | some u => convLeaf anc (.cls c) u
  | .str w, t2 => match peel same (.str w) t2 with
    | none => true
    | some u => convLeaf anc (.str w) u
  | .uni w, t2 => match peel same (.uni w) t2 with
    | none => true
    | some u => convLeaf anc (.uni w) u
  | .userData, t2 => match peel same .userData t2 with
    | none => true
    | some u => convLeaf anc .userData u
  | .iter a, t2 => match peel same (.iter a) t2 with
    | none => true
    | some u => convLeaf anc (.iter a) u
  | .range, t2 => match peel same .range t2 with
    | none => true
    | some u => convLeaf anc .range u
  | .file b, t2 => match peel same (.file b) t2 with
    | none => true
    | some u => convLeaf anc (.file b) u
  | .tensor n d, t2 => match peel same (.tensor n d) t2 with
    | none => true
    | some u => convLeaf anc (.tensor n d) u
  | .other n, t2 => match peel same (.other n) t2 with
    | none => true
    | some u => convLeaf anc (.other n) u
def convFields (same : Ty → Ty → Bool) (anc : Nat → Nat → Bool) : List Ty → List Ty → Bool
  | t :: ts, u :: us => conv same anc t u && convFields same anc ts us
  | _, _ => true
end

mutual
/-- No files in a type. -/
def noFile : Ty → Bool
  | .file _ => false
  | .list _ a => noFile a
  | .set _ a => noFile a
  | .dict _ k a => noFile k && noFile a
  | .tuple fs => noFiles fs
  | .ref a => noFile a
  | .iter a => noFile a
  | _ => true
def noFiles : List Ty → Bool
  | [] => true
  | t :: ts => noFile t && noFiles ts
end

end Verif.TypeJoin
