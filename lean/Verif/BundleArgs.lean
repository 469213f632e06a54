import Mathlib.Data.List.Basic
/-
Constructor arguments that are names of files: how they are found when an object is made, replaced when it is
saved, and completed when it is loaded.

Sources (all under /repo):
* python/matx/toolchain.py 64-90 (PathGuesser)
* src/pipeline/jit_object.cc 248-264 (JsonPathGetter_NextToken), 266-285 (JsonPathGetter), 287-346 (Bundle),
  383-443 (Init)
* src/pipeline/op_kernel.cc 45-54 (BundlePath)

Simplifications: strings are lists of characters.  Values are strings, lists, dicts and others (numbers, bytes,
tuples, ...: neither searched nor changed).  `isFile` is `os.path.exists` and `bp` is `BundlePath`, which fails if
the file is not there.  A container that is an argument is the same object in the options of the operator, in the
arguments that the constructor was called with, and in the configuration that is written (`RTValue` holds a
reference); strings are copied.  Different arguments share no containers.  Paths not beginning with `$.` (written by
older versions) are not modelled.
-/

namespace Verif.BundleArgs

abbrev Str := List Char

/-- Keys of dicts. -/
inductive Key where
  | str (s : Str)
  | int (n : Nat)
deriving DecidableEq

/-- Arguments. -/
inductive Val where
  | str (s : Str)
  | list (xs : List Val)
  | dict (ks : List Key) (vs : List Val)
  | other (n : Nat)

/-- Decimal digits. -/
def digits (n : Nat) : Str :=
  if _h : n < 10 then [Char.ofNat (48 + n)] else digits (n / 10) ++ [Char.ofNat (48 + n % 10)]
termination_by n

/-- `'{}'.format(k)`. -/
def Key.format : Key → Str
  | .str s => s
  | .int n => digits n

/-! ### Finding files: PathGuesser -/

mutual
/-- `PathGuesser.guess`, toolchain.py 69-90: the paths of the strings that are files. -/
def guess (isFile : Str → Bool) (path : Str) : Val → List Str
  | .str s => if s.all (fun c => c == '.' || c == '/') then [] else if isFile s then [path] else []
  | .list xs => guessList isFile path 0 xs
  | .dict ks vs => guessDict isFile path ks vs
  | .other _ => []
def guessList (isFile : Str → Bool) (path : Str) (i : Nat) : List Val → List Str
  | [] => []
  | v :: r => guess isFile (path ++ '[' :: digits i ++ [']']) v ++ guessList isFile path (i + 1) r
def guessDict (isFile : Str → Bool) (path : Str) : List Key → List Val → List Str
  | k :: ks, v :: vs => guess isFile (path ++ '.' :: k.format) v ++ guessDict isFile path ks vs
  | _, _ => []
end

/-- The call for the constructor's arguments: a dict from names to values. -/
def guessArgs (isFile : Str → Bool) : List (Str × Val) → List Str
  | [] => []
  | (a, v) :: r => guess isFile ('$' :: '.' :: a) v ++ guessArgs isFile r

/-! ### Following paths: JsonPathGetter -/

/-- Tokens of a path. -/
inductive Tok where
  | idx (n : Nat)
  | key (s : Str)
deriving DecidableEq

/-- A digit. -/
def digit (c : Char) : Option Nat := if '0' ≤ c ∧ c ≤ '9' then some (c.toNat - 48) else none

/-- `Kernel_int64_t::make` on digits. -/
def readNat : Str → Nat → Option Nat
  | [], acc => some acc
  | c :: r, acc => (digit c).bind fun d => readNat r (acc * 10 + d)

/-- `while (jsonpath[b] == U'.') ++b`. -/
def skipDots (s : Str) : Str := s.dropWhile (· == '.')

/-- Not a separator. -/
def inKey (c : Char) : Bool := !(c == '.' || c == '[')

/-- `JsonPathGetter_NextToken` and the loop of `JsonPathGetter`, jit_object.cc 248-285; the first argument bounds the
number of tokens. -/
def parse : Nat → Str → Option (List Tok)
  | _, [] => some []
  | 0, _ => none
  | n + 1, '[' :: r =>
    if ']' ∈ r then
      (readNat (r.takeWhile (· != ']')) 0).bind fun i =>
        (parse n (skipDots ((r.dropWhile (· != ']')).drop 1))).map (.idx i :: ·)
    else none
  | n + 1, s => (parse n (skipDots (s.dropWhile inKey))).map (.key (s.takeWhile inKey) :: ·)

/-- Replacing an item of a list. -/
def modList (g : Val → Option Val) : Nat → List Val → Option (List Val)
  | _, [] => none
  | 0, v :: r => (g v).map (· :: r)
  | n + 1, v :: r => (modList g n r).map (v :: ·)

/-- Replacing a value of a dict. -/
def modDict (g : Val → Option Val) (k : Key) : List Key → List Val → Option (List Val)
  | k' :: ks, v :: vs => if k' = k then (g v).map (· :: vs) else (modDict g k ks vs).map (v :: ·)
  | _, _ => none

/-- `*JsonPathGetter(obj, path) = f(...)`: the string at the path is replaced. -/
def modify (f : Str → Option Str) : List Tok → Val → Option Val
  | [], .str s => (f s).map .str
  | .idx i :: p, .list xs => (modList (modify f p) i xs).map .list
  | .key k :: p, .dict ks vs => (modDict (modify f p) (.str k) ks vs).map (.dict ks)
  | _, _ => none

/-- Replacing an argument by name. -/
def modArg (g : Val → Option Val) (a : Str) : List (Str × Val) → Option (List (Str × Val))
  | [] => none
  | (b, v) :: r => if b = a then (g v).map (fun w => (b, w) :: r) else (modArg g a r).map ((b, v) :: ·)

/-- One path of `need_bundle`: jit_object.cc 303-321 in `Bundle`, 413-428 and 440 in `Init`. -/
def applyPath (f : Str → Option Str) (args : List (Str × Val)) (path : Str) : Option (List (Str × Val)) :=
  match path with
  | '$' :: '.' :: r =>
    let rest := skipDots (r.dropWhile inKey)
    (parse (rest.length + 1) rest).bind fun ts => modArg (modify f ts) (r.takeWhile inKey) args
  | _ => none

/-- All paths of `need_bundle`. -/
def applyPaths (f : Str → Option Str) (paths : List Str) (args : List (Str × Val)) : Option (List (Str × Val)) :=
  paths.foldlM (applyPath f) args

/-! ### The operator -/

/-- Containers are shared, strings are copied. -/
def share (old new : Val) : Val :=
  match old with
  | .list _ => new
  | .dict _ _ => new
  | v => v

/-- After a copy of the arguments was changed to `new`. -/
def shareArgs : List (Str × Val) → List (Str × Val) → List (Str × Val)
  | (a, v) :: r, (_, w) :: r' => (a, share v w) :: shareArgs r r'
  | l, _ => l

/-- A `JitObject`: the paths of files in its arguments, its options, what its constructor was given, and the
prefix of its files. -/
structure Obj where
  paths : List Str
  opt : List (Str × Val)
  live : List (Str × Val)
  pre : Str

/-- `make_jit_object_creator` and `Init` of an object that is made from Python. -/
def create (isFile : Str → Bool) (args : List (Str × Val)) : Obj := ⟨guessArgs isFile args, args, args, []⟩

/-- `Bundle`, jit_object.cc 287-346: the arguments that are written, and the object afterwards. -/
def bundle (bp : Str → Str → Option Str) (o : Obj) : Option (List (Str × Val) × Obj) :=
  (applyPaths (bp o.pre) o.paths o.opt).map fun new =>
    (new, { o with opt := shareArgs o.opt new, live := shareArgs o.live new })

/-- `Init` of a loaded object, jit_object.cc 403-443. -/
def initLoaded (paths : List Str) (args : List (Str × Val)) (pre : Str) : Option Obj :=
  (applyPaths (fun s => some (pre ++ s)) paths args).map fun new => ⟨paths, shareArgs args new, new, pre⟩

end Verif.BundleArgs
