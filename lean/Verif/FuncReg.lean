/-
How a compiled library finds its functions and methods by name.

Sources (all under /repo):
* src/runtime/func_registry_names_io.cc 30-67 (GenerateFuncRegistryNames, ReadFuncRegistryNames, LookupFuncRegistryName)
* src/runtime/function_name_rules.cc 33-59, python/matx/script/rules.py 21-37 (names of methods and constructors)
* src/runtime/library_module.cc 76-116 (LibraryModuleNode, GetFunction)
* src/runtime/container/user_data_ref.cc 57-86 (InitFuncTable, JoinFuncTables)
* src/codegen/codegen_c_host.cc 137-150, 388-400, 1513-1532, 1717-1737 (which names are registered, base classes)
* src/pipeline/jit_object.cc 485-494, 515-521 (the function of a function object)

Simplifications: characters are numbers.  The memory of a registry is the list of its bytes with the NUL that ends the
C literal; reading beyond it is an outcome of its own.  (That the literal denotes the bytes is C24.)  Addresses of
functions are of any type.  Hash tables are functions from names; `emplace` and `insert` keep the first entry of a name.
Symbols that are not registered, looked up in the shared object, are left out.
-/
namespace Verif.FuncReg

abbrev Name := List Nat

/-- `std::to_string` of an unsigned number. -/
def digits (n : Nat) : List Nat :=
  if n < 10 then [48 + n] else digits (n / 10) ++ [48 + n % 10]
termination_by n
decreasing_by omega

/-- `std::strtoull` on text without sign and spaces, in base ten. -/
def strtoull (s : List Nat) : Nat :=
  let v := (s.takeWhile fun c => decide (48 ≤ c ∧ c ≤ 57)).foldl (fun a c => a * 10 + (c - 48)) 0
  if v < 2 ^ 64 then v else 2 ^ 64 - 1

/-- `GenerateFuncRegistryNames`. -/
def genNames (names : List Name) : List Nat :=
  digits names.length ++ [0] ++ names.flatMap (· ++ [0])

/-- The C literal with this content, in memory. -/
def literal (names : List Name) : List Nat := genNames names ++ [0]

/-- `string_view(const char*)`: the text before the next NUL and the memory behind it; `none` if there is no NUL. -/
def cstr : List Nat → Option (List Nat × List Nat)
  | [] => none
  | c :: m => if c = 0 then some ([], m) else (cstr m).map fun (s, r) => (c :: s, r)

def readLoop : Nat → List Nat → Option (List Name)
  | 0, _ => some []
  | n + 1, m => (cstr m).bind fun (s, r) => (readLoop n r).map (s :: ·)

/-- `ReadFuncRegistryNames`. -/
def readNames (mem : List Nat) : Option (List Name) :=
  (cstr mem).bind fun (num, r) => readLoop (strtoull num) r

inductive Found
  | index (i : Nat)
  /-- -1 -/
  | missing
  /-- read beyond the names -/
  | beyond
deriving DecidableEq

def lookupLoop (target : Name) : Nat → Nat → List Nat → Found
  | 0, _, _ => .missing
  | n + 1, i, m =>
    match cstr m with
    | none => .beyond
    | some (s, r) => if s = target then .index i else lookupLoop target n (i + 1) r

/-- `LookupFuncRegistryName`: the first byte is taken for the number of names. -/
def lookup (mem : List Nat) (target : Name) : Found :=
  match mem with
  | [] => .beyond
  | c :: m => lookupLoop target (c % 256) 0 m

/-- A hash table of functions. -/
abbrev Table (F : Type) := Name → Option F

def emplace {F : Type} (t : Table F) (n : Name) (f : F) : Table F :=
  fun m => if m = n then (t n).or (some f) else t m

def fillTable {F : Type} : List (Name × F) → Table F → Table F
  | [], t => t
  | (n, f) :: l, t => fillTable l (emplace t n f)

/-- The table of `LibraryModuleNode`; `GetFunction` looks into it. -/
def library {F : Type} (mem : List Nat) (funcs : List F) : Option (Table F) :=
  (readNames mem).map fun names => fillTable (names.zip funcs) fun _ => none

/-- "__F_" -/
def sep : Name := [95, 95, 70, 95]

/-- "__init__" -/
def initName : Name := [95, 95, 105, 110, 105, 116, 95, 95]

/-- "_wrapper" -/
def wrapperSuffix : Name := [95, 119, 114, 97, 112, 112, 101, 114]

def addClassPrefix (cls m : Name) : Name := cls ++ sep ++ m

def addWrapperSuffix (f : Name) : Name := f ++ wrapperSuffix

def isClassMethod (cls m : Name) : Bool :=
  decide (m.length > cls.length + sep.length) && decide (m.take cls.length = cls) &&
    decide ((m.drop cls.length).take sep.length = sep)

def removeClassPrefix (cls m : Name) : Name := m.drop (cls.length + sep.length)

/-- The loop of `InitFuncTable`. -/
def initLoop {F : Type} (cls : Name) : List (Name × F) → Table F → Table F
  | [], t => t
  | (n, f) :: l, t =>
    if n = addWrapperSuffix (addClassPrefix cls initName) then initLoop cls l t
    else if isClassMethod cls n then initLoop cls l (emplace t (removeClassPrefix cls n) f)
    else initLoop cls l t

def initTable {F : Type} (mem : List Nat) (funcs : List F) (cls : Name) : Option (Table F) :=
  (readNames mem).map fun names => initLoop cls (names.zip funcs) fun _ => none

/-- The names registered for a class: the wrapper of its constructor, if it has one, and its methods. -/
def classNames (cls : Name) (hasInit : Bool) (methods : List Name) : List Name :=
  (if hasInit then [addWrapperSuffix (addClassPrefix cls initName)] else []) ++ methods.map (addClassPrefix cls)

/-- `JoinFuncTables`. -/
def joinTables {F : Type} (ts : List (Table F)) : Table F :=
  ts.foldl (fun acc t n => (acc n).or (t n)) fun _ => none

/-- The tables of a class and its bases, the class first, from their own tables: each is joined with the tables of all
its bases, which are joined already. -/
def classTables {F : Type} : List (Table F) → List (Table F)
  | [] => []
  | t :: bases =>
    let done := classTables bases
    joinTables (t :: done) :: done

end Verif.FuncReg
