/-
Saving values as JSON: `src/pipeline/pickle.cc` (`ToJsonStruct`, `FromJsonStruct` for pipelines and
`serialize` / `deserialize`; `ToJson`, `FromJson` for the `json` module), on the level of JSON documents.

Simplifications: rapidjson is not part of the repository; a document is a tree `J`, and where text is
needed (`PickleProps.lean`) writing and parsing are arbitrary functions with the stated laws. Every
exception is `none`; a failed `RAPIDJSON_ASSERT` is an exception (json_util.h 26, pickle.h 25). Floats are
bit patterns and the conversions between their widths arbitrary functions (`Env`). Values form trees:
sharing is lost and a cyclic value recurses for ever in the code. Pointers saved as numbers (opaque
handles, functions) are numbers. Arrays and native operators as keys are compared by `Env.same` (in the
code by address). A shape with a negative dimension is rejected (the code allocates).
-/
import Verif.Utf8

namespace Verif.Pickle

/-- Element types that `MATX_NDARRAY_TYPE_SWITCH` (data_type.h 359-411) supports. -/
inductive DT where
  | i8 | i16 | i32 | i64 | u8 | u16 | f16 | f32 | f64
deriving DecidableEq, Repr

/-- Runtime values (`Any`). -/
inductive Val where
  | none
  | int (i : Int)
  | float (bits : Nat)
  | bytes (b : List UInt8)
  | str (s : List Nat)
  | list (xs : List Val)
  | tuple (xs : List Val)
  | set (xs : List Val)
  | dict (xs : List (Val × Val))
  /-- type, shape, contiguous?, elements in order; `none` is memory that was never written -/
  | nd (t : DT) (shape : List Nat) (contig : Bool) (data : List (Option Int))
  /-- native operator: tag, number of variables, jit?, class, instance -/
  | native (tag vars : Nat) (jit : Bool) (cls inst : List UInt8)
  /-- other user object -/
  | user
  | handle (p : Nat)
  | func (p : Nat)
  /-- values of other types -/
  | other
deriving Repr

abbrev Name := List UInt8

/-- JSON documents. `num` is a number that rapidjson keeps as an integer. -/
inductive J where
  | null
  | bool (b : Bool)
  | num (i : Int)
  | dbl (bits : Nat)
  | str (s : Name)
  | arr (xs : List J)
  | obj (ms : List (Name × J))
deriving Repr

/-! ## Type names -/

inductive Tag where
  | int | float | handle | null | bytes | str | list | dict | set | tuple | nd | user | func | other
deriving DecidableEq, Repr

/-- `TypeIndex2Str` (global_type_index.cc 27-96), as the bytes of the name. -/
def tagName : Tag → Name
  | .int => [105, 110, 116]
  | .float => [102, 108, 111, 97, 116]
  | .handle => [104, 97, 110, 100, 108, 101]
  | .null => [110, 117, 108, 108, 112, 116, 114]
  | .bytes => [83, 116, 114, 105, 110, 103]
  | .str => [85, 110, 105, 99, 111, 100, 101]
  | .list => [76, 105, 115, 116]
  | .dict => [68, 105, 99, 116]
  | .set => [83, 101, 116]
  | .tuple => [84, 117, 112, 108, 101]
  | .nd => [78, 68, 65, 114, 114, 97, 121]
  | .user => [85, 115, 101, 114, 68, 97, 116, 97]
  | .func => [77, 65, 84, 88, 70, 117, 110, 99, 116, 105, 111, 110, 72, 97, 110, 100, 108, 101]
  | .other => [85, 110, 107, 110, 111, 119, 110]

/-- "ADT", the name of tuples in old files (pickle.cc 400-403). -/
def adtName : Name := [65, 68, 84]

/-- `Str2TypeIndex` (global_type_index.cc 99-140): there is no case for function handles. -/
def tagOf (n : Name) : Tag :=
  if n = tagName .int then .int
  else if n = tagName .float then .float
  else if n = tagName .handle then .handle
  else if n = tagName .null then .null
  else if n = tagName .bytes then .bytes
  else if n = tagName .str then .str
  else if n = tagName .list then .list
  else if n = tagName .dict then .dict
  else if n = tagName .set then .set
  else if n = tagName .nd then .nd
  else if n = tagName .tuple then .tuple
  else if n = tagName .user then .user
  else .other

/-- `DTypeUnicode` of the element types, as bytes ("int8", …). -/
def dtName : DT → Name
  | .i8 => [105, 110, 116, 56]
  | .i16 => [105, 110, 116, 49, 54]
  | .i32 => [105, 110, 116, 51, 50]
  | .i64 => [105, 110, 116, 54, 52]
  | .u8 => [117, 105, 110, 116, 56]
  | .u16 => [117, 105, 110, 116, 49, 54]
  | .f16 => [102, 108, 111, 97, 116, 49, 54]
  | .f32 => [102, 108, 111, 97, 116, 51, 50]
  | .f64 => [102, 108, 111, 97, 116, 54, 52]

/-- `String2DLDataType` with the type switch: other types raise. -/
def dtOf (n : Name) : Option DT :=
  [DT.i8, .i16, .i32, .i64, .u8, .u16, .f16, .f32, .f64].find? (fun t => dtName t = n)

/-! ## Member names -/

def kT : Name := [116]
def kV : Name := [118]
def kSize : Name := [115, 105, 122, 101]
def kData : Name := [100, 97, 116, 97]
def kDtype : Name := [100, 116, 121, 112, 101]
def kShape : Name := [115, 104, 97, 112, 101]
def kTag : Name := [116, 97, 103]
def kType : Name := [116, 121, 112, 101]
def kClass : Name := [99, 108, 97, 115, 115, 95, 110, 97, 109, 101]
def kVar : Name := [118, 97, 114, 95, 110, 117, 109]
def kUd : Name := [117, 100, 95, 112, 116, 114]
def kIsNative : Name := [105, 115, 95, 110, 97, 116, 105, 118, 101, 95, 111, 112]
def kIsJit : Name := [105, 115, 95, 106, 105, 116, 95, 111, 98, 106, 101, 99, 116]
def kNClass : Name := [110, 97, 116, 105, 118, 101, 95, 99, 108, 97, 115, 115, 95, 110, 97, 109, 101]
def kNInst : Name :=
  [110, 97, 116, 105, 118, 101, 95, 105, 110, 115, 116, 97, 110, 99, 101, 95, 110, 97, 109, 101]
def kUserPtr : Name := [117, 115, 101, 114, 95, 112, 116, 114]
def kPtr : Name := [112, 116, 114]

/-- `FindMember`: the first member with the name. -/
def look (ms : List (Name × J)) (n : Name) : Option J :=
  (ms.find? (fun m => m.1 = n)).map Prod.snd

/-! ## Numbers -/

structure Env where
  /-- `double` of a `float` pattern, of a `Half` pattern, and back -/
  widen32 : Nat → Nat
  narrow32 : Nat → Nat
  widen16 : Nat → Nat
  narrow16 : Nat → Nat
  /-- `double` of an integer -/
  ofInt : Int → Nat
  /-- whether the hash table takes two keys for the same key -/
  same : Val → Val → Bool
  /-- `str(x)` of an int or a float, encoded (only for `json.dumps` keys) -/
  text : Val → Name

/-- `GetInt`, `GetInt64`, `GetDouble`, `GetUint` with their assertions. -/
def getInt : J → Option Int
  | .num i => if -2 ^ 31 ≤ i ∧ i < 2 ^ 31 then some i else none
  | _ => none
def getInt64 : J → Option Int
  | .num i => if -2 ^ 63 ≤ i ∧ i < 2 ^ 63 then some i else none
  | _ => none
def getUint : J → Option Nat
  | .num i => if 0 ≤ i ∧ i < 2 ^ 32 then some i.toNat else none
  | _ => none
def getUint64 : J → Option Nat
  | .num i => if 0 ≤ i ∧ i < 2 ^ 64 then some i.toNat else none
  | _ => none
def getDouble (E : Env) : J → Option Nat
  | .num i => some (E.ofInt i)
  | .dbl b => some b
  | _ => none
def getBool : J → Option Bool
  | .bool b => some b
  | _ => none
/-- `JSON_GET(…, String)` gives a `const char*`: the text ends at the first zero. -/
def getStr : J → Option Name
  | .str s => some (s.takeWhile (fun c => c ≠ 0))
  | _ => none

/-- `AsValue<T>` (pickle.cc 257-305). -/
def asElem (E : Env) (t : DT) (j : J) : Option Int :=
  match t with
  | .i8 => (getInt j).map (fun i => i.bmod (2 ^ 8))
  | .i16 => (getInt j).map (fun i => i.bmod (2 ^ 16))
  | .i32 => getInt j
  | .i64 => getInt64 j
  | .u8 => (getInt j).map (fun i => i % 2 ^ 8)
  | .u16 => (getInt j).map (fun i => i % 2 ^ 16)
  | .f16 => (getDouble E j).map (fun b => (E.narrow16 (E.narrow32 b) : Int))
  | .f32 => (getDouble E j).map (fun b => (E.narrow32 b : Int))
  | .f64 => (getDouble E j).map Int.ofNat

/-- `FromValue` (pickle.cc 321-359): floats (patterns) are written as doubles. -/
def fromElem (E : Env) (t : DT) (x : Int) : J :=
  match t with
  | .f16 => .dbl (E.widen32 (E.widen16 x.toNat))
  | .f32 => .dbl (E.widen32 x.toNat)
  | .f64 => .dbl x.toNat
  | _ => .num x

/-- `ElementSize` (ndarray.cc 872-880). -/
def elems (shape : List Nat) : Nat := shape.foldl (· * ·) 1

/-- `GetNumericDataFromJson` (pickle.cc 307-318) into the memory of a new array. -/
def fill (E : Env) (t : DT) : List J → List (Option Int) → Nat → Option (List (Option Int))
  | [], mem, _ => some mem
  | j :: js, mem, k =>
    if mem.length ≤ k then none
    else (asElem E t j).bind (fun x => fill E t js (mem.set k (some x)) (k + 1))

/-! ## Writing -/

def getShape : List J → Option (List Nat)
  | [] => some []
  | j :: js => do
    let i ← getInt64 j
    let r ← getShape js
    if 0 ≤ i then some (i.toNat :: r) else none

/-- The memory that the writer reads must have been written. -/
def readAll : List (Option Int) → Option (List Int)
  | [] => some []
  | some x :: r => (readAll r).map (fun l => x :: l)
  | none :: _ => none

def node (t : Tag) (v : J) : J := .obj [(kT, .str (tagName t)), (kV, v)]

/-- Bytes that go into a JSON array instead of a string (pickle.cc 587-590). -/
def awkward (c : UInt8) : Bool := 127 ≤ c.toNat || c.toNat == 0

mutual
/-- `ToJsonStruct` (pickle.cc 564-655) with the functions it calls (456-562). -/
def toS (E : Env) : Val → Option J
  | .none => some (node .null .null)
  | .int i => some (node .int (.num i))
  | .float b => some (node .float (.dbl b))
  | .bytes b =>
    if b.any awkward then some (node .bytes (.arr (b.map (fun c => J.num (c.toNat : Int)))))
    else some (node .bytes (.str b))
  | .str s => some (node .str (.str (Utf8.encode s)))
  | .list xs => (toSList E xs).map (fun l => node .list (.arr l))
  | .tuple xs => (toSList E xs).map (fun l =>
      node .tuple (.obj [(kSize, .num l.length), (kData, .arr l)]))
  | .set xs => (toSList E xs).map (fun l => node .set (.arr l))
  | .dict xs => (toSPairs E xs).map (fun l => node .dict (.arr l))
  | .nd t shape contig data =>
    if contig then
      (readAll data).map (fun l => node .nd (.obj [
        (kDtype, .str (dtName t)),
        (kShape, .arr (shape.map (fun (d : Nat) => J.num (d : Int)))),
        (kData, .arr (l.map (fromElem E t)))]))
    else none
  | .native tag vars jit cls inst => some (node .user (.obj [
      (kTag, .num tag), (kType, .num 2), (kClass, .str cls), (kVar, .num vars), (kUd, .num 0),
      (kIsNative, .bool true), (kIsJit, .bool jit), (kNClass, .str cls), (kNInst, .str inst)]))
  | .user => none
  | .handle p => some (node .handle (.obj [(kUserPtr, .num p)]))
  | .func p => some (node .func (.obj [(kPtr, .num p)]))
  | .other => none
def toSList (E : Env) : List Val → Option (List J)
  | [] => some []
  | x :: r => do
    let j ← toS E x
    let l ← toSList E r
    some (j :: l)
def toSPairs (E : Env) : List (Val × Val) → Option (List J)
  | [] => some []
  | (k, v) :: r => do
    let jk ← toS E k
    let jv ← toS E v
    let l ← toSPairs E r
    some (jk :: jv :: l)
end

/-! ## Reading -/

/-- `Any::Hash` does not throw (runtime_value.cc 536-619). -/
def hashable : Val → Bool
  | .tuple xs => hashableAll xs
  | .list _ => false
  | .dict _ => false
  | .set _ => false
  | .func _ => false
  | _ => true
where
  hashableAll : List Val → Bool
    | [] => true
    | x :: r => hashable x && hashableAll r

/-- `Dict::set_item`: replaces the value of an equal key. -/
def setItem (E : Env) (d : List (Val × Val)) (k v : Val) : Option (List (Val × Val)) :=
  if hashable k then
    if d.any (fun e => E.same e.1 k) then
      some (d.map (fun e => if E.same e.1 k then (e.1, v) else e))
    else some (d ++ [(k, v)])
  else none

/-- `Set::emplace`. -/
def addItem (E : Env) (d : List Val) (k : Val) : Option (List Val) :=
  if hashable k then if d.any (fun e => E.same e k) then some d else some (d ++ [k]) else none

def addAll (E : Env) : List Val → List Val → Option (List Val)
  | acc, [] => some acc
  | acc, x :: r => (addItem E acc x).bind (fun acc => addAll E acc r)

/-- Keys and values in turn (pickle.cc 197-207). -/
def setAll (E : Env) : List (Val × Val) → List Val → Option (List (Val × Val))
  | acc, k :: v :: r => (setItem E acc k v).bind (fun acc => setAll E acc r)
  | acc, [] => some acc
  | _, [_] => none

/-- `FromJsonStructNDArray` (pickle.cc 363-389). -/
def fromNd (E : Env) : J → Option Val
  | .obj ms => do
    let d ← look ms kDtype
    let s ← look ms kShape
    let x ← look ms kData
    let n ← getStr d
    let t ← dtOf n
    match s, x with
    | .arr s, .arr x => do
      let shape ← getShape s
      let mem ← fill E t x (List.replicate (elems shape) none) 0
      some (.nd t shape true mem)
    | _, _ => none
  | _ => none

/-- `FromJsonStructUserData` (pickle.cc 221-242); type 2 is `kNativeData`. -/
def fromUser : J → Option Val
  | .obj ms => do
    let tag ← (look ms kTag).bind getUint
    let type ← (look ms kType).bind getUint
    let vars ← (look ms kVar).bind getUint
    if type = 2 then do
      let op ← (look ms kIsNative).bind getBool
      if op then do
        let jit ← (look ms kIsJit).bind getBool
        let cls ← (look ms kNClass).bind getStr
        let inst ← (look ms kNInst).bind getStr
        some (.native tag vars jit cls inst)
      else none
    else none
  | _ => none

/-- The bytes of a string or an array of numbers (pickle.cc 415-427). -/
def fromBytes : J → Option Val
  | .str s => some (.bytes s)
  | .arr xs => (xs.mapM getUint).map (fun l => .bytes (l.map UInt8.ofNat))
  | _ => none

/-- `decode()` of the bytes. -/
def fromStr : J → Option Val
  | .str s =>
    match Utf8.utf8Decode s with
    | .ok cps => some (.str cps)
    | _ => none
  | _ => none

/-- The cases of `FromJsonStruct` that contain no further nodes (pickle.cc 405-433, 446-452). -/
def fromLeaf (E : Env) (t : Tag) (v : J) : Option Val :=
  match t with
  | .int => (getInt64 v).map .int
  | .float => (getDouble E v).map .float
  | .null => some .none
  | .bytes => fromBytes v
  | .str => fromStr v
  | .user => fromUser v
  | .handle =>
    match v with
    | .obj ms => ((look ms kUserPtr).bind getUint64).map .handle
    | _ => none
  | .nd => fromNd E v
  | _ => none

mutual
/-- `FromJsonStruct` (pickle.cc 391-454): a node has exactly the members "t" and "v". -/
def fromS (E : Env) : J → Option Val
  | .obj [(n1, j1), (n2, j2)] =>
    if n1 = kT ∧ n2 = kV then
      match j1 with
      | .str ty => fromV E (if ty = adtName then .tuple else tagOf ty) j2
      | _ => none
    else if n1 = kV ∧ n2 = kT then
      match j2 with
      | .str ty => fromV E (if ty = adtName then .tuple else tagOf ty) j1
      | _ => none
    else none
  | _ => none
/-- The switch over the type. -/
def fromV (E : Env) (t : Tag) : J → Option Val
  | .arr xs =>
    match t with
    | .list => (fromSList E xs).map .list
    | .set => (fromSList E xs).bind (fun l => (addAll E [] l).map .set)
    | .dict => (fromSList E xs).bind (fun l => (setAll E [] l).map .dict)
    | t => fromLeaf E t (.arr xs)
  | .obj ms =>
    match t with
    | .tuple => ((look ms kSize).bind getUint).bind (fun _ => fromData E ms)
    | t => fromLeaf E t (.obj ms)
  | v => fromLeaf E t v
/-- The member "data" of a tuple (pickle.cc 244-255). -/
def fromData (E : Env) : List (Name × J) → Option Val
  | [] => none
  | (n, j) :: r =>
    if n = kData then
      match j with
      | .arr xs => (fromSList E xs).map .tuple
      | _ => none
    else fromData E r
def fromSList (E : Env) : List J → Option (List Val)
  | [] => some []
  | j :: r => do
    let v ← fromS E j
    let l ← fromSList E r
    some (v :: l)
end

/-! ## `json` -/

mutual
/-- `ToJson` (pickle.cc 138-176) with `ToJsonList` and `ToJsonDict` (95-136). -/
def toJson (E : Env) : Val → Option J
  | .none => some .null
  | .int i => some (.num i)
  | .float b => some (.dbl b)
  | .bytes b => some (.str b)
  | .str s => some (.str (Utf8.encode s))
  | .list xs => (toJsonList E xs).map .arr
  | .dict xs => (toJsonPairs E xs).map .obj
  | _ => none
def toJsonList (E : Env) : List Val → Option (List J)
  | [] => some []
  | x :: r => do
    let j ← toJson E x
    let l ← toJsonList E r
    some (j :: l)
def toJsonPairs (E : Env) : List (Val × Val) → Option (List (Name × J))
  | [] => some []
  | (k, v) :: r => do
    let n ← match k with
      | .str s => some (Utf8.encode s)
      | .int i => some (E.text (.int i))
      | .float b => some (E.text (.float b))
      | .none => some [110, 117, 108, 108]
      | _ => none
    let j ← toJson E v
    let l ← toJsonPairs E r
    some ((n, j) :: l)
end

/-- `static_cast<int64_t>` of a number beyond `int64_t` (pickle.cc 80-91). -/
def wrap64 (i : Int) : Int := i.bmod (2 ^ 64)

mutual
/-- `FromJson` with `use_unicode` (pickle.cc 38-93). `RTValue(true)` is the integer 1. -/
def fromJson (E : Env) : J → Option Val
  | .null => some .none
  | .bool b => some (.int (if b then 1 else 0))
  | .num i => some (.int (wrap64 i))
  | .dbl b => some (.float b)
  | .str s => fromStr (.str s)
  | .arr xs => (fromJsonList E xs).map .list
  | .obj ms => (fromJsonPairs E [] ms).map .dict
def fromJsonList (E : Env) : List J → Option (List Val)
  | [] => some []
  | j :: r => do
    let v ← fromJson E j
    let l ← fromJsonList E r
    some (v :: l)
def fromJsonPairs (E : Env) (acc : List (Val × Val)) : List (Name × J) → Option (List (Val × Val))
  | [] => some acc
  | (n, j) :: r => do
    let k ← fromStr (.str n)
    let v ← fromJson E j
    let acc ← setItem E acc k v
    fromJsonPairs E acc r
end

/-- `json.dumps` (json.cc 44-51) with `JsonUtil::ToString` (json_util.cc 64-137): a document that is one
string is returned as it is, `null` as the empty text; numbers are printed by `printf`; only arrays and
objects go through the writer. -/
def dumps (E : Env) (write : J → Option Name) (fmt : J → Name) (v : Val) : Option Name :=
  (toJson E v).bind fun j =>
    match j with
    | .null => some []
    | .str s => some s
    | .arr xs => write (.arr xs)
    | .obj ms => write (.obj ms)
    | j => some (fmt j)

/-- `json.loads` (json.cc 31-35). -/
def loads (E : Env) (parse : Name → Option J) (t : Name) : Option Val := (parse t).bind (fromJson E)

/-- `serialize` and `deserialize` (pickle.cc 659-683). -/
def kVersion : Name := [118, 101, 114, 115, 105, 111, 110]
def kDoc : Name := [100, 111, 99]
def version : Name := [118, 49, 46, 48]

def serialize (E : Env) (write : J → Option Name) (v : Val) : Option Name :=
  (toS E v).bind fun j => write (.obj [(kVersion, .str version), (kDoc, j)])

def deserialize (E : Env) (parse : Name → Option J) (t : Name) : Option Val :=
  (parse t).bind fun
    | .obj ms =>
      match look ms kVersion, look ms kDoc with
      | some (.str s), some j => if s.takeWhile (fun c => c ≠ 0) = version then fromS E j else none
      | _, _ => none
    | _ => none

end Verif.Pickle
