import Verif.Utf8

/-!
# msgpack serialisation

Model of `src/runtime/msgpack/msgpack.cc`, `pack_template.h`, `unpack_template.h`, `unpack.h`, `sysdep.h`.

Pointers into the input are suffixes of the byte list (`pe` is `[]`).  Dereferencing or stepping over `[]`,
or handing on a region that is longer than what is left, gives the outcome `oob`, so the absence of reads
past the end is something to be proved.  Byte order is little endian, `int` is 32 bits.

Simplifications: memory allocation never fails (`realloc`, `reserve(n)` with `n` taken from the input), the C
stack is unbounded (nested set extensions recurse), leaks on error paths are not tracked.  A `dict`/`set` is
the list of its entries in insertion order; `Env.same` decides whether two keys are taken for one key, and is
arbitrary.  The conversion from `float` to `double` and the arithmetic that turns a timestamp into a `double`
are arbitrary functions of `Env`.  Float values are their 64-bit patterns.
-/

namespace Verif.Msgpack

/-- Values that can be serialised (`Any` with the type codes of `BasicMessagePacker::pack`). -/
inductive Val where
  | nil
  | int (i : Int)
  | float (bits : Nat)
  | bytes (b : List UInt8)
  | str (s : List Nat)
  | list (xs : List Val)
  | tuple (xs : List Val)
  | dict (xs : List (Val × Val))
  | set (xs : List Val)
  /-- dtype code, bits, lanes; shape; data of a contiguous array -/
  | ndarray (code bits lanes : Nat) (shape : List Int) (data : List UInt8)
  deriving BEq, Repr, Inhabited

/-! ## Bytes -/

/-- `_msgpack_store16/32/64` (sysdep.h 178–183) on a little-endian machine: `k` bytes, highest first. -/
def be : Nat → Nat → List UInt8
  | 0, _ => []
  | k + 1, n => UInt8.ofNat (n >>> (8 * k)) :: be k n

/-- `_msgpack_load16/32/64` (sysdep.h 130–148). -/
def loadBE (bs : List UInt8) : Nat := bs.foldl (fun a b => (a <<< 8) ||| b.toNat) 0

/-- `memcpy` of an integer object to bytes, little endian (msgpack.cc 234–253). -/
def le : Nat → Nat → List UInt8
  | 0, _ => []
  | k + 1, n => UInt8.ofNat n :: le k (n >>> 8)

/-- `memcpy` from bytes into an integer object, little endian. -/
def loadLE : List UInt8 → Nat
  | [] => 0
  | b :: r => b.toNat ||| (loadLE r <<< 8)

/-- The unsigned `k`-bit image of an integer (`(uint16_t)d`, …). -/
def toU (k : Nat) (d : Int) : Nat := (d % 2 ^ k).toNat

/-- Conversion of a `k`-bit unsigned pattern to a signed integer (`int64_t(d)`, `(int16_t)…`). -/
def toS (k : Nat) (n : Nat) : Int := if n < 2 ^ (k - 1) then n else (n : Int) - 2 ^ k

/-! ## Packing -/

/-- `ITEM_LIMIT` (msgpack.cc 41). -/
def itemLimit : Nat := 4294967295

/-- `msgpack_pack_real_int64` (pack_template.h 212–266). -/
def packInt (d : Int) : List UInt8 :=
  if d < -32 then
    if d < -32768 then
      if d < -2147483648 then 0xd3 :: be 8 (toU 64 d)
      else 0xd2 :: be 4 (toU 32 d)
    else if d < -128 then 0xd1 :: be 2 (toU 16 d)
    else [0xd0, UInt8.ofNat (toU 8 d)]
  else if d < 128 then [UInt8.ofNat (toU 8 d)]
  else if d < 65536 then
    if d < 256 then [0xcc, UInt8.ofNat (toU 8 d)]
    else 0xcd :: be 2 (toU 16 d)
  else if d < 4294967296 then 0xce :: be 4 (toU 32 d)
  else 0xcf :: be 8 (toU 64 d)

/-- `msgpack_pack_array` (pack_template.h 627–646). -/
def packArrayHdr (n : Nat) : List UInt8 :=
  if n < 16 then [UInt8.ofNat (0x90 ||| n)]
  else if n < 65536 then 0xdc :: be 2 n
  else 0xdd :: be 4 n

/-- `msgpack_pack_map` (pack_template.h 648–667). -/
def packMapHdr (n : Nat) : List UInt8 :=
  if n < 16 then [UInt8.ofNat (0x80 ||| n)]
  else if n < 65536 then 0xde :: be 2 n
  else 0xdf :: be 4 n

/-- `msgpack_pack_raw` with `use_bin_type` (pack_template.h 669–689). -/
def packRawHdr (l : Nat) : List UInt8 :=
  if l < 32 then [UInt8.ofNat (0xa0 ||| l)]
  else if l < 256 then [0xd9, UInt8.ofNat l]
  else if l < 65536 then 0xda :: be 2 l
  else 0xdb :: be 4 l

/-- `msgpack_pack_bin` with `use_bin_type` (pack_template.h 691–708). -/
def packBinHdr (l : Nat) : List UInt8 :=
  if l < 256 then [0xc4, UInt8.ofNat l]
  else if l < 65536 then 0xc5 :: be 2 l
  else 0xc6 :: be 4 l

/-- `msgpack_pack_ext` (pack_template.h 719–774); `(uint32_t)l` cuts the length to 32 bits. -/
def packExtHdr (tc : UInt8) (l : Nat) : List UInt8 :=
  if l = 1 then [0xd4, tc]
  else if l = 2 then [0xd5, tc]
  else if l = 4 then [0xd6, tc]
  else if l = 8 then [0xd7, tc]
  else if l = 16 then [0xd8, tc]
  else if l < 256 then [0xc7, UInt8.ofNat l, tc]
  else if l < 65536 then 0xc8 :: be 2 l ++ [tc]
  else 0xc9 :: be 4 (l % 4294967296) ++ [tc]

/-- Body of an NDArray extension (msgpack.cc 220–254). -/
def packNd (code bits lanes : Nat) (shape : List Int) (data : List UInt8) : List UInt8 :=
  [UInt8.ofNat code, UInt8.ofNat bits] ++ le 2 lanes ++ le 4 shape.length ++
    shape.flatMap (fun d => le 8 (toU 64 d)) ++ data

mutual
/-- `BasicMessagePacker::pack` (msgpack.cc 95–260); `none` is an exception. -/
def pack (nest : Int) : Val → Option (List UInt8)
  | .nil => if nest < 0 then none else some [0xc0]
  | .int i => if nest < 0 then none else some (packInt i)
  | .float b => if nest < 0 then none else some (0xcb :: be 8 b)
  | .bytes b =>
    if nest < 0 then none
    else if b.length > itemLimit then none else some (packBinHdr b.length ++ b)
  | .str s =>
    if nest < 0 then none
    else
      let b := Utf8.encode s
      if b.length > itemLimit then none else some (packRawHdr b.length ++ b)
  | .list xs =>
    if nest < 0 then none
    else if xs.length > itemLimit then none
    else (packList (nest - 1) xs).map (packArrayHdr xs.length ++ ·)
  | .tuple xs =>
    if nest < 0 then none
    else if xs.length > itemLimit then none
    else (packList (nest - 1) xs).map (packArrayHdr xs.length ++ ·)
  | .dict xs =>
    if nest < 0 then none
    else if xs.length > itemLimit then none
    else (packPairs (nest - 1) xs).map (packMapHdr xs.length ++ ·)
  | .set xs =>
    if nest < 0 then none
    else if xs.length > itemLimit then none
    else (packList (nest - 1) xs).map fun b =>
      let p := packArrayHdr xs.length ++ b
      packExtHdr 9 p.length ++ p
  | .ndarray code bits lanes shape data =>
    if nest < 0 then none
    else
      let p := packNd code bits lanes shape data
      some (packExtHdr 2 p.length ++ p)

/-- The loop over the elements of a list, tuple or set. -/
def packList (nest : Int) : List Val → Option (List UInt8)
  | [] => some []
  | x :: r => do
    let a ← pack nest x
    let b ← packList nest r
    pure (a ++ b)

/-- The loop over the entries of a dict. -/
def packPairs (nest : Int) : List (Val × Val) → Option (List UInt8)
  | [] => some []
  | (k, v) :: r => do
    let a ← pack nest k
    let b ← pack nest v
    let c ← packPairs nest r
    pure (a ++ b ++ c)
end

/-- `msgpack_dumps` (msgpack.cc 391–394): nesting limit 511. -/
def dumps (v : Val) : Option (List UInt8) := pack 511 v

/-! ## Unpacking -/

/-- The parts of the runtime that the decoder calls and that are left arbitrary. -/
structure Env where
  /-- `double` pattern of a `float` pattern -/
  widen : Nat → Nat
  /-- `double(tv_sec) + tv_nsec / 1000000000.0` -/
  stamp : Int → Nat → Nat
  /-- whether the hash table takes two keys for the same key -/
  same : Val → Val → Bool

/-- `Any::Hash` does not throw (runtime_value.cc 536–619).  An NDArray is hashed by address. -/
def hashable : Val → Bool
  | .tuple xs => hashableAll xs
  | .list _ => false
  | .dict _ => false
  | .set _ => false
  | _ => true
where
  /-- `tuple_hash` (runtime_value.cc 513–533) -/
  hashableAll : List Val → Bool
    | [] => true
    | x :: r => hashable x && hashableAll r

/-- `DictNode::emplace`: an exception if the key cannot be hashed, no effect if the key is present. -/
def dictEmplace (E : Env) (d : List (Val × Val)) (k v : Val) : Option (List (Val × Val)) :=
  if hashable k then if d.any (fun e => E.same e.1 k) then some d else some (d ++ [(k, v)]) else none

/-- `SetNode::emplace`. -/
def setEmplace (E : Env) (d : List Val) (k : Val) : Option (List Val) :=
  if hashable k then if d.any (fun e => E.same e k) then some d else some (d ++ [k]) else none

/-- `Set(begin, end)` (set_ref.cc 109–116). -/
def mkSet (E : Env) (acc : List Val) : List Val → Option (List Val)
  | [] => some acc
  | x :: r => (setEmplace E acc x).bind fun acc => mkSet E acc r

/-- What one value header (with its trailing bytes) leads to. -/
inductive Dec where
  /-- `_out`: input exhausted -/
  | out
  /-- `ret = -2` -/
  | fmt
  /-- `_failed` -/
  | failed
  /-- read outside the input -/
  | oob
  /-- `_push` of a scalar; the remaining input -/
  | push (v : Val) (rest : List UInt8)
  /-- `start_container` -/
  | start (isMap : Bool) (n : Nat) (rest : List UInt8)
  /-- `unpack_callback_ext`: type code, bytes from `pos` to the end of input, length, remaining input -/
  | ext (tc : UInt8) (pos : List UInt8) (len : Nat) (rest : List UInt8)

/-- Result of the switch on a header byte. -/
inductive Hdr where
  | push (v : Val)
  | start (isMap : Bool) (n : Nat)
  /-- `again_fixed_trail(cs, trail)` -/
  | trail (cs trail : Nat)
  /-- `goto _raw_zero` -/
  | rawZero
  | bad

/-- `ACS_RAW_VALUE`, `ACS_BIN_VALUE`, `ACS_EXT_VALUE` (unpack_define.h 78–80). -/
def acsRaw : Nat := 32
def acsBin : Nat := 33
def acsExt : Nat := 34

/-- `case CS_HEADER` (unpack_template.h 158–230). -/
def header (b : Nat) : Hdr :=
  if b ≤ 0x7f then .push (.int b)
  else if 0xe0 ≤ b then .push (.int (toS 8 b))
  else if 0xc0 ≤ b then
    if b = 0xc0 then .push .nil
    else if b = 0xc2 then .push (.int 0)
    else if b = 0xc3 then .push (.int 1)
    else if b = 0xc4 then .trail (b &&& 0x1f) 1
    else if b = 0xc5 then .trail (b &&& 0x1f) 2
    else if b = 0xc6 then .trail (b &&& 0x1f) 4
    else if b = 0xc7 then .trail (b &&& 0x1f) 1
    else if b = 0xc8 then .trail (b &&& 0x1f) 2
    else if b = 0xc9 then .trail (b &&& 0x1f) 4
    else if 0xca ≤ b ∧ b ≤ 0xd3 then .trail (b &&& 0x1f) (1 <<< (b &&& 3))
    else if 0xd4 ≤ b ∧ b ≤ 0xd7 then .trail acsExt ((1 <<< (b &&& 3)) + 1)
    else if b = 0xd8 then .trail acsExt 17
    else if b = 0xd9 then .trail (b &&& 0x1f) 1
    else if 0xda ≤ b then .trail (b &&& 0x1f) (2 <<< (b &&& 1))
    else .bad
  else if 0xa0 ≤ b then
    if b &&& 0x1f = 0 then .rawZero else .trail acsRaw (b &&& 0x1f)
  else if 0x90 ≤ b then .start false (b &&& 0x0f)
  else .start true (b &&& 0x0f)

/-- The callback gets `len` bytes from `n` on. -/
def region (n : List UInt8) (len : Nat) (k : List UInt8 → Dec) : Dec :=
  if n.length < len then .oob else k (n.take len)

/-- `++p` at `_header_again` or `_finish`. -/
def next (p : List UInt8) (k : List UInt8 → Dec) : Dec :=
  match p with
  | [] => .oob
  | _ :: rest => k rest

/-- `unpack_callback_raw` (unpack.h 198–202): `UTF8Decode`. -/
def rawVal (b : List UInt8) (rest : List UInt8) : Dec :=
  match Utf8.utf8Decode b with
  | .ok s => .push (.str s) rest
  | _ => .oob

/-- The labels `_bin_zero`, `_raw_zero`, `_ext_zero`: `n` is the start of the value, `p` its last byte. -/
def value (acs : Nat) (trail : Nat) (n p : List UInt8) : Dec :=
  if acs = acsBin then region n trail fun b => next p fun rest => .push (.bytes b) rest
  else if acs = acsRaw then region n trail fun b => next p fun rest => rawVal b rest
  else match n with
    | [] => .oob
    | tc :: pos => next p fun rest => .ext tc pos ((trail + 4294967295) % 4294967296) rest

/-- `again_fixed_trail_if_zero(acs, trail, …)` followed by `_fixed_trail_again`: `n`, `p` are the pointers
to the first and last byte of the length field. -/
def again (acs : Nat) (trail : Nat) (n p : List UInt8) : Dec :=
  if trail = 0 then value acs 0 n p
  else match p with
    | [] => .oob
    | _ :: q =>
      if q.length < trail then .out
      else value acs trail q (q.drop (trail - 1))

/-- What the inner switch does with the trailing bytes: read a `k`-byte length of an extension, bin or str
value, read a `k`-byte number, read a `k`-byte container size, or take the value itself. -/
inductive Act where
  | lenOf (acs k : Nat)
  | num (k : Nat) (f : Nat → Val)
  | cont (isMap : Bool) (k : Nat)
  | val (acs : Nat)
  | bad

/-- The cases of the inner switch (unpack_template.h 236–317). -/
def action (E : Env) (cs : Nat) : Act :=
  if cs = 7 then .lenOf acsExt 1
  else if cs = 8 then .lenOf acsExt 2
  else if cs = 9 then .lenOf acsExt 4
  else if cs = 10 then .num 4 fun x => .float (E.widen x)
  else if cs = 11 then .num 8 fun x => .float x
  else if cs = 12 then .num 1 fun x => .int x
  else if cs = 13 then .num 2 fun x => .int x
  else if cs = 14 then .num 4 fun x => .int x
  else if cs = 15 then .num 8 fun x => .int (toS 64 x)
  else if cs = 16 then .num 1 fun x => .int (toS 8 x)
  else if cs = 17 then .num 2 fun x => .int (toS 16 x)
  else if cs = 18 then .num 4 fun x => .int (toS 32 x)
  else if cs = 19 then .num 8 fun x => .int (toS 64 x)
  else if cs = 4 then .lenOf acsBin 1
  else if cs = 5 then .lenOf acsBin 2
  else if cs = 6 then .lenOf acsBin 4
  else if cs = 25 then .lenOf acsRaw 1
  else if cs = 26 then .lenOf acsRaw 2
  else if cs = 27 then .lenOf acsRaw 4
  else if cs = acsRaw then .val acsRaw
  else if cs = acsExt then .val acsExt
  else if cs = 28 then .cont false 2
  else if cs = 29 then .cont false 4
  else if cs = 30 then .cont true 2
  else if cs = 31 then .cont true 4
  else .bad

/-- The new `trail` for a length `l`: extensions add one for the type code; `trail` is an `unsigned int`. -/
def trailOf (acs l : Nat) : Nat := if acs = acsExt then (l + 1) % 4294967296 else l

/-- `default:` of the outer switch (unpack_template.h 232–317); `p` is the first trailing byte, `n` the
start and `q` the last byte of the field. -/
def fixedTrail (E : Env) (cs trail : Nat) (p : List UInt8) : Dec :=
  if p.length < trail then .out
  else
    let n := p
    let q := p.drop (trail - 1)
    match action E cs with
    | .lenOf acs k => if n.length < k then .oob else again acs (trailOf acs (loadBE (n.take k))) n q
    | .num k f =>
      if n.length < k then .oob else next q fun rest => .push (f (loadBE (n.take k))) rest
    | .cont m k =>
      if n.length < k then .oob else next q fun rest => .start m (loadBE (n.take k)) rest
    | .val acs => value acs trail n q
    | .bad => .failed

/-- One turn of the loop up to `_push` or `start_container`. -/
def decode (E : Env) (p : List UInt8) : Dec :=
  match p with
  | [] => .out
  | b :: rest =>
    match header b.toNat with
    | .push v => .push v rest
    | .start m n => .start m n rest
    | .trail cs t => fixedTrail E cs t rest
    | .rawZero => rawVal [] rest
    | .bad => .fmt

/-- `unpack_stack`: an open array or map with its size, what it holds, and the pending key of a map. -/
inductive Frame where
  | arr (size : Nat) (items : List Val)
  | map (size count : Nat) (entries : List (Val × Val)) (key : Option Val)

/-- `unpack_callback_array`/`_array_item`: a list or a tuple. -/
def mkArr (useList : Bool) (xs : List Val) : Val := if useList then .list xs else .tuple xs

inductive PushRes where
  | finish (v : Val)
  | again (st : List Frame) (obj : Val)
  /-- exception from a callback -/
  | throw

/-- `_push` (unpack_template.h 320–352). -/
def push (E : Env) (useList : Bool) : List Frame → Val → PushRes
  | [], v => .finish v
  | .arr size items :: st, v =>
    let items := items ++ [v]
    if items.length = size then push E useList st (mkArr useList items)
    else .again (.arr size items :: st) v
  | .map size count entries none :: st, v => .again (.map size count entries (some v) :: st) v
  | .map size count entries (some k) :: st, v =>
    match dictEmplace E entries k v with
    | none => .throw
    | some entries =>
      if count + 1 = size then push E useList st (.dict entries)
      else .again (.map size (count + 1) entries none :: st) v

/-- `VerifyDataType` (ndarray.cc 314–333); dtype codes: int 0, uint 1, float 2. -/
def verifyDType (code bits lanes : Nat) : Bool :=
  1 ≤ lanes &&
  (if code = 2 then bits % 8 = 0 && bits &&& (bits - 1) = 0
   else if (bits = 1 ∨ bits = 4) ∧ (code = 0 ∨ code = 1) then true
   else bits % 8 = 0 && bits &&& (bits - 1) = 0)

/-- `GetDataSize` (ndarray.cc 137–144) and the size computed by the decoder: `size_t` arithmetic. -/
def dataSize (bits lanes : Nat) (shape : List Int) : Nat :=
  (shape.foldl (fun s d => s * toU 64 d % 2 ^ 64) 1) * ((bits * lanes + 7) / 8) % 2 ^ 64

/-- The loop reading the shape; the caller has checked the length. -/
def loadShape : Nat → List UInt8 → List Int × List UInt8
  | 0, p => ([], p)
  | n + 1, p =>
    let r := loadShape n (p.drop 8)
    (toS 64 (loadLE (p.take 8)) :: r.1, r.2)

/-- The NDArray case of `custom_ext_callback` (msgpack.cc 308–342); `none` is an exception (a negative
`ndim` either fails the length check or makes `reserve` throw). -/
def unpackNd (p : List UInt8) : Option Val :=
  if p.length < 8 then none
  else
    let code := loadLE (p.take 1)
    let bits := loadLE ((p.drop 1).take 1)
    let lanes := loadLE ((p.drop 2).take 2)
    let ndim := toS 32 (loadLE ((p.drop 4).take 4))
    if ndim < 0 then none
    else if p.length < 8 + ndim.toNat * 8 then none
    else
      let s := loadShape ndim.toNat (p.drop 8)
      if p.length ≠ (8 + ndim.toNat * 8 + dataSize bits lanes s.1) % 2 ^ 64 then none
      else if verifyDType code bits lanes then some (.ndarray code bits lanes s.1 s.2)
      else none

inductive Err where
  | incomplete | format | stack | failed | extra | hook
  deriving DecidableEq, Repr

inductive Res where
  /-- `ret = 1`: value and the input after it -/
  | done (v : Val) (rest : List UInt8)
  | raise (e : Err)
  /-- read outside the input -/
  | oob
  /-- a value whose type code and payload do not belong together -/
  | confused

/-- `unpack_timestamp` (unpack.h 218–240); `pos` has been checked to hold `len` bytes. -/
def timestamp (pos : List UInt8) (len : Nat) : Option (Int × Nat) :=
  if len = 4 then some (loadBE (pos.take 4), 0)
  else if len = 8 then
    let x := loadBE (pos.take 8)
    some (((x &&& 0x3ffffffff : Nat) : Int), x >>> 34)
  else if len = 12 then some (toS 64 (loadBE ((pos.drop 4).take 8)), loadBE (pos.take 4))
  else none

/-- `unpack_callback_ext` sets only the payload of `*o` for a timestamp, so the type code is the one of the
previous value of `obj` (unpack.h 242–258). -/
def stampVal (bits : Nat) : Val → Option Val
  | .nil => some .nil
  | .int _ => some (.int (toS 64 bits))
  | .float _ => some (.float bits)
  | _ => none

/-- Remaining input and payload are shorter than the input. -/
def Dec.Below (n : Nat) : Dec → Prop
  | .push _ r => r.length < n
  | .start _ _ r => r.length < n
  | .ext _ pos _ r => pos.length < n ∧ r.length < n
  | _ => True

theorem next_below {n : Nat} {p : List UInt8} {k : List UInt8 → Dec}
    (h : ∀ b r, p = b :: r → (k r).Below n) : (next p k).Below n := by
  cases p with
  | nil => trivial
  | cons b r => exact h b r rfl

theorem region_below {n : Nat} {p : List UInt8} {l : Nat} {k : List UInt8 → Dec}
    (h : (k (p.take l)).Below n) : (region p l k).Below n := by
  unfold region; split
  · trivial
  · exact h

theorem rawVal_below {n : Nat} {b r : List UInt8} (h : r.length < n) : (rawVal b r).Below n := by
  unfold rawVal; split
  · exact h
  · trivial

theorem value_below {n acs t : Nat} {q p : List UInt8} (hq : q.length ≤ n) (hp : p.length ≤ n) :
    (value acs t q p).Below n := by
  have hr : ∀ (b : UInt8) (r : List UInt8), p = b :: r → r.length < n := by
    intro b r h; subst h; simp at hp; omega
  unfold value; split
  · exact region_below (next_below fun b r h => hr b r h)
  · split
    · exact region_below (next_below fun b r h => rawVal_below (hr b r h))
    · split
      · trivial
      · refine next_below fun b r h => ⟨?_, hr b r h⟩
        simp at hq; omega

theorem again_below {n acs t : Nat} {q p : List UInt8} (hq : q.length ≤ n) (hp : p.length ≤ n) :
    (again acs t q p).Below n := by
  unfold again; split
  · exact value_below hq hp
  · split
    · trivial
    · rename_i b r
      simp at hp
      split
      · trivial
      · exact value_below (by omega) (by simp; omega)

theorem fixedTrail_below (E : Env) (cs t : Nat) (p : List UInt8) (n : Nat) (hp : p.length ≤ n) :
    (fixedTrail E cs t p).Below n := by
  unfold fixedTrail
  have hd : (p.drop (t - 1)).length ≤ n := by simp; omega
  have hx : ∀ (b : UInt8) (r : List UInt8), p.drop (t - 1) = b :: r → r.length < n := by
    intro b r h
    have := congrArg List.length h
    simp at this hd; omega
  split
  · trivial
  · dsimp only
    split
    · split
      · trivial
      · exact again_below hp hd
    · split
      · trivial
      · exact next_below fun b r h => hx b r h
    · split
      · trivial
      · exact next_below fun b r h => hx b r h
    · exact value_below hp hd
    · trivial

theorem decode_below (E : Env) (p : List UInt8) : (decode E p).Below p.length := by
  unfold decode
  split
  · trivial
  · rename_i b rest
    split
    · simp [Dec.Below]
    · simp [Dec.Below]
    · have := fixedTrail_below E
      rename_i cs t _
      have h := this cs t rest rest.length (Nat.le_refl _)
      revert h
      cases fixedTrail E cs t rest <;> simp [Dec.Below] <;> omega
    · exact rawVal_below (by simp)
    · trivial

/-- `unpack_execute<true>` (unpack_template.h 83–385) from `_header_again`/entry on, with the stack (top
first) and the last value of `obj`, and `custom_ext_callback` for extensions, which calls
`MessageUnpacker::unpackb` on the payload of a set.  `MSGPACK_EMBED_STACK_SIZE` is 1024. -/
def run (E : Env) (useList : Bool) (st : List Frame) (obj : Val) (p : List UInt8) : Res :=
  match h : decode E p with
  | .out => .raise .incomplete
  | .fmt => .raise .format
  | .failed => .raise .failed
  | .oob => .oob
  | .push v rest =>
    match push E useList st v with
    | .finish v => .done v rest
    | .again st obj => run E useList st obj rest
    | .throw => .raise .hook
  | .start m n rest =>
    if st.length ≥ 1024 then .raise .stack
    else if n = 0 then
      match push E useList st (if m then .dict [] else mkArr useList []) with
      | .finish v => .done v rest
      | .again st obj => run E useList st obj rest
      | .throw => .raise .hook
    else if m then run E useList (.map n 0 [] none :: st) obj rest
    else run E useList (.arr n [] :: st) obj rest
  | .ext tc pos len rest =>
    let cont (v : Val) : Res :=
      match push E useList st v with
      | .finish v => .done v rest
      | .again st obj => run E useList st obj rest
      | .throw => .raise .hook
    if tc = 0xff then
      match timestamp pos len with
      | none => .raise .failed
      | some (s, ns) =>
        if pos.length < len then .oob
        else match stampVal (E.stamp s ns) obj with
          | none => .confused
          | some v => cont v
    else if tc = 9 then
      if pos.length < len then .oob
      else match run E false [] .nil (pos.take len) with
        | .raise _ => .raise .hook
        | .oob => .oob
        | .confused => .confused
        | .done v (_ :: _) => .raise .hook
        | .done (.tuple xs) [] =>
          match mkSet E [] xs with
          | none => .raise .hook
          | some s => cont (.set s)
        | .done _ [] => .raise .hook
    else if tc = 2 then
      if pos.length < len then .oob
      else match unpackNd (pos.take len) with
        | none => .raise .hook
        | some v => cont v
    else .raise .hook
termination_by p.length
decreasing_by
  all_goals
    have hb := decode_below E p
    rw [h] at hb
    simp [Dec.Below] at hb
    first
      | exact hb
      | exact hb.2
      | (simp; omega)

inductive Out where
  | ok (v : Val)
  | raise (e : Err)
  | oob
  | confused

/-- `MessageUnpacker::unpackb` (msgpack.cc 352–381) with `use_list = true`: `msgpack_loads`. -/
def loads (E : Env) (p : List UInt8) : Out :=
  match run E true [] .nil p with
  | .done v [] => .ok v
  | .done _ (_ :: _) => .raise .extra
  | .raise e => .raise e
  | .oob => .oob
  | .confused => .confused

end Verif.Msgpack
