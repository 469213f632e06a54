/-
Reading files: `src/runtime/file_reader.cc` and `src/runtime/container/file_private.cc`, and the
loop that the code generator prints for `for line in f`
(`src/codegen/codegen_c.cc:1635-1660, 1755-1775`).

The reader keeps one buffer of `capacity + 1` bytes (8 MiB in the code, a parameter here), the
offsets `position` and `limit` of the part not delivered yet, and the flag `_last_line`.
`ReadLine` hands out a pointer into that buffer; the callers copy the line after the call, so the
model returns the pointer and copies from the buffer as the call left it.  The buffer carries a
generation number that changes when it is reallocated; a pointer into an older generation is an
error.

Simplifications: sizes are unbounded; a failing `read(2)` is the end of the file, as in the code;
how many bytes `read(2)` delivers is a parameter (`grant`), for a regular file all that were asked
for; `mode`, `encoding`, opening and closing are not modelled; text is kept as its bytes (decoding
is modelled in `Utf8`).
-/

namespace Verif.FileIO

abbrev Bytes := List UInt8

inductive Err where
  /-- an access outside the buffer -/
  | oob
  /-- a pointer into a buffer that was deleted -/
  | freed
  /-- a loop did not end within its bound (never happens, see `FileIOProps`) -/
  | fuel
deriving DecidableEq, Repr

/-- `FileReader` (file_reader.h:35-78) and the part of the file that `read(2)` did not deliver. -/
structure Rd where
  rest : Bytes
  data : Bytes
  gen : Nat
  cap : Nat
  pos : Nat
  lim : Nat
  last : Bool
  keep : Bool
deriving DecidableEq, Repr

/-- The constructor (file_reader.cc:32-43). `junk` is what `new char[capacity + 1]` contains. -/
def openFile (file junk : Bytes) (keep : Bool) : Rd :=
  { rest := file, data := junk, gen := 0, cap := junk.length - 1, pos := 0, lim := 0,
    last := false, keep := keep }

/-- `memcpy(data + off, l, |l|)` inside a buffer. -/
def blit (data : Bytes) (off : Nat) (l : Bytes) : Bytes :=
  data.take off ++ l ++ data.drop (off + l.length)

/-- The bytes `data[a .. b)`. -/
def slice (data : Bytes) (a b : Nat) : Bytes := (data.drop a).take (b - a)

/-- `read(_fd, _buffer.data + off, n)`: at most `n` bytes, at most what is left, and at least one
byte unless nothing is left or asked for. -/
def sysRead (grant : Nat → Nat) (s : Rd) (off n : Nat) : Except Err (Nat × Rd) :=
  let k := min (min n s.rest.length) (max 1 (grant s.rest.length))
  if off + k ≤ s.data.length then
    .ok (k, { s with rest := s.rest.drop k, data := blit s.data off (s.rest.take k) })
  else .error .oob

/-- A larger buffer with the old contents (file_reader.cc:136-142 and 165-171). -/
def grow (s : Rd) : Rd :=
  { s with data := s.data.take s.cap ++ List.replicate (s.cap + 1) 0, cap := 2 * s.cap,
           gen := s.gen + 1 }

/-- `while (end < limit && data[end] != '\n') ++end` (file_reader.cc:160-162). -/
def scanNl (data : Bytes) (e : Nat) : Nat → Nat
  | 0 => e
  | k + 1 => if data.getD e 0 ≠ 10 then scanNl data (e + 1) k else e

/-- `readLineFromBuffer` (file_reader.cc:154-187): offset and length of the line. -/
def readLineFromBuffer (s : Rd) : Except Err (Rd × Option (Nat × Nat)) :=
  if s.pos = s.lim then .ok (s, none)
  else if s.data.length < s.lim then .error .oob
  else
    let e := scanNl s.data s.pos (s.lim - s.pos)
    if e = s.lim then
      .ok (if s.pos = 0 ∧ s.cap ≤ e + 1 then grow s else s, none)
    else
      let n := if s.keep then e - s.pos + 1
        else if s.pos < e ∧ s.data.getD (e - 1) 0 = 13 then e - s.pos - 1 else e - s.pos
      .ok ({ s with pos := e + 1 }, some (s.pos, n))

/-- The pointer that `ReadLine` hands out: buffer generation, offset, length. -/
abbrev Ptr := Option (Nat × Nat × Nat)

/-- `memmove` of the remaining bytes to the front (file_reader.cc:103-109). -/
def compact (s : Rd) : Rd :=
  if 0 < s.pos then
    { s with data := if s.pos < s.lim then blit s.data 0 (slice s.data s.pos s.lim) else s.data,
             lim := s.lim - s.pos, pos := 0 }
  else s

/-- The refill loop of `ReadLine` (file_reader.cc:110-127). -/
def readLoop (grant : Nat → Nat) : Nat → Rd → Except Err (Rd × Bool × Ptr)
  | 0, _ => .error .fuel
  | f + 1, s => do
    let (k, s) ← sysRead grant s s.lim (s.cap - s.lim)
    if k = 0 then
      let s := { s with last := true }
      if s.pos < s.lim then .ok (s, true, some (s.gen, s.pos, s.lim - s.pos))
      else .ok (s, false, none)
    else
      let (s, r) ← readLineFromBuffer { s with lim := s.lim + k }
      match r with
      | some (off, n) => .ok (s, true, some (s.gen, off, n))
      | none => readLoop grant f s

/-- The prefetch of `ReadLine` after a line that ends the buffer (file_reader.cc:129-150). -/
def prefetch (grant : Nat → Nat) (s : Rd) (n : Nat) : Except Err Rd :=
  if s.pos = s.lim then do
    let s := { s with lim := 0, pos := 0 }
    let s := if s.cap = n then grow s else s
    let (k, s) ← sysRead grant s 0 (s.cap - n)
    .ok (if k = 0 then { s with last := true } else { s with lim := k })
  else .ok s

/-- `FileReader::ReadLine` (file_reader.cc:96-152). -/
def readLine (grant : Nat → Nat) (s : Rd) : Except Err (Rd × Bool × Ptr) :=
  if s.last then .ok (s, false, none)
  else do
    let (s, r) ← readLineFromBuffer s
    match r with
    | none => readLoop grant (s.rest.length + 2) (compact s)
    | some (off, n) =>
      let g := s.gen
      let s ← prefetch grant s n
      .ok (s, true, some (g, off, n))

/-- `String(line, len)` after the call. -/
def copyOut (s : Rd) : Ptr → Except Err Bytes
  | none => .ok []
  | some (g, off, n) =>
    if g ≠ s.gen then .error .freed
    else if off + n ≤ s.data.length then .ok (slice s.data off (off + n)) else .error .oob

/-- `FileNode::ReadLineString` (file_private.cc:108-116). -/
def readLineString (grant : Nat → Nat) (s : Rd) : Except Err (Rd × Bytes) := do
  let (s, _, p) ← readLine grant s
  let l ← copyOut s p
  .ok (s, l)

/-- `FileNode::ReadLines` (file_private.cc:162-176), and the loops of the native operators that
read a vocabulary (op_kernel.cc:154-161). -/
def readLines (grant : Nat → Nat) : Nat → Rd → Except Err (Rd × List Bytes)
  | 0, _ => .error .fuel
  | f + 1, s => do
    let (s, r, p) ← readLine grant s
    if r then
      let l ← copyOut s p
      let (s, ls) ← readLines grant f s
      .ok (s, l :: ls)
    else .ok (s, [])

/-- The loop printed for `for line in f`: `has = f.HasNext(); while (has) { line =
f.NextView(&has, …); … }` with `HasNext`, `NextView` of file_private.cc:37-40 and 148-160. -/
def forLoop (grant : Nat → Nat) : Nat → Rd → Except Err (Rd × List Bytes)
  | 0, _ => .error .fuel
  | f + 1, s =>
    if s.last then .ok (s, [])
    else do
      let (s, l) ← readLineString grant s
      let (s, ls) ← forLoop grant f s
      .ok (s, l :: ls)

/-- The loop of `Read` for `size < 0` (file_reader.cc:58-66). -/
def readAll (grant : Nat → Nat) : Nat → Rd → Except Err (Rd × Bytes)
  | 0, _ => .error .fuel
  | f + 1, s => do
    let (k, s) ← sysRead grant s 0 s.cap
    if k = 0 then .ok ({ s with last := true }, [])
    else
      let (s', l) ← readAll grant f s
      .ok (s', s.data.take k ++ l)

/-- The loop of `Read` for `size ≥ 0` (file_reader.cc:68-91). -/
def readN (grant : Nat → Nat) (size : Nat) : Nat → Rd → Nat → Except Err (Rd × Bytes)
  | 0, _, _ => .error .fuel
  | f + 1, s, remaining =>
    if remaining = 0 then .ok (s, [])
    else if remaining < s.lim - s.pos then
      if s.pos + size ≤ s.data.length then
        .ok ({ s with pos := s.pos + size }, slice s.data s.pos (s.pos + size))
      else .error .oob
    else
      let l := slice s.data s.pos s.lim
      let remaining := remaining - (s.lim - s.pos)
      let s := { s with lim := 0, pos := 0 }
      if s.last then .ok (s, l)
      else do
        let (k, s) ← sysRead grant s 0 s.cap
        let s := if k = 0 then { s with last := true } else { s with lim := k }
        let (s, l') ← readN grant size f s remaining
        .ok (s, l ++ l')

/-- `FileReader::Read` (file_reader.cc:52-94), which is `FileNode::ReadString`. -/
def read (grant : Nat → Nat) (s : Rd) (size : Int) : Except Err (Rd × Bytes) :=
  if size < 0 then do
    let l := slice s.data s.pos s.lim
    let (s, l') ← readAll grant (s.rest.length + 1) { s with lim := 0, pos := 0 }
    .ok (s, l ++ l')
  else readN grant size.toNat (s.rest.length + 3) s size.toNat

/-- The ones from bit 6 downwards (file_private.cc:56-58). -/
def ones : Nat → Nat → Nat
  | 0, _ => 0
  | k + 1, c => if c &&& 0x40 ≠ 0 then ones k (c <<< 1) + 1 else 0

/-- `UTF8DecodeOneLen` (file_private.cc:50-60). A `char` is sign extended, which only sets bits
that the loop does not look at. -/
def charLen (c : UInt8) : Nat := if c.toNat < 0x80 then 1 else ones 7 c.toNat + 1

/-- The inner loop of `ReadUnicode` (file_private.cc:71-86): how many characters start in the
bytes, and how many bytes the last one lacks. -/
def scanChars : Nat → Bytes → Nat × Nat
  | _, [] => (0, 0)
  | 0, _ => (0, 0)
  | f + 1, c :: cs =>
    if cs.length + 1 < charLen c then (1, charLen c - (cs.length + 1))
    else
      let r := scanChars f ((c :: cs).drop (charLen c))
      (r.1 + 1, r.2)

/-- The outer loop of `ReadUnicode` (file_private.cc:67-96). -/
def readChars (grant : Nat → Nat) : Nat → Rd → Int → Nat → Except Err (Rd × Bytes)
  | 0, _, _, _ => .error .fuel
  | f + 1, s, count, skip =>
    if count ≤ 0 then .ok (s, [])
    else do
      let (s, tmp) ← read grant s (max count skip)
      let r := scanChars tmp.length (tmp.drop skip)
      let count := count - r.1
      if s.last then .ok (s, tmp)
      else if count = 0 ∧ 0 < r.2 then do
        let (s, l) ← read grant s r.2
        .ok (s, tmp ++ l)
      else do
        let (s, l) ← readChars grant f s count r.2
        .ok (s, tmp ++ l)

/-- `FileNode::ReadUnicode` (file_private.cc:62-98), before decoding. -/
def readUnicode (grant : Nat → Nat) (s : Rd) (size : Int) : Except Err (Rd × Bytes) :=
  readChars grant (s.rest.length + (s.lim - s.pos) + 2) s size 0

/-- A regular file: `read(2)` delivers all that was asked for, up to the end of the file. -/
def full : Nat → Nat := id

end Verif.FileIO
