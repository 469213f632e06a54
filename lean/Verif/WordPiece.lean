import Verif.CedarText
import Mathlib.Data.List.Sort
/-
The WordPiece tokenizer: text/wordpiece_tokenizer.cc, python/matx/text/wordpiece_tokenizer.py and
src/runtime/algorithm/prefix_mapping.cc.

Bytes are numbers below 256, a `str` is the list of its code points.  `none` is undefined behaviour (a read or write
outside a buffer, a read of bytes never written, more than 64 results of the trie) or the end of the process.  The trie is
the one of `Verif.Cedar`.  Not modelled: the reading of the vocabulary file (the lines are those delivered by
`FileReader::ReadLine`, `Verif.FileIO`), the reservation of the result lists, and the number of arguments.
-/
namespace Verif.WordPiece
open Verif.Cedar (St)

/-! ### The vocabulary -/

/-- `tokens.emplace(line, line_no)`, wordpiece_tokenizer.cc 114: a key already present keeps its value; the number
is cut to `int`. -/
def emplace (m : List (List Nat × Int)) (k : List Nat) (no : Nat) : List (List Nat × Int) :=
  if k ∈ m.map (·.1) then m else m ++ [(k, Cedar.wrap no)]

/-- The loop over the lines, wordpiece_tokenizer.cc 109-116: an empty line is skipped and not counted. -/
def readVocab (m : List (List Nat × Int)) (no : Nat) : List (List Nat) → List (List Nat × Int)
  | [] => m
  | l :: ls => if l = [] then readVocab m no ls else readVocab (emplace m l no) (no + 1) ls

/-- The order of `std::map<String, int>`: byte by byte. -/
def leBytes : List Nat → List Nat → Bool
  | [], _ => true
  | _ :: _, [] => false
  | a :: x, b :: y => if a < b then true else if b < a then false else leBytes x y

/-- `PrefixMapping::PrefixMapping`, prefix_mapping.cc 28-47: the keys are entered in the order of the map. -/
def newMapping (m : List (List Nat × Int)) : Option St :=
  Cedar.build Cedar.init (m.mergeSort (fun a b => leBytes a.1 b.1))

/-- `PrefixMapping::PrefixSearch`, prefix_mapping.cc 49-71: the length of the longest key that is a prefix, and the
variable `*val`, which is not written if there is none. -/
def search (s : St) (w : List Nat) (val : Int) : Option (Nat × Int) :=
  match Cedar.prefixSearch s w with
  | none => none
  | some (n, v) => if n = 0 then some (0, val) else some (n, v)

/-! ### The tokenizer -/

/-- The members of `WordPieceTokenizer`, wordpiece_tokenizer.cc 72-79. -/
structure Tk where
  skip : Bool
  lookup : Bool
  max : Int
  unk : List Nat
  unkId : Int
  pre : List Nat
  trie : St

/-- What a constructor or a call does. -/
inductive Res (α : Type) where
  | ok (a : α)
  | error
  | ub
  deriving DecidableEq

/-- `WordPieceTokenizer::WordPieceTokenizer`, wordpiece_tokenizer.cc 82-124, for a file that exists.  `unk = none` is
the Python value `None`: `GetString` (common_funcs.h 55-73) throws a TypeError for it (line 92).  `junk` is what
`unk_id_` holds before it is written. -/
def new (lines : List (List Nat)) (lookup : Bool) (unk : Option (List Nat)) (pre : List Nat) (skip : Bool) (max : Int)
    (junk : Int) : Res Tk :=
  match unk with
  | none => .error
  | some u =>
    match newMapping (readVocab [] 0 lines) with
    | none => .ub
    | some s =>
      match search s u junk with
      | none => .ub
      | some (n, v) =>
        if n = u.length then
          .ok { skip := skip, lookup := lookup, max := Cedar.wrap max, unk := u, unkId := v, pre := pre, trie := s }
        else .error

/-- `memcpy(buf + off, xs)` into a buffer with bytes not written yet. -/
def write (buf : List (Option Nat)) (off : Nat) (xs : List Nat) : Option (List (Option Nat)) :=
  if off + xs.length ≤ buf.length then some (buf.take off ++ xs.map some ++ buf.drop (off + xs.length)) else none

/-- The bytes `buf[off, off + len)`. -/
def read (buf : List (Option Nat)) (off len : Nat) : Option (List Nat) :=
  if off + len ≤ buf.length then ((buf.drop off).take len).mapM id else none

/-- `n` times `pop_back()`. -/
def popN {α : Type} (out : List α) : Nat → Option (List α)
  | 0 => some out
  | n + 1 => if out = [] then none else popN out.dropLast n

/-- The loop of `TokenizeImplWithPrefix`, wordpiece_tokenizer.cc 168-188: the subword is at `off` in the buffer and has
`len` bytes with the prefix.  `post bytes value` is what `post_func` pushes. -/
def loopP {α : Type} (t : Tk) (post : List Nat → Int → α) (buf : List (Option Nat)) (off len : Nat) (val : Int)
    (count : Nat) (out : List α) : Option (List α) :=
  if len = 0 then some out
  else
    match read buf off len with
    | none => none
    | some w =>
      match search t.trie w val with
      | none => none
      | some (m, v) =>
        if m = len then some (out ++ [post (w.take m) v])
        else if m ≤ t.pre.length then (popN out count).map (· ++ [post t.unk t.unkId])
        else
          match write buf (off + (m - t.pre.length)) t.pre with
          | none => none
          | some buf' =>
            loopP t post buf' (off + (m - t.pre.length)) (len - (m - t.pre.length)) v (count + 1)
              (out ++ [post (w.take m) v])
  termination_by len
  decreasing_by omega

/-- `TokenizeImplWithPrefix`, wordpiece_tokenizer.cc 127-190. -/
def withPrefix {α : Type} (t : Tk) (post : List Nat → Int → α) (w : List Nat) (out : List α) : Option (List α) :=
  match write (List.replicate (w.length + t.pre.length) none) 0 t.pre with
  | none => none
  | some buf =>
    if t.skip && w.length == 0 then some out
    else if (w.length : Int) > t.max then some (out ++ [post t.unk t.unkId])
    else
      match search t.trie w (-1) with
      | none => none
      | some (m, v) =>
        if m = w.length then some (out ++ [post (w.take m) v])
        else if m = 0 then some (out ++ [post t.unk t.unkId])
        else
          match write buf t.pre.length (w.drop m) with
          | none => none
          | some buf => loopP t post buf 0 (w.length - m + t.pre.length) v 1 (out ++ [post (w.take m) v])

/-- The loop of `TokenizeImplNoPrefix`, wordpiece_tokenizer.cc 219-236. -/
def loopN {α : Type} (t : Tk) (post : List Nat → Int → α) (w : List Nat) (val : Int) (count : Nat) (out : List α) :
    Option (List α) :=
  if w.length = 0 then some out
  else
    match search t.trie w val with
    | none => none
    | some (m, v) =>
      if m = w.length then some (out ++ [post (w.take m) v])
      else if m = 0 then (popN out count).map (· ++ [post t.unk t.unkId])
      else loopN t post (w.drop m) v (count + 1) (out ++ [post (w.take m) v])
  termination_by w.length
  decreasing_by rw [List.length_drop]; omega

/-- `TokenizeImplNoPrefix`, wordpiece_tokenizer.cc 193-238. -/
def noPrefix {α : Type} (t : Tk) (post : List Nat → Int → α) (w : List Nat) (out : List α) : Option (List α) :=
  if t.skip && w.length == 0 then some out
  else if (w.length : Int) > t.max then some (out ++ [post t.unk t.unkId])
  else
    match search t.trie w (-1) with
    | none => none
    | some (m, v) =>
      if m = w.length then some (out ++ [post (w.take m) v])
      else if m = 0 then some (out ++ [post t.unk t.unkId])
      else loopN t post (w.drop m) v 1 (out ++ [post (w.take m) v])

/-- An item of a sentence, or of a result. -/
inductive Val where
  | int (x : Int)
  | bytes (w : List Nat)
  | str (w : List Nat)
  | other
  deriving DecidableEq

/-- Bytes as the decoder takes them. -/
def raw (w : List Nat) : List UInt8 := w.map UInt8.ofNat

/-- The three `post_func`s, wordpiece_tokenizer.cc 242-244, 252-254, 267-269 and 277-279; a piece that cannot be decoded
is `other` (this does not happen, `Verif.Utf8.utf8Decode_ok`). -/
def post (t : Tk) (isStr : Bool) (w : List Nat) (v : Int) : Val :=
  if t.lookup then .int v
  else if isStr then
    match Utf8.utf8Decode (raw w) with
    | .ok x => .str x
    | _ => .other
  else .bytes w

/-- The choice in `tokenize`, wordpiece_tokenizer.cc 245-249 (and 255-259, 270-274, 280-284). -/
def word {α : Type} (t : Tk) (p : List Nat → Int → α) (w : List Nat) (out : List α) : Option (List α) :=
  if t.pre = [] then noPrefix t p w out else withPrefix t p w out

/-- `tokenize` of one item, wordpiece_tokenizer.cc 240-286 and 290-301. -/
def item (t : Tk) (x : Val) (out : List Val) : Res (List Val) :=
  let r (o : Option (List Val)) : Res (List Val) := match o with
    | none => .ub
    | some l => .ok l
  match x with
  | .bytes w => r (word t (post t false) w out)
  | .str w => r (word t (post t true) (Cedar.bytes w) out)
  | _ => .error

/-- `tokenize_with_meta`, wordpiece_tokenizer.cc 304-327 and 343-357, for a list: the tokens and how many tokens each word
gave.  `tokenize`, lines 288-302 and 329-341, is the same without the numbers. -/
def sentence (t : Tk) : List Val → List Val → List Int → Res (List Val × List Int)
  | [], out, lens => .ok (out, lens)
  | x :: xs, out, lens =>
    match item t x out with
    | .ok out' => sentence t xs out' (lens ++ [(out'.length : Int) - out.length])
    | .error => .error
    | .ub => .ub

end Verif.WordPiece
