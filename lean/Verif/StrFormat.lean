import Verif.Utf8
/-
`str.format` with positional arguments.

Sources (all under /repo):
* src/runtime/container/unicode_helper.cc 501-541 (UnicodeHelper::Format)
* src/runtime/runtime_value.cc 442-500 (how a value is written to the stream)
* src/runtime/container/unicode_view.cc 59-63 (text is written as UTF-8)

The format string is encoded, read byte by byte with two flags, and the bytes written are decoded at the end (see
Utf8 for both).

Simplifications: of the values only text, bytes, integers, booleans and `None` are modelled; a boolean has arrived as an
integer in an `Any`.  Integers are written in decimal.  Floats, containers and user objects are left out.
-/
namespace Verif.StrFormat

open Verif.Utf8 (encode utf8Decode DecRes)

inductive Val
  | str (s : List Nat)
  | bytes (b : List UInt8)
  | int (i : Int)
  | bool (b : Bool)
  | none
deriving DecidableEq

def chars (s : String) : List Nat := s.toList.map Char.toNat

/-- `operator<<` for a value. -/
def write : Val → List UInt8
  | .str s => encode s
  | .bytes b => b
  | .int i => encode (chars (toString i))
  | .bool b => encode (chars (toString (if b then (1 : Int) else 0)))
  | .none => encode (chars "nullptr")

inductive Err
  | index
  | keyword
  | singleOpen
  | singleClose
deriving DecidableEq

/-- The loop over the bytes; `l` and `r` are `left_bracket` and `right_bracket`, `out` is the stream. -/
def loop : (cs : List UInt8) → (l r : Bool) → (args : List Val) → (out : List UInt8) → Except Err (List UInt8)
  | [], l, r, _, out => if l then .error .singleOpen else if r then .error .singleClose else .ok out
  | c :: cs, l, r, args, out =>
    if l then
      if c = 123 then loop cs false r args (out ++ [123])
      else if c = 125 then
        match args with
        | [] => .error .index
        | a :: args => loop cs false r args (out ++ write a)
      else .error .keyword
    else if r then
      if c = 125 then loop cs l false args (out ++ [125]) else .error .singleClose
    else if c = 123 then loop cs true r args out
    else if c = 125 then loop cs l true args out
    else loop cs l r args (out ++ [c])

def format (s : List Nat) (args : List Val) : Except Err DecRes :=
  match loop (encode s) false false args [] with
  | .ok out => .ok (utf8Decode out)
  | .error e => .error e

end Verif.StrFormat
