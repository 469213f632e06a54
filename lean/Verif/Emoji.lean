import Verif.WordPiece
/-
The emoji filter: text/emoji_filter.cc, text/emoji_filter.h and python/matx/text/emoji_filter.py.

The tables of emojis compiled into the library are not modelled: the filter is modelled for any list of codes.  `none` is
undefined behaviour or the end of the process, as in `Verif.WordPiece`.
-/
namespace Verif.Emoji
open Verif.Cedar (St)
open Verif.WordPiece (newMapping search Res Val raw)

/-- `dic[code] = 0` for all codes (`AppendResource`, emoji_filter.cc 36-60). -/
def codesMap (m : List (List Nat × Int)) : List (List Nat) → List (List Nat × Int)
  | [] => m
  | k :: ks => if k ∈ m.map (·.1) then codesMap m ks else codesMap (m ++ [(k, 0)]) ks

/-- The end of `EmojiFilter::EmojiFilter`, emoji_filter.cc 98. -/
def new (codes : List (List Nat)) : Option St := newMapping (codesMap [] codes)

/-- `EmojiFilter::Filter`, emoji_filter.cc 131-150. -/
def filter (s : St) (w : List Nat) : Option (List Nat) :=
  match w with
  | [] => some []
  | c :: l =>
    match search s (c :: l) 0 with
    | none => none
    | some (m, _) => if m = 0 then (filter s l).map (c :: ·) else filter s ((c :: l).drop m)
  termination_by w.length
  decreasing_by
    · simp
    · rw [List.length_drop, List.length_cons]; omega

/-- The loop of `EmojiFilter::Replace`, emoji_filter.cc 111-127. -/
def replaceLoop (s : St) (repl : List Nat) (keepAll : Bool) (w : List Nat) (last : Bool) : Option (List Nat) :=
  match w with
  | [] => some []
  | c :: l =>
    match search s (c :: l) 0 with
    | none => none
    | some (m, _) =>
      if m = 0 then (replaceLoop s repl keepAll l false).map (c :: ·)
      else (replaceLoop s repl keepAll ((c :: l).drop m) true).map
        ((if keepAll || !last then repl else []) ++ ·)
  termination_by w.length
  decreasing_by
    · simp
    · rw [List.length_drop, List.length_cons]; omega

/-- `EmojiFilter::Replace`, emoji_filter.cc 101-129. -/
def replace (s : St) (w repl : List Nat) (keepAll : Bool) : Option (List Nat) :=
  if repl = [] then filter s w else replaceLoop s repl keepAll w false

/-- `UTF8Decode` of a result. -/
def decoded : Option (List Nat) → Res Val
  | none => .ub
  | some b =>
    match Utf8.utf8Decode (raw b) with
    | .ok x => .ok (.str x)
    | _ => .ub

/-- The method `filter`, emoji_filter.cc 166-184. -/
def filterM (s : St) : Val → Res Val
  | .bytes w => match filter s w with
    | none => .ub
    | some b => .ok (.bytes b)
  | .str w => decoded (filter s (Cedar.bytes w))
  | _ => .error

/-- The method `replace`, emoji_filter.cc 185-207. -/
def replaceM (s : St) (x r : Val) (keepAll : Bool) : Res Val :=
  match x, r with
  | .bytes w, .bytes r => match replace s w r keepAll with
    | none => .ub
    | some b => .ok (.bytes b)
  | .str w, .str r => decoded (replace s (Cedar.bytes w) (Cedar.bytes r) keepAll)
  | _, _ => .error

/-- `slice_index_correction`, container_slice_helper.h 27-30. -/
def corrected (pos : Int) (len : Nat) : Nat :=
  (if pos < 0 then (if pos < -(len : Int) then 0 else pos + len) else (if pos > len then (len : Int) else pos)).toNat

/-- The method `check_pos`, emoji_filter.cc 208-230, and `CheckPos`, emoji_filter.h 52-57.  For a `str` the `len`
code points behind the position are encoded (line 219), not those up to the end of the `str`: reading behind the end is
`ub`. -/
def checkPos (s : St) (x : Val) (pos : Int) : Res Int :=
  match x with
  | .bytes w =>
    match search s (w.drop (corrected pos w.length)) 0 with
    | none => .ub
    | some (m, _) => .ok m
  | .str w =>
    if corrected pos w.length + w.length > w.length then .ub
    else
      match search s (Cedar.bytes (w.drop (corrected pos w.length))) 0 with
      | none => .ub
      | some (m, _) =>
        match Utf8.countUnitSize ((Utf8.encode (w.drop (corrected pos w.length))).take m) with
        | none => .ub
        | some n => .ok n
  | _ => .error

end Verif.Emoji
