import Verif.Liveness

/-!
# Construction of the control-flow graph

Model of `BasicBlocksBuilder` and of `CFG.parse`, `CFG.build`, `CFG.build_*`,
`CFG.separate_block` and `CFG.connect_2_blocks`
(`/repo/python/matx/cfg/builder.py` 35-145 and 255-516).

An atom (a number) stands for what one entry of a block's `statements` does:
a simple statement, the test of an `if`/`while`, the `ForIter` of a `for`, a
`TryLabel`, an `ExceptHandlerLabel`, a `return`, `break` or `continue`
statement.  Nested function definitions, `with` and `async` statements are not
modelled.
-/

namespace Verif.CfgBuild

open Verif.Liveness (put)

/-- Statements.  `tryS a body labels bodies orelse final`: the handlers are
given by their labels and bodies, position by position. -/
inductive Stm where
  | simple (a : Nat)
  | ret (a : Nat)
  | brk (a : Nat)
  | cont (a : Nat)
  | ifS (t : Nat) (body orelse : List Stm)
  | whileS (t : Nat) (body orelse : List Stm)
  | forS (t : Nat) (body orelse : List Stm)
  | tryS (a : Nat) (body : List Stm) (labels : List Nat) (bodies : List (List Stm))
      (orelse final : List Stm)

/-- The blocks made so far, numbered in the order of `block_list`; `reg b`
tells whether block `b` was registered with its scope
(`add_basic_block`, builder.py 263-266). -/
structure St where
  n : Nat
  code : Nat → List Nat
  next : Nat → List Nat
  prev : Nat → List Nat
  reg : Nat → Bool

/-- `add_basic_block` of a new block. -/
def St.add (s : St) (code : List Nat) (reg : Bool) : St :=
  { n := s.n + 1
    code := put s.code s.n code
    next := put s.next s.n []
    prev := put s.prev s.n []
    reg := put s.reg s.n reg }

/-- `connect_2_blocks` for two blocks (builder.py 512-516). -/
def St.connect (s : St) (a b : Nat) : St :=
  { s with next := put s.next a (s.next a ++ [b]), prev := put s.prev b (s.prev b ++ [a]) }

/-- `connect_2_blocks(a, head)`, which does nothing when `head` is `None`. -/
def St.connectOpt (s : St) (a : Nat) : Option Nat → St
  | none => s
  | some b => s.connect a b

/-- An element of `common_tail_list`: a block, or the *list* that
`build_While` appends for a loop with `else` (builder.py 349). -/
inductive Tail where
  | block (b : Nat)
  | junk
  deriving DecidableEq, Repr

/-- `link_tail_to_cur_block` (builder.py 268-271).  `none` is the
`AttributeError` raised when an element of the list is not a block. -/
def link : St → List Tail → Nat → Option St
  | s, [], _ => some s
  | s, .block t :: ts, b => link (s.connect t b) ts b
  | _, .junk :: _, _ => none

/-- The local state of `parse` (builder.py 486-493) together with the blocks.
`loops` is `loop_tail_list`; the Boolean tells `Break` from `Continue`. -/
structure Acc where
  st : St
  head : Option Nat
  tails : List Tail
  loops : List (Nat × Bool)
  funcs : List Nat

/-- The start of `parse` (builder.py 487-488). -/
def fresh (s : St) : Acc := ⟨s, none, [], [], []⟩

/-- The end of `build` (builder.py 277-282): `head = head or block`, the
pending tails are linked to the block, and the block's tails become the
pending ones. -/
def finish (acc : Acc) (s : St) (b : Nat) (tails : List Tail) (loops : List (Nat × Bool))
    (funcs : List Nat) : Option Acc :=
  match link s acc.tails b with
  | none => none
  | some s' => some ⟨s', acc.head.or (some b), tails, acc.loops ++ loops, acc.funcs ++ funcs⟩

/-- The end of `build_If` (builder.py 291-302), `rb` and `re` being the results
for the two branches. -/
def ifDone (acc : Acc) (b : Nat) (rb re : Acc) : Option Acc :=
  match re.head with
  | some h =>
    finish acc (re.st.connect b h) b (rb.tails ++ re.tails) (rb.loops ++ re.loops)
      (rb.funcs ++ re.funcs)
  | none => finish acc re.st b (rb.tails ++ [.block b]) rb.loops rb.funcs

/-- `[t for t in loop_tail if t.block_end_type == "Break"]` and the same for
`"Continue"` (builder.py 334-335, 365-366). -/
def pickTails (brk : Bool) (loops : List (Nat × Bool)) : List Tail :=
  (loops.filter fun e => e.2 == brk).map fun e => .block e.1

/-- `separate_block` (builder.py 495-510) for a block made of the pending
statements `cache` and a loop header `t`.  Returns the blocks, the block
`build` continues with, and the loop block.  A block consisting of the header
alone has `start_line == end_line` and is kept; otherwise the header goes to a
block of its own, which has no scope and is not registered. -/
def separate (s : St) (cache : List Nat) (t : Nat) : St × Nat × Nat :=
  if cache = [] then (s.add [t] true, s.n, s.n)
  else (((s.add cache true).add [t] false).connect s.n (s.n + 1), s.n, s.n + 1)

/-- `build_While`/`build_For` after the body (builder.py 338-341, 369-372):
the loop block is linked to the body, and the ends of the body and the
`continue`s to the loop block. -/
def loopBack (w : Nat) (rb : Acc) : Option St :=
  match link (rb.st.connectOpt w rb.head) rb.tails w with
  | none => none
  | some s1 => link s1 (pickTails false rb.loops) w

/-- The end of `build_While` (builder.py 343-353), `orelse` being non-empty or
not, `re` its result. -/
def whileDone (acc : Acc) (b w : Nat) (rb : Acc) (hasElse : Bool) (re : Acc) : Option Acc :=
  if hasElse then
    finish acc (re.st.connectOpt w re.head) b (pickTails true rb.loops ++ [.junk]) re.loops
      (rb.funcs ++ re.funcs)
  else
    finish acc re.st b (pickTails true rb.loops ++ [.block w]) [] rb.funcs

/-- The end of `build_For` (builder.py 373-383); the third result is the local
`func_tail`, not `func_tails`. -/
def forDone (acc : Acc) (b w : Nat) (rb : Acc) (hasElse : Bool) (re : Acc) : Option Acc :=
  if hasElse then
    finish acc (re.st.connectOpt w re.head) b (pickTails true rb.loops ++ re.tails) re.loops
      re.funcs
  else
    finish acc re.st b (pickTails true rb.loops ++ [.block w]) [] rb.funcs

/-- What `build_Try` collects over the handlers (builder.py 406-428). -/
structure Hs where
  st : St
  labels : List Nat
  tails : List Tail
  loops : List (Nat × Bool)
  funcs : List Nat

/-- The links from the `try` block and the ends of its body to the handlers
(builder.py 451-457 and 471-475).  `link_tail_to_cur_block` empties the list
of body tails, so only the first handler gets links from them.  With a
`finally` block, each handler label is also linked to it. -/
def linkHandlers (tb : Nat) (fin : Option Nat) : St → List Tail → List Nat → Option (St × List Tail)
  | s, bt, [] => some (s, bt)
  | s, bt, h :: hs =>
    match link (s.connect tb h) bt h with
    | none => none
    | some s' =>
      linkHandlers tb fin (match fin with | some f => s'.connect h f | none => s') [] hs

/-- The end of `build_Try` without `finally` (builder.py 469-484). -/
def tryExcept (acc : Acc) (tb : Nat) (s : St) (rb : Acc) (hs : Hs) (hasElse : Bool) (re : Acc) :
    Option Acc :=
  match linkHandlers tb none s rb.tails hs.labels with
  | none => none
  | some (s1, bt) =>
    if hasElse then
      match re.head with
      | none => none
      | some eh =>
        match link s1 bt eh with
        | none => none
        | some s2 =>
          finish acc s2 tb (hs.tails ++ re.tails) (rb.loops ++ hs.loops ++ re.loops)
            (rb.funcs ++ hs.funcs ++ re.funcs)
    else finish acc s1 tb (hs.tails ++ bt) (rb.loops ++ hs.loops) (rb.funcs ++ hs.funcs)

/-- The end of `build_Try` with `finally` (builder.py 440-467); `rf` is the
result for the `finally` body and `fh` its first block. -/
def tryFinally (acc : Acc) (tb : Nat) (rb : Acc) (hs : Hs) (hasExcept hasElse : Bool)
    (re rf : Acc) (fh : Nat) : Option Acc :=
  let loops := rb.loops ++ hs.loops ++ (if hasElse then re.loops else []) ++ rf.loops
  let funcs := rb.funcs ++ hs.funcs ++ (if hasElse then re.funcs else []) ++ rf.funcs
  if hasExcept then
    match linkHandlers tb (some fh) rf.st rb.tails hs.labels with
    | none => none
    | some (s1, bt) =>
      match link s1 hs.tails fh with
      | none => none
      | some s2 =>
        if hasElse then
          match re.head with
          | none => none
          | some eh =>
            match link s2 bt eh with
            | none => none
            | some s3 =>
              match link s3 re.tails fh with
              | none => none
              | some s4 => finish acc s4 tb rf.tails loops funcs
        else
          match link s2 bt fh with
          | none => none
          | some s3 => finish acc s3 tb rf.tails loops funcs
  else
    match link (rf.st.connect tb fh) rb.tails fh with
    | none => none
    | some s1 => finish acc s1 tb rf.tails loops funcs

/-- Result of visiting one statement: the pending statements (`_cache`), the
state, and `begin_dead_stmt`. -/
structure Step where
  cache : List Nat
  acc : Acc
  dead : Bool

/-- A block has been built; nothing is pending and what follows is not dead. -/
def stepOf (dead : Bool) : Option Acc → Option Step
  | none => none
  | some a => some ⟨[], a, dead⟩

/-- Adding a handler's blocks to what `build_Try` collects
(builder.py 416-426). -/
def hsAdd (label : Nat) (rh : Acc) (hs : Hs) : Hs :=
  ⟨hs.st, label :: hs.labels, rh.tails ++ hs.tails, rh.loops ++ hs.loops, rh.funcs ++ hs.funcs⟩

mutual

/-- `BasicBlocksBuilder.visit` for one statement followed, if it completes a
block, by `add_basic_block` and `build` (builder.py 87-140, 273-484, 489-492).
`none` is an exception. -/
def parseS : Stm → List Nat → Acc → Option Step
  | .simple a, cache, acc => some ⟨cache ++ [a], acc, false⟩
  | .ret a, cache, acc =>
    stepOf false (finish acc (acc.st.add (cache ++ [a]) true) acc.st.n [] [] [acc.st.n])
  | .brk a, cache, acc =>
    stepOf true (finish acc (acc.st.add (cache ++ [a]) true) acc.st.n [] [(acc.st.n, true)] [])
  | .cont a, cache, acc =>
    stepOf true (finish acc (acc.st.add (cache ++ [a]) true) acc.st.n [] [(acc.st.n, false)] [])
  | .ifS t body orelse, cache, acc =>
    match parseL body [] (fresh (acc.st.add (cache ++ [t]) true)) with
    | none => none
    | some rb =>
      match parseL orelse [] (fresh (rb.st.connectOpt acc.st.n rb.head)) with
      | none => none
      | some re => stepOf false (ifDone acc acc.st.n rb re)
  | .whileS t body orelse, cache, acc =>
    match parseL body [] (fresh (separate acc.st cache t).1) with
    | none => none
    | some rb =>
      match loopBack (separate acc.st cache t).2.2 rb with
      | none => none
      | some s1 =>
        match parseL orelse [] (fresh s1) with
        | none => none
        | some re =>
          stepOf false (whileDone acc (separate acc.st cache t).2.1 (separate acc.st cache t).2.2 rb
            (!orelse.isEmpty) re)
  | .forS t body orelse, cache, acc =>
    match parseL body [] (fresh (separate acc.st cache t).1) with
    | none => none
    | some rb =>
      match loopBack (separate acc.st cache t).2.2 rb with
      | none => none
      | some s1 =>
        match parseL orelse [] (fresh s1) with
        | none => none
        | some re =>
          stepOf false (forDone acc (separate acc.st cache t).2.1 (separate acc.st cache t).2.2 rb
            (!orelse.isEmpty) re)
  | .tryS a body labels bodies orelse final, cache, acc =>
    match parseL body [] (fresh (acc.st.add (cache ++ [a]) true)) with
    | none => none
    | some rb =>
      match parseHs labels bodies rb.st with
      | none => none
      | some hs =>
        match parseL orelse [] (fresh hs.st) with
        | none => none
        | some re =>
          match parseL final [] (fresh (re.st.connectOpt acc.st.n rb.head)) with
          | none => none
          | some rf =>
            match rf.head with
            | some fh =>
              stepOf false (tryFinally acc acc.st.n rb hs (!labels.isEmpty) (!orelse.isEmpty) re rf fh)
            | none => stepOf false (tryExcept acc acc.st.n rf.st rb hs (!orelse.isEmpty) re)

/-- `get_basic_block` over a statement list inside `parse`
(builder.py 80-98, 486-493): statements after a `break` or `continue` are
dropped, and what is pending at the end becomes a block. -/
def parseL : List Stm → List Nat → Acc → Option Acc
  | [], cache, acc =>
    if cache = [] then some acc
    else finish acc (acc.st.add cache true) acc.st.n [.block acc.st.n] [] []
  | s :: l, cache, acc =>
    match parseS s cache acc with
    | none => none
    | some r => if r.dead then some r.acc else parseL l r.cache r.acc

/-- The loop over the handlers (builder.py 406-426): the label block (which
has no scope and is not registered), then the body. -/
def parseHs : List Nat → List (List Stm) → St → Option Hs
  | label :: labels, body :: bodies, s =>
    match parseL body [] (fresh (s.add [label] false)) with
    | none => none
    | some rh =>
      match parseHs labels bodies (rh.st.connectOpt s.n rh.head) with
      | none => none
      | some hs => some (hsAdd s.n rh hs)
  | _, _, s => some ⟨s, [], [], [], []⟩

end

/-- No blocks. -/
def St.empty : St := ⟨0, fun _ => [], fun _ => [], fun _ => [], fun _ => false⟩

/-- `CFG.__init__` with `build_FunctionDef` (builder.py 219-250, 304-312): the
function label, block 0, holds the declaration `decl` of the parameters and is
linked to the first block of the body. -/
def buildFn (decl : Nat) (body : List Stm) : Option St :=
  match parseL body [] (fresh (St.empty.add [decl] false)) with
  | none => none
  | some r => some (r.st.connectOpt 0 r.head)

end Verif.CfgBuild
