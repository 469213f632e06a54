import Mathlib.Data.List.Basic
/-
Printing of expressions as Python (`print(ir)`), and Python's expression grammar.

Sources (all under /repo):
* src/ir/printer/doc_printer/python_doc_printer.cc 44-146 (ExprPrecedence, GetExprPrecedence),
  238-275 (PrintChildExpr), 338-525 (PrintTypedDoc of expressions)
* include/matxscript/ir/printer/doc.h 511-549 (OperationDocNode::Kind)

Simplifications: the output is a list of tokens, without blanks and without the underlining of errors;
numbers, strings and names are opaque.  `None`, `True`, `False` and strings are constants, floats are assumed
to be finite.  Dicts, slices, comprehensions and `yield` are not modelled.
-/

namespace Verif.DocPrint

/-- Unary operators, doc.h 513-517. -/
inductive UOp where
  | neg | inv | not
deriving DecidableEq

/-- Binary operators except `**`, doc.h 520-543. -/
inductive BOp where
  | add | sub | mul | div | floordiv | mod | lsh | rsh | band | bor | bxor
  | lt | le | eq | ne | gt | ge | and | or | isin | notin
deriving DecidableEq

/-- List, set and tuple displays. -/
inductive Disp where
  | list | set | tuple
deriving DecidableEq

/-- `ExprDoc`.  A number has its sign, whether it is an integer, and its text without the sign. -/
inductive Doc where
  | num (neg isInt : Bool) (s : String)
  | const (s : String)
  | id (s : String)
  | attr (v : Doc) (name : String)
  | index (v : Doc) (is : List Doc)
  | call (f : Doc) (args : List Doc) (keys : List String) (vals : List Doc)
  | lam (ps : List String) (body : Doc)
  | disp (k : Disp) (es : List Doc)
  | un (o : UOp) (a : Doc)
  | bin (o : BOp) (a b : Doc)
  | pow (a b : Doc)
  | ite (c x y : Doc)

/-- Tokens.  `-` is the same token as a unary and as a binary operator. -/
inductive Tok where
  | num (isInt : Bool) (s : String)
  | const (s : String)
  | id (s : String)
  | bop (o : BOp)
  | inv | not | pow | dot | lp | rp | lb | rb | lc | rc | comma | colon | assign | lambda | if_ | else_
deriving DecidableEq

/-! ### The printer -/

/-- The entries of `op_kind_precedence`, python_doc_printer.cc 85-115. -/
def BOp.prec : BOp → Nat
  | .add => 12 | .sub => 12 | .mul => 13 | .div => 13 | .floordiv => 13 | .mod => 13
  | .lsh => 11 | .rsh => 11 | .band => 10 | .bor => 8 | .bxor => 9
  | .lt => 7 | .le => 7 | .eq => 7 | .ne => 7 | .gt => 7 | .ge => 7
  | .and => 4 | .or => 3 | .isin => 6 | .notin => 6

def UOp.prec : UOp → Nat
  | .neg => 14 | .inv => 14 | .not => 5

/-- `GetExprPrecedence`, python_doc_printer.cc 81-146. -/
def Doc.prec : Doc → Nat
  | .un o _ => o.prec
  | .bin o _ _ => o.prec
  | .pow _ _ => 15
  | .ite _ _ _ => 2
  | .lam _ _ => 1
  | _ => 16

/-- `PrintChildExpr`, python_doc_printer.cc 238-253, on what the child prints. -/
def child (p : Nat) (conservative : Bool) (prec : Nat) (t : List Tok) : List Tok :=
  if prec < p ∨ (conservative = true ∧ prec = p) then .lp :: t ++ [.rp] else t

/-- The token of a unary operator. -/
def UOp.tok : UOp → Tok
  | .neg => .bop .sub
  | .inv => .inv
  | .not => .not

/-- The parameters of a lambda. -/
def prParams : List String → List Tok
  | [] => []
  | [s] => [.id s]
  | s :: ss => .id s :: .comma :: prParams ss

mutual
/-- `PrintTypedDoc`, python_doc_printer.cc 338-525. -/
def pr : Doc → List Tok
  | .num neg i s => if neg then [.bop .sub, .num i s] else [.num i s]
  | .const s => [.const s]
  | .id s => [.id s]
  | .attr v n => child 16 false v.prec (pr v) ++ [.dot, .id n]
  | .index v is => child 16 false v.prec (pr v) ++ .lb :: (if is.isEmpty then [.lp, .rp] else prs is) ++ [.rb]
  | .call f args keys vals =>
    child 16 false f.prec (pr f) ++ .lp ::
      (prs args ++ (if args.isEmpty ∨ keys.isEmpty then [] else [.comma]) ++ prk keys vals) ++ [.rp]
  | .lam ps b => .lambda :: prParams ps ++ .colon :: child 1 false b.prec (pr b)
  | .disp .list es => .lb :: prs es ++ [.rb]
  | .disp .set es => .lc :: prs es ++ [.rc]
  | .disp .tuple es => .lp :: (if es.length = 1 then prs es ++ [.comma] else prs es) ++ [.rp]
  | .un o a => o.tok :: child o.prec false a.prec (pr a)
  | .pow a b => child 15 true a.prec (pr a) ++ .pow :: child 14 false b.prec (pr b)
  | .bin o a b => child o.prec false a.prec (pr a) ++ .bop o :: child o.prec true b.prec (pr b)
  | .ite c x y => child 2 false x.prec (pr x) ++ .if_ :: child 2 true c.prec (pr c) ++
      .else_ :: child 2 true y.prec (pr y)
/-- `PrintJoinedDocs` with a comma. -/
def prs : List Doc → List Tok
  | [] => []
  | d :: ds => pr d ++ (if ds.isEmpty then [] else .comma :: prs ds)
/-- Keyword arguments. -/
def prk : List String → List Doc → List Tok
  | k :: ks, d :: ds => .id k :: .assign :: pr d ++ (if ks.isEmpty then [] else .comma :: prk ks ds)
  | _, _ => []
end

/-! ### Python's grammar -/

/-- The node of a syntax tree.  `cmp` is a comparison chain with its operators. -/
inductive Lab where
  | num (isInt : Bool) (s : String)
  | const (s : String)
  | id (s : String)
  | attr (s : String)
  | index
  | call (n : Nat) (keys : List String)
  | lam (ps : List String)
  | list | set | tuple | dict
  | neg | inv | pos | not
  | bin (o : BOp)
  | cmp (os : List BOp)
  | pow | ite
deriving DecidableEq

inductive Ast where
  | node (l : Lab) (kids : List Ast)

/-- The levels of the grammar (Python reference, chapter 6): 0 expression, 1 or_test, 2 and_test, 3 not_test,
4 comparison, 5 or_expr, 6 xor_expr, 7 and_expr, 8 shift_expr, 9 a_expr, 10 m_expr, 11 u_expr, 12 power,
13 primary. -/
def BOp.lvl : BOp → Nat
  | .or => 1 | .and => 2
  | .lt => 4 | .le => 4 | .eq => 4 | .ne => 4 | .gt => 4 | .ge => 4 | .isin => 4 | .notin => 4
  | .bor => 5 | .bxor => 6 | .band => 7 | .lsh => 8 | .rsh => 8 | .add => 9 | .sub => 9
  | .mul => 10 | .div => 10 | .floordiv => 10 | .mod => 10

/-- What the parser is asked for: an expression of a level, the rest of a left-associative level, the rest
of a comparison, the trailers of a primary, the rest of a comma-separated list up to a closing token, or
the rest of the arguments of a call. -/
inductive Goal where
  | lv (l : Nat)
  | loop (l : Nat) (acc : Ast)
  | chain (os : List BOp) (xs : List Ast)
  | trail (acc : Ast)
  | seq (close : Tok) (lab : Lab) (acc : List Ast)
  | args (f : Ast) (pos : List Ast) (keys : List String) (vals : List Ast)

/-- The parameters of a lambda up to the colon. -/
def params : List Tok → Option (List String × List Tok)
  | .colon :: r => some ([], r)
  | .id s :: .colon :: r => some ([s], r)
  | .id s :: .comma :: r => (params r).map fun p => (s :: p.1, p.2)
  | _ => none

/-- A comparison without operators is its operand. -/
def mkCmp : List BOp → List Ast → Ast
  | [], [x] => x
  | os, xs => .node (.cmp os) xs

abbrev R := Option (Ast × List Tok)

/-- The recursive-descent parser of the grammar; `p` parses the parts. -/
def step (p : Goal → List Tok → R) : Goal → List Tok → R
  | .lv 0, .lambda :: ts =>
    (params ts).bind fun q => (p (.lv 0) q.2).bind fun b => some (.node (.lam q.1) [b.1], b.2)
  | .lv 0, ts =>
    (p (.lv 1) ts).bind fun x =>
      match x.2 with
      | .if_ :: r => (p (.lv 1) r).bind fun c =>
        match c.2 with
        | .else_ :: r => (p (.lv 0) r).bind fun y => some (.node .ite [c.1, x.1, y.1], y.2)
        | _ => none
      | _ => some x
  | .lv 3, .not :: ts => (p (.lv 3) ts).bind fun x => some (.node .not [x.1], x.2)
  | .lv 3, ts => p (.lv 4) ts
  | .lv 4, ts => (p (.lv 5) ts).bind fun x => p (.chain [] [x.1]) x.2
  | .lv 11, .bop .sub :: ts => (p (.lv 11) ts).bind fun x => some (.node .neg [x.1], x.2)
  | .lv 11, .bop .add :: ts => (p (.lv 11) ts).bind fun x => some (.node .pos [x.1], x.2)
  | .lv 11, .inv :: ts => (p (.lv 11) ts).bind fun x => some (.node .inv [x.1], x.2)
  | .lv 11, ts => p (.lv 12) ts
  | .lv 12, ts =>
    (p (.lv 13) ts).bind fun x =>
      match x.2 with
      | .pow :: r => (p (.lv 11) r).bind fun y => some (.node .pow [x.1, y.1], y.2)
      | _ => some x
  -- an integer directly before a dot is read as a float
  | .lv 13, .num true _ :: .dot :: _ => none
  | .lv 13, .num i s :: r => p (.trail (.node (.num i s) [])) r
  | .lv 13, .const s :: r => p (.trail (.node (.const s) [])) r
  | .lv 13, .id s :: r => p (.trail (.node (.id s) [])) r
  | .lv 13, .lp :: .rp :: r => p (.trail (.node .tuple [])) r
  | .lv 13, .lp :: r =>
    (p (.lv 0) r).bind fun x =>
      match x.2 with
      | .rp :: r => p (.trail x.1) r
      | .comma :: r => (p (.seq .rp .tuple [x.1]) r).bind fun y => p (.trail y.1) y.2
      | _ => none
  | .lv 13, .lb :: r => (p (.seq .rb .list []) r).bind fun y => p (.trail y.1) y.2
  | .lv 13, .lc :: .rc :: r => p (.trail (.node .dict [])) r
  | .lv 13, .lc :: r => (p (.seq .rc .set []) r).bind fun y => p (.trail y.1) y.2
  | .lv 13, _ => none
  | .lv l, ts => (p (.lv (l + 1)) ts).bind fun x => p (.loop l x.1) x.2
  | .loop l acc, .bop o :: r =>
    if o.lvl = l then (p (.lv (l + 1)) r).bind fun y => p (.loop l (.node (.bin o) [acc, y.1])) y.2
    else some (acc, .bop o :: r)
  | .loop _ acc, ts => some (acc, ts)
  | .chain os xs, .bop o :: r =>
    if o.lvl = 4 then (p (.lv 5) r).bind fun y => p (.chain (os ++ [o]) (xs ++ [y.1])) y.2
    else some (mkCmp os xs, .bop o :: r)
  | .chain os xs, ts => some (mkCmp os xs, ts)
  | .trail acc, .dot :: .id s :: r => p (.trail (.node (.attr s) [acc])) r
  | .trail acc, .lp :: r => p (.args acc [] [] []) r
  | .trail acc, .lb :: r =>
    (p (.lv 0) r).bind fun x =>
      match x.2 with
      | .rb :: r => p (.trail (.node .index [acc, x.1])) r
      | .comma :: r => (p (.seq .rb .tuple [x.1]) r).bind fun y => p (.trail (.node .index [acc, y.1])) y.2
      | _ => none
  | .trail acc, ts => some (acc, ts)
  | .seq c lab acc, ts =>
    if ts.head? = some c then some (.node lab acc, ts.tail)
    else (p (.lv 0) ts).bind fun x =>
      match x.2 with
      | .comma :: r => p (.seq c lab (acc ++ [x.1])) r
      | r => if r.head? = some c then some (.node lab (acc ++ [x.1]), r.tail) else none
  | .args f pos ks vs, .rp :: r => p (.trail (.node (.call pos.length ks) (f :: pos ++ vs))) r
  | .args f pos ks vs, .id k :: .assign :: r =>
    (p (.lv 0) r).bind fun x =>
      match x.2 with
      | .comma :: r => p (.args f pos (ks ++ [k]) (vs ++ [x.1])) r
      | .rp :: r => p (.trail (.node (.call pos.length (ks ++ [k])) (f :: pos ++ (vs ++ [x.1])))) r
      | _ => none
  | .args f pos ks vs, ts =>
    if ks = [] then (p (.lv 0) ts).bind fun x =>
      match x.2 with
      | .comma :: r => p (.args f (pos ++ [x.1]) ks vs) r
      | .rp :: r => p (.trail (.node (.call (pos.length + 1) ks) (f :: (pos ++ [x.1]) ++ vs))) r
      | _ => none
    else none

/-- The parser with at most `n` nested calls. -/
def run : Nat → Goal → List Tok → R
  | 0, _, _ => none
  | n + 1, g, ts => step (run n) g ts

/-- Python reads the tokens as the expression `a`. -/
def Reads (ts : List Tok) (a : Ast) : Prop := ∃ n, run n (.lv 0) ts = some (a, [])

/-! ### What a document means -/

/-- A signed number is a negation in Python's syntax. -/
def signed (neg isInt : Bool) (s : String) : Ast :=
  if neg then .node .neg [.node (.num isInt s) []] else .node (.num isInt s) []

def UOp.lab : UOp → Lab
  | .neg => .neg
  | .inv => .inv
  | .not => .not

def Disp.lab : Disp → Lab
  | .list => .list
  | .set => .set
  | .tuple => .tuple

/-- The tree of a binary operation. -/
def binAst (o : BOp) (a b : Ast) : Ast := if o.lvl = 4 then .node (.cmp [o]) [a, b] else .node (.bin o) [a, b]

/-- Several indices are a tuple. -/
def indexAst (v : Ast) : List Ast → Ast
  | [x] => .node .index [v, x]
  | xs => .node .index [v, .node .tuple xs]

mutual
/-- The syntax tree that the document stands for. -/
def ast : Doc → Ast
  | .num neg i s => signed neg i s
  | .const s => .node (.const s) []
  | .id s => .node (.id s) []
  | .attr v n => .node (.attr n) [ast v]
  | .index v is => indexAst (ast v) (asts is)
  | .call f args keys vals => .node (.call args.length keys) (ast f :: asts args ++ asts vals)
  | .lam ps b => .node (.lam ps) [ast b]
  | .disp k es => .node k.lab (asts es)
  | .un o a => .node o.lab [ast a]
  | .pow a b => .node .pow [ast a, ast b]
  | .bin o a b => binAst o (ast a) (ast b)
  | .ite c x y => .node .ite [ast c, ast x, ast y]
def asts : List Doc → List Ast
  | [] => []
  | d :: ds => ast d :: asts ds
end

/-- A negative number. -/
def Doc.isNeg : Doc → Bool
  | .num neg _ _ => neg
  | _ => false

/-- An integer. -/
def Doc.isInt : Doc → Bool
  | .num _ i _ => i
  | _ => false

mutual
/-- The documents that the printer gets right: no comparison as the left operand of a comparison, no
comparison in an operand of `in` except `in` on the right, no conditional as the first part of a
conditional, no negative number as a base or before a trailer, no attribute of an integer, no empty set, as
many keywords as values. -/
def Good : Doc → Prop
  | .num _ _ _ => True
  | .const _ => True
  | .id _ => True
  | .attr v _ => Good v ∧ v.isNeg = false ∧ v.isInt = false
  | .index v is => Good v ∧ v.isNeg = false ∧ Goods is
  | .call f args keys vals => Good f ∧ f.isNeg = false ∧ Goods args ∧ Goods vals ∧ keys.length = vals.length
  | .lam _ b => Good b
  | .disp k es => Goods es ∧ (k = .set → es ≠ [])
  | .un _ a => Good a
  | .pow a b => Good a ∧ Good b ∧ a.isNeg = false
  | .bin o a b => Good a ∧ Good b ∧ (o.prec = 7 → a.prec ≠ 7) ∧
      (o.prec = 6 → a.prec ≠ 6 ∧ a.prec ≠ 7 ∧ b.prec ≠ 7)
  | .ite c x y => Good c ∧ Good x ∧ Good y ∧ x.prec ≠ 2
def Goods : List Doc → Prop
  | [] => True
  | d :: ds => Good d ∧ Goods ds
end

end Verif.DocPrint
