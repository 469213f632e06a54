import Mathlib.Data.List.Basic

/-!
# Fusion of element-wise operators in kernels

Model of `ElementWiseOpFuser`
(`/repo/python/matx/kernel/graphIR/graph_pass/fuse_element_wise.py` 47-253), of
the construction of element-wise operators
(`/repo/python/matx/kernel/graphIR/ops.py` 35-157) and of what the printers
compute from the resulting graph (`codegen/linalg_printer.py` 54-105,
`codegen/graph_ir_printer.py` 598-671).

Tensors and scalars are numbers (Python compares them by identity).  The
operators inside a sub-graph live in a heap `iop`, as Python's objects do, since
fusion changes them in place.  Of `src_ops` and `dst_ops` the parts that refer
to operators inside sub-graphs are stored (`src`, `dst`); the parts that refer
to operators of the kernel graph are read off the list of operators, which the
code keeps in step (fuse_element_wise.py 178-188).

Simplifications.  Data types: the conversions applied to operands belong to the
function of the operator; scalars that stand for the same tensor have its type,
so the copies between them convert nothing.  Sizes: a tensor is a function of
its index, right-aligned with the index of the result as in `gen_affine_map`
(linalg_printer.py 54-64); only ranks matter.  Every operator outside the pass
(scalar operators, slices, reductions, copies, item access) is an opaque
function of its inputs.  `graph_nodes` lists and names are left out.
-/

namespace Verif.Fuse

/-- Tensors and scalars are numbers. -/
scoped macro "Node" : term => `(Nat)

/-- What an operator inside a sub-graph does.  A copy has the attribute
`copy_from` beside its list of inputs (ops.py 179-201). -/
inductive Kind (V : Type) where
  | un (f : V → V)
  | bin (f : V → V → V)
  | copy (frm : Node)

/-- An operator inside a sub-graph, with `_attrs["inputs"]`. -/
structure IOp (V : Type) where
  kind : Kind V
  inputs : List Node

/-- An `ElementWiseOperator` with its sub-graph (ops.py 35-79): the map
`sub_graph_input`, the scalars of `sub_graph_nodes` and the only entry of
`sub_graph_outputs`. -/
structure EOp where
  inputs : List Node
  out : Node
  subIn : List (Node × Node)
  nodes : List Node
  subOut : Node

/-- An operator of the kernel graph. -/
inductive GOp (V : Type) where
  | ew (e : EOp)
  | opq (ins : List Node) (out : Node) (fn : List (List Nat → V) → List Nat → V)

def GOp.out {V : Type} : GOp V → Node
  | .ew e => e.out
  | .opq _ o _ => o

def GOp.ins {V : Type} : GOp V → List Node
  | .ew e => e.inputs
  | .opq l _ _ => l

/-- The kernel graph.  `inputs` holds the arguments and the constants. -/
structure Graph (V : Type) where
  rank : Node → Nat
  inputs : List Node
  ops : List (GOp V)
  iop : Nat → IOp V
  nIop : Nat
  src : Node → List Nat
  dst : Node → List Nat
  next : Nat

def upd {α : Type} (f : Nat → α) (k : Nat) (v : α) : Nat → α := fun x => if x = k then v else f x

/-- Lookup in an ordered dictionary. -/
def get (k : Node) : List (Node × Node) → Option Node
  | [] => none
  | (a, b) :: l => if a = k then some b else get k l

def keys (l : List (Node × Node)) : List Node := l.map (·.1)
def vals (l : List (Node × Node)) : List Node := l.map (·.2)

/-- `CopyOperator()(dest, frm)` (ops.py 192-201). -/
def Graph.addCopy {V : Type} (g : Graph V) (dest frm : Node) : Graph V :=
  { g with
    iop := upd g.iop g.nIop ⟨.copy frm, [dest, frm]⟩
    nIop := g.nIop + 1
    src := upd g.src dest (g.src dest ++ [g.nIop])
    dst := upd g.dst frm (g.dst frm ++ [g.nIop]) }

/-- The loop over the inputs of the second operator (fuse_element_wise.py
216-225). -/
def mergeIn {V : Type} (t1 : Node) :
    List (Node × Node) → List (Node × Node) → Graph V → List (Node × Node) × Graph V
  | [], acc, g => (acc, g)
  | (k, v) :: l, acc, g =>
    if k = t1 then mergeIn t1 l acc g
    else match get k acc with
      | some v1 => mergeIn t1 l acc (g.addCopy v v1)
      | none => mergeIn t1 l (acc ++ [(k, v)]) g

/-- `op_inputs[op_inputs.index(node)] = s`; `none` is `ValueError`. -/
def replaceFirst (node s : Node) : List Node → Option (List Node)
  | [] => none
  | x :: l => if x = node then some (s :: l) else (replaceFirst node s l).map (x :: ·)

/-- The loop over the readers of the replaced scalar (239-242).  The attribute
`copy_from` of a copy is not touched. -/
def replaceIn {V : Type} (node s : Node) : List Nat → Graph V → Option (Graph V)
  | [], g => some g
  | o :: l, g =>
    match replaceFirst node s (g.iop o).inputs with
    | none => none
    | some ins => replaceIn node s l { g with iop := upd g.iop o ⟨(g.iop o).kind, ins⟩ }

/-- The loop over `op2.sub_graph_nodes` (233-245); `os` is `output_scalar`. -/
def nodeLoop {V : Type} (node : Node) :
    List Node → Option Node → List Node → Graph V → Option (List Node × Graph V)
  | [], _, acc, g => some (acc, g)
  | x :: l, os, acc, g =>
    if x = node then
      match os with
      | none => none
      | some s =>
        match replaceIn node s (g.dst node)
            { g with dst := upd g.dst s (g.dst s ++ (g.dst node).filter (fun o => o ∉ g.dst s)) } with
        | none => none
        | some g' => nodeLoop node l none acc g'
    else nodeLoop node l os (acc ++ [x]) g

/-- `_fuse_subgraph` (206-251) and the rest of `_fuse_two_element_wise_op`
(169-203) after its checks.  `none` stands for the errors raised. -/
def fuse {V : Type} (g : Graph V) (e1 e2 : EOp) : Option (Graph V) :=
  match get e1.out e2.subIn with
  | none => none
  | some node =>
    let m := mergeIn e1.out e2.subIn e1.subIn g
    match nodeLoop node e2.nodes (if e1.subOut ∈ e1.nodes then some e1.subOut else none) e1.nodes m.2 with
    | none => none
    | some (nodes, g') =>
      some { g' with
        ops := g'.ops.filter (fun o => o.out ≠ e1.out ∧ o.out ≠ e2.out) ++
          [.ew { inputs := (e1.inputs ++ e2.inputs.erase e1.out).dedup
                 out := e2.out
                 subIn := m.1
                 nodes := nodes
                 subOut := e2.subOut }] }

/-- The operators that write a node. -/
def Graph.writers {V : Type} (g : Graph V) (t : Node) : List (GOp V) :=
  g.ops.filter (fun o => o.out = t)

/-- The operators that read a node. -/
def Graph.readers {V : Type} (g : Graph V) (t : Node) : List (GOp V) :=
  g.ops.filter (fun o => t ∈ o.ins)

/-- `_check_src_op` (118-123): the node has one source, counting copies made
inside sub-graphs. -/
def Graph.checkSrc {V : Type} (g : Graph V) (t : Node) : Option (GOp V) :=
  match g.writers t, g.src t with
  | [o], [] => some o
  | _, _ => none

/-- `_fuse_two_element_wise_op` (125-204).  The outer `none` is an error, the
inner one the result `None`. -/
def tryFuse {V : Type} (g : Graph V) (e1 e2 : EOp) (t1 : Node) : Option (Option (Graph V)) :=
  match g.writers t1, g.src t1, g.readers t1, g.writers e2.out with
  | [_], [], [_], [_] => (fuse g e1 e2).map some
  | _, _, _, _ => some none

/-- The loop of `_visit_tensor_helper` (100-116) over the inputs of the
operator: an error, or the new graph if there was a fusion, with the nodes put
in the queue. -/
def helper {V : Type} (g : Graph V) (e : EOp) : List Node → Option (Option (Graph V) × List Node)
  | [] => some (none, [])
  | t :: l =>
    if t ∈ g.inputs then helper g e l
    else match g.checkSrc t with
      | none => none
      | some (.ew e1) =>
        match tryFuse g e1 e t with
        | none => none
        | some (some g') => some (some g', [])
        | some none => (helper g e l).map (fun r => (r.1, t :: r.2))
      | some (.opq _ _ _) => (helper g e l).map (fun r => (r.1, t :: r.2))

/-- The first loop of `_visit_tensor` (92-94): fuse into the operator that
writes `t` until nothing changes.  `order` is the order in which Python iterates
over the set of inputs.  The queue keeps the nodes of all rounds, since
`node_queue.empty()` does not empty it. -/
def fuseAll {V : Type} (order : List Node → List Node) :
    Nat → Graph V → Node → List Node → Option (Graph V × List Node)
  | 0, _, _, _ => none
  | n + 1, g, t, q =>
    match g.checkSrc t with
    | some (.ew e) =>
      match helper g e (order e.inputs) with
      | none => none
      | some (some g', q') => fuseAll order n g' t (q ++ q')
      | some (none, q') => some (g, q ++ q')
    | some (.opq ins _ _) => some (g, ins)
    | none => none

/-- `_visit_tensor` (78-96), with the recursion turned into a work list.  The
fuel counts nodes taken from the list.  A node of the queue that was fused away
since is skipped; Python visits its former operator, which changes nothing, as
the inputs of that operator have other readers by then. -/
def visit {V : Type} (order : List Node → List Node) :
    Nat → Graph V → List Node → List Node → Option (Graph V)
  | _, g, _, [] => some g
  | 0, _, _, _ :: _ => none
  | n + 1, g, visited, t :: l =>
    if t ∈ visited ∨ t ∈ g.inputs ∨ (g.writers t).isEmpty then visit order n g visited l
    else match fuseAll order (g.ops.length + 1) g t [] with
      | none => none
      | some (g', q) => visit order n g' (t :: visited) (q ++ l)

/-! ### What the printed kernel computes -/

/-- The last `r` coordinates of an index (`idx_list[-len(t.shape()):]`,
linalg_printer.py 61). -/
def right (r : Nat) (i : List Nat) : List Nat := i.drop (i.length - r)

/-- A place whose value the printed code computes: an element of a tensor, or a
scalar in the body of the loop of operator `e` at index `i`. -/
inductive Site where
  | ten (t : Node) (i : List Nat)
  | sc (e : EOp) (i : List Nat) (s : Node)

/-- The values computed.  Scalars in `sub_graph_input` are arguments of the
body; every other scalar is the result of its only source operator
(`_visit_Tensor`, graph_ir_printer.py 612-620).  A scalar without source has no
value: the printer raises. -/
inductive Val {V : Type} (g : Graph V) (inp : Node → List Nat → V) : Site → V → Prop
  | input {t i} : t ∈ g.inputs → Val g inp (.ten t i) (inp t i)
  | ew {e i v} : .ew e ∈ g.ops → Val g inp (.sc e i e.subOut) v → Val g inp (.ten e.out i) v
  | opq {ins out fn i} (vs : Node → List Nat → V) : .opq ins out fn ∈ g.ops →
      (∀ k ∈ ins, ∀ j, Val g inp (.ten k j) (vs k j)) → Val g inp (.ten out i) (fn (ins.map vs) i)
  | arg {e i k s v} : (k, s) ∈ e.subIn → Val g inp (.ten k (right (g.rank k) i)) v →
      Val g inp (.sc e i s) v
  | un {e i s o f x v} : s ∉ vals e.subIn → g.src s = [o] → g.iop o = ⟨.un f, [x]⟩ →
      Val g inp (.sc e i x) v → Val g inp (.sc e i s) (f v)
  | bin {e i s o f x y v w} : s ∉ vals e.subIn → g.src s = [o] → g.iop o = ⟨.bin f, [x, y]⟩ →
      Val g inp (.sc e i x) v → Val g inp (.sc e i y) w → Val g inp (.sc e i s) (f v w)
  | copy {e i s o x l v} : s ∉ vals e.subIn → g.src s = [o] → g.iop o = ⟨.copy x, l⟩ →
      Val g inp (.sc e i x) v → Val g inp (.sc e i s) v

/-! ### Building the graph -/

/-- The scalar that stands for an input of an element-wise operator (ops.py
60-67): a scalar input stands for itself. -/
def scalarOf {V : Type} (g : Graph V) (x fresh : Node) : Node := if g.rank x = 0 then x else fresh

/-- A binary element-wise operator on two nodes that are not both scalars
(`BinaryElementWiseOperator.__call__`, ops.py 99-127, with `make_subgraph` 57-79
and `_sub_graph_maker` 89-97).  When both operands are the same tensor the
dictionary of inputs has one entry and `in_values[1]` raises `IndexError`. -/
def Graph.addBin {V : Type} (g : Graph V) (f : V → V → V) (l r : Node) : Option (Graph V × Node) :=
  if l = r then none
  else
    let n := g.next
    let m := g.nIop
    let sl := scalarOf g l (n + 1)
    let sr := scalarOf g r (n + 2)
    let dst1 := upd g.dst sl (g.dst sl ++ [m])
    let dst2 := upd dst1 sr (dst1 sr ++ [m])
    some ({ g with
      rank := upd g.rank n (max (g.rank l) (g.rank r))
      ops := g.ops ++ [.ew { inputs := [l, r], out := n, subIn := [(l, sl), (r, sr)],
                             nodes := [sl, sr, n + 3, n + 4], subOut := n + 4 }]
      iop := upd (upd g.iop m ⟨.bin f, [sl, sr]⟩) (m + 1) ⟨.copy (n + 3), [n + 4, n + 3]⟩
      nIop := m + 2
      src := upd (upd g.src (n + 3) [m]) (n + 4) [m + 1]
      dst := upd dst2 (n + 3) [m + 1]
      next := n + 5 }, n)

/-- A unary element-wise operator on a tensor (ops.py 130-157). -/
def Graph.addUn {V : Type} (g : Graph V) (f : V → V) (x : Node) : Graph V × Node :=
  let n := g.next
  let m := g.nIop
  ({ g with
    rank := upd g.rank n (g.rank x)
    ops := g.ops ++ [.ew { inputs := [x], out := n, subIn := [(x, n + 1)],
                           nodes := [n + 1, n + 2, n + 3], subOut := n + 3 }]
    iop := upd (upd g.iop m ⟨.un f, [n + 1]⟩) (m + 1) ⟨.copy (n + 2), [n + 3, n + 2]⟩
    nIop := m + 2
    src := upd (upd g.src (n + 2) [m]) (n + 3) [m + 1]
    dst := upd (upd g.dst (n + 1) (g.dst (n + 1) ++ [m])) (n + 2) [m + 1]
    next := n + 4 }, n)

/-- Any other operator. -/
def Graph.addOpq {V : Type} (g : Graph V) (ins : List Node) (rank : Nat)
    (fn : List (List Nat → V) → List Nat → V) : Graph V × Node :=
  ({ g with
    rank := upd g.rank g.next rank
    ops := g.ops ++ [.opq ins g.next fn]
    next := g.next + 1 }, g.next)

/-- A kernel body: each instruction computes a new value from earlier ones,
which are numbered starting with the arguments and constants. -/
inductive Instr (V : Type) where
  | bin (f : V → V → V) (l r : Nat)
  | un (f : V → V) (x : Nat)
  | opq (ins : List Nat) (rank : Nat) (fn : List (List Nat → V) → List Nat → V)

/-- The function of a binary operator on two scalars. -/
def scalarBin {V : Type} [Inhabited V] (f : V → V → V) (a : List (List Nat → V)) (i : List Nat) : V :=
  f (a.getD 0 (fun _ => default) (right 0 i)) (a.getD 1 (fun _ => default) (right 0 i))

/-- The function of a unary operator on a scalar. -/
def scalarUn {V : Type} [Inhabited V] (f : V → V) (a : List (List Nat → V)) (i : List Nat) : V :=
  f (a.getD 0 (fun _ => default) (right 0 i))

/-- One instruction: `vars` are the nodes of the values computed so far.
Operators on scalars have no sub-graph (ops.py 58-59). -/
def step {V : Type} [Inhabited V] (g : Graph V) (vars : List Node) : Instr V → Option (Graph V × Node)
  | .bin f l r =>
    match vars[l]?, vars[r]? with
    | some a, some b =>
      if g.rank a = 0 ∧ g.rank b = 0 then some (g.addOpq [a, b] 0 (scalarBin f)) else g.addBin f a b
    | _, _ => none
  | .un f x =>
    match vars[x]? with
    | some a => if g.rank a = 0 then some (g.addOpq [a] 0 (scalarUn f)) else some (g.addUn f a)
    | none => none
  | .opq ins rank fn => (ins.mapM (fun x => vars[x]?)).map (fun l => g.addOpq l rank fn)

/-- A kernel body. -/
def build {V : Type} [Inhabited V] : List (Instr V) → Graph V → List Node → Option (Graph V × List Node)
  | [], g, vars => some (g, vars)
  | c :: p, g, vars =>
    match step g vars c with
    | none => none
    | some (g', n) => build p g' (vars ++ [n])

/-- The graph before the first instruction: `ranks` are the ranks of the
arguments and constants. -/
def initGraph {V : Type} [Inhabited V] (ranks : List Nat) : Graph V :=
  { rank := fun x => ranks.getD x 0
    inputs := List.range ranks.length
    ops := []
    iop := fun _ => ⟨.copy 0, []⟩
    nIop := 0
    src := fun _ => []
    dst := fun _ => []
    next := ranks.length }

end Verif.Fuse
