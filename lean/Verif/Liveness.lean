import Mathlib.Data.Finset.Basic
import Mathlib.Data.Finset.Card
import Mathlib.Data.Finset.Union

/-!
# Live-variable analysis of the script compiler

Model of `CFG.init_var_life_info` and `CFG.compute_live_out_var`
(`/repo/python/matx/cfg/builder.py` 523-545) and of
`Block.recompute_live_out_var` (`/repo/python/matx/cfg/model.py` 115-125).

Blocks are numbered by their position in `block_list`, names are numbers.
A statement is represented by the two sets `LoadStoreSeparator`
(builder.py 180-206) collects from it.  Python sets are `Finset`s.
-/

namespace Verif.Liveness

/-- What the analysis sees of one statement: the names it loads and the names
it stores (`LoadStoreSeparator.load` / `.store`, builder.py 180-206).  The
loads of a statement happen before its stores. -/
structure Stmt where
  loads : Finset Nat
  stores : Finset Nat

/-- A control-flow graph: block `b < n` has the statements `code b` and the
successors `next b` (`Block.statements`, `Block.next_block_list`,
model.py 60-100). -/
structure Graph where
  n : Nat
  code : Nat → List Stmt
  next : Nat → List Nat

/-- One iteration of the statement loop of `init_var_life_info`
(builder.py 525-536): loads not yet killed join `ue_var`, stores join
`var_kill`. -/
def lifeStep (acc : Finset Nat × Finset Nat) (s : Stmt) : Finset Nat × Finset Nat :=
  (acc.1 ∪ (s.loads \ acc.2), acc.2 ∪ s.stores)

/-- `init_var_life_info` for one block: the pair `(ue_var, var_kill)`
(builder.py 523-536; `globals_var` and `block_set` are not read by the
analyses and are left out). -/
def lifeInfo (code : List Stmt) : Finset Nat × Finset Nat :=
  code.foldl lifeStep (∅, ∅)

/-- `block.ue_var`. -/
def Graph.ue (g : Graph) (b : Nat) : Finset Nat := (lifeInfo (g.code b)).1

/-- `block.var_kill`. -/
def Graph.kill (g : Graph) (b : Nat) : Finset Nat := (lifeInfo (g.code b)).2

/-- `live_out` of every block. -/
abbrev Lo := Nat → Finset Nat

/-- Assignment to one block's attribute. -/
def put {α : Type} (f : Nat → α) (b : Nat) (x : α) : Nat → α :=
  fun i => if i = b then x else f i

/-- The loop body of `recompute_live_out_var` (model.py 117-121). -/
def liveAcc (g : Graph) (lo : Lo) (acc : Finset Nat) (nx : Nat) : Finset Nat :=
  (acc ∪ g.ue nx) ∪ (lo nx \ (lo nx ∩ g.kill nx))

/-- The set `new_live_out` computed by `recompute_live_out_var`
(model.py 116-121). -/
def newLiveOut (g : Graph) (lo : Lo) (b : Nat) : Finset Nat :=
  (g.next b).foldl (liveAcc g lo) ∅

/-- `Block.recompute_live_out_var` (model.py 115-125): nothing is stored, and
`False` is returned, unless the new set has an element the old one lacks. -/
def recompute (g : Graph) (lo : Lo) (b : Nat) : Lo × Bool :=
  if newLiveOut g lo b \ lo b = ∅ then (lo, false)
  else (put lo b (newLiveOut g lo b), true)

/-- One step of the `for` loop of `compute_live_out_var` (builder.py 542-544). -/
def passStep (g : Graph) (acc : Lo × Bool) (b : Nat) : Lo × Bool :=
  let r := recompute g acc.1 b
  (r.1, acc.2 || r.2)

/-- One pass over `block_list` (builder.py 541-544). -/
def pass (g : Graph) (lo : Lo) : Lo × Bool :=
  (List.range g.n).foldl (passStep g) (lo, false)

/-- The `while changed_flag` loop of `compute_live_out_var`
(builder.py 538-544).  `none` means `fuel` passes were not enough. -/
def liveLoop (g : Graph) : Nat → Lo → Option Lo
  | 0, _ => none
  | fuel + 1, lo =>
    let r := pass g lo
    if r.2 then liveLoop g fuel r.1 else some r.1

/-- All names the function mentions in a load. -/
def Graph.names (g : Graph) : Finset Nat :=
  (Finset.range g.n).biUnion fun b => g.ue b

/-- `compute_live_out_var` from the freshly constructed blocks, whose
`live_out` is empty (model.py 88).  The number of passes granted is shown to
be sufficient by `live_terminates`. -/
def computeLiveOut (g : Graph) : Option Lo :=
  liveLoop g (g.n * g.names.card + 1) (fun _ => ∅)

/-- One entry of the mapping built by `collect_ast_live_out_info`
(builder.py 546-558): a name node in block `b` is reported live-out when the
name is in the block's `live_out`. -/
def nodeLiveOut (lo : Lo) (b : Nat) (name : Nat) : Bool := decide (name ∈ lo b)

end Verif.Liveness
