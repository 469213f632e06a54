import Verif.Liveness

/-!
# Reaching definitions and use-define chains

Model of `CFG.compute_reaching_defines`
(`/repo/python/matx/cfg/builder.py` 560-650).

A `Variable` object (one per name node of the syntax tree, builder.py 186-191)
is a pair of the name and a number standing for the node.
-/

namespace Verif.ReachDef

open Verif.Liveness (put)

/-- A `Variable`: a name together with the syntax node it occurs at. -/
structure Var where
  name : Nat
  node : Nat
  deriving DecidableEq, Repr

/-- What the analysis sees of a statement.  `LoadStoreSeparator.store` is a
Python set; here it is the list of its elements in iteration order, which only
matters for a statement that stores one name twice. -/
structure Stmt where
  loads : List Var
  stores : List Var

/-- A control-flow graph; `next`/`prev` are `next_block_list` /
`prev_block_list` (model.py 60-100). -/
structure Graph where
  n : Nat
  code : Nat → List Stmt
  next : Nat → List Nat
  prev : Nat → List Nat

/-- A Python dictionary from names to variables, as an association list with
at most one entry per name. -/
abbrev Gens := List (Nat × Var)

/-- `gens[v.name] = v`: replaces the value of an existing key in place,
otherwise adds the key at the end. -/
def setGen : Gens → Var → Gens
  | [], v => [(v.name, v)]
  | (k, w) :: d, v => if k = v.name then (k, v) :: d else (k, w) :: setGen d v

/-- `name in gens`. -/
def hasGen (d : Gens) (x : Nat) : Bool := d.any fun e => e.1 == x

/-- `gens[name]`. -/
def getGen (d : Gens) (x : Nat) : Option Var := (d.find? fun e => e.1 == x).map Prod.snd

/-- The stores of one statement entered into the dictionary
(builder.py 568-569). -/
def storeStep (d : Gens) (s : Stmt) : Gens := s.stores.foldl setGen d

/-- `reach_def_gens` of a block (builder.py 563-569). -/
def gens (code : List Stmt) : Gens := code.foldl storeStep []

/-- `block.reach_def_gen` (builder.py 570-571). -/
def Graph.gen (g : Graph) (b : Nat) : Finset Var := ((gens (g.code b)).map Prod.snd).toFinset

/-- The names in `block_gens = {v.name: v for v in block.reach_def_gen}`
(builder.py 574). -/
def Graph.genNames (g : Graph) (b : Nat) : Finset Nat := (g.gen b).image Var.name

/-- `block.reach_def_kill` (builder.py 573-580): the generated definitions of
the *other* blocks whose name this block defines. -/
def Graph.kill (g : Graph) (b : Nat) : Finset Var :=
  ((Finset.range g.n).filter (· ≠ b)).biUnion fun o =>
    (g.gen o).filter fun v => v.name ∈ g.genNames b

/-- The attributes the worklist works on. -/
structure State where
  inn : Nat → Finset Var
  out : Nat → Finset Var
  changed : Finset Nat

/-- State before the loop (builder.py 582-586): `OUT = GEN`, `IN` empty, every
block in `changed`. -/
def init (g : Graph) : State := ⟨fun _ => ∅, g.gen, Finset.range g.n⟩

/-- The block selected (builder.py 591-594): the last block of `block_list`
that is in `changed`. -/
def pick (g : Graph) (changed : Finset Nat) : Option Nat :=
  ((List.range g.n).filter (· ∈ changed)).getLast?

/-- `IN[n]` from the predecessors' `OUT` (builder.py 602-608). -/
def inOf (g : Graph) (out : Nat → Finset Var) (b : Nat) : Finset Var :=
  (g.prev b).foldl (fun acc p => acc ∪ out p) ∅

/-- One round of the loop for the selected block (builder.py 599-624). -/
def process (g : Graph) (st : State) (b : Nat) : State :=
  let i := inOf g st.out b
  let o := g.gen b ∪ (i \ g.kill b)
  let ch := st.changed.erase b
  ⟨put st.inn b i, put st.out b o, if st.out b = o then ch else ch ∪ (g.next b).toFinset⟩

/-- The outcome of the worklist loop. -/
inductive Res where
  | done (st : State)
  | internalError
  | outOfFuel

/-- The `while changed` loop (builder.py 588-624).  `internalError` is the
`RuntimeError` raised when no block of `block_list` is in a non-empty
`changed` (595-598). -/
def loop (g : Graph) : Nat → State → Res
  | 0, st => if st.changed = ∅ then .done st else .outOfFuel
  | fuel + 1, st =>
    if st.changed = ∅ then .done st
    else match pick g st.changed with
      | none => .internalError
      | some b => loop g fuel (process g st b)

/-- All definitions of the function that are the last of their name in some
block. -/
def Graph.defs (g : Graph) : Finset Var := (Finset.range g.n).biUnion g.gen

/-- A number of rounds shown to be sufficient by `reach_terminates`. -/
def fuelFor (g : Graph) : Nat := g.n * g.defs.card * (g.n + 1) + g.n

/-- `compute_reaching_defines`, first part (builder.py 560-624). -/
def computeReach (g : Graph) : Res := loop g (fuelFor g) (init g)

/-- The definitions entered for one load (builder.py 637-642): the one made
earlier in the block, else every definition in `IN` with the name. -/
def defsOf (inn : Finset Var) (d : Gens) (x : Nat) : Finset Var :=
  if hasGen d x then (getGen d x).toList.toFinset else inn.filter fun v => v.name = x

/-- Use-define entries made by the statement loop for a block
(builder.py 632-646): pairs `(load, definition)`. -/
def useDefsFrom (inn : Finset Var) : Gens → List Stmt → List (Var × Finset Var)
  | _, [] => []
  | d, s :: rest =>
    (s.loads.map fun l => (l, defsOf inn d l.name)) ++ useDefsFrom inn (storeStep d s) rest

/-- `use_def_chains` restricted to the loads of block `b`. -/
def useDefs (g : Graph) (st : State) (b : Nat) : List (Var × Finset Var) :=
  useDefsFrom (st.inn b) [] (g.code b)

end Verif.ReachDef
