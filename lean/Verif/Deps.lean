/-
How the compiler finds the functions and classes that a compiled function or
class needs, and in which order it compiles them.

Modelled code:
* `python/matx/script/analysis/deps_analysis.py` 41-95 (`run_impl`,
  `find_node_by_raw`, `run`) and 155-213 (`generic_visit`, `visit_FunctionDef`,
  `visit_Name`, `visit_Attribute`);
* `python/matx/script/context/ast_node.py` 65-84 (`topodeps`);
* `python/matx/script/__init__.py` 37-40 (the `while dep_anls.run(...)` loop) and
  75-77, 91-93 (compilation goes through `reversed(deps_node)`, then the main node);
* `python/matx/script/analysis/module_analysis.py` 29-70 (`getallvars`) and 79-119
  (the dictionary a name is looked up in).

Simplifications, part by part, are stated at the definitions.
-/

namespace Verif.Deps

/-! ### Which objects a piece of source uses -/

/-- The syntax nodes the visitor treats specially.  A `FunctionDef` carries the
names of its positional parameters (`node.args.args`). -/
inductive Kind where
  | name (id : String)
  | attribute (attr : String)
  | functionDef (args : List String)
  | other
deriving DecidableEq, Repr

/-- A syntax tree: its kind and its children in the order of `ast.iter_fields`,
each with the name of the field it is stored in (a list field contributes one
entry per element).  Fields that are not nodes are left out; the visitor ignores
them. -/
inductive Tree where
  | mk (kind : Kind) (kids : List (String × Tree))

/-- What the visitor asks about Python objects, which are named by numbers.
`attr` is `getattr(obj, name, None)`; `isDef` is `isclass or isfunction`;
`adds` lists what `try_to_add_dependency` (lines 97-153) appends for the object:
nothing for what is skipped, the object itself, or the class behind a wrapper. -/
structure World where
  globals : String → Option Nat
  isModule : Nat → Bool
  isDef : Nat → Bool
  attr : Nat → String → Option Nat
  adds : Nat → List Nat

/-- `deps_analysis.py` 185-191: follow the attributes, innermost first, as long as
the object reached is a module. -/
def follow (W : World) : Nat → List String → Option Nat
  | o, [] => some o
  | o, a :: as =>
    match W.attr o a with
    | none => none
    | some o' => if W.isModule o' then follow W o' as else some o'

/-- `visit_Name`, lines 180-205: the object that is offered to
`try_to_add_dependency`.  The attribute stack is kept with its last element at
the head, which is the order `reversed(self.attr_stack)` goes through it. -/
def target (W : World) (attrs : List String) (id : String) : Option Nat :=
  match W.globals id with
  | none => none
  | some o =>
    if attrs = [] then some o
    else if W.isModule o then follow W o attrs
    else if W.isDef o then some o
    else none

/-- The two pieces of the visitor's state that change: `skip_names` and
`dependencies`. -/
structure VSt where
  skip : List String := []
  found : List Nat := []

/-- `if not any(dep == _dep ...): self.dependencies.append(...)`, lines 129-130 and
151-152. -/
def addAll (found : List Nat) (new : List Nat) : List Nat :=
  new.foldl (fun acc r => if r ∈ acc then acc else acc ++ [r]) found

mutual
/-- The visitor (lines 155-213).  `field` is `self.field_stack[-1]` and `attrs` the
attribute stack.  `visit_Attribute` calls the plain `NodeVisitor.generic_visit`,
which does not push on the field stack, so the children of an attribute are
visited with the field of the attribute itself. -/
def visit (W : World) (field : String) (attrs : List String) : Tree → VSt → VSt
  | .mk (.name id) _, s =>
    if id ∈ s.skip then s
    else if field = "decorator_list" then s
    else match target W attrs id with
      | none => s
      | some o => { s with found := addAll s.found (W.adds o) }
  | .mk (.attribute a) kids, s => visitKeep W field (a :: attrs) kids s
  | .mk (.functionDef args) kids, s =>
    let s1 := visitKids W attrs kids { s with skip := args ++ s.skip }
    { s1 with skip := [] }
  | .mk .other kids, s => visitKids W attrs kids s

/-- `generic_visit` of the class, lines 155-167. -/
def visitKids (W : World) (attrs : List String) : List (String × Tree) → VSt → VSt
  | [], s => s
  | (f, t) :: rest, s => visitKids W attrs rest (visit W f attrs t s)

/-- `NodeVisitor.generic_visit`, reached from `visit_Attribute`. -/
def visitKeep (W : World) (field : String) (attrs : List String) :
    List (String × Tree) → VSt → VSt
  | [], s => s
  | (_, t) :: rest, s => visitKeep W field attrs rest (visit W field attrs t s)
end

/-- What `run_impl` line 58 leaves in `self.dependencies`: the objects the source
of one function or class depends on, in order of first use. -/
def dependencies (W : World) (t : Tree) : List Nat := (visit W "" [] t {}).found

/-! ### The graph of functions and classes -/

/-- The compiler's `ASTNode` objects.  Node `0` is the main node.  `raws` gives the
Python object of each node, `deps` the `deps` attribute (`none` before the node
has been analysed), `order` is `sc_ctx.deps_node`.  The syntax trees and modules
of the nodes, filled in between two rounds by the source and module analysis,
are functions of the Python object, so the dependencies of an object are given by
one function `G` of the object (`dependencies` above for its source). -/
structure St where
  raws : List Nat
  deps : Nat → Option (List Nat)
  order : List Nat

/-- The Python object of a node. -/
def St.raw (s : St) (i : Nat) : Nat := s.raws.getD i 0

/-- `_passes`, `script/__init__.py`: the context starts with the main node only. -/
def start (main : Nat) : St := ⟨[main], fun _ => none, []⟩

/-- `find_node_by_raw`, lines 75-80. -/
def findRaw (s : St) (r : Nat) (nodes : List Nat) : Option Nat :=
  nodes.find? (fun i => s.raw i == r)

/-- Lines 60-69: one node per dependency, an old one if there is one. -/
def resolveDeps (prev : List Nat) :
    List Nat → St → List Nat → List Nat → St × List Nat × List Nat
  | [], s, deps, new => (s, deps, new)
  | r :: rest, s, deps, new =>
    match findRaw s r prev with
    | some i => resolveDeps prev rest s (deps ++ [i]) new
    | none =>
      let i := s.raws.length
      resolveDeps prev rest { s with raws := s.raws ++ [r] } (deps ++ [i]) (new ++ [i])

/-- `run_impl`, lines 50-73. -/
def runImpl (G : Nat → List Nat) (i : Nat) (prev : List Nat) (s : St) : St × List Nat :=
  match s.deps i with
  | some _ => (s, [])
  | none =>
    let (s1, ds, new) := resolveDeps prev (G (s.raw i)) s [] []
    ({ s1 with deps := fun j => if j = i then some ds else s1.deps j }, new)

/-- The loop of `run`, lines 88-90. -/
def runNodes (G : Nat → List Nat) (order : List Nat) :
    List Nat → List Nat → St → St × List Nat
  | [], new, s => (s, new)
  | i :: rest, new, s =>
    let (s1, n1) := runImpl G i (order ++ [0] ++ new) s
    runNodes G order rest (new ++ n1) s1

/-- The variables of `topodeps`: `visited_deps`, `visited_raw` and `outputs`. -/
structure TSt where
  vd : List Nat := []
  vr : List Nat := []
  out : List Nat := []
deriving DecidableEq, Repr

/-- `dfs_visit`, `ast_node.py` 70-81, with a bound on the depth of the recursion. -/
def dfs (raw : Nat → Nat) (deps : Nat → Option (List Nat)) : Nat → Nat → TSt → Option TSt
  | 0, _, _ => none
  | fuel + 1, i, s => do
    let ds := (deps i).getD []
    let s1 ← if ds ≠ [] ∧ raw i ∉ s.vd then
        ds.foldlM (fun s j => dfs raw deps fuel j s) { s with vd := raw i :: s.vd }
      else some s
    if raw i ∈ s1.vr then some s1
    else some { s1 with out := s1.out ++ [i], vr := raw i :: s1.vr }

/-- `topodeps`, lines 65-84.  Every level of the recursion marks a new node, so the
number of nodes bounds the depth. -/
def topodeps (s : St) : Option (List Nat) :=
  (dfs s.raw s.deps (s.raws.length + 1) 0 {}).map (fun t => t.out.reverse)

/-- `run`, lines 82-95.  The answer says whether new nodes appeared. -/
def run (G : Nat → List Nat) (s : St) : Option (Bool × St) := do
  let (s1, n1) := runImpl G 0 (s.order ++ [0]) s
  let (s2, new) := runNodes G s.order s.order n1 s1
  let out ← topodeps s2
  some (decide (new ≠ []), { s2 with order := out.filter (fun i => i ≠ 0) })

/-- `while dep_anls.run(sc_ctx)`, `script/__init__.py` 38, with a bound on the number
of rounds. -/
def resolve (G : Nat → List Nat) : Nat → St → Option St
  | 0, _ => none
  | fuel + 1, s => do
    let (again, s1) ← run G s
    if again then resolve G fuel s1 else some s1

/-- The Python objects in the order in which they are parsed and put into the
compiled module: `reversed(sc_ctx.deps_node)`, then the main node. -/
def compileOrder (s : St) : List Nat := (s.order.reverse ++ [0]).map s.raw

/-- The objects compiled for `main`, within so many rounds. -/
def compile (G : Nat → List Nat) (rounds main : Nat) : Option (List Nat) :=
  (resolve G rounds (start main)).map compileOrder

/-! ### The dictionary names are looked up in -/

/-- A namespace. -/
abbrev Dict := String → Option Nat

/-- `d.update(e)`. -/
def Dict.update (d e : Dict) : Dict := fun n => (e n).or (d n)

/-- The namespaces around a function: the dictionaries of its module and of the
builtins, the names of its bytecode (`co_names`, global names and attribute names
alike) and its closure cells. -/
structure Code where
  globals : Dict
  builtins : Dict
  names : List String
  free : Dict

/-- The update of `node.module.globals` with the three dictionaries of
`inspect.getclosurevars(func)`, lines 97-100 (and 103-106).  The standard library
puts a name of `co_names` into `globals` if the module has it, otherwise into
`builtins` if that has it. -/
def updateClosure (d : Dict) (c : Code) : Dict :=
  ((d.update (fun n => if n ∈ c.names then c.globals n else none)).update c.free).update
    (fun n => if n ∈ c.names ∧ c.globals n = none then c.builtins n else none)

/-- Lines 85-93: the members of the module, then `builtins`, `nonlocals` (the local
variables of the frame the object was found in) and `globals` of `getallvars`. -/
def baseDict (members builtins frame globals : Dict) : Dict :=
  ((members.update builtins).update frame).update globals

/-- The dictionary for a function. -/
def functionDict (members frame : Dict) (c : Code) : Dict :=
  updateClosure (baseDict members c.builtins frame c.globals) c

/-- The dictionary for a class, lines 101-116.  `members` is the module the class was
defined in; `frame` and `globals` belong to the nearest calling frame in which the name
of the class denotes the class (lines 47-66), which need not be in that module.  `init` is the code of `__init__` when
it is a Python function; otherwise `getclosurevars` raises and line 107 ignores it.
The loop of lines 110-116 has no effect: `inspect.getmembers` gives pairs, a pair has no
`__name__`, and the exception is ignored. -/
def classDict (members builtins frame globals : Dict) (init : Option Code) : Dict :=
  match init with
  | some c => updateClosure (baseDict members builtins frame globals) c
  | none => baseDict members builtins frame globals

/-- How Python finds a name that is not a local variable of the function: a closure
cell if the name is a free variable, else the module, else the builtins. -/
def pythonName (c : Code) (n : String) : Option Nat :=
  (c.free n).or ((c.globals n).or (c.builtins n))

end Verif.Deps
