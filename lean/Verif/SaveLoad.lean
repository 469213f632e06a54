import Verif.Session
import Mathlib.Data.List.Basic
/-
Saving a traced pipeline to a folder and loading it again (`module.save(folder)`, `matx.pipeline.Load(folder)`).

Sources (all under /repo):
* src/pipeline/tx_session.cc 272-323 (FindOp, CreateOp), 1047-1073 (DFSSaveOp), 1075-1125 (Save), 1127-1212 (Load)
* src/pipeline/op_kernel.cc 33-54 (GenRelativeBundlePath, BundlePath), 56-69 (Initialize)
* src/pipeline/jit_object.cc 287-346 (Bundle), src/pipeline/library_loader_op.cc 117-128 (Bundle)
* src/pipeline/graph.cc 104-159 (FromGenericList, ToGenericList), src/pipeline/node.cc 41-128 (FromDict, ToDict)
* src/runtime/file_util.cc 125-136 (RTrim), 138-143 (BaseName), 180-224 (Copy)
* include/matxscript/pipeline/userdata_scoped_cache.h, userdata_cache.h

Simplifications: strings are lists of characters.  Writing the configuration as JSON and reading it back is the
identity (see C82).  A file system gives the content and the time of last change of regular files; directories
are not modelled.  What an operator does is determined by its class, its own attributes, the content of its
resource files and its sub-operators (`Beh`).  Whether an operator is shared between sessions is decided by its
class and attributes (`share`).  Devices, thread pools and session options are not modelled.
-/

namespace Verif.SaveLoad

abbrev Str := List Char

/-- A live operator (`OpKernel`): class, name, its own attributes, the prefix and the names of its resource files
and its sub-operators (pointers). -/
structure Op (δ : Type) where
  cls : Str
  name : Str
  data : δ
  pre : Str
  files : List Str
  subs : List Nat

/-- The entry of an operator in the configuration: attributes name the sub-operators by class and name. -/
structure Rec (δ : Type) where
  cls : Str
  name : Str
  data : δ
  files : List Str
  refs : List (Str × Str)

/-- A file system: content and time of last change. -/
abbrev FS (γ : Type) := Str → Option (γ × Nat)

/-- What an operator does. -/
inductive Beh (δ γ : Type) where
  | node (cls : Str) (data : δ) (contents : List (Option γ)) (subs : List (Beh δ γ))

variable {δ γ : Type}

/-- `FileUtil::RTrim(loc, "/\\")`, file_util.cc 125-136. -/
def rtrim (s : Str) : Str := (s.reverse.dropWhile fun c => c == '/' || c == '\\').reverse

/-- `FileUtil::BaseName`, file_util.cc 138-143: what follows the last slash. -/
def baseName (s : Str) : Str := ((rtrim s).reverse.takeWhile fun c => c != '/').reverse

/-- `GenRelativeBundlePath`, op_kernel.cc 33-43. -/
def relDir (o : Op δ) : Str := if o.cls.isPrefixOf o.name then o.name else o.cls ++ '_' :: o.name

/-- The name of a resource in the configuration, op_kernel.cc 53. -/
def relFile (o : Op δ) (loc : Str) : Str := if loc = [] then [] else relDir o ++ '/' :: baseName loc

/-- Where a resource is copied to, op_kernel.cc 50-52. -/
def dst (folder : Str) (o : Op δ) (loc : Str) : Str := folder ++ '/' :: (relDir o ++ '/' :: baseName loc)

/-- `FileUtil::Copy` of a regular file with `update_existing`, file_util.cc 180-203: an existing file is replaced
only if the source is newer; the copy is dated `now`.  A missing source is fatal. -/
def copy (now : Nat) (fs : FS γ) (src dst : Str) : Option (FS γ) :=
  match fs src with
  | none => none
  | some (c, t) =>
    match fs dst with
    | none => some fun p => if p = dst then some (c, now) else fs p
    | some (_, t') => some (if t' < t then fun p => if p = dst then some (c, now) else fs p else fs)

/-- `OpKernel::BundlePath`, op_kernel.cc 45-54. -/
def bundlePath (now : Nat) (folder : Str) (o : Op δ) (fs : FS γ) (loc : Str) : Option (Str × FS γ) :=
  if loc = [] then some ([], fs)
  else
    match copy now fs (o.pre ++ loc) (dst folder o loc) with
    | none => none
    | some fs' => some (relDir o ++ '/' :: baseName loc, fs')

/-- `Bundle` of an operator: every resource is copied, jit_object.cc 287-346, library_loader_op.cc 117-128. -/
def bundle (now : Nat) (folder : Str) (o : Op δ) : List Str → FS γ → Option (List Str × FS γ)
  | [], fs => some ([], fs)
  | f :: r, fs =>
    match bundlePath now folder o fs f with
    | none => none
    | some (f', fs') =>
      match bundle now folder o r fs' with
      | none => none
      | some (r', fs'') => some (f' :: r', fs'')

/-- Class and name. -/
def key (H : Nat → Op δ) (i : Nat) : Str × Str := ((H i).cls, (H i).name)

/-- The state of `DFSSaveOp`. -/
structure Sv (δ γ : Type) where
  visited : List Nat
  recs : List (Rec δ)
  fs : FS γ

/-- `TXSession::DFSSaveOp`, tx_session.cc 1047-1073; the first argument bounds the depth of the recursion. -/
def dfs (H : Nat → Op δ) (now : Nat) (folder : Str) : Nat → Sv δ γ → Nat → Option (Sv δ γ)
  | 0, _, _ => none
  | f + 1, s, i =>
    match (H i).subs.foldlM (dfs H now folder f) s with
    | none => none
    | some s =>
      if i ∈ s.visited then some s
      else
        match bundle now folder (H i) (H i).files s.fs with
        | none => none
        | some (files, fs) =>
          some ⟨i :: s.visited, s.recs ++ [⟨(H i).cls, (H i).name, (H i).data, files, (H i).subs.map (key H)⟩], fs⟩

/-- The operators of all nodes, tx_session.cc 1083-1090. -/
def saveOps (H : Nat → Op δ) (now : Nat) (folder : Str) (fuel : Nat) (fs : FS γ) (roots : List Nat) :
    Option (Sv δ γ) :=
  roots.foldlM (dfs H now folder fuel) ⟨[], [], fs⟩

/-- Reading the resources of an operator with prefix `pre`. -/
def readFiles (fs : FS γ) (pre : Str) : List Str → Option (List (Option γ))
  | [] => some []
  | f :: r =>
    if f = [] then (readFiles fs pre r).map (none :: ·)
    else
      match fs (pre ++ f) with
      | none => none
      | some c => (readFiles fs pre r).map (some c.1 :: ·)

/-- Operators by class and name. -/
abbrev Scope (δ γ : Type) := Str × Str → Option (Beh δ γ)

/-- The operators that a session sees: its own ones (`ud_cache_local_`) and those of the scope that it shares with
the other sessions of the process (`ud_cache_`), tx_session.cc 135-144. -/
structure Cache (δ γ : Type) where
  loc : Scope δ γ
  glob : Scope δ γ

/-- `TXSession::FindOp`, tx_session.cc 273-280: own operators first. -/
def Cache.find (c : Cache δ γ) (k : Str × Str) : Option (Beh δ γ) :=
  match c.loc k with
  | some b => some b
  | none => c.glob k

/-- `UserDataScopedCache::Set`. -/
def Scope.set (c : Scope δ γ) (k : Str × Str) (b : Beh δ γ) : Scope δ γ := fun k' => if k' = k then some b else c k'

/-- Looking up all sub-operators; one that is not found is an error. -/
def findAll (c : Cache δ γ) : List (Str × Str) → Option (List (Beh δ γ))
  | [] => some []
  | k :: r =>
    match c.find k with
    | none => none
    | some b => (findAll c r).map (b :: ·)

/-- `TXSession::CreateOp`, tx_session.cc 282-321, with the prefix `folder/`: an operator that is already there is
used, otherwise the resources are read and the sub-operators looked up, and the operator is entered in the shared
scope or the session's own. -/
def createOp (share : Str → δ → Bool) (fs : FS γ) (folder : Str) (c : Cache δ γ) (r : Rec δ) : Option (Cache δ γ) :=
  match c.find (r.cls, r.name) with
  | some _ => some c
  | none =>
    match findAll c r.refs with
    | none => none
    | some bs =>
      match readFiles fs (folder ++ ['/']) r.files with
      | none => none
      | some cs =>
        if share r.cls r.data then some { c with glob := c.glob.set (r.cls, r.name) (.node r.cls r.data cs bs) }
        else some { c with loc := c.loc.set (r.cls, r.name) (.node r.cls r.data cs bs) }

/-- The loop over the operators in `TXSession::Load`, tx_session.cc 1155-1173. -/
def loadOps (share : Str → δ → Bool) (fs : FS γ) (folder : Str) (c : Cache δ γ) (rs : List (Rec δ)) :
    Option (Cache δ γ) :=
  rs.foldlM (createOp share fs folder) c

/-! ### The session -/

/-- A node of the session's graph: its operator, input keys, output keys with the exported flag. -/
structure GNode (κ : Type) where
  op : Nat
  inputs : List κ
  outputs : List (κ × Bool)

/-- A node in the configuration. -/
structure GRec (κ : Type) where
  cls : Str
  name : Str
  inputs : List κ
  outputs : List κ
  exported : List κ

/-- A configuration. -/
structure Config (κ δ : Type) where
  ops : List (Rec δ)
  graph : List (GRec κ)
  outputs : List κ
  names : List String

/-- `Node::ToDict`, node.cc 90-128. -/
def toDict {κ : Type} (H : Nat → Op δ) (n : GNode κ) : GRec κ :=
  ⟨(H n.op).cls, (H n.op).name, n.inputs, n.outputs.map (·.1), (n.outputs.filter (·.2)).map (·.1)⟩

/-- `TXSession::Save`, tx_session.cc 1075-1125. -/
def save {κ : Type} (H : Nat → Op δ) (now : Nat) (folder : Str) (fuel : Nat) (fs : FS γ) (nodes : List (GNode κ))
    (outs : List κ) (names : List String) : Option (Config κ δ × FS γ) :=
  match saveOps H now folder fuel fs (nodes.map GNode.op) with
  | none => none
  | some s => some (⟨s.recs, nodes.map (toDict H), outs, names⟩, s.fs)

/-- `VariableOp`. -/
def varCls : Str := ['V', 'a', 'r', 'i', 'a', 'b', 'l', 'e', 'O', 'p']

section
variable {κ α ε : Type} [DecidableEq κ]

/-- What a node computes with an operator that behaves like `b`. -/
def mkNode (sem : Beh δ γ → List α → Except ε α) (cls : Str) (inputs outputs : List κ) (b : Beh δ γ) :
    Session.Node κ α ε :=
  ⟨decide (cls = varCls), inputs, outputs, sem b⟩

/-- The nodes of the loaded graph, graph.cc 104-130: every operator must be found. -/
def loadGraph (sem : Beh δ γ → List α → Except ε α) (c : Cache δ γ) : List (GRec κ) →
    Option (List (Session.Node κ α ε))
  | [] => some []
  | g :: r =>
    match c.find (g.cls, g.name) with
    | none => none
    | some b => (loadGraph sem c r).map (mkNode sem g.cls g.inputs g.outputs b :: ·)

/-- `TXSession::Load`, tx_session.cc 1127-1212: the operators, the graph, the outputs, which must be exported
entries, and the attributes.  `none` is an exception.  The session's own scope is new and has a random name; the
last component is the shared scope afterwards. -/
def load (share : Str → δ → Bool) (sem : Beh δ γ → List α → Except ε α) (fs : FS γ) (folder : Str) (g : Scope δ γ)
    (cfg : Config κ δ) : Option (List (Session.Node κ α ε) × List κ × List String × Scope δ γ) :=
  match loadOps share fs folder ⟨fun _ => none, g⟩ cfg.ops with
  | none => none
  | some c' =>
    match loadGraph sem c' cfg.graph with
    | none => none
    | some ns =>
      let exported := cfg.graph.flatMap fun g => g.exported.filter fun k => decide (k ∈ g.outputs)
      if exported = [] then none
      else if ∀ k ∈ cfg.outputs, k ∈ exported then some (ns, cfg.outputs, cfg.names, c'.glob)
      else none

/-! ### The session that is saved -/

/-- Behaviours of all operators of a list. -/
def allOf (f : Nat → Option (Beh δ γ)) : List Nat → Option (List (Beh δ γ))
  | [] => some []
  | i :: r =>
    match f i with
    | none => none
    | some b => (allOf f r).map (b :: ·)

/-- What the live operator `i` does, looking at sub-operators to depth `n`, with the resources of `fs`. -/
def behTo (H : Nat → Op δ) (fs : FS γ) : Nat → Nat → Option (Beh δ γ)
  | 0, _ => none
  | n + 1, i =>
    match allOf (behTo H fs n) (H i).subs with
    | none => none
    | some bs =>
      match readFiles fs (H i).pre (H i).files with
      | none => none
      | some cs => some (.node (H i).cls (H i).data cs bs)

/-- What the live operator `i` does: sub-operators are older. -/
def beh (H : Nat → Op δ) (fs : FS γ) (i : Nat) : Option (Beh δ γ) := behTo H fs (i + 1) i

/-- The nodes of the live session. -/
def liveNodes (sem : Beh δ γ → List α → Except ε α) (H : Nat → Op δ) (fs : FS γ) : List (GNode κ) →
    Option (List (Session.Node κ α ε))
  | [] => some []
  | n :: r =>
    match beh H fs n.op with
    | none => none
    | some b => (liveNodes sem H fs r).map (mkNode sem (H n.op).cls n.inputs (n.outputs.map (·.1)) b :: ·)

end

/-- The operators of the nodes and their sub-operators. -/
inductive Reach (H : Nat → Op δ) (roots : List Nat) : Nat → Prop where
  | root {i : Nat} : i ∈ roots → Reach H roots i
  | sub {i j : Nat} : Reach H roots i → j ∈ (H i).subs → Reach H roots j

end Verif.SaveLoad
