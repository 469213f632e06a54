/-!
# Pipeline graphs and sessions

Models `Graph::topo_sort`, `Graph::dfs_visit`, `Graph::ToGenericList`, `Graph::FromGenericList`
(`src/pipeline/graph.cc:41-163`), `TXSession::BuildRunNodes`, `TXSessionRunOneNode`, `RunImpl`,
`RunImplMultiThread`, `SetOutput` (`src/pipeline/tx_session.cc:438-500, 573-677, 729-756,
886-1041`).

Simplifications.
* Node pointers are elements of an arbitrary type `ν` with decidable equality (the pointer
  comparison of `std::shared_ptr`).
* Hash containers (`std::unordered_set`, `ska::flat_hash_map`) are used through their map
  interface only: `emplace`/`insert` keep an existing entry; they are functions here.
* An operator's `Process` is a function of its arguments that may throw; operators return fresh
  tuples (see `Verif.SessionAlias` for what happens otherwise).
* The recursion of `dfs_visit` carries a depth budget; `none` means the recursion is deeper than
  that.  Device streams, profiling and run statistics are not modelled.
-/

namespace Verif.Session

/-! ## Ordering the traced graph -/

section Topo
variable {ν : Type} [DecidableEq ν]

/-- State of `dfs_visit`: the result vector, the visited set, and the number of calls made. -/
structure Dfs (ν : Type) where
  nodes : List ν
  visited : List ν
  calls : Nat
  deriving DecidableEq, Repr

/-- The part of `Graph::dfs_visit` after the loop over the inputs (`graph.cc:72-75`). -/
def Dfs.add (s : Dfs ν) (n : ν) : Dfs ν :=
  if n ∈ s.visited then s else { s with nodes := s.nodes ++ [n], visited := n :: s.visited }

/-- `Graph::dfs_visit` (`graph.cc:62-76`); `inp n` lists the nodes of the input entries of `n`
(a null pointer is `none`). -/
def dfsVisit (inp : ν → List (Option ν)) : Nat → Dfs ν → Option ν → Option (Dfs ν)
  | _, s, none => some { s with calls := s.calls + 1 }
  | 0, _, some _ => none
  | f + 1, s, some n =>
    match (inp n).foldlM (dfsVisit inp f) { s with calls := s.calls + 1 } with
    | none => none
    | some s' => some (s'.add n)

/-- `Graph::topo_sort` (`graph.cc:41-48`). -/
def topoSort (inp : ν → List (Option ν)) (fuel : Nat) (outputs : List (Option ν)) :
    Option (Dfs ν) :=
  outputs.foldlM (dfsVisit inp fuel) { nodes := [], visited := [], calls := 0 }

end Topo

/-! ## Grouping into levels -/

section Levels
variable {ν : Type} [DecidableEq ν]

/-- One pass of the inner loop of `BuildRunNodes` (`tx_session.cc:466-487`): the unfinished nodes
all of whose inputs are finished. -/
def runNodesOf (serial : List ν) (deps : ν → List ν) (fin : List ν) : List ν :=
  serial.filter fun n => decide (n ∉ fin) && (deps n).all fun m => decide (m ∈ fin)

theorem filter_length_lt {β : Type} {p q : β → Bool} (hpq : ∀ a, p a = true → q a = true) {r : β}
    (hq : q r = true) (hp : p r = false) : ∀ {l : List β}, r ∈ l →
      (l.filter p).length < (l.filter q).length := by
  have le : ∀ l : List β, (l.filter p).length ≤ (l.filter q).length := by
    intro l
    induction l with
    | nil => simp
    | cons a l ih =>
      rw [List.filter_cons, List.filter_cons]
      by_cases h : p a = true
      · rw [if_pos h, if_pos (hpq a h)]; simpa using ih
      · rw [if_neg h]; split <;> (try simp only [List.length_cons]) <;> omega
  intro l hm
  induction l with
  | nil => simp at hm
  | cons a l ih =>
    rw [List.filter_cons, List.filter_cons]
    rcases List.mem_cons.mp hm with rfl | hm
    · have := le l
      rw [if_pos hq, if_neg (by simp [hp])]
      simp only [List.length_cons]
      omega
    · have := ih hm
      by_cases h : p a = true
      · rw [if_pos h, if_pos (hpq a h)]; simpa using this
      · rw [if_neg h]; split <;> (try simp only [List.length_cons]) <;> omega

theorem runNodesOf_decreases {serial : List ν} {deps : ν → List ν} {fin : List ν} {r : ν}
    {rs : List ν} (h : runNodesOf serial deps fin = r :: rs) :
    (serial.filter fun n => decide (n ∉ fin ++ (r :: rs))).length <
      (serial.filter fun n => decide (n ∉ fin)).length := by
  have hr : r ∈ runNodesOf serial deps fin := by rw [h]; simp
  have hr2 : r ∈ serial ∧ r ∉ fin := by
    have := List.mem_filter.mp hr
    simp at this
    exact ⟨this.1, this.2.1⟩
  refine filter_length_lt ?_ (r := r) (by simpa using hr2.2) (by simp) hr2.1
  intro a ha
  simp at ha ⊢
  exact ha.1

/-- The outer loop of `BuildRunNodes` (`tx_session.cc:463-500`); `none` is the exception
"compute graph is bad for dependence loss". -/
def buildLoop (serial : List ν) (deps : ν → List ν) (fin : List ν) (levels : List (List ν)) :
    Option (List (List ν)) :=
  if serial.all (fun n => decide (n ∈ fin)) then some levels
  else
    match h : runNodesOf serial deps fin with
    | [] => none
    | r :: rs => buildLoop serial deps (fin ++ (r :: rs)) (levels ++ [r :: rs])
termination_by (serial.filter fun n => decide (n ∉ fin)).length
decreasing_by exact runNodesOf_decreases h

/-- `TXSession::BuildRunNodes` (`tx_session.cc:438-500`) for a non-empty graph: variables count as
finished from the start. -/
def buildRunNodes (serial : List ν) (isVar : ν → Bool) (deps : ν → List ν) :
    Option (List (List ν)) :=
  buildLoop serial deps (serial.filter isVar) []

end Levels

/-! ## Nodes after serialisation -/

/-- An exception: a failed check of the session, or one thrown by an operator. -/
inductive Err (κ ε : Type) where
  | feedMissing (k : κ)
  | dataMissing (k : κ)
  | notTuple
  | wrongArity
  | noOutput
  | op (e : ε)
  deriving DecidableEq, Repr

/-- A node of the session's graph: input keys, output keys and the operator. -/
structure Node (κ α ε : Type) where
  isVar : Bool
  inputs : List κ
  outputs : List κ
  op : List α → Except ε α

section Run
variable {κ α ε : Type} [DecidableEq κ]

/-- `key2node` of `FromGenericList` (`graph.cc:115-138`): the first node listing the key among its
outputs. -/
def producer (ns : List (Node κ α ε)) (k : κ) : Option Nat :=
  ns.findIdx? fun n => decide (k ∈ n.outputs)

/-- The second loop of `FromGenericList` (`graph.cc:139-148`): every input key is resolved;
`key2node.at` throws (`none`) for an unknown key. -/
def link (ns : List (Node κ α ε)) : Option (List (List Nat)) :=
  ns.mapM fun n => n.inputs.mapM (producer ns)

/-- `entry->node->IsVariable()` for the entry with key `k`. -/
def keyIsVar (ns : List (Node κ α ε)) (k : κ) : Bool :=
  match producer ns k with
  | some i => (ns[i]?.map Node.isVar).getD false
  | none => false

/-- A traced node: operator, input entries (the producing node and the key) and output keys
(`include/matxscript/pipeline/node.h:108-130`). -/
structure TNode (ν κ α ε : Type) where
  isVar : Bool
  inputs : List (ν × κ)
  outputs : List κ
  op : List α → Except ε α

/-- `Graph::ToGenericList` followed by the first loop of `FromGenericList`
(`graph.cc:108-132, 155-163`, `src/pipeline/node.cc:42-130`): entries keep only their keys. -/
def toGeneric {ν : Type} (g : ν → TNode ν κ α ε) (nodes : List ν) : List (Node κ α ε) :=
  nodes.map fun n => ⟨(g n).isVar, (g n).inputs.map Prod.snd, (g n).outputs, (g n).op⟩

/-- `TXSession::Trace` (`tx_session.cc:394-436`) up to the construction of the session's graph:
order the nodes, serialise, link. -/
def trace {ν : Type} [DecidableEq ν] (g : ν → TNode ν κ α ε) (fuel : Nat) (outputs : List ν) :
    Option (List (Node κ α ε)) :=
  match topoSort (fun n => (g n).inputs.map fun e => some e.1) fuel (outputs.map some) with
  | none => none
  | some s => some (toGeneric g s.nodes)

/-- A key-value dictionary. -/
abbrev Pack (κ α : Type) := κ → Option α

/-- `flat_hash_map::emplace`: no effect when the key is present. -/
def Pack.emplace (d : Pack κ α) (k : κ) (v : α) : Pack κ α :=
  fun k' => match d k' with
    | some w => some w
    | none => if k' = k then some v else none

/-- `datapack.insert(output_dict.begin(), output_dict.end())`. -/
def Pack.merge (d o : Pack κ α) : Pack κ α :=
  fun k => match d k with
    | some w => some w
    | none => o k

/-- Fetching one argument (`tx_session.cc:584-595`). -/
def fetch (ns : List (Node κ α ε)) (feed d : Pack κ α) (k : κ) : Except (Err κ ε) α :=
  if keyIsVar ns k then
    match feed k with
    | some v => .ok v
    | none => .error (.feedMissing k)
  else
    match d k with
    | some v => .ok v
    | none => .error (.dataMissing k)

/-- Storing the result (`tx_session.cc:632-644`): more than one output unpacks a tuple. -/
def store (asTuple : α → Option (List α)) (outs : List κ) (v : α) (out : Pack κ α) :
    Except (Err κ ε) (Pack κ α) :=
  match outs with
  | [] => .error .noOutput
  | [k] => .ok (out.emplace k v)
  | ks =>
    match asTuple v with
    | none => .error .notTuple
    | some vs =>
      if vs.length = ks.length then
        .ok ((ks.zip vs).foldl (fun o kv => o.emplace kv.1 kv.2) out)
      else .error .wrongArity

/-- The arguments of a node. -/
def fetchAll (ns : List (Node κ α ε)) (feed d : Pack κ α) : List κ → Except (Err κ ε) (List α)
  | [] => .ok []
  | k :: ks =>
    match fetch ns feed d k with
    | .error e => .error e
    | .ok v =>
      match fetchAll ns feed d ks with
      | .error e => .error e
      | .ok vs => .ok (v :: vs)

/-- `TXSessionRunOneNode` (`tx_session.cc:573-647`): reads `feed` and `d`, writes `out`. -/
def runOne (ns : List (Node κ α ε)) (asTuple : α → Option (List α)) (feed d out : Pack κ α)
    (n : Node κ α ε) : Except (Err κ ε) (Pack κ α) :=
  if n.isVar then .ok out
  else
    match fetchAll ns feed d n.inputs with
    | .error e => .error e
    | .ok args =>
      match n.op args with
      | .error e => .error (.op e)
      | .ok v => store asTuple n.outputs v out

/-- The node loop of `RunImpl` (`tx_session.cc:744-751`). -/
def serialLoop (ns : List (Node κ α ε)) (asTuple : α → Option (List α)) (feed : Pack κ α) :
    List (Node κ α ε) → Pack κ α → Except (Err κ ε) (Pack κ α)
  | [], d => .ok d
  | n :: rest, d =>
    match runOne ns asTuple feed d d n with
    | .error e => .error e
    | .ok d' => serialLoop ns asTuple feed rest d'

/-- The name of output `i` (`tx_session.cc:654-676`). -/
def outName (names : List String) (count i : Nat) : String :=
  if names.length = count then names.getD i "" else toString i

/-- `TXSession::SetOutput` (`tx_session.cc:649-678`) from output number `i` on. -/
def setOutput (ns : List (Node κ α ε)) (feed d : Pack κ α) (names : List String) (count : Nat) :
    Nat → List κ → Except (Err κ ε) (List (String × α))
  | _, [] => .ok []
  | i, k :: ks =>
    match fetch ns feed d k with
    | .error e => .error e
    | .ok v =>
      match setOutput ns feed d names count (i + 1) ks with
      | .error e => .error e
      | .ok r => .ok ((outName names count i, v) :: r)

/-- `TXSession::RunImpl` (`tx_session.cc:729-756`). -/
def runSerial (ns : List (Node κ α ε)) (asTuple : α → Option (List α)) (names : List String)
    (outs : List κ) (feed : Pack κ α) : Except (Err κ ε) (List (String × α)) :=
  if ns = [] then .ok []
  else
    match serialLoop ns asTuple feed ns (fun _ => none) with
    | .error e => .error e
    | .ok d => setOutput ns feed d names outs.length 0 outs

/-! ## The multi-threaded run -/

/-- The number of nodes per task (`tx_session.cc:984-991`). -/
def taskStep (numNodes threads minSize maxSize : Nat) : Nat :=
  let step := (numNodes + threads - 1) / threads
  let step := if step < minSize then minSize else step
  if step > maxSize then maxSize else step

/-- The tasks of a level (`tx_session.cc:992-1010`): task `i` gets `step` nodes from `step * i`,
the last one the rest. -/
def tasksOf {β : Type} (nodes : List β) (step : Nat) : List (List β) :=
  let num := (nodes.length + step - 1) / step
  (List.range num).map fun i =>
    let real := if i + 1 = num then nodes.length - i * step else step
    (nodes.drop (step * i)).take real

/-- A task in execution: the nodes still to run, its private output dictionary, and the captured
exception (`IRunnable::Run` stores it in `e_`). -/
structure Task (κ α ε : Type) where
  rest : List (Node κ α ε)
  out : Pack κ α
  err : Option (Err κ ε)

/-- A task is done when it has run all its nodes or thrown. -/
def Task.Done (t : Task κ α ε) : Prop := t.rest = [] ∨ t.err ≠ none

/-- One step of a task: run its next node (`tx_session.cc:920-935`). -/
def Task.step (ns : List (Node κ α ε)) (asTuple : α → Option (List α)) (feed d : Pack κ α)
    (t : Task κ α ε) : Task κ α ε :=
  match t.err, t.rest with
  | some _, _ => t
  | none, [] => t
  | none, n :: rest =>
    match runOne ns asTuple feed d t.out n with
    | .error e => { t with err := some e }
    | .ok out => { rest := rest, out := out, err := none }

/-- A schedule names, step by step, the task that moves. -/
def runSched (ns : List (Node κ α ε)) (asTuple : α → Option (List α)) (feed d : Pack κ α) :
    List Nat → List (Task κ α ε) → List (Task κ α ε)
  | [], ts => ts
  | i :: sched, ts => runSched ns asTuple feed d sched (ts.modify i (Task.step ns asTuple feed d))

/-- After all waits (`tx_session.cc:1015-1037`): the first captured exception in task order, or
the datapack with all output dictionaries inserted. -/
def collect (d : Pack κ α) (ts : List (Task κ α ε)) : Except (Err κ ε) (Pack κ α) :=
  match ts.findSome? Task.err with
  | some e => .error e
  | none => .ok (ts.foldl (fun d t => d.merge t.out) d)

/-- The possible results of a level (`tx_session.cc:962-1038`): one node runs in place, several
are split into tasks that run in any interleaving. -/
inductive LevelRun (ns : List (Node κ α ε)) (asTuple : α → Option (List α)) (feed : Pack κ α)
    (threads minSize maxSize : Nat) :
    Pack κ α → List (Node κ α ε) → Except (Err κ ε) (Pack κ α) → Prop
  | empty (d) : LevelRun ns asTuple feed threads minSize maxSize d [] (.ok d)
  | single (d n) :
      LevelRun ns asTuple feed threads minSize maxSize d [n] (runOne ns asTuple feed d d n)
  | many (d nodes sched ts) (h2 : 2 ≤ nodes.length)
      (hts : ts = runSched ns asTuple feed d sched
        ((tasksOf nodes (taskStep nodes.length threads minSize maxSize)).map
          fun c => ⟨c, fun _ => none, none⟩))
      (hdone : ∀ t ∈ ts, t.Done) :
      LevelRun ns asTuple feed threads minSize maxSize d nodes (collect d ts)

/-- The loop over the levels. -/
inductive LevelsRun (ns : List (Node κ α ε)) (asTuple : α → Option (List α)) (feed : Pack κ α)
    (threads minSize maxSize : Nat) :
    Pack κ α → List (List (Node κ α ε)) → Except (Err κ ε) (Pack κ α) → Prop
  | nil (d) : LevelsRun ns asTuple feed threads minSize maxSize d [] (.ok d)
  | error (d l ls e) (h : LevelRun ns asTuple feed threads minSize maxSize d l (.error e)) :
      LevelsRun ns asTuple feed threads minSize maxSize d (l :: ls) (.error e)
  | ok (d l ls d' r) (h : LevelRun ns asTuple feed threads minSize maxSize d l (.ok d'))
      (h' : LevelsRun ns asTuple feed threads minSize maxSize d' ls r) :
      LevelsRun ns asTuple feed threads minSize maxSize d (l :: ls) r

/-- The possible results of `TXSession::RunImplMultiThread` (`tx_session.cc:950-1041`), for a
session whose levels (as node indices) are `levels`. -/
inductive RunParallel (ns : List (Node κ α ε)) (asTuple : α → Option (List α))
    (names : List String) (outs : List κ) (threads minSize maxSize : Nat)
    (levels : List (List Nat)) (feed : Pack κ α) :
    Except (Err κ ε) (List (String × α)) → Prop
  | empty (h : levels = []) : RunParallel ns asTuple names outs threads minSize maxSize levels feed
      (.ok [])
  | error (h : levels ≠ []) (e)
      (hr : LevelsRun ns asTuple feed threads minSize maxSize (fun _ => none)
        (levels.map fun l => l.filterMap fun i => ns[i]?) (.error e)) :
      RunParallel ns asTuple names outs threads minSize maxSize levels feed (.error e)
  | done (h : levels ≠ []) (d)
      (hr : LevelsRun ns asTuple feed threads minSize maxSize (fun _ => none)
        (levels.map fun l => l.filterMap fun i => ns[i]?) (.ok d)) :
      RunParallel ns asTuple names outs threads minSize maxSize levels feed
        (setOutput ns feed d names outs.length 0 outs)

/-- The levels of a session: link the nodes, then `BuildRunNodes` over their indices. -/
def sessionLevels (ns : List (Node κ α ε)) : Option (List (List Nat)) :=
  match link ns with
  | none => none
  | some deps =>
    buildRunNodes (List.range ns.length) (fun i => (ns[i]?.map Node.isVar).getD false)
      (fun i => deps.getD i [])

end Run

end Verif.Session
