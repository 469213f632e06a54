/-
Structural equality of IR objects (`matx.ir.structural_equal`, C++ `StructuralEqual`).

Sources (all under /repo):
* src/ir/_base/structural_equal.cc 38-54, 68-82 (SEqualReducer), 190-480 (SEqualHandlerDefault::Impl),
  523-542 (entry points)
* include/matxscript/ir/_base/structural_equal.h 44-82 (BaseValueEqual), 262-294 (arrays, free variables)
* src/ir/_base/cow_array_ref.cc 46-129 (arrays)
* the `SEqualReduce` methods of include/matxscript/ir/*.h
* src/ir/analysis/deep_equal.cc 36-88 (`expr_deep_equal`)

Simplifications:
* An object is a natural number (its address), and a heap gives the content of every address.  IR objects
  are immutable and built bottom-up, so an object only refers to objects with smaller numbers.
* The `SEqualReduce` method of a node type is given by the list of attributes it hands to the reducer, in
  its order, and by how it treats the node itself (`Kind`).
* `MapNode` and `ClassTypeNode` are not modelled; neither are the paths reported for a mismatch.
-/

namespace Verif.StructEq

/-- One attribute handed to the reducer: a value (number, string, data type, enum), the number of
elements of an array, or an object, which may be null.  `d` tells `DefEqual` from plain `equal`
(structural_equal.cc 68-82); `a` tells that the attribute is declared as an array and compared through
the array overload of `equal` (structural_equal.h 262-283). -/
inductive Item (V : Type) where
  | val (v : V)
  | len (n : Nat)
  | ref (p : Option Nat) (d a : Bool)

/-- How `SEqualReduce` treats the node itself.
* `plain`: only attributes are compared (statements, primitive expressions, most types);
* `graph`: `MarkGraphNode` (function.h 349, hlo_var.h 120, CallNode, non-empty tuples and lists);
* `var`: `FreeVarEqualImpl` (prim_var.h 72, IdNode, TypeVarNode);
* `op`: compared by address (op_expr.h 107-110);
* `yld`: `HLOYieldNode` (stmt.h 783-791), with its shortcut for identical attributes;
* `arr`: an array (cow_array_ref.cc 46). -/
inductive Kind where
  | plain | graph | var | op | yld | arr
deriving DecidableEq

/-- An object: its type index, its kind, the attributes in the order of `SEqualReduce` and the ones in the
order of `SHashReduce`. -/
structure Node (V : Type) where
  ty : Nat
  kind : Kind
  es : List (Item V)
  hs : List (Item V)

/-- The heap.  References point to older objects. -/
structure Heap (V : Type) where
  node : Nat → Node V
  lt : ∀ p q d a, Item.ref (some q) d a ∈ (node p).es → q < p
  lth : ∀ p q d a, Item.ref (some q) d a ∈ (node p).hs → q < p

/-- An entry of `task_stack_` (structural_equal.cc 417-445): one that has still to be expanded, one whose
children have been expanded (`children_expanded`), with `graph_equal`, or one made by `DeferFail`. -/
inductive Task where
  | todo (lhs rhs : Nat) (flag : Bool)
  | done (lhs rhs : Nat) (graph : Bool)
  | fail

/-- The two maps `equal_map_lhs_` and `equal_map_rhs_` and the stack. -/
structure St where
  stack : List Task
  ml : List (Nat × Nat)
  mr : List (Nat × Nat)

section
variable {V : Type} (veq : V → V → Bool) (H : Heap V)

/-- `Impl::SEqualReduce`, structural_equal.cc 206-248: `none` is `false`, otherwise the tasks appended
to `pending_tasks_`. -/
def reduce (ml mr : List (Nat × Nat)) (flag : Bool) : Option Nat → Option Nat → Option (List Task)
  | none, none => some []
  | none, some _ => none
  | some _, none => none
  | some a, some b =>
    if (H.node a).ty ≠ (H.node b).ty then none
    else match ml.lookup a with
      | some r => if r = b then some [] else none
      | none => if (mr.lookup b).isSome then none else some [.todo a b flag]

/-- One attribute: values are compared at once (structural_equal.cc 96-134), objects are reduced, with
`map_free_vars` set below a definition (68-82). -/
def item (ml mr : List (Nat × Nat)) (flag : Bool) : Item V → Item V → Option (List Task)
  | .val v, .val w => if veq v w then some [] else none
  | .len n, .len k => if n = k then some [] else none
  | .ref p d _, .ref q e _ => if d = e then reduce H ml mr (flag || d) p q else none
  | _, _ => none

/-- The attributes, joined by `&&`. -/
def items (ml mr : List (Nat × Nat)) (flag : Bool) : List (Item V) → List (Item V) → Option (List Task)
  | [], [] => some []
  | x :: xs, y :: ys => do
      let t ← item veq H ml mr flag x y
      let ts ← items ml mr flag xs ys
      pure (t ++ ts)
  | _, _ => none

/-- The elements of two arrays with path tracing, cow_array_ref.cc 71-129: the common elements are
compared first; a difference in length is an error at once, or, with `defer`, a task that fails. -/
def elems (defer : Bool) (ml mr : List (Nat × Nat)) (flag : Bool) :
    List (Item V) → List (Item V) → Option (List Task)
  | [], [] => some []
  | x :: xs, y :: ys => do
      let t ← item veq H ml mr flag x y
      let ts ← elems defer ml mr flag xs ys
      pure (t ++ ts)
  | _, _ => if defer then some [.fail] else none

/-- The addresses held by the attributes of a node. -/
def ptrs : List (Item V) → List (Option Nat)
  | [] => []
  | .ref p _ _ :: l => p :: ptrs l
  | _ :: l => ptrs l

/-- The `SEqualReduce` methods.  The result is `none` for `false`; otherwise the pending tasks and whether
`MarkGraphNode` was called.  A tuple, list or dict display is marked exactly when it has fields
(hlo_expr.h, tuple_expr.h); of two displays of which one is empty the comparison of the fields fails, which
is modelled by comparing the kinds. -/
def nodeEq (defer : Bool) (ml mr : List (Nat × Nat)) (flag : Bool) (a b : Nat) :
    Option (List Task × Bool) :=
  if (H.node a).kind ≠ (H.node b).kind then none
  else match (H.node a).kind with
    | .plain => (items veq H ml mr flag (H.node a).es (H.node b).es).map (·, false)
    | .graph => (items veq H ml mr flag (H.node a).es (H.node b).es).map (·, true)
    | .var =>
      match items veq H ml mr flag (H.node a).es (H.node b).es with
      | some ts => if a = b ∨ flag = true then some (ts, true) else none
      | none => none
    | .op => if a = b then some ([], false) else none
    | .yld =>
      if ptrs (H.node a).es = ptrs (H.node b).es then some ([], false)
      else (items veq H ml mr flag (H.node a).es (H.node b).es).map (·, true)
    | .arr => (elems veq H defer ml mr flag (H.node a).es (H.node b).es).map (·, false)

/-- `Impl::DispatchSEqualReduce`, structural_equal.cc 298-323. -/
def dispatch (defer : Bool) (ml mr : List (Nat × Nat)) (flag : Bool) (a b : Nat) :
    Option (List Task × Bool) :=
  match ml.lookup a with
  | some r => if r = b then some ([], false) else none
  | none => if (mr.lookup b).isSome then none else nodeEq veq H defer ml mr flag a b

/-- What one turn of the loop of `RunTasks` does: go on, return, or fail an `MXCHECK`. -/
inductive Out where
  | next (s : St)
  | ret (r : Bool)
  | crash

/-- One turn of the loop of `RunTasks`, structural_equal.cc 364-412. -/
def step (defer : Bool) (s : St) : Out :=
  match s.stack with
  | [] => .ret true
  | .fail :: _ => .ret false
  | .done a b g :: rest =>
    match s.ml.lookup a with
    | some r => if r = b then
        (if g then .next ⟨rest, (a, b) :: s.ml, (b, a) :: s.mr⟩ else .next ⟨rest, s.ml, s.mr⟩)
        else .crash
    | none => if g then .next ⟨rest, (a, b) :: s.ml, (b, a) :: s.mr⟩ else .next ⟨rest, s.ml, s.mr⟩
  | .todo a b f :: rest =>
    match dispatch veq H defer s.ml s.mr f a b with
    | none => .ret false
    | some (ts, g) => .next ⟨ts ++ .done a b g :: rest, s.ml, s.mr⟩

/-- The loop; `none` when it has not finished within the given number of turns, `some none` when an
`MXCHECK` fails. -/
def run (defer : Bool) : Nat → St → Option (Option Bool)
  | 0, _ => none
  | n + 1, s =>
    match step veq H defer s with
    | .next s' => run defer n s'
    | .ret r => some (some r)
    | .crash => some none

/-- `Impl::Equal`, structural_equal.cc 271-294. -/
def equal (defer : Bool) (n : Nat) (lhs rhs : Option Nat) (flag : Bool) : Option (Option Bool) :=
  match lhs, rhs with
  | none, none => some (some true)
  | _, _ =>
    match reduce H [] [] flag lhs rhs with
    | none => some (some false)
    | some ts => if ts.length = 1 then run veq H defer n ⟨ts, [], []⟩ else some none

/-- `matx.ir.structural_equal(lhs, rhs, map_free_vars)` returns `r` (structural_equal.cc 523-529: path
tracing on, failures not deferred). -/
def Returns (lhs rhs : Option Nat) (flag : Bool) (r : Bool) : Prop :=
  ∃ n, equal veq H false n lhs rhs flag = some (some r)

/-- The comparison inside `get_first_structural_mismatch` (structural_equal.cc 531-538: failures
deferred). -/
def ReturnsDeferred (lhs rhs : Option Nat) (flag : Bool) (r : Bool) : Prop :=
  ∃ n, equal veq H true n lhs rhs flag = some (some r)

end

/-! ### Comparison without path tracing -/

section
variable {V : Type}

/-- An attribute as the reducer sees it when paths are not traced: an attribute declared as an array is
compared on the spot, by length and elements (structural_equal.h 262-275); the length of a null array
is 0. -/
def inline (node : Nat → Node V) : Item V → List (Item V)
  | .ref none false true => [.len 0]
  | .ref (some p) false true =>
    match (node p).kind with
    | .arr => .len (node p).es.length :: (node p).es
    | _ => [.ref (some p) false true]
  | it => [it]

theorem inline_ref {node : Nat → Node V} {it : Item V} {q : Nat} {d a : Bool}
    (h : Item.ref (some q) d a ∈ inline node it) :
    it = .ref (some q) d a ∨ ∃ p, it = .ref (some p) false true ∧ Item.ref (some q) d a ∈ (node p).es := by
  unfold inline at h
  split at h
  · simp at h
  · rename_i p
    split at h
    · simp only [List.mem_cons, reduceCtorEq, false_or] at h
      exact Or.inr ⟨p, rfl, h⟩
    · simp only [List.mem_singleton] at h
      exact Or.inl h.symm
  · simp only [List.mem_singleton] at h
    exact Or.inl h.symm

/-- The heap with all the attributes declared as arrays inlined; an array node compared itself (cow_array_ref.cc 61-68)
keeps its elements. -/
def expand (H : Heap V) : Heap V where
  node p := { H.node p with
    es := match (H.node p).kind with
      | .arr => (H.node p).es
      | _ => (H.node p).es.flatMap (inline H.node) }
  lt := by
    intro p q d a h
    dsimp only at h
    split at h
    · exact H.lt p q d a h
    · rw [List.mem_flatMap] at h
      obtain ⟨it, hit, hq⟩ := h
      rcases inline_ref hq with rfl | ⟨r, rfl, hr⟩
      · exact H.lt p q d a hit
      · exact Nat.lt_trans (H.lt r q d a hr) (H.lt p r false true hit)
  lth := H.lth

/-- The C++ `StructuralEqual()(lhs, rhs)` (structural_equal.cc 540-542) returns `r`. -/
def FastReturns (veq : V → V → Bool) (H : Heap V) (lhs rhs : Option Nat) (r : Bool) : Prop :=
  ∃ n, equal veq (expand H) false n lhs rhs false = some (some r)

end

/-! ### Deep comparison of expressions -/

section
variable {V : Type} (veq : V → V → Bool)

/-- The attributes compared by the recursive handler of deep_equal.cc, with the comparison of objects
`c`. -/
def deepItems (c : Nat → Nat → Bool) : List (Item V) → List (Item V) → Bool
  | [], [] => true
  | .val v :: xs, .val w :: ys => veq v w && deepItems c xs ys
  | .len n :: xs, .len k :: ys => n == k && deepItems c xs ys
  | .ref p d _ :: xs, .ref q e _ :: ys =>
    (d == e) && (match p, q with
      | none, none => true
      | some a, some b => c a b
      | _, _ => false) && deepItems c xs ys
  | _, _ => false

/-- `DeepCmpSEqualHandler::SEqualReduce`, deep_equal.cc 39-53: identical objects are equal, variables are
never renamed (the reducer is made with `map_free_vars` false), `MarkGraphNode` does nothing.  The depth of
the recursion is bounded by the address of the left object. -/
def deep (H : Heap V) : Nat → Nat → Nat → Bool
  | 0, _, _ => false
  | k + 1, a, b =>
    if a = b then true
    else if (H.node a).ty ≠ (H.node b).ty ∨ (H.node a).kind ≠ (H.node b).kind then false
    else match (H.node a).kind with
      | .var => deepItems veq (deep H k) (H.node a).es (H.node b).es && (a == b)
      | .op => a == b
      | .yld => ptrs (H.node a).es = ptrs (H.node b).es ∨
          deepItems veq (deep H k) (H.node a).es (H.node b).es = true
      | _ => deepItems veq (deep H k) (H.node a).es (H.node b).es

/-- `matx.ir.analysis.expr_deep_equal(lhs, rhs)`, run on the heap without path tracing. -/
def deepEqual (H : Heap V) (a b : Nat) : Bool := deep veq (expand H) (a + 1) a b

end

end Verif.StructEq
