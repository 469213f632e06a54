/-!
# Tuples shared between a pipeline and its caller

`TXSessionRunOneNode` unpacks the tuple returned by a node with several outputs by moving its
elements out (`src/pipeline/tx_session.cc:632-639`: `adt_tuple = rets.MoveToObjectRefNoCheck`,
then `std::move(adt_tuple[e])`).  `Tuple::operator[] const` returns a mutable reference into the
shared tuple object (`src/runtime/container/tuple_ref.cc:221-224`), so the elements are moved out
of the object itself, whoever else holds it.  Nodes with several outputs are made by
`matx.pipeline.BuildSimpleGraph` (`python/matx/pipeline/__init__.py:253-270`).

Simplifications: values are integers, `None` and references to tuples on a heap of immutable
tuples; a moved-from element reads as `None` (`RTValue` move leaves a null type code); only the
serial loop; keys are natural numbers; a failed check is `none`.
-/

namespace Verif.SessionAlias

inductive Val where
  | nil
  | int (n : Int)
  | tup (addr : Nat)
  deriving DecidableEq, Repr

/-- Cell `a` holds the elements of the tuple at address `a`; allocation appends. -/
abbrev Heap := List (List Val)

structure Node where
  inputs : List Nat
  outputs : List Nat
  op : List Val → Heap → Val × Heap

abbrev Pack := Nat → Option Val

def Pack.emplace (d : Pack) (k : Nat) (v : Val) : Pack :=
  fun k' => match d k' with
    | some w => some w
    | none => if k' = k then some v else none

/-- Storing the result (`tx_session.cc:632-644`). -/
def store (outs : List Nat) (v : Val) (d : Pack) (h : Heap) : Option (Pack × Heap) :=
  match outs with
  | [] => none
  | [k] => some (d.emplace k v, h)
  | ks =>
    match v with
    | .tup a =>
      match h[a]? with
      | none => none
      | some vs =>
        if vs.length = ks.length then
          some ((ks.zip vs).foldl (fun o kv => o.emplace kv.1 kv.2) d,
            h.set a (List.replicate vs.length .nil))
        else none
    | _ => none

/-- `TXSessionRunOneNode` for a computed node; fed values and computed values are in one
dictionary. -/
def runOne (n : Node) (d : Pack) (h : Heap) : Option (Pack × Heap) :=
  match n.inputs.mapM d with
  | none => none
  | some args => store n.outputs (n.op args h).1 d (n.op args h).2

/-- The loop of `RunImpl`. -/
def run : List Node → Pack → Heap → Option (Pack × Heap)
  | [], d, h => some (d, h)
  | n :: ns, d, h =>
    match runOne n d h with
    | none => none
    | some (d', h') => run ns d' h'

end Verif.SessionAlias
