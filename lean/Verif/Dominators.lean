import Verif.Liveness

/-!
# Dominators, immediate dominators and dominance frontiers

Model of `ScopeBlock.fill_dominates`, `fill_immediate_dominators` and
`fill_dominance_frontier` and of `BlockGraphWalker` / `find_blocks_involved`
(`/repo/python/matx/cfg/model.py` 203-346) for a function without nested
scopes.
-/

namespace Verif.Dominators

open Verif.Liveness (put)

/-- The graph as seen from the function label: the label itself is `entry`;
`blocks` is `self.blocks`, the blocks registered with the scope
(`add_basic_block`, builder.py 263-266, registers a block only if its `scope`
attribute is set); `next`/`prev` are the links of all blocks, registered or
not. -/
structure Graph where
  entry : Nat
  blocks : List Nat
  next : Nat → List Nat
  prev : Nat → List Nat

/-- `reverse_dominators` of every block. -/
abbrev Doms := Nat → Finset Nat

/-- `all_set` (model.py 271-272). -/
def Graph.all (g : Graph) : Finset Nat := insert g.entry g.blocks.toFinset

/-- The sets before the loop (model.py 271-275): `all_set` for the registered
blocks, `{self}` for the label; a block that is not registered keeps the empty
set it was constructed with (model.py 79). -/
def Graph.init (g : Graph) : Doms := fun b =>
  if b = g.entry then {g.entry} else if b ∈ g.blocks then g.all else ∅

/-- `set.intersection(*sets)` for a non-empty argument list, `set()` for none
(model.py 280-285). -/
def interAll : List (Finset Nat) → Finset Nat
  | [] => ∅
  | [s] => s
  | s :: t :: l => s ∩ interAll (t :: l)

/-- `preds_dom` after `add(blk)` (model.py 280-286). -/
def newDom (g : Graph) (dom : Doms) (b : Nat) : Finset Nat :=
  insert b (interAll ((g.prev b).map dom))

/-- One iteration of the `for` loop (model.py 279-289). -/
def domStep (g : Graph) (acc : Doms × Bool) (b : Nat) : Doms × Bool :=
  if acc.1 b = newDom g acc.1 b then acc else (put acc.1 b (newDom g acc.1 b), true)

/-- One pass over `self.blocks`. -/
def domPass (g : Graph) (dom : Doms) : Doms × Bool := g.blocks.foldl (domStep g) (dom, false)

/-- The `while changed` loop (model.py 276-289). -/
def domLoop (g : Graph) : Nat → Doms → Option Doms
  | 0, _ => none
  | fuel + 1, dom =>
    let r := domPass g dom
    if r.2 then domLoop g fuel r.1 else some r.1

/-- A number of passes shown to be sufficient by `dom_terminates`. -/
def fuelFor (g : Graph) : Nat := g.blocks.toFinset.card * g.all.card + 1

/-- `fill_dominates` (model.py 267-289). -/
def fillDominates (g : Graph) : Option Doms := domLoop g (fuelFor g) g.init

/-- The inner `for` of `_find_idom` (model.py 305-312): returns the first
predecessor that is in `rev_doms`, or the extended queue. -/
def idomScan (b : Nat) (revDoms : Finset Nat) (visited : List Nat) :
    List Nat → List Nat → Nat ⊕ List Nat
  | [], q => .inr q
  | p :: ps, q =>
    if p ≠ b ∧ p ∉ visited then
      if p ∈ revDoms then .inl p else idomScan b revDoms visited ps (q ++ [p])
    else idomScan b revDoms visited ps q

/-- `_find_idom` (model.py 299-314).  The deque is used first-in first-out
(`pop` at one end, `appendleft` at the other); the head of the list is the
end popped.  The outer `none` means the fuel did not suffice. -/
def idomLoop (g : Graph) (b : Nat) (revDoms : Finset Nat) :
    Nat → List Nat → List Nat → Option (Option Nat)
  | 0, _, _ => none
  | _ + 1, _, [] => some none
  | fuel + 1, visited, x :: q =>
    match idomScan b revDoms (visited ++ [x]) (g.prev x) q with
    | .inl p => some (some p)
    | .inr q' => idomLoop g b revDoms fuel (visited ++ [x]) q'

/-- `_find_idom(blk, blk.reverse_dominators)` (model.py 316-318). -/
def findIdom (g : Graph) (dom : Doms) (fuel b : Nat) : Option (Option Nat) :=
  idomLoop g b (dom b) fuel [] [b]

/-- The `while` loop of `fill_dominance_frontier` (model.py 334-336):
`idom` is `reverse_immediate_dominator`, `stop` that of `nd`. -/
def runner (idom : Nat → Option Nat) (nd : Nat) :
    Nat → Option Nat → (Nat → List Nat) → Option (Nat → List Nat)
  | 0, _, _ => none
  | _ + 1, none, df => some df
  | fuel + 1, some r, df =>
    if some r = idom nd then some df
    else runner idom nd fuel (idom r) (put df r (df r ++ [nd]))

/-- The loop over the predecessors of `nd` (model.py 331-336). -/
def frontierPreds (idom : Nat → Option Nat) (involved : List Nat) (fuel nd : Nat) :
    List Nat → (Nat → List Nat) → Option (Nat → List Nat)
  | [], df => some df
  | p :: ps, df =>
    if p ∈ involved then
      match runner idom nd fuel (some p) df with
      | none => none
      | some df' => frontierPreds idom involved fuel nd ps df'
    else frontierPreds idom involved fuel nd ps df

/-- `fill_dominance_frontier` over the blocks `involved` (model.py 327-336);
`l` is the part of the list still to be visited. -/
def frontier (g : Graph) (idom : Nat → Option Nat) (involved : List Nat) (fuel : Nat) :
    List Nat → (Nat → List Nat) → Option (Nat → List Nat)
  | [], df => some df
  | nd :: l, df =>
    if (g.prev nd).length > 1 then
      match frontierPreds idom involved fuel nd (g.prev nd) df with
      | none => none
      | some df' => frontier g idom involved fuel l df'
    else frontier g idom involved fuel l df

/-- The inner `for` of `BlockGraphWalker._walk_bfs` (model.py 219-221). -/
def bfsPush (closed : List Nat) : List Nat → List Nat → List Nat
  | [], q => q
  | c :: cs, q => if c ∉ q ∧ c ∉ closed then bfsPush closed cs (q ++ [c]) else bfsPush closed cs q

/-- `BlockGraphWalker._walk_bfs` (model.py 214-222): the blocks yielded. -/
def bfs (g : Graph) : Nat → List Nat → List Nat → Option (List Nat)
  | 0, _, _ => none
  | _ + 1, _, [] => some []
  | fuel + 1, closed, x :: q =>
    (bfs g fuel (x :: closed) (bfsPush closed (g.next x) q)).map (x :: ·)

/-- `find_blocks_involved` (model.py 225-233): the blocks of `blockList`
reached by the walk, in the order of `blockList`. -/
def involved (g : Graph) (fuel : Nat) (blockList : List Nat) : Option (List Nat) :=
  (bfs g fuel [] [g.entry]).map fun seen =>
    (if g.entry ∈ blockList then blockList else blockList ++ [g.entry]).filter (· ∈ seen)

end Verif.Dominators
