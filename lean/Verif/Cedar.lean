/-
The double-array trie behind `matx.Trie`.

Source: `include/matxscript/runtime/algorithm/cedar.h` (class `da`, with `ORDERED = true`,
`MAX_TRIAL = 1`, no `USE_REDUCED_TRIE`, no tracking nodes), `src/runtime/algorithm/trie_private.cc`.

The three arrays `_array`, `_ninfo` and `_block` are functions of the index.  Slots from `size` on
are not initialised in the code.  Searching reports an access at or beyond `size` as `none`;
updating does not check its accesses (the invariant of `CedarProps` keeps all of them below `size`).
`_array` and `_ninfo` have two numbers per slot: `base` is the union of `base_` and `value`.
Numbers other than values are unbounded; `_capacity`, reallocation and `_no_delete` are left out.
`none` as a result of an updating function means that a loop did not end.
-/
namespace Verif.Cedar

def upd {β : Type} (f : Nat → β) (i : Nat) (x : β) : Nat → β := fun j => if j = i then x else f j

/-- `node`, lines 49-59. -/
structure Node where
  base : Int
  check : Int

/-- `ninfo`, lines 60-64. -/
structure NInfo where
  sibling : Nat
  child : Nat

/-- `block`, lines 65-73. -/
structure Block where
  prev : Nat
  next : Nat
  num : Int
  reject : Int
  trial : Nat
  ehead : Nat

/-- The three lists of blocks: `_bheadF`, `_bheadC`, `_bheadO`. -/
inductive Lst
  | full
  | closed
  | opened
  deriving DecidableEq

structure St where
  arr : Nat → Node
  ni : Nat → NInfo
  blk : Nat → Block
  head : Lst → Nat
  size : Nat
  rej : Nat → Int

def St.setHead (s : St) (l : Lst) (b : Nat) : St :=
  { s with head := fun l' => if l' = l then b else s.head l' }

def St.setNext (s : St) (b x : Nat) : St := { s with blk := upd s.blk b { s.blk b with next := x } }
def St.setPrev (s : St) (b x : Nat) : St := { s with blk := upd s.blk b { s.blk b with prev := x } }
def St.setNum (s : St) (b : Nat) (x : Int) : St :=
  { s with blk := upd s.blk b { s.blk b with num := x } }
def St.setReject (s : St) (b : Nat) (x : Int) : St :=
  { s with blk := upd s.blk b { s.blk b with reject := x } }
def St.setTrial (s : St) (b x : Nat) : St := { s with blk := upd s.blk b { s.blk b with trial := x } }
def St.setEhead (s : St) (b x : Nat) : St := { s with blk := upd s.blk b { s.blk b with ehead := x } }
def St.setNode (s : St) (i : Nat) (n : Node) : St := { s with arr := upd s.arr i n }
def St.setBase (s : St) (i : Nat) (x : Int) : St :=
  { s with arr := upd s.arr i { s.arr i with base := x } }
def St.setCheck (s : St) (i : Nat) (x : Int) : St :=
  { s with arr := upd s.arr i { s.arr i with check := x } }
def St.setInfo (s : St) (i : Nat) (n : NInfo) : St := { s with ni := upd s.ni i n }
def St.setSibling (s : St) (i x : Nat) : St :=
  { s with ni := upd s.ni i { s.ni i with sibling := x } }
def St.setChild (s : St) (i x : Nat) : St := { s with ni := upd s.ni i { s.ni i with child := x } }

/-- Lines 405-406: the slots of the first block, in one ring. -/
def firstSlot (i : Nat) : Node :=
  ⟨if i = 1 then -255 else -((i : Int) - 1), if i = 255 then -1 else -((i : Int) + 1)⟩

/-- `_initialize`, lines 393-408; the default `block`, line 72. -/
def init : St :=
  { arr := fun i => if i = 0 then ⟨0, -1⟩ else firstSlot i
    ni := fun _ => ⟨0, 0⟩
    blk := fun b => ⟨0, 0, 256, 257, 0, if b = 0 then 1 else 0⟩
    head := fun _ => 0
    size := 256
    rej := fun i => (i : Int) + 1 }

/-- The slot of the child with label `c` of a node with base `b`. -/
def slot (b : Int) (c : Nat) : Nat := b.toNat ^^^ c

/-- `_pop_block`, lines 472-481. -/
def popBlock (s : St) (bi : Nat) (l : Lst) (last : Bool) : St :=
  if last then s.setHead l 0
  else
    let p := (s.blk bi).prev
    let n := (s.blk bi).next
    let s := (s.setNext p n).setPrev n p
    if bi = s.head l then s.setHead l n else s

/-- `_push_block`, lines 482-492. -/
def pushBlock (s : St) (bi : Nat) (l : Lst) (empty : Bool) : St :=
  if empty then ((s.setPrev bi bi).setNext bi bi).setHead l bi
  else
    let h := s.head l
    let t := (s.blk h).prev
    ((((s.setPrev bi t).setNext bi h).setNext t bi).setPrev h bi).setHead l bi

/-- `_transfer_block`, lines 514-517. -/
def transfer (s : St) (bi : Nat) (src dst : Lst) : St :=
  let s := popBlock s bi src (bi == (s.blk bi).next)
  pushBlock s bi dst (s.head dst == 0 && (s.blk bi).num != 0)

/-- Lines 504-508: the slots of a new block from `z` on, in one ring. -/
def freshSlot (z i : Nat) : Node :=
  ⟨if i = z then -((z : Int) + 255) else -((i : Int) - 1),
   if i = z + 255 then -(z : Int) else -((i : Int) + 1)⟩

/-- `_add_block`, lines 493-512; the result is the first slot of the new block. -/
def addBlock (s : St) : St × Nat :=
  let z := s.size
  let s := s.setEhead (z / 256) z
  let s := { s with arr := fun i => if z ≤ i ∧ i < z + 256 then freshSlot z i else s.arr i }
  let s := pushBlock s (z / 256) .opened (s.head .opened == 0)
  ({ s with size := z + 256 }, z)

/-- `_find_place ()`, lines 593-597. -/
def findPlace (s : St) : St × Nat :=
  if s.head .closed ≠ 0 then (s, (s.blk (s.head .closed)).ehead)
  else if s.head .opened ≠ 0 then (s, (s.blk (s.head .opened)).ehead)
  else addBlock s

/-- Lines 605-610: from slot `e` on, the first empty slot of the ring at which all labels fit.
`none`: the loop does not end; `some none`: no such slot. -/
def scanRing (s : St) (ehead first : Nat) (rest : List Nat) : Nat → Nat → Option (Option Nat)
  | 0, _ => none
  | fuel + 1, e =>
    if rest.all (fun p => (s.arr ((e ^^^ first) ^^^ p)).check < 0) then some (some e)
    else
      let e' := (-(s.arr e).check).toNat
      if e' = ehead then some none else scanRing s ehead first rest fuel e'

/-- Lines 602-617: the loop over the open blocks. -/
def scanBlocks (bz first : Nat) (rest : List Nat) : Nat → St → Nat → Option (St × Option Nat)
  | 0, _, _ => none
  | fuel + 1, s, bi =>
    let nc : Int := rest.length + 1
    let r : Option (Option Nat) :=
      if nc ≤ (s.blk bi).num ∧ nc < (s.blk bi).reject then
        scanRing s (s.blk bi).ehead first rest 256 (s.blk bi).ehead
      else some none
    match r with
    | none => none
    | some (some e) => some (s.setEhead bi e, some e)
    | some none =>
      let s := s.setReject bi nc
      let n := ((s.blk bi).num).toNat
      let s := if nc < s.rej n then { s with rej := upd s.rej n nc } else s
      let bi' := (s.blk bi).next
      let s := s.setTrial bi ((s.blk bi).trial + 1)
      let s := if (s.blk bi).trial = 1 then transfer s bi .opened .closed else s
      if bi = bz then some (s, none) else scanBlocks bz first rest fuel s bi'

/-- `_find_place (first, last)`, lines 598-620. -/
def findPlaces (s : St) (first : Nat) (rest : List Nat) : Option (St × Nat) :=
  if s.head .opened ≠ 0 then
    match scanBlocks (s.blk (s.head .opened)).prev first rest s.size s (s.head .opened) with
    | none => none
    | some (s, some e) => some (s, e)
    | some (s, none) => some (addBlock s)
  else some (addBlock s)

/-- `_pop_enode` from line 524 on, for the slot `e`: lines 521-538. -/
def takeSlot (s : St) (e label src : Nat) : St :=
  let bi := e / 256
  let n := s.arr e
  let s := s.setNum bi ((s.blk bi).num - 1)
  let s :=
    if (s.blk bi).num = 0 then
      if bi ≠ 0 then transfer s bi .closed .full else s
    else
      let s := (s.setCheck (-n.base).toNat n.check)
      let s := s.setBase (-n.check).toNat n.base
      let s := if e = (s.blk bi).ehead then s.setEhead bi (-n.check).toNat else s
      if bi ≠ 0 ∧ (s.blk bi).num = 1 ∧ (s.blk bi).trial ≠ 1 then transfer s bi .opened .closed
      else s
  s.setNode e ⟨if label ≠ 0 then -1 else 0, src⟩

/-- `_pop_enode`, lines 519-542. -/
def popEnode (s : St) (base : Int) (label src : Nat) : St × Nat :=
  if base < 0 then
    let (s, e) := findPlace s
    ((takeSlot s e label src).setBase src ((e ^^^ label : Nat) : Int), e)
  else (takeSlot s (slot base label) label src, slot base label)

/-- `_push_enode`, lines 544-562. -/
def pushEnode (s : St) (e : Nat) : St :=
  let bi := e / 256
  let s := s.setNum bi ((s.blk bi).num + 1)
  let s :=
    if (s.blk bi).num = 1 then
      let s := (s.setEhead bi e).setNode e ⟨-(e : Int), -(e : Int)⟩
      if bi ≠ 0 then transfer s bi .full .closed else s
    else
      let prev := (s.blk bi).ehead
      let next := (-(s.arr prev).check).toNat
      let s := s.setNode e ⟨-(prev : Int), -(next : Int)⟩
      let s := (s.setBase next (-(e : Int))).setCheck prev (-(e : Int))
      let s :=
        if ((s.blk bi).num = 2 ∨ (s.blk bi).trial = 1) ∧ bi ≠ 0 then transfer s bi .closed .opened
        else s
      s.setTrial bi 0
  let n := (s.blk bi).num.toNat
  let s := if (s.blk bi).reject < s.rej n then s.setReject bi (s.rej n) else s
  s.setInfo e ⟨0, 0⟩

/-- The loop of line 567: the slot whose `sibling` is the place to insert `label`, starting with
the sibling of label `c`. -/
def sibWalk (s : St) (base : Int) (label : Nat) : Nat → Nat → Option Nat
  | 0, _ => none
  | fuel + 1, c =>
    let v := (s.ni (slot base c)).sibling
    if v ≠ 0 ∧ v < label then sibWalk s base label fuel v else some (slot base c)

/-- `_push_sibling`, lines 564-569. -/
def pushSibling (s : St) (src : Nat) (base : Int) (label : Nat) (flag : Bool) : Option St :=
  let c := (s.ni src).child
  if flag ∧ c < label then
    match sibWalk s base label 257 c with
    | none => none
    | some x => some ((s.setSibling (slot base label) (s.ni x).sibling).setSibling x label)
  else some ((s.setSibling (slot base label) c).setChild src label)

/-- `_consult`, lines 577-581. -/
def consult (s : St) (baseN baseP : Int) : Nat → Nat → Nat → Option Bool
  | 0, _, _ => none
  | fuel + 1, cN, cP =>
    let cN := (s.ni (slot baseN cN)).sibling
    let cP := (s.ni (slot baseP cP)).sibling
    if cN ≠ 0 ∧ cP ≠ 0 then consult s baseN baseP fuel cN cP else some (cP != 0)

/-- The labels from `c` on along the siblings, up to the end mark 0. -/
def labels (s : St) (base : Int) : Nat → Nat → Option (List Nat)
  | 0, _ => none
  | fuel + 1, c =>
    if c = 0 then some [] else (labels s base fuel (s.ni (slot base c)).sibling).map (c :: ·)

/-- `_set_child`, lines 583-591: the labels of the children, with `label` put in its place. -/
def setChildren (s : St) (base : Int) (c : Nat) (label : Option Nat) : Option (List Nat) :=
  let pre := if c = 0 then [0] else []
  let c := if c = 0 then (s.ni (slot base 0)).sibling else c
  match labels s base 257 c with
  | none => none
  | some l =>
    match label with
    | none => some (pre ++ l)
    | some x => some (pre ++ l.takeWhile (· < x) ++ x :: l.dropWhile (· < x))

/-- Lines 660-662: the children of the moved node, from label `c` on, get the parent `dst`. -/
def adopt (base : Int) (dst : Nat) : Nat → St → Nat → Option St
  | 0, _, _ => none
  | fuel + 1, s, c =>
    let s := s.setCheck (slot base c) dst
    let c := (s.ni (slot base c)).sibling
    if c ≠ 0 then adopt base dst fuel s c else some s

/-- What `_resolve` knows in its loop. -/
structure Move where
  flag : Bool
  src : Nat
  oldBase : Int
  newBase : Int
  toPN : Nat
  labelN : Nat

/-- One round of the loop, lines 646-681.  `srcN` is `from_n`, `nextLabel` the label after this
one, or 0. -/
def moveOne (m : Move) (s : St) (srcN : Nat) (label nextLabel : Nat) : Option (St × Nat) :=
  let (s, dst) := popEnode s m.newBase label m.src
  let old := slot m.oldBase label
  let s := s.setSibling dst nextLabel
  if m.flag ∧ old = m.toPN then some (s, srcN)
  else
    let s := s.setBase dst (s.arr old).base
    let s? : Option St :=
      if 0 < (s.arr dst).base ∧ label ≠ 0 then
        let s := s.setChild dst (s.ni old).child
        adopt (s.arr dst).base dst 257 s (s.ni dst).child
      else some s
    match s? with
    | none => none
    | some s =>
      let srcN := if ¬ m.flag ∧ old = srcN then dst else srcN
      if ¬ m.flag ∧ old = m.toPN then
        match pushSibling s srcN ((m.toPN ^^^ m.labelN : Nat) : Int) m.labelN true with
        | none => none
        | some s =>
          let s := s.setChild old 0
          some (s.setNode old ⟨if m.labelN ≠ 0 then -1 else 0, srcN⟩, srcN)
      else some (pushEnode s old, srcN)

/-- The loop of lines 646-681. -/
def moveAll (m : Move) : List Nat → St → Nat → Option (St × Nat)
  | [], s, srcN => some (s, srcN)
  | c :: l, s, srcN =>
    match moveOne m s srcN c (l.headD 0) with
    | none => none
    | some (s, srcN) => moveAll m l s srcN

/-- `_resolve`, lines 623-683: the new state, the place of `from_n` and the result. -/
def resolve (s : St) (srcN : Nat) (baseN : Int) (labelN : Nat) : Option (St × Nat × Nat) :=
  let toPN := slot baseN labelN
  let srcP := (s.arr toPN).check.toNat
  let baseP := (s.arr srcP).base
  match consult s baseN baseP 257 (s.ni srcN).child (s.ni srcP).child with
  | none => none
  | some flag =>
    match (if flag then setChildren s baseN (s.ni srcN).child (some labelN)
      else setChildren s baseP (s.ni srcP).child none) with
    | none => none
    | some [] => none
    | some (first :: rest) =>
      match (if rest = [] then some (findPlace s) else findPlaces s first rest) with
      | none => none
      | some (s, e) =>
        let base : Int := ((e ^^^ first : Nat) : Int)
        let src := if flag then srcN else srcP
        let s := if flag ∧ first = labelN then s.setChild src labelN else s
        let s := s.setBase src base
        let m : Move := ⟨flag, src, if flag then baseN else baseP, base, toPN, labelN⟩
        match moveAll m (first :: rest) s srcN with
        | none => none
        | some (s, srcN) => some (s, srcN, if flag then slot base labelN else toPN)

/-- `_follow`, lines 411-420: the new state and the child. -/
def follow (s : St) (src label : Nat) : Option (St × Nat) :=
  let base := (s.arr src).base
  if base < 0 ∨ (s.arr (slot base label)).check < 0 then
    let (s, e) := popEnode s base label src
    match pushSibling s src ((e ^^^ label : Nat) : Int) label (0 ≤ base) with
    | none => none
    | some s => some (s, e)
  else if (s.arr (slot base label)).check ≠ src then
    match resolve s src base label with
    | none => none
    | some (s, _, e) => some (s, e)
  else some (s, slot base label)

/-- The loop of `update`, lines 177-185. -/
def followAll (s : St) (src : Nat) : List Nat → Option (St × Nat)
  | [] => some (s, src)
  | c :: l =>
    match follow s src c with
    | none => none
    | some (s, e) => followAll s e l

/-- A value as a 32-bit number. -/
def wrap (x : Int) : Int := Int.bmod x (2 ^ 32)

/-- `update`, lines 171-193, with `from = 0`; `val` is cut to 32 bits by the caller
(trie_private.cc 56).  The empty key ends the process (lines 172-173): `none`. -/
def update (s : St) (key : List Nat) (val : Int) : Option St :=
  if key = [] then none
  else
    match followAll s 0 key with
    | none => none
    | some (s, e) =>
      match follow s e 0 with
      | none => none
      | some (s, e) => some (s.setBase e (wrap ((s.arr e).base + wrap val)))

/-- A read of `_array[i]`. -/
def St.read (s : St) (i : Int) : Option Node :=
  if 0 ≤ i ∧ i < s.size then some (s.arr i.toNat) else none

/-- `base ^ c` for a base that may be negative (the slot is then outside the array). -/
def slotOf (b : Int) (c : Nat) : Int := if b < 0 then -1 else ((b.toNat ^^^ c : Nat) : Int)

/-- `_find`, lines 422-440, over one byte: the result `-2` is "no path", `-1` "no value". -/
def find1 (s : St) (src : Nat) (c : Nat) : Option (Int × Nat) :=
  match s.read src with
  | none => none
  | some n =>
    match s.read (slotOf n.base c) with
    | none => none
    | some m =>
      if m.check ≠ src then some (-2, src)
      else
        let dst := (slotOf n.base c).toNat
        match s.read (slotOf m.base 0) with
        | none => none
        | some t => if t.check ≠ dst then some (-1, dst) else some (t.base, dst)

/-- `commonPrefixSearch`, lines 119-130: all results (length, value), `pos` bytes having been
read. -/
def prefixes (s : St) (src pos : Nat) : List Nat → Option (List (Nat × Int))
  | [] => some []
  | c :: l =>
    match find1 s src c with
    | none => none
    | some (v, dst) =>
      if v = -1 then prefixes s dst (pos + 1) l
      else if v = -2 then some []
      else (prefixes s dst (pos + 1) l).map ((pos + 1, v) :: ·)

/-- `TrieNode::PrefixSearch` on bytes, trie_private.cc 64-86, with `*val = -1` before: length and
value of the last longest result.  The results are in an array of 64; reading beyond it is
`none`. -/
def prefixSearch (s : St) (w : List Nat) : Option (Nat × Int) :=
  match prefixes s 0 0 w with
  | none => none
  | some r =>
    if 64 < r.length then none
    else some (r.foldl (fun a x => if a.1 < x.1 then x else a) (0, -1))

/-- `TrieNode::PrefixSearchAll` on bytes, trie_private.cc 94-110. -/
def prefixSearchAll (s : St) (w : List Nat) : Option (List (Nat × Int)) :=
  match prefixes s 0 0 w with
  | none => none
  | some r => if 64 < r.length then none else some r

/-- `TrieNode::TrieNode`, trie_private.cc 37-54, and `build`, cedar.h 221-225. -/
def build (s : St) : List (List Nat × Int) → Option St
  | [] => some s
  | (k, v) :: l =>
    match update s k v with
    | none => none
    | some s => build s l

end Verif.Cedar
