/-
The bounded multi-producer multi-consumer queue.

Source: `include/matxscript/runtime/threadpool/mpmc_bounded_queue.h` 34-162.

Any number of threads run `enqueue`, `try_enqueue`, `dequeue` and `try_dequeue`, one memory access
per step, in any interleaving.  `hist` and `got` are history variables the code does not have: the
item of each enqueue ticket, and the tickets with the items handed out for them.

Simplifications: steps interleave on one memory (the acquire/release orders of the code are not
weakened); positions are natural numbers and do not wrap around; the index `pos & mask` is
`pos % size`; the differences of lines 63, 83, 102, 125 and 144 are compared without overflow.
`data_` is `none` before the first write and after a move.
-/
namespace Verif.Mpmc

variable {α : Type}

/-- Where a thread is.  `once` marks the `try_` variants; `pos` and `seq` are the local
variables. -/
inductive Pc (α : Type)
  | idle
  | eTop (v : α) (once : Bool)
  | eSeq (v : α) (once : Bool) (pos : Nat)
  | eCas (v : α) (once : Bool) (pos seq : Nat)
  | eWrite (v : α) (pos : Nat)
  | eStore (v : α) (pos : Nat)
  | dTop (once : Bool)
  | dSeq (once : Bool) (pos : Nat)
  | dCas (once : Bool) (pos seq : Nat)
  | dRead (pos : Nat)
  | dStore (v : Option α) (pos : Nat)
  | eRet (ok : Bool)
  | dRet (r : Option (Option α))

structure State (α : Type) where
  seq : Nat → Nat
  data : Nat → Option α
  enq : Nat
  deq : Nat
  pc : Nat → Pc α
  hist : List α
  got : List (Nat × Option α)

/-- Constructor, lines 41-50. -/
def init : State α :=
  { seq := fun i => i, data := fun _ => none, enq := 0, deq := 0, pc := fun _ => .idle,
    hist := [], got := [] }

def upd {β : Type} (f : Nat → β) (i : Nat) (x : β) : Nat → β := fun j => if j = i then x else f j

/-- What a thread may decide at a step: the call to start, and whether a weak compare-exchange
fails without reason. -/
inductive Choice (α : Type)
  | startE (v : α) (once : Bool)
  | startD (once : Bool)
  | go (spurious : Bool)

/-- One step of thread `i` on a queue of `n` cells. -/
def next (n : Nat) (s : State α) (i : Nat) (c : Choice α) : Option (State α) :=
  match s.pc i, c with
  | .idle, .startE v once => some { s with pc := upd s.pc i (.eTop v once) }
  | .idle, .startD once => some { s with pc := upd s.pc i (.dTop once) }
  -- lines 59, 80: load of `enqueue_pos_`
  | .eTop v once, .go _ => some { s with pc := upd s.pc i (.eSeq v once s.enq) }
  -- lines 61-62, 81-82: load of the sequence number of the cell
  | .eSeq v once pos, .go _ => some { s with pc := upd s.pc i (.eCas v once pos (s.seq (pos % n))) }
  -- lines 63-71, 83-92: compare-exchange, give up, or start again
  | .eCas v once pos seq, .go spurious =>
    if seq = pos then
      if s.enq = pos ∧ spurious = false then
        some { s with enq := pos + 1, hist := s.hist ++ [v], pc := upd s.pc i (.eWrite v pos) }
      else if once then some { s with pc := upd s.pc i (.eRet false) }
      else some { s with pc := upd s.pc i (.eSeq v once s.enq) }
    else if once ∨ seq < pos then some { s with pc := upd s.pc i (.eRet false) }
    else some { s with pc := upd s.pc i (.eSeq v once s.enq) }
  -- lines 72, 86
  | .eWrite v pos, .go _ =>
    some { s with data := upd s.data (pos % n) (some v), pc := upd s.pc i (.eStore v pos) }
  -- lines 73, 87
  | .eStore _ pos, .go _ =>
    some { s with seq := upd s.seq (pos % n) (pos + 1), pc := upd s.pc i (.eRet true) }
  -- lines 121, 141: load of `dequeue_pos_`
  | .dTop once, .go _ => some { s with pc := upd s.pc i (.dSeq once s.deq) }
  -- lines 123-124, 142-143
  | .dSeq once pos, .go _ => some { s with pc := upd s.pc i (.dCas once pos (s.seq (pos % n))) }
  -- lines 125-133, 144-152
  | .dCas once pos seq, .go spurious =>
    if seq = pos + 1 then
      if s.deq = pos ∧ spurious = false then
        some { s with deq := pos + 1, pc := upd s.pc i (.dRead pos) }
      else if once then some { s with pc := upd s.pc i (.dRet none) }
      else some { s with pc := upd s.pc i (.dSeq once s.deq) }
    else if once ∨ seq < pos + 1 then some { s with pc := upd s.pc i (.dRet none) }
    else some { s with pc := upd s.pc i (.dSeq once s.deq) }
  -- lines 134, 147: move the data out
  | .dRead pos, .go _ =>
    some { s with data := upd s.data (pos % n) none, got := s.got ++ [(pos, s.data (pos % n))],
                  pc := upd s.pc i (.dStore (s.data (pos % n)) pos) }
  -- lines 135, 148
  | .dStore v pos, .go _ =>
    some { s with seq := upd s.seq (pos % n) (pos + n), pc := upd s.pc i (.dRet (some v)) }
  | .eRet _, .go _ => some { s with pc := upd s.pc i .idle }
  | .dRet _, .go _ => some { s with pc := upd s.pc i .idle }
  | _, _ => none

/-- States some interleaving leads to. -/
inductive Reach (n : Nat) : State α → Prop
  | init : Reach n init
  | step {s s' : State α} {i : Nat} {c : Choice α} :
      Reach n s → next n s i c = some s' → Reach n s'

/-- The stores of `enqueue_bulk` after its compare-exchange, lines 111-115. -/
def bulkStores (n : Nat) : List α → Nat → State α → State α
  | [], _, s => s
  | v :: l, pos, s =>
    bulkStores n l (pos + 1)
      { s with data := upd s.data (pos % n) (some v), seq := upd s.seq (pos % n) (pos + 1) }

/-- `enqueue_bulk` run without interruption, lines 96-117. -/
def enqueueBulk (n : Nat) (l : List α) (s : State α) : Option (State α) :=
  if s.seq (s.enq % n) = s.enq then
    some { bulkStores n l s.enq s with enq := s.enq + l.length, hist := s.hist ++ l }
  else none

end Verif.Mpmc
