/-!
# The hash table behind Dict and Set

Model of `ska::detailv3::sherwood_v3_table` with `fibonacci_hash_policy`
(`include/matxscript/runtime/container/_flat_hash_map.h`): Robin Hood hashing with a bounded probe length, a
sentinel at the end of the array, growth by doubling and backward-shift deletion.

A slot is a `Cell`; the array is the list of its cells.  Reading a slot that is not there, or the value of a
slot that holds none, is the error `oob`, so the absence of both is something to be proved.

Simplifications: hashing and comparing keys are total functions (`Ops`); moved-from values are not tracked;
`int8_t` distances are natural numbers (they are below `max_lookups`, which is proved); an allocation succeeds
up to `2 ^ lim` slots for an arbitrary `lim` and otherwise raises (`nomem`); the load factor is the default
0.5 and floating-point products with it are exact.
-/

namespace Verif.HashMap

/-- The hash and equality functors. -/
structure Ops (K : Type) where
  hash : K → Nat
  eq : K → K → Bool

/-- `sherwood_v3_entry` (lines 202–248): a free slot (distance -1), a slot with a value, the end marker. -/
inductive Cell (α : Type) where
  | empty
  | full (d : Nat) (x : α)
  | fin
  deriving DecidableEq, Repr

variable {K V : Type}

/-- `distance_from_desired`; `special_end_value` is 0. -/
def Cell.dist {α : Type} : Cell α → Int
  | .empty => -1
  | .full d _ => d
  | .fin => 0

/-- The members of the table (lines 867–872); `log` is 64 minus the shift of the hash policy, and 0 for the
default table. -/
structure Table (K V : Type) where
  cells : List (Cell (K × V))
  log : Nat
  num : Nat
  deriving DecidableEq

/-- `num_slots_minus_one + 1`. -/
def slotsOf (log : Nat) : Nat := if log = 0 then 1 else 2 ^ log

/-- `max_lookups`: `compute_max_lookups` (lines 874–878), 3 for the default table. -/
def maxLOf (log : Nat) : Nat := if log = 0 then 3 else max 4 log

/-- `bucket_count` (lines 832–835). -/
def bucketCountOf (log : Nat) : Nat := if log = 0 then 0 else 2 ^ log

/-- `fibonacci_hash_policy::index_for_hash` (lines 1347–1350); the shift of the default table is 63. -/
def indexOf (log : Nat) (h : Nat) : Nat :=
  ((11400714819323198485 * h) % 2 ^ 64) >>> (if log = 0 then 63 else 64 - log)

/-- The desired slot of a key. -/
def home (o : Ops K) (log : Nat) (k : K) : Nat := indexOf log (o.hash k)

/-- The default table (lines 216–220) and the array made by `rehash` (lines 713–717). -/
def emptyTable (K V : Type) (log : Nat) : Table K V :=
  ⟨List.replicate (slotsOf log + maxLOf log - 1) .empty ++ [.fin], log, 0⟩

inductive Err where
  | oob
  | nomem
  deriving DecidableEq, Repr

/-- The values in iteration order (`begin`, `operator++`, `end`: lines 533–596): every slot with a value before
the end marker. -/
def contents {α : Type} : List (Cell α) → List α
  | [] => []
  | .empty :: r => contents r
  | .full _ x :: r => x :: contents r
  | .fin :: _ => []

def Table.toList (t : Table K V) : List (K × V) := contents t.cells

inductive Probe where
  /-- the key is in the slot at this offset -/
  | found (i : Nat)
  /-- the loop ends at this distance -/
  | stop (d : Nat)
  | oob
  deriving DecidableEq, Repr

/-- The probe loop of `find` and `emplace` (lines 599–609, 653–662) on the slots from the current one on. -/
def probe (o : Ops K) (k : K) : List (Cell (K × V)) → Nat → Probe
  | [], _ => .oob
  | .empty :: _, d => .stop d
  | .full e x :: r, d =>
    if e < d then .stop d
    else if o.eq k x.1 then .found d
    else probe o k r (d + 1)
  | .fin :: _, d => if d = 0 then .oob else .stop d

/-- `find` (lines 599–609): the position of the key. -/
def find (o : Ops K) (t : Table K V) (k : K) : Except Err (Option Nat) :=
  match probe o k (t.cells.drop (home o t.log k)) 0 with
  | .found d => .ok (some (home o t.log k + d))
  | .stop _ => .ok none
  | .oob => .error .oob

/-- The value at a position. -/
def valueAt (t : Table K V) (i : Nat) : Except Err (K × V) :=
  match t.cells[i]? with
  | some (.full _ x) => .ok x
  | _ => .error .oob

inductive DRes (α : Type) where
  | placed (cells : List (Cell α))
  /-- the probe length is exhausted with the value `y` in hand -/
  | stuck (cells : List (Cell α)) (y : α)
  | oob

def DRes.cons {α : Type} (c : Cell α) : DRes α → DRes α
  | .placed r => .placed (c :: r)
  | .stuck r y => .stuck (c :: r) y
  | .oob => .oob

/-- The displacement loop of `emplace_new_key` (lines 917–943) with the value `y` in hand at distance `h`. -/
def displace {α : Type} (maxL : Nat) : List (Cell α) → Nat → α → DRes α
  | [], _, _ => .oob
  | .empty :: r, h, y => .placed (.full h y :: r)
  | .full d x :: r, h, y =>
    if d < h then (displace maxL r (d + 1) x).cons (.full h y)
    else if h + 1 = maxL then .stuck (.full d x :: r) y
    else (displace maxL r (h + 1) y).cons (.full d x)
  | .fin :: _, _, _ => .oob

/-- What `emplace` does before a growth: the key is present, it has been inserted, or the array must grow
first. -/
inductive Step (K V : Type) where
  | present (i : Nat)
  | inserted (t : Table K V) (i : Nat)
  | full (t : Table K V)
  | oob

/-- `emplace` (lines 652–664) and `emplace_new_key` (lines 900–944) up to the call of `grow`.  When the
displacement loop gives up, the value in hand is put in the place of the new one. -/
def step (o : Ops K) (t : Table K V) (x : K × V) : Step K V :=
  let i := home o t.log x.1
  match probe o x.1 (t.cells.drop i) 0 with
  | .oob => .oob
  | .found d => .present (i + d)
  | .stop d =>
    if t.log = 0 ∨ d = maxLOf t.log ∨ slotsOf t.log < 2 * (t.num + 1) then .full t
    else
      match t.cells.drop (i + d) with
      | .empty :: r =>
        .inserted { t with cells := t.cells.take (i + d) ++ .full d x :: r, num := t.num + 1 } (i + d)
      | .full e y :: r =>
        match displace (maxLOf t.log) r (e + 1) y with
        | .placed r' =>
          .inserted { t with cells := t.cells.take (i + d) ++ .full d x :: r', num := t.num + 1 } (i + d)
        | .stuck r' z => .full { t with cells := t.cells.take (i + d) ++ .full d z :: r' }
        | .oob => .oob
      | _ => .oob

/-- `next_power_of_two` (lines 296–307) and the `max` with 2 of `next_size_over` (lines 1356–1360), as an
exponent: the least `l ≥ 1` with `n ≤ 2 ^ l`. -/
def sizeLog (n : Nat) : Nat := if n ≤ 2 then 1 else Nat.log2 (n - 1) + 1

/-- The bit smearing of `log2` and `next_power_of_two` on 64-bit words (lines 263–268, 299–304). -/
def smear (v : Nat) : Nat :=
  let v := v ||| v >>> 1
  let v := v ||| v >>> 2
  let v := v ||| v >>> 4
  let v := v ||| v >>> 8
  let v := v ||| v >>> 16
  v ||| v >>> 32

/-- The table of `log2` (lines 252–262). -/
def log2Table : List Nat :=
  [63,  0, 58,  1, 59, 47, 53,  2,
   60, 39, 48, 27, 54, 33, 42,  3,
   61, 51, 37, 40, 49, 18, 28, 20,
   55, 30, 34, 11, 43, 14, 22,  4,
   62, 57, 46, 52, 38, 26, 32, 41,
   50, 36, 17, 19, 29, 10, 13, 21,
   56, 45, 25, 31, 35, 16,  9, 12,
   44, 24, 15,  8, 23,  7,  6,  5]

/-- `log2` (lines 250–270). -/
def log2Word (v : Nat) : Nat :=
  let v := smear v
  log2Table.getD ((((v - v >>> 1) * 0x07EDD5E59A4E28C2) % 2 ^ 64) >>> 58) 0

/-- `next_power_of_two` (lines 296–307). -/
def nextPow2Word (n : Nat) : Nat := smear (n - 1) + 1

/-- Inserting a list of values one after the other (`insert`, lines 688–695, and the loop of `rehash`). -/
def insertAll (emp : Table K V → K × V → Except Err (Table K V × Nat × Bool)) :
    Table K V → List (K × V) → Except Err (Table K V)
  | t, [] => .ok t
  | t, x :: r => match emp t x with
    | .error e => .error e
    | .ok (t', _, _) => insertAll emp t' r

/-- `rehash` (lines 701–734); `emp` is `emplace` on the new array. -/
def rehash (lim : Nat) (emp : Table K V → K × V → Except Err (Table K V × Nat × Bool)) (t : Table K V)
    (n : Nat) : Except Err (Table K V) :=
  let n := max n (2 * t.num)
  if n = 0 then .ok (emptyTable K V 0)
  else
    let l := sizeLog n
    if 2 ^ l = bucketCountOf t.log then .ok t
    else if lim < l then .error .nomem
    else insertAll emp (emptyTable K V l) t.toList

/-- `emplace`, with at most `fuel` nested growths: table, position, and whether the key is new. -/
def emplace (o : Ops K) (lim : Nat) : Nat → Table K V → K × V → Except Err (Table K V × Nat × Bool)
  | 0, t, x =>
    match step o t x with
    | .oob => .error .oob
    | .present i => .ok (t, i, false)
    | .inserted t' i => .ok (t', i, true)
    | .full _ => .error .nomem
  | fuel + 1, t, x =>
    match step o t x with
    | .oob => .error .oob
    | .present i => .ok (t, i, false)
    | .inserted t' i => .ok (t', i, true)
    | .full t' =>
      match rehash lim (emplace o lim fuel) t' (max 4 (2 * bucketCountOf t'.log)) with
      | .error e => .error e
      | .ok t'' => emplace o lim fuel t'' x

/-- The loop of `erase` (lines 752–756) on the slots after the freed one: the slots from the freed one on. -/
def shift {α : Type} : List (Cell α) → Option (List (Cell α))
  | [] => none
  | .full (d + 1) x :: r => (shift r).map (.full d x :: ·)
  | c :: r => some (.empty :: c :: r)

/-- `erase` at a position (lines 747–758). -/
def eraseAt (t : Table K V) (i : Nat) : Except Err (Table K V) :=
  match t.cells[i]? with
  | some (.full _ _) =>
    match shift (t.cells.drop (i + 1)) with
    | none => .error .oob
    | some r => .ok { t with cells := t.cells.take i ++ r, num := t.num - 1 }
  | _ => .error .oob

/-- `clear` (lines 799–807). -/
def clear (t : Table K V) : Table K V :=
  { t with cells := t.cells.map (fun | .full _ _ => .empty | c => c), num := 0 }

/-- `reserve` (lines 736–741). -/
def reserve (o : Ops K) (lim fuel : Nat) (t : Table K V) (n : Nat) : Except Err (Table K V) :=
  if bucketCountOf t.log < 2 * n then rehash lim (emplace o lim fuel) t (2 * n) else .ok t

/-- The copy constructor (lines 416–430). -/
def copy (o : Ops K) (lim fuel : Nat) (t : Table K V) : Except Err (Table K V) :=
  match rehash lim (emplace o lim fuel) (emptyTable K V 0) (min (2 * t.num) (bucketCountOf t.log)) with
  | .error e => .error e
  | .ok t' => insertAll (emplace o lim fuel) t' t.toList

/-- Writing `it->second`. -/
def assignAt (t : Table K V) (i : Nat) (v : V) : Except Err (Table K V) :=
  match t.cells[i]? with
  | some (.full d x) => .ok { t with cells := t.cells.set i (.full d (x.1, v)) }
  | _ => .error .oob

/-! ## Dict (`src/runtime/container/dict_ref.cc`) -/

/-- `Dict()` (lines 205–208). -/
def Dict.new (K V : Type) : Table K V := emptyTable K V 0

/-- `set_item`, `operator[]=` (lines 336–344): `emplace` a default, then assign. -/
def Dict.set (o : Ops K) (lim fuel : Nat) [Inhabited V] (t : Table K V) (k : K) (v : V) :
    Except Err (Table K V) :=
  match emplace o lim fuel t (k, default) with
  | .error e => .error e
  | .ok (t', i, _) => assignAt t' i v

/-- `get_item` (lines 257–262), `get_default` (lines 285–292): `none` if the key is missing. -/
def Dict.get (o : Ops K) (t : Table K V) (k : K) : Except Err (Option V) :=
  match find o t k with
  | .error e => .error e
  | .ok none => .ok none
  | .ok (some i) => match valueAt t i with
    | .error e => .error e
    | .ok x => .ok (some x.2)

/-- `pop` (lines 314–335): the value, or `none` if the key is missing, and the table. -/
def Dict.pop (o : Ops K) (t : Table K V) (k : K) : Except Err (Option V × Table K V) :=
  match find o t k with
  | .error e => .error e
  | .ok none => .ok (none, t)
  | .ok (some i) => match valueAt t i with
    | .error e => .error e
    | .ok x => match eraseAt t i with
      | .error e => .error e
      | .ok t' => .ok (some x.2, t')

/-- `contains` (lines 392–395). -/
def Dict.contains (o : Ops K) (t : Table K V) (k : K) : Except Err Bool :=
  match find o t k with
  | .error e => .error e
  | .ok r => .ok r.isSome

/-- `Dict::Init` (lines 185–203) and the constructors from a range: `emplace` one after the other. -/
def Dict.build (o : Ops K) (lim fuel : Nat) (xs : List (K × V)) : Except Err (Table K V) :=
  match reserve o lim fuel (Dict.new K V) xs.length with
  | .error e => .error e
  | .ok t => insertAll (emplace o lim fuel) t xs

/-- `operator==` (lines 229–251) on different objects. -/
def Dict.equal (o : Ops K) (veq : V → V → Bool) (a b : Table K V) : Except Err Bool :=
  if a.num ≠ b.num then .ok false
  else go a.toList
where
  go : List (K × V) → Except Err Bool
    | [] => .ok true
    | x :: r => match Dict.get o b x.1 with
      | .error e => .error e
      | .ok none => .ok false
      | .ok (some w) => if veq x.2 w then go r else .ok false

/-! ## Set (`src/runtime/container/set_ref.cc`): the same table with values of no content -/

/-- `emplace`/`add` (lines 162–165). -/
def Set.add (o : Ops K) (lim fuel : Nat) (t : Table K Unit) (k : K) : Except Err (Table K Unit) :=
  match emplace o lim fuel t (k, ()) with
  | .error e => .error e
  | .ok (t', _, _) => .ok t'

/-- `discard` (lines 213–221). -/
def Set.discard (o : Ops K) (t : Table K Unit) (k : K) : Except Err (Table K Unit) :=
  match find o t k with
  | .error e => .error e
  | .ok none => .ok t
  | .ok (some i) => eraseAt t i

/-- Applying a method to the values of an iterable, one after the other (lines 223–239). -/
def Set.each (f : Table K Unit → K → Except Err (Table K Unit)) :
    Table K Unit → List K → Except Err (Table K Unit)
  | t, [] => .ok t
  | t, k :: r => match f t k with
    | .error e => .error e
    | .ok t' => Set.each f t' r

/-- `update` (lines 257–265) with another object. -/
def Set.update (o : Ops K) (lim fuel : Nat) (t : Table K Unit) (ks : List K) : Except Err (Table K Unit) :=
  Set.each (Set.add o lim fuel) t ks

/-- `difference_update` (lines 241–249) with another object. -/
def Set.differenceUpdate (o : Ops K) (t : Table K Unit) (ks : List K) : Except Err (Table K Unit) :=
  Set.each (Set.discard o) t ks

/-- `set_union` (lines 267–271). -/
def Set.union (o : Ops K) (lim fuel : Nat) (t : Table K Unit) (ks : List K) : Except Err (Table K Unit) :=
  match copy o lim fuel t with
  | .error e => .error e
  | .ok t' => Set.update o lim fuel t' ks

/-- `difference` (lines 251–255). -/
def Set.difference (o : Ops K) (lim fuel : Nat) (t : Table K Unit) (ks : List K) :
    Except Err (Table K Unit) :=
  match copy o lim fuel t with
  | .error e => .error e
  | .ok t' => Set.differenceUpdate o t' ks

/-- The constructors (lines 79–95, 109–116): `reserve`, then `emplace` one after the other. -/
def Set.build (o : Ops K) (lim fuel : Nat) (ks : List K) : Except Err (Table K Unit) :=
  match reserve o lim fuel (emptyTable K Unit 0) ks.length with
  | .error e => .error e
  | .ok t => Set.update o lim fuel t ks

/-- `operator==` (lines 136–157) on different objects. -/
def Set.equal (o : Ops K) (a b : Table K Unit) : Except Err Bool :=
  if a.num ≠ b.num then .ok false
  else go a.toList
where
  go : List (K × Unit) → Except Err Bool
    | [] => .ok true
    | x :: r => match find o b x.1 with
      | .error e => .error e
      | .ok none => .ok false
      | .ok (some _) => go r

/-- `operator++` of an iterator (lines 533–541 of the table): the next slot that is not empty. -/
def advance {α : Type} : List (Cell α) → Nat → Option Nat
  | [], _ => none
  | .empty :: r, n => advance r (n + 1)
  | _ :: _, n => some n

/-- A method applied to the values of the set itself: the iterator is a position in the array, advanced before
the call (`SetIteratorNode::Next`, lines 42–44). -/
def Set.eachSelf (f : Table K Unit → K → Except Err (Table K Unit)) :
    Nat → Table K Unit → Nat → Nat → Except Err (Table K Unit)
  | 0, _, _, _ => .error .nomem
  | fuel + 1, t, pos, last =>
    if pos = last then .ok t
    else match t.cells[pos]? with
      | some (.full _ x) =>
        match advance (t.cells.drop (pos + 1)) (pos + 1) with
        | none => .error .oob
        | some pos' => match f t x.1 with
          | .error e => .error e
          | .ok t' => Set.eachSelf f fuel t' pos' last
      | _ => .error .oob

/-- `s.difference_update(s)`. -/
def Set.differenceUpdateSelf (o : Ops K) (fuel : Nat) (t : Table K Unit) : Except Err (Table K Unit) :=
  match advance t.cells 0 with
  | none => .error .oob
  | some pos => Set.eachSelf (Set.discard o) fuel t pos (t.cells.length - 1)

/-- `s.update(s)`. -/
def Set.updateSelf (o : Ops K) (lim fuel : Nat) (t : Table K Unit) : Except Err (Table K Unit) :=
  match advance t.cells 0 with
  | none => .error .oob
  | some pos => Set.eachSelf (Set.add o lim fuel) (t.cells.length + 1) t pos (t.cells.length - 1)

end Verif.HashMap
