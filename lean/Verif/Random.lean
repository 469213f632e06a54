/-
Random integers: `src/runtime/builtins_modules/_randommodule.cc`.

The generator (genrand_int32 141-172, init_genrand 200-215, init_by_array 220-252), seeding
(random_seed 297-340), state (getstate 369-379, setstate 391-427), `random` (192-197) as a fraction,
getrandbits (440-463), bits_in_digit (465-476), `_randbelow` (501-503, 776-783), randrange (543-590)
and randint (592-594).

Simplifications: an `int64_t` result that overflows is taken modulo 2^64 (undefined in C++); the
mutex and seeding from the system's entropy are not modelled; the distributions over doubles
(`uniform`, `gauss`, …) are not modelled, except that `gauss_next` is part of the state.
-/

namespace Verif.Random

abbrev W := BitVec 32

def N : Nat := 624
def M : Nat := 397
def matrixA : W := 0x9908b0df#32
def upperMask : W := 0x80000000#32
def lowerMask : W := 0x7fffffff#32

/-- `mag01[y & 0x1U]` (143, 154). -/
def mag01 (y : W) : W := if y &&& 1#32 = 0#32 then 0#32 else matrixA

/-- One assignment of the refill loops (152-161). `none` is an access outside the array. -/
def twistAt (mt : List W) (kk next far : Nat) : Option (List W) := do
  let a ← mt[kk]?
  let b ← mt[next]?
  let c ← mt[far]?
  let y := (a &&& upperMask) ||| (b &&& lowerMask)
  some (mt.set kk (c ^^^ (y >>> 1) ^^^ mag01 y))

/-- The refill (149-164): three loops over the array. -/
def twist (mt : List W) : Option (List W) := do
  let mt ← (List.range' 0 (N - M)).foldlM (fun mt kk => twistAt mt kk (kk + 1) (kk + M)) mt
  let mt ← (List.range' (N - M) (M - 1)).foldlM
    (fun mt kk => twistAt mt kk (kk + 1) (kk + M - N)) mt
  twistAt mt (N - 1) 0 (M - 1)

/-- The tempering (167-170). -/
def temper (y : W) : W :=
  let y := y ^^^ (y >>> 11)
  let y := y ^^^ ((y <<< 7) &&& 0x9d2c5680#32)
  let y := y ^^^ ((y <<< 15) &&& 0xefc60000#32)
  y ^^^ (y >>> 18)

/-- `RandomObject` (124-128). -/
structure Gen where
  index : Nat
  mt : List W
deriving DecidableEq, Repr

/-- `genrand_int32` (141-172). -/
def genrand (g : Gen) : Option (W × Gen) := do
  let g ← if N ≤ g.index then do
      let mt ← twist g.mt
      some { index := 0, mt := mt }
    else some g
  let y ← g.mt[g.index]?
  some (temper y, { g with index := g.index + 1 })

/-- `init_genrand` (200-215). -/
def initGenrand (mt : List W) (s : W) : Option (List W) :=
  (List.range' 1 (N - 1)).foldlM (fun (mt : List W) i => do
    let p ← mt[i - 1]?
    if i < mt.length then
      some (mt.set i (1812433253#32 * (p ^^^ (p >>> 30)) + BitVec.ofNat 32 i))
    else none) (mt.set 0 s)

/-- Advance of the index with the copy of the last word (232-237, 244-248). -/
def nextIndex (mt : List W) (i : Nat) : Option (List W × Nat) :=
  if N ≤ i + 1 then do
    let l ← mt[N - 1]?
    some (mt.set 0 l, 1)
  else some (mt, i + 1)

/-- The first loop of `init_by_array` (229-240). -/
def mixKey (key : List W) : Nat → List W → Nat → Nat → Option (List W × Nat)
  | 0, mt, i, _ => some (mt, i)
  | k + 1, mt, i, j => do
    let c ← mt[i]?
    let p ← mt[i - 1]?
    let q ← key[j]?
    let mt := mt.set i ((c ^^^ ((p ^^^ (p >>> 30)) * 1664525#32)) + q + BitVec.ofNat 32 j)
    let (mt, i) ← nextIndex mt i
    mixKey key k mt i (if key.length ≤ j + 1 then 0 else j + 1)

/-- The second loop of `init_by_array` (241-249). -/
def mixIndex : Nat → List W → Nat → Option (List W)
  | 0, mt, _ => some mt
  | k + 1, mt, i => do
    let c ← mt[i]?
    let p ← mt[i - 1]?
    let mt := mt.set i ((c ^^^ ((p ^^^ (p >>> 30)) * 1566083941#32)) - BitVec.ofNat 32 i)
    let (mt, i) ← nextIndex mt i
    mixIndex k mt i

/-- `init_by_array` (220-252). -/
def initByArray (mt key : List W) : Option Gen := do
  let mt ← initGenrand mt 19650218#32
  let (mt, i) ← mixKey key (if key.length < N then N else key.length) mt 1 0
  let mt ← mixIndex (N - 1) mt i
  some { index := N, mt := mt.set 0 0x80000000#32 }

/-- The key that `random_seed` (297-340) derives from an integer, on a little-endian machine. -/
def seedKey (n : Int) : List W :=
  let low := n.natAbs % 2 ^ 32
  let high := n.natAbs / 2 ^ 32
  if 0 < high then [BitVec.ofNat 32 high, BitVec.ofNat 32 low] else [BitVec.ofNat 32 low]

/-- `random_seed` with an `int64_t`. -/
def seedInt (g : Gen) (n : Int) : Option Gen := initByArray g.mt (seedKey n)

/-- `random()` (192-197): the numerator over 2^53, which a double represents exactly. -/
def random (g : Gen) : Option (Nat × Gen) := do
  let (a, g) ← genrand g
  let (b, g) ← genrand g
  some ((a >>> 5).toNat * 67108864 + (b >>> 6).toNat, g)

/-- Conversions to `int` and `int64_t`. -/
def toI32 (n : Int) : Int := n.bmod (2 ^ 32)
def toI64 (n : Int) : Int := n.bmod (2 ^ 64)

inductive Err where
  /-- an access outside the array -/
  | oob
  | valueError
  /-- the rejection loop was given too few numbers -/
  | fuel
deriving DecidableEq, Repr

def word (g : Gen) : Except Err (W × Gen) :=
  match genrand g with
  | some r => .ok r
  | none => .error .oob

/-- `getrandbits` (440-463, 539-541): the argument becomes an `int`, the result an `int64_t`. -/
def getrandbits (g : Gen) (k : Int) : Except Err (Int × Gen) :=
  let k := toI32 k
  if k ≤ 0 then .error .valueError
  else if k ≤ 32 then do
    let (w, g) ← word g
    .ok (toI64 (w.toNat >>> (32 - k.toNat)), g)
  else if 64 < k then .error .valueError
  else do
    let (low, g) ← word g
    let (high, g) ← word g
    .ok (toI64 (((high.toNat >>> (64 - k.toNat)) <<< 32) + low.toNat), g)

/-- `BitLengthTable` (465-466). -/
def bitLengthTable : List Nat :=
  [0, 1, 2, 2, 3, 3, 3, 3, 4, 4, 4, 4, 4, 4, 4, 4,
   5, 5, 5, 5, 5, 5, 5, 5, 5, 5, 5, 5, 5, 5, 5, 5]

/-- `bits_in_digit` (468-476). -/
def bitsInDigit (d : Nat) : Nat :=
  if h : 32 ≤ d then 6 + bitsInDigit (d >>> 6) else bitLengthTable.getD d 0
termination_by d
decreasing_by rw [Nat.shiftRight_eq_div_pow]; exact Nat.div_lt_self (by omega) (by decide)

/-- The loop of `_randbelow_with_getrandbits` (776-783). -/
def belowLoop (n k : Int) : Nat → Gen → Except Err (Int × Gen)
  | 0, _ => .error .fuel
  | f + 1, g => do
    let (r, g) ← getrandbits g k
    if r ≥ n then belowLoop n k f g else .ok (r, g)

/-- `_randbelow` for `0 < n < 2^63`; `f` bounds the attempts. -/
def randbelow (f : Nat) (g : Gen) (n : Int) : Except Err (Int × Gen) :=
  belowLoop n (bitsInDigit n.toNat) f g

/-- `randrange` (543-590) with integers. -/
def randrange (f : Nat) (g : Gen) (start : Int) (stop : Option Int) (step : Int) :
    Except Err (Int × Gen) :=
  match stop with
  | none => if 0 < start then randbelow f g start else .error .valueError
  | some stop =>
    let width := toI64 (stop - start)
    if step = 1 ∧ 0 < width then do
      let (r, g) ← randbelow f g width
      .ok (toI64 (start + r), g)
    else if step = 1 then .error .valueError
    else if step = 0 then .error .valueError
    else
      let n := if 0 < step then (toI64 (toI64 (width + step) - 1)).tdiv step
        else (toI64 (toI64 (width + step) + 1)).tdiv step
      if n ≤ 0 then .error .valueError
      else do
        let (r, g) ← randbelow f g n
        .ok (toI64 (start + toI64 (step * r)), g)

/-- `randint` (592-594). -/
def randint (f : Nat) (g : Gen) (a b : Int) : Except Err (Int × Gen) :=
  randrange f g a (some (toI64 (b + 1))) 1

/-! ## State -/

/-- `Random`: the generator and `gauss_next` (`None`, or a float of type `F`). -/
structure Rng (F : Type) where
  gen : Gen
  gauss : Option F
deriving DecidableEq, Repr

/-- What `getstate` returns (369-379, 526-529): version, words and index, `gauss_next`. -/
structure State (F : Type) where
  version : Int
  internal : List Int
  gauss : Option F
deriving DecidableEq, Repr

def getstate {F : Type} (r : Rng F) : State F :=
  ⟨3, r.gen.mt.map (fun w => (w.toNat : Int)) ++ [(r.gen.index : Int)], r.gauss⟩

/-- `setstate` (391-427, 531-537): the object afterwards, and whether it raised. -/
def setstate {F : Type} (r : Rng F) (s : State F) : Rng F × Bool :=
  if s.version ≠ 3 then (r, true)
  else
    let r := { r with gauss := s.gauss }
    if s.internal.length ≠ N + 1 then (r, true)
    else if (s.internal.take N).any (· = -1) then (r, false)
    else
      let index := s.internal.getD N 0
      if index = -1 then (r, false)
      else if index < 0 ∨ (N : Int) < index then (r, true)
      else ({ r with gen := { index := index.toNat,
                              mt := (s.internal.take N).map (BitVec.ofInt 32) } }, false)

/-- `random.seed(n)` (513-524). -/
def seed {F : Type} (r : Rng F) (n : Int) : Option (Rng F) := do
  let g ← seedInt r.gen n
  some { gen := g, gauss := none }

end Verif.Random
