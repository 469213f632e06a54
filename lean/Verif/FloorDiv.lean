import Mathlib.Tactic.Linarith
import Mathlib.Tactic.Ring
import Mathlib.Tactic.Push

/-!
# Integer floor division and modulo (`//`, `%`)

Models `src/runtime/builtins_modules/_longobject.cc`.  `int64_t` and `uint64_t` are
`BitVec 64`; signed comparisons go through `toInt`, unsigned division/remainder are
`BitVec.udiv`/`BitVec.umod` (C++ `/`, `%` on `uint64_t`).  The C++ `THROW_PY_ZeroDivisionError`
is the result `none`.
-/

namespace Verif.FloorDiv

abbrev I64 := BitVec 64

/-- `_longobject.cc:46`: `a < 0 ? uint64_t(0) - uint64_t(a) : a`. -/
def absU (a : I64) : I64 := if a.toInt < 0 then 0#64 - a else a

/-- `_longobject.cc:34-58` `fast_mod_i64_i64`.  `mod` is an `int64_t`: the unsigned value is
converted bit for bit; `-mod` is two's complement negation. -/
def fastModI64I64 (a b : I64) : Option I64 :=
  if b = 0#64 then none
  else if a = 0#64 then some 0#64
  else
    let aAbs := absU a
    let bAbs := absU b
    let mod := if (a ^^^ b).toInt ≥ 0 then aAbs % bAbs
               else bAbs - 1#64 - (aAbs - 1#64) % bAbs
    some (if b.toInt > 0 then mod else -mod)

/-- `_longobject.cc:123-148` `fast_floor_div_i64_i64`. -/
def fastFloorDivI64I64 (a b : I64) : Option I64 :=
  if b = 0#64 then none
  else if a = 0#64 then some 0#64
  else
    let aAbs := absU a
    let bAbs := absU b
    some (if (a ^^^ b).toInt ≥ 0 then aAbs / bAbs
          else (-1#64) - (aAbs - 1#64) / bAbs)

/-- `_longobject.cc:60-84` `fast_mod_u64_i64`; `a` is read as unsigned. -/
def fastModU64I64 (a b : I64) : Option I64 :=
  if b = 0#64 then none
  else if a = 0#64 then some 0#64
  else
    let bAbs := absU b
    let mod := if b.toInt ≥ 0 then a % bAbs else bAbs - 1#64 - (a - 1#64) % bAbs
    some (if b.toInt > 0 then mod else -mod)

/-- `_longobject.cc:86-109` `fast_mod_i64_u64`; `b` is read as unsigned. -/
def fastModI64U64 (a b : I64) : Option I64 :=
  if b = 0#64 then none
  else if a = 0#64 then some 0#64
  else
    let aAbs := absU a
    some (if a.toInt ≥ 0 then aAbs % b else b - 1#64 - (aAbs - 1#64) % b)

/-- `_longobject.cc:111-120` `fast_mod_u64_u64`; both read as unsigned. -/
def fastModU64U64 (a b : I64) : Option I64 :=
  if b = 0#64 then none
  else if a = 0#64 then some 0#64
  else some (a % b)

/-! ## Specification: Python's law, stated on mathematical integers -/

/-- `(q, r)` is the floor quotient and remainder of `A` by `B`. -/
structure IsFloorDivMod (A B q r : Int) : Prop where
  law : A = q * B + r
  sign : (0 ≤ r ∧ r < B) ∨ (B < r ∧ r ≤ 0)

/-- The specification determines the pair. -/
theorem IsFloorDivMod.unique {A B q r q' r' : Int} (h : IsFloorDivMod A B q r)
    (h' : IsFloorDivMod A B q' r') : q = q' ∧ r = r' := by
  obtain ⟨h1, h2⟩ := h
  obtain ⟨h3, h4⟩ := h'
  have hB : (q - q') * B = r' - r := by rw [Int.sub_mul]; omega
  have hq : q - q' = 0 := by
    rcases Int.lt_trichotomy (q - q') 0 with hlt | heq | hgt
    · exfalso
      rcases h2 with h2 | h2 <;> rcases h4 with h4 | h4 <;> first | omega | nlinarith
    · exact heq
    · exfalso
      rcases h2 with h2 | h2 <;> rcases h4 with h4 | h4 <;> first | omega | nlinarith
  constructor
  · omega
  · rw [hq] at hB; omega

/-- Lean's `Int.fdiv`/`Int.fmod` satisfy the specification, so the specification is inhabited
and equals the usual floor division. -/
theorem isFloorDivMod_fdiv (A B : Int) (hB : B ≠ 0) :
    IsFloorDivMod A B (A.fdiv B) (A.fmod B) := by
  constructor
  · have := Int.mul_fdiv_add_fmod A B
    rw [Int.mul_comm] at this; omega
  · rcases Int.lt_or_lt_of_ne hB with h | h
    · right
      have h3 := Int.fmod_nonneg_of_pos (-A) (b := -B) (by omega)
      have h4 := Int.fmod_lt_of_pos (-A) (b := -B) (by omega)
      have h5 : (-A).fmod (-B) = -(A.fmod B) := by
        have := Int.neg_fmod_neg A B
        exact this
      omega
    · left
      exact ⟨Int.fmod_nonneg_of_pos A h, Int.fmod_lt_of_pos A h⟩

/-! ## Helper lemmas -/

theorem toInt_cases (x : I64) :
    (x.toNat < 2 ^ 63 ∧ x.toInt = x.toNat) ∨
    (2 ^ 63 ≤ x.toNat ∧ x.toNat < 2 ^ 64 ∧ x.toInt = x.toNat - 2 ^ 64) := by
  have h := x.isLt
  have := BitVec.toInt_eq_toNat_cond x
  split at this <;> omega

theorem absU_toNat (a : I64) : (absU a).toNat = a.toInt.natAbs := by
  unfold absU
  rcases toInt_cases a with h | h
  · rw [if_neg (by omega)]; omega
  · rw [if_pos (by omega), BitVec.toNat_sub]
    simp
    omega

theorem xor_sign (a b : I64) :
    (a ^^^ b).toInt ≥ 0 ↔ ((a.toInt < 0 ↔ b.toInt < 0)) := by
  have h1 : ∀ x : I64, x.toInt < 0 ↔ x.msb = true := fun x => by
    rw [BitVec.msb_eq_toInt]; simp
  have h2 := h1 (a ^^^ b)
  rw [BitVec.msb_xor] at h2
  rw [h1 a, h1 b]
  cases ha : a.msb <;> cases hb : b.msb <;> simp_all

theorem ne_zero_toInt {a : I64} (h : a ≠ 0#64) : a.toInt ≠ 0 := by
  intro h'
  apply h
  exact BitVec.eq_of_toInt_eq (by simpa using h')

theorem toInt_of_small {x : I64} (h : x.toNat < 2 ^ 63) : x.toInt = x.toNat := by
  rcases toInt_cases x with h' | h' <;> omega

theorem neg_toInt_of_small {x : I64} (h : x.toNat < 2 ^ 63) : (-x).toInt = -(x.toNat : Int) := by
  have hx := BitVec.toNat_neg x
  rcases toInt_cases (-x) with h' | h' <;> omega

/-- floor quotient/remainder by a positive divisor, from the absolute values -/
theorem floor_of_abs (n d : Nat) (hd : 0 < d) (hn : 0 < n) :
    (n : Int) = (n / d : Nat) * (d : Int) + (n % d : Nat) ∧
    -(n : Int) = (-1 - ((n - 1) / d : Nat)) * (d : Int) + ((d - 1 - (n - 1) % d : Nat)) ∧
    n % d < d ∧ (n - 1) % d < d := by
  have h1 := Nat.div_add_mod n d
  have h2 := Nat.div_add_mod (n - 1) d
  have h3 := Nat.mod_lt n hd
  have h4 := Nat.mod_lt (n - 1) hd
  refine ⟨?_, ?_, h3, h4⟩
  · have : ((d * (n / d) + n % d : Nat) : Int) = n := by rw [h1]
    push_cast at this ⊢
    linarith [mul_comm (d : Int) ((n : Int) / d)]
  · have e : ((d * ((n - 1) / d) + (n - 1) % d : Nat) : Int) = ((n - 1 : Nat) : Int) := by rw [h2]
    have e2 : ((d - 1 - (n - 1) % d : Nat) : Int) = d - 1 - ((n - 1) % d : Nat) := by omega
    have e3 : ((n - 1 : Nat) : Int) = n - 1 := by omega
    rw [e2]
    rw [e3] at e
    rw [Nat.cast_add, Nat.cast_mul] at e
    generalize ((n - 1) / d : Nat) = q at *
    generalize ((n - 1) % d : Nat) = r at *
    linarith [mul_comm (d : Int) (q : Int), sub_mul (-1 : Int) (q : Int) (d : Int)]

end Verif.FloorDiv
