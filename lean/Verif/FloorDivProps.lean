import Verif.FloorDiv

/-! # Property C01: Python's floor division law for 64-bit integers -/

namespace Verif.FloorDiv

/-- Both operations are defined exactly for non-zero divisors (ZeroDivisionError otherwise). -/
theorem floordiv_mod_zero (a b : I64) :
    (fastFloorDivI64I64 a b = none ↔ b.toInt = 0) ∧ (fastModI64I64 a b = none ↔ b.toInt = 0) := by
  have hb : b = 0#64 ↔ b.toInt = 0 := by
    constructor
    · rintro rfl; rfl
    · intro h; exact BitVec.eq_of_toInt_eq (by simpa using h)
  constructor
  · unfold fastFloorDivI64I64
    split
    · simp_all
    · split <;> simp_all
  · unfold fastModI64I64
    split
    · simp_all
    · split <;> simp_all

/-- **C01 (modulo).** For every pair with non-zero divisor the result of `%` is the floor
remainder. -/
theorem floormod_correct (a b : I64) (hb : b.toInt ≠ 0) :
    ∃ r, fastModI64I64 a b = some r ∧ ∃ q, IsFloorDivMod a.toInt b.toInt q r.toInt := by
  have hb0 : b ≠ 0#64 := by rintro rfl; exact hb rfl
  unfold fastModI64I64
  rw [if_neg hb0]
  by_cases ha0 : a = 0#64
  · subst ha0
    refine ⟨0#64, by simp, 0, by simp, ?_⟩
    simp; omega
  rw [if_neg ha0]
  have ha := ne_zero_toInt ha0
  refine ⟨_, rfl, ?_⟩
  obtain ⟨n, hn⟩ : ∃ n, a.toInt.natAbs = n := ⟨_, rfl⟩
  obtain ⟨d, hd⟩ : ∃ d, b.toInt.natAbs = d := ⟨_, rfl⟩
  have hA := absU_toNat a
  have hB := absU_toNat b
  have hd63 : d ≤ 2 ^ 63 := by rcases toInt_cases b with h | h <;> omega
  have hn63 : n ≤ 2 ^ 63 := by rcases toInt_cases a with h | h <;> omega
  obtain ⟨l1, l2, l3, l4⟩ := floor_of_abs n d (by omega) (by omega)
  have hx := xor_sign a b
  by_cases hs : (a.toInt < 0 ↔ b.toInt < 0)
  · rw [if_pos (hx.mpr hs)]
    have hmn : (absU a % absU b).toNat = n % d := by
      rw [BitVec.toNat_umod, hA, hB, hn, hd]
    split
    · rename_i hpos
      refine ⟨(n / d : Nat), ?_, ?_⟩
      · rw [toInt_of_small (x := absU a % absU b) (by omega), hmn]
        rw [show a.toInt = (n : Int) by omega, show b.toInt = (d : Int) by omega]
        exact l1
      · rw [toInt_of_small (x := absU a % absU b) (by omega), hmn]; left; omega
    · rename_i hneg
      refine ⟨(n / d : Nat), ?_, ?_⟩
      · rw [neg_toInt_of_small (x := absU a % absU b) (by omega), hmn]
        rw [show a.toInt = -(n : Int) by omega, show b.toInt = -(d : Int) by omega]
        linarith
      · rw [neg_toInt_of_small (x := absU a % absU b) (by omega), hmn]; right; omega
  · rw [if_neg (fun h => hs (hx.mp h))]
    have hmn : (absU b - 1#64 - (absU a - 1#64) % absU b).toNat = d - 1 - (n - 1) % d := by
      have e1 : (absU a - 1#64).toNat = n - 1 := by
        rw [BitVec.toNat_sub, hA]; simp; omega
      have e2 : (absU b - 1#64).toNat = d - 1 := by
        rw [BitVec.toNat_sub, hB]; simp; omega
      rw [BitVec.toNat_sub, BitVec.toNat_umod, e1, e2, hB, hd]
      omega
    split
    · rename_i hpos
      refine ⟨-1 - ((n - 1) / d : Nat), ?_, ?_⟩
      · rw [toInt_of_small (x := absU b - 1#64 - (absU a - 1#64) % absU b) (by omega), hmn]
        rw [show a.toInt = -(n : Int) by omega, show b.toInt = (d : Int) by omega]
        exact l2
      · rw [toInt_of_small (x := absU b - 1#64 - (absU a - 1#64) % absU b) (by omega), hmn]; left; omega
    · rename_i hneg
      refine ⟨-1 - ((n - 1) / d : Nat), ?_, ?_⟩
      · rw [neg_toInt_of_small (x := absU b - 1#64 - (absU a - 1#64) % absU b) (by omega), hmn]
        rw [show a.toInt = (n : Int) by omega, show b.toInt = -(d : Int) by omega]
        linarith
      · rw [neg_toInt_of_small (x := absU b - 1#64 - (absU a - 1#64) % absU b) (by omega), hmn]; right; omega

/-- **C01 (division).** For every pair with non-zero divisor, except the pair whose quotient
does not fit in 64 bits, the result of `//` is the floor quotient. -/
theorem floordiv_correct (a b : I64) (hb : b.toInt ≠ 0)
    (hov : ¬ (a.toInt = -2 ^ 63 ∧ b.toInt = -1)) :
    ∃ q, fastFloorDivI64I64 a b = some q ∧ ∃ r, IsFloorDivMod a.toInt b.toInt q.toInt r := by
  have hb0 : b ≠ 0#64 := by rintro rfl; exact hb rfl
  unfold fastFloorDivI64I64
  rw [if_neg hb0]
  by_cases ha0 : a = 0#64
  · subst ha0
    refine ⟨0#64, by simp, 0, by simp, ?_⟩
    simp; omega
  rw [if_neg ha0]
  have ha := ne_zero_toInt ha0
  refine ⟨_, rfl, ?_⟩
  obtain ⟨n, hn⟩ : ∃ n, a.toInt.natAbs = n := ⟨_, rfl⟩
  obtain ⟨d, hd⟩ : ∃ d, b.toInt.natAbs = d := ⟨_, rfl⟩
  have hA := absU_toNat a
  have hB := absU_toNat b
  have hd63 : d ≤ 2 ^ 63 := by rcases toInt_cases b with h | h <;> omega
  have hn63 : n ≤ 2 ^ 63 := by rcases toInt_cases a with h | h <;> omega
  obtain ⟨l1, l2, l3, l4⟩ := floor_of_abs n d (by omega) (by omega)
  have hx := xor_sign a b
  split
  · rename_i hs
    have hs := hx.mp hs
    have hmn : (absU a / absU b).toNat = n / d := by
      rw [BitVec.toNat_udiv, hA, hB, hn, hd]
    have hlt : n / d < 2 ^ 63 := by
      rcases Nat.lt_or_ge d 2 with h | h
      · have : d = 1 := by omega
        subst this
        rw [Nat.div_one]
        rcases toInt_cases a with h' | h' <;> omega
      · have := Nat.div_le_div_left (a := n) h (by omega)
        omega
    rw [toInt_of_small (x := absU a / absU b) (by omega), hmn]
    by_cases hbp : b.toInt < 0
    · refine ⟨-(n % d : Nat), ?_, by right; omega⟩
      rw [show a.toInt = -(n : Int) by omega, show b.toInt = -(d : Int) by omega]
      linarith
    · refine ⟨(n % d : Nat), ?_, by left; omega⟩
      rw [show a.toInt = (n : Int) by omega, show b.toInt = (d : Int) by omega]
      exact l1
  · rename_i hs
    have hs : ¬ (a.toInt < 0 ↔ b.toInt < 0) := fun h => hs (hx.mpr h)
    have hle : (n - 1) / d ≤ n - 1 := Nat.div_le_self _ _
    have hq : (-1#64 - (absU a - 1#64) / absU b).toInt = -1 - (((n - 1) / d : Nat) : Int) := by
      have e1 : (absU a - 1#64).toNat = n - 1 := by
        rw [BitVec.toNat_sub, hA]; simp; omega
      have e2 : (-1#64 : I64).toNat = 2 ^ 64 - 1 := rfl
      generalize (-1#64 : I64) = m at *
      have hmn : (m - (absU a - 1#64) / absU b).toNat = 2 ^ 64 - 1 - (n - 1) / d := by
        rw [BitVec.toNat_sub, BitVec.toNat_udiv, e1, hB, hd, e2]
        clear l2
        generalize (n - 1) / d = q at *
        omega
      rcases toInt_cases (m - (absU a - 1#64) / absU b) with h | h <;> omega
    rw [hq]
    by_cases hbp : b.toInt < 0
    · refine ⟨-(d - 1 - (n - 1) % d : Nat), ?_, by right; omega⟩
      rw [show a.toInt = (n : Int) by omega, show b.toInt = -(d : Int) by omega]
      linarith
    · refine ⟨(d - 1 - (n - 1) % d : Nat), ?_, by left; omega⟩
      rw [show a.toInt = -(n : Int) by omega, show b.toInt = (d : Int) by omega]
      exact l2

/-- Corollary in terms of the standard library's floor division. -/
theorem floordiv_floormod_eq_fdiv_fmod (a b : I64) (hb : b.toInt ≠ 0)
    (hov : ¬ (a.toInt = -2 ^ 63 ∧ b.toInt = -1)) :
    (fastFloorDivI64I64 a b).map BitVec.toInt = some (a.toInt.fdiv b.toInt) ∧
    (fastModI64I64 a b).map BitVec.toInt = some (a.toInt.fmod b.toInt) := by
  obtain ⟨q, h1, r', h2⟩ := floordiv_correct a b hb hov
  obtain ⟨r, h3, q', h4⟩ := floormod_correct a b hb
  have hf := isFloorDivMod_fdiv a.toInt b.toInt hb
  rw [h1, h3]
  simp only [Option.map_some, Option.some.injEq]
  exact ⟨(h2.unique hf).1, (h4.unique hf).2⟩

/-- The excluded pair really is wrong (wraps to `INT64_MIN`; the exact quotient is `2^63`). -/
theorem floordiv_overflow_pair :
    (fastFloorDivI64I64 (BitVec.intMin 64) (-1#64)).map BitVec.toInt = some (-9223372036854775808) := by
  decide +kernel

/-- The combined law `a == (a // b) * b + a % b` on the values actually returned. -/
theorem floordiv_mod_law (a b : I64) (hb : b.toInt ≠ 0)
    (hov : ¬ (a.toInt = -2 ^ 63 ∧ b.toInt = -1)) :
    ∃ q r, fastFloorDivI64I64 a b = some q ∧ fastModI64I64 a b = some r ∧
      IsFloorDivMod a.toInt b.toInt q.toInt r.toInt := by
  obtain ⟨q, h1, r', h2⟩ := floordiv_correct a b hb hov
  obtain ⟨r, h3, q', h4⟩ := floormod_correct a b hb
  have := h2.unique h4
  exact ⟨q, r, h1, h3, this.2 ▸ h2⟩

/-- Mixed-signedness modulo: `fast_mod_u64_i64` is right for every unsigned `a` and signed `b`. -/
theorem floormod_u64_i64_correct (a b : I64) (hb : b.toInt ≠ 0) :
    ∃ r, fastModU64I64 a b = some r ∧ ∃ q, IsFloorDivMod a.toNat b.toInt q r.toInt := by
  have hb0 : b ≠ 0#64 := by rintro rfl; exact hb rfl
  unfold fastModU64I64
  rw [if_neg hb0]
  by_cases ha0 : a = 0#64
  · subst ha0
    refine ⟨0#64, by simp, 0, by simp, ?_⟩
    simp; omega
  rw [if_neg ha0]
  have ha : a.toNat ≠ 0 := fun h => ha0 (BitVec.eq_of_toNat_eq (by simpa using h))
  refine ⟨_, rfl, ?_⟩
  obtain ⟨n, hn⟩ : ∃ n, a.toNat = n := ⟨_, rfl⟩
  obtain ⟨d, hd⟩ : ∃ d, b.toInt.natAbs = d := ⟨_, rfl⟩
  have hB := absU_toNat b
  have hd63 : d ≤ 2 ^ 63 := by rcases toInt_cases b with h | h <;> omega
  have hn64 := a.isLt
  obtain ⟨l1, l2, l3, l4⟩ := floor_of_abs n d (by omega) (by omega)
  by_cases hs : b.toInt ≥ 0
  · rw [if_pos hs]
    have hmn : (a % absU b).toNat = n % d := by
      rw [BitVec.toNat_umod, hB, hn, hd]
    rw [if_pos (by omega)]
    refine ⟨(n / d : Nat), ?_, ?_⟩
    · rw [toInt_of_small (x := a % absU b) (by omega), hmn, hn]
      rw [show b.toInt = (d : Int) by omega]
      exact l1
    · rw [toInt_of_small (x := a % absU b) (by omega), hmn]; left; omega
  · rw [if_neg hs]
    have hmn : (absU b - 1#64 - (a - 1#64) % absU b).toNat = d - 1 - (n - 1) % d := by
      have e1 : (a - 1#64).toNat = n - 1 := by
        rw [BitVec.toNat_sub]; simp; omega
      have e2 : (absU b - 1#64).toNat = d - 1 := by
        rw [BitVec.toNat_sub, hB]; simp; omega
      rw [BitVec.toNat_sub, BitVec.toNat_umod, e1, e2, hB, hd]
      omega
    rw [if_neg (by omega)]
    refine ⟨-1 - ((n - 1) / d : Nat), ?_, ?_⟩
    · rw [neg_toInt_of_small (x := absU b - 1#64 - (a - 1#64) % absU b) (by omega), hmn, hn]
      rw [show b.toInt = -(d : Int) by omega]
      linarith
    · rw [neg_toInt_of_small (x := absU b - 1#64 - (a - 1#64) % absU b) (by omega), hmn]; right; omega

/-- Finding: with an unsigned divisor above `2^63` the result type `int64_t` cannot hold the
remainder; `fast_mod_u64_u64(2^63, 2^64-1)` returns a negative number. -/
theorem floormod_u64_u64_wraps :
    (fastModU64U64 (BitVec.intMin 64) (-1#64)).map BitVec.toInt = some (-9223372036854775808) := by decide +kernel

example : fastModI64I64 (-7#64) 3#64 = some 2#64 ∧ fastFloorDivI64I64 (-7#64) 3#64 = some (-3#64) := by
  decide +kernel
example : (-7#64 : I64).toInt = -7 ∧ (3#64 : I64).toInt ≠ 0 ∧
    ¬ ((-7#64 : I64).toInt = -2 ^ 63 ∧ (3#64 : I64).toInt = -1) := by
  refine ⟨by decide +kernel, by decide +kernel, fun h => absurd h.2 (by decide +kernel)⟩

end Verif.FloorDiv
