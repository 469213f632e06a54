import Verif.KernelArith
import Mathlib.Order.Defs.LinearOrder
import Mathlib.Tactic.Ring
import Mathlib.Tactic.Linarith
import Mathlib.Tactic.ByContra
import Mathlib.Algebra.Order.Group.Int

/-!
# Theorems about the scalar operators of kernels
-/

namespace Verif.KernelArith

/-- The number a stored value stands for in NumPy. -/
def npVal : (d : DType) → BitVec d.bits → Int
  | .bool, x => x.toNat
  | .i _, x => x.toInt
  | .u _, x => x.toNat

/-- NumPy's conversion of a number into a type: truth value for booleans,
wrap-around for the others. -/
def npCast : DType → Int → Int
  | .bool, v => if v = 0 then 0 else 1
  | .i n, v => v.bmod (2 ^ n)
  | .u n, v => v % 2 ^ n

/-! ### Conversions -/

theorem toInt_zext {n m : Nat} (x : BitVec n) (h : n < m) : (x.setWidth m).toInt = x.toNat := by
  rw [BitVec.toInt_setWidth]
  have hx := x.isLt
  have hm : (2:Nat) ^ n ≤ 2 ^ (m - 1) := Nat.pow_le_pow_right (by omega) (by omega)
  have h2 : (2:Nat) ^ m = 2 * 2 ^ (m - 1) := by
    rw [← Nat.pow_succ']; congr 1; omega
  rw [Int.bmod_def, h2]
  have : ((x.toNat : Int) % ((2 * 2 ^ (m - 1) : Nat) : Int)) = x.toNat := by
    apply Int.emod_eq_of_lt <;> omega
  rw [this, if_pos (by omega)]

theorem cast_bits (o t : DType) (x : BitVec o.bits) :
    cast o t x = if o.signedCode && t.signedCode && decide (o.bits < t.bits) then x.signExtend t.bits
      else x.setWidth t.bits := by
  unfold cast
  by_cases h : o = t
  · subst h; simp
  · rw [if_neg h]
    unfold compareF
    rcases Nat.lt_trichotomy t.bits o.bits with h1 | h1 | h1
    · rw [if_pos h1]
      have : ¬ o.bits < t.bits := by omega
      simp [opMap, CastOp.run, this]
    · rw [if_neg (by omega), if_pos h1]
      have : ¬ o.bits < t.bits := by omega
      simp [opMap, CastOp.run, this]
    · rw [if_neg (by omega), if_neg (by omega)]
      cases o.signedCode <;> cases t.signedCode <;> simp [opMap, CastOp.run, h1]

theorem cast_i_i (n m : Nat) (x : BitVec n) :
    npVal (.i m) (cast (.i n) (.i m) x) = npCast (.i m) (npVal (.i n) x) := by
  rw [cast_bits]
  simp only [DType.signedCode, DType.bits, Bool.and_self, Bool.true_and, decide_eq_true_eq, npVal, npCast]
  split
  · rename_i h
    rw [BitVec.toInt_signExtend_of_le (by omega)]
    symm
    apply Int.bmod_eq_of_le
    · have := BitVec.le_toInt x
      have h2 : (2:Nat) ^ m = 2 * 2 ^ (m - 1) := by
        rw [← Nat.pow_succ']; congr 1; omega
      have h3 : (2:Nat) ^ (n - 1) ≤ 2 ^ (m - 1) := Nat.pow_le_pow_right (by omega) (by omega)
      have h4 : ((2:Int) ^ (n - 1)) = ((2 ^ (n - 1) : Nat) : Int) := by push_cast; rfl
      omega
    · have := @BitVec.toInt_lt n x
      have h2 : (2:Nat) ^ m = 2 * 2 ^ (m - 1) := by
        rw [← Nat.pow_succ']; congr 1; omega
      have h3 : (2:Nat) ^ (n - 1) ≤ 2 ^ (m - 1) := Nat.pow_le_pow_right (by omega) (by omega)
      have h4 : ((2:Int) ^ (n - 1)) = ((2 ^ (n - 1) : Nat) : Int) := by push_cast; rfl
      omega
  · rename_i h
    rw [BitVec.toInt_setWidth, BitVec.toInt_eq_toNat_bmod]
    have : (2 ^ m : Nat) ∣ 2 ^ n := Nat.pow_dvd_pow 2 (by omega)
    rw [Int.bmod_bmod_of_dvd this]

theorem cast_u_i (n m : Nat) (x : BitVec n) :
    npVal (.i m) (cast (.u n) (.i m) x) = npCast (.i m) (npVal (.u n) x) := by
  rw [cast_bits]
  simp [DType.signedCode, npVal, npCast, BitVec.toInt_setWidth]

theorem cast_u_u (n m : Nat) (x : BitVec n) :
    npVal (.u m) (cast (.u n) (.u m) x) = npCast (.u m) (npVal (.u n) x) := by
  rw [cast_bits]
  simp [DType.signedCode, npVal, npCast]

theorem toInt_mod (n : Nat) (x : BitVec n) : ∃ k : Int, x.toInt = x.toNat - k * 2 ^ n := by
  rw [BitVec.toInt_eq_toNat_cond]
  split
  · exact ⟨0, by simp⟩
  · exact ⟨1, by simp⟩

theorem cast_i_u_narrow (n m : Nat) (h : m ≤ n) (x : BitVec n) :
    npVal (.u m) (cast (.i n) (.u m) x) = npCast (.u m) (npVal (.i n) x) := by
  rw [cast_bits]
  simp only [DType.signedCode, Bool.and_false, Bool.false_and, Bool.false_eq_true, if_false, npVal,
    npCast, BitVec.toNat_setWidth]
  obtain ⟨k, hk⟩ := toInt_mod n x
  obtain ⟨d, rfl⟩ : ∃ d, n = m + d := ⟨n - m, by omega⟩
  rw [hk, pow_add]
  have : (x.toNat : Int) - k * (2 ^ m * 2 ^ d) = x.toNat + 2 ^ m * (-(k * 2 ^ d)) := by ring
  rw [this, Int.add_mul_emod_self_left]
  push_cast
  rfl

theorem cast_bool_u (n : Nat) (hn : 0 < n) (x : BitVec 1) :
    npVal (.u n) (cast .bool (.u n) x) = npCast (.u n) (npVal .bool x) := by
  rw [cast_bits]
  simp [DType.signedCode, npVal, npCast]

/-- The pairs of types whose conversion follows NumPy for all values. -/
def okCast : DType → DType → Prop
  | _, .bool => False
  | .bool, .i n => n = 1
  | .bool, .u n => 0 < n
  | .i n, .u m => m ≤ n
  | .i _, .i _ => True
  | .u _, _ => True

/-- **C50.** Conversions between kernel types agree with NumPy, except those to
a boolean, from a boolean to a signed type, and from a signed to a wider
unsigned type. -/
theorem cast_exact_partial (o t : DType) (h : okCast o t) (x : BitVec o.bits) :
    npVal t (cast o t x) = npCast t (npVal o x) := by
  cases o with
  | bool =>
    cases t with
    | bool => exact h.elim
    | i n =>
      have h : n = 1 := h
      subst h
      rw [cast_bits]
      simp [DType.signedCode, npVal, npCast, BitVec.toInt_eq_toNat_bmod]
    | u n => exact cast_bool_u n h x
  | i n =>
    cases t with
    | bool => exact h.elim
    | i m => exact cast_i_i n m x
    | u m => exact cast_i_u_narrow n m h x
  | u n =>
    cases t with
    | bool => exact h.elim
    | i m => exact cast_u_i n m x
    | u m => exact cast_u_u n m x

/-- **C50, signed to wider unsigned.** The conversion adds zeros, so it agrees
with NumPy exactly for the numbers that are not negative. -/
theorem cast_i_u_wider (n m : Nat) (h : n < m) (x : BitVec n) :
    npVal (.u m) (cast (.i n) (.u m) x) = npCast (.u m) (npVal (.i n) x) ↔ 0 ≤ x.toInt := by
  rw [cast_bits]
  simp only [DType.signedCode, Bool.and_false, Bool.false_and, Bool.false_eq_true, if_false, npVal,
    npCast, BitVec.toNat_setWidth, DType.bits]
  have hx := x.isLt
  have hm : (2:Nat) ^ n < 2 ^ m := Nat.pow_lt_pow_right (by omega) h
  rw [Nat.mod_eq_of_lt (by omega)]
  have e : ((2:Int) ^ m) = ((2 ^ m : Nat) : Int) := by push_cast; rfl
  rw [e]
  have hc := BitVec.toInt_eq_toNat_cond x
  by_cases h0 : 0 ≤ x.toInt
  · have : x.toInt = x.toNat := by
      rw [hc] at h0 ⊢
      split at h0 <;> rename_i h1
      · rw [if_pos h1]
      · omega
    rw [this, Int.emod_eq_of_lt (by omega) (by omega)]
    simp
  · have h1 : x.toInt = x.toNat - (2 ^ n : Nat) := by
      rw [hc] at h0 ⊢
      split at h0 <;> rename_i h1
      · omega
      · rw [if_neg h1]
    rw [h1] at h0 ⊢
    have h2 : ((x.toNat : Int) - (2 ^ n : Nat)) % (2 ^ m : Nat) = x.toNat - (2 ^ n : Nat) + (2 ^ m : Nat) := by
      rw [← Int.add_emod_right]
      exact Int.emod_eq_of_lt (by omega) (by omega)
    rw [h2]
    omega

/-- **C50, booleans to signed types.** The conversion copies the sign bit, so
`True` becomes minus one: it agrees with NumPy exactly for `False`. -/
theorem cast_bool_i (n : Nat) (hn : 1 < n) (x : BitVec 1) :
    npVal (.i n) (cast .bool (.i n) x) = npCast (.i n) (npVal .bool x) ↔ x = 0#1 := by
  have h2 : (4:Nat) ≤ 2 ^ n := by
    have : (2:Nat) ^ 2 ≤ 2 ^ n := Nat.pow_le_pow_right (by omega) hn
    omega
  have h1 : npVal (.i n) (cast .bool (.i n) x) = x.toInt := by
    rw [cast_bits]
    simp only [DType.signedCode, DType.bits, Bool.and_self, Bool.true_and, decide_eq_true_eq, npVal]
    rw [if_pos hn, BitVec.toInt_signExtend_of_le (by omega)]
  have h3 : npCast (.i n) (npVal .bool x) = x.toNat := by
    simp only [npCast, npVal]
    have := x.isLt
    exact Int.bmod_eq_of_le (by omega) (by omega)
  rw [h1, h3]
  have := BitVec.eq_zero_or_eq_one x
  rcases this with rfl | rfl <;> decide

/-- **C50, to booleans.** The conversion keeps the lowest bit, so it agrees
with NumPy exactly for zero and the odd numbers. -/
theorem cast_u_bool (n : Nat) (hn : 0 < n) (x : BitVec n) :
    npVal .bool (cast (.u n) .bool x) = npCast .bool (npVal (.u n) x) ↔
      x.toNat = 0 ∨ x.toNat % 2 = 1 := by
  have h1 : npVal .bool (cast (.u n) .bool x) = ((x.toNat % 2 : Nat) : Int) := by
    rw [cast_bits]
    simp [DType.signedCode, npVal]
  have h2 : npCast .bool (npVal (.u n) x) = if (x.toNat : Int) = 0 then 0 else 1 := rfl
  rw [h1, h2]
  split <;> omega

/-- Witnesses: `int8(-1)` as `uint16`, `True` as `int32`, `uint8(2)` as `bool`. -/
theorem cast_refuted :
    npVal (.u 16) (cast (.i 8) (.u 16) (-1)) = 255 ∧ npCast (.u 16) (npVal (.i 8) (-1)) = 65535 ∧
    npVal (.i 32) (cast .bool (.i 32) 1) = -1 ∧ npCast (.i 32) (npVal .bool 1) = 1 ∧
    npVal .bool (cast (.u 8) .bool 2) = 0 ∧ npCast .bool (npVal (.u 8) 2) = 1 := by
  decide

/-! ### Addition, subtraction, multiplication -/

/-- The operators on numbers. -/
def Arith.spec : Arith → Int → Int → Int
  | .add, a, b => a + b
  | .sub, a, b => a - b
  | .mul, a, b => a * b

theorem bmod_eq_of_emod {a b : Int} {n : Nat} (h : a % n = b % n) : a.bmod n = b.bmod n := by
  rw [Int.bmod_def, Int.bmod_def, h]

/-- NumPy's conversion to `i n` or `u n` depends on the number modulo `2 ^ n`. -/
theorem npCast_congr (t : DType) (ht : t ≠ .bool) (a b : Int)
    (h : a % ((2 ^ t.bits : Nat) : Int) = b % ((2 ^ t.bits : Nat) : Int)) : npCast t a = npCast t b := by
  cases t with
  | bool => exact absurd rfl ht
  | i n => exact bmod_eq_of_emod h
  | u n =>
    simp only [npCast]
    have e : ((2:Int) ^ n) = ((2 ^ n : Nat) : Int) := by push_cast; rfl
    rw [e]; exact h

theorem npCast_emod (t : DType) (ht : t ≠ .bool) (a : Int) :
    npCast t a % ((2 ^ t.bits : Nat) : Int) = a % ((2 ^ t.bits : Nat) : Int) := by
  cases t with
  | bool => exact absurd rfl ht
  | i n => exact Int.bmod_emod
  | u n =>
    simp only [npCast]
    have e : ((2:Int) ^ n) = ((2 ^ n : Nat) : Int) := by push_cast; rfl
    rw [e]; exact Int.emod_emod _ _

theorem arith_emod (op : Arith) (a b c d : Int) (m : Int) (h1 : a % m = c % m) (h2 : b % m = d % m) :
    op.spec a b % m = op.spec c d % m := by
  cases op
  · simp only [Arith.spec]; rw [Int.add_emod, h1, h2, ← Int.add_emod]
  · simp only [Arith.spec]; rw [Int.sub_emod, h1, h2, ← Int.sub_emod]
  · simp only [Arith.spec]; rw [Int.mul_emod, h1, h2, ← Int.mul_emod]

theorem arith_run (op : Arith) (t : DType) (ht : t ≠ .bool) (a b : BitVec t.bits) :
    npVal t (op.run a b) = npCast t (op.spec (npVal t a) (npVal t b)) := by
  cases t with
  | bool => exact absurd rfl ht
  | i n =>
    cases op
    · exact BitVec.toInt_add a b
    · exact BitVec.toInt_sub
    · exact BitVec.toInt_mul a b
  | u n =>
    have e : ((2:Int) ^ n) = ((2 ^ n : Nat) : Int) := by push_cast; rfl
    cases op
    · simp only [npVal, npCast, Arith.run, Arith.spec, BitVec.toNat_add]
      push_cast; rfl
    · simp only [npVal, npCast, Arith.run, Arith.spec, BitVec.toNat_sub]
      have := b.isLt
      rw [e]
      push_cast [Int.ofNat_sub (Nat.le_of_lt this)]
      have h3 : ((2:Int) ^ (DType.u n).bits - b.toNat + a.toNat) = (a.toNat - b.toNat) + 2 ^ (DType.u n).bits := by
        ring
      rw [h3, Int.add_emod_right]
    · simp only [npVal, npCast, Arith.run, Arith.spec, BitVec.toNat_mul]
      push_cast; rfl

/-- **C48, arithmetic.** Addition, subtraction and multiplication give NumPy's
wrapped result in the result type, for all operand types whose conversion to
the result type is in order. -/
theorem arith_exact_partial (op : Arith) (o1 o2 rt : DType) (h1 : okCast o1 rt) (h2 : okCast o2 rt)
    (a : BitVec o1.bits) (b : BitVec o2.bits) :
    npVal rt (genArith op o1 o2 rt a b) = npCast rt (op.spec (npVal o1 a) (npVal o2 b)) := by
  have ht : rt ≠ .bool := by rintro rfl; cases o1 <;> exact h1
  unfold genArith
  rw [arith_run op rt ht, cast_exact_partial _ _ h1, cast_exact_partial _ _ h2]
  exact npCast_congr rt ht _ _ (arith_emod op _ _ _ _ _ (npCast_emod rt ht _) (npCast_emod rt ht _))

/-- `np.result_type` on the integer types.  (For `uint64` with a signed type
NumPy goes to `float64`, which is not modelled.) -/
def npResult : DType → DType → DType
  | .bool, t => t
  | t, .bool => t
  | .i n, .i m => .i (max n m)
  | .u n, .u m => .u (max n m)
  | .u n, .i m => .i (if n < m then m else 2 * n)
  | .i m, .u n => .i (if n < m then m else 2 * n)

theorem okCast_result (o1 o2 : DType) (h1 : o1 ≠ .bool) (h2 : o2 ≠ .bool) :
    okCast o1 (npResult o1 o2) ∧ okCast o2 (npResult o1 o2) := by
  cases o1 <;> cases o2 <;> simp_all [okCast, npResult]

/-- **C48, arithmetic, as users see it.** Operands of any two integer types
other than booleans. -/
theorem arith_numpy_partial (op : Arith) (o1 o2 : DType) (h1 : o1 ≠ .bool) (h2 : o2 ≠ .bool)
    (a : BitVec o1.bits) (b : BitVec o2.bits) :
    npVal (npResult o1 o2) (genArith op o1 o2 (npResult o1 o2) a b) =
      npCast (npResult o1 o2) (op.spec (npVal o1 a) (npVal o2 b)) :=
  arith_exact_partial op o1 o2 _ (okCast_result o1 o2 h1 h2).1 (okCast_result o1 o2 h1 h2).2 a b

/-- **C48 is false for booleans.** `5 + True` is `4`. -/
theorem bool_arith_refuted :
    npVal (.i 32) (genArith .add (.i 32) .bool (npResult (.i 32) .bool) 5 1) = 4 := by
  decide

/-! ### Floor division -/

theorem ofInt_toInt {n : Nat} (hn : 0 < n) (v : Int) (h1 : -2 ^ (n - 1) ≤ v) (h2 : v < 2 ^ (n - 1)) :
    (BitVec.ofInt n v).toInt = v := by
  rw [BitVec.toInt_ofInt]
  have e : ((2:Int) ^ (n - 1)) = ((2 ^ (n - 1) : Nat) : Int) := by push_cast; rfl
  have h3 : (2:Nat) ^ n = 2 * 2 ^ (n - 1) := by
    rw [← Nat.pow_succ']; congr 1; omega
  rw [e] at h1 h2
  apply Int.bmod_eq_of_le
  · rw [h3]; omega
  · rw [h3]; omega

theorem divDefined_iff {n : Nat} (hn : 0 < n) (a b : BitVec n) : divDefined a b = true ↔
    b.toInt ≠ 0 ∧ ¬ (a.toInt = -2 ^ (n - 1) ∧ b.toInt = -1) := by
  unfold divDefined
  have hm : (BitVec.intMin n).toInt = -2 ^ (n - 1) := by
    have := BitVec.toInt_intMin_of_pos hn
    push_cast at this ⊢
    exact this
  have h1 : (BitVec.ofInt n (-1)).toInt = -1 := by
    have e : ((2:Int) ^ (n - 1)) = ((2 ^ (n - 1) : Nat) : Int) := by push_cast; rfl
    have := Nat.pow_pos (n := n - 1) (show 0 < 2 by omega)
    exact ofInt_toInt hn _ (by rw [e]; omega) (by rw [e]; omega)
  have key : ∀ x y : BitVec n, (x == y) = decide (x.toInt = y.toInt) := by
    intro x y
    by_cases h : x = y
    · subst h; simp
    · have : x.toInt ≠ y.toInt := fun h' => h (BitVec.eq_of_toInt_eq h')
      rw [decide_eq_false this]
      simpa using h
  have e0' : (b != 0#n) = !decide (b.toInt = 0) := by
    show (!(b == 0#n)) = _
    rw [key]; simp
  rw [e0', key a, key b, hm, h1]
  by_cases c1 : b.toInt = 0 <;> by_cases c2 : a.toInt = -2 ^ (n - 1) <;>
    by_cases c3 : b.toInt = -1 <;> simp [c1, c2, c3]

theorem fdiv_range_pos (M a b : Int) (hM0 : 0 < M) (ha1 : -M ≤ a) (ha2 : a ≤ M) (hb : 0 < b)
    (h : a = M → b ≠ 1) : -M ≤ a.fdiv b ∧ a.fdiv b < M := by
  have key := Int.mul_fdiv_add_fmod a b
  have hm1 := Int.fmod_nonneg_of_pos a hb
  have hm2 := Int.fmod_lt_of_pos a hb
  generalize a.fdiv b = q at *
  generalize a.fmod b = r at *
  constructor
  · by_contra hc
    have : b * (q + 1) ≤ 1 * (q + 1) := by nlinarith
    nlinarith
  · by_contra hc
    have hq : M ≤ q := by omega
    by_cases hb1 : b = 1
    · subst hb1
      have : a ≠ M := fun e => h e rfl
      omega
    · have h2 : 0 ≤ (b - 2) * q := Int.mul_nonneg (by omega) (by omega)
      have : (b - 2) * q = b * q - 2 * q := by ring
      omega

/-- The quotient of two stored numbers fits, except for the least number
divided by minus one. -/
theorem fdiv_range (M a b : Int) (hM0 : 0 < M) (ha1 : -M ≤ a) (ha2 : a < M)
    (hb : b ≠ 0) (h : ¬ (a = -M ∧ b = -1)) : -M ≤ a.fdiv b ∧ a.fdiv b < M := by
  rcases Int.lt_or_gt_of_ne hb with hneg | hpos
  · rw [← Int.neg_fdiv_neg]
    exact fdiv_range_pos M (-a) (-b) hM0 (by omega) (by omega) (by omega) (fun e hb1 => h ⟨by omega, by omega⟩)
  · exact fdiv_range_pos M a b hM0 ha1 (by omega) hpos (fun e => by omega)

theorem toInt_bounds {n : Nat} (x : BitVec n) : -2 ^ (n - 1) ≤ x.toInt ∧ x.toInt < 2 ^ (n - 1) :=
  ⟨BitVec.le_toInt x, BitVec.toInt_lt⟩

theorem floordivsi_spec {n : Nat} (hn : 0 < n) (a b : BitVec n) (hb : b.toInt ≠ 0)
    (h : ¬ (a.toInt = -2 ^ (n - 1) ∧ b.toInt = -1)) :
    ∃ r, floordivsi a b = some r ∧ r.toInt = a.toInt.fdiv b.toInt := by
  refine ⟨BitVec.ofInt n (a.toInt.fdiv b.toInt), ?_, ?_⟩
  · unfold floordivsi
    rw [if_pos ((divDefined_iff hn a b).2 ⟨hb, h⟩)]
  · have := fdiv_range (2 ^ (n - 1)) a.toInt b.toInt (Int.pow_pos (by omega)) (toInt_bounds a).1
      (toInt_bounds a).2 hb h
    exact ofInt_toInt hn _ this.1 this.2

/-- The widths of a type are positive. -/
def wide : DType → Prop
  | .bool => True
  | .i n => 0 < n
  | .u n => 0 < n

/-- The conversion to NumPy's result type keeps the number. -/
theorem promote_fits (o o2 : DType) (h1 : o ≠ .bool) (h2 : o2 ≠ .bool) (w : wide o) (w2 : wide o2)
    (x : BitVec o.bits) :
    npCast (npResult o o2) (npVal o x) = npVal o x ∧ npCast (npResult o2 o) (npVal o x) = npVal o x := by
  have sgn : ∀ n m : Nat, 0 < n → n ≤ m → ∀ x : BitVec n, x.toInt.bmod (2 ^ m) = x.toInt := by
    intro n m hn h x
    have := toInt_bounds x
    have e : ((2:Int) ^ (n - 1)) = ((2 ^ (n - 1) : Nat) : Int) := by push_cast; rfl
    have h3 : (2:Nat) ^ m = 2 * 2 ^ (m - 1) := by
      rw [← Nat.pow_succ']; congr 1; omega
    have h4 : (2:Nat) ^ (n - 1) ≤ 2 ^ (m - 1) := Nat.pow_le_pow_right (by omega) (by omega)
    rw [e] at this
    apply Int.bmod_eq_of_le
    · rw [h3]; omega
    · rw [h3]; omega
  have uns : ∀ n m : Nat, n ≤ m → ∀ x : BitVec n, (x.toNat : Int) % 2 ^ m = x.toNat := by
    intro n m h x
    have := x.isLt
    have h4 : (2:Nat) ^ n ≤ 2 ^ m := Nat.pow_le_pow_right (by omega) h
    have e : ((2:Int) ^ m) = ((2 ^ m : Nat) : Int) := by push_cast; rfl
    rw [e]
    exact Int.emod_eq_of_lt (by omega) (by omega)
  have us : ∀ n m : Nat, n < m → ∀ x : BitVec n, (x.toNat : Int).bmod (2 ^ m) = x.toNat := by
    intro n m h x
    have := x.isLt
    have h4 : (2:Nat) ^ n ≤ 2 ^ (m - 1) := Nat.pow_le_pow_right (by omega) (by omega)
    have h3 : (2:Nat) ^ m = 2 * 2 ^ (m - 1) := by
      rw [← Nat.pow_succ']; congr 1; omega
    apply Int.bmod_eq_of_le
    · rw [h3]; omega
    · rw [h3]; omega
  cases o with
  | bool => exact absurd rfl h1
  | i n =>
    cases o2 with
    | bool => exact absurd rfl h2
    | i m => exact ⟨sgn n _ w (by omega) x, sgn n _ w (by omega) x⟩
    | u m =>
      have : n ≤ if m < n then n else 2 * m := by split <;> omega
      exact ⟨sgn n _ w this x, sgn n _ w this x⟩
  | u n =>
    cases o2 with
    | bool => exact absurd rfl h2
    | u m => exact ⟨uns n _ (by omega) x, uns n _ (by omega) x⟩
    | i m =>
      have w : 0 < n := w
      have : n < if n < m then m else 2 * n := by split <;> omega
      exact ⟨us n _ this x, us n _ this x⟩

theorem promote_exact (o o2 : DType) (h1 : o ≠ .bool) (h2 : o2 ≠ .bool) (w : wide o) (w2 : wide o2)
    (x : BitVec o.bits) :
    npVal (npResult o o2) (cast o (npResult o o2) x) = npVal o x ∧
    npVal (npResult o2 o) (cast o (npResult o2 o) x) = npVal o x := by
  constructor
  · rw [cast_exact_partial _ _ (okCast_result o o2 h1 h2).1]
    exact (promote_fits o o2 h1 h2 w w2 x).1
  · rw [cast_exact_partial _ _ (okCast_result o2 o h2 h1).2]
    exact (promote_fits o o2 h1 h2 w w2 x).2

/-- **C48, floor division, signed.** For operands of integer types whose common
type is signed, floor division gives Python's result, except for a zero divisor
and the least number divided by minus one. -/
theorem floordiv_signed_partial (o1 o2 : DType) (h1 : o1 ≠ .bool) (h2 : o2 ≠ .bool) (w1 : wide o1)
    (w2 : wide o2) (n : Nat) (hr : npResult o1 o2 = .i n) (hn : 0 < n)
    (a : BitVec o1.bits) (b : BitVec o2.bits) (hb : npVal o2 b ≠ 0)
    (h : ¬ (npVal o1 a = -2 ^ (n - 1) ∧ npVal o2 b = -1)) :
    ∃ r, genFloorDiv o1 o2 (.i n) a b = some r ∧ npVal (.i n) r = (npVal o1 a).fdiv (npVal o2 b) := by
  have ha := (promote_exact o1 o2 h1 h2 w1 w2 a).1
  have hb' := (promote_exact o2 o1 h2 h1 w2 w1 b).2
  rw [hr] at ha hb'
  rw [← ha, ← hb'] at h ⊢
  rw [← hb'] at hb
  exact floordivsi_spec hn _ _ hb h

theorem small_toInt {n : Nat} (hn : 0 < n) (x : BitVec n) (h : x.toNat < 2 ^ (n - 1)) : x.toInt = x.toNat := by
  rw [BitVec.toInt_eq_toNat_cond, if_pos]
  have h3 : (2:Nat) ^ n = 2 * 2 ^ (n - 1) := by
    rw [← Nat.pow_succ']; congr 1; omega
  omega

/-- **C48, floor division, unsigned.** Right when both operands are below half
of the range. -/
theorem floordiv_unsigned_partial (n : Nat) (hn : 0 < n) (a b : BitVec n) (ha : a.toNat < 2 ^ (n - 1))
    (hb : b.toNat < 2 ^ (n - 1)) (h0 : b.toNat ≠ 0) :
    ∃ r, genFloorDiv (.u n) (.u n) (.u n) a b = some r ∧ npVal (.u n) r = (a.toNat / b.toNat : Nat) := by
  have e : ∀ x : BitVec n, cast (.u n) (.u n) x = x := by intro x; rw [cast_bits]; simp [DType.signedCode]
  unfold genFloorDiv
  rw [e, e]
  have hp : (0:Int) < 2 ^ (n - 1) := Int.pow_pos (by omega)
  obtain ⟨r, h1, h2⟩ := floordivsi_spec hn a b (by rw [small_toInt hn b hb]; omega)
    (by rw [small_toInt hn b hb]; omega)
  refine ⟨r, h1, ?_⟩
  rw [small_toInt hn a ha, small_toInt hn b hb, Int.fdiv_eq_ediv_of_nonneg _ (by omega), ← Int.natCast_ediv] at h2
  have hq : a.toNat / b.toNat ≤ a.toNat := Nat.div_le_self _ _
  have hr : r.toNat < 2 ^ (n - 1) := by
    have hc := BitVec.toInt_eq_toNat_cond r
    have h3 : (2:Nat) ^ n = 2 * 2 ^ (n - 1) := by
      rw [← Nat.pow_succ']; congr 1; omega
    have := r.isLt
    rw [h2] at hc
    generalize a.toNat / b.toNat = q at *
    split at hc <;> omega
  rw [small_toInt hn r hr] at h2
  exact h2

/-- **C48 is false for unsigned division.** `uint8(200) // uint8(3)` is 237. -/
theorem floordiv_unsigned_refuted : genFloorDiv (.u 8) (.u 8) (.u 8) 200 3 = some 237 := by decide

/-! ### Remainder -/

theorem mod_core_pos (a b : Int) (hb : 0 < b) : (a.tmod b + b).tmod b = a.fmod b := by
  have h1 : -b < a.tmod b := by
    rcases Int.le_total 0 a with h | h
    · have := Int.tmod_nonneg b h; omega
    · have h2 := Int.tmod_lt_of_pos (-a) hb
      rw [Int.neg_tmod] at h2
      omega
  have h2 := Int.mul_tdiv_add_tmod a b
  rw [Int.tmod_eq_emod_of_nonneg (by omega), Int.fmod_eq_emod_of_nonneg _ (by omega), Int.add_emod_right]
  conv => rhs; rw [← h2]
  rw [Int.add_comm, Int.add_mul_emod_self_left]

theorem mod_core (a b : Int) (hb : b ≠ 0) : (a.tmod b + b).tmod b = a.fmod b := by
  rcases Int.lt_or_gt_of_ne hb with h | h
  · have := mod_core_pos (-a) (-b) (by omega)
    rw [Int.neg_fmod_neg, Int.tmod_neg, Int.tmod_neg, Int.neg_tmod, ← Int.neg_add, Int.neg_tmod] at this
    omega
  · exact mod_core_pos a b h

theorem tmod_pos_bounds (a b : Int) (hb : 0 < b) : -b < a.tmod b ∧ a.tmod b < b := by
  refine ⟨?_, Int.tmod_lt_of_pos a hb⟩
  have h2 := Int.tmod_lt_of_pos (-a) hb
  rw [Int.neg_tmod] at h2
  omega

theorem fmod_of_tmod_pos (a b : Int) (hb : 0 < b) (h : 0 ≤ a.tmod b) : a.fmod b = a.tmod b := by
  rw [← mod_core_pos a b hb, Int.tmod_eq_emod_of_nonneg (by omega), Int.add_emod_right,
    Int.emod_eq_of_lt h (Int.tmod_lt_of_pos a hb)]

theorem tmod_sign (s b : Int) : (0 ≤ s → 0 ≤ s.tmod b) ∧ (s ≤ 0 → s.tmod b ≤ 0) := by
  refine ⟨Int.tmod_nonneg b, fun h => ?_⟩
  have := Int.tmod_nonneg b (show 0 ≤ -s by omega)
  rw [Int.neg_tmod] at this
  omega

/-- The three steps on numbers, with the addition wrapped around at `M`. -/
theorem mod_wrap (M a b s : Int) (hb : b ≠ 0) (hb1 : -M ≤ b) (hb2 : b < M)
    (hs : s = a.tmod b + b ∨ (M ≤ a.tmod b + b ∧ s = a.tmod b + b - 2 * M) ∨
      (a.tmod b + b < -M ∧ s = a.tmod b + b + 2 * M))
    (hs2 : -M ≤ s ∧ s < M) :
    s.tmod b = a.fmod b ↔ -M ≤ a.tmod b + b ∧ a.tmod b + b < M := by
  rcases hs with h | ⟨h1, h2⟩ | ⟨h1, h2⟩
  · rw [h, mod_core a b hb]
    exact ⟨fun _ => by omega, fun _ => rfl⟩
  · refine ⟨fun e => ?_, fun h => by omega⟩
    exfalso
    have hbp : 0 < b := by
      rcases Int.lt_or_gt_of_ne hb with h | h
      · have := tmod_pos_bounds a (-b) (by omega)
        rw [Int.tmod_neg] at this
        omega
      · exact h
    have hr := tmod_pos_bounds a b hbp
    have := (tmod_sign s b).2 (by omega)
    rw [e, fmod_of_tmod_pos a b hbp (by omega)] at this
    omega
  · refine ⟨fun e => ?_, fun h => by omega⟩
    exfalso
    have hbn : b < 0 := by
      rcases Int.lt_or_gt_of_ne hb with h | h
      · exact h
      · have := tmod_pos_bounds a b h
        omega
    have hr := tmod_pos_bounds a (-b) (by omega)
    rw [Int.tmod_neg] at hr
    have := (tmod_sign s b).1 (by omega)
    have hf := fmod_of_tmod_pos (-a) (-b) (by omega) (by rw [Int.neg_tmod, Int.tmod_neg]; omega)
    rw [Int.neg_fmod_neg, Int.tmod_neg, Int.neg_tmod] at hf
    rw [e] at this
    omega

theorem remsi_spec {n : Nat} (hn : 0 < n) (a b : BitVec n) (hb : b.toInt ≠ 0)
    (h : ¬ (a.toInt = -2 ^ (n - 1) ∧ b.toInt = -1)) :
    ∃ r, remsi a b = some r ∧ r.toInt = a.toInt.tmod b.toInt := by
  refine ⟨a.srem b, ?_, BitVec.toInt_srem a b⟩
  unfold remsi
  rw [if_pos ((divDefined_iff hn a b).2 ⟨hb, h⟩)]

theorem add_wrap {n : Nat} (hn : 0 < n) (x y : BitVec n) :
    (x + y).toInt = x.toInt + y.toInt ∨
    (2 ^ (n - 1) ≤ x.toInt + y.toInt ∧ (x + y).toInt = x.toInt + y.toInt - 2 * 2 ^ (n - 1)) ∨
    (x.toInt + y.toInt < -2 ^ (n - 1) ∧ (x + y).toInt = x.toInt + y.toInt + 2 * 2 ^ (n - 1)) := by
  have hx := toInt_bounds x
  have hy := toInt_bounds y
  have hs := toInt_bounds (x + y)
  have h3 : (2:Nat) ^ n = 2 * 2 ^ (n - 1) := by
    rw [← Nat.pow_succ']; congr 1; omega
  have e : ((2:Int) ^ (n - 1)) = ((2 ^ (n - 1) : Nat) : Int) := by push_cast; rfl
  rw [BitVec.toInt_add] at hs ⊢
  rw [h3, e] at hs ⊢
  rw [e] at hx hy
  clear e h3
  generalize (2 ^ (n - 1) : Nat) = M at *
  have hM : 0 < M := by omega
  obtain ⟨v, hv⟩ : ∃ v, v = x.toInt + y.toInt := ⟨_, rfl⟩
  rw [← hv] at hs ⊢
  rcases lt_or_ge v (-M) with h | h
  · refine .inr (.inr ⟨h, ?_⟩)
    rw [← Int.add_bmod_right]
    rw [Int.bmod_eq_of_le (by omega) (by omega)]
    push_cast; rfl
  · rcases lt_or_ge v M with h2 | h2
    · exact .inl (Int.bmod_eq_of_le (by omega) (by omega))
    · refine .inr (.inl ⟨h2, ?_⟩)
      rw [← Int.sub_bmod_right]
      rw [Int.bmod_eq_of_le (by omega) (by omega)]
      push_cast; rfl

/-- **C48, remainder.** The three statements give Python's remainder exactly
when truncated remainder plus divisor does not overflow. -/
theorem modStmts_exact {n : Nat} (hn : 1 < n) (a b : BitVec n) (hb : b.toInt ≠ 0)
    (h : ¬ (a.toInt = -2 ^ (n - 1) ∧ b.toInt = -1)) :
    ∃ r, modStmts a b = some r ∧
      (r.toInt = a.toInt.fmod b.toInt ↔
        -2 ^ (n - 1) ≤ a.toInt.tmod b.toInt + b.toInt ∧ a.toInt.tmod b.toInt + b.toInt < 2 ^ (n - 1)) := by
  obtain ⟨m1, e1, v1⟩ := remsi_spec (by omega) a b hb h
  have hw := add_wrap (by omega) m1 b
  have hM : (2:Int) ≤ 2 ^ (n - 1) := by
    have h4 : (2:Nat) ^ 1 ≤ 2 ^ (n - 1) := Nat.pow_le_pow_right (by omega) (by omega)
    have e : ((2:Int) ^ (n - 1)) = ((2 ^ (n - 1) : Nat) : Int) := by push_cast; rfl
    rw [e]; omega
  have hdef : ¬ ((m1 + b).toInt = -2 ^ (n - 1) ∧ b.toInt = -1) := by
    rintro ⟨h1, h2⟩
    have : m1.toInt = 0 := by
      rw [v1, h2]
      have := tmod_pos_bounds a.toInt 1 (by omega)
      rw [show (-1 : Int) = -(1) from rfl, Int.tmod_neg]
      omega
    rw [this, h2] at hw
    omega
  obtain ⟨r, e2, v2⟩ := remsi_spec (by omega) (m1 + b) b hb hdef
  refine ⟨r, ?_, ?_⟩
  · simp only [modStmts, e1, Option.bind_eq_bind, Option.bind_some, e2]
  · rw [v2]
    rw [v1] at hw
    exact mod_wrap _ _ _ _ hb (toInt_bounds b).1 (toInt_bounds b).2 hw (toInt_bounds _)

/-- **C48, remainder, signed.** For operands whose common type is signed the
result is Python's remainder exactly when truncated remainder plus divisor
fits the type. -/
theorem mod_signed_exact (o1 o2 : DType) (h1 : o1 ≠ .bool) (h2 : o2 ≠ .bool) (w1 : wide o1)
    (w2 : wide o2) (n : Nat) (hr : npResult o1 o2 = .i n) (hn : 1 < n)
    (a : BitVec o1.bits) (b : BitVec o2.bits) (hb : npVal o2 b ≠ 0)
    (h : ¬ (npVal o1 a = -2 ^ (n - 1) ∧ npVal o2 b = -1)) :
    ∃ r, genMod o1 o2 (.i n) a b = some r ∧
      (npVal (.i n) r = (npVal o1 a).fmod (npVal o2 b) ↔
        -2 ^ (n - 1) ≤ (npVal o1 a).tmod (npVal o2 b) + npVal o2 b ∧
        (npVal o1 a).tmod (npVal o2 b) + npVal o2 b < 2 ^ (n - 1)) := by
  have ha := (promote_exact o1 o2 h1 h2 w1 w2 a).1
  have hb' := (promote_exact o2 o1 h2 h1 w2 w1 b).2
  rw [hr] at ha hb'
  rw [← ha, ← hb'] at h ⊢
  rw [← hb'] at hb
  exact modStmts_exact hn _ _ hb h

/-- In particular it is right when the divisor is at most a quarter of the
range away from zero. -/
theorem mod_small_divisor_partial (n : Nat) (hn : 1 < n) (a b : BitVec n) (hb : b.toInt ≠ 0)
    (h : ¬ (a.toInt = -2 ^ (n - 1) ∧ b.toInt = -1)) (hs : 2 * |b.toInt| ≤ 2 ^ (n - 1)) :
    ∃ r, genMod (.i n) (.i n) (.i n) a b = some r ∧ npVal (.i n) r = a.toInt.fmod b.toInt := by
  obtain ⟨r, h1, h2⟩ := mod_signed_exact (.i n) (.i n) (by simp) (by simp) (by show 0 < n; omega)
    (by show 0 < n; omega) n (by simp [npResult]) hn a b hb h
  refine ⟨r, h1, h2.2 ?_⟩
  simp only [npVal]
  rcases Int.lt_or_gt_of_ne hb with hneg | hpos
  · have := tmod_pos_bounds a.toInt (-b.toInt) (by omega)
    rw [Int.tmod_neg] at this
    rw [abs_of_neg hneg] at hs
    omega
  · have := tmod_pos_bounds a.toInt b.toInt hpos
    rw [abs_of_pos hpos] at hs
    omega

/-- **C48 is false for large remainders.** `int8(100) % int8(120)` is -36, and
`uint8(200) % uint8(7)` is 0. -/
theorem mod_refuted :
    genMod (.i 8) (.i 8) (.i 8) 100 120 = some (-36) ∧ ((100 : Int).fmod 120 = 100) ∧
    genMod (.u 8) (.u 8) (.u 8) 200 7 = some 0 ∧ ((200 : Int).fmod 7 = 4) := by
  decide

/-! ### Comparisons -/

/-- Python's comparisons of numbers. -/
def CmpOp.spec : CmpOp → Int → Int → Bool
  | .gt, a, b => decide (b < a)
  | .ge, a, b => decide (b ≤ a)
  | .lt, a, b => decide (a < b)
  | .le, a, b => decide (a ≤ b)
  | .eq, a, b => decide (a = b)
  | .ne, a, b => decide (a ≠ b)

/-- **C49, signed.** -/
theorem compare_signed (op : CmpOp) (n : Nat) (a b : BitVec n) :
    genCompare op a b = op.spec (npVal (.i n) a) (npVal (.i n) b) := by
  have he : a = b ↔ a.toInt = b.toInt := ⟨congrArg _, BitVec.eq_of_toInt_eq⟩
  apply Bool.eq_iff_iff.2
  cases op
  · show b.slt a = true ↔ decide (b.toInt < a.toInt) = true
    rw [BitVec.slt_eq_decide]
  · show b.sle a = true ↔ decide (b.toInt ≤ a.toInt) = true
    rw [BitVec.sle_eq_decide]
  · show a.slt b = true ↔ decide (a.toInt < b.toInt) = true
    rw [BitVec.slt_eq_decide]
  · show a.sle b = true ↔ decide (a.toInt ≤ b.toInt) = true
    rw [BitVec.sle_eq_decide]
  · show (a == b) = true ↔ decide (a.toInt = b.toInt) = true
    rw [beq_iff_eq, decide_eq_true_eq]
    exact he
  · show (a != b) = true ↔ decide (a.toInt ≠ b.toInt) = true
    rw [bne_iff_ne, decide_eq_true_eq]
    exact not_congr he

/-- **C49, unsigned.** Equality is right; an order comparison is right exactly
when the operands are equal or both or neither are in the upper half of the
range. -/
theorem compare_unsigned (op : CmpOp) (n : Nat) (a b : BitVec n) :
    genCompare op a b = op.spec (npVal (.u n) a) (npVal (.u n) b) ↔
      (match op with
        | .eq => True
        | .ne => True
        | _ => (2 * a.toNat < 2 ^ n ↔ 2 * b.toNat < 2 ^ n)) := by
  have he : a = b ↔ a.toNat = b.toNat := ⟨congrArg _, BitVec.eq_of_toNat_eq⟩
  have ha := BitVec.toInt_eq_toNat_cond a
  have hb := BitVec.toInt_eq_toNat_cond b
  have la := a.isLt
  have lb := b.isLt
  rw [compare_signed, Bool.eq_iff_iff]
  cases op
  case eq =>
    show (decide (a.toInt = b.toInt) = true ↔ decide ((a.toNat : Int) = b.toNat) = true) ↔ True
    rw [decide_eq_true_eq, decide_eq_true_eq, iff_true]
    have : a = b ↔ a.toInt = b.toInt := ⟨congrArg _, BitVec.eq_of_toInt_eq⟩
    rw [← this, he]
    omega
  case ne =>
    show (decide (a.toInt ≠ b.toInt) = true ↔ decide ((a.toNat : Int) ≠ b.toNat) = true) ↔ True
    rw [decide_eq_true_eq, decide_eq_true_eq, iff_true]
    have : a = b ↔ a.toInt = b.toInt := ⟨congrArg _, BitVec.eq_of_toInt_eq⟩
    rw [ne_eq, ← this, he]
    omega
  all_goals
    simp only [CmpOp.spec, decide_eq_true_eq]
    simp only [npVal]
    rw [ha, hb]
    generalize (2 ^ n : Nat) = M at *
    generalize a.toNat = x at *
    generalize b.toNat = y at *
    by_cases h1 : 2 * x < M <;> by_cases h2 : 2 * y < M <;>
      simp only [h1, h2, if_true, if_false, iff_true, iff_false, true_iff, false_iff, not_true] <;> omega

/-- **C49 is false for unsigned types.** `uint8(200) > uint8(100)` is false. -/
theorem compare_unsigned_refuted :
    genCompare .gt (200 : BitVec 8) 100 = false ∧ CmpOp.spec .gt 200 100 = true := by
  decide

/-- Python's comparisons of floats: `!=` is the negation of `==`. -/
def eqF {α : Type} [LinearOrder α] : FVal α → FVal α → Bool
  | .val a, .val b => decide (a = b)
  | _, _ => false

def CmpOp.specF {α : Type} [LinearOrder α] : CmpOp → FVal α → FVal α → Bool
  | .gt, .val a, .val b => decide (b < a)
  | .ge, .val a, .val b => decide (b ≤ a)
  | .lt, .val a, .val b => decide (a < b)
  | .le, .val a, .val b => decide (a ≤ b)
  | .eq, a, b => eqF a b
  | .ne, a, b => !(eqF a b)
  | _, _, _ => false

/-- **C49, floating point.** Comparisons are right except `!=` with an operand
that is not a number. -/
theorem compare_float {α : Type} [LinearOrder α] (op : CmpOp) (a b : FVal α) :
    genCompareF op a b = op.specF a b ↔
      (match op, a, b with
        | .ne, .nan, _ => False
        | .ne, _, .nan => False
        | _, _, _ => True) := by
  cases op <;> cases a <;> cases b <;> simp [genCompareF, CmpOp.specF, eqF]

/-- **C49 is false for `!=` on NaN.** -/
theorem nan_ne_refuted : genCompareF .ne (FVal.nan : FVal Nat) .nan = false ∧
    CmpOp.specF .ne (FVal.nan : FVal Nat) .nan = true := by
  decide

/-- **C49, `not`.** The result is true exactly when the operand is false, for
the operands zero and one only. -/
theorem not_exact (n : Nat) (hn : 0 < n) (x : BitVec n) :
    (genNot x ≠ 0#n ↔ x = 0#n) ↔ (x = 0#n ∨ x = 1#n) := by
  have h1 : (1#n) ≠ 0#n := by
    intro h
    have := congrArg BitVec.toNat h
    have h2 : (2:Nat) ^ 1 ≤ 2 ^ n := Nat.pow_le_pow_right (by omega) hn
    simp only [BitVec.toNat_ofNat, Nat.zero_mod] at this
    rw [Nat.mod_eq_of_lt (by omega)] at this
    omega
  have hz : genNot x = 0#n ↔ x = 1#n := by
    unfold genNot
    rw [BitVec.xor_eq_zero_iff]
    exact eq_comm
  rw [ne_eq, hz]
  by_cases h0 : x = 0#n
  · subst h0
    simp [h1.symm]
  · simp [h0]

/-- For booleans it is always right. -/
theorem not_bool (x : BitVec 1) : genNot x ≠ 0#1 ↔ x = 0#1 :=
  (not_exact 1 (by omega) x).2 (BitVec.eq_zero_or_eq_one x)

/-- **C49 is false for `not` on numbers.** `not 5` is 4, which is true. -/
theorem not_refuted : genNot (5 : BitVec 32) = 4 := by decide

/-! ### Concrete cases -/

example : genMod (.i 32) (.i 32) (.i 32) (-7) 3 = some 2 := by decide
example : genMod (.i 32) (.i 8) (.i 32) 7 (-3) = some (-2) := by decide
example : genFloorDiv (.i 32) (.i 32) (.i 32) (-7) 2 = some (-4) := by decide
example : npVal (.i 16) (genArith .mul (.u 8) (.i 16) (.i 16) 200 (-3)) = -600 := by decide
example : genArith .add (.i 8) (.i 8) (.i 8) 100 100 = -56 := by decide
example : genCompare .lt (-1 : BitVec 8) 1 = true := by decide

end Verif.KernelArith
