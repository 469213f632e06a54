import Verif.Half
import Verif.HashEqProps

/-!
# Half-precision numbers keep their value and round to nearest -/

namespace Verif.Half
open HashEq (bitLen divRound)

/-! ## What the format says -/

/-- The magnitude of the 15 lower bits of a half in units `2 ^ -24`: 5 bits of exponent and 10 of
mantissa. For `0x7C00` it is `2 ^ 16`, the first number that is too large. -/
def hv (h : Nat) : Nat :=
  if h / 2 ^ 10 = 0 then h % 2 ^ 10 else (2 ^ 10 + h % 2 ^ 10) * 2 ^ (h / 2 ^ 10 - 1)

/-- The value of the 16 bits of a half. -/
def value (h : Nat) : V :=
  let neg := decide (2 ^ 15 ≤ h)
  let r := h % 2 ^ 15
  if r < 0x7C00 then .fin neg (hv r * 2 ^ 125) else if r = 0x7C00 then .inf neg else .nan

/-- Distance. -/
def dist (a b : Nat) : Nat := (a - b) + (b - a)

/-! ## Bits -/

theorem and_mask (x i j : Nat) : x &&& ((2 ^ j - 1) <<< i) = (x / 2 ^ i % 2 ^ j) * 2 ^ i := by
  rw [← Nat.shiftLeft_eq]
  apply Nat.eq_of_testBit_eq
  intro k
  simp only [Nat.testBit_and, Nat.testBit_shiftLeft, Nat.testBit_two_pow_sub_one,
    Nat.testBit_mod_two_pow, Nat.testBit_div_two_pow]
  by_cases h : i ≤ k
  · have : k - i + i = k := by omega
    by_cases h' : k - i < j <;> simp [h, h', this]
  · simp [h]

theorem or_add (i a b : Nat) (h : a < 2 ^ i) : (b * 2 ^ i ||| a) = b * 2 ^ i + a := by
  rw [Nat.mul_comm, Nat.two_pow_add_eq_or_of_lt h]

/-! ## Rounding -/

theorem bitLen_eq {n k : Nat} (h1 : 2 ^ k ≤ n) (h2 : n < 2 ^ (k + 1)) : bitLen n = k + 1 := by
  have a := HashEq.bitLen_le.2 h2
  have b : ¬ bitLen n ≤ k := fun h => absurd (HashEq.bitLen_le.1 h) (by omega)
  omega

/-- A value with 24 significant bits is not rounded. -/
theorem rnd_exact (neg : Bool) {c t k : Nat} (hc : c < 2 ^ 24) (h : c * 2 ^ t < 2 ^ 277) :
    rnd neg (c * 2 ^ (t + k)) k = .fin neg (c * 2 ^ t) := by
  have hb : bitLen (c * 2 ^ (t + k)) ≤ 24 + t + k := by
    rw [HashEq.bitLen_le, show 24 + t + k = 24 + (t + k) by omega, Nat.pow_add 2 24]
    exact (Nat.mul_lt_mul_right (Nat.two_pow_pos _)).2 hc
  unfold rnd
  generalize hs : bitLen (c * 2 ^ (t + k)) - k - 24 = s
  have hst : s ≤ t := by omega
  have e : c * 2 ^ (t + k) = c * 2 ^ (t - s) * 2 ^ (k + s) := by
    rw [Nat.mul_assoc, ← Nat.pow_add]; congr 2; omega
  have e2 : divRound (c * 2 ^ (t + k)) (k + s) * 2 ^ s = c * 2 ^ t := by
    rw [e, HashEq.divRound_exact, Nat.mul_assoc, ← Nat.pow_add]; congr 2; omega
  simp only [e2]
  rw [if_neg (by omega)]

theorem mag_normal {m e : Nat} (hm : m < 2 ^ 23) (he : 1 ≤ e) :
    mag ((2 ^ 23 + m) * 2 ^ (e - 1)) = e * 2 ^ 23 + m := by
  have hp := Nat.two_pow_pos (e - 1)
  have hb : bitLen ((2 ^ 23 + m) * 2 ^ (e - 1)) = 23 + (e - 1) + 1 := by
    apply bitLen_eq
    · rw [Nat.pow_add]; exact Nat.mul_le_mul_right _ (by omega)
    · rw [show 23 + (e - 1) + 1 = 24 + (e - 1) by omega, Nat.pow_add]
      exact (Nat.mul_lt_mul_right hp).2 (by omega)
  unfold mag
  rw [if_neg (by
    have := Nat.le_mul_of_pos_right (2 ^ 23 + m) hp
    omega)]
  simp only [hb]
  rw [show 23 + (e - 1) + 1 - 23 = e by omega, Nat.mul_div_cancel _ hp]
  omega

theorem fromBits_normal {b m e : Nat} (hb : b ≤ 1) (hm : m < 2 ^ 23) (he : 1 ≤ e) (he' : e < 255) :
    fromBits (b * 2 ^ 31 + (e * 2 ^ 23 + m)) = .fin (decide (b = 1)) ((2 ^ 23 + m) * 2 ^ (e - 1)) := by
  have h1 : (b * 2 ^ 31 + (e * 2 ^ 23 + m)) / 2 ^ 31 % 2 = b := by omega
  have h2 : (b * 2 ^ 31 + (e * 2 ^ 23 + m)) / 2 ^ 23 % 2 ^ 8 = e := by omega
  have h3 : (b * 2 ^ 31 + (e * 2 ^ 23 + m)) % 2 ^ 23 = m := by omega
  simp only [fromBits, h1, h2, h3]
  rw [if_neg (by omega), if_neg (by omega)]

theorem fromBits_small {b m : Nat} (hb : b ≤ 1) (hm : m < 2 ^ 23) :
    fromBits (b * 2 ^ 31 + m) = .fin (decide (b = 1)) m := by
  have h1 : (b * 2 ^ 31 + m) / 2 ^ 31 % 2 = b := by omega
  have h2 : (b * 2 ^ 31 + m) / 2 ^ 23 % 2 ^ 8 = 0 := by omega
  have h3 : (b * 2 ^ 31 + m) % 2 ^ 23 = m := by omega
  simp only [fromBits, h1, h2, h3]
  rw [if_pos trivial]

theorem fromBits_top {b m : Nat} (hb : b ≤ 1) (hm : m < 2 ^ 23) :
    fromBits (b * 2 ^ 31 + (255 * 2 ^ 23 + m)) =
      if m = 0 then .inf (decide (b = 1)) else .nan := by
  have h1 : (b * 2 ^ 31 + (255 * 2 ^ 23 + m)) / 2 ^ 31 % 2 = b := by omega
  have h2 : (b * 2 ^ 31 + (255 * 2 ^ 23 + m)) / 2 ^ 23 % 2 ^ 8 = 255 := by omega
  have h3 : (b * 2 ^ 31 + (255 * 2 ^ 23 + m)) % 2 ^ 23 = m := by omega
  simp only [fromBits, h1, h2, h3]
  rw [if_neg (by omega), if_pos trivial]

/-- The magnitudes that the format has. -/
def Single (n : Nat) : Prop := n < 2 ^ 23 ∨ ∃ e m, 1 ≤ e ∧ e < 255 ∧ m < 2 ^ 23 ∧
  n = (2 ^ 23 + m) * 2 ^ (e - 1)

/-- `fp32_from_bits` inverts `fp32_to_bits`. -/
theorem bits_round_trip (b : Nat) (hb : b ≤ 1) {n : Nat} (h : Single n) :
    fromBits (b * 2 ^ 31 + mag n) = .fin (decide (b = 1)) n ∧ mag n < 255 * 2 ^ 23 := by
  rcases h with h | ⟨e, m, h1, h2, h3, rfl⟩
  · have : mag n = n := by unfold mag; rw [if_pos h]
    rw [this]
    exact ⟨fromBits_small hb h, by omega⟩
  · rw [mag_normal h3 h1]
    exact ⟨fromBits_normal hb h3 h1 h2, by omega⟩

/-- Numbers with few bits are in the format. -/
theorem single_of {c t : Nat} (hc : c < 2 ^ 24) (ht : t ≤ 253) : Single (c * 2 ^ t) := by
  induction t generalizing c with
  | zero =>
    by_cases h : c < 2 ^ 23
    · left; omega
    · right; exact ⟨1, c - 2 ^ 23, by omega, by omega, by omega, by simp; omega⟩
  | succ t ih =>
    by_cases h : c < 2 ^ 23
    · have := ih (c := 2 * c) (by omega) (by omega)
      rwa [show 2 * c * 2 ^ t = c * 2 ^ (t + 1) by rw [Nat.pow_succ]; ring] at this
    · right
      exact ⟨t + 2, c - 2 ^ 23, by omega, by omega, by omega, by
        rw [show t + 2 - 1 = t + 1 by omega, show 2 ^ 23 + (c - 2 ^ 23) = c by omega]⟩

/-! ## Reading -/

/-- The words of the conversion, in arithmetic. -/
theorem toFloat_words {b e m : Nat} (hb : b ≤ 1) (he : e < 32) (hm : m < 2 ^ 10) :
    toFloat (b * 2 ^ 15 + (e * 2 ^ 10 + m)) = fromBits (b * 2 ^ 31 |||
      (if e = 0 then
        toBits ((fromBits (126 * 2 ^ 23 + m)).sub (.fin false (2 ^ 148)))
      else toBits ((fromBits ((e + 224) * 2 ^ 23 + m * 2 ^ 13)).mul (fromBits (15 * 2 ^ 23))))) := by
  have hw : ((b * 2 ^ 15 + (e * 2 ^ 10 + m)) <<< 16) % 2 ^ 32 =
      b * 2 ^ 31 + (e * 2 ^ 10 + m) * 2 ^ 16 := by
    rw [Nat.shiftLeft_eq]; omega
  have hm1 : (0x80000000 : Nat) = (2 ^ 1 - 1) <<< 31 := by decide
  have hs : (b * 2 ^ 31 + (e * 2 ^ 10 + m) * 2 ^ 16) &&& 0x80000000 = b * 2 ^ 31 := by
    rw [hm1, and_mask]; omega
  have h2 : (b * 2 ^ 31 + (e * 2 ^ 10 + m) * 2 ^ 16 + (b * 2 ^ 31 + (e * 2 ^ 10 + m) * 2 ^ 16)) %
      2 ^ 32 = (e * 2 ^ 10 + m) * 2 ^ 17 := by omega
  have h3 : (((e * 2 ^ 10 + m) * 2 ^ 17) >>> 4 + 0xE0 <<< 23) % 2 ^ 32 =
      (e + 224) * 2 ^ 23 + m * 2 ^ 13 := by
    rw [Nat.shiftRight_eq_div_pow, Nat.shiftLeft_eq]; omega
  have h4 : (15 : Nat) <<< 23 = 15 * 2 ^ 23 := by rw [Nat.shiftLeft_eq]
  have h5 : ((e * 2 ^ 10 + m) * 2 ^ 17) >>> 17 = e * 2 ^ 10 + m := by
    rw [Nat.shiftRight_eq_div_pow]; omega
  have h6 : (e * 2 ^ 10 + m) * 2 ^ 17 < 1 <<< 27 ↔ e = 0 := by
    rw [Nat.shiftLeft_eq]; omega
  simp only [toFloat, hw, hs, h2, h3, h4, h5, h6]
  by_cases h0 : e = 0
  · subst h0
    have h7 : (0 * 2 ^ 10 + m ||| 126 <<< 23) = 126 * 2 ^ 23 + m := by
      rw [Nat.or_comm, Nat.shiftLeft_eq, or_add _ _ _ (by omega)]
      omega
    simp only [h7]
  · simp only [if_neg h0]

theorem hv_small {m : Nat} (h : m < 2 ^ 10) : hv (0 * 2 ^ 10 + m) = m := by
  unfold hv
  rw [if_pos (by omega)]
  omega

theorem hv_normal {e m : Nat} (he : e ≠ 0) (h : m < 2 ^ 10) :
    hv (e * 2 ^ 10 + m) = (2 ^ 10 + m) * 2 ^ (e - 1) := by
  have h1 : (e * 2 ^ 10 + m) / 2 ^ 10 = e := by omega
  have h2 : (e * 2 ^ 10 + m) % 2 ^ 10 = m := by omega
  unfold hv
  rw [h1, h2, if_neg he]

theorem value_eq {b r : Nat} (hb : b ≤ 1) (hr : r < 2 ^ 15) :
    value (b * 2 ^ 15 + r) = if r < 0x7C00 then .fin (decide (b = 1)) (hv r * 2 ^ 125)
      else if r = 0x7C00 then .inf (decide (b = 1)) else .nan := by
  have h1 : (b * 2 ^ 15 + r) % 2 ^ 15 = r := by omega
  have h2 : decide (2 ^ 15 ≤ b * 2 ^ 15 + r) = decide (b = 1) := by
    rw [decide_eq_decide]; omega
  simp only [value, h1, h2]

/-- C111: reading a float16 element gives exactly its value. -/
theorem toFloat_exact (h : Nat) (hh : h < 2 ^ 16) : toFloat h = value h := by
  obtain ⟨b, e, m, hb, he, hm, rfl⟩ : ∃ b e m, b ≤ 1 ∧ e < 32 ∧ m < 2 ^ 10 ∧
      h = b * 2 ^ 15 + (e * 2 ^ 10 + m) :=
    ⟨h / 2 ^ 15, h / 2 ^ 10 % 32, h % 2 ^ 10, by omega, by omega, by omega, by omega⟩
  clear hh
  rw [toFloat_words hb he hm, value_eq hb (by omega)]
  by_cases h0 : e = 0
  · subst h0
    rw [if_pos rfl, if_pos (by omega), hv_small hm]
    have f := fromBits_normal (b := 0) (m := m) (e := 126) (by omega) (by omega) (by omega) (by omega)
    rw [show 0 * 2 ^ 31 + (126 * 2 ^ 23 + m) = 126 * 2 ^ 23 + m by omega] at f
    have hS : Single (m * 2 ^ 125) := single_of (by omega) (by omega)
    have key : toBits ((fromBits (126 * 2 ^ 23 + m)).sub (.fin false (2 ^ 148))) =
        mag (m * 2 ^ 125) := by
      rw [f]
      simp only [V.sub, V.neg, V.add, signed]
      have e1 : (2 ^ 23 + m) * 2 ^ (126 - 1) = 2 ^ 148 + m * 2 ^ 125 := by
        rw [Nat.add_mul, ← Nat.pow_add]
      have e2 : ((((2 ^ 23 + m) * 2 ^ (126 - 1) : Nat) : Int) + -((2 ^ 148 : Nat) : Int)) =
          ((m * 2 ^ 125 : Nat) : Int) := by
        rw [e1]; push_cast; omega
      simp only [Nat.reduceEqDiff, decide_false, Bool.not_false, if_true, Bool.false_eq_true, if_false,
        show ((0 : Nat) = 1) = False from by simp] at *
      rw [e2]
      by_cases hz : m = 0
      · subst hz
        simp [toBits]
      · have hz' : ¬ ((m * 2 ^ 125 : Nat) : Int) = 0 := by
          rw [Int.natCast_eq_zero]
          exact Nat.mul_ne_zero hz (by positivity)
        rw [if_neg hz']
        have hn : decide (((m * 2 ^ 125 : Nat) : Int) < 0) = false := by
          rw [decide_eq_false_iff_not]; omega
        rw [hn, Int.natAbs_natCast]
        have := rnd_exact false (c := m) (t := 125) (k := 0) (by omega) (by clear e2 e1; omega)
        rw [Nat.add_zero] at this
        rw [this]
        simp [toBits]
    rw [key]
    obtain ⟨r1, r2⟩ := bits_round_trip b hb hS
    rw [or_add 31 _ _ (by omega), r1]
  · rw [if_neg h0]
    have f15 := fromBits_normal (b := 0) (m := 0) (e := 15) (by omega) (by omega) (by omega) (by omega)
    rw [show 0 * 2 ^ 31 + (15 * 2 ^ 23 + 0) = 15 * 2 ^ 23 by omega] at f15
    rw [f15]
    by_cases h31 : e = 31
    · subst h31
      have f := fromBits_top (b := 0) (m := m * 2 ^ 13) (by omega) (by omega)
      rw [show 0 * 2 ^ 31 + (255 * 2 ^ 23 + m * 2 ^ 13) = (31 + 224) * 2 ^ 23 + m * 2 ^ 13 by omega] at f
      by_cases hm0 : m = 0
      · subst hm0
        rw [f, if_pos (show 0 * 2 ^ 13 = 0 by omega),
          if_neg (show ¬ 31 * 2 ^ 10 + 0 < 0x7C00 by omega),
          if_pos (show 31 * 2 ^ 10 + 0 = 0x7C00 by omega)]
        simp only [V.mul]
        rw [if_neg (by positivity)]
        have : toBits (.inf ((decide (0 = 1)) != decide (0 = 1))) = 255 * 2 ^ 23 + 0 := by decide
        rw [this, or_add 31 _ _ (by omega), fromBits_top hb (by omega), if_pos rfl]
      · rw [f, if_neg (show ¬ m * 2 ^ 13 = 0 by omega),
          if_neg (show ¬ 31 * 2 ^ 10 + m < 0x7C00 by omega),
          if_neg (show ¬ 31 * 2 ^ 10 + m = 0x7C00 by omega)]
        have : toBits (V.nan.mul (.fin (decide (0 = 1)) ((2 ^ 23 + 0) * 2 ^ (15 - 1)))) =
            255 * 2 ^ 23 + 2 ^ 22 := by
          simp only [V.mul, toBits]; decide
        rw [this, or_add 31 _ _ (by omega), fromBits_top hb (by omega), if_neg (by omega)]
    · have f := fromBits_normal (b := 0) (m := m * 2 ^ 13) (e := e + 224) (by omega) (by omega)
        (by omega) (by omega)
      rw [show 0 * 2 ^ 31 + ((e + 224) * 2 ^ 23 + m * 2 ^ 13) = (e + 224) * 2 ^ 23 + m * 2 ^ 13 by omega] at f
      rw [f, if_pos (by omega), hv_normal h0 hm]
      have e1 : (2 ^ 23 + m * 2 ^ 13) * 2 ^ (e + 224 - 1) * ((2 ^ 23 + 0) * 2 ^ (15 - 1)) =
          (2 ^ 10 + m) * 2 ^ (e - 1 + 125 + 149) := by
        have : 2 ^ 23 + m * 2 ^ 13 = (2 ^ 10 + m) * 2 ^ 13 := by omega
        rw [this, show 2 ^ 23 + 0 = 2 ^ 23 from rfl, ← Nat.pow_add 2 23 (15 - 1), Nat.mul_assoc, Nat.mul_assoc,
          ← Nat.pow_add 2 (e + 224 - 1), ← Nat.pow_add 2 13,
          show 13 + (e + 224 - 1 + (23 + (15 - 1))) = e - 1 + 125 + 149 by omega]
      have hlt : (2 ^ 10 + m) * 2 ^ (e - 1 + 125) < 2 ^ 277 := by
        have a1 : (2 ^ 10 + m) * 2 ^ (e - 1 + 125) < 2 ^ 11 * 2 ^ (e - 1 + 125) :=
          (Nat.mul_lt_mul_right (Nat.two_pow_pos _)).2 (by omega)
        rw [← Nat.pow_add] at a1
        exact Nat.lt_of_lt_of_le a1 (Nat.pow_le_pow_right (by omega) (by omega))
      have hS : Single ((2 ^ 10 + m) * 2 ^ (e - 1 + 125)) := single_of (by omega) (by omega)
      simp only [V.mul]
      rw [e1, rnd_exact _ (by omega) hlt]
      obtain ⟨r1, r2⟩ := bits_round_trip b hb hS
      have : toBits (.fin (decide (0 = 1) != decide (0 = 1)) ((2 ^ 10 + m) * 2 ^ (e - 1 + 125))) =
          mag ((2 ^ 10 + m) * 2 ^ (e - 1 + 125)) := by simp [toBits]
      rw [this, or_add 31 _ _ (by omega), r1, Nat.pow_add, Nat.mul_assoc]

/-! ## Writing -/

/-- Rounding to whole multiples of `2 ^ s`: to the nearest, ties to even. -/
theorem divRound_near (n s : Nat) :
    2 * dist n (divRound n s * 2 ^ s) ≤ 2 ^ s ∧
    (2 * dist n (divRound n s * 2 ^ s) = 2 ^ s → divRound n s % 2 = 0) := by
  have hp := Nat.two_pow_pos s
  have hd := Nat.div_add_mod n (2 ^ s)
  have hm := Nat.mod_lt n hp
  unfold divRound dist
  generalize n / 2 ^ s = q at *
  generalize n % 2 ^ s = r at *
  generalize 2 ^ s = S at *
  simp only
  have e1 : (q + 1) * S = S * q + S := by ring
  have e2 : q * S = S * q := by ring
  by_cases h : S < 2 * r ∨ (S = 2 * r ∧ q % 2 = 1)
  · rw [if_pos h, e1]
    omega
  · rw [if_neg h, e2]
    omega

/-- No other multiple is nearer. -/
theorem near_multiple {n s r : Nat} (h1 : 2 * dist n (r * 2 ^ s) ≤ 2 ^ s)
    (h2 : 2 * dist n (r * 2 ^ s) = 2 ^ s → r % 2 = 0) (j : Nat) :
    dist n (r * 2 ^ s) ≤ dist n (j * 2 ^ s) ∧
    (j ≠ r → dist n (r * 2 ^ s) = dist n (j * 2 ^ s) → r % 2 = 0) := by
  have hp := Nat.two_pow_pos s
  generalize 2 ^ s = S at *
  rcases Nat.lt_trichotomy j r with h | h | h
  · have : j * S + S ≤ r * S := by
      have := Nat.mul_le_mul_right S (show j + 1 ≤ r by omega)
      rwa [Nat.add_mul, Nat.one_mul] at this
    unfold dist at *
    constructor
    · omega
    · intro _ he
      apply h2
      omega
  · subst h
    exact ⟨Nat.le_refl _, fun h => absurd rfl h⟩
  · have : r * S + S ≤ j * S := by
      have := Nat.mul_le_mul_right S (show r + 1 ≤ j by omega)
      rwa [Nat.add_mul, Nat.one_mul] at this
    unfold dist at *
    constructor
    · omega
    · intro _ he
      apply h2
      omega

/-- The magnitudes of halves that are not below the binade are multiples of its unit. -/
theorem hv_multiple (g k : Nat) : hv g < 2 ^ 10 * 2 ^ k ∨ ∃ j, hv g = j * 2 ^ k := by
  unfold hv
  have hm : g % 2 ^ 10 < 2 ^ 10 := Nat.mod_lt _ (by omega)
  split
  · left
    have := Nat.le_mul_of_pos_right (2 ^ 10) (Nat.two_pow_pos k)
    omega
  · by_cases h : k ≤ g / 2 ^ 10 - 1
    · right
      refine ⟨(2 ^ 10 + g % 2 ^ 10) * 2 ^ (g / 2 ^ 10 - 1 - k), ?_⟩
      rw [Nat.mul_assoc, ← Nat.pow_add, Nat.sub_add_cancel h]
    · left
      have h1 : (2 ^ 10 + g % 2 ^ 10) * 2 ^ (g / 2 ^ 10 - 1) < 2 ^ 11 * 2 ^ (g / 2 ^ 10 - 1) :=
        (Nat.mul_lt_mul_right (Nat.two_pow_pos _)).2 (by omega)
      rw [← Nat.pow_add] at h1 ⊢
      exact Nat.lt_of_lt_of_le h1 (Nat.pow_le_pow_right (by omega) (by omega))

/-- The half with a given exponent and a rounded mantissa that includes the leading bit. -/
theorem hv_carry {k r : Nat} (hr : r ≤ 2 ^ 11) (hk : k ≠ 0 → 2 ^ 10 ≤ r) :
    hv (k * 2 ^ 10 + r) = r * 2 ^ k := by
  by_cases h1 : r < 2 ^ 10
  · have : k = 0 := by
      by_contra h
      have := hk h
      omega
    subst this
    rw [hv_small h1]; omega
  · by_cases h2 : r = 2 ^ 11
    · subst h2
      rw [show k * 2 ^ 10 + 2 ^ 11 = (k + 2) * 2 ^ 10 + 0 by omega, hv_normal (by omega) (by omega),
        show k + 2 - 1 = k + 1 by omega, Nat.pow_succ]
      ring
    · rw [show k * 2 ^ 10 + r = (k + 1) * 2 ^ 10 + (r - 2 ^ 10) by omega,
        hv_normal (by omega) (by omega), show k + 1 - 1 = k by omega,
        show 2 ^ 10 + (r - 2 ^ 10) = r by omega]

theorem divRound_scale (n s j : Nat) : divRound (n * 2 ^ j) (s + j) = divRound n s := by
  have hp := Nat.two_pow_pos j
  unfold divRound
  have e1 : n * 2 ^ j / 2 ^ (s + j) = n / 2 ^ s := by
    rw [Nat.pow_add, Nat.mul_div_mul_right _ _ hp]
  have e2 : n * 2 ^ j % 2 ^ (s + j) = n % 2 ^ s * 2 ^ j := by
    rw [Nat.pow_add, Nat.mul_mod_mul_right]
  simp only [e1, e2]
  have e3 : 2 ^ (s + j) < 2 * (n % 2 ^ s * 2 ^ j) ↔ 2 ^ s < 2 * (n % 2 ^ s) := by
    rw [Nat.pow_add, ← Nat.mul_assoc]
    exact Nat.mul_lt_mul_right hp
  have e4 : 2 ^ (s + j) = 2 * (n % 2 ^ s * 2 ^ j) ↔ 2 ^ s = 2 * (n % 2 ^ s) := by
    rw [Nat.pow_add, ← Nat.mul_assoc]
    exact Nat.mul_left_inj (by omega)
  simp only [e3, e4]

theorem divRound_add (n s q : Nat) (hq : q % 2 = 0) :
    divRound (q * 2 ^ s + n) s = q + divRound n s := by
  have hp := Nat.two_pow_pos s
  unfold divRound
  have e1 : (q * 2 ^ s + n) / 2 ^ s = q + n / 2 ^ s := by
    rw [Nat.add_comm, Nat.add_mul_div_right _ _ hp]; omega
  have e2 : (q * 2 ^ s + n) % 2 ^ s = n % 2 ^ s := by
    rw [Nat.add_comm, Nat.add_mul_mod_self_right]
  simp only [e1, e2]
  have e3 : (q + n / 2 ^ s) % 2 = n / 2 ^ s % 2 := by omega
  rw [e3]
  split <;> omega

end Verif.Half
