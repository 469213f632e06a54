import Verif.IntOperator

/-! # Properties C03 and C04: extended gcd, lcm, overflow predicates -/

namespace Verif.IntOperator

/-- **C03.** The returned triple is a Bezout identity for the gcd (up to the sign of the
result, which is non-negative whenever `b ≥ 0`). -/
theorem extendedEuclidean_correct (a b : Int) :
    let (g, x, y) := extendedEuclidean a b
    x * a + y * b = g ∧ g.natAbs = Int.gcd a b ∧ (0 ≤ b → g = Int.gcd a b) := by
  obtain ⟨⟨t, h1⟩, h2, h3⟩ := eeLoop_spec (if a ≥ 0 then a else -a) b
    { s := 0, oldS := 1, r := b, oldR := if a ≥ 0 then a else -a } ⟨0, by simp⟩ ⟨1, by simp⟩
  have habs : (if a ≥ 0 then a else -a).natAbs = a.natAbs := by split <;> simp
  simp only [extendedEuclidean]
  generalize eeLoop _ = st at *
  simp only [habs] at h2
  refine ⟨?_, h2, ?_⟩
  · have hx : (if a ≥ 0 then st.oldS else -st.oldS) * a = (if a ≥ 0 then a else -a) * st.oldS := by
      split <;> ring
    rw [hx]
    by_cases hb : b = 0
    · simp [hb] at h1 ⊢; omega
    · rw [if_pos hb, h1, add_sub_cancel_left, Int.mul_tdiv_cancel_left _ hb]
      ring
  · intro hb
    have h4 := h3 (by simp only; split <;> omega) hb
    rw [Int.gcd]; omega

/-- Every state the loop passes through. -/
inductive EEReach (a b : Int) : EEState → Prop
  | init : EEReach a b { s := 0, oldS := 1, r := b, oldR := if a ≥ 0 then a else -a }
  | step {st} : EEReach a b st → st.r ≠ 0 → EEReach a b (eeStep st)

/-- **C03 (no overflow in the loop).** Every value held by the loop variables, and the product
`q * s` and `q * r` computed in the body, is bounded by `max |a| |b|` (or 1). -/
theorem extendedEuclidean_bounded (a b : Int) (st : EEState) (h : EEReach a b st) :
    |st.r| ≤ max |a| |b| ∧ |st.oldR| ≤ max |a| |b| ∧
    |st.s| ≤ max 1 |b| ∧ |st.oldS| ≤ max 1 |b| ∧
    (st.r ≠ 0 → |st.oldR.tdiv st.r * st.r| ≤ max |a| |b| ∧
      |st.oldR.tdiv st.r * st.s| ≤ 2 * max 1 |b|) := by
  have hfirst : EEInv b st ∧ |st.r| ≤ max |a| |b| ∧ |st.oldR| ≤ max |a| |b| ∧
      |st.s| ≤ max 1 |b| ∧ |st.oldS| ≤ max 1 |b| := by
    induction h with
    | init =>
      refine ⟨⟨by simp, by simp⟩, le_max_right _ _, ?_, by simp, by simp⟩
      refine le_trans (le_of_eq ?_) (le_max_left _ _)
      simp only
      split <;> simp
    | @step st h0 hr ih =>
      obtain ⟨i1, i2, i3, i4, i5⟩ := ih
      have inv := eeStep_inv b st i1 hr
      refine ⟨inv, ?_, i2, ?_, i4⟩
      · rw [step_r]
        refine le_trans ?_ i3
        have := Int.natAbs_tmod st.oldR st.r
        have h2 := Nat.mod_le st.oldR.natAbs st.r.natAbs
        rw [Int.abs_eq_natAbs, Int.abs_eq_natAbs]
        omega
      · refine le_trans ?_ (le_max_right _ _)
        have h1 := inv.1
        have h2 : 1 ≤ |(eeStep st).oldR| := Int.one_le_abs hr
        have h3 : 0 ≤ |(eeStep st).r| * |(eeStep st).oldS| := by positivity
        have h4 : 0 ≤ |(eeStep st).s| := abs_nonneg _
        nlinarith
  obtain ⟨i1, i2, i3, i4, i5⟩ := hfirst
  refine ⟨i2, i3, i4, i5, fun hr => ?_⟩
  constructor
  · refine le_trans ?_ i3
    have hm := Int.mul_tdiv_add_tmod st.oldR st.r
    have h1 : (st.oldR.tdiv st.r * st.r).natAbs = st.oldR.natAbs / st.r.natAbs * st.r.natAbs := by
      rw [Int.natAbs_mul, Int.natAbs_tdiv]; rfl
    rw [Int.abs_eq_natAbs, Int.abs_eq_natAbs]
    have h2 := Nat.div_mul_le_self st.oldR.natAbs st.r.natAbs
    omega
  · have inv := eeStep_inv b st i1 hr
    have h1 := inv.1
    have h2 : 1 ≤ |(eeStep st).oldR| := Int.one_le_abs hr
    have h3 : 0 ≤ |(eeStep st).r| * |(eeStep st).oldS| := by positivity
    have h4 : 0 ≤ |(eeStep st).s| := abs_nonneg _
    have h5 : |(eeStep st).s| ≤ |b| := by nlinarith
    have h6 : st.oldR.tdiv st.r * st.s = st.oldS - (eeStep st).s := by simp [eeStep]
    rw [h6]
    have h7 := abs_sub st.oldS (eeStep st).s
    have h8 : |b| ≤ max 1 |b| := le_max_right _ _
    omega

/-- The sign caveat is real: for a negative second argument the "gcd" can be negative. -/
theorem extendedEuclidean_negative : (extendedEuclidean 0 (-3)).1 = -3 := by
  simp [extendedEuclidean, eeLoop, eeStep]

/-- **C03 (gcd).** `ZeroAwareGCD` is the gcd with `0` neutral, for all integers. -/
theorem zeroAwareGCD_correct (a b : Int) : zeroAwareGCD a b = Int.gcd a b := by
  have ha : ((if a < 0 then -a else a : Int)) = a.natAbs := by split <;> omega
  have hb : ((if b < 0 then -b else b : Int)) = b.natAbs := by split <;> omega
  simp only [zeroAwareGCD]
  rw [ha, hb]
  by_cases hlt : (a.natAbs : Int) < b.natAbs
  · simp only [if_pos hlt]
    by_cases h0 : (a.natAbs : Int) = 0
    · have : a = 0 := by omega
      subst this; simp
    · rw [if_neg h0, zgcdLoop_spec _ _ (by omega) (by omega)]
      rw [Int.gcd, Int.natAbs_natCast, Int.natAbs_natCast, Nat.gcd_comm]; rfl
  · simp only [if_neg hlt]
    by_cases h0 : (b.natAbs : Int) = 0
    · have : b = 0 := by omega
      subst this; simp
    · rw [if_neg h0, zgcdLoop_spec _ _ (by omega) (by omega)]
      rw [Int.gcd, Int.natAbs_natCast, Int.natAbs_natCast]; rfl

/-- **C03 (lcm).** For a non-negative first and positive second argument
`LeastCommonMultiple` is the least common multiple. -/
theorem leastCommonMultiple_correct (a b : Int) (ha : 0 ≤ a) (hb : 0 < b) :
    leastCommonMultiple a b = Int.lcm a b := by
  have h : (extendedEuclidean a b).1 = Int.gcd a b := (extendedEuclidean_correct a b).2.2 hb.le
  unfold leastCommonMultiple
  rw [h]
  have hg : (Int.gcd a b : Int) ≠ 0 := by
    have := Int.gcd_pos_of_ne_zero_right a (b := b) (by omega)
    omega
  have hm : (Int.gcd a b : Int) * (Int.lcm a b) = a * b := by
    have := Int.gcd_mul_lcm a b
    have h2 : ((Int.gcd a b * Int.lcm a b : Nat) : Int) = (a * b).natAbs := by rw [this, Int.natAbs_mul]
    rw [Nat.cast_mul] at h2
    rw [h2, Int.natAbs_of_nonneg (mul_nonneg ha hb.le)]
  rw [← hm, Int.mul_tdiv_cancel_left _ hg]

example : (extendedEuclidean 240 46) = (2, -9, 47) := by
  simp [extendedEuclidean, eeLoop, eeStep]
example : EEReach 6 4 (eeStep { s := 0, oldS := 1, r := 4, oldR := 6 }) :=
  .step (.init (a := 6) (b := 4)) (by decide)
example : leastCommonMultiple 4 6 = 12 := by
  rw [leastCommonMultiple_correct 4 6 (by decide) (by decide)]; decide

/-- **C04 (add).** -/
theorem willOverflowAdd_iff (x y min max : Int) (h1 : min ≤ x) (h2 : x ≤ max) :
    willOverflowAdd x y min max = true ↔ ¬ (min ≤ x + y ∧ x + y ≤ max) := by
  unfold willOverflowAdd
  split <;> (try split) <;> simp <;> omega

/-- **C04 (sub).** -/
theorem willOverflowSub_iff (x y min max : Int) (h1 : min ≤ x) (h2 : x ≤ max) :
    willOverflowSub x y min max = true ↔ ¬ (min ≤ x - y ∧ x - y ≤ max) := by
  unfold willOverflowSub
  split <;> (try split) <;> simp <;> omega

/-- **C04 (mul, partial).** Exact whenever the evaluation does not hit the undefined division
`INT64_MIN / -1`.  Missing for the full claim: the range `min = INT64_MIN` with `y = -1`, where
the code divides `INT64_MIN` by `-1` (see `willOverflowMul_refuted`). -/
theorem willOverflowMul_iff_partial (x y min max : Int) (hmin : min ≤ 0) (hmax : 0 ≤ max)
    (hhi : max ≤ 9223372036854775807)
    (hub : ¬ (y = -1 ∧ min = int64Min ∧ x ≠ int64Min)) :
    ∃ r, willOverflowMul x y min max = some r ∧
      (r = true ↔ ¬ (min ≤ x * y ∧ x * y ≤ max)) := by
  unfold willOverflowMul
  by_cases hy0 : y = 0
  · simp [hy0, hmin, hmax]
  rw [if_neg hy0]
  by_cases hy : y > 0
  · rw [if_pos hy]
    have e1 : min.tdiv y = -((-min) / y) := by
      have : min = -(-min) := by omega
      rw [this, Int.neg_tdiv, Int.tdiv_eq_ediv_of_nonneg (by omega)]; simp
    have e2 : max.tdiv y = max / y := Int.tdiv_eq_ediv_of_nonneg hmax
    have k1 : x < min.tdiv y ↔ x * y < min := by
      rw [e1]
      have : -x * y = -(x * y) := by ring
      constructor
      · intro h
        have h3 : (-min) / y < -x := by omega
        have := (Int.ediv_lt_iff_lt_mul hy).mp h3
        omega
      · intro h
        have h3 : (-min) / y < -x := (Int.ediv_lt_iff_lt_mul hy).mpr (by omega)
        omega
    have k2 : x > max.tdiv y ↔ x * y > max := by
      rw [e2]
      exact (Int.ediv_lt_iff_lt_mul hy)
    by_cases c1 : x < min.tdiv y
    · rw [if_pos c1]; exact ⟨true, rfl, by have := k1.mp c1; simp; omega⟩
    · rw [if_neg c1]
      by_cases c2 : x > max.tdiv y
      · rw [if_pos c2]; exact ⟨true, rfl, by have := k2.mp c2; simp; omega⟩
      · rw [if_neg c2]
        refine ⟨false, rfl, ?_⟩
        have := fun h => c1 (k1.mpr h)
        have := fun h => c2 (k2.mpr h)
        simp; omega
  · rw [if_neg hy]
    have hyn : 0 < -y := by omega
    by_cases c0 : y = -1 ∧ x = int64Min
    · rw [if_pos c0]
      refine ⟨true, rfl, ?_⟩
      obtain ⟨rfl, rfl⟩ := c0
      simp [int64Min]; omega
    rw [if_neg c0]
    by_cases c00 : y = -1 ∧ min = int64Min
    · exact absurd ⟨c00.1, c00.2, fun h => c0 ⟨c00.1, h⟩⟩ hub
    rw [if_neg c00]
    have e1 : min.tdiv y = (-min) / (-y) := by
      have : min.tdiv y = (-min).tdiv (-y) := by simp
      rw [this, Int.tdiv_eq_ediv_of_nonneg (by omega)]
    have e2 : max.tdiv y = -(max / (-y)) := by
      have : max.tdiv y = -(max.tdiv (-y)) := by simp
      rw [this, Int.tdiv_eq_ediv_of_nonneg (by omega)]
    have k1 : x > min.tdiv y ↔ x * y < min := by
      rw [e1]
      have : x * -y = -(x * y) := by ring
      constructor
      · intro h
        have := (Int.ediv_lt_iff_lt_mul hyn).mp h
        omega
      · intro h
        exact (Int.ediv_lt_iff_lt_mul hyn).mpr (by omega)
    have k2 : x < max.tdiv y ↔ x * y > max := by
      rw [e2]
      have : -x * -y = x * y := by ring
      constructor
      · intro h
        have h3 : max / (-y) < -x := by omega
        have := (Int.ediv_lt_iff_lt_mul hyn).mp h3
        omega
      · intro h
        have h3 : max / (-y) < -x := (Int.ediv_lt_iff_lt_mul hyn).mpr (by omega)
        omega
    by_cases c1 : x > min.tdiv y
    · rw [if_pos c1]; exact ⟨true, rfl, by have := k1.mp c1; simp; omega⟩
    · rw [if_neg c1]
      by_cases c2 : x < max.tdiv y
      · rw [if_pos c2]; exact ⟨true, rfl, by have := k2.mp c2; simp; omega⟩
      · rw [if_neg c2]
        refine ⟨false, rfl, ?_⟩
        have := fun h => c1 (k1.mpr h)
        have := fun h => c2 (k2.mpr h)
        simp; omega

/-- **C04 refuted at the 64-bit range.** Checking `5 * -1` in the full `int64_t` range executes
`INT64_MIN / -1`, which is undefined behaviour. -/
theorem willOverflowMul_refuted :
    willOverflowMul 5 (-1) int64Min 9223372036854775807 = none := by decide

/-- **C04 (mod).** Reports exactly the zero divisor. -/
theorem willOverflowMod_iff (x y min max : Int) : willOverflowMod x y min max = true ↔ y = 0 := by
  simp [willOverflowMod]

example : willOverflowMul 100 3 (-128) 127 = some true ∧ willOverflowMul 42 3 (-128) 127 = some false ∧
    ¬ ((3 : Int) = -1 ∧ (-128 : Int) = int64Min ∧ (100 : Int) ≠ int64Min) := by decide
example : willOverflowAdd 100 28 (-128) 127 = true ∧ willOverflowSub (-100) 28 (-128) 127 = false := by
  decide

end Verif.IntOperator
