import Verif.OrderSort

/-!
# Modulo of numbers of unknown type -/

namespace Verif.Order
open HashEq (F ofInt almostEq toF Rep)

/-- The remainder of two doubles is a double. -/
theorem rep_mod {a b : Nat} (ha : Rep a) (hb : Rep b) (h : 0 < b) : Rep (a % b) := by
  by_cases hlt : a < b
  · rwa [Nat.mod_eq_of_lt hlt]
  obtain ⟨c, s, hc, rfl⟩ := ha
  obtain ⟨d, t, hd, rfl⟩ := hb
  have hr := Nat.mod_lt (c * 2 ^ s) h
  have hle := Nat.mod_le (c * 2 ^ s) (d * 2 ^ t)
  by_cases hst : s ≤ t
  · have e : d * 2 ^ t = d * 2 ^ (t - s) * 2 ^ s := by
      rw [Nat.mul_assoc, ← Nat.pow_add, Nat.sub_add_cancel hst]
    rw [e, Nat.mul_mod_mul_right] at *
    refine ⟨c % (d * 2 ^ (t - s)), s, ?_, rfl⟩
    exact Nat.lt_of_le_of_lt (Nat.mod_le _ _) hc
  · have e : c * 2 ^ s = c * 2 ^ (s - t) * 2 ^ t := by
      rw [Nat.mul_assoc, ← Nat.pow_add, Nat.sub_add_cancel (by omega)]
    rw [e, Nat.mul_mod_mul_right] at *
    refine ⟨c * 2 ^ (s - t) % d, t, ?_, rfl⟩
    have hd' : 0 < d := Nat.pos_of_mul_pos_right h
    exact Nat.lt_trans (Nat.mod_lt _ hd') hd

theorem tmod_facts (x w : Int) (hw : w ≠ 0) :
    (x.tmod w).natAbs = x.natAbs % w.natAbs ∧ (x.tmod w).natAbs < w.natAbs ∧
    (0 ≤ x → 0 ≤ x.tmod w) ∧ (x ≤ 0 → x.tmod w ≤ 0) := by
  refine ⟨Int.natAbs_tmod .., ?_, ?_, ?_⟩
  · rw [Int.natAbs_tmod]; exact Nat.mod_lt _ (by omega)
  · exact fun h => Int.tmod_nonneg w h
  · intro h
    have := Int.tmod_nonneg (a := -x) w (by omega)
    rw [Int.neg_tmod] at this
    omega

theorem fmod_tmod (x w : Int) (hw : w ≠ 0) :
    x.fmod w = if w < 0 ∧ 0 < x.tmod w ∨ 0 < w ∧ x.tmod w < 0 then x.tmod w + w
      else x.tmod w := by
  obtain ⟨_, h2, h3, h4⟩ := tmod_facts x w hw
  have hd : w ∣ x ↔ x.tmod w = 0 := Int.dvd_iff_tmod_eq_zero
  rw [Int.fmod_eq_tmod]
  generalize x.tmod w = m at *
  by_cases h0 : m = 0
  · have : w ∣ x := hd.2 h0
    rw [if_pos this, if_neg (by omega), h0]; rfl
  · rw [if_neg (fun h => h0 (hd.1 h))]
    by_cases hx : 0 ≤ x
    · have := h3 hx
      rw [if_pos hx]
      by_cases hb : 0 ≤ w
      · rw [if_pos hb, if_neg (by omega)]; omega
      · rw [if_neg hb, if_pos (by omega)]
    · have := h4 (by omega)
      rw [if_neg hx]
      by_cases hb : 0 ≤ w
      · rw [if_pos hb, if_pos (by omega), Int.natAbs_of_nonneg hb]
      · rw [if_neg hb, if_neg (by omega)]; omega

/-- A double that is no infinity and no nan. -/
def Double (z : Int) : Prop := Rep z.natAbs ∧ z.natAbs < 2 ^ 2098

theorem toF_bounded {z w : Int} (hw : Double w) (h : z.natAbs ≤ w.natAbs) :
    ∃ r, toF z = .fin r := by
  refine ⟨_, HashEq.toF_fin (Nat.lt_of_le_of_lt (HashEq.round53_le hw.1 h) hw.2)⟩

/-- C110: `%` of two finite doubles is the exact remainder with the sign of the divisor, rounded
once. -/
theorem float_mod (x w : Int) (hx : Double x) (hw : Double w) (h0 : w ≠ 0) :
    floormod (.flt (.fin x)) (.flt (.fin w)) = .ok (toF (x.fmod w)) := by
  obtain ⟨h1, h2, h3, h4⟩ := tmod_facts x w h0
  have hrep : Rep (x.tmod w).natAbs := by
    rw [h1]; exact rep_mod hx.1 hw.1 (by omega)
  have hself : toF (x.tmod w) = .fin (x.tmod w) :=
    HashEq.toF_rep hrep (Nat.lt_trans h2 hw.2)
  have hne : (F.fin w) ≠ .fin 0 := fun h => h0 (F.fin.inj h)
  simp only [floormod, floatRem, if_neg hne, fmod, if_neg h0]
  rw [fmod_tmod x w h0]
  by_cases hz : x.tmod w = 0
  · rw [if_pos hz, if_neg (by omega), hself, hz]
    rfl
  · rw [if_neg hz]
    have hb : ((F.fin w).lt (.fin 0) != decide (x.tmod w < 0)) =
        decide (w < 0 ∧ 0 < x.tmod w ∨ 0 < w ∧ x.tmod w < 0) := by
      rw [Bool.eq_iff_iff]
      simp only [F.lt, bne_iff_ne, ne_eq, decide_eq_decide, decide_eq_true_eq]
      omega
    rw [hb]
    by_cases hs : w < 0 ∧ 0 < x.tmod w ∨ 0 < w ∧ x.tmod w < 0
    · rw [if_pos (decide_eq_true hs), if_pos hs]
      simp only [F.add, Except.bind]
      obtain ⟨r, hr⟩ := toF_bounded hw (z := x.tmod w + w) (by omega)
      rw [hr]
      rfl
    · rw [if_neg (by simpa using hs), if_neg hs, hself]
      rfl

/-- `-7.0 % 4.0` is `1.0`. -/
example : Int.fmod (-7 * 2 ^ 1074) (4 * 2 ^ 1074) = 1 * 2 ^ 1074 := by decide +kernel

/-- C110: the remainder lies between zero and the divisor. -/
theorem mod_sign (x w : Int) (h0 : w ≠ 0) :
    (0 < w → 0 ≤ x.fmod w ∧ x.fmod w < w) ∧ (w < 0 → w < x.fmod w ∧ x.fmod w ≤ 0) ∧
    w ∣ x - x.fmod w := by
  obtain ⟨_, h2, h3, h4⟩ := tmod_facts x w h0
  have hd : w ∣ x - x.tmod w := by
    have := Int.tmod_add_mul_tdiv x w
    exact ⟨x.tdiv w, by omega⟩
  rw [fmod_tmod x w h0]
  refine ⟨?_, ?_, ?_⟩
  · intro hw
    split <;> constructor <;> omega
  · intro hw
    split <;> constructor <;> omega
  · split
    · have : x - (x.tmod w + w) = (x - x.tmod w) - w := by omega
      rw [this]
      exact Int.dvd_sub hd (Int.dvd_refl w)
    · exact hd

/-- C110: a double modulo an integer, both of unknown type. -/
theorem float_mod_int (x b : Int) (hx : Double x) (hb : b.natAbs < 2 ^ 53) (h0 : b ≠ 0) :
    floormod (.flt (.fin x)) (.int b) = .ok (toF (x.fmod (b * 2 ^ 1074))) := by
  have e : ofInt b = .fin (b * 2 ^ 1074) := ofInt_exact hb
  have hw : Double (b * 2 ^ 1074) := by
    have en : (b * 2 ^ 1074 : Int).natAbs = b.natAbs * 2 ^ 1074 := by
      rw [Int.natAbs_mul, Int.natAbs_pow]; rfl
    refine ⟨⟨b.natAbs, 1074, hb, en⟩, ?_⟩
    rw [en]
    refine Nat.lt_of_lt_of_le ((Nat.mul_lt_mul_right (Nat.two_pow_pos 1074)).2 hb) ?_
    rw [← Nat.pow_add]
    exact Nat.pow_le_pow_right (by omega) (by omega)
  have h0' : b * 2 ^ 1074 ≠ 0 := by
    intro h
    rcases Int.mul_eq_zero.1 h with h | h
    · exact h0 h
    · exact absurd h (Int.ne_of_gt scale_pos)
  have := float_mod x (b * 2 ^ 1074) hx hw h0'
  simp only [floormod] at this ⊢
  rw [e]
  exact this

/-- C110: `x % 0.0` raises ZeroDivisionError. -/
theorem float_mod_zero (x : F) : floormod (.flt x) (.flt (.fin 0)) = .error .zeroDiv := by
  simp only [floormod, floatRem, if_true]; rfl

/-- C110, false: an integer of unknown type modulo a double has the sign of the integer. -/
theorem int_mod_float_refuted (a w : Int) (ha : a.natAbs < 2 ^ 53) (hneg : a < 0) (hw : 0 < w)
    (hd : ¬ w ∣ a * 2 ^ 1074) :
    ∃ r, floormod (.int a) (.flt (.fin w)) = .ok (.fin r) ∧ r < 0 ∧
      0 < (a * 2 ^ 1074).fmod w := by
  have e : ofInt a = .fin (a * 2 ^ 1074) := ofInt_exact ha
  have h0 : w ≠ 0 := by omega
  have hx : a * 2 ^ 1074 < 0 := Int.mul_neg_of_neg_of_pos hneg scale_pos
  generalize a * 2 ^ 1074 = x at *
  obtain ⟨_, h2, h3, h4⟩ := tmod_facts x w h0
  have hz : x.tmod w ≠ 0 := fun h => hd (Int.dvd_iff_tmod_eq_zero.2 h)
  have hlt : x.tmod w < 0 := by have := h4 (by omega); omega
  refine ⟨x.tmod w, ?_, hlt, ?_⟩
  · simp only [floormod, e, fmod, if_neg h0]; rfl
  · rw [fmod_tmod x w h0, if_pos (Or.inr ⟨by omega, hlt⟩)]
    omega

/-- `-7 % 2.5` is `-2.0` and not `0.5`. -/
example : floormod (.int (-7)) (.flt (.fin (5 * 2 ^ 1073))) = .ok (.fin (-2 * 2 ^ 1074)) ∧
    Int.fmod (-7 * 2 ^ 1074) (5 * 2 ^ 1073) = 2 ^ 1073 := by
  constructor
  · have e : ofInt (-7) = .fin (-7 * 2 ^ 1074) := ofInt_exact (by decide)
    have h : fmod (.fin (-7 * 2 ^ 1074)) (.fin (5 * 2 ^ 1073)) = .fin (-2 * 2 ^ 1074) := by
      decide +kernel
    simp only [floormod, e, h]
    rfl
  · decide +kernel

/-- C110: where signs agree the result is right, for an integer modulo a double. -/
theorem int_mod_float_partial (a w : Int) (ha : a.natAbs < 2 ^ 53) (hs : 0 ≤ a ∧ 0 < w ∨ a ≤ 0 ∧ w < 0) :
    floormod (.int a) (.flt (.fin w)) = .ok (.fin ((a * 2 ^ 1074).fmod w)) := by
  have e : ofInt a = .fin (a * 2 ^ 1074) := ofInt_exact ha
  have h0 : w ≠ 0 := by omega
  have hp : 0 ≤ a → 0 ≤ a * 2 ^ 1074 := fun h => Int.mul_nonneg h (Int.le_of_lt scale_pos)
  have hn : a ≤ 0 → a * 2 ^ 1074 ≤ 0 := fun h =>
    Int.mul_nonpos_of_nonpos_of_nonneg h (Int.le_of_lt scale_pos)
  generalize a * 2 ^ 1074 = x at *
  obtain ⟨_, h2, h3, h4⟩ := tmod_facts x w h0
  simp only [floormod, e, fmod, if_neg h0]
  rw [fmod_tmod x w h0, if_neg]
  · rfl
  · have := fun h => h3 (hp h)
    have := fun h => h4 (hn h)
    omega

/-- C110, false: a double of unknown type modulo an integer of known type keeps the sign of the
double, though the same operands of unknown type give Python's result. -/
theorem float_mod_typed_int_refuted (x b : Int) (hb : b.natAbs < 2 ^ 53) (hpos : 0 < b) (hx : x < 0)
    (hd : ¬ b * 2 ^ 1074 ∣ x) :
    ∃ r, floormodInt (.flt (.fin x)) b = .ok (.fin r) ∧ r < 0 ∧ 0 < x.fmod (b * 2 ^ 1074) := by
  have e : ofInt b = .fin (b * 2 ^ 1074) := ofInt_exact hb
  have hw : 0 < b * 2 ^ 1074 := Int.mul_pos hpos scale_pos
  generalize b * 2 ^ 1074 = w at *
  have h0 : w ≠ 0 := by omega
  obtain ⟨_, h2, h3, h4⟩ := tmod_facts x w h0
  have hz : x.tmod w ≠ 0 := fun h => hd (Int.dvd_iff_tmod_eq_zero.2 h)
  have hlt : x.tmod w < 0 := by have := h4 (by omega); omega
  refine ⟨x.tmod w, ?_, hlt, ?_⟩
  · simp only [floormodInt, e, fmod, if_neg h0]; rfl
  · rw [fmod_tmod x w h0, if_pos (Or.inr ⟨by omega, hlt⟩)]
    omega

/-- C110, false: an integer modulo `0.0` raises ValueError, where Python raises
ZeroDivisionError. -/
theorem int_mod_zero_refuted (a : Int) (ha : a.natAbs < 2 ^ 53) :
    floormod (.int a) (.flt (.fin 0)) = .error .value := by
  have e : ofInt a = .fin (a * 2 ^ 1074) := ofInt_exact ha
  simp only [floormod, e, fmod, if_true]
  rfl

/-- C110, false: a negative double modulo infinity raises ValueError, where Python returns
infinity. -/
theorem mod_inf_refuted (x : Int) (hx : x < 0) :
    floormod (.flt (.fin x)) (.flt (.inf false)) = .error .value := by
  have h0 : x ≠ 0 := by omega
  simp only [floormod, floatRem, fmod, reduceCtorEq, if_false, if_neg h0]
  simp only [F.lt, hx, decide_true]
  rfl

end Verif.Order
