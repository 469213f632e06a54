import Verif.HalfProps
import Mathlib.Tactic.Positivity

/-!
# Writing halves
-/

namespace Verif.Half

open HashEq (bitLen divRound)

theorem rnd_bits (neg : Bool) {c t k : Nat} (hc : c < 2 ^ 24) :
    rnd neg (c * 2 ^ (t + k)) k = if 2 ^ 277 ≤ c * 2 ^ t then .inf neg else .fin neg (c * 2 ^ t) := by
  by_cases h : c * 2 ^ t < 2 ^ 277
  · rw [rnd_exact neg hc h, if_neg (by omega)]
  · have hb : bitLen (c * 2 ^ (t + k)) ≤ 24 + t + k := by
      rw [HashEq.bitLen_le, show 24 + t + k = 24 + (t + k) by omega, Nat.pow_add 2 24]
      exact (Nat.mul_lt_mul_right (Nat.two_pow_pos _)).2 hc
    unfold rnd
    generalize hs : bitLen (c * 2 ^ (t + k)) - k - 24 = s
    have hst : s ≤ t := by omega
    have e : c * 2 ^ (t + k) = c * 2 ^ (t - s) * 2 ^ (k + s) := by
      rw [Nat.mul_assoc, ← Nat.pow_add, show t - s + (k + s) = t + k by omega]
    have e2 : divRound (c * 2 ^ (t + k)) (k + s) * 2 ^ s = c * 2 ^ t := by
      rw [e, HashEq.divRound_exact, Nat.mul_assoc, ← Nat.pow_add, show t - s + s = t by omega]
    simp only [e2]

/-- The low bits of the result. -/
def nonsign (bits : Nat) : Nat := ((bits >>> 13 &&& 0x00007C00) + (bits &&& 0x00000FFF)) % 2 ^ 32

/-- The words of the conversion, in arithmetic. -/
theorem fromFloat_words {b e m : Nat} (hb : b ≤ 1) (he : e < 256) (hm : m < 2 ^ 23) :
    fromFloat (b * 2 ^ 31 + (e * 2 ^ 23 + m)) =
      (b * 2 ^ 15 ||| (if e = 255 ∧ m ≠ 0 then 0x7E00 else
        nonsign (toBits ((fromBits (((if e < 113 then 113 else e) + 15) * 2 ^ 23)).add
          (((fromBits (b * 2 ^ 31 + (e * 2 ^ 23 + m))).abs.mul (fromBits (239 * 2 ^ 23))).mul
            (fromBits (17 * 2 ^ 23))))))) % 2 ^ 16 := by
  have h2 : (b * 2 ^ 31 + (e * 2 ^ 23 + m) + (b * 2 ^ 31 + (e * 2 ^ 23 + m))) % 2 ^ 32 =
      e * 2 ^ 24 + 2 * m := by omega
  have hm1 : (0x80000000 : Nat) = (2 ^ 1 - 1) <<< 31 := by decide
  have hs : (b * 2 ^ 31 + (e * 2 ^ 23 + m)) &&& 0x80000000 = b * 2 ^ 31 := by
    rw [hm1, and_mask]; omega
  have hm2 : (0xFF000000 : Nat) = (2 ^ 8 - 1) <<< 24 := by decide
  have h3 : (e * 2 ^ 24 + 2 * m) &&& 0xFF000000 = e * 2 ^ 24 := by
    rw [hm2, and_mask]; omega
  have h4 : (if e * 2 ^ 24 < 0x71000000 then 0x71000000 else e * 2 ^ 24) =
      (if e < 113 then 113 else e) * 2 ^ 24 := by
    by_cases h : e < 113
    · rw [if_pos (by omega), if_pos h]; omega
    · rw [if_neg (by omega), if_neg h]
  have h5 : ∀ E, E < 256 → (((E * 2 ^ 24) >>> 1) + 0x07800000) % 2 ^ 32 = (E + 15) * 2 ^ 23 := by
    intro E hE
    rw [Nat.shiftRight_eq_div_pow]; omega
  have h6 : (b * 2 ^ 31) >>> 16 = b * 2 ^ 15 := by
    rw [Nat.shiftRight_eq_div_pow]; omega
  have h7 : 0xFF000000 < e * 2 ^ 24 + 2 * m ↔ e = 255 ∧ m ≠ 0 := by omega
  have h8 : (239 : Nat) <<< 23 = 239 * 2 ^ 23 := by rw [Nat.shiftLeft_eq]
  have h9 : (17 : Nat) <<< 23 = 17 * 2 ^ 23 := by rw [Nat.shiftLeft_eq]
  have hE : (if e < 113 then 113 else e) < 256 := by split <;> omega
  simp only [fromFloat, h2, hs, h3, h4, h5 _ hE, h6, h7, h8, h9, nonsign]

/-- The half that has the bits. -/
theorem nonsign_eq {E R : Nat} (h1 : 113 ≤ E) (h2 : E ≤ 142) (hR : R ≤ 2 ^ 11) :
    nonsign ((E + 15) * 2 ^ 23 + R) = (E - 113) * 2 ^ 10 + R := by
  have hm1 : (0x00007C00 : Nat) = (2 ^ 5 - 1) <<< 10 := by decide
  have hm2 : (0x00000FFF : Nat) = (2 ^ 12 - 1) <<< 0 := by decide
  unfold nonsign
  rw [hm1, and_mask, hm2, and_mask, Nat.shiftRight_eq_div_pow]
  omega

theorem single_bits {e m : Nat} (he : e < 255) (hm : m < 2 ^ 23) (b : Nat) (hb : b ≤ 1) :
    ∃ c t, fromBits (b * 2 ^ 31 + (e * 2 ^ 23 + m)) = .fin (decide (b = 1)) (c * 2 ^ t) ∧
      c < 2 ^ 24 ∧ t = e - 1 ∧ (e ≠ 0 → 2 ^ 23 ≤ c) := by
  by_cases h : e = 0
  · subst h
    refine ⟨m, 0, ?_, by omega, rfl, fun h => absurd rfl h⟩
    rw [show 0 * 2 ^ 23 + m = m by omega, fromBits_small hb hm]
    simp
  · exact ⟨2 ^ 23 + m, e - 1, fromBits_normal hb hm (by omega) he, by omega, rfl, by omega⟩

theorem scale_inf : fromBits (239 * 2 ^ 23) = .fin false (2 ^ 261) := by
  have f := fromBits_normal (b := 0) (m := 0) (e := 239) (by omega) (by omega) (by omega) (by omega)
  rw [show 0 * 2 ^ 31 + (239 * 2 ^ 23 + 0) = 239 * 2 ^ 23 by omega] at f
  rw [f, show 2 ^ 23 + 0 = 2 ^ 23 from rfl, ← Nat.pow_add]
  rfl

theorem scale_zero : fromBits (17 * 2 ^ 23) = .fin false (2 ^ 39) := by
  have f := fromBits_normal (b := 0) (m := 0) (e := 17) (by omega) (by omega) (by omega) (by omega)
  rw [show 0 * 2 ^ 31 + (17 * 2 ^ 23 + 0) = 17 * 2 ^ 23 by omega] at f
  rw [f, show 2 ^ 23 + 0 = 2 ^ 23 from rfl, ← Nat.pow_add]
  rfl

theorem mul_pow {c t u j : Nat} (neg : Bool) (hc : c < 2 ^ 24) (h : t + j = u + 149) :
    (V.fin neg (c * 2 ^ t)).abs.mul (.fin false (2 ^ j)) =
      if 2 ^ 277 ≤ c * 2 ^ u then .inf false else .fin false (c * 2 ^ u) := by
  rw [← rnd_bits false hc (k := 149), ← h, Nat.pow_add, ← Nat.mul_assoc]
  rfl

theorem inf_mul_pow (j : Nat) : (V.inf false).mul (.fin false (2 ^ j)) = .inf false := by
  have := Nat.two_pow_pos j
  generalize 2 ^ j = x at *
  unfold V.mul
  simp only
  rw [if_neg (by omega)]
  rfl

/-- `(fabsf(f) * scale_to_inf) * scale_to_zero` is `4 f`, or infinity from `2 ^ 16` on. -/
theorem base_eq {c t j k : Nat} (neg : Bool) (hc : c < 2 ^ 24) (hj : j = 261) (hk : k = 39) :
    (((V.fin neg (c * 2 ^ t)).abs.mul (.fin false (2 ^ j))).mul (.fin false (2 ^ k))) =
      if 2 ^ 277 ≤ c * 2 ^ (t + 112) then .inf false else .fin false (c * 2 ^ (t + 2)) := by
  rw [mul_pow neg hc (u := t + 112) (by omega)]
  by_cases h : 2 ^ 277 ≤ c * 2 ^ (t + 112)
  · rw [if_pos h, if_pos h, inf_mul_pow]
  · rw [if_neg h, if_neg h]
    have := mul_pow (t := t + 112) (u := t + 2) (j := k) false hc (by omega)
    rw [if_neg] at this
    · exact this
    · have : c * 2 ^ (t + 2) ≤ c * 2 ^ (t + 112) :=
        Nat.mul_le_mul_left _ (Nat.pow_le_pow_right (by omega) (by omega))
      omega

/-- The sum that rounds. -/
theorem sum_eq {E c t : Nat} (h1 : 113 ≤ E) (h2 : E ≤ 142) (hc : c < 2 ^ 24) (ht : t + 1 ≤ E) :
    divRound (c * 2 ^ t) (E + 12) ≤ 2 ^ 11 ∧
    toBits ((fromBits ((E + 15) * 2 ^ 23)).add (.fin false (c * 2 ^ (t + 2)))) =
      (E + 15) * 2 ^ 23 + divRound (c * 2 ^ t) (E + 12) := by
  have f := fromBits_normal (b := 0) (m := 0) (e := E + 15) (by omega) (by omega) (by omega) (by omega)
  rw [show 0 * 2 ^ 31 + ((E + 15) * 2 ^ 23 + 0) = (E + 15) * 2 ^ 23 by omega] at f
  rw [f]
  have hn : c * 2 ^ t ≤ 2 ^ 11 * 2 ^ (E + 12) := by
    have a1 : c * 2 ^ t ≤ 2 ^ 24 * 2 ^ t := Nat.mul_le_mul_right _ (by omega)
    rw [← Nat.pow_add] at a1 ⊢
    exact Nat.le_trans a1 (Nat.pow_le_pow_right (by omega) (by omega))
  have hR : divRound (c * 2 ^ t) (E + 12) ≤ 2 ^ 11 := HashEq.divRound_le_of_le hn
  refine ⟨hR, ?_⟩
  have e4 : c * 2 ^ (t + 2) = c * 2 ^ t * 2 ^ 2 := by rw [Nat.pow_add, Nat.mul_assoc]
  have hn4 : c * 2 ^ (t + 2) ≤ 2 ^ 11 * 2 ^ (E + 14) := by
    rw [e4, show E + 14 = E + 12 + 2 by omega, Nat.pow_add 2 (E + 12), ← Nat.mul_assoc]
    exact Nat.mul_le_mul_right _ hn
  have hround : divRound (2 ^ 23 * 2 ^ (E + 14) + c * 2 ^ (t + 2)) (E + 14) =
      2 ^ 23 + divRound (c * 2 ^ t) (E + 12) := by
    rw [divRound_add _ _ _ (by omega), e4, show E + 14 = E + 12 + 2 by omega, divRound_scale]
  have hb : bitLen (2 ^ 23 * 2 ^ (E + 14) + c * 2 ^ (t + 2)) = 23 + (E + 14) + 1 := by
    apply bitLen_eq
    · rw [Nat.pow_add]; omega
    · rw [show 2 ^ (23 + (E + 14) + 1) = 2 ^ 23 * 2 ^ (E + 14) * 2 by
        rw [Nat.pow_succ 2 (23 + (E + 14)), Nat.pow_add 2 23]]
      have hX := Nat.two_pow_pos (E + 14)
      generalize 2 ^ (E + 14) = X at hX hn4 ⊢
      generalize c * 2 ^ (t + 2) = Y at hn4 ⊢
      omega
  simp only [V.add, signed, Nat.zero_ne_one, decide_false, Bool.false_eq_true, if_false]
  rw [show 2 ^ 23 + 0 = 2 ^ 23 from rfl, show E + 15 - 1 = E + 14 by omega]
  rw [← Int.natCast_add]
  have hpos : 0 < 2 ^ 23 * 2 ^ (E + 14) + c * 2 ^ (t + 2) := by positivity
  rw [if_neg (by rw [Int.natCast_eq_zero]; omega)]
  have hneg : decide (((2 ^ 23 * 2 ^ (E + 14) + c * 2 ^ (t + 2) : Nat) : Int) < 0) = false := by
    rw [decide_eq_false_iff_not]; omega
  rw [hneg, Int.natAbs_natCast]
  unfold rnd
  simp only [hb]
  rw [show 23 + (E + 14) + 1 - 0 - 24 = E + 14 by omega, show 0 + (E + 14) = E + 14 by omega, hround]
  have hlt : (2 ^ 23 + divRound (c * 2 ^ t) (E + 12)) * 2 ^ (E + 14) < 2 ^ 277 := by
    have a1 : (2 ^ 23 + divRound (c * 2 ^ t) (E + 12)) * 2 ^ (E + 14) < 2 ^ 24 * 2 ^ (E + 14) :=
      (Nat.mul_lt_mul_right (Nat.two_pow_pos _)).2 (by omega)
    rw [← Nat.pow_add] at a1
    exact Nat.lt_of_lt_of_le a1 (Nat.pow_le_pow_right (by omega) (by omega))
  rw [if_neg (Nat.not_le_of_lt hlt)]
  simp only [toBits, Bool.false_eq_true, if_false, Nat.zero_add]
  have := mag_normal (m := divRound (c * 2 ^ t) (E + 12)) (e := E + 15) (by omega) (by omega)
  rw [show E + 15 - 1 = E + 14 by omega] at this
  exact this

/-- A number that is not nan plus infinity. -/
theorem add_inf {E : Nat} (h1 : 143 ≤ E) (h2 : E ≤ 255) :
    (fromBits ((E + 15) * 2 ^ 23)).add (.inf false) = .inf false := by
  by_cases a : E + 15 < 255
  · have f := fromBits_normal (b := 0) (m := 0) (e := E + 15) (by omega) (by omega) (by omega) a
    rw [show 0 * 2 ^ 31 + ((E + 15) * 2 ^ 23 + 0) = (E + 15) * 2 ^ 23 by omega] at f
    rw [f]; simp only [V.add]
  · by_cases a' : E + 15 = 255
    · have f := fromBits_top (b := 0) (m := 0) (by omega) (by omega)
      obtain rfl : E = 240 := by omega
      rw [show (240 + 15) * 2 ^ 23 = 0 * 2 ^ 31 + (255 * 2 ^ 23 + 0) from rfl, f]
      rfl
    · by_cases a'' : E + 15 = 256
      · have f := fromBits_small (b := 1) (m := 0) (by omega) (by omega)
        rw [show 1 * 2 ^ 31 + 0 = (E + 15) * 2 ^ 23 by omega] at f
        rw [f]; simp only [V.add]
      · have f := fromBits_normal (b := 1) (m := 0) (e := E + 15 - 256) (by omega) (by omega)
          (by omega) (by omega)
        rw [show 1 * 2 ^ 31 + ((E + 15 - 256) * 2 ^ 23 + 0) = (E + 15) * 2 ^ 23 by omega] at f
        rw [f]; simp only [V.add]

theorem hv_le {g : Nat} (h : g ≤ 0x7C00) : hv g ≤ 2 ^ 40 := by
  unfold hv
  split
  · omega
  · by_cases h' : g / 2 ^ 10 = 31
    · have : g % 2 ^ 10 = 0 := by omega
      rw [this, h']
      decide
    · have h1 : (2 ^ 10 + g % 2 ^ 10) * 2 ^ (g / 2 ^ 10 - 1) ≤ 2 ^ 11 * 2 ^ (g / 2 ^ 10 - 1) :=
        Nat.mul_le_mul_right _ (by omega)
      rw [← Nat.pow_add] at h1
      exact Nat.le_trans h1 (Nat.pow_le_pow_right (by omega) (by omega))

/-- `h` is the half nearest to `n` units `2 ^ -149`, the one with the even mantissa if there are
two; infinity takes part as `2 ^ 16`. -/
def Nearest (n h : Nat) : Prop :=
  h ≤ 0x7C00 ∧ ∀ g ≤ 0x7C00, dist n (hv h * 2 ^ 125) ≤ dist n (hv g * 2 ^ 125) ∧
    (g ≠ h → dist n (hv h * 2 ^ 125) = dist n (hv g * 2 ^ 125) → h % 2 = 0)

theorem hv_succ (a : Nat) : hv a < hv (a + 1) := by
  obtain ⟨k, r, rfl, hr, hk⟩ : ∃ k r, a = k * 2 ^ 10 + r ∧ r < 2 ^ 11 ∧ (k ≠ 0 → 2 ^ 10 ≤ r) := by
    by_cases h : a < 2 ^ 10
    · exact ⟨0, a, by omega, by omega, fun h => absurd rfl h⟩
    · exact ⟨a / 2 ^ 10 - 1, 2 ^ 10 + a % 2 ^ 10, by omega, by omega, by omega⟩
  rw [hv_carry (by omega) hk, Nat.add_assoc, hv_carry (by omega) (fun h => by have := hk h; omega)]
  exact (Nat.mul_lt_mul_right (Nat.two_pow_pos _)).2 (by omega)

/-- Larger bits are larger numbers. -/
theorem hv_lt {a b : Nat} (h : a < b) : hv a < hv b := by
  induction b with
  | zero => omega
  | succ b ih =>
    by_cases hb : a = b
    · rw [hb]; exact hv_succ b
    · exact Nat.lt_trans (ih (by omega)) (hv_succ b)

theorem hv_inj {a b : Nat} (h : hv a = hv b) : a = b := by
  rcases Nat.lt_trichotomy a b with h' | h' | h'
  · have := hv_lt h'; omega
  · exact h'
  · have := hv_lt h'; omega

theorem nearest_round {E n : Nat} (h1 : 113 ≤ E) (h2 : E ≤ 142)
    (hR : divRound n (E + 12) ≤ 2 ^ 11) (hn : E ≠ 113 → 2 ^ 10 * 2 ^ (E + 12) ≤ n) :
    Nearest n ((E - 113) * 2 ^ 10 + divRound n (E + 12)) := by
  have hlow : E - 113 ≠ 0 → 2 ^ 10 ≤ divRound n (E + 12) := by
    intro h
    refine Nat.le_trans ?_ (HashEq.le_divRound n (E + 12))
    rw [Nat.le_div_iff_mul_le (Nat.two_pow_pos _)]
    exact hn (by omega)
  obtain ⟨d1, d2⟩ := divRound_near n (E + 12)
  have near := near_multiple d1 d2
  have hv' := hv_carry hR hlow
  have ev : ∀ j, j * 2 ^ (E - 113) * 2 ^ 125 = j * 2 ^ (E + 12) := by
    intro j
    rw [Nat.mul_assoc, ← Nat.pow_add, show E - 113 + 125 = E + 12 by omega]
  refine ⟨by omega, ?_⟩
  intro g hg
  rw [hv', ev]
  by_cases hmul : ∃ j, hv g = j * 2 ^ (E - 113)
  · obtain ⟨j, hj⟩ := hmul
    rw [hj, ev]
    obtain ⟨n1, n2⟩ := near j
    refine ⟨n1, ?_⟩
    intro hne heq
    by_cases hjr : j = divRound n (E + 12)
    · rw [hjr, ← hv'] at hj
      exact absurd (hv_inj hj) hne
    · have := n2 hjr heq
      omega
  · have hlt : hv g < 2 ^ 10 * 2 ^ (E - 113) := by
      rcases hv_multiple g (E - 113) with h | h
      · exact h
      · exact absurd h hmul
    have hE : E ≠ 113 := by
      rintro rfl
      exact hmul ⟨hv g, by simp⟩
    have hlt' : hv g * 2 ^ 125 < 2 ^ 10 * 2 ^ (E + 12) := by
      rw [← ev]
      exact (Nat.mul_lt_mul_right (Nat.two_pow_pos _)).2 hlt
    have := (near (2 ^ 10)).1
    have hn' := hn hE
    unfold dist at *
    constructor
    · omega
    · intro _ h
      omega

/-! ## Writing a binary32 -/

theorem dist_far {n x y : Nat} (h1 : x ≤ y) (h2 : y ≤ n) : dist n y ≤ dist n x := by
  unfold dist; omega

theorem dist_mid {n x y z : Nat} (h1 : y < x) (h2 : x < z) (h3 : dist n y = dist n z)
    (h4 : dist n y ≤ dist n x) : False := by
  unfold dist at *; omega

theorem dist_zero {x y : Nat} (h : dist x y = 0) : x = y := by
  unfold dist at h; omega

theorem dist_self (x : Nat) : dist x x = 0 := by
  unfold dist; omega

theorem sign_or {b X : Nat} (hb : b ≤ 1) (hX : X < 2 ^ 15) :
    (b * 2 ^ 15 ||| X) % 2 ^ 16 = b * 2 ^ 15 + X := by
  rw [or_add 15 X b hX]
  omega

theorem max_inf {E : Nat} (h1 : 143 ≤ E) (h2 : E ≤ 255) :
    nonsign (toBits ((fromBits ((E + 15) * 2 ^ 23)).add (.inf false))) = 0x7C00 := by
  rw [add_inf h1 h2]
  decide

/-- A finite number. -/
theorem fromFloat_fin {b e m c t : Nat} (hb : b ≤ 1) (he : e < 255) (hm : m < 2 ^ 23)
    (hf : fromBits (b * 2 ^ 31 + (e * 2 ^ 23 + m)) = .fin (decide (b = 1)) (c * 2 ^ t))
    (hc : c < 2 ^ 24) (ht : t = e - 1) (hn : e ≠ 0 → 2 ^ 23 ≤ c) :
    ∃ r, fromFloat (b * 2 ^ 31 + (e * 2 ^ 23 + m)) = b * 2 ^ 15 + r ∧ Nearest (c * 2 ^ t) r := by
  rw [fromFloat_words hb (by omega) hm, if_neg (by omega), hf, scale_inf, scale_zero,
    base_eq _ hc rfl rfl]
  by_cases h : e ≤ 142
  · have hlt : ¬ 2 ^ 277 ≤ c * 2 ^ (t + 112) := by
      have a1 : c * 2 ^ (t + 112) < 2 ^ 24 * 2 ^ (t + 112) :=
        (Nat.mul_lt_mul_right (Nat.two_pow_pos _)).2 hc
      rw [← Nat.pow_add] at a1
      exact Nat.not_le_of_lt (Nat.lt_of_lt_of_le a1 (Nat.pow_le_pow_right (by omega) (by omega)))
    rw [if_neg hlt]
    obtain ⟨E, hE⟩ : ∃ E, E = if e < 113 then 113 else e := ⟨_, rfl⟩
    rw [← hE]
    have hE1 : 113 ≤ E ∧ E ≤ 142 ∧ t + 1 ≤ E ∧ (E ≠ 113 → e = E) := by
      split at hE <;> omega
    obtain ⟨hR, hbits⟩ := sum_eq hE1.1 hE1.2.1 hc hE1.2.2.1
    rw [hbits, nonsign_eq hE1.1 hE1.2.1 hR]
    refine ⟨_, sign_or hb (by omega), ?_⟩
    refine nearest_round hE1.1 hE1.2.1 hR ?_
    intro hne
    have hee := hE1.2.2.2 hne
    have h23 := hn (by omega)
    have a1 : 2 ^ 23 * 2 ^ t ≤ c * 2 ^ t := Nat.mul_le_mul_right _ h23
    rw [← Nat.pow_add] at a1 ⊢
    rw [show 10 + (E + 12) = 23 + t by omega]
    exact a1
  · have h23 := hn (by omega)
    have hge : 2 ^ 277 ≤ c * 2 ^ (t + 112) := by
      have a1 : 2 ^ 23 * 2 ^ (t + 112) ≤ c * 2 ^ (t + 112) := Nat.mul_le_mul_right _ h23
      rw [← Nat.pow_add] at a1
      exact Nat.le_trans (Nat.pow_le_pow_right (by omega) (by omega)) a1
    have hge' : 2 ^ 165 ≤ c * 2 ^ t := by
      have a1 : 2 ^ 23 * 2 ^ t ≤ c * 2 ^ t := Nat.mul_le_mul_right _ h23
      rw [← Nat.pow_add] at a1
      exact Nat.le_trans (Nat.pow_le_pow_right (by omega) (by omega)) a1
    rw [if_pos hge, if_neg (show ¬ e < 113 by omega), max_inf (by omega) (by omega)]
    refine ⟨0x7C00, sign_or hb (by omega), by omega, ?_⟩
    intro g hg
    have hg' : hv g * 2 ^ 125 ≤ 2 ^ 165 := by
      rw [show 2 ^ 165 = 2 ^ 40 * 2 ^ 125 from by rw [← Nat.pow_add]]
      exact Nat.mul_le_mul_right _ (hv_le hg)
    have htop : hv 0x7C00 * 2 ^ 125 = 2 ^ 165 := by decide
    rw [htop]
    exact ⟨dist_far hg' hge', fun _ _ => rfl⟩

theorem fromFloat_top {b m : Nat} (hb : b ≤ 1) (hm : m < 2 ^ 23) :
    fromFloat (b * 2 ^ 31 + (255 * 2 ^ 23 + m)) =
      b * 2 ^ 15 + if m = 0 then 0x7C00 else 0x7E00 := by
  rw [fromFloat_words hb (by omega) hm]
  by_cases h : m = 0
  · rw [if_neg (by omega), if_pos h, fromBits_top hb hm, if_pos h, scale_inf, scale_zero,
      if_neg (show ¬ 255 < 113 by omega)]
    have e1 : ((V.inf (decide (b = 1))).abs.mul (.fin false (2 ^ 261))) = .inf false :=
      inf_mul_pow 261
    rw [e1, inf_mul_pow, max_inf (by omega) (by omega), sign_or hb (by omega)]
  · rw [if_pos ⟨rfl, h⟩, if_neg h, sign_or hb (by omega)]

/-- The half a binary32 becomes: the nearest one, with the same sign; infinities and nans remain. -/
theorem fromFloat_nearest (w : Nat) (hw : w < 2 ^ 32) :
    match fromBits w with
    | .fin neg n => ∃ r, fromFloat w = (if neg then 2 ^ 15 else 0) + r ∧ Nearest n r
    | .inf neg => fromFloat w = (if neg then 2 ^ 15 else 0) + 0x7C00
    | .nan => value (fromFloat w) = .nan := by
  obtain ⟨b, e, m, hb, he, hm, rfl⟩ : ∃ b e m, b ≤ 1 ∧ e < 256 ∧ m < 2 ^ 23 ∧
      w = b * 2 ^ 31 + (e * 2 ^ 23 + m) :=
    ⟨w / 2 ^ 31, w / 2 ^ 23 % 256, w % 2 ^ 23, by omega, by omega, by omega, by omega⟩
  clear hw
  have hsign : (if decide (b = 1) = true then 2 ^ 15 else 0) = b * 2 ^ 15 := by
    by_cases h : b = 1
    · subst h; rfl
    · obtain rfl : b = 0 := by omega
      rfl
  by_cases h : e = 255
  · subst h
    rw [fromBits_top hb hm, fromFloat_top hb hm]
    by_cases h : m = 0
    · rw [if_pos h, if_pos h]
      simp only
      rw [hsign]
    · rw [if_neg h, if_neg h]
      simp only
      rw [value_eq hb (by omega)]
      rfl
  · obtain ⟨c, t, hf, hc, ht, hn⟩ := single_bits (show e < 255 by omega) hm b hb
    have := fromFloat_fin hb (by omega) hm hf hc ht hn
    rw [hf]
    simp only
    rw [hsign]
    exact this

/-- There is only one nearest half. -/
theorem nearest_unique {n a b : Nat} (ha : Nearest n a) (hb : Nearest n b) : a = b := by
  have key : ∀ a b, Nearest n a → Nearest n b → a < b → False := by
    intro a b ha hb hlt
    obtain ⟨a1, a2⟩ := ha
    obtain ⟨b1, b2⟩ := hb
    have p := a2 b b1
    have q := b2 a a1
    have e : dist n (hv a * 2 ^ 125) = dist n (hv b * 2 ^ 125) := Nat.le_antisymm p.1 q.1
    have ea := p.2 (by omega) e
    have eb := q.2 (by omega) e.symm
    have c1 := hv_succ a
    have c2 : hv (a + 1) < hv b := hv_lt (by omega)
    have m1 : hv a * 2 ^ 125 < hv (a + 1) * 2 ^ 125 :=
      (Nat.mul_lt_mul_right (Nat.two_pow_pos _)).2 c1
    have m2 : hv (a + 1) * 2 ^ 125 < hv b * 2 ^ 125 :=
      (Nat.mul_lt_mul_right (Nat.two_pow_pos _)).2 c2
    exact dist_mid m1 m2 e (a2 (a + 1) (by omega)).1
  rcases Nat.lt_trichotomy a b with h | h | h
  · exact (key a b ha hb h).elim
  · exact h
  · exact (key b a hb ha h).elim

theorem nearest_self {a : Nat} (h : a ≤ 0x7C00) : Nearest (hv a * 2 ^ 125) a := by
  refine ⟨h, ?_⟩
  intro g hg
  have e : dist (hv a * 2 ^ 125) (hv a * 2 ^ 125) = 0 := dist_self _
  rw [e]
  refine ⟨by omega, ?_⟩
  intro hne h0
  refine absurd (hv_inj ?_) hne
  apply Nat.eq_of_mul_eq_mul_right (Nat.two_pow_pos 125)
  exact (dist_zero h0.symm).symm

theorem hv_form (g : Nat) (h : g ≤ 0x7C00) : ∃ c t, hv g = c * 2 ^ t ∧ c < 2 ^ 24 ∧ t ≤ 30 := by
  unfold hv
  split
  · exact ⟨g % 2 ^ 10, 0, by simp, by omega, by omega⟩
  · exact ⟨_, _, rfl, by omega, by omega⟩

theorem fromBits_toBits (neg : Bool) {n : Nat} (h : Single n) :
    fromBits (toBits (.fin neg n)) = .fin neg n ∧ toBits (.fin neg n) < 2 ^ 32 := by
  cases neg
  · obtain ⟨h1, h2⟩ := bits_round_trip 0 (by omega) h
    simp only [toBits, Bool.false_eq_true, if_false]
    rw [show 0 * 2 ^ 31 = 0 from rfl] at h1
    exact ⟨h1, by omega⟩
  · obtain ⟨h1, h2⟩ := bits_round_trip 1 (by omega) h
    simp only [toBits, if_true]
    rw [show 1 * 2 ^ 31 = 2 ^ 31 from rfl] at h1
    exact ⟨h1, by omega⟩

theorem hv_single {g : Nat} (h : g ≤ 0x7C00) : Single (hv g * 2 ^ 125) := by
  obtain ⟨c, t, e, hc, ht⟩ := hv_form g h
  rw [e, Nat.mul_assoc, ← Nat.pow_add]
  exact single_of hc (by omega)

/-- A half that is read and written again has the same bits, except that nans become one nan. -/
theorem round_trip (h : Nat) (hh : h < 2 ^ 16) :
    if value h = .nan then value (fromFloat (toBits (toFloat h))) = .nan
    else fromFloat (toBits (toFloat h)) = h := by
  rw [toFloat_exact h hh]
  obtain ⟨b, r, hb, hr, rfl⟩ : ∃ b r, b ≤ 1 ∧ r < 2 ^ 15 ∧ h = b * 2 ^ 15 + r :=
    ⟨h / 2 ^ 15, h % 2 ^ 15, by omega, by omega, by omega⟩
  clear hh
  have hsign : (if decide (b = 1) = true then 2 ^ 15 else 0) = b * 2 ^ 15 := by
    by_cases h : b = 1
    · subst h; rfl
    · obtain rfl : b = 0 := by omega
      rfl
  rw [value_eq hb hr]
  by_cases h1 : r < 0x7C00
  · rw [if_pos h1, if_neg (by simp)]
    obtain ⟨f1, f2⟩ := fromBits_toBits (decide (b = 1)) (hv_single (g := r) (by omega))
    have := fromFloat_nearest _ f2
    rw [f1] at this
    simp only at this
    obtain ⟨r', e, hn⟩ := this
    rw [e, hsign, nearest_unique hn (nearest_self (by omega))]
  · rw [if_neg h1]
    by_cases h2 : r = 0x7C00
    · rw [if_pos h2, if_neg (by simp), h2]
      rcases (show b = 0 ∨ b = 1 by omega) with rfl | rfl <;> decide
    · rw [if_neg h2, if_pos rfl]
      decide

end Verif.Half
