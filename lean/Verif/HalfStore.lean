import Verif.HalfWrite

/-!
# Writing a Python float into a half -/

namespace Verif.Half
open HashEq (bitLen divRound)

/-! ## Rounding to binary32 keeps order -/

theorem rnd_single (neg : Bool) (n k : Nat) :
    rnd neg n k = .inf neg ∨ ∃ r, rnd neg n k = .fin neg r ∧ Single r := by
  unfold rnd
  generalize hs : bitLen n - k - 24 = s
  simp only
  by_cases h : 2 ^ 277 ≤ divRound n (k + s) * 2 ^ s
  · left; rw [if_pos h]
  · right
    rw [if_neg h]
    refine ⟨_, rfl, ?_⟩
    have hlt : n < 2 ^ (24 + (k + s)) := HashEq.bitLen_le.1 (by omega)
    have hd : divRound n (k + s) ≤ 2 ^ 24 := by
      apply HashEq.divRound_le_of_le
      rw [← Nat.pow_add]
      omega
    have hlo : s ≠ 0 → 2 ^ 23 ≤ divRound n (k + s) := by
      intro h0
      have : ¬ n < 2 ^ (23 + (k + s)) := fun h => absurd (HashEq.bitLen_le.2 h) (by omega)
      refine Nat.le_trans ?_ (HashEq.le_divRound n (k + s))
      rw [Nat.le_div_iff_mul_le (Nat.two_pow_pos _), ← Nat.pow_add]
      omega
    generalize divRound n (k + s) = d at *
    have hs253 : s ≤ 253 := by
      by_contra hc
      apply h
      have a1 : 2 ^ 23 * 2 ^ s ≤ d * 2 ^ s := Nat.mul_le_mul_right _ (hlo (by omega))
      rw [← Nat.pow_add] at a1
      exact Nat.le_trans (Nat.pow_le_pow_right (by omega) (by omega)) a1
    by_cases hd' : d = 2 ^ 24
    · subst hd'
      have hs252 : s ≤ 252 := by
        by_contra hc
        apply h
        rw [← Nat.pow_add]
        exact Nat.pow_le_pow_right (by omega) (by omega)
      rw [show 2 ^ 24 * 2 ^ s = 2 ^ 23 * 2 ^ (s + 1) from by
        rw [← Nat.pow_add, ← Nat.pow_add, show 23 + (s + 1) = 24 + s by omega]]
      exact single_of (by omega) (by omega)
    · exact single_of (by omega) hs253

theorem rnd_le (neg : Bool) {n k c t : Nat} (hc : c < 2 ^ 24) (hlt : c * 2 ^ t < 2 ^ 277)
    (h : n ≤ c * 2 ^ (t + k)) : ∃ r, rnd neg n k = .fin neg r ∧ Single r ∧ r ≤ c * 2 ^ t := by
  have hle : divRound n (k + (bitLen n - k - 24)) * 2 ^ (bitLen n - k - 24) ≤ c * 2 ^ t := by
    generalize hs : bitLen n - k - 24 = s
    by_cases hst : s ≤ t
    · have e : c * 2 ^ (t + k) = c * 2 ^ (t - s) * 2 ^ (k + s) := by
        rw [Nat.mul_assoc, ← Nat.pow_add, show t - s + (k + s) = t + k by omega]
      rw [e] at h
      have := Nat.mul_le_mul_right (2 ^ s) (HashEq.divRound_le_of_le h)
      rwa [Nat.mul_assoc, ← Nat.pow_add, show t - s + s = t by omega] at this
    · exfalso
      have h1 : ¬ n < 2 ^ (24 + (t + k)) := fun h => absurd (HashEq.bitLen_le.2 h) (by omega)
      have h2 : c * 2 ^ (t + k) < 2 ^ 24 * 2 ^ (t + k) :=
        (Nat.mul_lt_mul_right (Nat.two_pow_pos _)).2 hc
      rw [← Nat.pow_add] at h2
      omega
  have hr : rnd neg n k =
      .fin neg (divRound n (k + (bitLen n - k - 24)) * 2 ^ (bitLen n - k - 24)) := by
    unfold rnd
    exact if_neg (by omega)
  refine ⟨_, hr, ?_, hle⟩
  rcases rnd_single neg n k with h' | ⟨r, h', hS⟩
  · rw [hr] at h'; cases h'
  · rw [hr] at h'; cases h'; exact hS

theorem rnd_ge (neg : Bool) {n k c t : Nat} (hc : c < 2 ^ 24) (h : c * 2 ^ (t + k) ≤ n) :
    ∀ r, rnd neg n k = .fin neg r → c * 2 ^ t ≤ r := by
  have hle : c * 2 ^ t ≤ divRound n (k + (bitLen n - k - 24)) * 2 ^ (bitLen n - k - 24) := by
    generalize hs : bitLen n - k - 24 = s
    by_cases hst : s ≤ t
    · have e : c * 2 ^ (t + k) = c * 2 ^ (t - s) * 2 ^ (k + s) := by
        rw [Nat.mul_assoc, ← Nat.pow_add, show t - s + (k + s) = t + k by omega]
      rw [e] at h
      have h' : c * 2 ^ (t - s) ≤ divRound n (k + s) := by
        refine Nat.le_trans ?_ (HashEq.le_divRound n (k + s))
        rwa [Nat.le_div_iff_mul_le (Nat.two_pow_pos _)]
      have := Nat.mul_le_mul_right (2 ^ s) h'
      rwa [Nat.mul_assoc, ← Nat.pow_add, show t - s + s = t by omega] at this
    · have h1 : ¬ n < 2 ^ (23 + (k + s)) := fun h => absurd (HashEq.bitLen_le.2 h) (by omega)
      have h2 : 2 ^ 23 ≤ divRound n (k + s) := by
        refine Nat.le_trans ?_ (HashEq.le_divRound n (k + s))
        rw [Nat.le_div_iff_mul_le (Nat.two_pow_pos _), ← Nat.pow_add]
        omega
      have h3 : 2 ^ 23 * 2 ^ s ≤ divRound n (k + s) * 2 ^ s := Nat.mul_le_mul_right _ h2
      have h4 : c * 2 ^ t < 2 ^ 24 * 2 ^ t := (Nat.mul_lt_mul_right (Nat.two_pow_pos _)).2 hc
      rw [← Nat.pow_add] at h3 h4
      have h5 : 2 ^ (24 + t) ≤ 2 ^ (23 + s) := Nat.pow_le_pow_right (by omega) (by omega)
      omega
  intro r hr
  unfold rnd at hr
  simp only at hr
  split at hr
  · cases hr
  · cases hr; exact hle

theorem divRound_mono {x y : Nat} (s : Nat) (h : x ≤ y) : divRound x s ≤ divRound y s := by
  have hq : x / 2 ^ s ≤ y / 2 ^ s := Nat.div_le_div_right h
  by_cases he : x / 2 ^ s = y / 2 ^ s
  · have d1 := Nat.div_add_mod x (2 ^ s)
    have d2 := Nat.div_add_mod y (2 ^ s)
    rw [he] at d1
    have hr : x % 2 ^ s ≤ y % 2 ^ s := by omega
    unfold divRound
    simp only
    rw [he]
    split <;> split <;> omega
  · have h1 := HashEq.divRound_le x s
    have h2 := HashEq.le_divRound y s
    omega

theorem bitLen_mono {x y : Nat} (h : x ≤ y) : bitLen x ≤ bitLen y := by
  rw [HashEq.bitLen_le]
  exact Nat.lt_of_le_of_lt h (HashEq.bitLen_le.1 (Nat.le_refl _))

/-- The magnitude after rounding. -/
theorem round_mono {x y : Nat} (k : Nat) (h : x ≤ y) :
    divRound x (k + (bitLen x - k - 24)) * 2 ^ (bitLen x - k - 24) ≤
      divRound y (k + (bitLen y - k - 24)) * 2 ^ (bitLen y - k - 24) := by
  have hb := bitLen_mono h
  by_cases he : bitLen x - k - 24 = bitLen y - k - 24
  · rw [he]
    exact Nat.mul_le_mul_right _ (divRound_mono _ h)
  · generalize hsx : bitLen x - k - 24 = sx at *
    generalize hsy : bitLen y - k - 24 = sy at *
    have hx : x < 2 ^ (24 + (k + sx)) := HashEq.bitLen_le.1 (by omega)
    have hy : ¬ y < 2 ^ (23 + (k + sy)) := fun h => absurd (HashEq.bitLen_le.2 h) (by omega)
    have h1 : divRound x (k + sx) ≤ 2 ^ 24 := by
      apply HashEq.divRound_le_of_le
      rw [← Nat.pow_add]
      omega
    have h2 : 2 ^ 23 ≤ divRound y (k + sy) := by
      refine Nat.le_trans ?_ (HashEq.le_divRound y (k + sy))
      rw [Nat.le_div_iff_mul_le (Nat.two_pow_pos _), ← Nat.pow_add]
      omega
    have h3 := Nat.mul_le_mul_right (2 ^ sx) h1
    have h4 := Nat.mul_le_mul_right (2 ^ sy) h2
    rw [← Nat.pow_add] at h3 h4
    have h5 : 2 ^ (24 + sx) ≤ 2 ^ (23 + sy) := Nat.pow_le_pow_right (by omega) (by omega)
    omega

/-! ## Halves around a number -/

theorem nearest_mono {n n' r r' : Nat} (h : Nearest n r) (h' : Nearest n' r') (hn : n ≤ n') :
    r ≤ r' := by
  by_contra hlt
  have h1 : hv r' * 2 ^ 125 < hv r * 2 ^ 125 :=
    (Nat.mul_lt_mul_right (Nat.two_pow_pos _)).2 (hv_lt (by omega))
  have h2 := (h.2 r' h'.1).1
  have h3 := (h'.2 r h.1).1
  have : ∀ x y, x < y → dist n y ≤ dist n x → dist n' x ≤ dist n' y → n' ≤ n := by
    intro x y a b c; unfold dist at b c; omega
  obtain rfl := Nat.le_antisymm hn (this _ _ h1 h2 h3)
  exact hlt (Nat.le_of_eq (nearest_unique h h'))

theorem nearest_ge {n r g : Nat} (h : Nearest n r) (hg : g ≤ 0x7C00) (hle : hv g * 2 ^ 125 ≤ n) :
    g ≤ r := by
  by_contra hlt
  have h1 : hv r * 2 ^ 125 < hv g * 2 ^ 125 :=
    (Nat.mul_lt_mul_right (Nat.two_pow_pos _)).2 (hv_lt (by omega))
  have h2 := (h.2 g hg).1
  have : ∀ x y, x < y → y ≤ n → dist n x ≤ dist n y → False := by
    intro x y a b c; unfold dist at c; omega
  exact this _ _ h1 hle h2

theorem nearest_le {n r g : Nat} (h : Nearest n r) (hg : g ≤ 0x7C00) (hle : n ≤ hv g * 2 ^ 125) :
    r ≤ g := by
  by_contra hlt
  have h1 : hv g * 2 ^ 125 < hv r * 2 ^ 125 :=
    (Nat.mul_lt_mul_right (Nat.two_pow_pos _)).2 (hv_lt (by omega))
  have h2 := (h.2 g hg).1
  have : ∀ x y, x < y → n ≤ x → dist n y ≤ dist n x → False := by
    intro x y a b c; unfold dist at c; omega
  exact this _ _ h1 hle h2

/-- The half a Python float becomes has its sign, and no half lies strictly between the two; from
`2 ^ 16` on it is infinite. -/
theorem store_faithful (z : Int) : ∃ r ≤ 0x7C00,
    store (.fin z) = (if z < 0 then 2 ^ 15 else 0) + r ∧
    ∀ g ≤ 0x7C00, (hv g * 2 ^ 1050 ≤ z.natAbs → g ≤ r) ∧ (z.natAbs ≤ hv g * 2 ^ 1050 → r ≤ g) := by
  have hsig : ∀ neg : Bool, neg = decide (z < 0) →
      (if neg = true then 2 ^ 15 else 0) = if z < 0 then 2 ^ 15 else 0 := by
    intro neg h
    subst h
    by_cases hz : z < 0 <;> simp [hz]
  generalize hneg : decide (z < 0) = neg at hsig
  have hst : store (.fin z) = fromFloat (toBits (rnd neg z.natAbs 925)) := by
    rw [← hneg]
    rfl
  have hg925 : ∀ g ≤ 0x7C00, ∃ c t, hv g * 2 ^ 125 = c * 2 ^ t ∧
      hv g * 2 ^ 1050 = c * 2 ^ (t + 925) ∧ c < 2 ^ 24 ∧ c * 2 ^ t < 2 ^ 277 := by
    intro g hg
    obtain ⟨c, t, e, hc, ht⟩ := hv_form g hg
    refine ⟨c, t + 125, ?_, ?_, hc, ?_⟩
    · rw [e, Nat.mul_assoc, ← Nat.pow_add]
    · rw [e, Nat.mul_assoc, ← Nat.pow_add, show t + 1050 = t + 125 + 925 by omega]
    · have a1 : c * 2 ^ (t + 125) < 2 ^ 24 * 2 ^ (t + 125) :=
        (Nat.mul_lt_mul_right (Nat.two_pow_pos _)).2 hc
      rw [← Nat.pow_add] at a1
      exact Nat.lt_of_lt_of_le a1 (Nat.pow_le_pow_right (by omega) (by omega))
  rw [hst]
  rcases rnd_single neg z.natAbs 925 with h | ⟨n, h, hS⟩
  · refine ⟨0x7C00, Nat.le_refl _, ?_, ?_⟩
    · rw [h, ← hsig neg rfl]
      cases neg <;> decide
    · intro g hg
      refine ⟨fun _ => hg, ?_⟩
      intro hle
      obtain ⟨c, t, e1, e2, hc, hlt⟩ := hg925 g hg
      rw [e2] at hle
      obtain ⟨r, h', _⟩ := rnd_le neg hc hlt hle
      rw [h] at h'
      cases h'
  · rw [h]
    obtain ⟨f1, f2⟩ := fromBits_toBits neg hS
    have := fromFloat_nearest _ f2
    rw [f1] at this
    simp only at this
    obtain ⟨r, e, hn⟩ := this
    refine ⟨r, hn.1, by rw [e, hsig neg rfl], ?_⟩
    intro g hg
    obtain ⟨c, t, e1, e2, hc, hlt⟩ := hg925 g hg
    rw [e2]
    constructor
    · intro hle
      refine nearest_ge hn hg ?_
      rw [e1]
      exact rnd_ge neg hc hle n h
    · intro hle
      refine nearest_le hn hg ?_
      rw [e1]
      obtain ⟨r', h', _, hr'⟩ := rnd_le neg hc hlt hle
      rw [h] at h'
      cases h'
      exact hr'

/-- A half that is read as a Python float and written again has the same bits. -/
theorem store_half {z : Int} {r : Nat} (hr : r ≤ 0x7C00) (hz : z.natAbs = hv r * 2 ^ 1050) :
    store (.fin z) = (if z < 0 then 2 ^ 15 else 0) + r := by
  obtain ⟨r', _, e, h⟩ := store_faithful z
  have h1 := (h r hr).1 (by omega)
  have h2 := (h r hr).2 (by omega)
  rw [e, Nat.le_antisymm h2 h1]

theorem store_of_nat (x : Nat) :
    (2 ^ 277 ≤ divRound x (925 + (bitLen x - 925 - 24)) * 2 ^ (bitLen x - 925 - 24) ∧
      store (.fin x) = 0x7C00) ∨
    Nearest (divRound x (925 + (bitLen x - 925 - 24)) * 2 ^ (bitLen x - 925 - 24))
      (store (.fin x)) := by
  have hst : store (.fin x) = fromFloat (toBits (rnd (decide ((x : Int) < 0)) (x : Int).natAbs 925)) := rfl
  have hn : decide ((x : Int) < 0) = false := by simp
  rw [hn, Int.natAbs_natCast] at hst
  have hr : rnd false x 925 =
      if 2 ^ 277 ≤ divRound x (925 + (bitLen x - 925 - 24)) * 2 ^ (bitLen x - 925 - 24) then .inf false
      else .fin false (divRound x (925 + (bitLen x - 925 - 24)) * 2 ^ (bitLen x - 925 - 24)) := rfl
  rcases rnd_single false x 925 with h | ⟨n, h, hS⟩
  · left
    rw [hst, h]
    refine ⟨?_, by decide⟩
    by_contra hlt
    rw [if_neg hlt, h] at hr
    cases hr
  · right
    have hlt : ¬ 2 ^ 277 ≤ divRound x (925 + (bitLen x - 925 - 24)) * 2 ^ (bitLen x - 925 - 24) := by
      intro hle
      rw [if_pos hle, h] at hr
      cases hr
    rw [if_neg hlt, h] at hr
    rw [← (V.fin.inj hr).2]
    obtain ⟨f1, f2⟩ := fromBits_toBits false hS
    have := fromFloat_nearest _ f2
    rw [f1] at this
    simp only at this
    obtain ⟨r, e, hn⟩ := this
    rw [hst, h, e, if_neg (by simp), Nat.zero_add]
    exact hn

/-- Larger Python floats become halves that are not smaller. -/
theorem store_mono {x y : Nat} (h : x ≤ y) : store (.fin x) ≤ store (.fin y) := by
  have hm := round_mono 925 h
  rcases store_of_nat x with ⟨h1, e1⟩ | h1
  · rcases store_of_nat y with ⟨h2, e2⟩ | h2
    · omega
    · rw [e1]
      refine nearest_ge h2 (Nat.le_refl _) ?_
      have e : hv 0x7C00 * 2 ^ 125 = 2 ^ 165 := by decide
      rw [e]
      exact Nat.le_trans (Nat.pow_le_pow_right (by omega) (by omega)) (Nat.le_trans h1 hm)
  · rcases store_of_nat y with ⟨h2, e2⟩ | h2
    · rw [e2]
      exact h1.1
    · exact nearest_mono h1 h2 hm

/-- A Python float that a binary32 represents becomes the nearest half. -/
theorem store_nearest_partial {z : Int} {c t : Nat} (hc : c < 2 ^ 24) (ht : c * 2 ^ t < 2 ^ 277)
    (hz : z.natAbs = c * 2 ^ (t + 925)) : ∃ r,
    store (.fin z) = (if z < 0 then 2 ^ 15 else 0) + r ∧ Nearest (c * 2 ^ t) r := by
  obtain ⟨n, h, hS, _⟩ := rnd_le (decide (z < 0)) hc ht (Nat.le_of_eq hz)
  have h' := rnd_exact (decide (z < 0)) (k := 925) hc ht
  rw [← hz, h] at h'
  cases h'
  have hst : store (.fin z) = fromFloat (toBits (rnd (decide (z < 0)) z.natAbs 925)) := rfl
  rw [hst, h]
  obtain ⟨f1, f2⟩ := fromBits_toBits (decide (z < 0)) hS
  have := fromFloat_nearest _ f2
  rw [f1] at this
  simp only at this
  obtain ⟨r, e, hn⟩ := this
  refine ⟨r, ?_, hn⟩
  rw [e]
  by_cases hz : z < 0 <;> simp [hz]

/-- Other Python floats do not always become the nearest half: `1 + 2^-11 + 2^-j` becomes `1`, while
`1 + 2^-10` is nearer, as the number is rounded to binary32 first. -/
theorem store_nearest_refuted : ∀ j < 53, 25 ≤ j →
    let z : Nat := 2 ^ 1074 + 2 ^ 1063 + 2 ^ (1074 - j)
    store (.fin z) = 0x3C00 ∧ dist z (hv 0x3C01 * 2 ^ 1050) < dist z (hv 0x3C00 * 2 ^ 1050) := by
  decide +kernel

/-! ## Cases -/

/-- One, the smallest half, the largest one, minus two, minus infinity. -/
example : [0x3C00, 1, 0x7BFF, 0xC000, 0xFC00].map toFloat =
    [.fin false (2 ^ 149), .fin false (2 ^ 125), .fin false (65504 * 2 ^ 149),
      .fin true (2 ^ 150), .inf true] := by
  decide +kernel

/-- `65519.996` is written as `65504`, `65520` as infinity, `2 ^ -25` as zero and the next float
as the smallest half. -/
example : [0x477FEFFF, 0x477FF000, 0x33000000, 0x33000001].map fromFloat =
    [0x7BFF, 0x7C00, 0, 1] := by
  decide +kernel

/-- `0.1` as a Python float becomes `0x2E66`. -/
example : store (.fin (3602879701896397 * 2 ^ (1074 - 55))) = 0x2E66 := by
  decide +kernel

end Verif.Half
