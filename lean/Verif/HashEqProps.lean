import Verif.HashEq
import Mathlib.Data.Nat.ModEq
import Mathlib.Tactic.Ring
import Mathlib.Tactic.Linarith
import Mathlib.Tactic.Positivity

/-! Equality and hashing of keys (C28). -/
namespace Verif.HashEq

/-! ### Rounding -/

theorem bitLen_le {n k : Nat} : bitLen n ≤ k ↔ n < 2 ^ k := by
  unfold bitLen
  by_cases h : n = 0
  · subst h; simp
  · rw [if_neg h, Nat.succ_le_iff, Nat.log2_lt h]

theorem lt_bitLen (n : Nat) : n < 2 ^ bitLen n := bitLen_le.1 (Nat.le_refl _)

theorem pow_bitLen_le {n : Nat} (h : n ≠ 0) : 2 ^ (bitLen n - 1) ≤ n := by
  have := (bitLen_le (n := n) (k := bitLen n - 1)).not
  have hp : 0 < bitLen n := by unfold bitLen; rw [if_neg h]; omega
  have := this.1 (by omega)
  omega

/-- Representable with 53 bits. -/
def Rep (a : Nat) : Prop := ∃ c t, c < 2 ^ 53 ∧ a = c * 2 ^ t

theorem divRound_exact (q s : Nat) : divRound (q * 2 ^ s) s = q := by
  unfold divRound
  have h : 0 < 2 ^ s := Nat.two_pow_pos s
  simp only [Nat.mul_mod_left, Nat.mul_div_cancel _ h]
  rw [if_neg]
  omega

theorem divRound_le (n s : Nat) : divRound n s ≤ n / 2 ^ s + 1 := by
  unfold divRound; dsimp only; split <;> omega

theorem le_divRound (n s : Nat) : n / 2 ^ s ≤ divRound n s := by
  unfold divRound; dsimp only; split <;> omega

theorem divRound_le_of_le {n s q : Nat} (h : n ≤ q * 2 ^ s) : divRound n s ≤ q := by
  have hp : 0 < 2 ^ s := Nat.two_pow_pos s
  rcases Nat.lt_or_eq_of_le h with h' | h'
  · have := divRound_le n s
    have : n / 2 ^ s < q := (Nat.div_lt_iff_lt_mul hp).2 h'
    omega
  · rw [h', divRound_exact]

theorem dvd_of_rep {c t s : Nat} (h : s ≤ t) : ∃ q, c * 2 ^ t = q * 2 ^ s :=
  ⟨c * 2 ^ (t - s), by rw [Nat.mul_assoc, ← Nat.pow_add]; congr 2; omega⟩

theorem rep_small {c t s n : Nat} (hc : c < 2 ^ 53) (h : t < s) (hs : s = bitLen n - 53)
    (hn : n ≠ 0) : c * 2 ^ t < 2 ^ (52 + s) ∧ 2 ^ (52 + s) ≤ n := by
  constructor
  · calc c * 2 ^ t < 2 ^ 53 * 2 ^ t := Nat.mul_lt_mul_of_pos_right hc (Nat.two_pow_pos t)
      _ = 2 ^ (53 + t) := (Nat.pow_add _ _ _).symm
      _ ≤ 2 ^ (52 + s) := Nat.pow_le_pow_right (by omega) (by omega)
  · have := pow_bitLen_le hn
    rwa [show bitLen n - 1 = 52 + s by omega] at this

theorem le_round53 {a n : Nat} (ha : Rep a) (h : a ≤ n) : a ≤ round53 n := by
  obtain ⟨c, t, hc, rfl⟩ := ha
  unfold round53
  by_cases hb : bitLen n ≤ 53
  · rw [if_pos hb]; exact h
  · rw [if_neg hb]
    generalize hs : bitLen n - 53 = s
    have hp : 0 < 2 ^ s := Nat.two_pow_pos s
    have hn : n ≠ 0 := by rintro rfl; simp [bitLen] at hb
    have key : ∀ q, q * 2 ^ s ≤ n → q * 2 ^ s ≤ divRound n s * 2 ^ s := by
      intro q hq
      refine Nat.mul_le_mul_right _ (Nat.le_trans ?_ (le_divRound n s))
      exact (Nat.le_div_iff_mul_le hp).2 hq
    by_cases ht : s ≤ t
    · obtain ⟨q, e⟩ := dvd_of_rep (c := c) ht
      rw [e] at h ⊢; exact key q h
    · obtain ⟨h1, h2⟩ := rep_small hc (by omega : t < s) hs.symm hn
      rw [Nat.pow_add] at h1 h2
      exact Nat.le_trans (Nat.le_of_lt h1) (key _ h2)

theorem round53_le {a n : Nat} (ha : Rep a) (h : n ≤ a) : round53 n ≤ a := by
  obtain ⟨c, t, hc, rfl⟩ := ha
  unfold round53
  by_cases hb : bitLen n ≤ 53
  · rw [if_pos hb]; exact h
  · rw [if_neg hb]
    generalize hs : bitLen n - 53 = s
    have hn : n ≠ 0 := by rintro rfl; simp [bitLen] at hb
    by_cases ht : s ≤ t
    · obtain ⟨q, e⟩ := dvd_of_rep (c := c) ht
      rw [e] at h ⊢
      exact Nat.mul_le_mul_right _ (divRound_le_of_le h)
    · obtain ⟨h1, h2⟩ := rep_small hc (by omega : t < s) hs.symm hn
      omega

/-- Doubles are not changed by rounding. -/
theorem round53_rep {a : Nat} (ha : Rep a) : round53 a = a :=
  Nat.le_antisymm (round53_le ha (Nat.le_refl _)) (le_round53 ha (Nat.le_refl _))

theorem rep_pow (t : Nat) : Rep (2 ^ t) := ⟨1, t, by decide, by simp⟩

/-- Rounding at most doubles and at most halves. -/
theorem round53_bounds (n : Nat) : round53 n ≤ 2 * n ∧ n ≤ 2 * round53 n := by
  by_cases h : n = 0
  · subst h; decide
  · have h1 := pow_bitLen_le h
    have h2 := lt_bitLen n
    have e : 2 ^ bitLen n = 2 * 2 ^ (bitLen n - 1) := by
      rw [Nat.mul_comm, ← Nat.pow_succ]
      congr 1
      have : 0 < bitLen n := by unfold bitLen; rw [if_neg h]; omega
      omega
    have h3 := round53_le (rep_pow (bitLen n)) (Nat.le_of_lt h2)
    have h4 := le_round53 (rep_pow (bitLen n - 1)) h1
    omega

/-- Rounding gives a double. -/
theorem rep_round53 (n : Nat) : Rep (round53 n) := by
  unfold round53
  by_cases hb : bitLen n ≤ 53
  · rw [if_pos hb]; exact ⟨n, 0, bitLen_le.1 hb, by simp⟩
  · rw [if_neg hb]
    have hn : n ≠ 0 := by rintro rfl; simp [bitLen] at hb
    generalize hs : bitLen n - 53 = s
    have hl : n < 2 ^ 53 * 2 ^ s := by
      rw [← Nat.pow_add]; have := lt_bitLen n; rwa [show bitLen n = 53 + s by omega] at this
    have hq := divRound_le_of_le (Nat.le_of_lt hl)
    rcases Nat.lt_or_eq_of_le hq with h | h
    · exact ⟨_, s, h, rfl⟩
    · exact ⟨1, 53 + s, by decide, by rw [h, ← Nat.pow_add]; simp⟩

/-! ### Equality of numbers -/

theorem F.neg_neg (x : F) : x.neg.neg = x := by
  cases x <;> simp [F.neg]

theorem F.add_comm (x y : F) : x.add y = y.add x := by
  cases x <;> cases y <;> simp [F.add, Int.add_comm]
  rename_i a b
  by_cases h : a = b
  · subst h; rfl
  · rw [if_neg h, if_neg (fun e => h e.symm)]

theorem toF_neg_abs (z : Int) : F.abs (toF (-z)) = F.abs (toF z) := by
  unfold toF
  rw [Int.natAbs_neg]
  split
  · rfl
  · simp only [F.abs]
    congr 1
    split <;> split <;> omega

theorem sub_abs_comm (x y : F) : F.abs (x.sub y) = F.abs (y.sub x) := by
  unfold F.sub
  cases x <;> cases y <;> simp only [F.neg, F.add]
  · rename_i a b
    rw [← toF_neg_abs]; congr 2; omega
  · rfl
  · rfl
  · rename_i a b
    cases a <;> cases b <;> rfl

/-- Comparison of numbers is symmetric, for all doubles. -/
theorem almostEq_comm (x y : F) : almostEq x y = almostEq y x := by
  unfold almostEq
  rw [sub_abs_comm x y, F.add_comm x y]

theorem toF_fin {z : Int} (h : round53 z.natAbs < 2 ^ 2098) :
    toF z = .fin (if z < 0 then -(round53 z.natAbs : Int) else round53 z.natAbs) := by
  unfold toF
  rw [if_neg (by omega)]

theorem abs_toF {z : Int} (h : round53 z.natAbs < 2 ^ 2098) :
    F.abs (toF z) = .fin (round53 z.natAbs) := by
  rw [toF_fin h]
  simp only [F.abs]
  congr 1
  split <;> omega

theorem toF_rep {z : Int} (h : Rep z.natAbs) (hl : z.natAbs < 2 ^ 2098) : toF z = .fin z := by
  rw [toF_fin (by rw [round53_rep h]; exact hl), round53_rep h]
  congr 1
  split <;> omega

/-- The comparison of finite numbers whose sum and difference stay finite. -/
theorem almostEq_fin {x y : Int} (h1 : round53 (x - y).natAbs < 2 ^ 2098)
    (h2 : round53 (x + y).natAbs < 2 ^ 2098) :
    almostEq (.fin x) (.fin y) = true ↔
      round53 (x - y).natAbs ≤ divRound (round53 (x + y).natAbs) 52 * 4 ∨
      round53 (x - y).natAbs < 2 ^ 52 := by
  unfold almostEq F.sub
  simp only [F.neg, F.add]
  rw [show x + -y = x - y by omega, abs_toF h1, abs_toF h2]
  simp only [F.epsTimes4, F.le, F.lt, Int.natAbs_natCast, Bool.or_eq_true, decide_eq_true_eq]
  constructor <;> intro h <;> rcases h with h | h <;> first | (left; omega) | (right; omega)

/-- Arithmetic core: a difference that is a large part of the sum is not within tolerance. -/
theorem far_apart {U A B d s : Nat} (hU : 2 ^ 100 ≤ U) (hB : B = 2 ^ 48 * U) (hA : 3 * B ≤ A)
    (hd : A - B ≤ d) (hs : s ≤ A + B) :
    ¬ (round53 d ≤ divRound (round53 s) 52 * 4 ∨ round53 d < 2 ^ 52) := by
  have h1 := (round53_bounds d).2
  have h2 := (round53_bounds s).1
  have h3 := divRound_le (round53 s) 52
  generalize round53 d = d' at *
  generalize divRound (round53 s) 52 = e at *
  generalize round53 s = s' at *
  omega

theorem ofInt_small {k : Int} (h : k.natAbs < 2 ^ 53) : ofInt k = .fin (k * 2 ^ 1074) := by
  have e : (k * 2 ^ 1074 : Int).natAbs = k.natAbs * 2 ^ 1074 := by
    rw [Int.natAbs_mul, Int.natAbs_pow]; rfl
  unfold ofInt
  refine toF_rep (by rw [e]; exact ⟨_, _, h, rfl⟩) ?_
  rw [e]
  calc k.natAbs * 2 ^ 1074 < 2 ^ 53 * 2 ^ 1074 := Nat.mul_lt_mul_of_pos_right h (Nat.two_pow_pos _)
    _ ≤ 2 ^ 2098 := by rw [← Nat.pow_add]; exact Nat.pow_le_pow_right (by omega) (by omega)

/-- Small integral doubles equal exactly the integer they denote, among all 64-bit integers. -/
theorem almost_small {n k : Int} (hn : n.natAbs ≤ 2 ^ 63) (hk : k.natAbs < 2 ^ 48) :
    almostEq (ofInt n) (.fin (k * 2 ^ 1074)) = true ↔ n = k := by
  have hU : 2 ^ 100 ≤ 2 ^ 1074 := Nat.pow_le_pow_right (by omega) (by omega)
  have hfin : ∀ m, m ≤ 2 ^ 66 * 2 ^ 1074 → round53 m < 2 ^ 2098 := by
    intro m hm
    refine Nat.lt_of_le_of_lt (round53_le (rep_pow (66 + 1074))
      (Nat.le_trans hm (Nat.le_of_eq (pow_add 2 66 1074).symm))) ?_
    exact Nat.pow_lt_pow_right (by omega) (by omega)
  have eU : ((2 ^ 1074 : Nat) : Int) = 2 ^ 1074 := by
    rw [Int.natCast_pow, Nat.cast_ofNat]
  -- value of the converted integer
  have hz : ∃ z : Int, ofInt n = .fin z ∧ z.natAbs = round53 (n.natAbs * 2 ^ 1074) ∧
      (n.natAbs < 2 ^ 53 → z = n * 2 ^ 1074) := by
    have e : (n * 2 ^ 1074 : Int).natAbs = n.natAbs * 2 ^ 1074 := by
      rw [Int.natAbs_mul, Int.natAbs_pow]; rfl
    have hr : round53 (n * 2 ^ 1074 : Int).natAbs < 2 ^ 2098 := by
      rw [e]; apply hfin; exact Nat.mul_le_mul_right _ (by omega)
    refine ⟨_, toF_fin hr, ?_, ?_⟩
    · rw [← e]; split <;> omega
    · intro h
      have := ofInt_small h
      unfold ofInt at this
      rw [toF_fin hr] at this
      exact F.fin.inj this
  obtain ⟨z, ez, hzn, hzs⟩ := hz
  have hzb := (round53_bounds (n.natAbs * 2 ^ 1074))
  rw [← hzn] at hzb
  rw [ez]
  clear ez
  rw [← eU] at hzs ⊢
  clear eU hzn
  have hRep : ∀ m, m < 2 ^ 53 → Rep (m * 2 ^ 1074) := fun m hm => ⟨m, _, hm, rfl⟩
  obtain ⟨V, hV⟩ : ∃ V, 2 ^ 1074 = V * 2 ^ 52 := ⟨2 ^ 1022, by rw [← Nat.pow_add]⟩
  generalize (2 ^ 1074 : Nat) = U at *
  have hb1 : n.natAbs * U ≤ 2 ^ 63 * U := Nat.mul_le_mul_right _ hn
  have hkU : (k * (U : Int)).natAbs = k.natAbs * U := by rw [Int.natAbs_mul]; congr 1
  have hkb : k.natAbs * U ≤ 2 ^ 48 * U := Nat.mul_le_mul_right _ (by omega)
  rw [almostEq_fin (hfin _ (by omega)) (hfin _ (by omega))]
  constructor
  · intro h
    by_contra hne
    by_cases hbig : 3 * 2 ^ 48 ≤ n.natAbs
    · -- the integer dominates
      refine far_apart (A := z.natAbs) hU rfl ?_ (by omega) (by omega) h
      by_cases h53 : n.natAbs < 2 ^ 53
      · rw [hzs h53, Int.natAbs_mul, Int.natAbs_natCast]
        have := Nat.mul_le_mul_right U hbig
        omega
      · have := Nat.mul_le_mul_right U (show 2 ^ 53 ≤ n.natAbs by omega)
        omega
    · -- both are exact
      rw [hzs (by omega)] at h
      have e1 : (n * (U : Int) - k * U).natAbs = (n - k).natAbs * U := by
        rw [← Int.sub_mul, Int.natAbs_mul]; congr 1
      have e2 : (n * (U : Int) + k * U).natAbs = (n + k).natAbs * U := by
        rw [← Int.add_mul, Int.natAbs_mul]; congr 1
      rw [e1, e2] at h
      have h1 : U ≤ round53 ((n - k).natAbs * U) := by
        refine le_round53 (by simpa using hRep 1 (by decide)) ?_
        exact Nat.le_mul_of_pos_left _ (by omega)
      have h2 : (n + k).natAbs < 2 ^ 50 := by omega
      have e3 : divRound ((n + k).natAbs * U) 52 = (n + k).natAbs * V := by
        rw [hV, ← Nat.mul_assoc, divRound_exact]
      rw [round53_rep (hRep _ (by omega : (n + k).natAbs < 2 ^ 53)), e3] at h
      have h3 : (n + k).natAbs * V ≤ (2 ^ 50 - 1) * V := Nat.mul_le_mul_right _ (by omega)
      omega
  · rintro rfl
    right
    rw [hzs (by omega)]
    simp [round53, bitLen]

/-! ### The hash of a double -/

theorem P_pos : 0 < P := by decide

theorem rot_spec {x e : Nat} (hx : x < P) (he : e ≤ 61) :
    rot x e < P ∧ rot x e ≡ x * 2 ^ e [MOD P] := by
  have h61 : (2 : Nat) ^ 61 = 2 ^ (61 - e) * 2 ^ e := by rw [← pow_add]; congr 1; omega
  have hq : 0 < 2 ^ (61 - e) := Nat.two_pow_pos _
  have hp : 0 < 2 ^ e := Nat.two_pow_pos _
  have h1 : ((x <<< e) % W) &&& P = x % 2 ^ (61 - e) * 2 ^ e := by
    have : P = 2 ^ 61 - 1 := rfl
    rw [this, Nat.and_two_pow_sub_one_eq_mod, Nat.shiftLeft_eq, W,
      Nat.mod_mod_of_dvd _ (Nat.pow_dvd_pow 2 (by omega)), h61, Nat.mul_mod_mul_right]
  have h2 : x >>> (61 - e) = x / 2 ^ (61 - e) := Nat.shiftRight_eq_div_pow _ _
  have hlt : x / 2 ^ (61 - e) < 2 ^ e := by
    rw [Nat.div_lt_iff_lt_mul hq, Nat.mul_comm, ← h61]
    have : P = 2 ^ 61 - 1 := rfl
    omega
  have h3 : rot x e = x % 2 ^ (61 - e) * 2 ^ e + x / 2 ^ (61 - e) := by
    unfold rot
    rw [h1, h2, ← Nat.shiftLeft_eq, ← Nat.shiftLeft_add_eq_or_of_lt hlt]
  have hm : x % 2 ^ (61 - e) < 2 ^ (61 - e) := Nat.mod_lt _ hq
  have hx' : 2 ^ (61 - e) * (x / 2 ^ (61 - e)) + x % 2 ^ (61 - e) = x := Nat.div_add_mod _ _
  have hP : P + 1 = 2 ^ (61 - e) * 2 ^ e := by rw [← h61]; rfl
  rw [h3]
  generalize 2 ^ (61 - e) = Q at *
  generalize 2 ^ e = E at *
  generalize x / Q = q at *
  generalize x % Q = r at *
  constructor
  · by_contra hc
    have hr : r * E + q + 1 ≥ Q * E := by omega
    have h4 : r = Q - 1 := by
      by_contra hne
      have : (r + 1 + 1) * E ≤ Q * E := Nat.mul_le_mul_right _ (by omega)
      have e1 : (r + 1 + 1) * E = r * E + E + E := by ring
      omega
    have h5 : q = E - 1 := by
      have e1 : (r + 1) * E = r * E + E := by ring
      have : r + 1 = Q := by omega
      rw [this] at e1
      omega
    have : x + 1 = Q * E := by
      rw [← hx', h4, h5]
      obtain ⟨Q, rfl⟩ : ∃ k, Q = k + 1 := ⟨Q - 1, by omega⟩
      obtain ⟨E, rfl⟩ : ∃ k, E = k + 1 := ⟨E - 1, by omega⟩
      simp only [Nat.add_sub_cancel]; ring
    omega
  · have e1 : x * E = q * P + (r * E + q) := by
      calc x * E = q * (Q * E) + r * E := by rw [← hx']; ring
        _ = q * (P + 1) + r * E := by rw [hP]
        _ = _ := by ring
    rw [e1]
    exact (Nat.modEq_iff_dvd' (by omega)).2 ⟨q, by rw [Nat.add_sub_cancel]; ring⟩

theorem addMod_spec {x y : Nat} (hx : x < P) (hy : y < P) :
    addMod x y < P ∧ addMod x y ≡ x + y [MOD P] := by
  unfold addMod
  split
  · exact ⟨by omega, (Nat.modEq_iff_dvd' (by omega)).2 ⟨1, by omega⟩⟩
  · exact ⟨by omega, rfl⟩

/-- Invariant of the loop over the bits of the fraction. -/
theorem hashLoop_spec {b : Nat} : ∀ {k r x : Nat} {e : Int} {x' : Nat} {e' : Int},
    x < P → r < 2 ^ b → hashLoop b k r x e = some (x', e') →
    x' < P ∧ ∃ j : Nat, e' = e - 28 * j ∧ x' * 2 ^ b ≡ (x * 2 ^ b + r) * 2 ^ (28 * j) [MOD P] := by
  intro k
  have done : ∀ {r x : Nat} {e : Int} {x' : Nat} {e' : Int}, x < P → r = 0 →
      some (x, e) = some (x', e') →
      x' < P ∧ ∃ j : Nat, e' = e - 28 * j ∧
        x' * 2 ^ b ≡ (x * 2 ^ b + r) * 2 ^ (28 * j) [MOD P] := by
    intro r x e x' e' hx hr h
    injection h with h; injection h with h1 h2
    subst h1 h2 hr
    exact ⟨hx, 0, by omega, by simp [Nat.ModEq.refl]⟩
  induction k with
  | zero =>
    intro r x e x' e' hx hr h
    unfold hashLoop at h
    by_cases h0 : r = 0
    · rw [if_pos h0] at h; exact done hx h0 h
    · rw [if_neg h0] at h; cases h
  | succ k ih =>
    intro r x e x' e' hx hr h
    unfold hashLoop at h
    by_cases h0 : r = 0
    · rw [if_pos h0] at h; exact done hx h0 h
    · rw [if_neg h0] at h
      have hp : 0 < 2 ^ b := Nat.two_pow_pos b
      obtain ⟨r1, r2⟩ := rot_spec hx (by omega : 28 ≤ 61)
      have hy : r * 2 ^ 28 / 2 ^ b < 2 ^ 28 := by
        rw [Nat.div_lt_iff_lt_mul hp, Nat.mul_comm]
        exact Nat.mul_lt_mul_of_pos_left hr (by decide)
      obtain ⟨a1, a2⟩ := addMod_spec r1 (Nat.lt_of_lt_of_le hy (by decide))
      obtain ⟨i1, j, i2, i3⟩ := ih a1 (Nat.mod_lt _ hp) h
      refine ⟨i1, j + 1, by rw [i2]; push_cast; omega, i3.trans ?_⟩
      have hd := Nat.div_add_mod (r * 2 ^ 28) (2 ^ b)
      generalize r * 2 ^ 28 / 2 ^ b = y at *
      generalize r * 2 ^ 28 % 2 ^ b = r' at *
      have e1 : (x * 2 ^ b + r) * 2 ^ (28 * (j + 1)) =
          ((x * 2 ^ 28 + y) * 2 ^ b + r') * 2 ^ (28 * j) := by
        rw [show 28 * (j + 1) = 28 + 28 * j by ring, pow_add, ← Nat.mul_assoc]
        congr 1
        rw [Nat.add_mul, ← hd]; ring
      rw [e1]
      exact Nat.ModEq.mul_right _ (Nat.ModEq.add_right _
        (Nat.ModEq.mul_right _ (a2.trans (Nat.ModEq.add_right _ r2))))

/-- Two rounds consume the fraction of every double. -/
theorem hashLoop_two {a : Nat} (ha : Rep a) (x : Nat) (e : Int) :
    ∃ p, hashLoop (bitLen a) 2 a x e = some p := by
  obtain ⟨c, t, hc, h⟩ := ha
  have hb : bitLen a ≤ 53 + t := by
    rw [bitLen_le, h, pow_add]; exact Nat.mul_lt_mul_of_pos_right hc (Nat.two_pow_pos t)
  generalize bitLen a = b at *
  have h0 : a * 2 ^ 28 % 2 ^ b * 2 ^ 28 % 2 ^ b = 0 := by
    rw [Nat.mod_mul_mod]
    refine Nat.mod_eq_zero_of_dvd ?_
    rw [h, Nat.mul_assoc, Nat.mul_assoc, ← pow_add, ← pow_add]
    exact Dvd.dvd.mul_left (Nat.pow_dvd_pow 2 (by omega)) c
  unfold hashLoop
  split
  · exact ⟨_, rfl⟩
  · unfold hashLoop
    split
    · exact ⟨_, rfl⟩
    · unfold hashLoop
      rw [if_pos h0]
      exact ⟨_, rfl⟩

theorem pow_mod61 (m : Nat) : 2 ^ m ≡ 2 ^ (m % 61) [MOD P] := by
  have h1 : 2 ^ 61 ≡ 1 [MOD P] := by decide +kernel
  have : 2 ^ m = (2 ^ 61) ^ (m / 61) * 2 ^ (m % 61) := by
    rw [← pow_mul, ← pow_add, Nat.div_add_mod]
  rw [this]
  have h2 := (h1.pow (m / 61)).mul_right (2 ^ (m % 61))
  simpa using h2

theorem coprime_pow (m : Nat) : Nat.Coprime P (2 ^ m) :=
  Nat.Coprime.pow_right m (by decide +kernel)

/-- The hash of a finite double of magnitude `a * 2 ^ -1074` is its value modulo `2 ^ 61 - 1`. -/
theorem hashMag_spec {a : Nat} (ha : Rep a) :
    ∃ x, hashMag a = some x ∧ x < P ∧ x * 2 ^ 1074 ≡ a [MOD P] := by
  obtain ⟨⟨x, e⟩, h⟩ := hashLoop_two ha 0 ((bitLen a : Int) - 1074)
  obtain ⟨hx, j, he, hm⟩ := hashLoop_spec P_pos (lt_bitLen a) h
  have hE : reduceExp e < 61 ∧ (reduceExp e + 1074 + 28 * j) % 61 = bitLen a % 61 := by
    unfold reduceExp
    split <;> omega
  obtain ⟨r1, r2⟩ := rot_spec hx (Nat.le_of_lt hE.1)
  refine ⟨rot x (reduceExp e), by unfold hashMag; rw [h]; rfl, r1, ?_⟩
  refine Nat.ModEq.cancel_right_of_coprime (c := 2 ^ (28 * j)) (coprime_pow _) ?_
  have e1 : rot x (reduceExp e) * 2 ^ 1074 * 2 ^ (28 * j) ≡
      x * 2 ^ (reduceExp e + 1074 + 28 * j) [MOD P] := by
    have := (r2.mul_right (2 ^ 1074)).mul_right (2 ^ (28 * j))
    rwa [Nat.mul_assoc x, Nat.mul_assoc x, ← pow_add, ← pow_add] at this
  have e2 : 2 ^ (reduceExp e + 1074 + 28 * j) ≡ 2 ^ bitLen a [MOD P] := by
    refine (pow_mod61 _).trans ?_
    rw [hE.2]; exact (pow_mod61 _).symm
  have e3 := (e1.trans (e2.mul_left x)).trans hm
  simpa using e3

theorem hashDouble_fin (z : Int) : hashDouble (.fin z) =
    (hashMag z.natAbs).map fun x => fixMinusOne (if z < 0 then (W - x) % W else x) := rfl

/-- An integral double below `2 ^ 53` hashes like the integer. -/
theorem hashDouble_int {k : Int} (h : k.natAbs < 2 ^ 53) :
    hashDouble (.fin (k * 2 ^ 1074)) = some (hashInt k) := by
  have e : (k * 2 ^ 1074 : Int).natAbs = k.natAbs * 2 ^ 1074 := by
    rw [Int.natAbs_mul, Int.natAbs_pow]; rfl
  obtain ⟨x, h1, h2, h3⟩ := hashMag_spec (a := k.natAbs * 2 ^ 1074) ⟨_, _, h, rfl⟩
  have h4 := Nat.ModEq.cancel_right_of_coprime (coprime_pow 1074) h3
  have hP : P = 2 ^ 61 - 1 := rfl
  have h5 : x = k.natAbs := Nat.ModEq.eq_of_lt_of_lt h4 h2 (by omega)
  have hneg : (k * 2 ^ 1074 < 0) ↔ k < 0 := by
    constructor
    · intro hk
      by_contra hc
      have := Int.mul_nonneg (by omega : 0 ≤ k) (show (0 : Int) ≤ 2 ^ 1074 by positivity)
      omega
    · intro hk
      exact Int.mul_neg_of_neg_of_pos hk (by positivity)
  have hW : W = 2 ^ 64 := rfl
  rw [hashDouble_fin, e, h1, Option.map_some, h5, hashInt]
  refine congrArg some (congrArg fixMinusOne ?_)
  by_cases hk : k < 0
  · rw [if_pos (hneg.2 hk), hW]; omega
  · rw [if_neg (fun hh => hk (hneg.1 hh)), hW]; omega

/-! ### Keys -/

/-- 64-bit integers, integral floats below `2 ^ 48`, strings, bytes, None, and tuples of these. -/
inductive Tame : Val → Prop
  | none : Tame .none
  | int {n : Int} : -2 ^ 63 ≤ n → n < 2 ^ 63 → Tame (.int n)
  | flt {k : Int} : k.natAbs < 2 ^ 48 → Tame (.flt (.fin (k * 2 ^ 1074)))
  | bytes (b : List UInt8) : Tame (.bytes b)
  | str (s : List Char) : Tame (.str s)
  | tup {l : List Val} : (∀ x ∈ l, Tame x) → Tame (.tup l)

/-- The Python value a key denotes: numbers by their integer value. -/
inductive Key
  | none
  | num (n : Int)
  | bytes (b : List UInt8)
  | str (s : List Char)
  | nil
  | cons (x : Key) (l : Key)

mutual
def key : Val → Key
  | .none => .none
  | .int n => .num n
  | .flt (.fin z) => .num (z / 2 ^ 1074)
  | .flt _ => .none
  | .bytes b => .bytes b
  | .str s => .str s
  | .tup l => keys l
def keys : List Val → Key
  | [] => .nil
  | x :: l => .cons (key x) (keys l)
end

theorem key_flt (k : Int) : key (.flt (.fin (k * 2 ^ 1074))) = .num k := by
  unfold key
  rw [Int.mul_ediv_cancel _ (by positivity)]

theorem ofInt_flt {k : Int} (h : k.natAbs < 2 ^ 48) : .fin (k * 2 ^ 1074) = ofInt k :=
  (ofInt_small (by omega)).symm

theorem num_iff {a b : Int} : Key.num a = Key.num b ↔ a = b :=
  ⟨fun h => by injection h, fun h => by rw [h]⟩

theorem keys_ne_none (l : List Val) : keys l ≠ .none := by cases l <;> simp [keys]
theorem keys_ne_num (l : List Val) (n : Int) : keys l ≠ .num n := by cases l <;> simp [keys]
theorem keys_ne_bytes (l : List Val) (n : List UInt8) : keys l ≠ .bytes n := by
  cases l <;> simp [keys]
theorem keys_ne_str (l : List Val) (n : List Char) : keys l ≠ .str n := by
  cases l <;> simp [keys]

mutual
/-- Two tame values compare equal exactly when they denote the same Python value. -/
theorem eqv_iff : ∀ (x y : Val), Tame x → Tame y → (eqv x y = true ↔ key x = key y)
  | .none, y, _, hy => by
    cases hy <;> simp [eqv, key, key_flt]
    exact fun h => (keys_ne_none _ h.symm).elim
  | .int n, y, hx, hy => by
    cases hx with
    | int h1 h2 =>
      cases hy with
      | flt hk => rw [key_flt]; simp only [eqv, key]; rw [almost_small (by omega) hk, num_iff]
      | int => simp [eqv, key]
      | tup => simpa [eqv, key] using fun h => (keys_ne_num _ _ h.symm)
      | _ => simp [eqv, key]
  | .flt f, y, hx, hy => by
    cases hx with
    | flt h1 =>
      rw [key_flt]
      cases hy with
      | flt hk =>
        rw [key_flt]; simp only [eqv]; rw [ofInt_flt h1, almost_small (by omega) hk, num_iff]
      | int =>
        simp only [eqv, key]
        rw [almostEq_comm, almost_small (by omega) h1, num_iff]
        exact ⟨Eq.symm, Eq.symm⟩
      | tup => simpa [eqv, key] using fun h => (keys_ne_num _ _ h.symm)
      | _ => simp [eqv, key]
  | .bytes b, y, _, hy => by
    cases hy <;> simp [eqv, key, key_flt]
    exact fun h => (keys_ne_bytes _ _ h.symm).elim
  | .str b, y, _, hy => by
    cases hy <;> simp [eqv, key, key_flt]
    exact fun h => (keys_ne_str _ _ h.symm).elim
  | .tup l, y, hx, hy => by
    cases hx with
    | tup hl =>
      cases hy with
      | tup hm => simpa [eqv, key] using eqvs_iff l _ hl hm
      | none => simpa [eqv, key] using keys_ne_none l
      | int => simpa [eqv, key] using keys_ne_num l _
      | flt => rw [key_flt]; simpa [eqv, key] using keys_ne_num l _
      | bytes => simpa [eqv, key] using keys_ne_bytes l _
      | str => simpa [eqv, key] using keys_ne_str l _

theorem eqvs_iff : ∀ (l m : List Val), (∀ x ∈ l, Tame x) → (∀ x ∈ m, Tame x) →
    (eqvs l m = true ↔ keys l = keys m)
  | [], [], _, _ => by simp [eqvs, keys]
  | [], _ :: _, _, _ => by simp [eqvs, keys]
  | _ :: _, [], _, _ => by simp [eqvs, keys]
  | x :: l, y :: m, hl, hm => by
    simp only [eqvs, keys, Bool.and_eq_true]
    rw [eqv_iff x y (hl _ (by simp)) (hm _ (by simp)),
      eqvs_iff l m (fun z hz => hl z (by simp [hz])) (fun z hz => hm z (by simp [hz]))]
    constructor
    · rintro ⟨h1, h2⟩; rw [h1, h2]
    · intro h; injection h with h1 h2; exact ⟨h1, h2⟩
end

/-- C28: on tame values equality is an equivalence relation. -/
theorem eq_equivalence_partial : (∀ x, Tame x → eqv x x = true) ∧
    (∀ x y, Tame x → Tame y → eqv x y = eqv y x) ∧
    (∀ x y z, Tame x → Tame y → Tame z → eqv x y = true → eqv y z = true → eqv x z = true) := by
  refine ⟨fun x h => (eqv_iff x x h h).2 rfl, ?_, ?_⟩
  · intro x y hx hy
    rw [Bool.eq_iff_iff, eqv_iff x y hx hy, eqv_iff y x hy hx]
    exact ⟨Eq.symm, Eq.symm⟩
  · intro x y z hx hy hz h1 h2
    rw [eqv_iff _ _ hx hy] at h1
    rw [eqv_iff _ _ hy hz] at h2
    exact (eqv_iff _ _ hx hz).2 (h1.trans h2)

section
variable (hb : List UInt8 → Nat) (hc : List Char → Nat)

mutual
theorem hash_congr : ∀ (x y : Val), Tame x → Tame y → key x = key y →
    hash hb hc x = hash hb hc y
  | .none, y, _, hy, h => by
    cases hy with
    | none => rfl
    | flt => rw [key_flt] at h; cases h
    | tup => exact (keys_ne_none _ h.symm).elim
    | _ => cases h
  | .int n, y, _, hy, h => by
    cases hy with
    | int => simp only [key] at h; injection h with h; rw [h]
    | flt hk =>
      rw [key_flt] at h; simp only [key] at h; injection h with h
      simp only [hash]; rw [hashDouble_int (by omega), h]
    | tup => exact (keys_ne_num _ _ h.symm).elim
    | _ => cases h
  | .flt f, y, hx, hy, h => by
    cases hx with
    | flt h1 =>
      rw [key_flt] at h
      cases hy with
      | int =>
        simp only [key] at h; injection h with h
        simp only [hash]; rw [hashDouble_int (by omega), h]
      | flt hk => rw [key_flt] at h; injection h with h; rw [h]
      | tup => exact (keys_ne_num _ _ h.symm).elim
      | _ => cases h
  | .bytes b, y, _, hy, h => by
    cases hy with
    | bytes => simp only [key] at h; injection h with h; rw [h]
    | flt => rw [key_flt] at h; cases h
    | tup => exact (keys_ne_bytes _ _ h.symm).elim
    | _ => cases h
  | .str b, y, _, hy, h => by
    cases hy with
    | str => simp only [key] at h; injection h with h; rw [h]
    | flt => rw [key_flt] at h; cases h
    | tup => exact (keys_ne_str _ _ h.symm).elim
    | _ => cases h
  | .tup l, y, hx, hy, h => by
    cases hx with
    | tup hl =>
      cases hy with
      | tup hm =>
        simp only [key] at h
        obtain ⟨h1, h2⟩ := hash_items_congr l _ 374761393 l.length hl hm h
        simp only [hash]; rw [h2, h1]
      | none => exact (keys_ne_none _ h).elim
      | int => exact (keys_ne_num _ _ h).elim
      | flt => rw [key_flt] at h; exact (keys_ne_num _ _ h).elim
      | bytes => exact (keys_ne_bytes _ _ h).elim
      | str => exact (keys_ne_str _ _ h).elim

theorem hash_items_congr : ∀ (l m : List Val) (acc len : Nat), (∀ x ∈ l, Tame x) →
    (∀ x ∈ m, Tame x) → keys l = keys m →
    l.length = m.length ∧ hashItems hb hc l acc len = hashItems hb hc m acc len
  | [], [], _, _, _, _, _ => ⟨rfl, rfl⟩
  | [], _ :: _, _, _, _, _, h => by simp [keys] at h
  | _ :: _, [], _, _, _, _, h => by simp [keys] at h
  | x :: l, y :: m, acc, len, hl, hm, h => by
    simp only [keys] at h
    injection h with h1 h2
    have e := hash_congr x y (hl _ (by simp)) (hm _ (by simp)) h1
    have ih := fun acc => hash_items_congr l m acc len (fun z hz => hl z (by simp [hz]))
      (fun z hz => hm z (by simp [hz])) h2
    refine ⟨by simp [(ih 0).1], ?_⟩
    simp only [hashItems, e]
    cases hash hb hc y with
    | none => rfl
    | some lane => simp only [(ih (tupleStep acc lane)).2]
end

mutual
/-- Every tame value has a hash. -/
theorem hash_total : ∀ (x : Val), Tame x → ∃ v, hash hb hc x = some v
  | .none, _ => ⟨_, by simp only [hash]; rfl⟩
  | .int _, _ => ⟨_, by simp only [hash]; rfl⟩
  | .flt f, hx => by
    cases hx with
    | flt h1 => exact ⟨_, by simp only [hash]; exact hashDouble_int (by omega)⟩
  | .bytes _, _ => ⟨_, by simp only [hash]; rfl⟩
  | .str _, _ => ⟨_, by simp only [hash]; rfl⟩
  | .tup l, hx => by
    cases hx with
    | tup hl => simp only [hash]; exact hash_items_total l _ _ hl
theorem hash_items_total : ∀ (l : List Val) (acc len : Nat), (∀ x ∈ l, Tame x) →
    ∃ v, hashItems hb hc l acc len = some v
  | [], _, _, _ => ⟨_, by simp only [hashItems]; rfl⟩
  | x :: l, acc, len, hl => by
    obtain ⟨v, e⟩ := hash_total x (hl _ (by simp))
    simp only [hashItems, e]
    split
    · exact ⟨_, rfl⟩
    · exact hash_items_total l _ _ (fun z hz => hl z (by simp [hz]))
end

/-- C28: tame values that compare equal have the same hash. -/
theorem eq_hash_partial (x y : Val) (hx : Tame x) (hy : Tame y) (h : eqv x y = true) :
    ∃ v, hash hb hc x = some v ∧ hash hb hc y = some v := by
  obtain ⟨v, e⟩ := hash_total hb hc x hx
  exact ⟨v, e, by rw [← hash_congr hb hc x y hx hy ((eqv_iff x y hx hy).1 h)]; exact e⟩

/-- Every double has a hash, congruent to its value modulo `2 ^ 61 - 1` for finite doubles. -/
theorem hash_double_total (z : Int) (h : Rep z.natAbs) :
    ∃ x, hash hb hc (.flt (.fin z)) =
      some (fixMinusOne (if z < 0 then (W - x) % W else x)) ∧ x < P ∧
      x * 2 ^ 1074 ≡ z.natAbs [MOD P] := by
  obtain ⟨x, h1, h2, h3⟩ := hashMag_spec h
  exact ⟨x, by simp only [hash]; rw [hashDouble_fin, h1]; rfl, h2, h3⟩

/-! ### Where the property fails -/

/-- The float `1.0` and its successor. -/
def one : F := .fin (2 ^ 1074)
def oneNext : F := .fin (2 ^ 1074 + 2 ^ 1022)

/-- Neighbouring floats compare equal but hash differently. -/
theorem near_floats_hash_refuted : eqv (.flt one) (.flt oneNext) = true ∧
    hash hb hc (.flt one) = some 1 ∧ hash hb hc (.flt oneNext) = some (1 + 2 ^ 9) := by
  refine ⟨?_, ?_, ?_⟩
  · simp only [eqv]; decide +kernel
  · simp only [hash]; decide +kernel
  · simp only [hash]; decide +kernel

/-- The integer `2 ^ 61` equals the float `2 ^ 61`, exactly; their hashes differ. -/
theorem large_int_hash_refuted : eqv (.int (2 ^ 61)) (.flt (.fin (2 ^ 1135))) = true ∧
    hash hb hc (.int (2 ^ 61)) = some (2 ^ 61) ∧
    hash hb hc (.flt (.fin (2 ^ 1135))) = some 1 := by
  refine ⟨?_, ?_, ?_⟩
  · simp only [eqv]; decide +kernel
  · simp only [hash]; decide +kernel
  · simp only [hash]; decide +kernel
end

/-- Infinity compares equal to every finite float. -/
theorem inf_equals_finite_refuted (neg : Bool) (z : Int) :
    eqv (.flt (.inf neg)) (.flt (.fin z)) = true := by
  simp only [eqv]
  cases neg <;> rfl

/-- Infinity does not compare equal to itself. -/
theorem inf_not_reflexive_refuted (neg : Bool) :
    eqv (.flt (.inf neg)) (.flt (.inf neg)) = false := by
  simp only [eqv]
  cases neg <;> rfl

/-- Equality is not transitive, through a float and already for two different integers. -/
theorem not_transitive_refuted :
    (eqv (.flt one) (.flt (.inf false)) = true ∧ eqv (.flt (.inf false)) (.int 2) = true ∧
      eqv (.flt one) (.int 2) = false) ∧
    (eqv (.int (2 ^ 53)) (.flt (.fin (2 ^ 1127))) = true ∧
      eqv (.flt (.fin (2 ^ 1127))) (.int (2 ^ 53 + 1)) = true ∧
      eqv (.int (2 ^ 53)) (.int (2 ^ 53 + 1)) = false) := by
  simp only [eqv]
  decide +kernel

/-- Two finite positive floats whose sum overflows compare equal, however far apart. -/
theorem overflow_equal_refuted {x y : Int} (hx : 0 ≤ x) (hy : 0 ≤ y)
    (_ : x < 2 ^ 2098) (_ : y < 2 ^ 2098) (h : 2 ^ 2098 ≤ x + y) :
    eqv (.flt (.fin x)) (.flt (.fin y)) = true := by
  simp only [eqv, almostEq, F.sub, F.neg, F.add]
  have h1 : toF (x + y) = .inf false := by
    unfold toF
    have hle : (2 : Nat) ^ 2098 ≤ (x + y).natAbs := by
      generalize hA : (2 : Int) ^ 2098 = A at *
      have : ((2 ^ 2098 : Nat) : Int) = A := by rw [← hA, Int.natCast_pow, Nat.cast_ofNat]
      generalize (2 ^ 2098 : Nat) = B at *
      omega
    rw [if_pos (le_round53 (rep_pow 2098) hle)]
    rw [decide_eq_false (by omega)]
  have h2 : ∃ d : Int, F.abs (toF (x + -y)) = .fin d ∨ F.abs (toF (x + -y)) = .inf false := by
    unfold toF
    split
    · exact ⟨0, Or.inr rfl⟩
    · exact ⟨_, Or.inl rfl⟩
  rw [h1]
  obtain ⟨d, h2 | h2⟩ := h2 <;> rw [h2] <;> rfl

/-- Integers, the same number as a float, and a nested tuple. -/
example : Tame (.tup [.int (-1), .flt (.fin (-1 * 2 ^ 1074)), .tup [.str ['a'], .none]]) := by
  refine .tup ?_
  intro x hx
  simp only [List.mem_cons, List.not_mem_nil, or_false] at hx
  rcases hx with rfl | rfl | rfl
  · exact .int (by decide) (by decide)
  · exact .flt (by decide)
  · refine .tup ?_
    intro x hx
    simp only [List.mem_cons, List.not_mem_nil, or_false] at hx
    rcases hx with rfl | rfl
    · exact .str _
    · exact .none

example : hashDouble (.fin (-1 * 2 ^ 1074)) = some (2 ^ 64 - 2) ∧ hashInt (-1) = 2 ^ 64 - 2 := by
  decide +kernel

/-- `hash(0.5)` is `2 ^ 60`, as in Python. -/
example : hashDouble (.fin (2 ^ 1073)) = some (2 ^ 60) := by decide +kernel

end Verif.HashEq
