/-
Seeding: what `init_by_array` leaves in the state, and that it can be computed back.
-/
import Verif.RandomSeq

namespace Verif.Random

/-! ## `init_genrand` -/

/-- The words of `init_genrand`. -/
def gseq (s : W) : Nat → W
  | 0 => s
  | i + 1 => 1812433253#32 * (gseq s i ^^^ (gseq s i >>> 30)) + BitVec.ofNat 32 (i + 1)

theorem initGenrand_eq {mt : List W} (hl : mt.length = N) (s : W) :
    ∃ mt', initGenrand mt s = some mt' ∧ mt'.length = N ∧
      ∀ i < N, mt'[i]? = some (gseq s i) := by
  have key : ∀ (n i : Nat) (mt : List W), 1 ≤ i → i + n ≤ N → mt.length = N →
      (∀ j < i, mt[j]? = some (gseq s j)) →
      ∃ mt', (List.range' i n).foldlM (fun (mt : List W) i => do
        let p ← mt[i - 1]?
        if i < mt.length then
          some (mt.set i (1812433253#32 * (p ^^^ (p >>> 30)) + BitVec.ofNat 32 i))
        else none) mt = some mt' ∧ mt'.length = N ∧ ∀ j < i + n, mt'[j]? = some (gseq s j) := by
    intro n
    induction n with
    | zero => intro i mt _ _ hl h; exact ⟨mt, rfl, hl, h⟩
    | succ n ih =>
      intro i mt h1 hn hl h
      have hp := h (i - 1) (by omega)
      obtain ⟨mt', a, b, c⟩ := ih (i + 1) (mt.set i (gseq s i)) (by omega) (by omega) (by simpa using hl)
        (fun j hj => by
          by_cases hji : j = i
          · subst hji; rw [List.getElem?_set_self (by omega)]
          · rw [List.getElem?_set_ne (by omega)]; exact h j (by omega))
      refine ⟨mt', ?_, b, fun j hj => c j (by omega)⟩
      rw [List.range'_succ, List.foldlM_cons, hp]
      have e : gseq s i = 1812433253#32 * (gseq s (i - 1) ^^^ (gseq s (i - 1) >>> 30)) +
          BitVec.ofNat 32 i := by
        obtain ⟨k, rfl⟩ : ∃ k, i = k + 1 := ⟨i - 1, by omega⟩
        rfl
      rw [e] at a
      simp only [bind, Option.bind, if_pos (show i < mt.length by omega)] at a ⊢
      exact a
  obtain ⟨mt', a, b, c⟩ := key (N - 1) 1 (mt.set 0 s) (by omega) (by decide) (by simpa using hl)
    (fun j hj => by
      obtain rfl : j = 0 := by omega
      rw [List.getElem?_set_self (by rw [hl]; decide)]; rfl)
  exact ⟨mt', a, b, c⟩

/-! ## The first pass -/

def mixA (p : W) : W := (p ^^^ (p >>> 30)) * 1664525#32
def mixB (p : W) : W := (p ^^^ (p >>> 30)) * 1566083941#32

/-- What the key adds in step `t`. -/
def keyAt (key : List W) (t : Nat) : W :=
  key.getD (t % key.length) 0#32 + BitVec.ofNat 32 (t % key.length)

def base : W := 19650218#32

/-- The words after the first pass (without its last step). -/
def hseq (key : List W) : Nat → W
  | 0 => gseq base 0
  | t + 1 => (gseq base (t + 1) ^^^ mixA (hseq key t)) + keyAt key t

/-- The word that the last step of the first pass writes to place 1. -/
def lastH (key : List W) : W := (hseq key 1 ^^^ mixA (hseq key (N - 1))) + keyAt key (N - 1)

theorem next_mod {L t : Nat} (hL : 0 < L) :
    (if L ≤ t % L + 1 then 0 else t % L + 1) = (t + 1) % L := by
  have hlt := Nat.mod_lt t hL
  by_cases h : L ≤ t % L + 1
  · rw [if_pos h, Nat.add_mod]
    by_cases h1 : L = 1
    · subst h1; simp [Nat.mod_one]
    · rw [Nat.mod_eq_of_lt (show 1 < L by omega), show t % L + 1 = L by omega, Nat.mod_self]
  · rw [if_neg h, ← Nat.mod_add_mod t L 1, Nat.mod_eq_of_lt (show t % L + 1 < L by omega)]

theorem key_get {key : List W} (hk : key ≠ []) (t : Nat) :
    key[t % key.length]? = some (key.getD (t % key.length) 0#32) := by
  have := Nat.mod_lt t (List.length_pos_iff.2 hk)
  rw [List.getD_eq_getElem?_getD, List.getElem?_eq_getElem this]; rfl

/-- One step of the first pass, without the end of the array. -/
theorem mixKey_step {key : List W} (hk : key ≠ []) {r t i : Nat} {mt : List W} {c p : W}
    (hc : mt[i]? = some c) (hp : mt[i - 1]? = some p) :
    mixKey key (r + 1) mt i (t % key.length) =
      (nextIndex (mt.set i ((c ^^^ mixA p) + keyAt key t)) i).bind
        (fun q => mixKey key r q.1 q.2 ((t + 1) % key.length)) := by
  rw [mixKey]
  simp only [bind, Option.bind, hc, hp, key_get hk, next_mod (List.length_pos_iff.2 hk), keyAt, mixA,
    BitVec.add_assoc]

theorem mixKey_run {key : List W} (hk : key ≠ []) (r : Nat) : ∀ (m t : Nat) (mt : List W),
    t + 1 + m ≤ N - 1 → mt.length = N →
    (∀ i < N, mt[i]? = some (if i ≤ t then hseq key i else gseq base i)) →
    ∃ mt', mixKey key (m + r) mt (t + 1) (t % key.length) =
        mixKey key r mt' (t + m + 1) ((t + m) % key.length) ∧ mt'.length = N ∧
      ∀ i < N, mt'[i]? = some (if i ≤ t + m then hseq key i else gseq base i)
  | 0, t, mt, _, hl, h => ⟨mt, by rw [Nat.zero_add, Nat.add_zero t], hl, h⟩
  | m + 1, t, mt, hm, hl, h => by
    have hN : N = 624 := rfl
    obtain ⟨mt', a, b, c⟩ := mixKey_run hk r m (t + 1) (mt.set (t + 1) (hseq key (t + 1)))
      (by omega) (by simpa using hl) (fun i hi => by
        by_cases hit : i = t + 1
        · subst hit; rw [List.getElem?_set_self (by omega), if_pos (by omega)]
        · rw [List.getElem?_set_ne (by omega), h i hi]
          by_cases hle : i ≤ t
          · rw [if_pos hle, if_pos (by omega)]
          · rw [if_neg hle, if_neg (by omega)])
    have e : t + (m + 1) = t + 1 + m := by omega
    refine ⟨mt', ?_, b, by rw [e]; exact c⟩
    have hc : mt[t + 1]? = some (gseq base (t + 1)) := by
      rw [h _ (by omega), if_neg (by omega)]
    have hp : mt[t + 1 - 1]? = some (hseq key t) := by
      rw [h _ (by omega), if_pos (by omega), Nat.add_sub_cancel]
    rw [show m + 1 + r = (m + r) + 1 by omega, mixKey_step hk hc hp, nextIndex, if_neg (by omega), e]
    exact a

/-- The state after the first pass: the words, with place 0 a copy of the last one. -/
theorem mixKey_eq {key : List W} (hk : key ≠ []) {mt : List W} (hl : mt.length = N)
    (h : ∀ i < N, mt[i]? = some (gseq base i)) :
    ∃ mt', mixKey key N mt 1 0 = some (mt', 2) ∧ mt'.length = N ∧
      mt'[1]? = some (lastH key) ∧ ∀ i, 2 ≤ i → i < N → mt'[i]? = some (hseq key i) := by
  have hN : N = 624 := rfl
  obtain ⟨m1, a, b, c⟩ := mixKey_run hk 2 (N - 2) 0 mt (by omega) hl (fun i hi => by
    rw [h i hi]
    by_cases h0 : i ≤ 0
    · obtain rfl : i = 0 := by omega
      rfl
    · rw [if_neg h0])
  rw [Nat.zero_add, Nat.zero_mod, show N - 2 + 2 = N by omega, Nat.zero_add] at a
  have c1 : ∀ i, i < N - 1 → m1[i]? = some (hseq key i) := fun i hi => by
    rw [c i (by omega), if_pos (by omega)]
  have c2 : m1[N - 2 + 1]? = some (gseq base (N - 1)) := by
    rw [show N - 2 + 1 = N - 1 by omega, c _ (by omega), if_neg (by omega)]
  have hlast : (gseq base (N - 1) ^^^ mixA (hseq key (N - 2))) + keyAt key (N - 2) = hseq key (N - 1) := by
    rfl
  rw [mixKey_step hk c2 (by rw [Nat.add_sub_cancel]; exact c1 (N - 2) (by omega)), hlast, nextIndex,
    if_pos (by omega)] at a
  have d1 : (m1.set (N - 2 + 1) (hseq key (N - 1)))[N - 1]? = some (hseq key (N - 1)) := by
    rw [show N - 2 + 1 = N - 1 by omega, List.getElem?_set_self (by omega)]
  simp only [bind, Option.bind, d1] at a
  generalize hm2 : (m1.set (N - 2 + 1) (hseq key (N - 1))).set 0 (hseq key (N - 1)) = m2 at a
  have l2 : m2.length = N := by rw [← hm2]; simpa using b
  have g0 : m2[0]? = some (hseq key (N - 1)) := by
    rw [← hm2, List.getElem?_set_self (by rw [List.length_set]; omega)]
  have gi : ∀ i, 1 ≤ i → i < N → m2[i]? = some (hseq key i) := fun i h1 h2 => by
    rw [← hm2, List.getElem?_set_ne (by omega)]
    by_cases hi : i = N - 1
    · subst hi; exact d1
    · rw [List.getElem?_set_ne (by omega)]; exact c1 i (by omega)
  have step := mixKey_step (r := 0) (t := N - 1) hk (gi 1 (by omega) (by omega)) (show m2[1 - 1]? = _ from g0)
  rw [show N - 2 + 1 = N - 1 by omega, step, nextIndex, if_neg (by omega)] at a
  refine ⟨m2.set 1 (lastH key), a, by simpa using l2, ?_, fun i h1 h2 => ?_⟩
  · rw [List.getElem?_set_self (by omega)]
  · rw [List.getElem?_set_ne (by omega)]; exact gi i (by omega) h2

/-! ## The second pass -/

/-- The word at place `k + 1` after the second pass (without its last step). -/
def eseq (key : List W) : Nat → W
  | 0 => lastH key
  | k + 1 => (hseq key (k + 2) ^^^ mixB (eseq key k)) - BitVec.ofNat 32 (k + 2)

def lastE (key : List W) : W := (eseq key 0 ^^^ mixB (eseq key (N - 2))) - 1#32

theorem mixIndex_step {r i : Nat} {mt : List W} {c p : W}
    (hc : mt[i]? = some c) (hp : mt[i - 1]? = some p) :
    mixIndex (r + 1) mt i =
      (nextIndex (mt.set i ((c ^^^ mixB p) - BitVec.ofNat 32 i)) i).bind
        (fun q => mixIndex r q.1 q.2) := by
  rw [mixIndex]
  simp only [bind, Option.bind, hc, hp, mixB]

theorem mixIndex_run (key : List W) (r : Nat) : ∀ (m k : Nat) (mt : List W),
    k + 2 + m ≤ N - 1 → mt.length = N →
    (∀ i, 1 ≤ i → i < N → mt[i]? = some (if i ≤ k + 1 then eseq key (i - 1) else hseq key i)) →
    ∃ mt', mixIndex (m + r) mt (k + 2) = mixIndex r mt' (k + m + 2) ∧ mt'.length = N ∧
      ∀ i, 1 ≤ i → i < N → mt'[i]? = some (if i ≤ k + m + 1 then eseq key (i - 1) else hseq key i)
  | 0, k, mt, _, hl, h => ⟨mt, by rw [Nat.zero_add, Nat.add_zero], hl, h⟩
  | m + 1, k, mt, hm, hl, h => by
    have hN : N = 624 := rfl
    obtain ⟨mt', a, b, c⟩ := mixIndex_run key r m (k + 1) (mt.set (k + 2) (eseq key (k + 1)))
      (by omega) (by simpa using hl) (fun i h1 hi => by
        by_cases hit : i = k + 2
        · subst hit
          rw [List.getElem?_set_self (by omega), if_pos (by omega)]; rfl
        · rw [List.getElem?_set_ne (by omega), h i h1 hi]
          by_cases hle : i ≤ k + 1
          · rw [if_pos hle, if_pos (by omega)]
          · rw [if_neg hle, if_neg (by omega)])
    have e : k + (m + 1) = k + 1 + m := by omega
    refine ⟨mt', ?_, b, by rw [e]; exact c⟩
    have hc : mt[k + 2]? = some (hseq key (k + 2)) := by
      rw [h _ (by omega) (by omega), if_neg (by omega)]
    have hp : mt[k + 2 - 1]? = some (eseq key k) := by
      rw [h _ (by omega) (by omega), if_pos (by omega)]; rfl
    rw [show m + 1 + r = (m + r) + 1 by omega, mixIndex_step hc hp, nextIndex, if_neg (by omega), e]
    exact a

theorem mixIndex_eq (key : List W) {mt : List W} (hl : mt.length = N)
    (h1 : mt[1]? = some (lastH key)) (h : ∀ i, 2 ≤ i → i < N → mt[i]? = some (hseq key i)) :
    ∃ mt', mixIndex (N - 1) mt 2 = some mt' ∧ mt'.length = N ∧ mt'[1]? = some (lastE key) ∧
      ∀ i, 2 ≤ i → i < N → mt'[i]? = some (eseq key (i - 1)) := by
  have hN : N = 624 := rfl
  obtain ⟨m1, a, b, c⟩ := mixIndex_run key 2 (N - 3) 0 mt (by omega) hl (fun i hi1 hi => by
    by_cases h0 : i = 1
    · subst h0; rw [h1]; rfl
    · rw [h i (by omega) hi, if_neg (by omega)])
  rw [show N - 3 + 2 = N - 1 by omega, Nat.zero_add, Nat.zero_add] at a
  have c1 : m1[N - 3 + 2]? = some (hseq key (N - 1)) := by
    rw [c _ (by omega) (by omega), if_neg (by omega)]; rfl
  have c0 : m1[N - 3 + 2 - 1]? = some (eseq key (N - 3)) := by
    rw [c _ (by omega) (by omega), if_pos (by omega)]; rfl
  have hlast : (hseq key (N - 1) ^^^ mixB (eseq key (N - 3))) - BitVec.ofNat 32 (N - 3 + 2) =
      eseq key (N - 2) := rfl
  rw [show N - 3 + 2 = N - 1 from rfl] at a c1 c0 hlast
  rw [mixIndex_step c1 c0, hlast, nextIndex, if_pos (by omega)] at a
  have d1 : (m1.set (N - 1) (eseq key (N - 2)))[N - 1]? = some (eseq key (N - 2)) := by
    rw [List.getElem?_set_self (by omega)]
  simp only [bind, Option.bind, d1] at a
  generalize hm2 : (m1.set (N - 1) (eseq key (N - 2))).set 0 (eseq key (N - 2)) = m2 at a
  have l2 : m2.length = N := by rw [← hm2]; simpa using b
  have g0 : m2[0]? = some (eseq key (N - 2)) := by
    rw [← hm2, List.getElem?_set_self (by rw [List.length_set]; omega)]
  have gi : ∀ i, 1 ≤ i → i < N → m2[i]? = some (eseq key (i - 1)) := fun i h1 h2 => by
    rw [← hm2, List.getElem?_set_ne (by omega)]
    by_cases hi : i = N - 1
    · subst hi; exact d1
    · rw [List.getElem?_set_ne (by omega), c i h1 h2, if_pos (by omega)]
  rw [mixIndex_step (r := 0) (gi 1 (by omega) (by omega)) (show m2[1 - 1]? = _ from g0), nextIndex,
    if_neg (by omega)] at a
  refine ⟨m2.set 1 (lastE key), a, by simpa using l2, ?_, fun i h1 h2 => ?_⟩
  · rw [List.getElem?_set_self (by omega)]
  · rw [List.getElem?_set_ne (by omega)]; exact gi i (by omega) h2

/-! ## The seeded state -/

/-- The words of the seeded state. -/
def seeded (key : List W) (i : Nat) : W :=
  if i = 0 then 0x80000000#32 else if i = 1 then lastE key else eseq key (i - 1)

theorem initByArray_eq {mt key : List W} (hl : mt.length = N) (hk : key ≠ [])
    (hkl : key.length ≤ N) :
    initByArray mt key = some ⟨N, (List.range N).map (seeded key)⟩ := by
  have hN : N = 624 := rfl
  obtain ⟨m1, a1, b1, c1⟩ := initGenrand_eq hl base
  obtain ⟨m2, a2, b2, c2, d2⟩ := mixKey_eq hk b1 c1
  obtain ⟨m3, a3, b3, c3, d3⟩ := mixIndex_eq key b2 c2 d2
  have hk' : (if key.length < N then N else key.length) = N := by split <;> omega
  unfold initByArray
  rw [show (19650218#32 : W) = base from rfl, a1]
  simp only [bind, Option.bind, hk', a2, a3]
  have : m3.set 0 0x80000000#32 = (List.range N).map (seeded key) := ?_
  · rw [this]
  apply List.ext_getElem?
  intro i
  by_cases hi : i < N
  · rw [List.getElem?_map, List.getElem?_range hi]
    by_cases h0 : i = 0
    · subst h0; rw [List.getElem?_set_self (by omega)]; rfl
    · rw [List.getElem?_set_ne (by omega)]
      by_cases h1 : i = 1
      · subst h1; exact c3
      · rw [d3 i (by omega) hi]
        simp only [Option.map, seeded, if_neg h0, if_neg h1]
  · rw [List.getElem?_eq_none (by rw [List.length_set]; omega),
      List.getElem?_eq_none (by simp; omega)]

/-- The generator that a key leads to. -/
def seededGen (key : List W) : Gen := ⟨N, (List.range N).map (seeded key)⟩

theorem seededGen_good (key : List W) : Good (seededGen key) := ⟨by simp [seededGen], Nat.le_refl _⟩

theorem seededGen_word (key : List W) {i : Nat} (h : i < N) :
    (seededGen key).mt[i]? = some (seeded key i) := by
  simp only [seededGen]
  rw [List.getElem?_map, List.getElem?_range h]; rfl

theorem seedKey_ne (n : Int) : seedKey n ≠ [] := by
  unfold seedKey; dsimp only; split <;> simp

theorem seedKey_le (n : Int) : (seedKey n).length ≤ 2 := by
  unfold seedKey; dsimp only; split <;> simp

/-! ## Computing back -/

theorem xor_cancel {a b c : W} (h : a ^^^ c = b ^^^ c) : a = b := by
  have := congrArg (fun w => w ^^^ c) h
  simpa [BitVec.xor_assoc] using this

theorem add_cancel {a b c : W} (h : a + c = b + c) : a = b := by
  have := congrArg (fun w => w - c) h
  simpa [BitVec.add_sub_cancel] using this

theorem sub_cancel {a b c : W} (h : a - c = b - c) : a = b := by
  have := congrArg (fun w => w + c) h
  simpa [BitVec.sub_add_cancel] using this

theorem add_cancel_left {a b c : W} (h : c + a = c + b) : a = b := by
  rw [BitVec.add_comm c a, BitVec.add_comm c b] at h
  exact add_cancel h

/-- The words from place 2 on determine what the key adds in the steps from 2 on. -/
theorem seeded_keyAt {k1 k2 : List W} (h : ∀ i, 1 ≤ i → i < N → seeded k1 i = seeded k2 i) :
    ∀ t, 2 ≤ t → t < N - 1 → keyAt k1 t = keyAt k2 t := by
  have hN : N = 624 := rfl
  have he : ∀ k, 1 ≤ k → k ≤ N - 2 → eseq k1 k = eseq k2 k := by
    intro k h1 h2
    have := h (k + 1) (by omega) (by omega)
    simpa only [seeded, if_neg (show ¬ k + 1 = 0 by omega), if_neg (show ¬ k + 1 = 1 by omega),
      Nat.add_sub_cancel] using this
  have he0 : eseq k1 0 = eseq k2 0 := by
    have := h 1 (by omega) (by omega)
    simp only [seeded, if_neg (show ¬ 1 = 0 by omega), if_true, lastE,
      he (N - 2) (by omega) (Nat.le_refl _)] at this
    exact xor_cancel (sub_cancel this)
  have he' : ∀ k, k ≤ N - 2 → eseq k1 k = eseq k2 k := by
    intro k hk
    cases k with
    | zero => exact he0
    | succ k => exact he _ (by omega) hk
  have hh : ∀ i, 2 ≤ i → i < N → hseq k1 i = hseq k2 i := by
    intro i h1 h2
    obtain ⟨k, rfl⟩ : ∃ k, i = k + 2 := ⟨i - 2, by omega⟩
    have := he' (k + 1) (by omega)
    simp only [eseq, he' k (by omega)] at this
    exact xor_cancel (sub_cancel this)
  intro t h1 h2
  have := hh (t + 1) (by omega) (by omega)
  simp only [hseq, hh t h1 (by omega)] at this
  exact add_cancel_left this

/-- Keys of the same length lead to different states. -/
theorem seeded_inj {k1 k2 : List W} (hne : k1 ≠ []) (hl : k1.length = k2.length)
    (hlen : k1.length ≤ 200) (h : ∀ i, 1 ≤ i → i < N → seeded k1 i = seeded k2 i) : k1 = k2 := by
  have hN : N = 624 := rfl
  have hL := List.length_pos_iff.2 hne
  apply List.ext_getElem hl
  intro j hj1 hj2
  have hmod : (j + 2 * k1.length) % k1.length = j := by
    rw [Nat.add_mul_mod_self_right, Nat.mod_eq_of_lt hj1]
  have := seeded_keyAt h (j + 2 * k1.length) (by omega) (by omega)
  simp only [keyAt, ← hl, hmod] at this
  have := add_cancel this
  rwa [List.getD_eq_getElem?_getD, List.getD_eq_getElem?_getD, List.getElem?_eq_getElem hj1,
    List.getElem?_eq_getElem hj2] at this

/-- The 19937 bits determine the rest for states with the same first word. -/
theorem words_determine_key {k1 k2 : List W}
    (h : ∀ n, (words n (seededGen k1)).map Prod.fst = (words n (seededGen k2)).map Prod.fst) :
    ∀ i, 1 ≤ i → i < N → seeded k1 i = seeded k2 i := by
  have g1 := good_at (seededGen_good k1)
  have g2 := good_at (seededGen_good k2)
  have hx1 := extend_rec (seededGen k1).mt
  have hx2 := extend_rec (seededGen k2).mt
  have hw : ∀ k < N, temper (extend (seededGen k1).mt (N + k)) =
      temper (extend (seededGen k2).mt (N + k)) := by
    intro k hk
    obtain ⟨_, a1, _⟩ := words_at hx1 N N _ g1
    obtain ⟨_, a2, _⟩ := words_at hx2 N N _ g2
    have := h N
    rw [a1, a2] at this
    have := congrArg (fun l => l[k]?) (Option.some.inj this)
    simp only [List.getElem?_map, List.getElem?_range hk, Option.map] at this
    exact Option.some.inj this
  have heq := outputs_determine hx1 hx2 hw
  have hs : SameState (extend (seededGen k1).mt) (extend (seededGen k2).mt) N :=
    ⟨by have := heq 0; rw [Nat.add_zero] at this; rw [this], fun k _ _ => heq k⟩
  have h0 := sameState_first hx1 hx2 N hs
  intro i h1 h2
  have e1 := extend_of_lt (seededGen_good k1).size h2
  have e2 := extend_of_lt (seededGen_good k2).size h2
  rw [seededGen_word _ h2] at e1 e2
  have := h0.2 i h1 h2
  rw [Nat.zero_add] at this
  rw [Option.some.inj e1, Option.some.inj e2, this]

end Verif.Random
